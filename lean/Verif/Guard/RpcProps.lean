/-
C94, C95, C96: the serviceguard client against arbitrary, honest and unreliable servers.
-/
import Verif.Guard.Rpc
import Verif.Guard.TokenProps

namespace Verif.Guard.Rpc
open Verif.Util (hex)
open Verif.Mix (unhex fix32 Ans isReplay replayPrefix atoi atoiDigits)
open Verif.Guard.Client
open Verif.Json (jnat)

/-! ### specification: servers -/

/-- A wallet server: the counter of the last accepted call, and the calls it processed with their
answers; each processed call is charged. -/
structure Srv where
  last : UInt64
  done : List (Bytes × Answer)

/-- An honest wallet server. A token it has processed gets the same answer again (the call caching
client.go:36 refers to). Otherwise a token without valid counter is refused, one with an old counter
gets a replay error with the last counter, and any other is processed and charged: it gets the next
reply. -/
def honest (counter : Bytes → Option UInt64) (issue : Nat → Reply) (s : Srv) (t : Bytes) : Srv × Answer :=
  match s.done.find? (fun d => d.1 == t) with
  | some d => (s, d.2)
  | none => match counter t with
    | none => (s, .err (txt "walletserver: bad token"))
    | some c =>
      if s.last < c then (⟨c, (t, .data (issue s.done.length)) :: s.done⟩, .data (issue s.done.length))
      else (s, .err (replayPrefix ++ jnat s.last.toNat))

/-- What such a server can have in store. -/
structure Srv.OK (counter : Bytes → Option UInt64) (issue : Nat → Reply) (s : Srv) : Prop where
  counters : ∀ d ∈ s.done, ∃ c, counter d.1 = some c ∧ c ≤ s.last
  answers : ∀ d ∈ s.done, ∃ n, d.2 = .data (issue n)

/-- What the network does to a request. -/
inductive Fate
  | ok | lostRequest | lostAnswer
  deriving DecidableEq, Repr

/-- The error of a lost request or answer. -/
def lost : Bytes := txt "connection reset by peer"

/-- A server behind an unreliable network; `fate n` is what happens to the n-th request. -/
def network {σ : Type} (fate : Nat → Fate) (srv : σ → Bytes → σ × Answer) (s : σ × Nat) (t : Bytes) : (σ × Nat) × Answer :=
  match fate s.2 with
  | .ok => (((srv s.1 t).1, s.2 + 1), (srv s.1 t).2)
  | .lostRequest => ((s.1, s.2 + 1), .err lost)
  | .lostAnswer => (((srv s.1 t).1, s.2 + 1), .err lost)

/-! ### C94 number of requests -/

section
variable {σ α : Type} (srv : σ → Bytes → σ × Answer) (mk : Nat → UInt64 → Bytes) (fields : Reply → Res Bytes α)

theorem callLoop_sent (i : Nat) (w : World σ) (c : WC) (last : UInt64) :
    ∃ ts, (callLoop srv mk fields i w c last).1.sent = w.sent ++ ts ∧ 1 ≤ ts.length ∧ ts.length ≤ i + 1 ∧
      ∀ t, c.lastToken = some t → ∀ x ∈ ts, x = t := by
  induction i generalizing w c last with
  | zero =>
    unfold callLoop
    have h1 : (nextToken mk w c last).1.sent = w.sent := by unfold nextToken; split <;> rfl
    have h2 : ∀ t, c.lastToken = some t → (nextToken mk w c last).2 = t := by
      intro t ht; unfold nextToken; rw [ht]
    generalize nextToken mk w c last = nt at h1 h2
    obtain ⟨w1, t1⟩ := nt
    simp only at h1 h2 ⊢
    have h3 : (request srv fields w1 t1).1.sent = w.sent ++ [t1] := by simp [request, h1]
    generalize request srv fields w1 t1 = rq at h3
    obtain ⟨w2, r⟩ := rq
    simp only at h3
    have base : ∃ ts, w2.sent = w.sent ++ ts ∧ 1 ≤ ts.length ∧ ts.length ≤ 0 + 1 ∧
        ∀ t, c.lastToken = some t → ∀ x ∈ ts, x = t :=
      ⟨[t1], h3, by simp, by simp, fun t ht x hx => by rw [List.mem_singleton.mp hx]; exact h2 t ht⟩
    cases r with
    | ok a => cases a <;> exact base
    | err e => exact base
    | panic => exact base
  | succ i ih =>
    unfold callLoop
    have h1 : (nextToken mk w c last).1.sent = w.sent := by unfold nextToken; split <;> rfl
    have h2 : ∀ t, c.lastToken = some t → (nextToken mk w c last).2 = t := by
      intro t ht; unfold nextToken; rw [ht]
    generalize nextToken mk w c last = nt at h1 h2
    obtain ⟨w1, t1⟩ := nt
    simp only at h1 h2 ⊢
    have h3 : (request srv fields w1 t1).1.sent = w.sent ++ [t1] := by simp [request, h1]
    generalize request srv fields w1 t1 = rq at h3
    obtain ⟨w2, r⟩ := rq
    simp only at h3
    have base : ∃ ts, w2.sent = w.sent ++ ts ∧ 1 ≤ ts.length ∧ ts.length ≤ i + 1 + 1 ∧
        ∀ t, c.lastToken = some t → ∀ x ∈ ts, x = t :=
      ⟨[t1], h3, by simp, by simp, fun t ht x hx => by rw [List.mem_singleton.mp hx]; exact h2 t ht⟩
    cases r with
    | ok a =>
      cases a with
      | replay l =>
        simp only
        obtain ⟨ts, e1, e2, e3, e4⟩ := ih w2 { c with lastCounter := l } l
        refine ⟨t1 :: ts, by rw [e1, h3]; simp, by simp, by simp; omega, ?_⟩
        intro t ht x hx
        rcases List.mem_cons.mp hx with rfl | hx
        · exact h2 t ht
        · exact e4 t ht x hx
      | ok a => exact base
      | err e => exact base
    | err e => exact base
    | panic => exact base

/-- C94: whatever the server answers, a call sends one to four requests; with a kept authentication
token all of them carry that token. -/
theorem C94_requests (w : World σ) (c : WC) :
    ∃ ts, (walletCall srv mk fields w c).1.sent = w.sent ++ ts ∧ 1 ≤ ts.length ∧ ts.length ≤ 4 ∧
      ∀ t, c.lastToken = some t → ∀ x ∈ ts, x = t := callLoop_sent srv mk fields 3 w c c.lastCounter
end

/-! ### C94 an honest server -/

theorem digits_fold (l : Bytes) (a : Nat) (h : ∀ c ∈ l, Json.isDigit c = true) :
    l.foldl (fun a d => a.bind fun n => if 48 ≤ d ∧ d ≤ 57 then some (n * 10 + (d.toNat - 48)) else none) (some a) =
      some (l.foldl (fun a d => 10 * a + (d.toNat - 48)) a) := by
  induction l generalizing a with
  | nil => rfl
  | cons c l ih =>
    have hc := h c List.mem_cons_self
    simp only [Json.isDigit, Bool.and_eq_true, decide_eq_true_eq] at hc
    simp only [List.foldl_cons, Option.bind_some, if_pos hc]
    rw [ih _ fun x hx => h x (List.mem_cons_of_mem _ hx), Nat.mul_comm]

theorem atoi_jnat (n : Nat) (h : n < 2 ^ 63) : atoi (jnat n) = some (n : Int) := by
  have hd := Json.jnat_digits n
  have ho := Json.ofDigits_jnat n
  have hn := Json.jnat_ne_nil n
  generalize jnat n = l at *
  cases l with
  | nil => exact absurd rfl hn
  | cons c l =>
    have hc := hd c List.mem_cons_self
    have e : atoiDigits (c :: l) = some n := by
      have := digits_fold _ 0 hd
      rw [← ho]
      exact this
    unfold atoi
    split
    · rename_i heq; cases heq; simp [Json.isDigit] at hc
    · rename_i heq; cases heq; simp [Json.isDigit] at hc
    · rw [e]; simp only [Option.bind_some, if_pos h]

theorem isReplay_text (l : UInt64) (h : l.toNat < 2 ^ 63) :
    isReplay (replayPrefix ++ jnat l.toNat) = .ok (.replay l) := by
  have hl : replayPrefix.length = 11 := rfl
  unfold isReplay
  rw [if_neg (by rw [List.length_append, hl]; omega), if_pos (by rw [← hl, List.take_left]),
    ← hl, List.drop_left, atoi_jnat _ h]
  simp only [Res.ok.injEq, Ans.replay.injEq]
  rw [UInt64.ofInt, show (l.toNat : Int) % 2 ^ 64 = l.toNat by have := l.toNat_lt; omega]
  simp

section
variable {α : Type} {counter : Bytes → Option UInt64} {issue : Nat → Reply} {mk : Nat → UInt64 → Bytes}
  {fields : Reply → Res Bytes α} {tok : Nat → α}

theorem find_none {s : Srv} (hs : s.OK counter issue) {t : Bytes} {c : UInt64} (hc : counter t = some c) (h : s.last < c) :
    s.done.find? (fun d => d.1 == t) = none := by
  rw [List.find?_eq_none]
  intro d hd he
  obtain ⟨c', h1, h2⟩ := hs.counters d hd
  rw [beq_iff_eq.mp he, hc] at h1
  cases h1
  exact absurd h2 (UInt64.not_le.mpr h)

/-- The server after charging a call. -/
def Srv.charge (issue : Nat → Reply) (s : Srv) (t : Bytes) (c : UInt64) : Srv :=
  ⟨c, (t, .data (issue s.done.length)) :: s.done⟩

theorem honest_new {s : Srv} (hs : s.OK counter issue) {t : Bytes} {c : UInt64} (hc : counter t = some c) (h : s.last < c) :
    honest counter issue s t = (s.charge issue t c, .data (issue s.done.length)) := by
  unfold honest
  rw [find_none hs hc h, hc]
  simp only [if_pos h]
  rfl

theorem honest_again (s : Srv) (t : Bytes) (c : UInt64) :
    honest counter issue (s.charge issue t c) t = (s.charge issue t c, .data (issue s.done.length)) := by
  simp [honest, Srv.charge]

theorem charge_ok {s : Srv} (hs : s.OK counter issue) {t : Bytes} {c : UInt64} (hc : counter t = some c) (h : s.last < c) :
    (s.charge issue t c).OK counter issue := by
  refine ⟨?_, ?_⟩
  · intro d hd
    rcases List.mem_cons.mp hd with rfl | hd
    · exact ⟨c, hc, UInt64.le_refl _⟩
    · obtain ⟨c', h1, h2⟩ := hs.counters d hd
      exact ⟨c', h1, UInt64.le_trans h2 (UInt64.le_of_lt h)⟩
  · intro d hd
    rcases List.mem_cons.mp hd with rfl | hd
    · exact ⟨_, rfl⟩
    · exact hs.answers d hd

/-- The server has not seen the tokens to come. -/
def Unseen (mk : Nat → UInt64 → Bytes) (s : Srv) (made : Nat) : Prop :=
  ∀ d ∈ s.done, ∀ n c, made ≤ n → d.1 ≠ mk n c

theorem honest_old {s : Srv} {t : Bytes} {c : UInt64} (hn : ∀ d ∈ s.done, d.1 ≠ t) (hc : counter t = some c) (h : ¬s.last < c) :
    honest counter issue s t = (s, .err (replayPrefix ++ jnat s.last.toNat)) := by
  unfold honest
  rw [List.find?_eq_none.mpr (fun d hd he => hn d hd (beq_iff_eq.mp he)), hc]
  simp only [if_neg h]

theorem answered_replay (fields : Reply → Res Bytes α) {l : UInt64} (h : l.toNat < 2 ^ 63) :
    answered fields (.err (replayPrefix ++ jnat l.toNat)) = .ok (.replay l) := by
  simp only [answered, isReplay_text l h]

theorem answered_data {r : Reply} {a : α} (h : fields r = .ok a) : answered fields (.data r) = .ok (.ok a) := by
  simp only [answered, h]

theorem request_eq {σ : Type} {srv : σ → Bytes → σ × Answer} {w : World σ} {t : Bytes} {s' : σ} {x : Answer}
    (h : srv w.srv t = (s', x)) : request srv fields w t = (⟨s', w.sent ++ [t], w.made⟩, answered fields x) := by
  simp only [request, h]

/-- With a new token the call succeeds after at most one replay error. -/
theorem call_fresh (hmk : ∀ n c, counter (mk n c) = some c) (hinj : ∀ m n c d, mk m c = mk n d → m = n)
    (htok : ∀ n, fields (issue n) = .ok (tok n)) {w : World Srv} (hs : w.srv.OK counter issue)
    (hl : w.srv.last.toNat < 2 ^ 63 - 1) (hu : Unseen mk w.srv w.made) (lc : UInt64) :
    ∃ w' c', walletCall (honest counter issue) mk fields w ⟨lc, none⟩ = (w', c', .ok (.ok (tok w.srv.done.length))) ∧
      w'.srv.OK counter issue ∧ w'.srv.done.length = w.srv.done.length + 1 ∧ Unseen mk w'.srv w'.made := by
  have key : ∀ i (w : World Srv) (c : WC) (last : UInt64), c.lastToken = none → w.srv.OK counter issue → w.srv.last < last + 1 →
      Unseen mk w.srv w.made →
      ∃ w' c', callLoop (honest counter issue) mk fields i w c last = (w', c', .ok (.ok (tok w.srv.done.length))) ∧
        w'.srv.OK counter issue ∧ w'.srv.done.length = w.srv.done.length + 1 ∧ Unseen mk w'.srv w'.made := by
    intro i w c last hc hs hlt hu
    have e := honest_new hs (hmk w.made (last + 1)) hlt
    unfold callLoop
    simp only [nextToken, hc]
    rw [request_eq (by exact e), answered_data (htok _)]
    refine ⟨_, _, rfl, charge_ok hs (hmk _ _) hlt, rfl, ?_⟩
    intro d hd n c' hn he
    rcases List.mem_cons.mp hd with rfl | hd
    · have := hinj _ _ _ _ he
      simp only at hn
      omega
    · exact hu d hd n c' (by simp only at hn; omega) he
  by_cases hlt : w.srv.last < lc + 1
  · exact key 3 w ⟨lc, none⟩ lc rfl hs hlt hu
  · unfold walletCall callLoop
    have e := honest_old (issue := issue) (fun d hd => hu d hd w.made (lc + 1) (Nat.le_refl _)) (hmk w.made (lc + 1)) hlt
    simp only [nextToken]
    rw [request_eq (by exact e), answered_replay _ (by omega)]
    refine key 2 ⟨w.srv, _, _⟩ ⟨w.srv.last, none⟩ w.srv.last rfl hs ?_ ?_
    · rw [UInt64.lt_iff_toNat_lt, UInt64.toNat_add, show (1 : UInt64).toNat = 1 from rfl]
      show w.srv.last.toNat < _
      omega
    · intro d hd n c hn
      exact hu d hd n c (by simp only at hn; omega)

/-- With a kept token that the server has processed or accepts, the call succeeds; otherwise the
token is kept, and the server is unchanged. -/
theorem call_kept (htok : ∀ n, fields (issue n) = .ok (tok n)) {w : World Srv} (hs : w.srv.OK counter issue)
    (hl : w.srv.last.toNat < 2 ^ 63 - 1) {t : Bytes} {c : UInt64} (ht : counter t = some c) (lc : UInt64) :
    (∃ w' c' a, walletCall (honest counter issue) mk fields w ⟨lc, some t⟩ = (w', c', .ok (.ok a))) ∨
    ∃ sent, walletCall (honest counter issue) mk fields w ⟨lc, some t⟩ =
      (⟨w.srv, sent, w.made⟩, ⟨w.srv.last, some t⟩, .ok (.replay w.srv.last)) := by
  cases hd : w.srv.done.find? (fun d => d.1 == t) with
  | some d =>
    left
    obtain ⟨n, hn⟩ := hs.answers d (List.mem_of_find?_eq_some hd)
    have e : honest counter issue w.srv t = (w.srv, .data (issue n)) := by unfold honest; rw [hd, ← hn]
    unfold walletCall callLoop
    simp only [nextToken]
    rw [request_eq (by exact e), answered_data (htok _)]
    exact ⟨_, _, _, rfl⟩
  | none =>
    by_cases hlt : w.srv.last < c
    · left
      have e := honest_new hs ht hlt
      unfold walletCall callLoop
      simp only [nextToken]
      rw [request_eq (by exact e), answered_data (htok _)]
      exact ⟨_, _, _, rfl⟩
    · right
      have e := honest_old (issue := issue) (fun d' hd' he => by
        have := List.find?_eq_none.mp hd d' hd'
        simp [he] at this) ht hlt
      have loop : ∀ i (lc : UInt64) (sent : List Bytes), ∃ sent',
          callLoop (honest counter issue) mk fields i ⟨w.srv, sent, w.made⟩ ⟨lc, some t⟩ lc =
            (⟨w.srv, sent', w.made⟩, ⟨w.srv.last, some t⟩, .ok (.replay w.srv.last)) := by
        intro i
        induction i with
        | zero =>
          intro lc sent
          unfold callLoop
          simp only [nextToken]
          rw [request_eq (by exact e), answered_replay _ (by omega)]
          exact ⟨_, rfl⟩
        | succ i ih =>
          intro lc sent
          unfold callLoop
          simp only [nextToken]
          rw [request_eq (by exact e), answered_replay _ (by omega)]
          exact ih w.srv.last _
      exact loop 3 lc w.sent

/-! ### C94 recovery -/

theorem get_set (k : CacheStore) (t : Option Bytes) (n : Int) :
    (k.setAuthToken t n).getAuthToken = (k.setAuthToken t n, (t, n)) := rfl

theorem cached_set (k : CacheStore) (t : Option Bytes) (n : Int) :
    cachedToken (k.setAuthToken t n) = if n > 3 then (none, 0) else (t, n) := by
  simp only [cachedToken, get_set, authTokenRetry]
  by_cases h : n > 3 <;> simp only [h, if_true, if_false]

theorem recover_fresh (hmk : ∀ n c, counter (mk n c) = some c) (hinj : ∀ m n c d, mk m c = mk n d → m = n)
    (htok : ∀ n, fields (issue n) = .ok (tok n)) {w : World Srv} (hs : w.srv.OK counter issue)
    (hl : w.srv.last.toNat < 2 ^ 63 - 1) (hu : Unseen mk w.srv w.made) {c : Wallet} (hon : c.online = true)
    (hc : (cachedToken c.cache).1 = none) :
    ∃ w' c', fromWallet (honest counter issue) mk fields w c = (w', c', .ok (tok w.srv.done.length)) ∧
      w'.srv.done.length = w.srv.done.length + 1 := by
  obtain ⟨w', r', e, -, hlen, -⟩ := call_fresh hmk hinj htok hs hl hu (c.rpc.getD ⟨0, none⟩).lastCounter
  unfold fromWallet
  simp only [hon, if_true, hc, e]
  exact ⟨_, _, rfl, hlen⟩

/-- C94: whatever authentication counter, cached authentication token and number of tries the client
has, calls to an honest server whose counter is in the range of int64 get a token after at most four
failed calls. -/
theorem C94_recovers (hmk : ∀ n c, counter (mk n c) = some c) (hinj : ∀ m n c d, mk m c = mk n d → m = n)
    (htok : ∀ n, fields (issue n) = .ok (tok n)) (w : World Srv) (hs : w.srv.OK counter issue)
    (hl : w.srv.last.toNat < 2 ^ 63 - 1) (hu : Unseen mk w.srv w.made) (c : Wallet) (hon : c.online = true)
    (hc : ∀ t, c.cache.getAuthToken.2.1 = some t → ∃ n, counter t = some n) (htries : 0 ≤ c.cache.getAuthToken.2.2) :
    ∃ k a, k ≤ 4 ∧ (calls (honest counter issue) mk fields 5 w c).2.2[k]? = some (.ok a) ∧
      ∀ j < k, (calls (honest counter issue) mk fields 5 w c).2.2[j]? = some (.err .retry) := by
  have main : ∀ (m : Nat) (w : World Srv) (c : Wallet), w.srv.OK counter issue → w.srv.last.toNat < 2 ^ 63 - 1 →
      Unseen mk w.srv w.made → c.online = true → (∀ t, c.cache.getAuthToken.2.1 = some t → ∃ n, counter t = some n) →
      0 ≤ c.cache.getAuthToken.2.2 → 4 - (m : Int) ≤ c.cache.getAuthToken.2.2 →
      ∃ k a, k ≤ m ∧ (calls (honest counter issue) mk fields (m + 1) w c).2.2[k]? = some (.ok a) ∧
        ∀ j < k, (calls (honest counter issue) mk fields (m + 1) w c).2.2[j]? = some (.err .retry) := by
    intro m
    induction m with
    | zero =>
      intro w c hs hl hu hon hc h0 hm
      have hnone : (cachedToken c.cache).1 = none := by
        unfold cachedToken authTokenRetry
        simp only
        have h4 : c.cache.getAuthToken.2.2 > 3 := by omega
        rw [if_pos h4]
      obtain ⟨w', c', e, -⟩ := recover_fresh hmk hinj htok hs hl hu hon hnone
      exact ⟨0, _, by omega, by simp only [calls, e]; rfl, fun j hj => by omega⟩
    | succ m ih =>
      intro w c hs hl hu hon hc h0 hm
      cases ht : (cachedToken c.cache).1 with
      | none =>
        obtain ⟨w', c', e, -⟩ := recover_fresh hmk hinj htok hs hl hu hon ht
        refine ⟨0, tok w.srv.done.length, by omega, ?_, fun j hj => by omega⟩
        unfold calls
        simp only [e, List.getElem?_cons_zero]
      | some t =>
        have hn : ¬c.cache.getAuthToken.2.2 > 3 := by
          intro hgt
          unfold cachedToken authTokenRetry at ht
          simp only at ht
          rw [if_pos hgt] at ht
          cases ht
        have htc : cachedToken c.cache = c.cache.getAuthToken.2 := by
          unfold cachedToken authTokenRetry
          simp only
          rw [if_neg hn]
        rw [htc] at ht
        obtain ⟨n, hcn⟩ := hc t ht
        rcases call_kept (mk := mk) htok hs hl hcn (c.rpc.getD ⟨0, none⟩).lastCounter with ⟨w', c', a, e⟩ | ⟨sent, e⟩
        · refine ⟨0, a, by omega, ?_, fun j hj => by omega⟩
          unfold calls
          have : fromWallet (honest counter issue) mk fields w c =
              (w', { c with rpc := some c', cache := c.cache.getAuthToken.1.setAuthToken none 0 }, .ok a) := by
            unfold fromWallet
            simp only [hon, if_true, htc, ht, e]
          simp only [this, List.getElem?_cons_zero]
        · have e1 : fromWallet (honest counter issue) mk fields w c =
              (⟨w.srv, sent, w.made⟩, { c with
                rpc := some ⟨w.srv.last, some t⟩,
                cache := c.cache.getAuthToken.1.setAuthToken (some t) (c.cache.getAuthToken.2.2 + 1) }, .err .retry) := by
            unfold fromWallet
            simp only [hon, if_true, htc, ht, e]
          obtain ⟨k, a, hk, h1, h2⟩ := ih ⟨w.srv, sent, w.made⟩ { c with
                rpc := some ⟨w.srv.last, some t⟩,
                cache := c.cache.getAuthToken.1.setAuthToken (some t) (c.cache.getAuthToken.2.2 + 1) } hs hl hu hon
            (fun t' ht' => by
              rw [get_set] at ht'
              simp only [Option.some.injEq] at ht'
              exact ht' ▸ ⟨n, hcn⟩) (by rw [get_set]; simp only; omega) (by rw [get_set]; simp only; omega)
          refine ⟨k + 1, a, by omega, ?_, ?_⟩
          · unfold calls
            simp only [e1, List.getElem?_cons_succ]
            exact h1
          · intro j hj
            unfold calls
            simp only [e1]
            cases j with
            | zero => simp
            | succ j => simpa using h2 j (by omega)
  exact main 4 w c hs hl hu hon hc htries (by omega)

/-! ### C94 faults -/

theorem answered_lost : answered fields (.err lost) = .ok (.err lost) := by
  have : isReplay lost = .ok (.err lost) := by decide +kernel
  simp only [answered, this]

theorem lost_not_fatal : isFatal lost = false := by decide +kernel

/-- One request with the token `t` with which `s0` makes a charge, which it may have made. -/
theorem request_net {fate : Nat → Fate} (htok : ∀ n, fields (issue n) = .ok (tok n)) {s0 : Srv} (hs : s0.OK counter issue)
    {t : Bytes} {n : UInt64} (hn : counter t = some n) (hlt : s0.last < n) {w : World (Srv × Nat)}
    (hw : w.srv.1 = s0 ∨ w.srv.1 = s0.charge issue t n) :
    (fate w.srv.2 = .ok → request (network fate (honest counter issue)) fields w t =
      (⟨(s0.charge issue t n, w.srv.2 + 1), w.sent ++ [t], w.made⟩, .ok (.ok (tok s0.done.length)))) ∧
    (fate w.srv.2 ≠ .ok → ∃ s1, (s1 = s0 ∨ s1 = s0.charge issue t n) ∧
      (fate w.srv.2 = .lostAnswer → s1 = s0.charge issue t n) ∧
      request (network fate (honest counter issue)) fields w t =
        (⟨(s1, w.srv.2 + 1), w.sent ++ [t], w.made⟩, .ok (.err lost))) := by
  have e : honest counter issue w.srv.1 t = (s0.charge issue t n, .data (issue s0.done.length)) := by
    rcases hw with hw | hw <;> rw [hw]
    · exact honest_new hs hn hlt
    · exact honest_again ..
  refine ⟨fun hf => ?_, fun hf => ?_⟩
  · have : network fate (honest counter issue) w.srv t =
        ((s0.charge issue t n, w.srv.2 + 1), .data (issue s0.done.length)) := by unfold network; rw [hf, e]
    rw [request_eq this, answered_data (htok _)]
  · cases hfa : fate w.srv.2 with
    | ok => exact absurd hfa hf
    | lostRequest =>
      have : network fate (honest counter issue) w.srv t = ((w.srv.1, w.srv.2 + 1), .err lost) := by
        unfold network; rw [hfa]
      exact ⟨w.srv.1, hw, (fun h => nomatch h), by rw [request_eq this, answered_lost]⟩
    | lostAnswer =>
      have : network fate (honest counter issue) w.srv t = ((s0.charge issue t n, w.srv.2 + 1), .err lost) := by
        unfold network; rw [hfa, e]
      exact ⟨_, .inr rfl, fun _ => rfl, by rw [request_eq this, answered_lost]⟩

/-- The token of the call of `fromWallet`. -/
def tokenOf (mk : Nat → UInt64 → Bytes) (made : Nat) (c : Wallet) : Bytes :=
  (cachedToken c.cache).1.getD (mk made ((c.rpc.getD ⟨0, none⟩).lastCounter + 1))

/-- One call with the token `t`. -/
theorem call_net {fate : Nat → Fate} (htok : ∀ n, fields (issue n) = .ok (tok n)) {s0 : Srv} (hs : s0.OK counter issue)
    {t : Bytes} {n : UInt64} (hn : counter t = some n) (hlt : s0.last < n) {w : World (Srv × Nat)}
    (hw : w.srv.1 = s0 ∨ w.srv.1 = s0.charge issue t n) {c : Wallet} (hon : c.online = true)
    (ht : tokenOf mk w.made c = t) :
    (fate w.srv.2 = .ok → ∃ w' c', fromWallet (network fate (honest counter issue)) mk fields w c =
      (w', c', .ok (tok s0.done.length)) ∧ w'.srv = (s0.charge issue t n, w.srv.2 + 1)) ∧
    (fate w.srv.2 ≠ .ok → ∃ s1 w' c', (s1 = s0 ∨ s1 = s0.charge issue t n) ∧
      (fate w.srv.2 = .lostAnswer → s1 = s0.charge issue t n) ∧
      fromWallet (network fate (honest counter issue)) mk fields w c = (w', c', .err .retry) ∧
      w'.srv = (s1, w.srv.2 + 1) ∧ w'.made = w.made + (if (cachedToken c.cache).1 = none then 1 else 0) ∧
      c'.online = true ∧ c'.cache.getAuthToken.2 = (some t, (cachedToken c.cache).2 + 1) ∧
      c'.rpc = some ⟨(c.rpc.getD ⟨0, none⟩).lastCounter, some t⟩) := by
  generalize hct : (cachedToken c.cache).1 = ct at *
  generalize hlc : (c.rpc.getD ⟨0, none⟩).lastCounter = lc at *
  have key : ∃ w1, nextToken mk w ⟨lc, ct⟩ lc = (w1, t) ∧ w1.srv = w.srv ∧
      w1.made = w.made + (if ct = none then 1 else 0) := by
    unfold tokenOf at ht
    rw [hct] at ht
    cases ct with
    | none =>
      rw [hlc] at ht
      exact ⟨{ w with made := w.made + 1 }, by rw [← ht]; rfl, rfl, by rw [if_pos rfl]⟩
    | some t' =>
      exact ⟨w, by rw [← ht]; rfl, rfl, by rw [if_neg (by simp)]; rfl⟩
  obtain ⟨w1, e1, hw1, hm⟩ := key
  obtain ⟨r1, r2⟩ := request_net (fate := fate) htok hs hn hlt (w := w1) (by rw [hw1]; exact hw)
  rw [hw1] at r1 r2
  refine ⟨fun hf => ?_, fun hf => ?_⟩
  · have e : walletCall (network fate (honest counter issue)) mk fields w ⟨lc, ct⟩ =
        (⟨(s0.charge issue t n, w.srv.2 + 1), w1.sent ++ [t], w1.made⟩, ⟨lc, ct⟩, .ok (.ok (tok s0.done.length))) := by
      unfold walletCall callLoop
      simp only [e1, r1 hf]
    unfold fromWallet
    simp only [hon, if_true, hct, hlc, e]
    exact ⟨_, _, rfl, rfl⟩
  · obtain ⟨s1, h1, h2, r⟩ := r2 hf
    have e : walletCall (network fate (honest counter issue)) mk fields w ⟨lc, ct⟩ =
        (⟨(s1, w.srv.2 + 1), w1.sent ++ [t], w1.made⟩, ⟨lc, some t⟩, .ok (.err lost)) := by
      unfold walletCall callLoop
      simp only [e1, r]
    refine ⟨s1, ?_⟩
    unfold fromWallet
    simp only [hon, if_true, hct, hlc, e, lost_not_fatal, if_false, Bool.false_eq_true]
    exact ⟨_, _, h1, h2, rfl, rfl, hm, rfl, by rw [get_set], rfl⟩

theorem kept_calls {fate : Nat → Fate} (htok : ∀ n, fields (issue n) = .ok (tok n)) {s0 : Srv} (hs : s0.OK counter issue)
    {t : Bytes} {n : UInt64} (hn : counter t = some n) (hlt : s0.last < n) (k : Nat) {w : World (Srv × Nat)}
    (hw : w.srv.1 = s0 ∨ w.srv.1 = s0.charge issue t n) {c : Wallet} (hon : c.online = true)
    (ht : tokenOf mk w.made c = t) (h3 : (cachedToken c.cache).2 + k ≤ 3)
    (hlost : ∀ i < k, fate (w.srv.2 + i) ≠ .ok) (hok : fate (w.srv.2 + k) = .ok) :
    ∃ w' c', calls (network fate (honest counter issue)) mk fields (k + 1) w c =
      (w', c', List.replicate k (.err .retry) ++ [.ok (tok s0.done.length)]) ∧ w'.srv.1 = s0.charge issue t n := by
  induction k generalizing w c with
  | zero =>
    obtain ⟨w', c', e, e'⟩ := (call_net (fate := fate) htok hs hn hlt hw hon ht).1 hok
    exact ⟨w', c', by unfold calls; simp only [e]; rfl, by rw [e']⟩
  | succ k ih =>
    obtain ⟨s1, w1, c1, hs1, -, e, hw1, -, hon1, hg, -⟩ :=
      (call_net (fate := fate) htok hs hn hlt hw hon ht).2 (hlost 0 (by omega))
    have hct : cachedToken c1.cache = (some t, (cachedToken c.cache).2 + 1) := by
      generalize (cachedToken c.cache).2 = m at *
      unfold cachedToken authTokenRetry
      rw [hg]
      simp only
      rw [if_neg (by omega)]
    obtain ⟨w', c', e2, h2⟩ := ih (w := w1) (c := c1) (by rw [hw1]; exact hs1) hon1 (by unfold tokenOf; rw [hct]; rfl)
      (by rw [hct]; simp only; omega)
      (fun i hi => by
        rw [hw1]
        have := hlost (i + 1) (by omega)
        rwa [show w.srv.2 + (i + 1) = w.srv.2 + 1 + i by omega] at this)
      (by rw [hw1]; rwa [show w.srv.2 + (k + 1) = w.srv.2 + 1 + k by omega] at hok)
    refine ⟨w', c', ?_, h2⟩
    conv => lhs; unfold calls
    simp only [e, e2, List.replicate_succ, List.cons_append]

/-- C94, part: with a counter the server accepts, up to three calls may lose their request or answer:
the next call gets the token, and the server charges once.
Missing: more faults, or a restart of the client in between, make it pay twice
(`C94_gives_up_violated`, `C94_restart_violated`). -/
theorem C94_paid_once_partial {fate : Nat → Fate} (hmk : ∀ n c, counter (mk n c) = some c)
    (htok : ∀ n, fields (issue n) = .ok (tok n)) (k : Nat) (hk : k ≤ 3) (w : World (Srv × Nat))
    (hs : w.srv.1.OK counter issue) (c : Wallet) (hon : c.online = true)
    (hc : c.cache.getAuthToken.2 = (none, 0))
    (hcount : w.srv.1.last < (c.rpc.getD ⟨0, none⟩).lastCounter + 1)
    (hlost : ∀ i < k, fate (w.srv.2 + i) ≠ .ok) (hok : fate (w.srv.2 + k) = .ok) :
    ∃ w' c', calls (network fate (honest counter issue)) mk fields (k + 1) w c =
        (w', c', List.replicate k (.err .retry) ++ [.ok (tok w.srv.1.done.length)]) ∧
      w'.srv.1.done.length = w.srv.1.done.length + 1 := by
  have hct : cachedToken c.cache = (none, 0) := by unfold cachedToken authTokenRetry; rw [hc]; rfl
  obtain ⟨w', c', e, h⟩ := kept_calls (fate := fate) (mk := mk) htok hs (hmk w.made _) hcount k (.inl rfl) hon
    (by unfold tokenOf; rw [hct]; rfl) (by rw [hct]; simp only; omega) hlost hok
  exact ⟨w', c', e, by rw [h]; rfl⟩

/-- The request of a new token after a charge: a replay error, and a second charge. -/
theorem second_charge {fate : Nat → Fate} (hmk : ∀ n c, counter (mk n c) = some c)
    (htok : ∀ n, fields (issue n) = .ok (tok n)) {s0 : Srv} (hs : s0.OK counter issue) {m : Nat} {t : Bytes} {n : UInt64}
    (hn : counter t = some n) (hlt : s0.last < n) (hmax : n.toNat < 2 ^ 63) (hu : Unseen mk (s0.charge issue t n) m)
    {w : World (Srv × Nat)} (hw : w.srv.1 = s0.charge issue t n) (hmade : m ≤ w.made) {c : Wallet} (hon : c.online = true)
    (hct : (cachedToken c.cache).1 = none) (hlc : ¬n < (c.rpc.getD ⟨0, none⟩).lastCounter + 1)
    (h0 : fate w.srv.2 = .ok) (h1 : fate (w.srv.2 + 1) = .ok) :
    ∃ w' c', fromWallet (network fate (honest counter issue)) mk fields w c =
        (w', c', .ok (tok (s0.done.length + 1))) ∧ w'.srv.1.done.length = s0.done.length + 2 := by
  generalize hl : (c.rpc.getD ⟨0, none⟩).lastCounter = lc at *
  have e1 : network fate (honest counter issue) w.srv (mk w.made (lc + 1)) =
      ((s0.charge issue t n, w.srv.2 + 1), .err (replayPrefix ++ jnat n.toNat)) := by
    unfold network
    rw [h0, hw, honest_old (fun d hd => hu d hd w.made (lc + 1) hmade) (hmk _ _) hlc]
    rfl
  have hadd : n < n + 1 := by
    rw [UInt64.lt_iff_toNat_lt, UInt64.toNat_add, show (1 : UInt64).toNat = 1 from rfl]
    omega
  have e2 : network fate (honest counter issue) (s0.charge issue t n, w.srv.2 + 1) (mk (w.made + 1) (n + 1)) =
      (((s0.charge issue t n).charge issue (mk (w.made + 1) (n + 1)) (n + 1), w.srv.2 + 1 + 1),
        .data (issue (s0.done.length + 1))) := by
    unfold network
    rw [h1, honest_new (charge_ok hs hn hlt) (hmk _ _) hadd]
    rfl
  have e : ∃ w' c', walletCall (network fate (honest counter issue)) mk fields w ⟨lc, none⟩ =
      (w', c', .ok (.ok (tok (s0.done.length + 1)))) ∧ w'.srv.1.done.length = s0.done.length + 2 := by
    unfold walletCall callLoop
    simp only [nextToken]
    rw [request_eq (by exact e1), answered_replay _ hmax]
    simp only
    unfold callLoop
    simp only [nextToken]
    rw [request_eq (by exact e2), answered_data (htok _)]
    exact ⟨_, _, rfl, rfl⟩
  obtain ⟨w', c', e, h⟩ := e
  unfold fromWallet
  simp only [hon, if_true, hct, hl, e]
  exact ⟨_, _, rfl, h⟩

theorem lost_calls {fate : Nat → Fate} (htok : ∀ n, fields (issue n) = .ok (tok n)) {s0 : Srv} (hs : s0.OK counter issue)
    {t : Bytes} {n : UInt64} (hn : counter t = some n) (hlt : s0.last < n) (k : Nat) {w : World (Srv × Nat)}
    (hw : w.srv.1 = s0 ∨ w.srv.1 = s0.charge issue t n) {c : Wallet} (hon : c.online = true)
    (ht : tokenOf mk w.made c = t) (h3 : (cachedToken c.cache).2 + k ≤ 3)
    (hlost : ∀ i < k + 1, fate (w.srv.2 + i) = .lostAnswer) :
    ∃ w' c', calls (network fate (honest counter issue)) mk fields (k + 1) w c =
        (w', c', List.replicate (k + 1) (.err .retry)) ∧ w'.srv = (s0.charge issue t n, w.srv.2 + (k + 1)) ∧
      w.made ≤ w'.made ∧ (w'.made = w.made → (cachedToken c.cache).1 ≠ none) ∧ c'.online = true ∧
      c'.cache.getAuthToken.2 = (some t, (cachedToken c.cache).2 + (k + 1)) ∧
      c'.rpc = some ⟨(c.rpc.getD ⟨0, none⟩).lastCounter, some t⟩ := by
  have one := fun (k : Nat) (hlost : ∀ i < k + 1, fate (w.srv.2 + i) = .lostAnswer) =>
    (call_net (fate := fate) htok hs hn hlt hw hon ht).2 (by rw [show w.srv.2 = w.srv.2 + 0 from rfl, hlost 0 (by omega)]; decide)
  induction k generalizing w c with
  | zero =>
    obtain ⟨s1, w1, c1, -, hs1, e, hw1, hm, hon1, hg, hr⟩ := one 0 hlost
    rw [hs1 (hlost 0 (by omega))] at hw1
    refine ⟨w1, c1, by unfold calls; simp only [e]; rfl, hw1, by omega, ?_, hon1, by rw [hg]; rfl, hr⟩
    intro h hn
    rw [if_pos hn] at hm
    omega
  | succ k ih =>
    obtain ⟨s1, w1, c1, -, hs1, e, hw1, hm, hon1, hg, hr⟩ := one (k + 1) hlost
    rw [hs1 (hlost 0 (by omega))] at hw1
    have hct : cachedToken c1.cache = (some t, (cachedToken c.cache).2 + 1) := by
      generalize (cachedToken c.cache).2 = m at *
      unfold cachedToken authTokenRetry
      rw [hg]
      simp only
      rw [if_neg (by omega)]
    have hw1' : w1.srv.1 = s0.charge issue t n := by rw [hw1]
    have ht1 : tokenOf mk w1.made c1 = t := by unfold tokenOf; rw [hct]; rfl
    have hl1 : ∀ i < k + 1, fate (w1.srv.2 + i) = .lostAnswer := fun i hi => by
      rw [hw1]
      have := hlost (i + 1) (by omega)
      rwa [show w.srv.2 + (i + 1) = w.srv.2 + 1 + i by omega] at this
    obtain ⟨w', c', e2, h1, h2, h3', h4, h5, h6⟩ := ih (w := w1) (c := c1) (.inr hw1') hon1 ht1
      (by rw [hct]; simp only; omega) hl1
      (fun k' hl' => (call_net (fate := fate) htok hs hn hlt (.inr hw1') hon1 ht1).2
        (by rw [show w1.srv.2 = w1.srv.2 + 0 from rfl, hl' 0 (by omega)]; decide))
    refine ⟨w', c', ?_, ?_, by omega, ?_, h4, ?_, ?_⟩
    · conv => lhs; unfold calls
      simp only [e, e2]
      rfl
    · rw [h1, hw1]; simp only [Prod.mk.injEq, true_and]; omega
    · intro h hn
      rw [if_pos hn] at hm
      omega
    · rw [h5, hct]; simp only [Prod.mk.injEq, true_and]; omega
    · rw [h6, hr]; rfl

/-- C94 is violated: when the answers of four calls are lost, the next call gives up the kept
authentication token; the server charges twice for the one token the client gets. -/
theorem C94_gives_up_violated {fate : Nat → Fate} (hmk : ∀ n c, counter (mk n c) = some c)
    (hinj : ∀ m n c d, mk m c = mk n d → m = n)
    (htok : ∀ n, fields (issue n) = .ok (tok n)) (w : World (Srv × Nat))
    (hs : w.srv.1.OK counter issue) (hu : Unseen mk w.srv.1 w.made) (c : Wallet) (hon : c.online = true)
    (hc : c.cache.getAuthToken.2 = (none, 0))
    (hcount : w.srv.1.last < (c.rpc.getD ⟨0, none⟩).lastCounter + 1)
    (hmax : ((c.rpc.getD ⟨0, none⟩).lastCounter + 1).toNat < 2 ^ 63)
    (hlost : ∀ i < 4, fate (w.srv.2 + i) = .lostAnswer) (hok : ∀ i, 4 ≤ i → fate (w.srv.2 + i) = .ok) :
    ∃ w1 c1 w' c', calls (network fate (honest counter issue)) mk fields 4 w c =
        (w1, c1, List.replicate 4 (.err .retry)) ∧
      fromWallet (network fate (honest counter issue)) mk fields w1 c1 =
        (w', c', .ok (tok (w.srv.1.done.length + 1))) ∧
      w'.srv.1.done.length = w.srv.1.done.length + 2 := by
  have hct : cachedToken c.cache = (none, 0) := by unfold cachedToken authTokenRetry; rw [hc]; rfl
  have ht : tokenOf mk w.made c = mk w.made ((c.rpc.getD ⟨0, none⟩).lastCounter + 1) := by unfold tokenOf; rw [hct]; rfl
  obtain ⟨w1, c1, e, h1, h2, h3, h4, h5, h6⟩ := lost_calls (fate := fate) (mk := mk) htok hs (hmk w.made _) hcount 3 (.inl rfl) hon
    ht (by rw [hct]; decide) hlost
  have hm : w.made + 1 ≤ w1.made := by
    by_cases he : w1.made = w.made
    · exact absurd (by rw [hct]) (h3 he)
    · omega
  have hct1 : (cachedToken c1.cache).1 = none := by unfold cachedToken authTokenRetry; rw [h5, hct]; rfl
  obtain ⟨w', c', e', h'⟩ := second_charge (fate := fate) hmk htok hs (m := w.made + 1) (hmk w.made _) hcount hmax
    (by
      intro d hd n c' hn he
      rcases List.mem_cons.mp hd with rfl | hd
      · have := hinj _ _ _ _ he; omega
      · exact hu d hd n c' (by omega) he)
    (w := w1) (c := c1) (by rw [h1]) hm h4 hct1 (by rw [h6]; exact UInt64.lt_irrefl _)
    (by rw [h1]; exact hok 4 (by omega)) (by rw [h1]; exact hok 5 (by omega))
  exact ⟨w1, c1, w', c', e, e', h'⟩

/-- The client after a restart: a new process has no open connection to the wallet server, and the cache is read from
the database. -/
def restart (c : Wallet) : Wallet := { c with rpc := none, cache := c.cache.reopen }

/-- C94 is violated: when the answer of a call is lost and the client restarts before the next call,
the kept authentication token is gone; the server charges twice for the one token the client gets. -/
theorem C94_restart_violated {fate : Nat → Fate} (hmk : ∀ n c, counter (mk n c) = some c)
    (hinj : ∀ m n c d, mk m c = mk n d → m = n)
    (htok : ∀ n, fields (issue n) = .ok (tok n)) (w : World (Srv × Nat))
    (hs : w.srv.1.OK counter issue) (hu : Unseen mk w.srv.1 w.made) (c : Wallet) (hon : c.online = true)
    (hc : c.cache.getAuthToken.2 = (none, 0))
    (hcount : w.srv.1.last < (c.rpc.getD ⟨0, none⟩).lastCounter + 1)
    (hmax : ((c.rpc.getD ⟨0, none⟩).lastCounter + 1).toNat < 2 ^ 63)
    (hlost : fate w.srv.2 = .lostAnswer) (hok : ∀ i, 1 ≤ i → fate (w.srv.2 + i) = .ok) :
    ∃ w1 c1 w' c', fromWallet (network fate (honest counter issue)) mk fields w c = (w1, c1, .err .retry) ∧
      fromWallet (network fate (honest counter issue)) mk fields w1 (restart c1) =
        (w', c', .ok (tok (w.srv.1.done.length + 1))) ∧
      w'.srv.1.done.length = w.srv.1.done.length + 2 := by
  have hct : cachedToken c.cache = (none, 0) := by unfold cachedToken authTokenRetry; rw [hc]; rfl
  have ht : tokenOf mk w.made c = mk w.made ((c.rpc.getD ⟨0, none⟩).lastCounter + 1) := by unfold tokenOf; rw [hct]; rfl
  obtain ⟨s1, w1, c1, -, h0, e, h1, h2, h4, h5, h6⟩ :=
    (call_net (fate := fate) (mk := mk) htok hs (hmk w.made _) hcount (.inl rfl) hon ht).2 (by rw [hlost]; decide)
  rw [h0 hlost] at h1
  rw [hct, if_pos rfl] at h2
  have hct1 : (cachedToken (restart c1).cache).1 = none := by
    have := (C87_lost c1.cache []).1
    unfold cachedToken authTokenRetry
    rw [show (restart c1).cache.getAuthToken.2 = (none, 0) from this]
    rfl
  obtain ⟨w', c', e', h'⟩ := second_charge (fate := fate) hmk htok hs (m := w.made + 1) (hmk w.made _) hcount hmax
    (by
      intro d hd n c' hn he
      rcases List.mem_cons.mp hd with rfl | hd
      · have := hinj _ _ _ _ he; omega
      · exact hu d hd n c' (by omega) he)
    (w := w1) (c := restart c1) (by rw [h1]) (by omega) h4 hct1 (by
      show ¬_ < (0 : UInt64) + 1
      rw [UInt64.lt_iff_toNat_lt] at hcount
      rw [UInt64.lt_iff_toNat_lt, show ((0 : UInt64) + 1).toNat = 1 from rfl]
      omega)
    (by rw [h1]; exact hok 1 (by omega)) (by rw [h1]; exact hok 2 (by omega))
  exact ⟨w1, c1, w', c', e, e', h'⟩

theorem fatal_plain {e : Bytes} (h : isFatal e = true) : isReplay e = .ok (.err e) := by
  have all : ∀ e ∈ fatalTexts, isReplay e = .ok (.err e) := by decide +kernel
  exact all e (by simpa [isFatal] using h)

/-- C94 is violated: a kept authentication token the server refuses with an error that counts as
fatal is kept for ever. Whatever the server answers to other tokens, every further call sends this
token once, and fails. -/
theorem C94_stuck_violated {σ : Type} {srv : σ → Bytes → σ × Answer} {t e : Bytes}
    (hsrv : ∀ s, (srv s t).2 = .err e) (he : isFatal e = true) (k : Nat) (w : World σ) (c : Wallet) (hon : c.online = true)
    (hc : (cachedToken c.cache).1 = some t) :
    ∃ w' c', calls srv mk fields k w c = (w', c', List.replicate k (.err .final)) ∧
      w'.sent = w.sent ++ List.replicate k t ∧ (cachedToken c'.cache).1 = some t := by
  induction k generalizing w c with
  | zero => exact ⟨w, c, rfl, by simp, hc⟩
  | succ k ih =>
    have e1 : fromWallet srv mk fields w c = (⟨(srv w.srv t).1, w.sent ++ [t], w.made⟩,
        { c with rpc := some ⟨(c.rpc.getD ⟨0, none⟩).lastCounter, some t⟩, cache := c.cache.getAuthToken.1 }, .err .final) := by
      have ew : walletCall srv mk fields w ⟨(c.rpc.getD ⟨0, none⟩).lastCounter, some t⟩ =
          (⟨(srv w.srv t).1, w.sent ++ [t], w.made⟩, ⟨(c.rpc.getD ⟨0, none⟩).lastCounter, some t⟩, .ok (.err e)) := by
        unfold walletCall callLoop
        simp only [nextToken]
        rw [request_eq (s' := (srv w.srv t).1) (x := .err e) (by rw [← hsrv w.srv])]
        simp only [answered, fatal_plain he]
      unfold fromWallet
      simp only [hon, if_true, hc, ew, he]
    have hc1 : (cachedToken c.cache.getAuthToken.1).1 = some t := by
      rw [show c.cache.getAuthToken.1 = c.cache from load_eq _]
      exact hc
    obtain ⟨w', c', e2, h1, h2⟩ := ih (⟨(srv w.srv t).1, w.sent ++ [t], w.made⟩ : World σ)
      { c with rpc := some ⟨(c.rpc.getD ⟨0, none⟩).lastCounter, some t⟩, cache := c.cache.getAuthToken.1 } hon hc1
    refine ⟨w', c', ?_, ?_, h2⟩
    · conv => lhs; unfold calls
      simp only [e1, e2]
      rfl
    · rw [h1, List.append_assoc]; rfl
end

/-! ### C94 non-vacuity -/

/-- Tokens for the examples: the counter and the number in unary. -/
def exMk (n : Nat) (c : UInt64) : Bytes := List.replicate c.toNat 1 ++ 0 :: List.replicate n 1
def exCounter (t : Bytes) : Option UInt64 := some (UInt64.ofNat (t.takeWhile (· == 1)).length)
def exIssue (n : Nat) : Reply :=
  [(txt "Token", .str (Base64.encode (jnat n))), (txt "Params", .str []), (txt "PubKeyUsed", .str [])]
def exSrv : Srv := ⟨2, [(exMk 0 2, .data (exIssue 0))]⟩
def exWallet (lc : UInt64) : Wallet := ⟨true, some ⟨lc, none⟩, ⟨none, none⟩⟩

theorem ex_counter (n : Nat) (c : UInt64) : exCounter (exMk n c) = some c := by
  unfold exCounter exMk
  rw [List.takeWhile_append_of_pos (by intro x hx; rw [List.eq_of_mem_replicate hx]; rfl)]
  simp

theorem ex_inj (m n : Nat) (c d : UInt64) (h : exMk m c = exMk n d) : m = n := by
  have hc : some c = some d := by rw [← ex_counter m c, ← ex_counter n d, h]
  cases hc
  have := congrArg List.length h
  simpa [exMk] using this

theorem ex_tok (n : Nat) : tokenFields (exIssue n) = .ok (jnat n, [], []) := by
  have h1 : get (exIssue n) "Token" = some (.str (Base64.encode (jnat n))) := rfl
  have h2 : get (exIssue n) "Params" = some (.str []) := rfl
  have h3 : get (exIssue n) "PubKeyUsed" = some (.str []) := rfl
  have h4 : Base64.decode [] = some [] := by decide +kernel
  simp only [tokenFields, checkedStr, h1, h2, h3, h4, Base64.decode_encode, Res.bind, orErr, mustStr]

theorem ex_ok : exSrv.OK exCounter exIssue :=
  ⟨fun d hd => by cases List.mem_singleton.mp hd; exact ⟨2, ex_counter 0 2, UInt64.le_refl _⟩,
    fun d hd => by cases List.mem_singleton.mp hd; exact ⟨0, rfl⟩⟩

theorem ex_unseen : Unseen exMk exSrv 1 := by
  intro d hd n c hn he
  cases List.mem_singleton.mp hd
  have := ex_inj _ _ _ _ he
  omega

/-- Non-vacuity of `C94_recovers`: a cached token with an old counter, which is refused until it is
given up. -/
example : let c := { exWallet 0 with cache := (⟨none, none⟩ : CacheStore).setAuthToken (some (exMk 5 1)) 2 }
    ∃ k a, k ≤ 4 ∧ (calls (honest exCounter exIssue) exMk tokenFields 5 ⟨exSrv, [], 1⟩ c).2.2[k]? = some (.ok a) ∧
      ∀ j < k, (calls (honest exCounter exIssue) exMk tokenFields 5 ⟨exSrv, [], 1⟩ c).2.2[j]? = some (.err .retry) :=
  C94_recovers ex_counter ex_inj ex_tok ⟨exSrv, [], 1⟩ ex_ok (by decide) ex_unseen _ rfl
    (fun t ht => by cases ht; exact ⟨1, ex_counter 5 1⟩) (by decide)

/-- Non-vacuity of `C94_paid_once_partial`: a lost request and two lost answers. -/
example : ∃ w' c', calls (network ([Fate.lostRequest, .lostAnswer, .lostAnswer].getD · .ok) (honest exCounter exIssue)) exMk
        tokenFields 4 ⟨(exSrv, 0), [], 1⟩ (exWallet 2) =
        (w', c', [.err .retry, .err .retry, .err .retry, .ok (jnat 1, [], [])]) ∧
      w'.srv.1.done.length = 2 :=
  C94_paid_once_partial (tok := fun n => (jnat n, [], [])) ex_counter ex_tok 3 (by decide) ⟨(exSrv, 0), [], 1⟩ ex_ok (exWallet 2)
    rfl rfl (by decide) (by decide) rfl

/-- Non-vacuity of `C94_gives_up_violated`. -/
example : ∃ w1 c1 w' c', calls (network (fun n => if n < 4 then .lostAnswer else .ok) (honest exCounter exIssue)) exMk
        tokenFields 4 ⟨(exSrv, 0), [], 1⟩ (exWallet 2) = (w1, c1, List.replicate 4 (.err .retry)) ∧
      fromWallet (network (fun n => if n < 4 then .lostAnswer else .ok) (honest exCounter exIssue)) exMk tokenFields w1 c1 =
        (w', c', .ok (jnat 2, [], [])) ∧
      w'.srv.1.done.length = 3 :=
  C94_gives_up_violated (tok := fun n => (jnat n, [], [])) ex_counter ex_inj ex_tok ⟨(exSrv, 0), [], 1⟩ ex_ok ex_unseen
    (exWallet 2) rfl rfl (by decide) (by decide) (by decide) (fun i hi => if_neg (by omega))

/-- Non-vacuity of `C94_restart_violated`. -/
example : ∃ w1 c1 w' c', fromWallet (network (fun n => if n < 1 then .lostAnswer else .ok) (honest exCounter exIssue)) exMk
        tokenFields ⟨(exSrv, 0), [], 1⟩ (exWallet 2) = (w1, c1, .err .retry) ∧
      fromWallet (network (fun n => if n < 1 then .lostAnswer else .ok) (honest exCounter exIssue)) exMk tokenFields w1
        (restart c1) = (w', c', .ok (jnat 2, [], [])) ∧
      w'.srv.1.done.length = 3 :=
  C94_restart_violated (tok := fun n => (jnat n, [], [])) ex_counter ex_inj ex_tok ⟨(exSrv, 0), [], 1⟩ ex_ok ex_unseen
    (exWallet 2) rfl rfl (by decide) (by decide) (by decide) (fun i hi => if_neg (by omega))

/-- Non-vacuity of `C94_stuck_violated`: the first request is lost, and the server refuses its token,
and no other one. -/
example :
    let srv := fun (s : Nat) (t : Bytes) => (s + 1, if s = 0 then Answer.err lost
      else if t = exMk 0 1 then .err (txt "walletserver: bad token") else .data (exIssue 0))
    (calls srv exMk tokenFields 4 ⟨0, [], 0⟩ (exWallet 0)).2.2 = [.err .retry, .err .final, .err .final, .err .final] ∧
    (calls srv exMk tokenFields 4 ⟨0, [], 0⟩ (exWallet 0)).1.sent = List.replicate 4 (exMk 0 1) := by
  decide +kernel

/-! ### C95 -/

theorem bind_panic {α β : Type} (r : Res Bytes α) (f : α → Res Bytes β) :
    r.bind f = .panic ↔ r = .panic ∨ ∃ a, r = .ok a ∧ f a = .panic := by
  cases r <;> simp [Res.bind]

theorem mustStr_panic (v : Option V) : mustStr v = .panic ↔ ∀ s, v ≠ some (.str s) := by
  unfold mustStr
  split <;> simp_all

theorem mustStr_ok (v : Option V) (s : Bytes) : mustStr v = .ok s ↔ v = some (.str s) := by
  unfold mustStr
  split <;> simp_all

theorem mustBool_panic (v : Option V) : mustBool v = .panic ↔ ∀ b, v ≠ some (.bool b) := by
  unfold mustBool
  split <;> simp_all

theorem orErr_panic {α : Type} (e : Bytes) (o : Option α) : orErr e o ≠ .panic := by
  cases o <;> simp [orErr]

theorem orErr_ok {α : Type} (e : Bytes) (o : Option α) (a : α) : orErr e o = .ok a ↔ o = some a := by
  cases o <;> simp [orErr]

theorem checkedStr_panic (r : Reply) (k : String) : checkedStr r k ≠ .panic := by
  unfold checkedStr
  split <;> simp

theorem checkedStr_ok (r : Reply) (k : String) (s : Bytes) : checkedStr r k = .ok s ↔ get r k = some (.str s) := by
  unfold checkedStr
  split <;> simp_all

theorem checkedNum_panic (r : Reply) (k : String) : checkedNum r k ≠ .panic := by
  unfold checkedNum
  split <;> simp

theorem tokenFields_panic (r : Reply) : tokenFields r = .panic ↔
    (∃ t p, get r "Token" = some (.str t) ∧ get r "Params" = some (.str p) ∧ (Base64.decode t).isSome ∧
      (Base64.decode p).isSome) ∧ ∀ k, get r "PubKeyUsed" ≠ some (.str k) := by
  simp only [tokenFields, bind_panic, mustStr_panic, mustStr_ok, orErr_panic, orErr_ok, checkedStr_panic, checkedStr_ok,
    false_or, Option.isSome_iff_exists, reduceCtorEq, and_false, exists_false, or_false]
  constructor
  · rintro ⟨t, ht, p, hp, t', ht', p', hp', h⟩
    exact ⟨⟨t, p, ht, hp, ⟨t', ht'⟩, p', hp'⟩, h⟩
  · rintro ⟨⟨t, p, ht, hp, ⟨t', ht'⟩, p', hp'⟩, h⟩
    exact ⟨t, ht, p, hp, t', ht', p', hp', h⟩

theorem answered_panic {α : Type} (fields : Reply → Res Bytes α) (a : Answer) : answered fields a = .panic ↔
    (∃ e, a = .err e ∧ e.length < 11) ∨ ∃ r, a = .data r ∧ fields r = .panic := by
  cases a with
  | err e =>
    simp only [answered, Answer.err.injEq, reduceCtorEq, false_and, exists_false, or_false, exists_eq_left']
    unfold isReplay
    by_cases h : e.length < 11
    · simp [h]
    · rw [if_neg h]
      by_cases h2 : e.take 11 = replayPrefix
      · rw [if_pos h2]
        cases atoi (e.drop 11) <;> simp [h]
      · simp [if_neg h2, h]
  | data r =>
    simp only [answered, Answer.data.injEq, reduceCtorEq, false_and, exists_false, false_or, exists_eq_left']
    cases fields r <;> simp

/-- C95: exactly these answers to a request for a token make the client panic: an error text of less
than eleven bytes, and a reply with decodable fields Token and Params and without a text in
PubKeyUsed. -/
theorem C95_token_panics (a : Answer) : answered tokenFields a = .panic ↔
    (∃ e, a = .err e ∧ e.length < 11) ∨
    ∃ r t p, a = .data r ∧ get r "Token" = some (.str t) ∧ get r "Params" = some (.str p) ∧
      (Base64.decode t).isSome ∧ (Base64.decode p).isSome ∧ ∀ k, get r "PubKeyUsed" ≠ some (.str k) := by
  rw [answered_panic]
  simp only [tokenFields_panic]
  constructor
  · rintro (h | ⟨r, rfl, ⟨t, p, h1, h2, h3, h4⟩, h5⟩)
    · exact .inl h
    · exact .inr ⟨r, t, p, rfl, h1, h2, h3, h4, h5⟩
  · rintro (h | ⟨r, t, p, rfl, h1, h2, h3, h4, h5⟩)
    · exact .inl h
    · exact .inr ⟨r, rfl, ⟨t, p, h1, h2, h3, h4⟩, h5⟩

/-- C95: exactly the error texts of less than eleven bytes make a request for the balance panic. -/
theorem C95_balance_panics (a : Answer) : answered balanceFields a = .panic ↔ ∃ e, a = .err e ∧ e.length < 11 := by
  have h : ∀ r, balanceFields r ≠ .panic := by
    intro r
    simp only [balanceFields, ne_eq, bind_panic, checkedNum_panic, false_or, reduceCtorEq, and_false, exists_false,
      not_false_eq_true]
  rw [answered_panic]
  simp only [h, and_false, exists_false, or_false]

/-- C95: exactly the replies with a Key that is no text make a key lookup panic. -/
theorem C95_key_panics (a : Answer) : getKey a = .panic ↔
    ∃ r v, a = .data r ∧ get r "Key" = some v ∧ ∀ s, v ≠ .str s := by
  cases a with
  | err e => simp [getKey]
  | data r =>
    unfold getKey
    cases h : get r "Key" with
    | none => simp [h]
    | some v =>
      simp only [h, bind_panic, mustStr_panic, orErr_panic, and_false, exists_false, or_false, Answer.data.injEq, ne_eq,
        Option.some.injEq]
      constructor
      · intro h'; exact ⟨r, v, rfl, h, h'⟩
      · rintro ⟨_, _, rfl, h1, h2⟩
        rw [h] at h1
        cases h1
        exact h2

/-- C95: exactly the replies with a Packet that is no text make a request for parameters panic. -/
theorem C95_params_panics (a : Answer) : getParams a = .panic ↔
    ∃ r v, a = .data r ∧ get r "Packet" = some v ∧ ∀ s, v ≠ .str s := by
  cases a with
  | err e => simp [getParams]
  | data r =>
    unfold getParams
    cases h : get r "Packet" with
    | none => simp [h]
    | some v =>
      simp only [h, bind_panic, mustStr_panic, orErr_panic, and_false, exists_false, or_false, Answer.data.injEq, ne_eq,
        Option.some.injEq]
      constructor
      · intro h'; exact ⟨r, v, rfl, h, h'⟩
      · rintro ⟨_, _, rfl, h1, h2⟩
        rw [h] at h1
        cases h1
        exact h2

/-- C95: exactly the replies with a Status that is no truth value make spending panic. -/
theorem C95_spend_panics (a : Answer) : spend a = .panic ↔
    ∃ r v, a = .data r ∧ get r "Status" = some v ∧ ∀ b, v ≠ .bool b := by
  cases a with
  | err e => simp [spend]
  | data r =>
    unfold spend
    cases h : get r "Status" with
    | none => simp [h]
    | some v =>
      simp only [h, mustBool_panic, Answer.data.injEq, ne_eq, Option.some.injEq]
      constructor
      · intro h'; exact ⟨r, v, rfl, h, h'⟩
      · rintro ⟨_, _, rfl, h1, h2⟩
        rw [h] at h1
        cases h1
        exact h2

/-- C95: exactly these replies make a reissue panic: Packet is no text, or it can be decoded and
PubkeyUsed is no text. -/
theorem C95_reissue_panics (a : Answer) : reissue a = .panic ↔
    ∃ r v k, a = .data r ∧ get r "Packet" = some v ∧ get r "PubkeyUsed" = some k ∧
      ((∀ s, v ≠ .str s) ∨ (∃ s, v = .str s ∧ (Base64.decode s).isSome) ∧ ∀ s, k ≠ .str s) := by
  cases a with
  | err e => simp [reissue]
  | data r =>
    unfold reissue
    cases h : get r "Packet" with
    | none => simp [h]
    | some v =>
      cases h' : get r "PubkeyUsed" with
      | none =>
        simp only [h, h', Option.isNone_some, Option.isNone_none, Bool.or_true, if_true, reduceCtorEq, Answer.data.injEq, false_iff]
        rintro ⟨_, _, _, rfl, -, h2, -⟩
        rw [h'] at h2
        cases h2
      | some k =>
        simp only [h, h', Option.isNone_some, Bool.or_self, Bool.false_eq_true, if_false, bind_panic, mustStr_panic, mustStr_ok,
          orErr_panic, orErr_ok, false_or, reduceCtorEq, and_false, exists_false, or_false, Answer.data.injEq, ne_eq,
          Option.some.injEq]
        constructor
        · intro hp
          refine ⟨r, v, k, rfl, h, h', ?_⟩
          rcases hp with hp | ⟨s, hs, b, hb, hk⟩
          · exact .inl hp
          · exact .inr ⟨⟨s, hs, by rw [hb]; rfl⟩, hk⟩
        · rintro ⟨_, _, _, rfl, h1, h2, hp⟩
          rw [h] at h1
          rw [h'] at h2
          cases h1
          cases h2
          rcases hp with hp | ⟨⟨s, hs, hb⟩, hk⟩
          · exact .inl hp
          · obtain ⟨b, hb⟩ := Option.isSome_iff_exists.mp hb
            exact .inr ⟨s, hs, b, hb, hk⟩

/-- C95 is violated: an error text of less than eleven bytes, such as "EOF" for an answer with an
empty body, makes every call of an online client panic. -/
theorem C95_short_error_violated {σ α : Type} (srv : σ → Bytes → σ × Answer) (mk : Nat → UInt64 → Bytes)
    (fields : Reply → Res Bytes α) (e : Bytes) (he : e.length < 11) (hsrv : ∀ s t, (srv s t).2 = .err e) (w : World σ) (c : Wallet)
    (hon : c.online = true) : (fromWallet srv mk fields w c).2.2 = .panic := by
  have ha : answered fields (.err e) = .panic := (answered_panic fields _).mpr (.inl ⟨e, rfl, he⟩)
  have hw : ∀ (c : WC), (walletCall srv mk fields w c).2.2 = .panic := by
    intro c
    unfold walletCall callLoop
    have h1 := fun t => hsrv w.srv t
    generalize nextToken mk w c c.lastCounter = nt
    obtain ⟨w1, t⟩ := nt
    simp only [request, hsrv, ha]
  unfold fromWallet
  simp only [hon, if_true]
  have := hw ⟨(c.rpc.getD ⟨0, none⟩).lastCounter, (cachedToken c.cache).1⟩
  generalize walletCall srv mk fields w ⟨(c.rpc.getD ⟨0, none⟩).lastCounter, (cachedToken c.cache).1⟩ = r at this
  obtain ⟨w', c', r⟩ := r
  simp only at this
  rw [this]

/-- Non-vacuity. -/
example : (fromWallet (fun (s : Unit) _ => (s, .err (txt "EOF"))) exMk tokenFields ⟨(), [], 0⟩ (exWallet 0)).2.2 = .panic :=
  C95_short_error_violated _ _ _ (txt "EOF") (by decide) (fun _ _ => rfl) _ _ rfl

/-- C95, part: no answer whose error text has eleven bytes, or whose values have the types of the
protocol, makes any of the calls panic. Missing: other answers do. -/
theorem C95_typed_partial (P : Prims) (root : Bytes) (a : Answer) (he : ∀ e, a = .err e → 11 ≤ e.length)
    (hs : ∀ r k, a = .data r → k ∈ ["Key", "Packet", "PubkeyUsed", "PublicKey", "Signature", "KeyList"] →
      ∀ v, get r k = some v → ∃ s, v = .str s)
    (hk : ∀ r, a = .data r → ∃ s, get r "PubKeyUsed" = some (.str s))
    (hb : ∀ r v, a = .data r → get r "Status" = some v → ∃ b, v = .bool b) :
    answered tokenFields a ≠ .panic ∧ answered balanceFields a ≠ .panic ∧ getKey a ≠ .panic ∧
      getVerifyList P root a ≠ .panic ∧ getParams a ≠ .panic ∧ spend a ≠ .panic ∧ reissue a ≠ .panic := by
  refine ⟨?_, ?_, ?_, ?_, ?_, ?_, ?_⟩
  · rw [ne_eq, C95_token_panics]
    rintro (⟨e, h1, h2⟩ | ⟨r, t, p, h1, -, -, -, -, h2⟩)
    · have := he e h1; omega
    · obtain ⟨s, h⟩ := hk r h1
      exact h2 s h
  · rw [ne_eq, C95_balance_panics]
    rintro ⟨e, h1, h2⟩
    have := he e h1; omega
  · rw [ne_eq, C95_key_panics]
    rintro ⟨r, v, h1, h2, h3⟩
    obtain ⟨s, h⟩ := hs r _ h1 (by simp) v h2
    exact h3 s h
  · cases a with
    | err e => simp [getVerifyList]
    | data r =>
      unfold getVerifyList
      by_cases hn : ((get r "PublicKey").isNone || (get r "Signature").isNone || (get r "KeyList").isNone) = true
      · simp only [hn, if_true, ne_eq, reduceCtorEq, not_false_eq_true]
      · simp only [hn, Bool.false_eq_true, if_false]
        simp only [Bool.or_eq_true, Option.isNone_iff_eq_none, not_or] at hn
        have some' : ∀ k ∈ ["PublicKey", "Signature", "KeyList"], get r k ≠ none → ∃ s, get r k = some (.str s) := by
          intro k hk hne
          obtain ⟨v, hv⟩ := Option.ne_none_iff_exists'.mp hne
          obtain ⟨s, rfl⟩ := hs r k rfl (List.mem_append_right ["Key", "Packet", "PubkeyUsed"] hk) v hv
          exact ⟨s, hv⟩
        obtain ⟨p, hp⟩ := some' "PublicKey" (by simp) hn.1.1
        obtain ⟨g, hg⟩ := some' "Signature" (by simp) hn.1.2
        obtain ⟨l, hl⟩ := some' "KeyList" (by simp) hn.2
        simp only [hp, hg, hl, mustStr, Res.bind]
        cases unhex p with
        | none => simp [orErr]
        | some p =>
          simp only [orErr]
          split
          · simp
          · cases unhex g with
            | none => simp
            | some g =>
              simp only
              split
              · cases keysOf l <;> simp
              · simp
  · rw [ne_eq, C95_params_panics]
    rintro ⟨r, v, h1, h2, h3⟩
    obtain ⟨s, h⟩ := hs r _ h1 (by simp) v h2
    exact h3 s h
  · rw [ne_eq, C95_spend_panics]
    rintro ⟨r, v, h1, h2, h3⟩
    obtain ⟨b, h⟩ := hb r v h1 h2
    exact h3 b h
  · rw [ne_eq, C95_reissue_panics]
    rintro ⟨r, v, k, h1, h2, h3, h4 | ⟨-, h4⟩⟩
    · obtain ⟨s, h⟩ := hs r _ h1 (by simp) v h2
      exact h4 s h
    · obtain ⟨s, h⟩ := hs r _ h1 (by simp) k h3
      exact h4 s h

/-- Non-vacuity: a complete answer, and an error text. -/
example : ∃ r, answered tokenFields (.data r) ≠ .panic ∧ get r "Token" ≠ none ∧ get r "KeyList" ≠ none ∧
    spend (.data r) = .ok true ∧ getKey (.err (txt "no such host")) ≠ .panic := by
  let r : Reply := [(txt "Token", .str []), (txt "Params", .str []), (txt "PubKeyUsed", .str []), (txt "Key", .str []),
    (txt "Packet", .str []), (txt "PubkeyUsed", .str []), (txt "PublicKey", .str []), (txt "Signature", .str []),
    (txt "KeyList", .str []), (txt "Status", .bool true)]
  have h := C95_typed_partial ⟨id, fun a _ => a, fun _ _ _ => true⟩ [] (.data r) (fun e h => nomatch h)
    (fun r' k hr hk v hv => by
      cases hr
      simp only [List.mem_cons, List.not_mem_nil, or_false] at hk
      rcases hk with rfl | rfl | rfl | rfl | rfl | rfl <;> exact ⟨[], (Option.some.inj hv).symm⟩)
    (fun r' hr => by cases hr; exact ⟨[], rfl⟩)
    (fun r' v hr hv => by cases hr; exact ⟨true, (Option.some.inj hv).symm⟩)
  exact ⟨r, h.1, by decide +kernel, by decide +kernel, by decide +kernel, by decide +kernel⟩

theorem bind_ok {ε α β : Type} (r : Res ε α) (f : α → Res ε β) (b : β) :
    r.bind f = .ok b ↔ ∃ a, r = .ok a ∧ f a = .ok b := by
  cases r <;> simp [Res.bind]

theorem mustBool_ok (v : Option V) (b : Bool) : mustBool v = .ok b ↔ v = some (.bool b) := by
  cases v with
  | none => simp [mustBool]
  | some x => cases x <;> simp [mustBool]

/-- The reply of a server carries the bytes `b`, in base64, in the field `key`. -/
def Carries (r : Reply) (key : String) (b : Bytes) : Prop := ∃ s, get r key = some (.str s) ∧ Base64.decode s = some b

/-- C95: the calls of a token owner return exactly what the server put in the fields of its reply:
the new token and the key it is issued under, in that order, the parameters, a key, a status.
Nothing else makes them succeed. -/
theorem C95_results (a : Answer) (p k : Bytes) (b : Bool) :
    (reissue a = .ok (p, k) ↔ ∃ r, a = .data r ∧ Carries r "Packet" p ∧ Carries r "PubkeyUsed" k) ∧
    (getParams a = .ok p ↔ ∃ r, a = .data r ∧ Carries r "Packet" p) ∧
    (getKey a = .ok k ↔ ∃ r, a = .data r ∧ Carries r "Key" k) ∧
    (spend a = .ok b ↔ ∃ r, a = .data r ∧ get r "Status" = some (.bool b)) := by
  cases a with
  | err e => simp [reissue, getParams, getKey, spend]
  | data r =>
    refine ⟨?_, ?_, ?_, ?_⟩
    · simp only [reissue, Carries, Answer.data.injEq, exists_eq_left']
      constructor
      · intro h
        by_cases hc : ((get r "Packet").isNone || (get r "PubkeyUsed").isNone) = true
        · rw [if_pos hc] at h; exact nomatch h
        · rw [if_neg hc] at h
          simp only [bind_ok, mustStr_ok, orErr_ok] at h
          obtain ⟨s, h1, p', h2, t, h3, k', h4, h5⟩ := h
          injection h5 with h5; injection h5 with h5 h6
          subst h5; subst h6
          exact ⟨⟨s, h1, h2⟩, ⟨t, h3, h4⟩⟩
      · rintro ⟨⟨s, h1, h2⟩, ⟨t, h3, h4⟩⟩
        simp [h1, h3, mustStr, orErr, h2, h4, Res.bind]
    · simp only [getParams, Carries, Answer.data.injEq, exists_eq_left']
      cases hg : get r "Packet" with
      | none => simp
      | some v => simp only [bind_ok, mustStr_ok, orErr_ok]
    · simp only [getKey, Carries, Answer.data.injEq, exists_eq_left']
      cases hg : get r "Key" with
      | none => simp
      | some v => simp only [bind_ok, mustStr_ok, orErr_ok]
    · simp only [spend, Answer.data.injEq, exists_eq_left']
      cases hg : get r "Status" with
      | none => simp
      | some v => simp only [mustBool_ok]

/-- Non-vacuity: a reply with a new token and the key it is issued under. -/
example : ∃ a p k, reissue a = .ok (p, k) ∧ p ≠ k := by
  refine ⟨.data [(txt "PubkeyUsed", .str (txt "AQ==")), (txt "Packet", .str (txt "AgM="))], [2, 3], [1], ?_, by decide⟩
  exact (C95_results _ _ _ true).1.2 ⟨_, rfl, ⟨_, rfl, by decide +kernel⟩, ⟨_, rfl, by decide +kernel⟩⟩

theorem take_take_hex (b : Bytes) : ∀ n, (hex b).take (2 * n) = hex (b.take n) := by
  induction b with
  | nil => intro n; simp [hex]
  | cons x b ih =>
    intro n
    cases n with
    | zero => simp [hex]
    | succ n =>
      have := ih n
      simp only [hex, List.flatMap_cons, List.take_succ_cons, Nat.mul_succ] at this ⊢
      simp only [List.cons_append, List.nil_append, List.take_succ_cons, this]

/-- C95: the address of the issuer of a key names that key: under the same template, and for keys of
32 bytes, two keys have the same path only when they are equal, the same host only when their first
24 bytes agree; the calls between issuers have another host and another path than the calls of
users; the first label of the host has at most 63 characters, the limit of the domain name system. -/
theorem C95_address (host path p q : Bytes) (i : Bool) (hp : p.length = 32) (hq : q.length = 32) :
    ((keyURL host path p i).2 = (keyURL host path q i).2 ↔ p = q) ∧
    ((keyURL host path p i).1 = (keyURL host path q i).1 ↔ p.take 24 = q.take 24) ∧
    ((keyURL host path p true).1 ≠ (keyURL host path q false).1) ∧
    ((keyURL host path p true).2 ≠ (keyURL host path q false).2) ∧
    ∃ label, (keyURL host path p i).1 = label ++ host ∧ label.length ≤ 63 ∧ hex (p.take 24) <+: label := by
  have hl : ∀ b : Bytes, (hex b).length = 2 * b.length := fun b => by
    induction b with
    | nil => rfl
    | cons x b ih => simp only [hex, List.flatMap_cons, List.length_append, List.length_cons, List.length_nil] at ih ⊢; omega
  have h48 : ∀ b : Bytes, (hex b).take 48 = hex (b.take 24) := fun b => take_take_hex b 24
  have hpl : (hex (p.take 24)).length = 48 := by rw [hl, List.length_take]; omega
  have hql : (hex (q.take 24)).length = 48 := by rw [hl, List.length_take]; omega
  have hi : (txt "int").length = 3 ∧ (txt "int/").length = 4 := by decide
  refine ⟨⟨fun h => ?_, fun h => by rw [h]⟩, ⟨fun h => ?_, fun h => ?_⟩, fun h => ?_, fun h => ?_, ?_⟩
  · simp only [keyURL] at h
    exact hex_inj (List.append_cancel_left h)
  · simp only [keyURL, h48] at h
    exact hex_inj (List.append_cancel_right (List.append_cancel_right h))
  · simp only [keyURL, h48, h]
  · have := congrArg List.length h
    simp only [keyURL, h48, List.length_append, hpl, hql, if_true, hi.1] at this
    simp at this
  · have := congrArg List.length h
    simp only [keyURL, List.length_append, hl, hp, hq, if_true, hi.2] at this
    simp at this
  · refine ⟨hex (p.take 24) ++ (if i = true then txt "int" else []), ?_, ?_, ⟨_, rfl⟩⟩
    · simp only [keyURL, h48]
    · rw [List.length_append, hpl]; cases i <;> simp [hi.1]

/-- Non-vacuity: two keys that differ in the last byte, and two that differ in the first. -/
example : (keyURL (txt ".serviceguard.chavpn.net") (txt "/rpc/") (List.replicate 32 1) true).2 ≠
      (keyURL (txt ".serviceguard.chavpn.net") (txt "/rpc/") (List.replicate 31 1 ++ [2]) true).2 ∧
    (keyURL (txt ".serviceguard.chavpn.net") (txt "/rpc/") (List.replicate 32 1) true).1 ≠
      (keyURL (txt ".serviceguard.chavpn.net") (txt "/rpc/") (2 :: List.replicate 31 1) true).1 :=
  ⟨fun h => absurd ((C95_address _ _ _ _ true (by decide) (by decide)).1.1 h) (by decide),
   fun h => absurd ((C95_address _ _ _ _ true (by decide) (by decide)).2.1.1 h) (by decide)⟩

/-! ### C96 -/

/-- The text of a list of keys, as the lookup service signs it. -/
def keyText : List Bytes → Bytes
  | [] => []
  | [k] => hex k
  | k :: ks => hex k ++ txt ", " ++ keyText ks

theorem hex_no_comma (b : Bytes) : ∀ c ∈ hex b, c ≠ 44 := by
  have hd : ∀ n, n < 16 → Util.hexDigit n ≠ 44 := by decide
  intro c hc
  unfold hex at hc
  obtain ⟨x, -, hx⟩ := List.mem_flatMap.mp hc
  have := x.toNat_lt
  simp only [List.mem_cons, List.not_mem_nil, or_false] at hx
  rcases hx with rfl | rfl
  · exact hd _ (by omega)
  · exact hd _ (by omega)

theorem split_last (a : Bytes) (h : ∀ c ∈ a, c ≠ 44) : splitComma a = [a] := by
  induction a with
  | nil => unfold splitComma; rfl
  | cons c a ih =>
    unfold splitComma
    rw [if_neg (fun hc => h c List.mem_cons_self hc.1), ih fun x hx => h x (List.mem_cons_of_mem _ hx)]

theorem split_cons (a r : Bytes) (h : ∀ c ∈ a, c ≠ 44) : splitComma (a ++ txt ", " ++ r) = a :: splitComma r := by
  induction a with
  | nil =>
    show splitComma (44 :: 32 :: r) = _
    conv => lhs; unfold splitComma
    simp
  | cons c a ih =>
    show splitComma (c :: (a ++ txt ", " ++ r)) = _
    conv => lhs; unfold splitComma
    rw [if_neg (fun hc => h c List.mem_cons_self hc.1), ih fun x hx => h x (List.mem_cons_of_mem _ hx)]

theorem keysOf_text (ks : List Bytes) (h : ks ≠ []) : keysOf (keyText ks) = some (ks.map fix32) := by
  have : ∀ ks : List Bytes, ks ≠ [] → splitComma (keyText ks) = ks.map hex := by
    intro ks h
    induction ks with
    | nil => exact absurd rfl h
    | cons k ks ih =>
      cases ks with
      | nil => exact split_last _ (hex_no_comma k)
      | cons k' ks =>
        show splitComma (hex k ++ txt ", " ++ keyText (k' :: ks)) = _
        rw [split_cons _ _ (hex_no_comma k), ih (by simp)]
        rfl
  unfold keysOf
  rw [this ks h]
  clear h this
  induction ks with
  | nil => rfl
  | cons k ks ih =>
    simp only [List.map_cons, List.mapM_cons, unhex_hex, ih]
    rfl

/-- C96: a list of keys is taken over only if the answer has the public key of the trust root, and a
signature by the trust root of the list in it. -/
theorem C96_signed (P : Prims) (root : Bytes) (a : Answer) (keys : List Bytes) (h : getVerifyList P root a = .ok keys) :
    ∃ r p s l sig pub, a = .data r ∧ get r "PublicKey" = some (.str p) ∧ get r "Signature" = some (.str s) ∧
      get r "KeyList" = some (.str l) ∧ unhex p = some pub ∧ fix32 pub = root ∧ unhex s = some sig ∧
      P.verify root l sig = true ∧ keysOf l = some keys := by
  cases a with
  | err e => cases h
  | data r =>
    unfold getVerifyList at h
    by_cases hn : ((get r "PublicKey").isNone || (get r "Signature").isNone || (get r "KeyList").isNone) = true
    · simp only [hn, if_true, reduceCtorEq] at h
    · simp only [hn, Bool.false_eq_true, if_false] at h
      cases hp : get r "PublicKey" with
      | none => simp [hp] at hn
      | some p =>
        cases p with
        | str p =>
          simp only [hp, mustStr, Res.bind] at h
          cases hup : unhex p with
          | none => simp [hup, orErr] at h
          | some pub =>
            simp only [hup, orErr] at h
            by_cases hr : fix32 pub = root
            · rw [if_neg (by simp [hr])] at h
              cases hs : get r "Signature" with
              | none => simp [hs] at hn
              | some s =>
                cases s with
                | str s =>
                  simp only [hs] at h
                  cases hus : unhex s with
                  | none => simp [hus] at h
                  | some sig =>
                    simp only [hus] at h
                    cases hl : get r "KeyList" with
                    | none => simp [hl] at hn
                    | some l =>
                      cases l with
                      | str l =>
                        simp only [hl] at h
                        by_cases hv : P.verify root l sig = true
                        · simp only [hv, if_true] at h
                          cases hk : keysOf l with
                          | none => simp [hk] at h
                          | some keys' =>
                            simp only [hk, Res.ok.injEq] at h
                            exact ⟨r, p, s, l, sig, pub, rfl, hp, hs, hl, hup, hr, hus, hv, by rw [hk, h]⟩
                        · simp [hv] at h
                      | _ => simp [hl] at h
                | _ => simp [hs] at h
            · rw [if_pos hr] at h; cases h
        | _ => simp [hp, mustStr, Res.bind] at h

/-- C96, part: if every text the trust root signs is a non-empty list of keys of 32 bytes, a list of
keys the client takes over, from whatever answer, is one of these.
Missing: from an empty list the client takes over one key (`C96_empty_violated`). -/
theorem C96_published_partial (P : Prims) (root : Bytes) (published : List (List Bytes))
    (hsig : ∀ l s, P.verify root l s = true → ∃ ks ∈ published, l = keyText ks)
    (hpub : ∀ ks ∈ published, ks ≠ [] ∧ ∀ k ∈ ks, k.length = 32) (a : Answer) (keys : List Bytes)
    (h : getVerifyList P root a = .ok keys) : keys ∈ published := by
  obtain ⟨r, p, s, l, sig, pub, -, -, -, -, -, -, -, hv, hk⟩ := C96_signed P root a keys h
  obtain ⟨ks, hks, rfl⟩ := hsig l sig hv
  rw [keysOf_text ks (hpub ks hks).1, Option.some.injEq] at hk
  have : ks.map fix32 = ks := by
    conv => rhs; rw [← List.map_id ks]
    refine List.map_congr_left fun k hk => ?_
    have := (hpub ks hks).2 k hk
    simp [fix32, this, List.take_of_length_le]
  rw [← hk, this]
  exact hks

/-- C96: the answer with the signed list of these keys is taken over: the client gets each key,
padded or cut to 32 bytes. -/
theorem C96_accepted (P : Prims) (root sig : Bytes) (hroot : root.length = 32) (ks : List Bytes) (hks : ks ≠ [])
    (hv : P.verify root (keyText ks) sig = true) :
    getVerifyList P root (.data [(txt "PublicKey", .str (hex root)), (txt "Signature", .str (hex sig)),
      (txt "KeyList", .str (keyText ks))]) = .ok (ks.map fix32) := by
  have h1 : ∀ (p s l : V), get [(txt "PublicKey", p), (txt "Signature", s), (txt "KeyList", l)] "PublicKey" = some p :=
    fun _ _ _ => rfl
  have h2 : ∀ (p s l : V), get [(txt "PublicKey", p), (txt "Signature", s), (txt "KeyList", l)] "Signature" = some s :=
    fun _ _ _ => rfl
  have h3 : ∀ (p s l : V), get [(txt "PublicKey", p), (txt "Signature", s), (txt "KeyList", l)] "KeyList" = some l :=
    fun _ _ _ => rfl
  have hr : fix32 root = root := by simp [fix32, hroot, List.take_of_length_le]
  unfold getVerifyList
  simp only [h1, h2, h3, Option.isNone_some, Bool.or_self, Bool.false_eq_true, if_false, mustStr, Res.bind,
    unhex_hex, orErr, hr, ne_eq, not_true_eq_false, hv, if_true, keysOf_text ks hks]

/-- C96 is violated: from a signed empty list the client takes over one key, of 32 zero bytes. -/
theorem C96_empty_violated (P : Prims) (root sig : Bytes) (hroot : root.length = 32)
    (hv : P.verify root (keyText []) sig = true) :
    getVerifyList P root (.data [(txt "PublicKey", .str (hex root)), (txt "Signature", .str (hex sig)),
      (txt "KeyList", .str (keyText []))]) = .ok [List.replicate 32 0] := by
  have h1 : ∀ (p s l : V), get [(txt "PublicKey", p), (txt "Signature", s), (txt "KeyList", l)] "PublicKey" = some p :=
    fun _ _ _ => rfl
  have h2 : ∀ (p s l : V), get [(txt "PublicKey", p), (txt "Signature", s), (txt "KeyList", l)] "Signature" = some s :=
    fun _ _ _ => rfl
  have h3 : ∀ (p s l : V), get [(txt "PublicKey", p), (txt "Signature", s), (txt "KeyList", l)] "KeyList" = some l :=
    fun _ _ _ => rfl
  have hr : fix32 root = root := by simp [fix32, hroot, List.take_of_length_le]
  have hk : keysOf (keyText []) = some [List.replicate 32 0] := by decide +kernel
  unfold getVerifyList
  simp only [h1, h2, h3, Option.isNone_some, Bool.or_self, Bool.false_eq_true, if_false, mustStr, Res.bind,
    unhex_hex, orErr, hr, ne_eq, not_true_eq_false, hv, if_true, hk]

/-- Primitives for the examples: the signature of a text is the text. -/
def exPrims : Prims := ⟨id, fun _ m => m, fun _ m s => m == s && m != [] && decide (m = keyText [List.replicate 32 7, List.replicate 32 9])⟩

/-- Non-vacuity of `C96_published_partial` and `C96_accepted`. -/
example : ∃ a, getVerifyList exPrims (List.replicate 32 1) a = .ok [List.replicate 32 7, List.replicate 32 9] ∧
    ∀ a keys, getVerifyList exPrims (List.replicate 32 1) a = .ok keys → keys ∈ [[List.replicate 32 7, List.replicate 32 9]] :=
  ⟨_, C96_accepted exPrims (List.replicate 32 1) (keyText [List.replicate 32 7, List.replicate 32 9]) rfl
      [List.replicate 32 7, List.replicate 32 9] (by simp) (by decide +kernel),
    fun a keys h => C96_published_partial exPrims _ [[List.replicate 32 7, List.replicate 32 9]]
      (fun l s hv => ⟨_, List.mem_singleton_self _, by
        simp only [exPrims, Bool.and_eq_true, decide_eq_true_eq] at hv
        exact hv.2⟩)
      (fun ks hks => by
        rw [List.mem_singleton.mp hks]
        exact ⟨by simp, by decide⟩) a keys h⟩

/-- Non-vacuity of `C96_empty_violated`. -/
example : getVerifyList ⟨id, fun _ m => m, fun _ m s => m == s⟩ (List.replicate 32 1)
    (.data [(txt "PublicKey", .str (hex (List.replicate 32 1))), (txt "Signature", .str (hex [])), (txt "KeyList", .str (keyText []))]) =
    .ok [List.replicate 32 0] := C96_empty_violated _ _ [] rfl rfl

end Verif.Guard.Rpc
