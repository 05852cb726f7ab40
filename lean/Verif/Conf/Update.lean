/-
Fetching the configuration: C32, C35 and C81.
-/
import Verif.Conf.Props

namespace Verif.Conf
open Verif.Mix (unhex atoi fix32)

/-! ### Helpers -/

theorem tryAll_some {α : Type} {f : Bytes → Option α} {us : List Bytes} {i j : Nat} {a : α}
    (h : tryAll f us i = some (j, a)) : ∃ u ∈ us, f u = some a := by
  induction us generalizing i with
  | nil => cases h
  | cons u us ih =>
    unfold tryAll at h
    split at h
    · rename_i b hb
      cases h
      exact ⟨u, List.mem_cons_self .., hb⟩
    · obtain ⟨u', h1, h2⟩ := ih h
      exact ⟨u', List.mem_cons_of_mem _ h1, h2⟩

theorem tryAll_index {α : Type} {f : Bytes → Option α} {us : List Bytes} {i j : Nat} {a : α}
    (h : tryAll f us i = some (j, a)) : i ≤ j ∧ j < i + us.length := by
  induction us generalizing i with
  | nil => cases h
  | cons u us ih =>
    unfold tryAll at h
    split at h
    · cases h; simp
    · have := ih h
      simp only [List.length_cons]
      omega

/-- The configuration is acceptable to a client whose last date is `last`: signed with the key
over its sorted entries and its date, at most four hours from the client's clock, and not
older than `last`. -/
def Acceptable (P : Prims) (pub : Bytes) (now last : UInt64) (sm : SignedMap) : Prop :=
  P.verify (fix32 pub) (P.sha512 (imageBytes (sortMap sm.config)) ++ be64 sm.signDate.toNat) sm.signature = true ∧
  now.toNat ≤ sm.signDate.toNat + 14400 ∧ sm.signDate.toNat ≤ now.toNat + 14400 ∧ last.toNat ≤ sm.signDate.toNat

theorem diff_le {a b : UInt64} : ¬ 14400 < diff a b ↔ a.toNat ≤ b.toNat + 14400 ∧ b.toNat ≤ a.toNat + 14400 := by
  unfold diff
  split
  · rename_i h
    rw [UInt64.lt_iff_toNat_lt] at *
    rw [UInt64.toNat_sub_of_le _ _ (by rw [UInt64.le_iff_toNat_le]; omega)]
    simp; omega
  · rename_i h
    rw [UInt64.lt_iff_toNat_lt] at *
    rw [UInt64.toNat_sub_of_le _ _ (by rw [UInt64.le_iff_toNat_le]; omega)]
    simp; omega

/-- `Certify` accepts exactly the acceptable configurations. -/
theorem C32_certify_exact (P : Prims) (pub : Bytes) (now last : UInt64) (sm : SignedMap) :
    certify P now last pub sm = true ↔ Acceptable P pub now last sm := by
  unfold certify Acceptable
  by_cases h1 : 0 < last ∧ sm.signDate < last
  · rw [if_pos h1]
    rw [UInt64.lt_iff_toNat_lt, UInt64.lt_iff_toNat_lt] at h1
    simp only [Bool.false_eq_true, false_iff]
    rintro ⟨_, _, _, h⟩
    omega
  · rw [if_neg h1]
    rw [UInt64.lt_iff_toNat_lt, UInt64.lt_iff_toNat_lt] at h1
    have h0 : (0 : UInt64).toNat = 0 := rfl
    by_cases h2 : 14400 < diff now sm.signDate
    · rw [if_pos h2]
      simp only [Bool.false_eq_true, false_iff]
      rintro ⟨_, h3, h4, _⟩
      exact diff_le.mpr ⟨h3, h4⟩ h2
    · rw [if_neg h2]
      have := diff_le.mp h2
      constructor
      · intro h
        exact ⟨h, this.1, this.2, by omega⟩
      · exact fun h => h.1

theorem getConfig_some {P : Prims} {e : Env} {pub : Bytes} {last : UInt64} {u : Bytes} {sm : SignedMap}
    (h : getConfig P e pub last u = some sm) : e.cfg u = some sm ∧ Acceptable P pub e.now last sm := by
  unfold getConfig at h
  rw [Option.filter_eq_some_iff] at h
  exact ⟨h.1, (C32_certify_exact ..).mp h.2⟩

theorem caLoop_ok {P : Prims} {e : Env} {hash : Bytes} {us : List Bytes} {i j : Nat} {p : Bytes}
    (h : caLoop P e hash us i = .ok (j, p)) : (∃ u ∈ us, e.ca u = some p) ∧ cahash P p = .ok hash := by
  induction us generalizing i with
  | nil => cases h
  | cons u us ih =>
    unfold caLoop at h
    split at h
    · rename_i q hq
      cases h
      unfold getCACert at hq
      split at hq
      · cases hq
      · rename_i q' hq'
        rw [Res.bind_eq_ok] at hq
        obtain ⟨hh, h1, h2⟩ := hq
        split at h2
        · rename_i he
          cases h2
          exact ⟨⟨u, List.mem_cons_self .., hq'⟩, he ▸ h1⟩
        · cases h2
    · obtain ⟨⟨u', h1, h2⟩, h3⟩ := ih h
      exact ⟨⟨u', List.mem_cons_of_mem _ h1, h2⟩, h3⟩
    · cases h

/-- What `install` does: accept, fail or panic. -/
theorem install_cases (P : Prims) (e : Env) (srv : List Bytes) (sm : SignedMap) (c : Config) :
    (∃ ca k, install P e srv sm c = (⟨c.publicKey, ca, some sm.config, sm.signDate, k⟩, .ok ()) ∧
      (sm.config.lookup keyCA = none ∧ ca = c.caCert ∨
        ∃ h hb, sm.config.lookup keyCA = some h ∧ unhex h = some hb ∧
          (myHash P ca = .ok hb ∧ ca = c.caCert ∨ ∃ p, ca = some p ∧ cahash P p = .ok hb ∧ ∃ u ∈ srv, e.ca u = some p))) ∨
    (∃ ca k r, install P e srv sm c = (⟨c.publicKey, ca, c.map, c.lastSignDate, k⟩, r) ∧ r ≠ .ok ()) := by
  unfold install
  split
  · rename_i h
    exact .inl ⟨c.caCert, c.curServer, rfl, .inl ⟨h, rfl⟩⟩
  · rename_i h hh
    split
    · exact .inr ⟨_, _, _, rfl, nofun⟩
    · rename_i hb hhb
      split
      · exact .inr ⟨_, _, _, rfl, nofun⟩
      · exact .inr ⟨_, _, _, rfl, nofun⟩
      · rename_i my hmy
        split
        · rename_i he
          subst he
          exact .inl ⟨c.caCert, c.curServer, rfl, .inr ⟨h, my, hh, hhb, .inl ⟨hmy, rfl⟩⟩⟩
        · unfold fetchCA
          split
          · exact .inr ⟨_, _, _, rfl, nofun⟩
          · exact .inr ⟨_, _, _, rfl, nofun⟩
          · rename_i i p hp
            obtain ⟨h1, h2⟩ := caLoop_ok hp
            exact .inl ⟨some p, i, rfl, .inr ⟨h, hb, hh, hhb, .inr ⟨p, rfl, h2, h1⟩⟩⟩

/-- What an `Update` does. -/
theorem update_cases (P : Prims) (e : Env) (c : Config) :
    (∃ ca k sm, update P e c = (⟨c.publicKey, ca, some sm.config, sm.signDate, k⟩, .ok ()) ∧
      (∃ u ∈ e.servers, e.cfg u = some sm) ∧
      Acceptable P c.publicKey e.now (startDate e.now c.lastSignDate) sm ∧
      (sm.config.lookup keyCA = none ∧ ca = c.caCert ∨
        ∃ h hb, sm.config.lookup keyCA = some h ∧ unhex h = some hb ∧
          (myHash P ca = .ok hb ∧ ca = c.caCert ∨ ∃ p, ca = some p ∧ cahash P p = .ok hb ∧ ∃ u ∈ e.servers, e.ca u = some p))) ∨
    (∃ ca k l r, update P e c = (⟨c.publicKey, ca, c.map, l, k⟩, r) ∧ r ≠ .ok () ∧
      (l = c.lastSignDate ∨ l = startDate e.now c.lastSignDate)) := by
  unfold update
  split
  · exact .inr ⟨c.caCert, c.curServer, c.lastSignDate, _, rfl, nofun, .inl rfl⟩
  · simp only
    split
    · exact .inr ⟨_, _, _, _, rfl, nofun, .inr rfl⟩
    · split
      · exact .inr ⟨_, _, _, _, rfl, nofun, .inr rfl⟩
      · rename_i i sm h
        obtain ⟨u, hu, h1⟩ := tryAll_some h
        obtain ⟨h2, h3⟩ := getConfig_some h1
        have hu' := List.mem_of_mem_drop hu
        rcases install_cases P e (e.servers.drop i ++ e.servers.take i) sm
          { c with lastSignDate := startDate e.now c.lastSignDate, curServer := 0 } with ⟨ca, k, h4, h5⟩ | ⟨ca, k, r, h4, h5⟩
        · refine .inl ⟨ca, k, sm, h4, ⟨u, hu', h2⟩, h3, ?_⟩
          rcases h5 with h5 | ⟨h, hb, e1, e2, h5 | ⟨p, h6, h7, v, hv, h8⟩⟩
          · exact .inl h5
          · exact .inr ⟨h, hb, e1, e2, .inl h5⟩
          · refine .inr ⟨h, hb, e1, e2, .inr ⟨p, h6, h7, v, ?_, h8⟩⟩
            rcases List.mem_append.mp hv with hv | hv
            · exact List.mem_of_mem_drop hv
            · exact List.mem_of_mem_take hv
        · exact .inr ⟨ca, k, _, r, h4, h5, .inr rfl⟩

/-! ### C32 rollback protection -/

/-- A successful update stores the entries and the date of one configuration that one of
the servers delivered and that is acceptable. -/
theorem C32_accepted (P : Prims) (e : Env) (c c' : Config) (h : update P e c = (c', .ok ())) :
    ∃ u ∈ e.servers, ∃ sm, e.cfg u = some sm ∧ Acceptable P c.publicKey e.now (startDate e.now c.lastSignDate) sm ∧
      c'.map = some sm.config ∧ c'.lastSignDate = sm.signDate ∧ c'.publicKey = c.publicKey := by
  rcases update_cases P e c with ⟨ca, k, sm, h1, ⟨u, hu, h2⟩, h3, _⟩ | ⟨ca, k, l, r, h1, h2, _⟩
  · rw [h1] at h
    cases h
    exact ⟨u, hu, sm, h2, h3, rfl, rfl, rfl⟩
  · rw [h1] at h
    cases h
    exact absurd rfl h2

/-- An update that fails keeps the configuration and its date. -/
theorem C32_failed_keeps (P : Prims) (e : Env) (c c' : Config) (r : Res Unit Unit) (h : update P e c = (c', r)) (hr : r ≠ .ok ()) :
    c'.map = c.map ∧ c'.publicKey = c.publicKey ∧ (c.lastSignDate ≠ 0 → c'.lastSignDate = c.lastSignDate) := by
  rcases update_cases P e c with ⟨ca, k, sm, h1, _⟩ | ⟨ca, k, l, r', h1, h2, h3⟩
  · rw [h1] at h
    cases h
    exact absurd rfl hr
  · rw [h1] at h
    cases h
    refine ⟨rfl, rfl, fun h0 => ?_⟩
    rcases h3 with h3 | h3
    · exact h3
    · simpa [startDate, h0] using h3

theorem update_mono (P : Prims) (e : Env) (c : Config) : c.lastSignDate.toNat ≤ (update P e c).1.lastSignDate.toNat := by
  by_cases h0 : c.lastSignDate = 0
  · rw [h0]; exact Nat.zero_le _
  · have hs : startDate e.now c.lastSignDate = c.lastSignDate := by simp [startDate, h0]
    rcases update_cases P e c with ⟨ca, k, sm, h1, _, h3, _⟩ | ⟨ca, k, l, r', h1, h2, h3⟩
    · rw [h1]
      have := h3.2.2.2
      rw [hs] at this
      exact this
    · rw [h1]
      rcases h3 with h3 | h3
      · simp [h3]
      · simp [h3, hs]

/-- Over every sequence of updates the date never decreases. -/
theorem C32_date_monotone (P : Prims) (es : List Env) (c : Config) :
    c.lastSignDate.toNat ≤ (updates P es c).1.lastSignDate.toNat := by
  induction es generalizing c with
  | nil => exact Nat.le_refl _
  | cons e es ih =>
    have h := update_mono P e c
    unfold updates
    split
    · rename_i c' h1
      rw [h1] at h; exact h
    · rename_i c' r _ h1
      rw [h1] at h
      exact Nat.le_trans h (ih c')

/-- The stored entries carry a valid signature that covers the stored date (or the date 0,
1 January 1970, which counts as no date). -/
def StoredSigned (P : Prims) (c : Config) : Prop :=
  ∀ m, c.map = some m → ∃ sig d, (d = c.lastSignDate ∨ d = 0) ∧
    P.verify (fix32 c.publicKey) (P.sha512 (imageBytes (sortMap m)) ++ be64 d.toNat) sig = true

/-- After every sequence of updates of a new client, whatever the servers reply, the stored
configuration carries a valid signature of the client's key. -/
theorem C32_stored_signed (P : Prims) (es : List Env) (c : Config) (h0 : c.map = none) :
    (updates P es c).1.publicKey = c.publicKey ∧ StoredSigned P (updates P es c).1 := by
  have step : ∀ (e : Env) (c : Config), StoredSigned P c →
      (update P e c).1.publicKey = c.publicKey ∧ StoredSigned P (update P e c).1 := by
    intro e c hc
    rcases update_cases P e c with ⟨ca, k, sm, h1, _, h3, _⟩ | ⟨ca, k, l, r', h1, h2, h3⟩
    · rw [h1]
      refine ⟨rfl, ?_⟩
      intro m hm
      cases hm
      exact ⟨sm.signature, sm.signDate, .inl rfl, h3.1⟩
    · rw [h1]
      refine ⟨rfl, ?_⟩
      intro m hm
      obtain ⟨sig, d, h4, h5⟩ := hc m hm
      refine ⟨sig, d, ?_, h5⟩
      by_cases hz : c.lastSignDate = 0
      · right
        rcases h4 with h4 | h4
        · rw [h4, hz]
        · exact h4
      · rcases h4 with h4 | h4
        · left
          rcases h3 with h3 | h3
          · simp [h3, h4]
          · simp [h3, h4, startDate, hz]
        · exact .inr h4
  have key : ∀ (es : List Env) (c : Config), StoredSigned P c →
      (updates P es c).1.publicKey = c.publicKey ∧ StoredSigned P (updates P es c).1 := by
    intro es
    induction es with
    | nil => exact fun c hc => ⟨rfl, hc⟩
    | cons e es ih =>
      intro c hc
      have h := step e c hc
      unfold updates
      split
      · rename_i c' h1
        rw [h1] at h; exact h
      · rename_i c' r _ h1
        rw [h1] at h
        have := ih c' h.2
        exact ⟨this.1.trans h.1, this.2⟩
  exact key es c (fun m hm => by rw [h0] at hm; cases hm)

/-- A configuration that was signed with the client's key, is fresh, and is delivered by
the first server is accepted; other servers have no influence. -/
theorem C32_fresh_accepted (P : Prims) (e : Env) (c : Config) (u : Bytes) (us : List Bytes) (sm : SignedMap)
    (hs : e.servers = u :: us) (hc : c.curServer = 0) (hu : e.cfg u = some sm)
    (ha : Acceptable P c.publicKey e.now (startDate e.now c.lastSignDate) sm)
    (hn : sm.config.lookup keyCA = none) :
    update P e c = ({ c with map := some sm.config, lastSignDate := sm.signDate }, .ok ()) := by
  unfold update
  rw [if_neg (by rw [hs]; nofun)]
  simp only [hs, hc, List.length_cons, List.drop_zero, tryAll, getConfig, hu, Option.filter]
  rw [(C32_certify_exact ..).mpr ha]
  simp only [Nat.le_zero_eq, Nat.add_one_ne_zero, if_false, if_true]
  unfold install
  rw [hn]
  simp only [accept, hc]

/-! ### C81 the CA certificate -/

/-- After a successful update with a configured hash the client has the certificate with
this hash: its own old one or one that a server delivered. Without a configured hash the
certificate is not touched. -/
theorem C81_certificate_matches (P : Prims) (e : Env) (c c' : Config) (m : SMap)
    (h : update P e c = (c', .ok ())) (hm : c'.map = some m) :
    (m.lookup keyCA = none → c'.caCert = c.caCert) ∧
    (∀ t, m.lookup keyCA = some t → t ≠ [] → ∃ ca b, c'.caCert = some ca ∧ P.pem ca = some b ∧ P.x509 b = true ∧
      unhex t = some (P.sha512 b) ∧ (c.caCert = some ca ∨ ∃ u ∈ e.servers, e.ca u = some ca)) := by
  have hash : ∀ ca hb, cahash P ca = .ok hb → ∃ b, P.pem ca = some b ∧ P.x509 b = true ∧ hb = P.sha512 b := by
    intro ca hb hh
    unfold cahash at hh
    split at hh
    · cases hh
    · rename_i b hb'
      split at hh
      · rename_i hx
        cases hh
        exact ⟨b, hb', hx, rfl⟩
      · cases hh
  have hex : ∀ t : Bytes, unhex t = some [] → t = [] := by
    intro t ht
    match t with
    | [] => rfl
    | [_] => simp [unhex] at ht
    | a :: b :: r => simp [unhex, Option.bind_eq_some_iff] at ht
  rcases update_cases P e c with ⟨ca, k, sm, h1, _, h3, h4⟩ | ⟨ca, k, l, r', h1, h2, h3⟩
  · rw [h1] at h
    cases h
    cases hm
    rcases h4 with ⟨h5, h6⟩ | ⟨t, hb, h5, h6, h7⟩
    · exact ⟨fun _ => h6, (fun t ht => by rw [h5] at ht; cases ht)⟩
    · refine ⟨(fun hn => by rw [h5] at hn; cases hn), ?_⟩
      intro t' ht' hne
      rw [h5] at ht'
      cases ht'
      rcases h7 with ⟨h7, h8⟩ | ⟨p, h7, h8, h9⟩
      · cases ca with
        | none =>
          unfold myHash at h7
          cases h7
          exact absurd (hex t h6) hne
        | some ca =>
          obtain ⟨b, h9, h10, h11⟩ := hash ca hb h7
          exact ⟨ca, b, rfl, h9, h10, h11 ▸ h6, .inl h8.symm⟩
      · obtain ⟨b, h10, h11, h12⟩ := hash p hb h8
        exact ⟨p, b, h7, h10, h11, h12 ▸ h6, .inr h9⟩
  · rw [h1] at h
    cases h
    exact absurd rfl h2

/-! ### Example environments -/

def exP : Prims where
  sha512 := fun b => b.take 1
  sign := fun _ b => b
  verify := fun _ b s => b == s
  pem := fun b => if b.take 1 = [45] then some (b.drop 1) else none
  x509 := fun _ => true

def exSigned (m : SMap) (t : UInt64) : SignedMap := ⟨m, signed exP (sortMap m) t, t⟩
def exConfig : Config := ⟨[], none, none, 0, 0⟩

/-- One server with a configuration that names a CA certificate. -/
def exEnv (ca : Option Bytes) : Env where
  now := 100000
  servers := [[1]]
  cfg := fun _ => some (exSigned [(keyCA, [48, 55])] 100000)
  ca := fun _ => ca

example : (update exP (exEnv (some [45, 7])) exConfig).2 = .ok () ∧
    (update exP (exEnv (some [45, 7])) exConfig).1.caCert = some [45, 7] ∧
    (update exP (exEnv (some [45, 7])) exConfig).1.lastSignDate = 100000 := by decide +kernel
example : Acceptable exP [] 100000 17200 (exSigned [([97], [98])] 100000) :=
  (C32_certify_exact ..).mp (by decide +kernel)

/-- C81, violation: the servers deliver a good configuration but no certificate. The update
fails, the configuration stays, but the client has lost the certificate it had. -/
theorem C81_certificate_lost :
    let c : Config := { exConfig with caCert := some [45, 9] }
    (update exP (exEnv none) c).2 = .err () ∧ (update exP (exEnv none) c).1.caCert = none := by decide +kernel

/-! ### C35 panics -/

/-- C35, violation: after an update for which no server gave an acceptable answer, the next
update panics, whatever the servers reply, if there are not more servers than before. -/
theorem C35_second_update_panics (P : Prims) (e e' : Env) (c : Config)
    (hs : e.servers ≠ []) (hc : c.curServer < e.servers.length)
    (hf : ∀ u ∈ e.servers, e.cfg u = none) (hs' : e'.servers ≠ []) (hl : e'.servers.length ≤ e.servers.length) :
    ∃ c', update P e c = (c', .err ()) ∧ ∃ c'', update P e' c' = (c'', .panic) := by
  have h1 : ∀ (last : UInt64) (us : List Bytes) (i : Nat), (∀ u ∈ us, u ∈ e.servers) → tryAll (getConfig P e c.publicKey last) us i = none := by
    intro last us
    induction us with
    | nil => intros; rfl
    | cons u us ih =>
      intro i hu
      unfold tryAll
      rw [show getConfig P e c.publicKey last u = none by
        unfold getConfig; rw [hf u (hu u (List.mem_cons_self ..))]; rfl]
      exact ih _ (fun x hx => hu x (List.mem_cons_of_mem _ hx))
  refine ⟨{ c with lastSignDate := startDate e.now c.lastSignDate, curServer := e.servers.length }, ?_, ?_⟩
  · unfold update
    rw [if_neg hs]
    simp only
    rw [if_neg (by omega), h1 _ _ _ (fun u hu => List.mem_of_mem_drop hu)]
  · refine ⟨{ c with lastSignDate := startDate e'.now (startDate e.now c.lastSignDate), curServer := e.servers.length }, ?_⟩
    unfold update
    rw [if_neg hs']
    simp only
    rw [if_pos hl]

/-- C35, violation: a server that delivers something that is not PEM as the CA certificate
crashes the client. -/
theorem C35_not_pem_panics : (update exP (exEnv (some [1, 2, 3])) exConfig).2 = .panic := by decide +kernel

theorem caLoop_no_panic {P : Prims} {e : Env} {hash : Bytes} {us : List Bytes} {i : Nat}
    (h : ∀ u ∈ us, ∀ p, e.ca u = some p → P.pem p ≠ none) : caLoop P e hash us i ≠ .panic := by
  induction us generalizing i with
  | nil => nofun
  | cons u us ih =>
    unfold caLoop
    split
    · nofun
    · exact ih (fun v hv => h v (List.mem_cons_of_mem _ hv))
    · rename_i hp
      exfalso
      unfold getCACert at hp
      split at hp
      · cases hp
      · rename_i p hp'
        have := h u (List.mem_cons_self ..) p hp'
        unfold cahash at hp
        split at hp
        · contradiction
        · split at hp
          · rw [Res.bind_ok] at hp
            split at hp <;> cases hp
          · cases hp

/-- C35, partial: an update does not panic if the last one did not leave the client behind
the end of the list, and if the own certificate and those that the servers deliver are
PEM. What is missing are the two violations above. -/
theorem C35_no_panic_partial (P : Prims) (e : Env) (c : Config) (hc : c.curServer < e.servers.length)
    (h1 : ∀ p, c.caCert = some p → P.pem p ≠ none)
    (h2 : ∀ u ∈ e.servers, ∀ p, e.ca u = some p → P.pem p ≠ none) : (update P e c).2 ≠ .panic := by
  unfold update
  split
  · nofun
  · simp only
    rw [if_neg (by omega)]
    split
    · nofun
    · rename_i i sm h
      unfold install
      split
      · nofun
      · split
        · nofun
        · split
          · rename_i hm
            exfalso
            simp only at hm
            unfold myHash at hm
            split at hm
            · cases hm
            · rename_i ca hca
              have := h1 ca hca
              unfold cahash at hm
              split at hm
              · contradiction
              · split at hm <;> cases hm
          · nofun
          · split
            · nofun
            · unfold fetchCA
              split
              · rename_i hp
                refine absurd hp (caLoop_no_panic ?_)
                intro u hu
                apply h2 u
                rcases List.mem_append.mp hu with hu | hu
                · exact List.mem_of_mem_drop hu
                · exact List.mem_of_mem_take hu
              · nofun
              · nofun

/-- After a successful update the next one starts inside the list, so a client whose
updates all succeed never meets the first violation. -/
theorem C35_success_keeps_index (P : Prims) (e : Env) (c c' : Config) (h : update P e c = (c', .ok ())) :
    c'.curServer < e.servers.length := by
  have hloop : ∀ (hash : Bytes) (us : List Bytes) (i j : Nat) (p : Bytes), caLoop P e hash us i = .ok (j, p) → j < i + us.length := by
    intro hash us
    induction us with
    | nil => intro i j p h; cases h
    | cons u us ih =>
      intro i j p h
      unfold caLoop at h
      split at h
      · cases h; simp
      · have := ih _ _ _ h
        simp only [List.length_cons]; omega
      · cases h
  unfold update at h
  split at h
  · cases h
  · rename_i hs
    have hpos : 0 < e.servers.length := List.length_pos_iff.mpr hs
    simp only at h
    split at h
    · cases h
    · split at h
      · cases h
      · rename_i i sm hi
        unfold install at h
        split at h
        · cases h; exact hpos
        · split at h
          · cases h
          · split at h
            · cases h
            · cases h
            · split at h
              · cases h; exact hpos
              · unfold fetchCA at h
                split at h
                · cases h
                · cases h
                · rename_i j p hp
                  cases h
                  have := hloop _ _ _ _ _ hp
                  simp only [List.length_append, List.length_drop, List.length_take] at this
                  simp only
                  omega

/-- Non-vacuity: a first update against silent servers, then a good one. -/
example : (update exP { exEnv none with cfg := fun _ => none } exConfig).2 = .err () ∧
    (update exP (exEnv (some [45, 7])) (update exP { exEnv none with cfg := fun _ => none } exConfig).1).2 = .panic := by
  decide +kernel

end Verif.Conf
