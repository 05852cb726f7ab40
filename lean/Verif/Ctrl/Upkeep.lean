/-
The upkeep commands (ctrlengine/upkeep.go:33-93 and 322-407): `upkeep all` and `upkeep accounts`.

What they talk to is an environment: the clock, the wallet and the mix servers, each with any
behaviour. Times of the clock and durations are in nanoseconds, times in the database in seconds.
Parsing a duration (`time.ParseDuration`) is outside of the model; `none` is a text that is no
duration. Time passes in the calls to the environment.
-/
import Verif.Ctrl.Fetch

namespace Verif.Ctrl.Upkeep
open Verif.Sql Verif.Msgdb

/-- The world around the control engine. -/
structure Env (σ : Type) where
  /-- `time.Now()` -/
  clock : σ → Int
  /-- `mixclient.DefaultAccountServer` (mix/client/init.go:38), a round robin of account servers. -/
  default : Bytes
  /-- `wallet.GetToken(ce.client, def.AccdUsage, def.AccdOwner)`: a token, or an error. -/
  token : σ → σ × Option Bytes
  /-- A call of `LoadAccount` on a server with an account key and a token; the server's answer names
  the server of the account. -/
  load : σ → Bytes → Bytes → Bytes → σ × Option Bytes
  /-- A call of `AccountStat` on a server with an account key. -/
  stat : σ → Bytes → Bytes → σ × Option Int
  /-- `ce.client.UnlockToken`, -/
  unlock : σ → Bytes → σ
  /-- `ce.client.DelToken`. -/
  del : σ → Bytes → σ

inductive UErr
  | db (e : Err)
  | identity
  | duration
  | wallet
  | pay
  | stat
  deriving DecidableEq, Repr

/-- What happens to tokens. -/
inductive Ev
  | took (token : Bytes)
  | paid (key token : Bytes)
  | refused (key token : Bytes)
  | freed (token : Bytes)
  | gone (token : Bytes)
  deriving DecidableEq, Repr

/-- The environment, the database and what happened to tokens so far. -/
structure St (σ : Type) where
  w : σ
  db : Db
  log : List Ev

/-- `t.Unix()`. -/
def unix (t : Int) : Int := t / 1000000000

/-- `checkExecution` (upkeep.go:35-58) at the time `clock`: the time to record if the command is to
be executed. -/
def checkExecution (clock : Int) (period : Option Int) (past : Except Err Int) : Except UErr (Option Int) :=
  match period with
  | none => .error .duration
  | some d =>
    if d = 0 then .ok (some (unix clock))
    else match past with
      | .error e => .error (.db e)
      | .ok p => if p ≠ 0 ∧ clock < p * 1000000000 + d then .ok none else .ok (some (unix clock))

variable {σ : Type}

/-- A token from the wallet. The calls about tokens are recorded. -/
def callToken (E : Env σ) (s : St σ) : St σ × Option Bytes :=
  match E.token s.w with
  | (w, none) => ({ s with w }, none)
  | (w, some t) => ({ s with w, log := s.log ++ [.took t] }, some t)

/-- Pay for an account at a server. -/
def callLoad (E : Env σ) (s : St σ) (server key token : Bytes) : St σ × Option Bytes :=
  match E.load s.w server key token with
  | (w, none) => ({ s with w, log := s.log ++ [.refused key token] }, none)
  | (w, some u) => ({ s with w, log := s.log ++ [.paid key token] }, some u)

/-- Give a token back. -/
def callUnlock (E : Env σ) (s : St σ) (token : Bytes) : St σ := { s with w := E.unlock s.w token, log := s.log ++ [.freed token] }

/-- Delete a token. -/
def callDel (E : Env σ) (s : St σ) (token : Bytes) : St σ := { s with w := E.del s.w token, log := s.log ++ [.gone token] }

/-- `PayAccount` (mix/client/accountrpc.go:24-83). The known server is not used: `payAccount` tests
its own result `server`, which is empty, instead of `serverKnown` (accountrpc.go:51-54). The
repetitions after a replay error are part of the environment. -/
def payAccount (E : Env σ) (s : St σ) (key token _serverKnown : Bytes) : St σ × Option Bytes := callLoad E s E.default key token

/-- Ask for the time of the account and record it (upkeep.go:364-371, 386-393). -/
def refresh (E : Env σ) (I : Ids) (my c : Bytes) (a : Account) (s : St σ) : St σ × Except UErr Int :=
  match E.stat s.w a.server a.privkey with
  | (w, none) => ({ s with w }, .error .stat)
  | (w, some t) =>
    match s.db.setAccountTime I my c t with
    | .error e => ({ s with w }, .error (.db e))
    | .ok db => ({ s with w, db }, .ok t)

/-- Extend an account (upkeep.go:375-393). -/
def extend (E : Env σ) (I : Ids) (my c : Bytes) (a : Account) (s : St σ) : St σ × Except UErr Unit :=
  match callToken E s with
  | (s, none) => (s, .error .wallet)
  | (s, some t) =>
    match payAccount E s a.privkey t a.server with
    | (s, none) => (callUnlock E s t, .error .pay)
    | (s, some _) =>
      match refresh E I my c a (callDel E s t) with
      | (s, .error e) => (s, .error e)
      | (s, .ok _) => (s, .ok ())

/-- One account of the loop (upkeep.go:355-394). -/
def account (E : Env σ) (I : Ids) (my : Bytes) (remain : Int) (s : St σ) (c : Bytes) : St σ × Except UErr Unit :=
  match s.db.getAccount I my c with
  | .error e => (s, .error (.db e))
  | .ok a =>
    match (if a.loadTime = 0 then refresh E I my c a s else (s, .ok a.loadTime)) with
    | (s, .error e) => (s, .error e)
    | (s, .ok last) => if last ≤ unix (E.clock s.w) + remain.tdiv 1000000000 then extend E I my c a s else (s, .ok ())

/-- The loop over the accounts. -/
def accounts (E : Env σ) (I : Ids) (my : Bytes) (remain : Int) : St σ → List Bytes → St σ × Except UErr Unit
  | s, [] => (s, .ok ())
  | s, c :: l =>
    match account E I my remain s c with
    | (s, .error e) => (s, .error e)
    | (s, .ok ()) => accounts E I my remain s l

/-- The execution of `upkeep accounts` (upkeep.go:345-400). -/
def execute (E : Env σ) (I : Ids) (my : Bytes) (remaining : Option Int) (now : Int) (s : St σ) : St σ × Except UErr Bool :=
  match remaining with
  | none => (s, .error .duration)
  | some remain =>
    match s.db.getAccounts I my with
    | .error e => (s, .error (.db e))
    | .ok l =>
      match accounts E I my remain s l with
      | (s, .error e) => (s, .error e)
      | (s, .ok ()) =>
        match s.db.setUpkeepAccounts I my now with
        | .error e => (s, .error (.db e))
        | .ok db => ({ s with db }, .ok true)

/-- `upkeepAccounts` (upkeep.go:322-400): whether it was due. -/
def upkeepAccounts (E : Env σ) (I : Ids) (id : Bytes) (period remaining : Option Int) (s : St σ) : St σ × Except UErr Bool :=
  match I.map id with
  | none => (s, .error .identity)
  | some my =>
    match checkExecution (E.clock s.w) period (s.db.getUpkeepAccounts I my) with
    | .error e => (s, .error e)
    | .ok none => (s, .ok false)
    | .ok (some now) => execute E I my remaining now s

/-- 2160 hours (upkeep.go:85). -/
def ninetyDays : Int := 2160 * 3600 * 1000000000

/-- `upkeepAll` (upkeep.go:60-93): whether it was due. -/
def upkeepAll (E : Env σ) (I : Ids) (id : Bytes) (period : Option Int) (s : St σ) : St σ × Except UErr Bool :=
  match I.map id with
  | none => (s, .error .identity)
  | some my =>
    match checkExecution (E.clock s.w) period (s.db.getUpkeepAll I my) with
    | .error e => (s, .error e)
    | .ok none => (s, .ok false)
    | .ok (some now) =>
      match upkeepAccounts E I id period (some ninetyDays) s with
      | (s, .error e) => (s, .error e)
      | (s, .ok _) =>
        match s.db.setUpkeepAll I my now with
        | .error e => (s, .error (.db e))
        | .ok db => ({ s with db }, .ok true)

/-! ### the database -/

variable {I : Ids} {db db' : Db}

theorem setTime_same {my c : Bytes} {t : Int} {a : Account} (ha : db.getAccount I my c = .ok a) :
    ∃ db', db.setAccountTime I my c t = .ok db' ∧ db'.getAccount I my c = .ok { a with loadTime := t } := by
  unfold Db.getAccount at ha
  split at ha
  · cases ha
  rename_i u v hp
  split at ha
  · cases ha
  rename_i r hr
  injection ha with ha; subst ha
  unfold Db.setAccountTime
  simp only [hp]
  refine ⟨_, rfl, ?_⟩
  have hp2 : ∀ t, ({ db with accounts := t } : Db).pair I my c = .ok (u, v) := fun _ => hp
  simp only [Db.getAccount, hp2]
  rw [first_update _ _ _ _ fun a _ => by simp only [isAccount], hr]
  simp only [Option.map_some, (first_mem hr).2, if_true]

theorem setTime_other (hw : WF I db) {my c c' : Bytes} {t : Int} (hne : c' ≠ c) (h : db.setAccountTime I my c t = .ok db') :
    db'.getAccount I my c' = db.getAccount I my c' := by
  unfold Db.setAccountTime at h
  split at h
  · cases h
  rename_i u v hp
  injection h with h; subst h
  have hpt : ∀ t, ({ db with accounts := t } : Db).pair I my c' = db.pair I my c' := fun _ => rfl
  unfold Db.getAccount
  rw [hpt]
  cases hp' : db.pair I my c' with
  | error e => rfl
  | ok r =>
    obtain ⟨u', v'⟩ := r
    simp only
    rw [first_update _ _ _ _ fun a _ => by simp only [isAccount]]
    cases hr : first (isAccount u' v') db.accounts with
    | none => rfl
    | some r =>
      simp only [Option.map_some]
      have h1 := (first_mem hr).2
      rw [if_neg]
      intro hi
      simp only [isAccount, Bool.and_eq_true, beq_iff_eq] at h1 hi
      have : (u', v') = (u, v) := by rw [← h1.1, ← h1.2, hi.1, hi.2]
      rw [this] at hp'
      exact hne (pair_cases hw hp' hp).2

theorem setTime_wf (hw : WF I db) {my c : Bytes} {t : Int} (h : db.setAccountTime I my c t = .ok db') : WF I db' := by
  unfold Db.setAccountTime at h
  split at h
  · cases h
  injection h with h; subst h
  exact wf_account hw _ _ fun _ => ⟨rfl, rfl⟩

theorem setTime_nyms {my c : Bytes} {t : Int} (h : db.setAccountTime I my c t = .ok db') : db'.nyms = db.nyms ∧ db'.contacts = db.contacts := by
  unfold Db.setAccountTime at h
  split at h
  · cases h
  injection h with h; subst h
  exact ⟨rfl, rfl⟩

theorem setUpkeep_get {my : Bytes} {t : Int} (h : db.setUpkeepAccounts I my t = .ok db') (c : Bytes) :
    db'.getAccount I my c = db.getAccount I my c := by
  unfold Db.setUpkeepAccounts at h
  split at h
  · cases h
  injection h with h; subst h
  have hn := nymUID_update (db := db) (fun n : Nym => n.mapped == my) (fun n => { n with upkeepAccounts := t }) (fun _ => rfl)
  have hc : ∀ u m, ({ db with nyms := update (fun n : Nym => n.mapped == my) (fun n => { n with upkeepAccounts := t }) db.nyms } : Db).contactUID u m = db.contactUID u m :=
    fun _ _ => rfl
  unfold Db.getAccount Db.pair
  simp only [hn, hc]

/-! ### one account -/

/-- Time does not run backwards. -/
structure Mono (E : Env σ) : Prop where
  token : ∀ w, E.clock w ≤ E.clock (E.token w).1
  load : ∀ w u k t, E.clock w ≤ E.clock (E.load w u k t).1
  stat : ∀ w u k, E.clock w ≤ E.clock (E.stat w u k).1
  unlock : ∀ w t, E.clock w ≤ E.clock (E.unlock w t)
  del : ∀ w t, E.clock w ≤ E.clock (E.del w t)

/-- What the treatment of the account `c` leaves alone. -/
structure Frame (E : Env σ) (I : Ids) (my c : Bytes) (s s' : St σ) : Prop where
  wf : WF I s'.db
  time : E.clock s.w ≤ E.clock s'.w
  other : ∀ c', c' ≠ c → s'.db.getAccount I my c' = s.db.getAccount I my c'
  nyms : s'.db.nyms = s.db.nyms
  own : ∀ a, s.db.getAccount I my c = .ok a → ∃ t, s'.db.getAccount I my c = .ok { a with loadTime := t }

theorem Frame.same {E : Env σ} {my c : Bytes} {s : St σ} (hw : WF I s.db) (w : σ) (log : List Ev) (h : E.clock s.w ≤ E.clock w) :
    Frame E I my c s ⟨w, s.db, log⟩ :=
  ⟨hw, h, fun _ _ => rfl, rfl, fun a ha => ⟨a.loadTime, ha⟩⟩

theorem Frame.trans {E : Env σ} {my c : Bytes} {s s' s'' : St σ} (h : Frame E I my c s s') (h' : Frame E I my c s' s'') : Frame E I my c s s'' :=
  ⟨h'.wf, Int.le_trans h.time h'.time, fun c' hc => (h'.other c' hc).trans (h.other c' hc), h'.nyms.trans h.nyms, fun a ha => by
    obtain ⟨t, ht⟩ := h.own a ha
    obtain ⟨t', ht'⟩ := h'.own _ ht
    exact ⟨t', ht'⟩⟩

theorem refresh_spec {E : Env σ} (hE : Mono E) {my c : Bytes} {a a0 : Account} {s : St σ} (hw : WF I s.db) (ha : s.db.getAccount I my c = .ok a0) :
    Frame E I my c s (refresh E I my c a s).1 ∧ (refresh E I my c a s).1.log = s.log ∧
    ∀ t, (refresh E I my c a s).2 = .ok t → (refresh E I my c a s).1.db.getAccount I my c = .ok { a0 with loadTime := t } ∧
      ∃ w, (E.stat w a.server a.privkey).2 = some t := by
  unfold refresh
  have h1 := hE.stat s.w a.server a.privkey
  cases hs : E.stat s.w a.server a.privkey with
  | mk w o =>
    rw [hs] at h1
    cases o with
    | none => exact ⟨.same hw _ _ h1, rfl, nofun⟩
    | some t =>
      obtain ⟨db', h2, h3⟩ := setTime_same (t := t) ha
      simp only [h2]
      refine ⟨⟨setTime_wf hw h2, h1, fun c' hc => setTime_other hw hc h2, (setTime_nyms h2).1, fun a' ha' => ?_⟩, trivial, fun t' ht => ?_⟩
      · rw [ha] at ha'; injection ha' with ha'; subst ha'
        exact ⟨t, h3⟩
      · injection ht with ht; subst ht
        exact ⟨h3, s.w, by rw [hs]⟩

/-- The calls about one token. -/
inductive Block (k : Bytes) : List Ev → Prop
  | paid (t : Bytes) : Block k [.took t, .paid k t, .gone t]
  | refused (t : Bytes) : Block k [.took t, .refused k t, .freed t]

theorem extend_eq (E : Env σ) (my c : Bytes) (a : Account) (s : St σ) : extend E I my c a s =
  match E.token s.w with
  | (w, none) => ({ s with w }, .error .wallet)
  | (w, some t) =>
    match E.load w E.default a.privkey t with
    | (w, none) => ({ s with w := E.unlock w t, log := s.log ++ [.took t, .refused a.privkey t, .freed t] }, .error .pay)
    | (w, some _) =>
      match refresh E I my c a { s with w := E.del w t, log := s.log ++ [.took t, .paid a.privkey t, .gone t] } with
      | (s, .error e) => (s, .error e)
      | (s, .ok _) => (s, .ok ()) := by
  unfold extend callToken
  cases ht : E.token s.w with
  | mk w o =>
    cases o with
    | none => rfl
    | some t =>
      simp only [payAccount, callLoad]
      cases hl : E.load w E.default a.privkey t with
      | mk w' o => cases o <;> simp only [callUnlock, callDel, List.append_assoc, List.cons_append, List.nil_append]

theorem extend_spec {E : Env σ} (hE : Mono E) {my c : Bytes} {a a0 : Account} {s : St σ} (hw : WF I s.db) (ha : s.db.getAccount I my c = .ok a0) :
    Frame E I my c s (extend E I my c a s).1 ∧
    ∃ new, (extend E I my c a s).1.log = s.log ++ new ∧ (new = [] ∨ Block a.privkey new) ∧
      ((extend E I my c a s).2 = .ok () → (∃ t, .paid a.privkey t ∈ new) ∧
        ∃ w t, (E.stat w a.server a.privkey).2 = some t ∧ (extend E I my c a s).1.db.getAccount I my c = .ok { a0 with loadTime := t }) := by
  rw [extend_eq]
  have h1 := hE.token s.w
  cases ht : E.token s.w with
  | mk w o =>
    rw [ht] at h1
    cases o with
    | none => exact ⟨.same hw _ _ h1, [], by simp⟩
    | some t =>
      simp only
      have h2 := hE.load w E.default a.privkey t
      cases hp : E.load w E.default a.privkey t with
      | mk w' o =>
        rw [hp] at h2
        simp only at h1 h2
        cases o with
        | none =>
          have h3 := hE.unlock w' t
          exact ⟨.same hw _ _ (Int.le_trans h1 (Int.le_trans h2 h3)), _, rfl, .inr (.refused t), nofun⟩
        | some v =>
          have h3 := hE.del w' t
          have hr := refresh_spec hE (s := { s with w := E.del w' t, log := s.log ++ [.took t, .paid a.privkey t, .gone t] }) (a := a) hw ha
          have h0 : Frame E I my c s { s with w := E.del w' t, log := s.log ++ [.took t, .paid a.privkey t, .gone t] } :=
            .same hw _ _ (Int.le_trans h1 (Int.le_trans h2 h3))
          simp only
          cases hq : refresh E I my c a { s with w := E.del w' t, log := s.log ++ [.took t, .paid a.privkey t, .gone t] } with
          | mk s' r =>
            rw [hq] at hr
            cases r with
            | error e => exact ⟨h0.trans hr.1, _, hr.2.1, .inr (.paid t), nofun⟩
            | ok v =>
              obtain ⟨q1, w, q2⟩ := hr.2.2 v rfl
              exact ⟨h0.trans hr.1, _, hr.2.1, .inr (.paid t), fun _ => ⟨⟨t, by simp⟩, w, v, q2, q1⟩⟩

theorem unix_mono {a b : Int} (h : a ≤ b) : unix a ≤ unix b := by unfold unix; omega

theorem account_spec {E : Env σ} (hE : Mono E) {my c : Bytes} {remain : Int} {a : Account} {s : St σ} (hw : WF I s.db) (ha : s.db.getAccount I my c = .ok a) :
    Frame E I my c s (account E I my remain s c).1 ∧
    ∃ new, (account E I my remain s c).1.log = s.log ++ new ∧ (new = [] ∨ Block a.privkey new) ∧
      (a.loadTime ≠ 0 → unix (E.clock (account E I my remain s c).1.w) + remain.tdiv 1000000000 < a.loadTime → new = []) ∧
      ((account E I my remain s c).2 = .ok () → ((∃ t, .paid a.privkey t ∈ new) ∧
          ∃ w t, (E.stat w a.server a.privkey).2 = some t ∧ (account E I my remain s c).1.db.getAccount I my c = .ok { a with loadTime := t }) ∨
        ∃ t, (account E I my remain s c).1.db.getAccount I my c = .ok { a with loadTime := t } ∧ unix (E.clock s.w) + remain.tdiv 1000000000 < t) := by
  unfold account
  simp only [ha]
  by_cases h0 : a.loadTime = 0
  · simp only [h0, if_true, ne_eq, not_true_eq_false, false_implies, true_and]
    have hr := refresh_spec hE (a := a) hw ha
    cases hq : refresh E I my c a s with
    | mk s1 r =>
      rw [hq] at hr
      obtain ⟨f1, f2, f3⟩ := hr
      cases r with
      | error e => exact ⟨f1, [], by simpa using f2, .inl rfl, nofun⟩
      | ok last =>
        simp only
        have f4 := (f3 last rfl).1
        split
        · obtain ⟨g1, new, g2, g3, g4⟩ := extend_spec hE (s := s1) (a := a) f1.wf f4
          refine ⟨f1.trans g1, new, ?_, g3, fun h => .inl (g4 h)⟩
          rw [g2, f2]
        · rename_i hl
          refine ⟨f1, [], by simpa using f2, .inl rfl, fun _ => .inr ⟨last, f4, ?_⟩⟩
          have := unix_mono f1.time
          simp only at this
          omega
  · simp only [h0, if_false]
    split
    · rename_i hl
      obtain ⟨g1, new, g2, g3, g4⟩ := extend_spec hE (s := s) (a := a) hw ha
      refine ⟨g1, new, g2, g3, fun _ hd => ?_, fun h => .inl (g4 h)⟩
      have := unix_mono g1.time
      omega
    · rename_i hl
      exact ⟨.same hw _ _ (Int.le_refl _), [], by simp, .inl rfl, fun _ _ => rfl, fun _ => .inr ⟨_, ha, by omega⟩⟩

end Verif.Ctrl.Upkeep
