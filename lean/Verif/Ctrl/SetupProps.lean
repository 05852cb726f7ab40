/-
C114: making the databases and changing their passphrase. C115: the configuration. C116: updates.
-/
import Verif.Ctrl.Setup

namespace Verif.Ctrl.Setup
open Verif.Conf (Config Settings initMute Usable settingsOf)
open Verif.Ctrl.Scan

/-! ### the monad -/

theorem bind_ok {α β : Type} {p : M α} {f : α → M β} {s t : St} {b : β} :
    (p >>= f) s = (t, .ok b) ↔ ∃ u a, p s = (u, .ok a) ∧ f a u = (t, .ok b) := by
  show andThen p f s = (t, .ok b) ↔ _
  unfold andThen
  cases h : p s with
  | mk u r =>
    cases r with
    | ok a => exact ⟨fun g => ⟨u, a, rfl, g⟩, fun ⟨u', a', e, g⟩ => by cases e; exact g⟩
    | err e => exact ⟨nofun, fun ⟨_, _, e, _⟩ => by cases e⟩
    | panic => exact ⟨nofun, fun ⟨_, _, e, _⟩ => by cases e⟩

theorem emit_ok {f : Disk → Disk} {s t : St} : emit f s = (t, .ok ()) ↔ ∃ n, s.budget = n + 1 ∧ t = { s with disk := f s.disk, budget := n } := by
  unfold emit
  cases h : s.budget with
  | zero => exact ⟨nofun, fun ⟨_, e, _⟩ => by cases e⟩
  | succ n =>
    exact ⟨fun g => ⟨n, rfl, (congrArg Prod.fst g).symm⟩, fun ⟨m, e, g⟩ => by cases e; rw [g]⟩

/-- A relation between the disk before and after a program, whatever its result. -/
def Keeps (R : Disk → Disk → Prop) {α : Type} (p : M α) : Prop := ∀ s, R s.disk (p s).1.disk

theorem keeps_bind {R : Disk → Disk → Prop} (trans : ∀ a b c, R a b → R b c → R a c) {α β : Type} {p : M α} {f : α → M β}
    (h1 : Keeps R p) (h2 : ∀ a, Keeps R (f a)) : Keeps R (p >>= f) := by
  intro s
  show R s.disk (andThen p f s).1.disk
  unfold andThen
  have h := h1 s
  revert h
  cases p s with
  | mk u r =>
    intro h
    cases r with
    | ok a => exact trans _ _ _ h (h2 a u)
    | err e => exact h
    | panic => exact h

theorem keeps_emit {R : Disk → Disk → Prop} (refl : ∀ d, R d d) {f : Disk → Disk} (h : ∀ d, R d (f d)) : Keeps R (emit f) := by
  intro s
  unfold emit
  split
  · exact refl _
  · exact h _

/-! ### the configuration -/

theorem applyConfig_disk (s : St) : (applyConfig s).1.disk = s.disk ∧ (applyConfig s).1.config = s.config ∧ (applyConfig s).1.budget = s.budget ∧
    (applyConfig s).1.online = s.online ∧ (applyConfig s).2 ≠ .panic ∧
    ((applyConfig s).2 = .ok () ↔ Usable s.config) ∧ ((applyConfig s).2 = .ok () → (applyConfig s).1.set = settingsOf s.set.rpcPort s.config) := by
  have h := Conf.initMute_spec s.set s.config
  unfold applyConfig
  cases h0 : initMute s.set s.config with
  | mk g b =>
    rw [h0] at h
    cases b
    · exact ⟨rfl, rfl, rfl, rfl, nofun, ⟨nofun, fun hu => absurd (h.1.mpr hu) (by simp)⟩, nofun⟩
    · exact ⟨rfl, rfl, rfl, rfl, nofun, ⟨fun _ => h.1.mp rfl, fun _ => rfl⟩, fun _ => h.2 rfl⟩

/-- The disk after the configuration `c` was stored, the time `t` as well, and the file as well. -/
def Disk.stored (d : Disk) (c : Config) : Disk := { d with msgs := d.msgs.modify fun x => { x with conf := some c } }
def Disk.timed (d : Disk) (c : Config) (t : Int) : Disk :=
  { d with msgs := d.msgs.modify fun x => { x with conf := some c, time := some t } }
def Disk.filed (d : Disk) (c : Config) (t : Int) : Disk := { d.timed c t with file := some c }

theorem modify_modify {α : Type} (f g : α → α) (v : Vault α) : (v.modify f).modify g = v.modify fun x => g (f x) := by
  cases v <;> rfl

/-- All outcomes of a fetch. -/
theorem fetchconf_cases (P : Conf.Prims) (pinned : Bytes) (e : Conf.Env) (now : Int) (s : St) :
    (∃ c r, Conf.update P e { s.config with publicKey := pinned } = (c, r) ∧ r ≠ .ok () ∧
      (fetchconf P pinned e now s).1.disk = s.disk ∧ (fetchconf P pinned e now s).2 ≠ .ok () ∧ (fetchconf P pinned e now s).1.online = true) ∨
    (∃ c, Conf.update P e { s.config with publicKey := pinned } = (c, .ok ()) ∧ (fetchconf P pinned e now s).1.online = true ∧
      (fetchconf P pinned e now s).1.config = c ∧
      ((s.budget = 0 ∧ (fetchconf P pinned e now s).1.disk = s.disk ∧ (fetchconf P pinned e now s).2 = .err .io) ∨
       (s.budget = 1 ∧ (fetchconf P pinned e now s).1.disk = s.disk.stored c ∧ (fetchconf P pinned e now s).2 = .err .io) ∨
       (2 ≤ s.budget ∧ ¬ Usable c ∧ (fetchconf P pinned e now s).1.disk = s.disk.timed c (now / 1000000000) ∧ (fetchconf P pinned e now s).2 = .err .init) ∨
       (s.budget = 2 ∧ Usable c ∧ (fetchconf P pinned e now s).1.disk = s.disk.timed c (now / 1000000000) ∧ (fetchconf P pinned e now s).2 = .err .io) ∨
       (3 ≤ s.budget ∧ Usable c ∧ (fetchconf P pinned e now s).1.disk = s.disk.filed c (now / 1000000000) ∧ (fetchconf P pinned e now s).2 = .ok () ∧
         (fetchconf P pinned e now s).1.set = settingsOf s.set.rpcPort c ∧ (fetchconf P pinned e now s).1.budget = s.budget - 3))) := by
  cases hu : Conf.update P e { s.config with publicKey := pinned } with
  | mk c r =>
    cases r with
    | err _ =>
      refine .inl ⟨c, _, rfl, nofun, ?_, ?_, ?_⟩ <;> simp [fetchconf, bind, andThen, hu]
    | panic =>
      refine .inl ⟨c, _, rfl, nofun, ?_, ?_, ?_⟩ <;> simp [fetchconf, bind, andThen, hu]
    | ok _ =>
      refine .inr ⟨c, rfl, ?_⟩
      cases hb : s.budget with
      | zero => simp [fetchconf, bind, andThen, hu, write, emit, hb]
      | succ n =>
        cases n with
        | zero => simp [fetchconf, bind, andThen, hu, write, emit, hb, Disk.stored]
        | succ n =>
          have ha := applyConfig_disk { s with
            config := c
            online := true
            budget := n
            disk := { s.disk with msgs := (s.disk.msgs.modify fun x => { x with conf := some c }).modify fun x => { x with time := some (now / 1000000000) } } }
          simp only [fetchconf, bind, andThen, hu, write, emit, hb]
          revert ha
          cases hr : applyConfig { s with
            config := c
            online := true
            budget := n
            disk := { s.disk with msgs := (s.disk.msgs.modify fun x => { x with conf := some c }).modify fun x => { x with time := some (now / 1000000000) } } } with
          | mk u r =>
            rintro ⟨a1, a2, a3, a4, a5, a6, a7⟩
            simp only [] at a1 a2 a3 a4 a5 a6 a7
            cases r with
            | panic => exact absurd rfl a5
            | err er =>
              have her : er = .init := by
                unfold applyConfig at hr
                split at hr <;> cases hr
                rfl
              subst her
              refine ⟨a4, a2, .inr (.inr (.inl ⟨by omega, fun h => ?_, ?_, rfl⟩))⟩
              · cases a6.mpr h
              · simp only [a1, Disk.timed, modify_modify]
            | ok _ =>
              have hU := a6.mp rfl
              cases n with
              | zero =>
                simp only [a3]
                refine ⟨a4, a2, .inr (.inr (.inr (.inl ⟨trivial, hU, ?_, trivial⟩)))⟩
                simp only [a1, Disk.timed, modify_modify]
              | succ n =>
                simp only [a3]
                refine ⟨a4, a2, .inr (.inr (.inr (.inr ⟨by omega, hU, ?_, trivial, a7 rfl, by omega⟩)))⟩
                simp only [a1, Disk.filed, Disk.timed, modify_modify]

/-- All outcomes of `getConfig`: a fetch, or the stored configuration is used. -/
theorem getConfig_cases (P : Conf.Prims) (pinned : Bytes) (e : Conf.Env) (now : Int) (offline : Bool) (x : Data) (s : St) :
    (∃ u, u.disk = s.disk ∧ u.budget = s.budget ∧ offline = false ∧ (∀ c, x.conf = some c → u.config = load s.config c) ∧
      getConfig P pinned e now offline x s = fetchconf P pinned e now u) ∨
    ((getConfig P pinned e now offline x s).1.disk = s.disk ∧ (getConfig P pinned e now offline x s).1.online = s.online ∧
      ((getConfig P pinned e now offline x s).2 = .ok () → ∃ c, x.conf = some c ∧
        (getConfig P pinned e now offline x s).1.config = load s.config c ∧ Usable (load s.config c) ∧
        (getConfig P pinned e now offline x s).1.set = settingsOf s.set.rpcPort (load s.config c) ∧
        (x.time = none ∨ ∃ t, x.time = some t ∧ now - t * 1000000000 ≤ if offline = true then maxAge else minAge))) := by
  have hages : minAge ≤ maxAge := by unfold minAge maxAge; omega
  unfold getConfig
  cases hc : x.conf with
  | none =>
    simp only []
    cases offline
    · exact .inl ⟨s, rfl, rfl, rfl, nofun, rfl⟩
    · exact .inr ⟨rfl, rfl, nofun⟩
  | some c =>
    simp only []
    obtain ⟨a1, a2, a3, a4, a5, a6, a7⟩ := applyConfig_disk { s with config := load s.config c }
    cases hr : applyConfig { s with config := load s.config c } with
    | mk u r =>
      rw [hr] at a1 a2 a3 a4 a5 a6 a7
      simp only [] at a1 a2 a3 a4 a5 a6 a7
      cases r with
      | panic => exact absurd rfl a5
      | err er =>
        simp only []
        cases offline
        · exact .inl ⟨u, a1, a3, rfl, fun _ h => by cases h; exact a2, rfl⟩
        · exact .inr ⟨a1, a4, nofun⟩
      | ok _ =>
        simp only []
        have hU := a6.mp rfl
        have hset := a7 rfl
        cases ht : x.time with
        | none => exact .inr ⟨a1, a4, fun _ => ⟨c, rfl, a2, hU, hset, .inl rfl⟩⟩
        | some t =>
          simp only []
          by_cases h1 : minAge < now - t * 1000000000
          · rw [if_pos h1]
            cases offline
            · exact .inl ⟨u, a1, a3, rfl, fun _ h => by cases h; exact a2, rfl⟩
            · rw [if_pos rfl]
              by_cases h2 : maxAge < now - t * 1000000000
              · rw [if_pos h2]
                exact .inr ⟨a1, a4, nofun⟩
              · rw [if_neg h2]
                exact .inr ⟨a1, a4, fun _ => ⟨c, rfl, a2, hU, hset, .inr ⟨t, rfl, by rw [if_pos rfl]; omega⟩⟩⟩
          · rw [if_neg h1]
            refine .inr ⟨a1, a4, fun _ => ⟨c, rfl, a2, hU, hset, .inr ⟨t, rfl, ?_⟩⟩⟩
            split <;> omega

theorem finish_cases (offline : Bool) (u : St) :
    (finish offline u).1.disk = u.disk ∧ (finish offline u).1.config = u.config ∧ (finish offline u).1.set = u.set ∧
    ((finish offline u).1.online = u.online ∨ offline = false) ∧
    (∀ k, (finish offline u).2 = .ok k → (offline = false → (finish offline u).1.online = true) ∧
      ∃ q y, u.disk.msgs = .locked q y ∧ decodeWalletKey y.wallet = .ok k) ∧
    (∀ q y, u.disk.msgs = .locked q y → (finish offline u).2 = decodeWalletKey y.wallet) := by
  unfold finish
  simp only [bind, andThen, opened]
  cases hv : u.disk.msgs with
  | absent => exact ⟨rfl, rfl, rfl, .inl rfl, nofun, nofun⟩
  | broken => exact ⟨rfl, rfl, rfl, .inl rfl, nofun, nofun⟩
  | locked q y =>
    simp only [startWallet]
    cases hd : decodeWalletKey y.wallet with
    | ok k =>
      refine ⟨rfl, rfl, rfl, ?_, ?_, ?_⟩
      · cases offline
        · exact .inr rfl
        · exact .inl (by simp)
      · intro k' hk
        injection hk with hk
        subst hk
        exact ⟨fun h => by subst h; simp, q, y, rfl, hd⟩
      · intro q' y' h
        injection h with _ h
        subst h
        exact hd.symm
    | err er => exact ⟨rfl, rfl, rfl, .inl rfl, nofun, fun q' y' h => by injection h with _ h; subst h; exact hd.symm⟩
    | panic => exact ⟨rfl, rfl, rfl, .inl rfl, nofun, fun q' y' h => by injection h with _ h; subst h; exact hd.symm⟩

/-- The part of `prepare` after the configuration. -/
theorem prepare_cases (P : Conf.Prims) (pinned : Bytes) (e : Conf.Env) (now : Int) (parse : Bytes → Option Int) (bin : Build)
    (pass : Bytes) (offline check : Bool) (s : St) :
    ((prepare P pinned e now parse bin pass offline check s).1 = s ∧ (prepare P pinned e now parse bin pass offline check s).2 = .err .passphrase ∧
      ∀ x, s.disk.msgs ≠ .locked pass x) ∨
    ∃ x, s.disk.msgs = .locked pass x ∧
      (prepare P pinned e now parse bin pass offline check s).1.disk = (getConfig P pinned e now offline x s).1.disk ∧
      (prepare P pinned e now parse bin pass offline check s).1.config = (getConfig P pinned e now offline x s).1.config ∧
      (prepare P pinned e now parse bin pass offline check s).1.set = (getConfig P pinned e now offline x s).1.set ∧
      ((prepare P pinned e now parse bin pass offline check s).1.online = (getConfig P pinned e now offline x s).1.online ∨ offline = false) ∧
      (∀ k, (prepare P pinned e now parse bin pass offline check s).2 = .ok k →
        (getConfig P pinned e now offline x s).2 = .ok () ∧ (check = true → ∃ r, checkUpdates parse bin (getConfig P pinned e now offline x s).1.config = .ok r) ∧
        (offline = false → (prepare P pinned e now parse bin pass offline check s).1.online = true) ∧
        ∃ q y, (getConfig P pinned e now offline x s).1.disk.msgs = .locked q y ∧ decodeWalletKey y.wallet = .ok k) ∧
      ((getConfig P pinned e now offline x s).2 = .ok () → (check = true → ∃ r, checkUpdates parse bin (getConfig P pinned e now offline x s).1.config = .ok r) →
        ∀ q y, (getConfig P pinned e now offline x s).1.disk.msgs = .locked q y → (prepare P pinned e now parse bin pass offline check s).2 = decodeWalletKey y.wallet) := by
  unfold prepare
  simp only [bind, andThen, openMsgs]
  cases hm : s.disk.msgs with
  | absent => exact .inl ⟨rfl, rfl, nofun⟩
  | broken => exact .inl ⟨rfl, rfl, nofun⟩
  | locked q x =>
    simp only []
    by_cases hq : q = pass
    · rw [if_pos hq]
      subst hq
      refine .inr ⟨x, rfl, ?_⟩
      simp only []
      cases hg : getConfig P pinned e now offline x s with
      | mk u r =>
        cases r with
        | err er => exact ⟨rfl, rfl, rfl, .inl rfl, nofun, nofun⟩
        | panic => exact ⟨rfl, rfl, rfl, .inl rfl, nofun, nofun⟩
        | ok _ =>
          simp only []
          obtain ⟨f1, f2, f3, f4, f5, f6⟩ := finish_cases offline u
          unfold gate
          by_cases hch : check = true
          · simp only [hch, if_true]
            cases hcu : checkUpdates parse bin u.config with
            | ok r =>
              simp only []
              exact ⟨f1, f2, f3, f4, fun k hk => ⟨trivial, fun _ => ⟨r, rfl⟩, f5 k hk⟩, fun _ _ => f6⟩
            | err er => exact ⟨rfl, rfl, rfl, .inl rfl, nofun, fun _ h => by obtain ⟨r, h⟩ := h trivial; cases h⟩
            | panic => exact ⟨rfl, rfl, rfl, .inl rfl, nofun, fun _ h => by obtain ⟨r, h⟩ := h trivial; cases h⟩
          · simp only [if_neg hch]
            exact ⟨f1, f2, f3, f4, fun k hk => ⟨trivial, fun h => absurd h hch, f5 k hk⟩, fun _ _ => f6⟩
    · rw [if_neg hq]
      exact .inl ⟨rfl, rfl, fun x' h => hq (by injection h)⟩

/-! ### the databases -/

theorem createMsgs_cases (iterOk : Bool) (p : Bytes) (s : St) :
    (createMsgs iterOk p s).1.config = s.config ∧ (createMsgs iterOk p s).1.set = s.set ∧
    ((s.disk.msgs ≠ .absent ∧ createMsgs iterOk p s = (s, .err .exist)) ∨
     (s.disk.msgs = .absent ∧ ((createMsgs iterOk p s).1.disk = s.disk ∧ (createMsgs iterOk p s).2 ≠ .ok () ∨
       (createMsgs iterOk p s).1.disk = { s.disk with msgs := .broken } ∧ (createMsgs iterOk p s).2 ≠ .ok () ∨
       (createMsgs iterOk p s).1.disk = { s.disk with msgs := .locked p ⟨none, none, []⟩ } ∧ (createMsgs iterOk p s).2 = .ok () ∧
         iterOk = true ∧ s.budget = (createMsgs iterOk p s).1.budget + 2))) := by
  unfold createMsgs
  cases hm : s.disk.msgs with
  | broken => exact ⟨rfl, rfl, .inl ⟨nofun, rfl⟩⟩
  | locked q x => exact ⟨rfl, rfl, .inl ⟨nofun, rfl⟩⟩
  | absent =>
    simp only []
    cases iterOk
    · exact ⟨rfl, rfl, .inr ⟨trivial, .inl ⟨rfl, nofun⟩⟩⟩
    · simp only [andThen, emit, Bool.true_eq_false, if_false]
      cases hb : s.budget with
      | zero => exact ⟨rfl, rfl, .inr ⟨trivial, .inl ⟨rfl, nofun⟩⟩⟩
      | succ n =>
        cases n with
        | zero => exact ⟨rfl, rfl, .inr ⟨trivial, .inr (.inl ⟨rfl, nofun⟩)⟩⟩
        | succ n => exact ⟨rfl, rfl, .inr ⟨trivial, .inr (.inr ⟨rfl, rfl, trivial, rfl⟩)⟩⟩

theorem createKeys_cases (n : Nat) (pipe : Bytes → List Bytes) (iterOk : Bool) (p : Bytes) (s : St) :
    (createKeys n pipe iterOk p s).1.disk = s.disk ∧ (createKeys n pipe iterOk p s).2 ≠ .ok () ∨
    (s.disk.keys = .absent ∧ ((createKeys n pipe iterOk p s).1.disk = { s.disk with keys := .broken } ∧ (createKeys n pipe iterOk p s).2 ≠ .ok () ∨
      ∃ q, askCreate n (pipe (handOn [p, p])) .eof = some (.got q) ∧ (createKeys n pipe iterOk p s).1.disk = { s.disk with keys := .locked q [] } ∧
        (createKeys n pipe iterOk p s).2 = .ok ())) := by
  unfold createKeys
  split
  · exact .inl ⟨rfl, nofun⟩
  · split
    · rename_i q hq
      cases hk : s.disk.keys with
      | broken => exact .inl ⟨rfl, nofun⟩
      | locked _ _ => exact .inl ⟨rfl, nofun⟩
      | absent =>
        simp only []
        cases iterOk
        · exact .inl ⟨rfl, nofun⟩
        · simp only [andThen, emit, Bool.true_eq_false, if_false]
          cases hb : s.budget with
          | zero => exact .inl ⟨rfl, nofun⟩
          | succ m =>
            cases m with
            | zero => exact .inr ⟨trivial, .inl ⟨rfl, nofun⟩⟩
            | succ m => exact .inr ⟨trivial, .inr ⟨q, hq, rfl, rfl⟩⟩
    · exact .inl ⟨rfl, nofun⟩

/-- All outcomes of a change of the passphrase. -/
theorem dbRekey_cases (a : RekeyArgs) (s : St) :
    ((dbRekey a s).1.disk = s.disk ∧ (dbRekey a s).2 ≠ .ok ()) ∨
    ∃ o p x, askRekey a.n a.input .eof = some (.got (o, p)) ∧ s.disk.msgs = .locked o x ∧
      (((dbRekey a s).1.disk = { s.disk with msgs := .locked p x } ∧ (dbRekey a s).2 ≠ .ok ()) ∨
       ∃ o' p' k, askRekey a.n (a.pipe (handOn [o, p, p])) .eof = some (.got (o', p')) ∧ s.disk.keys = .locked o' k ∧
         (dbRekey a s).1.disk = { s.disk with msgs := .locked p x, keys := .locked p' k } ∧ (dbRekey a s).2 = .ok ()) := by
  unfold dbRekey
  rcases hask : askRekey a.n a.input .eof with _ | ⟨_ | _ | ⟨o, p⟩⟩
  · exact .inl ⟨rfl, nofun⟩
  · exact .inl ⟨rfl, nofun⟩
  · exact .inl ⟨rfl, nofun⟩
  · simp only [bind, andThen, rekeyMsgs]
    cases hm : s.disk.msgs with
    | absent => exact .inl ⟨rfl, nofun⟩
    | broken => exact .inl ⟨rfl, nofun⟩
    | locked q x =>
      simp only []
      by_cases hq : q ≠ o
      · rw [if_pos hq]; exact .inl ⟨rfl, nofun⟩
      · rw [if_neg hq]
        have hq : q = o := by simpa using hq
        subst hq
        cases hi : a.iterOk
        · exact .inl ⟨rfl, nofun⟩
        · simp only [emit, Bool.true_eq_false, if_false]
          cases hb : s.budget with
          | zero => exact .inl ⟨rfl, nofun⟩
          | succ n =>
            refine .inr ⟨q, p, x, rfl, rfl, ?_⟩
            simp only [rekeyKeys, Bool.true_eq_false, if_false]
            split
            · exact .inl ⟨rfl, nofun⟩
            · split
              · rename_i o' p' hask'
                cases hk : s.disk.keys with
                | absent => exact .inl ⟨by simp, nofun⟩
                | broken => exact .inl ⟨by simp, nofun⟩
                | locked q' k =>
                  simp only []
                  by_cases hq' : q' ≠ o'
                  · rw [if_pos hq']; exact .inl ⟨by simp, nofun⟩
                  · rw [if_neg hq']
                    have hq' : q' = o' := by simpa using hq'
                    subst hq'
                    simp only [emit]
                    cases n with
                    | zero => exact .inl ⟨by simp, nofun⟩
                    | succ n => exact .inr ⟨q', p', k, hask', rfl, rfl, rfl⟩
              · exact .inl ⟨rfl, nofun⟩

theorem fetchconf_disk (P : Conf.Prims) (pinned : Bytes) (e : Conf.Env) (now : Int) (s : St) :
    (fetchconf P pinned e now s).1.disk = s.disk ∨ ∃ c, Conf.update P e { s.config with publicKey := pinned } = (c, .ok ()) ∧
      ((fetchconf P pinned e now s).1.disk = s.disk.stored c ∨ (fetchconf P pinned e now s).1.disk = s.disk.timed c (now / 1000000000) ∨
       (fetchconf P pinned e now s).1.disk = s.disk.filed c (now / 1000000000)) := by
  rcases fetchconf_cases P pinned e now s with ⟨c, r, _, _, h, _⟩ | ⟨c, hc, _, _, h | h | h | h | h⟩
  · exact .inl h
  · exact .inl h.2.1
  · exact .inr ⟨c, hc, .inl h.2.1⟩
  · exact .inr ⟨c, hc, .inr (.inl h.2.2.1)⟩
  · exact .inr ⟨c, hc, .inr (.inl h.2.2.1)⟩
  · exact .inr ⟨c, hc, .inr (.inr h.2.2.1)⟩

/-- A relation that holds for the parts of `dbCreate` holds for all of it. -/
theorem dbCreate_keeps {R : Disk → Disk → Prop} (refl : ∀ d, R d d) (trans : ∀ a b c, R a b → R b c → R a c)
    (h1 : ∀ d : Disk, d.msgs = .absent → R d { d with msgs := .broken } )
    (h2 : ∀ (d : Disk) p, d.msgs = .absent → R d { d with msgs := .locked p ⟨none, none, []⟩ })
    (h3 : ∀ P pinned e now, Keeps R (fetchconf P pinned e now))
    (h4 : ∀ d : Disk, d.keys = .absent → R d { d with keys := .broken })
    (h5 : ∀ (d : Disk) p, d.keys = .absent → R d { d with keys := .locked p [] })
    (h6 : ∀ (d : Disk) k, R d { d with msgs := d.msgs.modify fun x => { x with wallet := k } })
    (P : Conf.Prims) (pinned : Bytes) (e : Conf.Env) (now : Int) (a : CreateArgs) : Keeps R (dbCreate P pinned e now a) := by
  unfold dbCreate
  split
  · refine keeps_bind trans ?_ fun _ => keeps_bind trans (h3 P pinned e now) fun _ => keeps_bind trans ?_ fun _ => keeps_bind trans ?_ fun _ =>
      keeps_bind trans ?_ fun _ => fun s => refl _
    · intro s
      rcases (createMsgs_cases a.iterOk _ s).2.2 with ⟨_, h⟩ | ⟨hm, h | h | h⟩
      · rw [h]; exact refl _
      · rw [h.1]; exact refl _
      · rw [h.1]; exact h1 _ hm
      · rw [h.1]; exact h2 _ _ hm
    · intro s
      rcases createKeys_cases a.n a.pipe a.iterOk _ s with h | ⟨hk, h | ⟨q, _, h, _⟩⟩
      · rw [h.1]; exact refl _
      · rw [h.1]; exact h4 _ hk
      · rw [h]; exact h5 _ _ hk
    · intro s
      unfold chooseKey
      by_cases h : a.walletKey = []
      · rw [if_pos h]
        cases a.fresh <;> exact refl _
      · rw [if_neg h]; exact refl _
    · exact keeps_emit refl fun d => h6 d _
  · intro s; exact refl _
  · intro s; exact refl _

/-- With a message database, `db create` does nothing. -/
theorem dbCreate_exists (P : Conf.Prims) (pinned : Bytes) (e : Conf.Env) (now : Int) (a : CreateArgs) (s : St) (h : s.disk.msgs ≠ .absent) :
    (dbCreate P pinned e now a s).1 = s ∧ (dbCreate P pinned e now a s).2 ≠ .panic ∧ ∀ k, (dbCreate P pinned e now a s).2 ≠ .ok k := by
  unfold dbCreate
  rcases hask : askCreate a.n a.input .eof with _ | ⟨_ | _ | p⟩
  · exact ⟨rfl, nofun, nofun⟩
  · exact ⟨rfl, nofun, nofun⟩
  · exact ⟨rfl, nofun, nofun⟩
  · rcases (createMsgs_cases a.iterOk p s).2.2 with ⟨_, hc⟩ | ⟨hm, _⟩
    · simp only [bind, andThen, hc]
      exact ⟨trivial, nofun, nofun⟩
    · exact absurd hm h

/-! ### histories -/

/-- A command, run by a `mutectrl` in any state, with any number of successful writes. -/
inductive Step (P : Conf.Prims) (pinned : Bytes) : Disk → Disk → Prop
  | create (s : St) (e : Conf.Env) (now : Int) (a : CreateArgs) : Step P pinned s.disk (dbCreate P pinned e now a s).1.disk
  | rekey (s : St) (a : RekeyArgs) : Step P pinned s.disk (dbRekey a s).1.disk
  | prepare (s : St) (e : Conf.Env) (now : Int) (parse : Bytes → Option Int) (bin : Build) (pass : Bytes) (offline check : Bool) :
      Step P pinned s.disk (prepare P pinned e now parse bin pass offline check s).1.disk
  | fetch (s : St) (e : Conf.Env) (now : Int) (parse : Bytes → Option Int) (bin : Build) (pass : Bytes) (offline : Bool) (e' : Conf.Env) (now' : Int) :
      Step P pinned s.disk (upkeepFetch P pinned e now parse bin pass offline e' now' s).1.disk
  | update (s : St) (e : Conf.Env) (now : Int) (parse : Bytes → Option Int) (bin : Build) (pass : Bytes) (offline : Bool) (e' : Conf.Env) (now' : Int) :
      Step P pinned s.disk (upkeepUpdate P pinned e now parse bin pass offline e' now' s).1.disk

/-- Any number of them, including ones that are interrupted. -/
inductive Steps (P : Conf.Prims) (pinned : Bytes) : Disk → Disk → Prop
  | refl (d : Disk) : Steps P pinned d d
  | step {a b c : Disk} : Steps P pinned a b → Step P pinned b c → Steps P pinned a c

/-- The home directory of a new user. -/
def empty : Disk := ⟨.absent, .absent, none⟩

/-- What is never lost: a database that could be opened can still be opened with some passphrase, with
the same wallet key and a configuration that is not older; a broken one stays. -/
def Kept (d d' : Disk) : Prop :=
  (∀ q x, d.msgs = .locked q x → ∃ q' x', d'.msgs = .locked q' x' ∧ x'.wallet = x.wallet ∧
    ∀ c, x.conf = some c → ∃ c', x'.conf = some c' ∧ c.lastSignDate.toNat ≤ c'.lastSignDate.toNat) ∧
  (∀ q k, d.keys = .locked q k → ∃ q', d'.keys = .locked q' k) ∧
  (d.msgs = .broken → d'.msgs = .broken) ∧ (d.keys = .broken → d'.keys = .broken) ∧
  (∀ c, d.file = some c → ∃ c', d'.file = some c')

theorem Kept.refl (d : Disk) : Kept d d :=
  ⟨fun q x h => ⟨q, x, h, rfl, fun c hc => ⟨c, hc, Nat.le_refl _⟩⟩, fun q k h => ⟨q, h⟩, id, id, fun c h => ⟨c, h⟩⟩

theorem Kept.trans {a b c : Disk} (h1 : Kept a b) (h2 : Kept b c) : Kept a c := by
  refine ⟨fun q x h => ?_, fun q k h => ?_, fun h => h2.2.2.1 (h1.2.2.1 h), fun h => h2.2.2.2.1 (h1.2.2.2.1 h), fun f h => ?_⟩
  · obtain ⟨q1, x1, e1, w1, c1⟩ := h1.1 q x h
    obtain ⟨q2, x2, e2, w2, c2⟩ := h2.1 q1 x1 e1
    refine ⟨q2, x2, e2, w2.trans w1, fun f hf => ?_⟩
    obtain ⟨f1, g1, l1⟩ := c1 f hf
    obtain ⟨f2, g2, l2⟩ := c2 f1 g1
    exact ⟨f2, g2, Nat.le_trans l1 l2⟩
  · obtain ⟨q1, e1⟩ := h1.2.1 q k h
    exact h2.2.1 q1 k e1
  · obtain ⟨f1, e1⟩ := h1.2.2.2.2 f h
    exact h2.2.2.2.2 f1 e1

/-- An update does not go back in time. -/
theorem update_date {P : Conf.Prims} {e : Conf.Env} {c c' : Config} (h : Conf.update P e c = (c', .ok ())) :
    c.lastSignDate.toNat ≤ c'.lastSignDate.toNat := by
  have := Conf.C32_date_monotone P [e] c
  simp only [Conf.updates, h] at this
  exact this

theorem fetchconf_kept (P : Conf.Prims) (pinned : Bytes) (e : Conf.Env) (now : Int) (s : St)
    (hc : ∀ q x c, s.disk.msgs = .locked q x → x.conf = some c → c.lastSignDate.toNat ≤ s.config.lastSignDate.toNat) :
    Kept s.disk (fetchconf P pinned e now s).1.disk := by
  rcases fetchconf_disk P pinned e now s with h | ⟨c, hu, h⟩
  · rw [h]; exact Kept.refl _
  · have hd := update_date hu
    have main : ∀ f : Data → Data, (∀ x, (f x).wallet = x.wallet ∧ (f x).conf = some c) → ∀ file, (∀ c, s.disk.file = some c → ∃ c', file = some c') →
        Kept s.disk { s.disk with msgs := s.disk.msgs.modify f, file := file } := by
      intro f hf file hfile
      refine ⟨fun q x hm => ⟨q, f x, by simp only [hm, Vault.modify], (hf x).1, fun c0 h0 => ⟨c, (hf x).2, ?_⟩⟩, fun q k h => ⟨q, h⟩,
        fun h => by simp only [h, Vault.modify], id, hfile⟩
      exact Nat.le_trans (hc q x c0 hm h0) hd
    rcases h with h | h | h
    · rw [h]; exact main (fun x => { x with conf := some c }) (fun x => ⟨rfl, rfl⟩) _ fun c h => ⟨c, h⟩
    · rw [h]; exact main (fun x => { x with conf := some c, time := some (now / 1000000000) }) (fun x => ⟨rfl, rfl⟩) _ fun c h => ⟨c, h⟩
    · rw [h]; exact main (fun x => { x with conf := some c, time := some (now / 1000000000) }) (fun x => ⟨rfl, rfl⟩) _ fun c _ => ⟨_, rfl⟩

/-- After a successful preparation the configuration in memory is not older than the stored one. -/
theorem prepare_date (P : Conf.Prims) (pinned : Bytes) (e : Conf.Env) (now : Int) (parse : Bytes → Option Int) (bin : Build)
    (pass : Bytes) (offline check : Bool) (s u : St) (k : Bytes) (h : prepare P pinned e now parse bin pass offline check s = (u, .ok k)) :
    ∀ q x c, u.disk.msgs = .locked q x → x.conf = some c → c.lastSignDate.toNat ≤ u.config.lastSignDate.toNat := by
  rcases prepare_cases P pinned e now parse bin pass offline check s with ⟨_, h', _⟩ | ⟨x, hm, hd, hc, _, _, hk, _⟩
  · rw [h] at h'; cases h'
  · rw [h] at hd hc hk
    obtain ⟨hg, _⟩ := hk k rfl
    intro q y c hy hcy
    rcases getConfig_cases P pinned e now offline x s with ⟨v, v1, _, _, v4, v5⟩ | ⟨g, _, g'⟩
    · rw [v5] at hd hc hg
      rcases fetchconf_cases P pinned e now v with ⟨_, _, _, _, _, h, _⟩ | ⟨c', _, _, hc', h | h | h | h | h⟩
      · exact absurd hg h
      · rw [hg] at h; cases h.2.2
      · rw [hg] at h; cases h.2.2
      · rw [hg] at h; cases h.2.2.2
      · rw [hg] at h; cases h.2.2.2
      · simp only [] at hd hc
        rw [hd, h.2.2.1, Disk.filed, Disk.timed, v1, hm] at hy
        cases hy
        cases hcy
        rw [hc, hc']
        exact Nat.le_refl _
    · obtain ⟨c', h1, h2, _⟩ := g' hg
      simp only [] at hd hc
      rw [hd, g, hm] at hy
      cases hy
      rw [h1] at hcy
      cases hcy
      rw [hc, h2]
      exact Nat.le_refl _

theorem prepare_kept (P : Conf.Prims) (pinned : Bytes) (e : Conf.Env) (now : Int) (parse : Bytes → Option Int) (bin : Build)
    (pass : Bytes) (offline check : Bool) (s : St) : Kept s.disk (prepare P pinned e now parse bin pass offline check s).1.disk := by
  rcases prepare_cases P pinned e now parse bin pass offline check s with ⟨h, _⟩ | ⟨x, hm, h, _⟩
  · rw [h]; exact Kept.refl _
  · rw [h]
    rcases getConfig_cases P pinned e now offline x s with ⟨u, u1, _, _, u4, u5⟩ | ⟨g, _⟩
    · rw [u5, ← u1]
      refine fetchconf_kept P pinned e now u fun q y c hy hc => ?_
      rw [u1, hm] at hy
      cases hy
      rw [u4 c hc]
      exact Nat.le_refl _
    · rw [g]; exact Kept.refl _

/-- The disk after `upkeep fetchconf` is that after a preparation or after a fetch that follows it. -/
theorem upkeepFetch_disk (P : Conf.Prims) (pinned : Bytes) (e : Conf.Env) (now : Int) (parse : Bytes → Option Int) (bin : Build)
    (pass : Bytes) (offline : Bool) (e' : Conf.Env) (now' : Int) (s : St) :
    ((upkeepFetch P pinned e now parse bin pass offline e' now' s).1 = (prepare P pinned e now parse bin pass offline true s).1 ∧
      (upkeepFetch P pinned e now parse bin pass offline e' now' s).2 ≠ .ok ()) ∨
    ∃ u k, prepare P pinned e now parse bin pass offline true s = (u, .ok k) ∧
      upkeepFetch P pinned e now parse bin pass offline e' now' s = fetchconf P pinned e' now' u := by
  unfold upkeepFetch
  simp only [bind, andThen]
  cases h : prepare P pinned e now parse bin pass offline true s with
  | mk u r =>
    cases r with
    | ok k => exact .inr ⟨u, k, rfl, rfl⟩
    | err _ => exact .inl ⟨rfl, nofun⟩
    | panic => exact .inl ⟨rfl, nofun⟩

theorem upkeepUpdate_disk (P : Conf.Prims) (pinned : Bytes) (e : Conf.Env) (now : Int) (parse : Bytes → Option Int) (bin : Build)
    (pass : Bytes) (offline : Bool) (e' : Conf.Env) (now' : Int) (s : St) :
    ((upkeepUpdate P pinned e now parse bin pass offline e' now' s).1 = (prepare P pinned e now parse bin pass offline false s).1 ∧
      ∀ r, (upkeepUpdate P pinned e now parse bin pass offline e' now' s).2 ≠ .ok r) ∨
    ∃ u k, prepare P pinned e now parse bin pass offline false s = (u, .ok k) ∧
      (upkeepUpdate P pinned e now parse bin pass offline e' now' s).1 = (fetchconf P pinned e' now' u).1 ∧
      ((fetchconf P pinned e' now' u).2 = .ok () → (upkeepUpdate P pinned e now parse bin pass offline e' now' s).2 =
        decideUpdate parse bin (fetchconf P pinned e' now' u).1.config) ∧
      ((fetchconf P pinned e' now' u).2 ≠ .ok () → ∀ r, (upkeepUpdate P pinned e now parse bin pass offline e' now' s).2 ≠ .ok r) := by
  unfold upkeepUpdate
  simp only [bind, andThen]
  cases h : prepare P pinned e now parse bin pass offline false s with
  | mk u r =>
    cases r with
    | err _ => exact .inl ⟨rfl, nofun⟩
    | panic => exact .inl ⟨rfl, nofun⟩
    | ok k =>
      refine .inr ⟨u, k, rfl, ?_⟩
      simp only []
      cases h' : fetchconf P pinned e' now' u with
      | mk v r =>
        cases r with
        | ok _ => exact ⟨rfl, fun _ => rfl, fun h => absurd rfl h⟩
        | err _ => exact ⟨rfl, nofun, fun _ => nofun⟩
        | panic => exact ⟨rfl, nofun, fun _ => nofun⟩

theorem step_kept {P : Conf.Prims} {pinned : Bytes} {d d' : Disk} (h : Step P pinned d d') : Kept d d' := by
  cases h with
  | create s e now a =>
    by_cases hm : s.disk.msgs = .absent
    · have keys : Keeps (fun d d' => (∀ q k, d.keys = .locked q k → d'.keys = .locked q k) ∧ (d.keys = .broken → d'.keys = .broken) ∧
          ∀ c, d.file = some c → ∃ c', d'.file = some c') (dbCreate P pinned e now a) := by
        refine dbCreate_keeps (fun d => ⟨fun _ _ h => h, id, fun c h => ⟨c, h⟩⟩)
          (fun a b c h1 h2 => ⟨fun q k h => h2.1 q k (h1.1 q k h), fun h => h2.2.1 (h1.2.1 h), fun c h => (h1.2.2 c h).elim fun c' h' => h2.2.2 c' h'⟩)
          (fun d _ => ⟨fun _ _ h => h, id, fun c h => ⟨c, h⟩⟩) (fun d p _ => ⟨fun _ _ h => h, id, fun c h => ⟨c, h⟩⟩) ?_
          (fun d h => ⟨fun q k h' => (by rw [h] at h'; cases h'), fun _ => rfl, fun c h => ⟨c, h⟩⟩)
          (fun d p h => ⟨fun q k h' => (by rw [h] at h'; cases h'), fun h' => (by rw [h] at h'; cases h'), fun c h => ⟨c, h⟩⟩)
          (fun d k => ⟨fun _ _ h => h, id, fun c h => ⟨c, h⟩⟩) P pinned e now a
        · intro P pinned e now s
          rcases fetchconf_disk P pinned e now s with h | ⟨c, _, h | h | h⟩ <;> rw [h]
          · exact ⟨fun _ _ h => h, id, fun c h => ⟨c, h⟩⟩
          · exact ⟨fun _ _ h => h, id, fun c h => ⟨c, h⟩⟩
          · exact ⟨fun _ _ h => h, id, fun c h => ⟨c, h⟩⟩
          · exact ⟨fun _ _ h => h, id, fun c _ => ⟨_, rfl⟩⟩
      obtain ⟨k1, k2, k3⟩ := keys s
      exact ⟨fun q x h => (by rw [hm] at h; cases h), fun q k h => ⟨q, k1 q k h⟩, fun h => (by rw [hm] at h; cases h), k2, k3⟩
    · rw [(dbCreate_exists P pinned e now a s hm).1]
      exact Kept.refl _
  | rekey s a =>
    rcases dbRekey_cases a s with h | ⟨o, p, x, _, hm, h | ⟨o', p', k, _, hk, h, _⟩⟩
    · rw [h.1]; exact Kept.refl _
    · rw [h.1]
      exact ⟨fun q y h => (by rw [hm] at h; cases h; exact ⟨p, x, rfl, rfl, fun c hc => ⟨c, hc, Nat.le_refl _⟩⟩), fun q k h => ⟨q, h⟩,
        fun h => (by rw [hm] at h; cases h), id, fun c h => ⟨c, h⟩⟩
    · rw [h]
      exact ⟨fun q y h => (by rw [hm] at h; cases h; exact ⟨p, x, rfl, rfl, fun c hc => ⟨c, hc, Nat.le_refl _⟩⟩),
        fun q k' h => (by rw [hk] at h; cases h; exact ⟨p', rfl⟩),
        fun h => (by rw [hm] at h; cases h), fun h => (by rw [hk] at h; cases h), fun c h => ⟨c, h⟩⟩
  | prepare s e now parse bin pass offline check => exact prepare_kept ..
  | fetch s e now parse bin pass offline e' now' =>
    have h0 := prepare_kept P pinned e now parse bin pass offline true s
    rcases upkeepFetch_disk P pinned e now parse bin pass offline e' now' s with ⟨h, _⟩ | ⟨u, k, h, h'⟩
    · rw [h]; exact h0
    · rw [h] at h0
      rw [h']
      exact h0.trans (fetchconf_kept _ _ _ _ _ (prepare_date _ _ _ _ _ _ _ _ _ _ _ _ h))
  | update s e now parse bin pass offline e' now' =>
    have h0 := prepare_kept P pinned e now parse bin pass offline false s
    rcases upkeepUpdate_disk P pinned e now parse bin pass offline e' now' s with ⟨h, _⟩ | ⟨u, k, h, h', _⟩
    · rw [h]; exact h0
    · rw [h] at h0
      rw [h']
      exact h0.trans (fetchconf_kept _ _ _ _ _ (prepare_date _ _ _ _ _ _ _ _ _ _ _ _ h))

theorem steps_kept {P : Conf.Prims} {pinned : Bytes} {d d' : Disk} (h : Steps P pinned d d') : Kept d d' := by
  induction h with
  | refl => exact Kept.refl _
  | step _ h ih => exact ih.trans (step_kept h)

end Verif.Ctrl.Setup
