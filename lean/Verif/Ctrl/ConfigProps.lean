/-
C115: the configuration that commands run with. C116: updates of the software.
-/
import Verif.Ctrl.DbProps

namespace Verif.Ctrl.Setup
open Verif.Conf (Config Settings initMute Usable settingsOf)
open Verif.Ctrl.Scan

/-! ### C115: which configuration is used -/

/-- A day and a week, in nanoseconds. -/
def day : Int := 86400 * 1000000000

/-- What holds after the configuration was determined. -/
theorem getConfig_ok {P : Conf.Prims} {pinned : Bytes} {e : Conf.Env} {now : Int} {offline : Bool} {x : Data} {s v : St} {pass : Bytes}
    (hm : s.disk.msgs = .locked pass x) (h : getConfig P pinned e now offline x s = (v, .ok ())) :
    ∃ y c port, v.disk.msgs = .locked pass y ∧ y.conf = some c ∧ y.wallet = x.wallet ∧ Usable v.config ∧ v.set = settingsOf port v.config ∧
      v.config.lastSignDate = c.lastSignDate ∧
      (s.config.map = none → v.config.map = c.map ∧ v.config.caCert = c.caCert) ∧
      ((x.conf = some c ∧ x.time = none ∧ v.disk = s.disk ∧ y = x) ∨
        ∃ t, y.time = some t ∧ now - t * 1000000000 ≤ if offline = true then maxAge else minAge) := by
  rcases getConfig_cases P pinned e now offline x s with ⟨u, u1, _, hoff, _, u5⟩ | ⟨g, _, g'⟩
  · rw [u5] at h
    have f := fetchconf_cases P pinned e now u
    rw [h] at f
    rcases f with ⟨_, _, _, _, _, f, _⟩ | ⟨c, _, _, fc, f | f | f | f | f⟩
    · exact absurd rfl f
    · cases f.2.2
    · cases f.2.2
    · cases f.2.2.2
    · cases f.2.2.2
    · obtain ⟨_, f1, f2, _, f3, _⟩ := f
      simp only [] at fc f2 f3
      refine ⟨{ x with conf := some c, time := some (now / 1000000000) }, c, u.set.rpcPort, ?_, rfl, rfl, fc ▸ f1, fc ▸ f3, by rw [fc],
        fun _ => by rw [fc]; exact ⟨rfl, rfl⟩, .inr ⟨now / 1000000000, rfl, ?_⟩⟩
      · rw [f2, Disk.filed, Disk.timed, u1, hm]; rfl
      · rw [hoff]
        simp only [Bool.false_eq_true, if_false, minAge]
        have := Int.emod_lt_of_pos now (b := 1000000000) (by omega)
        have := Int.mul_ediv_add_emod now 1000000000
        omega
  · rw [h] at g g'
    obtain ⟨c, c1, c2, c3, c4, c5⟩ := g' rfl
    simp only [] at g c2 c4
    refine ⟨x, c, s.set.rpcPort, by rw [g]; exact hm, c1, rfl, c2 ▸ c3, c2 ▸ c4, by rw [c2]; rfl, fun hn => ?_, ?_⟩
    · rw [c2]
      refine ⟨?_, rfl⟩
      unfold load
      simp only [hn]
      cases c.map <;> rfl
    · rcases c5 with c5 | ⟨t, c5, c6⟩
      · exact .inl ⟨c1, c5, g, rfl⟩
      · exact .inr ⟨t, c5, c6⟩

/-- C115 (partial: not if the first fetch was interrupted between its two writes): a command that was
prepared runs with a usable configuration, to which all settings belong. In a new process it is the
stored one, and it was fetched within the last 24 hours, or, with `--offline`, within the last week. -/
theorem C115_fresh_partial (P : Conf.Prims) (pinned : Bytes) (e : Conf.Env) (now : Int) (parse : Bytes → Option Int) (bin : Build)
    (pass : Bytes) (offline check : Bool) (s v : St) (k : Bytes) (h : prepare P pinned e now parse bin pass offline check s = (v, .ok k))
    (ht : ∀ x, s.disk.msgs = .locked pass x → x.conf ≠ none → x.time ≠ none) :
    ∃ y c t port, v.disk.msgs = .locked pass y ∧ y.conf = some c ∧ y.time = some t ∧
      now - t * 1000000000 ≤ (if offline = true then 7 * day else day) ∧ Usable v.config ∧ v.set = settingsOf port v.config ∧
      v.config.lastSignDate = c.lastSignDate ∧ (s.config.map = none → v.config.map = c.map ∧ v.config.caCert = c.caCert) := by
  rcases prepare_cases P pinned e now parse bin pass offline check s with ⟨_, h', _⟩ | ⟨x, hm, hd, hc, hs, _, hk, _⟩
  · rw [h] at h'; cases h'
  · rw [h] at hd hc hs hk
    obtain ⟨hg, _⟩ := hk k rfl
    simp only [] at hd hc hs
    obtain ⟨y, c, port, g1, g2, _, g3, g4, g5, g6, g7⟩ := getConfig_ok (v := (getConfig P pinned e now offline x s).1) hm (Prod.ext rfl hg)
    rw [← hd] at g1
    rw [← hc] at g3 g4 g5 g6
    rw [← hs] at g4
    rcases g7 with ⟨g8, g9, _⟩ | ⟨t, g8, g9⟩
    · exact absurd g9 (ht x hm (by rw [g8]; nofun))
    · refine ⟨y, c, t, port, g1, g2, g8, ?_, g3, g4, g5, g6⟩
      revert g9
      cases offline
      · simp only [Bool.false_eq_true, if_false, minAge, day]; omega
      · simp only [if_true, maxAge, day]; omega

/-- The configuration in memory keeps the entries of the stored one. -/
theorem load_usable {c stored : Config} (h : Usable stored) : Usable (load c stored) := by
  have key : ∀ k v, (stored.map.getD []).lookup k = some v → ((load c stored).map.getD []).lookup k = some v := by
    intro k v hk
    unfold load
    cases h1 : stored.map with
    | none => rw [h1] at hk; cases hk
    | some m =>
      rw [h1] at hk
      cases h2 : c.map with
      | none => exact hk
      | some old =>
        simp only [Option.getD_some] at hk ⊢
        rw [List.lookup_append, hk]
        rfl
  obtain ⟨h1, h2, v, n, h3, h4⟩ := h
  refine ⟨fun k hk => ?_, fun k hk => ?_, v, n, key _ _ h3, h4⟩
  · obtain ⟨v, hv⟩ := h1 k hk
    exact ⟨v, key _ _ hv⟩
  · obtain ⟨v, b, hv, hb⟩ := h2 k hk
    exact ⟨v, b, key _ _ hv, hb⟩

/-- C115 is violated: if the first fetch is interrupted after the configuration was stored and
before the time was (`exStale` below), the configuration is not fetched again: no preparation of a command,
at any time and however often, changes what is stored. -/
theorem C115_stale_violated (P : Conf.Prims) (pinned : Bytes) (q : Bytes) (x : Data) (c : Config) (hc : x.conf = some c) (hU : Usable c) (ht : x.time = none)
    (s : St) (hm : s.disk.msgs = .locked q x)
    (e : Conf.Env) (now : Int) (parse : Bytes → Option Int) (bin : Build) (pass : Bytes) (offline check : Bool) :
    (prepare P pinned e now parse bin pass offline check s).1.disk = s.disk ∧
    ∀ k, (prepare P pinned e now parse bin pass offline check s).2 = .ok k →
      (prepare P pinned e now parse bin pass offline check s).1.config.lastSignDate = c.lastSignDate := by
  rcases prepare_cases P pinned e now parse bin pass offline check s with ⟨h, h2, _⟩ | ⟨y, hy, hd, hcf, _, _, hk, _⟩
  · rw [h]
    exact ⟨rfl, fun k hk => by rw [h2] at hk; cases hk⟩
  · rw [hm] at hy
    cases hy
    have ha := applyConfig_disk { s with config := load s.config c }
    have hg : (getConfig P pinned e now offline x s).1.disk = s.disk ∧ (getConfig P pinned e now offline x s).1.config = load s.config c := by
      unfold getConfig
      rw [hc]
      simp only [ht]
      cases hr : applyConfig { s with config := load s.config c } with
      | mk u r =>
        rw [hr] at ha
        have : r = .ok () := ha.2.2.2.2.2.1.mpr (load_usable hU)
        subst this
        exact ⟨ha.1, ha.2.1⟩
    rw [hd, hcf]
    exact ⟨hg.1, fun _ _ => by rw [hg.2]; rfl⟩

/-! ### C115: signed and not rolled back -/

/-- The configuration is signed with the key, entries and date. -/
def SignedBy (P : Conf.Prims) (pub : Bytes) (c : Config) : Prop :=
  ∃ m sig, c.map = some m ∧ P.verify (Mix.fix32 pub) (P.sha512 (Conf.imageBytes (Conf.sortMap m)) ++ Conf.be64 c.lastSignDate.toNat) sig = true

/-- Everything stored is signed, and the file is not newer than what is in the database. -/
def Sound (P : Conf.Prims) (pinned : Bytes) (d : Disk) : Prop :=
  (∀ q x c, d.msgs = .locked q x → x.conf = some c → SignedBy P pinned c) ∧
  (∀ f, d.file = some f → SignedBy P pinned f ∧ ∃ q x c, d.msgs = .locked q x ∧ x.conf = some c ∧ f.lastSignDate.toNat ≤ c.lastSignDate.toNat)

theorem update_signed {P : Conf.Prims} {e : Conf.Env} {c c' : Config} {pinned : Bytes}
    (h : Conf.update P e { c with publicKey := pinned } = (c', .ok ())) : SignedBy P pinned c' := by
  obtain ⟨_, _, sm, _, h1, h2, h3, _⟩ := Conf.C32_accepted P e _ _ h
  exact ⟨sm.config, sm.signature, h2, h3 ▸ h1.1⟩

theorem fetchconf_sound (P : Conf.Prims) (pinned : Bytes) (e : Conf.Env) (now : Int) (s : St) (q : Bytes) (x : Data) (hm : s.disk.msgs = .locked q x)
    (hc : ∀ c, x.conf = some c → c.lastSignDate.toNat ≤ s.config.lastSignDate.toNat) (h : Sound P pinned s.disk) :
    Sound P pinned (fetchconf P pinned e now s).1.disk ∧
    ∀ f, s.disk.file = some f → ∃ f', (fetchconf P pinned e now s).1.disk.file = some f' ∧ f.lastSignDate.toNat ≤ f'.lastSignDate.toNat := by
  rcases fetchconf_disk P pinned e now s with hd | ⟨c, hu, hd⟩
  · rw [hd]; exact ⟨h, fun f hf => ⟨f, hf, Nat.le_refl _⟩⟩
  · have hs := update_signed hu
    have hdate := update_date hu
    have hfile : ∀ f, s.disk.file = some f → f.lastSignDate.toNat ≤ c.lastSignDate.toNat := by
      intro f hf
      obtain ⟨_, q', x', c0, g1, g2, g3⟩ := h.2 f hf
      rw [hm] at g1
      cases g1
      exact Nat.le_trans g3 (Nat.le_trans (hc _ g2) hdate)
    rcases hd with hd | hd | hd
    · rw [hd, Disk.stored, hm]
      refine ⟨⟨fun _ _ c' h1 h2 => ?_, fun f hf => ⟨(h.2 f hf).1, q, _, c, rfl, rfl, hfile f hf⟩⟩, fun f hf => ⟨f, hf, Nat.le_refl _⟩⟩
      cases h1; cases h2; exact hs
    · rw [hd, Disk.timed, hm]
      refine ⟨⟨fun _ _ c' h1 h2 => ?_, fun f hf => ⟨(h.2 f hf).1, q, _, c, rfl, rfl, hfile f hf⟩⟩, fun f hf => ⟨f, hf, Nat.le_refl _⟩⟩
      cases h1; cases h2; exact hs
    · rw [hd, Disk.filed, Disk.timed, hm]
      refine ⟨⟨fun _ _ c' h1 h2 => ?_, fun f hf => ?_⟩, fun f hf => ⟨c, rfl, hfile f hf⟩⟩
      · cases h1; cases h2; exact hs
      · cases hf
        exact ⟨hs, q, _, c, rfl, rfl, Nat.le_refl _⟩

/-- What a step does to the file. -/
def Good (P : Conf.Prims) (pinned : Bytes) (d d' : Disk) : Prop :=
  Sound P pinned d → Sound P pinned d' ∧ ∀ f, d.file = some f → ∃ f', d'.file = some f' ∧ f.lastSignDate.toNat ≤ f'.lastSignDate.toNat

theorem Good.refl (P : Conf.Prims) (pinned : Bytes) (d : Disk) : Good P pinned d d := fun h => ⟨h, fun f hf => ⟨f, hf, Nat.le_refl _⟩⟩

theorem Good.trans {P : Conf.Prims} {pinned : Bytes} {a b c : Disk} (h1 : Good P pinned a b) (h2 : Good P pinned b c) : Good P pinned a c := by
  intro h
  obtain ⟨s1, f1⟩ := h1 h
  obtain ⟨s2, f2⟩ := h2 s1
  refine ⟨s2, fun f hf => ?_⟩
  obtain ⟨f', e1, l1⟩ := f1 f hf
  obtain ⟨f'', e2, l2⟩ := f2 f' e1
  exact ⟨f'', e2, Nat.le_trans l1 l2⟩

theorem prepare_good (P : Conf.Prims) (pinned : Bytes) (e : Conf.Env) (now : Int) (parse : Bytes → Option Int) (bin : Build)
    (pass : Bytes) (offline check : Bool) (s : St) : Good P pinned s.disk (prepare P pinned e now parse bin pass offline check s).1.disk := by
  rcases prepare_cases P pinned e now parse bin pass offline check s with ⟨h, _⟩ | ⟨x, hm, h, _⟩
  · rw [h]; exact Good.refl _ _ _
  · rw [h]
    rcases getConfig_cases P pinned e now offline x s with ⟨u, u1, _, _, u4, u5⟩ | ⟨g, _⟩
    · rw [u5, ← u1]
      rw [← u1] at hm
      refine fun hs => fetchconf_sound P pinned e now u _ x hm (fun c hc => ?_) hs
      rw [u4 c hc]
      exact Nat.le_refl _
    · rw [g]; exact Good.refl _ _ _

/-- A fetch after a successful preparation. -/
theorem fetch_good {P : Conf.Prims} {pinned : Bytes} {e : Conf.Env} {now : Int} {parse : Bytes → Option Int} {bin : Build}
    {pass : Bytes} {offline check : Bool} {s u : St} {k : Bytes} (h : prepare P pinned e now parse bin pass offline check s = (u, .ok k))
    (e' : Conf.Env) (now' : Int) : Good P pinned s.disk (fetchconf P pinned e' now' u).1.disk := by
  have h0 := prepare_good P pinned e now parse bin pass offline check s
  have hk := prepare_date _ _ _ _ _ _ _ _ _ _ _ _ h
  rcases prepare_cases P pinned e now parse bin pass offline check s with ⟨_, h', _⟩ | ⟨x, _, hd, _, _, _, hok, _⟩
  · rw [h] at h'; cases h'
  · rw [h] at h0 hok hd
    obtain ⟨_, _, _, q, y, hy, _⟩ := hok k rfl
    rw [← hd] at hy
    refine h0.trans fun hs => fetchconf_sound P pinned e' now' u q y hy (fun c hc => hk q y c hy hc) hs

theorem step_good {P : Conf.Prims} {pinned : Bytes} {d d' : Disk} (h : Step P pinned d d') : Good P pinned d d' := by
  cases h with
  | create s e now a =>
    by_cases hm : s.disk.msgs = .absent
    · intro hs
      have hnf : s.disk.file = none := by
        cases hf : s.disk.file with
        | none => rfl
        | some f =>
          obtain ⟨_, _, _, _, g, _⟩ := hs.2 f hf
          rw [hm] at g
          cases g
      refine ⟨?_, fun f hf => by rw [hnf] at hf; cases hf⟩
      unfold dbCreate
      rcases hask : askCreate a.n a.input .eof with _ | ⟨_ | _ | p⟩
      · exact hs
      · exact hs
      · exact hs
      · simp only []
        show Sound P pinned (andThen _ _ s).1.disk
        unfold andThen
        rcases (createMsgs_cases a.iterOk p s).2.2 with ⟨h, _⟩ | ⟨_, h⟩
        · exact absurd hm h
        · cases hr : createMsgs a.iterOk p s with
          | mk s1 r =>
            rw [hr] at h
            simp only [] at h
            rcases h with h | h | h
            · have : Sound P pinned s1.disk := by rw [h.1]; exact hs
              cases r with
              | ok _ => exact absurd rfl h.2
              | err _ => exact this
              | panic => exact this
            · have : Sound P pinned s1.disk := by
                rw [h.1]
                exact ⟨fun _ _ _ h => by (cases h), fun f hf => by rw [hnf] at hf; cases hf⟩
              cases r with
              | ok _ => exact absurd rfl h.2
              | err _ => exact this
              | panic => exact this
            · obtain ⟨h1, h2, _⟩ := h
              subst h2
              simp only []
              have hm1 : s1.disk.msgs = .locked p ⟨none, none, []⟩ := by rw [h1]
              have hs1 : Sound P pinned s1.disk := by
                refine ⟨fun _ _ _ h h' => ?_, fun f hf => ?_⟩
                · rw [hm1] at h; cases h; cases h'
                · rw [h1, hnf] at hf; cases hf
              have hs2 := (fetchconf_sound P pinned e now s1 p _ hm1 nofun hs1).1
              show Sound P pinned (andThen _ _ s1).1.disk
              unfold andThen
              cases hr2 : fetchconf P pinned e now s1 with
              | mk s2 r2 =>
                rw [hr2] at hs2
                cases r2 with
                | err _ => exact hs2
                | panic => exact hs2
                | ok _ =>
                  simp only []
                  have hkeep : Keeps (fun d d' => Sound P pinned d → Sound P pinned d') (do
                      createKeys a.n a.pipe a.iterOk p
                      let k ← chooseKey a
                      write fun x => { x with wallet := k }
                      fun s => (s, printWalletKey k) : M Bytes) := by
                    have tr : ∀ a b c, (Sound P pinned a → Sound P pinned b) → (Sound P pinned b → Sound P pinned c) → Sound P pinned a → Sound P pinned c :=
                      fun _ _ _ f g h => g (f h)
                    refine keeps_bind tr ?_ fun _ => keeps_bind tr ?_ fun k => keeps_bind tr ?_ fun _ => fun s => id
                    · intro s
                      rcases createKeys_cases a.n a.pipe a.iterOk p s with h | ⟨_, h | ⟨q, _, h, _⟩⟩
                      · rw [h.1]; exact id
                      · rw [h.1]; exact id
                      · rw [h]; exact id
                    · intro s
                      unfold chooseKey
                      by_cases h : a.walletKey = []
                      · rw [if_pos h]
                        cases a.fresh <;> exact id
                      · rw [if_neg h]; exact id
                    · refine keeps_emit (fun _ => id) fun d hd => ⟨fun q x c hx hc => ?_, fun f hf => ?_⟩
                      · cases hv : d.msgs with
                        | absent => simp only [hv, Vault.modify] at hx; cases hx
                        | broken => simp only [hv, Vault.modify] at hx; cases hx
                        | locked q0 x0 =>
                          simp only [hv, Vault.modify] at hx
                          cases hx
                          exact hd.1 _ _ c hv hc
                      · obtain ⟨g0, q, x, c, g1, g2, g3⟩ := hd.2 f hf
                        exact ⟨g0, q, { x with wallet := k }, c, by simp only [g1, Vault.modify], g2, g3⟩
                  exact hkeep s2 hs2
    · rw [(dbCreate_exists P pinned e now a s hm).1]
      exact Good.refl _ _ _
  | rekey s a =>
    have main : ∀ o p x, s.disk.msgs = .locked o x → ∀ v, Good P pinned s.disk ⟨.locked p x, v, s.disk.file⟩ := by
      intro o p x hm v hs
      refine ⟨⟨fun q y c h hc => ?_, fun f hf => ?_⟩, fun f hf => ⟨f, hf, Nat.le_refl _⟩⟩
      · cases h
        exact hs.1 o _ c hm hc
      · obtain ⟨g0, q, y, c, g1, g2, g3⟩ := hs.2 f hf
        rw [hm] at g1
        cases g1
        exact ⟨g0, p, x, c, rfl, g2, g3⟩
    rcases dbRekey_cases a s with h | ⟨o, p, x, _, hm, h | ⟨o', p', k, _, hk, h, _⟩⟩
    · rw [h.1]; exact Good.refl _ _ _
    · rw [h.1]; exact main o p x hm _
    · rw [h]; exact main o p x hm _
  | prepare s e now parse bin pass offline check => exact prepare_good _ _ _ _ _ _ _ _ _ _
  | fetch s e now parse bin pass offline e' now' =>
    rcases upkeepFetch_disk P pinned e now parse bin pass offline e' now' s with ⟨h, _⟩ | ⟨u, k, h, h'⟩
    · rw [h]; exact prepare_good _ _ _ _ _ _ _ _ _ _
    · rw [h']; exact fetch_good h e' now'
  | update s e now parse bin pass offline e' now' =>
    rcases upkeepUpdate_disk P pinned e now parse bin pass offline e' now' s with ⟨h, _⟩ | ⟨u, k, h, h', _⟩
    · rw [h]; exact prepare_good _ _ _ _ _ _ _ _ _ _
    · rw [h']; exact fetch_good h e' now'

theorem steps_good {P : Conf.Prims} {pinned : Bytes} {d d' : Disk} (h : Steps P pinned d d') : Good P pinned d d' := by
  induction h with
  | refl => exact Good.refl _ _ _
  | step _ h ih => exact ih.trans (step_good h)

theorem empty_sound (P : Conf.Prims) (pinned : Bytes) : Sound P pinned empty := ⟨nofun, nofun⟩

/-- C115: whatever the servers answer, and whatever is run and interrupted, the configurations in the
database and in the file are signed with the built-in key. -/
theorem C115_signed (P : Conf.Prims) (pinned : Bytes) (d : Disk) (h : Steps P pinned empty d) :
    (∀ q x c, d.msgs = .locked q x → x.conf = some c → SignedBy P pinned c) ∧ (∀ f, d.file = some f → SignedBy P pinned f) :=
  let s := (steps_good h (empty_sound P pinned)).1
  ⟨s.1, fun f hf => (s.2 f hf).1⟩

/-- C115: neither of them is ever replaced by an older one. -/
theorem C115_monotone (P : Conf.Prims) (pinned : Bytes) (d d' : Disk) (h0 : Steps P pinned empty d) (h : Steps P pinned d d') :
    (∀ q x c, d.msgs = .locked q x → x.conf = some c → ∃ q' x' c', d'.msgs = .locked q' x' ∧ x'.conf = some c' ∧ c.lastSignDate.toNat ≤ c'.lastSignDate.toNat) ∧
    (∀ f, d.file = some f → ∃ f', d'.file = some f' ∧ f.lastSignDate.toNat ≤ f'.lastSignDate.toNat) := by
  refine ⟨fun q x c hm hc => ?_, (steps_good h (steps_good h0 (empty_sound P pinned)).1).2⟩
  obtain ⟨q', x', h1, _, h2⟩ := (steps_kept h).1 q x hm
  obtain ⟨c', h3, h4⟩ := h2 c hc
  exact ⟨q', x', c', h1, h3, h4⟩

/-! ### C115: offline -/

/-- C115: with `--offline` the preparation of a command contacts no server and writes nothing. -/
theorem C115_offline (P : Conf.Prims) (pinned : Bytes) (e : Conf.Env) (now : Int) (parse : Bytes → Option Int) (bin : Build)
    (pass : Bytes) (check : Bool) (s : St) :
    (prepare P pinned e now parse bin pass true check s).1.online = s.online ∧ (prepare P pinned e now parse bin pass true check s).1.disk = s.disk := by
  rcases prepare_cases P pinned e now parse bin pass true check s with ⟨h, _⟩ | ⟨x, hm, hd, _, _, ho, _⟩
  · rw [h]; exact ⟨rfl, rfl⟩
  · rcases getConfig_cases P pinned e now true x s with ⟨_, _, _, h, _⟩ | ⟨g, g', _⟩
    · cases h
    · rcases ho with ho | ho
      · exact ⟨ho.trans g', hd.trans g⟩
      · cases ho

/-- C115 is violated: `upkeep fetchconf` and `upkeep update` go online in spite of `--offline`. -/
theorem C115_offline_violated (P : Conf.Prims) (pinned : Bytes) (e : Conf.Env) (now : Int) (parse : Bytes → Option Int) (bin : Build)
    (pass : Bytes) (s : St) (e' : Conf.Env) (now' : Int) :
    ((∃ k, (prepare P pinned e now parse bin pass true true s).2 = .ok k) → (upkeepFetch P pinned e now parse bin pass true e' now' s).1.online = true) ∧
    ((∃ k, (prepare P pinned e now parse bin pass true false s).2 = .ok k) → (upkeepUpdate P pinned e now parse bin pass true e' now' s).1.online = true) := by
  have on : ∀ u, (fetchconf P pinned e' now' u).1.online = true := by
    intro u
    rcases fetchconf_cases P pinned e' now' u with ⟨_, _, _, _, _, _, h⟩ | ⟨_, _, h, _⟩ <;> exact h
  constructor
  · rintro ⟨k, hk⟩
    unfold upkeepFetch
    rw [bind_run (Prod.ext rfl hk)]
    exact on _
  · rintro ⟨k, hk⟩
    rcases upkeepUpdate_disk P pinned e now parse bin pass true e' now' s with ⟨h, h'⟩ | ⟨u, _, _, h', _⟩
    · unfold upkeepUpdate at h' ⊢
      rw [bind_run (Prod.ext rfl hk)]
      have := on (prepare P pinned e now parse bin pass true false s).1
      show (andThen _ _ _).1.online = true
      unfold andThen
      cases hf : fetchconf P pinned e' now' (prepare P pinned e now parse bin pass true false s).1 with
      | mk v r =>
        rw [hf] at this
        cases r <;> exact this
    · rw [h']; exact on u

/-- C115 is violated: in interactive mode the option is not handed on to the commands, so they all go online. -/
theorem C115_offline_loop_violated (name homedir logdir level : Bytes) (words : List Bytes)
    (h : optOffline ∉ [name, homedir, logdir, level]) (hw : optOffline ∉ words) : optOffline ∉ loopArgs name homedir logdir level words := by
  unfold loopArgs
  have h1 : optOffline ≠ optHome ∧ optOffline ≠ optLogdir ∧ optOffline ≠ optLevel := by decide +kernel
  simp only [List.mem_cons, List.not_mem_nil, or_false, not_or] at h
  simp only [List.mem_append, List.mem_cons, List.not_mem_nil, or_false, not_or]
  exact ⟨⟨h.1, h1.1, h.2.1, h1.2.1, h.2.2.1, h1.2.2, h.2.2.2⟩, hw⟩

/-- C115 is violated: an acceptable configuration that is not usable replaces a usable one before this
is noticed. Then all commands fail with `--offline`, however recent the last usable one was. -/
theorem C115_unusable_violated (P : Conf.Prims) (pinned : Bytes) (e : Conf.Env) (now : Int) (s : St) (q : Bytes) (x : Data) (c : Config)
    (hm : s.disk.msgs = .locked q x) (hu : Conf.update P e { s.config with publicKey := pinned } = (c, .ok ())) (hc : ¬ Usable c) (hb : 2 ≤ s.budget) :
    (fetchconf P pinned e now s).2 = .err .init ∧
    ∀ u : St, u.disk = (fetchconf P pinned e now s).1.disk → u.config.map = none →
      ∀ e' now' parse bin pass check k, (prepare P pinned e' now' parse bin pass true check u).2 ≠ .ok k := by
  have hf : (fetchconf P pinned e now s).2 = .err .init ∧ (fetchconf P pinned e now s).1.disk = s.disk.timed c (now / 1000000000) := by
    rcases fetchconf_cases P pinned e now s with ⟨c', r, h, hr, _⟩ | ⟨c', h, _, _, f | f | f | f | f⟩
    · rw [hu] at h; cases h; exact absurd rfl hr
    · omega
    · omega
    · rw [hu] at h; cases h; exact ⟨f.2.2.2, f.2.2.1⟩
    · rw [hu] at h; cases h; exact absurd f.2.1 hc
    · rw [hu] at h; cases h; exact absurd f.2.1 hc
  refine ⟨hf.1, fun u hd hn e' now' parse bin pass check k hk => ?_⟩
  rw [hf.2, Disk.timed, hm] at hd
  rcases prepare_cases P pinned e' now' parse bin pass true check u with ⟨_, h, _⟩ | ⟨y, hy, _, _, _, _, hok, _⟩
  · rw [h] at hk; cases hk
  · obtain ⟨hg, _⟩ := hok k hk
    rcases getConfig_cases P pinned e' now' true y u with ⟨_, _, _, h, _⟩ | ⟨_, _, g⟩
    · cases h
    · obtain ⟨c', h1, _, h2, _⟩ := g hg
      rw [hd] at hy
      cases hy
      cases h1
      apply hc
      have : (load u.config c).map = c.map := by
        unfold load
        simp only [hn]
        cases c.map <;> rfl
      unfold Usable at h2 ⊢
      rw [this] at h2
      exact h2

/-! ### C116: updates -/

/-- C116: whoever is told to update, or is refused because the software is outdated, can update: with the same
configuration, `upkeep update` builds the released version. -/
theorem C116_update_possible (parse : Bytes → Option Int) (bin : Build) (c : Config)
    (h : checkUpdates parse bin c = .ok .inform ∨ checkUpdates parse bin c = .err .outdated) :
    decideUpdate parse bin c = .ok (.build (released c).commit) := by
  unfold checkUpdates at h
  unfold decideUpdate
  by_cases h1 : bin.commit = (released c).commit
  · rw [if_pos h1] at h; rcases h with h | h <;> cases h
  · rw [if_neg h1] at h ⊢
    cases h2 : parse (released c).date with
    | none => rw [h2] at h; rcases h with h | h <;> cases h
    | some r =>
      rw [h2] at h
      simp only [] at h ⊢
      cases h3 : parse bin.date with
      | none => rw [h3] at h; rcases h with h | h <;> cases h
      | some b =>
        rw [h3] at h
        simp only [] at h ⊢
        by_cases h4 : b < r
        · rw [if_neg (by omega)]
        · rw [if_pos h4] at h; rcases h with h | h <;> cases h

/-- C116: commands are refused as outdated exactly if the binary is another version that is more than 14 days
older than the release in the configuration, and the user is informed exactly if it is older by at most that. -/
theorem C116_check (parse : Bytes → Option Int) (bin : Build) (c : Config) (b r : Int) (hb : parse bin.date = some b) (hr : parse (released c).date = some r) :
    (checkUpdates parse bin c = .err .outdated ↔ bin.commit ≠ (released c).commit ∧ 14 * 86400 < r - b) ∧
    (checkUpdates parse bin c = .ok .inform ↔ bin.commit ≠ (released c).commit ∧ 0 < r - b ∧ r - b ≤ 14 * 86400) ∧
    (checkUpdates parse bin c = .ok .silent ↔ bin.commit = (released c).commit ∨ r - b ≤ 0) := by
  unfold checkUpdates
  by_cases h1 : bin.commit = (released c).commit
  · simp [h1]
  · rw [if_neg h1, hb, hr]
    have hage : updateAge = 1209600 := rfl
    simp only []
    by_cases h2 : b < r
    · rw [if_neg (by omega)]
      by_cases h3 : b + updateAge < r
      · rw [if_pos h3]
        simp [h1]
        omega
      · rw [if_neg h3]
        simp [h1]
        omega
    · rw [if_pos h2]
      simp [h1]
      omega

/-- The errors of a program. -/
def Errs {α : Type} (p : M α) : Prop := ∀ s, (p s).2 ≠ .err .outdated ∧ (p s).2 ≠ .err .date

theorem errs_bind {α β : Type} {p : M α} {f : α → M β} (h1 : Errs p) (h2 : ∀ a, Errs (f a)) : Errs (p >>= f) := by
  intro s
  show (andThen p f s).2 ≠ _ ∧ (andThen p f s).2 ≠ _
  unfold andThen
  have h := h1 s
  revert h
  cases p s with
  | mk u r =>
    intro h
    cases r with
    | ok a => exact h2 a u
    | err e => exact ⟨fun g => by cases g; exact h.1 rfl, fun g => by cases g; exact h.2 rfl⟩
    | panic => exact ⟨nofun, nofun⟩

theorem errs_emit (f : Disk → Disk) : Errs (emit f) := by
  intro s
  unfold emit
  split <;> exact ⟨nofun, nofun⟩

theorem errs_apply : Errs applyConfig := by
  intro s
  unfold applyConfig
  split <;> exact ⟨nofun, nofun⟩

theorem errs_fetch (P : Conf.Prims) (pinned : Bytes) (e : Conf.Env) (now : Int) : Errs (fetchconf P pinned e now) := by
  unfold fetchconf
  refine errs_bind ?_ fun _ => errs_bind (errs_emit _) fun _ => errs_bind (errs_emit _) fun _ => errs_bind errs_apply fun _ => errs_emit _
  intro s
  simp only []
  split <;> exact ⟨nofun, nofun⟩

theorem errs_get (P : Conf.Prims) (pinned : Bytes) (e : Conf.Env) (now : Int) (offline : Bool) (x : Data) : Errs (getConfig P pinned e now offline x) := by
  intro s
  rcases getConfig_cases P pinned e now offline x s with ⟨u, _, _, _, _, h⟩ | _
  · rw [h]; exact errs_fetch P pinned e now u
  · unfold getConfig
    cases x.conf with
    | none =>
      simp only []
      split
      · exact ⟨nofun, nofun⟩
      · exact errs_fetch P pinned e now s
    | some c =>
      simp only []
      cases applyConfig { s with config := load s.config c } with
      | mk u r =>
        cases r with
        | ok _ =>
          simp only []
          cases x.time with
          | none => exact ⟨nofun, nofun⟩
          | some t =>
            simp only []
            split
            · split
              · split <;> exact ⟨nofun, nofun⟩
              · exact errs_fetch P pinned e now u
            · exact ⟨nofun, nofun⟩
        | err _ =>
          simp only []
          split
          · exact ⟨nofun, nofun⟩
          · exact errs_fetch P pinned e now u
        | panic =>
          simp only []
          split
          · exact ⟨nofun, nofun⟩
          · exact errs_fetch P pinned e now u

/-- C116: `upkeep update` itself is never refused as outdated, and its preparation is not stopped by a date. -/
theorem C116_not_refused (P : Conf.Prims) (pinned : Bytes) (e : Conf.Env) (now : Int) (parse : Bytes → Option Int) (bin : Build)
    (pass : Bytes) (offline : Bool) (s : St) :
    (prepare P pinned e now parse bin pass offline false s).2 ≠ .err .outdated ∧ (prepare P pinned e now parse bin pass offline false s).2 ≠ .err .date := by
  have : Errs (prepare P pinned e now parse bin pass offline false) := by
    unfold prepare
    refine errs_bind ?_ fun x => errs_bind (errs_get P pinned e now offline x) fun _ => errs_bind ?_ fun _ => ?_
    · intro s
      unfold openMsgs
      split
      · split <;> exact ⟨nofun, nofun⟩
      · exact ⟨nofun, nofun⟩
    · intro s
      exact ⟨nofun, nofun⟩
    · unfold finish
      refine errs_bind ?_ fun x => ?_
      · intro s
        unfold opened
        split <;> exact ⟨nofun, nofun⟩
      · intro s
        unfold startWallet decodeWalletKey
        cases Base64.decode x.wallet <;> exact ⟨nofun, nofun⟩
  exact this s

/-- C116: `upkeep update` builds a version only if a configuration that is signed with the built-in key,
and that was fetched by this command, names it, it is not the version that is running, and not an older one. -/
theorem C116_no_downgrade (P : Conf.Prims) (pinned : Bytes) (e : Conf.Env) (now : Int) (parse : Bytes → Option Int) (bin : Build)
    (pass : Bytes) (offline : Bool) (e' : Conf.Env) (now' : Int) (s v : St) (commit : Bytes)
    (h : upkeepUpdate P pinned e now parse bin pass offline e' now' s = (v, .ok (.build commit))) :
    SignedBy P pinned v.config ∧ (∃ u ∈ e'.servers, ∃ sm, e'.cfg u = some sm ∧ v.config.map = some sm.config) ∧
    commit = ((v.config.map.getD []).lookup keyCommit).getD [] ∧ commit ≠ bin.commit ∧
    ∃ r b, parse (((v.config.map.getD []).lookup keyDate).getD []) = some r ∧ parse bin.date = some b ∧ b ≤ r := by
  rcases upkeepUpdate_disk P pinned e now parse bin pass offline e' now' s with ⟨_, h'⟩ | ⟨u, k, _, h1, h2, h3⟩
  · rw [h] at h'; exact absurd rfl (h' _)
  · rw [h] at h1 h2 h3
    simp only [] at h1
    have hok : (fetchconf P pinned e' now' u).2 = .ok () := by
      rcases hr : (fetchconf P pinned e' now' u).2 with _ | _ | _
      · rfl
      · exact absurd rfl (h3 (by rw [hr]; nofun) _)
      · exact absurd rfl (h3 (by rw [hr]; nofun) _)
    have hdec := h2 hok
    rw [← h1] at hdec
    rcases fetchconf_cases P pinned e' now' u with ⟨_, _, _, _, _, f, _⟩ | ⟨c, fu, _, fc, _⟩
    · exact absurd hok f
    · rw [← h1] at fc
      obtain ⟨srv, hsrv, sm, g1, _, g2, _⟩ := Conf.C32_accepted P e' _ _ fu
      refine ⟨fc ▸ update_signed fu, ⟨srv, hsrv, sm, g1, fc ▸ g2⟩, ?_⟩
      unfold decideUpdate at hdec
      by_cases c1 : bin.commit = (released v.config).commit
      · rw [if_pos c1] at hdec; cases hdec
      · rw [if_neg c1] at hdec
        cases c2 : parse (released v.config).date with
        | none => rw [c2] at hdec; cases hdec
        | some r =>
          rw [c2] at hdec
          simp only [] at hdec
          cases c3 : parse bin.date with
          | none => rw [c3] at hdec; cases hdec
          | some b =>
            rw [c3] at hdec
            simp only [] at hdec
            by_cases c4 : r < b
            · rw [if_pos c4] at hdec; cases hdec
            · rw [if_neg c4] at hdec
              injection hdec with hdec
              injection hdec with hdec
              subst hdec
              exact ⟨rfl, fun h => c1 h.symm, r, b, c2, rfl, by omega⟩

/-- C116 is violated: a usable configuration without a release date that can be read (it needs none to be usable) stops all other
commands, and `upkeep update` as well. -/
theorem C116_date_violated (parse : Bytes → Option Int) (bin : Build) (c : Config) (h : bin.commit ≠ (released c).commit) (hp : parse (released c).date = none) :
    checkUpdates parse bin c = .err .date ∧ decideUpdate parse bin c = .err .date := by
  unfold checkUpdates decideUpdate
  rw [if_neg h, if_neg h, hp]
  exact ⟨rfl, rfl⟩

/-- C116 is violated: a release with the date of the binary but another commit is not announced, though
`upkeep update` would build it. -/
theorem C116_same_date_violated (parse : Bytes → Option Int) (bin : Build) (c : Config) (h : bin.commit ≠ (released c).commit) (b : Int)
    (hp : parse (released c).date = some b) (hb : parse bin.date = some b) :
    checkUpdates parse bin c = .ok .silent ∧ decideUpdate parse bin c = .ok (.build (released c).commit) := by
  unfold checkUpdates decideUpdate
  rw [if_neg h, if_neg h, hp, hb]
  simp

/-! ### examples -/

/-- Dates are numbers of one byte here; none is the day 0. -/
def exParse (b : Bytes) : Option Int := match b with
  | [] => some 0
  | [c] => some (c.toNat * 86400)
  | _ => none
def exBin : Build := ⟨[1], [5]⟩

/-- The home directory after `db create`, in a new process. -/
def exDisk (budget : Nat) : Disk := (dbCreate Conf.exP [] (exSrv exMap 100000) 100000000000000 exCreate (exNew budget)).1.disk
def exMade : St := ⟨exDisk 8, 100, Conf.exConfig, exSet, false⟩

/-- A command on the same day does not fetch the configuration, one two days later does. -/
example : (prepare Conf.exP [] (exSrv exMap 100000) 100000000000000 exParse exBin [112] false true exMade).2 = .ok (List.replicate 64 7) := by decide +kernel
example : (match (prepare Conf.exP [] (exSrv exMap 300000) 300000000000000 exParse exBin [112] false true exMade).1.disk.msgs with
    | .locked _ x => x.time
    | _ => none) = some 300000 := by decide +kernel
example : (match (prepare Conf.exP [] (exSrv exMap 300000) 100000000000000 exParse exBin [112] false true exMade).1.disk.msgs with
    | .locked _ x => x.time
    | _ => none) = some 100000 := by decide +kernel
/-- Offline, two days later it is used, and eight days later not. -/
example : (prepare Conf.exP [] (exSrv exMap 300000) 300000000000000 exParse exBin [112] true true exMade).2 = .ok (List.replicate 64 7) ∧
    (prepare Conf.exP [] (exSrv exMap 300000) 800000000000000 exParse exBin [112] true true exMade).2 = .err .offline := by decide +kernel
/-- `db create`, killed after its third write: a configuration without a time. -/
def exStale : St := ⟨exDisk 3, 100, Conf.exConfig, exSet, false⟩
example : (match exStale.disk.msgs with
    | .locked p x => p == [112] && x.time.isNone && x.conf.any fun c => c.map == some exMap
    | _ => false) = true := by decide +kernel
example (n : Nat) : Steps Conf.exP [] empty (exDisk n) := by
  unfold exDisk
  exact .step (.refl (exNew n).disk) (.create (exNew n) (exSrv exMap 100000) 100000000000000 exCreate)
/-- A configuration that is signed but empty. -/
example : (Conf.update Conf.exP (exSrv [] 100000) { exMade.config with publicKey := [] }).2 = .ok () ∧ ¬ Usable ⟨[], none, some [], 100000, 0⟩ := by
  refine ⟨by decide +kernel, fun h => ?_⟩
  obtain ⟨v, hv⟩ := h.1 Conf.keyMix (by simp)
  cases hv
/-- `upkeep fetchconf --offline`. -/
example : (upkeepFetch Conf.exP [] (exSrv exMap 100000) 100000000000000 exParse exBin [112] true (exSrv exMap 100000) 100000000000000 exMade).1.online = true := by
  decide +kernel
/-- A configuration with a release on day 30, and one on day 10; the binary is from day 5. -/
def exRelease (day : UInt8) : Conf.SMap := exMap ++ [(keyCommit, [2]), (keyDate, [day])]
example : checkUpdates exParse exBin ⟨[], none, some (exRelease 30), 0, 0⟩ = .err .outdated ∧
    checkUpdates exParse exBin ⟨[], none, some (exRelease 10), 0, 0⟩ = .ok .inform ∧
    checkUpdates exParse exBin ⟨[], none, some (exRelease 5), 0, 0⟩ = .ok .silent ∧
    decideUpdate exParse exBin ⟨[], none, some (exRelease 5), 0, 0⟩ = .ok (.build [2]) := by decide +kernel
example : (upkeepUpdate Conf.exP [] (exSrv exMap 100000) 100000000000000 exParse exBin [112] false (exSrv (exRelease 30) 100000) 100000000000000 exMade).2 =
    .ok (.build [2]) := by decide +kernel
example : (prepare Conf.exP [] (exSrv (exRelease 30) 300000) 300000000000000 exParse exBin [112] false true exMade).2 = .err .outdated := by decide +kernel
/-- A release date that cannot be read. -/
example : exBin.commit ≠ (released ⟨[], none, some (exMap ++ [(keyDate, [1, 1])]), 0, 0⟩).commit ∧
    exParse (released ⟨[], none, some (exMap ++ [(keyDate, [1, 1])]), 0, 0⟩).date = none := by decide +kernel
example : optOffline ∉ [[109], [104], [108], [105]] ∧ optOffline ∉ [[117, 105, 100]] := by decide +kernel

end Verif.Ctrl.Setup
