/-
C114: making the databases and changing their passphrase.
-/
import Verif.Ctrl.SetupProps

namespace Verif.Ctrl.Setup
open Verif.Conf (Config Settings initMute Usable settingsOf)
open Verif.Ctrl.Scan

/-! ### lines -/

theorem firstLine_no_nl (b : Bytes) : ∀ c ∈ firstLine b, c ≠ 10 := by
  intro c hc
  have h : c ∈ b.takeWhile (· ≠ 10) := by
    rw [firstLine_eq] at hc
    unfold dropCR at hc
    split at hc
    · exact (List.dropLast_sublist _).subset hc
    · exact hc
  clear hc
  induction b with
  | nil => cases h
  | cons d b ih =>
    rw [List.takeWhile_cons] at h
    split at h
    · rename_i hd
      rcases List.mem_cons.mp h with h | h
      · rw [h]; simpa using hd
      · exact ih h
    · cases h

theorem line_lengths (b : Bytes) : (firstLine b).length + (otherLines b).length ≤ b.length := by
  have h1 : (firstLine b).length ≤ (b.takeWhile (· ≠ 10)).length := by rw [firstLine_eq]; exact dropCR_length _
  have h2 : (otherLines b).length ≤ (b.dropWhile (· ≠ 10)).length := by unfold otherLines; simp
  have h3 := congrArg List.length (List.takeWhile_append_dropWhile (p := (· ≠ 10)) (l := b))
  rw [List.length_append] at h3
  omega

/-! ### making the databases -/

theorem bind_run {α β : Type} {p : M α} {f : α → M β} {s t : St} {a : α} (h : p s = (t, .ok a)) : (p >>= f) s = f a t := by
  show andThen p f s = f a t
  unfold andThen
  rw [h]

/-- A successful `db create`, step by step. -/
theorem dbCreate_ok {P : Conf.Prims} {pinned : Bytes} {e : Conf.Env} {now : Int} {a : CreateArgs} {s t : St} {pub : Bytes}
    (h : dbCreate P pinned e now a s = (t, .ok pub)) :
    ∃ p q c k, askCreate a.n a.input .eof = some (.got p) ∧ askCreate a.n (a.pipe (handOn [p, p])) .eof = some (.got q) ∧
      s.disk.msgs = .absent ∧ s.disk.keys = .absent ∧
      Conf.update P e { s.config with publicKey := pinned } = (c, .ok ()) ∧ Usable c ∧
      (if a.walletKey = [] then ∃ f, a.fresh = some f ∧ k = Base64.encode f else k = a.walletKey) ∧ printWalletKey k = .ok pub ∧
      t.disk = ⟨.locked p ⟨some c, some (now / 1000000000), k⟩, .locked q [], some c⟩ := by
  unfold dbCreate at h
  rcases hask : askCreate a.n a.input .eof with _ | ⟨_ | _ | p⟩
  · rw [hask] at h; cases h
  · rw [hask] at h; cases h
  · rw [hask] at h; cases h
  · rw [hask] at h
    simp only [] at h
    obtain ⟨s1, _, e1, h⟩ := bind_ok.mp h
    obtain ⟨s2, _, e2, h⟩ := bind_ok.mp h
    obtain ⟨s3, _, e3, h⟩ := bind_ok.mp h
    obtain ⟨s4, k, e4, h⟩ := bind_ok.mp h
    obtain ⟨s5, _, e5, h⟩ := bind_ok.mp h
    obtain ⟨c1, _, c3⟩ := createMsgs_cases a.iterOk p s
    rw [e1] at c1 c3
    have hs1 : s1.disk = { s.disk with msgs := .locked p ⟨none, none, []⟩ } ∧ s.disk.msgs = .absent := by
      rcases c3 with ⟨_, h⟩ | ⟨hm, h | h | h⟩
      · cases h
      · exact absurd rfl h.2
      · exact absurd rfl h.2
      · exact ⟨h.1, hm⟩
    have f := fetchconf_cases P pinned e now s1
    rw [e2] at f
    simp only [] at c1 f
    rw [c1] at f
    rcases f with ⟨_, _, _, _, _, f, _⟩ | ⟨c, fu, _, _, f | f | f | f | f⟩
    · exact absurd rfl f
    · cases f.2.2
    · cases f.2.2
    · cases f.2.2.2
    · cases f.2.2.2
    have g := createKeys_cases a.n a.pipe a.iterOk p s2
    rw [e3] at g
    simp only [] at g
    rcases g with g | ⟨gk, g | ⟨q, gq, gd, _⟩⟩
    · exact absurd rfl g.2
    · exact absurd rfl g.2
    have hs4 : s4 = s3 ∧ (if a.walletKey = [] then ∃ f, a.fresh = some f ∧ k = Base64.encode f else k = a.walletKey) := by
      unfold chooseKey at e4
      by_cases hw : a.walletKey = []
      · rw [if_pos hw] at e4 ⊢
        cases hf : a.fresh with
        | none => rw [hf] at e4; cases e4
        | some f => rw [hf] at e4; cases e4; exact ⟨rfl, f, rfl, rfl⟩
      · rw [if_neg hw] at e4 ⊢
        cases e4
        exact ⟨rfl, rfl⟩
    obtain ⟨n, _, e5⟩ := emit_ok.mp e5
    have ht : t = s5 ∧ printWalletKey k = .ok pub := by
      exact ⟨(congrArg Prod.fst h).symm, congrArg Prod.snd h⟩
    have hk : s.disk.keys = .absent := by
      rw [f.2.2.1, hs1.1] at gk
      exact gk
    refine ⟨p, q, c, k, rfl, gq, hs1.2, hk, fu, f.2.1, hs4.2, ht.2, ?_⟩
    rw [ht.1, e5, hs4.1, gd, f.2.2.1, hs1.1]
    simp only [Disk.filed, Disk.timed, Vault.modify]

/-- The pipe to another program delivers what was written, in some pieces. -/
def Faithful (pipe : Bytes → List Bytes) : Prop := ∀ b, (pipe b).flatten = b

/-- C114 (partial: at most 2046 bytes of input, a passphrase not ending with a carriage return): if
`db create` reports success, both databases were missing, and are now there under the passphrase that was
entered twice. The message database has the configuration that was just fetched and accepted, the
time and the wallet key; `mutecrypt` has the same configuration; and the public key that was printed is
the second half of the stored key. -/
theorem C114_created_partial (P : Conf.Prims) (pinned : Bytes) (e : Conf.Env) (now : Int) (a : CreateArgs) (s t : St) (pub : Bytes)
    (hl : a.input.flatten.length ≤ 2046) (hr : (firstLine a.input.flatten).getLast? ≠ some 13) (hp : Faithful a.pipe)
    (hn : a.input.flatten.length + a.input.length + 2 ≤ a.n) (hn' : ∀ b : Bytes, b.length ≤ 2048 → b.length + (a.pipe b).length + 2 ≤ a.n)
    (h : dbCreate P pinned e now a s = (t, .ok pub)) :
    ∃ c k, s.disk.msgs = .absent ∧ s.disk.keys = .absent ∧ firstLine (otherLines a.input.flatten) = firstLine a.input.flatten ∧
      t.disk = ⟨.locked (firstLine a.input.flatten) ⟨some c, some (now / 1000000000), k⟩, .locked (firstLine a.input.flatten) [], some c⟩ ∧
      Usable c ∧ (∃ u ∈ e.servers, ∃ sm, e.cfg u = some sm ∧
        Conf.Acceptable P pinned e.now (Conf.startDate e.now s.config.lastSignDate) sm ∧ c.map = some sm.config ∧ c.lastSignDate = sm.signDate) ∧
      (a.walletKey ≠ [] → k = a.walletKey) ∧ (a.walletKey = [] → ∃ f, a.fresh = some f ∧ k = Base64.encode f) ∧
      ∃ pk, Base64.decode k = some pk ∧ 32 ≤ pk.length ∧ pub = Base64.encode (pk.drop 32) := by
  obtain ⟨p, q, c, k, h1, h2, h3, h4, h5, h6, h7, h8, h9⟩ := dbCreate_ok h
  rw [C113_create_partial a.input (by omega) a.n hn] at h1
  split at h1
  · rename_i heq
    injection h1 with h1
    injection h1 with h1
    have hlen : 2 * p.length + 2 ≤ 2048 := by
      have l1 := line_lengths a.input.flatten
      have l2 := line_lengths (otherLines a.input.flatten)
      rw [← heq, h1] at l2
      rw [h1] at l1
      omega
    have hb : (handOn [p, p]).length ≤ 2048 := by simp [handOn]; omega
    have hnn := hn' _ hb
    rw [C113_hand_on_partial p hlen (h1 ▸ firstLine_no_nl _) (h1 ▸ hr) _ (hp _) a.n (by rw [hp]; exact hnn)] at h2
    injection h2 with h2
    injection h2 with h2
    subst h2
    subst h1
    obtain ⟨u, hu, sm, g1, g2, g3, g4, _⟩ := Conf.C32_accepted P e _ _ h5
    refine ⟨c, k, h3, h4, heq.symm, h9, h6, ⟨u, hu, sm, g1, g2, g3, g4⟩, fun hw => ?_, fun hw => ?_, ?_⟩
    · rw [if_neg hw] at h7; exact h7
    · rw [if_pos hw] at h7; exact h7
    · unfold printWalletKey at h8
      split at h8
      · cases h8
      · rename_i pk hpk
        split at h8
        · cases h8
        · rename_i hlt
          injection h8 with h8
          exact ⟨pk, hpk, by omega, h8.symm⟩
  · injection h1 with h1; cases h1

/-- C114 (partial: as above): with an empty home directory, matching passphrases, servers that deliver a usable configuration, a
64 byte wallet key and a disk that works, `db create` succeeds. -/
theorem C114_creates_partial (P : Conf.Prims) (pinned : Bytes) (e : Conf.Env) (now : Int) (a : CreateArgs) (s : St) (c : Config) (f : Bytes)
    (hl : a.input.flatten.length ≤ 2046) (hr : (firstLine a.input.flatten).getLast? ≠ some 13) (hp : Faithful a.pipe)
    (hn : a.input.flatten.length + a.input.length + 2 ≤ a.n) (hn' : ∀ b : Bytes, b.length ≤ 2048 → b.length + (a.pipe b).length + 2 ≤ a.n)
    (hsame : firstLine (otherLines a.input.flatten) = firstLine a.input.flatten) (hm : s.disk = empty) (hi : a.iterOk = true)
    (hu : Conf.update P e { s.config with publicKey := pinned } = (c, .ok ())) (hc : Usable c)
    (hw : a.walletKey = []) (hf : a.fresh = some f) (hf64 : f.length = 64) (hb : 8 ≤ s.budget) :
    (dbCreate P pinned e now a s).2 = .ok (Base64.encode (f.drop 32)) := by
  have hask := C113_create_partial a.input (by omega) a.n hn
  rw [if_pos hsame.symm] at hask
  have hlen : 2 * (firstLine a.input.flatten).length + 2 ≤ 2048 := by
    have l1 := line_lengths a.input.flatten
    have l2 := line_lengths (otherLines a.input.flatten)
    rw [hsame] at l2
    omega
  have hb2 : (handOn [firstLine a.input.flatten, firstLine a.input.flatten]).length ≤ 2048 := by simp [handOn]; omega
  have hask2 := C113_hand_on_partial (firstLine a.input.flatten) hlen (firstLine_no_nl _) hr _ (hp _) a.n (by rw [hp]; exact hn' _ hb2)
  generalize firstLine a.input.flatten = p at hask hask2
  obtain ⟨n, hbn⟩ : ∃ n, s.budget = n + 8 := ⟨s.budget - 8, by omega⟩
  unfold dbCreate
  rw [hask]
  simp only []
  have e1 : createMsgs a.iterOk p s = ({ s with disk := { empty with msgs := .locked p ⟨none, none, []⟩ }, budget := n + 6 }, .ok ()) := by
    simp only [createMsgs, hm, empty, hi, Bool.true_eq_false, if_false, andThen, emit, hbn]
  rw [bind_run e1]
  generalize hs1 : ({ s with disk := { empty with msgs := .locked p ⟨none, none, []⟩ }, budget := n + 6 } : St) = s1
  have hs1c : s1.config = s.config ∧ s1.budget = n + 6 ∧ s1.disk = { empty with msgs := .locked p ⟨none, none, []⟩ } := by rw [← hs1]; exact ⟨rfl, rfl, rfl⟩
  have f := fetchconf_cases P pinned e now s1
  rw [hs1c.1, hs1c.2.1, hu] at f
  cases e2 : fetchconf P pinned e now s1 with
  | mk s2 r2 =>
    rw [e2] at f
    simp only [] at f
    rcases f with ⟨_, _, f, f', _⟩ | ⟨c', f0, _, _, f | f | f | f | f⟩
    · cases f; exact absurd rfl f'
    · omega
    · omega
    · cases f0; exact absurd hc f.2.1
    · omega
    cases f0
    obtain ⟨_, _, f1, f2, _, f3⟩ := f
    subst f2
    rw [bind_run e2]
    have hst : cryptStarts s2.disk = true := by
      unfold cryptStarts
      rw [f1]
      exact (Conf.initMute_spec _ c).1.mpr hc
    have hk2 : s2.disk.keys = .absent := by rw [f1, hs1c.2.2]; rfl
    have e3 : createKeys a.n a.pipe a.iterOk p s2 = ({ s2 with disk := { s2.disk with keys := .locked p [] }, budget := n + 1 }, .ok ()) := by
      have hb3 : s2.budget = n + 3 := by omega
      simp only [createKeys, hst, hask2, hk2, hi, Bool.true_eq_false, if_false, andThen, emit, hb3]
    rw [bind_run e3]
    have e4 : ∀ u, chooseKey a u = (u, .ok (Base64.encode f)) := by
      intro u
      simp only [chooseKey, hw, hf, if_true, ret]
    rw [bind_run (e4 _)]
    rw [bind_run (show write (fun x => { x with wallet := Base64.encode f }) _ = _ from rfl)]
    simp only [printWalletKey, Base64.decode_encode]
    rw [if_neg (by omega)]

/-- C114: nothing is lost, whatever commands are run, with whatever results, and wherever they are
interrupted: databases that could be opened can be opened (with a passphrase that may have been changed), with
the same wallet key, the same keys, and a configuration that is not older. -/
theorem C114_kept (P : Conf.Prims) (pinned : Bytes) (d d' : Disk) (h : Steps P pinned d d') :
    (∀ q x, d.msgs = .locked q x → ∃ q' x', d'.msgs = .locked q' x' ∧ x'.wallet = x.wallet ∧
      ∀ c, x.conf = some c → ∃ c', x'.conf = some c' ∧ c.lastSignDate.toNat ≤ c'.lastSignDate.toNat) ∧
    (∀ q k, d.keys = .locked q k → ∃ q', d'.keys = .locked q' k) :=
  let k := steps_kept h
  ⟨k.1, k.2.1⟩

/-- C114: from then on, every command that gets as far as starting the wallet uses the wallet key that was stored. -/
theorem C114_wallet (P : Conf.Prims) (pinned : Bytes) (d : Disk) (q : Bytes) (x : Data) (hd : d.msgs = .locked q x) (u v : St) (h : Steps P pinned d u.disk)
    (e : Conf.Env) (now : Int) (parse : Bytes → Option Int) (bin : Build) (pass : Bytes) (offline check : Bool) (k : Bytes)
    (hk : prepare P pinned e now parse bin pass offline check u = (v, .ok k)) :
    ∃ pk, Base64.decode x.wallet = some pk ∧ k = (pk ++ List.replicate 64 0).take 64 := by
  have h2 : Steps P pinned d v.disk := by
    have := Steps.step h (Step.prepare (P := P) (pinned := pinned) u e now parse bin pass offline check)
    rw [hk] at this
    exact this
  obtain ⟨q', x', e1, e2, _⟩ := (steps_kept h2).1 q x hd
  rcases prepare_cases P pinned e now parse bin pass offline check u with ⟨_, h', _⟩ | ⟨y, _, hdk, _, _, _, hok, _⟩
  · rw [hk] at h'; cases h'
  · rw [hk] at hdk hok
    obtain ⟨_, _, _, r, z, hz, hdec⟩ := hok k rfl
    simp only [] at hdk
    rw [← hdk, e1] at hz
    cases hz
    rw [e2] at hdec
    unfold decodeWalletKey at hdec
    split at hdec
    · cases hdec
    · rename_i pk hpk
      injection hdec with hdec
      refine ⟨pk, hpk, ?_⟩
      rw [← hdec, Mix.fix64, List.take_append, List.take_replicate]
      congr 2
      omega

/-- A message database without a wallet key and without a configuration is what a `db create` leaves that
could not fetch the configuration. -/
theorem create_interrupted (P : Conf.Prims) (pinned : Bytes) (e : Conf.Env) (now : Int) (a : CreateArgs) (s : St) (p : Bytes)
    (hask : askCreate a.n a.input .eof = some (.got p)) (hi : a.iterOk = true) (hm : s.disk.msgs = .absent) (hb : 2 ≤ s.budget)
    (hf : (Conf.update P e { s.config with publicKey := pinned }).2 = .err ()) :
    (dbCreate P pinned e now a s).1.disk = { s.disk with msgs := .locked p ⟨none, none, []⟩ } ∧ (dbCreate P pinned e now a s).2 = .err .fetch := by
  unfold dbCreate
  rw [hask]
  simp only [bind, andThen]
  obtain ⟨n, hn⟩ : ∃ n, s.budget = n + 2 := ⟨s.budget - 2, by omega⟩
  simp only [createMsgs, hm, hi, Bool.true_eq_false, if_false, andThen, emit, hn, fetchconf, bind]
  cases hu : Conf.update P e { s.config with publicKey := pinned } with
  | mk c r =>
    rw [hu] at hf
    simp only [] at hf
    subst hf
    exact ⟨rfl, rfl⟩

/-- C114 is violated: if the configuration cannot be fetched (no network), `db create` reports an
error, but cannot be repeated. From then on, whatever the user does, every `db create` fails,
`wallet pubkey` crashes, and every command that starts the wallet uses the all-zero private key. -/
theorem C114_repeat_violated (P : Conf.Prims) (pinned : Bytes) (e : Conf.Env) (now : Int) (a : CreateArgs) (s : St) (p : Bytes)
    (hask : askCreate a.n a.input .eof = some (.got p)) (hi : a.iterOk = true) (hm : s.disk = empty) (hb : 2 ≤ s.budget)
    (hf : (Conf.update P e { s.config with publicKey := pinned }).2 = .err ()) :
    (dbCreate P pinned e now a s).2 = .err .fetch ∧
    ∀ u : St, Steps P pinned (dbCreate P pinned e now a s).1.disk u.disk →
      (∀ e' now' a' k, (dbCreate P pinned e' now' a' u).1 = u ∧ (dbCreate P pinned e' now' a' u).2 ≠ .ok k) ∧
      (∃ q x, u.disk.msgs = .locked q x ∧ printWalletKey x.wallet = .panic) ∧
      ∀ e' now' parse bin pass offline check v k, prepare P pinned e' now' parse bin pass offline check u = (v, .ok k) → k = List.replicate 64 0 := by
  obtain ⟨h1, h2⟩ := create_interrupted P pinned e now a s p hask hi (by rw [hm]; rfl) hb hf
  refine ⟨h2, fun u hu => ?_⟩
  have hlk : (dbCreate P pinned e now a s).1.disk.msgs = .locked p ⟨none, none, []⟩ := by rw [h1]
  obtain ⟨q, x, g1, g2, _⟩ := (steps_kept hu).1 p _ hlk
  refine ⟨fun e' now' a' k => ?_, ⟨q, x, g1, ?_⟩, fun e' now' parse bin pass offline check v k hk => ?_⟩
  · have := dbCreate_exists P pinned e' now' a' u (by rw [g1]; exact nofun)
    exact ⟨this.1, this.2.2 k⟩
  · rw [g2]; decide
  · obtain ⟨pk, w1, w2⟩ := C114_wallet P pinned _ p _ hlk u v hu e' now' parse bin pass offline check k hk
    have : pk = [] := by
      have : Base64.decode [] = some [] := by decide
      rw [this] at w1
      cases w1
      rfl
    rw [w2, this]
    rfl

/-- C114 is violated: a `--walletkey` that is not base64 is only noticed after it was stored. `db create`
reports an error, and every later command fails; it cannot be created again. -/
theorem C114_walletkey_violated (P : Conf.Prims) (pinned : Bytes) (d : Disk) (q : Bytes) (x : Data) (hd : d.msgs = .locked q x)
    (hx : Base64.decode x.wallet = none) (u : St) (h : Steps P pinned d u.disk) :
    (∀ e now a k, (dbCreate P pinned e now a u).2 ≠ .ok k) ∧
    ∀ e now parse bin pass offline check k, (prepare P pinned e now parse bin pass offline check u).2 ≠ .ok k := by
  obtain ⟨q', x', g1, g2, _⟩ := (steps_kept h).1 q _ hd
  refine ⟨fun e now a k => (dbCreate_exists P pinned e now a u (by rw [g1]; exact nofun)).2.2 k, fun e now parse bin pass offline check k hk => ?_⟩
  obtain ⟨pk, w1, _⟩ := C114_wallet P pinned _ q _ hd u _ h e now parse bin pass offline check k (Prod.ext rfl hk)
  rw [hx] at w1
  cases w1

/-! ### changing the passphrase -/

/-- C114 (partial: at most 2045 bytes of input, passphrases not ending with a carriage return): if `db rekey`
reports success, both databases had the old passphrase, both now have the new one, and nothing else changed. -/
theorem C114_rekeyed_partial (a : RekeyArgs) (s t : St) (hl : a.input.flatten.length ≤ 2045)
    (ho : (firstLine a.input.flatten).getLast? ≠ some 13) (hr : (firstLine (otherLines a.input.flatten)).getLast? ≠ some 13) (hp : Faithful a.pipe)
    (hn : a.input.flatten.length + a.input.length + 2 ≤ a.n) (hn' : ∀ b : Bytes, b.length ≤ 2048 → b.length + (a.pipe b).length + 2 ≤ a.n)
    (h : dbRekey a s = (t, .ok ())) :
    ∃ x k, s.disk.msgs = .locked (firstLine a.input.flatten) x ∧ s.disk.keys = .locked (firstLine a.input.flatten) k ∧
      firstLine (otherLines (otherLines a.input.flatten)) = firstLine (otherLines a.input.flatten) ∧
      t.disk = { s.disk with
        msgs := .locked (firstLine (otherLines a.input.flatten)) x
        keys := .locked (firstLine (otherLines a.input.flatten)) k } := by
  have hc := dbRekey_cases a s
  rw [h] at hc
  rcases hc with hc | ⟨o, p, x, hask, hm, hc | ⟨o', p', k, hask', hk, hd, _⟩⟩
  · exact absurd rfl hc.2
  · exact absurd rfl hc.2
  · rw [C113_rekey_partial a.input (by omega) a.n hn] at hask
    split at hask
    · rename_i heq
      injection hask with hask
      injection hask with hask
      have h1 := congrArg Prod.fst hask
      have h2 := congrArg Prod.snd hask
      simp only [] at h1 h2
      have hlen : o.length + 2 * p.length + 3 ≤ 2048 := by
        have l1 := line_lengths a.input.flatten
        have l2 := line_lengths (otherLines a.input.flatten)
        have l3 := line_lengths (otherLines (otherLines a.input.flatten))
        rw [← heq, h2] at l3
        rw [h1] at l1
        rw [h2] at l2
        omega
      have hb : (handOn [o, p, p]).length ≤ 2048 := by simp [handOn]; omega
      rw [C113_hand_on_rekey_partial o p hlen (h1 ▸ firstLine_no_nl _) (h1 ▸ ho) (h2 ▸ firstLine_no_nl _) (h2 ▸ hr) _ (hp _) a.n
        (by rw [hp]; exact hn' _ hb)] at hask'
      injection hask' with hask'
      injection hask' with hask'
      cases hask'
      subst h1
      subst h2
      exact ⟨x, k, hm, hk, heq.symm, hd⟩
    · injection hask with hask; cases hask

/-- C114 (partial: as above): if both databases have the old passphrase, the new one was entered twice, the
configuration file is usable and the disk works, `db rekey` succeeds. -/
theorem C114_rekeys_partial (a : RekeyArgs) (s : St) (x : Data) (k : Bytes) (c : Config) (hl : a.input.flatten.length ≤ 2045)
    (ho : (firstLine a.input.flatten).getLast? ≠ some 13) (hr : (firstLine (otherLines a.input.flatten)).getLast? ≠ some 13) (hp : Faithful a.pipe)
    (hn : a.input.flatten.length + a.input.length + 2 ≤ a.n) (hn' : ∀ b : Bytes, b.length ≤ 2048 → b.length + (a.pipe b).length + 2 ≤ a.n)
    (hsame : firstLine (otherLines (otherLines a.input.flatten)) = firstLine (otherLines a.input.flatten))
    (hm : s.disk.msgs = .locked (firstLine a.input.flatten) x) (hk : s.disk.keys = .locked (firstLine a.input.flatten) k)
    (hfile : s.disk.file = some c) (hc : Usable c) (hi : a.iterOk = true) (hb : 2 ≤ s.budget) :
    (dbRekey a s).2 = .ok () := by
  have hask := C113_rekey_partial a.input (by omega) a.n hn
  rw [if_pos hsame.symm] at hask
  have hlen : (firstLine a.input.flatten).length + 2 * (firstLine (otherLines a.input.flatten)).length + 3 ≤ 2048 := by
    have l1 := line_lengths a.input.flatten
    have l2 := line_lengths (otherLines a.input.flatten)
    have l3 := line_lengths (otherLines (otherLines a.input.flatten))
    rw [hsame] at l3
    omega
  have hb2 : (handOn [firstLine a.input.flatten, firstLine (otherLines a.input.flatten), firstLine (otherLines a.input.flatten)]).length ≤ 2048 := by
    simp [handOn]; omega
  have hask2 := C113_hand_on_rekey_partial _ _ hlen (firstLine_no_nl _) ho (firstLine_no_nl _) hr _ (hp _) a.n (by rw [hp]; exact hn' _ hb2)
  generalize firstLine a.input.flatten = o at hask hask2 hm hk
  generalize firstLine (otherLines a.input.flatten) = p at hask hask2
  obtain ⟨n, hbn⟩ : ∃ n, s.budget = n + 2 := ⟨s.budget - 2, by omega⟩
  unfold dbRekey
  rw [hask]
  simp only []
  have e1 : rekeyMsgs a.iterOk o p s = ({ s with disk := { s.disk with msgs := .locked p x }, budget := n + 1 }, .ok ()) := by
    simp only [rekeyMsgs, hm, hi, ne_eq, not_true_eq_false, Bool.true_eq_false, if_false, emit, hbn]
  rw [bind_run e1]
  have hst : ∀ m v, cryptStarts ⟨m, v, s.disk.file⟩ = true := by
    intro m v
    unfold cryptStarts
    rw [hfile]
    exact (Conf.initMute_spec _ c).1.mpr hc
  simp only [rekeyKeys, hst, hask2, hk, hi, ne_eq, not_true_eq_false, Bool.true_eq_false, if_false, emit]

/-- C114: whatever happens during `db rekey`, the contents of both databases stay, and the passphrase of
the key database changes only if that of the message database has changed and success is reported. -/
theorem C114_rekey_outcomes (a : RekeyArgs) (s : St) :
    ((dbRekey a s).1.disk = s.disk ∧ (dbRekey a s).2 ≠ .ok ()) ∨
    (∃ o p x, s.disk.msgs = .locked o x ∧ (dbRekey a s).1.disk = { s.disk with msgs := .locked p x } ∧ (dbRekey a s).2 ≠ .ok ()) ∨
    (∃ o p x o' p' k, s.disk.msgs = .locked o x ∧ s.disk.keys = .locked o' k ∧
      (dbRekey a s).1.disk = { s.disk with msgs := .locked p x, keys := .locked p' k } ∧ (dbRekey a s).2 = .ok ()) := by
  rcases dbRekey_cases a s with h | ⟨o, p, x, _, hm, h | ⟨o', p', k, _, hk, h, h'⟩⟩
  · exact .inl h
  · exact .inr (.inl ⟨o, p, x, hm, h⟩)
  · exact .inr (.inr ⟨o, p, x, o', p', k, hm, hk, h, h'⟩)

/-- C114 is violated: if the second of the two writes fails or the program is killed before it, the
message database has the new passphrase and the key database the old one. -/
theorem C114_rekey_half_violated (a : RekeyArgs) (s : St) (o p : Bytes) (x : Data) (hask : askRekey a.n a.input .eof = some (.got (o, p)))
    (hi : a.iterOk = true) (hm : s.disk.msgs = .locked o x) (hb : s.budget = 1) :
    (dbRekey a s).1.disk = { s.disk with msgs := .locked p x } ∧ (dbRekey a s).2 ≠ .ok () := by
  unfold dbRekey
  rw [hask]
  simp only [bind, andThen, rekeyMsgs, hm, hi, emit, hb, ne_eq, not_true_eq_false, if_false, Bool.true_eq_false]
  simp only [rekeyKeys, Bool.true_eq_false, if_false]
  split
  · exact ⟨rfl, nofun⟩
  · split
    · split
      · split
        · exact ⟨rfl, nofun⟩
        · exact ⟨rfl, nofun⟩
      · exact ⟨rfl, nofun⟩
    · exact ⟨rfl, nofun⟩

/-- C114 is violated: databases with different passphrases cannot be brought together with `db rekey`
again: no use of it succeeds. -/
theorem C114_rekey_stuck_violated (a : RekeyArgs) (s : St) (o p : Bytes) (x : Data) (k : Bytes) (hm : s.disk.msgs = .locked p x)
    (hk : s.disk.keys = .locked o k) (hne : o ≠ p) (hl : a.input.flatten.length ≤ 2045)
    (ho : (firstLine a.input.flatten).getLast? ≠ some 13) (hr : (firstLine (otherLines a.input.flatten)).getLast? ≠ some 13) (hp : Faithful a.pipe)
    (hn : a.input.flatten.length + a.input.length + 2 ≤ a.n) (hn' : ∀ b : Bytes, b.length ≤ 2048 → b.length + (a.pipe b).length + 2 ≤ a.n) :
    (dbRekey a s).2 ≠ .ok () := by
  intro h
  obtain ⟨x', k', h1, h2, _⟩ := C114_rekeyed_partial a s _ hl ho hr hp hn hn' (Prod.ext rfl h)
  rw [hm] at h1
  rw [hk] at h2
  cases h1
  cases h2
  exact hne rfl

/-! ### examples -/

/-- A usable configuration, and servers that deliver it. -/
def exMap : Conf.SMap :=
  [(Conf.keyMix, [109]), (Conf.keyAccount, [97]), (Conf.keySender, [115]), (Conf.keyWallet, [119]), (Conf.keyLookup, [108]), (Conf.keyGuard, [103]),
   (Conf.keyUsage, [117]), (Conf.keyTrust, [48, 49]), (Conf.keyOwner, [48, 50]), (Conf.keyDelay, [55])]
def exSrv (m : Conf.SMap) (t : UInt64) : Conf.Env where
  now := t
  servers := [[104]]
  cfg := fun _ => some (Conf.exSigned m t)
  ca := fun _ => none
def exSet : Settings := ⟨[], [], [], [], [], [], [], none, none, none, none, []⟩

/-- A new user, and the input "p", "p". -/
def exNew (n : Nat) : St := ⟨empty, n, Conf.exConfig, exSet, false⟩
def exCreate : CreateArgs := ⟨2100, [[112, 10, 112, 10]], fun b => [b], true, [], some (List.replicate 64 7)⟩

/-- The old passphrase "p", the new one "q" twice. -/
def exRekey : RekeyArgs := ⟨2100, [[112, 10, 113], [10, 113, 10]], fun b => [b], true⟩
def exOld (n : Nat) : St :=
  ⟨⟨.locked [112] ⟨none, none, []⟩, .locked [112] [5], some ⟨[], none, some exMap, 0, 0⟩⟩, n, Conf.exConfig, exSet, false⟩

theorem exUsable (k : Bytes) (ca : Option Bytes) (d : UInt64) (i : Nat) : Usable ⟨k, ca, some exMap, d, i⟩ := by
  have : (initMute exSet ⟨[], none, some exMap, 0, 0⟩).2 = true := by decide +kernel
  exact (Conf.initMute_spec exSet ⟨[], none, some exMap, 0, 0⟩).1.mp this

example : Faithful exCreate.pipe := fun b => List.append_nil b
example : ∀ b : Bytes, b.length ≤ 2048 → b.length + (exCreate.pipe b).length + 2 ≤ exCreate.n := fun b h => by
  show b.length + 1 + 2 ≤ 2100
  omega
example : exCreate.input.flatten.length ≤ 2046 ∧ (firstLine exCreate.input.flatten).getLast? ≠ some 13 ∧
    firstLine (otherLines exCreate.input.flatten) = firstLine exCreate.input.flatten ∧
    askCreate exCreate.n exCreate.input .eof = some (.got [112]) := by decide +kernel
example : (dbCreate Conf.exP [] (exSrv exMap 100000) 0 exCreate (exNew 8)).2 = .ok (Base64.encode (List.replicate 32 7)) := by decide +kernel
/-- Without a network. -/
example : (Conf.update Conf.exP { exSrv exMap 100000 with cfg := fun _ => none } { (exNew 8).config with publicKey := [] }).2 = .err () := by decide +kernel
example : (dbCreate Conf.exP [] { exSrv exMap 100000 with cfg := fun _ => none } 0 exCreate (exNew 8)).2 = .err .fetch := by decide +kernel
/-- A wallet key that is not base64 is stored. -/
example : (dbCreate Conf.exP [] (exSrv exMap 100000) 0 { exCreate with walletKey := [33] } (exNew 8)).2 = .err .walletKey ∧
    Base64.decode [33] = none ∧
    (match (dbCreate Conf.exP [] (exSrv exMap 100000) 0 { exCreate with walletKey := [33] } (exNew 8)).1.disk.msgs with
      | .locked _ x => x.wallet
      | _ => []) = [33] := by decide +kernel
/-- One that is too short is stored as well, and the program crashes. -/
example : (dbCreate Conf.exP [] (exSrv exMap 100000) 0 { exCreate with walletKey := Base64.encode [1, 2, 3] } (exNew 8)).2 = .panic := by decide +kernel
example : exRekey.input.flatten.length ≤ 2045 ∧ firstLine exRekey.input.flatten = [112] ∧ firstLine (otherLines exRekey.input.flatten) = [113] ∧
    firstLine (otherLines (otherLines exRekey.input.flatten)) = [113] ∧ askRekey exRekey.n exRekey.input .eof = some (.got ([112], [113])) := by decide +kernel
example : (dbRekey exRekey (exOld 2)).2 = .ok () := by decide +kernel
/-- Killed between the two writes. -/
example : (dbRekey exRekey (exOld 1)).2 = .err .io ∧
    (match (dbRekey exRekey (exOld 1)).1.disk.msgs, (dbRekey exRekey (exOld 1)).1.disk.keys with
      | .locked q _, .locked q' _ => (q, q')
      | _, _ => ([], [])) = ([113], [112]) := by decide +kernel

end Verif.Ctrl.Setup
