import Verif.Msg.BodyLemmas
import Verif.Msg.KeyProps
/-
Taking runs of `decrypt` apart, and counting the keys a program can generate.
-/
namespace Verif.Msg
open Prog
open Wire (Outer readOuter readPre)

/-- What `decHead` reads does not depend on the packets after the header. -/
theorem decHead_ok {P : Prims} {a : DecArgs} {hp : Bytes} {u : UID} {h : Header} {r : Bytes}
    (hd : (decHead P a).out = .ok (hp, u, h, r)) :
    ∃ p1 : Outer, a.reader = p1.write true ++ r ∧
      ∀ r', (decHead P { a with reader := p1.write true ++ r' }).out = .ok (hp, u, h, r') := by
  have hrun := (noCall_decHead P a).run (MemStore.handle P) MemStore.new
  rw [hd] at hrun
  unfold decHead at hrun
  simp only [bind_eq, run_bind_ok, Prod.exists, run_wire_ok, run_failIf_ok,
    run_readPacket_ok] at hrun
  obtain ⟨ph, t, s1, ⟨a1, rfl⟩, -, s2, ⟨a2, rfl⟩, p1, r1, s3, ⟨b1, b2, b3, rfl⟩, u', h', s4,
    c1, d⟩ := hrun
  simp only [run_ret, Prod.mk.injEq, Res.ok.injEq] at d
  obtain ⟨⟨rfl, rfl, rfl, rfl⟩, rfl⟩ := d
  obtain ⟨ht, hl, w⟩ := Wire.readOuter_ok b1
  refine ⟨p1, w, fun r' => ?_⟩
  have key : (decHead P { a with reader := p1.write true ++ r' }).run (MemStore.handle P)
      MemStore.new = (.ok (ph.pub, u', h', r'), MemStore.new) := by
    unfold decHead
    simp only [bind_eq, run_bind_ok, Prod.exists, run_wire_ok, run_failIf_ok,
      run_readPacket_ok]
    refine ⟨ph, t, _, ⟨a1, rfl⟩, (), _, ⟨a2, rfl⟩, p1, r', _, ⟨?_, b2, b3, rfl⟩, u', h', _, c1,
      rfl⟩
    exact Wire.readOuter_write p1 ht hl r'
  rw [(noCall_decHead P _).run] at key
  exact (Prod.mk.inj key).1

/-- The number of message keys used when none is configured. -/
def effKeys (n : UInt64) : UInt64 := if n = 0 then numOfFutureKeys else n

/-- A successful run of `decrypt`, taken apart. -/
theorem decrypt_ok {P : Prims} {a : DecArgs} {st st' : MemStore} {sender sig : Str}
    (hr : (decrypt P a).run (MemStore.handle P) st = (.ok (sender, sig), st')) :
    ∃ hp u h r ss st0 st1 st2 mk,
      (decHead P a).out = .ok (hp, u, h, r) ∧
      (decSession P a (effKeys a.numOfKeys) hp u h).run (MemStore.handle P) st = (.ok ss, st0) ∧
      (decExtend P (effKeys a.numOfKeys) u h (decSessionKey P u h) ss).run (MemStore.handle P)
        st0 = (.ok (), st1) ∧
      st1.getMessageKey P (decSessionKey P u h) false h.senderMessageCount = .ok mk ∧
      (decBody P mk h.senderUID r).run (MemStore.handle P) st1 = (.ok sig, st2) ∧
      st2.delMessageKey (decSessionKey P u h) false h.senderMessageCount = (.ok (), st') ∧
      sender = h.senderIdentity := by
  unfold decrypt at hr
  simp only [bind_eq] at hr
  rw [run_bind_ok] at hr
  obtain ⟨⟨hp, u, h, r⟩, s0, h0, hr⟩ := hr
  rw [(noCall_decHead P a).run] at h0
  obtain ⟨h0', rfl⟩ := Prod.mk.inj h0
  dsimp only at hr
  rw [run_bind_ok] at hr
  obtain ⟨ss, st0, h1, hr⟩ := hr
  rw [run_bind_ok] at hr
  obtain ⟨x1, st1, h2, hr⟩ := hr
  rw [run_bind_ok] at hr
  obtain ⟨mk, st1', h3, hr⟩ := hr
  rw [run_ask_ok] at h3
  obtain ⟨h3', rfl⟩ := Prod.mk.inj h3
  rw [run_bind_ok] at hr
  obtain ⟨sg, st2, h4, hr⟩ := hr
  rw [run_bind_ok] at hr
  obtain ⟨x2, st3, h5, hr⟩ := hr
  rw [run_ask_ok] at h5
  simp only [run_ret, Prod.mk.injEq, Res.ok.injEq] at hr
  obtain ⟨⟨rfl, rfl⟩, rfl⟩ := hr
  exact ⟨hp, u, h, r, ss, st0, st1, st2, mk, h0', h1, h2, h3', h4, h5, rfl⟩

/-- How `decrypt` continues after the session handling. -/
def decTail (P : Prims) (a : DecArgs) (hp : Bytes) (u : UID) (h : Header) (r : Bytes) :
    Prog (Str × Str) :=
  (decSession P a (effKeys a.numOfKeys) hp u h).bind fun ss =>
  (decExtend P (effKeys a.numOfKeys) u h (decSessionKey P u h) ss).bind fun _ =>
  (Prog.ask (.getMsgKey (decSessionKey P u h) false h.senderMessageCount)).bind fun mk =>
  (decBody P mk h.senderUID r).bind fun sig =>
  (Prog.ask (.delMsgKey (decSessionKey P u h) false h.senderMessageCount)).bind fun _ =>
  .ret (h.senderIdentity, sig)

theorem decrypt_head {P : Prims} {a : DecArgs} {hp : Bytes} {u : UID} {h : Header} {r : Bytes}
    (hd : (decHead P a).out = .ok (hp, u, h, r)) (st : MemStore) :
    (decrypt P a).run (MemStore.handle P) st =
      (decTail P a hp u h r).run (MemStore.handle P) st := by
  unfold decrypt
  simp only [bind_eq]
  rw [run_bind_of_ok (a := (hp, u, h, r)) (s1 := st)]
  · rfl
  · rw [(noCall_decHead P a).run, hd]

/-! ### Counting generated keys -/

/-- The number of key pairs a call stores. -/
def Req.gen : {β : Type} → Req β → Nat
  | _, .storeSession _ _ _ s _ => s.length
  | _, _ => 0

/-- The program stores at most `n` new key pairs. -/
def GenAtMost {α : Type} : Prog α → Nat → Prop
  | .ret _, _ => True
  | .fail _, _ => True
  | .panic, _ => True
  | .call r k, n => r.gen ≤ n ∧ ∀ x, GenAtMost (k x) (n - r.gen)

theorem GenAtMost.mono {α : Type} {p : Prog α} {n m : Nat} (h : GenAtMost p n) (hm : n ≤ m) :
    GenAtMost p m := by
  induction p generalizing n m with
  | call r k ih => exact ⟨Nat.le_trans h.1 hm, fun x => ih x (h.2 x) (by omega)⟩
  | _ => trivial

theorem GenAtMost.bind {α β : Type} {p : Prog α} {f : α → Prog β} {n m : Nat}
    (h : GenAtMost p n) (hf : ∀ a, GenAtMost (f a) m) : GenAtMost (p.bind f) (n + m) := by
  induction p generalizing n with
  | ret a => exact (hf a).mono (by omega)
  | fail e => trivial
  | panic => trivial
  | call r k ih =>
    refine ⟨Nat.le_trans h.1 (by omega), fun x => ?_⟩
    have := h.1
    exact GenAtMost.mono (ih x (h.2 x)) (by omega)

theorem GenAtMost.bind0 {α β : Type} {p : Prog α} {f : α → Prog β} {m : Nat}
    (h : GenAtMost p 0) (hf : ∀ a, GenAtMost (f a) m) : GenAtMost (p.bind f) m :=
  (h.bind hf).mono (by omega)

theorem GenAtMost.ite {α : Type} {c : Prop} [Decidable c] {p q : Prog α} {n : Nat}
    (hp : GenAtMost p n) (hq : GenAtMost q n) : GenAtMost (if c then p else q) n := by
  split <;> assumption

theorem GenAtMost.ask {α : Type} (r : Req (Except SErr α)) (n : Nat) (h : r.gen ≤ n) :
    GenAtMost (Prog.ask r) n :=
  ⟨h, fun x => by cases x <;> trivial⟩

theorem GenAtMost.try' {α : Type} (r : Req α) (n : Nat) (h : r.gen ≤ n) :
    GenAtMost (Prog.try' r) n := ⟨h, fun _ => trivial⟩

theorem NoCall.gen {α : Type} {p : Prog α} (h : NoCall p) (n : Nat) : GenAtMost p n := by
  cases h <;> trivial

/-- The number of key pairs stored for a session, 0 if there is no session. -/
def keyCount (ms : MemStore) (k : Str) : Nat :=
  match ms.sessions k with
  | none => 0
  | some s => s.send.length

theorem handle_gen (P : Prims) {β : Type} (r : Req β) (ms : MemStore) (k : Str) :
    keyCount (MemStore.handle P r ms).2 k ≤ keyCount ms k + r.gen := by
  cases r with
  | storeSession k0 r c s t =>
    show keyCount (ms.storeSession k0 r c s t).2 k ≤ _
    unfold MemStore.storeSession
    split
    · exact Nat.le_add_right _ _
    · split
      · rename_i h0
        by_cases hk : k = k0
        · subst hk
          simp only [keyCount, MemStore.setSess, upd_same, h0, Req.gen]
          omega
        · simp only [keyCount, MemStore.setSess, upd_other _ _ hk]
          omega
      · rename_i s0 h0
        by_cases hk : k = k0
        · subst hk
          simp only [keyCount, MemStore.setSess, upd_same, h0, Req.gen, List.length_append]
          omega
        · simp only [keyCount, MemStore.setSess, upd_other _ _ hk]
          omega
  | delMsgKey k0 d i =>
    show keyCount (ms.delMessageKey k0 d i).2 k ≤ _
    unfold MemStore.delMessageKey
    split
    · exact Nat.le_add_right _ _
    · rename_i s0 h0
      split
      · exact Nat.le_add_right _ _
      · by_cases hk : k = k0
        · subst hk
          simp only [keyCount, MemStore.setSess, upd_same, h0]
          cases d <;> simp
        · simp only [keyCount, MemStore.setSess, upd_other _ _ hk]
          omega
  | delSKey h =>
    show keyCount (ms.delPrivSessionKey h) k ≤ _
    unfold MemStore.delPrivSessionKey
    split <;> exact Nat.le_add_right _ _
  | _ => exact Nat.le_add_right _ _

theorem run_gen (P : Prims) {α : Type} (p : Prog α) (n : Nat) (h : GenAtMost p n)
    (ms : MemStore) (k : Str) :
    keyCount (p.run (MemStore.handle P) ms).2 k ≤ keyCount ms k + n := by
  induction p generalizing n ms with
  | call r f ih =>
    have h1 := handle_gen P r ms k
    have h2 := ih _ _ (h.2 (MemStore.handle P r ms).1) (MemStore.handle P r ms).2
    have := h.1
    simp only [run_call]; omega
  | _ => exact Nat.le_add_right _ _

/-- Discharge `GenAtMost p 0` for straight-line programs without storeSession. -/
macro "gen0" : tactic => `(tactic| repeat' first
  | exact NoCall.gen (Prog.NoCall.ret _) _
  | exact NoCall.gen (Prog.NoCall.fail _) _
  | exact NoCall.gen (NoCall.failIf _ _) _
  | exact NoCall.gen (NoCall.orPanic _) _
  | exact NoCall.gen (NoCall.wire _) _
  | exact NoCall.gen (noCall_readPacket _ _ _ _) _
  | exact NoCall.gen (noCall_checkKeys _ _ _ _ _) _
  | exact NoCall.gen (noCall_ecdh _ _ _ _) _
  | exact GenAtMost.ask _ _ (by simp [Req.gen])
  | exact GenAtMost.try' _ _ (by simp [Req.gen])
  | (refine GenAtMost.bind0 ?_ (fun _ => ?_))
  | trivial
  | split)

theorem gen_generate (P : Prims) (a b c d : Str) (e : Bytes) (f : Bool) (g i : Bytes)
    (n : UInt64) : GenAtMost (generateMessageKeys P a b c d e f g i n) n.toNat := by
  unfold generateMessageKeys
  refine GenAtMost.ask _ _ ?_
  cases f <;> simp [Req.gen, genLoop_eq]

theorem gen_rkaSender (P : Prims) (a : Bytes) (b c : Str) (d e f g : KeyEntry)
    (i : Option Bytes) (n : UInt64) :
    GenAtMost (rootKeyAgreementSender P a b c d e f g i n) n.toNat := by
  unfold rootKeyAgreementSender
  simp only [bind_eq]
  repeat' first
    | exact gen_generate ..
    | refine GenAtMost.bind0 (by gen0) (fun _ => ?_)

theorem gen_rkaRecipient (P : Prims) (a : Bytes) (b c : Str) (d e f g : KeyEntry)
    (i : Option Bytes) (n : UInt64) :
    GenAtMost (rootKeyAgreementRecipient P a b c d e f g i n) n.toNat := by
  unfold rootKeyAgreementRecipient
  simp only [bind_eq]
  repeat' first
    | exact gen_generate ..
    | refine GenAtMost.bind0 (by gen0) (fun _ => ?_)

theorem gen_addSessionKey (P : Prims) (ke : KeyEntry) : GenAtMost (addSessionKey P ke) 0 := by
  unfold addSessionKey; simp only [bind_eq]; gen0

theorem gen_getSessionKey (P : Prims) (h : Str) : GenAtMost (getSessionKey P h) 0 := by
  unfold getSessionKey; simp only [bind_eq]; gen0

theorem gen_setNext (P : Prims) (ss : State) (k : Str) (f : Bytes) :
    GenAtMost (setNextSenderSessionPub P ss k f) 0 := by
  unfold setNextSenderSessionPub; simp only [bind_eq]
  refine GenAtMost.bind0 (gen_addSessionKey ..) (fun _ => ?_)
  gen0

theorem gen_decExtend (P : Prims) (n : UInt64) (u : UID) (h : Header) (k : Str)
    (ss : Option State) : GenAtMost (decExtend P n u h k ss) 301 := by
  unfold decExtend
  simp only [bind_eq]
  refine GenAtMost.bind0 (by gen0) fun c => ?_
  split
  · refine GenAtMost.bind0 (by gen0) fun ch => ?_
    by_cases hk : keysNeeded h.senderMessageCount n > keyLimit
    · simp only [hk, decide_true, failIf, if_true]
      trivial
    · simp only [hk, decide_false, failIf, Bool.false_eq_true, if_false, ret_bind]
      have hle : (keysNeeded h.senderMessageCount n).toNat ≤ 301 := by
        have := UInt64.not_lt.mp hk
        have := UInt64.le_iff_toNat_le.mp this
        exact this
      refine GenAtMost.bind0 (by gen0) fun s => ?_
      have hend : ∀ rp : Bytes, GenAtMost ((orPanic (h.senderSessionPub.pub32 P)).bind fun sp =>
          generateMessageKeys P h.senderIdentity u.identity h.senderIdentityPub.hash
            u.pubKey.hash ch true sp rp (keysNeeded h.senderMessageCount n)) 301 := fun rp =>
        GenAtMost.bind0 (by gen0) fun sp => (gen_generate ..).mono hle
      split
      · exact GenAtMost.bind0 (by gen0) hend
      · refine GenAtMost.bind0 (by gen0) fun r => ?_
        split
        · exact GenAtMost.bind0 (by gen0) hend
        · refine GenAtMost.bind0 (gen_getSessionKey ..) fun ke => ?_
          exact GenAtMost.bind0 (by gen0) hend
        · trivial
  · trivial

theorem gen_decUnknown (P : Prims) (a : DecArgs) (n : UInt64) (hp : Bytes) (u : UID) (h : Header)
    (k1 k2 : Str) (ss : Option State) :
    GenAtMost (decUnknown P a n hp u h k1 k2 ss) (n.toNat + n.toNat) := by
  unfold decUnknown
  simp only [bind_eq]
  refine GenAtMost.bind0 (by gen0) fun r => ?_
  split
  · trivial
  · trivial
  · refine GenAtMost.bind (gen_rkaRecipient ..) fun _ => ?_
    refine GenAtMost.ite ?_ (by trivial)
    · refine GenAtMost.bind0 (gen_addSessionKey ..) fun _ => ?_
      split
      · refine GenAtMost.bind0 (by gen0) fun _ => ?_
        refine (GenAtMost.bind (m := 0) (gen_rkaSender ..) fun _ => ?_).mono (by omega)
        gen0
      · gen0

theorem gen_decKnown (P : Prims) (a : DecArgs) (n : UInt64) (hp : Bytes) (u : UID) (h : Header)
    (k1 k2 : Str) (ss : Option State) :
    GenAtMost (decKnown P a n hp u h k1 k2 ss) n.toNat := by
  have hend : ∀ s : State, GenAtMost ((Prog.ask (.delSKey h.recipientTempHash)).bind fun _ =>
      Prog.ret (some s)) 0 := fun s => by gen0
  unfold decKnown
  simp only [bind_eq]
  refine GenAtMost.bind0 (by gen0) fun s => ?_
  split
  · split
    · exact GenAtMost.bind0 (by gen0) fun s => (hend s).mono (by omega)
    · split
      · refine GenAtMost.bind0 (gen_setNext ..) fun _ => ?_
        refine GenAtMost.bind0 (by gen0) fun _ => ?_
        refine (GenAtMost.bind (m := 0) (gen_rkaSender ..) fun _ => ?_).mono (by omega)
        gen0
      · split
        · refine GenAtMost.bind0 (gen_getSessionKey ..) fun _ => ?_
          refine GenAtMost.bind0 (by gen0) fun _ => ?_
          refine (GenAtMost.bind (m := 0) (gen_rkaRecipient ..) fun _ => ?_).mono (by omega)
          gen0
        · gen0
  · gen0

theorem gen_decSession (P : Prims) (a : DecArgs) (n : UInt64) (hp : Bytes) (u : UID)
    (h : Header) : GenAtMost (decSession P a n hp u h) (n.toNat + n.toNat) := by
  unfold decSession
  simp only [bind_eq]
  refine GenAtMost.bind0 (by gen0) fun _ => ?_
  refine GenAtMost.bind0 (by gen0) fun _ => ?_
  refine GenAtMost.bind0 (by gen0) fun _ => ?_
  refine GenAtMost.bind0 (by gen0) fun _ => ?_
  split
  · exact (gen_decKnown ..).mono (by omega)
  · exact gen_decUnknown ..

theorem gen_decBody (P : Prims) (mk : Bytes) (s : Str) (r : Bytes) :
    GenAtMost (decBody P mk s r) 0 := by
  unfold decBody
  simp only [bind_eq]
  gen0

end Verif.Msg
