import Verif.Msg.Crossing
/-
Programs that leave a given session key in the store alone (for C149).
-/
set_option autoImplicit false
namespace Verif.Msg
open Prog
open Wire (Outer newOuter newPre readFirst)

/-- A request that can change the entry of the session key with hash `x`. -/
def Req.touches (x : Str) : {β : Type} → Req β → Prop
  | _, .addSKey h _ _ => h = x
  | _, .delSKey h => h = x
  | _, _ => False

/-- The program makes no such request. -/
def Avoids (x : Str) {α : Type} : Prog α → Prop
  | .ret _ => True
  | .fail _ => True
  | .panic => True
  | .call r k => ¬ r.touches x ∧ ∀ b, Avoids x (k b)

namespace Avoids
variable {x : Str} {α β : Type}

theorem bind {p : Prog α} {f : α → Prog β} (h : Avoids x p) (hf : ∀ a, Avoids x (f a)) :
    Avoids x (p.bind f) := by
  induction p with
  | ret a => exact hf a
  | fail e => trivial
  | panic => trivial
  | call r k ih => exact ⟨h.1, fun b => ih b (h.2 b)⟩

theorem noCall {p : Prog α} (h : NoCall p) : Avoids x p := by cases h <;> trivial

theorem ask {r : Req (Except SErr α)} (h : ¬ r.touches x) : Avoids x (Prog.ask r) :=
  ⟨h, fun b => by cases b <;> trivial⟩

theorem try' {r : Req α} (h : ¬ r.touches x) : Avoids x (Prog.try' r) := ⟨h, fun _ => trivial⟩

theorem run (P : Prims) {p : Prog α} (h : Avoids x p) (st : MemStore) :
    (p.run (MemStore.handle P) st).2.skeys x = st.skeys x := by
  induction p generalizing st with
  | ret a => rfl
  | fail e => rfl
  | panic => rfl
  | call r k ih =>
    rw [run_call]
    refine (ih _ (h.2 _) _).trans ?_
    have h1 := h.1
    cases r <;> try rfl
    · simp only [MemStore.handle, MemStore.storeSession]
      split
      · rfl
      · split <;> rfl
    · simp only [MemStore.handle, MemStore.delMessageKey]
      split
      · rfl
      · split <;> rfl
    · exact upd_other _ _ (fun e => h1 e.symm)
    · simp only [MemStore.handle, MemStore.delPrivSessionKey]
      split
      · rfl
      · exact upd_other _ _ (fun e => h1 e.symm)

end Avoids

/-- Discharge `Avoids x p` for programs made of parts that are known. -/
macro "avoid" : tactic => `(tactic| repeat' first
  | exact Avoids.noCall (Prog.NoCall.ret _)
  | exact Avoids.noCall (Prog.NoCall.fail _)
  | exact Avoids.noCall (NoCall.failIf _ _)
  | exact Avoids.noCall (NoCall.orPanic _)
  | exact Avoids.noCall (NoCall.wire _)
  | exact Avoids.noCall (noCall_readPacket _ _ _ _)
  | exact Avoids.noCall (noCall_checkKeys _ _ _ _ _)
  | exact Avoids.noCall (noCall_ecdh _ _ _ _)
  | assumption
  | exact Avoids.ask (fun h => h)
  | exact Avoids.try' (fun h => h)
  | (refine Avoids.bind ?_ (fun _ => ?_))
  | trivial
  | split)

section
variable {x : Str} (P : Prims)

theorem avoids_generate (a b c d : Str) (e : Bytes) (f : Bool) (g i : Bytes) (n : UInt64) :
    Avoids x (generateMessageKeys P a b c d e f g i n) := by
  unfold generateMessageKeys
  exact Avoids.ask (fun h => h)

theorem avoids_rkaSender (a : Bytes) (b c : Str) (d e f g : KeyEntry) (i : Option Bytes) (n : UInt64) :
    Avoids x (rootKeyAgreementSender P a b c d e f g i n) := by
  unfold rootKeyAgreementSender
  simp only [bind_eq]
  repeat first
    | exact avoids_generate P _ _ _ _ _ _ _ _ _
    | refine Avoids.bind (by avoid) (fun _ => ?_)

theorem avoids_rkaRecipient (a : Bytes) (b c : Str) (d e f g : KeyEntry) (i : Option Bytes) (n : UInt64) :
    Avoids x (rootKeyAgreementRecipient P a b c d e f g i n) := by
  unfold rootKeyAgreementRecipient
  simp only [bind_eq]
  repeat first
    | exact avoids_generate P _ _ _ _ _ _ _ _ _
    | refine Avoids.bind (by avoid) (fun _ => ?_)

theorem avoids_add {ke : KeyEntry} (h : ke.hash ≠ x) : Avoids x (addSessionKey P ke) := by
  unfold addSessionKey
  simp only [bind_eq]
  exact Avoids.bind (by avoid) fun _ => Avoids.ask h

theorem avoids_setNext {f : Bytes} (h : keyHash P f ≠ x) (ss : State) (k : Str) :
    Avoids x (setNextSenderSessionPub P ss k f) := by
  unfold setNextSenderSessionPub
  simp only [bind_eq]
  refine Avoids.bind (avoids_add P h) (fun _ => ?_)
  avoid

theorem avoids_getKey (h : Str) : Avoids x (getSessionKey P h) := by
  unfold getSessionKey
  simp only [bind_eq]
  avoid

theorem avoids_decSession (a : DecArgs) (n : UInt64) (hp : Bytes) (u : UID) (h : Header)
    (h1 : keyHash P a.fresh ≠ x) (h2 : h.recipientTempHash ≠ x) : Avoids x (decSession P a n hp u h) := by
  unfold decSession
  simp only [bind_eq]
  refine Avoids.bind (by avoid) fun _ => Avoids.bind (by avoid) fun _ => Avoids.bind (by avoid) fun ss =>
    Avoids.bind (by avoid) fun known => ?_
  split
  · unfold decKnown
    simp only [bind_eq]
    refine Avoids.bind (by avoid) fun s => ?_
    repeat' first
      | exact Avoids.noCall (Prog.NoCall.ret _)
      | exact avoids_setNext P h1 _ _
      | exact avoids_rkaSender P _ _ _ _ _ _ _ _ _
      | exact avoids_rkaRecipient P _ _ _ _ _ _ _ _ _
      | exact avoids_getKey P _
      | exact Avoids.ask (fun h => h)
      | exact Avoids.ask (fun e => h2 e)
      | (refine Avoids.bind ?_ (fun _ => ?_))
      | split
  · unfold decUnknown
    simp only [bind_eq]
    refine Avoids.bind (by avoid) fun r => ?_
    repeat' first
      | exact Avoids.noCall (Prog.NoCall.ret _)
      | exact Avoids.noCall (Prog.NoCall.fail _)
      | exact avoids_add P h1
      | exact avoids_rkaSender P _ _ _ _ _ _ _ _ _
      | exact avoids_rkaRecipient P _ _ _ _ _ _ _ _ _
      | exact Avoids.ask (fun h => h)
      | (refine Avoids.bind ?_ (fun _ => ?_))
      | split

theorem avoids_decExtend (n : UInt64) (u : UID) (h : Header) (k : Str) (ss : Option State) :
    Avoids x (decExtend P n u h k ss) := by
  unfold decExtend
  simp only [bind_eq]
  repeat' first
    | exact Avoids.noCall (Prog.NoCall.ret _)
    | exact Avoids.noCall (Prog.NoCall.fail _)
    | exact Avoids.noCall (NoCall.failIf _ _)
    | exact Avoids.noCall (NoCall.orPanic _)
    | exact avoids_generate P _ _ _ _ _ _ _ _ _
    | exact avoids_getKey P _
    | exact Avoids.ask (fun h => h)
    | exact Avoids.try' (fun h => h)
    | (refine Avoids.bind ?_ (fun _ => ?_))
    | split

theorem avoids_decBody (mk : Bytes) (s : Str) (r : Bytes) : Avoids x (decBody P mk s r) := by
  unfold decBody
  simp only [bind_eq]
  avoid

/-- Decrypting a message changes no session key but the one its header names and the new one. -/
theorem decrypt_keeps (a : DecArgs) (st : MemStore) {hp : Bytes} {u : UID} {h : Header} {r : Bytes}
    (hd : (decHead P a).out = .ok (hp, u, h, r)) (h1 : keyHash P a.fresh ≠ x)
    (h2 : h.recipientTempHash ≠ x) :
    ((decrypt P a).run (MemStore.handle P) st).2.skeys x = st.skeys x := by
  unfold decrypt
  simp only [bind_eq]
  rw [run_bind_of_ok (a := (hp, u, h, r)) (s1 := st) _ (by rw [(noCall_decHead P a).run, hd])]
  refine Avoids.run P ?_ st
  refine Avoids.bind (avoids_decSession P _ _ _ _ _ h1 h2) fun ss =>
    Avoids.bind (avoids_decExtend P _ _ _ _ _) fun _ => Avoids.bind (Avoids.ask (fun h => h)) fun mk =>
      Avoids.bind (avoids_decBody P _ _ _) fun _ => Avoids.bind (Avoids.ask (fun h => h)) fun _ => ?_
  avoid

/-- Encrypting a message changes no session key but the two it can draw. -/
theorem encrypt_keeps (a : EncArgs) (rnd : Rnd) (st : MemStore) (h1 : keyHash P rnd.sessPriv ≠ x)
    (h2 : keyHash P rnd.nextPriv ≠ x) :
    ((encrypt P a rnd).run (MemStore.handle P) st).2.skeys x = st.skeys x := by
  refine Avoids.run P ?_ st
  unfold encrypt encSession encExtend newHeader uidPublicKey headerPacket
  simp only [bind_eq]
  repeat' first
    | exact Avoids.noCall (Prog.NoCall.ret _)
    | exact Avoids.noCall (Prog.NoCall.fail _)
    | exact Avoids.noCall Prog.NoCall.panic
    | exact Avoids.noCall (NoCall.failIf _ _)
    | exact Avoids.noCall (NoCall.orPanic _)
    | exact avoids_add P h1
    | exact avoids_setNext P h2 _ _
    | exact avoids_rkaSender P _ _ _ _ _ _ _ _ _
    | exact avoids_generate P _ _ _ _ _ _ _ _ _
    | exact Avoids.ask (fun h => h)
    | exact Avoids.try' (fun h => h)
    | (refine Avoids.bind ?_ (fun _ => ?_))
    | split

end
end Verif.Msg
