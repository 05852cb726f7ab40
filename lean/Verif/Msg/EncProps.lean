import Verif.Msg.BodyLemmas
import Verif.Msg.Toy
/-
C09: size of what Encrypt writes, for every store.
-/
namespace Verif.Msg
open Prog
open Wire (Outer Inner newOuter newInner newPre)

/-- The blocks a program writes to args.Writer when run against a store `h`. -/
def written {σ α : Type} (h : {β : Type} → Req β → σ → β × σ) : Prog α → σ → List Bytes
  | .ret _, _ => []
  | .fail _, _ => []
  | .panic, _ => []
  | .call r k, s =>
    (match r with | .write b => [b] | _ => []) ++ written h (k (h r s).1) (h r s).2

/-- `Emits w p`: if `w` blocks are still to be written, then p writes at most `w`
blocks, all of them of the message size, exactly `w` if it succeeds, and, if `fit`
holds, does not fail because of the size. -/
def Emits {α : Type} (fit : Prop) : Nat → Prog α → Prop
  | w, .ret _ => w = 0
  | _, .fail e => fit → e ≠ .outLen
  | _, .panic => True
  | w, .call r k => match r with
    | .write b => ∃ v, w = v + 1 ∧ b.length = encodedMsgSize ∧ Emits fit v (k ())
    | _ => ∀ x, Emits fit w (k x)

/-- A program that neither writes nor fails because of the size. -/
def Quiet {α : Type} : Prog α → Prop
  | .ret _ => True
  | .fail e => e ≠ .outLen
  | .panic => True
  | .call r k => r.isWrite = false ∧ ∀ x, Quiet (k x)

theorem Quiet.bind {α β : Type} {p : Prog α} {f : α → Prog β} (hp : Quiet p)
    (hf : ∀ a, Quiet (f a)) : Quiet (p.bind f) := by
  induction p with
  | ret a => exact hf a
  | fail e => exact hp
  | panic => trivial
  | call r k ih => exact ⟨hp.1, fun x => ih x (hp.2 x)⟩

theorem Quiet.emits {α β : Type} {p : Prog α} {f : α → Prog β} {w : Nat} {fit : Prop} (hp : Quiet p)
    (hf : ∀ a, Emits fit w (f a)) : Emits fit w (p.bind f) := by
  induction p with
  | ret a => exact hf a
  | fail e => exact fun _ => hp
  | panic => trivial
  | call r k ih =>
    have h2 := fun x => ih x (hp.2 x)
    cases r <;> first | exact h2 | exact absurd hp.1 (by simp [Req.isWrite])

theorem Quiet.ask {α : Type} (r : Req (Except SErr α)) (hr : r.isWrite = false) :
    Quiet (Prog.ask r) :=
  ⟨hr, fun x => by cases x <;> simp [Quiet]⟩

theorem Quiet.try' {α : Type} (r : Req α) (hr : r.isWrite = false) : Quiet (Prog.try' r) :=
  ⟨hr, fun _ => trivial⟩

theorem Quiet.orPanic {α : Type} (o : Option α) : Quiet (orPanic o) := by
  cases o <;> trivial

theorem Quiet.failIf (c : Bool) (e : Err) (he : e ≠ .outLen) : Quiet (failIf c e) := by
  unfold Msg.failIf; split
  · exact he
  · trivial

theorem quiet_checkKeys (a b c d e : Bytes) : Quiet (checkKeys a b c d e) := by
  unfold checkKeys
  repeat' split
  all_goals simp [Quiet]

theorem quiet_ecdh (P : Prims) (a b c : Bytes) : Quiet (ecdh P a b c) := by
  unfold ecdh; split <;> simp [Quiet]

macro "quiet" : tactic => `(tactic| repeat' first
  | trivial
  | exact Quiet.ask _ rfl
  | exact Quiet.try' _ rfl
  | exact Quiet.orPanic _
  | exact Quiet.failIf _ _ (by decide)
  | exact quiet_checkKeys _ _ _ _ _
  | exact quiet_ecdh _ _ _ _
  | refine Quiet.bind ?_ ?_
  | intro _
  | split
  | (simp only [Quiet, ne_eq, reduceCtorEq, not_false_eq_true]; done))

theorem quiet_generate (P : Prims) (a b c d : Str) (e : Bytes) (f : Bool) (g i : Bytes)
    (n : UInt64) : Quiet (generateMessageKeys P a b c d e f g i n) := by
  unfold generateMessageKeys; exact Quiet.ask _ rfl

theorem quiet_addSessionKey (P : Prims) (ke : KeyEntry) : Quiet (addSessionKey P ke) := by
  unfold addSessionKey; simp only [bind_eq]; quiet

theorem quiet_setNext (P : Prims) (ss : State) (k : Str) (f : Bytes) :
    Quiet (setNextSenderSessionPub P ss k f) := by
  unfold setNextSenderSessionPub; simp only [bind_eq]
  refine Quiet.bind (quiet_addSessionKey _ _) fun _ => ?_
  quiet

theorem quiet_rkaSender (P : Prims) (a : Bytes) (b c : Str) (d e f g : KeyEntry)
    (p : Option Bytes) (n : UInt64) : Quiet (rootKeyAgreementSender P a b c d e f g p n) := by
  unfold rootKeyAgreementSender; simp only [bind_eq]
  repeat' first
    | exact quiet_generate ..
    | exact Quiet.orPanic _
    | exact quiet_checkKeys _ _ _ _ _
    | exact quiet_ecdh _ _ _ _
    | refine Quiet.bind ?_ ?_
    | intro _

theorem quiet_encSession (P : Prims) (a : EncArgs) (rnd : Rnd) (n : UInt64) (k : Str) :
    Quiet (encSession P a rnd n k) := by
  unfold encSession; simp only [bind_eq]
  repeat' first
    | trivial
    | exact Quiet.ask _ rfl
    | exact quiet_addSessionKey _ _
    | exact quiet_setNext _ _ _ _
    | exact quiet_rkaSender ..
    | refine Quiet.bind ?_ ?_
    | intro _
    | split

theorem quiet_newHeader (a : EncArgs) (rnd : Rnd) (ss : State) : Quiet (newHeader a rnd ss) := by
  unfold newHeader; simp only [bind_eq]; quiet

theorem quiet_uidPublicKey (P : Prims) (u : UID) : Quiet (uidPublicKey P u) := by
  unfold uidPublicKey; quiet

theorem quiet_encExtend (P : Prims) (a : EncArgs) (n : UInt64) (ss : State) (k : Str) :
    Quiet (encExtend P a n ss k) := by
  unfold encExtend; simp only [bind_eq]
  repeat' first
    | trivial
    | exact Quiet.ask _ rfl
    | exact Quiet.orPanic _
    | exact quiet_generate ..
    | refine Quiet.bind ?_ ?_
    | intro _
    | split

/-! ### Lengths -/

theorem outer_length (oh : Outer) : (oh.write true).length = 7 + oh.inner.length := by
  simp [Outer.write, be16, be32]; omega

theorem inner_length (ih : Inner) : ih.write.length = 5 + ih.content.length := by
  simp [Inner.write, be16]; omega

theorem ctr_length (P : Prims) (k iv : Bytes) (i : Nat) (x : Bytes) :
    (ctr P k iv i x).length = x.length := by
  induction x generalizing i with
  | nil => rfl
  | cons a x ih => simp [ctr, ih]

theorem encBody_length (P : Prims) (hP : P.Good) (mk : Bytes) (rnd : Rnd) (hr : rnd.Good)
    (sk : Option Bytes) (c : Bytes) (hc : c.length ≤ maxContentLength) :
    (encBody P mk rnd sk c).length = 41878 := by
  have h := hc
  unfold maxContentLength at h
  unfold encBody
  cases sk <;>
  simp only [List.length_append, outer_length, inner_length, ctr_length, newOuter, newInner,
    hr.iv_len, hr.pad_len, hP.hmac_len, hP.sign_len, maxContentLength] <;> omega

theorem pre_length (P : Prims) (hP : P.Good) (k : Bytes) :
    ((newOuter Wire.preHeaderPacket 0 (newPre (P.dhPub k)).write).write true).length = 73 := by
  simp [outer_length, newOuter, newPre, Wire.Pre.write, be16, Wire.ciphersuite, hP.dhPub_len]

theorem encrypt_emits (P : Prims) (hP : P.Good) (a : EncArgs) (rnd : Rnd) (hr : rnd.Good) :
    Emits (∀ h, (P.marshal h).length < 65536) 1 (encrypt P a rnd) := by
  unfold encrypt
  simp only [bind_eq]
  refine (Quiet.orPanic _).emits fun fp => ?_
  refine (Quiet.orPanic _).emits fun tp => ?_
  refine (quiet_encSession ..).emits fun ⟨ss, nym⟩ => ?_
  refine (quiet_newHeader ..).emits fun h => ?_
  refine (quiet_uidPublicKey ..).emits fun rp => ?_
  unfold headerPacket
  dsimp only
  split
  · simp [Emits]
  rename_i hlen
  have hlen : (P.boxSeal (P.marshal h) rnd.nonce rp rnd.headerPriv).length % 65536 = 7168 := by
    have := Decidable.of_not_not hlen
    have := congrArg UInt16.toNat this
    rw [UInt16.toNat_ofNat'] at this
    exact this
  rw [hP.box_len] at hlen
  simp only [ret_bind]
  refine (quiet_encExtend ..).emits fun _ => ?_
  refine (Quiet.ask _ rfl).emits fun mk => ?_
  generalize hcont : (if a.status = statusOK then a.content else []) = content
  by_cases hc : content.length > maxContentLength
  · simp [failIf, hc, Emits]
  simp only [failIf, hc, decide_false, Bool.false_eq_true, if_false, ret_bind]
  generalize hout : P.b64 (_ ++ _ ++ encBody P mk rnd a.sigKey content) = out
  by_cases ho : out.length ≠ encodedMsgSize
  · rw [if_pos (decide_eq_true ho)]; simp only [fail_bind, Emits]
    intro hfit
    refine absurd ?_ ho
    rw [← hout, hP.b64_len]
    simp only [List.length_append, pre_length P hP,
      encBody_length P hP mk rnd hr a.sigKey content (by omega)]
    simp only [outer_length, newOuter, List.length_append, be16, hr.nonce_len, List.length_cons,
      List.length_nil, hP.box_len, encodedMsgSize]
    have := hfit h
    have : (P.marshal h).length = 7152 := by omega
    rw [this]
  · rw [if_neg (by simpa using ho)]; simp only [ret_bind]
    refine ⟨0, rfl, Decidable.of_not_not ho, ?_⟩
    refine (Quiet.ask _ rfl).emits fun _ => ?_
    exact (Quiet.ask _ rfl).emits fun _ => rfl

theorem emits_written {σ α : Type} (h : {β : Type} → Req β → σ → β × σ) (fit : Prop) (p : Prog α)
    (w : Nat) (s : σ) (he : Emits fit w p) :
    (written h p s).length ≤ w ∧ (∀ b ∈ written h p s, b.length = 65536) ∧
    (∀ a, (p.run h s).1 = .ok a → (written h p s).length = w) ∧
    (fit → (p.run h s).1 ≠ .err .outLen) := by
  induction p generalizing w s with
  | ret a => simp only [Emits] at he; simp [written, he]
  | fail e => simp only [Emits] at he; simpa [written] using he
  | panic => simp [written]
  | call r k ih =>
    simp only [written, run_call]
    cases r with
    | write b =>
      obtain ⟨v, rfl, hb, he⟩ := he
      obtain ⟨h1, h2, h3, h4⟩ := ih (h (.write b) s).1 v (h (.write b) s).2 he
      simp only [List.cons_append, List.nil_append, List.length_cons, List.mem_cons]
      refine ⟨by omega, ?_, ?_, h4⟩
      · rintro x (rfl | hx)
        · exact hb
        · exact h2 x hx
      · intro a ha
        rw [h3 a ha]
    | _ => exact ih _ w _ (he _)

/-- C09: against every session store (`h` on states `σ`, whatever it answers),
Encrypt writes nothing or one block of exactly 65536 bytes, and if it succeeds it
has written that block. -/
theorem C09_output_size {σ : Type} (h : {β : Type} → Req β → σ → β × σ) (P : Prims)
    (hP : P.Good) (a : EncArgs) (rnd : Rnd) (hr : rnd.Good) (s : σ) :
    (written h (encrypt P a rnd) s = [] ∨
      ∃ b, written h (encrypt P a rnd) s = [b] ∧ b.length = 65536) ∧
    (∀ nym, ((encrypt P a rnd).run h s).1 = .ok nym →
      ∃ b, written h (encrypt P a rnd) s = [b] ∧ b.length = 65536) := by
  obtain ⟨h1, h2, h3, -⟩ := emits_written h _ _ 1 s (encrypt_emits P hP a rnd hr)
  revert h1 h2 h3
  match written h (encrypt P a rnd) s with
  | [] => intro _ _ h3; exact ⟨.inl rfl, fun nym hn => absurd (h3 nym hn) (by simp)⟩
  | [b] =>
    intro _ h2 _
    exact ⟨.inr ⟨b, rfl, h2 b (by simp)⟩, fun _ _ => ⟨b, rfl, h2 b (by simp)⟩⟩
  | _ :: _ :: _ => intro h1; simp at h1

/-- C09: the padding is right for every content, signature choice and session
state: Encrypt never gives up because the assembled message has the wrong size
(encrypt.go:418-422).  JSON headers are assumed to be shorter than 64 KiB. -/
theorem C09_padding_always_fits {σ : Type} (h : {β : Type} → Req β → σ → β × σ) (P : Prims)
    (hP : P.Good) (a : EncArgs) (rnd : Rnd) (hr : rnd.Good)
    (hfit : ∀ h, (P.marshal h).length < 65536) (s : σ) :
    ((encrypt P a rnd).run h s).1 ≠ .err .outLen :=
  (emits_written h _ _ 1 s (encrypt_emits P hP a rnd hr)).2.2.2 hfit


/- Non-vacuity: `Verif.Msg.Toy.encrypt_succeedsE` (Msg/ToyCodec.lean) gives a call that
succeeds with primitives and random choices satisfying the hypotheses. -/

end Verif.Msg
