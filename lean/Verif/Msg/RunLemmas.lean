import Verif.Msg.Decrypt
import Verif.Msg.MemStore
/-
Program logic for `Prog`: running sequences, programs without calls or writes,
and what any program does to a memory store.
-/
namespace Verif.Msg
namespace Prog

section
variable {σ α β : Type} (h : {β : Type} → Req β → σ → β × σ)

@[simp] theorem bind_eq (p : Prog α) (f : α → Prog β) : (p >>= f) = p.bind f := rfl
@[simp] theorem pure_eq (a : α) : (pure a : Prog α) = ret a := rfl

@[simp] theorem ret_bind (a : α) (f : α → Prog β) : (ret a).bind f = f a := rfl
@[simp] theorem fail_bind (e : Err) (f : α → Prog β) : (fail e : Prog α).bind f = fail e := rfl
@[simp] theorem panic_bind (f : α → Prog β) : (panic : Prog α).bind f = panic := rfl
@[simp] theorem call_bind {γ : Type} (r : Req γ) (k : γ → Prog α) (f : α → Prog β) :
    (call r k).bind f = call r fun b => (k b).bind f := rfl

@[simp] theorem run_ret (a : α) (s : σ) : run h (ret a) s = (.ok a, s) := rfl
@[simp] theorem run_fail (e : Err) (s : σ) : run h (fail e : Prog α) s = (.err e, s) := rfl
@[simp] theorem run_panic (s : σ) : run h (panic : Prog α) s = (.panic, s) := rfl
theorem run_call {γ : Type} (r : Req γ) (k : γ → Prog α) (s : σ) :
    run h (call r k) s = run h (k (h r s).1) (h r s).2 := rfl

theorem run_bind (p : Prog α) (f : α → Prog β) (s : σ) :
    run h (p.bind f) s = match run h p s with
      | (.ok a, s') => run h (f a) s'
      | (.err e, s') => (.err e, s')
      | (.panic, s') => (.panic, s') := by
  induction p generalizing s with
  | ret a => rfl
  | fail e => rfl
  | panic => rfl
  | call r k ih => exact ih _ _

theorem run_bind_ok {p : Prog α} {f : α → Prog β} {s s2 : σ} {b : β} :
    run h (p.bind f) s = (.ok b, s2) ↔
      ∃ a s1, run h p s = (.ok a, s1) ∧ run h (f a) s1 = (.ok b, s2) := by
  rw [run_bind]
  constructor
  · intro hh
    split at hh
    · exact ⟨_, _, by assumption, hh⟩
    · cases hh
    · cases hh
  · rintro ⟨a, s1, h1, h2⟩
    rw [h1]; exact h2

theorem run_bind_of_ok {p : Prog α} {f : α → Prog β} {s s1 : σ} {a : α}
    (hp : run h p s = (.ok a, s1)) : run h (p.bind f) s = run h (f a) s1 := by
  rw [run_bind, hp]

theorem run_ask (r : Req (Except SErr α)) (s : σ) :
    run h (ask r) s = match (h r s).1 with
      | .ok a => (.ok a, (h r s).2)
      | .error e => (.err (.store e), (h r s).2) := by
  unfold ask; rw [run_call]
  cases (h r s).1 <;> rfl

theorem run_ask_ok {r : Req (Except SErr α)} {s s2 : σ} {a : α} :
    run h (ask r) s = (.ok a, s2) ↔ h r s = (.ok a, s2) := by
  rw [run_ask]
  cases hr : h r s with
  | mk x y => cases x <;> simp

theorem run_try' (r : Req α) (s : σ) : run h (try' r) s = (.ok (h r s).1, (h r s).2) := rfl

end

/-- A program that makes no call. -/
inductive NoCall {α : Type} : Prog α → Prop where
  | ret (a : α) : NoCall (.ret a)
  | fail (e : Err) : NoCall (.fail e)
  | panic : NoCall .panic

/-- The outcome of a program that makes no call. -/
def out {α : Type} : Prog α → Res Err α
  | ret a => .ok a
  | fail e => .err e
  | panic => .panic
  | call _ _ => .panic

theorem NoCall.run {σ α : Type} {p : Prog α} (hp : NoCall p)
    (h : {β : Type} → Req β → σ → β × σ) (s : σ) : Prog.run h p s = (p.out, s) := by
  cases hp <;> rfl

theorem NoCall.bind {α β : Type} {p : Prog α} {f : α → Prog β} (hp : NoCall p)
    (hf : ∀ a, NoCall (f a)) : NoCall (p.bind f) := by
  cases hp
  · exact hf _
  · exact .fail _
  · exact .panic

theorem NoCall.wire {α : Type} (r : Res Wire.Err α) : NoCall (Prog.wire r) := by
  cases r
  · exact .ret _
  · exact .fail _
  · exact .panic

/-- Is the call a Write on args.Writer? -/
def _root_.Verif.Msg.Req.isWrite : {β : Type} → Req β → Bool
  | _, .write _ => true
  | _, _ => false

/-- A program that never writes to args.Writer. -/
inductive NoWrite : {α : Type} → Prog α → Prop where
  | ret {α : Type} (a : α) : NoWrite (.ret a)
  | fail {α : Type} (e : Err) : NoWrite (.fail e : Prog α)
  | panic {α : Type} : NoWrite (.panic : Prog α)
  | call {α β : Type} {r : Req β} {k : β → Prog α} (hr : r.isWrite = false)
      (hk : ∀ x, NoWrite (k x)) : NoWrite (.call r k)

theorem NoWrite.bind {α β : Type} {p : Prog α} {f : α → Prog β} (hp : NoWrite p)
    (hf : ∀ a, NoWrite (f a)) : NoWrite (p.bind f) := by
  induction hp with
  | ret a => exact hf _
  | fail e => exact .fail _
  | panic => exact .panic
  | call hr hk ih => exact .call hr fun x => ih x

theorem NoCall.noWrite {α : Type} {p : Prog α} (hp : NoCall p) : NoWrite p := by
  cases hp
  · exact .ret _
  · exact .fail _
  · exact .panic

theorem NoWrite.ask {α : Type} (r : Req (Except SErr α)) (hr : r.isWrite = false) :
    NoWrite (Prog.ask r) :=
  .call hr fun x => by cases x <;> first | exact .ret _ | exact .fail _

theorem NoWrite.try' {α : Type} (r : Req α) (hr : r.isWrite = false) :
    NoWrite (Prog.try' r) := .call hr fun _ => .ret _

end Prog

theorem NoCall.failIf (c : Bool) (e : Err) : Prog.NoCall (failIf c e) := by
  unfold Msg.failIf; cases c
  · exact .ret _
  · exact .fail _

theorem NoCall.orPanic {α : Type} (o : Option α) : Prog.NoCall (orPanic o) := by
  cases o
  · exact .panic
  · exact .ret _

open Prog

/-- Closes goals that a concrete program does not write. -/
macro "nowrite" : tactic => `(tactic| repeat' first
  | exact NoWrite.ret _
  | exact NoWrite.fail _
  | exact NoWrite.panic
  | exact NoWrite.ask _ rfl
  | exact NoWrite.try' _ rfl
  | exact (NoCall.orPanic _).noWrite
  | exact (NoCall.failIf _ _).noWrite
  | exact (NoCall.wire _).noWrite
  | refine NoWrite.bind ?_ ?_
  | intro _
  | split
  | dsimp only)

theorem noWrite_addSessionKey (P : Prims) (ke : KeyEntry) : NoWrite (addSessionKey P ke) := by
  unfold addSessionKey; simp only [bind_eq]; nowrite

theorem noWrite_getSessionKey (P : Prims) (h : Str) : NoWrite (getSessionKey P h) := by
  unfold getSessionKey; simp only [bind_eq]; nowrite

theorem noWrite_setNext (P : Prims) (ss : State) (k : Str) (f : Bytes) :
    NoWrite (setNextSenderSessionPub P ss k f) := by
  unfold setNextSenderSessionPub; simp only [bind_eq]
  refine NoWrite.bind (noWrite_addSessionKey _ _) fun _ => ?_
  nowrite

theorem noCall_checkKeys (a b c d e : Bytes) : NoCall (checkKeys a b c d e) := by
  unfold checkKeys
  repeat' split
  all_goals first | exact .ret _ | exact .fail _

theorem noCall_ecdh (P : Prims) (a b c : Bytes) : NoCall (ecdh P a b c) := by
  unfold ecdh; split
  · exact .fail _
  · exact .ret _

theorem noWrite_generate (P : Prims) (a b c d : Str) (e : Bytes) (f : Bool) (g i : Bytes)
    (n : UInt64) : NoWrite (generateMessageKeys P a b c d e f g i n) := by
  unfold generateMessageKeys; exact NoWrite.ask _ rfl

theorem noWrite_rkaSender (P : Prims) (a : Bytes) (b c : Str) (d e f g : KeyEntry)
    (p : Option Bytes) (n : UInt64) : NoWrite (rootKeyAgreementSender P a b c d e f g p n) := by
  unfold rootKeyAgreementSender; simp only [bind_eq]
  repeat' first
    | exact noWrite_generate ..
    | exact (NoCall.orPanic _).noWrite
    | exact (noCall_checkKeys _ _ _ _ _).noWrite
    | exact (noCall_ecdh _ _ _ _).noWrite
    | refine NoWrite.bind ?_ ?_
    | intro _

theorem noWrite_rkaRecipient (P : Prims) (a : Bytes) (b c : Str) (d e f g : KeyEntry)
    (p : Option Bytes) (n : UInt64) :
    NoWrite (rootKeyAgreementRecipient P a b c d e f g p n) := by
  unfold rootKeyAgreementRecipient; simp only [bind_eq]
  repeat' first
    | exact noWrite_generate ..
    | exact (NoCall.orPanic _).noWrite
    | exact (noCall_checkKeys _ _ _ _ _).noWrite
    | exact (noCall_ecdh _ _ _ _).noWrite
    | refine NoWrite.bind ?_ ?_
    | intro _

/-- As `nowrite`, with the helper programs. -/
macro "nowrite'" : tactic => `(tactic| repeat' first
  | exact NoWrite.ret _
  | exact NoWrite.fail _
  | exact NoWrite.panic
  | exact NoWrite.ask _ rfl
  | exact NoWrite.try' _ rfl
  | exact (NoCall.orPanic _).noWrite
  | exact (NoCall.failIf _ _).noWrite
  | exact (NoCall.wire _).noWrite
  | exact noWrite_addSessionKey _ _
  | exact noWrite_getSessionKey _ _
  | exact noWrite_setNext _ _ _ _
  | exact noWrite_generate ..
  | exact noWrite_rkaSender ..
  | exact noWrite_rkaRecipient ..
  | refine NoWrite.bind ?_ ?_
  | intro _
  | split
  | dsimp only)

theorem noWrite_decUnknown (P : Prims) (a : DecArgs) (n : UInt64) (hp : Bytes) (u : UID)
    (h : Header) (k1 k2 : Str) (ss : Option State) :
    NoWrite (decUnknown P a n hp u h k1 k2 ss) := by
  unfold decUnknown; simp only [bind_eq]; nowrite'

theorem noWrite_decKnown (P : Prims) (a : DecArgs) (n : UInt64) (hp : Bytes) (u : UID)
    (h : Header) (k1 k2 : Str) (ss : Option State) :
    NoWrite (decKnown P a n hp u h k1 k2 ss) := by
  unfold decKnown; simp only [bind_eq]; nowrite'

theorem noWrite_decExtend (P : Prims) (n : UInt64) (u : UID)
    (h : Header) (k : Str) (ss : Option State) : NoWrite (decExtend P n u h k ss) := by
  unfold decExtend; simp only [bind_eq]; nowrite'

theorem noWrite_decSession (P : Prims) (a : DecArgs) (n : UInt64) (hp : Bytes) (u : UID)
    (h : Header) : NoWrite (decSession P a n hp u h) := by
  unfold decSession; simp only [bind_eq]
  repeat' first
    | exact noWrite_decKnown ..
    | exact noWrite_decUnknown ..
    | exact NoWrite.ask _ rfl
    | exact NoWrite.try' _ rfl
    | exact (NoCall.orPanic _).noWrite
    | refine NoWrite.bind ?_ ?_
    | intro _
    | split

theorem noCall_readPacket (r : Bytes) (t : UInt8) (e : Err) (c : UInt32) :
    NoCall (readPacket r t e c) := by
  unfold readPacket; simp only [bind_eq]
  refine (NoCall.wire _).bind fun _ => ?_
  refine (NoCall.failIf _ _).bind fun _ => ?_
  refine (NoCall.failIf _ _).bind fun _ => .ret _

theorem noCall_tryOpen (P : Prims) (ct n hp : Bytes) (ids : List UID) :
    NoCall (tryOpen P ct n hp ids) := by
  induction ids with
  | nil => exact .fail _
  | cons u us ih =>
    unfold tryOpen; simp only [bind_eq]
    refine (NoCall.orPanic _).bind fun _ => ?_
    split
    · exact .ret _
    · exact ih

theorem noCall_readHeader (P : Prims) (hp : Bytes) (ids : List UID) (r : Bytes) :
    NoCall (readHeader P hp ids r) := by
  unfold readHeader; simp only [bind_eq]
  refine (NoCall.wire _).bind fun _ => ?_
  refine (NoCall.wire _).bind fun _ => ?_
  refine (NoCall.wire _).bind fun _ => ?_
  refine (noCall_tryOpen ..).bind fun _ => ?_
  split
  · exact .fail _
  · exact (NoCall.failIf _ _).bind fun _ => .ret _

theorem noCall_decHead (P : Prims) (a : DecArgs) : NoCall (decHead P a) := by
  unfold decHead; simp only [bind_eq]
  refine (NoCall.wire _).bind fun _ => ?_
  refine (NoCall.failIf _ _).bind fun _ => ?_
  refine (noCall_readPacket ..).bind fun _ => ?_
  exact (noCall_readHeader ..).bind fun _ => .ret _

/-! ### What any program does to a memory store -/

/-- Deleted keys stay deleted and indices stay valid. -/
def KeysLE (a b : List Str) : Prop :=
  a.length ≤ b.length ∧ ∀ i : Nat, a[i]? = some [] → b[i]? = some []

/-- `b` is a later state than `a` as far as sessions are concerned. -/
def StoreLE (a b : MemStore) : Prop :=
  ∀ k s, a.sessions k = some s → ∃ s', b.sessions k = some s' ∧ s'.root = s.root ∧
    KeysLE s.send s'.send ∧ KeysLE s.recv s'.recv

theorem KeysLE.refl (a : List Str) : KeysLE a a := ⟨Nat.le_refl _, fun _ h => h⟩

theorem KeysLE.trans {a b c : List Str} (h1 : KeysLE a b) (h2 : KeysLE b c) : KeysLE a c :=
  ⟨Nat.le_trans h1.1 h2.1, fun i h => h2.2 i (h1.2 i h)⟩

theorem KeysLE.append (a b : List Str) : KeysLE a (a ++ b) := by
  refine ⟨by simp, fun i h => ?_⟩
  have hi : i < a.length := by
    rcases Nat.lt_or_ge i a.length with h' | h'
    · exact h'
    · rw [List.getElem?_eq_none h'] at h; cases h
  rw [List.getElem?_append_left hi]; exact h

theorem KeysLE.set (a : List Str) (i : Nat) : KeysLE a (a.set i []) := by
  refine ⟨by simp, fun j h => ?_⟩
  rw [List.getElem?_set]
  split
  · split
    · rfl
    · subst_vars; rw [List.getElem?_eq_none (by omega)] at h; cases h
  · exact h

theorem StoreLE.refl (a : MemStore) : StoreLE a a :=
  fun _ s h => ⟨s, h, rfl, .refl _, .refl _⟩

theorem StoreLE.trans {a b c : MemStore} (h1 : StoreLE a b) (h2 : StoreLE b c) :
    StoreLE a c := by
  intro k s h
  obtain ⟨s1, e1, r1, k1, l1⟩ := h1 k s h
  obtain ⟨s2, e2, r2, k2, l2⟩ := h2 k s1 e1
  exact ⟨s2, e2, r2.trans r1, k1.trans k2, l1.trans l2⟩

theorem storeLE_of_sessions {a b : MemStore} (h : a.sessions = b.sessions) : StoreLE a b := by
  intro k s hs; exact ⟨s, h ▸ hs, rfl, .refl _, .refl _⟩

theorem storeSession_le (ms : MemStore) (k r c : Str) (s t : List Str) :
    StoreLE ms (ms.storeSession k r c s t).2 := by
  unfold MemStore.storeSession
  split
  · exact .refl _
  · split
    · rename_i hn
      intro k' s' hs
      refine ⟨s', ?_, rfl, .refl _, .refl _⟩
      simp only [MemStore.setSess, upd]
      rw [if_neg]
      · exact hs
      · intro e; subst e; rw [hn] at hs; cases hs
    · rename_i s0 hn
      intro k' s' hs
      simp only [MemStore.setSess, upd]
      by_cases e : k' = k
      · subst e
        rw [hn] at hs; injection hs with hs; subst hs
        exact ⟨_, if_pos rfl, rfl, .append _ _, .append _ _⟩
      · exact ⟨s', by rw [if_neg e]; exact hs, rfl, .refl _, .refl _⟩

theorem delMessageKey_le (ms : MemStore) (k : Str) (d : Bool) (i : UInt64) :
    StoreLE ms (ms.delMessageKey k d i).2 := by
  unfold MemStore.delMessageKey
  split
  · exact .refl _
  · rename_i s0 hn
    split
    · exact .refl _
    · intro k' s' hs
      simp only [MemStore.setSess, upd]
      by_cases e : k' = k
      · subst e
        rw [hn] at hs; injection hs with hs; subst hs
        cases d
        · exact ⟨_, if_pos rfl, rfl, .refl _, .set _ _⟩
        · exact ⟨_, if_pos rfl, rfl, .set _ _, .refl _⟩
      · exact ⟨s', by rw [if_neg e]; exact hs, rfl, .refl _, .refl _⟩

theorem handle_le (P : Prims) {β : Type} (r : Req β) (ms : MemStore) :
    StoreLE ms (MemStore.handle P r ms).2 := by
  cases r with
  | storeSession k r c s t => exact storeSession_le ms k r c s t
  | delMsgKey k d i => exact delMessageKey_le ms k d i
  | delSKey h =>
    show StoreLE ms (ms.delPrivSessionKey h)
    unfold MemStore.delPrivSessionKey
    split <;> exact storeLE_of_sessions rfl
  | _ => exact storeLE_of_sessions rfl

theorem run_le (P : Prims) {α : Type} (p : Prog α) (ms : MemStore) :
    StoreLE ms (p.run (MemStore.handle P) ms).2 := by
  induction p generalizing ms with
  | ret a => exact .refl _
  | fail e => exact .refl _
  | panic => exact .refl _
  | call r k ih => exact (handle_le P r ms).trans (ih _ _)

theorem handle_out (P : Prims) {β : Type} (r : Req β) (hr : r.isWrite = false)
    (ms : MemStore) : (MemStore.handle P r ms).2.out = ms.out := by
  cases r <;> try rfl
  · simp only [MemStore.handle, MemStore.storeSession]
    split
    · rfl
    · split <;> rfl
  · simp only [MemStore.handle, MemStore.delMessageKey]
    split
    · rfl
    · split <;> rfl
  · simp only [MemStore.handle, MemStore.delPrivSessionKey]
    split <;> rfl
  · cases hr

theorem run_out (P : Prims) {α : Type} {p : Prog α} (hp : NoWrite p) (ms : MemStore) :
    (p.run (MemStore.handle P) ms).2.out = ms.out := by
  induction hp generalizing ms with
  | ret a => rfl
  | fail e => rfl
  | panic => rfl
  | call hr hk ih =>
    rw [run_call]
    exact (ih _ _).trans (handle_out P _ hr ms)

end Verif.Msg
