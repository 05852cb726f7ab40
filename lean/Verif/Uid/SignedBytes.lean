/-
C72: what a signature of a UID message covers. The JSON texts that are signed
determine every field, and the texts of different kinds of signed objects differ.
-/
import Verif.Uid.Json

namespace Verif.Uid

/-- The strings of a content. -/
def Content.Ascii (c : Content) : Prop := Message.Ascii ⟨c, [], [], [], []⟩

/-- The strings of a KeyInit message's contents. -/
def KIContents.Ascii (c : KIContents) : Prop :=
  Uid.Ascii c.version ∧ Uid.Ascii c.sigkeyhash ∧ Uid.Ascii c.repouri ∧ Uid.Ascii c.sessionanchor ∧
    Uid.Ascii c.sessionanchorhash

/-- The strings of a key server entry. -/
def Entry.Ascii (e : Entry) : Prop := Uid.Ascii e.uidMessageEncrypted ∧ Uid.Ascii e.hashchainEntry

/-- The objects that are signed (uid.go:193, 376, 586-590; keyinit.go:318). -/
inductive Signed where
  | content (c : Content)
  | keyInit (c : KIContents)
  | entry (e : Entry)
  deriving DecidableEq

/-- Its strings are ASCII (the JSON model is exact for them). -/
def Signed.Ascii : Signed → Prop
  | .content c => c.Ascii
  | .keyInit c => c.Ascii
  | .entry e => e.Ascii

/-- The bytes that are signed. -/
def Signed.bytes : Signed → Bytes
  | .content c => Js.jContent c
  | .keyInit c => Js.jKIContents c
  | .entry e => Js.jEntry e

/-- C72: two signed objects with the same signed bytes are the same object, of the
same kind and with the same value in every field. -/
theorem C72_signed_bytes_determine (a b : Signed) (_ha : a.Ascii) (_hb : b.Ascii)
    (h : a.bytes = b.bytes) : a = b := by
  have d1 : ∀ c k, Js.jContent c ≠ Js.jKIContents k := by
    intro c k h
    have : ∀ x y, lit "{\"CHAINLINK\":" ++ x ≠ lit "{\"FALLBACK\":" ++ y := by
      intro x y e
      have := congrArg (fun l : Bytes => l[2]?) e
      rw [List.getElem?_append_left (by decide), List.getElem?_append_left (by decide)] at this
      revert this
      decide
    exact this _ _ h
  have d2 : ∀ c k, Js.jContent c ≠ Js.jEntry k := by
    intro c k h
    have : ∀ x y, lit "{\"CHAINLINK\":" ++ x ≠ lit "{\"HASHCHAINENTRY\":" ++ y := by
      intro x y e
      have := congrArg (fun l : Bytes => l[2]?) e
      rw [List.getElem?_append_left (by decide), List.getElem?_append_left (by decide)] at this
      revert this
      decide
    exact this _ _ h
  have d3 : ∀ c k, Js.jKIContents c ≠ Js.jEntry k := by
    intro c k h
    have : ∀ x y, lit "{\"FALLBACK\":" ++ x ≠ lit "{\"HASHCHAINENTRY\":" ++ y := by
      intro x y e
      have := congrArg (fun l : Bytes => l[2]?) e
      rw [List.getElem?_append_left (by decide), List.getElem?_append_left (by decide)] at this
      revert this
      decide
    exact this _ _ h
  cases a <;> cases b <;> simp only [Signed.bytes] at h
  · rw [Js.inj_of Js.pContent_jContent h]
  · exact absurd h (d1 _ _)
  · exact absurd h (d2 _ _)
  · exact absurd h.symm (d1 _ _)
  · rw [Js.inj_of Js.pKIContents_jKIContents h]
  · exact absurd h (d3 _ _)
  · exact absurd h.symm (d2 _ _)
  · exact absurd h.symm (d3 _ _)
  · rw [Js.inj_of Js.pEntry_jEntry h]

/-- Two contents that differ in one field only, for which the theorem is not
vacuous; the JSON text of one of them. -/
example : (Signed.entry ⟨lit "a\"b", lit "c", 12⟩).Ascii ∧
    (Signed.entry ⟨lit "a\"b", lit "c", 12⟩).bytes =
      lit "{\"HASHCHAINENTRY\":\"c\",\"HASHCHAINPOS\":12,\"UIDMESSAGEENCRYPTED\":\"a\\\"b\"}" := by
  refine ⟨?_, by decide +kernel⟩
  have : ((lit "a\"b") ++ lit "c").all (fun c => decide (c < 128)) = true := by decide +kernel
  simp only [List.all_append, Bool.and_eq_true, List.all_eq_true, decide_eq_true_eq] at this
  exact this

end Verif.Uid
