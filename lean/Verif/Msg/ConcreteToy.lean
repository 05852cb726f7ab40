import Verif.Msg.Concrete
import Verif.Msg.ToyCodec
import Verif.Crypt.Toy
/-
A conversation that meets the hypotheses of C61_own_users_talk.
-/
namespace Verif.Msg.Concrete

open Verif.Uid (Owned Pfs create newContent checkLastEntry)
open Verif.Uid (lit)
open Verif.Util (splitEntry)
open Verif.Crypt.Toy (toy toy_good bytesOf bytesOf_length)

/-- Toy primitives for package msg that agree with those for package uid. -/
def base : Prims :=
  { Toy.P0 with
    sha512 := toy.sha512, dhPub := toy.dhPub, edPub := toy.edPub
    dh := fun a b => List.zipWith (· ^^^ ·) (toy.dhPub a) b
    sign := fun k m => Toy.fit 64 (toy.edPub k ++ m)
    verify := fun k m s => s == Toy.fit 64 (k ++ m) }

theorem base_same : Same toy base := ⟨rfl, rfl, rfl⟩

theorem base_good : (real base).Good where
  sha512_len := toy_good.sha512_len
  hmac_len := Toy.P0_good.hmac_len
  hkdf_len := Toy.P0_good.hkdf_len
  unb64_b64 := Base64.decode_encode
  b64_len x := (Base64.encode_length x).trans (Nat.mul_comm _ _)
  dhPub_len := toy_good.dhPub_len
  dh_comm a b := by
    show List.zipWith _ _ _ = List.zipWith _ _ _
    rw [List.zipWith_comm]
    congr; funext x y; exact UInt8.xor_comm y x
  box _ _ _ _ := Toy.P0_good.box _ [] [] []
  box_len := Toy.P0_good.box_len
  sign_len _ _ := Toy.fit_length 64 _
  sign_verify _ _ := by simp [real, base]

/-- Users with given mapped identity and keys. -/
theorem user (i : Str) (hi : toy.isMapped i = true) (hp : Json.Plain i) (hl : i.length ≤ 254) (s e : Bytes) :
    ∃ o, HJ.Made toy false o ∧ CanSend o ∧ o.encPriv = some e ∧ o.sigPriv = some s ∧ o.msg.content.identity = i := by
  obtain ⟨en, hw, ht, -, -⟩ := Crypt.Toy.some_entry
    ⟨newContent Crypt.Toy.aliceId [] [] .strict [] 0 ⟨[], [], [], []⟩ ⟨[], [], [], []⟩ none, [], [], [], []⟩
  have hs : splitEntry (Base64.encode en.bytes) = .ok en :=
    ((Util.C20_split_entry_exact _).2 en).mpr ⟨hw, ht, Base64.decode_encode _⟩
  have h : ∃ o, create toy i false [] [] .strict (Base64.encode en.bytes) 1000 (some s) (some e) none = .ok o ∧
      o.msg.content.identity = i ∧ o.msg.content.mixaddress = [] ∧ o.msg.content.nymaddress = [] ∧
      o.msg.content.lastentry = Base64.encode en.bytes ∧ o.encPriv = some e ∧ o.sigPriv = some s := by
    unfold create
    rw [hi]
    simp only [Bool.true_eq_false, if_false, Uid.initSigKey, Uid.initDHKey, Uid.escrowKey, Res.bind_ok, checkLastEntry,
      hs, ite_self]
    exact ⟨_, rfl, rfl, rfl, rfl, rfl, rfl, rfl⟩
  obtain ⟨o, ho, h1, h2, h3, h4, h5, h6⟩ := h
  have h0 : Json.Plain ([] : Str) := fun c hc => by simp at hc
  refine ⟨o, .create ⟨hp, h0, h0, HJ.base64_plain _⟩ ho, ⟨by rw [h1]; exact hl, h2, h3, ?_⟩, h5, h6, h1⟩
  rw [h4, Base64.encode_length]
  obtain ⟨w1, w2, w3, w4, w5, w6⟩ := hw
  simp [Util.Entry.bytes, *]

theorem sendable {o : Owned} (hs : o.sigPriv = some Toy.sigPub) (i : UInt8) (hi : Json.plainByte i = true) (c : Bytes)
    (hc : c.length ≤ 41691) (b : Bool) : Sendable o (Toy.roundE i c b) where
  content := hc
  nym := by show 1 ≤ 1568; omega
  nymPlain := by
    intro x hx
    rw [show x = i by simpa [Toy.roundE] using hx]
    exact hi
  last := List.length_replicate
  lastPlain := by intro x hx; rw [List.eq_of_mem_replicate hx]; decide
  rnd := ⟨List.length_replicate, List.length_replicate, fun _ => List.length_replicate, fun _ => List.length_replicate⟩
  hexPad n := by intro x hx; rw [List.eq_of_mem_replicate hx]; decide
  sig := by cases b with
    | false => exact .inl rfl
    | true => exact .inr hs.symm

def rounds : List Round := [Toy.roundE 49 [104, 105] true, Toy.roundE 50 [] false, Toy.roundE 51 [120] true]

theorem start (P : Prims) (L : Link) : ∃ A B, L.Start P A B :=
  ⟨{ MemStore.new with pubs := upd (fun _ => none) L.bob.identity (some (initDHKey P L.kPriv).public) },
    { MemStore.new with privs := upd (fun _ => none) (keyHash P L.kPriv) (some (initDHKey P L.kPriv)) },
    rfl, rfl, fun _ => rfl, fun _ => rfl, upd_same (fun _ => none) _ _, upd_same (fun _ => none) _ _⟩

/-- Alice sends three messages to Bob, two of them signed. -/
example : ∃ (oa ob : Owned) (A B : MemStore),
    HJ.Made toy false oa ∧ HJ.Made toy false ob ∧ oa.msg.content.identity = lit "alice@mute.one" ∧
    ob.msg.content.identity = lit "bob@mute.one" ∧
    conversation (real base) (link oa ob [1] [2] [3] 2 0) rounds A B =
      .ok [([104, 105], lit "alice@mute.one", sigOf (real base) (some Toy.sigPub) [104, 105]),
        ([], lit "alice@mute.one", []), ([120], lit "alice@mute.one", sigOf (real base) (some Toy.sigPub) [120])] := by
  obtain ⟨oa, a1, a2, a3, a4, a5⟩ := user (lit "alice@mute.one") (by decide +kernel)
    (HJ.lit_plain (by decide +kernel)) (by decide +kernel) Toy.sigPub [1]
  obtain ⟨ob, b1, -, b3, -, b5⟩ := user (lit "bob@mute.one") (by decide +kernel)
    (HJ.lit_plain (by decide +kernel)) (by decide +kernel) [7] [2]
  obtain ⟨A, B, hs⟩ := start (real base) (link oa ob [1] [2] [3] 2 0)
  refine ⟨oa, ob, A, B, a1, b1, a5, b5, ?_⟩
  rw [C61_own_users_talk toy_good base_good base_same (fun _ _ => by simp [toy, bytesOf_length]) a1 b1 a2 a3 b3
    (by decide) (by decide) rounds ?_ ?_ ?_ _ _ hs]
  · rw [a5]; rfl
  · intro r hr
    simp only [rounds, List.mem_cons, List.not_mem_nil, or_false] at hr
    rcases hr with rfl | rfl | rfl
    · exact sendable a4 49 (by decide) _ (by decide) _
    · exact sendable a4 50 (by decide) _ (by decide) _
    · exact sendable a4 51 (by decide) _ (by decide) _
  · intro r hr
    obtain rfl : Toy.roundE 49 [104, 105] true = r := Option.some.inj hr
    decide +kernel
  · exact Nat.le_trans (by decide) (le_stuckAt _)

end Verif.Msg.Concrete
