import Verif.Msg.EndToEnd
import Verif.Msg.ToyRun
/-
Toy primitives with a header encoding that can be decoded, and a concrete
conversation: the hypotheses of C61 (and of C09) can be met.
-/
namespace Verif.Msg.Toy
open Prog

def lp (x : Bytes) : Bytes := be32 (UInt32.ofNat x.length) ++ x

def unlp : Bytes → Option (Bytes × Bytes)
  | a :: b :: c :: d :: r =>
    if r.length < (fromBe32 a b c d).toNat then none
    else some (r.take (fromBe32 a b c d).toNat, r.drop (fromBe32 a b c d).toNat)
  | _ => none

theorem unlp_lp (x r : Bytes) (h : x.length ≤ 7152) : unlp (lp x ++ r) = some (x, r) := by
  have e : (UInt32.ofNat x.length).toNat = x.length := by
    rw [UInt32.toNat_ofNat']; omega
  simp only [lp, be32, List.cons_append, List.nil_append, unlp, fromBe32_be32, List.length_append]
  simp only [e]
  rw [if_neg (by omega), List.take_left, List.drop_left]

theorem lp_length (x : Bytes) : (lp x).length = 4 + x.length := by simp [lp, be32]; omega

theorem lp_le {x : Bytes} (h : (lp x).length ≤ 7152) : x.length ≤ 7152 := by
  rw [lp_length] at h; omega

def eu64 (u : UInt64) : Bytes :=
  be32 (UInt32.ofNat (u.toNat / 4294967296)) ++ be32 (UInt32.ofNat u.toNat)

def unu64 : Bytes → Option (UInt64 × Bytes)
  | a :: b :: c :: d :: e :: f :: g :: h :: r =>
    some (UInt64.ofNat ((fromBe32 a b c d).toNat * 4294967296 + (fromBe32 e f g h).toNat), r)
  | _ => none

theorem unu64_eu64 (u : UInt64) (r : Bytes) : unu64 (eu64 u ++ r) = some (u, r) := by
  simp only [eu64, be32, List.cons_append, List.nil_append, unu64, fromBe32_be32]
  have := u.toNat_lt
  congr 2
  apply UInt64.toNat_inj.mp
  simp only [UInt64.toNat_ofNat', UInt32.toNat_ofNat']
  omega

def efunc : Func → UInt8
  | .ecdhe => 0 | .ed25519 => 1 | .ed25510 => 2 | .other => 3
def unfunc (b : UInt8) : Func :=
  if b = 0 then .ecdhe else if b = 1 then .ed25519 else if b = 2 then .ed25510 else .other

def eke (k : KeyEntry) : Bytes :=
  (if k.suiteOk then 1 else 0) :: efunc k.func :: (lp k.hash ++ lp k.pubkey)

def unke : Bytes → Option (KeyEntry × Bytes)
  | s :: f :: r => do
    let (h, r) ← unlp r
    let (p, r) ← unlp r
    some ({ suiteOk := s == 1, func := unfunc f, hash := h, pubkey := p, priv := none }, r)
  | _ => none

theorem unke_eke (k : KeyEntry) (r : Bytes) (hp : k.priv = none) (hl : (eke k).length ≤ 7152) :
    unke (eke k ++ r) = some (k, r) := by
  simp only [eke, List.length_cons, List.length_append, lp_length] at hl
  simp only [eke, List.cons_append, List.append_assoc, unke, Option.bind_eq_bind]
  rw [unlp_lp _ _ (by omega), Option.bind_some, unlp_lp _ _ (by omega), Option.bind_some]
  obtain ⟨s, f, h, p, q⟩ := k
  simp only at hp
  subst hp
  cases s <;> cases f <;> rfl

def eoke : Option KeyEntry → Bytes
  | none => [0]
  | some k => 1 :: eke k

def unoke : Bytes → Option (Option KeyEntry × Bytes)
  | t :: r => if t = 0 then some (none, r) else
    match unke r with
    | some (k, r) => some (some k, r)
    | none => none
  | _ => none

theorem unoke_eoke (k : Option KeyEntry) (r : Bytes) (hp : ∀ x, k = some x → x.priv = none)
    (hl : (eoke k).length ≤ 7152) : unoke (eoke k ++ r) = some (k, r) := by
  cases k with
  | none => rfl
  | some k =>
    simp only [eoke, List.length_cons] at hl
    simp only [eoke, List.cons_append, unoke, unke_eke k r (hp k rfl) (by omega)]
    rfl

def ehdr (h : Header) : Bytes :=
  lp h.recipientPubHash ++ (lp h.recipientTempHash ++ (lp h.senderIdentity ++
  (eke h.senderSessionPub ++ (lp h.senderIdentityPubHash ++ (eke h.senderIdentityPub ++
  (eoke h.nextSenderSessionPub ++ (eoke h.nextRecipientSessionPubSeen ++ (lp h.nymAddress ++
  (eu64 h.senderSessionCount ++ (eu64 h.senderMessageCount ++ (lp h.senderUID ++
  (lp h.senderLastKeychainHash ++ (lp [h.status] ++ lp h.padding)))))))))))))

def unhdr (b : Bytes) : Option Header :=
  (unlp b).bind fun a1 =>
  (unlp a1.2).bind fun a2 =>
  (unlp a2.2).bind fun a3 =>
  (unke a3.2).bind fun a4 =>
  (unlp a4.2).bind fun a5 =>
  (unke a5.2).bind fun a6 =>
  (unoke a6.2).bind fun a7 =>
  (unoke a7.2).bind fun a8 =>
  (unlp a8.2).bind fun a9 =>
  (unu64 a9.2).bind fun a10 =>
  (unu64 a10.2).bind fun a11 =>
  (unlp a11.2).bind fun a12 =>
  (unlp a12.2).bind fun a13 =>
  (unlp a13.2).bind fun a14 =>
  (unlp a14.2).bind fun a15 =>
  some ⟨a1.1, a2.1, a3.1, a4.1, a5.1, a6.1, a7.1, a8.1, a9.1, a10.1, a11.1,
    a12.1, a13.1, a14.1.headD 0, a15.1⟩

theorem unhdr_ehdr (h : Header) (hc : h.Clean) (hl : (ehdr h).length ≤ 7152) (r : Bytes) :
    unhdr (ehdr h ++ r) = some h := by
  obtain ⟨c1, c2, c3, c4⟩ := hc
  simp only [ehdr, List.length_append] at hl
  obtain ⟨n1, q1⟩ : ∃ n, n = (lp h.recipientPubHash).length := ⟨_, rfl⟩
  obtain ⟨n2, q2⟩ : ∃ n, n = (lp h.recipientTempHash).length := ⟨_, rfl⟩
  obtain ⟨n3, q3⟩ : ∃ n, n = (lp h.senderIdentity).length := ⟨_, rfl⟩
  obtain ⟨n4, q4⟩ : ∃ n, n = (eke h.senderSessionPub).length := ⟨_, rfl⟩
  obtain ⟨n5, q5⟩ : ∃ n, n = (lp h.senderIdentityPubHash).length := ⟨_, rfl⟩
  obtain ⟨n6, q6⟩ : ∃ n, n = (eke h.senderIdentityPub).length := ⟨_, rfl⟩
  obtain ⟨n7, q7⟩ : ∃ n, n = (eoke h.nextSenderSessionPub).length := ⟨_, rfl⟩
  obtain ⟨n8, q8⟩ : ∃ n, n = (eoke h.nextRecipientSessionPubSeen).length := ⟨_, rfl⟩
  obtain ⟨n9, q9⟩ : ∃ n, n = (lp h.nymAddress).length := ⟨_, rfl⟩
  obtain ⟨n10, q10⟩ : ∃ n, n = (eu64 h.senderSessionCount).length := ⟨_, rfl⟩
  obtain ⟨n11, q11⟩ : ∃ n, n = (eu64 h.senderMessageCount).length := ⟨_, rfl⟩
  obtain ⟨n12, q12⟩ : ∃ n, n = (lp h.senderUID).length := ⟨_, rfl⟩
  obtain ⟨n13, q13⟩ : ∃ n, n = (lp h.senderLastKeychainHash).length := ⟨_, rfl⟩
  obtain ⟨n14, q14⟩ : ∃ n, n = (lp [h.status]).length := ⟨_, rfl⟩
  obtain ⟨n15, q15⟩ : ∃ n, n = (lp h.padding).length := ⟨_, rfl⟩
  simp only [← q1, ← q2, ← q3, ← q4, ← q5, ← q6, ← q7, ← q8, ← q9, ← q10, ← q11, ← q12, ← q13, ← q14, ← q15] at hl
  have l1 : n1 ≤ 7152 := by omega
  have e1 : ∀ r, unlp (lp h.recipientPubHash ++ r) = some (h.recipientPubHash, r) := fun r =>
    unlp_lp _ _ (lp_le (q1 ▸ l1))
  have l2 : n2 ≤ 7152 := by omega
  have e2 : ∀ r, unlp (lp h.recipientTempHash ++ r) = some (h.recipientTempHash, r) := fun r =>
    unlp_lp _ _ (lp_le (q2 ▸ l2))
  have l3 : n3 ≤ 7152 := by omega
  have e3 : ∀ r, unlp (lp h.senderIdentity ++ r) = some (h.senderIdentity, r) := fun r =>
    unlp_lp _ _ (lp_le (q3 ▸ l3))
  have l4 : n4 ≤ 7152 := by omega
  have e4 : ∀ r, unke (eke h.senderSessionPub ++ r) = some (h.senderSessionPub, r) := fun r =>
    unke_eke _ _ c1 (q4 ▸ l4)
  have l5 : n5 ≤ 7152 := by omega
  have e5 : ∀ r, unlp (lp h.senderIdentityPubHash ++ r) = some (h.senderIdentityPubHash, r) := fun r =>
    unlp_lp _ _ (lp_le (q5 ▸ l5))
  have l6 : n6 ≤ 7152 := by omega
  have e6 : ∀ r, unke (eke h.senderIdentityPub ++ r) = some (h.senderIdentityPub, r) := fun r =>
    unke_eke _ _ c2 (q6 ▸ l6)
  have l7 : n7 ≤ 7152 := by omega
  have e7 : ∀ r, unoke (eoke h.nextSenderSessionPub ++ r) = some (h.nextSenderSessionPub, r) := fun r =>
    unoke_eoke _ _ c3 (q7 ▸ l7)
  have l8 : n8 ≤ 7152 := by omega
  have e8 : ∀ r, unoke (eoke h.nextRecipientSessionPubSeen ++ r) = some (h.nextRecipientSessionPubSeen, r) := fun r =>
    unoke_eoke _ _ c4 (q8 ▸ l8)
  have l9 : n9 ≤ 7152 := by omega
  have e9 : ∀ r, unlp (lp h.nymAddress ++ r) = some (h.nymAddress, r) := fun r =>
    unlp_lp _ _ (lp_le (q9 ▸ l9))
  have e10 : ∀ r, unu64 (eu64 h.senderSessionCount ++ r) = some (h.senderSessionCount, r) := fun r =>
    unu64_eu64 _ _
  have e11 : ∀ r, unu64 (eu64 h.senderMessageCount ++ r) = some (h.senderMessageCount, r) := fun r =>
    unu64_eu64 _ _
  have l12 : n12 ≤ 7152 := by omega
  have e12 : ∀ r, unlp (lp h.senderUID ++ r) = some (h.senderUID, r) := fun r =>
    unlp_lp _ _ (lp_le (q12 ▸ l12))
  have l13 : n13 ≤ 7152 := by omega
  have e13 : ∀ r, unlp (lp h.senderLastKeychainHash ++ r) = some (h.senderLastKeychainHash, r) := fun r =>
    unlp_lp _ _ (lp_le (q13 ▸ l13))
  have l14 : n14 ≤ 7152 := by omega
  have e14 : ∀ r, unlp (lp [h.status] ++ r) = some ([h.status], r) := fun r =>
    unlp_lp _ _ (lp_le (q14 ▸ l14))
  have l15 : n15 ≤ 7152 := by omega
  have e15 : ∀ r, unlp (lp h.padding ++ r) = some (h.padding, r) := fun r =>
    unlp_lp _ _ (lp_le (q15 ▸ l15))
  simp only [ehdr, List.append_assoc, unhdr, e1, e2, e3, e4, e5, e6, e7, e8, e9, e10, e11, e12, e13, e14, e15,
    Option.bind_some, List.headD_cons]

/-- Headers are padded to 7152 bytes; too long ones are not encoded. -/
def emarshal (h : Header) : Bytes :=
  if (ehdr h).length ≤ 7152 then ehdr h ++ List.replicate (7152 - (ehdr h).length) 0 else []

theorem emarshal_parse (h : Header) (hc : h.Clean) (hl : (emarshal h).length = 7152) :
    unhdr (emarshal h) = some h := by
  unfold emarshal at hl ⊢
  split
  · rename_i hle; exact unhdr_ehdr h hc hle _
  · rename_i hle; rw [if_neg hle] at hl; simp at hl

def sigKeyE : KeyEntry :=
  { suiteOk := true, func := .ed25519, hash := [], pubkey := Base64.encode sigPub, priv := none }

/-- The toy primitives with a real header codec. -/
def PE : Prims :=
  { prims header0 { uid0 with sigKey := sigKeyE } with marshal := emarshal, parse := unhdr }

theorem PE_good : PE.Good :=
  let g := good header0 { uid0 with sigKey := sigKeyE }
  ⟨g.sha512_len, g.hmac_len, g.hkdf_len, g.unb64_b64, g.b64_len, g.dhPub_len, g.dh_comm, g.box,
    g.box_len, g.sign_len, g.sign_verify⟩

def aliceE : UID :=
  { identity := [97, 64, 109], pubKey := initDHKey PE [1], sigKey := sigKeyE, json := [1, 2] }
def bobE : UID :=
  { identity := [98, 64, 109], pubKey := initDHKey PE [2], sigKey := sigKeyE, json := [3] }

def linkE : Link :=
  { alice := aliceE, bob := bobE, aPriv := [1], bPriv := [2], kPriv := [3], nA := 2, nB := 0 }

def rndE (i : UInt8) (b : Bool) : Rnd :=
  { headerPriv := [10, i], sessPriv := [20, i], nextPriv := [30, i],
    nonce := List.replicate 24 i, iv := List.replicate 16 i, newSession := b,
    pad := fun n => List.replicate n 0, hexPad := fun n => List.replicate n 48 }

def roundE (i : UInt8) (c : Bytes) (b : Bool) : Round :=
  { content := c, sigKey := if b then some sigPub else none, nymAddress := [i],
    lastHash := List.replicate 204 65, rnd := rndE i b, fresh := [40, i] }

/-- Three messages, signed and unsigned, one of which announces a new session;
the sender runs out of its first batch of two keys. -/
def roundsE : List Round := [roundE 1 [104, 105] true, roundE 2 [] false, roundE 3 [120] true]

def storeA : MemStore :=
  { MemStore.new with pubs := upd (fun _ => none) bobE.identity (some (initDHKey PE [3]).public) }
def storeB : MemStore :=
  { MemStore.new with privs := upd (fun _ => none) (keyHash PE [3]) (some (initDHKey PE [3])) }

theorem linkE_ok : linkE.OK PE { uid0 with sigKey := sigKeyE } := ⟨rfl, rfl, rfl, by decide, by decide⟩

theorem startE : linkE.Start PE storeA storeB :=
  ⟨rfl, rfl, fun _ => rfl, fun _ => rfl,
    upd_same (fun _ => none) bobE.identity _, upd_same (fun _ => none) (keyHash PE [3]) _⟩

theorem roundE_ok (i : UInt8) (c : Bytes) (b : Bool) :
    (roundE i c b).OK PE { uid0 with sigKey := sigKeyE } := by
  refine ⟨⟨List.length_replicate, List.length_replicate, fun _ => List.length_replicate,
    fun _ => List.length_replicate⟩, ?_⟩
  intro k hk
  cases b with
  | false => cases hk
  | true =>
    obtain rfl := Option.some.inj hk
    decide +kernel

theorem keyHash_length (x : Bytes) : (keyHash PE x).length = 88 := by
  unfold keyHash; rw [PE_good.b64_len, PE_good.sha512_len]

theorem eke_init_length (x : Bytes) : (eke (initDHKey PE x).public).length = 142 := by
  simp only [eke, List.length_cons, List.length_append, lp_length]
  have h1 : (initDHKey PE x).public.hash.length = 88 := keyHash_length x
  have h2 : (initDHKey PE x).public.pubkey.length = 44 := by
    show (PE.b64 (PE.dhPub x)).length = 44
    rw [PE_good.b64_len, PE_good.dhPub_len]
  rw [h1, h2]

theorem eu64_length (u : UInt64) : (eu64 u).length = 8 := rfl

theorem padLen_le (h : Header) : padLen h ≤ 5685 := by
  simp only [padLen, wiggleRoom, identityMaxLen, keyEntryLen, nilLen, maxNymAddress, maxUIDMessage]
  have : digitsCount 0 = 1 := rfl
  have : ∀ u, 1 ≤ digitsCount u := by
    intro u; unfold digitsCount
    have ite : ∀ {c : Prop} [Decidable c] {a b : Nat}, 1 ≤ a → 1 ≤ b → 1 ≤ if c then a else b := by
      intro c _ a b ha hb; split <;> assumption
    repeat' first
      | decide
      | refine ite ?_ ?_
  have h1 := this h.senderSessionCount
  have h2 := this h.senderMessageCount
  generalize digitsCount h.senderSessionCount = x1 at *
  generalize digitsCount h.senderMessageCount = x2 at *
  generalize digitsCount 0 = x3 at *
  split <;> split <;> omega

theorem roundE_fits (i : UInt8) (c : Bytes) (hc : c.length ≤ 41691) (b : Bool) :
    (roundE i c b).Fits PE linkE := by
  refine ⟨List.length_replicate, by decide, by show 1 ≤ 1568; omega, by decide, hc, ?_⟩
  intro s k ss hss
  have key : (ehdr (mkHeader (linkE.encArgs (roundE i c b)) (roundE i c b).rnd ss)).length ≤ 7152 := by
    have hn : (eoke (ss.nextSenderSessionPub.map KeyEntry.public)).length ≤ 143 := by
      rcases hss.next with h | ⟨x, h⟩
      · rw [h]; decide
      · rw [h]; simp only [Option.map_some, eoke, List.length_cons, eke_init_length]; omega
    have hpad : ∀ n, ((roundE i c b).rnd.hexPad n).length = n := fun n => List.length_replicate
    have h1 : (linkE.encArgs (roundE i c b)).to.pubKey.hash.length = 88 := keyHash_length [2]
    have h2 : (linkE.encArgs (roundE i c b)).from.pubKey.hash.length = 88 := keyHash_length [1]
    have h3 : (linkE.encArgs (roundE i c b)).from.identity.length = 3 := rfl
    have h4 : (linkE.encArgs (roundE i c b)).from.json.length = 2 := rfl
    have h5 : (linkE.encArgs (roundE i c b)).nymAddress.length = 1 := rfl
    have h6 : (linkE.encArgs (roundE i c b)).lastHash.length = 204 := List.length_replicate
    have h7 : (eke (linkE.encArgs (roundE i c b)).from.pubKey.public).length = 142 :=
      eke_init_length [1]
    have h8 : (eoke (ss.nextRecipientSessionPubSeen.map KeyEntry.public)).length = 1 := by
      rw [hss.seen]; rfl
    simp only [mkHeader, ehdr, List.length_append, lp_length, hss.own, hss.hash, keyHash_length,
      eke_init_length, eu64_length, hpad, h1, h2, h3, h4, h5, h6, h7, h8, List.length_cons,
      List.length_nil]
    generalize (eoke (ss.nextSenderSessionPub.map KeyEntry.public)).length = x1 at hn ⊢
    have hq : ∀ q, padLen q ≤ 5685 := padLen_le
    generalize hx : padLen _ = x2
    have := hx ▸ hq _
    omega
  show (emarshal _).length = 7152
  unfold emarshal
  rw [if_pos key, List.length_append, List.length_replicate]
  omega

/-- The conversation satisfies all hypotheses of C61, so it is delivered. -/
theorem conversationE : conversation PE linkE roundsE storeA storeB =
    .ok [([104, 105], aliceE.identity, sigOf PE (some sigPub) [104, 105]),
      ([], aliceE.identity, []), ([120], aliceE.identity, sigOf PE (some sigPub) [120])] :=
  C61_conversation_succeeds PE_good linkE _ linkE_ok emarshal_parse roundsE
    (by intro r hr
        simp only [roundsE, List.mem_cons, List.not_mem_nil, or_false] at hr
        rcases hr with rfl | rfl | rfl <;> exact roundE_ok _ _ _)
    (by intro r hr
        simp only [roundsE, List.mem_cons, List.not_mem_nil, or_false] at hr
        rcases hr with rfl | rfl | rfl <;> exact roundE_fits _ _ (by simp) _)
    (by intro r hr
        obtain rfl : roundE 1 [104, 105] true = r := Option.some.inj hr
        decide +kernel)
    (Nat.le_trans (by decide) (le_stuckAt _)) storeA storeB startE

/-- C09: there are Encrypt calls that succeed, so the statement about successful
calls is not empty. -/
theorem encrypt_succeedsE : ∃ nym A', (encrypt PE (linkE.encArgs (roundE 1 [104, 105] true))
    (rndE 1 true)).run (MemStore.handle PE) storeA = (.ok nym, A') := by
  obtain ⟨ss, nym, A1, t, h1, h2, -, h4⟩ := encSession_first PE_good linkE_ok
    (roundE 1 [104, 105] true) (by decide +kernel) startE
  obtain ⟨A', h⟩ := encrypt_run PE_good linkE_ok (roundE_ok _ _ _) (roundE_fits 1 [104, 105] (by simp) true)
    (deriveRootKey_len PE PE_good _ _ _ _) (by omega) h1 h2 h4
  exact ⟨nym, A', h⟩

end Verif.Msg.Toy
