/-
Properties of the mix packages: C24 (envelopes), C25 (no panics), C26 (messages
through the mix), C27 (nym addresses), C77 (replays).
-/
import Verif.Mix.Lemmas

namespace Verif.Mix
open Verif.Asn1

/-! ### C24 envelopes -/

/-- The four parts of an envelope. -/
theorem parts {a b c d : Bytes} (ha : a.length = 32) (hb : b.length = 32) (hc : c.length = 32) :
    (a ++ b ++ c ++ d).take 32 = a ∧ ((a ++ b ++ c ++ d).drop 32).take 32 = b ∧
    ((a ++ b ++ c ++ d).drop 64).take 32 = c ∧ (a ++ b ++ c ++ d).drop 96 = d := by
  have e1 : (a ++ b ++ c ++ d).drop 32 = b ++ c ++ d := by
    simp only [List.append_assoc]; rw [← ha, List.drop_left]
  have e2 : (a ++ b ++ c ++ d).drop 64 = c ++ d := by
    rw [show 64 = 32 + 32 from rfl, ← List.drop_drop, e1, List.append_assoc, ← hb, List.drop_left]
  have e3 : (a ++ b ++ c ++ d).drop 96 = d := by
    rw [show 96 = 64 + 32 from rfl, ← List.drop_drop, e2, ← hc, List.drop_left]
  refine ⟨?_, ?_, ?_, e3⟩
  · simp only [List.append_assoc]; rw [← ha, List.take_left]
  · rw [e1, List.append_assoc, ← hb, List.take_left]
  · rw [e2, ← hc, List.take_left]

/-- C24: an envelope made for the public key of `k` is opened by whoever finds `k`. -/
theorem C24_round_trip (P : Prims) (hP : P.Good) (look : KeyFunc) (k mine nonce clear : Bytes)
    (hk : look (P.pub k) = some k) (hn : nonce.length = 32) :
    ∃ e, encrypt P (some (P.pub k)) mine nonce clear = .ok e ∧ decrypt P look e = .ok clear := by
  refine ⟨_, rfl, ?_⟩
  obtain ⟨h1, h2, h3, h4⟩ := parts (d := gcmEncrypt P nonce (sharedSecret P (P.pub k) mine nonce) clear)
    (hP.pub_len k) (hP.pub_len mine) hn
  unfold decrypt
  rw [if_neg (by simp only [List.length_append, hP.pub_len, hn, gcmEncrypt, hP.gcm_len]; omega), h1, hk]
  simp only [h2, h3, h4]
  unfold gcmDecrypt gcmEncrypt sharedSecret
  rw [hP.dh_comm k mine, hP.gcm_open]
  rfl

/-- C24: envelopes without a key to encrypt to are refused. -/
theorem C24_no_recipient (P : Prims) (mine nonce clear : Bytes) : encrypt P none mine nonce clear = .err .noKeys := rfl

/-- C24: too short input, whatever the keys. -/
theorem C24_short (P : Prims) (look : KeyFunc) (e : Bytes) (h : e.length ≤ 96) : decrypt P look e = .err .tooShort := if_pos h

/-- C24: an unknown key. -/
theorem C24_unknown_key (P : Prims) (look : KeyFunc) (e : Bytes) (h : 96 < e.length) (hk : look (e.take 32) = none) :
    decrypt P look e = .err .noKeys := by
  unfold decrypt
  rw [if_neg (by omega), hk]

/-- C24: whatever is decrypted is an authenticated encryption under the secret that the
recipient's key and the two public parts determine; and decryption never panics. -/
theorem C24_sound (P : Prims) (look : KeyFunc) (e : Bytes) :
    decrypt P look e ≠ .panic ∧
    ∀ m, decrypt P look e = .ok m → ∃ pk epk nonce c k, e = pk ++ epk ++ nonce ++ c ∧
      pk.length = 32 ∧ epk.length = 32 ∧ nonce.length = 32 ∧ look pk = some k ∧
      P.gcmOpen (nonce.take 12) (fix32 (P.hmac (P.dh k epk) nonce)) c = some m := by
  unfold decrypt
  constructor
  · split
    · simp
    · split
      · simp
      · exact ofOpt_ne_panic _ _
  · intro m h
    split at h
    · cases h
    · rename_i hl
      split at h
      · cases h
      · rename_i k hk
        refine ⟨_, (e.drop 32).take 32, (e.drop 64).take 32, e.drop 96, k, ?_, ?_, ?_, ?_, hk, ofOpt_eq_ok.mp h⟩
        · have e1 : e.drop 96 = (e.drop 64).drop 32 := by rw [List.drop_drop]
          have e2 : e.drop 64 = (e.drop 32).drop 32 := by rw [List.drop_drop]
          rw [e1, List.append_assoc _ _ (List.drop _ _), List.take_append_drop, e2, List.append_assoc, List.take_append_drop,
            List.take_append_drop]
        · simp; omega
        · simp; omega
        · simp; omega

/-! ### Headers -/

theorem hdrLen_cons (a b : UInt8) (d : Bytes) : hdrLen (a :: b :: d) = (a.toNat * 256 + b.toNat + 2) % 65536 := rfl

theorem be16_value (n : Nat) (h : n < 65536) (d : Bytes) :
    be16 (UInt16.ofNat n) ++ d = UInt8.ofNat (n / 256) :: UInt8.ofNat n :: d ∧
    (UInt8.ofNat (n / 256)).toNat * 256 + (UInt8.ofNat n).toNat = n := by
  have e : (UInt16.ofNat n).toNat = n := by simp; omega
  constructor
  · simp [be16, e]
  · simp only [UInt8.toNat_ofNat']
    omega

theorem hdrLen_be16 (n : Nat) (h : n < 65536) (d : Bytes) : hdrLen (be16 (UInt16.ofNat n) ++ d) = (n + 2) % 65536 := by
  obtain ⟨e1, e2⟩ := be16_value n h d
  rw [e1, hdrLen_cons, e2]

/-- What the receiver sees of a header: forward messages carry no RevokeID. -/
def Hdr.seen (h : Hdr) : Hdr := { h with revokeID := if h.msgType = typeForward then none else h.revokeID }

/-- Headers that can be told apart on the wire: delays in range, and neither an empty
token or RevokeID nor one consisting of a single zero byte. -/
structure Hdr.Plain (h : Hdr) : Prop where
  ty : I32 h.msgType
  lo : I32 h.minDelay
  hi : I32 h.maxDelay
  token : h.token ≠ some [] ∧ h.token ≠ some [0]
  revoke : h.revokeID ≠ some [] ∧ h.revokeID ≠ some [0]

theorem fixNil_wire (h : Hdr) (hp : h.Plain) :
    Hdr.fixNil { h with token := some h.wireToken, revokeID := some h.wireRevoke } = .ok h.seen := by
  obtain ⟨ty, lo, hi, tok, addr, rev⟩ := h
  obtain ⟨-, -, -, ⟨t1, t2⟩, ⟨r1, r2⟩⟩ := hp
  simp only at t1 t2 r1 r2
  unfold Hdr.fixNil Hdr.wireToken Hdr.wireRevoke Hdr.seen
  by_cases hf : ty = typeForward
  · cases tok <;> simp_all
  · cases tok <;> cases rev <;> simp_all

/-- C26: a header is read back as written, with its length, whatever follows. -/
theorem C26_header_round_trip (h : Hdr) (hp : h.Plain) (hl : h.asn1.length ≤ 65533) (rest : Bytes) :
    Hdr.unmarshal (h.marshal ++ rest) = .ok (h.seen, h.marshal.length) := by
  have hlen : h.marshal.length = h.asn1.length + 2 := by
    rw [Hdr.marshal, List.length_append]; simp [be16]; omega
  have hx : 0 < h.asn1.length := by unfold Hdr.asn1; have := tlv_length_ge 48; grind
  have hh : hdrLen (h.marshal ++ rest) = h.asn1.length + 2 := by
    rw [Hdr.marshal, List.append_assoc, hdrLen_be16 _ (by omega), Nat.mod_eq_of_lt (by omega)]
  unfold Hdr.unmarshal
  rw [if_neg (by simp only [List.length_append]; omega), if_neg (by simp only [List.length_append]; omega),
    if_neg (by omega), hh]
  have e : ((h.marshal ++ rest).take (h.asn1.length + 2)).drop 2 = h.asn1 ++ [] := by
    rw [← hlen, List.take_left]
    simp [Hdr.marshal, be16]
  rw [e, Hdr.parse_asn1 h hp.ty hp.lo hp.hi (by omega)]
  rw [ofOpt_some, Res.bind_ok, fixNil_wire h hp, Res.bind_ok, hlen]

/-- C26 fails for long headers: the length is written with 16 bits, and a mix that
receives a header of 65534 or 65535 bytes panics. -/
theorem C26_long_header_panics (h : Hdr) (hl : h.asn1.length = 65534 ∨ h.asn1.length = 65535) (rest : Bytes) :
    Hdr.unmarshal (h.marshal ++ rest) = .panic := by
  have hlen : h.marshal.length = h.asn1.length + 2 := by
    rw [Hdr.marshal, List.length_append]; simp [be16]; omega
  have hh : hdrLen (h.marshal ++ rest) < 2 := by
    rw [Hdr.marshal, List.append_assoc, hdrLen_be16 _ (by omega)]; omega
  unfold Hdr.unmarshal
  rw [if_neg (by simp only [List.length_append]; omega), if_neg (by simp only [List.length_append]; omega), if_pos hh]

/-- C26 fails for a token that is the single byte zero: it arrives as no token. -/
theorem C26_zero_token_lost (h : Hdr) (ht : h.token = some [0]) : h.marshal = { h with token := none }.marshal := by
  unfold Hdr.marshal Hdr.asn1 Hdr.wireToken Hdr.wireRevoke
  simp [ht]

/-! ### C26 forward messages -/

theorem first256_ok (d : Bytes) (n : Nat) (h1 : n + 256 < 65536) (h2 : n + 256 ≤ d.length) :
    first256 d n = .ok ((d.drop n).take 256) := by
  unfold first256
  rw [Nat.mod_eq_of_lt h1, if_neg (by omega), if_neg (by omega)]

/-- The limit on headers: with 256 more bytes they still fit 16 bits. -/
def Hdr.Short (h : Hdr) : Prop := h.asn1.length ≤ 65277

theorem Hdr.marshal_length (h : Hdr) : h.marshal.length = h.asn1.length + 2 := by
  rw [Hdr.marshal, List.length_append]; simp [be16]; omega

/-- C26: a forward message arrives at the next hop: the mix learns the header and passes
exactly the message on to the address the client named. -/
theorem C26_forward (P : Prims) (hP : P.Good) (clock : Int) (look : KeyFunc) (k : Bytes) (hk : look (P.pub k) = some k)
    (h : Hdr) (nextHop msg eph nonce : Bytes) (hn : nonce.length = 32)
    (hp : { h with msgType := typeForward, address := nextHop : Hdr }.Plain)
    (hs : { h with msgType := typeForward, address := nextHop : Hdr }.Short)
    (hm : 1024 ≤ msg.length ∧ msg.length ≤ 65536) (eph' : Bytes) :
    ∃ e r, newForward P h nextHop (some (P.pub k)) msg eph nonce = .ok (e, nextHop) ∧
      receive P clock look e = .ok r ∧
      r.hdr = { h with msgType := typeForward, address := nextHop, revokeID := none } ∧ r.message = msg ∧
      send P eph' r = .ok (msg, nextHop) := by
  generalize hg : ({ h with msgType := typeForward, address := nextHop } : Hdr) = g at hp hs
  obtain ⟨e, he, hd⟩ := C24_round_trip P hP look k eph nonce (g.marshal ++ msg) hk hn
  have hty : g.msgType = typeForward := by rw [← hg]
  have hseen : g.seen = { h with msgType := typeForward, address := nextHop, revokeID := none } := by
    rw [← hg]; simp [Hdr.seen]
  have hu := C26_header_round_trip g hp (by unfold Hdr.Short at hs; omega) msg
  have hl := g.marshal_length
  unfold Hdr.Short at hs
  refine ⟨e, { hdr := g.seen, addr := none, priv := none, message := msg,
               unique := [{ hash := P.hash (msg.take 256), expire := clock + 172800 }] }, ?_, ?_, hseen, rfl, ?_⟩
  · unfold newForward
    rw [show ({ h with msgType := typeForward, address := nextHop } : Hdr) = g from hg]
    simp only [he, Res.bind_ok]
  · unfold receive
    rw [hd, Res.bind_ok, recvPlain, hu, Res.bind_ok]
    have e1 : (g.marshal ++ msg).length - g.marshal.length = msg.length := by simp
    have e2 : g.seen.msgType = typeForward := by rw [Hdr.seen]; exact hty
    have e3 : badSize typeForward msg.length = false := by
      unfold badSize typeForward typeRelay
      have h1 : (decide (msg.length < 1024)) = false := by simp; omega
      have h2 : (decide (65536 < msg.length)) = false := by simp; omega
      simp [h1, h2]
    simp only [e1, e2, e3]
    rw [if_neg (by simp), if_neg (by decide), recvOther, first256_ok _ _ (by omega) (by simp only [List.length_append]; omega), Res.bind_ok]
    simp
  · unfold send
    rw [if_neg (by rw [Hdr.seen]; simp only [hty]; decide)]
    rw [hseen]

/-! ### C27 nym addresses -/

/-- Templates whose numbers fit the fields of the wire format. -/
structure Template.Fits (t : Template) : Prop where
  sys : I32 t.system
  exp : I64 t.expire
  lo : I32 t.minDelay
  hi : I32 t.maxDelay

/-- The mix an address was made for. -/
theorem newAddress_ok (P : Prims) (clock : Int) (t : Template) (mailbox nym : Bytes) (r : Nat) (eph nonce b : Bytes)
    (h : newAddress P clock t mailbox nym r eph nonce = .ok b) :
    ∃ m pd, m ∈ t.mixes ∧ (if t.expire = 0 then clock else t.expire) < m.expire ∧
      P.lionEnc (P.dh eph (fix32 m.pubkey)) (mkPriv P t mailbox (fix32 nym) nonce).asn1 = some pd ∧
      b = NAddr.asn1 { mixAddress := m.address, expire := t.expire, singleUse := t.singleUse, tokenPubKey := m.tokenKey,
                       mixPubKey := m.pubkey, addressKey := P.pub eph, privateData := pd } := by
  unfold newAddress at h
  split at h
  · cases h
  · rename_i m hm
    obtain ⟨pd, h1, h2⟩ := Res.bind_eq_ok.mp h
    have hmem : m ∈ expireList clock t.expire t.mixes := List.mem_of_getElem? hm
    unfold expireList at hmem
    rw [List.mem_filter] at hmem
    exact ⟨m, pd, hmem.1, of_decide_eq_true hmem.2, ofOpt_eq_ok.mp h1, (Res.ok.inj h2).symm⟩

/-- C27: an address names a mix of the template whose key outlives the address; parsing
it gives the template's parameters, and fails exactly after the expiry time. -/
theorem C27_parse (P : Prims) (clock now : Int) (t : Template) (ht : t.Fits) (mailbox nym : Bytes) (r : Nat)
    (eph nonce b : Bytes) (hl : b.length < 2 ^ 31) (h : newAddress P clock t mailbox nym r eph nonce = .ok b) :
    ∃ m ∈ t.mixes, (t.expire ≠ 0 → t.expire < m.expire) ∧
      (t.expire < now → parseAddress now b = .err .expired) ∧
      (now ≤ t.expire → ∃ a, parseAddress now b = .ok a ∧ a.mixAddress = m.address ∧ a.mixPubKey = m.pubkey ∧
        a.tokenPubKey = m.tokenKey ∧ a.expire = t.expire ∧ a.singleUse = t.singleUse) := by
  obtain ⟨m, pd, h1, h2, h3, rfl⟩ := newAddress_ok P clock t mailbox nym r eph nonce b h
  refine ⟨m, h1, fun h0 => by rwa [if_neg h0] at h2, ?_, ?_⟩
  · intro hn
    have := NAddr.parse_asn1 _ (show I64 (NAddr.mk m.address t.expire t.singleUse m.tokenKey m.pubkey (P.pub eph) pd).expire from ht.exp) hl []
    rw [List.append_nil] at this
    rw [parseAddress, this, ofOpt_some, Res.bind_ok, if_pos hn]
  · intro hn
    have := NAddr.parse_asn1 _ (show I64 (NAddr.mk m.address t.expire t.singleUse m.tokenKey m.pubkey (P.pub eph) pd).expire from ht.exp) hl []
    rw [List.append_nil] at this
    rw [parseAddress, this, ofOpt_some, Res.bind_ok, if_neg (by simp only; omega)]
    exact ⟨NAddr.mk m.address t.expire t.singleUse m.tokenKey m.pubkey (P.pub eph) pd, rfl, rfl, rfl, rfl, rfl, rfl⟩

/-- Everything the parties derive from an address. -/
theorem address_uses (P : Prims) (hP : P.Good) (clock now : Int) (t : Template) (ht : t.Fits) (mailbox nym : Bytes) (r : Nat)
    (eph nonce b : Bytes) (hl : b.length < 2 ^ 31)
    (h : newAddress P clock t mailbox nym r eph nonce = .ok b) (hn : now ≤ t.expire) :
    ∃ m ∈ t.mixes, ∃ a, parseAddress now b = .ok a ∧ a.mixAddress = m.address ∧ a.mixPubKey = m.pubkey ∧
      (∀ look k, m.pubkey = P.pub k → look (P.pub k) = some k →
        getMixData P look a = .ok (mkPriv P t mailbox (fix32 nym) nonce)) := by
  obtain ⟨m, pd, h1, h2, h3, rfl⟩ := newAddress_ok P clock t mailbox nym r eph nonce b h
  have hp := NAddr.parse_asn1 _ (show I64 (NAddr.mk m.address t.expire t.singleUse m.tokenKey m.pubkey (P.pub eph) pd).expire from ht.exp) hl []
  rw [List.append_nil] at hp
  have hq := NAddr.privateData_lt (NAddr.mk m.address t.expire t.singleUse m.tokenKey m.pubkey (P.pub eph) pd)
  have hlen := hP.lion_len _ _ _ h3
  refine ⟨m, h1, NAddr.mk m.address t.expire t.singleUse m.tokenKey m.pubkey (P.pub eph) pd, ?_, rfl, rfl, ?_⟩
  · rw [parseAddress, hp, ofOpt_some, Res.bind_ok, if_neg (by simp only; omega)]
  · intro look k hk hlook
    unfold getMixData
    simp only [hk, fix32_of_length (hP.pub_len _), hlook]
    rw [hk, fix32_of_length (hP.pub_len _), hP.dh_comm] at h3
    rw [hP.lion_dec _ _ _ h3, ofOpt_some, Res.bind_ok]
    have := NPriv.parse_asn1 (mkPriv P t mailbox (fix32 nym) nonce) ht.sys ht.exp ht.lo ht.hi
      (by rw [← hlen]; simp only at hq; omega) []
    rw [List.append_nil] at this
    rw [this]
    rfl

theorem mkPriv_lengths (P : Prims) (hP : P.Good) (t : Template) (mailbox nym nonce : Bytes) :
    (mkPriv P t mailbox nym nonce).receiverPub.length = 32 ∧ (mkPriv P t mailbox nym nonce).encNym.length = 34 ∧
    (mkPriv P t mailbox nym nonce).hmacHead.length = 32 :=
  ⟨hP.pub_len _, encryptNym_length P hP _ _, hP.hmac_len _ _⟩

theorem getPrivate_getHeader (P : Prims) (hP : P.Good) (t : Template) (mailbox nym nonce eph : Bytes) (hn : nonce.length = 32)
    (hy : nym.length ≤ 32) :
    (getHeader P eph (mkPriv P t mailbox nym nonce)).1.length < 65536 ∧
    getPrivate P t (getHeader P eph (mkPriv P t mailbox nym nonce)).1 mailbox =
      .ok (nym, (getHeader P eph (mkPriv P t mailbox nym nonce)).2) := by
  obtain ⟨l1, l2, l3⟩ := mkPriv_lengths P hP t mailbox nym nonce
  have hlen := RHdr.asn1_length (RHdr.mk (P.pub eph) (mkPriv P t mailbox nym nonce).nonce
    (mkPriv P t mailbox nym nonce).receiverPub (mkPriv P t mailbox nym nonce).encNym
    (mkPriv P t mailbox nym nonce).hmacHead)
    (by
      have : (mkPriv P t mailbox nym nonce).nonce = nonce := rfl
      simp only [hP.pub_len, l1, l2, l3, this, hn]; omega)
  refine ⟨Nat.lt_of_le_of_lt hlen (by omega), ?_⟩
  have hp := RHdr.parse_asn1 _ (Nat.lt_of_le_of_lt hlen (by omega)) []
  rw [List.append_nil] at hp
  unfold getPrivate getHeader
  simp only
  rw [hp, ofOpt_some, Res.bind_ok]
  simp only
  rw [if_neg (by simp [mkPriv])]
  have e : (mkPriv P t mailbox nym nonce).encNym =
      encryptNym P (symKey P t (mkPriv P t mailbox nym nonce).nonce (mkPriv P t mailbox nym nonce).receiverPub mailbox) nym := rfl
  rw [e, decryptNym_encryptNym P hP _ _ hy, Res.bind_ok, finishPrivate]
  simp only
  rw [if_neg (by simp [mkPriv]), fix32_of_length (hP.pub_len _), fix32_of_length l1]
  simp only [mkPriv]
  rw [hP.dh_comm]

/-- C27: what the mix and the owner get out of an address. The mix that has the key gets
mailbox, delays, expiry and single-use flag; the owner, from the header of any message
the mix relays (made with any random key), gets the nym and the same secret as the mix. -/
theorem C27_mix_and_owner (P : Prims) (hP : P.Good) (clock now : Int) (t : Template) (ht : t.Fits) (mailbox nym : Bytes) (r : Nat)
    (eph nonce b : Bytes) (hnonce : nonce.length = 32) (hl : b.length < 2 ^ 31)
    (h : newAddress P clock t mailbox nym r eph nonce = .ok b) (hn : now ≤ t.expire) :
    ∃ m ∈ t.mixes, ∃ a, parseAddress now b = .ok a ∧ a.mixAddress = m.address ∧
      ∀ look k, m.pubkey = P.pub k → look (P.pub k) = some k →
        ∃ p, getMixData P look a = .ok p ∧ p.address = mailbox ∧ p.system = t.system ∧ p.expire = t.expire ∧
          p.singleUse = t.singleUse ∧ p.minDelay = t.minDelay ∧ p.maxDelay = t.maxDelay ∧
          ∀ eph', getPrivate P t (getHeader P eph' p).1 mailbox = .ok (fix32 nym, (getHeader P eph' p).2) := by
  obtain ⟨m, h1, a, h2, h3, h4, h5⟩ := address_uses P hP clock now t ht mailbox nym r eph nonce b hl h hn
  refine ⟨m, h1, a, h2, h3, fun look k hk hlook => ⟨_, h5 look k hk hlook, rfl, rfl, rfl, rfl, rfl, rfl, fun eph' => ?_⟩⟩
  exact (getPrivate_getHeader P hP t mailbox (fix32 nym) nonce eph' hnonce (Nat.le_of_eq (fix32_length nym))).2

/-- C27 holds for a nym of 32 bytes: it is returned as it is. A shorter nym comes back
with zero bytes appended, a longer one cut. -/
theorem C27_nym_as_returned (nym : Bytes) : (fix32 nym = nym ↔ nym.length = 32) := by
  constructor
  · intro h; rw [← h]; exact fix32_length nym
  · exact fix32_of_length

/-- A nym encrypted on its own comes back up to 32 bytes; of 33 bytes nothing is left. -/
theorem C27_nym_encryption (P : Prims) (hP : P.Good) (key nym : Bytes) :
    (nym.length ≤ 32 → decryptNym P key (encryptNym P key nym) = .ok nym) ∧
    (33 ≤ nym.length → decryptNym P key (encryptNym P key nym) = .ok []) := by
  refine ⟨decryptNym_encryptNym P hP key nym, fun h => ?_⟩
  unfold decryptNym encryptNym
  rw [(Cipher.ctrXor_ctrXor _ hP.block _ _ _ _).1]
  have e : (nym.take 33).length % 33 = 0 := by simp; omega
  simp only [e]
  rfl

/-- C27: headers whose MAC was not made with the owner's secret for this mailbox are
refused. -/
theorem C27_foreign_header (P : Prims) (t : Template) (hd mailbox : Bytes) (x : Bytes × Bytes)
    (h : getPrivate P t hd mailbox = .ok x) :
    ∃ rh, RHdr.parse hd = some rh ∧
      rh.hmacHead = P.hmac (P.hmac t.secret (rh.nonce ++ rh.receiverPub ++ mailbox)) (rh.nonce ++ rh.receiverPub ++ rh.encNym) ∧
      rh.receiverPub = P.pub (fix32 (P.hmac t.secret (rh.nonce ++ x.1))) := by
  unfold getPrivate at h
  obtain ⟨rh, h1, h2⟩ := Res.bind_eq_ok.mp h
  refine ⟨rh, ofOpt_eq_ok.mp h1, ?_⟩
  simp only at h2
  split at h2
  · cases h2
  · rename_i hm
    obtain ⟨nym, h3, h4⟩ := Res.bind_eq_ok.mp h2
    unfold finishPrivate at h4
    split at h4
    · cases h4
    · rename_i hk
      cases h4
      exact ⟨Decidable.not_not.mp hm, (Decidable.not_not.mp hk).symm⟩

/-! ### C26 relayed messages -/

theorem relayLen_be16 (n : Nat) (h : n < 65536) (d : Bytes) : relayLen (be16 (UInt16.ofNat n) ++ d) = n := by
  obtain ⟨e1, e2⟩ := be16_value n h d
  rw [e1]
  exact e2

theorem receiveFromMix_sendRelay (P : Prims) (hP : P.Good) (t : Template) (hsys : t.system = 0)
    (mailbox nym nonce eph msg : Bytes) (hn : nonce.length = 32) (hy : nym.length ≤ 32) :
    ∃ out, sendRelay P eph (mkPriv P t mailbox nym nonce) msg = .ok (out, mailbox ++ domain) ∧
      receiveFromMix P t mailbox out = .ok (msg, nym) := by
  obtain ⟨hl, hg⟩ := getPrivate_getHeader P hP t mailbox nym nonce eph hn hy
  refine ⟨be16 (UInt16.ofNat (getHeader P eph (mkPriv P t mailbox nym nonce)).1.length) ++
    (getHeader P eph (mkPriv P t mailbox nym nonce)).1 ++
    gcmEncrypt P (P.hash (getHeader P eph (mkPriv P t mailbox nym nonce)).1) (getHeader P eph (mkPriv P t mailbox nym nonce)).2 msg, ?_, ?_⟩
  · unfold sendRelay
    simp only
    rw [if_neg (by simp [mkPriv, hsys])]
    rfl
  · generalize hH : getHeader P eph (mkPriv P t mailbox nym nonce) = H at hl hg
    have hr := relayLen_be16 H.1.length hl (H.1 ++ gcmEncrypt P (P.hash H.1) H.2 msg)
    rw [← List.append_assoc] at hr
    have hb : (be16 (UInt16.ofNat H.1.length)).length = 2 := rfl
    unfold receiveFromMix
    rw [if_neg (by simp only [List.length_append, hb]; omega), if_neg (by simp only [hr, List.length_append, hb]; omega), hr]
    have e1 : ((be16 (UInt16.ofNat H.1.length) ++ H.1 ++ gcmEncrypt P (P.hash H.1) H.2 msg).drop 2).take H.1.length = H.1 := by
      rw [List.append_assoc, ← hb, List.drop_left, List.take_left]
    have e2 : (be16 (UInt16.ofNat H.1.length) ++ H.1 ++ gcmEncrypt P (P.hash H.1) H.2 msg).drop (2 + H.1.length) =
        gcmEncrypt P (P.hash H.1) H.2 msg := by
      rw [← List.drop_drop, List.append_assoc, ← hb, List.drop_left, List.drop_left]
    simp only [e1, e2]
    rw [hg, Res.bind_ok]
    simp only [gcmDecrypt, gcmEncrypt]
    rw [hP.gcm_open]
    rfl

/-- A message sent to an address, as received by the mix. -/
theorem relay_received (P : Prims) (hP : P.Good) (a : NAddr) (ha : I64 a.expire) (look : KeyFunc) (k : Bytes)
    (hka : a.mixPubKey = P.pub k) (hk : look (P.pub k) = some k) (p : NPriv) (hp : getMixData P look a = .ok p)
    (c1 c2 : Int) (hc1 : c1 ≤ a.expire) (hc2 : c2 ≤ a.expire) (h : Hdr) (msg revoke e1 n1 : Bytes) (hn1 : n1.length = 32)
    (hpl : (h.forRelay a.asn1 revoke).Plain) (hs : (h.forRelay a.asn1 revoke).Short)
    (hm : 4096 ≤ msg.length ∧ msg.length ≤ 65536) :
    ∃ e, newRelay P c1 h a.asn1 msg revoke e1 n1 = .ok (e, a.mixAddress) ∧
      receive P c2 look e = .ok ⟨h.forRelay a.asn1 revoke, some a, some p,
        { hash := P.hash (msg.take 256), expire := p.expire } ::
          (if p.singleUse then [{ hash := p.receiverPub, expire := p.expire }] else []), msg⟩ := by
  unfold Hdr.Short at hs
  have hal : a.asn1.length < 2 ^ 31 := by
    have := Hdr.address_lt (h.forRelay a.asn1 revoke)
    have e : (h.forRelay a.asn1 revoke).address = a.asn1 := rfl
    rw [e] at this
    omega
  have hpa := NAddr.parse_asn1 a ha hal []
  rw [List.append_nil] at hpa
  have hparse : ∀ c : Int, c ≤ a.expire → parseAddress c a.asn1 = .ok a := by
    intro c hc
    rw [parseAddress, hpa, ofOpt_some, Res.bind_ok, if_neg (by omega)]
  obtain ⟨e, he, hd⟩ := C24_round_trip P hP look k e1 n1 ((h.forRelay a.asn1 revoke).marshal ++ msg) hk hn1
  refine ⟨e, ?_, ?_⟩
  · unfold newRelay
    rw [hparse c1 hc1, Res.bind_ok, hka, fix32_of_length (hP.pub_len _), he, Res.bind_ok]
  · generalize hg : h.forRelay a.asn1 revoke = g at hpl hs hd
    have hty : g.msgType = typeRelay := by rw [← hg]; rfl
    have hseen : g.seen = g := by
      unfold Hdr.seen
      rw [if_neg (by rw [hty]; decide)]
    have hu := C26_header_round_trip g hpl (by omega) msg
    rw [hseen] at hu
    have hl := g.marshal_length
    unfold receive
    rw [hd, Res.bind_ok, recvPlain, hu, Res.bind_ok]
    have e1 : (g.marshal ++ msg).length - g.marshal.length = msg.length := by simp
    have e3 : badSize typeRelay msg.length = false := by
      unfold badSize typeForward typeRelay
      have h1 : (decide (msg.length < 4096)) = false := by simp; omega
      have h2 : (decide (65536 < msg.length)) = false := by simp; omega
      simp [h1, h2]
    have e4 : g.address = a.asn1 := by rw [← hg]; rfl
    simp only [e1, hty, e3]
    rw [if_neg (by simp), if_pos trivial, recvRelay, e4, hparse c2 hc2, Res.bind_ok, hp, Res.bind_ok,
      first256_ok _ _ (by omega) (by simp only [List.length_append]; omega), Res.bind_ok]
    simp

/-- C26, end to end: the owner makes an address, a client sends a message to it, the mix
it names receives the message before the address expires and relays it to the owner's
mailbox, and the owner, with the template and the mailbox, reads exactly the message that
was sent and the nym it was sent to. The headers have to leave room in 16 bits, and the
message has between 4096 and 65536 bytes. -/
theorem C26_relay (P : Prims) (hP : P.Good) (t : Template) (ht : t.Fits) (hsys : t.system = 0)
    (c0 c1 c2 : Int) (mailbox nym : Bytes) (r : Nat) (e0 n0 b : Bytes) (hn0 : n0.length = 32)
    (hb : newAddress P c0 t mailbox nym r e0 n0 = .ok b)
    (h : Hdr) (msg revoke e1 n1 : Bytes) (hn1 : n1.length = 32) (hc1 : c1 ≤ t.expire) (hc2 : c2 ≤ t.expire)
    (hp : (h.forRelay b revoke).Plain) (hs : (h.forRelay b revoke).Short) (hm : 4096 ≤ msg.length ∧ msg.length ≤ 65536) :
    ∃ m ∈ t.mixes, ∀ look k, m.pubkey = P.pub k → look (P.pub k) = some k →
      ∃ e rs, newRelay P c1 h b msg revoke e1 n1 = .ok (e, m.address) ∧
        receive P c2 look e = .ok rs ∧
        rs.hdr = ⟨2, h.minDelay, h.maxDelay, h.token, b, some revoke⟩ ∧ rs.message = msg ∧
        ∀ e2, ∃ out, send P e2 rs = .ok (out, mailbox ++ domain) ∧ receiveFromMix P t mailbox out = .ok (msg, fix32 nym) := by
  obtain ⟨m, pd, h1, h2, h3, hbe⟩ := newAddress_ok P c0 t mailbox nym r e0 n0 b hb
  have hbl : b.length < 2 ^ 31 := by
    have := Hdr.address_lt (h.forRelay b revoke)
    have e : (h.forRelay b revoke).address = b := rfl
    rw [e] at this
    unfold Hdr.Short at hs
    omega
  have hp' := NAddr.parse_asn1 (NAddr.mk m.address t.expire t.singleUse m.tokenKey m.pubkey (P.pub e0) pd) ht.exp (hbe ▸ hbl) []
  rw [List.append_nil] at hp'
  have hq := NAddr.privateData_lt (NAddr.mk m.address t.expire t.singleUse m.tokenKey m.pubkey (P.pub e0) pd)
  have hlen := hP.lion_len _ _ _ h3
  refine ⟨m, h1, fun look k hk hlook => ?_⟩
  have hg : getMixData P look (NAddr.mk m.address t.expire t.singleUse m.tokenKey m.pubkey (P.pub e0) pd) =
      .ok (mkPriv P t mailbox (fix32 nym) n0) := by
    unfold getMixData
    simp only [hk, fix32_of_length (hP.pub_len _), hlook]
    rw [hk, fix32_of_length (hP.pub_len _), hP.dh_comm] at h3
    rw [hP.lion_dec _ _ _ h3, ofOpt_some, Res.bind_ok]
    have := NPriv.parse_asn1 (mkPriv P t mailbox (fix32 nym) n0) ht.sys ht.exp ht.lo ht.hi
      (by rw [← hlen]; rw [← hbe] at hq; simp only at hq; omega) []
    rw [List.append_nil] at this
    rw [this]
    rfl
  subst hbe
  obtain ⟨e, he, hr⟩ := relay_received P hP (NAddr.mk m.address t.expire t.singleUse m.tokenKey m.pubkey (P.pub e0) pd) ht.exp
    look k hk hlook _ hg c1 c2 hc1 hc2 h msg revoke e1 n1 hn1 hp hs hm
  refine ⟨e, _, he, hr, rfl, rfl, fun e2 => ?_⟩
  obtain ⟨out, ho, hf⟩ := receiveFromMix_sendRelay P hP t hsys mailbox (fix32 nym) n0 e2 msg hn0 (Nat.le_of_eq (fix32_length nym))
  refine ⟨out, ?_, hf⟩
  unfold send
  rw [if_pos (by rfl)]
  exact ho

/-! ### C25 panics -/

/-- Decrypted messages that do not make the mix panic: the length prefix leaves room, and
if the header can be parsed, its token and RevokeID are not empty and its type is forward
or relay. -/
structure Tame (d : Bytes) : Prop where
  pre : (d.getD 0 0).toNat * 256 + (d.getD 1 0).toNat ≤ 65277
  hdr : ∀ h, Hdr.parse ((d.take (hdrLen d)).drop 2) = some h →
    h.token ≠ some [] ∧ h.revokeID ≠ some [] ∧ (h.msgType = typeForward ∨ h.msgType = typeRelay)

theorem parseAddress_ne_panic (c : Int) (b : Bytes) : parseAddress c b ≠ .panic := by
  unfold parseAddress
  apply bind_ne_panic (ofOpt_ne_panic _ _)
  intro a _
  split <;> simp

theorem getMixData_ne_panic (P : Prims) (look : KeyFunc) (a : NAddr) : getMixData P look a ≠ .panic := by
  unfold getMixData
  split
  · simp
  · exact bind_ne_panic (ofOpt_ne_panic _ _) fun _ _ => ofOpt_ne_panic _ _

theorem fixNil_tame (h : Hdr) (h1 : h.token ≠ some []) (h2 : h.revokeID ≠ some []) :
    ∃ g, h.fixNil = .ok g ∧ g.msgType = h.msgType := by
  obtain ⟨ty, lo, hi, tok, addr, rev⟩ := h
  unfold Hdr.fixNil
  simp only at h1 h2
  rw [if_neg h1]
  by_cases ht : tok = some [0]
  · simp only [ht, if_true]
    rw [if_neg h2]
    split <;> exact ⟨_, rfl, rfl⟩
  · simp only [ht, if_false]
    rw [if_neg h2]
    split <;> exact ⟨_, rfl, rfl⟩

/-- C25, partial: a mix does not panic on tame messages, whatever the time and its keys.
What is missing are the other messages: there it does, see the theorems below. -/
theorem C25_receive_no_panic_partial (P : Prims) (clock : Int) (look : KeyFunc) (e : Bytes)
    (h : ∀ d, decrypt P look e = .ok d → Tame d) : receive P clock look e ≠ .panic := by
  unfold receive
  apply bind_ne_panic (C24_sound P look e).1
  intro d hd
  obtain ⟨hpre, hh⟩ := h d hd
  have hl : hdrLen d = (d.getD 0 0).toNat * 256 + (d.getD 1 0).toNat + 2 := by
    unfold hdrLen; omega
  unfold recvPlain Hdr.unmarshal
  split
  · simp
  · rename_i hd3
    split
    · simp
    · rename_i hd4
      rw [if_neg (by omega)]
      cases hparse : Hdr.parse ((d.take (hdrLen d)).drop 2) with
      | none => simp [ofOpt]
      | some g =>
        obtain ⟨t1, t2, t3⟩ := hh g hparse
        obtain ⟨g', hg, hty⟩ := fixNil_tame g t1 t2
        simp only [ofOpt_some, Res.bind_ok, hg, hty]
        split
        · simp
        · rename_i hbad
          have hsz : 256 ≤ d.length - hdrLen d := by
            rcases t3 with t3 | t3 <;> rw [t3] at hbad <;> simp [badSize, typeForward, typeRelay] at hbad <;> omega
          have hf := first256_ok d (hdrLen d) (by omega) (by omega)
          split
          · unfold recvRelay
            apply bind_ne_panic (parseAddress_ne_panic _ _)
            intro a _
            apply bind_ne_panic (getMixData_ne_panic _ _ _)
            intro p _
            rw [hf]; simp
          · unfold recvOther
            rw [hf]; simp

/-- Anyone who knows a public key of a mix can send it any plaintext. -/
theorem C25_any_plaintext (P : Prims) (hP : P.Good) (clock : Int) (look : KeyFunc) (k : Bytes) (hk : look (P.pub k) = some k)
    (d : Bytes) : ∃ e, encrypt P (some (P.pub k)) [] (List.replicate 32 0) d = .ok e ∧
      receive P clock look e = recvPlain P clock look d := by
  obtain ⟨e, h1, h2⟩ := C24_round_trip P hP look k [] (List.replicate 32 0) d hk (by simp)
  refine ⟨e, h1, ?_⟩
  unfold receive
  rw [h2, Res.bind_ok]

/-- C25 is violated: three bytes crash a mix. The length prefix plus two overflows 16 bits. -/
theorem C25_length_crashes_mix (P : Prims) (hP : P.Good) (clock : Int) (look : KeyFunc) (k : Bytes) (hk : look (P.pub k) = some k) :
    ∃ e, encrypt P (some (P.pub k)) [] (List.replicate 32 0) [255, 255, 0] = .ok e ∧ receive P clock look e = .panic := by
  obtain ⟨e, h1, h2⟩ := C25_any_plaintext P hP clock look k hk [255, 255, 0]
  refine ⟨e, h1, h2.trans ?_⟩
  have : Hdr.unmarshal [255, 255, 0] = .panic := by simp [Hdr.unmarshal, hdrLen]
  rw [recvPlain, this]
  rfl

/-- C25 is violated: a header with an empty, not absent, token crashes a mix. The client
library itself writes such a header when its Token is an empty slice. -/
theorem C25_empty_token_crashes_mix (P : Prims) (clock : Int) (look : KeyFunc) (h : Hdr) (hty : I32 h.msgType)
    (hlo : I32 h.minDelay) (hhi : I32 h.maxDelay) (ht : h.token = some []) (hl : h.asn1.length ≤ 65533) (msg : Bytes) :
    recvPlain P clock look (h.marshal ++ msg) = .panic := by
  have hlen := h.marshal_length
  have hh : hdrLen (h.marshal ++ msg) = h.asn1.length + 2 := by
    rw [Hdr.marshal, List.append_assoc, hdrLen_be16 _ (by omega), Nat.mod_eq_of_lt (by omega)]
  have hx := h.address_lt
  have hu : Hdr.unmarshal (h.marshal ++ msg) = .panic := by
    unfold Hdr.unmarshal
    rw [if_neg (by simp only [List.length_append]; omega), if_neg (by simp only [List.length_append]; omega),
      if_neg (by omega), hh]
    have e : ((h.marshal ++ msg).take (h.asn1.length + 2)).drop 2 = h.asn1 ++ [] := by
      rw [← hlen, List.take_left]
      simp [Hdr.marshal, be16]
    rw [e, Hdr.parse_asn1 h hty hlo hhi (by omega)]
    rw [ofOpt_some, Res.bind_ok]
    simp [Hdr.fixNil, Hdr.wireToken, ht]
  rw [recvPlain, hu]
  rfl

/-- C25 is violated: a message of another type than forward and relay that is shorter than
256 bytes crashes a mix. -/
theorem C25_other_type_crashes_mix (P : Prims) (clock : Int) (look : KeyFunc) (h : Hdr) (hp : h.Plain)
    (hty : h.msgType ≠ typeForward ∧ h.msgType ≠ typeRelay) (hs : h.Short) (msg : Bytes) (hm : msg.length < 256) :
    recvPlain P clock look (h.marshal ++ msg) = .panic := by
  unfold Hdr.Short at hs
  have hl := h.marshal_length
  rw [recvPlain, C26_header_round_trip h hp (by omega) msg, Res.bind_ok]
  have e : h.seen.msgType = h.msgType := rfl
  simp only [e]
  rw [if_neg (by simp [badSize, hty]), if_neg hty.2, recvOther, first256, Nat.mod_eq_of_lt (by omega), if_neg (by omega),
    if_pos (by simp only [List.length_append]; omega)]
  rfl

/-- C25 is violated: a forward header of 65278 bytes and more crashes a mix although
length and header are correct. -/
theorem C25_long_header_crashes_mix (P : Prims) (clock : Int) (look : KeyFunc) (h : Hdr) (hp : h.Plain)
    (hty : h.msgType = typeForward) (hl : 65278 ≤ h.asn1.length ∧ h.asn1.length ≤ 65533) (msg : Bytes)
    (hm : 1024 ≤ msg.length ∧ msg.length ≤ 65536) :
    recvPlain P clock look (h.marshal ++ msg) = .panic := by
  have hlen := h.marshal_length
  rw [recvPlain, C26_header_round_trip h hp (by omega) msg, Res.bind_ok]
  have e : h.seen.msgType = typeForward := hty
  have e1 : (h.marshal ++ msg).length - h.marshal.length = msg.length := by simp
  have e3 : badSize typeForward msg.length = false := by
    unfold badSize typeForward typeRelay
    have h1 : (decide (msg.length < 1024)) = false := by simp; omega
    have h2 : (decide (65536 < msg.length)) = false := by simp; omega
    simp [h1, h2]
  simp only [e, e1, e3]
  rw [if_neg (by simp), if_neg (by decide), recvOther, first256, if_pos (by omega)]
  rfl

/-- C25: sending on what was received never panics. -/
theorem C25_send_no_panic (P : Prims) (clock : Int) (look : KeyFunc) (e eph : Bytes) (r : Received)
    (h : receive P clock look e = .ok r) : send P eph r ≠ .panic := by
  unfold receive at h
  obtain ⟨d, -, h⟩ := Res.bind_eq_ok.mp h
  unfold recvPlain at h
  obtain ⟨⟨g, n⟩, -, h⟩ := Res.bind_eq_ok.mp h
  simp only at h
  split at h
  · cases h
  · split at h
    · rename_i hty
      unfold recvRelay at h
      obtain ⟨a, -, h⟩ := Res.bind_eq_ok.mp h
      obtain ⟨p, -, h⟩ := Res.bind_eq_ok.mp h
      obtain ⟨f, -, h⟩ := Res.bind_eq_ok.mp h
      cases h
      unfold send
      simp only [hty, if_true]
      unfold sendRelay
      simp only
      split <;> simp
    · rename_i hty
      unfold recvOther at h
      obtain ⟨f, -, h⟩ := Res.bind_eq_ok.mp h
      cases h
      unfold send
      simp only [hty, if_false]
      simp

/-- C25, at the owner: no message from the mix, or anyone else, makes the owner's client
panic unless it carries a MAC under the owner's secret over a nym block that the owner
never wrote. `hmac` says that the MAC protects: a header whose MAC is right has a nym
block that `NewAddress` made. -/
theorem C25_owner_no_panic (P : Prims) (hP : P.Good) (t : Template) (mailbox msg : Bytes)
    (hmac : ∀ rh, RHdr.parse ((msg.drop 2).take (relayLen msg)) = some rh →
      rh.hmacHead = headMac P (symKey P t rh.nonce rh.receiverPub mailbox) rh.nonce rh.receiverPub rh.encNym →
      ∃ nym, nym.length ≤ 32 ∧ rh.encNym = encryptNym P (symKey P t rh.nonce rh.receiverPub mailbox) nym) :
    receiveFromMix P t mailbox msg ≠ .panic := by
  unfold receiveFromMix
  split
  · simp
  · split
    · simp
    · simp only
      apply bind_ne_panic
      · unfold getPrivate
        apply bind_ne_panic (ofOpt_ne_panic _ _)
        intro rh hr
        simp only
        split
        · simp
        · rename_i hm
          obtain ⟨nym, hy, he⟩ := hmac rh (ofOpt_eq_ok.mp hr) (Decidable.not_not.mp hm)
          rw [he, decryptNym_encryptNym P hP _ _ hy, Res.bind_ok, finishPrivate]
          split <;> simp
      · intro x _
        exact bind_ne_panic (ofOpt_ne_panic _ _) fun _ _ => by simp

/-! ### C77 replays -/

/-- The shape of what `receive` returns. -/
theorem receive_ok (P : Prims) (clock : Int) (look : KeyFunc) (e : Bytes) (r : Received) (h : receive P clock look e = .ok r) :
    ∃ d n, decrypt P look e = .ok d ∧ Hdr.unmarshal d = .ok (r.hdr, n) ∧ r.message = d.drop n ∧ n + 256 ≤ d.length ∧
      ∃ exp l, r.unique = { hash := P.hash (r.message.take 256), expire := exp } :: l ∧
        (r.hdr.msgType ≠ typeRelay → exp = clock + 172800 ∧ l = []) ∧
        (r.hdr.msgType = typeRelay → ∃ a p, parseAddress clock r.hdr.address = .ok a ∧ getMixData P look a = .ok p ∧
          r.priv = some p ∧ exp = p.expire ∧
          l = if p.singleUse then [{ hash := p.receiverPub, expire := p.expire }] else []) := by
  unfold receive at h
  obtain ⟨d, hd, h⟩ := Res.bind_eq_ok.mp h
  unfold recvPlain at h
  obtain ⟨⟨g, n⟩, hu, h⟩ := Res.bind_eq_ok.mp h
  have hf : ∀ f, first256 d n = .ok f → f = (d.drop n).take 256 ∧ n + 256 ≤ d.length := by
    intro f hf
    unfold first256 at hf
    have hn : n < 65536 := by
      unfold Hdr.unmarshal at hu
      repeat' (split at hu <;> try contradiction)
      obtain ⟨_, -, hu⟩ := Res.bind_eq_ok.mp hu
      obtain ⟨_, -, hu⟩ := Res.bind_eq_ok.mp hu
      cases hu
      unfold hdrLen
      omega
    split at hf
    · cases hf
    · rename_i h1
      split at hf
      · cases hf
      · cases hf
        exact ⟨rfl, by omega⟩
  simp only at h
  split at h
  · cases h
  · split at h
    · rename_i hty
      unfold recvRelay at h
      obtain ⟨a, ha, h⟩ := Res.bind_eq_ok.mp h
      obtain ⟨p, hp, h⟩ := Res.bind_eq_ok.mp h
      obtain ⟨f, h1, h⟩ := Res.bind_eq_ok.mp h
      cases h
      obtain ⟨rfl, h2⟩ := hf f h1
      exact ⟨d, n, hd, hu, rfl, h2, p.expire, _, rfl, fun hc => absurd hty hc, fun _ => ⟨a, p, ha, hp, rfl, rfl, rfl⟩⟩
    · rename_i hty
      unfold recvOther at h
      obtain ⟨f, h1, h⟩ := Res.bind_eq_ok.mp h
      cases h
      obtain ⟨rfl, h2⟩ := hf f h1
      exact ⟨d, n, hd, hu, rfl, h2, _, [], rfl, fun _ => ⟨rfl, rfl⟩, fun hc => absurd hc hty⟩

/-- C77: a message received a second time, however encrypted, has the same first
uniqueness hash: it only depends on the first 256 bytes of the message. -/
theorem C77_replay_detected (P : Prims) (c1 c2 : Int) (look : KeyFunc) (e1 e2 : Bytes) (r1 r2 : Received)
    (h1 : receive P c1 look e1 = .ok r1) (h2 : receive P c2 look e2 = .ok r2)
    (hm : r1.message.take 256 = r2.message.take 256) :
    ∃ u1 ∈ r1.unique, ∃ u2 ∈ r2.unique, u1.hash = u2.hash := by
  obtain ⟨_, _, -, -, -, -, x1, l1, e1, -⟩ := receive_ok P c1 look _ _ h1
  obtain ⟨_, _, -, -, -, -, x2, l2, e2, -⟩ := receive_ok P c2 look _ _ h2
  refine ⟨_, by rw [e1]; exact List.mem_cons_self .., _, by rw [e2]; exact List.mem_cons_self .., ?_⟩
  simp only
  rw [hm]

/-- C77: any two messages relayed to the same single-use address share a uniqueness entry
(hash and expiry), so that the mix can refuse the second one. -/
theorem C77_single_use (P : Prims) (c1 c2 : Int) (look : KeyFunc) (e1 e2 : Bytes) (r1 r2 : Received)
    (h1 : receive P c1 look e1 = .ok r1) (h2 : receive P c2 look e2 = .ok r2)
    (ht1 : r1.hdr.msgType = typeRelay) (ht2 : r2.hdr.msgType = typeRelay) (hsame : r1.hdr.address = r2.hdr.address)
    (p : NPriv) (hp : r1.priv = some p) (hsu : p.singleUse = true) :
    ∃ u, u ∈ r1.unique ∧ u ∈ r2.unique ∧ u.hash = p.receiverPub ∧ u.expire = p.expire := by
  obtain ⟨_, _, -, -, -, -, x1, l1, e1, -, k1⟩ := receive_ok P c1 look _ _ h1
  obtain ⟨_, _, -, -, -, -, x2, l2, e2, -, k2⟩ := receive_ok P c2 look _ _ h2
  obtain ⟨a1, p1, ha1, hp1, hr1, -, hl1⟩ := k1 ht1
  obtain ⟨a2, p2, ha2, hp2, hr2, -, hl2⟩ := k2 ht2
  have hpa : ∀ c b a, parseAddress c b = .ok a → NAddr.parse b = some a := by
    intro c b a h
    unfold parseAddress at h
    obtain ⟨x, hx, h⟩ := Res.bind_eq_ok.mp h
    split at h
    · cases h
    · cases h; exact ofOpt_eq_ok.mp hx
  have q1 := hpa _ _ _ ha1
  have q2 := hpa _ _ _ ha2
  rw [hsame, q2] at q1
  cases q1
  rw [hp1] at hp2
  cases hp2
  rw [hr1] at hp
  cases hp
  refine ⟨⟨p.receiverPub, p.expire⟩, ?_, ?_, rfl, rfl⟩
  · rw [e1, hl1, hsu]; simp
  · rw [e2, hl2, hsu]; simp

/-- C77 is violated after the address expired: the expiry time that the mix checks is the
public one, which the sender may change. With another public expiry time every address
keeps working as long as the mix has its key, while all uniqueness entries carry the
original, past expiry time, so that nothing stops replays to a single-use address. -/
theorem C77_expired_address_works (P : Prims) (hP : P.Good) (t : Template) (ht : t.Fits) (c0 now : Int) (hnow : I64 now)
    (hlate : t.expire < now) (mailbox nym : Bytes) (r : Nat) (e0 n0 b : Bytes)
    (hb : newAddress P c0 t mailbox nym r e0 n0 = .ok b) (a : NAddr) (ha : NAddr.parse b = some a) (hbl : b.length < 2 ^ 31)
    (look : KeyFunc) (k : Bytes) (hk : a.mixPubKey = P.pub k) (hlook : look (P.pub k) = some k)
    (h : Hdr) (msg revoke e1 n1 : Bytes) (hn1 : n1.length = 32)
    (hp : (h.forRelay { a with expire := now }.asn1 revoke).Plain) (hs : (h.forRelay { a with expire := now }.asn1 revoke).Short)
    (hm : 4096 ≤ msg.length ∧ msg.length ≤ 65536) :
    ∃ e rs, newRelay P now h { a with expire := now }.asn1 msg revoke e1 n1 = .ok (e, a.mixAddress) ∧
      receive P now look e = .ok rs ∧ rs.message = msg ∧ (∀ u ∈ rs.unique, u.expire < now) ∧
      ∃ p, rs.priv = some p ∧ p.address = mailbox ∧ p.singleUse = t.singleUse := by
  obtain ⟨m, pd, h1, h2, h3, hbe⟩ := newAddress_ok P c0 t mailbox nym r e0 n0 b hb
  have hp' := NAddr.parse_asn1 (NAddr.mk m.address t.expire t.singleUse m.tokenKey m.pubkey (P.pub e0) pd) ht.exp (hbe ▸ hbl) []
  rw [List.append_nil, ← hbe, ha] at hp'
  have hp' := Option.some.inj hp'
  have hq := NAddr.privateData_lt (NAddr.mk m.address t.expire t.singleUse m.tokenKey m.pubkey (P.pub e0) pd)
  have hlen := hP.lion_len _ _ _ h3
  have hk' : m.pubkey = P.pub k := by rw [← hk, hp']
  have hg : getMixData P look { a with expire := now } = .ok (mkPriv P t mailbox (fix32 nym) n0) := by
    rw [hp']
    unfold getMixData
    simp only [hk', fix32_of_length (hP.pub_len _), hlook]
    rw [hk', fix32_of_length (hP.pub_len _), hP.dh_comm] at h3
    rw [hP.lion_dec _ _ _ h3, ofOpt_some, Res.bind_ok]
    have := NPriv.parse_asn1 (mkPriv P t mailbox (fix32 nym) n0) ht.sys ht.exp ht.lo ht.hi
      (by rw [← hlen]; rw [← hbe] at hq; simp only at hq; omega) []
    rw [List.append_nil] at this
    rw [this]
    rfl
  obtain ⟨e, he, hr⟩ := relay_received P hP { a with expire := now } hnow look k hk hlook _ hg now now (Int.le_refl _) (Int.le_refl _)
    h msg revoke e1 n1 hn1 hp hs hm
  refine ⟨e, _, he, hr, rfl, ?_, _, rfl, rfl, rfl⟩
  intro u hu
  have hex : (mkPriv P t mailbox (fix32 nym) n0).expire = t.expire := rfl
  simp only [List.mem_cons] at hu
  rcases hu with rfl | hu
  · exact hlate
  · split at hu
    · simp only [List.mem_cons, List.not_mem_nil, or_false] at hu
      subst hu
      exact hlate
    · cases hu

/-! ### C26: what every accepted message satisfies -/

/-- C26: whatever the bytes, a header read as a forward header has no RevokeID. -/
theorem C26_forward_no_revoke (d : Bytes) (h : Hdr) (n : Nat) (ho : Hdr.unmarshal d = .ok (h, n)) (ht : h.msgType = 1) :
    h.revokeID = none := by
  unfold Hdr.unmarshal at ho
  split at ho
  · cases ho
  split at ho
  · cases ho
  split at ho
  · cases ho
  obtain ⟨h0, -, ho⟩ := Res.bind_eq_ok.mp ho
  obtain ⟨h1, h2, ho⟩ := Res.bind_eq_ok.mp ho
  cases ho
  unfold Hdr.fixNil at h2
  split at h2
  · cases h2
  simp only at h2
  generalize (if h0.token = some [0] then { h0 with token := none } else h0) = g at h2
  by_cases hr : g.revokeID = some []
  · rw [if_pos hr] at h2; cases h2
  · rw [if_neg hr] at h2
    cases h2
    by_cases hc : g.revokeID = some [0] ∨ g.msgType = typeForward
    · rw [if_pos hc]
    · rw [if_neg hc] at ht
      exact absurd (Or.inr ht) hc

/-- C26: whatever the bytes, an accepted message to be relayed has between 4096 and 65536
bytes, and one to be forwarded between 1024 and 65536. -/
theorem C26_sizes (P : Prims) (clock : Int) (look : KeyFunc) (msg : Bytes) (r : Received) (h : receive P clock look msg = .ok r) :
    (r.hdr.msgType = 2 → 4096 ≤ r.message.length ∧ r.message.length ≤ 65536) ∧
    (r.hdr.msgType = 1 → 1024 ≤ r.message.length ∧ r.message.length ≤ 65536) := by
  unfold receive at h
  obtain ⟨d, -, h⟩ := Res.bind_eq_ok.mp h
  unfold recvPlain at h
  obtain ⟨⟨g, n⟩, -, h⟩ := Res.bind_eq_ok.mp h
  simp only at h
  split at h
  · cases h
  rename_i hb
  have key : r.hdr = g ∧ r.message = d.drop n := by
    split at h
    · unfold recvRelay at h
      obtain ⟨a, -, h⟩ := Res.bind_eq_ok.mp h
      obtain ⟨p, -, h⟩ := Res.bind_eq_ok.mp h
      obtain ⟨f, -, h⟩ := Res.bind_eq_ok.mp h
      cases h
      exact ⟨rfl, rfl⟩
    · unfold recvOther at h
      obtain ⟨f, -, h⟩ := Res.bind_eq_ok.mp h
      cases h
      exact ⟨rfl, rfl⟩
  rw [key.1, key.2, List.length_drop]
  refine ⟨fun ht => ?_, fun ht => ?_⟩
  · rw [ht] at hb
    simp [badSize, typeRelay, typeForward] at hb
    omega
  · rw [ht] at hb
    simp [badSize, typeRelay, typeForward] at hb
    omega

end Verif.Mix
