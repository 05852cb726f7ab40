/-
The mailbox of an account and the nym addresses that lead to it (util/nymaddr.go) and the opening of
an envelope fetched from the mailbox (ctrlengine/msg.go:727-760), composed with the mix.

SHA-256 is `P.hash`; the answer of the mix to `GetMixKeys` is an argument, none for an error.
-/
import Verif.Mix.Toy
import Verif.Util.Base64
import Verif.Util.Props
import Verif.Ctrl.InQueue

namespace Verif.Ctrl.Mailbox
open Verif.Mix

/-- `util.MailboxAddress` (util/nymaddr.go:25-29): the slice expression panics if the server name is
shorter than `MuteSystemDomain`. -/
def mailbox (pub server : Bytes) : Res Err Bytes :=
  if server.length < domain.length then .panic
  else .ok (Util.hex pub ++ [64] ++ server.take (server.length - domain.length))

/-- The arguments of `util.NewNymAddress` (util/nymaddr.go:32-43) that concern the address itself. -/
structure Params where
  secret : Bytes
  expire : Int
  singleUse : Bool
  minDelay : Int
  maxDelay : Int

/-- The template (util/nymaddr.go:53-61). -/
def Params.template (p : Params) (mixes : List MAddr) : Template :=
  ⟨p.secret, 0, mixes, p.expire, p.singleUse, p.minDelay, p.maxDelay⟩

/-- `util.NewNymAddress` (util/nymaddr.go:31-72): mix address and nym address in base64. `mapped` is
the check of `identity.IsMapped`, `configured` that `MixAddress` is set; all errors of these checks
and of `GetMixKeys` are `noMix`. `r`, `eph` and `nonce` are the random choices of `NewAddress`. -/
def newNymAddress (P : Prims) (clock : Int) (mapped configured : Bool) (keys : Option (List MAddr)) (p : Params)
    (id pub server : Bytes) (r : Nat) (eph nonce : Bytes) : Res Err (Bytes × Bytes) :=
  if mapped = false then .err .noMix
  else if configured = false then .err .noMix
  else match keys with
    | none => .err .noMix
    | some mixes =>
      mailbox pub server >>= fun box =>
      newAddress P clock (p.template mixes) box (P.hash id) r eph nonce >>= fun b =>
      parseAddress clock b >>= fun a =>
      .ok (a.mixAddress, Base64.encode b)

/-- The template of the receiver: only the secret is set (ctrlengine/msg.go:738-740). -/
def receiver (secret : Bytes) : Template := ⟨secret, 0, [], 0, false, 0, 0⟩

/-- The opening of an envelope (ctrlengine/msg.go:728-760) for the identity `id` with the account
key `pub`, `server` and `secret`. -/
def openEnvelope (P : Prims) (id pub server secret msg : Bytes) : Res Err EnvReply :=
  match Base64.decode msg with
  | none => .ok .failed
  | some m =>
    mailbox pub server >>= fun box =>
    match receiveFromMix P (receiver secret) box m with
    | .panic => .panic
    | .err _ => .ok .failed
    | .ok (dec, nym) => if nym ≠ P.hash id then .ok .foreign else .ok (.opened (Base64.encode dec))

/-! ### specification -/

/-- The address under which the mix delivers mail for an account: the key in hexadecimal at its
server. -/
def accountAddress (pub server : Bytes) : Bytes := Util.hex pub ++ [64] ++ server

/-! ### lemmas -/

theorem mailbox_of_suffix (pub s : Bytes) : mailbox pub (s ++ domain) = .ok (Util.hex pub ++ [64] ++ s) := by
  unfold mailbox
  rw [if_neg (by rw [List.length_append]; omega), List.length_append, Nat.add_sub_cancel, List.take_left]

theorem receiver_same (P : Prims) (p : Params) (mixes : List MAddr) (box msg : Bytes) :
    receiveFromMix P (receiver p.secret) box msg = receiveFromMix P (p.template mixes) box msg := rfl

theorem newNymAddress_ok (P : Prims) (clock : Int) (mapped configured : Bool) (keys : Option (List MAddr)) (p : Params)
    (id pub server : Bytes) (r : Nat) (eph nonce ma na : Bytes)
    (h : newNymAddress P clock mapped configured keys p id pub server r eph nonce = .ok (ma, na)) :
    mapped = true ∧ configured = true ∧ ∃ mixes box b a, keys = some mixes ∧ mailbox pub server = .ok box ∧
      newAddress P clock (p.template mixes) box (P.hash id) r eph nonce = .ok b ∧ parseAddress clock b = .ok a ∧
      ma = a.mixAddress ∧ na = Base64.encode b := by
  unfold newNymAddress at h
  split at h
  · cases h
  · rename_i h1
    split at h
    · cases h
    · rename_i h2
      split at h
      · cases h
      · rename_i mixes
        obtain ⟨box, hb, h⟩ := Res.bind_eq_ok.mp h
        obtain ⟨b, hn, h⟩ := Res.bind_eq_ok.mp h
        obtain ⟨a, ha, h⟩ := Res.bind_eq_ok.mp h
        injection h with h
        injection h with e1 e2
        exact ⟨by simpa using h1, by simpa using h2, mixes, box, b, a, rfl, hb, hn, ha, e1.symm, e2.symm⟩

/-- The address read does not depend on the time. -/
theorem parseAddress_mem {c : Int} {b : Bytes} {a : NAddr} (h : parseAddress c b = .ok a) :
    a = (NAddr.parse b).getD ⟨[], 0, false, [], [], [], []⟩ := by
  unfold parseAddress at h
  obtain ⟨a', h1, h⟩ := Res.bind_eq_ok.mp h
  rw [ofOpt_eq_ok.mp h1]
  split at h
  · cases h
  · exact (Res.ok.inj h).symm

/-- The mailbox of a server name that is long enough. -/
def shortServer (server : Bytes) : Bytes := server.take (server.length - domain.length)

theorem mailbox_ok {pub server box : Bytes} (h : mailbox pub server = .ok box) :
    domain.length ≤ server.length ∧ box = Util.hex pub ++ [64] ++ shortServer server := by
  unfold mailbox at h
  split at h
  · cases h
  · exact ⟨by omega, (Res.ok.inj h).symm⟩

/-- An address made for `id'`, a message sent to it and an envelope opened for `id`. -/
theorem delivered (P : Prims) (hP : P.Good) (mapped configured : Bool) (keys : Option (List MAddr)) (p : Params)
    (hp : (p.template []).Fits) (id id' pub server : Bytes) (c0 c1 c2 : Int) (r : Nat) (e0 n0 ma na b : Bytes) (hn0 : n0.length = 32)
    (hnew : newNymAddress P c0 mapped configured keys p id' pub server r e0 n0 = .ok (ma, na))
    (hb : Base64.decode na = some b)
    (h : Hdr) (msg revoke e1 n1 : Bytes) (hn1 : n1.length = 32) (hc1 : c1 ≤ p.expire) (hc2 : c2 ≤ p.expire)
    (hpl : (h.forRelay b revoke).Plain) (hs : (h.forRelay b revoke).Short) (hm : 4096 ≤ msg.length ∧ msg.length ≤ 65536) :
    ∃ mixes, keys = some mixes ∧ ∃ m ∈ mixes, ∀ look k, m.pubkey = P.pub k → look (P.pub k) = some k →
      ∃ e rs, newRelay P c1 h b msg revoke e1 n1 = .ok (e, ma) ∧ receive P c2 look e = .ok rs ∧
        ∀ e2, ∃ out, send P e2 rs = .ok (out, Util.hex pub ++ [64] ++ shortServer server ++ domain) ∧
          openEnvelope P id pub server p.secret (Base64.encode out) =
            .ok (if P.hash id' = P.hash id then .opened (Base64.encode msg) else .foreign) := by
  obtain ⟨_, _, mixes, box, b', a, hk, hbox, hnew', ha, hma, hna⟩ := newNymAddress_ok P c0 mapped configured keys p id' pub _ r e0 n0 ma na hnew
  rw [hna, Base64.decode_encode] at hb
  injection hb with hb
  subst hb
  have ht : (p.template mixes).Fits := ⟨hp.sys, hp.exp, hp.lo, hp.hi⟩
  obtain ⟨m, hmem, hrel⟩ := C26_relay P hP (p.template mixes) ht rfl c0 c1 c2 box (P.hash id') r e0 n0 b' hn0 hnew' h msg revoke e1 n1 hn1 hc1 hc2 hpl hs hm
  refine ⟨mixes, hk, m, hmem, fun look k hkey hlook => ?_⟩
  obtain ⟨e, rs, g1, g2, _, _, g5⟩ := hrel look k hkey hlook
  have hadr : m.address = ma := by
    unfold newRelay at g1
    obtain ⟨a1, ha1, g1⟩ := Res.bind_eq_ok.mp g1
    obtain ⟨_, _, g1⟩ := Res.bind_eq_ok.mp g1
    injection g1 with g1
    injection g1 with _ g1
    rw [hma, ← g1, parseAddress_mem ha, parseAddress_mem ha1]
  rw [hadr] at g1
  refine ⟨e, rs, g1, g2, fun e2 => ?_⟩
  obtain ⟨out, g6, g7⟩ := g5 e2
  refine ⟨out, ?_, ?_⟩
  · rw [g6, (mailbox_ok hbox).2]
  · unfold openEnvelope
    rw [Base64.decode_encode]
    simp only []
    rw [hbox, Res.bind_ok, receiver_same P p mixes, g7]
    simp only [fix32_of_length (hP.hash_len _)]
    by_cases hh : P.hash id' = P.hash id
    · simp [hh]
    · simp [hh]

theorem shortServer_suffix (s : Bytes) : shortServer (s ++ domain) = s := by
  unfold shortServer
  rw [List.length_append, Nat.add_sub_cancel, List.take_left]

/-! ### C112: nym addresses lead to the mailbox of the account, and mail from there can be opened -/

/-- C112 (partial: server names that end in "mute.one"): if a nym address is made for an account,
then for every message, every correspondent and every mix that holds the key of the chosen mix, the
message is delivered to the account's address, and the owner who opens the fetched envelope gets
exactly the message. -/
theorem C112_arrives_partial (P : Prims) (hP : P.Good) (mapped configured : Bool) (keys : Option (List MAddr)) (p : Params)
    (hp : (p.template []).Fits) (id pub s : Bytes) (c0 c1 c2 : Int) (r : Nat) (e0 n0 ma na b : Bytes) (hn0 : n0.length = 32)
    (hnew : newNymAddress P c0 mapped configured keys p id pub (s ++ domain) r e0 n0 = .ok (ma, na))
    (hb : Base64.decode na = some b)
    (h : Hdr) (msg revoke e1 n1 : Bytes) (hn1 : n1.length = 32) (hc1 : c1 ≤ p.expire) (hc2 : c2 ≤ p.expire)
    (hpl : (h.forRelay b revoke).Plain) (hs : (h.forRelay b revoke).Short) (hm : 4096 ≤ msg.length ∧ msg.length ≤ 65536) :
    ∃ mixes, keys = some mixes ∧ ∃ m ∈ mixes, ∀ look k, m.pubkey = P.pub k → look (P.pub k) = some k →
      ∃ e rs, newRelay P c1 h b msg revoke e1 n1 = .ok (e, ma) ∧ receive P c2 look e = .ok rs ∧
        ∀ e2, ∃ out, send P e2 rs = .ok (out, accountAddress pub (s ++ domain)) ∧
          openEnvelope P id pub (s ++ domain) p.secret (Base64.encode out) = .ok (.opened (Base64.encode msg)) := by
  obtain ⟨mixes, hk, m, hmem, hrel⟩ := delivered P hP mapped configured keys p hp id id pub _ c0 c1 c2 r e0 n0 ma na b hn0 hnew hb h msg revoke e1 n1
    hn1 hc1 hc2 hpl hs hm
  refine ⟨mixes, hk, m, hmem, fun look k hkey hlook => ?_⟩
  obtain ⟨e, rs, g1, g2, g3⟩ := hrel look k hkey hlook
  refine ⟨e, rs, g1, g2, fun e2 => ?_⟩
  obtain ⟨out, g4, g5⟩ := g3 e2
  rw [shortServer_suffix, List.append_assoc _ s domain] at g4
  rw [if_pos rfl] at g5
  exact ⟨out, g4, g5⟩

/-- C112: mail that was sent to an address of another identity (with another hash) is never taken
for one's own, even if it comes from the same mailbox: it is discarded. -/
theorem C112_other_identity (P : Prims) (hP : P.Good) (mapped configured : Bool) (keys : Option (List MAddr)) (p : Params)
    (hp : (p.template []).Fits) (id id' pub server : Bytes) (hid : P.hash id' ≠ P.hash id) (c0 c1 c2 : Int) (r : Nat) (e0 n0 ma na b : Bytes)
    (hn0 : n0.length = 32)
    (hnew : newNymAddress P c0 mapped configured keys p id' pub server r e0 n0 = .ok (ma, na))
    (hb : Base64.decode na = some b)
    (h : Hdr) (msg revoke e1 n1 : Bytes) (hn1 : n1.length = 32) (hc1 : c1 ≤ p.expire) (hc2 : c2 ≤ p.expire)
    (hpl : (h.forRelay b revoke).Plain) (hs : (h.forRelay b revoke).Short) (hm : 4096 ≤ msg.length ∧ msg.length ≤ 65536) :
    ∃ mixes, keys = some mixes ∧ ∃ m ∈ mixes, ∀ look k, m.pubkey = P.pub k → look (P.pub k) = some k →
      ∃ e rs, newRelay P c1 h b msg revoke e1 n1 = .ok (e, ma) ∧ receive P c2 look e = .ok rs ∧
        ∀ e2, ∃ out to, send P e2 rs = .ok (out, to) ∧ openEnvelope P id pub server p.secret (Base64.encode out) = .ok .foreign := by
  obtain ⟨mixes, hk, m, hmem, hrel⟩ := delivered P hP mapped configured keys p hp id id' pub _ c0 c1 c2 r e0 n0 ma na b hn0 hnew hb h msg revoke e1 n1
    hn1 hc1 hc2 hpl hs hm
  refine ⟨mixes, hk, m, hmem, fun look k hkey hlook => ?_⟩
  obtain ⟨e, rs, g1, g2, g3⟩ := hrel look k hkey hlook
  refine ⟨e, rs, g1, g2, fun e2 => ?_⟩
  obtain ⟨out, g4, g5⟩ := g3 e2
  rw [if_neg hid] at g5
  exact ⟨out, _, g4, g5⟩

/-- C112 is violated for other server names: if the account server assigned a server whose name does
not end in "mute.one", the mail for the address is delivered elsewhere. -/
theorem C112_other_server_violated (P : Prims) (hP : P.Good) (mapped configured : Bool) (keys : Option (List MAddr)) (p : Params)
    (hp : (p.template []).Fits) (id pub server : Bytes) (hsrv : ∀ s, server ≠ s ++ domain) (c0 c1 c2 : Int) (r : Nat) (e0 n0 ma na b : Bytes)
    (hn0 : n0.length = 32)
    (hnew : newNymAddress P c0 mapped configured keys p id pub server r e0 n0 = .ok (ma, na))
    (hb : Base64.decode na = some b)
    (h : Hdr) (msg revoke e1 n1 : Bytes) (hn1 : n1.length = 32) (hc1 : c1 ≤ p.expire) (hc2 : c2 ≤ p.expire)
    (hpl : (h.forRelay b revoke).Plain) (hs : (h.forRelay b revoke).Short) (hm : 4096 ≤ msg.length ∧ msg.length ≤ 65536) :
    ∃ mixes, keys = some mixes ∧ ∃ m ∈ mixes, ∀ look k, m.pubkey = P.pub k → look (P.pub k) = some k →
      ∃ e rs, newRelay P c1 h b msg revoke e1 n1 = .ok (e, ma) ∧ receive P c2 look e = .ok rs ∧
        ∀ e2, ∃ out to, send P e2 rs = .ok (out, to) ∧ to ≠ accountAddress pub server := by
  obtain ⟨mixes, hk, m, hmem, hrel⟩ := delivered P hP mapped configured keys p hp id id pub _ c0 c1 c2 r e0 n0 ma na b hn0 hnew hb h msg revoke e1 n1
    hn1 hc1 hc2 hpl hs hm
  refine ⟨mixes, hk, m, hmem, fun look k hkey hlook => ?_⟩
  obtain ⟨e, rs, g1, g2, g3⟩ := hrel look k hkey hlook
  refine ⟨e, rs, g1, g2, fun e2 => ?_⟩
  obtain ⟨out, g4, g5⟩ := g3 e2
  refine ⟨out, _, g4, fun he => hsrv (shortServer server) ?_⟩
  unfold accountAddress at he
  rw [List.append_assoc _ (shortServer server) domain] at he
  exact (List.append_cancel_left he).symm

/-- C112 is violated for short server names: if the account server assigned a server whose name is
shorter than "mute.one", the client panics when it makes an address, and when it opens an envelope
of the account. -/
theorem C112_short_server_violated (P : Prims) (server : Bytes) (hs : server.length < 8) (clock : Int) (mixes : List MAddr) (p : Params)
    (id pub secret m : Bytes) (r : Nat) (eph nonce : Bytes) :
    newNymAddress P clock true true (some mixes) p id pub server r eph nonce = .panic ∧
      openEnvelope P id pub server secret (Base64.encode m) = .panic := by
  have hb : mailbox pub server = .panic := if_pos hs
  constructor
  · show (mailbox pub server >>= _) = _
    rw [hb]
    rfl
  · unfold openEnvelope
    rw [Base64.decode_encode]
    simp only []
    rw [hb]
    rfl

/-- C112: different accounts have different addresses. -/
theorem C112_own_mailbox (pub pub' server server' : Bytes) (h1 : pub.length = 32) (h2 : pub'.length = 32)
    (h : accountAddress pub server = accountAddress pub' server') : pub = pub' ∧ server = server' := by
  unfold accountAddress at h
  rw [List.append_assoc, List.append_assoc] at h
  obtain ⟨e1, e2⟩ := List.append_inj h (by rw [Util.hex_length, Util.hex_length, h1, h2])
  exact ⟨Util.hex_inj e1, (List.cons.inj e2).2⟩

/-- C112: making an address fails without panic for every server name of at least eight bytes, and
then no address is returned. -/
theorem C112_no_panic_partial (P : Prims) (server : Bytes) (hs : 8 ≤ server.length) (clock : Int) (mapped configured : Bool)
    (keys : Option (List MAddr)) (p : Params) (id pub : Bytes) (r : Nat) (eph nonce : Bytes) :
    newNymAddress P clock mapped configured keys p id pub server r eph nonce ≠ .panic := by
  unfold newNymAddress
  split
  · simp
  · split
    · simp
    · split
      · simp
      · refine bind_ne_panic ?_ fun box _ => bind_ne_panic ?_ fun b _ => bind_ne_panic (parseAddress_ne_panic _ _) fun a _ => by simp
        · unfold mailbox
          rw [if_neg (by show ¬ server.length < 8; omega)]
          simp
        · unfold newAddress
          split
          · simp
          · exact bind_ne_panic (ofOpt_ne_panic _ _) fun _ _ => by simp

/-! ### a concrete case -/

/-- The key of the account. -/
def toyPub : Bytes := List.replicate 32 7

/-- Secret, expiry and delays. -/
def toyParams : Params := ⟨[1, 2, 3], 1000, false, 1, 2⟩

/-- The mailbox at "a.mute.one". -/
def toyBox : Bytes := Util.hex toyPub ++ [64] ++ [97, 46]

def toyPriv' : NPriv := mkPriv toy (toyParams.template [toyMix]) toyBox (fix32 (toy.hash [9])) (List.replicate 32 3)

def toyAddr' : NAddr := ⟨[109], 1000, false, [], toy.pub [5], toy.pub [8], toyPriv'.asn1⟩

theorem toyParams_fits : (toyParams.template []).Fits := by
  constructor <;> simp [toyParams, Params.template, I32, I64]

theorem toyPriv'_length : toyPriv'.asn1.length ≤ 340 := by
  obtain ⟨l1, l2, l3⟩ := mkPriv_lengths toy toy_good (toyParams.template [toyMix]) toyBox (fix32 (toy.hash [9])) (List.replicate 32 3)
  have l1 : toyPriv'.receiverPub.length = 32 := l1
  have l2 : toyPriv'.encNym.length = 34 := l2
  have l3 : toyPriv'.hmacHead.length = 32 := l3
  have l4 : toyPriv'.nonce.length = 32 := rfl
  have l5 : toyPriv'.address.length = 67 := by decide +kernel
  have i1 := eInt_length toyPriv'.system (by simp [toyPriv', mkPriv, toyParams, Params.template, I64])
  have i2 := eInt_length toyPriv'.expire (by simp [toyPriv', mkPriv, toyParams, Params.template, I64])
  have i3 := eInt_length toyPriv'.minDelay (by simp [toyPriv', mkPriv, toyParams, Params.template, I64])
  have i4 := eInt_length toyPriv'.maxDelay (by simp [toyPriv', mkPriv, toyParams, Params.template, I64])
  have t1 := (Asn1.tlv_length 4 toyPriv'.address (by omega)).1
  have t2 := (Asn1.tlv_length 4 toyPriv'.nonce (by omega)).1
  have t3 := (Asn1.tlv_length 4 toyPriv'.receiverPub (by omega)).1
  have t4 := (Asn1.tlv_length 4 toyPriv'.encNym (by omega)).1
  have t5 := (Asn1.tlv_length 4 toyPriv'.hmacHead (by omega)).1
  have t6 : (Asn1.eBool toyPriv'.singleUse).length = 3 := rfl
  unfold NPriv.asn1
  have hc := (Asn1.tlv_length 48 (Asn1.eInt toyPriv'.system ++ (Asn1.eBytes toyPriv'.address ++ (Asn1.eInt toyPriv'.expire ++
    (Asn1.eBool toyPriv'.singleUse ++ (Asn1.eInt toyPriv'.minDelay ++ (Asn1.eInt toyPriv'.maxDelay ++ (Asn1.eBytes toyPriv'.nonce ++
    (Asn1.eBytes toyPriv'.receiverPub ++ (Asn1.eBytes toyPriv'.encNym ++ Asn1.eBytes toyPriv'.hmacHead)))))))))
    (by simp only [List.length_append, Asn1.eBytes]; omega)).1
  simp only [List.length_append, Asn1.eBytes] at hc
  simp only [Asn1.eBytes]
  omega

theorem toyAddr'_length : toyAddr'.asn1.length ≤ 500 := by
  have l1 : toyAddr'.mixAddress.length = 1 := rfl
  have l2 : toyAddr'.tokenPubKey.length = 0 := rfl
  have l3 : toyAddr'.mixPubKey.length = 32 := rfl
  have l4 : toyAddr'.addressKey.length = 32 := rfl
  have l5 : toyAddr'.privateData.length ≤ 340 := toyPriv'_length
  have i1 := eInt_length toyAddr'.expire (by simp [toyAddr', I64])
  have t1 := (Asn1.tlv_length 4 toyAddr'.mixAddress (by omega)).1
  have t2 := (Asn1.tlv_length 4 toyAddr'.tokenPubKey (by omega)).1
  have t3 := (Asn1.tlv_length 4 toyAddr'.mixPubKey (by omega)).1
  have t4 := (Asn1.tlv_length 4 toyAddr'.addressKey (by omega)).1
  have t5 := (Asn1.tlv_length 4 toyAddr'.privateData (by omega)).1
  have t6 : (Asn1.eBool toyAddr'.singleUse).length = 3 := rfl
  unfold NAddr.asn1
  have hc := (Asn1.tlv_length 48 (Asn1.eBytes toyAddr'.mixAddress ++ (Asn1.eInt toyAddr'.expire ++ (Asn1.eBool toyAddr'.singleUse ++
    (Asn1.eBytes toyAddr'.tokenPubKey ++ (Asn1.eBytes toyAddr'.mixPubKey ++ (Asn1.eBytes toyAddr'.addressKey ++ Asn1.eBytes toyAddr'.privateData))))))
    (by simp only [List.length_append, Asn1.eBytes]; omega)).1
  simp only [List.length_append, Asn1.eBytes] at hc
  simp only [Asn1.eBytes]
  omega

/-- The address of the concrete account. -/
theorem toy_newNymAddress : newNymAddress toy 10 true true (some [toyMix]) toyParams [9] toyPub ([97, 46] ++ domain) 0 [8] (List.replicate 32 3) =
    .ok ([109], Base64.encode toyAddr'.asn1) := by
  have hn : newAddress toy 10 (toyParams.template [toyMix]) toyBox (toy.hash [9]) 0 [8] (List.replicate 32 3) = .ok toyAddr'.asn1 := rfl
  have hp : NAddr.parse toyAddr'.asn1 = some toyAddr' := by
    have := NAddr.parse_asn1 toyAddr' (show I64 1000 by simp [I64]) (Nat.lt_of_le_of_lt toyAddr'_length (by omega)) []
    rwa [List.append_nil] at this
  show (mailbox toyPub ([97, 46] ++ domain) >>= _) = _
  rw [mailbox_of_suffix, Res.bind_ok]
  show (newAddress toy 10 (toyParams.template [toyMix]) toyBox (toy.hash [9]) 0 [8] (List.replicate 32 3) >>= _) = _
  rw [hn, Res.bind_ok, parseAddress, hp, ofOpt_some, Res.bind_ok, if_neg (by simp [toyAddr']), Res.bind_ok]
  rfl

/-- C112_arrives_partial: an account at "a.mute.one", a message of 5000 bytes. -/
example : ∃ mixes, some [toyMix] = some mixes ∧ ∃ m ∈ mixes, ∀ look k, m.pubkey = toy.pub k → look (toy.pub k) = some k →
      ∃ e rs, newRelay toy 20 toyHdr toyAddr'.asn1 toyMsg (List.replicate 32 6) [11] (List.replicate 32 12) = .ok (e, [109]) ∧ receive toy 30 look e = .ok rs ∧
        ∀ e2, ∃ out, send toy e2 rs = .ok (out, accountAddress toyPub ([97, 46] ++ domain)) ∧
          openEnvelope toy [9] toyPub ([97, 46] ++ domain) toyParams.secret (Base64.encode out) = .ok (.opened (Base64.encode toyMsg)) :=
  C112_arrives_partial toy toy_good true true (some [toyMix]) toyParams toyParams_fits [9] toyPub [97, 46] 10 20 30 0 [8] (List.replicate 32 3)
    [109] (Base64.encode toyAddr'.asn1) toyAddr'.asn1 (by simp) toy_newNymAddress (Base64.decode_encode _) toyHdr toyMsg (List.replicate 32 6) [11]
    (List.replicate 32 12) (by simp) (by simp [toyParams]) (by simp [toyParams]) (toyHdr_plain _)
    (toyHdr_length typeRelay (by simp [I32, typeRelay]) _ toyAddr'_length _ (by simp)).1 (by rw [toyMsg_length]; omega)

/-- C112_other_identity: the same mail opened for the identity [8]. -/
example := C112_other_identity toy toy_good true true (some [toyMix]) toyParams toyParams_fits [8] [9] toyPub ([97, 46] ++ domain) (by decide) 10 20 30 0 [8]
    (List.replicate 32 3) [109] (Base64.encode toyAddr'.asn1) toyAddr'.asn1 (by simp) toy_newNymAddress (Base64.decode_encode _) toyHdr toyMsg
    (List.replicate 32 6) [11] (List.replicate 32 12) (by simp) (by simp [toyParams]) (by simp [toyParams]) (toyHdr_plain _)
    (toyHdr_length typeRelay (by simp [I32, typeRelay]) _ toyAddr'_length _ (by simp)).1 (by rw [toyMsg_length]; omega)

/-- C112_other_server_violated: the same name at "a.mute.org". -/
theorem toy_other_server : newNymAddress toy 10 true true (some [toyMix]) toyParams [9] toyPub [97, 46, 109, 117, 116, 101, 46, 111, 114, 103] 0 [8]
    (List.replicate 32 3) = .ok ([109], Base64.encode toyAddr'.asn1) := by
  rw [← toy_newNymAddress]
  rfl

example := C112_other_server_violated toy toy_good true true (some [toyMix]) toyParams toyParams_fits [9] toyPub [97, 46, 109, 117, 116, 101, 46, 111, 114, 103]
    (fun s h => absurd (congrArg (List.drop (10 - 8)) h) (by
      have hl : s.length = 2 := by have := congrArg List.length h; simp [domain] at this; omega
      match s, hl with
      | [a, b], _ => simp [domain])) 10 20 30 0 [8]
    (List.replicate 32 3) [109] (Base64.encode toyAddr'.asn1) toyAddr'.asn1 (by simp) toy_other_server (Base64.decode_encode _) toyHdr toyMsg
    (List.replicate 32 6) [11] (List.replicate 32 12) (by simp) (by simp [toyParams]) (by simp [toyParams]) (toyHdr_plain _)
    (toyHdr_length typeRelay (by simp [I32, typeRelay]) _ toyAddr'_length _ (by simp)).1 (by rw [toyMsg_length]; omega)

/-- C112_short_server_violated: "mute.ch". -/
example := C112_short_server_violated toy [109, 117, 116, 101, 46, 99, 104] (by decide) 10 [toyMix] toyParams [9] toyPub [1, 2, 3] [1] 0 [8] (List.replicate 32 3)

/-- C112_own_mailbox. -/
example := C112_own_mailbox toyPub toyPub ([97, 46] ++ domain) ([97, 46] ++ domain) (by decide) (by decide) rfl

/-- C112_no_panic_partial. -/
example := C112_no_panic_partial toy ([97, 46] ++ domain) (by decide) 10 true true (some [toyMix]) toyParams [9] toyPub 0 [8] (List.replicate 32 3)

end Verif.Ctrl.Mailbox
