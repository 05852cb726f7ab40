import Verif.Msg.EncLemmas
import Verif.Wire.Props
/-
C61: a whole one-way conversation, sender and recipient together.
-/
namespace Verif.Msg
open Prog
open Wire (Outer newOuter newPre readFirst)

/-- Two users: their UIDs (with private keys), the private key of the recipient's
KeyInit message, and the configured numbers of future keys. -/
structure Link where
  alice : UID
  bob : UID
  aPriv : Bytes
  bPriv : Bytes
  kPriv : Bytes
  nA : UInt64
  nB : UInt64

/-- One message: what the sender is asked to send, the sender's random choices and
the random key the recipient may draw. -/
structure Round where
  content : Bytes
  sigKey : Option Bytes
  nymAddress : Str
  lastHash : Str
  rnd : Rnd
  fresh : Bytes

/-- The arguments of Encrypt; the sender only has the recipient's public keys. -/
def Link.encArgs (L : Link) (r : Round) : EncArgs :=
  { «from» := L.alice, to := { L.bob with pubKey := L.bob.pubKey.public },
    nymAddress := r.nymAddress, lastHash := r.lastHash, sigKey := r.sigKey,
    content := r.content, numOfKeys := L.nA, status := statusOK }

/-- Receive an encoded message: base64 decoding, ReadFirstOuterHeader, Decrypt. -/
def openMsg (P : Prims) (L : Link) (r : Round) (wire : Str) (B : MemStore) :
    Option ((Str × Str) × MemStore) :=
  match P.unb64 wire with
  | none => none
  | some b =>
    match readFirst b with
    | .ok (_, pre, rest) =>
      match (decrypt P ⟨[L.bob], pre, rest, L.nB, r.fresh⟩).run (MemStore.handle P) B with
      | (.ok x, B') => some (x, B')
      | _ => none
    | _ => none

inductive Failure where
  | sender | recipient
  deriving DecidableEq

/-- One message from Encrypt to Decrypt: the content, sender and signature the
recipient gets, and the two stores afterwards. -/
def exchange (P : Prims) (L : Link) (r : Round) (A B : MemStore) :
    Except Failure ((Bytes × Str × Str) × MemStore × MemStore) :=
  match (encrypt P (L.encArgs r) r.rnd).run (MemStore.handle P) A with
  | (.ok _, A') =>
    match openMsg P L r (A'.out.drop A.out.length) B with
    | some ((sender, sig), B') => .ok ((B'.out.drop B.out.length, sender, sig), A', B')
    | none => .error .recipient
  | _ => .error .sender

/-- Messages sent and received in order. -/
def conversation (P : Prims) (L : Link) : List Round → MemStore → MemStore →
    Except Failure (List (Bytes × Str × Str))
  | [], _, _ => .ok []
  | r :: rs, A, B =>
    match exchange P L r A B with
    | .error e => .error e
    | .ok (x, A', B') =>
      match conversation P L rs A' B' with
      | .error e => .error e
      | .ok xs => .ok (x :: xs)

/-- Hash of the public key of a private key. -/
def keyHash (P : Prims) (x : Bytes) : Str := P.b64 (P.sha512 (P.dhPub x))

def Link.stateKeyA (P : Prims) (L : Link) : Str :=
  calcStateKey P (P.dhPub L.aPriv) (P.dhPub L.bPriv)
def Link.stateKeyB (P : Prims) (L : Link) : Str :=
  calcStateKey P (P.dhPub L.bPriv) (P.dhPub L.aPriv)
def Link.keyA (P : Prims) (L : Link) (s : Bytes) : Str :=
  calcKey P (keyHash P L.aPriv) (keyHash P L.bPriv) (keyHash P s) (keyHash P L.kPriv)
def Link.keyB (P : Prims) (L : Link) (s : Bytes) : Str :=
  calcKey P (keyHash P L.bPriv) (keyHash P L.aPriv) (keyHash P L.kPriv) (keyHash P s)
def Link.fix (P : Prims) (L : Link) : Bytes := identityFix P L.alice.identity L.bob.identity

/-- The users' key entries belong to the private keys, the UID message in the
header parses, and the batch sizes are sensible. -/
structure Link.OK (P : Prims) (L : Link) (uid : UID) : Prop where
  a : L.alice.pubKey = initDHKey P L.aPriv
  b : L.bob.pubKey = initDHKey P L.bPriv
  uid : P.parseUID L.alice.json = some uid
  nA : L.nA.toNat < 2 ^ 32
  nB : L.nB.toNat < 2 ^ 32

/-- Good random sources, and the signature key is the one in the sender's UID. -/
structure Round.OK (P : Prims) (uid : UID) (r : Round) : Prop where
  rnd : r.rnd.Good
  sig : ∀ k, r.sigKey = some k → uid.sigKey.pub32 P = some (P.edPub k)

/-- The two users have never communicated; the sender has the public key of the
recipient's KeyInit message, the recipient the private one. -/
structure Link.Start (P : Prims) (L : Link) (A B : MemStore) : Prop where
  stA : A.states (L.stateKeyA P) = none
  stB : B.states (L.stateKeyB P) = none
  sessA : ∀ k, A.sessions k = none
  sessB : ∀ k, B.sessions k = none
  pub : A.pubs L.bob.identity = some (initDHKey P L.kPriv).public
  priv : B.privs (keyHash P L.kPriv) = some (initDHKey P L.kPriv)

/-- The sender's session after `k` messages. -/
structure SendInv (P : Prims) (n : UInt64) (key : Str) (root rp fix : Bytes) (k m : Nat)
    (st : MemStore) (s : Sess) : Prop where
  sess : st.sessions key = some s
  le : k ≤ m
  small : m ≤ k + n.toNat
  chain : s.chain = P.b64 (chainAt P root m)
  slen : s.send.length = m
  keys : ∀ i, k ≤ i → i < m → s.send[i]? = some (P.b64 (senderKey P root rp fix i))

/-- The sender's session state after `k` messages. -/
structure AState (P : Prims) (L : Link) (s : Bytes) (k : Nat) (ss : State) : Prop where
  own : ss.senderSessionPub = initDHKey P s
  hash : ss.recipientTemp.hash = keyHash P L.kPriv
  pub : ss.recipientTemp.pub32 P = some (P.dhPub L.kPriv)
  seen : ss.nextRecipientSessionPubSeen = none
  count : ss.senderMessageCount = UInt64.ofNat k
  next : ss.nextSenderSessionPub = none ∨ ∃ x, ss.nextSenderSessionPub = some (initDHKey P x)

/-- The recipient's session state. -/
structure BState (P : Prims) (L : Link) (s : Bytes) (sb : State) : Prop where
  own : sb.senderSessionPub = initDHKey P L.kPriv
  peer : sb.recipientTemp = (initDHKey P s).public
  next : ∃ sn, sb.nextSenderSessionPub = some sn

/-- Both stores after `k > 0` messages of the session with session key `s`. -/
structure Inv (P : Prims) (L : Link) (s root : Bytes) (k : Nat) (A B : MemStore) : Prop where
  rlen : root.length = 32
  stA : ∃ ss, A.states (L.stateKeyA P) = some ss ∧ AState P L s k ss
  stB : ∃ sb, B.states (L.stateKeyB P) = some sb ∧ BState P L s sb
  send : ∃ m t, SendInv P (effKeys L.nA) (L.keyA P s) root (P.dhPub L.kPriv) (L.fix P) k m A t
  recv : ∃ m t, RecvInv P (effKeys L.nB) (L.keyB P s) root (P.dhPub L.kPriv) (L.fix P) k m B t

theorem effKeys_ne (n : UInt64) : effKeys n ≠ 0 := by
  unfold effKeys; split
  · decide
  · assumption

theorem effKeys_lt {n : UInt64} (h : n.toNat < 2 ^ 32) : (effKeys n).toNat < 2 ^ 32 := by
  unfold effKeys; split
  · decide
  · exact h

section
variable {P : Prims} (hP : P.Good)
include hP

/-- Key extension on the sender's side. -/
theorem send_step {a : EncArgs} {n : UInt64} (hn : n ≠ 0) (hn32 : n.toNat < 2 ^ 32) {ss : State}
    {root sp rp : Bytes} (hroot : root.length = 32)
    (hsp : ss.senderSessionPub.pub32 P = some sp) (hrp : ss.recipientTemp.pub32 P = some rp)
    (hsh : ss.senderSessionPub.hash = P.b64 (P.sha512 sp))
    (hrh : ss.recipientTemp.hash = P.b64 (P.sha512 rp)) {k m : Nat} (hk : k < 2 ^ 63)
    (hcount : ss.senderMessageCount = UInt64.ofNat k) {st : MemStore} {s : Sess}
    (I : SendInv P n (encSessionKey P a ss) root rp (identityFix P a.from.identity a.to.identity)
      k m st s) :
    ∃ m' st' s', (encExtend P a n ss (encSessionKey P a ss)).run (MemStore.handle P) st =
        (.ok (), st') ∧ k < m' ∧
      SendInv P n (encSessionKey P a ss) root rp (identityFix P a.from.identity a.to.identity)
        k m' st' s' := by
  have hm64 : m < 2 ^ 64 := by have := I.small; omega
  have hk64 : k < 2 ^ 64 := by omega
  have hnum : st.numMessageKeys (encSessionKey P a ss) = .ok (UInt64.ofNat m) := by
    unfold MemStore.numMessageKeys; rw [I.sess]; simp only [I.slen]
  have hn0 : 0 < n.toNat := by
    rcases Nat.eq_zero_or_pos n.toNat with h | h
    · exact absurd (UInt64.toNat_inj.mp (by simpa using h)) hn
    · exact h
  unfold encExtend
  simp only [bind_eq]
  rw [run_bind_of_ok (a := UInt64.ofNat m) (s1 := st) _
    (by rw [run_ask_ok]; simp only [MemStore.handle, hnum]), hcount]
  by_cases hkm : k < m
  · have : ¬ (UInt64.ofNat k ≥ UInt64.ofNat m) := by
      intro hge
      have := UInt64.le_iff_toNat_le.mp hge
      rw [ofNat_toNat hk64, ofNat_toNat hm64] at this; omega
    rw [if_neg this]
    exact ⟨m, st, s, rfl, hkm, I⟩
  · have hkm' : k = m := by have := I.le; omega
    subst hkm'
    rw [if_pos (UInt64.le_refl _)]
    have hc : st.getChainKey P (encSessionKey P a ss) = .ok (chainAt P root k) := by
      unfold MemStore.getChainKey
      rw [I.sess]
      simp only [I.chain, hP.unb64_b64, chainAt_len P hP root hroot]
      rw [if_neg (by omega), List.take_of_length_le]
      rw [chainAt_len P hP root hroot]; exact Nat.le_refl _
    rw [run_bind_of_ok (a := chainAt P root k) (s1 := st) _
      (by rw [run_ask_ok]; simp only [MemStore.handle, hc])]
    simp only [hsp, hrp, orPanic, ret_bind]
    rw [generate_eq P _ _ _ _ _ _ _ _ _ hn, run_ask]
    have hkey : genKey P a.from.pubKey.hash a.to.pubKey.hash false sp rp =
        encSessionKey P a ss := by
      simp [genKey, encSessionKey, hsh, hrh]
    simp only [MemStore.handle, hkey, Bool.false_eq_true, if_false]
    rw [sess_ext I.sess _ _ _ _ (by simp [keyList_length])]
    refine ⟨k + n.toNat, _, _, rfl, by omega, ⟨upd_same _ _ _, by omega, Nat.le_refl _, ?_, ?_, ?_⟩⟩
    · show P.b64 (chainAt P (chainAt P root k) n.toNat) = _
      rw [← chainAt_add]
    · simp [keyList_length, I.slen]
    · intro i h1 h2
      simp only
      rw [List.getElem?_append_right (by rw [I.slen]; exact h1), I.slen]
      unfold keyList
      rw [List.getElem?_map, List.getElem?_range (by omega)]
      simp only [Option.map_some, messageKey, senderKey]
      rw [← chainAt_add]
      congr 4; omega

theorem send_key {n : UInt64} {key : Str} {root rp fix : Bytes} {k m : Nat} {st : MemStore}
    {s : Sess} (I : SendInv P n key root rp fix k m st s) (hk : k < m) (hk64 : k < 2 ^ 64) :
    st.getMessageKey P key true (UInt64.ofNat k) = .ok (senderKey P root rp fix k) := by
  have hlen : (senderKey P root rp fix k).length = 64 := hP.hmac_len _ _
  unfold MemStore.getMessageKey
  rw [I.sess]
  simp only [ofNat_toNat hk64, I.slen, if_true, I.keys k (Nat.le_refl _) hk]
  rw [if_neg (by omega), if_neg]
  · simp only [hP.unb64_b64]
    rw [if_neg (by omega), List.take_of_length_le (by omega)]
  · intro e
    have := hP.b64_len (senderKey P root rp fix k)
    rw [e, hlen] at this; simp at this

theorem recv_key {n : UInt64} {key : Str} {root rp fix : Bytes} {k m : Nat} {st : MemStore}
    {s : Sess} (I : RecvInv P n key root rp fix k m st s) (hk : k < m) (hk64 : k < 2 ^ 64) :
    st.getMessageKey P key false (UInt64.ofNat k) = .ok (senderKey P root rp fix k) := by
  have hlen : (senderKey P root rp fix k).length = 64 := hP.hmac_len _ _
  unfold MemStore.getMessageKey
  rw [I.sess]
  simp only [ofNat_toNat hk64, I.slen, Bool.false_eq_true, if_false, I.keys k (Nat.le_refl _) hk]
  rw [if_neg (by omega), if_neg]
  · simp only [hP.unb64_b64]
    rw [if_neg (by omega), List.take_of_length_le (by omega)]
  · intro e
    have := hP.b64_len (senderKey P root rp fix k)
    rw [e, hlen] at this; simp at this

omit hP in
theorem send_del {n : UInt64} {key : Str} {root rp fix : Bytes} {k m : Nat} {st st' : MemStore}
    {s : Sess} (I : SendInv P n key root rp fix k m st s) (hk : k < m) (hk64 : k < 2 ^ 64)
    (hd : st.delMessageKey key true (UInt64.ofNat k) = (.ok (), st')) :
    st'.out = st.out ∧ st'.states = st.states ∧
      SendInv P n key root rp fix (k + 1) m st' { s with send := s.send.set k [] } := by
  unfold MemStore.delMessageKey at hd
  rw [I.sess] at hd
  simp only [ofNat_toNat hk64, I.slen, if_true] at hd
  rw [if_neg (by omega)] at hd
  have := (Prod.mk.inj hd).2
  subst this
  refine ⟨rfl, rfl, ⟨upd_same _ _ _, hk, by have := I.small; omega, I.chain, by simp [I.slen], ?_⟩⟩
  intro i h1 h2
  simp only
  rw [List.getElem?_set_ne (by omega)]
  exact I.keys i (by omega) h2

omit hP in
theorem recv_del {n : UInt64} {key : Str} {root rp fix : Bytes} {k m : Nat} {st : MemStore}
    {s : Sess} (I : RecvInv P n key root rp fix k m st s) (hk : k < m) (hk64 : k < 2 ^ 64) :
    ∃ st', st.delMessageKey key false (UInt64.ofNat k) = (.ok (), st') ∧
      st'.out = st.out ∧ st'.states = st.states ∧
      RecvInv P n key root rp fix (k + 1) m st' { s with recv := s.recv.set k [] } := by
  refine ⟨st.setSess key { s with recv := s.recv.set k [] }, ?_, rfl, rfl, ?_⟩
  · unfold MemStore.delMessageKey
    rw [I.sess]
    simp only [ofNat_toNat hk64, I.slen]
    rw [if_neg (by omega)]
    rfl
  · refine ⟨upd_same _ _ _, I.dvd, I.pos, I.stuck, I.small, hk, I.chain, I.slen,
        by simp [I.rlen], ?_⟩
    intro i h1 h2
    simp only
    rw [List.getElem?_set_ne (by omega)]
    exact I.keys i (by omega) h2

/-- What is left of Decrypt once the session is there. -/
theorem open_tail {L : Link} {uid : UID} (hL : L.OK P uid) {r : Round} (hr : r.OK P uid)
    {h : Header} (hlen : (P.marshal h).length = 7152) (hparse : P.parse (P.marshal h) = some h)
    (hv : h.verify P = true) {s root : Bytes} (hroot : root.length = 32) {k m : Nat}
    (hk : k < stuckAt (effKeys L.nB).toNat)
    (h1 : h.senderIdentity = L.alice.identity) (h2 : h.senderUID = L.alice.json)
    (h3 : h.senderSessionPub = (initDHKey P s).public)
    (h4 : h.senderIdentityPub = (initDHKey P L.aPriv).public)
    (h5 : h.recipientTempHash = keyHash P L.kPriv)
    (h6 : h.senderMessageCount = UInt64.ofNat k)
    (hc : r.content.length ≤ maxContentLength)
    {B B1 : MemStore} {sb : State} {t : Sess}
    (hs : (decSession P ⟨[L.bob], (newPre (P.dhPub r.rnd.headerPriv)).write,
        (newOuter Wire.encryptedHeader 1 (r.rnd.nonce ++ be16 7168 ++
          P.boxSeal (P.marshal h) r.rnd.nonce (P.dhPub L.bPriv) r.rnd.headerPriv)).write true ++
          encBody P (senderKey P root (P.dhPub L.kPriv) (L.fix P) k) r.rnd r.sigKey r.content,
        L.nB, r.fresh⟩ (effKeys L.nB) (P.dhPub r.rnd.headerPriv) L.bob h).run
          (MemStore.handle P) B = (.ok (some sb), B1))
    (hsb : BState P L s sb)
    (I : RecvInv P (effKeys L.nB) (L.keyB P s) root (P.dhPub L.kPriv) (L.fix P) k m B1 t) :
    ∃ B' m' t', openMsg P L r (P.b64 (messageBytes P r.rnd h (P.dhPub L.bPriv)
        (senderKey P root (P.dhPub L.kPriv) (L.fix P) k) r.sigKey r.content)) B =
        some ((L.alice.identity, sigOf P r.sigKey r.content), B') ∧
      B'.out = B.out ++ r.content ∧ B'.states = B1.states ∧
      RecvInv P (effKeys L.nB) (L.keyB P s) root (P.dhPub L.kPriv) (L.fix P) (k + 1) m' B' t' := by
  have hk64 : k < 2 ^ 63 := by
    have := stuckAt_le (effKeys L.nB).toNat
    have := effKeys_lt hL.nB
    omega
  have hkey : decSessionKey P L.bob h = L.keyB P s := by
    simp only [decSessionKey, Link.keyB, hL.b, h3, h4, h5]; rfl
  have hfix : identityFix P h.senderIdentity L.bob.identity = L.fix P := by rw [h1]; rfl
  have heta : ({ h with senderMessageCount := UInt64.ofNat k } : Header) = h := by rw [← h6]
  obtain ⟨m', B2, t2, e2, f2, hkm, I2⟩ := extend_step P hP (effKeys L.nB) (effKeys_ne _) L.bob h sb
    root (P.dhPub s) (P.dhPub L.kPriv) hroot (by rw [h3]; exact initDHKey_public_pub32 P hP _)
    (by rw [hsb.own]; exact initDHKey_pub32 P hP _) (by rw [h5, hsb.own]; rfl) h5
    (by rw [h3]; rfl) k m B1 t hk (by omega) (by rw [hkey, hfix]; exact I)
  rw [heta] at e2
  rw [hkey, hfix] at I2
  obtain ⟨B3, e3, o3, f3, I3⟩ := recv_del (k := k) (st := B2.wrote r.content) (s := t2)
    ⟨I2.sess, I2.dvd, I2.pos, I2.stuck, I2.small, I2.le, I2.chain, I2.slen, I2.rlen, I2.keys⟩
    hkm (by omega)
  refine ⟨B3, m', _, ?_, ?_, ?_, I3⟩
  · unfold openMsg messageBytes
    rw [hP.unb64_b64]
    simp only
    rw [List.append_assoc]
    rw [show Wire.preHeaderPacket = 1 from rfl]
    rw [Wire.C04_first_roundtrip _ _ (by rw [hP.dhPub_len]; omega)]
    simp only
    have hrun : (decrypt P ⟨[L.bob], (newPre (P.dhPub r.rnd.headerPriv)).write,
        (newOuter Wire.encryptedHeader 1 (r.rnd.nonce ++ be16 7168 ++
          P.boxSeal (P.marshal h) r.rnd.nonce (P.dhPub L.bPriv) r.rnd.headerPriv)).write true ++
          encBody P (senderKey P root (P.dhPub L.kPriv) (L.fix P) k) r.rnd r.sigKey r.content,
        L.nB, r.fresh⟩).run (MemStore.handle P) B =
        (.ok (L.alice.identity, sigOf P r.sigKey r.content), B3) := by
      have hhead : (decHead P ⟨[L.bob], (newPre (P.dhPub r.rnd.headerPriv)).write,
        (newOuter Wire.encryptedHeader 1 (r.rnd.nonce ++ be16 7168 ++
          P.boxSeal (P.marshal h) r.rnd.nonce (P.dhPub L.bPriv) r.rnd.headerPriv)).write true ++
          encBody P (senderKey P root (P.dhPub L.kPriv) (L.fix P) k) r.rnd r.sigKey r.content,
        L.nB, r.fresh⟩).run (MemStore.handle P) B =
          (.ok (P.dhPub r.rnd.headerPriv, L.bob, h, encBody P (senderKey P root (P.dhPub L.kPriv)
            (L.fix P) k) r.rnd r.sigKey r.content), B) := by
        rw [(noCall_decHead P _).run, decHead_message P hP r.rnd hr.rnd h hlen hparse hv L.bob L.bPriv
          hL.b _ _ _]
      unfold decrypt
      simp only [bind_eq]
      rw [run_bind_of_ok _ hhead]
      simp only
      rw [show (if L.nB = 0 then numOfFutureKeys else L.nB) = effKeys L.nB from rfl]
      rw [run_bind_of_ok _ hs, hkey]
      rw [run_bind_of_ok (a := ()) (s1 := B2) _ (by rw [← hkey]; exact e2)]
      rw [run_bind_of_ok (a := senderKey P root (P.dhPub L.kPriv) (L.fix P) k) (s1 := B2) _
        (by rw [run_ask_ok, h6]; simp only [MemStore.handle, recv_key hP I2 hkm (by omega)])]
      rw [run_bind_of_ok _ (decBody_encBody P hP _ r.rnd hr.rnd r.sigKey r.content hc h.senderUID uid
        (by rw [h2]; exact hL.uid) hr.sig B2)]
      rw [run_bind_of_ok (a := ()) (s1 := B3) _ (by rw [run_ask_ok, h6]; exact e3)]
      rw [h1]; rfl
    rw [hrun]
  · rw [o3]
    show B2.out ++ r.content = _
    have o2 := run_out P (noWrite_decExtend P (effKeys L.nB) L.bob h (decSessionKey P L.bob h)
      (some sb)) B1
    rw [e2] at o2
    have o1 := run_out P (noWrite_decSession P ⟨[L.bob], (newPre (P.dhPub r.rnd.headerPriv)).write,
        (newOuter Wire.encryptedHeader 1 (r.rnd.nonce ++ be16 7168 ++
          P.boxSeal (P.marshal h) r.rnd.nonce (P.dhPub L.bPriv) r.rnd.headerPriv)).write true ++
          encBody P (senderKey P root (P.dhPub L.kPriv) (L.fix P) k) r.rnd r.sigKey r.content,
        L.nB, r.fresh⟩ (effKeys L.nB) (P.dhPub r.rnd.headerPriv) L.bob h) B
    rw [hs] at o1
    simp only at o1 o2
    rw [o2, o1]
  · rw [f3]; exact f2

omit hP in
theorem delPriv_frame (B : MemStore) (x : Str) : (B.delPrivSessionKey x).sessions = B.sessions ∧
    (B.delPrivSessionKey x).states = B.states := by
  unfold MemStore.delPrivSessionKey; split <;> exact ⟨rfl, rfl⟩

/-- Session handling for a later message. -/
theorem decSession_later {L : Link} {uid : UID} (hL : L.OK P uid) (a : DecArgs) (hp : Bytes)
    {h : Header} {s : Bytes}
    (h3 : h.senderSessionPub = (initDHKey P s).public)
    (h4 : h.senderIdentityPub = (initDHKey P L.aPriv).public)
    (h5 : h.recipientTempHash = keyHash P L.kPriv)
    (h7 : h.nextRecipientSessionPubSeen = none)
    {B : MemStore} {sb : State} {t : Sess}
    (hst : B.states (L.stateKeyB P) = some sb) (hsb : BState P L s sb)
    (hse : B.sessions (L.keyB P s) = some t) :
    (decSession P a (effKeys L.nB) hp L.bob h).run (MemStore.handle P) B =
      (.ok (some sb), B.delPrivSessionKey (keyHash P L.kPriv)) := by
  have hkey : decSessionKey P L.bob h = L.keyB P s := by
    simp only [decSessionKey, Link.keyB, hL.b, h3, h4, h5]; rfl
  unfold decSession
  simp only [bind_eq, hL.b, h4, initDHKey_pub32 P hP, initDHKey_public_pub32 P hP, orPanic, ret_bind]
  rw [run_bind_of_ok (a := some sb) (s1 := B) _ (by
    rw [run_ask_ok]; simp only [MemStore.handle]; rw [show calcStateKey P (P.dhPub L.bPriv)
      (P.dhPub L.aPriv) = L.stateKeyB P from rfl, hst])]
  rw [run_bind_of_ok (a := true) (s1 := B) _ (by
    rw [run_try', hkey]; simp only [MemStore.handle, MemStore.hasSession, hse, Option.isSome_some])]
  rw [if_pos rfl]
  unfold decKnown
  simp only [bind_eq, orPanic, ret_bind]
  rw [if_pos (by rw [h5, hsb.own, h3, hsb.peer]; exact ⟨rfl, rfl⟩)]
  obtain ⟨sn, hsn⟩ := hsb.next
  have hfin : (Prog.ask (.delSKey h.recipientTempHash) |>.bind fun _ => Prog.ret (some sb)).run
      (MemStore.handle P) B = (.ok (some sb), B.delPrivSessionKey (keyHash P L.kPriv)) := by
    rw [run_bind_of_ok (a := ()) (s1 := B.delPrivSessionKey (keyHash P L.kPriv)) _ (by
      rw [run_ask_ok, h5]; rfl)]
    rfl
  split
  · exact hfin
  · rw [hsn]
    simp only [h7, Option.any_none, Bool.false_eq_true, if_false]
    exact hfin

/-- Session handling for the first message. -/
theorem decSession_first {L : Link} {uid : UID} (hL : L.OK P uid) (a : DecArgs) (hp : Bytes)
    {h : Header} {s : Bytes}
    (h1 : h.senderIdentity = L.alice.identity)
    (h3 : h.senderSessionPub = (initDHKey P s).public)
    (h4 : h.senderIdentityPub = (initDHKey P L.aPriv).public)
    (h5 : h.recipientTempHash = keyHash P L.kPriv)
    (h8 : h.nextSenderSessionPub = none)
    (hd : AllDifferent [hp, P.dhPub L.aPriv, P.dhPub s, P.dhPub L.bPriv, P.dhPub L.kPriv])
    {A B : MemStore} (hS : L.Start P A B) :
    ∃ B1 sb t, (decSession P a (effKeys L.nB) hp L.bob h).run (MemStore.handle P) B =
        (.ok (some sb), B1) ∧ BState P L s sb ∧ B1.states (L.stateKeyB P) = some sb ∧
      RecvInv P (effKeys L.nB) (L.keyB P s) (deriveRootKey P (P.dh L.aPriv (P.dhPub L.kPriv))
        (P.dh s (P.dhPub L.kPriv)) (P.dh s (P.dhPub L.bPriv)) none) (P.dhPub L.kPriv) (L.fix P) 0
        (effKeys L.nB).toNat B1 t := by
  have hkey : decSessionKey P L.bob h = L.keyB P s := by
    simp only [decSessionKey, Link.keyB, hL.b, h3, h4, h5]; rfl
  have hfix : identityFix P h.senderIdentity L.bob.identity = L.fix P := by rw [h1]; rfl
  obtain ⟨t, ft, rt⟩ := run_generate_new P h.senderIdentity L.bob.identity
    (initDHKey P L.aPriv).public.hash (initDHKey P L.bPriv).hash
    (deriveRootKey P (P.dh L.aPriv (P.dhPub L.kPriv)) (P.dh s (P.dhPub L.kPriv))
      (P.dh s (P.dhPub L.bPriv)) none) true (P.dhPub s) (P.dhPub L.kPriv) (effKeys L.nB)
    (effKeys_ne _) B (hS.sessB _)
  have hk2 : genKey P (initDHKey P L.aPriv).public.hash (initDHKey P L.bPriv).hash true (P.dhPub s)
      (P.dhPub L.kPriv) = L.keyB P s := rfl
  rw [hk2] at rt
  unfold decSession
  simp only [bind_eq, hL.b, h4, initDHKey_pub32 P hP, initDHKey_public_pub32 P hP, orPanic, ret_bind]
  rw [run_bind_of_ok (a := none) (s1 := B) _ (by
    rw [run_ask_ok]; simp only [MemStore.handle]; rw [show calcStateKey P (P.dhPub L.bPriv)
      (P.dhPub L.aPriv) = L.stateKeyB P from rfl, hS.stB])]
  rw [run_bind_of_ok (a := false) (s1 := B) _ (by
    rw [run_try', hkey]; simp only [MemStore.handle, MemStore.hasSession, hS.sessB,
      Option.isSome_none])]
  rw [if_neg (by simp)]
  unfold decUnknown
  simp only [bind_eq]
  rw [run_bind_of_ok (a := .ok (initDHKey P L.kPriv)) (s1 := B) _ (by
    rw [run_try', h5]; simp only [MemStore.handle, MemStore.getPrivateKeyEntry, hS.priv])]
  simp only [if_true, h8, hL.b]
  rw [h4, h3, rkaRecipient_eq P hP hp _ _ s L.aPriv L.kPriv L.bPriv _ _ (initDHKey_public_pub32 P hP _)
    (initDHKey_public_pub32 P hP _) none _ hd]
  rw [run_bind_of_ok _ rt]
  simp only [addSessionKey, bind_eq, initDHKey_priv32, orPanic, ret_bind]
  let sb : State := ⟨0, 0, 0, (initDHKey P s).public, initDHKey P L.kPriv,
    some (initDHKey P a.fresh), none, h.nymAddress, false⟩
  refine ⟨(MemStore.handle P (.setState (L.stateKeyB P) sb) (MemStore.handle P
    (.addSKey (initDHKey P a.fresh).hash (initDHKey P a.fresh).public (P.b64 a.fresh))
    (B.setSess (L.keyB P s) t)).2).2, sb, t, ?_, ⟨rfl, rfl, _, rfl⟩, ?_, ?_⟩
  · rw [run_bind_of_ok (a := ()) _ (by rw [run_ask_ok]; rfl)]
    rw [run_bind_of_ok (a := ()) _ (by rw [run_ask_ok]; rfl)]
    rfl
  · exact upd_same _ _ _
  · have I := recvInv_full P (effKeys L.nB) (effKeys_ne _) L.bob h (deriveRootKey P (P.dh L.aPriv
      (P.dhPub L.kPriv)) (P.dh s (P.dhPub L.kPriv)) (P.dh s (P.dhPub L.bPriv)) none) (P.dhPub s)
      (P.dhPub L.kPriv) (B.setSess (L.keyB P s) t) t (by rw [hkey]; exact upd_same _ _ _) ft
    rw [hkey, hfix] at I
    exact ⟨I.sess, I.dvd, I.pos, I.stuck, I.small, I.le, I.chain, I.slen, I.rlen, I.keys⟩

/-- The sender starts a session. -/
theorem encSession_first {L : Link} {uid : UID} (hL : L.OK P uid) (r : Round)
    (hd : AllDifferent [P.dhPub r.rnd.headerPriv, P.dhPub L.aPriv, P.dhPub r.rnd.sessPriv,
      P.dhPub L.bPriv, P.dhPub L.kPriv])
    {A B : MemStore} (hS : L.Start P A B) :
    ∃ ss nym A1 t, (encSession P (L.encArgs r) r.rnd (effKeys L.nA) (L.stateKeyA P)).run
        (MemStore.handle P) A = (.ok (ss, nym), A1) ∧
      AState P L r.rnd.sessPriv 0 ss ∧ ss.nextSenderSessionPub = none ∧
      SendInv P (effKeys L.nA) (L.keyA P r.rnd.sessPriv)
        (deriveRootKey P (P.dh L.aPriv (P.dhPub L.kPriv)) (P.dh r.rnd.sessPriv (P.dhPub L.kPriv))
          (P.dh r.rnd.sessPriv (P.dhPub L.bPriv)) none) (P.dhPub L.kPriv) (L.fix P) 0
        (effKeys L.nA).toNat A1 t := by
  obtain ⟨t, ft, rt⟩ := run_generate_new P L.alice.identity L.bob.identity
    (initDHKey P L.aPriv).hash (initDHKey P L.bPriv).public.hash
    (deriveRootKey P (P.dh L.aPriv (P.dhPub L.kPriv)) (P.dh r.rnd.sessPriv (P.dhPub L.kPriv))
      (P.dh r.rnd.sessPriv (P.dhPub L.bPriv)) none) false (P.dhPub r.rnd.sessPriv)
      (P.dhPub L.kPriv) (effKeys L.nA) (effKeys_ne _)
      (MemStore.handle P (.addSKey (initDHKey P r.rnd.sessPriv).hash
        (initDHKey P r.rnd.sessPriv).public (P.b64 r.rnd.sessPriv)) A).2 (hS.sessA _)
  rw [show genKey P (initDHKey P L.aPriv).hash (initDHKey P L.bPriv).public.hash false
    (P.dhPub r.rnd.sessPriv) (P.dhPub L.kPriv) = L.keyA P r.rnd.sessPriv from rfl] at rt
  let ss : State := ⟨0, 0, 0, (initDHKey P L.kPriv).public, initDHKey P r.rnd.sessPriv, none, none,
    A.nyms L.bob.identity, true⟩
  refine ⟨ss, A.nyms L.bob.identity, ((MemStore.handle P (.addSKey (initDHKey P r.rnd.sessPriv).hash
        (initDHKey P r.rnd.sessPriv).public (P.b64 r.rnd.sessPriv)) A).2.setSess
        (L.keyA P r.rnd.sessPriv) t).setState (L.stateKeyA P) ss, t, ?_,
      ⟨rfl, rfl, initDHKey_public_pub32 P hP _, rfl, rfl, .inl rfl⟩, rfl, ?_⟩
  · unfold encSession
    simp only [bind_eq]
    rw [if_pos (by show statusOK ≠ _; decide)]
    rw [run_bind_of_ok (a := none) (s1 := A) _ (by
      rw [run_ask_ok]; simp only [MemStore.handle, hS.stA])]
    simp only
    rw [run_bind_of_ok (a := ((initDHKey P L.kPriv).public, A.nyms L.bob.identity)) (s1 := A) _ (by
      rw [run_ask_ok]; simp only [MemStore.handle, MemStore.getPublicKeyEntry, Link.encArgs, hS.pub])]
    simp only [addSessionKey, bind_eq, initDHKey_priv32, orPanic, ret_bind]
    rw [run_bind_of_ok (a := ()) _ (by rw [run_ask_ok]; rfl)]
    simp only [Link.encArgs, hL.a, hL.b]
    rw [rkaSender_eq P hP _ _ _ r.rnd.sessPriv L.aPriv L.kPriv L.bPriv _ _
      (initDHKey_public_pub32 P hP _) (initDHKey_public_pub32 P hP _) none _ hd]
    refine (run_bind_of_ok _ rt).trans ?_
    rw [run_bind_of_ok (a := ()) _ (by rw [run_ask_ok]; rfl)]
    rfl
  · obtain ⟨-, f2, f3, f4⟩ := ft
    refine ⟨upd_same _ _ _, Nat.zero_le _, by omega, f2, by rw [f3, keyList_length], ?_⟩
    intro i _ hi
    rw [f3, keyList, List.getElem?_map, List.getElem?_range hi]; rfl

/-- With coinciding keys the sender refuses to start the session. -/
theorem encSession_reflection {L : Link} {uid : UID} (hL : L.OK P uid) (r : Round)
    (hd : ¬ AllDifferent [P.dhPub r.rnd.headerPriv, P.dhPub L.aPriv, P.dhPub r.rnd.sessPriv,
      P.dhPub L.bPriv, P.dhPub L.kPriv])
    {A B : MemStore} (hS : L.Start P A B) :
    ((encSession P (L.encArgs r) r.rnd (effKeys L.nA) (L.stateKeyA P)).run
        (MemStore.handle P) A).1 = .err .reflection := by
  unfold encSession
  simp only [bind_eq]
  rw [if_pos (by show statusOK ≠ _; decide)]
  rw [run_bind_of_ok (a := none) (s1 := A) _ (by
    rw [run_ask_ok]; simp only [MemStore.handle, hS.stA])]
  simp only
  rw [run_bind_of_ok (a := ((initDHKey P L.kPriv).public, A.nyms L.bob.identity)) (s1 := A) _ (by
    rw [run_ask_ok]; simp only [MemStore.handle, MemStore.getPublicKeyEntry, Link.encArgs, hS.pub])]
  simp only [addSessionKey, bind_eq, initDHKey_priv32, orPanic, ret_bind]
  rw [run_bind_of_ok (a := ()) _ (by rw [run_ask_ok]; rfl)]
  simp only [Link.encArgs, hL.a, hL.b]
  rw [run_bind, (C06_reflection_rejected P _ _ _ _ _ _ _ none _ _ _ _ _ _ (initDHKey_pub32 P hP _)
    (initDHKey_pub32 P hP _) (initDHKey_public_pub32 P hP _) (initDHKey_public_pub32 P hP _) hd).1
    (by simp) (by simp)]

omit hP in
/-- The sender continues a session. -/
theorem encSession_later {L : Link} (r : Round) {s : Bytes} {k : Nat}
    {A : MemStore} {ss : State} (hst : A.states (L.stateKeyA P) = some ss)
    (hss : AState P L s k ss) :
    ∃ ss' nym A1, (encSession P (L.encArgs r) r.rnd (effKeys L.nA) (L.stateKeyA P)).run
        (MemStore.handle P) A = (.ok (ss', nym), A1) ∧
      AState P L s k ss' ∧ A1.sessions = A.sessions := by
  unfold encSession
  simp only [bind_eq]
  rw [if_pos (by show statusOK ≠ _; decide)]
  rw [run_bind_of_ok (a := some ss) (s1 := A) _ (by
    rw [run_ask_ok]; simp only [MemStore.handle, hst])]
  simp only
  rw [if_pos (by show statusOK ≠ _; decide)]
  split
  · simp only [setNextSenderSessionPub, addSessionKey, bind_eq, initDHKey_priv32, orPanic, ret_bind]
    let ss' : State := { ss with nextSenderSessionPub := some (initDHKey P r.rnd.nextPriv) }
    refine ⟨ss', ss.nymAddress, (MemStore.handle P (.setState (L.stateKeyA P) ss')
      (MemStore.handle P (.addSKey (initDHKey P r.rnd.nextPriv).hash
        (initDHKey P r.rnd.nextPriv).public (P.b64 r.rnd.nextPriv)) A).2).2, ?_,
      ⟨hss.own, hss.hash, hss.pub, hss.seen, hss.count, .inr ⟨_, rfl⟩⟩, rfl⟩
    rw [run_bind_of_ok (a := (ss', initDHKey P r.rnd.nextPriv)) (s1 := (MemStore.handle P
      (.setState (L.stateKeyA P) ss')
      (MemStore.handle P (.addSKey (initDHKey P r.rnd.nextPriv).hash
        (initDHKey P r.rnd.nextPriv).public (P.b64 r.rnd.nextPriv)) A).2).2)]
    · rfl
    · rw [run_bind_of_ok (a := ()) _ (by rw [run_ask_ok]; rfl)]
      rw [run_bind_of_ok (a := ()) _ (by rw [run_ask_ok]; rfl)]
      rfl
  · exact ⟨ss, _, A, rfl, hss, rfl⟩

theorem mkHeader_verify {L : Link} {uid : UID} (hL : L.OK P uid) (r : Round) {s : Bytes} {k : Nat}
    {ss : State} (hss : AState P L s k ss) :
    (mkHeader (L.encArgs r) r.rnd ss).verify P = true := by
  simp only [Header.verify, mkHeader, Link.encArgs, hss.own, hL.a, hss.seen,
    initDHKey_public_verify P hP, Bool.true_and, Option.map_none, Option.all_none, Bool.and_true]
  rcases hss.next with h | ⟨x, h⟩
  · rw [h]; rfl
  · rw [h]; exact initDHKey_public_verify P hP x

omit hP in
theorem quiet_noWrite {α : Type} {p : Prog α} (h : Quiet p) : NoWrite p := by
  induction p with
  | ret a => exact .ret _
  | fail e => exact .fail _
  | panic => exact .panic
  | call r k ih => exact .call h.1 fun x => ih x (h.2 x)

/-- One message, given what session handling does on both sides. -/
theorem exchange_step {L : Link} {uid : UID} (hL : L.OK P uid) {r : Round} (hr : r.OK P uid)
    (hparse : ∀ h : Header, h.Clean → (P.marshal h).length = 7152 → P.parse (P.marshal h) = some h)
    {s root : Bytes} (hroot : root.length = 32) {k m : Nat} (hk : k < stuckAt (effKeys L.nB).toNat)
    {A A1 B : MemStore} {ss : State} {nym : Str} {t : Sess}
    (hA : (encSession P (L.encArgs r) r.rnd (effKeys L.nA) (L.stateKeyA P)).run
        (MemStore.handle P) A = (.ok (ss, nym), A1))
    (hss : AState P L s k ss)
    (I : SendInv P (effKeys L.nA) (L.keyA P s) root (P.dhPub L.kPriv) (L.fix P) k m A1 t)
    (hB : ∀ a, ∃ B1 sb t m, (decSession P a (effKeys L.nB) (P.dhPub r.rnd.headerPriv) L.bob
        (mkHeader (L.encArgs r) r.rnd ss)).run (MemStore.handle P) B = (.ok (some sb), B1) ∧
      BState P L s sb ∧ B1.states (L.stateKeyB P) = some sb ∧
      RecvInv P (effKeys L.nB) (L.keyB P s) root (P.dhPub L.kPriv) (L.fix P) k m B1 t) :
    exchange P L r A B = .error .sender ∨
    ∃ A' B', exchange P L r A B =
        .ok ((r.content, L.alice.identity, sigOf P r.sigKey r.content), A', B') ∧
      Inv P L s root (k + 1) A' B' := by
  have hk63 : k < 2 ^ 63 := by
    have := stuckAt_le (effKeys L.nB).toNat
    have := effKeys_lt hL.nB
    omega
  unfold exchange
  generalize hrun : (encrypt P (L.encArgs r) r.rnd).run (MemStore.handle P) A = x
  obtain ⟨res, A'⟩ := x
  cases res with
  | err e => exact .inl rfl
  | panic => exact .inl rfl
  | ok nym' =>
    right
    obtain ⟨fp, tp, ss', rp, A1', A2, A3, mk, e1, e2, e3, e4, e5, e6, e7, e8, e9, rfl⟩ :=
      encrypt_ok hP hr.rnd rfl hrun
    have h1 : fp = P.dhPub L.aPriv := by
      have : (L.encArgs r).from.pubKey = initDHKey P L.aPriv := hL.a
      rw [this, initDHKey_pub32 P hP] at e1; exact (Option.some.inj e1).symm
    have h2 : tp = P.dhPub L.bPriv := by
      have : (L.encArgs r).to.pubKey = (initDHKey P L.bPriv).public := by
        simp only [Link.encArgs, hL.b]
      rw [this, initDHKey_public_pub32 P hP] at e2; exact (Option.some.inj e2).symm
    have h3 : rp = P.dhPub L.bPriv := by
      have : (L.encArgs r).to.pubKey = (initDHKey P L.bPriv).public := by
        simp only [Link.encArgs, hL.b]
      rw [this] at e3
      simp only [initDHKey, KeyEntry.public, hP.unb64_b64] at e3
      exact (Option.some.inj e3).symm
    subst h1 h2 h3
    have e4' : (encSession P (L.encArgs r) r.rnd (effKeys L.nA) (L.stateKeyA P)).run
      (MemStore.handle P) A = (.ok (ss', nym'), A1') := e4
    rw [hA] at e4'
    simp only [Prod.mk.injEq, Res.ok.injEq] at e4'
    obtain ⟨⟨rfl, rfl⟩, rfl⟩ := e4'
    have hkeyA : encSessionKey P (L.encArgs r) ss = L.keyA P s := by
      simp only [encSessionKey, Link.encArgs, hL.a, hL.b, hss.own, hss.hash]; rfl
    obtain ⟨m', A2', t', f1, f2, I2⟩ := send_step hP (a := L.encArgs r) (effKeys_ne L.nA)
      (effKeys_lt hL.nA) (ss := ss) (root := root) (sp := P.dhPub s) (rp := P.dhPub L.kPriv) hroot
      (by rw [hss.own]; exact initDHKey_pub32 P hP _) hss.pub (by rw [hss.own]; rfl) hss.hash hk63
      hss.count (by rw [hkeyA]; exact I)
    have e6' : (encExtend P (L.encArgs r) (effKeys L.nA) ss (encSessionKey P (L.encArgs r) ss)).run
      (MemStore.handle P) A1 = (.ok (), A2) := e6
    rw [f1] at e6'
    obtain rfl := (Prod.mk.inj e6').2
    rw [hkeyA] at I2 e7 e9
    rw [hss.count] at e7 e9
    have hmk := send_key hP I2 f2 (by omega)
    rw [show identityFix P (L.encArgs r).from.identity (L.encArgs r).to.identity = L.fix P from rfl]
      at hmk I2
    rw [e7] at hmk
    obtain rfl := Except.ok.inj hmk
    obtain ⟨o3, g3, I3⟩ := send_del (k := k) (s := t') (st := A2'.wrote _)
      ⟨I2.sess, I2.le, I2.small, I2.chain, I2.slen, I2.keys⟩ f2 (by omega) e9
    have oA1 : A1.out = A.out := by
      have := run_out P (quiet_noWrite (quiet_encSession P (L.encArgs r) r.rnd (effKeys L.nA)
        (L.stateKeyA P))) A
      rw [hA] at this; exact this
    have oA2 : A2'.out = A1.out := by
      have := run_out P (quiet_noWrite (quiet_encExtend P (L.encArgs r) (effKeys L.nA) ss
        (encSessionKey P (L.encArgs r) ss))) A1
      rw [f1] at this; exact this
    have hout : (A3.setState (calcStateKey P (P.dhPub L.aPriv) (P.dhPub L.bPriv))
        { ss with senderMessageCount := ss.senderMessageCount + 1 }).out = A.out ++
        P.b64 (messageBytes P r.rnd (mkHeader (L.encArgs r) r.rnd ss) (P.dhPub L.bPriv)
          (senderKey P root (P.dhPub L.kPriv) (L.fix P) k) r.sigKey r.content) := by
      show A3.out = _
      rw [o3]
      show A2'.out ++ _ = _
      rw [oA2, oA1]; rfl
    obtain ⟨B1, sb, tb, mb, d1, d2, d3, d4⟩ := hB ⟨[L.bob],
      (newPre (P.dhPub r.rnd.headerPriv)).write,
      (newOuter Wire.encryptedHeader 1 (r.rnd.nonce ++ be16 7168 ++
          P.boxSeal (P.marshal (mkHeader (L.encArgs r) r.rnd ss)) r.rnd.nonce (P.dhPub L.bPriv)
            r.rnd.headerPriv)).write true ++
          encBody P (senderKey P root (P.dhPub L.kPriv) (L.fix P) k) r.rnd r.sigKey r.content,
        L.nB, r.fresh⟩
    obtain ⟨B', m2, t2, k1, k2, k3, k4⟩ := open_tail hP hL hr e5 (hparse _ (mkHeader_clean _ _ _) e5)
      (mkHeader_verify hP hL r hss) hroot hk rfl rfl (by simp only [mkHeader, hss.own])
      (by simp only [mkHeader, Link.encArgs, hL.a]) hss.hash hss.count e8 d1 d2 d4
    refine ⟨A3.setState (calcStateKey P (P.dhPub L.aPriv) (P.dhPub L.bPriv))
        { ss with senderMessageCount := ss.senderMessageCount + 1 }, B', ?_,
      ⟨hroot, ⟨_, upd_same _ _ _, ?_⟩, ⟨sb, ?_, d2⟩, ⟨m', { t' with send := t'.send.set k [] }, ?_⟩, ⟨m2, t2, k4⟩⟩⟩
    · simp only
      rw [hout, List.drop_left, k1]
      simp only
      rw [k2, List.drop_left]
    · exact ⟨hss.own, hss.hash, hss.pub, hss.seen, by simp only [hss.count]; simp, hss.next⟩
    · rw [k3]; exact d3
    · exact ⟨I3.sess, I3.le, I3.small, I3.chain, I3.slen, I3.keys⟩

theorem exchange_first {L : Link} {uid : UID} (hL : L.OK P uid) {r : Round} (hr : r.OK P uid)
    (hparse : ∀ h : Header, h.Clean → (P.marshal h).length = 7152 → P.parse (P.marshal h) = some h)
    (hpos : 0 < stuckAt (effKeys L.nB).toNat) {A B : MemStore} (hS : L.Start P A B) :
    exchange P L r A B = .error .sender ∨
    ∃ A' B' s root, exchange P L r A B =
        .ok ((r.content, L.alice.identity, sigOf P r.sigKey r.content), A', B') ∧
      Inv P L s root 1 A' B' := by
  by_cases hd : AllDifferent [P.dhPub r.rnd.headerPriv, P.dhPub L.aPriv, P.dhPub r.rnd.sessPriv,
      P.dhPub L.bPriv, P.dhPub L.kPriv]
  · obtain ⟨ss, nym, A1, t, h1, h2, h3, h4⟩ := encSession_first hP hL r hd hS
    rcases exchange_step hP hL hr hparse (deriveRootKey_len P hP _ _ _ _) hpos h1 h2 h4
      (fun a => by
        obtain ⟨B1, sb, t, d1, d2, d3, d4⟩ := decSession_first hP hL a (P.dhPub r.rnd.headerPriv)
          (h := mkHeader (L.encArgs r) r.rnd ss) (s := r.rnd.sessPriv) rfl
          (by simp only [mkHeader, h2.own]) (by simp only [mkHeader, Link.encArgs, hL.a]) h2.hash
          (by simp only [mkHeader, h3, Option.map_none]) hd hS
        exact ⟨B1, sb, t, _, d1, d2, d3, d4⟩) with h | ⟨A', B', h, h'⟩
    · exact .inl h
    · exact .inr ⟨A', B', _, _, h, h'⟩
  · left
    have h := encSession_reflection hP hL r hd hS
    have : ((encrypt P (L.encArgs r) r.rnd).run (MemStore.handle P) A).1 = .err .reflection := by
      have e1 : (L.encArgs r).from.pubKey.pub32 P = some (P.dhPub L.aPriv) := by
        rw [show (L.encArgs r).from.pubKey = initDHKey P L.aPriv from hL.a]
        exact initDHKey_pub32 P hP _
      have e2 : (L.encArgs r).to.pubKey.pub32 P = some (P.dhPub L.bPriv) := by
        rw [show (L.encArgs r).to.pubKey = (initDHKey P L.bPriv).public by
          simp only [Link.encArgs, hL.b]]
        exact initDHKey_public_pub32 P hP _
      unfold encrypt
      simp only [bind_eq, e1, e2, orPanic, ret_bind]
      rw [run_bind]
      change ((encSession P (L.encArgs r) r.rnd (if (L.encArgs r).numOfKeys = 0 then numOfFutureKeys
        else (L.encArgs r).numOfKeys) (calcStateKey P (P.dhPub L.aPriv) (P.dhPub L.bPriv))).run
        (MemStore.handle P) A).1 = .err .reflection at h
      generalize (encSession P (L.encArgs r) r.rnd (if (L.encArgs r).numOfKeys = 0 then
        numOfFutureKeys else (L.encArgs r).numOfKeys)
        (calcStateKey P (P.dhPub L.aPriv) (P.dhPub L.bPriv))).run (MemStore.handle P) A = x at h ⊢
      obtain ⟨x1, x2⟩ := x
      subst h
      rfl
    unfold exchange
    generalize (encrypt P (L.encArgs r) r.rnd).run (MemStore.handle P) A = x at this ⊢
    obtain ⟨x1, x2⟩ := x
    subst this
    rfl

theorem exchange_later {L : Link} {uid : UID} (hL : L.OK P uid) {r : Round} (hr : r.OK P uid)
    (hparse : ∀ h : Header, h.Clean → (P.marshal h).length = 7152 → P.parse (P.marshal h) = some h)
    {s root : Bytes} {k : Nat} (hk : k < stuckAt (effKeys L.nB).toNat) {A B : MemStore}
    (I : Inv P L s root k A B) :
    exchange P L r A B = .error .sender ∨
    ∃ A' B', exchange P L r A B =
        .ok ((r.content, L.alice.identity, sigOf P r.sigKey r.content), A', B') ∧
      Inv P L s root (k + 1) A' B' := by
  obtain ⟨ss0, hst, hss0⟩ := I.stA
  obtain ⟨ss, nym, A1, h1, h2, h3⟩ := encSession_later (P := P) r hst hss0
  obtain ⟨m, t, J⟩ := I.send
  refine exchange_step hP hL hr hparse I.rlen hk h1 h2 (t := t) (m := m)
    ⟨by rw [h3]; exact J.sess, J.le, J.small, J.chain, J.slen, J.keys⟩ fun a => ?_
  obtain ⟨sb, hb, hsb⟩ := I.stB
  obtain ⟨mb, tb, K⟩ := I.recv
  have hd := decSession_later hP hL a (P.dhPub r.rnd.headerPriv)
    (h := mkHeader (L.encArgs r) r.rnd ss) (s := s) (by simp only [mkHeader, h2.own])
    (by simp only [mkHeader, Link.encArgs, hL.a]) h2.hash
    (by simp only [mkHeader, h2.seen, Option.map_none]) hb hsb K.sess
  obtain ⟨f1, f2⟩ := delPriv_frame B (keyHash P L.kPriv)
  exact ⟨_, sb, tb, mb, hd, hsb, by rw [f2]; exact hb,
    ⟨by rw [f1]; exact K.sess, K.dvd, K.pos, K.stuck, K.small, K.le, K.chain, K.slen, K.rlen, K.keys⟩⟩

theorem conversation_later {L : Link} {uid : UID} (hL : L.OK P uid)
    (hparse : ∀ h : Header, h.Clean → (P.marshal h).length = 7152 → P.parse (P.marshal h) = some h)
    {s root : Bytes} (rs : List Round) (hrs : ∀ r ∈ rs, r.OK P uid) (k : Nat)
    (hk : k + rs.length ≤ stuckAt (effKeys L.nB).toNat) (A B : MemStore)
    (I : Inv P L s root k A B) :
    conversation P L rs A B = .error .sender ∨
    conversation P L rs A B =
      .ok (rs.map fun r => (r.content, L.alice.identity, sigOf P r.sigKey r.content)) := by
  induction rs generalizing k A B with
  | nil => exact .inr rfl
  | cons r rs ih =>
    simp only [List.length_cons] at hk
    rcases exchange_later hP hL (hrs r (by simp)) hparse (by omega) I with h | ⟨A', B', h, I'⟩
    · left; simp only [conversation, h]
    · rcases ih (fun r hr => hrs r (by simp [hr])) (k + 1) (by omega) A' B' I' with h' | h'
      · left; simp only [conversation, h, h']
      · right; simp only [conversation, h, h', List.map_cons]

/-- C61: two users who have never communicated exchange any number of messages
(below the limit of C13) in one direction, in order, with any contents, signature
choices and random choices.  Then the recipient never fails: either some Encrypt
call reports an error, or every message is decrypted to exactly the content that
was sent, attributed to the sender, with the sender's signature. -/
theorem C61_conversation (L : Link) (uid : UID) (hL : L.OK P uid)
    (hparse : ∀ h : Header, h.Clean → (P.marshal h).length = 7152 → P.parse (P.marshal h) = some h)
    (rs : List Round) (hrs : ∀ r ∈ rs, r.OK P uid)
    (hlen : rs.length ≤ stuckAt (effKeys L.nB).toNat) (A B : MemStore) (hS : L.Start P A B) :
    conversation P L rs A B = .error .sender ∨
    conversation P L rs A B =
      .ok (rs.map fun r => (r.content, L.alice.identity, sigOf P r.sigKey r.content)) := by
  cases rs with
  | nil => exact .inr rfl
  | cons r rs =>
    simp only [List.length_cons] at hlen
    rcases exchange_first hP hL (hrs r (by simp)) hparse (by omega) hS with h | ⟨A', B', s, root, h, I'⟩
    · left; simp only [conversation, h]
    · rcases conversation_later hP hL hparse rs (fun r hr => hrs r (by simp [hr])) 1 (by omega) A' B'
        I' with h' | h'
      · left; simp only [conversation, h, h']
      · right; simp only [conversation, h, h', List.map_cons]

/-- What Encrypt requires of a message and its sender; the header of every session
state that can occur in the conversation has the prescribed JSON length. -/
structure Round.Fits (P : Prims) (L : Link) (r : Round) : Prop where
  lastHash : r.lastHash.length = 204
  identity : L.alice.identity.length ≤ 254
  nym : r.nymAddress.length ≤ 1568
  json : L.alice.json.length ≤ 2004
  content : r.content.length ≤ 41691
  header : ∀ s k ss, AState P L s k ss → (P.marshal (mkHeader (L.encArgs r) r.rnd ss)).length = 7152

omit hP in
theorem del_succ {st : MemStore} {key : Str} {s : Sess} {i : UInt64} (h : st.sessions key = some s)
    (hi : i.toNat < s.send.length) (b : Bool) :
    ∃ st', st.delMessageKey key b i = (.ok (), st') := by
  unfold MemStore.delMessageKey
  rw [h]
  simp only
  rw [if_neg (by omega)]
  exact ⟨_, rfl⟩

omit hP in
theorem newHeader_run {a : EncArgs} {rnd : Rnd} {ss : State} {σ : Type}
    {hd : {β : Type} → Req β → σ → β × σ} {s : σ} (h1 : a.lastHash.length = entryBase64Len)
    (h2 : a.from.identity.length ≤ identityMaxLen) (h3 : a.nymAddress.length ≤ maxNymAddress)
    (h4 : a.from.json.length ≤ maxUIDMessage) :
    (newHeader a rnd ss).run hd s = (.ok (mkHeader a rnd ss), s) := by
  unfold newHeader
  simp only [bind_eq, failIf]
  rw [if_neg (by simpa using h1), ret_bind, if_neg (by simpa using h2), ret_bind,
    if_neg (by simpa using h3), ret_bind, if_neg (by simpa using h4), ret_bind]
  rfl

theorem encrypt_run {L : Link} {uid : UID} (hL : L.OK P uid) {r : Round} (hr : r.OK P uid)
    (hf : r.Fits P L) {s root : Bytes} (hroot : root.length = 32) {k m : Nat} (hk63 : k < 2 ^ 63)
    {A A1 : MemStore} {ss : State} {nym : Str} {t : Sess}
    (hA : (encSession P (L.encArgs r) r.rnd (effKeys L.nA) (L.stateKeyA P)).run
        (MemStore.handle P) A = (.ok (ss, nym), A1))
    (hss : AState P L s k ss)
    (I : SendInv P (effKeys L.nA) (L.keyA P s) root (P.dhPub L.kPriv) (L.fix P) k m A1 t) :
    ∃ A', (encrypt P (L.encArgs r) r.rnd).run (MemStore.handle P) A = (.ok nym, A') := by
  have e1 : (L.encArgs r).from.pubKey.pub32 P = some (P.dhPub L.aPriv) := by
    rw [show (L.encArgs r).from.pubKey = initDHKey P L.aPriv from hL.a]
    exact initDHKey_pub32 P hP _
  have eto : (L.encArgs r).to.pubKey = (initDHKey P L.bPriv).public := by
    simp only [Link.encArgs, hL.b]
  have e2 : (L.encArgs r).to.pubKey.pub32 P = some (P.dhPub L.bPriv) := by
    rw [eto]; exact initDHKey_public_pub32 P hP _
  have e3 : uidPublicKey P (L.encArgs r).to = .ret (P.dhPub L.bPriv) := by
    unfold uidPublicKey
    rw [eto]
    simp [initDHKey, KeyEntry.public, hP.unb64_b64, hP.dhPub_len]
  have hkeyA : encSessionKey P (L.encArgs r) ss = L.keyA P s := by
    simp only [encSessionKey, Link.encArgs, hL.a, hL.b, hss.own, hss.hash]; rfl
  obtain ⟨m', A2, t', f1, f2, I2⟩ := send_step hP (a := L.encArgs r) (effKeys_ne L.nA)
    (effKeys_lt hL.nA) (ss := ss) (root := root) (sp := P.dhPub s) (rp := P.dhPub L.kPriv) hroot
    (by rw [hss.own]; exact initDHKey_pub32 P hP _) hss.pub (by rw [hss.own]; rfl) hss.hash hk63
    hss.count (by rw [hkeyA]; exact I)
  rw [hkeyA] at f1 I2
  have hmk := send_key hP I2 f2 (by omega)
  have hmar := hf.header s k ss hss
  have hhp : headerPacket P (mkHeader (L.encArgs r) r.rnd ss) (P.dhPub L.bPriv) r.rnd.headerPriv
      r.rnd.nonce = .ret (r.rnd.nonce ++ be16 7168 ++ P.boxSeal (P.marshal (mkHeader (L.encArgs r)
        r.rnd ss)) r.rnd.nonce (P.dhPub L.bPriv) r.rnd.headerPriv) := by
    unfold headerPacket
    simp only [hP.box_len, hmar]
    rfl
  unfold encrypt
  simp only [bind_eq, e1, e2, orPanic, ret_bind]
  rw [show calcStateKey P (P.dhPub L.aPriv) (P.dhPub L.bPriv) = L.stateKeyA P from rfl,
    show (if (L.encArgs r).numOfKeys = 0 then numOfFutureKeys else (L.encArgs r).numOfKeys) =
      effKeys L.nA from rfl]
  rw [run_bind_of_ok _ hA]
  simp only
  rw [run_bind_of_ok _ (newHeader_run (by exact hf.lastHash) (by exact hf.identity)
    (by exact hf.nym) (by exact hf.json))]
  rw [e3, ret_bind, hhp, ret_bind]
  rw [show calcKey P (L.encArgs r).from.pubKey.hash (L.encArgs r).to.pubKey.hash
    ss.senderSessionPub.hash ss.recipientTemp.hash = L.keyA P s from hkeyA]
  rw [run_bind_of_ok _ f1]
  rw [run_bind_of_ok (a := senderKey P root (P.dhPub L.kPriv) (L.fix P) k) (s1 := A2) _
    (by rw [run_ask_ok, hss.count]; simp only [MemStore.handle]; exact congrArg (·, A2) hmk)]
  rw [show (L.encArgs r).status = statusOK from rfl, if_pos rfl]
  have hc : (L.encArgs r).content.length ≤ maxContentLength := hf.content
  simp only [failIf]
  rw [if_neg (by simpa using hc), ret_bind, if_neg, ret_bind]
  · obtain ⟨A3, hdel⟩ : ∃ A3, (A2.wrote (P.b64 (messageBytes P r.rnd (mkHeader (L.encArgs r) r.rnd ss)
        (P.dhPub L.bPriv) (senderKey P root (P.dhPub L.kPriv) (L.fix P) k) r.sigKey
        r.content))).delMessageKey (L.keyA P s) true (UInt64.ofNat k) = (.ok (), A3) := by
      refine del_succ (s := t') (by exact I2.sess) ?_ true
      rw [ofNat_toNat (show k < 2 ^ 64 by omega), I2.slen]; exact f2
    refine ⟨A3.setState (L.stateKeyA P) { ss with senderMessageCount := ss.senderMessageCount + 1 },
      (run_bind_of_ok (a := ()) (s1 := A2.wrote _) _ rfl).trans ?_⟩
    refine (run_bind_of_ok (a := ()) (s1 := A3) _ (by rw [run_ask_ok, hss.count]; exact hdel)).trans ?_
    rw [run_bind_of_ok (a := ()) _ (by rw [run_ask_ok]; rfl)]
    rfl
  · simp only [ne_eq, decide_not, Bool.not_eq_true', decide_eq_false_iff_not, Decidable.not_not]
    rw [hP.b64_len]
    simp only [List.length_append, pre_length P hP, encBody_length P hP _ r.rnd hr.rnd _ _ hc]
    simp only [outer_length, List.length_append, newOuter, hr.rnd.nonce_len, Wire.be16_length, hP.box_len, hmar, encodedMsgSize]

/-- C61: and if the first message starts with pairwise different keys and the
messages satisfy what Encrypt checks, the whole conversation succeeds. -/
theorem C61_conversation_succeeds (L : Link) (uid : UID) (hL : L.OK P uid)
    (hparse : ∀ h : Header, h.Clean → (P.marshal h).length = 7152 → P.parse (P.marshal h) = some h)
    (rs : List Round) (hrs : ∀ r ∈ rs, r.OK P uid) (hfit : ∀ r ∈ rs, r.Fits P L)
    (hd : ∀ r ∈ rs.head?, AllDifferent [P.dhPub r.rnd.headerPriv, P.dhPub L.aPriv,
      P.dhPub r.rnd.sessPriv, P.dhPub L.bPriv, P.dhPub L.kPriv])
    (hlen : rs.length ≤ stuckAt (effKeys L.nB).toNat) (A B : MemStore) (hS : L.Start P A B) :
    conversation P L rs A B =
      .ok (rs.map fun r => (r.content, L.alice.identity, sigOf P r.sigKey r.content)) := by
  have hlim : stuckAt (effKeys L.nB).toNat < 2 ^ 63 := by
    have := stuckAt_le (effKeys L.nB).toNat
    have := effKeys_lt hL.nB
    omega
  have nosender : ∀ (r : Round) (A B A' : MemStore) nym,
      (encrypt P (L.encArgs r) r.rnd).run (MemStore.handle P) A = (.ok nym, A') →
      exchange P L r A B ≠ .error .sender := by
    intro r A B A' nym h
    unfold exchange
    rw [h]
    simp only
    split <;> simp
  have later : ∀ (rs : List Round) (hrs : ∀ r ∈ rs, r.OK P uid) (hfit : ∀ r ∈ rs, r.Fits P L)
      (s root : Bytes) (k : Nat) (hk : k + rs.length ≤ stuckAt (effKeys L.nB).toNat)
      (A B : MemStore) (I : Inv P L s root k A B), conversation P L rs A B =
      .ok (rs.map fun r => (r.content, L.alice.identity, sigOf P r.sigKey r.content)) := by
    intro rs
    induction rs with
    | nil => intros; rfl
    | cons r rs ih =>
      intro hrs hfit s root k hk A B I
      simp only [List.length_cons] at hk
      obtain ⟨ss0, hst, hss0⟩ := I.stA
      obtain ⟨ss, nym, A1, h1, h2, h3⟩ := encSession_later (P := P) r hst hss0
      obtain ⟨m, t, J⟩ := I.send
      obtain ⟨A2, hA2⟩ := encrypt_run hP hL (hrs r (by simp)) (hfit r (by simp)) I.rlen (by omega) h1 h2
        (t := t) (m := m) ⟨by rw [h3]; exact J.sess, J.le, J.small, J.chain, J.slen, J.keys⟩
      rcases exchange_later hP hL (hrs r (by simp)) hparse (by omega) I with h | ⟨A', B', h, I'⟩
      · exact absurd h (nosender r A B A2 nym hA2)
      · simp only [conversation, h, ih (fun r hr => hrs r (by simp [hr]))
          (fun r hr => hfit r (by simp [hr])) s root (k + 1) (by omega) A' B' I', List.map_cons]
  cases rs with
  | nil => rfl
  | cons r rs =>
    simp only [List.length_cons] at hlen
    obtain ⟨ss, nym, A1, t, h1, h2, -, h4⟩ := encSession_first hP hL r (hd r (by simp)) hS
    obtain ⟨A2, hA2⟩ := encrypt_run hP hL (hrs r (by simp)) (hfit r (by simp))
      (deriveRootKey_len P hP _ _ _ _) (by omega) h1 h2 h4
    rcases exchange_first hP hL (hrs r (by simp)) hparse (by omega) hS with h | ⟨A', B', s, root, h, I'⟩
    · exact absurd h (nosender r A B A2 nym hA2)
    · simp only [conversation, h, later rs (fun r hr => hrs r (by simp [hr]))
        (fun r hr => hfit r (by simp [hr])) s root 1 (by omega) A' B' I', List.map_cons]

end

end Verif.Msg
