import Verif.Msg.AnyOrder
/-
One party of a two-way conversation with refreshed sessions: what its store holds, and what
sending and opening messages do to it (for C145).
-/
set_option autoImplicit false
namespace Verif.Msg
open Prog
open Wire (Outer newOuter newPre readFirst)

/-- The same two users, seen from the other side. -/
def Link.flip (L : Link) : Link :=
  { alice := L.bob, bob := L.alice, aPriv := L.bPriv, bPriv := L.aPriv, kPriv := L.kPriv,
    nA := L.nB, nB := L.nA }

/-- The name under which the first user stores the session with own key `a` and peer's key `b`. -/
def Link.skey (P : Prims) (L : Link) (a b : Bytes) : Str :=
  calcKey P (keyHash P L.aPriv) (keyHash P L.bPriv) (keyHash P a) (keyHash P b)

namespace Two

/-- A session: the first user's key, the second user's key, the root key, and whether the first
user proposed it. -/
structure Sn where
  a : Bytes
  b : Bytes
  root : Bytes
  mine : Bool
  deriving DecidableEq

def Sn.flip (s : Sn) : Sn := ⟨s.b, s.a, s.root, !s.mine⟩

@[simp] theorem Sn.flip_flip (s : Sn) : s.flip.flip = s := by simp [Sn.flip]

/-- What one party knows: the session it sends in, the number of sessions stored, the next own
key, the peer's next key if seen, and for every session the number of messages sent and the
messages opened.  `base` are the stored sessions that are not of this conversation, `ex` the own keys of
this conversation that they use; `ki` says that the session is one started with a KeyInit message. -/
structure View where
  cur : Nat
  known : Nat
  nx : Option Bytes
  sn : Option Bytes
  sent : Nat → Nat
  opened : Nat → List Nat
  base : Str → Option Sess
  ex : List Bytes
  ki : Bool

def fset {α : Type} (f : Nat → α) (j : Nat) (x : α) : Nat → α := fun i => if i = j then x else f i

@[simp] theorem fset_same {α : Type} (f : Nat → α) (j : Nat) (x : α) : fset f j x j = x := if_pos rfl
theorem fset_other {α : Type} (f : Nat → α) {j i : Nat} (x : α) (h : i ≠ j) : fset f j x i = f i :=
  if_neg h

/-- The keys of a conversation: 32 bytes long, and neither the hashes of the public keys nor the
names of the sessions between them collide. -/
structure Keys (P : Prims) (L : Link) (K : List Bytes) : Prop where
  a : L.aPriv ∈ K
  b : L.bPriv ∈ K
  len : ∀ x ∈ K, x.length = 32
  inj : ∀ x ∈ K, ∀ y ∈ K, keyHash P x = keyHash P y → x = y
  skey : ∀ x ∈ K, ∀ y ∈ K, ∀ x' ∈ K, ∀ y' ∈ K, L.skey P x y = L.skey P x' y' → x = x' ∧ y = y'

theorem Keys.ne {P : Prims} {L : Link} {K : List Bytes} (hK : Keys P L K) {x y : Bytes} (hx : x ∈ K)
    (hy : y ∈ K) (h : x ≠ y) : P.dhPub x ≠ P.dhPub y :=
  fun e => h (hK.inj x hx y hy (by unfold keyHash; rw [e]))

theorem Keys.diff {P : Prims} {L : Link} {K : List Bytes} (hK : Keys P L K) (l : List Bytes)
    (hl : ∀ x ∈ l, x ∈ K) (hd : l.Nodup) : AllDifferent (l.map P.dhPub) := by
  unfold AllDifferent
  induction l with
  | nil => exact List.nodup_nil
  | cons x l ih =>
    rw [List.nodup_cons] at hd
    rw [List.map_cons, List.nodup_cons]
    refine ⟨fun hm => ?_, ih (fun y hy => hl y (by simp [hy])) hd.2⟩
    obtain ⟨y, hy, e⟩ := List.mem_map.mp hm
    exact hK.ne (hl x (by simp)) (hl y (by simp [hy])) (fun e => hd.1 (e ▸ hy)) e.symm

/-- A stored session after `k` sent messages, with the messages `opened` opened. -/
structure SInv (P : Prims) (key : Str) (root op tp fix : Bytes) (k : Nat) (opened : List Nat)
    (m : Nat) (st : MemStore) (s : Sess) : Prop where
  sess : st.sessions key = some s
  rootHash : s.root = P.b64 (P.sha512 root)
  le : k ≤ m
  pos : m ≠ 0
  small : m ≤ 602 + k + 2 ^ 32
  chain : s.chain = P.b64 (chainAt P root m)
  slen : s.send.length = m
  rlen : s.recv.length = m
  low : ∀ i ∈ opened, i < m
  used : ∀ i ∈ opened, s.recv[i]? = some []
  recv : ∀ i, i ∉ opened → i < m → s.recv[i]? = some (P.b64 (senderKey P root op fix i))
  send : ∀ i, k ≤ i → i < m → s.send[i]? = some (P.b64 (senderKey P root tp fix i))
  gone : ∀ i, i < k → s.send[i]? = some []

/-- The store changed nothing but the session `key` and the output. -/
structure Frame (key : Str) (st st' : MemStore) : Prop where
  privs : st'.privs = st.privs
  states : st'.states = st.states
  skeys : st'.skeys = st.skeys
  sess : ∀ k, k ≠ key → st'.sessions k = st.sessions k

theorem Frame.refl (key : Str) (st : MemStore) : Frame key st st := ⟨rfl, rfl, rfl, fun _ _ => rfl⟩

theorem Frame.trans {key : Str} {a b c : MemStore} (h : Frame key a b) (h' : Frame key b c) :
    Frame key a c :=
  ⟨h'.privs.trans h.privs, h'.states.trans h.states, h'.skeys.trans h.skeys,
    fun k hk => (h'.sess k hk).trans (h.sess k hk)⟩

theorem Frame.setSess (key : Str) (st : MemStore) (s : Sess) : Frame key st (st.setSess key s) :=
  ⟨rfl, rfl, rfl, fun _ h => upd_other _ _ h⟩

theorem Frame.wrote (key : Str) (st : MemStore) (b : Bytes) : Frame key st (st.wrote b) :=
  ⟨rfl, rfl, rfl, fun _ _ => rfl⟩

/-- The own public key with this hash can be found (msg/decrypt.go:370-392). -/
def Own (P : Prims) (st : MemStore) (hash : Str) (rp : Bytes) : Prop :=
  (∃ ke, st.privs hash = some ke ∧ ke.pub32 P = some rp) ∨
  (st.privs hash = none ∧ ∃ ke p, st.skeys hash = some (ke, p) ∧ ke.pub32 P = some rp ∧
    ke.func = .ecdhe ∧ (p = [] ∨ ∃ k, P.unb64 p = some k ∧ k.length = 32))

section
variable {P : Prims} (hP : P.Good)
include hP

omit hP in
theorem SInv.moved {key : Str} {root op tp fix : Bytes} {k m : Nat} {opened : List Nat}
    {st st' : MemStore} {s : Sess} (I : SInv P key root op tp fix k opened m st s)
    (h : st'.sessions key = st.sessions key) : SInv P key root op tp fix k opened m st' s :=
  ⟨h.trans I.sess, I.rootHash, I.le, I.pos, I.small, I.chain, I.slen, I.rlen, I.low, I.used, I.recv,
    I.send, I.gone⟩

omit hP in
theorem sinv_new {n : UInt64} (hn : n ≠ 0) (hn32 : n.toNat < 2 ^ 32) {key : Str}
    {root op tp fix : Bytes} {st : MemStore} {s : Sess} (hs : st.sessions key = some s)
    (hf : FullSess P s root tp op fix n.toNat) : SInv P key root op tp fix 0 [] n.toNat st s := by
  obtain ⟨f1, f2, f3, f4⟩ := hf
  refine ⟨hs, f1, Nat.zero_le _, fun e => hn (UInt64.toNat_inj.mp (by simpa using e)), by omega, f2,
    by rw [f3, keyList_length], by rw [f4, keyList_length], fun i hi => absurd hi (by simp),
    fun i hi => absurd hi (by simp), ?_, ?_, fun i hi => absurd hi (Nat.not_lt_zero _)⟩
  · intro i _ hi
    rw [f4, keyList, List.getElem?_map, List.getElem?_range hi]; rfl
  · intro i _ hi
    rw [f3, keyList, List.getElem?_map, List.getElem?_range hi]; rfl

theorem SInv.chainKey {key : Str} {root op tp fix : Bytes} {k m : Nat} {opened : List Nat}
    {st : MemStore} {s : Sess} (I : SInv P key root op tp fix k opened m st s)
    (hroot : root.length = 32) : st.getChainKey P key = .ok (chainAt P root m) := by
  unfold MemStore.getChainKey
  rw [I.sess]
  simp only [I.chain, hP.unb64_b64, chainAt_len P hP root hroot]
  rw [if_neg (by omega), List.take_of_length_le]
  rw [chainAt_len P hP root hroot]; exact Nat.le_refl _

theorem SInv.rootKeyHash {key : Str} {root op tp fix : Bytes} {k m : Nat} {opened : List Nat}
    {st : MemStore} {s : Sess} (I : SInv P key root op tp fix k opened m st s) :
    st.getRootKeyHash P key = .ok (P.sha512 root) := by
  unfold MemStore.getRootKeyHash
  rw [I.sess]
  simp only [I.rootHash, hP.unb64_b64, hP.sha512_len]
  rw [if_neg (by omega), List.take_of_length_le]
  rw [hP.sha512_len]; exact Nat.le_refl _

/-- Extending a session by `n` keys. -/
theorem SInv.extend {key : Str} {root op tp fix : Bytes} {k m : Nat} {opened : List Nat}
    {st : MemStore} {s : Sess} (I : SInv P key root op tp fix k opened m st s) (n : Nat)
    (hn : m + n ≤ 602 + k + 2 ^ 32) (r : Str) :
    ∃ s', st.storeSession key r (P.b64 (chainAt P (chainAt P root m) n))
        (keyList P (chainAt P root m) (P.sha512 tp) fix n)
        (keyList P (chainAt P root m) (P.sha512 op) fix n) = (.ok (), st.setSess key s') ∧
      SInv P key root op tp fix k opened (m + n) (st.setSess key s') s' := by
  rw [sess_ext I.sess _ _ _ _ (by simp [keyList_length])]
  have hpos := I.pos
  have app : ∀ (l : List Str) (x : Bytes) (i : Nat), l.length = m → i < m + n → ¬ i < m →
      (l ++ keyList P (chainAt P root m) (P.sha512 x) fix n)[i]? =
        some (P.b64 (senderKey P root x fix i)) := by
    intro l x i hl h1 h2
    rw [List.getElem?_append_right (by omega), hl]
    unfold keyList
    rw [List.getElem?_map, List.getElem?_range (by omega)]
    simp only [Option.map_some, messageKey, senderKey]
    rw [← chainAt_add]
    congr 4; omega
  refine ⟨_, rfl, ⟨upd_same _ _ _, I.rootHash, by have := I.le; omega, by omega, hn, ?_, ?_, ?_, ?_, ?_,
    ?_, ?_, ?_⟩⟩
  · show P.b64 (chainAt P (chainAt P root m) n) = _
    rw [← chainAt_add]
  · simp [keyList_length, I.slen]
  · simp [keyList_length, I.rlen]
  · intro j hj
    have := I.low j hj
    omega
  · intro j hj
    have := I.low j hj
    simp only
    rw [List.getElem?_append_left (by rw [I.rlen]; exact this)]
    exact I.used j hj
  · intro j h1 h2
    simp only
    by_cases hjm : j < m
    · rw [List.getElem?_append_left (by rw [I.rlen]; exact hjm)]
      exact I.recv j h1 hjm
    · exact app _ _ _ I.rlen h2 hjm
  · intro j h1 h2
    simp only
    by_cases hjm : j < m
    · rw [List.getElem?_append_left (by rw [I.slen]; exact hjm)]
      exact I.send j h1 hjm
    · exact app _ _ _ I.slen h2 hjm
  · intro j hj
    have := I.le
    simp only
    rw [List.getElem?_append_left (by rw [I.slen]; omega)]
    exact I.gone j hj

/-- Key extension in Encrypt. -/
theorem SInv.encExtend {a : EncArgs} {n : UInt64} (hn : n ≠ 0) (hn32 : n.toNat < 2 ^ 32) {ss : State}
    {root sp rp : Bytes} (hroot : root.length = 32)
    (hsp : ss.senderSessionPub.pub32 P = some sp) (hrp : ss.recipientTemp.pub32 P = some rp)
    (hsh : ss.senderSessionPub.hash = P.b64 (P.sha512 sp))
    (hrh : ss.recipientTemp.hash = P.b64 (P.sha512 rp)) {k m : Nat} (hk : k < 2 ^ 62)
    (hcount : ss.senderMessageCount = UInt64.ofNat k) {st : MemStore} {s : Sess} {opened : List Nat}
    (I : SInv P (encSessionKey P a ss) root sp rp (identityFix P a.from.identity a.to.identity)
      k opened m st s) :
    ∃ m' st' s', (encExtend P a n ss (encSessionKey P a ss)).run (MemStore.handle P) st =
        (.ok (), st') ∧ k < m' ∧ Frame (encSessionKey P a ss) st st' ∧
      SInv P (encSessionKey P a ss) root sp rp (identityFix P a.from.identity a.to.identity)
        k opened m' st' s' := by
  have hm64 : m < 2 ^ 64 := by have := I.small; omega
  have hk64 : k < 2 ^ 64 := by omega
  have hnum : st.numMessageKeys (encSessionKey P a ss) = .ok (UInt64.ofNat m) := by
    unfold MemStore.numMessageKeys; rw [I.sess]; simp only [I.slen]
  have hn0 : 0 < n.toNat := by
    rcases Nat.eq_zero_or_pos n.toNat with h | h
    · exact absurd (UInt64.toNat_inj.mp (by simpa using h)) hn
    · exact h
  unfold Msg.encExtend
  simp only [bind_eq]
  rw [run_bind_of_ok (a := UInt64.ofNat m) (s1 := st) _
    (by rw [run_ask_ok]; simp only [MemStore.handle, hnum]), hcount]
  by_cases hkm : k < m
  · have : ¬ (UInt64.ofNat k ≥ UInt64.ofNat m) := by
      intro hge
      have := UInt64.le_iff_toNat_le.mp hge
      rw [ofNat_toNat hk64, ofNat_toNat hm64] at this; omega
    rw [if_neg this]
    exact ⟨m, st, s, rfl, hkm, Frame.refl _ _, I⟩
  · have hkm' : k = m := by have := I.le; omega
    subst hkm'
    rw [if_pos (UInt64.le_refl _)]
    rw [run_bind_of_ok (a := chainAt P root k) (s1 := st) _
      (by rw [run_ask_ok]; simp only [MemStore.handle, I.chainKey hP hroot])]
    simp only [hsp, hrp, orPanic, ret_bind]
    rw [generate_eq P _ _ _ _ _ _ _ _ _ hn, run_ask]
    have hkey : genKey P a.from.pubKey.hash a.to.pubKey.hash false sp rp =
        encSessionKey P a ss := by
      simp [genKey, encSessionKey, hsh, hrh]
    simp only [MemStore.handle, hkey, Bool.false_eq_true, if_false]
    obtain ⟨s', e, I'⟩ := I.extend hP n.toNat (by omega) (P.b64 (P.sha512 (chainAt P root k)))
    rw [e]
    exact ⟨_, _, s', rfl, by omega, Frame.setSess _ _ _, I'⟩

theorem SInv.sendKey {key : Str} {root op tp fix : Bytes} {k m : Nat} {opened : List Nat}
    {st : MemStore} {s : Sess} (I : SInv P key root op tp fix k opened m st s) (hk : k < m)
    (hk64 : k < 2 ^ 64) :
    st.getMessageKey P key true (UInt64.ofNat k) = .ok (senderKey P root tp fix k) := by
  have hlen : (senderKey P root tp fix k).length = 64 := hP.hmac_len _ _
  unfold MemStore.getMessageKey
  rw [I.sess]
  simp only [ofNat_toNat hk64, I.slen, if_true, I.send k (Nat.le_refl _) hk]
  rw [if_neg (by omega), if_neg]
  · simp only [hP.unb64_b64]
    rw [if_neg (by omega), List.take_of_length_le (by omega)]
  · intro e
    have := hP.b64_len (senderKey P root tp fix k)
    rw [e, hlen] at this; simp at this

theorem SInv.recvKey {key : Str} {root op tp fix : Bytes} {k m : Nat} {opened : List Nat}
    {st : MemStore} {s : Sess} (I : SInv P key root op tp fix k opened m st s) {i : Nat} (hi : i < m)
    (hi64 : i < 2 ^ 64) (ho : i ∉ opened) :
    st.getMessageKey P key false (UInt64.ofNat i) = .ok (senderKey P root op fix i) := by
  have hlen : (senderKey P root op fix i).length = 64 := hP.hmac_len _ _
  unfold MemStore.getMessageKey
  rw [I.sess]
  simp only [ofNat_toNat hi64, I.slen, Bool.false_eq_true, if_false, I.recv i ho hi]
  rw [if_neg (by omega), if_neg]
  · simp only [hP.unb64_b64]
    rw [if_neg (by omega), List.take_of_length_le (by omega)]
  · intro e
    have := hP.b64_len (senderKey P root op fix i)
    rw [e, hlen] at this; simp at this

omit hP in
theorem SInv.usedKey {key : Str} {root op tp fix : Bytes} {k m : Nat} {opened : List Nat}
    {st : MemStore} {s : Sess} (I : SInv P key root op tp fix k opened m st s) {i : Nat}
    (hi64 : i < 2 ^ 64) (ho : i ∈ opened) :
    st.getMessageKey P key false (UInt64.ofNat i) = .error .keyUsed := by
  have := I.low i ho
  unfold MemStore.getMessageKey
  rw [I.sess]
  simp only [ofNat_toNat hi64, I.slen, Bool.false_eq_true, if_false, I.used i ho]
  rw [if_neg (by omega)]
  simp

omit hP in
theorem SInv.delSend {key : Str} {root op tp fix : Bytes} {k m : Nat} {opened : List Nat}
    {st : MemStore} {s : Sess} (I : SInv P key root op tp fix k opened m st s) (hk : k < m)
    (hk64 : k < 2 ^ 64) :
    ∃ s', st.delMessageKey key true (UInt64.ofNat k) = (.ok (), st.setSess key s') ∧
      SInv P key root op tp fix (k + 1) opened m (st.setSess key s') s' := by
  refine ⟨{ s with send := s.send.set k [] }, ?_, ?_⟩
  · unfold MemStore.delMessageKey
    rw [I.sess]
    simp only [ofNat_toNat hk64, I.slen]
    rw [if_neg (by omega)]
    rfl
  · refine ⟨upd_same _ _ _, I.rootHash, hk, I.pos, by have := I.small; omega, I.chain,
      by simp [I.slen], I.rlen, I.low, I.used, I.recv, ?_, ?_⟩
    · intro i h1 h2
      simp only
      rw [List.getElem?_set_ne (by omega)]
      exact I.send i (by omega) h2
    · intro i h1
      simp only
      by_cases e : k = i
      · subst e; rw [List.getElem?_set_self (by rw [I.slen]; exact hk)]
      · rw [List.getElem?_set_ne e]
        exact I.gone i (by omega)

omit hP in
theorem SInv.delRecv {key : Str} {root op tp fix : Bytes} {k m : Nat} {opened : List Nat}
    {st : MemStore} {s : Sess} (I : SInv P key root op tp fix k opened m st s) {i : Nat} (hi : i < m)
    (hi64 : i < 2 ^ 64) :
    ∃ s', st.delMessageKey key false (UInt64.ofNat i) = (.ok (), st.setSess key s') ∧
      SInv P key root op tp fix k (i :: opened) m (st.setSess key s') s' := by
  refine ⟨{ s with recv := s.recv.set i [] }, ?_, ?_⟩
  · unfold MemStore.delMessageKey
    rw [I.sess]
    simp only [ofNat_toNat hi64, I.slen]
    rw [if_neg (by omega)]
    rfl
  · refine ⟨upd_same _ _ _, I.rootHash, I.le, I.pos, I.small, I.chain, I.slen, by simp [I.rlen], ?_, ?_,
      ?_, I.send, I.gone⟩
    · intro j hj
      rcases List.mem_cons.mp hj with rfl | hj
      · exact hi
      · exact I.low j hj
    · intro j hj
      simp only
      by_cases e : i = j
      · subst e; rw [List.getElem?_set_self (by rw [I.rlen]; exact hi)]
      · rw [List.getElem?_set_ne e]
        rcases List.mem_cons.mp hj with rfl | hj
        · exact absurd rfl e
        · exact I.used j hj
    · intro j h1 h2
      simp only
      have h1' : ¬ j = i ∧ j ∉ opened := by simpa using h1
      rw [List.getElem?_set_ne (fun e => h1'.1 e.symm)]
      exact I.recv j h1'.2 h2

omit hP in
/-- Fetching a stored session key. -/
theorem getSessionKey_run {st : MemStore} {hash : Str} {ke : KeyEntry} {p : Str} {rp : Bytes}
    (h : st.skeys hash = some (ke, p)) (hpub : ke.pub32 P = some rp) (hf : ke.func = .ecdhe)
    (hp : p = [] ∨ ∃ k, P.unb64 p = some k ∧ k.length = 32) :
    ∃ ke', (getSessionKey P hash).run (MemStore.handle P) st = (.ok ke', st) ∧
      ke'.pub32 P = some rp := by
  unfold getSessionKey
  simp only [bind_eq]
  rw [run_bind_of_ok (a := (ke, p)) (s1 := st) _ (by
    rw [run_ask_ok]; simp only [MemStore.handle, MemStore.getSessionKey, h])]
  simp only
  split
  · exact ⟨ke, rfl, hpub⟩
  · rename_i hne
    obtain ⟨k, hk, hl⟩ := hp.resolve_left hne
    rw [hk]
    simp only [hf, if_true, hl]
    refine ⟨_, rfl, ?_⟩
    simp only [KeyEntry.pub32, hf] at hpub ⊢
    exact hpub

/-- Key extension in Decrypt. -/
theorem SInv.decExtend {n : UInt64} (hn : n ≠ 0) (hn32 : n.toNat < 2 ^ 32) {u : UID} {h : Header}
    {ss : State} {root sp rp : Bytes} (hroot : root.length = 32)
    (hsp : h.senderSessionPub.pub32 P = some sp)
    (hh1 : h.recipientTempHash = P.b64 (P.sha512 rp))
    (hh2 : h.senderSessionPub.hash = P.b64 (P.sha512 sp))
    {i : Nat} (hi : i < 2 ^ 62) (hcount : h.senderMessageCount = UInt64.ofNat i)
    {k m : Nat} (hk : k < 2 ^ 62) {opened : List Nat} {st : MemStore} {s : Sess}
    (hown : (h.recipientTempHash = ss.senderSessionPub.hash ∧ ss.senderSessionPub.pub32 P = some rp) ∨
      (h.recipientTempHash ≠ ss.senderSessionPub.hash ∧ Own P st h.recipientTempHash rp))
    (I : SInv P (decSessionKey P u h) root rp sp (identityFix P h.senderIdentity u.identity) k opened
      m st s) :
    (∃ m' st' s', (decExtend P n u h (decSessionKey P u h) (some ss)).run (MemStore.handle P) st =
        (.ok (), st') ∧ i < m' ∧ Frame (decSessionKey P u h) st st' ∧
      SInv P (decSessionKey P u h) root rp sp (identityFix P h.senderIdentity u.identity) k opened
        m' st' s') ∨
    (m ≤ i ∧ 301 < roundUp i n.toNat ∧
      (decExtend P n u h (decSessionKey P u h) (some ss)).run (MemStore.handle P) st =
        (.err .tooManyKeys, st)) := by
  have hm64 : m < 2 ^ 64 := by have := I.small; omega
  have hi64 : i < 2 ^ 64 := by omega
  have hn0 : 0 < n.toNat := by
    rcases Nat.eq_zero_or_pos n.toNat with h | h
    · exact absurd (UInt64.toNat_inj.mp (by simpa using h)) hn
    · exact h
  have hnum : st.numMessageKeys (decSessionKey P u h) = .ok (UInt64.ofNat m) := by
    unfold MemStore.numMessageKeys; rw [I.sess]; simp only [I.slen]
  unfold Msg.decExtend
  simp only [bind_eq]
  rw [run_bind_of_ok (a := UInt64.ofNat m) (s1 := st) _
    (by rw [run_ask_ok]; simp only [MemStore.handle, hnum]), hcount]
  by_cases him : i < m
  · have : ¬ (UInt64.ofNat i ≥ UInt64.ofNat m) := by
      intro hge
      have := UInt64.le_iff_toNat_le.mp hge
      rw [ofNat_toNat hi64, ofNat_toNat hm64] at this; omega
    rw [if_neg this]
    exact .inl ⟨m, st, s, rfl, him, Frame.refl _ _, I⟩
  · have hge : UInt64.ofNat i ≥ UInt64.ofNat m := by
      refine UInt64.le_iff_toNat_le.mpr ?_
      rw [ofNat_toNat hi64, ofNat_toNat hm64]; omega
    rw [if_pos hge]
    rw [run_bind_of_ok (a := chainAt P root m) (s1 := st) _
      (by rw [run_ask_ok]; simp only [MemStore.handle, I.chainKey hP hroot])]
    have hneed := keysNeeded_toNat (i := i) hn (by omega) hn32
    have hl : keyLimit.toNat = 301 := by decide
    by_cases hr : roundUp i n.toNat ≤ 301
    · left
      have hlim : ¬ (keysNeeded (UInt64.ofNat i) n > keyLimit) := by
        intro hgt
        have := UInt64.lt_iff_toNat_lt.mp hgt
        rw [hneed] at this
        omega
      simp only [hlim, decide_false, failIf, Bool.false_eq_true, if_false, ret_bind]
      rw [show orPanic (some ss) = Prog.ret ss from rfl, ret_bind]
      have hpos := I.pos
      have hle := le_roundUp i hn0
      have hk0 : keysNeeded (UInt64.ofNat i) n ≠ 0 := by
        intro e
        have := congrArg UInt64.toNat e
        rw [hneed] at this
        have h0 : (0 : UInt64).toNat = 0 := rfl
        omega
      have hkey : genKey P h.senderIdentityPub.hash u.pubKey.hash true sp rp =
          decSessionKey P u h := by
        simp only [genKey, if_true, decSessionKey, hh1, hh2]
      obtain ⟨s', e, I'⟩ := I.extend hP (roundUp i n.toNat) (by omega)
        (P.b64 (P.sha512 (chainAt P root m)))
      have hgen : (generateMessageKeys P h.senderIdentity u.identity h.senderIdentityPub.hash
          u.pubKey.hash (chainAt P root m) true sp rp (keysNeeded (UInt64.ofNat i) n)).run
          (MemStore.handle P) st = (.ok (), st.setSess (decSessionKey P u h) s') := by
        rw [generate_eq P _ _ _ _ _ _ _ _ _ hk0, run_ask]
        simp only [MemStore.handle, hkey, if_true, hneed]
        rw [e]
      refine ⟨_, _, s', ?_, by omega, Frame.setSess _ _ _, I'⟩
      rcases hown with ⟨e, hp⟩ | ⟨e, hp⟩
      · rw [if_pos e, hp]
        simp only [hsp, orPanic, ret_bind]
        exact hgen
      · rw [if_neg e]
        rcases hp with ⟨ke, e1, e2⟩ | ⟨e1, ke, p, e2, e3, e4, e5⟩
        · rw [run_bind_of_ok (a := .ok ke) (s1 := st) _ (by
            rw [run_try']; simp only [MemStore.handle, MemStore.getPrivateKeyEntry, e1])]
          simp only [e2, hsp, orPanic, ret_bind]
          exact hgen
        · rw [run_bind_of_ok (a := .error .noKeyEntry) (s1 := st) _ (by
            rw [run_try']; simp only [MemStore.handle, MemStore.getPrivateKeyEntry, e1])]
          obtain ⟨ke', g1, g2⟩ := getSessionKey_run e2 e3 e4 e5
          simp only
          rw [run_bind_of_ok _ g1]
          simp only [g2, hsp, orPanic, ret_bind]
          exact hgen
    · right
      refine ⟨by omega, by omega, ?_⟩
      have hlim : keysNeeded (UInt64.ofNat i) n > keyLimit := by
        refine UInt64.lt_iff_toNat_lt.mpr ?_
        rw [hneed]; omega
      simp only [hlim, decide_true, failIf, if_true]
      rfl

end
end Two
end Verif.Msg
