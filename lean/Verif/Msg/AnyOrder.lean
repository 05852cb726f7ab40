import Verif.Msg.EndToEnd
/-
C142: the messages of a one-way session, opened in whatever order (and as often as) they arrive.
New messages of a mailbox are stored newest first and decrypted in this order
(ctrlengine/msg.go:605-801), so a batch is opened in reverse.
-/
set_option autoImplicit false
namespace Verif.Msg
open Prog
open Wire (Outer newOuter newPre readFirst)

/-! ### Sending a batch, opening what arrives -/

/-- The sender encrypts a list of messages (msg/encrypt.go:142-430, once for each); the encoded
messages in order.  `none` if one of the calls fails. -/
def sendAll (P : Prims) (L : Link) : List Round → MemStore → Option (List Str × MemStore)
  | [], A => some ([], A)
  | r :: rs, A =>
    match (encrypt P (L.encArgs r) r.rnd).run (MemStore.handle P) A with
    | (.ok _, A') =>
      match sendAll P L rs A' with
      | some (ws, A'') => some (A'.out.drop A.out.length :: ws, A'')
      | none => none
    | _ => none

/-- One attempt to open an encoded message (base64 decoding, ReadFirstOuterHeader
msg/decrypt.go:39-85, Decrypt msg/decrypt.go:102-582): content, sender and signature, and the
store afterwards, also if the attempt fails. `fresh` is the key Decrypt may draw. -/
def openStep (P : Prims) (L : Link) (fresh : Bytes) (wire : Str) (B : MemStore) :
    Option (Bytes × Str × Str) × MemStore :=
  match P.unb64 wire with
  | none => (none, B)
  | some b =>
    match readFirst b with
    | .ok (_, pre, rest) =>
      match (decrypt P ⟨[L.bob], pre, rest, L.nB, fresh⟩).run (MemStore.handle P) B with
      | (.ok (sender, sig), B') => (some (B'.out.drop B.out.length, sender, sig), B')
      | (_, B') => (none, B')
    | _ => (none, B)

/-- An attempt fails in Decrypt (msg/decrypt.go:102-582) with the error `e`. -/
def Refused (P : Prims) (L : Link) (fresh : Bytes) (wire : Str) (B : MemStore) (e : Err)
    (B' : MemStore) : Prop :=
  ∃ b pre rest, P.unb64 wire = some b ∧ readFirst b = .ok (1, pre, rest) ∧
    (decrypt P ⟨[L.bob], pre, rest, L.nB, fresh⟩).run (MemStore.handle P) B = (.err e, B')

/-- Attempts one after the other; a failed one does not end the list. -/
def openAll (P : Prims) (L : Link) : List (Bytes × Str) → MemStore →
    List (Option (Bytes × Str × Str))
  | [], _ => []
  | (fresh, wire) :: xs, B =>
    (openStep P L fresh wire B).1 :: openAll P L xs (openStep P L fresh wire B).2

/-! ### Specification: which attempts succeed -/

/-- `i` rounded up to a multiple of the batch size. -/
def roundUp (i n : Nat) : Nat := (i + n - 1) / n * n

/-- What the recipient remembers of a session: the number of message keys made so far and the
messages opened. -/
structure Window where
  keys : Nat
  opened : List Nat

/-- Message `i` opens if it was not opened before and its key is there or can be made: not more
than 301 keys are made at a time. -/
def Window.accepts (n : Nat) (w : Window) (i : Nat) : Bool :=
  decide (i ∉ w.opened) && (decide (i < w.keys) || decide (roundUp i n ≤ 301))

def Window.after (n : Nat) (w : Window) (i : Nat) : Window :=
  if w.accepts n i then ⟨if i < w.keys then w.keys else w.keys + roundUp i n, i :: w.opened⟩ else w

/-- The outcome of a list of attempts. -/
def expected {α : Type} (msg : Nat → Option α) (n : Nat) : Window → List Nat → List (Option α)
  | _, [] => []
  | w, i :: is => (if w.accepts n i then msg i else none) :: expected msg n (w.after n i) is

/-! ### Arithmetic -/

theorem le_roundUp (i : Nat) {n : Nat} (hn : 0 < n) : i ≤ roundUp i n := by
  unfold roundUp
  have h1 := Nat.div_add_mod (i + n - 1) n
  have h2 := Nat.mod_lt (i + n - 1) hn
  have h3 : (i + n - 1) / n * n = n * ((i + n - 1) / n) := Nat.mul_comm _ _
  omega

theorem roundUp_lt (i : Nat) {n : Nat} (hn : 0 < n) : roundUp i n < i + n := by
  unfold roundUp
  have h1 := Nat.div_mul_le_self (i + n - 1) n
  omega

theorem roundUp_div (i : Nat) {n : Nat} (hn : 0 < n) :
    roundUp i n = (if i % n > 0 then i / n + 1 else i / n) * n := by
  unfold roundUp
  congr 1
  have h1 := Nat.div_add_mod i n
  have h2 := Nat.mod_lt i hn
  have h3 : n * (i / n) = i / n * n := Nat.mul_comm _ _
  split
  · refine Nat.div_eq_of_lt_le ?_ ?_
    · rw [Nat.add_mul]; omega
    · rw [Nat.add_mul, Nat.add_mul]; omega
  · refine Nat.div_eq_of_lt_le ?_ ?_
    · omega
    · rw [Nat.add_mul]; omega

theorem keysNeeded_toNat {i : Nat} {n : UInt64} (hn : n ≠ 0) (hi : i < 2 ^ 63)
    (hn32 : n.toNat < 2 ^ 32) : (keysNeeded (UInt64.ofNat i) n).toNat = roundUp i n.toNat := by
  have hn0 : 0 < n.toNat := by
    rcases Nat.eq_zero_or_pos n.toNat with h | h
    · exact absurd (UInt64.toNat_inj.mp (by simpa using h)) hn
    · exact h
  have hlt := roundUp_lt i hn0
  have hi64 : i < 2 ^ 64 := by omega
  rw [roundUp_div i hn0] at hlt ⊢
  have hq : i / n.toNat ≤ i := Nat.div_le_self _ _
  unfold keysNeeded
  simp only
  have hmod : (UInt64.ofNat i % n > 0) ↔ i % n.toNat > 0 := by
    rw [gt_iff_lt, UInt64.lt_iff_toNat_lt, UInt64.toNat_mod, ofNat_toNat hi64]; rfl
  by_cases hm : i % n.toNat > 0
  · rw [if_pos hm] at hlt ⊢
    rw [if_pos (hmod.mpr hm), UInt64.toNat_mul, UInt64.toNat_add, UInt64.toNat_div, ofNat_toNat hi64]
    rw [show (1 : UInt64).toNat = 1 from rfl, Nat.mod_eq_of_lt (by omega : i / n.toNat + 1 < 2 ^ 64)]
    exact Nat.mod_eq_of_lt (by omega)
  · rw [if_neg hm] at hlt ⊢
    rw [if_neg (fun h => hm (hmod.mp h)), UInt64.toNat_mul, UInt64.toNat_div, ofNat_toNat hi64]
    exact Nat.mod_eq_of_lt (by omega)

/-! ### The recipient's side -/

/-- The recipient's session for a window. -/
structure AnyInv (P : Prims) (n : UInt64) (key : Str) (root rp fix : Bytes) (w : Window)
    (st : MemStore) (s : Sess) : Prop where
  sess : st.sessions key = some s
  pos : w.keys ≠ 0
  small : w.keys = n.toNat ∨ w.keys ≤ 602
  chain : s.chain = P.b64 (chainAt P root w.keys)
  slen : s.send.length = w.keys
  rlen : s.recv.length = w.keys
  low : ∀ i ∈ w.opened, i < w.keys
  used : ∀ i ∈ w.opened, s.recv[i]? = some []
  keys : ∀ i, i ∉ w.opened → i < w.keys → s.recv[i]? = some (P.b64 (senderKey P root rp fix i))

section
variable {P : Prims} (hP : P.Good)
include hP

/-- Key extension for any message. -/
theorem extend_any {n : UInt64} (hn : n ≠ 0) (hn32 : n.toNat < 2 ^ 32) {u : UID} {h : Header}
    {ss : State} {root sp rp : Bytes} (hroot : root.length = 32)
    (hsp : h.senderSessionPub.pub32 P = some sp) (hrp : ss.senderSessionPub.pub32 P = some rp)
    (hss : h.recipientTempHash = ss.senderSessionPub.hash)
    (hh1 : h.recipientTempHash = P.b64 (P.sha512 rp))
    (hh2 : h.senderSessionPub.hash = P.b64 (P.sha512 sp))
    {i : Nat} (hi : i < 2 ^ 63) (hcount : h.senderMessageCount = UInt64.ofNat i)
    {w : Window} {st : MemStore} {s : Sess}
    (I : AnyInv P n (decSessionKey P u h) root rp (identityFix P h.senderIdentity u.identity) w st s) :
    if i < w.keys ∨ roundUp i n.toNat ≤ 301 then
      ∃ st' s', (decExtend P n u h (decSessionKey P u h) (some ss)).run (MemStore.handle P) st =
          (.ok (), st') ∧ st'.states = st.states ∧
        i < (if i < w.keys then w.keys else w.keys + roundUp i n.toNat) ∧
        AnyInv P n (decSessionKey P u h) root rp (identityFix P h.senderIdentity u.identity)
          ⟨if i < w.keys then w.keys else w.keys + roundUp i n.toNat, w.opened⟩ st' s'
    else (decExtend P n u h (decSessionKey P u h) (some ss)).run (MemStore.handle P) st =
      (.err .tooManyKeys, st) := by
  obtain ⟨m, opened⟩ := w
  simp only at *
  have hm64 : m < 2 ^ 64 := by
    have := n.toNat_lt
    rcases I.small with h | h <;> simp only at h <;> omega
  have hi64 : i < 2 ^ 64 := by omega
  have hn0 : 0 < n.toNat := by
    rcases Nat.eq_zero_or_pos n.toNat with h | h
    · exact absurd (UInt64.toNat_inj.mp (by simpa using h)) hn
    · exact h
  have hnum : st.numMessageKeys (decSessionKey P u h) = .ok (UInt64.ofNat m) := by
    unfold MemStore.numMessageKeys; rw [I.sess]; simp only [I.slen]
  unfold decExtend
  simp only [bind_eq]
  rw [run_bind_of_ok (a := UInt64.ofNat m) (s1 := st) _
    (by rw [run_ask_ok]; simp only [MemStore.handle, hnum]), hcount]
  by_cases him : i < m
  · have : ¬ (UInt64.ofNat i ≥ UInt64.ofNat m) := by
      intro hge
      have := UInt64.le_iff_toNat_le.mp hge
      rw [ofNat_toNat hi64, ofNat_toNat hm64] at this; omega
    rw [if_neg this, if_pos (.inl him), if_pos him]
    exact ⟨st, s, rfl, rfl, him, I⟩
  · have hge : UInt64.ofNat i ≥ UInt64.ofNat m := by
      refine UInt64.le_iff_toNat_le.mpr ?_
      rw [ofNat_toNat hi64, ofNat_toNat hm64]; omega
    rw [if_pos hge]
    have hc : st.getChainKey P (decSessionKey P u h) = .ok (chainAt P root m) := by
      unfold MemStore.getChainKey
      rw [I.sess]
      simp only [I.chain, hP.unb64_b64, chainAt_len P hP root hroot]
      rw [if_neg (by omega), List.take_of_length_le]
      rw [chainAt_len P hP root hroot]; exact Nat.le_refl _
    rw [run_bind_of_ok (a := chainAt P root m) (s1 := st) _
      (by rw [run_ask_ok]; simp only [MemStore.handle, hc])]
    have hneed := keysNeeded_toNat (i := i) hn hi hn32
    have hl : keyLimit.toNat = 301 := by decide
    by_cases hr : roundUp i n.toNat ≤ 301
    · rw [if_pos (.inr hr), if_neg him]
      have hlim : ¬ (keysNeeded (UInt64.ofNat i) n > keyLimit) := by
        intro hgt
        have := UInt64.lt_iff_toNat_lt.mp hgt
        rw [hneed] at this
        omega
      simp only [hlim, decide_false, failIf, Bool.false_eq_true, if_false, ret_bind, orPanic,
        hss, hrp, hsp, if_true]
      have hpos := I.pos
      simp only at hpos
      have hle := le_roundUp i hn0
      have hk0 : keysNeeded (UInt64.ofNat i) n ≠ 0 := by
        intro e
        have := congrArg UInt64.toNat e
        rw [hneed] at this
        have h0 : (0 : UInt64).toNat = 0 := rfl
        omega
      rw [generate_eq P _ _ _ _ _ _ _ _ _ hk0, run_ask]
      have hkey : genKey P h.senderIdentityPub.hash u.pubKey.hash true sp rp =
          decSessionKey P u h := by
        simp only [genKey, if_true, decSessionKey, hh1, hh2]
      simp only [MemStore.handle, hkey, if_true]
      rw [sess_ext I.sess _ _ _ _ (by simp [keyList_length])]
      simp only [hneed]
      refine ⟨_, _, rfl, rfl, by omega, ⟨upd_same _ _ _, ?_, ?_, ?_, ?_, ?_, ?_, ?_, ?_⟩⟩
      · simp only; omega
      · right; simp only; omega
      · show P.b64 (chainAt P (chainAt P root m) (roundUp i n.toNat)) = _
        rw [← chainAt_add]
      · simp [keyList_length, I.slen]
      · simp [keyList_length, I.rlen]
      · intro j hj
        have := I.low j hj
        simp only at this ⊢; omega
      · intro j hj
        have := I.low j hj
        simp only at this ⊢
        rw [List.getElem?_append_left (by rw [I.rlen]; exact this)]
        exact I.used j hj
      · intro j h1 h2
        simp only at h1 h2 ⊢
        by_cases hjm : j < m
        · rw [List.getElem?_append_left (by rw [I.rlen]; exact hjm)]
          exact I.keys j h1 hjm
        · rw [List.getElem?_append_right (by rw [I.rlen]; simp only; omega), I.rlen]
          unfold keyList
          rw [List.getElem?_map, List.getElem?_range (by simp only; omega)]
          simp only [Option.map_some, messageKey, senderKey]
          rw [← chainAt_add]
          congr 4; omega
    · rw [if_neg (by omega)]
      have hlim : keysNeeded (UInt64.ofNat i) n > keyLimit := by
        refine UInt64.lt_iff_toNat_lt.mpr ?_
        rw [hneed]; omega
      simp only [hlim, decide_true, failIf, if_true]
      rfl

theorem any_key {n : UInt64} {key : Str} {root rp fix : Bytes} {w : Window} {st : MemStore}
    {s : Sess} (I : AnyInv P n key root rp fix w st s) {i : Nat} (hi : i < w.keys) (hi64 : i < 2 ^ 64)
    (ho : i ∉ w.opened) :
    st.getMessageKey P key false (UInt64.ofNat i) = .ok (senderKey P root rp fix i) := by
  have hlen : (senderKey P root rp fix i).length = 64 := hP.hmac_len _ _
  unfold MemStore.getMessageKey
  rw [I.sess]
  simp only [ofNat_toNat hi64, I.slen, Bool.false_eq_true, if_false, I.keys i ho hi]
  rw [if_neg (by omega), if_neg]
  · simp only [hP.unb64_b64]
    rw [if_neg (by omega), List.take_of_length_le (by omega)]
  · intro e
    have := hP.b64_len (senderKey P root rp fix i)
    rw [e, hlen] at this; simp at this

omit hP in
theorem any_used {n : UInt64} {key : Str} {root rp fix : Bytes} {w : Window} {st : MemStore}
    {s : Sess} (I : AnyInv P n key root rp fix w st s) {i : Nat} (hi64 : i < 2 ^ 64)
    (ho : i ∈ w.opened) :
    st.getMessageKey P key false (UInt64.ofNat i) = .error .keyUsed := by
  have := I.low i ho
  unfold MemStore.getMessageKey
  rw [I.sess]
  simp only [ofNat_toNat hi64, I.slen, Bool.false_eq_true, if_false, I.used i ho]
  rw [if_neg (by omega)]
  simp

omit hP in
theorem any_del {n : UInt64} {key : Str} {root rp fix : Bytes} {w : Window} {st : MemStore}
    {s : Sess} (I : AnyInv P n key root rp fix w st s) {i : Nat} (hi : i < w.keys) (hi64 : i < 2 ^ 64) :
    ∃ st', st.delMessageKey key false (UInt64.ofNat i) = (.ok (), st') ∧
      st'.out = st.out ∧ st'.states = st.states ∧
      AnyInv P n key root rp fix ⟨w.keys, i :: w.opened⟩ st' { s with recv := s.recv.set i [] } := by
  refine ⟨st.setSess key { s with recv := s.recv.set i [] }, ?_, rfl, rfl, ?_⟩
  · unfold MemStore.delMessageKey
    rw [I.sess]
    simp only [ofNat_toNat hi64, I.slen]
    rw [if_neg (by omega)]
    rfl
  · refine ⟨upd_same _ _ _, I.pos, I.small, I.chain, I.slen, by simp [I.rlen], ?_, ?_, ?_⟩
    · intro j hj
      rcases List.mem_cons.mp hj with rfl | hj
      · exact hi
      · exact I.low j hj
    · intro j hj
      simp only
      by_cases e : i = j
      · subst e; rw [List.getElem?_set_self (by rw [I.rlen]; exact hi)]
      · rw [List.getElem?_set_ne e]
        rcases List.mem_cons.mp hj with rfl | hj
        · exact absurd rfl e
        · exact I.used j hj
    · intro j h1 h2
      simp only at h1 h2 ⊢
      have h1' : ¬ j = i ∧ j ∉ w.opened := by simpa using h1
      rw [List.getElem?_set_ne (fun e => h1'.1 e.symm)]
      exact I.keys j h1'.2 h2

/-- One attempt, given what session handling does. -/
theorem open_any {L : Link} {uid : UID} (hL : L.OK P uid) {r : Round} (hr : r.OK P uid)
    {h : Header} (hlen : (P.marshal h).length = 7152) (hparse : P.parse (P.marshal h) = some h)
    (hv : h.verify P = true) {s root : Bytes} (hroot : root.length = 32) {i : Nat} (hi : i < 2 ^ 63)
    (h1 : h.senderIdentity = L.alice.identity) (h2 : h.senderUID = L.alice.json)
    (h3 : h.senderSessionPub = (initDHKey P s).public)
    (h4 : h.senderIdentityPub = (initDHKey P L.aPriv).public)
    (h5 : h.recipientTempHash = keyHash P L.kPriv)
    (h6 : h.senderMessageCount = UInt64.ofNat i)
    (hc : r.content.length ≤ maxContentLength)
    {B B1 : MemStore} {sb : State} {t : Sess} {w : Window} (fresh : Bytes)
    (hs : (decSession P ⟨[L.bob], (newPre (P.dhPub r.rnd.headerPriv)).write,
        (newOuter Wire.encryptedHeader 1 (r.rnd.nonce ++ be16 7168 ++
          P.boxSeal (P.marshal h) r.rnd.nonce (P.dhPub L.bPriv) r.rnd.headerPriv)).write true ++
          encBody P (senderKey P root (P.dhPub L.kPriv) (L.fix P) i) r.rnd r.sigKey r.content,
        L.nB, fresh⟩ (effKeys L.nB) (P.dhPub r.rnd.headerPriv) L.bob h).run
          (MemStore.handle P) B = (.ok (some sb), B1))
    (hsb : BState P L s sb)
    (I : AnyInv P (effKeys L.nB) (L.keyB P s) root (P.dhPub L.kPriv) (L.fix P) w B1 t) :
    ∃ B' t', openStep P L fresh (P.b64 (messageBytes P r.rnd h (P.dhPub L.bPriv)
        (senderKey P root (P.dhPub L.kPriv) (L.fix P) i) r.sigKey r.content)) B =
        (if w.accepts (effKeys L.nB).toNat i then
          some (r.content, L.alice.identity, sigOf P r.sigKey r.content) else none, B') ∧
      B'.states = B1.states ∧
      AnyInv P (effKeys L.nB) (L.keyB P s) root (P.dhPub L.kPriv) (L.fix P)
        (w.after (effKeys L.nB).toNat i) B' t' ∧
      (w.accepts (effKeys L.nB).toNat i = false →
        Refused P L fresh (P.b64 (messageBytes P r.rnd h (P.dhPub L.bPriv)
          (senderKey P root (P.dhPub L.kPriv) (L.fix P) i) r.sigKey r.content)) B
          (if i ∈ w.opened then .store .keyUsed else .tooManyKeys) B') := by
  have hkey : decSessionKey P L.bob h = L.keyB P s := by
    simp only [decSessionKey, Link.keyB, hL.b, h3, h4, h5]; rfl
  have hfix : identityFix P h.senderIdentity L.bob.identity = L.fix P := by rw [h1]; rfl
  have hext := extend_any hP (effKeys_ne L.nB) (effKeys_lt hL.nB) (u := L.bob) (h := h) (ss := sb)
    hroot (sp := P.dhPub s) (rp := P.dhPub L.kPriv) (by rw [h3]; exact initDHKey_public_pub32 P hP _)
    (by rw [hsb.own]; exact initDHKey_pub32 P hP _) (by rw [h5, hsb.own]; rfl) h5
    (by rw [h3]; rfl) hi h6 (by rw [hkey, hfix]; exact I)
  -- what Decrypt does after the session was found
  let tail : Prog (Str × Str) :=
    (decExtend P (effKeys L.nB) L.bob h (L.keyB P s) (some sb)).bind fun _ =>
      (Prog.ask (.getMsgKey (L.keyB P s) false h.senderMessageCount)).bind fun mk =>
        (decBody P mk h.senderUID (encBody P (senderKey P root (P.dhPub L.kPriv) (L.fix P) i) r.rnd
          r.sigKey r.content)).bind fun sig =>
          (Prog.ask (.delMsgKey (L.keyB P s) false h.senderMessageCount)).bind fun _ =>
            .ret (h.senderIdentity, sig)
  have hrun : (decrypt P ⟨[L.bob], (newPre (P.dhPub r.rnd.headerPriv)).write,
        (newOuter Wire.encryptedHeader 1 (r.rnd.nonce ++ be16 7168 ++
          P.boxSeal (P.marshal h) r.rnd.nonce (P.dhPub L.bPriv) r.rnd.headerPriv)).write true ++
          encBody P (senderKey P root (P.dhPub L.kPriv) (L.fix P) i) r.rnd r.sigKey r.content,
        L.nB, fresh⟩).run (MemStore.handle P) B = tail.run (MemStore.handle P) B1 := by
      have hhead : (decHead P ⟨[L.bob], (newPre (P.dhPub r.rnd.headerPriv)).write,
        (newOuter Wire.encryptedHeader 1 (r.rnd.nonce ++ be16 7168 ++
          P.boxSeal (P.marshal h) r.rnd.nonce (P.dhPub L.bPriv) r.rnd.headerPriv)).write true ++
          encBody P (senderKey P root (P.dhPub L.kPriv) (L.fix P) i) r.rnd r.sigKey r.content,
        L.nB, fresh⟩).run (MemStore.handle P) B =
          (.ok (P.dhPub r.rnd.headerPriv, L.bob, h, encBody P (senderKey P root (P.dhPub L.kPriv)
            (L.fix P) i) r.rnd r.sigKey r.content), B) := by
        rw [(noCall_decHead P _).run, decHead_message P hP r.rnd hr.rnd h hlen hparse hv L.bob L.bPriv
          hL.b _ _ _]
      unfold decrypt
      simp only [bind_eq]
      rw [run_bind_of_ok _ hhead]
      simp only
      rw [show (if L.nB = 0 then numOfFutureKeys else L.nB) = effKeys L.nB from rfl]
      rw [run_bind_of_ok _ hs, hkey]
  have hopen : openStep P L fresh (P.b64 (messageBytes P r.rnd h (P.dhPub L.bPriv)
        (senderKey P root (P.dhPub L.kPriv) (L.fix P) i) r.sigKey r.content)) B =
      match tail.run (MemStore.handle P) B1 with
      | (.ok (sender, sig), B') => (some (B'.out.drop B.out.length, sender, sig), B')
      | (_, B') => (none, B') := by
    unfold openStep messageBytes
    rw [hP.unb64_b64]
    simp only
    rw [List.append_assoc, show Wire.preHeaderPacket = 1 from rfl,
      Wire.C04_first_roundtrip _ _ (by rw [hP.dhPub_len]; omega)]
    simp only
    rw [hrun]
  have hrefuse : ∀ e B', tail.run (MemStore.handle P) B1 = (.err e, B') →
      Refused P L fresh (P.b64 (messageBytes P r.rnd h (P.dhPub L.bPriv)
        (senderKey P root (P.dhPub L.kPriv) (L.fix P) i) r.sigKey r.content)) B e B' := by
    intro e B' he
    refine ⟨_, _, _, hP.unb64_b64 _, ?_, hrun.trans he⟩
    unfold messageBytes
    rw [List.append_assoc, show Wire.preHeaderPacket = 1 from rfl,
      Wire.C04_first_roundtrip _ _ (by rw [hP.dhPub_len]; omega)]
  have o1 : B1.out = B.out := by
    have o1 := run_out P (noWrite_decSession P ⟨[L.bob], (newPre (P.dhPub r.rnd.headerPriv)).write,
        (newOuter Wire.encryptedHeader 1 (r.rnd.nonce ++ be16 7168 ++
          P.boxSeal (P.marshal h) r.rnd.nonce (P.dhPub L.bPriv) r.rnd.headerPriv)).write true ++
          encBody P (senderKey P root (P.dhPub L.kPriv) (L.fix P) i) r.rnd r.sigKey r.content,
        L.nB, fresh⟩ (effKeys L.nB) (P.dhPub r.rnd.headerPriv) L.bob h) B
    rw [hs] at o1; exact o1
  rw [hopen]
  rw [hkey, hfix] at hext
  have hi64 : i < 2 ^ 64 := by omega
  split at hext
  · rename_i hok
    obtain ⟨B2, t2, e2, f2, him, I2⟩ := hext
    have htail : tail.run (MemStore.handle P) B1 =
        ((Prog.ask (.getMsgKey (L.keyB P s) false h.senderMessageCount)).bind fun mk =>
        (decBody P mk h.senderUID (encBody P (senderKey P root (P.dhPub L.kPriv) (L.fix P) i) r.rnd
          r.sigKey r.content)).bind fun sig =>
          (Prog.ask (.delMsgKey (L.keyB P s) false h.senderMessageCount)).bind fun _ =>
            .ret (h.senderIdentity, sig)).run (MemStore.handle P) B2 := run_bind_of_ok _ e2
    by_cases ho : i ∈ w.opened
    · have hacc : w.accepts (effKeys L.nB).toNat i = false := by simp [Window.accepts, ho]
      have hlow := I.low i ho
      have htail := htail.trans (run_bind _ _ _ _)
      rw [run_ask, h6] at htail
      simp only [MemStore.handle, any_used I2 hi64 ho] at htail
      refine ⟨B2, t2, ?_, f2, ?_, fun _ => ?_⟩
      · rw [htail, hacc]; rfl
      · simp only [Window.after, hacc, Bool.false_eq_true, if_false]
        rw [if_pos hlow] at I2
        exact I2
      · rw [if_pos ho]; exact hrefuse _ _ htail
    · rw [htail]
      have hacc : w.accepts (effKeys L.nB).toNat i = true := by
        simp only [Window.accepts, ho, not_false_eq_true, decide_true, Bool.true_and, Bool.or_eq_true,
          decide_eq_true_eq]
        exact hok
      obtain ⟨B3, e3, o3, f3, I3⟩ := any_del (i := i) (st := B2.wrote r.content) (s := t2)
        ⟨I2.sess, I2.pos, I2.small, I2.chain, I2.slen, I2.rlen, I2.low, I2.used, I2.keys⟩ him hi64
      have o2 : B2.out = B1.out := by
        have o2 := run_out P (noWrite_decExtend P (effKeys L.nB) L.bob h (L.keyB P s) (some sb)) B1
        rw [e2] at o2; exact o2
      rw [run_bind_of_ok (a := senderKey P root (P.dhPub L.kPriv) (L.fix P) i) (s1 := B2) _
        (by rw [run_ask_ok, h6]; simp only [MemStore.handle, any_key hP I2 him hi64 ho])]
      rw [run_bind_of_ok _ (decBody_encBody P hP _ r.rnd hr.rnd r.sigKey r.content hc h.senderUID uid
        (by rw [h2]; exact hL.uid) hr.sig B2)]
      rw [run_bind_of_ok (a := ()) (s1 := B3) _ (by rw [run_ask_ok, h6]; exact e3)]
      refine ⟨B3, { t2 with recv := t2.recv.set i [] }, ?_, ?_, ?_, fun hf => by rw [hacc] at hf; cases hf⟩
      · rw [h1, hacc]
        show (some (B3.out.drop B.out.length, _, _), B3) = _
        rw [o3]
        show (some ((B2.out ++ r.content).drop B.out.length, _, _), B3) = _
        rw [o2, o1, List.drop_left]; rfl
      · rw [f3]; exact f2
      · simp only [Window.after, hacc, if_true]
        exact I3
  · rename_i hno
    have hacc : w.accepts (effKeys L.nB).toNat i = false := by
      have h1 : ¬ i < w.keys := fun h => hno (.inl h)
      have h2 : ¬ roundUp i (effKeys L.nB).toNat ≤ 301 := fun h => hno (.inr h)
      simp [Window.accepts, h1, h2]
    have htail : tail.run (MemStore.handle P) B1 = (.err .tooManyKeys, B1) := by
      show (Prog.bind _ _).run _ _ = _
      rw [run_bind, hext]
    refine ⟨B1, t, ?_, rfl, ?_, fun _ => ?_⟩
    · rw [htail, hacc]; rfl
    · simp only [Window.after, hacc, Bool.false_eq_true, if_false]; exact I
    · rw [if_neg fun ho => hno (.inl (I.low i ho))]
      exact hrefuse _ _ htail

/-- Session handling for the message that arrives first, whichever it is. -/
theorem decSession_start {L : Link} {uid : UID} (hL : L.OK P uid) (a : DecArgs) (hp : Bytes)
    {h : Header} {s : Bytes}
    (h1 : h.senderIdentity = L.alice.identity)
    (h3 : h.senderSessionPub = (initDHKey P s).public)
    (h4 : h.senderIdentityPub = (initDHKey P L.aPriv).public)
    (h5 : h.recipientTempHash = keyHash P L.kPriv)
    (h8 : h.nextSenderSessionPub = none ∨ ∃ x, h.nextSenderSessionPub = some (initDHKey P x).public ∧
      AllDifferent [hp, P.dhPub L.bPriv, P.dhPub a.fresh, P.dhPub L.aPriv, P.dhPub x] ∧
      calcKey P (keyHash P L.bPriv) (keyHash P L.aPriv) (keyHash P a.fresh) (keyHash P x) ≠ L.keyB P s)
    (hd : AllDifferent [hp, P.dhPub L.aPriv, P.dhPub s, P.dhPub L.bPriv, P.dhPub L.kPriv])
    {A B : MemStore} (hS : L.Start P A B) :
    ∃ B1 sb t, (decSession P a (effKeys L.nB) hp L.bob h).run (MemStore.handle P) B =
        (.ok (some sb), B1) ∧ BState P L s sb ∧ B1.states (L.stateKeyB P) = some sb ∧
      AnyInv P (effKeys L.nB) (L.keyB P s) (deriveRootKey P (P.dh L.aPriv (P.dhPub L.kPriv))
        (P.dh s (P.dhPub L.kPriv)) (P.dh s (P.dhPub L.bPriv)) none) (P.dhPub L.kPriv) (L.fix P)
        ⟨(effKeys L.nB).toNat, []⟩ B1 t := by
  have hkey : decSessionKey P L.bob h = L.keyB P s := by
    simp only [decSessionKey, Link.keyB, hL.b, h3, h4, h5]; rfl
  have hfix : identityFix P h.senderIdentity L.bob.identity = L.fix P := by rw [h1]; rfl
  generalize hroot : deriveRootKey P (P.dh L.aPriv (P.dhPub L.kPriv)) (P.dh s (P.dhPub L.kPriv))
      (P.dh s (P.dhPub L.bPriv)) none = root
  obtain ⟨t, ft, rt⟩ := run_generate_new P h.senderIdentity L.bob.identity
    (initDHKey P L.aPriv).public.hash (initDHKey P L.bPriv).hash
    root true (P.dhPub s) (P.dhPub L.kPriv) (effKeys L.nB)
    (effKeys_ne _) B (hS.sessB _)
  have hk2 : genKey P (initDHKey P L.aPriv).public.hash (initDHKey P L.bPriv).hash true (P.dhPub s)
      (P.dhPub L.kPriv) = L.keyB P s := rfl
  rw [hk2] at rt
  have hinv : ∀ st : MemStore, st.sessions (L.keyB P s) = some t →
      AnyInv P (effKeys L.nB) (L.keyB P s) root (P.dhPub L.kPriv) (L.fix P)
        ⟨(effKeys L.nB).toNat, []⟩ st t := by
    intro st hst
    obtain ⟨-, f2, f3, f4⟩ := ft
    rw [hfix] at f4
    refine ⟨hst, ?_, .inl rfl, f2, by rw [f3, keyList_length], by rw [f4, keyList_length],
      fun i hi => absurd hi (by simp), fun i hi => absurd hi (by simp), ?_⟩
    · exact fun e => effKeys_ne L.nB (UInt64.toNat_inj.mp (by simpa using e))
    · intro i _ hi
      rw [f4, keyList, List.getElem?_map, List.getElem?_range hi]; rfl
  unfold decSession
  simp only [bind_eq, hL.b, h4, initDHKey_pub32 P hP, initDHKey_public_pub32 P hP, orPanic, ret_bind]
  rw [run_bind_of_ok (a := none) (s1 := B) _ (by
    rw [run_ask_ok]; simp only [MemStore.handle]; rw [show calcStateKey P (P.dhPub L.bPriv)
      (P.dhPub L.aPriv) = L.stateKeyB P from rfl, hS.stB])]
  rw [run_bind_of_ok (a := false) (s1 := B) _ (by
    rw [run_try', hkey]; simp only [MemStore.handle, MemStore.hasSession, hS.sessB,
      Option.isSome_none])]
  rw [if_neg (by simp)]
  unfold decUnknown
  simp only [bind_eq]
  rw [run_bind_of_ok (a := .ok (initDHKey P L.kPriv)) (s1 := B) _ (by
    rw [run_try', h5]; simp only [MemStore.handle, MemStore.getPrivateKeyEntry, hS.priv])]
  simp only [if_true, hL.b]
  rw [h4, h3, rkaRecipient_eq P hP hp _ _ s L.aPriv L.kPriv L.bPriv _ _ (initDHKey_public_pub32 P hP _)
    (initDHKey_public_pub32 P hP _) none _ hd, hroot]
  rw [run_bind_of_ok _ rt]
  simp only [addSessionKey, bind_eq, initDHKey_priv32, orPanic, ret_bind]
  let B2 := (MemStore.handle P (.addSKey (initDHKey P a.fresh).hash (initDHKey P a.fresh).public
    (P.b64 a.fresh)) (B.setSess (L.keyB P s) t)).2
  have hB2 : B2.sessions (L.keyB P s) = some t := upd_same _ _ _
  rcases h8 with h8 | ⟨x, h8, hd2, hne⟩
  · simp only [h8]
    let sb : State := ⟨0, 0, 0, (initDHKey P s).public, initDHKey P L.kPriv,
      some (initDHKey P a.fresh), none, h.nymAddress, false⟩
    refine ⟨(MemStore.handle P (.setState (L.stateKeyB P) sb) B2).2, sb, t, ?_, ⟨rfl, rfl, _, rfl⟩, ?_,
      hinv _ hB2⟩
    · rw [run_bind_of_ok (a := ()) (s1 := B2) _ (by rw [run_ask_ok]; rfl)]
      rw [run_bind_of_ok (a := ()) _ (by rw [run_ask_ok]; rfl)]
      rfl
    · exact upd_same _ _ _
  · simp only [h8]
    let sb : State := ⟨0, 0, 0, (initDHKey P s).public, initDHKey P L.kPriv,
      some (initDHKey P a.fresh), some (initDHKey P x).public, h.nymAddress, false⟩
    have hgk : genKey P (initDHKey P L.bPriv).hash (initDHKey P L.aPriv).public.hash false
        (P.dhPub a.fresh) (P.dhPub x) =
        calcKey P (keyHash P L.bPriv) (keyHash P L.aPriv) (keyHash P a.fresh) (keyHash P x) := rfl
    have hno : B2.sessions (genKey P (initDHKey P L.bPriv).hash (initDHKey P L.aPriv).public.hash false
        (P.dhPub a.fresh) (P.dhPub x)) = none := by
      rw [hgk]
      show upd B.sessions _ _ _ = none
      rw [upd_other _ _ hne]; exact hS.sessB _
    obtain ⟨t', -, rt'⟩ := run_generate_new P L.bob.identity h.senderIdentity
      (initDHKey P L.bPriv).hash (initDHKey P L.aPriv).public.hash
      (deriveRootKey P (P.dh L.bPriv (P.dhPub x)) (P.dh a.fresh (P.dhPub x))
        (P.dh a.fresh (P.dhPub L.aPriv)) (some (P.sha512 root))) false (P.dhPub a.fresh) (P.dhPub x)
      (effKeys L.nB) (effKeys_ne _) B2 hno
    rw [hgk] at rt'
    have hrh : B2.getRootKeyHash P (L.keyB P s) = .ok (P.sha512 root) := by
      unfold MemStore.getRootKeyHash
      rw [hB2]
      simp only [ft.1, hP.unb64_b64, hP.sha512_len]
      rw [if_neg (by omega), List.take_of_length_le (by rw [hP.sha512_len]; omega)]
    refine ⟨(MemStore.handle P (.setState (L.stateKeyB P) sb) (B2.setSess
      (calcKey P (keyHash P L.bPriv) (keyHash P L.aPriv) (keyHash P a.fresh) (keyHash P x)) t')).2, sb, t,
      ?_, ⟨rfl, rfl, _, rfl⟩, ?_, hinv _ ?_⟩
    · rw [run_bind_of_ok (a := ()) (s1 := B2) _ (by rw [run_ask_ok]; rfl)]
      rw [hkey, run_bind_of_ok (a := P.sha512 root) (s1 := B2) _ (by
        rw [run_ask_ok]; simp only [MemStore.handle, hrh])]
      rw [rkaSender_eq P hP hp _ _ a.fresh L.bPriv x L.aPriv _ _ (initDHKey_public_pub32 P hP _)
        (initDHKey_public_pub32 P hP _) _ _ hd2]
      refine (run_bind_of_ok _ rt').trans ?_
      rw [run_bind_of_ok (a := ()) _ (by rw [run_ask_ok]; rfl)]
      rfl
    · exact upd_same _ _ _
    · show upd B2.sessions _ _ _ = _
      rw [upd_other _ _ (fun e => hne e.symm)]; exact hB2

/-! ### The sender's side -/

/-- One call of Encrypt that succeeds: what is written and the state afterwards. -/
theorem send_one {L : Link} {uid : UID} (hL : L.OK P uid) {r : Round} (hr : r.OK P uid)
    {s root : Bytes} (hroot : root.length = 32) {k m : Nat} (hk63 : k < 2 ^ 63)
    {A A1 A' : MemStore} {ss : State} {nym nym' : Str} {t : Sess}
    (hA : (encSession P (L.encArgs r) r.rnd (effKeys L.nA) (L.stateKeyA P)).run
        (MemStore.handle P) A = (.ok (ss, nym), A1))
    (hss : AState P L s k ss)
    (I : SendInv P (effKeys L.nA) (L.keyA P s) root (P.dhPub L.kPriv) (L.fix P) k m A1 t)
    (hrun : (encrypt P (L.encArgs r) r.rnd).run (MemStore.handle P) A = (.ok nym', A')) :
    A'.out = A.out ++ P.b64 (messageBytes P r.rnd (mkHeader (L.encArgs r) r.rnd ss) (P.dhPub L.bPriv)
          (senderKey P root (P.dhPub L.kPriv) (L.fix P) k) r.sigKey r.content) ∧
      (P.marshal (mkHeader (L.encArgs r) r.rnd ss)).length = 7152 ∧ r.content.length ≤ maxContentLength ∧
      (∃ ss', A'.states (L.stateKeyA P) = some ss' ∧ AState P L s (k + 1) ss' ∧
        ss'.nextSenderSessionPub = ss.nextSenderSessionPub) ∧
      ∃ m t, SendInv P (effKeys L.nA) (L.keyA P s) root (P.dhPub L.kPriv) (L.fix P) (k + 1) m A' t := by
  obtain ⟨fp, tp, ss', rp, A1', A2, A3, mk, e1, e2, e3, e4, e5, e6, e7, e8, e9, rfl⟩ :=
    encrypt_ok hP hr.rnd rfl hrun
  have h1 : fp = P.dhPub L.aPriv := by
    have : (L.encArgs r).from.pubKey = initDHKey P L.aPriv := hL.a
    rw [this, initDHKey_pub32 P hP] at e1; exact (Option.some.inj e1).symm
  have h2 : tp = P.dhPub L.bPriv := by
    have : (L.encArgs r).to.pubKey = (initDHKey P L.bPriv).public := by
      simp only [Link.encArgs, hL.b]
    rw [this, initDHKey_public_pub32 P hP] at e2; exact (Option.some.inj e2).symm
  have h3 : rp = P.dhPub L.bPriv := by
    have : (L.encArgs r).to.pubKey = (initDHKey P L.bPriv).public := by
      simp only [Link.encArgs, hL.b]
    rw [this] at e3
    simp only [initDHKey, KeyEntry.public, hP.unb64_b64] at e3
    exact (Option.some.inj e3).symm
  subst h1 h2 h3
  have e4' : (encSession P (L.encArgs r) r.rnd (effKeys L.nA) (L.stateKeyA P)).run
    (MemStore.handle P) A = (.ok (ss', nym'), A1') := e4
  rw [hA] at e4'
  simp only [Prod.mk.injEq, Res.ok.injEq] at e4'
  obtain ⟨⟨rfl, rfl⟩, rfl⟩ := e4'
  have hkeyA : encSessionKey P (L.encArgs r) ss = L.keyA P s := by
    simp only [encSessionKey, Link.encArgs, hL.a, hL.b, hss.own, hss.hash]; rfl
  obtain ⟨m', A2', t', f1, f2, I2⟩ := send_step hP (a := L.encArgs r) (effKeys_ne L.nA)
    (effKeys_lt hL.nA) (ss := ss) (root := root) (sp := P.dhPub s) (rp := P.dhPub L.kPriv) hroot
    (by rw [hss.own]; exact initDHKey_pub32 P hP _) hss.pub (by rw [hss.own]; rfl) hss.hash hk63
    hss.count (by rw [hkeyA]; exact I)
  have e6' : (encExtend P (L.encArgs r) (effKeys L.nA) ss (encSessionKey P (L.encArgs r) ss)).run
    (MemStore.handle P) A1 = (.ok (), A2) := e6
  rw [f1] at e6'
  obtain rfl := (Prod.mk.inj e6').2
  rw [hkeyA] at I2 e7 e9
  rw [hss.count] at e7 e9
  have hmk := send_key hP I2 f2 (by omega)
  rw [show identityFix P (L.encArgs r).from.identity (L.encArgs r).to.identity = L.fix P from rfl]
    at hmk I2
  rw [e7] at hmk
  obtain rfl := Except.ok.inj hmk
  obtain ⟨o3, g3, I3⟩ := send_del (k := k) (s := t') (st := A2'.wrote _)
    ⟨I2.sess, I2.le, I2.small, I2.chain, I2.slen, I2.keys⟩ f2 (by omega) e9
  have oA1 : A1.out = A.out := by
    have := run_out P (quiet_noWrite (quiet_encSession P (L.encArgs r) r.rnd (effKeys L.nA)
      (L.stateKeyA P))) A
    rw [hA] at this; exact this
  have oA2 : A2'.out = A1.out := by
    have := run_out P (quiet_noWrite (quiet_encExtend P (L.encArgs r) (effKeys L.nA) ss
      (encSessionKey P (L.encArgs r) ss))) A1
    rw [f1] at this; exact this
  refine ⟨?_, e5, e8, ⟨_, upd_same _ _ _, ?_, rfl⟩, m', { t' with send := t'.send.set k [] },
    ⟨I3.sess, I3.le, I3.small, I3.chain, I3.slen, I3.keys⟩⟩
  · show A3.out = _
    rw [o3]
    show A2'.out ++ _ = _
    rw [oA2, oA1]; rfl
  · exact ⟨hss.own, hss.hash, hss.pub, hss.seen, by simp only [hss.count]; simp, hss.next⟩

omit hP in
/-- The sender continues a session; the key of the next session is drawn at most here. -/
theorem encSession_next {L : Link} (r : Round) {s : Bytes} {k : Nat}
    {A : MemStore} {ss : State} (hst : A.states (L.stateKeyA P) = some ss)
    (hss : AState P L s k ss) :
    ∃ ss' nym A1, (encSession P (L.encArgs r) r.rnd (effKeys L.nA) (L.stateKeyA P)).run
        (MemStore.handle P) A = (.ok (ss', nym), A1) ∧
      AState P L s k ss' ∧ A1.sessions = A.sessions ∧
      (ss'.nextSenderSessionPub = ss.nextSenderSessionPub ∨ r.rnd.newSession = true ∧
        ss'.nextSenderSessionPub = some (initDHKey P r.rnd.nextPriv)) := by
  unfold encSession
  simp only [bind_eq]
  rw [if_pos (by show statusOK ≠ _; decide)]
  rw [run_bind_of_ok (a := some ss) (s1 := A) _ (by
    rw [run_ask_ok]; simp only [MemStore.handle, hst])]
  simp only
  rw [if_pos (by show statusOK ≠ _; decide)]
  split
  · rename_i hn
    simp only [setNextSenderSessionPub, addSessionKey, bind_eq, initDHKey_priv32, orPanic, ret_bind]
    let ss' : State := { ss with nextSenderSessionPub := some (initDHKey P r.rnd.nextPriv) }
    refine ⟨ss', ss.nymAddress, (MemStore.handle P (.setState (L.stateKeyA P) ss')
      (MemStore.handle P (.addSKey (initDHKey P r.rnd.nextPriv).hash
        (initDHKey P r.rnd.nextPriv).public (P.b64 r.rnd.nextPriv)) A).2).2, ?_,
      ⟨hss.own, hss.hash, hss.pub, hss.seen, hss.count, .inr ⟨_, rfl⟩⟩, rfl,
      .inr ⟨(Bool.and_eq_true_iff.mp hn).2, rfl⟩⟩
    rw [run_bind_of_ok (a := (ss', initDHKey P r.rnd.nextPriv)) (s1 := (MemStore.handle P
      (.setState (L.stateKeyA P) ss')
      (MemStore.handle P (.addSKey (initDHKey P r.rnd.nextPriv).hash
        (initDHKey P r.rnd.nextPriv).public (P.b64 r.rnd.nextPriv)) A).2).2)]
    · rfl
    · rw [run_bind_of_ok (a := ()) _ (by rw [run_ask_ok]; rfl)]
      rw [run_bind_of_ok (a := ()) _ (by rw [run_ask_ok]; rfl)]
      rfl
  · exact ⟨ss, _, A, rfl, hss, rfl, .inl rfl⟩

/-- The next session key announced by a state was drawn for one of the messages. -/
def NextIn (P : Prims) (all : List Round) (ss : State) : Prop :=
  ∀ q, ss.nextSenderSessionPub = some q →
    ∃ r ∈ all, r.rnd.newSession = true ∧ q = initDHKey P r.rnd.nextPriv

/-- What the sender writes for message `k` of the session. -/
def Sent (P : Prims) (L : Link) (all : List Round) (s root : Bytes) (k : Nat) (r : Round)
    (w : Str) : Prop :=
  ∃ ss, AState P L s k ss ∧ NextIn P all ss ∧
    (P.marshal (mkHeader (L.encArgs r) r.rnd ss)).length = 7152 ∧ r.content.length ≤ maxContentLength ∧
    w = P.b64 (messageBytes P r.rnd (mkHeader (L.encArgs r) r.rnd ss) (P.dhPub L.bPriv)
          (senderKey P root (P.dhPub L.kPriv) (L.fix P) k) r.sigKey r.content)

theorem sendAll_later {L : Link} {uid : UID} (hL : L.OK P uid) {s root : Bytes}
    (hroot : root.length = 32) (all : List Round) (rs : List Round) (hrs : ∀ r ∈ rs, r.OK P uid)
    (hall : ∀ r ∈ rs, r ∈ all) (k : Nat) (hk : k + rs.length < 2 ^ 63) (A A' : MemStore) (ss0 : State)
    (hst : A.states (L.stateKeyA P) = some ss0) (hss0 : AState P L s k ss0) (hn : NextIn P all ss0)
    (hI : ∃ m t, SendInv P (effKeys L.nA) (L.keyA P s) root (P.dhPub L.kPriv) (L.fix P) k m A t)
    (ws : List Str) (h : sendAll P L rs A = some (ws, A')) :
    ws.length = rs.length ∧ ∀ i r, rs[i]? = some r → Sent P L all s root (k + i) r (ws.getD i []) := by
  induction rs generalizing k A ss0 ws with
  | nil =>
    simp only [sendAll, Option.some.injEq, Prod.mk.injEq] at h
    refine ⟨by rw [← h.1]; rfl, fun i r hi => absurd hi (by simp)⟩
  | cons r rs ih =>
    simp only [List.length_cons] at hk
    obtain ⟨m, t, I⟩ := hI
    obtain ⟨ss, nym, A1, h1, h2, h3, h4⟩ := encSession_next (P := P) r hst hss0
    have hn1 : NextIn P all ss := by
      intro q hq
      rcases h4 with h4 | ⟨h4, h5⟩
      · exact hn q (by rw [← h4]; exact hq)
      · rw [h5] at hq
        exact ⟨r, hall r (by simp), h4, (Option.some.inj hq).symm⟩
    rw [sendAll] at h
    generalize hrun : (encrypt P (L.encArgs r) r.rnd).run (MemStore.handle P) A = x at h
    obtain ⟨res, A2⟩ := x
    cases res with
    | err e => simp at h
    | panic => simp at h
    | ok nym' =>
      simp only at h
      obtain ⟨g1, g2, g3, ⟨ss', g4, g5, g6⟩, g7⟩ := send_one hP hL (hrs r (by simp)) hroot (by omega) h1 h2
        (t := t) (m := m) ⟨by rw [h3]; exact I.sess, I.le, I.small, I.chain, I.slen, I.keys⟩ hrun
      generalize hrest : sendAll P L rs A2 = y at h
      cases y with
      | none => simp at h
      | some y =>
        obtain ⟨ws', A3⟩ := y
        simp only [Option.some.injEq, Prod.mk.injEq] at h
        obtain ⟨rfl, rfl⟩ := h
        obtain ⟨i1, i2⟩ := ih (fun r hr => hrs r (by simp [hr])) (fun r hr => hall r (by simp [hr])) (k + 1)
          (by omega) A2 ss' g4 g5 (fun q hq => hn1 q (by rw [← g6]; exact hq)) g7 ws' hrest
        refine ⟨by simp [i1], ?_⟩
        intro i r' hi
        cases i with
        | zero =>
          obtain rfl : r = r' := by simpa using hi
          refine ⟨ss, h2, hn1, g2, g3, ?_⟩
          simp only [List.getD_cons_zero]
          rw [g1, List.drop_left]; rfl
        | succ i =>
          have := i2 i r' (by simpa using hi)
          rw [show k + 1 + i = k + (i + 1) by omega] at this
          simpa using this

/-- The keys of the first message of the batch are pairwise different. -/
def FirstDifferent (P : Prims) (L : Link) (rs : List Round) : Prop :=
  ∀ r ∈ rs.head?, AllDifferent [P.dhPub r.rnd.headerPriv, P.dhPub L.aPriv,
    P.dhPub r.rnd.sessPriv, P.dhPub L.bPriv, P.dhPub L.kPriv]

/-- The session key of a batch: the one drawn for its first message. -/
def sessOf (rs : List Round) : Bytes := (rs.head?.map (·.rnd.sessPriv)).getD []

/-- The root key of the session. -/
def rootOf (P : Prims) (L : Link) (s : Bytes) : Bytes :=
  deriveRootKey P (P.dh L.aPriv (P.dhPub L.kPriv)) (P.dh s (P.dhPub L.kPriv))
    (P.dh s (P.dhPub L.bPriv)) none

theorem sendAll_sent {L : Link} {uid : UID} (hL : L.OK P uid)
    (rs : List Round) (hrs : ∀ r ∈ rs, r.OK P uid) (hd : FirstDifferent P L rs)
    (hk : rs.length < 2 ^ 63) (A B A' : MemStore) (hS : L.Start P A B)
    (ws : List Str) (h : sendAll P L rs A = some (ws, A')) :
    ws.length = rs.length ∧ ∀ i r, rs[i]? = some r →
      Sent P L rs (sessOf rs) (rootOf P L (sessOf rs)) i r (ws.getD i []) := by
  cases rs with
  | nil =>
    simp only [sendAll, Option.some.injEq, Prod.mk.injEq] at h
    refine ⟨by rw [← h.1]; rfl, fun i r hi => absurd hi (by simp)⟩
  | cons r rs =>
    simp only [List.length_cons] at hk
    obtain ⟨ss, nym, A1, t, h1, h2, h3, h4⟩ := encSession_first hP hL r (hd r (by simp)) hS
    have hroot := deriveRootKey_len P hP (P.dh L.aPriv (P.dhPub L.kPriv))
      (P.dh r.rnd.sessPriv (P.dhPub L.kPriv)) (P.dh r.rnd.sessPriv (P.dhPub L.bPriv)) none
    have hn1 : NextIn P (r :: rs) ss := fun q hq => by rw [h3] at hq; cases hq
    rw [sendAll] at h
    generalize hrun : (encrypt P (L.encArgs r) r.rnd).run (MemStore.handle P) A = x at h
    obtain ⟨res, A2⟩ := x
    cases res with
    | err e => simp at h
    | panic => simp at h
    | ok nym' =>
      simp only at h
      obtain ⟨g1, g2, g3, ⟨ss', g4, g5, g6⟩, g7⟩ := send_one hP hL (hrs r (by simp)) hroot (by omega) h1 h2
        h4 hrun
      generalize hrest : sendAll P L rs A2 = y at h
      cases y with
      | none => simp at h
      | some y =>
        obtain ⟨ws', A3⟩ := y
        simp only [Option.some.injEq, Prod.mk.injEq] at h
        obtain ⟨rfl, rfl⟩ := h
        obtain ⟨i1, i2⟩ := sendAll_later hP hL hroot (r :: rs) rs (fun r hr => hrs r (by simp [hr]))
          (fun r hr => by simp [hr]) 1
          (by omega) A2 A3 ss' g4 g5 (fun q hq => hn1 q (by rw [← g6]; exact hq)) g7 ws' hrest
        refine ⟨by simp [i1], ?_⟩
        intro i r' hi
        cases i with
        | zero =>
          obtain rfl : r = r' := by simpa using hi
          refine ⟨ss, h2, hn1, g2, g3, ?_⟩
          simp only [List.getD_cons_zero]
          rw [g1, List.drop_left]; rfl
        | succ i =>
          have := i2 i r' (by simpa using hi)
          rw [show 1 + i = i + 1 by omega] at this
          rw [List.getD_cons_succ]
          exact this

/-- A batch of messages that Encrypt accepts can be sent. -/
theorem sendAll_succeeds {L : Link} {uid : UID} (hL : L.OK P uid)
    (rs : List Round) (hrs : ∀ r ∈ rs, r.OK P uid) (hfit : ∀ r ∈ rs, r.Fits P L)
    (hd : FirstDifferent P L rs) (hk : rs.length < 2 ^ 63) (A B : MemStore) (hS : L.Start P A B) :
    ∃ ws A', sendAll P L rs A = some (ws, A') := by
  have later : ∀ (rs : List Round) (hrs : ∀ r ∈ rs, r.OK P uid) (hfit : ∀ r ∈ rs, r.Fits P L)
      (s root : Bytes) (hroot : root.length = 32) (k : Nat) (hk : k + rs.length < 2 ^ 63)
      (A : MemStore) (ss0 : State) (hst : A.states (L.stateKeyA P) = some ss0) (hss0 : AState P L s k ss0)
      (hI : ∃ m t, SendInv P (effKeys L.nA) (L.keyA P s) root (P.dhPub L.kPriv) (L.fix P) k m A t),
      ∃ ws A', sendAll P L rs A = some (ws, A') := by
    intro rs
    induction rs with
    | nil => intros; exact ⟨_, _, rfl⟩
    | cons r rs ih =>
      intro hrs hfit s root hroot k hk A ss0 hst hss0 hI
      simp only [List.length_cons] at hk
      obtain ⟨m, t, I⟩ := hI
      obtain ⟨ss, nym, A1, h1, h2, h3, -⟩ := encSession_next (P := P) r hst hss0
      have I1 : SendInv P (effKeys L.nA) (L.keyA P s) root (P.dhPub L.kPriv) (L.fix P) k m A1 t :=
        ⟨by rw [h3]; exact I.sess, I.le, I.small, I.chain, I.slen, I.keys⟩
      obtain ⟨A2, hA2⟩ := encrypt_run hP hL (hrs r (by simp)) (hfit r (by simp)) hroot (by omega) h1 h2 I1
      obtain ⟨-, -, -, ⟨ss', g4, g5, -⟩, g7⟩ := send_one hP hL (hrs r (by simp)) hroot (by omega) h1 h2 I1 hA2
      obtain ⟨ws, A', h⟩ := ih (fun r hr => hrs r (by simp [hr])) (fun r hr => hfit r (by simp [hr]))
        s root hroot (k + 1) (by omega) A2 ss' g4 g5 g7
      exact ⟨A2.out.drop A.out.length :: ws, A', by simp only [sendAll, hA2, h]⟩
  cases rs with
  | nil => exact ⟨_, _, rfl⟩
  | cons r rs =>
    simp only [List.length_cons] at hk
    obtain ⟨ss, nym, A1, t, h1, h2, -, h4⟩ := encSession_first hP hL r (hd r (by simp)) hS
    have hroot := deriveRootKey_len P hP (P.dh L.aPriv (P.dhPub L.kPriv))
      (P.dh r.rnd.sessPriv (P.dhPub L.kPriv)) (P.dh r.rnd.sessPriv (P.dhPub L.bPriv)) none
    obtain ⟨A2, hA2⟩ := encrypt_run hP hL (hrs r (by simp)) (hfit r (by simp)) hroot (by omega) h1 h2 h4
    obtain ⟨-, -, -, ⟨ss', g4, g5, -⟩, g7⟩ := send_one hP hL (hrs r (by simp)) hroot (by omega) h1 h2 h4 hA2
    obtain ⟨ws, A', h⟩ := later rs (fun r hr => hrs r (by simp [hr])) (fun r hr => hfit r (by simp [hr]))
        _ _ hroot 1 (by omega) A2 ss' g4 g5 g7
    exact ⟨A2.out.drop A.out.length :: ws, A', by simp only [sendAll, hA2, h]⟩

/-! ### Both together -/

/-- The keys that meet when the first message to arrive is `r` and the recipient draws `fresh`
do not coincide by accident: the header key of `r` is different from the other keys of the session
and of the next one, and the next session is not stored under the name of this one. -/
structure Apart (P : Prims) (L : Link) (rs : List Round) (r : Round) (fresh : Bytes) : Prop where
  now : AllDifferent [P.dhPub r.rnd.headerPriv, P.dhPub L.aPriv, P.dhPub (sessOf rs),
    P.dhPub L.bPriv, P.dhPub L.kPriv]
  next : ∀ r' ∈ rs, r'.rnd.newSession = true →
    AllDifferent [P.dhPub r.rnd.headerPriv, P.dhPub L.bPriv, P.dhPub fresh, P.dhPub L.aPriv,
      P.dhPub r'.rnd.nextPriv] ∧
    calcKey P (keyHash P L.bPriv) (keyHash P L.aPriv) (keyHash P fresh) (keyHash P r'.rnd.nextPriv) ≠
      L.keyB P (sessOf rs)

/-- The recipient's store after the first attempt. -/
structure Within (P : Prims) (L : Link) (s : Bytes) (w : Window) (B : MemStore) : Prop where
  state : ∃ sb, B.states (L.stateKeyB P) = some sb ∧ BState P L s sb
  sess : ∃ t, AnyInv P (effKeys L.nB) (L.keyB P s) (rootOf P L s) (P.dhPub L.kPriv) (L.fix P) w B t

theorem openStep_sent {L : Link} {uid : UID} (hL : L.OK P uid)
    (hparse : ∀ h : Header, h.Clean → (P.marshal h).length = 7152 → P.parse (P.marshal h) = some h)
    {all : List Round} {r : Round} (hr : r.OK P uid) {s : Bytes} {i : Nat} (hi : i < 2 ^ 63) {w : Str}
    (hw : Sent P L all s (rootOf P L s) i r w) {B : MemStore} {win : Window} (fresh : Bytes)
    (hB : ∀ a ss, a.fresh = fresh → AState P L s i ss → NextIn P all ss → ∃ B1 sb t,
      (decSession P a (effKeys L.nB) (P.dhPub r.rnd.headerPriv) L.bob
        (mkHeader (L.encArgs r) r.rnd ss)).run (MemStore.handle P) B = (.ok (some sb), B1) ∧
      BState P L s sb ∧ B1.states (L.stateKeyB P) = some sb ∧
      AnyInv P (effKeys L.nB) (L.keyB P s) (rootOf P L s) (P.dhPub L.kPriv) (L.fix P) win B1 t) :
    ∃ B', openStep P L fresh w B = (if win.accepts (effKeys L.nB).toNat i then
        some (r.content, L.alice.identity, sigOf P r.sigKey r.content) else none, B') ∧
      Within P L s (win.after (effKeys L.nB).toNat i) B' ∧
      (win.accepts (effKeys L.nB).toNat i = false → Refused P L fresh w B (if i ∈ win.opened then .store .keyUsed else .tooManyKeys) B') := by
  obtain ⟨ss, hss, hn, e5, e8, rfl⟩ := hw
  obtain ⟨B1, sb, t, d1, d2, d3, d4⟩ := hB ⟨[L.bob],
      (newPre (P.dhPub r.rnd.headerPriv)).write,
      (newOuter Wire.encryptedHeader 1 (r.rnd.nonce ++ be16 7168 ++
          P.boxSeal (P.marshal (mkHeader (L.encArgs r) r.rnd ss)) r.rnd.nonce (P.dhPub L.bPriv)
            r.rnd.headerPriv)).write true ++
          encBody P (senderKey P (rootOf P L s) (P.dhPub L.kPriv) (L.fix P) i) r.rnd r.sigKey r.content,
        L.nB, fresh⟩ ss rfl hss hn
  obtain ⟨B', t', k1, k2, k3, k4⟩ := open_any hP hL hr e5 (hparse _ (mkHeader_clean _ _ _) e5)
      (mkHeader_verify hP hL r hss) (deriveRootKey_len P hP _ _ _ _) hi rfl rfl
      (by simp only [mkHeader, hss.own])
      (by simp only [mkHeader, Link.encArgs, hL.a]) hss.hash hss.count e8 fresh d1 d2 d4
  exact ⟨B', k1, ⟨⟨sb, by rw [k2]; exact d3, d2⟩, t', k3⟩, k4⟩

theorem openStep_first {L : Link} {uid : UID} (hL : L.OK P uid)
    (hparse : ∀ h : Header, h.Clean → (P.marshal h).length = 7152 → P.parse (P.marshal h) = some h)
    {all : List Round} {r : Round} (hr : r.OK P uid) {i : Nat} (hi : i < 2 ^ 63) {w : Str}
    (hw : Sent P L all (sessOf all) (rootOf P L (sessOf all)) i r w) {A B : MemStore}
    (hS : L.Start P A B) (fresh : Bytes) (hd : Apart P L all r fresh) :
    ∃ B', openStep P L fresh w B = (if Window.accepts (effKeys L.nB).toNat ⟨(effKeys L.nB).toNat, []⟩ i then
        some (r.content, L.alice.identity, sigOf P r.sigKey r.content) else none, B') ∧
      Within P L (sessOf all) (Window.after (effKeys L.nB).toNat ⟨(effKeys L.nB).toNat, []⟩ i) B' ∧
      (Window.accepts (effKeys L.nB).toNat ⟨(effKeys L.nB).toNat, []⟩ i = false → Refused P L fresh w B (if i ∈ (⟨(effKeys L.nB).toNat, []⟩ : Window).opened then .store .keyUsed else .tooManyKeys) B') := by
  refine openStep_sent hP hL hparse hr hi hw fresh fun a ss ha hss hn => ?_
  refine decSession_start hP hL a (P.dhPub r.rnd.headerPriv)
          (h := mkHeader (L.encArgs r) r.rnd ss) (s := sessOf all) rfl
          (by simp only [mkHeader, hss.own]) (by simp only [mkHeader, Link.encArgs, hL.a]) hss.hash
          ?_ hd.now hS
  cases hq : ss.nextSenderSessionPub with
  | none => left; simp only [mkHeader, hq, Option.map_none]
  | some q =>
    obtain ⟨r', h1, h2, rfl⟩ := hn q hq
    right
    obtain ⟨h3, h4⟩ := hd.next r' h1 h2
    rw [ha]
    exact ⟨r'.rnd.nextPriv, by simp only [mkHeader, hq, Option.map_some], h3, h4⟩

theorem openStep_later {L : Link} {uid : UID} (hL : L.OK P uid)
    (hparse : ∀ h : Header, h.Clean → (P.marshal h).length = 7152 → P.parse (P.marshal h) = some h)
    {all : List Round} {r : Round} (hr : r.OK P uid) {s : Bytes} {i : Nat} (hi : i < 2 ^ 63) {w : Str}
    (hw : Sent P L all s (rootOf P L s) i r w) {B : MemStore} {win : Window} (hin : Within P L s win B)
    (fresh : Bytes) :
    ∃ B', openStep P L fresh w B = (if win.accepts (effKeys L.nB).toNat i then
        some (r.content, L.alice.identity, sigOf P r.sigKey r.content) else none, B') ∧
      Within P L s (win.after (effKeys L.nB).toNat i) B' ∧
      (win.accepts (effKeys L.nB).toNat i = false → Refused P L fresh w B (if i ∈ win.opened then .store .keyUsed else .tooManyKeys) B') := by
  refine openStep_sent hP hL hparse hr hi hw fresh fun a ss _ hss _ => ?_
  obtain ⟨sb, hb, hsb⟩ := hin.state
  obtain ⟨tb, K⟩ := hin.sess
  have hd := decSession_later hP hL a (P.dhPub r.rnd.headerPriv)
    (h := mkHeader (L.encArgs r) r.rnd ss) (s := s) (by simp only [mkHeader, hss.own])
    (by simp only [mkHeader, Link.encArgs, hL.a]) hss.hash
    (by simp only [mkHeader, hss.seen, Option.map_none]) hb hsb K.sess
  obtain ⟨f1, f2⟩ := delPriv_frame B (keyHash P L.kPriv)
  exact ⟨_, sb, tb, hd, hsb, by rw [f2]; exact hb,
    ⟨by rw [f1]; exact K.sess, K.pos, K.small, K.chain, K.slen, K.rlen, K.low, K.used, K.keys⟩⟩

/-- What the recipient is to get for message `i`. -/
def delivery (P : Prims) (L : Link) (rs : List Round) (i : Nat) : Option (Bytes × Str × Str) :=
  rs[i]?.map fun r => (r.content, L.alice.identity, sigOf P r.sigKey r.content)

theorem openAll_later {L : Link} {uid : UID} (hL : L.OK P uid)
    (hparse : ∀ h : Header, h.Clean → (P.marshal h).length = 7152 → P.parse (P.marshal h) = some h)
    {rs : List Round} (hrs : ∀ r ∈ rs, r.OK P uid) (hk : rs.length < 2 ^ 63) {ws : List Str}
    (hw : ∀ i r, rs[i]? = some r → Sent P L rs (sessOf rs) (rootOf P L (sessOf rs)) i r (ws.getD i []))
    (arr : List (Nat × Bytes)) (hin : ∀ x ∈ arr, x.1 < rs.length) (win : Window) (B : MemStore)
    (hB : Within P L (sessOf rs) win B) :
    openAll P L (arr.map fun x => (x.2, ws.getD x.1 [])) B =
      expected (delivery P L rs) (effKeys L.nB).toNat win (arr.map (·.1)) := by
  induction arr generalizing win B with
  | nil => rfl
  | cons x arr ih =>
    obtain ⟨i, f⟩ := x
    have hi : i < rs.length := hin (i, f) (by simp)
    obtain ⟨r, hri⟩ : ∃ r, rs[i]? = some r := ⟨rs[i], List.getElem?_eq_getElem hi⟩
    obtain ⟨B', h1, h2, -⟩ := openStep_later hP hL hparse (hrs r (List.mem_of_getElem? hri)) (by omega)
      (hw i r hri) hB f
    simp only [List.map_cons, openAll, expected, h1]
    rw [ih (fun x hx => hin x (by simp [hx])) _ B' h2]
    congr 1
    simp only [delivery, hri, Option.map_some]

/-- C142: a user who never communicated with another one sends them a list of messages.  The
encoded messages arrive in any order, each of them any number of times.  Then each attempt to open
one gives exactly the content that was sent, with the sender and the signature, if it was not
opened before and its key was made already or can be made (at most 301 keys at a time, in multiples
of the batch size); otherwise it is refused. -/
theorem C142_which_open (L : Link) (uid : UID) (hL : L.OK P uid)
    (hparse : ∀ h : Header, h.Clean → (P.marshal h).length = 7152 → P.parse (P.marshal h) = some h)
    (rs : List Round) (hrs : ∀ r ∈ rs, r.OK P uid) (hd : FirstDifferent P L rs)
    (hk : rs.length < 2 ^ 63) (A B A' : MemStore) (hS : L.Start P A B)
    (ws : List Str) (hsend : sendAll P L rs A = some (ws, A'))
    (arr : List (Nat × Bytes)) (hin : ∀ x ∈ arr, x.1 < rs.length)
    (hfirst : ∀ x ∈ arr.head?, ∀ r ∈ rs[x.1]?, Apart P L rs r x.2) :
    openAll P L (arr.map fun x => (x.2, ws.getD x.1 [])) B =
      expected (delivery P L rs) (effKeys L.nB).toNat ⟨(effKeys L.nB).toNat, []⟩ (arr.map (·.1)) := by
  obtain ⟨-, hw⟩ := sendAll_sent hP hL rs hrs hd hk A B A' hS ws hsend
  cases arr with
  | nil => rfl
  | cons x arr =>
    obtain ⟨i, f⟩ := x
    have hi : i < rs.length := hin (i, f) (by simp)
    obtain ⟨r, hri⟩ : ∃ r, rs[i]? = some r := ⟨rs[i], List.getElem?_eq_getElem hi⟩
    obtain ⟨B', h1, h2, -⟩ := openStep_first hP hL hparse (hrs r (List.mem_of_getElem? hri)) (by omega)
      (hw i r hri) hS f (hfirst (i, f) (by simp) r (by simpa using hri))
    simp only [List.map_cons, openAll, expected, h1]
    rw [openAll_later hP hL hparse hrs hk hw arr (fun x hx => hin x (by simp [hx])) _ B' h2]
    congr 1
    simp only [delivery, hri, Option.map_some]

omit hP in
theorem expected_all {α : Type} (msg : Nat → Option α) (n : Nat) (is : List Nat) (hd : is.Nodup)
    (w : Window) (hw : ∀ i ∈ is, i ∉ w.opened)
    (hr : ∀ i ∈ is, i < w.keys ∨ roundUp i n ≤ 301) :
    expected msg n w is = is.map msg := by
  induction is generalizing w with
  | nil => rfl
  | cons i is ih =>
    have hacc : w.accepts n i = true := by
      have h1 := hw i (by simp)
      have h2 := hr i (by simp)
      simp only [Window.accepts, h1, not_false_eq_true, decide_true, Bool.true_and, Bool.or_eq_true,
        decide_eq_true_eq]
      exact h2
    simp only [expected, hacc, if_true, List.map_cons, Window.after]
    rw [ih (List.nodup_cons.mp hd).2]
    · intro j hj
      have h1 : j ≠ i := by
        rintro rfl
        exact (List.nodup_cons.mp hd).1 hj
      have h2 := hw j (by simp [hj])
      simp [h1, h2]
    · intro j hj
      rcases hr j (by simp [hj]) with h | h
      · left; simp only; split <;> omega
      · exact .inr h

/-- C142: in particular, messages which lie within the first batch of keys or need at most 301
further ones are all delivered exactly as sent, in whatever order they arrive. Missing: later
messages, see `C142_newest_first_violated`. -/
theorem C142_any_order_partial (L : Link) (uid : UID) (hL : L.OK P uid)
    (hparse : ∀ h : Header, h.Clean → (P.marshal h).length = 7152 → P.parse (P.marshal h) = some h)
    (rs : List Round) (hrs : ∀ r ∈ rs, r.OK P uid) (hd : FirstDifferent P L rs)
    (hk : rs.length < 2 ^ 63) (A B A' : MemStore) (hS : L.Start P A B)
    (ws : List Str) (hsend : sendAll P L rs A = some (ws, A'))
    (arr : List (Nat × Bytes)) (hin : ∀ x ∈ arr, x.1 < rs.length)
    (hfirst : ∀ x ∈ arr.head?, ∀ r ∈ rs[x.1]?, Apart P L rs r x.2)
    (honce : (arr.map (·.1)).Nodup)
    (hnear : ∀ x ∈ arr, x.1 < (effKeys L.nB).toNat ∨ roundUp x.1 (effKeys L.nB).toNat ≤ 301) :
    openAll P L (arr.map fun x => (x.2, ws.getD x.1 [])) B =
      arr.map fun x => delivery P L rs x.1 := by
  rw [C142_which_open hP L uid hL hparse rs hrs hd hk A B A' hS ws hsend arr hin hfirst,
    expected_all _ _ _ honce _ (fun _ _ => by simp), List.map_map]
  · rfl
  · intro i hi
    obtain ⟨x, hx, rfl⟩ := List.mem_map.mp hi
    exact hnear x hx

omit hP in
theorem expected_stuck {α : Type} (msg : Nat → Option α) (n : Nat) (w : Window) (i : Nat)
    (h : w.accepts n i = false) (k : Nat) :
    expected msg n w (List.replicate k i) = List.replicate k none := by
  induction k with
  | zero => rfl
  | succ k ih =>
    simp only [List.replicate_succ, expected, h, Bool.false_eq_true, if_false, Window.after, ih]

/-- C142 fails beyond that: a batch of messages which are all delivered when they are opened in the
order they were sent is not delivered when it is opened newest first, as a client which fetches
them at once does: the newest message is refused, however often the attempt is repeated. -/
theorem C142_newest_first_violated (L : Link) (uid : UID) (hL : L.OK P uid)
    (hparse : ∀ h : Header, h.Clean → (P.marshal h).length = 7152 → P.parse (P.marshal h) = some h)
    (rs : List Round) (hrs : ∀ r ∈ rs, r.OK P uid) (hfit : ∀ r ∈ rs, r.Fits P L)
    (hd : FirstDifferent P L rs)
    (hbig : 302 < rs.length) (hbatch : (effKeys L.nB).toNat < rs.length)
    (hlen : rs.length ≤ stuckAt (effKeys L.nB).toNat) (A B : MemStore) (hS : L.Start P A B)
    (fresh : Nat → Bytes) (hap : ∀ r ∈ rs[rs.length - 1]?, Apart P L rs r (fresh 0)) :
    conversation P L rs A B =
      .ok (rs.map fun r => (r.content, L.alice.identity, sigOf P r.sigKey r.content)) ∧
    ∃ ws A', sendAll P L rs A = some (ws, A') ∧ ws.length = rs.length ∧ ∀ k,
      openAll P L ((List.range k).map fun j => (fresh j, ws.getD (rs.length - 1) [])) B =
        List.replicate k none := by
  have hlim : rs.length < 2 ^ 63 := by
    have := stuckAt_le (effKeys L.nB).toNat
    have := effKeys_lt hL.nB
    omega
  refine ⟨C61_conversation_succeeds hP L uid hL hparse rs hrs hfit hd hlen A B hS, ?_⟩
  obtain ⟨ws, A', hsend⟩ := sendAll_succeeds hP hL rs hrs hfit hd hlim A B hS
  refine ⟨ws, A', hsend, (sendAll_sent hP hL rs hrs hd hlim A B A' hS ws hsend).1, fun k => ?_⟩
  have := C142_which_open hP L uid hL hparse rs hrs hd hlim A B A' hS ws hsend
    ((List.range k).map fun j => (rs.length - 1, fresh j))
    (by intro x hx
        obtain ⟨j, -, rfl⟩ := List.mem_map.mp hx
        simp only; omega)
    (by intro x hx r hr
        cases k with
        | zero => simp at hx
        | succ k =>
          rw [List.range_succ_eq_map] at hx
          obtain rfl : (rs.length - 1, fresh 0) = x := by simpa using hx
          exact hap r hr)
  rw [List.map_map, List.map_map] at this
  refine Eq.trans this ?_
  have hconst : (List.range k).map ((fun x : Nat × Bytes => x.1) ∘ fun j => (rs.length - 1, fresh j)) =
      List.replicate k (rs.length - 1) := by
    rw [List.eq_replicate_iff]
    refine ⟨by simp, ?_⟩
    intro b hb
    obtain ⟨j, -, rfl⟩ := List.mem_map.mp hb
    rfl
  rw [hconst]
  refine expected_stuck _ _ _ _ ?_ k
  have hn0 : 0 < (effKeys L.nB).toNat := by
    rcases Nat.eq_zero_or_pos (effKeys L.nB).toNat with h | h
    · exact absurd (UInt64.toNat_inj.mp (by simpa using h)) (effKeys_ne L.nB)
    · exact h
  have hle := le_roundUp (rs.length - 1) hn0
  have h1 : ¬ rs.length - 1 < (effKeys L.nB).toNat := by omega
  have h2 : ¬ roundUp (rs.length - 1) (effKeys L.nB).toNat ≤ 301 := by omega
  simp [Window.accepts, h1, h2]

end

end Verif.Msg
