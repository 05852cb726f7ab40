import Verif.Msg.DecLemmas
/-
C13: how far a one-way session gets when all messages arrive in order.
-/
namespace Verif.Msg
open Prog

/-- The index of the first in-order message the recipient refuses: the number of
keys doubles from the batch size on until it exceeds 301. -/
def stuckAt (n : Nat) : Nat :=
  if h : n = 0 ∨ n > 301 then n else stuckAt (2 * n)
termination_by 302 - n

theorem stuckAt_big {n : Nat} (h : n > 301) : stuckAt n = n := by
  rw [stuckAt, dif_pos (.inr h)]

theorem stuckAt_small {n : Nat} (h0 : n ≠ 0) (h : ¬ n > 301) : stuckAt n = stuckAt (2 * n) := by
  rw [stuckAt, dif_neg (by omega)]

theorem le_stuckAt (n : Nat) : n ≤ stuckAt n := by
  fun_induction stuckAt n with
  | case1 n h => exact Nat.le_refl _
  | case2 n h ih => omega

theorem stuckAt_le (n : Nat) : stuckAt n ≤ max n 602 := by
  fun_induction stuckAt n with
  | case1 n h => omega
  | case2 n h ih => omega

theorem stuckAt_gt (n : Nat) (h : n ≠ 0) : 301 < stuckAt n := by
  fun_induction stuckAt n with
  | case1 n h => omega
  | case2 n h ih => exact ih (by omega)

theorem keysNeeded_multiple {c n : UInt64} (hn : n ≠ 0) (h : n.toNat ∣ c.toNat) :
    keysNeeded c n = c := by
  have hn' : n.toNat ≠ 0 := fun e => hn (UInt64.toNat_inj.mp (by simpa using e))
  unfold keysNeeded
  have hm : (c % n).toNat = 0 := by
    rw [UInt64.toNat_mod]; exact Nat.mod_eq_zero_of_dvd h
  have hmod : ¬ (c % n > 0) := by
    intro hlt
    have := UInt64.lt_iff_toNat_lt.mp hlt
    rw [hm] at this; simp at this
  simp only [hmod, if_false]
  apply UInt64.toNat_inj.mp
  rw [UInt64.toNat_mul, UInt64.toNat_div, Nat.div_mul_cancel h]
  exact Nat.mod_eq_of_lt c.toNat_lt

/-- The message key for index `i` as the sender computes it: HMAC with the i-th
chain key (KeyLemmas: `chainAt`) over "MESSAGE", the hash of the recipient's key
and the identities. -/
def senderKey (P : Prims) (root recipientPub fix : Bytes) (i : Nat) : Bytes :=
  P.hmac (chainAt P root i) (sMESSAGE ++ P.sha512 recipientPub ++ fix)

/-- The key handling of Decrypt for messages 0, 1, …, k-1 of a session arriving in
this order (decrypt.go:347-405 and 575-579): extend, fetch the key, delete it. -/
def receive (P : Prims) (n : UInt64) (u : UID) (h : Header) (ss : Option State) :
    Nat → Prog (List Bytes)
  | 0 => .ret []
  | k + 1 => do
    let ks ← receive P n u h ss k
    decExtend P n u { h with senderMessageCount := UInt64.ofNat k } (decSessionKey P u h) ss
    let mk ← Prog.ask (.getMsgKey (decSessionKey P u h) false (UInt64.ofNat k))
    Prog.ask (.delMsgKey (decSessionKey P u h) false (UInt64.ofNat k))
    .ret (ks ++ [mk])

/-- Invariant of the receiving loop after `k` messages: `m` keys were generated,
those from `k` on are still there. -/
structure RecvInv (P : Prims) (n : UInt64) (sk : Str) (root rp fix : Bytes) (k m : Nat)
    (st : MemStore) (s : Sess) : Prop where
  sess : st.sessions sk = some s
  dvd : n.toNat ∣ m
  pos : m ≠ 0
  stuck : stuckAt m = stuckAt n.toNat
  small : m = n.toNat ∨ m ≤ 602
  le : k ≤ m
  chain : s.chain = P.b64 (chainAt P root m)
  slen : s.send.length = m
  rlen : s.recv.length = m
  keys : ∀ i, k ≤ i → i < m → s.recv[i]? = some (P.b64 (senderKey P root rp fix i))

section
variable (P : Prims) (hP : P.Good) (n : UInt64) (hn : n ≠ 0) (u : UID) (h : Header)
  (ss : State) (root sp rp : Bytes) (hroot : root.length = 32)
  (hsp : h.senderSessionPub.pub32 P = some sp) (hrp : ss.senderSessionPub.pub32 P = some rp)
  (hss : h.recipientTempHash = ss.senderSessionPub.hash)
  (hh1 : h.recipientTempHash = P.b64 (P.sha512 rp))
  (hh2 : h.senderSessionPub.hash = P.b64 (P.sha512 sp))

theorem ofNat_toNat {k : Nat} (hk : k < 2 ^ 64) : (UInt64.ofNat k).toNat = k := by
  rw [UInt64.toNat_ofNat']; exact Nat.mod_eq_of_lt hk

include hP hn hroot hsp hrp hss hh1 hh2 in
/-- One extension step. -/
theorem extend_step (k m : Nat) (st : MemStore) (s : Sess)
    (hk : k < stuckAt n.toNat) (hk64 : k < 2 ^ 64)
    (I : RecvInv P n (decSessionKey P u h) root rp
      (identityFix P h.senderIdentity u.identity) k m st s) :
    ∃ m' st' s', (decExtend P n u { h with senderMessageCount := UInt64.ofNat k }
        (decSessionKey P u h) (some ss)).run (MemStore.handle P) st = (.ok (), st') ∧
      st'.states = st.states ∧ k < m' ∧ RecvInv P n (decSessionKey P u h) root rp
        (identityFix P h.senderIdentity u.identity) k m' st' s' := by
  have hm64 : m < 2 ^ 64 := by
    have := n.toNat_lt
    rcases I.small with h | h <;> omega
  have hnum : st.numMessageKeys (decSessionKey P u h) = .ok (UInt64.ofNat m) := by
    unfold MemStore.numMessageKeys; rw [I.sess]; simp only [I.slen]
  unfold decExtend
  simp only [bind_eq]
  rw [run_bind_of_ok (a := UInt64.ofNat m) (s1 := st) _
    (by rw [run_ask_ok]; simp only [MemStore.handle, hnum])]
  by_cases hkm : k < m
  · have : ¬ (UInt64.ofNat k ≥ UInt64.ofNat m) := by
      intro hge
      have := UInt64.le_iff_toNat_le.mp hge
      rw [ofNat_toNat hk64, ofNat_toNat hm64] at this; omega
    rw [if_neg this]
    exact ⟨m, st, s, rfl, rfl, hkm, I⟩
  · have hkm' : k = m := by have := I.le; omega
    subst hkm'
    rw [if_pos (UInt64.le_refl _)]
    have hc : st.getChainKey P (decSessionKey P u h) = .ok (chainAt P root k) := by
      unfold MemStore.getChainKey
      rw [I.sess]
      simp only [I.chain, hP.unb64_b64, chainAt_len P hP root hroot]
      rw [if_neg (by omega), List.take_of_length_le]
      rw [chainAt_len P hP root hroot]; exact Nat.le_refl _
    rw [run_bind_of_ok (a := chainAt P root k) (s1 := st) _
      (by rw [run_ask_ok]; simp only [MemStore.handle, hc])]
    have hneed : keysNeeded (UInt64.ofNat k) n = UInt64.ofNat k :=
      keysNeeded_multiple hn (by rw [ofNat_toNat hk64]; exact I.dvd)
    have hsmall : ¬ k > 301 := by
      intro hgt
      have := I.stuck
      rw [stuckAt_big hgt] at this; omega
    have hlim : ¬ (UInt64.ofNat k > keyLimit) := by
      intro hgt
      have := UInt64.lt_iff_toNat_lt.mp hgt
      rw [ofNat_toNat hk64] at this
      have hl : keyLimit.toNat = 301 := by decide
      omega
    simp only [hneed, hlim, decide_false, failIf, Bool.false_eq_true, if_false, ret_bind, orPanic,
      hss, hrp, hsp, if_true]
    have hk0 : UInt64.ofNat k ≠ 0 := by
      intro e
      have := congrArg UInt64.toNat e
      rw [ofNat_toNat hk64] at this
      exact I.pos (by simpa using this)
    rw [generate_eq P _ _ _ _ _ _ _ _ _ hk0, run_ask]
    have hkey : genKey P h.senderIdentityPub.hash u.pubKey.hash true sp rp =
        decSessionKey P u h := by
      simp only [genKey, if_true, decSessionKey, hh1, hh2]
    simp only [MemStore.handle, hkey, if_true]
    rw [sess_ext I.sess _ _ _ _ (by simp [keyList_length])]
    simp only [ofNat_toNat hk64]
    refine ⟨2 * k, _, _, rfl, rfl, by have := I.pos; omega, ⟨upd_same _ _ _, ?_, ?_, ?_, ?_, ?_, ?_, ?_, ?_, ?_⟩⟩
    · exact Nat.dvd_mul_left_of_dvd I.dvd 2
    · have := I.pos; omega
    · rw [← stuckAt_small I.pos hsmall]; exact I.stuck
    · right; omega
    · omega
    · show P.b64 (chainAt P (chainAt P root k) k) = _
      rw [← chainAt_add]; congr 2; omega
    · simp [keyList_length, I.slen]; omega
    · simp [keyList_length, I.rlen]; omega
    · intro i h1 h2
      simp only
      rw [List.getElem?_append_right (by rw [I.rlen]; exact h1), I.rlen]
      unfold keyList
      rw [List.getElem?_map, List.getElem?_range (by omega)]
      simp only [Option.map_some, messageKey, senderKey]
      rw [← chainAt_add]
      congr 4; omega

include hP hn hroot hsp hrp hss hh1 hh2 in
theorem receive_inv (st : MemStore) (s : Sess)
    (I0 : RecvInv P n (decSessionKey P u h) root rp
      (identityFix P h.senderIdentity u.identity) 0 n.toNat st s) :
    ∀ k, k ≤ stuckAt n.toNat → ∃ m st' s',
      (receive P n u h (some ss) k).run (MemStore.handle P) st =
        (.ok ((List.range k).map (senderKey P root rp
          (identityFix P h.senderIdentity u.identity))), st') ∧
      RecvInv P n (decSessionKey P u h) root rp
        (identityFix P h.senderIdentity u.identity) k m st' s' := by
  intro k
  induction k with
  | zero => intro _; exact ⟨n.toNat, st, s, rfl, I0⟩
  | succ k ih =>
    intro hk
    obtain ⟨m, st1, s1, r1, I1⟩ := ih (by omega)
    have hk64 : k < 2 ^ 64 := by
      have := stuckAt_le n.toNat
      have := n.toNat_lt
      omega
    obtain ⟨m', st2, s2, r2, -, hkm, I2⟩ := extend_step P hP n hn u h ss root sp rp hroot hsp hrp hss
      hh1 hh2 k m st1 s1 (by omega) hk64 I1
    let key := senderKey P root rp (identityFix P h.senderIdentity u.identity) k
    have hlen : key.length = 64 := hP.hmac_len _ _
    have hget : st2.getMessageKey P (decSessionKey P u h) false (UInt64.ofNat k) = .ok key := by
      unfold MemStore.getMessageKey
      rw [I2.sess]
      simp only [ofNat_toNat hk64, I2.slen, Bool.false_eq_true, if_false,
        I2.keys k (Nat.le_refl _) hkm]
      rw [if_neg (by omega), if_neg]
      · simp only [hP.unb64_b64]
        rw [if_neg (by show ¬ key.length < 64; omega),
          List.take_of_length_le (by show key.length ≤ 64; omega)]
      · intro e
        have := hP.b64_len key
        have e' : P.b64 key = [] := e
        rw [e', hlen] at this; simp at this
    have hdel : ∃ s3, st2.delMessageKey (decSessionKey P u h) false (UInt64.ofNat k) =
        (.ok (), st2.setSess (decSessionKey P u h) s3) ∧ s3 = { s2 with recv := s2.recv.set k [] } := by
      refine ⟨_, ?_, rfl⟩
      unfold MemStore.delMessageKey
      rw [I2.sess]
      simp only [ofNat_toNat hk64, I2.slen]
      rw [if_neg (by omega)]
      rfl
    obtain ⟨s3, hdel, rfl⟩ := hdel
    refine ⟨m', st2.setSess (decSessionKey P u h) { s2 with recv := s2.recv.set k [] },
      { s2 with recv := s2.recv.set k [] }, ?_, ?_⟩
    · simp only [receive, bind_eq]
      rw [run_bind_of_ok _ r1, run_bind_of_ok _ r2, run_bind_of_ok (a := key) (s1 := st2) _
        (by rw [run_ask_ok]; simp only [MemStore.handle, hget]),
        run_bind_of_ok (a := ()) _ (by rw [run_ask_ok]; exact hdel)]
      rw [List.range_succ, List.map_append]; rfl
    · refine ⟨upd_same _ _ _, I2.dvd, I2.pos, I2.stuck, I2.small, hkm, I2.chain, I2.slen,
        by simp [I2.rlen], ?_⟩
      intro i h1 h2
      simp only
      rw [List.getElem?_set_ne (by omega)]
      exact I2.keys i (by omega) h2

include hn in
theorem recvInv_full (st : MemStore) (s : Sess)
    (hs : st.sessions (decSessionKey P u h) = some s)
    (hfull : FullSess P s root sp rp (identityFix P h.senderIdentity u.identity) n.toNat) :
    RecvInv P n (decSessionKey P u h) root rp
      (identityFix P h.senderIdentity u.identity) 0 n.toNat st s := by
  obtain ⟨-, f2, f3, f4⟩ := hfull
  refine ⟨hs, Nat.dvd_refl _, ?_, rfl, .inl rfl, Nat.zero_le _, f2, by rw [f3, keyList_length],
    by rw [f4, keyList_length], ?_⟩
  · exact fun e => hn (UInt64.toNat_inj.mp (by simpa using e))
  · intro i _ hi
    rw [f4, keyList, List.getElem?_map, List.getElem?_range hi]; rfl

include hP hn hroot hsp hrp hss hh1 hh2 in
/-- C13, the part that holds: with batch size `n`, all messages with index below
`stuckAt n` that arrive in order get the message key the sender used.  Missing:
messages from `stuckAt n` on. -/
theorem C13_in_order_partial (st : MemStore) (s : Sess)
    (hs : st.sessions (decSessionKey P u h) = some s)
    (hfull : FullSess P s root sp rp (identityFix P h.senderIdentity u.identity) n.toNat)
    (k : Nat) (hk : k ≤ stuckAt n.toNat) :
    ∃ st', (receive P n u h (some ss) k).run (MemStore.handle P) st =
      (.ok ((List.range k).map (senderKey P root rp
        (identityFix P h.senderIdentity u.identity))), st') := by
  obtain ⟨m, st', s', h1, -⟩ := receive_inv P hP n hn u h ss root sp rp hroot hsp hrp hss hh1 hh2
    st s (recvInv_full P n hn u h root sp rp st s hs hfull) k hk
  exact ⟨st', h1⟩

include hP hn hroot hsp hrp hss hh1 hh2 in
/-- C13 fails: for every batch size the message with index `stuckAt n` (400 for
the default of 50) and hence every longer in-order history is refused, although
no message was lost. -/
theorem C13_negation_session_gets_stuck (hn63 : n.toNat < 2 ^ 63) (st : MemStore) (s : Sess)
    (hs : st.sessions (decSessionKey P u h) = some s)
    (hfull : FullSess P s root sp rp (identityFix P h.senderIdentity u.identity) n.toNat)
    (k : Nat) (hk : stuckAt n.toNat < k) :
    ((receive P n u h (some ss) k).run (MemStore.handle P) st).1 = .err .tooManyKeys := by
  have I0 := recvInv_full P n hn u h root sp rp st s hs hfull
  obtain ⟨m, st1, s1, r1, I1⟩ := receive_inv P hP n hn u h ss root sp rp hroot hsp hrp hss hh1 hh2
    st s I0 (stuckAt n.toNat) (Nat.le_refl _)
  have hK : stuckAt n.toNat = m := by
    have h1 := I1.le
    have h2 := le_stuckAt m
    have h3 := I1.stuck
    omega
  rw [hK] at r1 I1
  have hn0 : n.toNat ≠ 0 := fun e => hn (UInt64.toNat_inj.mp (by simpa using e))
  have hm301 : 301 < m := by rw [← hK]; exact stuckAt_gt _ hn0
  have hm64 : m < 2 ^ 64 := by
    rcases I1.small with h | h <;> omega
  have hfail : (decExtend P n u { h with senderMessageCount := UInt64.ofNat m }
        (decSessionKey P u h) (some ss)).run (MemStore.handle P) st1 =
        (.err .tooManyKeys, st1) := by
    have hnum : st1.numMessageKeys (decSessionKey P u h) = .ok (UInt64.ofNat m) := by
      unfold MemStore.numMessageKeys; rw [I1.sess]; simp only [I1.slen]
    have hc : st1.getChainKey P (decSessionKey P u h) = .ok (chainAt P root m) := by
      unfold MemStore.getChainKey
      rw [I1.sess]
      simp only [I1.chain, hP.unb64_b64, chainAt_len P hP root hroot]
      rw [if_neg (by omega), List.take_of_length_le]
      rw [chainAt_len P hP root hroot]; exact Nat.le_refl _
    unfold decExtend
    simp only [bind_eq]
    rw [run_bind_of_ok (a := UInt64.ofNat m) (s1 := st1) _
      (by rw [run_ask_ok]; simp only [MemStore.handle, hnum]),
      if_pos (UInt64.le_refl _), run_bind_of_ok (a := chainAt P root m) (s1 := st1) _
      (by rw [run_ask_ok]; simp only [MemStore.handle, hc])]
    have hneed : keysNeeded (UInt64.ofNat m) n = UInt64.ofNat m :=
      keysNeeded_multiple hn (by rw [ofNat_toNat hm64]; exact I1.dvd)
    have hlim : UInt64.ofNat m > keyLimit := by
      apply UInt64.lt_iff_toNat_lt.mpr
      rw [ofNat_toNat hm64]
      have hl : keyLimit.toNat = 301 := by decide
      omega
    simp [hneed, hlim, failIf]
  rw [hK] at hk
  clear hK
  induction k with
  | zero => omega
  | succ k ih =>
    simp only [receive, bind_eq]
    by_cases hkm : m < k
    · have := ih hkm
      rw [run_bind]
      cases hr : (receive P n u h (some ss) k).run (MemStore.handle P) st with
      | mk x y => rw [hr] at this; simp only at this; subst this; rfl
    · have : k = m := by omega
      subst this
      rw [run_bind_of_ok _ r1, run_bind, hfail]

end

/-- C13: with the default of 50 keys per batch the first refused message is
number 400. -/
theorem C13_default_limit : stuckAt numOfFutureKeys.toNat = 400 := by
  show stuckAt 50 = 400
  rw [stuckAt_small (by omega) (by omega), stuckAt_small (by omega) (by omega),
    stuckAt_small (by omega) (by omega), stuckAt_big (by omega)]

/-- The hypotheses are met by a session started by generateMessageKeys. -/
example : ∃ (P : Prims) (u : UID) (h : Header) (ss : State) (sp rp : Bytes) (st : MemStore)
    (s : Sess), P.Good ∧ h.senderSessionPub.pub32 P = some sp ∧
    ss.senderSessionPub.pub32 P = some rp ∧ h.recipientTempHash = ss.senderSessionPub.hash ∧
    h.recipientTempHash = P.b64 (P.sha512 rp) ∧ h.senderSessionPub.hash = P.b64 (P.sha512 sp) ∧
    st.sessions (decSessionKey P u h) = some s ∧
    FullSess P s (List.replicate 32 1) sp rp (identityFix P h.senderIdentity u.identity)
      numOfFutureKeys.toNat := by
  let P := Toy.P0
  let h : Header := { Toy.header0 with
    senderSessionPub := (initDHKey P [2]).public, recipientTempHash := (initDHKey P [4]).hash }
  let ss : State := ⟨0, 0, 0, Toy.key0, initDHKey P [4], none, none, [], false⟩
  obtain ⟨s, hf, -⟩ := run_generate_new P h.senderIdentity Toy.uid0.identity
    h.senderIdentityPub.hash Toy.uid0.pubKey.hash (List.replicate 32 1) true
    (P.dhPub [2]) (P.dhPub [4]) numOfFutureKeys (by decide) MemStore.new rfl
  exact ⟨P, Toy.uid0, h, ss, P.dhPub [2], P.dhPub [4],
    MemStore.new.setSess (decSessionKey P Toy.uid0 h) s, s, Toy.P0_good,
    initDHKey_public_pub32 P Toy.P0_good _, initDHKey_pub32 P Toy.P0_good _, rfl, rfl, rfl,
    by simp only [MemStore.setSess, upd_same], hf⟩

end Verif.Msg
