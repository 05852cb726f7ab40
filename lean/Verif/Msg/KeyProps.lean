import Verif.Msg.KeyLemmas
import Verif.Msg.Toy
/-
Properties C05 (both ends derive the same keys), C06 (root key agreement) and
C07 (a deleted message key is never handed out again).
-/
namespace Verif.Msg
open Prog

/-! ### C05 -/

/-- One side's history: generate keys from the root key, then extend the session
any number of times, each time from the chain key in the store, as Encrypt
(encrypt.go:265-286) and Decrypt (decrypt.go:347-398) do. -/
def history (P : Prims) (si ri sh rh : Str) (root : Bytes) (role : Bool) (sp rp : Bytes)
    (first : UInt64) : List UInt64 → Prog Unit
  | [] => generateMessageKeys P si ri sh rh root role sp rp first
  | n :: earlier => do
    history P si ri sh rh root role sp rp first earlier
    let c ← Prog.ask (.getChain (genKey P sh rh role sp rp))
    generateMessageKeys P si ri sh rh c role sp rp n

/-- Total number of keys generated in a history. -/
def total (first : UInt64) (ns : List UInt64) : Nat :=
  first.toNat + (ns.map UInt64.toNat).sum

theorem history_full (P : Prims) (hP : P.Good) (si ri sh rh : Str) (root : Bytes)
    (hr : root.length = 32) (role : Bool) (sp rp : Bytes) (first : UInt64) (hf : first ≠ 0)
    (ms : MemStore) (hs : ms.sessions (genKey P sh rh role sp rp) = none) :
    ∀ ns : List UInt64, (∀ n ∈ ns, n ≠ 0) →
    ∃ ms' s, (history P si ri sh rh root role sp rp first ns).run (MemStore.handle P) ms =
        (.ok (), ms') ∧ ms'.sessions (genKey P sh rh role sp rp) = some s ∧
      FullSess P s root (if role then sp else rp) (if role then rp else sp)
        (identityFix P si ri) (total first ns) := by
  intro ns
  induction ns with
  | nil =>
    intro _
    obtain ⟨s, h1, h2⟩ := run_generate_new P si ri sh rh root role sp rp first hf ms hs
    exact ⟨_, s, h2, upd_same _ _ _, by simpa [total] using h1⟩
  | cons n ns ih =>
    intro hn
    obtain ⟨ms1, s1, e1, e2, e3⟩ := ih fun x hx => hn x (List.mem_cons_of_mem _ hx)
    obtain ⟨g1, s2, g2, g3⟩ := run_generate_ext P hP si ri sh rh root hr role sp rp
      (total first ns) n (hn n List.mem_cons_self) ms1 s1 e3 e2
    refine ⟨ms1.setSess (genKey P sh rh role sp rp) s2, s2, ?_, upd_same _ _ _, ?_⟩
    · simp only [history, bind_eq]
      rw [run_bind_of_ok _ e1, run_bind_of_ok (a := chainAt P root (total first ns)) (s1 := ms1)]
      · exact g3
      · rw [run_ask_ok]; simp only [MemStore.handle, g1]
    · have : total first (n :: ns) = total first ns + n.toNat := by
        simp [total]; omega
      rw [this]; exact g2

theorem getMessageKey_of_full (P : Prims) (hP : P.Good) (ms : MemStore) (k : Str) (s : Sess)
    (root a b fix : Bytes) (n : Nat) (hs : ms.sessions k = some s)
    (hf : FullSess P s root a b fix n) (d : Bool) (i : UInt64) (hi : i.toNat < n) :
    ms.getMessageKey P k d i = .ok (P.hmac (chainAt P root i.toNat)
      (sMESSAGE ++ P.sha512 (if d then a else b) ++ fix)) := by
  obtain ⟨-, -, h3, h4⟩ := hf
  have hmac := hP.hmac_len (chainAt P root i.toNat)
      (sMESSAGE ++ P.sha512 (if d then a else b) ++ fix)
  have hne : P.b64 (P.hmac (chainAt P root i.toNat)
      (sMESSAGE ++ P.sha512 (if d then a else b) ++ fix)) ≠ [] := by
    intro h
    have := hP.b64_len (P.hmac (chainAt P root i.toNat)
      (sMESSAGE ++ P.sha512 (if d then a else b) ++ fix))
    rw [h, hmac] at this; simp at this
  have hget : (if d then s.send else s.recv)[i.toNat]? =
      some (P.b64 (P.hmac (chainAt P root i.toNat)
        (sMESSAGE ++ P.sha512 (if d then a else b) ++ fix))) := by
    cases d <;> simp [h3, h4, keyList, hi, messageKey]
  unfold MemStore.getMessageKey
  rw [hs]
  simp only [hget]
  rw [if_neg (by rw [h3, keyList_length]; omega), if_neg hne]
  simp only [hP.unb64_b64, hmac]
  rw [if_neg (by omega), List.take_of_length_le (by omega)]

/-- C05: Let one side generate keys as sender and the other as recipient, from
the same root key, with arbitrary (non-empty) batch sizes on arbitrary stores that
do not hold the session yet.  Then for every index both have generated, the key
the sender's store returns for sending is the key the recipient's store returns
for receiving, and the other way round. -/
theorem C05_same_message_keys (P : Prims) (hP : P.Good)
    (senderId recipientId senderHash recipientHash : Str)
    (root : Bytes) (hroot : root.length = 32) (senderSessionPub recipientPub : Bytes)
    (storeA storeB : MemStore) (firstA firstB : UInt64) (batchesA batchesB : List UInt64)
    (hA : firstA ≠ 0 ∧ ∀ n ∈ batchesA, n ≠ 0) (hB : firstB ≠ 0 ∧ ∀ n ∈ batchesB, n ≠ 0)
    (freshA : storeA.sessions
      (genKey P senderHash recipientHash false senderSessionPub recipientPub) = none)
    (freshB : storeB.sessions
      (genKey P senderHash recipientHash true senderSessionPub recipientPub) = none) :
    ∃ storeA' storeB',
      (history P senderId recipientId senderHash recipientHash root false senderSessionPub
        recipientPub firstA batchesA).run (MemStore.handle P) storeA = (.ok (), storeA') ∧
      (history P senderId recipientId senderHash recipientHash root true senderSessionPub
        recipientPub firstB batchesB).run (MemStore.handle P) storeB = (.ok (), storeB') ∧
      ∀ i : UInt64, i.toNat < total firstA batchesA → i.toNat < total firstB batchesB →
        ∀ sending : Bool, ∃ key,
          storeA'.getMessageKey P
            (genKey P senderHash recipientHash false senderSessionPub recipientPub)
            sending i = .ok key ∧
          storeB'.getMessageKey P
            (genKey P senderHash recipientHash true senderSessionPub recipientPub)
            (!sending) i = .ok key := by
  obtain ⟨a', sa, ha1, ha2, ha3⟩ := history_full P hP senderId recipientId senderHash
    recipientHash root hroot false senderSessionPub recipientPub firstA hA.1 storeA freshA
    batchesA hA.2
  obtain ⟨b', sb, hb1, hb2, hb3⟩ := history_full P hP senderId recipientId senderHash
    recipientHash root hroot true senderSessionPub recipientPub firstB hB.1 storeB freshB
    batchesB hB.2
  refine ⟨a', b', ha1, hb1, fun i hi1 hi2 sending => ?_⟩
  refine ⟨_, getMessageKey_of_full P hP a' _ sa _ _ _ _ _ ha2 ha3 sending i hi1, ?_⟩
  rw [getMessageKey_of_full P hP b' _ sb _ _ _ _ _ hb2 hb3 (!sending) i hi2]
  cases sending <;> rfl

example : ∃ P : Prims, P.Good ∧ ((1 : UInt64) ≠ 0 ∧ ∀ n ∈ [(7 : UInt64), 50], n ≠ 0) ∧
    MemStore.new.sessions (genKey P [1] [2] false [3] [4]) = none :=
  ⟨Toy.P0, Toy.P0_good, by decide, rfl⟩

/-- C05: the number of keys on each side is the sum of its batches. -/
theorem C05_number_of_keys (P : Prims) (hP : P.Good)
    (senderId recipientId senderHash recipientHash : Str)
    (root : Bytes) (hroot : root.length = 32) (role : Bool) (sp rp : Bytes)
    (ms : MemStore) (first : UInt64) (batches : List UInt64)
    (hb : first ≠ 0 ∧ ∀ n ∈ batches, n ≠ 0)
    (fresh : ms.sessions (genKey P senderHash recipientHash role sp rp) = none) :
    ∃ ms', (history P senderId recipientId senderHash recipientHash root role sp rp first
        batches).run (MemStore.handle P) ms = (.ok (), ms') ∧
      ms'.numMessageKeys (genKey P senderHash recipientHash role sp rp) =
        .ok (UInt64.ofNat (total first batches)) := by
  obtain ⟨ms', s, h1, h2, h3⟩ := history_full P hP senderId recipientId senderHash
    recipientHash root hroot role sp rp first hb.1 ms fresh batches hb.2
  refine ⟨ms', h1, ?_⟩
  unfold MemStore.numMessageKeys
  rw [h2]; simp only [h3.2.2.1, keyList_length]

/-- C05: the identities enter the keys symmetrically, so it does not matter which
side opened the session. -/
theorem C05_identities_symmetric (P : Prims) (a b : Str) :
    identityFix P a b = identityFix P b a := by
  unfold identityFix
  by_cases hab : a < b
  · have : ¬ b < a := List.lt_asymm hab
    simp [hab, this]
  · by_cases hba : b < a
    · simp [hab, hba]
    · have : a = b := by
        apply List.le_antisymm (α := UInt8)
        · exact hba
        · exact hab
      subst this; rfl

/-- C05: the restriction to non-empty batches is needed: generating zero keys
replaces the chain key by zeros for every root key, because the loop variable
still aliases the root key when it is wiped. -/
theorem C05_empty_batch_wipes_chain (P : Prims) (hP : P.Good) (si ri sh rh : Str)
    (root : Bytes) (role : Bool) (sp rp : Bytes) (ms : MemStore) (s : Sess)
    (hs : ms.sessions (genKey P sh rh role sp rp) = some s) :
    ((generateMessageKeys P si ri sh rh root role sp rp 0).run (MemStore.handle P)
      ms).2.getChainKey P (genKey P sh rh role sp rp) = .ok (List.replicate 32 0) := by
  unfold generateMessageKeys
  simp only [UInt64.toNat_zero, genLoop, if_true]
  rw [run_ask]
  have hk : (if role = true then
      P.b64 (P.sha512 (rh ++ sh ++ (P.b64 (P.sha512 rp) ++ P.b64 (P.sha512 sp))))
    else P.b64 (P.sha512 (sh ++ rh ++ (P.b64 (P.sha512 sp) ++ P.b64 (P.sha512 rp))))) =
      genKey P sh rh role sp rp := by
    cases role <;> rfl
  simp only [hk, MemStore.handle]
  rw [sess_ext hs _ _ _ _ (by cases role <;> rfl)]
  simp [MemStore.getChainKey, MemStore.setSess, hP.unb64_b64]

/-! ### C06 -/

/-- The five public keys taking part in a root key agreement are pairwise
different. -/
def AllDifferent (l : List Bytes) : Prop := l.Nodup

instance (l : List Bytes) : Decidable (AllDifferent l) := inferInstanceAs (Decidable l.Nodup)

theorem checkKeys_spec (kh k1 k2 k3 k4 : Bytes) :
    checkKeys kh k1 k2 k3 k4 =
      if AllDifferent [kh, k1, k2, k3, k4] then Prog.ret () else Prog.fail .reflection := by
  by_cases h : AllDifferent [kh, k1, k2, k3, k4]
  · rw [if_pos h]
    simp only [AllDifferent, List.nodup_cons, List.mem_cons, List.not_mem_nil, or_false,
      not_or] at h
    unfold checkKeys
    simp [h]
  · rw [if_neg h]
    unfold checkKeys
    repeat' split
    all_goals first | rfl | skip
    exfalso; apply h
    simp only [AllDifferent, List.nodup_cons, List.mem_cons, List.not_mem_nil, or_false, not_or,
      not_false_eq_true, List.nodup_nil, and_true]
    refine ⟨⟨?_, ?_, ?_, ?_⟩, ⟨?_, ?_, ?_⟩, ⟨?_, ?_⟩, ?_⟩ <;> assumption

@[simp] theorem initDHKey_pub32 (P : Prims) (hP : P.Good) (p : Bytes) :
    (initDHKey P p).pub32 P = some (P.dhPub p) := by
  simp [KeyEntry.pub32, initDHKey, hP.unb64_b64, hP.dhPub_len]

@[simp] theorem initDHKey_public_pub32 (P : Prims) (hP : P.Good) (p : Bytes) :
    (initDHKey P p).public.pub32 P = some (P.dhPub p) := by
  simp [KeyEntry.pub32, KeyEntry.public, initDHKey, hP.unb64_b64, hP.dhPub_len]

@[simp] theorem initDHKey_priv32 (P : Prims) (p : Bytes) :
    (initDHKey P p).priv32 = some p := by
  simp [KeyEntry.priv32, initDHKey]

/-- What the sender's agreement does with matching keys. -/
theorem rkaSender_eq (P : Prims) (hP : P.Good) (hp : Bytes) (si ri : Str)
    (sess sid ki rid : Bytes) (kiE ridE : KeyEntry)
    (hki : kiE.pub32 P = some (P.dhPub ki)) (hrid : ridE.pub32 P = some (P.dhPub rid))
    (prev : Option Bytes) (n : UInt64)
    (hd : AllDifferent [hp, P.dhPub sid, P.dhPub sess, P.dhPub rid, P.dhPub ki]) :
    rootKeyAgreementSender P hp si ri (initDHKey P sess) (initDHKey P sid) kiE ridE prev n =
      generateMessageKeys P si ri (initDHKey P sid).hash ridE.hash
        (deriveRootKey P (P.dh sid (P.dhPub ki)) (P.dh sess (P.dhPub ki))
          (P.dh sess (P.dhPub rid)) prev) false (P.dhPub sess) (P.dhPub ki) n := by
  have hd' := hd
  simp only [AllDifferent, List.nodup_cons, List.mem_cons, List.not_mem_nil, or_false, not_or,
    not_false_eq_true, List.nodup_nil, and_true] at hd'
  unfold rootKeyAgreementSender
  simp only [bind_eq, initDHKey_pub32 P hP, initDHKey_priv32, hki, hrid, orPanic, ret_bind,
    checkKeys_spec, if_pos hd, ecdh, hd', if_false]

/-- What the recipient's agreement does with matching keys. -/
theorem rkaRecipient_eq (P : Prims) (hP : P.Good) (hp : Bytes) (si ri : Str)
    (sess sid ki rid : Bytes) (sessE sidE : KeyEntry)
    (hsess : sessE.pub32 P = some (P.dhPub sess)) (hsid : sidE.pub32 P = some (P.dhPub sid))
    (prev : Option Bytes) (n : UInt64)
    (hd : AllDifferent [hp, P.dhPub sid, P.dhPub sess, P.dhPub rid, P.dhPub ki]) :
    rootKeyAgreementRecipient P hp si ri sessE sidE (initDHKey P ki) (initDHKey P rid) prev n =
      generateMessageKeys P si ri sidE.hash (initDHKey P rid).hash
        (deriveRootKey P (P.dh sid (P.dhPub ki)) (P.dh sess (P.dhPub ki))
          (P.dh sess (P.dhPub rid)) prev) true (P.dhPub sess) (P.dhPub ki) n := by
  have hd' := hd
  simp only [AllDifferent, List.nodup_cons, List.mem_cons, List.not_mem_nil, or_false, not_or,
    not_false_eq_true, List.nodup_nil, and_true] at hd'
  unfold rootKeyAgreementRecipient
  have e1 : ¬ P.dhPub ki = P.dhPub sid := fun h => hd'.2.1.2.2 h.symm
  have e2 : ¬ P.dhPub ki = P.dhPub sess := fun h => hd'.2.2.1.2 h.symm
  have e3 : ¬ P.dhPub rid = P.dhPub sess := fun h => hd'.2.2.1.1 h.symm
  simp only [bind_eq, initDHKey_pub32 P hP, initDHKey_priv32, hsess, hsid, orPanic, ret_bind,
    checkKeys_spec, if_pos hd, ecdh, e1, e2, e3, if_false]
  rw [hP.dh_comm ki sid, hP.dh_comm ki sess, hP.dh_comm rid sess]

theorem deriveRootKey_len (P : Prims) (hP : P.Good) (a b c : Bytes) (p : Option Bytes) :
    (deriveRootKey P a b c p).length = 32 := hP.hkdf_len _ _

/-- C06: if the sender knows the recipient's public keys and the recipient the
sender's, and the five keys are pairwise different, both agreements succeed on any
store without the session, the root key hash the two stores report is the same,
and so are the message keys of both directions. The root key is derived from the
three shared secrets and the previous root key hash. -/
theorem C06_agreement_symmetric (P : Prims) (hP : P.Good) (headerPub : Bytes)
    (senderId recipientId : Str) (senderSession sender keyInit recipient : Bytes)
    (prev : Option Bytes) (n : UInt64) (hn : n ≠ 0)
    (hd : AllDifferent [headerPub, P.dhPub sender, P.dhPub senderSession,
      P.dhPub recipient, P.dhPub keyInit])
    (A B : MemStore)
    (freshA : A.sessions (calcKey P (initDHKey P sender).hash (initDHKey P recipient).hash
      (initDHKey P senderSession).hash (initDHKey P keyInit).hash) = none)
    (freshB : B.sessions (calcKey P (initDHKey P recipient).hash (initDHKey P sender).hash
      (initDHKey P keyInit).hash (initDHKey P senderSession).hash) = none) :
    ∃ A' B' rootHash,
      rootHash = P.sha512 (P.hkdf (P.dh sender (P.dhPub keyInit) ++ P.dh senderSession (P.dhPub keyInit) ++
        P.dh senderSession (P.dhPub recipient) ++ prev.getD (List.replicate 64 0)) 32) ∧
      (rootKeyAgreementSender P headerPub senderId recipientId (initDHKey P senderSession)
        (initDHKey P sender) (initDHKey P keyInit).public (initDHKey P recipient).public
        prev n).run (MemStore.handle P) A = (.ok (), A') ∧
      (rootKeyAgreementRecipient P headerPub senderId recipientId
        (initDHKey P senderSession).public (initDHKey P sender).public (initDHKey P keyInit)
        (initDHKey P recipient) prev n).run (MemStore.handle P) B = (.ok (), B') ∧
      A'.getRootKeyHash P (calcKey P (initDHKey P sender).hash (initDHKey P recipient).hash
        (initDHKey P senderSession).hash (initDHKey P keyInit).hash) = .ok rootHash ∧
      B'.getRootKeyHash P (calcKey P (initDHKey P recipient).hash (initDHKey P sender).hash
        (initDHKey P keyInit).hash (initDHKey P senderSession).hash) = .ok rootHash ∧
      ∀ (i : UInt64) (sending : Bool), i.toNat < n.toNat → ∃ key,
        A'.getMessageKey P (calcKey P (initDHKey P sender).hash (initDHKey P recipient).hash
          (initDHKey P senderSession).hash (initDHKey P keyInit).hash) sending i = .ok key ∧
        B'.getMessageKey P (calcKey P (initDHKey P recipient).hash (initDHKey P sender).hash
          (initDHKey P keyInit).hash (initDHKey P senderSession).hash) (!sending) i = .ok key := by
  rw [rkaSender_eq P hP headerPub senderId recipientId senderSession sender keyInit recipient
      _ _ (initDHKey_public_pub32 P hP _) (initDHKey_public_pub32 P hP _) prev n hd,
    rkaRecipient_eq P hP headerPub senderId recipientId senderSession sender keyInit recipient
      _ _ (initDHKey_public_pub32 P hP _) (initDHKey_public_pub32 P hP _) prev n hd]
  obtain ⟨sa, fa, ra⟩ := run_generate_new P senderId recipientId (initDHKey P sender).hash
    (initDHKey P recipient).public.hash
    (deriveRootKey P (P.dh sender (P.dhPub keyInit)) (P.dh senderSession (P.dhPub keyInit))
          (P.dh senderSession (P.dhPub recipient)) prev) false (P.dhPub senderSession)
          (P.dhPub keyInit) n hn A freshA
  obtain ⟨sb, fb, rb⟩ := run_generate_new P senderId recipientId (initDHKey P sender).public.hash
    (initDHKey P recipient).hash
    (deriveRootKey P (P.dh sender (P.dhPub keyInit)) (P.dh senderSession (P.dhPub keyInit))
          (P.dh senderSession (P.dhPub recipient)) prev) true (P.dhPub senderSession)
          (P.dhPub keyInit) n hn B freshB
  have root : ∀ (M : MemStore) k (s : Sess) r, (P.sha512 r).length = 64 →
      s.root = P.b64 (P.sha512 r) →
      (M.setSess k s).getRootKeyHash P k = .ok (P.sha512 r) := by
    intro M k s r hl hr
    simp only [MemStore.getRootKeyHash, MemStore.setSess, upd_same, hr, hP.unb64_b64, hl]
    rw [if_neg (by omega), List.take_of_length_le (by omega)]
  refine ⟨_, _, P.sha512 _, rfl, ra, rb, root _ _ _ _ (hP.sha512_len _) fa.1,
    root _ _ _ _ (hP.sha512_len _) fb.1, ?_⟩
  intro i sending hi
  refine ⟨_, getMessageKey_of_full P hP _ _ sa _ _ _ _ _ (upd_same _ _ _) fa sending i hi, ?_⟩
  refine (getMessageKey_of_full P hP _ _ sb _ _ _ _ _ (upd_same _ _ _) fb (!sending) i hi).trans ?_
  cases sending <;> rfl

example : AllDifferent [[0], Toy.P0.dhPub [1], Toy.P0.dhPub [2], Toy.P0.dhPub [3],
    Toy.P0.dhPub [4]] := by decide

/-- C06: if any two of the five public keys coincide, both agreements fail with
the reflection error and leave the store unchanged, whatever the store. -/
theorem C06_reflection_rejected (P : Prims) (headerPub : Bytes) (si ri : Str)
    (sess sid ki rid : KeyEntry) (prev : Option Bytes) (n : UInt64) (ms : MemStore)
    (pSid pSess pRid pKi : Bytes)
    (h1 : sid.pub32 P = some pSid) (h2 : sess.pub32 P = some pSess)
    (h3 : rid.pub32 P = some pRid) (h4 : ki.pub32 P = some pKi)
    (hd : ¬ AllDifferent [headerPub, pSid, pSess, pRid, pKi]) :
    (sid.priv32.isSome → sess.priv32.isSome →
      (rootKeyAgreementSender P headerPub si ri sess sid ki rid prev n).run
        (MemStore.handle P) ms = (.err .reflection, ms)) ∧
    (rid.priv32.isSome → ki.priv32.isSome →
      (rootKeyAgreementRecipient P headerPub si ri sess sid ki rid prev n).run
        (MemStore.handle P) ms = (.err .reflection, ms)) := by
  constructor
  · intro a b
    obtain ⟨x, hx⟩ := Option.isSome_iff_exists.mp a
    obtain ⟨y, hy⟩ := Option.isSome_iff_exists.mp b
    simp [rootKeyAgreementSender, h1, h2, h3, h4, hx, hy, orPanic, checkKeys_spec, hd]
  · intro a b
    obtain ⟨x, hx⟩ := Option.isSome_iff_exists.mp a
    obtain ⟨y, hy⟩ := Option.isSome_iff_exists.mp b
    simp [rootKeyAgreementRecipient, h1, h2, h3, h4, hx, hy, orPanic, checkKeys_spec, hd]

example : ∃ k : KeyEntry, k.pub32 Toy.P0 = some (Toy.P0.dhPub [5]) ∧ k.priv32.isSome ∧
    ¬ AllDifferent [[0], Toy.P0.dhPub [5], Toy.P0.dhPub [5], Toy.P0.dhPub [3],
      Toy.P0.dhPub [4]] :=
  ⟨initDHKey Toy.P0 [5], initDHKey_pub32 _ Toy.P0_good _, rfl, by decide⟩

/-! ### C07 -/

/-- A store call whose result is thrown away. -/
structure Op where
  {β : Type}
  req : Req β

/-- Perform store calls in order. -/
def exec (P : Prims) (ops : List Op) (ms : MemStore) : MemStore :=
  ops.foldl (fun ms op => (MemStore.handle P op.req ms).2) ms

theorem exec_le (P : Prims) (ops : List Op) (ms : MemStore) : StoreLE ms (exec P ops ms) := by
  induction ops generalizing ms with
  | nil => exact .refl _
  | cons op ops ih => exact (handle_le P op.req ms).trans (ih _)

/-- A session's two key lists have the same length. -/
def Balanced (ms : MemStore) : Prop :=
  ∀ k s, ms.sessions k = some s → s.send.length = s.recv.length

theorem delMessageKey_used {ms ms1 : MemStore} {k : Str} {d : Bool} {i : UInt64}
    (hb : Balanced ms) (h : ms.delMessageKey k d i = (.ok (), ms1)) :
    ∃ s, ms1.sessions k = some s ∧ i.toNat < s.send.length ∧
      (if d then s.send else s.recv)[i.toNat]? = some [] := by
  unfold MemStore.delMessageKey at h
  split at h
  · cases h
  · rename_i s hs
    split at h
    · cases h
    · injection h with _ h
      subst h
      have := hb k s hs
      refine ⟨_, upd_same _ _ _, ?_, ?_⟩
      · cases d <;> simp <;> omega
      · cases d
        · simp only [Bool.false_eq_true, if_false]
          rw [List.getElem?_set]; simp; omega
        · simp only [if_true]
          rw [List.getElem?_set]; simp; omega

theorem used_after {P : Prims} {ms1 ms2 : MemStore} {k : Str} {d : Bool} {i : UInt64}
    (hu : ∃ s, ms1.sessions k = some s ∧ i.toNat < s.send.length ∧
      (if d then s.send else s.recv)[i.toNat]? = some [])
    (hle : StoreLE ms1 ms2) : ms2.getMessageKey P k d i = .error .keyUsed := by
  obtain ⟨s, h1, h2, h3⟩ := hu
  obtain ⟨s', e1, -, e2, e3⟩ := hle k s h1
  unfold MemStore.getMessageKey
  rw [e1]
  have hlen := e2.1
  have hg : (if d then s'.send else s'.recv)[i.toNat]? = some [] := by
    cases d
    · exact e3.2 _ h3
    · exact e2.2 _ h3
  simp only [hg]
  rw [if_neg (by omega)]; rfl

theorem balanced_handle (P : Prims) {β : Type} (r : Req β) (ms : MemStore) (hb : Balanced ms) :
    Balanced (MemStore.handle P r ms).2 := by
  cases r with
  | storeSession k r c s t =>
    show Balanced (ms.storeSession k r c s t).2
    unfold MemStore.storeSession
    split
    · exact hb
    · rename_i hl
      split
      all_goals
        intro k' s' hs
        simp only [MemStore.setSess, upd] at hs
        split at hs
        · injection hs with hs; subst hs
          first
          | (have := hb _ _ (by assumption); simp; omega)
          | (simp; omega)
        · exact hb _ _ hs
  | delMsgKey k d i =>
    show Balanced (ms.delMessageKey k d i).2
    unfold MemStore.delMessageKey
    split
    · exact hb
    · split
      · exact hb
      · rename_i s0 h0 _
        intro k' s' hs
        simp only [MemStore.setSess, upd] at hs
        split at hs
        · injection hs with hs; subst hs
          have := hb _ _ h0
          cases d <;> simp <;> omega
        · exact hb _ _ hs
  | delSKey h =>
    show Balanced (ms.delPrivSessionKey h)
    unfold MemStore.delPrivSessionKey
    split <;> exact hb
  | _ => exact hb

theorem balanced_exec (P : Prims) (ops : List Op) (ms : MemStore) (hb : Balanced ms) :
    Balanced (exec P ops ms) := by
  induction ops generalizing ms with
  | nil => exact hb
  | cons op ops ih => exact ih _ (balanced_handle P _ _ hb)

theorem balanced_init {ms : MemStore} (h : ∀ k, ms.sessions k = none) : Balanced ms :=
  fun k s hs => by rw [h k] at hs; cases hs

theorem balanced_run (P : Prims) {α : Type} (p : Prog α) (ms : MemStore) (hb : Balanced ms) :
    Balanced (p.run (MemStore.handle P) ms).2 := by
  induction p generalizing ms with
  | call r k ih => exact ih _ _ (balanced_handle P r ms hb)
  | _ => exact hb

/-- C07: in every store reachable by any calls from one without sessions (but with
arbitrary identity keys), once a message
key was deleted successfully, every later request for it, after any further calls,
fails with "message key used". -/
theorem C07_deleted_key_never_returned (P : Prims) (init : MemStore)
    (hinit : ∀ k, init.sessions k = none) (before after : List Op) (k : Str)
    (sender : Bool) (i : UInt64) (ms : MemStore)
    (hdel : (exec P before init).delMessageKey k sender i = (.ok (), ms)) :
    (exec P after ms).getMessageKey P k sender i = .error .keyUsed :=
  used_after (delMessageKey_used (balanced_exec P before init (balanced_init hinit)) hdel)
    (exec_le P after ms)

/-- C07: the same for any program (an adaptive caller that chooses its calls
depending on earlier answers, such as Encrypt or Decrypt). -/
theorem C07_deleted_key_never_returned_prog (P : Prims) (init : MemStore)
    (hinit : ∀ k, init.sessions k = none) {α β : Type} (before : Prog β) (after : Prog α)
    (k : Str) (sender : Bool) (i : UInt64) (ms : MemStore)
    (hdel : (before.run (MemStore.handle P) init).2.delMessageKey k sender i = (.ok (), ms)) :
    (after.run (MemStore.handle P) ms).2.getMessageKey P k sender i = .error .keyUsed :=
  used_after (delMessageKey_used (balanced_run P before init (balanced_init hinit)) hdel)
    (run_le P after ms)

example : ∃ ms, (exec Toy.P0 [⟨.storeSession [1] [] [] [[7], [8]] [[9], [10]]⟩]
    MemStore.new).delMessageKey [1] true 1 = (.ok (), ms) := ⟨_, rfl⟩

/-- Is the call a deletion of exactly this message key? -/
def Op.deletes (op : Op) (k : Str) (sender : Bool) (i : UInt64) : Prop :=
  match op with
  | ⟨.delMsgKey k' s' i'⟩ => k' = k ∧ s' = sender ∧ i' = i
  | _ => False

theorem getMessageKey_congr {P : Prims} {a b : MemStore} {k : Str} {d : Bool} {i : UInt64}
    {key : Bytes} (ha : a.getMessageKey P k d i = .ok key)
    (h : ∀ s, a.sessions k = some s → ∃ s', b.sessions k = some s' ∧
      s.send.length ≤ s'.send.length ∧
      ∀ x, (if d then s.send else s.recv)[i.toNat]? = some x →
        (if d then s'.send else s'.recv)[i.toNat]? = some x) :
    b.getMessageKey P k d i = .ok key := by
  unfold MemStore.getMessageKey at ha
  split at ha
  · cases ha
  · rename_i s hs
    obtain ⟨s', h1, h2, h3⟩ := h s hs
    split at ha
    · cases ha
    · rename_i hlt
      split at ha
      · cases ha
      · rename_i x hx
        unfold MemStore.getMessageKey
        rw [h1]; simp only [h3 x hx]
        rw [if_neg (by omega)]
        exact ha

theorem handle_keeps (P : Prims) {β : Type} (r : Req β) (ms : MemStore) (k : Str) (d : Bool)
    (i : UInt64) (key : Bytes) (hno : ¬ Op.deletes ⟨r⟩ k d i)
    (h : ms.getMessageKey P k d i = .ok key) :
    (MemStore.handle P r ms).2.getMessageKey P k d i = .ok key := by
  have triv : ∀ ms' : MemStore, ms'.sessions = ms.sessions →
      ms'.getMessageKey P k d i = .ok key := by
    intro ms' e; unfold MemStore.getMessageKey; rw [e]; exact h
  cases r with
  | storeSession k0 r c s t =>
    show (ms.storeSession k0 r c s t).2.getMessageKey P k d i = .ok key
    unfold MemStore.storeSession
    split
    · exact h
    · split
      · rename_i hn
        refine getMessageKey_congr h fun s' hs' => ?_
        have hne : k ≠ k0 := by intro e; subst e; rw [hn] at hs'; cases hs'
        exact ⟨s', by simp only [MemStore.setSess, upd_other _ _ hne, hs'], Nat.le_refl _,
          fun _ h => h⟩
      · rename_i s0 hn
        refine getMessageKey_congr h fun s' hs' => ?_
        by_cases e : k = k0
        · subst e
          rw [hn] at hs'; injection hs' with hs'; subst hs'
          refine ⟨_, upd_same _ _ _, by simp, fun x hx => ?_⟩
          have app : ∀ (l m : List Str), l[i.toNat]? = some x → (l ++ m)[i.toNat]? = some x := by
            intro l m hl
            have : i.toNat < l.length := by
              rcases Nat.lt_or_ge i.toNat l.length with h | h
              · exact h
              · rw [List.getElem?_eq_none h] at hl; cases hl
            rw [List.getElem?_append_left this]; exact hl
          cases d
          · exact app _ _ hx
          · exact app _ _ hx
        · exact ⟨s', by simp only [MemStore.setSess, upd_other _ _ e, hs'], Nat.le_refl _,
            fun _ h => h⟩
  | delMsgKey k0 d0 i0 =>
    show (ms.delMessageKey k0 d0 i0).2.getMessageKey P k d i = .ok key
    unfold MemStore.delMessageKey
    split
    · exact h
    · rename_i s0 hn
      split
      · exact h
      · refine getMessageKey_congr h fun s' hs' => ?_
        by_cases e : k = k0
        · subst e
          rw [hn] at hs'; injection hs' with hs'; subst hs'
          refine ⟨_, upd_same _ _ _, by cases d0 <;> simp, fun x hx => ?_⟩
          by_cases ed : d0 = d
          · subst ed
            have hi : i0.toNat ≠ i.toNat := by
              intro he
              exact hno ⟨rfl, rfl, UInt64.toNat_inj.mp he⟩
            cases d0
            · simp only [Bool.false_eq_true, if_false] at hx ⊢
              rw [List.getElem?_set_ne hi]; exact hx
            · simp only [if_true] at hx ⊢
              rw [List.getElem?_set_ne hi]; exact hx
          · cases d0 <;> cases d <;> simp_all
        · exact ⟨s', by simp only [MemStore.setSess, upd_other _ _ e, hs'], Nat.le_refl _,
            fun _ h => h⟩
  | delSKey hh =>
    refine triv _ ?_
    simp only [MemStore.handle, MemStore.delPrivSessionKey]
    split <;> rfl
  | _ => exact triv _ rfl

/-- C07: a key that can be obtained stays obtainable, unchanged, through any calls
that do not delete it. -/
theorem C07_undeleted_key_unchanged (P : Prims) (ops : List Op) (ms : MemStore) (k : Str)
    (sender : Bool) (i : UInt64) (key : Bytes)
    (hget : ms.getMessageKey P k sender i = .ok key)
    (hno : ∀ op ∈ ops, ¬ op.deletes k sender i) :
    (exec P ops ms).getMessageKey P k sender i = .ok key := by
  induction ops generalizing ms with
  | nil => exact hget
  | cons op ops ih =>
    exact ih _ (handle_keeps P op.req ms k sender i key (hno op List.mem_cons_self) hget)
      fun o ho => hno o (List.mem_cons_of_mem _ ho)

example : ∃ key, (exec Toy.P0 [⟨.storeSession [1] [] [] [Base64.encode (List.replicate 64 7)]
    [Base64.encode (List.replicate 64 8)]⟩] MemStore.new).getMessageKey Toy.P0 [1] false 0 = .ok key :=
  ⟨List.replicate 64 8, rfl⟩

end Verif.Msg
