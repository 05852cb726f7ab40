import Verif.Msg.RunLemmas
/-
The chain of message keys, and what generateMessageKeys stores.
-/
namespace Verif.Msg
open Prog

/-- The i-th chain key of a session with the given root key. -/
def chainAt (P : Prims) (root : Bytes) : Nat → Bytes
  | 0 => root
  | i + 1 => nextChain P (chainAt P root i)

theorem chainAt_succ' (P : Prims) (root : Bytes) (i : Nat) :
    chainAt P root (i + 1) = chainAt P (nextChain P root) i := by
  induction i with
  | zero => rfl
  | succ i ih => show nextChain P (chainAt P root (i + 1)) = _; rw [ih]; rfl

theorem chainAt_add (P : Prims) (root : Bytes) (n m : Nat) :
    chainAt P root (n + m) = chainAt P (chainAt P root n) m := by
  induction m with
  | zero => rfl
  | succ m ih => show nextChain P (chainAt P root (n + m)) = _; rw [ih]; rfl

theorem genLoop_eq (P : Prims) (sh rh fix : Bytes) (n : Nat) (c : Bytes) :
    genLoop P sh rh fix n c =
      ((List.range n).map fun i => messageKey P (chainAt P c i) sh fix,
       (List.range n).map fun i => messageKey P (chainAt P c i) rh fix,
       chainAt P c n) := by
  induction n generalizing c with
  | zero => rfl
  | succ n ih =>
    simp only [genLoop, ih, List.range_succ_eq_map, List.map_cons, List.map_map]
    refine Prod.ext ?_ (Prod.ext ?_ ?_)
    · simp only [List.cons.injEq]
      refine ⟨rfl, List.map_congr_left fun i _ => ?_⟩
      simp only [Function.comp, Nat.succ_eq_add_one, chainAt_succ']
    · simp only [List.cons.injEq]
      refine ⟨rfl, List.map_congr_left fun i _ => ?_⟩
      simp only [Function.comp, Nat.succ_eq_add_one, chainAt_succ']
    · exact (chainAt_succ' P c n).symm

/-- The first n message keys for the holder of the key with hash `h`. -/
def keyList (P : Prims) (root h fix : Bytes) (n : Nat) : List Str :=
  (List.range n).map fun i => messageKey P (chainAt P root i) h fix

theorem keyList_length (P : Prims) (root h fix : Bytes) (n : Nat) :
    (keyList P root h fix n).length = n := by simp [keyList]

theorem keyList_add (P : Prims) (root h fix : Bytes) (n m : Nat) :
    keyList P root h fix n ++ keyList P (chainAt P root n) h fix m =
      keyList P root h fix (n + m) := by
  simp only [keyList, List.range_add, List.map_append, List.map_map]
  congr 1
  exact List.map_congr_left fun i _ => by simp [chainAt_add]

theorem chainAt_len (P : Prims) (hP : P.Good) (root : Bytes) (hr : root.length = 32) (n : Nat) :
    (chainAt P root n).length = 32 := by
  cases n with
  | zero => exact hr
  | succ n => simp [chainAt, nextChain, hP.hmac_len]

/-- The session key under which generateMessageKeys stores (msg/keys.go:137-150). -/
def genKey (P : Prims) (senderHash recipientHash : Str) (role : Bool) (sp rp : Bytes) : Str :=
  if role then
    calcKey P recipientHash senderHash (P.b64 (P.sha512 rp)) (P.b64 (P.sha512 sp))
  else
    calcKey P senderHash recipientHash (P.b64 (P.sha512 sp)) (P.b64 (P.sha512 rp))

/-- The store call generateMessageKeys makes. -/
theorem generate_eq (P : Prims) (si ri sh rh : Str) (root : Bytes) (role : Bool)
    (sp rp : Bytes) (n : UInt64) (hn : n ≠ 0) :
    generateMessageKeys P si ri sh rh root role sp rp n =
      Prog.ask (.storeSession (genKey P sh rh role sp rp) (P.b64 (P.sha512 root))
        (P.b64 (chainAt P root n.toNat))
        (keyList P root (P.sha512 (if role then sp else rp)) (identityFix P si ri) n.toNat)
        (keyList P root (P.sha512 (if role then rp else sp)) (identityFix P si ri) n.toNat)) := by
  unfold generateMessageKeys
  simp only [genLoop_eq, hn, if_false]
  cases role <;> simp [genKey, calcKey, keyList]

theorem sess_new {ms : MemStore} {k : Str} (h : ms.sessions k = none)
    (r c : Str) (s t : List Str) (hl : s.length = t.length) :
    ms.storeSession k r c s t = (.ok (), ms.setSess k { root := r, chain := c, send := s, recv := t }) := by
  unfold MemStore.storeSession
  rw [if_neg (by simpa using hl), h]

theorem sess_ext {ms : MemStore} {k : Str} {s0 : Sess} (h : ms.sessions k = some s0)
    (r c : Str) (s t : List Str) (hl : s.length = t.length) :
    ms.storeSession k r c s t = (.ok (), ms.setSess k { s0 with chain := c, send := s0.send ++ s, recv := s0.recv ++ t }) := by
  unfold MemStore.storeSession
  rw [if_neg (by simpa using hl), h]

@[simp] theorem upd_same {α : Type} (f : Str → Option α) (k : Str) (v : Option α) :
    upd f k v k = v := if_pos rfl

theorem upd_other {α : Type} (f : Str → Option α) {k k' : Str} (v : Option α) (h : k' ≠ k) :
    upd f k v k' = f k' := if_neg h

/-- A session in which `n` keys have been generated and none deleted. -/
def FullSess (P : Prims) (s : Sess) (root sendPub recvPub fix : Bytes) (n : Nat) : Prop :=
  s.root = P.b64 (P.sha512 root) ∧ s.chain = P.b64 (chainAt P root n) ∧
  s.send = keyList P root (P.sha512 sendPub) fix n ∧
  s.recv = keyList P root (P.sha512 recvPub) fix n

theorem run_generate_new (P : Prims) (si ri sh rh : Str) (root : Bytes) (role : Bool)
    (sp rp : Bytes) (n : UInt64) (hn : n ≠ 0) (ms : MemStore)
    (hs : ms.sessions (genKey P sh rh role sp rp) = none) :
    ∃ s, FullSess P s root (if role then sp else rp) (if role then rp else sp)
        (identityFix P si ri) n.toNat ∧
      (generateMessageKeys P si ri sh rh root role sp rp n).run (MemStore.handle P) ms =
        (.ok (), ms.setSess (genKey P sh rh role sp rp) s) := by
  rw [generate_eq P _ _ _ _ _ _ _ _ n hn]
  refine ⟨⟨_, _, _, _⟩, ⟨rfl, rfl, rfl, rfl⟩, ?_⟩
  rw [run_ask]
  simp only [MemStore.handle]
  rw [sess_new hs _ _ _ _ (by simp [keyList_length])]
  rfl

theorem run_generate_ext (P : Prims) (hP : P.Good) (si ri sh rh : Str) (root : Bytes)
    (hr : root.length = 32) (role : Bool) (sp rp : Bytes) (m : Nat) (n : UInt64) (hn : n ≠ 0)
    (ms : MemStore) (s : Sess)
    (hf : FullSess P s root (if role then sp else rp) (if role then rp else sp)
      (identityFix P si ri) m)
    (hs : ms.sessions (genKey P sh rh role sp rp) = some s) :
    ms.getChainKey P (genKey P sh rh role sp rp) = .ok (chainAt P root m) ∧
    ∃ s', FullSess P s' root (if role then sp else rp) (if role then rp else sp)
        (identityFix P si ri) (m + n.toNat) ∧
      (generateMessageKeys P si ri sh rh (chainAt P root m) role sp rp n).run
        (MemStore.handle P) ms =
        (.ok (), ms.setSess (genKey P sh rh role sp rp) s') := by
  obtain ⟨h1, h2, h3, h4⟩ := hf
  constructor
  · unfold MemStore.getChainKey
    rw [hs]
    simp only [h2, hP.unb64_b64, chainAt_len P hP root hr]
    rw [if_neg (by omega), List.take_of_length_le]
    rw [chainAt_len P hP root hr]; exact Nat.le_refl _
  · rw [generate_eq P _ _ _ _ _ _ _ _ n hn]
    refine ⟨⟨s.root, P.b64 (chainAt P root (m + n.toNat)),
      keyList P root _ _ (m + n.toNat), keyList P root _ _ (m + n.toNat)⟩,
      ⟨h1, rfl, rfl, rfl⟩, ?_⟩
    rw [run_ask]
    simp only [MemStore.handle]
    rw [sess_ext hs _ _ _ _ (by simp [keyList_length])]
    simp only [h3, h4, keyList_add, chainAt_add]

end Verif.Msg
