import Verif.Msg.ToyRun
/-
Properties of Decrypt: C10 (success means authenticated), C11 (release of
plaintext), C12 (replay) and C14 (bounded key generation).
-/
namespace Verif.Msg
open Prog
open Wire (Outer Inner readInner)

/-! ### C10 -/

/-- Specification: `auth` consists of a crypto setup packet with the IV, two
encrypted packets and the header of the HMAC packet; decrypting the encrypted
packets as one stream gives the content and, for signed messages, a signature. -/
def Carries (P : Prims) (mk auth content : Bytes) (signature : Option Bytes) : Prop :=
  ∃ (p2 p3 p4 p5 : Outer) (i1 i2 : Inner) (t1 t2 : Bytes),
    auth = p2.write true ++ p3.write true ++ p4.write true ++ p5.write false ∧
    p2.inner.length = 16 ∧
    readInner (ctr P (deriveSymmetricKeys P mk).1 p2.inner 0 p3.inner) = .ok (i1, t1) ∧
    readInner (ctr P (deriveSymmetricKeys P mk).1 p2.inner p3.inner.length p4.inner) =
      .ok (i2, t2) ∧
    content = i1.content ∧
    signature = if i1.type &&& Wire.signType != 0 then some i2.content else none

/-- C10: if Decrypt succeeds, then the input after the header packet starts with
`auth ++ mac`, where `mac` is the HMAC of `auth` under the message key the store
holds for the session and index of the header; what was written is the content
carried by `auth`; the sender is the one named in the header; and a returned
signature verifies for the content under the signature key of the UID message in
the header. -/
theorem C10_success_is_authenticated (P : Prims) (a : DecArgs) (st st' : MemStore)
    (sender sig : Str)
    (hok : (decrypt P a).run (MemStore.handle P) st = (.ok (sender, sig), st')) :
    ∃ headerPub u h body headerPacket mk auth mac rest content signature st1,
      (decHead P a).out = .ok (headerPub, u, h, body) ∧
      a.reader = headerPacket ++ body ∧
      body = auth ++ mac ++ rest ∧
      mac = P.hmac (deriveSymmetricKeys P mk).2 auth ∧
      StoreLE st st1 ∧
      st1.getMessageKey P (decSessionKey P u h) false h.senderMessageCount = .ok mk ∧
      Carries P mk auth content signature ∧
      st'.out = st.out ++ content ∧
      sender = h.senderIdentity ∧
      (match signature with
       | none => sig = []
       | some s => sig = P.b64 s ∧ s.length = 64 ∧ ∃ uid pk,
           P.parseUID h.senderUID = some uid ∧ uid.sigKey.pub32 P = some pk ∧
           P.verify pk (P.sha512 content) s = true) := by
  obtain ⟨hp, u, h, r, ss, st0, st1, st2, mk, e0, e1, e2, e3, e4, e5, e6⟩ := decrypt_ok hok
  obtain ⟨p1, w1, -⟩ := decHead_ok e0
  obtain ⟨p2, p3, p4, p5, i1, i2, rest, uid, f1, f2, f3, f4⟩ := decBody_ok e4
  obtain ⟨t1, g1⟩ := f2.inner1
  obtain ⟨t2, g2⟩ := f2.inner2
  have o0 : st0.out = st.out := by
    have := run_out P (noWrite_decSession P a (effKeys a.numOfKeys) hp u h) st
    rw [e1] at this; exact this
  have o1 : st1.out = st0.out := by
    have := run_out P (noWrite_decExtend P (effKeys a.numOfKeys) u h (decSessionKey P u h) ss) st0
    rw [e2] at this; exact this
  have l0 : StoreLE st st0 := by
    have := run_le P (decSession P a (effKeys a.numOfKeys) hp u h) st
    rw [e1] at this; exact this
  have l1 : StoreLE st0 st1 := by
    have := run_le P (decExtend P (effKeys a.numOfKeys) u h (decSessionKey P u h) ss) st0
    rw [e2] at this; exact this
  have o2 : st'.out = st2.out := by
    have := handle_out P (.delMsgKey (decSessionKey P u h) false h.senderMessageCount) rfl st2
    simp only [MemStore.handle, e5] at this; exact this
  refine ⟨hp, u, h, r, p1.write true, mk, _, p5.inner, rest, i1.content, _, st1, e0, w1, ?_, f3,
    l0.trans l1, e3, ⟨p2, p3, p4, p5, i1, i2, t1, t2, rfl, ?_, g1, g2, rfl, rfl⟩, ?_, e6, ?_⟩
  · rw [f1]; simp only [bodyBytes, write_true p5, List.append_assoc]
  · rw [← f2.len2, f2.plen2]; rfl
  · rw [o2, f4, o1, o0]
  · have hs := f2.sig_ok
    split at hs
    · rename_i hsig
      simp only [hsig, if_true]
      obtain ⟨-, b, pk, c, d, e⟩ := hs
      exact ⟨e, b, uid, pk, f2.uid_eq, c, d⟩
    · rename_i hsig
      simp only [hsig]
      exact hs.2

example : ∃ (P : Prims) (a : DecArgs) (st st' : MemStore) (sender sig : Str),
    (decrypt P a).run (MemStore.handle P) st = (.ok (sender, sig), st') ∧ sig ≠ [] :=
  let ⟨sig, st', h, hs, _⟩ := Toy.accepted
  ⟨_, _, _, st', _, sig, h, hs⟩

/-! ### C11 -/

/-- C11 fails: take any message Decrypt accepts; replacing its authentication tag
by any other 64 bytes makes Decrypt report an HMAC error, but the Writer has
received the same content as before. -/
theorem C11_negation_unauthenticated_content_released (P : Prims) (hP : P.Good) (a : DecArgs)
    (st st' : MemStore) (sender sig : Str)
    (hok : (decrypt P a).run (MemStore.handle P) st = (.ok (sender, sig), st')) :
    ∃ front mac rest, a.reader = front ++ mac ++ rest ∧ mac.length = 64 ∧
      ∀ forged : Bytes, forged.length = 64 → forged ≠ mac →
        ∃ st'', (decrypt P { a with reader := front ++ forged ++ rest }).run
            (MemStore.handle P) st = (.err .hmacsDiffer, st'') ∧ st''.out = st'.out := by
  obtain ⟨hp, u, h, r, ss, st0, st1, st2, mk, e0, e1, e2, e3, e4, e5, e6⟩ := decrypt_ok hok
  obtain ⟨p1, w1, w2⟩ := decHead_ok e0
  obtain ⟨p2, p3, p4, p5, i1, i2, rest, uid, f1, f2, f3, f4⟩ := decBody_ok e4
  have hl : p5.inner.length = 64 := by rw [f3]; exact hP.hmac_len _ _
  have o2 : st'.out = st2.out := by
    have := handle_out P (.delMsgKey (decSessionKey P u h) false h.senderMessageCount) rfl st2
    simp only [MemStore.handle, e5] at this; exact this
  refine ⟨p1.write true ++ (p2.write true ++ p3.write true ++ p4.write true ++ p5.write false),
    p5.inner, rest, ?_, hl, ?_⟩
  · rw [w1, f1]; simp only [bodyBytes, write_true p5, List.append_assoc]
  · intro forged hfl hne
    let p5' : Outer := { p5 with inner := forged }
    have hw : p5'.write false = p5.write false := rfl
    have H : BodyOK P mk h.senderUID p2 p3 p4 p5' i1 i2 uid sig :=
      { f2 with len5 := (f2.len5.trans (hl.trans hfl.symm) : p5.plen.toNat = forged.length) }
    have hbody := decBody_run H rest st1
    rw [hw, if_neg (by rw [← f3]; exact fun he => hne he.symm)] at hbody
    have hre : (p1.write true ++ (p2.write true ++ p3.write true ++ p4.write true ++
        p5.write false)) ++ forged ++ rest = p1.write true ++ (bodyBytes p2 p3 p4 p5' ++ rest) := by
      simp only [bodyBytes, write_true p5', hw, List.append_assoc]; rfl
    rw [hre, decrypt_head (w2 _)]
    refine ⟨{ st1 with out := st1.out ++ i1.content }, ?_, by rw [o2, f4]⟩
    unfold decTail
    refine (run_bind_of_ok (a := ss) (s1 := st0) _ e1).trans ?_
    refine (run_bind_of_ok (a := ()) (s1 := st1) _ e2).trans ?_
    rw [run_bind_of_ok (a := mk) (s1 := st1)]
    · rw [run_bind, hbody]
    · rw [run_ask_ok]; simp only [MemStore.handle, e3]

/-- A program that does not write, followed by something: either it succeeds with
the output unchanged and the rest runs, or the whole run is no success and has
written nothing. -/
theorem run_bind_noWrite (P : Prims) {α β : Type} {p : Prog α} {f : α → Prog β}
    (hp : NoWrite p) (st : MemStore) :
    (∃ a st1, p.run (MemStore.handle P) st = (.ok a, st1) ∧ st1.out = st.out ∧ StoreLE st st1 ∧
      (p.bind f).run (MemStore.handle P) st = (f a).run (MemStore.handle P) st1) ∨
    ((∀ b, ((p.bind f).run (MemStore.handle P) st).1 ≠ .ok b) ∧
      ((p.bind f).run (MemStore.handle P) st).2.out = st.out) := by
  have ho := run_out P hp st
  have hl := run_le P p st
  rw [run_bind]
  cases hr : p.run (MemStore.handle P) st with
  | mk x st1 =>
    rw [hr] at ho hl
    cases x with
    | ok a => exact .inl ⟨a, st1, rfl, ho, hl, rfl⟩
    | err e => exact .inr ⟨by simp, ho⟩
    | panic => exact .inr ⟨by simp, ho⟩

/-- C11, the part that holds: Decrypt writes nothing at all unless the store has
a message key for the session and index in the header; what it writes then is the
content of the first encrypted packet under that key.  Missing: that the tag is
checked before writing. -/
theorem C11_no_key_no_output_partial (P : Prims) (a : DecArgs) (st : MemStore)
    (hout : ((decrypt P a).run (MemStore.handle P) st).2.out ≠ st.out) :
    ∃ headerPub u h body st1 mk,
      (decHead P a).out = .ok (headerPub, u, h, body) ∧ StoreLE st st1 ∧
      st1.getMessageKey P (decSessionKey P u h) false h.senderMessageCount = .ok mk := by
  rcases run_bind_noWrite P (f := fun x => decTail P a x.1 x.2.1 x.2.2.1 x.2.2.2)
    (noCall_decHead P a).noWrite st with ⟨⟨hp, u, h, r⟩, s0, h0, o0, -, e0⟩ | ⟨-, hno⟩
  · rw [(noCall_decHead P a).run] at h0
    obtain ⟨h0', rfl⟩ := Prod.mk.inj h0
    rw [decrypt_head h0'] at hout
    unfold decTail at hout
    rcases run_bind_noWrite P (noWrite_decSession P a (effKeys a.numOfKeys) hp u h)
        (f := _) st with ⟨ss, s1, -, o1, l1, e1⟩ | ⟨-, hno⟩
    · rw [e1, ← o1] at hout
      rcases run_bind_noWrite P (noWrite_decExtend P (effKeys a.numOfKeys) u h
          (decSessionKey P u h) ss) (f := _) s1 with ⟨x2, s2, -, o2, l2, e2⟩ | ⟨-, hno⟩
      · rw [e2, ← o2] at hout
        refine ⟨hp, u, h, r, s2, ?_⟩
        rw [run_bind, run_ask] at hout
        simp only [MemStore.handle] at hout
        cases hk : s2.getMessageKey P (decSessionKey P u h) false h.senderMessageCount with
        | error e => rw [hk] at hout; exact absurd rfl hout
        | ok mk => exact ⟨mk, h0', l1.trans l2, rfl⟩
      · exact absurd hno hout
    · exact absurd hno hout
  · refine absurd ?_ hout
    exact hno

example : ((decrypt Toy.PT Toy.argsT).run (MemStore.handle Toy.PT) Toy.storeT).2.out ≠
    Toy.storeT.out := by
  obtain ⟨sig, st', h, -, ho⟩ := Toy.accepted
  rw [h, ho]; decide

/-! ### C12 -/

/-- If the message key is marked used, Decrypt does not succeed and writes
nothing. -/
theorem decTail_used (P : Prims) (a : DecArgs) (hp : Bytes) (u : UID) (h : Header) (r : Bytes)
    (st : MemStore)
    (hu : ∀ st', StoreLE st st' →
      st'.getMessageKey P (decSessionKey P u h) false h.senderMessageCount = .error .keyUsed) :
    (∀ x, ((decTail P a hp u h r).run (MemStore.handle P) st).1 ≠ .ok x) ∧
      ((decTail P a hp u h r).run (MemStore.handle P) st).2.out = st.out := by
  unfold decTail
  rcases run_bind_noWrite P (noWrite_decSession P a (effKeys a.numOfKeys) hp u h)
      (f := _) st with ⟨ss, s1, -, o1, l1, e1⟩ | hno
  · rw [e1, ← o1]
    rcases run_bind_noWrite P (noWrite_decExtend P (effKeys a.numOfKeys) u h
        (decSessionKey P u h) ss) (f := _) s1 with ⟨x2, s2, -, o2, l2, e2⟩ | hno
    · rw [e2, ← o2, run_bind, run_ask]
      simp only [MemStore.handle, hu s2 (l1.trans l2)]
      simp
    · exact hno
  · exact hno

/-- C12: once a message was decrypted successfully, no later Decrypt of a message
with the same session and index succeeds or writes anything, whatever happened to
the store in between. -/
theorem C12_index_accepted_once (P : Prims) (init : MemStore)
    (hinit : ∀ k, init.sessions k = none) {α β : Type} (before : Prog α) (between : Prog β)
    (a a' : DecArgs) (st' : MemStore) (sender sig : Str)
    (hok : (decrypt P a).run (MemStore.handle P) (before.run (MemStore.handle P) init).2 =
      (.ok (sender, sig), st'))
    (hp hp' : Bytes) (u u' : UID) (h h' : Header) (r r' : Bytes)
    (head : (decHead P a).out = .ok (hp, u, h, r))
    (head' : (decHead P a').out = .ok (hp', u', h', r'))
    (same : decSessionKey P u' h' = decSessionKey P u h ∧
      h'.senderMessageCount = h.senderMessageCount) :
    let st2 := (between.run (MemStore.handle P) st').2
    (∀ x, ((decrypt P a').run (MemStore.handle P) st2).1 ≠ .ok x) ∧
      ((decrypt P a').run (MemStore.handle P) st2).2.out = st2.out := by
  intro st2
  obtain ⟨hp1, u1, h1, r1, ss, st0, st1, stb, mk, e0, e1, e2, e3, e4, e5, e6⟩ := decrypt_ok hok
  rw [head] at e0
  injection e0 with e0
  injection e0 with q1 q2
  injection q2 with q2 q3
  injection q3 with q3 q4
  subst q1 q2 q3 q4
  rw [decrypt_head head']
  apply decTail_used
  intro st3 hle
  rw [same.1, same.2]
  refine used_after (delMessageKey_used ?_ e5) ((run_le P between st').trans hle)
  have b0 := balanced_run P before init (balanced_init hinit)
  have b1 := balanced_run P (decSession P a (effKeys a.numOfKeys) hp u h) _ b0
  rw [e1] at b1
  have b2 := balanced_run P (decExtend P (effKeys a.numOfKeys) u h (decSessionKey P u h) ss) _ b1
  rw [e2] at b2
  have b3 := balanced_run P (decBody P mk h.senderUID r) _ b2
  rw [e4] at b3
  exact b3

/-- C12: presenting the very same message again (with any number of keys
configured and any randomness) does not succeed and writes nothing. -/
theorem C12_replay_rejected (P : Prims) (init : MemStore)
    (hinit : ∀ k, init.sessions k = none) {α β : Type} (before : Prog α) (between : Prog β)
    (a a' : DecArgs) (st' : MemStore) (sender sig : Str)
    (hok : (decrypt P a).run (MemStore.handle P) (before.run (MemStore.handle P) init).2 =
      (.ok (sender, sig), st'))
    (same : a'.preHeader = a.preHeader ∧ a'.reader = a.reader ∧ a'.identities = a.identities) :
    let st2 := (between.run (MemStore.handle P) st').2
    (∀ x, ((decrypt P a').run (MemStore.handle P) st2).1 ≠ .ok x) ∧
      ((decrypt P a').run (MemStore.handle P) st2).2.out = st2.out := by
  obtain ⟨hp, u, h, r, ss, st0, st1, stb, mk, e0, -⟩ := decrypt_ok hok
  have e0' : (decHead P a').out = .ok (hp, u, h, r) := by
    rw [← e0]; unfold decHead; rw [same.1, same.2.1, same.2.2]
  exact C12_index_accepted_once P init hinit before between a a' st' sender sig hok
    hp hp u u h h r r e0 e0' ⟨rfl, rfl⟩

/-- The accepted toy message is reached from a store without sessions. -/
example : ∃ (before : Prog Unit) (init : MemStore), (∀ k, init.sessions k = none) ∧
    ∃ sender sig st', (decrypt Toy.PT Toy.argsT).run (MemStore.handle Toy.PT)
      (before.run (MemStore.handle Toy.PT) init).2 = (.ok (sender, sig), st') := by
  refine ⟨Prog.ask (.storeSession (decSessionKey Toy.PT Toy.uidT Toy.headerT)
    (Base64.encode (List.replicate 64 0)) (Base64.encode (List.replicate 32 0)) [Base64.encode Toy.mkT]
    [Base64.encode Toy.mkT]), { Toy.storeT with sessions := fun _ => none }, fun _ => rfl, ?_⟩
  obtain ⟨sig, st', h, -⟩ := Toy.accepted
  exact ⟨_, sig, st', h⟩

/-! ### C14 -/

/-- C14: processing one received message, whatever it contains, adds at most
301 keys plus twice the configured batch size to any session. -/
theorem C14_key_generation_bounded (P : Prims) (a : DecArgs) (st : MemStore) (session : Str) :
    keyCount ((decrypt P a).run (MemStore.handle P) st).2 session ≤
      keyCount st session + (301 + 2 * (effKeys a.numOfKeys).toNat) := by
  refine run_gen P _ _ ?_ st session
  unfold decrypt
  simp only [bind_eq]
  refine GenAtMost.bind0 (NoCall.gen (noCall_decHead P a) 0) fun x => ?_
  refine (GenAtMost.bind (m := 301) (gen_decSession ..) fun ss => ?_).mono
    (by unfold effKeys; omega)
  refine (GenAtMost.bind (m := 0) (gen_decExtend ..) fun _ => ?_).mono (by omega)
  refine GenAtMost.bind0 (by gen0) fun mk => ?_
  refine GenAtMost.bind0 (gen_decBody ..) fun sig => ?_
  gen0

/-- C14: the extension step alone adds at most 301 keys. -/
theorem C14_extension_bounded (P : Prims) (n : UInt64) (u : UID) (h : Header) (k session : Str)
    (ss : Option State) (st : MemStore) :
    keyCount ((decExtend P n u h k ss).run (MemStore.handle P) st).2 session ≤
      keyCount st session + 301 :=
  run_gen P _ _ (gen_decExtend ..) st session

/-- C14: an index for which more than 301 keys would be needed is rejected and
the store stays as it is. -/
theorem C14_too_many_rejected (P : Prims) (n : UInt64) (u : UID) (h : Header) (k : Str)
    (ss : Option State) (st : MemStore) (num : UInt64) (chain : Bytes)
    (hnum : st.numMessageKeys k = .ok num) (hge : num ≤ h.senderMessageCount)
    (hchain : st.getChainKey P k = .ok chain)
    (hneed : 301 < (keysNeeded h.senderMessageCount n).toNat) :
    (decExtend P n u h k ss).run (MemStore.handle P) st = (.err .tooManyKeys, st) := by
  unfold decExtend
  simp only [bind_eq]
  rw [run_bind_of_ok (a := num) (s1 := st)]
  rotate_left
  · rw [run_ask_ok]; simp only [MemStore.handle, hnum]
  rw [if_pos hge, run_bind_of_ok (a := chain) (s1 := st)]
  rotate_left
  · rw [run_ask_ok]; simp only [MemStore.handle, hchain]
  have : keysNeeded h.senderMessageCount n > keyLimit := UInt64.lt_iff_toNat_lt.mpr hneed
  simp [failIf, this]

example : 301 < (keysNeeded 302 50).toNat := by decide

/-- C14, an index the limit does not catch: the 64-bit product wraps around, so
for the largest index only 34 keys are asked for (and the message key is then
still missing). -/
theorem C14_index_wraparound : keysNeeded 18446744073709551615 50 = 34 := by decide

/-- C14: for every batch size that is a power of two the largest index asks for
no keys at all. -/
theorem C14_index_wraparound_zero (j : Nat) (hj : j < 64) (h0 : 0 < j) :
    keysNeeded 18446744073709551615 (UInt64.ofNat (2 ^ j)) = 0 := by
  have : ∀ j : Fin 64, 0 < j.val →
      keysNeeded 18446744073709551615 (UInt64.ofNat (2 ^ j.val)) = 0 := by decide +kernel
  exact this ⟨j, hj⟩ h0

end Verif.Msg
