import Verif.Msg.KeyLemmas
import Verif.Wire.Lemmas
/-
What `encBody` writes and `decBody` accepts.
-/
namespace Verif.Msg
open Prog
open Wire (Outer Inner newOuter newInner readOuter readInner)

section
variable {σ α : Type} (h : {β : Type} → Req β → σ → β × σ)

theorem run_wire_ok {x : Res Wire.Err α} {s s1 : σ} {a : α} :
    run h (Prog.wire x) s = (.ok a, s1) ↔ x = .ok a ∧ s = s1 := by
  cases x <;> simp [Prog.wire]

theorem run_failIf_ok {c : Bool} {e : Err} {s s1 : σ} {a : Unit} :
    run h (failIf c e) s = (.ok a, s1) ↔ c = false ∧ s = s1 := by
  cases c <;> simp [failIf]

theorem run_orPanic_ok {o : Option α} {s s1 : σ} {a : α} :
    run h (orPanic o) s = (.ok a, s1) ↔ o = some a ∧ s = s1 := by
  cases o <;> simp [orPanic]

theorem run_try'_ok {r : Req α} {s s1 : σ} {a : α} :
    run h (try' r) s = (.ok a, s1) ↔ (h r s).1 = a ∧ (h r s).2 = s1 := by
  simp [run_try']

theorem run_readPacket_ok {r r' : Bytes} {t : UInt8} {e : Err} {c : UInt32} {oh : Outer}
    {s s1 : σ} :
    run h (readPacket r t e c) s = (.ok (oh, r'), s1) ↔
      readOuter r = .ok (oh, r') ∧ oh.type = t ∧ oh.count = c ∧ s = s1 := by
  simp only [readPacket, bind_eq, run_bind_ok, run_wire_ok, run_failIf_ok, Prod.exists]
  constructor
  · rintro ⟨a, b, s2, ⟨h1, rfl⟩, -, s3, ⟨h2, rfl⟩, -, s4, ⟨h3, rfl⟩, h4⟩
    simp only [run_ret, Prod.mk.injEq, Res.ok.injEq] at h4
    obtain ⟨⟨rfl, rfl⟩, rfl⟩ := h4
    exact ⟨h1, by simpa using h2, by simpa using h3, rfl⟩
  · rintro ⟨h1, h2, h3, rfl⟩
    exact ⟨oh, r', s, ⟨h1, rfl⟩, (), s, ⟨by simpa using h2, rfl⟩, (), s, ⟨by simpa using h3, rfl⟩,
      by simp⟩

end

/-- Everything `decBody` checks except the HMAC. -/
structure BodyOK (P : Prims) (mk : Bytes) (suid : Str) (p2 p3 p4 p5 : Outer) (ih ih2 : Inner)
    (uid : UID) (sig : Str) : Prop where
  len2 : p2.plen.toNat = p2.inner.length
  len3 : p3.plen.toNat = p3.inner.length
  len4 : p4.plen.toNat = p4.inner.length
  len5 : p5.plen.toNat = p5.inner.length
  plen2 : p2.plen = 16
  type2 : p2.type = Wire.cryptoSetup
  type3 : p3.type = Wire.encryptedPacket
  type4 : p4.type = Wire.encryptedPacket
  type5 : p5.type = Wire.hmacPacket
  count2 : p2.count = 2
  count3 : p3.count = 3
  count4 : p4.count = 4
  count5 : p5.count = 5
  inner1 : ∃ t, readInner (ctr P (deriveSymmetricKeys P mk).1 p2.inner 0 p3.inner) = .ok (ih, t)
  inner2 : ∃ t, readInner (ctr P (deriveSymmetricKeys P mk).1 p2.inner p3.inner.length
    p4.inner) = .ok (ih2, t)
  data : (ih.type &&& Wire.dataType == 0) = false
  uid_eq : P.parseUID suid = some uid
  sig_ok : if ih.type &&& Wire.signType != 0 then
      (ih2.type &&& Wire.signatureType == 0) = false ∧ ih2.content.length = 64 ∧
      ∃ pk, uid.sigKey.pub32 P = some pk ∧
        P.verify pk (P.sha512 ih.content) ih2.content = true ∧ sig = P.b64 ih2.content
    else (ih2.type &&& Wire.paddingType == 0) = false ∧ sig = []

/-- The four packets of a message body. -/
def bodyBytes (p2 p3 p4 p5 : Outer) : Bytes :=
  p2.write true ++ p3.write true ++ p4.write true ++ p5.write true

/-- A successful run of `decBody`, taken apart. -/
theorem decBody_ok {P : Prims} {mk : Bytes} {suid : Str} {r : Bytes} {st st' : MemStore}
    {sig : Str} (h : (decBody P mk suid r).run (MemStore.handle P) st = (.ok sig, st')) :
    ∃ (p2 p3 p4 p5 : Outer) (ih ih2 : Inner) (rest : Bytes) (uid : UID),
      r = bodyBytes p2 p3 p4 p5 ++ rest ∧
      BodyOK P mk suid p2 p3 p4 p5 ih ih2 uid sig ∧
      p5.inner = P.hmac (deriveSymmetricKeys P mk).2
        (p2.write true ++ p3.write true ++ p4.write true ++ p5.write false) ∧
      st' = { st with out := st.out ++ ih.content } := by
  unfold decBody at h
  simp only [bind_eq, run_bind_ok, Prod.exists, run_readPacket_ok, run_failIf_ok, run_wire_ok,
    run_try'_ok] at h
  obtain ⟨p2, r2, s2, ⟨a1, a2, a3, rfl⟩, -, s3, ⟨a4, rfl⟩, p3, r3, s4, ⟨b1, b2, b3, rfl⟩,
    ih, t1, s5, ⟨c1, rfl⟩, -, s6, ⟨c2, rfl⟩, -, s7, ⟨-, d1⟩, p4, r4, s8, ⟨e1, e2, e3, rfl⟩,
    ih2, t2, s9, ⟨f1, rfl⟩, h⟩ := h
  simp only [MemStore.handle] at d1
  obtain ⟨-, v2, w2⟩ := Wire.readOuter_ok a1
  obtain ⟨-, v3, w3⟩ := Wire.readOuter_ok b1
  obtain ⟨-, v4, w4⟩ := Wire.readOuter_ok e1
  have a4' : p2.plen = 16 := by simpa using a4
  split at h
  · rename_i hs
    simp only [run_bind_ok, run_failIf_ok] at h
    obtain ⟨-, s10, ⟨g1, rfl⟩, -, s11, ⟨g2, rfl⟩, h⟩ := h
    split at h
    · cases h
    · rename_i uid hu
      simp only [run_bind_ok, run_failIf_ok, run_orPanic_ok, run_ret, Prod.mk.injEq, Res.ok.injEq,
        Prod.exists, run_readPacket_ok] at h
      obtain ⟨pk, s12, ⟨k1, rfl⟩, -, s13, ⟨k2, rfl⟩, sg, s14, ⟨rfl, rfl⟩, p5, r5, s15,
        ⟨l1, l2, l3, rfl⟩, -, s16, ⟨m1, rfl⟩, rfl, rfl⟩ := h
      obtain ⟨-, v5, w5⟩ := Wire.readOuter_ok l1
      refine ⟨p2, p3, p4, p5, ih, ih2, r5, uid, ?_, ⟨v2, v3, v4, v5, a4', a2, b2, e2, l2, a3, b3,
        e3, l3, ⟨t1, c1⟩, ⟨t2, f1⟩, c2, hu, ?_⟩, ?_, d1.symm⟩
      · rw [w2, w3, w4, w5]; simp only [bodyBytes, List.append_assoc]
      · rw [if_pos hs]
        exact ⟨g1, by simpa using g2, pk, k1, by simpa using k2, rfl⟩
      · exact (by simpa using m1 : _ = _).symm
  · rename_i hs
    simp only [run_bind_ok, run_failIf_ok] at h
    obtain ⟨-, s10, ⟨g1, rfl⟩, h⟩ := h
    split at h
    · cases h
    · rename_i uid hu
      simp only [run_bind_ok, run_failIf_ok, run_ret, Prod.mk.injEq, Res.ok.injEq,
        Prod.exists, run_readPacket_ok] at h
      obtain ⟨sg, s14, ⟨rfl, rfl⟩, p5, r5, s15,
        ⟨l1, l2, l3, rfl⟩, -, s16, ⟨m1, rfl⟩, rfl, rfl⟩ := h
      obtain ⟨-, v5, w5⟩ := Wire.readOuter_ok l1
      refine ⟨p2, p3, p4, p5, ih, ih2, r5, uid, ?_, ⟨v2, v3, v4, v5, a4', a2, b2, e2, l2, a3, b3,
        e3, l3, ⟨t1, c1⟩, ⟨t2, f1⟩, c2, hu, ?_⟩, ?_, d1.symm⟩
      · rw [w2, w3, w4, w5]; simp only [bodyBytes, List.append_assoc]
      · rw [if_neg hs]
        exact ⟨g1, rfl⟩
      · exact (by simpa using m1 : _ = _).symm

theorem write_true (oh : Outer) : oh.write true = oh.write false ++ oh.inner := by
  simp [Outer.write]

theorem run_readPacket {σ : Type} (h : {β : Type} → Req β → σ → β × σ) (oh : Outer) (t : UInt8)
    (e : Err) (c : UInt32) (rest : Bytes) (s : σ) (ht : oh.type = t) (hc : oh.count = c)
    (hok : Wire.outerTypeOk t = true) (hl : oh.plen.toNat = oh.inner.length) :
    run h (readPacket (oh.write true ++ rest) t e c) s = (.ok (oh, rest), s) :=
  (run_readPacket_ok h).mpr ⟨Wire.readOuter_write oh (by rw [ht]; exact hok) hl rest, ht, hc, rfl⟩

/-- What `decBody` does on packets that pass all checks before the HMAC: it
writes the content and then decides on the HMAC. -/
theorem decBody_run {P : Prims} {mk : Bytes} {suid : Str} {p2 p3 p4 p5 : Outer} {ih ih2 : Inner}
    {uid : UID} {sig : Str} (H : BodyOK P mk suid p2 p3 p4 p5 ih ih2 uid sig) (rest : Bytes)
    (st : MemStore) :
    (decBody P mk suid (bodyBytes p2 p3 p4 p5 ++ rest)).run (MemStore.handle P) st =
      (if P.hmac (deriveSymmetricKeys P mk).2
          (p2.write true ++ p3.write true ++ p4.write true ++ p5.write false) = p5.inner
        then .ok sig else .err .hmacsDiffer, { st with out := st.out ++ ih.content }) := by
  obtain ⟨t1, c1⟩ := H.inner1
  obtain ⟨t2, f1⟩ := H.inner2
  have hs := H.sig_ok
  unfold decBody bodyBytes
  simp only [bind_eq, List.append_assoc]
  rw [run_bind_of_ok _ (run_readPacket _ p2 _ _ _ _ st H.type2 H.count2 rfl H.len2)]
  simp only [H.plen2, failIf, ne_eq, not_true_eq_false, decide_false,
    Bool.false_eq_true, if_false, ret_bind]
  rw [run_bind_of_ok _ (run_readPacket _ p3 _ _ _ _ st H.type3 H.count3 rfl H.len3)]
  simp only [c1, Prog.wire, ret_bind, H.data, Bool.false_eq_true, if_false]
  rw [run_bind_of_ok _ (run_try' _ _ st)]
  simp only [MemStore.handle]
  rw [run_bind_of_ok _ (run_readPacket _ p4 _ _ _ _ _ H.type4 H.count4 rfl H.len4)]
  simp only [f1, ret_bind]
  split
  · rename_i hsig
    rw [if_pos hsig] at hs
    obtain ⟨g1, g2, pk, k1, k2, rfl⟩ := hs
    simp only [g1, g2, H.uid_eq, k1, k2, orPanic, Bool.false_eq_true, if_false, ret_bind,
      not_true_eq_false, decide_false, Bool.not_true]
    rw [run_bind_of_ok _ (run_readPacket _ p5 _ _ _ _ _ H.type5 H.count5 rfl H.len5)]
    split <;> simp_all
  · rename_i hsig
    rw [if_neg hsig] at hs
    obtain ⟨g1, rfl⟩ := hs
    simp only [g1, H.uid_eq, Bool.false_eq_true, if_false, ret_bind]
    rw [run_bind_of_ok _ (run_readPacket _ p5 _ _ _ _ _ H.type5 H.count5 rfl H.len5)]
    split <;> simp_all

end Verif.Msg
