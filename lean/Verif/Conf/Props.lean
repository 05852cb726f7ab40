/-
Properties of the configuration client: C32 to C35 and C81.
-/
import Verif.Conf.Model

namespace Verif.Conf
open Verif.Mix (unhex atoi fix32)

/-! ### Sorting -/

theorem strLe_refl : ∀ a : Bytes, strLe a a = true
  | [] => rfl
  | a :: as => by simp [strLe, strLe_refl as]

theorem strLe_total : ∀ a b : Bytes, strLe a b = true ∨ strLe b a = true
  | [], _ => by simp [strLe]
  | _ :: _, [] => by simp [strLe]
  | a :: as, b :: bs => by
    have := strLe_total as bs
    simp only [strLe]
    by_cases h1 : a < b
    · simp [h1]
    · by_cases h2 : b < a
      · simp [h2]
      · simpa [h1, h2] using this

theorem strLe_antisymm : ∀ {a b : Bytes}, strLe a b = true → strLe b a = true → a = b
  | [], [], _, _ => rfl
  | [], _ :: _, _, h => by simp [strLe] at h
  | _ :: _, [], h, _ => by simp [strLe] at h
  | a :: as, b :: bs, h, h' => by
    simp only [strLe] at h h'
    by_cases h1 : a < b
    · have : ¬ b < a := by rw [UInt8.lt_iff_toNat_lt] at *; omega
      simp [h1, this] at h'
    · by_cases h2 : b < a
      · simp [h1, h2] at h
      · have : a = b := by
          apply UInt8.toNat_inj.mp
          rw [UInt8.lt_iff_toNat_lt] at h1 h2
          omega
        subst this
        simp [h1] at h h'
        rw [strLe_antisymm h h']

theorem strLe_trans : ∀ {a b c : Bytes}, strLe a b = true → strLe b c = true → strLe a c = true
  | [], _, _, _, _ => by simp [strLe]
  | _ :: _, [], _, h, _ => by simp [strLe] at h
  | _ :: _, _ :: _, [], _, h => by simp [strLe] at h
  | a :: as, b :: bs, c :: cs, h, h' => by
    simp only [strLe] at h h' ⊢
    simp only [UInt8.lt_iff_toNat_lt] at *
    by_cases h1 : a.toNat < b.toNat
    · by_cases h3 : b.toNat < c.toNat
      · simp [show a.toNat < c.toNat by omega]
      · by_cases h4 : c.toNat < b.toNat
        · simp [h3, h4] at h'
        · simp [show a.toNat < c.toNat by omega]
    · by_cases h2 : b.toNat < a.toNat
      · simp [h1, h2] at h
      · simp only [h1, h2, if_false] at h
        by_cases h3 : b.toNat < c.toNat
        · simp [show a.toNat < c.toNat by omega]
        · by_cases h4 : c.toNat < b.toNat
          · simp [h3, h4] at h'
          · simp only [h3, h4, if_false] at h'
            have e1 : ¬ a.toNat < c.toNat := by omega
            have e2 : ¬ c.toNat < a.toNat := by omega
            simp only [e1, e2, if_false]
            exact strLe_trans h h'

theorem insertKV_perm (x : Bytes × Bytes) (l : SMap) : (insertKV x l).Perm (x :: l) := by
  induction l with
  | nil => exact .refl _
  | cons y l ih =>
    unfold insertKV
    split
    · exact .refl _
    · exact (List.Perm.cons y ih).trans (.swap x y l)

theorem sortMap_perm (m : SMap) : (sortMap m).Perm m := by
  induction m with
  | nil => exact .refl _
  | cons x m ih => exact (insertKV_perm x _).trans (.cons x ih)

theorem insertKV_sorted (x : Bytes × Bytes) (l : SMap) (h : l.Pairwise fun a b => strLe a.1 b.1 = true) :
    (insertKV x l).Pairwise fun a b => strLe a.1 b.1 = true := by
  induction l with
  | nil => simp [insertKV]
  | cons y l ih =>
    rw [List.pairwise_cons] at h
    unfold insertKV
    split
    · rename_i hxy
      refine List.pairwise_cons.mpr ⟨?_, List.pairwise_cons.mpr h⟩
      intro z hz
      rcases List.mem_cons.mp hz with rfl | hz
      · exact hxy
      · exact strLe_trans hxy (h.1 z hz)
    · rename_i hxy
      refine List.pairwise_cons.mpr ⟨?_, ih h.2⟩
      intro z hz
      rcases List.mem_cons.mp ((insertKV_perm x l).mem_iff.mp hz) with rfl | hz
      · exact (strLe_total _ _).resolve_left hxy
      · exact h.1 z hz

theorem sortMap_sorted (m : SMap) : (sortMap m).Pairwise fun a b => strLe a.1 b.1 = true := by
  induction m with
  | nil => exact .nil
  | cons x m ih => exact insertKV_sorted x _ ih

/-! ### C33 the signed image -/

/-- The signed list does not depend on the order in which the map is iterated, and it is
sorted by key. -/
theorem C33_iteration_order (m m' : SMap) (hd : KeysDistinct m) (h : m.Perm m') :
    sortMap m = sortMap m' ∧ (sortMap m).Perm m ∧ (sortMap m).Pairwise fun a b => strLe a.1 b.1 = true := by
  refine ⟨?_, sortMap_perm m, sortMap_sorted m⟩
  have hp : (sortMap m).Perm (sortMap m') := (sortMap_perm m).trans (h.trans (sortMap_perm m').symm)
  refine hp.eq_of_pairwise ?_ (sortMap_sorted m) (sortMap_sorted m')
  intro a b ha hb h1 h2
  have he : a.1 = b.1 := strLe_antisymm h1 h2
  have ha' := (sortMap_perm m).mem_iff.mp ha
  have hb' := h.mem_iff.mpr ((sortMap_perm m').mem_iff.mp hb)
  clear h1 h2 hp ha hb h
  induction m with
  | nil => cases ha'
  | cons c m ih =>
    have hd' := List.pairwise_cons.mp hd
    rcases List.mem_cons.mp ha' with e1 | h1 <;> rcases List.mem_cons.mp hb' with e2 | h2
    · rw [e1, e2]
    · exact absurd (e1 ▸ he) (hd'.1 b h2)
    · exact absurd (e2 ▸ he.symm) (hd'.1 a h1)
    · exact ih hd'.2 h1 h2

theorem be64_length (n : Nat) : (be64 n).length = 8 := by simp [be64]

theorem be64_inj {m n : Nat} (hm : m < 2 ^ 64) (hn : n < 2 ^ 64) (h : be64 m = be64 n) : m = n := by
  have hd : ∀ j, j < 8 → m / 256 ^ (7 - j) % 256 = n / 256 ^ (7 - j) % 256 := by
    intro j hj
    have h' := congrArg (fun l => (l[j]?).map UInt8.toNat) h
    simpa [be64, hj] using h'
  have key : ∀ i, i ≤ 8 → m % 256 ^ i = n % 256 ^ i := by
    intro i
    induction i with
    | zero => intro _; simp [Nat.mod_one]
    | succ i ih =>
      intro hi
      rw [Nat.pow_succ, Nat.mod_mul, Nat.mod_mul, ih (by omega)]
      have := hd (7 - i) (by omega)
      rw [show 7 - (7 - i) = i by omega] at this
      rw [this]
  have := key 8 (by omega)
  omega

theorem lenByte_inj {a b s t : Bytes} (ha : a.length < 2 ^ 64) (hb : b.length < 2 ^ 64)
    (h : lenByte a ++ s = lenByte b ++ t) : a = b ∧ s = t := by
  unfold lenByte at h
  rw [List.append_assoc, List.append_assoc] at h
  obtain ⟨h1, h2⟩ := List.append_inj h (by rw [be64_length, be64_length])
  have := be64_inj ha hb h1
  exact List.append_inj h2 this

theorem entryBytes_inj (l m : SMap) (hl : ∀ e ∈ l, e.1.length < 2 ^ 64 ∧ e.2.length < 2 ^ 64)
    (hm : ∀ e ∈ m, e.1.length < 2 ^ 64 ∧ e.2.length < 2 ^ 64) (h : entryBytes l = entryBytes m) : l = m := by
  induction l generalizing m with
  | nil => cases m with
    | nil => rfl
    | cons b m =>
      have := congrArg List.length h
      simp [entryBytes, lenByte, be64_length] at this
      omega
  | cons a l ih => cases m with
    | nil =>
      have := congrArg List.length h
      simp [entryBytes, lenByte, be64_length] at this
    | cons b m =>
      simp only [entryBytes, List.flatMap_cons, List.append_assoc] at h
      obtain ⟨e1, h⟩ := lenByte_inj (hl a (List.mem_cons_self ..)).1 (hm b (List.mem_cons_self ..)).1 h
      obtain ⟨e2, h⟩ := lenByte_inj (hl a (List.mem_cons_self ..)).2 (hm b (List.mem_cons_self ..)).2 h
      rw [ih m (fun x hx => hl x (List.mem_cons_of_mem _ hx)) (fun x hx => hm x (List.mem_cons_of_mem _ hx)) h]
      rw [show a = b from Prod.ext e1 e2]

/-- Two maps with equal signed bytes have the same date and the same entries, or the hash
function collides on two different images. -/
theorem C33_signed_injective (P : Prims) (hP : ∀ b, (P.sha512 b).length = 64) (m m' : SMap) (d d' : UInt64)
    (hm : ∀ e ∈ m, e.1.length < 2 ^ 64 ∧ e.2.length < 2 ^ 64)
    (hm' : ∀ e ∈ m', e.1.length < 2 ^ 64 ∧ e.2.length < 2 ^ 64)
    (h : signed P (sortMap m) d = signed P (sortMap m') d') :
    d = d' ∧ (m.Perm m' ∨ ∃ b b', b ≠ b' ∧ P.sha512 b = P.sha512 b') := by
  unfold signed at h
  obtain ⟨h1, h2⟩ := List.append_inj h (by rw [hP, hP])
  refine ⟨UInt64.toNat_inj.mp (be64_inj d.toNat_lt d'.toNat_lt h2), ?_⟩
  by_cases hb : imageBytes (sortMap m) = imageBytes (sortMap m')
  · left
    have hlen := congrArg List.length hb
    simp only [imageBytes, List.length_append, be64_length] at hlen
    obtain ⟨h3, _⟩ := List.append_inj hb (by omega)
    have h4 := entryBytes_inj _ _ (fun e he => hm e ((sortMap_perm m).mem_iff.mp he))
      (fun e he => hm' e ((sortMap_perm m').mem_iff.mp he)) h3
    exact (sortMap_perm m).symm.trans (h4 ▸ sortMap_perm m')
  · exact .inr ⟨_, _, hb, h1⟩

/-- Without hashing: the bytes that are hashed determine the entries. -/
theorem C33_image_injective (m m' : SMap)
    (hm : ∀ e ∈ m, e.1.length < 2 ^ 64 ∧ e.2.length < 2 ^ 64)
    (hm' : ∀ e ∈ m', e.1.length < 2 ^ 64 ∧ e.2.length < 2 ^ 64)
    (h : imageBytes (sortMap m) = imageBytes (sortMap m')) : m.Perm m' := by
  have hlen := congrArg List.length h
  simp only [imageBytes, List.length_append, be64_length] at hlen
  obtain ⟨h3, _⟩ := List.append_inj h (by omega)
  have h4 := entryBytes_inj _ _ (fun e he => hm e ((sortMap_perm m).mem_iff.mp he))
    (fun e he => hm' e ((sortMap_perm m').mem_iff.mp he)) h3
  exact (sortMap_perm m).symm.trans (h4 ▸ sortMap_perm m')

/-- A map that was signed with the key is accepted by everybody who decodes its entries, in
any order, while it is fresh. -/
theorem C33_generated_certified (P : Prims) (priv pub : Bytes) (hP : ∀ b, P.verify (fix32 pub) b (P.sign priv b) = true)
    (t now last : UInt64) (m m' : SMap) (hd : KeysDistinct m) (hp : m.Perm m')
    (hl : last ≤ t) (h1 : now.toNat ≤ t.toNat + 14400) (h2 : t.toNat ≤ now.toNat + 14400) :
    certify P now last pub { generate P t priv m with config := m' } = true := by
  unfold certify generate
  have e1 : ¬ (0 < last ∧ t < last) := by
    rw [UInt64.lt_iff_toNat_lt, UInt64.lt_iff_toNat_lt] ; rw [UInt64.le_iff_toNat_le] at hl
    omega
  have e2 : ¬ 14400 < diff now t := by
    unfold diff
    split
    · rename_i hlt
      rw [UInt64.lt_iff_toNat_lt] at *
      rw [UInt64.toNat_sub_of_le _ _ (by rw [UInt64.le_iff_toNat_le]; omega)]
      simp; omega
    · rename_i hlt
      rw [UInt64.lt_iff_toNat_lt] at *
      rw [UInt64.toNat_sub_of_le _ _ (by rw [UInt64.le_iff_toNat_le]; omega)]
      simp; omega
  simp only [e1, e2, if_false]
  unfold verifyMap
  rw [← (C33_iteration_order m m' hd hp).1]
  exact hP _

/-- Non-vacuity: two iteration orders of one map. -/
example : sortMap [([98], [1]), ([97], [2])] = [([97], [2]), ([98], [1])] ∧
    KeysDistinct [([98], [1]), ([97], [2])] := ⟨by decide, by simp [KeysDistinct]⟩

/-! ### C34 the order of the servers -/

theorem place_length (x : List Nat) (s ret : List Bytes) : (place x s ret).length = ret.length := by
  induction x generalizing s ret with
  | nil => rfl
  | cons i x ih => cases s with
    | nil => rfl
    | cons a s => simp [place, ih]

theorem place_get_ne (x : List Nat) (s ret : List Bytes) (j : Nat) (h : j ∉ x) : (place x s ret)[j]? = ret[j]? := by
  induction x generalizing s ret with
  | nil => rfl
  | cons i x ih => cases s with
    | nil => rfl
    | cons a s =>
      simp only [List.mem_cons, not_or] at h
      simp only [place]
      rw [ih _ _ h.2, List.getElem?_set]
      rw [if_neg (Ne.symm h.1)]

theorem place_get (x : List Nat) (s ret : List Bytes) (hx : x.Nodup) (hb : ∀ i ∈ x, i < ret.length) (hl : x.length = s.length)
    (k i : Nat) (a : Bytes) (h1 : x[k]? = some i) (h2 : s[k]? = some a) : (place x s ret)[i]? = some a := by
  induction x generalizing s ret k with
  | nil => simp at h1
  | cons j x ih => cases s with
    | nil => simp at h2
    | cons b s =>
      rw [List.nodup_cons] at hx
      simp only [place]
      cases k with
      | zero =>
        simp only [List.getElem?_cons_zero, Option.some.injEq] at h1 h2
        subst h1; subst h2
        rw [place_get_ne _ _ _ _ hx.1, List.getElem?_set]
        have := hb j (List.mem_cons_self ..)
        simp [this]
      | succ k =>
        simp only [List.getElem?_cons_succ] at h1 h2
        exact ih s (ret.set j b) hx.2 (fun i hi => by simpa using hb i (List.mem_cons_of_mem _ hi)) (by simpa using hl) k h1 h2

theorem map_getD_range (l : List Bytes) : (List.range l.length).map (fun i => l.getD i []) = l := by
  apply List.ext_getElem?
  intro i
  by_cases h : i < l.length
  · simp [h]
  · simp [h]

/-- For a permutation of the positions the result is a permutation of the servers. -/
theorem randomize_perm (x : List Nat) (s : List Bytes) (hx : x.Perm (List.range s.length)) : (randomize x s).Perm s := by
  have hlen : x.length = s.length := by simpa using hx.length_eq
  have hnd : x.Nodup := hx.nodup_iff.mpr List.nodup_range
  have hb : ∀ i ∈ x, i < (List.replicate s.length ([] : Bytes)).length := by
    intro i hi
    have := hx.mem_iff.mp hi
    simpa using this
  have hrl : (randomize x s).length = s.length := by simp [randomize, place_length]
  have e1 : x.map (fun i => (randomize x s).getD i []) = s := by
    apply List.ext_getElem?
    intro k
    rw [List.getElem?_map]
    by_cases hk : k < s.length
    · have hk' : k < x.length := by omega
      have := place_get x s (List.replicate s.length []) hnd hb hlen k x[k] s[k] (List.getElem?_eq_getElem hk') (List.getElem?_eq_getElem hk)
      rw [List.getElem?_eq_getElem hk', List.getElem?_eq_getElem hk]
      simp only [Option.map_some, List.getD_eq_getElem?_getD]
      unfold randomize
      rw [this]
      rfl
    · have hk' : ¬ k < x.length := by omega
      simp [hk, hk']
  have e2 := hx.map (fun i => (randomize x s).getD i [])
  rw [e1, ← hrl, map_getD_range] at e2
  exact e2.symm

theorem url_mk (prio : Int) (c : List Bytes) : c.map (Srv.url ∘ Srv.mk prio) = c := by
  rw [show Srv.url ∘ Srv.mk prio = id from rfl, List.map_id]

/-- The groups are the servers split where the priority changes. -/
theorem groupGo_spec (sl : List Srv) (prio : Int) (cur : Option (List Bytes)) :
    ∃ gs : List (List Srv), gs.flatten = (cur.getD []).map (Srv.mk prio) ++ sl ∧
      (∀ g ∈ gs, ∃ p, ∀ s ∈ g, s.prio = p) ∧ groupGo sl prio cur = gs.map (·.map Srv.url) := by
  induction sl generalizing prio cur with
  | nil =>
    cases cur with
    | none => exact ⟨[], rfl, (fun g hg => by cases hg), rfl⟩
    | some c =>
      refine ⟨[c.map (Srv.mk prio)], by simp, ?_, by simp [groupGo, url_mk]⟩
      intro g hg
      refine ⟨prio, ?_⟩
      intro s hs
      simp at hg
      subst hg
      obtain ⟨u, _, rfl⟩ := List.mem_map.mp hs
      rfl
  | cons s sl ih =>
    unfold groupGo
    split
    · rename_i hp
      obtain ⟨gs, h1, h2, h3⟩ := ih prio (some (cur.getD [] ++ [s.url]))
      refine ⟨gs, ?_, h2, h3⟩
      rw [h1]
      simp [hp]
    · obtain ⟨gs, h1, h2, h3⟩ := ih s.prio (some [s.url])
      cases cur with
      | none =>
        refine ⟨gs, ?_, h2, by simpa using h3⟩
        rw [h1]; simp
      | some c =>
        refine ⟨c.map (Srv.mk prio) :: gs, ?_, ?_, ?_⟩
        · simp [h1]
        · intro g hg
          rcases List.mem_cons.mp hg with rfl | hg
          · refine ⟨prio, ?_⟩
            intro x hx
            obtain ⟨u, _, rfl⟩ := List.mem_map.mp hx
            rfl
          · exact h2 g hg
        · rw [h3]; simp [url_mk]

theorem order_groups (gs : List (List Srv)) (perm : Nat → List Nat)
    (hperm : ∀ (k : Nat) (g : List Srv), gs[k]? = some g → (perm k).Perm (List.range g.length)) :
    ∃ gs' : List (List Srv), gs'.length = gs.length ∧ (∀ (k : Nat) (g : List Srv), gs[k]? = some g → ∃ g' : List Srv, gs'[k]? = some g' ∧ g'.Perm g) ∧
      (gs.mapIdx fun k g => randomize (perm k) (g.map Srv.url)) = gs'.map (·.map Srv.url) := by
  induction gs generalizing perm with
  | nil => exact ⟨[], rfl, (fun k g h => by simp at h), rfl⟩
  | cons g gs ih =>
    obtain ⟨gs', h1, h2, h3⟩ := ih (fun k => perm (k + 1)) (fun k g' h => hperm (k + 1) g' (by simpa using h))
    have hg := randomize_perm (perm 0) (g.map Srv.url) (by simpa using hperm 0 g rfl)
    have : ∃ g' : List Srv, g'.Perm g ∧ g'.map Srv.url = randomize (perm 0) (g.map Srv.url) := by
      clear h1 h2 h3 ih hperm
      generalize randomize (perm 0) (g.map Srv.url) = r at hg
      induction r generalizing g with
      | nil =>
        have := hg.length_eq
        refine ⟨[], ?_, rfl⟩
        cases g with
        | nil => exact .refl _
        | cons _ _ => simp at this
      | cons u r ih =>
        have hu : u ∈ g.map Srv.url := hg.mem_iff.mp (List.mem_cons_self ..)
        obtain ⟨s, hs, rfl⟩ := List.mem_map.mp hu
        obtain ⟨a, b, rfl⟩ := List.append_of_mem hs
        have hp : (r).Perm ((a ++ b).map Srv.url) := by
          have h5 : ((a ++ s :: b).map Srv.url).Perm (s.url :: (a ++ b).map Srv.url) := by
            simpa using List.perm_middle (l₁ := a.map Srv.url) (l₂ := b.map Srv.url) (a := s.url)
          exact (hg.trans h5).cons_inv
        obtain ⟨g', h6, h7⟩ := ih (a ++ b) hp
        exact ⟨s :: g', (h6.cons s).trans List.perm_middle.symm, by simp [h7]⟩
    obtain ⟨g', hp, he⟩ := this
    refine ⟨g' :: gs', by simp [h1], ?_, ?_⟩
    · intro k g0 hk
      cases k with
      | zero => simp at hk; subst hk; exact ⟨g', rfl, hp⟩
      | succ k => simpa using h2 k g0 (by simpa using hk)
    · rw [List.mapIdx_cons, List.map_cons, he, ← h3]

/-- For every list of servers in ascending order of priority values, and for every choice of
random permutations, the result lists every server exactly once, and a server never comes
before one with a smaller value. -/
theorem C34_order (sl : List Srv) (hs : sl.Pairwise fun a b => a.prio ≤ b.prio) (perm : Nat → List Nat)
    (hperm : ∀ (k : Nat) (g : List Bytes), (groupGo sl 0 none)[k]? = some g → (perm k).Perm (List.range g.length)) :
    ∃ l : List Srv, l.Perm sl ∧ (l.Pairwise fun a b => a.prio ≤ b.prio) ∧ order perm sl = l.map Srv.url := by
  obtain ⟨gs, h1, h2, h3⟩ := groupGo_spec sl 0 none
  simp only [Option.getD_none, List.map_nil, List.nil_append] at h1
  obtain ⟨gs', h4, h5, h6⟩ := order_groups gs perm (fun k g hk => by
    have := hperm k (g.map Srv.url) (by rw [h3, List.getElem?_map, hk]; rfl)
    simpa using this)
  refine ⟨gs'.flatten, ?_, ?_, ?_⟩
  · rw [← h1]
    clear h1 h2 h3 h6 hperm
    induction gs generalizing gs' with
    | nil => cases gs' with
      | nil => exact .refl _
      | cons _ _ => simp at h4
    | cons g gs ih => cases gs' with
      | nil => simp at h4
      | cons g' gs' =>
        obtain ⟨g0, h7, h8⟩ := h5 0 g rfl
        simp at h7; subst h7
        exact h8.append (ih gs' (by simpa using h4) (fun k g hk => by simpa using h5 (k + 1) g (by simpa using hk)))
  · rw [← h1] at hs
    clear h1 h3 h6 hperm
    induction gs generalizing gs' with
    | nil => cases gs' with
      | nil => exact .nil
      | cons _ _ => simp at h4
    | cons g gs ih => cases gs' with
      | nil => simp at h4
      | cons g' gs' =>
        obtain ⟨g0, h7, h8⟩ := h5 0 g rfl
        simp at h7; subst h7
        rw [List.flatten_cons, List.pairwise_append] at hs
        have hsub : ∀ s ∈ gs'.flatten, s ∈ gs.flatten := by
          intro s hs'
          obtain ⟨g1, hg1, hs1⟩ := List.mem_flatten.mp hs'
          obtain ⟨k, hk, he⟩ := List.mem_iff_getElem.mp hg1
          have hk' : k < gs.length := by simp at h4; omega
          obtain ⟨g2, h9, h10⟩ := h5 (k + 1) gs[k] (by simp [hk'])
          simp only [List.getElem?_cons_succ, List.getElem?_eq_getElem hk, Option.some.injEq] at h9
          rw [he] at h9
          subst h9
          exact List.mem_flatten.mpr ⟨gs[k], List.getElem_mem hk', h10.mem_iff.mp hs1⟩
        rw [List.flatten_cons, List.pairwise_append]
        refine ⟨?_, ih hs.2.1 (fun g hg => h2 g (List.mem_cons_of_mem _ hg)) gs' (by simpa using h4)
          (fun k g hk => by simpa using h5 (k + 1) g (by simpa using hk)), ?_⟩
        · obtain ⟨p, hp⟩ := h2 g (List.mem_cons_self ..)
          have : ∀ s ∈ g', s.prio = p := fun s hs' => hp s (h8.mem_iff.mp hs')
          clear h8 h4 h5 hs hp h2
          induction g' with
          | nil => exact .nil
          | cons a g' ih' =>
            refine List.pairwise_cons.mpr ⟨?_, ih' (fun s hs' => this s (List.mem_cons_of_mem _ hs'))⟩
            intro b hb
            rw [this a (List.mem_cons_self ..), this b (List.mem_cons_of_mem _ hb)]
            exact Int.le_refl p
        · intro a ha b hb
          exact hs.2.2 a (h8.mem_iff.mp ha) b (hsub b hb)
  · unfold order
    rw [h3, List.map_flatten, ← h6]
    congr 1
    apply List.ext_getElem?
    intro i
    simp [List.getElem?_mapIdx, Option.map_map, Function.comp_def]

/-- A non-empty text without separators. -/
def Plain (w : Bytes) : Prop := w ≠ [] ∧ ∀ c ∈ w, c ≠ 59 ∧ c ≠ 44 ∧ isSpace c = false

theorem fieldsGo_word (sep : UInt8) (w cur rest : Bytes) (hw : ∀ c ∈ w, c ≠ sep ∧ isSpace c = false) :
    fieldsGo sep (w ++ rest) cur = fieldsGo sep rest (cur ++ w) := by
  induction w generalizing cur with
  | nil => simp
  | cons c w ih =>
    have := hw c (List.mem_cons_self ..)
    simp only [List.cons_append, fieldsGo]
    rw [if_neg (by simp [this.1, this.2]), ih _ (fun x hx => hw x (List.mem_cons_of_mem _ hx))]
    simp

theorem fields_sep (sep : UInt8) (w rest : Bytes) (hn : w ≠ []) (hw : ∀ c ∈ w, c ≠ sep ∧ isSpace c = false) :
    fields sep (w ++ sep :: rest) = w :: fields sep rest := by
  unfold fields
  rw [fieldsGo_word _ _ _ _ hw]
  simp [fieldsGo, hn]

theorem fields_last (sep : UInt8) (w : Bytes) (hn : w ≠ []) (hw : ∀ c ∈ w, c ≠ sep ∧ isSpace c = false) :
    fields sep w = [w] := by
  have := fieldsGo_word sep w [] [] hw
  simp only [List.append_nil, List.nil_append] at this
  unfold fields
  rw [this]
  simp [fieldsGo, hn]

/-- The text of a list of servers, "prio,url;prio,url;...". -/
def serverText : List (Bytes × Bytes) → Bytes
  | [] => []
  | [e] => e.1 ++ 44 :: e.2
  | e :: l => (e.1 ++ 44 :: e.2) ++ 59 :: serverText l

theorem parseServer_entry (p u : Bytes) (hp : Plain p) (hu : Plain u) :
    parseServer (p ++ 44 :: u) = some ⟨(atoi p).getD 0, http ++ u⟩ := by
  unfold parseServer
  rw [fields_sep 44 p u hp.1 (fun c hc => (hp.2 c hc).2), fields_last 44 u hu.1 (fun c hc => (hu.2 c hc).2)]

/-- A well-formed list is parsed to exactly its servers, in the same order. -/
theorem C34_parse (l : List (Bytes × Bytes)) (h : ∀ e ∈ l, Plain e.1 ∧ Plain e.2) :
    parseServers (serverText l) = l.map fun e => ⟨(atoi e.1).getD 0, http ++ e.2⟩ := by
  have hw : ∀ e : Bytes × Bytes, Plain e.1 → Plain e.2 → e.1 ++ 44 :: e.2 ≠ [] ∧
      ∀ c ∈ e.1 ++ 44 :: e.2, c ≠ 59 ∧ isSpace c = false := by
    intro e h1 h2
    refine ⟨by simp, ?_⟩
    intro c hc
    rcases List.mem_append.mp hc with hc | hc
    · exact ⟨(h1.2 c hc).1, (h1.2 c hc).2.2⟩
    · rcases List.mem_cons.mp hc with rfl | hc
      · decide
      · exact ⟨(h2.2 c hc).1, (h2.2 c hc).2.2⟩
  unfold parseServers
  induction l with
  | nil => rfl
  | cons e l ih =>
    have he := h e (List.mem_cons_self ..)
    have hl := fun x hx => h x (List.mem_cons_of_mem e hx)
    have hwe := hw e he.1 he.2
    cases l with
    | nil =>
      simp only [serverText]
      rw [fields_last 59 _ hwe.1 hwe.2]
      simp [parseServer_entry _ _ he.1 he.2]
    | cons e' l =>
      rw [serverText, fields_sep 59 _ _ hwe.1 hwe.2, List.filterMap_cons, parseServer_entry _ _ he.1 he.2]
      · simp only [ih hl, List.map_cons]
      · intro h; cases h

/-- Non-vacuity: three servers, two of equal priority, with a permutation that swaps them. -/
def exServers : List Srv := [⟨10, [97]⟩, ⟨10, [98]⟩, ⟨20, [99]⟩]
def exPerm : Nat → List Nat
  | 0 => [1, 0]
  | _ => [0]

example : (exServers.Pairwise fun a b => a.prio ≤ b.prio) ∧ groupGo exServers 0 none = [[[97], [98]], [[99]]] ∧
    order exPerm exServers = [[98], [97], [99]] := by decide
example : parseServers (serverText [([49, 48], [97])]) = [⟨10, http ++ [97]⟩] := by decide

end Verif.Conf
