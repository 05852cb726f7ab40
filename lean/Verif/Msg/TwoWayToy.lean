import Verif.Msg.TwoWayTalk
import Verif.Msg.ToyCodec
/-
A case that meets the hypotheses of C145.
-/
set_option autoImplicit false
namespace Verif.Msg.Toy
open Two

/-- Keys of 32 bytes. -/
def tkey (i : UInt8) : Bytes := i :: List.replicate 31 (i * 5 + 3)

def aliceT : UID :=
  { identity := [97, 64, 109], pubKey := initDHKey PE (tkey 1), sigKey := sigKeyE, json := [1, 2] }
def bobT : UID :=
  { identity := [98, 64, 109], pubKey := initDHKey PE (tkey 2), sigKey := sigKeyE, json := [3] }

def linkT : Link :=
  { alice := aliceT, bob := bobT, aPriv := tkey 1, bPriv := tkey 2, kPriv := tkey 3, nA := 2, nB := 0 }

def rndT (i : UInt8) (b : Bool) : Rnd :=
  { headerPriv := tkey i, sessPriv := tkey (i + 1), nextPriv := tkey (i + 2),
    nonce := List.replicate 24 i, iv := List.replicate 16 i, newSession := b,
    pad := fun n => List.replicate n 0, hexPad := fun n => List.replicate n 48 }

def roundT (i : UInt8) (c : Bytes) (b n : Bool) : Round :=
  { content := c, sigKey := if b then some sigPub else none, nymAddress := [i],
    lastHash := List.replicate 204 65, rnd := rndT i n, fresh := [] }

def storeTA : MemStore :=
  { MemStore.new with pubs := upd (fun _ => none) bobT.identity (some (initDHKey PE (tkey 3)).public) }
def storeTB : MemStore :=
  { MemStore.new with
    privs := upd (fun _ => none) (keyHash PE (tkey 3)) (some (initDHKey PE (tkey 3))) }

/-- The first user writes, the second tries to write before reading, reads, answers twice; the answers
are read in the wrong order; the first user writes again and that is read twice. -/
def actsT : List Act :=
  [.send true (roundT 10 [104, 105] true false), .send false (roundT 20 [1] false true),
    .deliver true 0 (tkey 30), .send false (roundT 31 [120] true true), .send false (roundT 41 [] false true),
    .deliver false 1 (tkey 51), .deliver false 0 (tkey 52), .send true (roundT 61 [7] true true),
    .deliver true 1 (tkey 71), .deliver true 1 (tkey 72)]

def keysT : List Bytes := linkT.aPriv :: linkT.bPriv :: linkT.kPriv :: draws actsT

theorem keysT_nodup : keysT.Nodup := by decide +kernel
theorem keysT_len : ∀ x ∈ keysT, x.length = 32 := by decide +kernel

theorem map_inj {α β : Type} {f : α → β} {l : List α} (h : (l.map f).Nodup) :
    ∀ x ∈ l, ∀ y ∈ l, f x = f y → x = y := by
  induction l with
  | nil => intro x hx; cases hx
  | cons a l ih =>
    rw [List.map_cons, List.nodup_cons] at h
    intro x hx y hy e
    rcases List.mem_cons.mp hx with hx' | hx' <;> rcases List.mem_cons.mp hy with hy' | hy'
    · rw [hx', hy']
    · exact absurd (by rw [← hx', e]; exact List.mem_map_of_mem hy') h.1
    · exact absurd (by rw [← hy', ← e]; exact List.mem_map_of_mem hx') h.1
    · exact ih h.2 x hx' y hy' e

theorem check_sha {x y : Bytes} (h : PE.sha512 x = PE.sha512 y) : check x = check y := by
  have h : fit 64 (check x ++ x) = fit 64 (check y ++ y) := h
  have e : ∀ z, (fit 64 (check z ++ z)).take 4 = check z := by
    intro z
    unfold fit
    rw [List.take_take, List.append_assoc]
    exact List.take_left' rfl
  rw [← e x, ← e y, h]

theorem b64_inj {x y : Bytes} (h : PE.b64 x = PE.b64 y) : x = y := by
  have := congrArg PE.unb64 h
  rw [PE_good.unb64_b64, PE_good.unb64_b64] at this
  exact Option.some.inj this

theorem keyHash_inj : ∀ x ∈ keysT, ∀ y ∈ keysT, keyHash PE x = keyHash PE y → x = y := by
  intro x hx y hy h
  have := check_sha (b64_inj h)
  exact map_inj (f := fun x => check (PE.dhPub x)) (by decide +kernel) x hx y hy this

/-- The checksum as a number. -/
def sum (h : Nat) (x : Bytes) : Nat := x.foldl (fun h b => (h * 31 + b.toNat) % 4294967296) h

theorem sum_snoc (h : Nat) (x : Bytes) (b : UInt8) :
    sum h (x ++ [b]) = (sum h x * 31 + b.toNat) % 4294967296 := by
  simp [sum, List.foldl_append]

theorem sum_append (h : Nat) (x y : Bytes) : sum h (x ++ y) = sum (sum h x) y := by
  simp [sum, List.foldl_append]

theorem sum_mod (h : Nat) (x : Bytes) :
    sum h x % 4294967296 = (h * 31 ^ x.length + sum 0 x) % 4294967296 := by
  generalize hn : x.length = n
  induction n generalizing x with
  | zero => rw [List.length_eq_zero_iff.mp hn]; simp [sum]
  | succ n ih =>
    obtain ⟨l, b, rfl⟩ : ∃ l b, x = l ++ [b] :=
      ⟨x.dropLast, x.getLast (by intro e; rw [e] at hn; cases hn), (List.dropLast_concat_getLast _).symm⟩
    have := ih l (by simpa using hn)
    rw [sum_snoc, sum_snoc, Nat.pow_succ, ← Nat.mul_assoc]
    omega

theorem sum_lt {h : Nat} (hh : h < 4294967296) (x : Bytes) : sum h x < 4294967296 := by
  unfold sum
  induction x generalizing h with
  | nil => exact hh
  | cons b x ih => exact ih (Nat.mod_lt _ (by omega))

theorem check_sum {x y : Bytes} (h : check x = check y) : sum 7 x = sum 7 y := by
  have hx := sum_lt (h := 7) (by omega) x
  have hy := sum_lt (h := 7) (by omega) y
  have h : [UInt8.ofNat (sum 7 x), UInt8.ofNat (sum 7 x / 256), UInt8.ofNat (sum 7 x / 65536),
      UInt8.ofNat (sum 7 x / 16777216)] = [UInt8.ofNat (sum 7 y), UInt8.ofNat (sum 7 y / 256),
      UInt8.ofNat (sum 7 y / 65536), UInt8.ofNat (sum 7 y / 16777216)] := h
  generalize sum 7 x = n at *
  generalize sum 7 y = m at *
  simp only [List.cons.injEq, and_true] at h
  obtain ⟨h1, h2, h3, h4⟩ := h
  have h1 := congrArg UInt8.toNat h1
  have h2 := congrArg UInt8.toNat h2
  have h3 := congrArg UInt8.toNat h3
  have h4 := congrArg UInt8.toNat h4
  simp only [UInt8.toNat_ofNat'] at h1 h2 h3 h4
  omega

/-- The checksums of the key hashes. -/
def sumsT : List Nat := [399890365, 1991434944, 3595829112, 1233399125, 1561299948, 3586334114, 3070920972,
  1353657156, 2244685051, 2710536446, 223731293, 2583186083, 512043927, 934538098, 3662106215,
  2648193666, 3432353864, 1946111657, 2962448967, 4282052344, 2297349970, 2956934885, 189314826]

theorem sumsT_eq : keysT.map (fun x => sum 0 (keyHash PE x)) = sumsT := by decide +kernel

theorem mem_sumsT {x : Bytes} (hx : x ∈ keysT) : sum 0 (keyHash PE x) ∈ sumsT := by
  rw [← sumsT_eq]; exact List.mem_map_of_mem hx

def pairsT : List (Nat × Nat) := sumsT.flatMap fun x => sumsT.map fun y => (x, y)

theorem mem_pairsT {x y : Nat} (hx : x ∈ sumsT) (hy : y ∈ sumsT) : (x, y) ∈ pairsT :=
  List.mem_flatMap.mpr ⟨x, hx, List.mem_map.mpr ⟨y, hy, rfl⟩⟩

/-- The checksum of the name of a session. -/
def nameOf (c : Nat) (p : Nat × Nat) : Nat :=
  ((c * 3909600513 + p.1) * 3909600513 + p.2) % 4294967296

theorem name_eq (c : Bytes) (x y : Bytes) :
    sum 7 (c ++ (keyHash PE x ++ keyHash PE y)) =
      nameOf (sum 7 c) (sum 0 (keyHash PE x), sum 0 (keyHash PE y)) := by
  have h := sum_lt (h := sum (sum 7 c) (keyHash PE x)) (sum_lt (sum_lt (by omega) _) _) (keyHash PE y)
  have e1 := sum_mod (sum 7 c) (keyHash PE x)
  have e2 := sum_mod (sum (sum 7 c) (keyHash PE x)) (keyHash PE y)
  rw [keyHash_length] at e1 e2
  rw [sum_append, sum_append]
  unfold nameOf
  generalize sum 7 c = n1 at *
  generalize sum n1 (keyHash PE x) = n2 at *
  generalize sum n2 (keyHash PE y) = n3 at *
  generalize sum 0 (keyHash PE x) = n4 at *
  generalize sum 0 (keyHash PE y) = n5 at *
  omega

theorem keySum_inj {x y : Bytes} (hx : x ∈ keysT) (hy : y ∈ keysT)
    (e : sum 0 (keyHash PE x) = sum 0 (keyHash PE y)) : x = y :=
  map_inj (f := fun x => sum 0 (keyHash PE x)) (sumsT_eq ▸ (by decide +kernel : sumsT.Nodup)) x hx y hy e

theorem skey_sum {L : Link} {c : Nat} (hc : sum 7 (keyHash PE L.aPriv ++ keyHash PE L.bPriv) = c)
    {x y x' y' : Bytes} (e : L.skey PE x y = L.skey PE x' y') :
    nameOf c (sum 0 (keyHash PE x), sum 0 (keyHash PE y)) =
      nameOf c (sum 0 (keyHash PE x'), sum 0 (keyHash PE y')) := by
  unfold Link.skey calcKey at e
  have e := b64_inj e
  have e := check_sha e
  have e := check_sum e
  rw [name_eq, name_eq, hc] at e
  exact e

theorem pair_inj {c : Nat} (h : (pairsT.map (nameOf c)).Nodup) {x y x' y' : Nat} (h1 : x ∈ sumsT)
    (h2 : y ∈ sumsT) (h3 : x' ∈ sumsT) (h4 : y' ∈ sumsT) (e : nameOf c (x, y) = nameOf c (x', y')) :
    x = x' ∧ y = y' :=
  Prod.mk.inj (map_inj h _ (mem_pairsT h1 h2) _ (mem_pairsT h3 h4) e)

theorem skey_inj {L : Link} (c : Nat) (hc : sum 7 (keyHash PE L.aPriv ++ keyHash PE L.bPriv) = c)
    (h : (pairsT.map (nameOf c)).Nodup) :
    ∀ x ∈ keysT, ∀ y ∈ keysT, ∀ x' ∈ keysT, ∀ y' ∈ keysT, L.skey PE x y = L.skey PE x' y' →
      x = x' ∧ y = y' := by
  intro x hx y hy x' hx' y' hy' e
  have e := pair_inj h (mem_sumsT hx) (mem_sumsT hy) (mem_sumsT hx') (mem_sumsT hy') (skey_sum hc e)
  exact ⟨keySum_inj hx hx' e.1, keySum_inj hy hy' e.2⟩

theorem keysT_okA : Keys PE linkT keysT :=
  ⟨by simp [keysT], by simp [keysT], keysT_len, keyHash_inj,
    skey_inj 1448341892 (by decide +kernel) (by decide +kernel)⟩
theorem keysT_okB : Keys PE linkT.flip keysT :=
  ⟨by simp [keysT, Link.flip], by simp [keysT, Link.flip], keysT_len, keyHash_inj,
    skey_inj 2011316356 (by decide +kernel) (by decide +kernel)⟩

theorem linkT_ok : linkT.OK PE { uid0 with sigKey := sigKeyE } := ⟨rfl, rfl, rfl, by decide, by decide⟩
theorem linkT_okB : linkT.flip.OK PE { uid0 with sigKey := sigKeyE } := ⟨rfl, rfl, rfl, by decide, by decide⟩

theorem startT : linkT.Start PE storeTA storeTB :=
  ⟨rfl, rfl, fun _ => rfl, fun _ => rfl,
    upd_same (fun _ => none) bobT.identity _, upd_same (fun _ => none) (keyHash PE (tkey 3)) _⟩

theorem settingT : Setting PE linkT { uid0 with sigKey := sigKeyE } { uid0 with sigKey := sigKeyE } keysT
    storeTA storeTB where
  prims := PE_good
  a := linkT_ok
  b := linkT_okB
  keysA := keysT_okA
  keysB := keysT_okB
  parse := emarshal_parse
  start := startT.meet _
  noPub := rfl
  privA := fun x _ ke h => nomatch h
  privB := by
    intro x hx ke h
    have h : upd (fun _ => none) (keyHash PE (tkey 3)) (some (initDHKey PE (tkey 3))) (keyHash PE x) =
      some ke := h
    by_cases e : keyHash PE x = keyHash PE (tkey 3)
    · have := keyHash_inj x hx (tkey 3) (by decide +kernel) e
      subst this
      rw [upd_same] at h
      exact (Option.some.inj h).symm
    · rw [upd_other _ _ e] at h
      cases h
  newA := fun _ _ => rfl
  newB := fun _ _ => rfl

theorem roundT_ok (i : UInt8) (c : Bytes) (b n : Bool) :
    (roundT i c b n).OK PE { uid0 with sigKey := sigKeyE } := by
  refine ⟨⟨List.length_replicate, List.length_replicate, fun _ => List.length_replicate,
    fun _ => List.length_replicate⟩, ?_⟩
  intro k hk
  cases b with
  | false => cases hk
  | true =>
    obtain rfl := Option.some.inj hk
    decide +kernel

theorem roundT_fits {L : Link} (hL : L.OK PE { uid0 with sigKey := sigKeyE })
    (h3 : L.alice.identity.length = 3) (h4 : L.alice.json.length ≤ 2) (i : UInt8) (c : Bytes)
    (hc : c.length ≤ 41691) (b n : Bool) : Fits PE L (roundT i c b n) := by
  refine ⟨List.length_replicate, by omega, by show 1 ≤ 1568; omega, by omega, hc, ?_⟩
  intro s v ss hss
  have key : (ehdr (mkHeader (L.encArgs (roundT i c b n)) (roundT i c b n).rnd ss)).length ≤ 7152 := by
    have hn : (eoke (ss.nextSenderSessionPub.map KeyEntry.public)).length ≤ 143 := by
      rw [hss.next]
      cases v.nx with
      | none => decide
      | some x => simp only [Option.map_some, eoke, List.length_cons, eke_init_length]; omega
    have hs : (eoke (ss.nextRecipientSessionPubSeen.map KeyEntry.public)).length ≤ 143 := by
      rw [hss.seen]
      cases v.sn with
      | none => decide
      | some x =>
        show (eoke (some (initDHKey PE x).public)).length ≤ 143
        simp only [eoke, List.length_cons, eke_init_length]; omega
    have hpad : ∀ k, ((roundT i c b n).rnd.hexPad k).length = k := fun k => List.length_replicate
    have h1 : (L.encArgs (roundT i c b n)).to.pubKey.hash.length = 88 := by
      rw [show (L.encArgs (roundT i c b n)).to.pubKey = (initDHKey PE L.bPriv).public by
        simp only [Link.encArgs, hL.b]]
      exact keyHash_length _
    have h2 : (L.encArgs (roundT i c b n)).from.pubKey.hash.length = 88 := by
      rw [show (L.encArgs (roundT i c b n)).from.pubKey = initDHKey PE L.aPriv from hL.a]
      exact keyHash_length _
    have h3 : (L.encArgs (roundT i c b n)).from.identity.length = 3 := h3
    have h4 : (L.encArgs (roundT i c b n)).from.json.length ≤ 2 := h4
    have h5 : (L.encArgs (roundT i c b n)).nymAddress.length = 1 := rfl
    have h6 : (L.encArgs (roundT i c b n)).lastHash.length = 204 := List.length_replicate
    have h7 : (eke (L.encArgs (roundT i c b n)).from.pubKey.public).length = 142 := by
      rw [show (L.encArgs (roundT i c b n)).from.pubKey = initDHKey PE L.aPriv from hL.a]
      exact eke_init_length _
    have h9 : ss.senderSessionPub.public = (initDHKey PE s.a).public := by rw [hss.own]
    have h10 : ss.recipientTemp.hash.length = 88 := by rw [hss.peer]; exact keyHash_length _
    simp only [mkHeader, ehdr, List.length_append, lp_length, h9, h10,
      eke_init_length, eu64_length, hpad, h1, h2, h3, h5, h6, h7, List.length_cons,
      List.length_nil]
    generalize (eoke (ss.nextSenderSessionPub.map KeyEntry.public)).length = x1 at hn ⊢
    generalize (eoke (ss.nextRecipientSessionPubSeen.map KeyEntry.public)).length = x3 at hs ⊢
    have hq : ∀ q, padLen q ≤ 5685 := padLen_le
    generalize hx : padLen _ = x2
    have := hx ▸ hq _
    omega
  show (emarshal _).length = 7152
  unfold emarshal
  rw [if_pos key, List.length_append, List.length_replicate]
  omega

theorem actsT_ok : ∀ a ∈ actsT,
    a.OK PE linkT { uid0 with sigKey := sigKeyE } { uid0 with sigKey := sigKeyE } := by
  intro a ha
  simp only [actsT, List.mem_cons, List.not_mem_nil, or_false] at ha
  rcases ha with rfl | rfl | rfl | rfl | rfl | rfl | rfl | rfl | rfl | rfl <;>
    first
    | exact trivial
    | exact ⟨roundT_ok _ _ _ _, roundT_fits linkT_ok rfl (by decide) _ _ (by decide) _ _⟩
    | exact ⟨roundT_ok _ _ _ _, roundT_fits linkT_okB rfl (by decide) _ _ (by decide) _ _⟩

/-- The conversation meets all hypotheses of C145. -/
example : Agree PE linkT ⟨[], [], [], [], false⟩ actsT (talk PE linkT ⟨storeTA, storeTB, [], []⟩ actsT) :=
  C145_conversation_partial actsT settingT keysT_nodup actsT_ok (by decide)

end Verif.Msg.Toy
