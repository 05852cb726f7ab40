/-
Which tokens the wallet store reads, hands out, counts and renews: C36, C86, C105.
-/
import Verif.Guard.Locks

namespace Verif.Guard.Store
open Verif.Util
open Verif.Mix (unhex)

/-! ### C36 reading -/

theorem row_held {db : Db} {hash : Bytes} {id : Int} (h : HeldIn db hash id) : ∃ r, db.row (hex hash) = some r ∧ r.lockID = id := by
  obtain ⟨r, hr, hh⟩ := h.2
  cases hx : db.row (hex hash) with
  | none =>
    have := List.find?_eq_none.mp hx r hr
    simp [hh] at this
  | some x =>
    have h1 : (x.g.hash == hex hash) = true := List.find?_some (p := fun r : Row => r.g.hash == hex hash) hx
    exact ⟨x, rfl, h.1 x (List.mem_of_find?_eq_some hx) (eq_of_beq h1)⟩

/-- C36: a token that somebody holds is refused to exactly those who ask with another lock; callers
who ask with a negative lock are not checked. -/
theorem C36_read_held (db : Db) (hash : Bytes) (id : Int) (hid : id ≠ 0) (h : HeldIn db hash id) (l : Int) :
    db.getToken hash l = .err .locked ↔ 0 ≤ l ∧ l ≠ id := by
  obtain ⟨r, hr, hl⟩ := row_held h
  unfold Db.getToken
  rw [hr]
  simp only [hl]
  by_cases hc : l ≥ 0 ∧ id ≠ 0 ∧ id ≠ l
  · rw [if_pos hc]
    simp only [true_iff]
    exact ⟨hc.1, fun e => hc.2.2 e.symm⟩
  · rw [if_neg hc]
    constructor
    · intro h
      split at h
      · cases h
      · split at h <;> cases h
    · intro h
      exact absurd ⟨h.1, hid, fun e => h.2 e.symm⟩ hc

/-- C36: a token that nobody holds is refused to nobody. -/
theorem C36_read_free (db : Db) (hash : Bytes) (h : HeldIn db hash 0) (l : Int) : db.getToken hash l ≠ .err .locked := by
  obtain ⟨r, hr, hl⟩ := row_held h
  unfold Db.getToken
  rw [hr]
  simp only [hl]
  rw [if_neg (by simp)]
  intro h
  split at h
  · cases h
  · split at h <;> cases h

/-- Non-vacuity: a token that is held, and then free. -/
example : HeldIn (exDb.lock [1, 2] 7 50).1 [1, 2] 7 ∧ HeldIn exDb [1, 2] 0 := by
  unfold HeldIn Held
  decide +kernel

/-! ### C86 handing out -/

theorem lock_held' {db : Db} {hash : Bytes} {id now : Int} {r : Row} (hr : r ∈ db.tokens) (hh : r.g.hash = hex hash) (hl : r.lockID = 0)
    (hw : Wf db) : HeldIn (db.lock hash id now).1 hash id ∧ (db.lock hash id now).2 = id := by
  have hm : lockMatches hash id r = true := by simp [lockMatches, hh, hl]
  unfold Db.lock
  rw [if_pos (List.any_eq_true.mpr ⟨r, hr, hm⟩)]
  refine ⟨⟨?_, ?_⟩, rfl⟩
  · intro x hx hxh
    obtain ⟨x0, h0, h1⟩ := List.mem_map.mp hx
    by_cases hm0 : lockMatches hash id x0 = true
    · rw [if_pos hm0] at h1; rw [← h1]
    · rw [if_neg hm0] at h1
      rw [← h1] at hxh
      rw [hw.inj h0 hr (hxh.trans hh.symm)] at hm0
      exact absurd hm hm0
  · refine ⟨_, List.mem_map_of_mem hr, ?_⟩
    rw [if_pos hm]
    exact hh

/-- C86: a token that is handed out is one that may be spent, and is locked afterwards with the
positive ID of one of the attempts, whatever IDs were drawn. -/
theorem C86_locked (db : Db) (hw : Wf db) (u : Bytes) (o : Option Bytes) (now : Int) (n : Nat) (ids : Nat → Int) (d : Db) (e : Entry)
    (h : db.getAndLock u o now n ids = (d, .ok e)) : ∃ k, k < n ∧ 0 < ids k ∧ HeldIn d e.hash (ids k) ∧
      ∃ r ∈ d.tokens, r.g.hash = hex e.hash ∧ Spendable u o { r with lockID := 0 } := by
  induction n generalizing db with
  | zero => cases h
  | succ n ih =>
    unfold Db.getAndLock at h
    split at h
    · rename_i db' hh
      have h2 := getAndLock1_hashes db u o (ids n) now
      rw [hh] at h2
      obtain ⟨k, hk, h3⟩ := ih db' (hw.of_hashes h2) h
      exact ⟨k, by omega, h3⟩
    · unfold Db.getAndLock1 at h
      cases hm : minExpire (db.tokens.filter (usable u o)) with
      | none => rw [hm] at h; cases h
      | some r =>
        rw [hm] at h
        simp only at h
        obtain ⟨h3, -⟩ := minExpire_some hm
        obtain ⟨hr, hu⟩ := List.mem_filter.mp h3
        have hu := (usable_iff u o r).mp hu
        obtain ⟨hash, hh⟩ := hw.isHex r hr
        rw [hh, unhex_hex] at h
        simp only at h
        obtain ⟨h4, h5⟩ := lock_held' (id := ids n) (now := now) hr hh hu.free hw
        rw [h5] at h
        split at h
        · cases h
        · rename_i hpos
          obtain ⟨rfl, h6⟩ := Prod.mk.inj h
          have he : e.hash = hash := getToken_hash h6
          rw [he]
          refine ⟨n, by omega, by omega, h4, { r with lockID := ids n, lockTime := now }, ?_, hh, ?_⟩
          · have hlm : lockMatches hash (ids n) r = true := by simp [lockMatches, hh, hu.free]
            unfold Db.lock
            rw [if_pos (List.any_eq_true.mpr ⟨r, hr, hlm⟩)]
            exact List.mem_map.mpr ⟨r, hr, by rw [if_pos hlm]⟩
          · exact ⟨rfl, hu.notInReissue, hu.foreign, hu.usage, hu.owner⟩

/-- Non-vacuity: also with an ID that is no lock in the first attempts. -/
example : ∃ d e, exDb.getAndLock [117] none 50 3 (fun k => if k = 0 then 7 else 0) = (d, .ok e) ∧ e.hash = [1, 2] := by
  refine ⟨(exDb.lock [1, 2] 7 50).1,
    ⟨[1, 2], [3], none, some (List.replicate 32 5), none, true, true, [117], 100, none, none, none, none⟩, ?_, rfl⟩
  decide +kernel

/-- A token of the wallet's own: nobody holds it, it is not in reissue, its private key is in the
wallet, and it has the usage. -/
structure Own (u : Bytes) (r : Row) : Prop where
  free : r.lockID = 0
  notInReissue : r.g.hasState = false
  own : r.g.ownedSelf = true
  usage : r.g.usage = u

theorem usableSelf_iff (u : Bytes) (r : Row) : usableSelf u r = true ↔ Own u r := by
  unfold usableSelf
  simp only [Bool.and_eq_true, beq_iff_eq, Bool.not_eq_true']
  exact ⟨fun ⟨⟨⟨h1, h2⟩, h3⟩, h4⟩ => ⟨h1, h2, h3, h4⟩, fun ⟨h1, h2, h3, h4⟩ => ⟨⟨⟨h1, h2⟩, h3⟩, h4⟩⟩

/-- C86: with an own token of the usage in the balance, the one that expires first is found; without,
there is none. Nothing is locked. -/
theorem C86_find (db : Db) (hw : Wf db) (u : Bytes) :
    (db.balanceOwn u = 0 → db.findToken u = .err .noToken) ∧
    (db.balanceOwn u > 0 → ∃ r ∈ db.tokens, Own u r ∧ (∀ x ∈ db.tokens, Own u x → r.g.expire ≤ x.g.expire) ∧
      ∃ hash, r.g.hash = hex hash ∧ db.findToken u = db.getToken hash (-1)) := by
  unfold Db.balanceOwn Db.findToken
  refine ⟨fun h => ?_, fun h => ?_⟩
  · rw [List.length_eq_zero_iff.mp h]
    rfl
  · cases hm : minExpire (db.tokens.filter (usableSelf u)) with
    | none =>
      rw [minExpire_none] at hm
      rw [hm] at h
      cases h
    | some r =>
      obtain ⟨h3, h4⟩ := minExpire_some hm
      obtain ⟨hr, hu⟩ := List.mem_filter.mp h3
      obtain ⟨hash, hh⟩ := hw.isHex r hr
      refine ⟨r, hr, (usableSelf_iff u r).mp hu, fun x hx hux => h4 x (List.mem_filter.mpr ⟨hx, (usableSelf_iff u x).mpr hux⟩), hash, hh, ?_⟩
      simp only [hh, unhex_hex]

/-! ### C86 counting -/

/-- C86: a new token counts in exactly one balance, unless it is in reissue: in that of its usage and
of its owner if the wallet has no private key for it, otherwise in the own one of its usage. -/
theorem C86_added (db d : Db) (e : Entry) (pub : Bytes) (hp : e.ownerPub = some pub) (hn : ∀ r ∈ db.tokens, r.g.hash ≠ hex e.hash)
    (h : db.setToken e = .ok d) (u : Bytes) (o : Option Bytes) :
    (d.balance u o = db.balance u o + if e.ownerPriv = none ∧ e.usage = u ∧ (∀ p, o = some p → p = pub) ∧
      e.serverPacket = none ∧ e.blinding = none ∧ e.newOwnerPriv = none then 1 else 0) ∧
    (d.balanceOwn u = db.balanceOwn u + if e.ownerPriv ≠ none ∧ e.usage = u ∧
      e.serverPacket = none ∧ e.blinding = none ∧ e.newOwnerPriv = none then 1 else 0) := by
  have ht : d.tokens = db.tokens ++ [⟨0, 0, ⟨hex e.hash, Base64.encode e.token, Base64.encode pub, Base64.encode (e.ownerPriv.getD []),
      e.renewable, e.canReissue, e.usage, e.expire, e.ownerPriv.isSome, e.params.isSome, e.hasState⟩⟩] := by
    unfold Db.setToken encodeToken at h
    rw [hp] at h
    simp only [Res.ok.injEq] at h
    have hset : ∀ g : Global, g.hash = hex e.hash → (db.setRow g).tokens = db.tokens ++ [⟨0, 0, g⟩] := by
      intro g hg
      unfold Db.setRow
      rw [if_neg]
      intro ha
      obtain ⟨r, hr, hrg⟩ := List.any_eq_true.mp ha
      exact hn r hr (by rw [eq_of_beq hrg, hg])
    rw [← h]
    generalize (if (e.hasState || e.params.isSome) = true then Base64.encode (stateBytes e) else []) = st
    by_cases hl : st.length > 0
    · rw [if_pos hl, setState_tokens]; exact hset _ rfl
    · rw [if_neg hl]; exact hset _ rfl
  have hst : e.hasState = false ↔ e.serverPacket = none ∧ e.blinding = none ∧ e.newOwnerPriv = none := by
    unfold Entry.hasState
    cases e.serverPacket <;> cases e.blinding <;> cases e.newOwnerPriv <;> simp
  refine ⟨?_, ?_⟩
  · unfold Db.balance
    rw [ht, List.filter_append, List.length_append]
    congr 1
    rw [List.filter_cons]
    have hi := usable_iff u o ⟨0, 0, ⟨hex e.hash, Base64.encode e.token, Base64.encode pub, Base64.encode (e.ownerPriv.getD []),
      e.renewable, e.canReissue, e.usage, e.expire, e.ownerPriv.isSome, e.params.isSome, e.hasState⟩⟩
    by_cases hc : e.ownerPriv = none ∧ e.usage = u ∧ (∀ p, o = some p → p = pub) ∧
      e.serverPacket = none ∧ e.blinding = none ∧ e.newOwnerPriv = none
    · obtain ⟨h1, h2, h3, h4⟩ := hc
      rw [if_pos (hi.mpr ⟨rfl, hst.mpr h4, by rw [h1]; rfl, h2, fun p hpo => by rw [h3 p hpo]⟩), if_pos ⟨h1, h2, h3, h4⟩]
      rfl
    · rw [if_neg hc, if_neg]
      · rfl
      · intro hu
        have hs := hi.mp hu
        exact hc ⟨Option.not_isSome_iff_eq_none.mp (by have := hs.foreign; simp only at this; rw [this]; decide), hs.usage,
          fun p hpo => (Base64.encode_injective (hs.owner p hpo)).symm, hst.mp hs.notInReissue⟩
  · unfold Db.balanceOwn
    rw [ht, List.filter_append, List.length_append]
    congr 1
    rw [List.filter_cons]
    have hi := usableSelf_iff u ⟨0, 0, ⟨hex e.hash, Base64.encode e.token, Base64.encode pub, Base64.encode (e.ownerPriv.getD []),
      e.renewable, e.canReissue, e.usage, e.expire, e.ownerPriv.isSome, e.params.isSome, e.hasState⟩⟩
    by_cases hc : e.ownerPriv ≠ none ∧ e.usage = u ∧ e.serverPacket = none ∧ e.blinding = none ∧ e.newOwnerPriv = none
    · obtain ⟨h1, h2, h4⟩ := hc
      rw [if_pos (hi.mpr ⟨rfl, hst.mpr h4, Option.isSome_iff_ne_none.mpr h1, h2⟩), if_pos ⟨h1, h2, h4⟩]
      rfl
    · rw [if_neg hc, if_neg]
      · rfl
      · intro hu
        have hs := hi.mp hu
        exact hc ⟨Option.isSome_iff_ne_none.mp hs.own, hs.usage, hst.mp hs.notInReissue⟩

/-- Non-vacuity: an own and a foreign token. -/
example : exDb.balance [117] (some (List.replicate 32 5)) = 1 ∧ exDb.balance [117] (some (List.replicate 32 6)) = 0 ∧
    exDb.balanceOwn [117] = 0 ∧
    (run exDb [.set ⟨[9], [3], none, some (List.replicate 32 5), some (List.replicate 64 1), true, true, [117], 90, none, none, none, none⟩]).balanceOwn [117] = 1 := by
  decide +kernel

/-! ### C105 renewal -/

/-- A token to be renewed at time `now`: nobody holds it, it is renewable and the wallet's own, no
renewal has begun, and it expires in less than a week. -/
structure Due (now : Int) (r : Row) : Prop where
  free : r.lockID = 0
  renewable : r.g.renewable = true
  own : r.g.ownedSelf = true
  notInReissue : r.g.hasState = false
  noParams : r.g.hasParams = false
  soon : r.g.expire < now + 7 * 24 * 3600

/-- A token whose reissue has begun and that nobody holds. -/
structure Begun (r : Row) : Prop where
  free : r.lockID = 0
  inReissue : r.g.hasState = true

theorem pick {db : Db} (hw : Wf db) (f : Row → Bool) (h : Bytes) :
    (minExpire (db.tokens.filter f)).bind (fun r => unhex r.g.hash) = some h →
      ∃ r ∈ db.tokens, r.g.hash = hex h ∧ f r = true ∧ ∀ x ∈ db.tokens, f x = true → r.g.expire ≤ x.g.expire := by
  intro hp
  cases hm : minExpire (db.tokens.filter f) with
  | none => rw [hm] at hp; cases hp
  | some r =>
    rw [hm] at hp
    obtain ⟨h3, h4⟩ := minExpire_some hm
    obtain ⟨hr, hu⟩ := List.mem_filter.mp h3
    obtain ⟨hash, hh⟩ := hw.isHex r hr
    simp only [Option.bind_some, hh, unhex_hex, Option.some.injEq] at hp
    exact ⟨r, hr, by rw [hh, hp], hu, fun x hx hux => h4 x (List.mem_filter.mpr ⟨hx, hux⟩)⟩

theorem pick_none {db : Db} (hw : Wf db) (f : Row → Bool) :
    (minExpire (db.tokens.filter f)).bind (fun r => unhex r.g.hash) = none ↔ ∀ r ∈ db.tokens, f r ≠ true := by
  cases hm : minExpire (db.tokens.filter f) with
  | none =>
    rw [minExpire_none] at hm
    simp only [Option.bind_none, true_iff]
    intro r hr hf
    have : r ∈ db.tokens.filter f := List.mem_filter.mpr ⟨hr, hf⟩
    rw [hm] at this
    cases this
  | some r =>
    obtain ⟨h3, h4⟩ := minExpire_some hm
    obtain ⟨hr, hu⟩ := List.mem_filter.mp h3
    obtain ⟨hash, hh⟩ := hw.isHex r hr
    simp only [Option.bind_some, hh, unhex_hex, reduceCtorEq, false_iff]
    intro h
    exact h r hr hu

theorem due_iff (now : Int) (r : Row) : (r.lockID == 0 && r.g.renewable && !r.g.hasState && !r.g.hasParams && r.g.ownedSelf &&
    decide (r.g.expire < now + expireEdge)) = true ↔ Due now r := by
  simp only [Bool.and_eq_true, beq_iff_eq, Bool.not_eq_true']
  have he : decide (r.g.expire < now + expireEdge) = true ↔ r.g.expire < now + 7 * 24 * 3600 := by
    rw [decide_eq_true_eq]; unfold expireEdge; omega
  exact ⟨fun ⟨⟨⟨⟨⟨h1, h2⟩, h3⟩, h4⟩, h5⟩, h6⟩ => ⟨h1, h2, h5, h3, h4, he.mp h6⟩,
    fun ⟨h1, h2, h5, h3, h4, h6⟩ => ⟨⟨⟨⟨⟨h1, h2⟩, h3⟩, h4⟩, h5⟩, he.mpr h6⟩⟩

/-- C105: the token to be renewed next is, of those due, one that expires first; there is none only
if no token is due. -/
theorem C105_renewed (db : Db) (hw : Wf db) (now : Int) :
    (∀ h, db.getExpire now = some h → ∃ r ∈ db.tokens, r.g.hash = hex h ∧ Due now r ∧
      ∀ x ∈ db.tokens, Due now x → r.g.expire ≤ x.g.expire) ∧
    (db.getExpire now = none ↔ ∀ r ∈ db.tokens, ¬Due now r) := by
  unfold Db.getExpire
  refine ⟨fun h hp => ?_, ?_⟩
  · obtain ⟨r, hr, hh, hd, hm⟩ := pick hw _ h hp
    exact ⟨r, hr, hh, (due_iff now r).mp hd, fun x hx hx' => hm x hx ((due_iff now x).mpr hx')⟩
  · rw [pick_none hw]
    exact ⟨fun h r hr hd => h r hr ((due_iff now r).mpr hd), fun h r hr hd => h r hr ((due_iff now r).mp hd)⟩

/-- C105: the same for a reissue to be continued. -/
theorem C105_continued (db : Db) (hw : Wf db) :
    (∀ h, db.getInReissue = some h → ∃ r ∈ db.tokens, r.g.hash = hex h ∧ Begun r ∧
      ∀ x ∈ db.tokens, Begun x → r.g.expire ≤ x.g.expire) ∧
    (db.getInReissue = none ↔ ∀ r ∈ db.tokens, ¬Begun r) := by
  have hi : ∀ r : Row, (r.lockID == 0 && r.g.hasState) = true ↔ Begun r := fun r => by
    simp only [Bool.and_eq_true, beq_iff_eq]
    exact ⟨fun ⟨h1, h2⟩ => ⟨h1, h2⟩, fun ⟨h1, h2⟩ => ⟨h1, h2⟩⟩
  unfold Db.getInReissue
  refine ⟨fun h hp => ?_, ?_⟩
  · obtain ⟨r, hr, hh, hd, hm⟩ := pick hw _ h hp
    exact ⟨r, hr, hh, (hi r).mp hd, fun x hx hx' => hm x hx ((hi x).mpr hx')⟩
  · rw [pick_none hw]
    exact ⟨fun h r hr hd => h r hr ((hi r).mpr hd), fun h r hr hd => h r hr ((hi r).mp hd)⟩

/-- A token whose parameters were fetched, and whose packet was not made: a crash or an error in
between leaves it. -/
structure HalfWay (r : Row) : Prop where
  params : r.g.hasParams = true
  noState : r.g.hasState = false

/-- C105 is violated: a renewal that stopped after the parameters were fetched is neither continued
nor begun again: neither query ever returns the token. -/
theorem C105_half_way_violated (db : Db) (hw : Wf db) (r : Row) (hr : r ∈ db.tokens) (h : HalfWay r) (hash : Bytes) (hh : r.g.hash = hex hash)
    (now : Int) : db.getExpire now ≠ some hash ∧ db.getInReissue ≠ some hash := by
  refine ⟨fun hp => ?_, fun hp => ?_⟩
  · obtain ⟨x, hx, hxh, hd, -⟩ := (C105_renewed db hw now).1 hash hp
    rw [hw.inj hx hr (hxh.trans hh.symm)] at hd
    have := hd.noParams
    rw [h.params] at this
    cases this
  · obtain ⟨x, hx, hxh, hd, -⟩ := (C105_continued db hw).1 hash hp
    rw [hw.inj hx hr (hxh.trans hh.symm)] at hd
    have := hd.inReissue
    rw [h.noState] at this
    cases this

/-- Non-vacuity: a token that is due, one in reissue, and one half-way. -/
def exRenew : Db := run ⟨[], []⟩
  [.set ⟨[1], [3], none, some (List.replicate 32 5), some (List.replicate 64 1), true, true, [117], 100, none, none, none, none⟩,
   .set ⟨[2], [3], some [4], some (List.replicate 32 5), some (List.replicate 64 1), true, true, [117], 100, some [5], some [6], none, none⟩,
   .set ⟨[3], [3], some [4], some (List.replicate 32 5), some (List.replicate 64 1), true, true, [117], 50, none, none, none, none⟩]

example : Wf exRenew ∧ exRenew.getExpire 40 = some [1] ∧ exRenew.getInReissue = some [2] ∧ ∃ r ∈ exRenew.tokens, HalfWay r ∧ r.g.hash = hex [3] := by
  refine ⟨run_wf empty_wf _, by decide +kernel, by decide +kernel, ?_⟩
  refine ⟨⟨0, 0, ⟨hex [3], Base64.encode [3], Base64.encode (List.replicate 32 5), Base64.encode (List.replicate 64 1), true, true, [117], 50,
    true, true, false⟩⟩, ?_, ⟨rfl, rfl⟩, rfl⟩
  decide +kernel

end Verif.Guard.Store
