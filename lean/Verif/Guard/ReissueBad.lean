/-
Where `ReissueToken` breaks its promises: C37, C38, C82.
-/
import Verif.Guard.ReissueProps

namespace Verif.Guard.Reissue
open Verif.Util
open Verif.Guard.Store

/-- The stored entry is ours, well-formed and has a packet from an earlier attempt. -/
structure Pending (env : Env) (db : Db) (hash : Bytes) (e : Entry) (packet : Bytes) : Prop where
  client : env.client = true
  read : db.getToken hash (-1) = .ok e
  mine : ∃ k, e.ownerPriv = some k
  token : ∃ t, Token.unmarshal e.token = some t ∧ ∃ s, env.signer t.properties.1 = some s
  packet : e.serverPacket = some packet

theorem body_pending {P : Prims} {env : Env} {db : Db} {hash : Bytes} {e : Entry} {packet : Bytes} {owner : Option Bytes} (h : Pending env db hash e packet)
    (l : Int) (w : World) (hw : w.db.getToken hash l = .ok e) : body P env hash owner l w = finish P env e packet w := by
  obtain ⟨k, hk⟩ := h.mine
  obtain ⟨t, ht, s, hs⟩ := h.token
  unfold body
  rw [if_pos h.client, bind_ok (m := M.get) (t := []) (w' := w) (a := w) rfl]
  simp only [hw, hk, List.nil_append]
  rw [ht, bind_ok (m := M.need _ _) (t := []) (w' := w) (a := t) rfl]
  rw [hs, bind_ok (m := M.need _ _) (t := []) (w' := w) (a := s) rfl]
  simp only [h.packet, List.nil_append]

/-- The worlds of a call that the issuer does not accept. -/
theorem finish_fail {P : Prims} {env : Env} {e : Entry} {packet : Bytes} {f : Bool} (h : env.reissue packet = .fail f) (w : World) :
    finish P env e packet w = ([{ w with asked := packet :: w.asked }], { w with asked := packet :: w.asked }, .err (if f then .final else .retry)) := by
  unfold finish
  rw [bind_ok (m := M.step _) (t := [{ w with asked := packet :: w.asked }]) (w' := { w with asked := packet :: w.asked }) (a := ()) rfl]
  rw [h, bind_err (m := M.rpc (.fail f)) rfl]
  rfl

/-- The world after the old token was deleted. -/
def after (w : World) (hash packet : Bytes) : World := ⟨w.db.delToken hash, packet :: w.asked, packet :: w.spent⟩

/-- The first worlds of a call that the issuer accepts. -/
theorem finish_accepted {P : Prims} {env : Env} {e : Entry} {packet reply pubkey : Bytes} (h : env.reissue packet = .ok (reply, pubkey)) (w : World) :
    ∃ l, (finish P env e packet w).1 = { w with asked := packet :: w.asked } :: ⟨w.db, packet :: w.asked, packet :: w.spent⟩ :: after w e.hash packet :: l ∧
      (env.loadKey pubkey = false → l = [] ∧ (finish P env e packet w).2 = (after w e.hash packet, .err .fatal)) := by
  unfold finish
  rw [bind_ok (m := M.step _) (t := [{ w with asked := packet :: w.asked }]) (w' := { w with asked := packet :: w.asked }) (a := ()) rfl]
  rw [h, bind_ok (m := M.rpc (.ok (reply, pubkey))) (t := []) (w' := { w with asked := packet :: w.asked }) (a := (reply, pubkey)) rfl]
  simp only
  rw [bind_ok (m := M.step _) (t := [⟨w.db, packet :: w.asked, packet :: w.spent⟩]) (w' := ⟨w.db, packet :: w.asked, packet :: w.spent⟩) (a := ()) rfl]
  rw [bind_ok (m := delToken e.hash) (t := [after w e.hash packet]) (w' := after w e.hash packet) (a := ()) rfl]
  refine ⟨_, rfl, ?_⟩
  intro hl
  rw [if_neg (by rw [hl]; decide)]
  exact ⟨rfl, rfl⟩

theorem lock_held_fails {db : Db} {hash : Bytes} {id other now : Int} (h : HeldIn db hash other) (ho : other ≠ 0) (hf : ∀ r ∈ db.tokens, r.lockID ≠ id) :
    db.lock hash id now = (db, -1) := by
  unfold Db.lock
  rw [if_neg]
  intro hm
  obtain ⟨r, hr, hmr⟩ := List.any_eq_true.mp hm
  unfold lockMatches at hmr
  simp only [Bool.or_eq_true, Bool.and_eq_true, beq_iff_eq] at hmr
  rcases hmr with hmr | hmr
  · exact ho (by rw [← h.1 r hr hmr.1, hmr.2])
  · exact hf r hr hmr

theorem held_run {P : Prims} {env : Env} {hash : Bytes} {owner : Option Bytes} {w : World} {other : Int} {e : Entry} {packet : Bytes}
    (ho : env.online = true) (hh : HeldIn w.db hash other) (hne : other ≠ 0) (hf : ∀ r ∈ w.db.tokens, r.lockID ≠ env.lockID)
    (hp : Pending env w.db hash e packet) :
    reissueToken P env hash owner w = (w :: ((finish P env e packet w).1 ++
      [{ (finish P env e packet w).2.1 with db := (finish P env e packet w).2.1.db.unlock hash }]),
      { (finish P env e packet w).2.1 with db := (finish P env e packet w).2.1.db.unlock hash }, (finish P env e packet w).2.2) := by
  have hl := lock_held_fails (now := env.now) hh hne hf
  rw [reissue_run (by rw [hl]; show (-1 : Int) ≠ 0; decide) ho]
  have h1 : locked w env hash = w := by unfold locked; rw [hl]
  rw [h1, hl, body_pending hp (-1) w hp.read]

/-- C37, violation: a pending token that somebody else holds is sent to the issuer all the
same. If the issuer accepts, it is spent and deleted from the wallet of the holder. -/
theorem C37_spends_held (P : Prims) (env : Env) (hash : Bytes) (owner : Option Bytes) (w : World) (other : Int) (e : Entry) (packet reply pubkey : Bytes)
    (ho : env.online = true) (hh : HeldIn w.db hash other) (hne : other ≠ 0) (hf : ∀ r ∈ w.db.tokens, r.lockID ≠ env.lockID)
    (hp : Pending env w.db hash e packet) (hr : env.reissue packet = .ok (reply, pubkey)) :
    ∃ t ∈ (reissueToken P env hash owner w).1, packet ∈ t.spent ∧ ∀ r ∈ t.db.tokens, r.g.hash ≠ hex hash := by
  rw [held_run ho hh hne hf hp]
  obtain ⟨l, h1, _⟩ := finish_accepted (P := P) (e := e) hr w
  refine ⟨after w e.hash packet, ?_, List.mem_cons_self, ?_⟩
  · simp [h1]
  · intro r hr hh
    have := (List.mem_filter.mp hr).2
    rw [getToken_hash hp.read, hh] at this
    simp at this

/-- C37, violation: if the issuer does not accept, the lock of the other party is released. -/
theorem C37_releases_held (P : Prims) (env : Env) (hash : Bytes) (owner : Option Bytes) (w : World) (other : Int) (e : Entry) (packet : Bytes) (f : Bool)
    (ho : env.online = true) (hh : HeldIn w.db hash other) (hne : other ≠ 0) (hf : ∀ r ∈ w.db.tokens, r.lockID ≠ env.lockID)
    (hp : Pending env w.db hash e packet) (hr : env.reissue packet = .fail f) :
    HeldIn (reissueToken P env hash owner w).2.1.db hash 0 := by
  rw [held_run ho hh hne hf hp, finish_fail hr]
  simp only
  constructor
  · intro r hr hh
    obtain ⟨r0, h0, h3⟩ := List.mem_map.mp hr
    split at h3
    · rw [← h3]
    · rename_i hn
      rw [← h3] at hh
      exact absurd (by rw [hh]; exact BEq.rfl) hn
  · obtain ⟨r, hr, hh⟩ := hh.2
    refine ⟨_, List.mem_map_of_mem hr, ?_⟩
    split <;> exact hh

theorem free_read {env : Env} {w : World} {hash : Bytes} {e : Entry} (hf : Free w env hash) (hr : w.db.getToken hash (-1) = .ok e) :
    (locked w env hash).db.getToken hash env.lockID = .ok e := by
  obtain ⟨_, h2⟩ := free_held hf
  have hpos := hf.pos
  have h3 : (locked w env hash).db.getToken hash (-1) = .ok e := by
    show (w.db.lock hash env.lockID env.now).1.getToken hash (-1) = .ok e
    rw [getToken_lock]; exact hr
  unfold Db.getToken at h3 ⊢
  split at h3
  · cases h3
  · rename_i r hr
    rw [if_neg (by omega)] at h3
    rw [if_neg]
    · exact h3
    · have hk : r.lockID = env.lockID := by
        have hm : (r.g.hash == hex hash) = true := List.find?_some (p := fun r : Row => r.g.hash == hex hash) hr
        exact h2.1 r (List.mem_of_find?_eq_some hr) (eq_of_beq hm)
      omega

theorem free_run {P : Prims} {env : Env} {hash : Bytes} {owner : Option Bytes} {w : World} {e : Entry} {packet : Bytes}
    (ho : env.online = true) (hf : Free w env hash) (hp : Pending env w.db hash e packet) :
    reissueToken P env hash owner w = (locked w env hash :: ((finish P env e packet (locked w env hash)).1 ++
      [{ (finish P env e packet (locked w env hash)).2.1 with db := (finish P env e packet (locked w env hash)).2.1.db.unlock hash }]),
      { (finish P env e packet (locked w env hash)).2.1 with db := (finish P env e packet (locked w env hash)).2.1.db.unlock hash },
      (finish P env e packet (locked w env hash)).2.2) := by
  obtain ⟨h1, _⟩ := free_held hf
  have hpos := hf.pos
  rw [reissue_run (by omega) ho, h1, body_pending hp _ _ (free_read hf hp.read)]

/-- What is left of the wallet after the deletion: old tokens, but not this one. -/
theorem after_rest {env : Env} {w : World} {hash : Bytes} {e : Entry} (packet : Bytes) (he : e.hash = hash) :
    (∀ r ∈ (after (locked w env hash) e.hash packet).db.tokens, r.g.hash ≠ hex hash) ∧
    (∀ r ∈ (after (locked w env hash) e.hash packet).db.tokens, ∃ r0 ∈ w.db.tokens, r0.g = r.g) := by
  constructor
  · intro r hr hh
    have := (List.mem_filter.mp hr).2
    rw [he, hh] at this
    simp at this
  · intro r hr
    have hr := (List.mem_filter.mp hr).1
    unfold locked Db.lock at hr
    simp only at hr
    split at hr
    · obtain ⟨r0, h5, h6⟩ := List.mem_map.mp hr
      refine ⟨r0, h5, ?_⟩
      rw [← h6]
      split <;> rfl
    · exact ⟨r, hr, rfl⟩

/-- C38, violation: whenever the issuer accepts, there is a crash point at which the token is
spent, the wallet has lost it, and nothing was stored instead: all tokens of the wallet are old
ones. -/
theorem C38_crash_loses (P : Prims) (env : Env) (hash : Bytes) (owner : Option Bytes) (w : World) (e : Entry) (packet reply pubkey : Bytes)
    (ho : env.online = true) (hf : Free w env hash) (hp : Pending env w.db hash e packet) (hr : env.reissue packet = .ok (reply, pubkey)) :
    ∃ t ∈ crashes (reissueToken P env hash owner) w, packet ∈ t.spent ∧ (∀ r ∈ t.db.tokens, r.g.hash ≠ hex hash) ∧
      (∀ r ∈ t.db.tokens, ∃ r0 ∈ w.db.tokens, r0.g = r.g) := by
  unfold crashes
  rw [free_run ho hf hp]
  obtain ⟨l, h4, _⟩ := finish_accepted (P := P) (e := e) hr (locked w env hash)
  exact ⟨after (locked w env hash) e.hash packet, by simp [h4], List.mem_cons_self, after_rest packet (getToken_hash hp.read)⟩

/-- C38, violation: the same loss without a crash, if the key the issuer sends with the
accepted packet is not accepted: the call returns a fatal error, and neither the old token nor
a new one is in the wallet. -/
theorem C38_error_loses (P : Prims) (env : Env) (hash : Bytes) (owner : Option Bytes) (w : World) (e : Entry) (packet reply pubkey : Bytes)
    (ho : env.online = true) (hf : Free w env hash) (hp : Pending env w.db hash e packet) (hr : env.reissue packet = .ok (reply, pubkey))
    (hl : env.loadKey pubkey = false) :
    ∃ w', reissueToken P env hash owner w = ((reissueToken P env hash owner w).1, w', .err .fatal) ∧ packet ∈ w'.spent ∧
      (∀ r ∈ w'.db.tokens, r.g.hash ≠ hex hash) ∧ (∀ r ∈ w'.db.tokens, ∃ r0 ∈ w.db.tokens, r0.g = r.g) := by
  rw [free_run ho hf hp]
  obtain ⟨l, _, h2⟩ := finish_accepted (P := P) (e := e) hr (locked w env hash)
  obtain ⟨_, h3⟩ := h2 hl
  rw [h3]
  refine ⟨_, rfl, List.mem_cons_self, ?_⟩
  obtain ⟨h4, h5⟩ := after_rest (env := env) (w := w) packet (getToken_hash hp.read)
  have key : ∀ r ∈ ((after (locked w env hash) e.hash packet).db.unlock hash).tokens, ∃ r1 ∈ (after (locked w env hash) e.hash packet).db.tokens, r1.g = r.g := by
    intro r hr
    obtain ⟨r1, h6, h7⟩ := List.mem_map.mp hr
    refine ⟨r1, h6, ?_⟩
    rw [← h7]
    split <;> rfl
  constructor
  · intro r hr
    obtain ⟨r1, h6, h7⟩ := key r hr
    rw [← h7]; exact h4 r1 h6
  · intro r hr
    obtain ⟨r1, h6, h7⟩ := key r hr
    rw [← h7]; exact h5 r1 h6

/-- C82, violation: a reissue without a named owner panics for every token of our own that
has parameters but no packet, whenever a key can be generated. The runner does this for
expiring tokens, and `WalletToken` for tokens without recipient. -/
theorem C82_new_key_panics (P : Prims) (env : Env) (hash : Bytes) (w : World) (e : Entry) (k p : Bytes) (t : Token) (s : Bytes) (gen : Bytes × Bytes)
    (ho : env.online = true) (hc : env.client = true) (hl : (w.db.lock hash env.lockID env.now).2 ≠ 0)
    (hg : (locked w env hash).db.getToken hash (w.db.lock hash env.lockID env.now).2 = .ok e) (hk : e.ownerPriv = some k)
    (ht : Token.unmarshal e.token = some t) (hs : env.signer t.properties.1 = some s)
    (hn : e.serverPacket = none) (hp : e.params = some p) (hgen : env.genKey = some gen) :
    (reissueToken P env hash none w).2.2 = .panic := by
  rw [reissue_run hl ho]
  simp only
  have hprep : ∀ w', prepare env none e k w' = ([], w', .panic) := by
    intro w'
    unfold prepare
    rw [bind_ok (m := withParams env e) (t := []) (w' := w') (a := e) (by unfold withParams; rw [hp]; rfl)]
    rw [bind_panic (m := withOwner env none e) (t := []) (w' := w') (by unfold withOwner; rw [hgen]; rfl)]
    rfl
  unfold body
  rw [if_pos hc, bind_ok (m := M.get) (t := []) (w' := locked w env hash) (a := locked w env hash) rfl]
  simp only [hg, hk]
  rw [ht, bind_ok (m := M.need _ _) (t := []) (w' := locked w env hash) (a := t) rfl]
  rw [hs, bind_ok (m := M.need _ _) (t := []) (w' := locked w env hash) (a := s) rfl]
  simp only [hn]
  rw [bind_panic (hprep _)]

/-! ### a concrete wallet -/

/-- A token without owner in ASN.1. -/
def exToken : Bytes := [48, 17, 4, 0, 1, 1, 0, 4, 0, 4, 0, 4, 0, 4, 0, 4, 0, 4, 0]

/-- A token of ours in the middle of a reissue. -/
def exPending : Entry := { exEntry with token := exToken }

theorem exPending_wf : exPending.Wf :=
  ⟨⟨_, rfl, by simp⟩, by intro k hk; cases hk; simp, by decide, by decide, by decide, by intro k hk; cases hk; simp, nofun, fun _ => .inl rfl, by decide⟩

/-- An issuer that accepts everything. -/
def exEnv : Env where
  online := true
  lockID := 7
  now := 50
  client := true
  signer := fun _ => some []
  params := .ok [1]
  genKey := some ([], [])
  blind := fun _ _ _ p => if (p.getD []).length < 100 then some ([1], [2]) else none
  reissue := fun _ => .ok ([], [])
  loadKey := fun _ => false
  unblind := fun _ _ => none
  newKey := fun _ => none

/-- Non-vacuity: a wallet with a pending free token satisfies the hypotheses of C38. -/
theorem pending_exists : ∃ w : World, Free w exEnv [1, 2] ∧ Pending exEnv w.db [1, 2] exPending [7] ∧ Sane exPrims exEnv [1, 2] (some (List.replicate 32 1)) := by
  obtain ⟨d, hd, hg⟩ := C39_stored_partial ⟨[], []⟩ exPending exPending_wf
  obtain ⟨g, s, he, htok⟩ := setToken_tokens hd
  have hgh : g.hash = hex [1, 2] := encode_hash he
  have hrow : d.tokens = [⟨0, 0, g⟩] := by rw [htok]; rfl
  refine ⟨⟨d, [], []⟩, ⟨setToken_wf empty_wf hd, ⟨⟨0, 0, g⟩, by rw [hrow]; simp, hgh, rfl⟩, by decide, ?_⟩, ⟨rfl, hg, ⟨_, rfl⟩, ?_, rfl⟩, ?_⟩
  · intro r hr
    rw [show (World.mk d [] []).db = d from rfl, hrow] at hr
    rw [List.mem_singleton.mp hr]
    show (0 : Int) ≠ 7
    decide
  · exact ⟨⟨[], false, [], [], [], [], [], []⟩, by decide, [], rfl⟩
  · refine ⟨fun o ho => by cases ho; simp, fun p hp => by cases hp; simp, ?_, nofun⟩
    intro t k o p pk bl h
    simp only [exEnv] at h
    split at h
    · cases h
      refine ⟨by simp, by simp, ?_⟩
      simp only [List.length_cons, List.length_nil]
      omega
    · cases h

/-- Non-vacuity: the same token held by somebody else satisfies the hypotheses of C37. -/
example : ∃ w : World, HeldIn w.db [1, 2] 9 ∧ (∀ r ∈ w.db.tokens, r.lockID ≠ exEnv.lockID) ∧ Pending exEnv w.db [1, 2] exPending [7] := by
  obtain ⟨d, hd, hg⟩ := C39_stored_partial ⟨[], []⟩ exPending exPending_wf
  obtain ⟨g, s, he, htok⟩ := setToken_tokens hd
  have hgh : g.hash = hex [1, 2] := encode_hash he
  have hrow : d.tokens = [⟨0, 0, g⟩] := by rw [htok]; rfl
  have hl : (d.lock [1, 2] 9 0).1.tokens = [⟨0, 9, g⟩] := by
    simp [Db.lock, lockMatches, hrow, hgh]
  refine ⟨⟨(d.lock [1, 2] 9 0).1, [], []⟩, ⟨?_, ?_⟩, ?_, rfl, ?_, ⟨_, rfl⟩, ⟨⟨[], false, [], [], [], [], [], []⟩, by decide, [], rfl⟩, rfl⟩
  · intro r hr _
    rw [show (World.mk (d.lock [1, 2] 9 0).1 [] []).db = (d.lock [1, 2] 9 0).1 from rfl, hl] at hr
    rw [List.mem_singleton.mp hr]
  · exact ⟨⟨0, 9, g⟩, by show _ ∈ (d.lock [1, 2] 9 0).1.tokens; rw [hl]; simp, hgh⟩
  · intro r hr
    rw [show (World.mk (d.lock [1, 2] 9 0).1 [] []).db = (d.lock [1, 2] 9 0).1 from rfl, hl] at hr
    rw [List.mem_singleton.mp hr]
    show (9 : Int) ≠ 7
    decide
  · show (d.lock [1, 2] 9 0).1.getToken [1, 2] (-1) = _
    rw [getToken_lock]; exact hg

/-- A token of ours that was never sent. -/
def exFresh : Entry := { exPending with serverPacket := none, newOwnerPub := none, newOwnerPriv := none, blinding := none }

/-- Non-vacuity of C82: a reissue of it without a named owner panics. -/
example : ∃ w : World, Free w exEnv [1, 2] ∧ (reissueToken exPrims exEnv [1, 2] none w).2.2 = .panic := by
  obtain ⟨d, hd, hg⟩ := C39_stored_partial ⟨[], []⟩ exFresh
    ⟨⟨_, rfl, by simp⟩, by intro k hk; cases hk; simp, by decide, by decide, by decide, nofun, nofun, nofun, by decide⟩
  obtain ⟨g, s, he, htok⟩ := setToken_tokens hd
  have hgh : g.hash = hex [1, 2] := encode_hash he
  have hrow : d.tokens = [⟨0, 0, g⟩] := by rw [htok]; rfl
  have hf : Free ⟨d, [], []⟩ exEnv [1, 2] := by
    refine ⟨setToken_wf empty_wf hd, ⟨⟨0, 0, g⟩, by rw [hrow]; simp, hgh, rfl⟩, by decide, ?_⟩
    intro r hr
    rw [show (World.mk d [] []).db = d from rfl, hrow] at hr
    rw [List.mem_singleton.mp hr]
    show (0 : Int) ≠ 7
    decide
  obtain ⟨h1, _⟩ := free_held hf
  refine ⟨⟨d, [], []⟩, hf, ?_⟩
  refine C82_new_key_panics exPrims exEnv [1, 2] _ exFresh _ _ ⟨[], false, [], [], [], [], [], []⟩ [] ([], []) rfl rfl ?_ ?_ rfl (by decide) rfl rfl rfl rfl
  · rw [h1]; show (7 : Int) ≠ 0; decide
  · rw [h1]; exact free_read hf hg

/-- A reissue can leave a token half-way, `C105_half_way_violated`: the token is due, the parameters
are fetched, and the packet cannot be made. -/
example : let e : Entry := { exPending with params := none, serverPacket := none, newOwnerPub := none, newOwnerPriv := none, blinding := none }
    let db := Store.run ⟨[], []⟩ [.set e]
    let w := (reissueToken exPrims { exEnv with blind := fun _ _ _ _ => none } [1, 2] (some (List.replicate 32 1)) ⟨db, [], []⟩).2.1
    db.getExpire 50 = some [1, 2] ∧ w.db.tokens.length = 1 ∧ (∀ r ∈ w.db.tokens, r.g.hash = hex [1, 2] ∧ r.g.hasParams = true ∧ r.g.hasState = false) ∧
      w.db.getExpire 50 = none ∧ w.db.getInReissue = none := by
  decide +kernel

end Verif.Guard.Reissue
