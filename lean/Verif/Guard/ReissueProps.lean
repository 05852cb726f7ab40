/-
Properties of `ReissueToken`: C37, C38, C82.
-/
import Verif.Guard.Reissue

namespace Verif.Guard.Reissue
open Verif.Util
open Verif.Guard.Store
open Verif.Mix (fix32 fix64)

/-! ### rules -/

/-- From worlds with `pre`, all intermediate worlds and the last one satisfy `inv`, and results
and last worlds satisfy `post`; a panic needs `pan`. -/
def Ok {α : Type} (pre : World → Prop) (m : M α) (inv : World → Prop) (post : α → World → Prop) (pan : Prop) : Prop :=
  ∀ w, pre w → (∀ t ∈ (m w).1, inv t) ∧ inv (m w).2.1 ∧ (∀ a, (m w).2.2 = .ok a → post a (m w).2.1) ∧ ((m w).2.2 = .panic → pan)

theorem bind_ok {α β : Type} {m : M α} {f : α → M β} {w w' : World} {t : List World} {a : α} (h : m w = (t, w', .ok a)) :
    (m >>= f) w = (t ++ (f a w').1, (f a w').2.1, (f a w').2.2) := by
  show M.bind m f w = _
  unfold M.bind; rw [h]

theorem bind_err {α β : Type} {m : M α} {f : α → M β} {w w' : World} {t : List World} {e : E} (h : m w = (t, w', .err e)) :
    (m >>= f) w = (t, w', .err e) := by
  show M.bind m f w = _
  unfold M.bind; rw [h]

theorem bind_panic {α β : Type} {m : M α} {f : α → M β} {w w' : World} {t : List World} (h : m w = (t, w', .panic)) :
    (m >>= f) w = (t, w', .panic) := by
  show M.bind m f w = _
  unfold M.bind; rw [h]

theorem Ok.bind {α β : Type} {pre inv mid pan} {post : β → World → Prop} {m : M α} {f : α → M β} (h1 : Ok pre m inv mid pan)
    (h2 : ∀ a, Ok (mid a) (f a) inv post pan) : Ok pre (m >>= f) inv post pan := by
  intro w hw
  obtain ⟨a1, a2, a3, a4⟩ := h1 w hw
  rcases hm : m w with ⟨t, w', r⟩
  rw [hm] at a1 a2 a3 a4
  cases r with
  | ok a =>
    obtain ⟨b1, b2, b3, b4⟩ := h2 a w' (a3 a rfl)
    rw [bind_ok hm]
    refine ⟨?_, b2, b3, b4⟩
    intro x hx
    rcases List.mem_append.mp hx with hx | hx
    · exact a1 x hx
    · exact b1 x hx
  | err e => rw [bind_err hm]; exact ⟨a1, a2, nofun, nofun⟩
  | panic => rw [bind_panic hm]; exact ⟨a1, a2, nofun, fun _ => a4 rfl⟩

theorem Ok.pure {α : Type} {pre inv : World → Prop} {post : α → World → Prop} {pan : Prop} (a : α) (h : ∀ w, pre w → inv w ∧ post a w) : Ok pre (M.pure a) inv post pan := by
  intro w hw
  refine ⟨nofun, (h w hw).1, ?_, nofun⟩
  intro b hb
  cases hb
  exact (h w hw).2

theorem Ok.fail {α : Type} {pre inv : World → Prop} {post : α → World → Prop} {pan : Prop} (e : E) (h : ∀ w, pre w → inv w) : Ok pre (M.fail e : M α) inv post pan :=
  fun w hw => ⟨nofun, h w hw, nofun, nofun⟩

theorem Ok.panic {α : Type} {pre inv : World → Prop} {post : α → World → Prop} {pan : Prop} (hp : pan) (h : ∀ w, pre w → inv w) : Ok pre (M.panic : M α) inv post pan :=
  fun w hw => ⟨nofun, h w hw, nofun, fun _ => hp⟩

theorem Ok.step {pre inv : World → Prop} {post : Unit → World → Prop} {pan : Prop} (f : World → World) (h : ∀ w, pre w → inv (f w) ∧ post () (f w)) :
    Ok pre (M.step f) inv post pan := by
  intro w hw
  refine ⟨?_, (h w hw).1, fun a _ => (h w hw).2, nofun⟩
  intro t ht
  simp only [M.step, List.mem_singleton] at ht
  rw [ht]
  exact (h w hw).1

theorem Ok.need {α : Type} {pre inv : World → Prop} {post : α → World → Prop} {pan : Prop} (e : E) (o : Option α) (hi : ∀ w, pre w → inv w)
    (h : ∀ a, o = some a → ∀ w, pre w → post a w) : Ok pre (M.need e o) inv post pan := by
  cases o with
  | none => exact Ok.fail e hi
  | some a => exact Ok.pure a fun w hw => ⟨hi w hw, h a rfl w hw⟩

theorem Ok.rpc {α : Type} {pre inv : World → Prop} {post : α → World → Prop} {pan : Prop} (o : Rpc α) (hi : ∀ w, pre w → inv w)
    (h : ∀ a, o = .ok a → ∀ w, pre w → post a w) : Ok pre (M.rpc o) inv post pan := by
  cases o with
  | fail f => exact Ok.fail _ hi
  | ok a => exact Ok.pure a fun w hw => ⟨hi w hw, h a rfl w hw⟩

theorem Ok.weaken {α : Type} {pre inv : World → Prop} {post post' : α → World → Prop} {pan : Prop} {m : M α} (h : Ok pre m inv post pan)
    (hp : ∀ a w, post a w → post' a w) : Ok pre m inv post' pan := by
  intro w hw
  obtain ⟨a1, a2, a3, a4⟩ := h w hw
  exact ⟨a1, a2, fun a ha => hp a _ (a3 a ha), a4⟩

theorem Ok.strengthen {α : Type} {pre pre' inv : World → Prop} {post : α → World → Prop} {pan : Prop} {m : M α} (h : Ok pre m inv post pan)
    (hp : ∀ w, pre' w → pre w) : Ok pre' m inv post pan := fun w hw => h w (hp w hw)

theorem Ok.of_eq {α : Type} {pre inv : World → Prop} {post : α → World → Prop} {pan : Prop} {m : M α}
    (h : ∀ w, pre w → Ok (fun w' => w' = w) m inv post pan) : Ok pre m inv post pan := fun w hw => h w hw w rfl

/-! ### the store in a run -/

/-- `setToken` makes the row and then the database of `Db.setToken`. -/
theorem Ok.setToken {pre inv : World → Prop} {post : Unit → World → Prop} {pan : Prop} (e : Entry) (hpan : e.ownerPub = none → pan)
    (hpre : ∀ w, pre w → inv w)
    (h : ∀ g s, encodeToken e = .ok (g, s) → ∀ w, pre w → inv { w with db := w.db.setRow g } ∧
      ∀ d, w.db.setToken e = .ok d → inv { w with db := d } ∧ post () { w with db := d }) :
    Ok pre (setToken e) inv post pan := by
  unfold Reissue.setToken
  split
  · rename_i g s he
    intro w hw
    obtain ⟨h1, h2⟩ := h g s he w hw
    have h2 := h2 _ (by unfold Db.setToken; rw [he])
    refine Ok.bind (mid := fun _ w' => w' = { w with db := w.db.setRow g }) (pre := fun w' => w' = w) ?_ ?_ w rfl
    · exact Ok.step _ fun w' hw' => by rw [hw']; exact ⟨h1, rfl⟩
    · intro _
      split
      · rename_i hs
        refine Ok.step _ fun w' hw' => ?_
        rw [hw']
        rw [if_pos hs] at h2
        exact h2
      · rename_i hs
        refine Ok.pure _ fun w' hw' => ?_
        rw [hw']
        rw [if_neg hs] at h2
        exact h2
  · rename_i hn
    refine Ok.panic (hpan ?_) hpre
    cases ho : e.ownerPub with
    | none => rfl
    | some k =>
      exfalso
      unfold encodeToken at hn
      rw [ho] at hn
      exact hn _ _ rfl

theorem getToken_owner {db : Db} {hash : Bytes} {l : Int} {e : Entry} (h : db.getToken hash l = .ok e) : ∃ k, e.ownerPub = some k ∧ k.length = 32 := by
  unfold Db.getToken at h
  split at h
  · cases h
  · split at h
    · cases h
    · split at h
      · cases h
      · split at h
        · cases h
        · rename_i e' he
          cases h
          unfold decodeToken decodeState at he
          simp only [Option.bind_eq_some_iff] at he
          obtain ⟨_, _, pub, _, _, _, _, _, he⟩ := he
          have hl : (fix32 pub).length = 32 := by unfold fix32; simp; omega
          split at he
          · simp only [Option.bind_eq_some_iff] at he
            obtain ⟨_, _, _, _, _, _, _, _, _, _, _, _, _, _, he⟩ := he
            cases he
            exact ⟨_, rfl, hl⟩
          · cases he
            exact ⟨_, rfl, hl⟩

/-- What is known of an entry that was read. -/
structure ReadEntry (hash : Bytes) (e : Entry) : Prop where
  hash : e.hash = hash
  pub : ∃ k, e.ownerPub = some k ∧ k.length = 32
  priv : ∀ k, e.ownerPriv = some k → k.length = 64
  params : e.params ≠ some []
  packet : e.serverPacket ≠ some []
  blinding : e.blinding ≠ some []
  newPub : ∀ k, e.newOwnerPub = some k → k.length = 32
  newPriv : ∀ k, e.newOwnerPriv = some k → k.length = 64

theorem nonEmpty_ne (b : Bytes) : nonEmpty b ≠ some [] := by
  unfold nonEmpty
  split
  · nofun
  · rename_i h; intro e; exact h (Option.some.inj e)

theorem sized_length (n : Nat) (b k : Bytes) (h : sized n b = some k) : k.length = n := by
  unfold sized at h
  split at h
  · rename_i h2; cases h; exact h2
  · cases h

theorem getToken_read {db : Db} {hash : Bytes} {l : Int} {e : Entry} (h : db.getToken hash l = .ok e) : ReadEntry hash e := by
  have hh := getToken_hash h
  have hp := getToken_owner h
  unfold Db.getToken at h
  split at h
  · cases h
  · split at h
    · cases h
    · split at h
      · cases h
      · split at h
        · cases h
        · rename_i e' he
          cases h
          unfold decodeToken decodeState at he
          simp only [Option.bind_eq_some_iff] at he
          obtain ⟨_, _, pub, _, _, _, pr, hpr, he⟩ := he
          have hpriv : ∀ k, pr = some k → k.length = 64 := by
            intro k hk
            split at hpr
            · rw [Option.map_eq_some_iff] at hpr
              obtain ⟨x, _, hx⟩ := hpr
              rw [← hx] at hk
              cases hk
              unfold fix64; simp; omega
            · cases hpr; cases hk
          split at he
          · simp only [Option.bind_eq_some_iff] at he
            obtain ⟨_, _, _, _, _, _, _, _, _, _, _, _, _, _, he⟩ := he
            cases he
            exact ⟨hh, hp, hpriv, nonEmpty_ne _, nonEmpty_ne _, nonEmpty_ne _, sized_length 32 _, sized_length 64 _⟩
          · cases he
            exact ⟨hh, hp, hpriv, nofun, nofun, nofun, nofun, nofun⟩

/-- Reasonable answers: packets and parameters are not empty and not huge, keys have 32
bytes, and the new token is not the old one. -/
structure Sane (P : Prims) (env : Env) (hash : Bytes) (owner : Option Bytes) : Prop where
  owner : ∀ o, owner = some o → o.length = 32
  params : ∀ p, env.params = .ok p → p ≠ []
  blind : ∀ t k o p pk bl, env.blind t k o p = some (pk, bl) → pk ≠ [] ∧ bl ≠ [] ∧ (p.getD []).length + pk.length + bl.length < 2 ^ 30
  fresh : ∀ b r t tok, env.unblind b r = some t → Token.unmarshal t = some tok → tok.hash P ≠ hash

/-- The invariant of a run that holds the lock `id` of the token: the lock is kept, the token
is kept until it is spent, and a packet is stored before it is sent. -/
structure Inv (hash : Bytes) (id : Int) (n m : Nat) (t : World) : Prop where
  held : Held t.db hash id
  kept : t.spent.length ≤ n → ∃ r ∈ t.db.tokens, r.g.hash = hex hash
  stored : t.spent.length ≤ n → t.asked.length > m → ∃ e, t.db.getToken hash (-1) = .ok e ∧ e.serverPacket = t.asked.head?

/-- A world in which nothing was sent yet. -/
structure Quiet (hash : Bytes) (id : Int) (n m : Nat) (t : World) : Prop where
  heldIn : HeldIn t.db hash id
  spent : t.spent.length = n
  asked : t.asked.length = m

theorem Quiet.inv {hash : Bytes} {id : Int} {n m : Nat} {t : World} (h : Quiet hash id n m t) : Inv hash id n m t :=
  ⟨h.heldIn.1, fun _ => h.heldIn.2, fun _ ha => absurd ha (by have := h.asked; omega)⟩

theorem HeldIn.congr' {d d' : Db} {hash : Bytes} {id : Int} (h : HeldIn d hash id) (e : d'.tokens = d.tokens) : HeldIn d' hash id := by
  unfold HeldIn Held at *
  rw [e]
  exact h

theorem Quiet.setToken {hash : Bytes} {id : Int} {n m : Nat} {w : World} (h : Quiet hash id n m w) (e : Entry) (d : Db) (hd : w.db.setToken e = .ok d) :
    Quiet hash id n m { w with db := d } := by
  obtain ⟨g, s, _, h2⟩ := setToken_tokens hd
  exact ⟨HeldIn.congr' (setRow_held h.heldIn g) h2, h.spent, h.asked⟩

theorem Quiet.setRow {hash : Bytes} {id : Int} {n m : Nat} {w : World} (h : Quiet hash id n m w) (g : Global) :
    Quiet hash id n m { w with db := w.db.setRow g } := ⟨setRow_held h.heldIn g, h.spent, h.asked⟩

theorem ReadEntry.wf {hash : Bytes} {e : Entry} (h : ReadEntry hash e) (hs : e.serverPacket ≠ none)
    (hl : (e.params.getD []).length + (e.serverPacket.getD []).length + (e.blinding.getD []).length < 2 ^ 30) : e.Wf :=
  ⟨h.pub, h.priv, h.params, h.packet, h.blinding, h.newPub, h.newPriv, fun _ => .inl (by
    unfold Entry.hasState
    cases hp : e.serverPacket with
    | none => exact absurd hp hs
    | some _ => rfl), hl⟩

theorem prepare_ok {P : Prims} {env : Env} {hash : Bytes} {owner : Option Bytes} (hS : Sane P env hash owner) (id : Int) (n m : Nat) (e : Entry)
    (he : ReadEntry hash e) (priv : Bytes) (pan : Prop) (hpan : owner = none → pan) :
    Ok (Quiet hash id n m) (prepare env owner e priv) (Inv hash id n m)
      (fun e' w => Quiet hash id n m w ∧ ReadEntry hash e' ∧ w.db.getToken hash (-1) = .ok e' ∧ e'.serverPacket ≠ none ∧ e'.newOwnerPub ≠ none ∧ e'.newOwnerPub = owner) pan := by
  have hq : ∀ w, Quiet hash id n m w → Inv hash id n m w := fun w h => h.inv
  unfold prepare
  refine Ok.bind (mid := fun e' w => Quiet hash id n m w ∧ ReadEntry hash e' ∧ e'.serverPacket = e.serverPacket) ?_ ?_
  · unfold withParams
    split
    · exact Ok.pure _ fun w hw => ⟨hq w hw, hw, he, rfl⟩
    · refine Ok.bind (mid := fun p w => Quiet hash id n m w ∧ p ≠ []) (Ok.rpc _ hq fun p hp w hw => ⟨hw, hS.params p hp⟩) ?_
      intro p
      have he' : ∀ hp : p ≠ [], ReadEntry hash { e with params := some p } := fun hp => ⟨he.hash, he.pub, he.priv, fun h => hp (Option.some.inj h), he.packet,
        he.blinding, he.newPub, he.newPriv⟩
      refine Ok.bind (mid := fun _ w => Quiet hash id n m w ∧ p ≠ []) ?_ ?_
      · refine Ok.setToken _ ?_ (fun w hw => hq w hw.1) ?_
        · intro hn
          obtain ⟨k, hk, _⟩ := he.pub
          exact absurd hn (by rw [hk]; nofun)
        · intro g s _ w hw
          exact ⟨hq _ (hw.1.setRow g), fun d hd => ⟨hq _ (hw.1.setToken _ d hd), hw.1.setToken _ d hd, hw.2⟩⟩
      · intro _
        exact Ok.pure _ fun w hw => ⟨hq w hw.1, hw.1, he' hw.2, rfl⟩
  · intro e1
    refine Ok.bind (mid := fun e' w => Quiet hash id n m w ∧ ReadEntry hash e' ∧ e'.newOwnerPub ≠ none ∧ e'.newOwnerPub = owner) ?_ ?_
    · unfold withOwner
      split
      · rename_i o _
        refine Ok.pure _ fun w hw => ⟨hq w hw.1, hw.1, ?_, nofun, rfl⟩
        obtain ⟨_, h1, _⟩ := hw
        exact ⟨h1.hash, h1.pub, h1.priv, h1.params, h1.packet, h1.blinding, fun k hk => hS.owner k hk, h1.newPriv⟩
      · split
        · exact Ok.fail _ fun w hw => hq w hw.1
        · exact Ok.panic (hpan rfl) fun w hw => hq w hw.1
    · intro e2
      refine Ok.bind (mid := fun x w => Quiet hash id n m w ∧ ReadEntry hash e2 ∧ (e2.newOwnerPub ≠ none ∧ e2.newOwnerPub = owner) ∧
        x.1 ≠ [] ∧ x.2 ≠ [] ∧ (e2.params.getD []).length + x.1.length + x.2.length < 2 ^ 30) ?_ ?_
      · refine Ok.need _ _ (fun w hw => hq w hw.1) ?_
        intro x hx w hw
        exact ⟨hw.1, hw.2.1, hw.2.2, hS.blind _ _ _ _ _ _ hx⟩
      · rintro ⟨pk, bl⟩
        simp only
        refine Ok.bind (mid := fun _ w => Quiet hash id n m w ∧ ReadEntry hash { e2 with blinding := some bl, serverPacket := some pk } ∧
          w.db.getToken hash (-1) = .ok { e2 with blinding := some bl, serverPacket := some pk } ∧ e2.newOwnerPub ≠ none ∧ e2.newOwnerPub = owner) ?_ ?_
        · refine Ok.of_eq fun w hw => ?_
          obtain ⟨h1, h2, h3, h4, h5, h6⟩ := hw
          have hr : ReadEntry hash { e2 with blinding := some bl, serverPacket := some pk } :=
            ⟨h2.hash, h2.pub, h2.priv, h2.params, fun h => h4 (Option.some.inj h), fun h => h5 (Option.some.inj h), h2.newPub, h2.newPriv⟩
          refine Ok.setToken _ ?_ (fun w' hw' => by rw [hw']; exact hq w h1) ?_
          · intro hn
            obtain ⟨k, hk, _⟩ := hr.pub
            exact absurd hn (by rw [hk]; nofun)
          · intro g s _ w' hw'
            rw [hw']
            refine ⟨hq _ (h1.setRow g), fun d hd => ⟨hq _ (h1.setToken _ d hd), h1.setToken _ d hd, hr, ?_, h3⟩⟩
            obtain ⟨d', hd', hg⟩ := C39_stored_partial w.db { e2 with blinding := some bl, serverPacket := some pk } (hr.wf nofun h6)
            rw [hd] at hd'
            cases hd'
            rw [← hr.hash]
            exact hg
        · intro _
          exact Ok.pure _ fun w hw => ⟨hq w hw.1, hw.1, hw.2.1, hw.2.2.1, nofun, hw.2.2.2⟩

theorem finish_ok {P : Prims} {env : Env} {hash : Bytes} {owner : Option Bytes} (hS : Sane P env hash owner) (id : Int) (n m : Nat) (e : Entry)
    (he : ReadEntry hash e) (packet : Bytes) (hp : e.serverPacket = some packet) (pan : Prop) (hpan : e.newOwnerPub = none → pan) :
    Ok (fun w => Quiet hash id n m w ∧ w.db.getToken hash (-1) = .ok e) (finish P env e packet) (Inv hash id n m)
      (fun h' w => (∃ e', w.db.getToken h' (-1) = .ok e' ∧ e'.ownerPub = e.newOwnerPub ∧ e'.ownerPriv = e.newOwnerPriv ∧ ∃ k x, env.newKey k = some (e'.usage, x)) ∧
        (∀ r ∈ w.db.tokens, r.g.hash ≠ hex hash)) pan := by
  unfold finish
  refine Ok.bind (mid := fun _ w => HeldIn w.db hash id ∧ w.spent.length = n ∧ w.asked.head? = some packet ∧ w.db.getToken hash (-1) = .ok e) ?_ ?_
  · refine Ok.step _ fun w hw => ?_
    refine ⟨⟨hw.1.heldIn.1, fun _ => hw.1.heldIn.2, fun _ _ => ⟨e, hw.2, hp⟩⟩, hw.1.heldIn, hw.1.spent, rfl, hw.2⟩
  · intro _
    refine Ok.bind (mid := fun _ w => HeldIn w.db hash id ∧ w.spent.length = n) ?_ ?_
    · refine Ok.rpc _ (fun w hw => ?_) fun _ _ w hw => ⟨hw.1, hw.2.1⟩
      exact ⟨hw.1.1, fun _ => hw.1.2, fun _ _ => ⟨e, hw.2.2.2, by rw [hw.2.2.1, hp]⟩⟩
    · rintro ⟨reply, pubkey⟩
      refine Ok.bind (mid := fun _ w => HeldIn w.db hash id ∧ w.spent.length = n + 1) ?_ ?_
      · refine Ok.step _ fun w hw => ?_
        have : (packet :: w.spent).length = n + 1 := by simp [hw.2]
        exact ⟨⟨hw.1.1, fun h => absurd h (by simp only [this]; omega), fun h => absurd h (by simp only [this]; omega)⟩, hw.1, this⟩
      · intro _
        have hgone : ∀ w : World, (∀ r ∈ w.db.tokens, r.g.hash ≠ hex hash) ∧ w.spent.length = n + 1 → Inv hash id n m w := by
          intro w hw
          exact ⟨fun r hr hh => absurd hh (hw.1 r hr), fun h => absurd h (by have := hw.2; omega), fun h => absurd h (by have := hw.2; omega)⟩
        refine Ok.bind (mid := fun _ w => (∀ r ∈ w.db.tokens, r.g.hash ≠ hex hash) ∧ w.spent.length = n + 1) ?_ ?_
        · refine Ok.step _ fun w hw => ?_
          have hg : ∀ r ∈ (w.db.delToken e.hash).tokens, r.g.hash ≠ hex hash := by
            intro r hr hh
            have := (List.mem_filter.mp hr).2
            rw [he.hash, hh] at this
            simp at this
          exact ⟨hgone _ ⟨hg, hw.2⟩, hg, hw.2⟩
        · intro _
          split
          · refine Ok.bind (mid := fun t w => ((∀ r ∈ w.db.tokens, r.g.hash ≠ hex hash) ∧ w.spent.length = n + 1) ∧
              ∀ tok, Token.unmarshal t = some tok → tok.hash P ≠ hash) ?_ ?_
            · exact Ok.need _ _ hgone fun t ht w hw => ⟨hw, fun tok htok => hS.fresh _ _ _ _ ht htok⟩
            · intro newToken
              refine Ok.bind (mid := fun tok w => ((∀ r ∈ w.db.tokens, r.g.hash ≠ hex hash) ∧ w.spent.length = n + 1) ∧ tok.hash P ≠ hash) ?_ ?_
              · exact Ok.need _ _ (fun w hw => hgone w hw.1) fun tok htok w hw => ⟨hw.1, hw.2 tok htok⟩
              · intro tok
                refine Ok.bind (mid := fun x w => ((∀ r ∈ w.db.tokens, r.g.hash ≠ hex hash) ∧ w.spent.length = n + 1) ∧ tok.hash P ≠ hash ∧
                  ∃ k, env.newKey k = some x) ?_ ?_
                · exact Ok.need _ _ (fun w hw => hgone w hw.1) fun x hx w hw => ⟨hw.1, hw.2, _, hx⟩
                · rintro ⟨usage, expire⟩
                  simp only
                  refine Ok.bind (mid := fun _ w => ((∀ r ∈ w.db.tokens, r.g.hash ≠ hex hash) ∧ w.spent.length = n + 1) ∧
                    w.db.getToken (tok.hash P) (-1) = .ok (newEntry P e tok newToken usage expire) ∧ ∃ k, env.newKey k = some (usage, expire)) ?_ ?_
                  · refine Ok.setToken _ hpan (fun w hw => hgone w hw.1) ?_
                    intro g s hgs w hw
                    have hgh : g.hash ≠ hex hash := by
                      rw [encode_hash hgs]
                      exact fun h => hw.2.1 (hex_inj h)
                    have hrow : ∀ r ∈ (w.db.setRow g).tokens, r.g.hash ≠ hex hash := by
                      intro r hr
                      unfold Db.setRow at hr
                      split at hr
                      · obtain ⟨r0, h0, h1⟩ := List.mem_map.mp hr
                        split at h1
                        · rw [← h1]; exact hgh
                        · rw [← h1]; exact hw.1.1 r0 h0
                      · rcases List.mem_append.mp hr with hr | hr
                        · exact hw.1.1 r hr
                        · rw [List.mem_singleton.mp hr]; exact hgh
                    refine ⟨hgone _ ⟨hrow, hw.1.2⟩, ?_⟩
                    intro d hd
                    obtain ⟨g', s', hgs', hdt⟩ := setToken_tokens hd
                    rw [hgs] at hgs'
                    cases hgs'
                    have hrow' : ∀ r ∈ d.tokens, r.g.hash ≠ hex hash := by rw [hdt]; exact hrow
                    refine ⟨hgone _ ⟨hrow', hw.1.2⟩, ⟨hrow', hw.1.2⟩, ?_, hw.2.2⟩
                    obtain ⟨d', hd', hg⟩ := C39_stored_partial w.db (newEntry P e tok newToken usage expire) (by
                      refine ⟨?_, he.newPriv, nofun, nofun, nofun, nofun, nofun, fun h => absurd rfl h, (by decide : 0 + 0 + 0 < 2 ^ 30)⟩
                      cases hn : e.newOwnerPub with
                      | none =>
                        exfalso
                        unfold encodeToken newEntry at hgs
                        simp only [hn] at hgs
                        cases hgs
                      | some k => exact ⟨k, hn, he.newPub k hn⟩)
                    rw [hd] at hd'
                    cases hd'
                    exact hg
                  · intro _
                    exact Ok.pure _ fun w hw => ⟨hgone w hw.1, ⟨_, hw.2.1, rfl, rfl, hw.2.2.elim fun k hk => ⟨k, expire, hk⟩⟩, hw.1.1⟩
          · exact Ok.fail _ hgone

theorem getToken_neg {db : Db} {hash : Bytes} {l : Int} {e : Entry} (h : db.getToken hash l = .ok e) : db.getToken hash (-1) = .ok e := by
  unfold Db.getToken at h ⊢
  split at h
  · cases h
  · split at h
    · cases h
    · rw [if_neg (by omega)]
      exact h

theorem getToken_map (db : Db) (f : Row → Row) (hf : ∀ r, (f r).g = r.g) (hash : Bytes) :
    Db.getToken { db with tokens := db.tokens.map f } hash (-1) = db.getToken hash (-1) := by
  unfold Db.getToken Db.row
  simp only
  rw [List.find?_map]
  have : ((fun x : Row => x.g.hash == hex hash) ∘ f) = fun x => x.g.hash == hex hash := by
    funext x; simp only [Function.comp, hf]
  rw [this]
  cases db.tokens.find? fun x => x.g.hash == hex hash with
  | none => rfl
  | some r =>
    simp only [Option.map_some, hf]
    rw [if_neg (by omega), if_neg (by omega)]
    rfl

theorem getToken_unlock (db : Db) (h hash : Bytes) : (db.unlock h).getToken hash (-1) = db.getToken hash (-1) :=
  getToken_map db _ (fun r => by split <;> rfl) hash

theorem getToken_lock (db : Db) (h hash : Bytes) (id now : Int) : (db.lock h id now).1.getToken hash (-1) = db.getToken hash (-1) := by
  unfold Db.lock
  split
  · exact getToken_map db _ (fun r => by split <;> rfl) hash
  · rfl

/-- Entries that would make the last step panic: a packet but no new owner. -/
def Broken (db : Db) (hash : Bytes) : Prop := ∃ e, db.getToken hash (-1) = .ok e ∧ e.serverPacket ≠ none ∧ e.newOwnerPub = none

theorem body_ok {P : Prims} {env : Env} {hash : Bytes} {owner : Option Bytes} (hS : Sane P env hash owner) (id lockID : Int) (w : World)
    (hw : HeldIn w.db hash id) :
    Ok (fun w' => w' = w) (body P env hash owner lockID) (Inv hash id w.spent.length w.asked.length)
      (fun h' w' => (∃ e', w'.db.getToken h' (-1) = .ok e' ∧ (∃ k x, env.newKey k = some (e'.usage, x)) ∧
          ((∀ e, w.db.getToken hash (-1) = .ok e → e.serverPacket = none) → e'.ownerPub = owner)) ∧
        (∀ r ∈ w'.db.tokens, r.g.hash ≠ hex hash)) (owner = none ∨ Broken w.db hash) := by
  have hq : Quiet hash id w.spent.length w.asked.length w := ⟨hw, rfl, rfl⟩
  have hi : ∀ w', w' = w → Inv hash id w.spent.length w.asked.length w' := fun w' h => by rw [h]; exact hq.inv
  unfold body
  split
  · refine Ok.bind (mid := fun x w' => x = w ∧ w' = w) ?_ ?_
    · intro w' hw'
      refine ⟨nofun, hi w' hw', ?_, nofun⟩
      intro a ha
      cases ha
      exact ⟨hw', hw'⟩
    · intro x
      refine Ok.of_eq fun w' hw' => ?_
      obtain ⟨hx, hw'⟩ := hw'
      rw [hw'] at *
      subst hx
      split
      · exact Ok.fail _ hi
      · exact Ok.fail _ hi
      · rename_i hg
        exfalso
        unfold Db.getToken at hg
        split at hg
        · cases hg
        · split at hg
          · cases hg
          · split at hg
            · cases hg
            · split at hg <;> cases hg
      · rename_i e hg
        have hr := getToken_read hg
        split
        · exact Ok.fail _ hi
        · refine Ok.bind (mid := fun _ w' => w' = x) (Ok.need _ _ hi fun _ _ w' h => h) ?_
          intro t
          refine Ok.bind (mid := fun _ w' => w' = x) (Ok.need _ _ hi fun _ _ w' h => h) ?_
          intro _
          split
          · rename_i packet hp
            refine Ok.strengthen (Ok.weaken (finish_ok hS id _ _ e hr packet hp _ ?_) ?_) ?_
            · intro hn
              exact .inr ⟨e, getToken_neg hg, by rw [hp]; nofun, hn⟩
            · rintro h' w' ⟨⟨e', h1, _, _, hk⟩, h2⟩
              exact ⟨⟨e', h1, hk, fun hn => absurd (hn e (getToken_neg hg)) (by rw [hp]; nofun)⟩, h2⟩
            · intro w' hw'
              rw [hw']
              exact ⟨hq, getToken_neg hg⟩
          · refine Ok.bind (Ok.strengthen (prepare_ok hS id _ _ e hr _ _ fun h => .inl h) fun w' hw' => by rw [hw']; exact hq) ?_
            intro e'
            refine Ok.of_eq fun w' hw' => ?_
            obtain ⟨h1, h2, h3, h4, h5, h6⟩ := hw'
            cases hp : e'.serverPacket with
            | none => exact absurd hp h4
            | some packet =>
              simp only [Option.getD_some]
              refine Ok.strengthen (Ok.weaken (finish_ok hS id _ _ e' h2 packet hp _ fun hn => absurd hn h5) ?_) fun w hw => by rw [hw]; exact ⟨h1, h3⟩
              rintro h' w'' ⟨⟨e'', h1, ho, _, hk⟩, h2⟩
              exact ⟨⟨e'', h1, hk, fun _ => ho.trans h6⟩, h2⟩
  · exact Ok.fail _ hi

/-- A free token in a well-formed wallet, and a lock ID nobody has. -/
structure Free (w : World) (env : Env) (hash : Bytes) : Prop where
  wf : Wf w.db
  row : ∃ r ∈ w.db.tokens, r.g.hash = hex hash ∧ r.lockID = 0
  pos : env.lockID > 0
  fresh : ∀ r ∈ w.db.tokens, r.lockID ≠ env.lockID

/-- The world after the lock. -/
def locked (w : World) (env : Env) (hash : Bytes) : World := { w with db := (w.db.lock hash env.lockID env.now).1 }

theorem reissue_run {P : Prims} {env : Env} {hash : Bytes} {owner : Option Bytes} {w : World} (hf : (w.db.lock hash env.lockID env.now).2 ≠ 0) (ho : env.online = true) :
    reissueToken P env hash owner w =
      (locked w env hash :: ((body P env hash owner (w.db.lock hash env.lockID env.now).2 (locked w env hash)).1 ++
        [{ (body P env hash owner (w.db.lock hash env.lockID env.now).2 (locked w env hash)).2.1 with
          db := (body P env hash owner (w.db.lock hash env.lockID env.now).2 (locked w env hash)).2.1.db.unlock hash }]),
      { (body P env hash owner (w.db.lock hash env.lockID env.now).2 (locked w env hash)).2.1 with
          db := (body P env hash owner (w.db.lock hash env.lockID env.now).2 (locked w env hash)).2.1.db.unlock hash },
      (body P env hash owner (w.db.lock hash env.lockID env.now).2 (locked w env hash)).2.2) := by
  unfold reissueToken
  rw [if_pos ho]
  rw [bind_ok (m := M.get) (t := []) (w' := w) (a := w) rfl]
  rw [bind_ok (m := M.step _) (t := [locked w env hash]) (w' := locked w env hash) (a := ()) rfl]
  rw [if_neg hf]
  rfl

theorem free_held {w : World} {env : Env} {hash : Bytes} (h : Free w env hash) :
    (w.db.lock hash env.lockID env.now).2 = env.lockID ∧ HeldIn (locked w env hash).db hash env.lockID := by
  obtain ⟨r, hr, hh, hl⟩ := h.row
  have h1 := C36_free w.db hash env.lockID env.now r hr hh hl
  have := h.pos
  exact ⟨h1, (lock_rows h.wf (by omega) h.fresh h1).1⟩

/-- C37, partial: a reissue of a free token holds the lock it took in every world until the
last one, in which it is released. What is missing: a token that somebody else holds, see
`C37_spends_held` and `C37_releases_held`. -/
theorem C37_own_lock_partial (P : Prims) (env : Env) (hash : Bytes) (owner : Option Bytes) (hS : Sane P env hash owner) (w : World)
    (hf : Free w env hash) (ho : env.online = true) :
    (∀ t ∈ (reissueToken P env hash owner w).1.dropLast, Held t.db hash env.lockID) ∧
    Held (reissueToken P env hash owner w).2.1.db hash 0 := by
  obtain ⟨h1, h2⟩ := free_held hf
  have hp := hf.pos
  rw [reissue_run (by omega) ho]
  obtain ⟨b1, b2, _, _⟩ := body_ok hS env.lockID (w.db.lock hash env.lockID env.now).2 _ h2 _ rfl
  constructor
  · rw [← List.cons_append, List.dropLast_concat]
    intro t ht
    rcases List.mem_cons.mp ht with ht | ht
    · rw [ht]; exact h2.1
    · exact (b1 t ht).held
  · intro r hr hh
    obtain ⟨r0, h0, h3⟩ := List.mem_map.mp hr
    split at h3
    · rw [← h3]
    · rename_i hn
      rw [← h3] at hh
      exact absurd (by rw [hh]; exact BEq.rfl) hn

/-- C38, partial: at every crash point before the issuer accepted the packet, the token is in
the wallet; and a packet that was sent is stored with the token, so that the same packet is
sent again after a restart. -/
theorem C38_before_spent_partial (P : Prims) (env : Env) (hash : Bytes) (owner : Option Bytes) (hS : Sane P env hash owner) (w : World)
    (hf : Free w env hash) (ho : env.online = true) :
    ∀ t ∈ crashes (reissueToken P env hash owner) w, t.spent.length ≤ w.spent.length →
      (∃ r ∈ t.db.tokens, r.g.hash = hex hash) ∧
      (t.asked.length > w.asked.length → ∃ e, t.db.getToken hash (-1) = .ok e ∧ e.serverPacket = t.asked.head?) := by
  obtain ⟨h1, h2⟩ := free_held hf
  have hp := hf.pos
  intro t ht hs
  unfold crashes at ht
  rw [reissue_run (by omega) ho] at ht
  obtain ⟨b1, b2, _, _⟩ := body_ok hS env.lockID (w.db.lock hash env.lockID env.now).2 _ h2 _ rfl
  rcases List.mem_cons.mp ht with ht | ht
  · rw [ht]
    obtain ⟨r, hr, hh, _⟩ := hf.row
    exact ⟨⟨r, hr, hh⟩, fun h => absurd h (by omega)⟩
  · rcases List.mem_cons.mp ht with ht | ht
    · rw [ht]
      exact ⟨h2.2, fun h => absurd h (by simp only [locked]; omega)⟩
    · rcases List.mem_append.mp ht with ht | ht
      · exact ⟨(b1 t ht).kept hs, (b1 t ht).stored hs⟩
      · have ht := List.mem_singleton.mp ht
        rw [ht] at hs ⊢
        refine ⟨?_, ?_⟩
        · obtain ⟨r, hr, hh⟩ := b2.kept hs
          refine ⟨_, List.mem_map_of_mem hr, ?_⟩
          split
          · exact hh
          · exact hh
        · intro ha
          obtain ⟨e, h3, h4⟩ := b2.stored hs ha
          exact ⟨e, by rw [getToken_unlock]; exact h3, h4⟩

/-- C38, partial: after success, the new token can be read from the wallet and the old one
is gone. -/
theorem C38_success_partial (P : Prims) (env : Env) (hash : Bytes) (owner : Option Bytes) (hS : Sane P env hash owner) (w : World)
    (hf : Free w env hash) (ho : env.online = true) (h' : Bytes) (hr : (reissueToken P env hash owner w).2.2 = .ok h') :
    (∃ e, (reissueToken P env hash owner w).2.1.db.getToken h' (-1) = .ok e) ∧
    (reissueToken P env hash owner w).2.1.db.getToken hash (-1) = .err .noRows := by
  obtain ⟨h1, h2⟩ := free_held hf
  have hp := hf.pos
  rw [reissue_run (by omega) ho] at hr ⊢
  obtain ⟨_, _, b3, _⟩ := body_ok hS env.lockID (w.db.lock hash env.lockID env.now).2 _ h2 _ rfl
  obtain ⟨⟨e, h3, _⟩, h4⟩ := b3 h' hr
  refine ⟨⟨e, by rw [getToken_unlock]; exact h3⟩, ?_⟩
  rw [getToken_unlock]
  unfold Db.getToken
  have : ∀ d : Db, (∀ r ∈ d.tokens, r.g.hash ≠ hex hash) → d.row (hex hash) = none := by
    intro d hd
    unfold Db.row
    rw [List.find?_eq_none]
    intro r hr hh
    exact hd r hr (eq_of_beq hh)
  rw [this _ h4]

/-- C38: if no request was pending, the new token is recorded for the owner that was named, with the
usage of a key in the key pool. -/
theorem C38_owner (P : Prims) (env : Env) (hash : Bytes) (owner : Option Bytes) (hS : Sane P env hash owner) (w : World)
    (hf : Free w env hash) (ho : env.online = true) (h' : Bytes) (hr : (reissueToken P env hash owner w).2.2 = .ok h')
    (hn : ∀ e, w.db.getToken hash (-1) = .ok e → e.serverPacket = none) :
    ∃ e, (reissueToken P env hash owner w).2.1.db.getToken h' (-1) = .ok e ∧ e.ownerPub = owner ∧
      ∃ k x, env.newKey k = some (e.usage, x) := by
  obtain ⟨h1, h2⟩ := free_held hf
  have hp := hf.pos
  rw [reissue_run (by omega) ho] at hr ⊢
  obtain ⟨_, _, b3, _⟩ := body_ok hS env.lockID (w.db.lock hash env.lockID env.now).2 _ h2 _ rfl
  obtain ⟨⟨e, h3, hk, h5⟩, h4⟩ := b3 h' hr
  refine ⟨e, by rw [getToken_unlock]; exact h3, h5 fun e he => hn e ?_, hk⟩
  simp only [locked] at he
  rw [getToken_lock] at he
  exact he

/-- C82, partial: a reissue to a named owner never panics, unless the stored entry has a
packet but no new owner. -/
theorem C82_no_panic_partial (P : Prims) (env : Env) (hash : Bytes) (owner : Option Bytes) (hS : Sane P env hash owner) (w : World)
    (hf : Free w env hash) (ho : env.online = true) (hn : owner ≠ none) (hb : ¬ Broken w.db hash) :
    (reissueToken P env hash owner w).2.2 ≠ .panic := by
  obtain ⟨h1, h2⟩ := free_held hf
  have hp := hf.pos
  rw [reissue_run (by omega) ho]
  obtain ⟨_, _, _, b4⟩ := body_ok hS env.lockID (w.db.lock hash env.lockID env.now).2 _ h2 _ rfl
  intro h
  rcases b4 h with h | h
  · exact hn h
  · apply hb
    obtain ⟨e, he1, he2⟩ := h
    refine ⟨e, ?_, he2⟩
    simp only [locked] at he1
    rw [getToken_lock] at he1
    exact he1

end Verif.Guard.Reissue
