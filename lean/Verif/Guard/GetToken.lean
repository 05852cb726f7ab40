/-
`GetToken` (serviceguard/client/clientlib.go) and `WalletToken` (walletserver.go): C131.

The programs are those of `Guard.Reissue`: a run is given with the worlds after each of its effects.
The answer of the wallet server, the key pool and the parser of parameters are arguments.
-/
import Verif.Guard.ReissueBad
import Verif.Guard.Choice
import Verif.Guard.ClientProps

set_option autoImplicit false

namespace Verif.Guard.GetToken
open Verif.Util
open Verif.Guard.Store
open Verif.Guard.Reissue
open Verif.Mix (fix32 fix64)

/-- What the calls depend on besides the wallet. -/
structure Ctx where
  /-- the reissue -/
  env : Env
  /-- `getTokenFromWallet` (walletserver.go:84-122): token, parameters and key -/
  fetched : Res E (Bytes × Option Bytes × Bytes)
  /-- `PublicKey.Unmarshal` and `Keypool.LoadKey` of the key: its usage and expiry, if the pool takes it -/
  accept : Bytes → Option (Bytes × Int)
  /-- `types.UnmarshalParams`: whether the token can be reissued -/
  canReissue : Bytes → Option Bool
  walletKey : Bytes
  /-- the time, and the random lock IDs of `GetAndLockToken` and of the last lock -/
  now : Int
  ids : Nat → Int
  id : Int

/-- The entry of a token from the wallet server (walletserver.go:59-71). -/
def ownEntry (P : Prims) (v : Ctx) (t : Token) (token : Bytes) (params : Option Bytes) (renewable : Bool) (usage : Bytes) (expire : Int) : Entry :=
  ⟨t.hash P, token, params, some (v.walletKey.drop 32), some v.walletKey, renewable, true, usage, expire, none, none, none, none⟩

/-- Whether a token is renewable (walletserver.go:43-57). -/
def renewable (v : Ctx) (params : Option Bytes) : Option Bool :=
  if params.getD [] = [] then some true else v.canReissue (params.getD [])

/-- `WalletToken` (walletserver.go:20-82): the hash, and whether the error is `ErrNeedReissue`. The
write of the key to the key store is not modelled. -/
def walletToken (P : Prims) (v : Ctx) (owner : Option Bytes) : M (Bytes × Bool) :=
  match v.fetched with
  | .err e => M.fail e
  | .panic => M.panic
  | .ok (token, params, key) => do
    let t ← M.need .fatal (Token.unmarshal token)
    let k ← M.need .fatal (v.accept key)
    let ren ← M.need .fatal (renewable v params)
    setToken (ownEntry P v t token params ren k.1 k.2)
    if owner = none ∧ ren = false then M.pure (t.hash P, true)
    else do
      let h ← reissueToken P v.env (t.hash P) owner
      M.pure (h, false)

/-- What `GetToken` returns without another error: a token, nil without an error, or
`ErrNeedReissue`. -/
inductive Got where
  | token (e : Entry)
  | nil
  | needReissue

/-- The last part of `GetToken` (clientlib.go:189-199): lock, and read with the lock. -/
def lockAndRead (v : Ctx) (hash : Bytes) : M Got := do
  let w ← M.get
  M.step fun w => { w with db := (w.db.lock hash v.id v.now).1 }
  if (w.db.lock hash v.id v.now).2 ≤ 0 then M.fail .retry
  else match (w.db.lock hash v.id v.now).1.getToken hash (w.db.lock hash v.id v.now).2 with
    | .ok e => M.pure (.token e)
    | .err _ => M.fail .fatal
    | .panic => M.panic

/-- A new token for the owner (clientlib.go:174-188). -/
def newToken (P : Prims) (v : Ctx) (usage owner : Bytes) : M Bytes := do
  let w ← M.get
  match w.db.findToken usage with
  | .ok e => reissueToken P v.env e.hash (some owner)
  | .panic => M.panic
  | .err _ => do
    let x ← walletToken P v (some owner)
    M.pure x.1

/-- `GetToken` (clientlib.go:166-202). `GetAndLockToken` is one effect. -/
def getToken (P : Prims) (v : Ctx) (usage : Bytes) (owner : Option Bytes) : M Got := do
  let w ← M.get
  M.step fun w => { w with db := (w.db.getAndLock usage owner v.now 5 v.ids).1 }
  match (w.db.getAndLock usage owner v.now 5 v.ids).2 with
  | .ok e => M.pure (.token e)
  | .panic => M.panic
  | .err .noToken =>
    match owner with
    | none => M.pure .needReissue
    | some o => do
      let h ← newToken P v usage o
      lockAndRead v h
  | .err _ => M.pure .nil

/-! ### a token that is already there -/

theorem run_get {α : Type} (f : World → M α) (w : World) : (M.get >>= f) w = f w w := by
  show M.bind M.get f w = _
  unfold M.bind M.get
  simp

theorem run_step {α : Type} (g : World → World) (m : M α) (w : World) :
    (do M.step g; m) w = (g w :: (m (g w)).1, (m (g w)).2.1, (m (g w)).2.2) := by
  show M.bind (M.step g) (fun _ => m) w = _
  unfold M.bind M.step
  simp

/-- C131: with a spendable token of the usage and owner in the wallet, the one that expires first is
locked and returned, as it is stored; nobody is asked. -/
theorem C131_in_wallet (P : Prims) (v : Ctx) (usage : Bytes) (owner : Option Bytes) (w : World) (hw : Wf w.db) (hb : w.db.balance usage owner > 0)
    (hid : v.ids 4 > 0) (hf : ∀ r ∈ w.db.tokens, r.lockID ≠ v.ids 4) :
    ∃ r ∈ w.db.tokens, Spendable usage owner r ∧ (∀ x ∈ w.db.tokens, Spendable usage owner x → r.g.expire ≤ x.g.expire) ∧
      ∃ hash tr w', r.g.hash = hex hash ∧ HeldIn w'.db hash (v.ids 4) ∧ w'.asked = w.asked ∧ w'.spent = w.spent ∧
        ∀ e, w.db.getToken hash (-1) = .ok e → getToken P v usage owner w = (tr, w', .ok (.token e)) := by
  obtain ⟨r, hr, h1, h2, hash, h3, h4, h5, -⟩ := C86_take w.db hw usage owner v.now 4 v.ids hb hid hf
  refine ⟨r, hr, h1, h2, hash, [{ w with db := (w.db.getAndLock usage owner v.now 5 v.ids).1 }], { w with db := (w.db.getAndLock usage owner v.now 5 v.ids).1 },
    h3, h4, rfl, rfl, fun e he => ?_⟩
  unfold getToken
  rw [run_get, run_step, h5, he]
  rfl

/-- C131: without an owner and without a spendable token, nothing happens. -/
theorem C131_need_owner (P : Prims) (v : Ctx) (usage : Bytes) (w : World) (hb : w.db.balance usage none = 0) :
    getToken P v usage none w = ([w], w, .ok .needReissue) := by
  unfold getToken
  rw [run_get, run_step, C86_empty _ _ _ _ _ _ hb]
  rfl

/-- C131, violated: an error of the wallet store other than "no token" is lost: there is no token and
no error, and the row stays locked. -/
theorem C131_nil_violated (P : Prims) (v : Ctx) (usage : Bytes) (owner : Option Bytes) (w : World) (x : Err) (hx : x ≠ .noToken)
    (h : (w.db.getAndLock usage owner v.now 5 v.ids).2 = .err x) :
    (getToken P v usage owner w).2.2 = .ok .nil := by
  unfold getToken
  rw [run_get, run_step, h]
  cases x <;> first | rfl | exact absurd rfl hx

/-! ### wallets without stray packets -/

/-- A row that says that no request is pending has no packet. -/
def Clean (db : Db) : Prop := ∀ hash r e, db.row (hex hash) = some r → r.g.hasState = false → db.getToken hash (-1) = .ok e → e.serverPacket = none

theorem row_map (db : Db) (f : Row → Row) (hf : ∀ r, (f r).g = r.g) (h : Bytes) :
    Db.row { db with tokens := db.tokens.map f } h = (db.row h).map f := by
  unfold Db.row
  simp only
  rw [List.find?_map]
  congr 1
  have : ((fun x : Row => x.g.hash == h) ∘ f) = fun x => x.g.hash == h := by
    funext x; simp only [Function.comp, hf]
  rw [this]

theorem clean_map {db : Db} (h : Clean db) (f : Row → Row) (hf : ∀ r, (f r).g = r.g) : Clean { db with tokens := db.tokens.map f } := by
  intro hash r e hr hs he
  rw [row_map db f hf] at hr
  obtain ⟨r0, h0, rfl⟩ := Option.map_eq_some_iff.mp hr
  rw [getToken_map db f hf] at he
  exact h hash r0 e h0 (by rw [← hf r0]; exact hs) he

theorem clean_lock {db : Db} (h : Clean db) (hash : Bytes) (id now : Int) : Clean (db.lock hash id now).1 := by
  unfold Db.lock
  split
  · exact clean_map h _ fun r => by split <;> rfl
  · exact h

theorem clean_take {u : Bytes} {o : Option Bytes} {now : Int} (ids : Nat → Int) (n : Nat) {db : Db} (h : Clean db) :
    Clean (db.getAndLock u o now n ids).1 := by
  have h1 : ∀ (i : Int) {db : Db}, Clean db → Clean (db.getAndLock1 u o i now).1 := by
    intro i db h
    unfold Db.getAndLock1
    split
    · exact h
    · split
      · exact h
      · simp only
        split <;> exact clean_lock h _ _ _
  induction n generalizing db with
  | zero => exact h
  | succ n ih =>
    unfold Db.getAndLock
    have := h1 (ids n) h
    split
    · rename_i db' e
      rw [e] at this
      exact ih this
    · exact this

theorem clean_set {db d : Db} (h : Clean db) (e : Entry) (he : e.Wf) (hd : db.setToken e = .ok d) : Clean d := by
  intro hash r x hr hs hx
  obtain ⟨g, s, hg, ht⟩ := setToken_tokens hd
  have hrow : d.row (hex hash) = (db.setRow g).row (hex hash) := by unfold Db.row; rw [ht]
  rw [hrow] at hr
  rcases Classical.em (hash = e.hash) with heq | hne
  · subst heq
    obtain ⟨d', hd', hrd⟩ := C39_stored_partial db e he
    rw [hd] at hd'
    cases hd'
    rw [hrd] at hx
    cases hx
    obtain ⟨r', hr', hg'⟩ := row_setRow db g
    rw [encode_hash hg] at hr'
    rw [hr] at hr'
    cases hr'
    have hst : g.hasState = e.hasState := by
      unfold encodeToken at hg
      split at hg
      · cases hg
      · cases hg; rfl
    rw [hg', hst] at hs
    unfold Entry.hasState at hs
    cases hsp : e.serverPacket with
    | none => rfl
    | some _ => rw [hsp] at hs; cases hs
  · rw [C39_others_unchanged db d e hd hash hne] at hx
    rw [row_setRow_other db g _ (by rw [encode_hash hg]; exact fun x => hne (hex_inj x).symm)] at hr
    exact h hash r x hr hs hx

theorem find_filter_ne {α : Type} (l : List α) (f : α → Bytes) (k k' : Bytes) (h : k' ≠ k) :
    (l.filter fun x => !(f x == k)).find? (fun x => f x == k') = l.find? (fun x => f x == k') := by
  rw [List.find?_filter]
  congr 1
  funext x
  cases hx : f x == k' with
  | false => simp
  | true =>
    have := eq_of_beq hx
    simp [this, h]

theorem del_row_ne (db : Db) (hash k : Bytes) (h : k ≠ hex hash) : (db.delToken hash).row k = db.row k :=
  find_filter_ne db.tokens (fun r => r.g.hash) (hex hash) k h

theorem clean_del {db : Db} (h : Clean db) (hash : Bytes) : Clean (db.delToken hash) := by
  intro k r e hr hs he
  rcases Classical.em (hex k = hex hash) with heq | hne
  · rw [heq] at hr
    have h1 := List.mem_of_find?_eq_some hr
    have h2 := List.find?_some hr
    have h3 := (List.mem_filter.mp h1).2
    simp only [h2] at h3
    cases h3
  · rw [del_row_ne db hash _ hne] at hr
    refine h k r e hr hs ?_
    rw [← he]
    unfold Db.getToken Db.state
    rw [del_row_ne db hash _ hne]
    have : (db.delToken hash).states.find? (·.1 == hex k) = db.states.find? (·.1 == hex k) :=
      find_filter_ne db.states (fun r => r.1) (hex hash) (hex k) hne
    rw [this]

theorem clean_cleanLocks {db : Db} (h : Clean db) (f : Bool) (now : Int) : Clean (db.cleanLocks f now) :=
  clean_map h _ fun r => by split <;> split <;> rfl

/-- Wallets that only the store wrote, with well-formed entries, have no stray packets. -/
theorem clean_run (ops : List Op) (hops : ∀ e, Op.set e ∈ ops → e.Wf) : Clean (run ⟨[], []⟩ ops) := by
  have key : ∀ (ops : List Op) (db : Db), (∀ e, Op.set e ∈ ops → e.Wf) → Clean db → Clean (run db ops) := by
    intro ops
    induction ops with
    | nil => exact fun _ _ h => h
    | cons op ops ih =>
      intro db ho h
      refine ih _ (fun e he => ho e (List.mem_cons_of_mem _ he)) ?_
      cases op with
      | set e =>
        show Clean (match db.setToken e with | .ok d => d | _ => db)
        split
        · rename_i d hd
          exact clean_set h e (ho e List.mem_cons_self) hd
        · exact h
      | lock k i n => exact clean_lock h k i n
      | unlock k => exact clean_map h _ fun r => by split <;> rfl
      | del k => exact clean_del h k
      | clean f n => exact clean_cleanLocks h f n
      | reopen n => exact clean_cleanLocks h false n
      | take u o n ids => exact clean_take ids 5 h
      | expire n =>
        show Clean (db.expire n).1
        unfold Db.expire
        simp only
        generalize ((db.tokens.filter (unusable n)).take 10).filterMap (fun r => Mix.unhex r.g.hash) = l
        induction l generalizing db with
        | nil => exact h
        | cons x l ihl => exact ihl _ (clean_del h x)
  exact key ops _ hops (by intro hash r e hr; cases hr)

/-! ### runs -/

theorem bind_inv {α β : Type} {m : M α} {f : α → M β} {w w' : World} {x : β} (h : ((m >>= f) w).2 = (w', .ok x)) :
    ∃ w1 a, (m w).2 = (w1, .ok a) ∧ (f a w1).2 = (w', .ok x) := by
  have h : (M.bind m f w).2 = (w', .ok x) := h
  unfold M.bind at h
  cases hm : m w with
  | mk t y =>
    obtain ⟨w1, r⟩ := y
    rw [hm] at h
    cases r with
    | ok a => exact ⟨w1, a, rfl, h⟩
    | err e => cases (Prod.mk.inj h).2
    | panic => cases (Prod.mk.inj h).2

theorem need_inv {α : Type} {e : E} {o : Option α} {w w' : World} {x : α} (h : (M.need e o w).2 = (w', .ok x)) : o = some x ∧ w' = w := by
  cases o with
  | none => cases (Prod.mk.inj h).2
  | some a => cases h; exact ⟨rfl, rfl⟩

theorem set_inv {e : Entry} {w w' : World} {x : Unit} (h : (setToken e w).2 = (w', .ok x)) :
    ∃ d, w.db.setToken e = .ok d ∧ w' = { w with db := d } := by
  unfold Reissue.setToken at h
  unfold Db.setToken
  cases he : encodeToken e with
  | ok x =>
    obtain ⟨g, s⟩ := x
    rw [he] at h
    dsimp only at h
    rw [run_step] at h
    simp only at h
    refine ⟨_, rfl, ?_⟩
    split at h
    · rename_i hs
      rw [if_pos hs]
      exact (Prod.mk.inj h).1.symm
    · rename_i hs
      rw [if_neg hs]
      exact (Prod.mk.inj h).1.symm
  | err _ => rw [he] at h; cases (Prod.mk.inj h).2
  | panic => rw [he] at h; cases (Prod.mk.inj h).2

/-- What a call that returned a token ended with: the row of the token is locked with the ID of
this call. -/
theorem lockAndRead_ok {v : Ctx} {hash : Bytes} {w w' : World} {e : Entry} (h : (lockAndRead v hash w).2 = (w', .ok (.token e))) :
    e.hash = hash ∧ w.db.getToken hash (-1) = .ok e ∧ w'.db.getToken hash (-1) = .ok e ∧
      ∃ r, w'.db.row (hex hash) = some r ∧ r.lockID = v.id ∧ 0 < v.id := by
  unfold lockAndRead at h
  rw [run_get, run_step] at h
  simp only at h
  split at h
  · cases (Prod.mk.inj h).2
  · rename_i hpos
    cases he : (w.db.lock hash v.id v.now).1.getToken hash (w.db.lock hash v.id v.now).2 with
    | err _ => rw [he] at h; cases (Prod.mk.inj h).2
    | panic => rw [he] at h; cases (Prod.mk.inj h).2
    | ok e' =>
      rw [he] at h
      replace h : (({ w with db := (w.db.lock hash v.id v.now).1 } : World), (Res.ok (Got.token e') : Res E Got)) = (w', Res.ok (Got.token e)) := h
      cases h
      have h1 := getToken_neg he
      refine ⟨getToken_hash he, by rw [getToken_lock] at h1; exact h1, h1, ?_⟩
      unfold Db.lock at hpos he ⊢
      split at he
      · rename_i hany
        rw [if_pos hany] at hpos ⊢
        simp only at hpos he ⊢
        unfold Db.getToken at he
        rw [row_map _ _ (fun r => by split <;> rfl)] at he ⊢
        cases hr : w.db.row (hex hash) with
        | none => rw [hr] at he; cases he
        | some r =>
          rw [hr] at he
          simp only [Option.map_some] at he ⊢
          refine ⟨_, rfl, ?_, by omega⟩
          have hh : r.g.hash = hex hash := eq_of_beq (List.find?_some (p := fun x : Row => x.g.hash == hex hash) hr)
          split
          · rfl
          · rename_i hl
            exfalso
            rw [if_neg hl] at he
            unfold lockMatches at hl
            simp only [hh, beq_self_eq_true, Bool.true_and, Bool.or_eq_true, beq_iff_eq, not_or] at hl
            rw [if_pos ⟨by omega, hl⟩] at he
            cases he
      · rename_i hany
        rw [if_neg hany] at hpos
        exact absurd (show (-1 : Int) ≤ 0 by decide) hpos

/-- What a call for the usage and owner is given: a well-formed wallet without stray packets, a new
lock ID for the reissue, and servers with reasonable answers; the wallet server does not hand out a
token that is locked in the wallet. -/
structure Good (P : Prims) (v : Ctx) (usage o : Bytes) (w : World) : Prop where
  wf : Wf w.db
  clean : Clean w.db
  online : v.env.online = true
  pos : v.env.lockID > 0
  fresh : ∀ r ∈ w.db.tokens, r.lockID ≠ v.env.lockID
  own : ∀ e, w.db.findToken usage = .ok e → Sane P v.env e.hash (some o)
  fetched : ∀ token params key t, v.fetched = .ok (token, params, key) → Token.unmarshal token = some t →
    Sane P v.env (t.hash P) (some o) ∧ params ≠ some [] ∧ (params.getD []).length < 2 ^ 30 ∧
    ∀ r ∈ w.db.tokens, r.g.hash = hex (t.hash P) → r.lockID = 0
  key : v.walletKey.length = 64

theorem setRow_free {db : Db} {g : Global} (h : ∀ r ∈ db.tokens, r.g.hash = g.hash → r.lockID = 0) :
    ∃ r ∈ (db.setRow g).tokens, r.g.hash = g.hash ∧ r.lockID = 0 := by
  unfold Db.setRow
  split
  · rename_i ha
    obtain ⟨r, hr, hh⟩ := List.any_eq_true.mp ha
    refine ⟨{ r with g := g }, List.mem_map.mpr ⟨r, hr, by rw [if_pos hh]⟩, rfl, h r hr (eq_of_beq hh)⟩
  · exact ⟨⟨0, 0, g⟩, List.mem_append_right _ (List.mem_singleton.mpr rfl), rfl, rfl⟩

theorem setRow_locks {db : Db} {g : Global} {id : Int} (h : ∀ r ∈ db.tokens, r.lockID ≠ id) (h0 : id ≠ 0) : ∀ r ∈ (db.setRow g).tokens, r.lockID ≠ id := by
  unfold Db.setRow
  split
  · intro r hr
    obtain ⟨r0, h1, h2⟩ := List.mem_map.mp hr
    split at h2
    · rw [← h2]; exact h r0 h1
    · rw [← h2]; exact h r0 h1
  · intro r hr
    rcases List.mem_append.mp hr with hr | hr
    · exact h r hr
    · rw [List.mem_singleton.mp hr]; exact Ne.symm h0

/-- After `SetToken`, the token is free for a reissue. -/
theorem set_free {v : Ctx} {w : World} {d : Db} {e : Entry} (hw : Wf w.db) (hp : v.env.lockID > 0) (hf : ∀ r ∈ w.db.tokens, r.lockID ≠ v.env.lockID)
    (h : ∀ r ∈ w.db.tokens, r.g.hash = hex e.hash → r.lockID = 0) (hd : w.db.setToken e = .ok d) : Free { w with db := d } v.env e.hash := by
  obtain ⟨g, s, hg, ht⟩ := setToken_tokens hd
  have hh := encode_hash hg
  refine ⟨setToken_wf hw hd, ?_, hp, ?_⟩
  · obtain ⟨r, hr, h1, h2⟩ := setRow_free (db := w.db) (g := g) (by rw [hh]; exact h)
    exact ⟨r, by show r ∈ d.tokens; rw [ht]; exact hr, by rw [h1, hh], h2⟩
  · show ∀ r ∈ d.tokens, _
    rw [ht]
    exact setRow_locks hf (by omega)

theorem ownEntry_wf {P : Prims} {v : Ctx} {t : Token} {token : Bytes} {params : Option Bytes} {ren : Bool} {usage : Bytes} {expire : Int}
    (hk : v.walletKey.length = 64) (hp : params ≠ some []) (hs : (params.getD []).length < 2 ^ 30) :
    (ownEntry P v t token params ren usage expire).Wf := by
  refine ⟨⟨_, rfl, by simp [hk]⟩, fun k h => ?_, hp, nofun, nofun, nofun, nofun, fun h => absurd rfl h, ?_⟩
  · cases h; exact hk
  · show (params.getD []).length + 0 + 0 < 2 ^ 30
    omega

/-- A new token is in the wallet, recorded for the owner, with the usage of a key of the pool. -/
theorem newToken_ok {P : Prims} {v : Ctx} {usage o : Bytes} {w w' : World} {h : Bytes} (hg : Good P v usage o w)
    (hr : (newToken P v usage o w).2 = (w', .ok h)) :
    ∃ e, w'.db.getToken h (-1) = .ok e ∧ e.ownerPub = some o ∧ ∃ k x, v.env.newKey k = some (e.usage, x) := by
  unfold newToken at hr
  rw [run_get] at hr
  cases he : w.db.findToken usage with
  | ok e =>
    rw [he] at hr
    have hb : w.db.balanceOwn usage > 0 := by
      rcases Nat.eq_zero_or_pos (w.db.balanceOwn usage) with h0 | h0
      · rw [(C86_find w.db hg.wf usage).1 h0] at he; cases he
      · exact h0
    obtain ⟨r, h1, h2, -, hash, h3, h4⟩ := (C86_find w.db hg.wf usage).2 hb
    rw [he] at h4
    have h4 := h4.symm
    have hh : e.hash = hash := getToken_hash h4
    have hfree : Free w v.env e.hash := ⟨hg.wf, ⟨r, h1, by rw [hh]; exact h3, h2.free⟩, hg.pos, hg.fresh⟩
    have hn : ∀ e', w.db.getToken e.hash (-1) = .ok e' → e'.serverPacket = none := by
      intro e' he'
      refine hg.clean e.hash r e' (row_unique hg.wf h1 (by rw [hh]; exact h3)) h2.notInReissue he'
    have hr2 := (Prod.mk.inj hr).2
    have hr1 := (Prod.mk.inj hr).1
    have := C38_owner P v.env e.hash (some o) (hg.own e he) w hfree hg.online h hr2 hn
    rw [hr1] at this
    exact this
  | panic => rw [he] at hr; cases (Prod.mk.inj hr).2
  | err _ =>
    rw [he] at hr
    obtain ⟨w1, x, hx, hy⟩ := bind_inv hr
    have hy : (w1, Res.ok x.1) = (w', Res.ok h) := hy
    cases hy
    unfold walletToken at hx
    cases hfe : v.fetched with
    | err _ => rw [hfe] at hx; cases (Prod.mk.inj hx).2
    | panic => rw [hfe] at hx; cases (Prod.mk.inj hx).2
    | ok y =>
      obtain ⟨token, params, key⟩ := y
      rw [hfe] at hx
      obtain ⟨w2, t, h1, hx1⟩ := bind_inv hx
      obtain ⟨ht, e1⟩ := need_inv h1
      obtain ⟨w3, k, h2, hx2⟩ := bind_inv hx1
      obtain ⟨hk, e2⟩ := need_inv h2
      obtain ⟨w4, ren, h3, hx3⟩ := bind_inv hx2
      obtain ⟨hren, e3⟩ := need_inv h3
      obtain ⟨w5, _, h4, hx4⟩ := bind_inv hx3
      obtain ⟨d, hd, e4⟩ := set_inv h4
      rw [e3, e2, e1] at hd e4
      rw [e4, if_neg (by simp)] at hx4
      clear hx hx1 hx2 hx3 h1 h2 h3 h4
      have hx := hx4
      obtain ⟨w6, h', hz, h2⟩ := bind_inv hx
      cases h2
      obtain ⟨hS, hp, hs, hl⟩ := hg.fetched token params key t hfe ht
      have hfree := set_free hg.wf hg.pos hg.fresh (e := ownEntry P v t token params ren k.1 k.2) hl hd
      obtain ⟨d', hd', hrd⟩ := C39_stored_partial _ _ (ownEntry_wf (P := P) (v := v) (t := t) (token := token) (ren := ren) (usage := k.1) (expire := k.2) hg.key hp hs)
      rw [hd] at hd'
      cases hd'
      have := C38_owner P v.env (t.hash P) (some o) hS _ hfree hg.online h' (Prod.mk.inj hz).2 (fun e he => by
        have he : d.getToken (t.hash P) (-1) = .ok e := he
        have hrd : d.getToken (t.hash P) (-1) = _ := hrd
        rw [hrd] at he
        cases he
        rfl)
      rw [(Prod.mk.inj hz).1] at this
      exact this

theorem getToken_take {u : Bytes} {o : Option Bytes} {now : Int} (ids : Nat → Int) (n : Nat) (db : Db) (h : Bytes) :
    (db.getAndLock u o now n ids).1.getToken h (-1) = db.getToken h (-1) := by
  have h1 : ∀ (i : Int) (db : Db), (db.getAndLock1 u o i now).1.getToken h (-1) = db.getToken h (-1) := by
    intro i db
    unfold Db.getAndLock1
    split
    · rfl
    · split
      · rfl
      · simp only
        split <;> exact getToken_lock db _ h i now
  induction n generalizing db with
  | zero => rfl
  | succ n ih =>
    unfold Db.getAndLock
    have := h1 (ids n) db
    split
    · rename_i db' e
      rw [e] at this
      rw [ih, this]
    · exact this

theorem decode_owner {g : Global} {s : Bytes} {e : Entry} (h : decodeToken g s = some e) :
    e.usage = g.usage ∧ ∃ pub, Base64.decode g.ownerPub = some pub ∧ e.ownerPub = some (fix32 pub) := by
  unfold decodeToken decodeState at h
  simp only [Option.bind_eq_some_iff] at h
  obtain ⟨_, _, pub, hp, _, _, _, _, h⟩ := h
  split at h
  · simp only [Option.bind_eq_some_iff] at h
    obtain ⟨_, _, _, _, _, _, _, _, _, _, _, _, _, _, h⟩ := h
    cases h; exact ⟨rfl, pub, hp, rfl⟩
  · cases h; exact ⟨rfl, pub, hp, rfl⟩

theorem getToken_row {db : Db} {hash : Bytes} {r : Row} {e : Entry} (hr : db.row (hex hash) = some r) (h : db.getToken hash (-1) = .ok e) :
    e.usage = r.g.usage ∧ ∃ pub, Base64.decode r.g.ownerPub = some pub ∧ e.ownerPub = some (fix32 pub) := by
  unfold Db.getToken at h
  rw [hr] at h
  simp only at h
  rw [if_neg (by omega)] at h
  split at h
  · cases h
  · split at h
    · cases h
    · rename_i e' he
      cases h
      exact decode_owner he

/-- C131, partial: whatever `GetToken` returns for a named owner is a token that is recorded for that
owner, can be read from the wallet, and is locked there with an ID that this call drew. If every key
in the pool has the usage that was asked for, the token has it. What is missing: the usage, if the
wallet server hands out tokens of another one (`C131_other_usage_violated`), and the errors that
`C131_nil_violated` shows. -/
theorem C131_got_partial (P : Prims) (v : Ctx) (usage o : Bytes) (ho : o.length = 32) (w w' : World) (tr : List World) (e : Entry)
    (hg : Good P v usage o w) (hid : v.ids 4 > 0) (hf : ∀ r ∈ w.db.tokens, r.lockID ≠ v.ids 4)
    (h : getToken P v usage (some o) w = (tr, w', .ok (.token e))) :
    e.ownerPub = some o ∧ w'.db.getToken e.hash (-1) = .ok e ∧
      (∃ r, w'.db.row (hex e.hash) = some r ∧ 0 < r.lockID ∧ (r.lockID = v.ids 4 ∨ r.lockID = v.id)) ∧
      ((∀ k u x, v.env.newKey k = some (u, x) → u = usage) → e.usage = usage) := by
  rcases Nat.eq_zero_or_pos (w.db.balance usage (some o)) with hb | hb
  · unfold getToken at h
    rw [run_get, run_step, C86_empty _ _ _ _ _ _ hb] at h
    simp only at h
    obtain ⟨-, h⟩ := Prod.mk.inj h
    obtain ⟨w1, hash, h1, h2⟩ := bind_inv h
    obtain ⟨x, h3, h4, k, y, h5⟩ := newToken_ok hg h1
    obtain ⟨h6, h7, h8, r, h9, h10, h11⟩ := lockAndRead_ok h2
    rw [h3] at h7
    cases h7
    subst h6
    exact ⟨h4, h8, ⟨r, h9, by omega, .inr h10⟩, fun hu => hu _ _ _ h5⟩
  · obtain ⟨r, hr, h1, -, hash, h3, h4, h5, -⟩ := C86_take w.db hg.wf usage (some o) v.now 4 v.ids hb hid hf
    unfold getToken at h
    rw [run_get, run_step, h5] at h
    have hrow : w.db.row (hex hash) = some r := row_unique hg.wf hr h3
    cases hx : w.db.getToken hash (-1) with
    | panic => rw [hx] at h; cases (Prod.mk.inj (Prod.mk.inj h).2).2
    | err x => rw [hx] at h; cases x <;> first | cases (Prod.mk.inj (Prod.mk.inj h).2).2 | skip
               obtain ⟨w1, k, _, _⟩ := bind_inv (Prod.mk.inj h).2
               have : ∀ (db : Db) (h : Bytes), db.getToken h (-1) ≠ .err .noToken := by
                 intro db h hh
                 unfold Db.getToken at hh
                 split at hh
                 · cases hh
                 · split at hh
                   · cases hh
                   · split at hh
                     · cases hh
                     · split at hh <;> cases hh
               exact absurd hx (this _ _)
    | ok x =>
      rw [hx] at h
      replace h : (([{ w with db := (w.db.getAndLock usage (some o) v.now 5 v.ids).1 }] : List World),
        ({ w with db := (w.db.getAndLock usage (some o) v.now 5 v.ids).1 } : World), (Res.ok (Got.token x) : Res E Got)) = (tr, w', Res.ok (Got.token e)) := h
      cases h
      have hh := getToken_hash hx
      subst hh
      obtain ⟨hu, pub, hp, hown⟩ := getToken_row hrow hx
      rw [h1.owner o rfl, Base64.decode_encode] at hp
      cases hp
      obtain ⟨r', hr', hl⟩ := row_held h4
      refine ⟨by rw [hown, Mix.fix32_of_length ho], ?_, ⟨r', hr', by rw [hl]; exact hid, .inl hl⟩, fun _ => hu.trans h1.usage⟩
      show (w.db.getAndLock usage (some o) v.now 5 v.ids).1.getToken e.hash (-1) = .ok e
      rw [getToken_take, hx]

/-! ### tokens from the wallet server -/

theorem run_need {α β : Type} {e : E} {o : Option α} {a : α} (f : α → M β) (h : o = some a) (w : World) : (M.need e o >>= f) w = f a w := by
  subst h
  show M.bind (M.pure a) f w = _
  unfold M.bind M.pure
  simp

theorem run_none {α β : Type} {e : E} {o : Option α} (f : α → M β) (h : o = none) (w : World) : (M.need e o >>= f) w = ([], w, .err e) := by
  subst h
  rfl

theorem set_run (e : Entry) (w : World) (h : e.ownerPub ≠ none) :
    ∃ tr d, w.db.setToken e = .ok d ∧ setToken e w = (tr, { w with db := d }, .ok ()) ∧ tr ≠ [] ∧
      ∀ x ∈ tr, x.spent = w.spent ∧ ∃ r ∈ x.db.tokens, r.g.hash = hex e.hash := by
  unfold Reissue.setToken Db.setToken
  cases he : encodeToken e with
  | ok y =>
    obtain ⟨g, s⟩ := y
    have hg := encode_hash he
    have hrow : ∃ r ∈ (w.db.setRow g).tokens, r.g.hash = hex e.hash := by
      obtain ⟨r, hr, h1⟩ := row_setRow w.db g
      exact ⟨r, List.mem_of_find?_eq_some hr, by rw [h1, hg]⟩
    dsimp only
    rw [run_step]
    cases hs : decide (s.length > 0) with
    | true =>
      have hs := of_decide_eq_true hs
      rw [if_pos hs, if_pos hs]
      refine ⟨_, _, rfl, rfl, by simp, ?_⟩
      intro x hx
      rcases List.mem_cons.mp hx with rfl | hx
      · exact ⟨rfl, hrow⟩
      · cases List.mem_singleton.mp hx
        refine ⟨rfl, ?_⟩
        show ∃ r ∈ ((w.db.setRow g).setState g.hash s).tokens, _
        rw [setState_tokens]
        exact hrow
    | false =>
      have hs := of_decide_eq_false hs
      rw [if_neg hs, if_neg hs]
      refine ⟨_, _, rfl, rfl, by simp, ?_⟩
      intro x hx
      rcases List.mem_cons.mp hx with rfl | hx
      · exact ⟨rfl, hrow⟩
      · cases hx
  | err _ =>
    unfold encodeToken at he
    split at he <;> cases he
  | panic =>
    unfold encodeToken at he
    split at he
    · exact absurd ‹_› h
    · cases he

/-- C131, partial: a token that the wallet server handed out, with a key and parameters that the
client takes, is written at once, and is in the wallet at every later point at which the program can
stop, until the issuer has accepted it. What is missing: the time between the answer and the write,
and the answers of `C131_lost_violated`. -/
theorem C131_stored_partial (P : Prims) (v : Ctx) (owner : Option Bytes) (w : World) (token : Bytes) (params : Option Bytes) (key : Bytes)
    (t : Token) (k : Bytes × Int) (ren : Bool) (hfe : v.fetched = .ok (token, params, key)) (ht : Token.unmarshal token = some t)
    (hk : v.accept key = some k) (hr : renewable v params = some ren) (hw : Wf w.db) (hp : v.env.lockID > 0)
    (hf : ∀ r ∈ w.db.tokens, r.lockID ≠ v.env.lockID) (hl : ∀ r ∈ w.db.tokens, r.g.hash = hex (t.hash P) → r.lockID = 0)
    (hS : Sane P v.env (t.hash P) owner) :
    (walletToken P v owner w).1 ≠ [] ∧
    ∀ x ∈ (walletToken P v owner w).1, x.spent.length ≤ w.spent.length → ∃ r ∈ x.db.tokens, r.g.hash = hex (t.hash P) := by
  obtain ⟨tr, d, hd, hrun, hne, htr⟩ := set_run (ownEntry P v t token params ren k.1 k.2) w nofun
  have hfree := set_free hw hp hf (e := ownEntry P v t token params ren k.1 k.2) hl hd
  have hall : ∀ x ∈ tr, x.spent.length ≤ w.spent.length → ∃ r ∈ x.db.tokens, r.g.hash = hex (t.hash P) := fun x hx _ => (htr x hx).2
  unfold walletToken
  rw [hfe]
  dsimp only
  rw [run_need _ ht, run_need _ hk, run_need _ hr, bind_ok hrun]
  split
  · refine ⟨by simp [hne], ?_⟩
    intro x hx
    rcases List.mem_append.mp hx with hx | hx
    · exact hall x hx
    · cases hx
  · refine ⟨by simp [hne], ?_⟩
    intro x hx
    rcases List.mem_append.mp hx with hx | hx
    · exact hall x hx
    · have hx : x ∈ (reissueToken P v.env (t.hash P) owner { w with db := d }).1 := by
        have hx : x ∈ (M.bind (reissueToken P v.env (t.hash P) owner) (fun h => M.pure (h, false)) { w with db := d }).1 := hx
        unfold M.bind at hx
        split at hx
        · rename_i heq
          rw [heq]
          rcases List.mem_append.mp hx with hx | hx
          · exact hx
          · cases hx
        · rename_i heq; rw [heq]; exact hx
        · rename_i heq; rw [heq]; exact hx
      intro hs
      cases ho : v.env.online with
      | false =>
        unfold reissueToken at hx
        rw [ho] at hx
        cases hx
      | true => exact (C38_before_spent_partial P v.env (t.hash P) owner hS _ hfree ho x (List.mem_cons_of_mem _ hx) hs).1

/-- A token of the wallet server that cannot be renewed: it comes with parameters, and they do not
allow a reissue. -/
def Subscription (v : Ctx) (params : Option Bytes) : Prop := ∃ p, params = some p ∧ p ≠ [] ∧ v.canReissue p = some false

theorem renewable_iff {v : Ctx} {params : Option Bytes} {ren : Bool} (h : renewable v params = some ren) : ren = false ↔ Subscription v params := by
  unfold renewable at h
  cases params with
  | none =>
    simp only [Option.getD_none, if_true] at h
    cases h
    exact ⟨nofun, fun ⟨p, hp, _⟩ => nomatch hp⟩
  | some p =>
    simp only [Option.getD_some] at h
    split at h
    · rename_i h0
      cases h
      exact ⟨nofun, fun ⟨q, hq, hn, _⟩ => absurd ((Option.some.inj hq).symm.trans h0) hn⟩
    · rename_i h0
      constructor
      · rintro rfl; exact ⟨p, rfl, h0, h⟩
      · rintro ⟨q, hq, _, hc⟩
        have hq := Option.some.inj hq
        subst hq
        rw [h] at hc
        exact Option.some.inj hc

/-- C131: a token from the wallet server is recorded with the wallet's own key pair as its owner, and
with the usage and expiry of the key it came with, before anything else is asked. If nobody is named
as the owner and it cannot be renewed, that is all, and the caller is told that a reissue is needed;
in all other cases the result is that of the reissue for the owner named. -/
theorem C131_handed_out (P : Prims) (v : Ctx) (owner : Option Bytes) (w : World) (token : Bytes) (params : Option Bytes) (key : Bytes)
    (t : Token) (k : Bytes × Int) (hfe : v.fetched = .ok (token, params, key)) (ht : Token.unmarshal token = some t)
    (hk : v.accept key = some k) (hr : ∀ p, params = some p → v.canReissue p ≠ none) (hwk : v.walletKey.length = 64)
    (hp : params ≠ some []) (hs : (params.getD []).length < 2 ^ 30) :
    ∃ e w1, w1.db.getToken (t.hash P) (-1) = .ok e ∧ w1.asked = w.asked ∧ w1.spent = w.spent ∧
      e.token = token ∧ e.params = params ∧ e.ownerPub = some (v.walletKey.drop 32) ∧ e.ownerPriv = some v.walletKey ∧
      e.usage = k.1 ∧ e.expire = k.2 ∧ e.canReissue = true ∧ (e.renewable = false ↔ Subscription v params) ∧
      (owner = none ∧ Subscription v params → (walletToken P v owner w).2 = (w1, .ok (t.hash P, true))) ∧
      (¬ (owner = none ∧ Subscription v params) → ∀ w' h b, (walletToken P v owner w).2 = (w', .ok (h, b)) ↔
        b = false ∧ (reissueToken P v.env (t.hash P) owner w1).2 = (w', .ok h)) := by
  have hren : ∃ ren, renewable v params = some ren := by
    unfold renewable
    cases params with
    | none => exact ⟨true, if_pos rfl⟩
    | some p =>
      rw [Option.getD_some]
      split
      · exact ⟨true, rfl⟩
      · cases hc : v.canReissue p with
        | none => exact absurd hc (hr p rfl)
        | some b => exact ⟨b, rfl⟩
  obtain ⟨ren, hren⟩ := hren
  have hsub := renewable_iff hren
  have hwf : (ownEntry P v t token params ren k.1 k.2).Wf := by
    refine ⟨⟨_, rfl, by rw [List.length_drop, hwk]⟩, ?_, hp, nofun, nofun, nofun, nofun, nofun, ?_⟩
    · intro x hx
      cases hx
      exact hwk
    · show (params.getD []).length + 0 + 0 < 2 ^ 30
      omega
  obtain ⟨d, hd, hget⟩ := C39_stored_partial w.db _ hwf
  obtain ⟨tr, d', hd', hrun, _, _⟩ := set_run (ownEntry P v t token params ren k.1 k.2) w nofun
  rw [hd] at hd'
  cases hd'
  refine ⟨ownEntry P v t token params ren k.1 k.2, { w with db := d }, hget, rfl, rfl, rfl, rfl, rfl, rfl, rfl, rfl, rfl, hsub, ?_, ?_⟩
  · rintro ⟨ho, hsu⟩
    unfold walletToken
    rw [hfe]
    dsimp only
    rw [run_need _ ht, run_need _ hk, run_need _ hren, bind_ok hrun, if_pos ⟨ho, hsub.mpr hsu⟩]
    rfl
  · intro hno w' h b
    unfold walletToken
    rw [hfe]
    dsimp only
    rw [run_need _ ht, run_need _ hk, run_need _ hren, bind_ok hrun, if_neg (fun hc => hno ⟨hc.1, hsub.mp hc.2⟩)]
    show (M.bind (reissueToken P v.env (t.hash P) owner) (fun h => M.pure (h, false)) { w with db := d }).2 = _ ↔ _
    unfold M.bind
    cases hx : reissueToken P v.env (t.hash P) owner { w with db := d } with
    | mk tr1 y =>
      obtain ⟨w2, r⟩ := y
      cases r with
      | ok a =>
        constructor
        · intro he
          replace he : (w2, (Res.ok (a, false) : Res E (Bytes × Bool))) = (w', .ok (h, b)) := he
          cases he
          exact ⟨rfl, rfl⟩
        · rintro ⟨rfl, he⟩
          cases he
          rfl
      | err x => exact ⟨(fun he => nomatch (Prod.mk.inj he).2), (fun ⟨_, he⟩ => nomatch (Prod.mk.inj he).2)⟩
      | panic => exact ⟨(fun he => nomatch (Prod.mk.inj he).2), (fun ⟨_, he⟩ => nomatch (Prod.mk.inj he).2)⟩

/-- C131, violated: a token whose key the client does not take, or that comes with parameters it
cannot read, is dropped. -/
theorem C131_lost_violated (P : Prims) (v : Ctx) (owner : Option Bytes) (w : World) (token : Bytes) (params : Option Bytes) (key : Bytes)
    (hfe : v.fetched = .ok (token, params, key)) (hbad : v.accept key = none ∨ renewable v params = none) :
    walletToken P v owner w = ([], w, .err .fatal) := by
  unfold walletToken
  rw [hfe]
  dsimp only
  cases ht : Token.unmarshal token with
  | none => rfl
  | some t =>
    rw [run_need _ rfl]
    cases hk : v.accept key with
    | none => rfl
    | some k =>
      rw [run_need _ rfl]
      rcases hbad with h | h
      · rw [hk] at h; cases h
      · rw [run_none _ h]

/-- `PublicKey.Unmarshal` and `Keypool.LoadKey` (walletserver.go:31-41) with a key pool. -/
def acceptKey (P : Prims) (utf8 : Bytes → Bool) (now : Int) (p : KeyPool.Pool) (b : Bytes) : Option (Bytes × Int) :=
  (KeyPool.PubKey.unmarshal utf8 b).bind fun k => if KeyPool.usable (p.loadKey P now k).2 then some (k.usage, k.expire) else none

/-- C131, violated: this happens to every token that a new client gets after it went online, because
it knows no verification keys (C90). -/
theorem C131_new_client_violated (P : Prims) (utf8 : Bytes → Bool) (now t : Int) (stored : List Bytes) (walletKey : Bytes) (db : Db) (row : Option Bytes)
    (server : Option (List Bytes)) (v : Ctx)
    (hv : v.accept = acceptKey P utf8 t ((Client.Client.new P utf8 now stored walletKey db row).goOnline server).pool)
    (owner : Option Bytes) (w : World) (token : Bytes) (params : Option Bytes) (key : Bytes) (hfe : v.fetched = .ok (token, params, key)) :
    walletToken P v owner w = ([], w, .err .fatal) := by
  refine C131_lost_violated P v owner w token params key hfe (.inl ?_)
  rw [hv]
  unfold acceptKey
  cases KeyPool.PubKey.unmarshal utf8 key with
  | none => rfl
  | some k =>
    have h := (Client.C90_new_client P utf8 now stored walletKey db row server t k).1
    rw [Option.bind_some, if_neg]
    have hno : ((Client.Client.new P utf8 now stored walletKey db row).goOnline server).pool.hasVerifyKey k.signer = false := by
      unfold KeyPool.Pool.hasVerifyKey
      rw [h]
      rfl
    unfold KeyPool.Pool.loadKey
    rw [hno]
    split
    · exact Bool.false_ne_true
    · split
      · exact Bool.false_ne_true
      · exact Bool.false_ne_true

/-! ### a concrete call -/

/-- A wallet server, an issuer and a key pool that take everything; the token of the server and the
new one differ in their first byte. -/
def exCtx : Ctx where
  env := { exEnv with loadKey := fun _ => true, newKey := fun _ => some ([117], 100), unblind := fun _ _ => some (Token.marshal ⟨[9], false, [], [], [], [], [], []⟩) }
  fetched := .ok (exToken, none, [1])
  accept := fun k => if k = [1] then some ([117], 90) else none
  canReissue := fun _ => some true
  walletKey := List.replicate 64 6
  now := 50
  ids := fun k => 10 + k
  id := 20

/-- An empty wallet. -/
def exW : World := ⟨⟨[], []⟩, [], []⟩

/-- The usage and owner of the token that was returned. -/
def what : Res E Got → Option (Bytes × Option Bytes)
  | .ok (.token e) => some (e.usage, e.ownerPub)
  | _ => none

theorem what_some {r : Res E Got} {x : Bytes × Option Bytes} (h : what r = some x) : ∃ e, r = .ok (.token e) ∧ e.usage = x.1 ∧ e.ownerPub = x.2 := by
  unfold what at h
  split at h
  · cases h; exact ⟨_, rfl, rfl, rfl⟩
  · cases h

/-- Non-vacuity of `C131_got_partial`: a token from the wallet server for an owner. -/
example : Good exPrims exCtx [117] (List.replicate 32 3) exW ∧ exCtx.ids 4 > 0 ∧
    ∃ tr w' e, getToken exPrims exCtx [117] (some (List.replicate 32 3)) exW = (tr, w', .ok (.token e)) ∧ e.usage = [117] ∧ e.ownerPub = some (List.replicate 32 3) := by
  refine ⟨⟨empty_wf, fun _ _ _ h => (by cases h), rfl, by decide, nofun, ?_, ?_, by decide⟩, by decide, ?_⟩
  · intro e he
    have : exW.db.findToken [117] = .err .noToken := by decide +kernel
    rw [this] at he
    cases he
  · intro token params key t hf ht
    cases hf
    have h1 : Token.unmarshal exToken = some ⟨[], false, [], [], [], [], [], []⟩ := by decide +kernel
    rw [h1] at ht
    cases ht
    refine ⟨⟨fun o ho => by cases ho; simp, fun p hp => by cases hp; simp, ?_, ?_⟩, nofun, by decide, nofun⟩
    · intro t k o p pk bl h
      simp only [exCtx, exEnv] at h
      split at h
      · cases h
        refine ⟨by simp, by simp, ?_⟩
        simp only [List.length_cons, List.length_nil]
        omega
      · cases h
    · intro b r x tok hx htok
      simp only [exCtx] at hx
      cases hx
      have h2 : Token.unmarshal (Token.marshal ⟨[9], false, [], [], [], [], [], []⟩) = some ⟨[9], false, [], [], [], [], [], []⟩ := by decide +kernel
      rw [h2] at htok
      cases htok
      decide
  · have h : what (getToken exPrims exCtx [117] (some (List.replicate 32 3)) exW).2.2 = some ([117], some (List.replicate 32 3)) := by decide +kernel
    obtain ⟨e, h1, h2, h3⟩ := what_some h
    exact ⟨_, _, e, by rw [← h1], h2, h3⟩

/-- Non-vacuity of `C131_stored_partial`: all its runs have worlds with the token in them. -/
example : exCtx.fetched = .ok (exToken, none, [1]) ∧ Token.unmarshal exToken = some ⟨[], false, [], [], [], [], [], []⟩ ∧
    exCtx.accept [1] = some ([117], 90) ∧ renewable exCtx none = some true ∧
    (walletToken exPrims exCtx (some (List.replicate 32 3)) exW).1.length > 8 := by decide +kernel

/-- Non-vacuity of `C131_handed_out`: a token without parameters, and one with parameters that do not
allow a reissue. -/
example : Subscription { exCtx with canReissue := fun _ => some false } (some [1]) ∧ ¬ Subscription exCtx none :=
  ⟨⟨[1], rfl, by decide, rfl⟩, fun ⟨_, h, _⟩ => nomatch h⟩

example := C131_handed_out exPrims { exCtx with fetched := .ok (exToken, some [1], [1]), canReissue := fun _ => some false } none exW exToken (some [1]) [1]
  ⟨[], false, [], [], [], [], [], []⟩ ([117], 90) rfl (by decide +kernel) rfl (fun _ _ => nofun) rfl nofun (by decide)

/-- C131, violated: the wallet server decides about the usage. Here a token for one usage is asked
for, and one with another is returned. -/
theorem C131_other_usage_violated : ∃ (P : Prims) (v : Ctx) (usage o : Bytes) (w : World) (e : Entry),
    v.env.online = true ∧ w.db.tokens = [] ∧ (getToken P v usage (some o) w).2.2 = .ok (.token e) ∧ e.usage ≠ usage := by
  have h : what (getToken exPrims { exCtx with env := { exCtx.env with newKey := fun _ => some ([118], 100) }, accept := fun _ => some ([118], 100) }
      [117] (some (List.replicate 32 3)) exW).2.2 = some ([118], some (List.replicate 32 3)) := by decide +kernel
  obtain ⟨e, h1, h2, _⟩ := what_some h
  exact ⟨_, _, _, _, _, e, rfl, rfl, h1, by rw [h2]; decide⟩

/-- Non-vacuity of `C131_in_wallet` and `C131_need_owner`. -/
example : exDb.balance [117] none > 0 ∧ (∀ r ∈ exDb.tokens, r.lockID ≠ exCtx.ids 4) ∧ exW.db.balance [117] none = 0 := by decide +kernel

/-- Non-vacuity of `C131_nil_violated`: a row whose state was not written, because the program that
wrote it stopped between the two statements. -/
example : let e : Entry := ⟨[1, 2], [3], some [1], some (List.replicate 32 5), none, true, true, [117], 100, none, none, none, none⟩
    ∃ g s, encodeToken e = .ok (g, s) ∧ ((Db.setRow ⟨[], []⟩ g).getAndLock [117] none 50 5 exCtx.ids).2 = .err .noRows :=
  ⟨_, _, rfl, by decide +kernel⟩

/-- Non-vacuity of `C131_lost_violated`. -/
example : ({ exCtx with fetched := .ok (exToken, none, [2]) } : Ctx).accept [2] = none := by decide

end Verif.Guard.GetToken
