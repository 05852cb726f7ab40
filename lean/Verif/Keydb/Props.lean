/-
C08: the persistent session store compared with the in-memory store.
-/
import Verif.Keydb.Model

namespace Verif.Keydb
open Verif.Msg Verif.Sql

/-- The operations of the session store interface. -/
inductive Op where
  | getState (k : Str)
  | setState (k : Str) (s : State)
  | store (k root chain : Str) (send recv : List Str)
  | has (k : Str)
  | key (k : Str) (sender : Bool) (i : UInt64)
  | num (k : Str)
  | root (k : Str)
  | chain (k : Str)
  | delKey (k : Str) (sender : Bool) (i : UInt64)
  | addSKey (h : Str) (ke : KeyEntry) (priv : Str)
  | getSKey (h : Str)
  | delSKey (h : Str)

/-- What the caller sees; all errors look alike. -/
inductive Ans where
  | done
  | bool (b : Bool)
  | state (s : Option State)
  | bytes (b : Bytes)
  | num (n : UInt64)
  | skey (ke : KeyEntry) (priv : Str)
  | error
  deriving DecidableEq

/-- The answer for a result. -/
def ansOf {α : Type} (f : α → Ans) : Except SErr α → Ans
  | .ok a => f a
  | .error _ => .error

/-- One operation on the database. -/
def dbStep (P : Prims) (db : DB) : Op → Ans × DB
  | .getState k => (ansOf .state (getState db k), db)
  | .setState k s => let r := setState db k s; (ansOf (fun _ => .done) r.1, r.2)
  | .store k root chain send recv =>
    let r := addSession db k root chain send recv; (ansOf (fun _ => .done) r.1, r.2)
  | .has k => (.bool (hasSession db k), db)
  | .key k s i => (ansOf .bytes (getMessageKey P db k s i), db)
  | .num k => (ansOf .num (numMessageKeys db k), db)
  | .root k => (ansOf .bytes (getRootKeyHash P db k), db)
  | .chain k => (ansOf .bytes (getChainKey P db k), db)
  | .delKey k s i => let r := delMessageKey db k s i; (ansOf (fun _ => .done) r.1, r.2)
  | .addSKey h ke p => let r := addSKey db h ke p; (ansOf (fun _ => .done) r.1, r.2)
  | .getSKey h => (ansOf (fun x => .skey x.1 x.2) (getSKey db h), db)
  | .delSKey h => let r := delSKey db h; (ansOf (fun _ => .done) r.1, r.2)

/-- One operation on the in-memory store. -/
def memStep (P : Prims) (ms : MemStore) : Op → Ans × MemStore
  | .getState k => (.state (ms.states k), ms)
  | .setState k s => (.done, { ms with states := Msg.upd ms.states k (some s) })
  | .store k root chain send recv =>
    let r := ms.storeSession k root chain send recv; (ansOf (fun _ => .done) r.1, r.2)
  | .has k => (.bool (ms.hasSession k), ms)
  | .key k s i => (ansOf .bytes (ms.getMessageKey P k s i), ms)
  | .num k => (ansOf .num (ms.numMessageKeys k), ms)
  | .root k => (ansOf .bytes (ms.getRootKeyHash P k), ms)
  | .chain k => (ansOf .bytes (ms.getChainKey P k), ms)
  | .delKey k s i => let r := ms.delMessageKey k s i; (ansOf (fun _ => .done) r.1, r.2)
  | .addSKey h ke p => (.done, { ms with skeys := Msg.upd ms.skeys h (some (ke, p)) })
  | .getSKey h => (ansOf (fun x => .skey x.1 x.2) (ms.getSessionKey h), ms)
  | .delSKey h => (.done, ms.delPrivSessionKey h)

/-- The answers of a history. -/
def dbRun (P : Prims) : DB → List Op → List Ans
  | _, [] => []
  | db, o :: os => (dbStep P db o).1 :: dbRun P (dbStep P db o).2 os

def memRun (P : Prims) : MemStore → List Op → List Ans
  | _, [] => []
  | ms, o :: os => (memStep P ms o).1 :: memRun P (memStep P ms o).2 os

/-- Which calls the partial result covers: sessions are stored once and never
extended, message keys are deleted only within the number of keys, session
keys are added once, texts that name something are not empty, and counters fit
in 63 bits. -/
def Op.Covered (ms : MemStore) : Op → Prop
  | .getState k => k ≠ []
  | .setState k s => k ≠ [] ∧ s.senderSessionCount.toNat < maxInt ∧
      s.senderMessageCount.toNat < maxInt ∧ s.maxRecipientCount.toNat < maxInt
  | .store k rt ch send recv => k ≠ [] ∧ rt ≠ [] ∧ ch ≠ [] ∧ ms.sessions k = none ∧
      (∀ x ∈ send, x ≠ []) ∧ (∀ x ∈ recv, x ≠ []) ∧ send.length < maxInt
  | .delKey k _ i => ∀ s, ms.sessions k = some s → i.toNat < s.send.length
  | .addSKey h _ p => h ≠ [] ∧ p ≠ [] ∧ ms.skeys h = none
  | .getSKey h => h ≠ []
  | .delSKey h => h ≠ []
  | _ => True

/-- Every call of the history is covered in the state it is made in. -/
def Covered (P : Prims) : MemStore → List Op → Prop
  | _, [] => True
  | ms, o :: os => o.Covered ms ∧ Covered P (memStep P ms o).2 os

/-! ### Simulation -/

/-- The rows the loop of `AddSession` inserts. -/
def keyRows (sid : Nat) : Nat → List Str → List Str → List KeyRow
  | off, s :: ss, r :: rs => ⟨sid, off, s, true⟩ :: ⟨sid, off, r, false⟩ :: keyRows sid (off + 1) ss rs
  | _, _, _ => []

theorem addKeys_spec (db : DB) (sid off : Nat) (send recv : List Str) :
    vals (addKeys db sid off send recv).keys = vals db.keys ++ keyRows sid off send recv ∧
    (addKeys db sid off send recv).sessions = db.sessions ∧
    (addKeys db sid off send recv).states = db.states ∧
    (addKeys db sid off send recv).skeys = db.skeys := by
  induction send generalizing db off recv with
  | nil => simp [addKeys, keyRows]
  | cons s ss ih =>
    cases recv with
    | nil => simp [addKeys, keyRows]
    | cons r rs =>
      obtain ⟨a, b, c, d⟩ := ih (addKey (addKey db ⟨sid, off, s, true⟩) ⟨sid, off, r, false⟩)
        (off + 1) rs
      simp only [addKeys, keyRows]
      refine ⟨?_, b, c, d⟩
      rw [a]
      simp [addKey, vals_insert]

theorem keyRows_sid (sid off : Nat) (send recv : List Str) :
    ∀ r ∈ keyRows sid off send recv, r.sid = sid := by
  induction send generalizing off recv with
  | nil => simp [keyRows]
  | cons s ss ih =>
    cases recv with
    | nil => simp [keyRows]
    | cons r rs =>
      intro x hx
      simp only [keyRows, List.mem_cons] at hx
      rcases hx with rfl | rfl | hx
      · rfl
      · rfl
      · exact ih (off + 1) rs x hx

theorem find_none_of_sid {l : List KeyRow} {sid number : Nat} {d : Bool} (h : ∀ r ∈ l, r.sid ≠ sid) :
    l.find? (keyQuery sid number d) = none := by
  rw [List.find?_eq_none]
  intro r hr
  simp [keyQuery, h r hr]

theorem keyRows_find (sid off : Nat) (send recv : List Str) (hl : send.length = recv.length)
    (i : Nat) (d : Bool) :
    ((keyRows sid off send recv).find? (keyQuery sid i d)).map KeyRow.key =
      if i < off then none else (if d then send else recv)[i - off]? := by
  induction send generalizing off recv with
  | nil =>
    have : recv = [] := List.length_eq_zero_iff.mp (by simpa using hl.symm)
    subst this
    cases d <;> simp [keyRows]
  | cons s ss ih =>
    cases recv with
    | nil => simp at hl
    | cons r rs =>
      have hi := ih (off + 1) rs (by simpa using hl)
      simp only [keyRows, List.find?_cons]
      by_cases h1 : i = off
      · subst h1
        cases d
        · simp [keyQuery]
        · simp [keyQuery]
      · have e1 : keyQuery sid i d ⟨sid, off, s, true⟩ = false := by
          simp [keyQuery]; intro h; omega
        have e2 : keyQuery sid i d ⟨sid, off, r, false⟩ = false := by
          simp [keyQuery]; intro h; omega
        rw [e1, e2]
        simp only
        rw [hi]
        by_cases h2 : i < off
        · rw [if_pos (by omega), if_pos h2]
        · rw [if_neg (by omega), if_neg h2]
          obtain ⟨j, rfl⟩ : ∃ j, i = off + (j + 1) := ⟨i - off - 1, by omega⟩
          rw [show off + (j + 1) - (off + 1) = j by omega, show off + (j + 1) - off = j + 1 by omega]
          cases d <;> simp

/-- A used (empty) entry counts as absent. -/
def live : Option Str → Option Str
  | some [] => none
  | x => x

/-- The database and the in-memory store hold the same sessions. -/
structure R (ms : MemStore) (db : DB) : Prop where
  sess : ∀ k, match getSession db k with
    | none => ms.sessions k = none
    | some (id, row) => ∃ s, ms.sessions k = some s ∧ row.root = s.root ∧ row.chain = s.chain ∧
        row.num = s.send.length ∧ s.send.length = s.recv.length ∧ s.send.length < maxInt ∧
        ∀ (i : Nat) d, ((vals db.keys).find? (keyQuery id i d)).map KeyRow.key =
          live (if d then s.send else s.recv)[i]?
  inj : ∀ k k' id r r', getSession db k = some (id, r) → getSession db k' = some (id, r') → k = k'
  old : ∀ r ∈ vals db.keys, r.sid < nextId db.sessions
  states : ∀ k, (first (fun r => r.1 == k) db.states).map (fun r => r.2.2) = ms.states k
  skeys : ∀ h, (first (fun r => r.hash == h) db.skeys).map (fun r => (r.2.ke, r.2.priv)) = ms.skeys h

theorem R_new : R MemStore.new DB.new := by
  constructor <;> intros <;> simp_all [getSession, first, DB.new, MemStore.new, vals]

theorem getSession_mem {db : DB} {k : Str} {id : Nat} {r : SessRow}
    (h : getSession db k = some (id, r)) : (id, r) ∈ db.sessions ∧ r.key = k := by
  unfold getSession first at h
  exact ⟨List.mem_of_find?_eq_some h, by simpa using List.find?_some h⟩

theorem R.store {ms : MemStore} {db : DB} (h : R ms db) {k root chain : Str} {send recv : List Str}
    (hc : Op.Covered ms (.store k root chain send recv)) :
    ansOf (fun _ => Ans.done) (addSession db k root chain send recv).1 =
      ansOf (fun _ => Ans.done) (ms.storeSession k root chain send recv).1 ∧
    R (ms.storeSession k root chain send recv).2 (addSession db k root chain send recv).2 := by
  obtain ⟨hk, hr, hch, hnone, hs, hrv, hlen⟩ := hc
  unfold addSession MemStore.storeSession
  rw [if_neg hk, if_neg hr, if_neg hch]
  by_cases hl : send.length ≠ recv.length
  · rw [if_pos hl, if_pos hl]
    exact ⟨rfl, h⟩
  rw [if_neg hl, if_neg hl, hnone]
  have hl : send.length = recv.length := by omega
  have hg : getSession db k = none := by
    have := h.sess k
    cases hg : getSession db k with
    | none => rfl
    | some x =>
      obtain ⟨id, row⟩ := x
      rw [hg] at this
      obtain ⟨s, hs, -⟩ := this
      rw [hnone] at hs; cases hs
  rw [hg]
  simp only
  refine ⟨trivial, ?_⟩
  obtain ⟨db1, hdb1⟩ : ∃ db1 : DB, db1 = { db with
    sessions := insert db.sessions ⟨k, root, chain, send.length⟩, lastId := nextId db.sessions } :=
    ⟨_, rfl⟩
  rw [← hdb1]
  obtain ⟨a1, a2, a3, a4⟩ := addKeys_spec db1 (nextId db.sessions) 0 send recv
  obtain ⟨db2, hdb2⟩ : ∃ db2, db2 = addKeys db1 (nextId db.sessions) 0 send recv := ⟨_, rfl⟩
  rw [← hdb2] at a1 a2 a3 a4 ⊢
  have b1 : vals db2.keys = vals db.keys ++ keyRows (nextId db.sessions) 0 send recv := by
    rw [a1, hdb1]
  have b2 : db2.sessions = insert db.sessions ⟨k, root, chain, send.length⟩ := by rw [a2, hdb1]
  have b3 : db2.states = db.states := by rw [a3, hdb1]
  have b4 : db2.skeys = db.skeys := by rw [a4, hdb1]
  have gs : ∀ k', getSession db2 k' = (getSession db k').or
      (if k = k' then some (nextId db.sessions, ⟨k, root, chain, send.length⟩) else none) := by
    intro k'
    unfold getSession
    rw [b2, first_insert]
    by_cases hkk : k = k' <;> simp [hkk]
  have gk : getSession db2 k = some (nextId db.sessions, ⟨k, root, chain, send.length⟩) := by
    rw [gs, hg]; simp
  have go : ∀ k', k' ≠ k → getSession db2 k' = getSession db k' := by
    intro k' hne
    rw [gs, if_neg (fun e => hne e.symm)]
    cases getSession db k' <;> rfl
  have hmono : nextId db.sessions < nextId db2.sessions := by
    rw [b2]
    exact lt_nextId _ (r := (nextId db.sessions, ⟨k, root, chain, send.length⟩)) (by simp [Sql.insert])
  constructor
  · intro k'
    by_cases hkk : k' = k
    · subst hkk
      rw [gk]
      refine ⟨⟨root, chain, send, recv⟩, by simp [MemStore.setSess, Msg.upd], rfl, rfl, rfl, hl, hlen, ?_⟩
      intro i d
      rw [b1, List.find?_append, find_none_of_sid (fun r hr => Nat.ne_of_lt (h.old r hr)),
        Option.none_or, keyRows_find _ _ _ _ hl]
      simp only [Nat.not_lt_zero, if_false, Nat.sub_zero]
      have : ∀ (l : List Str), (∀ x ∈ l, x ≠ []) → l[i]? = live l[i]? := by
        intro l hl
        cases hx : l[i]? with
        | none => rfl
        | some x =>
          cases x with
          | nil => exact absurd rfl (hl _ (List.mem_of_getElem? hx))
          | cons => rfl
      cases d
      · exact this recv hrv
      · exact this send hs
    · rw [go k' hkk]
      have hold := h.sess k'
      cases hg' : getSession db k' with
      | none =>
        rw [hg'] at hold
        show Msg.upd ms.sessions k _ k' = none
        simp [Msg.upd, hkk]
        exact hold
      | some x =>
        obtain ⟨id, row⟩ := x
        rw [hg'] at hold
        obtain ⟨s, hs1, c1, c2, c3, c4, c5, c6⟩ := hold
        refine ⟨s, by simp [MemStore.setSess, Msg.upd, hkk, hs1], c1, c2, c3, c4, c5, ?_⟩
        intro i d
        rw [b1, List.find?_append]
        have hid := lt_nextId _ (getSession_mem hg').1
        rw [find_none_of_sid (l := keyRows _ 0 send recv) (fun r hr => by
          rw [keyRows_sid _ _ _ _ r hr]; exact fun e => absurd e (Nat.ne_of_gt hid)),
          Option.or_none]
        exact c6 i d
  · intro k1 k2 id r1 r2 h1 h2
    by_cases e1 : k1 = k <;> by_cases e2 : k2 = k
    · rw [e1, e2]
    · subst e1
      rw [gk] at h1
      rw [go k2 e2] at h2
      have hid := lt_nextId _ (getSession_mem h2).1
      simp only [Option.some.injEq, Prod.mk.injEq] at h1
      have hx : nextId db.sessions = id := h1.1
      simp only at hid
      omega
    · subst e2
      rw [gk] at h2
      rw [go k1 e1] at h1
      have hid := lt_nextId _ (getSession_mem h1).1
      simp only [Option.some.injEq, Prod.mk.injEq] at h2
      have hx : nextId db.sessions = id := h2.1
      simp only at hid
      omega
    · rw [go k1 e1] at h1
      rw [go k2 e2] at h2
      exact h.inj k1 k2 id r1 r2 h1 h2
  · intro r hr
    rw [b1] at hr
    rcases List.mem_append.mp hr with hr | hr
    · exact Nat.lt_trans (h.old r hr) hmono
    · rw [keyRows_sid _ _ _ _ r hr]; exact hmono
  · intro k'; rw [b3]; exact h.states k'
  · intro h'; rw [b4]; exact h.skeys h'

theorem live_set (l : List Str) (n i : Nat) (hn : n < l.length) :
    live (l.set n [])[i]? = if i = n then none else live l[i]? := by
  rw [List.getElem?_set]
  by_cases h : n = i
  · subst h; simp [hn, live]
  · rw [if_neg h, if_neg (fun e => h e.symm)]

theorem R.delKey {ms : MemStore} {db : DB} (h : R ms db) {k : Str} {sender : Bool} {i : UInt64}
    (hc : Op.Covered ms (.delKey k sender i)) :
    ansOf (fun _ => Ans.done) (delMessageKey db k sender i).1 =
      ansOf (fun _ => Ans.done) (ms.delMessageKey k sender i).1 ∧
    R (ms.delMessageKey k sender i).2 (delMessageKey db k sender i).2 := by
  unfold delMessageKey MemStore.delMessageKey
  have hold := h.sess k
  cases hg : getSession db k with
  | none =>
    rw [hg] at hold
    rw [hold]
    exact ⟨rfl, h⟩
  | some x =>
    obtain ⟨id, row⟩ := x
    rw [hg] at hold
    obtain ⟨s, hs1, c1, c2, c3, c4, c5, c6⟩ := hold
    rw [hs1]
    have hi : i.toNat < s.send.length := hc s hs1
    simp only
    rw [if_neg (by omega), if_neg (by omega)]
    refine ⟨rfl, ?_⟩
    obtain ⟨s', hs'⟩ : ∃ s' : Sess, s' = (if sender then { s with send := s.send.set i.toNat [] }
      else { s with recv := s.recv.set i.toNat [] } : Sess) := ⟨_, rfl⟩
    show R (ms.setSess k (if sender then { s with send := s.send.set i.toNat [] }
      else { s with recv := s.recv.set i.toNat [] } : Sess)) _
    rw [← hs']
    have hgs : ∀ k', getSession { db with keys := delete (keyQuery id i.toNat sender) db.keys } k' =
        getSession db k' := fun _ => rfl
    constructor
    · intro k'
      rw [hgs]
      by_cases hkk : k' = k
      · subst hkk
        rw [hg]
        refine ⟨s', by simp [MemStore.setSess, Msg.upd], ?_, ?_, ?_, ?_, ?_, ?_⟩
        · rw [hs', c1]; cases sender <;> rfl
        · rw [hs', c2]; cases sender <;> rfl
        · rw [hs', c3]; cases sender <;> simp
        · rw [hs']; cases sender <;> simp [c4]
        · rw [hs']; cases sender <;> simp [c5]
        · intro j d
          rw [vals_delete, List.find?_filter]
          by_cases hjd : j = i.toNat ∧ d = sender
          · obtain ⟨rfl, rfl⟩ := hjd
            rw [show List.find? (fun a => decide ((!keyQuery id i.toNat d a) = true ∧
                keyQuery id i.toNat d a = true)) (vals db.keys) = none by
              rw [List.find?_eq_none]
              intro x _
              cases keyQuery id i.toNat d x <;> simp]
            rw [hs']
            cases d
            · simp only [Option.map_none, Bool.false_eq_true, if_false]
              rw [live_set _ _ _ (by omega)]; simp
            · simp only [Option.map_none, if_true]
              rw [live_set _ _ _ (by omega)]; simp
          · rw [show (fun a => decide ((!keyQuery id i.toNat sender a) = true ∧
                keyQuery id j d a = true)) = keyQuery id j d by
              funext a
              cases ha : keyQuery id j d a
              · simp
              · simp only [and_true, decide_eq_true_eq, Bool.not_eq_eq_eq_not, Bool.not_true]
                simp only [keyQuery, Bool.and_eq_true, beq_iff_eq] at ha
                rw [Bool.eq_false_iff]
                intro hb
                simp only [keyQuery, Bool.and_eq_true, beq_iff_eq] at hb
                exact hjd ⟨by omega, ha.2.symm.trans hb.2⟩]
            rw [c6 j d, hs']
            cases sender <;> cases d
            · simp only [Bool.false_eq_true, if_false]
              rw [live_set _ _ _ (by omega), if_neg (fun e => hjd ⟨e, rfl⟩)]
            · rfl
            · rfl
            · simp only [if_true]
              rw [live_set _ _ _ (by omega), if_neg (fun e => hjd ⟨e, rfl⟩)]
      · have hold := h.sess k'
        cases hg' : getSession db k' with
        | none =>
          rw [hg'] at hold
          show Msg.upd ms.sessions k _ k' = none
          simp [Msg.upd, hkk]
          exact hold
        | some x =>
          obtain ⟨id', row'⟩ := x
          rw [hg'] at hold
          obtain ⟨s2, q1, q2, q3, q4, q5, q6, q7⟩ := hold
          refine ⟨s2, by simp [MemStore.setSess, Msg.upd, hkk, q1], q2, q3, q4, q5, q6, ?_⟩
          intro j d
          rw [vals_delete, List.find?_filter, ← q7 j d]
          have hid : id' ≠ id := fun e => hkk (h.inj k' k id' row' row hg' (e ▸ hg))
          congr 2
          funext a
          cases ha : keyQuery id' j d a
          · simp
          · simp only [and_true, decide_eq_true_eq, Bool.not_eq_eq_eq_not, Bool.not_true]
            simp only [keyQuery, Bool.and_eq_true, beq_iff_eq] at ha
            rw [Bool.eq_false_iff]
            intro hb
            simp only [keyQuery, Bool.and_eq_true, beq_iff_eq] at hb
            exact hid (ha.1.1.symm.trans hb.1.1)
    · exact h.inj
    · intro r hr
      rw [vals_delete] at hr
      exact h.old r ((List.mem_filter.mp hr).1)
    · exact h.states
    · exact h.skeys

theorem R.key (P : Prims) {ms : MemStore} {db : DB} (h : R ms db) (k : Str) (sender : Bool)
    (i : UInt64) :
    ansOf Ans.bytes (getMessageKey P db k sender i) =
      ansOf Ans.bytes (ms.getMessageKey P k sender i) := by
  unfold getMessageKey getKeyText MemStore.getMessageKey
  have hold := h.sess k
  cases hg : getSession db k with
  | none => rw [hg] at hold; rw [hold]
  | some x =>
    obtain ⟨id, row⟩ := x
    rw [hg] at hold
    obtain ⟨s, hs1, c1, c2, c3, c4, c5, c6⟩ := hold
    rw [hs1]
    simp only
    by_cases hi : s.send.length ≤ i.toNat
    · rw [if_pos hi]
      by_cases hm : maxInt ≤ i.toNat
      · rw [if_pos hm]; rfl
      · rw [if_neg hm]
        have := c6 i.toNat sender
        rw [← first_vals] at this
        have hn : (if sender then s.send else s.recv)[i.toNat]? = none := by
          cases sender
          · exact List.getElem?_eq_none (by show s.recv.length ≤ _; omega)
          · exact List.getElem?_eq_none hi
        rw [hn] at this
        cases hf : first (keyQuery id i.toNat sender) db.keys with
        | none => rfl
        | some x => rw [hf] at this; simp [live] at this
    · rw [if_neg hi, if_neg (by omega)]
      have := c6 i.toNat sender
      rw [← first_vals] at this
      have hlt : i.toNat < (if sender then s.send else s.recv).length := by
        cases sender
        · show i.toNat < s.recv.length; omega
        · show i.toNat < s.send.length; omega
      rw [List.getElem?_eq_getElem hlt] at this ⊢
      generalize (if sender then s.send else s.recv)[i.toNat] = key at *
      cases key with
      | nil =>
        cases hf : first (keyQuery id i.toNat sender) db.keys with
        | none => rfl
        | some x => rw [hf] at this; simp [live] at this
      | cons c cs =>
        cases hf : first (keyQuery id i.toNat sender) db.keys with
        | none => rw [hf] at this; simp [live] at this
        | some x =>
          rw [hf] at this
          simp only [Option.map_some, live, Option.some.injEq] at this
          simp only [this]
          rw [if_neg (by simp)]
          rfl

theorem first_isSome_iff {ms : MemStore} {db : DB} (h : R ms db) (k : Str) :
    (getSession db k).isSome = (ms.sessions k).isSome := by
  have := h.sess k
  cases hg : getSession db k with
  | none => rw [hg] at this; simp only at this; rw [this]; rfl
  | some x => rw [hg] at this; obtain ⟨s, hs, -⟩ := this; rw [hs]; rfl

theorem R.step (P : Prims) {ms : MemStore} {db : DB} (h : R ms db) (o : Op) (hc : o.Covered ms) :
    (dbStep P db o).1 = (memStep P ms o).1 ∧ R (memStep P ms o).2 (dbStep P db o).2 := by
  cases o with
  | getState k =>
    refine ⟨?_, h⟩
    show ansOf _ (Keydb.getState db k) = _
    unfold Keydb.getState
    rw [if_neg hc, h.states]; rfl
  | setState k s =>
    obtain ⟨h1, h2, h3, h4⟩ := hc
    show ansOf _ (Keydb.setState db k s).1 = _ ∧ R _ (Keydb.setState db k s).2
    unfold Keydb.setState
    rw [if_neg h1, if_neg (by omega)]
    cases hf : first (fun r : Str × State => r.1 == k) db.states with
    | some x =>
      simp only [Option.isSome_some, if_true]
      refine ⟨rfl, ⟨h.sess, h.inj, h.old, ?_, h.skeys⟩⟩
      intro k'
      rw [first_update (fun r : Str × State => r.1 == k') (fun r => r.1 == k) (fun r => (r.1, s)) db.states
        (fun a _ => rfl)]
      by_cases hk : k' = k
      · subst hk
        rw [hf]
        have hx : x.2.1 = k' := by simpa using List.find?_some hf
        simp [memStep, Msg.upd, hx]
      · have hxk : ∀ y, first (fun r : Str × State => r.1 == k') db.states = some y → y.2.1 ≠ k := by
          intro y hy
          have : y.2.1 = k' := by simpa using List.find?_some hy
          rw [this]; exact hk
        have := h.states k'
        simp only [memStep, Msg.upd, hk, if_false]
        rw [← this]
        cases hy : first (fun r : Str × State => r.1 == k') db.states with
        | none => rfl
        | some y => simp [hxk y hy]
    | none =>
      simp only [Option.isSome_none, Bool.false_eq_true, if_false]
      refine ⟨rfl, ⟨h.sess, h.inj, h.old, ?_, h.skeys⟩⟩
      intro k'
      rw [first_insert]
      by_cases hk : k' = k
      · subst hk; rw [hf]; simp [memStep, Msg.upd]
      · have := h.states k'
        simp only [memStep, Msg.upd, hk, if_false]
        rw [← this, if_neg (by simpa using fun e => hk e.symm)]
        simp
  | store k root chain send recv => exact h.store hc
  | has k =>
    refine ⟨?_, h⟩
    show Ans.bool (getSession db k).isSome = .bool (ms.sessions k).isSome
    rw [first_isSome_iff h]
  | key k s i => exact ⟨h.key P k s i, h⟩
  | num k =>
    refine ⟨?_, h⟩
    show ansOf _ (numMessageKeys db k) = ansOf _ (ms.numMessageKeys k)
    unfold numMessageKeys MemStore.numMessageKeys
    have := h.sess k
    cases hg : getSession db k with
    | none => rw [hg] at this; rw [this]
    | some x =>
      rw [hg] at this
      obtain ⟨s, hs, -, -, hn, -⟩ := this
      rw [hs]; simp only [hn]
  | root k =>
    refine ⟨?_, h⟩
    show ansOf _ (getRootKeyHash P db k) = ansOf _ (ms.getRootKeyHash P k)
    unfold getRootKeyHash MemStore.getRootKeyHash
    have := h.sess k
    cases hg : getSession db k with
    | none => rw [hg] at this; rw [this]
    | some x =>
      rw [hg] at this
      obtain ⟨s, hs, hr, -⟩ := this
      rw [hs]; simp only [hr]; rfl
  | chain k =>
    refine ⟨?_, h⟩
    show ansOf _ (getChainKey P db k) = ansOf _ (ms.getChainKey P k)
    unfold getChainKey MemStore.getChainKey
    have := h.sess k
    cases hg : getSession db k with
    | none => rw [hg] at this; rw [this]
    | some x =>
      rw [hg] at this
      obtain ⟨s, hs, -, hr, -⟩ := this
      rw [hs]; simp only [hr]; rfl
  | delKey k s i => exact h.delKey hc
  | addSKey hh ke p =>
    obtain ⟨h1, h2, h3⟩ := hc
    show ansOf _ (Keydb.addSKey db hh ke p).1 = _ ∧ R _ (Keydb.addSKey db hh ke p).2
    unfold Keydb.addSKey
    rw [if_neg h1, if_neg h2]
    refine ⟨rfl, ⟨h.sess, h.inj, h.old, h.states, ?_⟩⟩
    intro h'
    rw [first_insert]
    have := h.skeys h'
    by_cases hk : h' = hh
    · subst hk
      rw [h3] at this
      simp only [Option.map_eq_none_iff] at this
      rw [this]; simp [memStep, Msg.upd]
    · simp only [memStep, Msg.upd, hk, if_false]
      rw [← this, if_neg (by simpa using fun e => hk e.symm)]
      simp
  | getSKey hh =>
    refine ⟨?_, h⟩
    show ansOf _ (Keydb.getSKey db hh) = ansOf _ (ms.getSessionKey hh)
    unfold Keydb.getSKey MemStore.getSessionKey
    rw [if_neg hc, ← h.skeys hh]
    cases first (fun r : SKeyRow => r.hash == hh) db.skeys <;> rfl
  | delSKey hh =>
    show ansOf _ (Keydb.delSKey db hh).1 = _ ∧ R _ (Keydb.delSKey db hh).2
    unfold Keydb.delSKey
    rw [if_neg hc]
    refine ⟨rfl, ?_⟩
    have hs : (memStep P ms (.delSKey hh)).2 = ms.delPrivSessionKey hh := rfl
    rw [hs]
    have key : ∀ h', (first (fun r : SKeyRow => r.hash == h')
        (update (fun r => r.hash == hh) (fun r => { r with priv := [] }) db.skeys)).map
          (fun r => (r.2.ke, r.2.priv)) = (ms.delPrivSessionKey hh).skeys h' := by
      intro h'
      rw [first_update (fun r : SKeyRow => r.hash == h') (fun r => r.hash == hh)
        (fun r => { r with priv := [] }) db.skeys (fun a _ => rfl)]
      have hsk := h.skeys h'
      have hq0 := h.skeys hh
      by_cases hk : h' = hh
      · subst hk
        unfold MemStore.delPrivSessionKey
        cases hf : first (fun r : SKeyRow => r.hash == h') db.skeys with
        | none => rw [hf] at hsk; rw [← hsk]; simp only [Option.map_none]; exact hsk
        | some y =>
          have : y.2.hash = h' := by simpa using List.find?_some hf
          rw [hf] at hsk
          rw [← hsk]
          simp [this, Msg.upd]
      · have e : ∀ y, first (fun r : SKeyRow => r.hash == h') db.skeys = some y → y.2.hash ≠ hh := by
          intro y hy
          have : y.2.hash = h' := by simpa using List.find?_some hy
          rw [this]; exact hk
        have : (ms.delPrivSessionKey hh).skeys h' = ms.skeys h' := by
          unfold MemStore.delPrivSessionKey
          cases ms.skeys hh with
          | none => rfl
          | some x => simp [Msg.upd, hk]
        rw [this, ← hsk]
        cases hf : first (fun r : SKeyRow => r.hash == h') db.skeys with
        | none => rfl
        | some y => simp [e y hf]
    have other : ∀ (f : MemStore), f = ms.delPrivSessionKey hh → f.sessions = ms.sessions ∧
        f.states = ms.states := by
      intro f hf
      rw [hf]
      unfold MemStore.delPrivSessionKey
      split <;> exact ⟨rfl, rfl⟩
    obtain ⟨o1, o2⟩ := other _ rfl
    exact ⟨by rw [o1]; exact h.sess, h.inj, h.old, by rw [o2]; exact h.states, key⟩

/-! ### C08 -/

/-- On every covered history the database store gives the same answers as the
in-memory store. Missing from the full property: session extensions, which the
database gets wrong (`C08_extension_keys_lost`), deletes beyond the last key
(`C08_delete_out_of_range`), session keys added twice
(`C08_session_key_added_twice`), empty names and counters beyond 63 bits. -/
theorem C08_same_answers_partial (P : Prims) (ops : List Op) (hc : Covered P MemStore.new ops) :
    dbRun P DB.new ops = memRun P MemStore.new ops := by
  have main : ∀ (ops : List Op) (ms : MemStore) (db : DB), R ms db → Covered P ms ops →
      dbRun P db ops = memRun P ms ops := by
    intro ops
    induction ops with
    | nil => intros; rfl
    | cons o os ih =>
      intro ms db h hc
      obtain ⟨a, b⟩ := h.step P o hc.1
      show (dbStep P db o).1 :: dbRun P (dbStep P db o).2 os = _ :: _
      rw [a, ih _ _ b hc.2]
  exact main ops _ _ R_new hc

theorem lastId_addKeys (db : DB) (sid off : Nat) (send recv : List Str) (hn : send ≠ [])
    (hl : send.length = recv.length) (hk : ∀ j, j < db.keys.length → (db.keys[j]?).map Prod.fst = some (j + 1)) :
    (addKeys db sid off send recv).lastId = db.keys.length + 2 * send.length := by
  have next : ∀ (t : Table KeyRow), (∀ j, j < t.length → (t[j]?).map Prod.fst = some (j + 1)) →
      nextId t = t.length + 1 := by
    intro t ht
    have : t.map Prod.fst = (List.range t.length).map (· + 1) := by
      apply List.ext_getElem?
      intro j
      by_cases hj : j < t.length
      · rw [List.getElem?_map, ht j hj]; simp [hj]
      · rw [List.getElem?_eq_none (by simp; omega), List.getElem?_eq_none (by simp; omega)]
    unfold nextId
    rw [this]
    have : ∀ n, ((List.range n).map (· + 1)).foldl max 0 = n := by
      intro n
      induction n with
      | zero => rfl
      | succ n ih => rw [List.range_succ, List.map_append, List.foldl_append, ih]; simp
    rw [this]
  have ins : ∀ (t : Table KeyRow) (a : KeyRow),
      (∀ j, j < t.length → (t[j]?).map Prod.fst = some (j + 1)) →
      ∀ j, j < (insert t a).length → ((insert t a)[j]?).map Prod.fst = some (j + 1) := by
    intro t a ht j hj
    unfold Sql.insert at *
    simp only [List.length_append, List.length_cons, List.length_nil] at hj
    by_cases h : j < t.length
    · rw [List.getElem?_append_left h]; exact ht j h
    · have : j = t.length := by omega
      subst this
      rw [List.getElem?_append_right (Nat.le_refl _)]
      simp [next t ht]
  have step : ∀ (db : DB) (a b : KeyRow),
      (∀ j, j < db.keys.length → (db.keys[j]?).map Prod.fst = some (j + 1)) →
      (∀ j, j < (addKey (addKey db a) b).keys.length →
        ((addKey (addKey db a) b).keys[j]?).map Prod.fst = some (j + 1)) ∧
      (addKey (addKey db a) b).keys.length = db.keys.length + 2 ∧
      (addKey (addKey db a) b).lastId = db.keys.length + 2 := by
    intro db a b h
    have h1 := ins db.keys a h
    refine ⟨ins _ b h1, by simp [addKey, Sql.insert], ?_⟩
    show nextId (insert db.keys a) = _
    rw [next _ h1]; simp [Sql.insert]
  have main : ∀ (send recv : List Str) (off : Nat) (db : DB), send.length = recv.length →
      (∀ j, j < db.keys.length → (db.keys[j]?).map Prod.fst = some (j + 1)) →
      (db.lastId = db.keys.length ∨ send ≠ []) →
      (addKeys db sid off send recv).lastId = db.keys.length + 2 * send.length := by
    intro send
    induction send with
    | nil =>
      intro recv off db _ _ h
      rcases h with h | h
      · simp [addKeys, h]
      · exact absurd rfl h
    | cons s ss ih =>
      intro recv off db hl hk _
      cases recv with
      | nil => simp at hl
      | cons r rs =>
        obtain ⟨p1, p2, p3⟩ := step db ⟨sid, off, s, true⟩ ⟨sid, off, r, false⟩ hk
        have := ih rs (off + 1) _ (by simpa using hl) p1 (Or.inl (by omega))
        show (addKeys (addKey (addKey db _) _) sid (off + 1) ss rs).lastId = _
        rw [this, p2]
        simp only [List.length_cons]; omega
  exact main send recv off db hl hk (Or.inr hn)

/-- A session that is extended (stored a second time, with further keys) in a
new database: the number of keys grows as in memory, but none of the added
keys can be read, whatever the keys are. The in-memory store returns them. -/
theorem C08_extension_keys_lost (P : Prims) (k root chain chain2 : Str) (send recv send2 recv2 : List Str)
    (hk : k ≠ []) (hr : root ≠ []) (hc : chain ≠ []) (hc2 : chain2 ≠ [])
    (hl : send.length = recv.length) (hl2 : send2.length = recv2.length) (hn : send ≠ []) :
    let db := (addSession (addSession DB.new k root chain send recv).2 k root chain2 send2 recv2).2
    let ms := ((MemStore.new.storeSession k root chain send recv).2.storeSession k root chain2
      send2 recv2).2
    numMessageKeys db k = .ok (UInt64.ofNat (send.length + send2.length)) ∧
    ms.numMessageKeys k = .ok (UInt64.ofNat (send.length + send2.length)) ∧
    ∀ (i : UInt64) (sender : Bool), send.length ≤ i.toNat →
      (∃ e, getMessageKey P db k sender i = .error e) ∧
      ∀ key b, (if sender then send2 else recv2)[i.toNat - send.length]? = some key → key ≠ [] →
        P.unb64 key = some b → 64 ≤ b.length → ms.getMessageKey P k sender i = .ok (b.take 64) := by
  intro db ms
  -- the first call
  obtain ⟨d1, hd1⟩ : ∃ d1 : DB, d1 = ⟨insert [] ⟨k, root, chain, send.length⟩, [], [], [], 1⟩ := ⟨_, rfl⟩
  have e1 : (addSession DB.new k root chain send recv).2 = addKeys d1 1 0 send recv := by
    unfold addSession
    rw [if_neg hk, if_neg hr, if_neg hc, if_neg (by omega)]
    rw [hd1]; rfl
  obtain ⟨a1, a2, a3, a4⟩ := addKeys_spec d1 1 0 send recv
  have hlast := lastId_addKeys d1 1 0 send recv hn hl (by rw [hd1]; intro j hj; simp at hj)
  obtain ⟨d2, hd2⟩ : ∃ d2, d2 = addKeys d1 1 0 send recv := ⟨_, rfl⟩
  rw [← hd2] at a1 a2 hlast e1
  have hg : getSession d2 k = some (1, ⟨k, root, chain, send.length⟩) := by
    unfold getSession first; rw [a2, hd1]; simp [Sql.insert, nextId]
  obtain ⟨st, hst⟩ : ∃ st : SessRow → SessRow,
    st = fun r => { r with chain := chain2, num := send.length + send2.length } := ⟨_, rfl⟩
  obtain ⟨d3, hd3⟩ : ∃ d3 : DB, d3 =
    { d2 with sessions := update (fun r => r.key == k) st d2.sessions } := ⟨_, rfl⟩
  have e2 : db = addKeys d3 d2.lastId send.length send2 recv2 := by
    show (addSession _ k root chain2 send2 recv2).2 = _
    rw [e1]
    unfold addSession
    rw [if_neg hk, if_neg hr, if_neg hc2, if_neg (by omega), hg]
    rw [hd3, hst]
  obtain ⟨b1, b2, -, -⟩ := addKeys_spec d3 d2.lastId send.length send2 recv2
  rw [← e2] at b1 b2
  have hg' : getSession db k = some (1, ⟨k, root, chain2, send.length + send2.length⟩) := by
    unfold getSession first; rw [b2, hd3, a2, hd1, hst]; simp [Sql.insert, nextId, update]
  have hms : ms.sessions k = some ⟨root, chain2, send ++ send2, recv ++ recv2⟩ := by
    show ((MemStore.new.storeSession k root chain send recv).2.storeSession k root chain2
      send2 recv2).2.sessions k = _
    unfold MemStore.storeSession
    rw [if_neg (by omega), if_neg (by omega)]
    simp [MemStore.new, MemStore.setSess, Msg.upd]
  refine ⟨?_, ?_, ?_⟩
  · unfold numMessageKeys; rw [hg']
  · unfold MemStore.numMessageKeys; rw [hms]; simp
  · intro i sender hi
    constructor
    · unfold getMessageKey getKeyText
      rw [hg']
      simp only
      by_cases hm : maxInt ≤ i.toNat
      · rw [if_pos hm]; exact ⟨_, rfl⟩
      · rw [if_neg hm]
        have hlast2 : d2.lastId ≠ 1 := by
          have := List.length_pos_iff.mpr hn
          omega
        have : first (keyQuery 1 i.toNat sender) db.keys = none := by
          have hv := first_vals (keyQuery 1 i.toNat sender) db.keys
          rw [b1, List.find?_append, find_none_of_sid (l := keyRows d2.lastId send.length send2 recv2)
            (fun r hr => by rw [keyRows_sid _ _ _ _ r hr]; exact hlast2), Option.or_none] at hv
          have hd3k : vals d3.keys = keyRows 1 0 send recv := by
            rw [hd3]; show vals d2.keys = _; rw [a1, hd1]; rfl
          rw [hd3k] at hv
          have hf := keyRows_find 1 0 send recv hl i.toNat sender
          rw [if_neg (by omega), show ((if sender then send else recv)[i.toNat - 0]?) = none by
            cases sender
            · exact List.getElem?_eq_none (by simp; omega)
            · exact List.getElem?_eq_none (by simp; omega)] at hf
          rw [Option.map_eq_none_iff] at hf
          rw [hf, Option.map_eq_none_iff] at hv
          exact hv
        rw [this]; exact ⟨_, rfl⟩
    · intro key b hkey hne hdec hb
      unfold MemStore.getMessageKey
      rw [hms]
      simp only
      have hj : i.toNat - send.length < (if sender then send2 else recv2).length := by
        rcases Nat.lt_or_ge (i.toNat - send.length) (if sender then send2 else recv2).length with h | h
        · exact h
        · rw [List.getElem?_eq_none h] at hkey; cases hkey
      have hidx : (if sender then send ++ send2 else recv ++ recv2)[i.toNat]? = some key := by
        cases sender
        · simp only [Bool.false_eq_true, if_false] at hkey ⊢
          rw [List.getElem?_append_right (by omega), ← hl]; exact hkey
        · simp only [if_true] at hkey ⊢
          rw [List.getElem?_append_right (by omega)]; exact hkey
      rw [if_neg (by
        rw [List.length_append]
        have : (if sender then send2 else recv2).length = send2.length := by
          cases sender
          · exact hl2.symm
          · rfl
        omega), hidx]
      simp only
      rw [if_neg hne, hdec]
      simp only
      rw [if_neg (by omega)]

/-- Extending one session can put its keys into another one: after storing
session A with one key pair, extending it by one pair and storing session B
with two pairs, the second sender key read for B is A's key. -/
theorem C08_extension_mixes_sessions (A B root chain a1 a2 a3 a4 b1 b2 b3 b4 : Str)
    (hA : A ≠ []) (hB : B ≠ []) (hAB : A ≠ B) (hr : root ≠ []) (hc : chain ≠ []) :
    let db := (addSession DB.new A root chain [a1] [a2]).2
    let db := (addSession db A root chain [a3] [a4]).2
    let db := (addSession db B root chain [b1, b2] [b3, b4]).2
    getKeyText db B true 1 = .ok a3 := by
  have hBA : B ≠ A := fun h => hAB h.symm
  simp [addSession, hA, hB, hr, hc, DB.new, getSession, first, Sql.insert, addKeys, addKey, update, nextId,
    hAB, hBA, getKeyText, keyQuery, maxInt]

/-- Deleting a message key beyond the last one is an error in memory and
succeeds in the database. -/
theorem C08_delete_out_of_range (k root chain a b : Str) (hk : k ≠ []) (hr : root ≠ [])
    (hc : chain ≠ []) :
    let db := (addSession DB.new k root chain [a] [b]).2
    let ms := (MemStore.new.storeSession k root chain [a] [b]).2
    (delMessageKey db k true 1).1 = .ok () ∧ (ms.delMessageKey k true 1).1 = .error .outOfBounds := by
  simp [addSession, hk, hr, hc, DB.new, getSession, first, Sql.insert, addKeys, addKey, nextId,
    delMessageKey, maxInt, MemStore.storeSession, MemStore.delMessageKey, MemStore.new,
    MemStore.setSess, Msg.upd]

/-- Adding a session key a second time under the same hash replaces it in
memory and is without effect on reading in the database. -/
theorem C08_session_key_added_twice (h p1 p2 : Str) (e1 e2 : KeyEntry) (hh : h ≠ []) (h1 : p1 ≠ [])
    (h2 : p2 ≠ []) :
    getSKey (addSKey (addSKey DB.new h e1 p1).2 h e2 p2).2 h = .ok (e1, p1) := by
  simp [addSKey, getSKey, hh, h1, h2, DB.new, first, Sql.insert]

/-! ### Non-vacuity -/

/-- A covered history with two sessions, reads and deletes. -/
def toyHistory : List Op :=
  [.store [1] [2] [3] [[4], [5]] [[6], [7]], .has [1], .key [1] true 1, .delKey [1] true 0,
   .key [1] true 0, .store [9] [2] [3] [[8]] [[8]], .num [1], .num [9], .addSKey [4] ⟨true, .ecdhe, [4], [5], none⟩ [6],
   .delSKey [4], .getSKey [4]]

example (P : Prims) : Covered P MemStore.new toyHistory := by
  simp [toyHistory, Covered, Op.Covered, memStep, MemStore.new, MemStore.storeSession,
    MemStore.setSess, MemStore.delMessageKey, Msg.upd, maxInt]

/-- A session with one key pair, extended by another pair. -/
example (P : Prims) : let db := (addSession (addSession DB.new [1] [2] [3] [[5]] [[6]]).2 [1] [2] [4] [[7]] [[8]]).2
    numMessageKeys db [1] = .ok 2 ∧ ∃ e, getMessageKey P db [1] true 1 = .error e := by
  have h := C08_extension_keys_lost P [1] [2] [3] [4] [[5]] [[6]] [[7]] [[8]] (by simp) (by simp)
    (by simp) (by simp) rfl rfl (by simp)
  exact ⟨h.1, (h.2.2 1 true (by decide)).1⟩

end Verif.Keydb
