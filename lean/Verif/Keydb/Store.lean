/-
The session store of mutecrypt: cryptengine/keystore.go on the tables of keydb, as a
handler for the calls that Encrypt and Decrypt make. And when a run of such a program
on the tables gives the same result as on the store of package memstore.
-/
import Verif.Keydb.Props
import Verif.Msg.EndToEnd
set_option autoImplicit false

namespace Verif.Keydb
open Verif.Msg Verif.Sql Prog

/-- What the table SessionStates keeps of a session state (sessionstate.go:109-121 and 47-70):
the key entries are stored as JSON, which has no private keys. -/
def plain (s : State) : State :=
  { s with
    recipientTemp := s.recipientTemp.public
    senderSessionPub := s.senderSessionPub.public
    nextSenderSessionPub := s.nextSenderSessionPub.map KeyEntry.public
    nextRecipientSessionPubSeen := s.nextRecipientSessionPubSeen.map KeyEntry.public }

/-- The key database as one run of mutecrypt sees it. `privs`, `pubs` and `nyms` are the
private and public KeyInit messages (`GetPrivateKeyEntry` and `GetPublicKeyEntry`,
keystore.go:59-106: the key entry of the session anchor, and its nym address); `out` is
what was written to args.Writer. -/
structure Store where
  db : DB
  privs : Str → Option KeyEntry
  pubs : Str → Option KeyEntry
  nyms : Str → Str
  out : Bytes

/-- mutecrypt opens the database anew in every run (cryptengine.go:870-878): on the new
connection no row has been inserted. -/
def Store.connect (st : Store) : Store := { st with db := { st.db with lastId := 0 } }

/-- keystore.go:18-212: the calls of the session.Store interface on the database. -/
def Store.handle (P : Prims) : {β : Type} → Req β → Store → β × Store
  | _, .getState k, st => (getState st.db k, st)
  | _, .setState k s, st =>
    let r := setState st.db k (plain s)
    (r.1, { st with db := r.2 })
  | _, .storeSession k root chain send recv, st =>
    let r := addSession st.db k root chain send recv
    (r.1, { st with db := r.2 })
  | _, .hasSession k, st => (hasSession st.db k, st)
  | _, .getPriv h, st =>
    (match st.privs h with
      | none => .error .noKeyEntry
      | some ke => .ok ke, st)
  | _, .getPub i, st =>
    (match st.pubs i with
      | none => .error .noKeyEntry
      | some ke => .ok (ke, st.nyms i), st)
  | _, .getMsgKey k s i, st => (getMessageKey P st.db k s i, st)
  | _, .numKeys k, st => (numMessageKeys st.db k, st)
  | _, .getRootHash k, st => (getRootKeyHash P st.db k, st)
  | _, .getChain k, st => (getChainKey P st.db k, st)
  | _, .delMsgKey k s i, st =>
    let r := delMessageKey st.db k s i
    (r.1, { st with db := r.2 })
  | _, .addSKey h ke p, st =>
    let r := addSKey st.db h ke p
    (r.1, { st with db := r.2 })
  | _, .getSKey h, st => (getSKey st.db h, st)
  | _, .delSKey h, st =>
    let r := delSKey st.db h
    (r.1, { st with db := r.2 })
  | _, .write b, st => ((), { st with out := st.out ++ b })

/-! ### Programs that do not look at the private keys in session states -/

/-- The same call, up to private keys in a session state. -/
def Same : {β : Type} → Req β → Req β → Prop
  | _, .setState k s, r => ∃ s', r = .setState k s' ∧ plain s = plain s'
  | _, r, r' => r' = r

/-- Answers that agree: the second is as good as the first if the first is a success. -/
def Agree : {β : Type} → Req β → β → β → Prop
  | _, .getState _, x, y => ∀ s, x = .ok s → ∃ s', y = .ok s' ∧ s.map plain = s'.map plain
  | _, .setState _ _, x, y => x = .ok () → y = .ok ()
  | _, .storeSession _ _ _ _ _, x, y => ∀ a, x = .ok a → y = .ok a
  | _, .hasSession _, x, y => y = x
  | _, .getPriv _, x, y => y = x
  | _, .getPub _, x, y => ∀ a, x = .ok a → y = .ok a
  | _, .getMsgKey _ _ _, x, y => ∀ a, x = .ok a → y = .ok a
  | _, .numKeys _, x, y => ∀ a, x = .ok a → y = .ok a
  | _, .getRootHash _, x, y => ∀ a, x = .ok a → y = .ok a
  | _, .getChain _, x, y => ∀ a, x = .ok a → y = .ok a
  | _, .delMsgKey _ _ _, x, y => ∀ a, x = .ok a → y = .ok a
  | _, .addSKey _ _ _, x, y => ∀ a, x = .ok a → y = .ok a
  | _, .getSKey _, x, y => ∀ a, x = .ok a → y = .ok a
  | _, .delSKey _, x, y => ∀ a, x = .ok a → y = .ok a
  | _, .write _, _, _ => True

/-- The second program does what the first does, as long as the first succeeds. -/
inductive Rel {α β : Type} (Q : α → β → Prop) : Prog α → Prog β → Prop where
  | ret {a : α} {b : β} (h : Q a b) : Rel Q (.ret a) (.ret b)
  | fail (e : Err) (q : Prog β) : Rel Q (.fail e) q
  | panic (q : Prog β) : Rel Q .panic q
  | call {γ : Type} {r r' : Req γ} {f : γ → Prog α} {g : γ → Prog β} (hr : Same r r')
      (h : ∀ x y, Agree r x y → Rel Q (f x) (g y)) : Rel Q (.call r f) (.call r' g)

section
variable {α β γ δ : Type}

theorem Rel.bind {Q : α → β → Prop} {Q' : γ → δ → Prop} {p : Prog α} {q : Prog β} {f : α → Prog γ}
    {g : β → Prog δ} (h : Rel Q p q) (hf : ∀ a b, Q a b → Rel Q' (f a) (g b)) :
    Rel Q' (p.bind f) (q.bind g) := by
  induction h with
  | ret h => exact hf _ _ h
  | fail e q => exact .fail _ _
  | panic q => exact .panic _
  | call hr h ih => exact .call hr fun x y hxy => ih x y hxy

theorem Rel.noCall {p : Prog α} (h : NoCall p) : Rel Eq p p := by
  cases h
  · exact .ret rfl
  · exact .fail _ _
  · exact .panic _

theorem Rel.ask {r : Req (Except SErr α)} (hr : Same r r)
    (h : ∀ x y, Agree r x y → ∀ a, x = .ok a → y = .ok a) : Rel Eq (Prog.ask r) (Prog.ask r) := by
  refine .call hr fun x y hxy => ?_
  cases x with
  | error e => exact .fail _ _
  | ok a => rw [h _ _ hxy a rfl]; exact .ret rfl

theorem Rel.askB {r : Req (Except SErr α)} {Q' : γ → δ → Prop} {f : α → Prog γ} {g : α → Prog δ} (hr : Same r r)
    (h : ∀ x y, Agree r x y → ∀ a, x = .ok a → y = .ok a) (hf : ∀ a, Rel Q' (f a) (g a)) :
    Rel Q' ((Prog.ask r).bind f) ((Prog.ask r).bind g) :=
  (Rel.ask hr h).bind fun a b e => e ▸ hf a

theorem Rel.noCallB {p : Prog α} {Q' : γ → δ → Prop} {f : α → Prog γ} {g : α → Prog δ} (h : NoCall p)
    (hf : ∀ a, Rel Q' (f a) (g a)) : Rel Q' (p.bind f) (p.bind g) :=
  (Rel.noCall h).bind fun a b e => e ▸ hf a

theorem Rel.tryB {r : Req α} {Q' : γ → δ → Prop} {f : α → Prog γ} {g : α → Prog δ} (hr : Same r r)
    (h : ∀ x y, Agree r x y → y = x) (hf : ∀ a, Rel Q' (f a) (g a)) :
    Rel Q' ((Prog.try' r).bind f) ((Prog.try' r).bind g) :=
  .call hr fun x y hxy => by rw [h x y hxy]; exact hf x

theorem Rel.mono {Q Q' : α → β → Prop} {p : Prog α} {q : Prog β} (h : Rel Q p q)
    (hQ : ∀ a b, Q a b → Q' a b) : Rel Q' p q := by
  induction h with
  | ret h => exact .ret (hQ _ _ h)
  | fail e q => exact .fail _ _
  | panic q => exact .panic _
  | call hr h ih => exact .call hr fun x y hxy => ih x y hxy

theorem Rel.getState (k : Str) : Rel (fun s s' => s.map plain = s'.map plain)
    (Prog.ask (.getState k)) (Prog.ask (.getState k)) := by
  refine .call rfl fun x y hxy => ?_
  cases x with
  | error e => exact .fail _ _
  | ok a =>
    obtain ⟨s', hy, hs⟩ := hxy a rfl
    rw [hy]; exact .ret hs

theorem Rel.setState (k : Str) {s s' : State} (h : plain s = plain s') :
    Rel Eq (Prog.ask (.setState k s)) (Prog.ask (.setState k s')) := by
  refine .call ⟨s', rfl, h⟩ fun x y hxy => ?_
  cases x with
  | error e => exact .fail _ _
  | ok a => rw [hxy rfl]; exact .ret rfl

end

/-! ### The calls the key database answers like the memory store -/

/-- The conditions of `Op.Covered` for the calls of a program. -/
def Covers (ms : MemStore) : {β : Type} → Req β → Prop
  | _, .getState k => Op.Covered ms (.getState k)
  | _, .setState k s => Op.Covered ms (.setState k s)
  | _, .storeSession k rt ch send recv => Op.Covered ms (.store k rt ch send recv)
  | _, .delMsgKey k s i => Op.Covered ms (.delKey k s i)
  | _, .addSKey h ke p => Op.Covered ms (.addSKey h ke p)
  | _, .getSKey h => Op.Covered ms (.getSKey h)
  | _, .delSKey h => Op.Covered ms (.delSKey h)
  | _, _ => True

/-- Every call of the run is covered in the state it is made in. -/
def Cov (P : Prims) {α : Type} : Prog α → MemStore → Prop
  | .call r f, ms => Covers ms r ∧ Cov P (f (MemStore.handle P r ms).1) (MemStore.handle P r ms).2
  | _, _ => True

/-- What is kept of the session states. -/
def plainStates (ms : MemStore) : MemStore := { ms with states := fun k => (ms.states k).map plain }

/-- The database holds what the memory store holds. -/
structure Rep (ms : MemStore) (st : Store) : Prop where
  db : R (plainStates ms) st.db
  privs : st.privs = ms.privs
  pubs : st.pubs = ms.pubs
  nyms : st.nyms = ms.nyms
  out : st.out = ms.out

theorem Rep.connect {ms : MemStore} {st : Store} (h : Rep ms st) : Rep ms st.connect :=
  ⟨⟨h.db.sess, h.db.inj, h.db.old, h.db.states, h.db.skeys⟩, h.privs, h.pubs, h.nyms, h.out⟩

theorem ok_of_ans {α : Type} {f : α → Ans} (hne : ∀ a, f a ≠ .error) (hinj : ∀ a b, f a = f b → a = b)
    {x y : Except SErr α} (h : ansOf f y = ansOf f x) : ∀ a, x = .ok a → y = .ok a := by
  intro a hx
  subst hx
  cases y with
  | error e => exact absurd h.symm (hne a)
  | ok b => rw [hinj b a h]

theorem plainStates_set (ms : MemStore) (k : Str) (s : State) :
    plainStates { ms with states := Msg.upd ms.states k (some s) } =
      { plainStates ms with states := Msg.upd (plainStates ms).states k (some (plain s)) } := by
  unfold plainStates
  simp only [MemStore.mk.injEq, true_and, and_true]
  funext x
  unfold Msg.upd
  split <;> rfl

theorem plainStates_setSess (ms : MemStore) (k : Str) (s : Sess) :
    plainStates (ms.setSess k s) = (plainStates ms).setSess k s := rfl

theorem plainStates_store (ms : MemStore) (k root chain : Str) (send recv : List Str) :
    ((plainStates ms).storeSession k root chain send recv).1 = (ms.storeSession k root chain send recv).1 ∧
    ((plainStates ms).storeSession k root chain send recv).2 =
      plainStates (ms.storeSession k root chain send recv).2 := by
  have e : (plainStates ms).sessions = ms.sessions := rfl
  unfold MemStore.storeSession
  rw [e]
  split
  · exact ⟨rfl, rfl⟩
  · cases ms.sessions k <;> exact ⟨rfl, rfl⟩

theorem plainStates_del (ms : MemStore) (k : Str) (d : Bool) (i : UInt64) :
    ((plainStates ms).delMessageKey k d i).1 = (ms.delMessageKey k d i).1 ∧
    ((plainStates ms).delMessageKey k d i).2 = plainStates (ms.delMessageKey k d i).2 := by
  have e : (plainStates ms).sessions = ms.sessions := rfl
  unfold MemStore.delMessageKey
  rw [e]
  cases ms.sessions k with
  | none => exact ⟨rfl, rfl⟩
  | some s =>
    simp only
    split <;> exact ⟨rfl, rfl⟩

theorem plainStates_delSKey (ms : MemStore) (h : Str) :
    (plainStates ms).delPrivSessionKey h = plainStates (ms.delPrivSessionKey h) := by
  have e : (plainStates ms).skeys = ms.skeys := rfl
  unfold MemStore.delPrivSessionKey
  rw [e]
  cases ms.skeys h <;> rfl

/-- The private keys are not looked at by the conditions. -/
theorem covered_plain {ms : MemStore} (o : Op) (h : Op.Covered ms o) : Op.Covered (plainStates ms) o := by
  cases o <;> exact h

theorem covers_plain_set {ms : MemStore} {k : Str} {s s' : State} (hs : plain s = plain s')
    (h : Op.Covered ms (.setState k s)) : Op.Covered (plainStates ms) (.setState k (plain s')) := by
  rw [← hs]; exact h

theorem frame_store (ms : MemStore) (k root chain : Str) (send recv : List Str) :
    (ms.storeSession k root chain send recv).2.privs = ms.privs ∧
    (ms.storeSession k root chain send recv).2.pubs = ms.pubs ∧
    (ms.storeSession k root chain send recv).2.nyms = ms.nyms ∧
    (ms.storeSession k root chain send recv).2.out = ms.out := by
  unfold MemStore.storeSession
  split
  · exact ⟨rfl, rfl, rfl, rfl⟩
  · cases ms.sessions k <;> exact ⟨rfl, rfl, rfl, rfl⟩

theorem frame_del (ms : MemStore) (k : Str) (d : Bool) (i : UInt64) :
    (ms.delMessageKey k d i).2.privs = ms.privs ∧ (ms.delMessageKey k d i).2.pubs = ms.pubs ∧
    (ms.delMessageKey k d i).2.nyms = ms.nyms ∧ (ms.delMessageKey k d i).2.out = ms.out := by
  unfold MemStore.delMessageKey
  cases ms.sessions k with
  | none => exact ⟨rfl, rfl, rfl, rfl⟩
  | some s => simp only; split <;> exact ⟨rfl, rfl, rfl, rfl⟩

theorem frame_delSKey (ms : MemStore) (h : Str) :
    (ms.delPrivSessionKey h).privs = ms.privs ∧ (ms.delPrivSessionKey h).pubs = ms.pubs ∧
    (ms.delPrivSessionKey h).nyms = ms.nyms ∧ (ms.delPrivSessionKey h).out = ms.out := by
  unfold MemStore.delPrivSessionKey
  cases ms.skeys h <;> exact ⟨rfl, rfl, rfl, rfl⟩

/-- One call. -/
theorem Rep.step (P : Prims) {ms : MemStore} {st : Store} (h : Rep ms st) {β : Type} {r r' : Req β}
    (hs : Same r r') (hc : Covers ms r) :
    Agree r (MemStore.handle P r ms).1 (Store.handle P r' st).1 ∧
      Rep (MemStore.handle P r ms).2 (Store.handle P r' st).2 := by
  cases r with
  | getState k =>
    cases hs
    obtain ⟨a, b⟩ := h.db.step P (.getState k) (covered_plain _ hc)
    refine ⟨?_, h⟩
    intro s hx
    cases hx
    refine ⟨(plainStates ms).states k, ?_, ?_⟩
    · show Keydb.getState st.db k = _
      change ansOf .state (Keydb.getState st.db k) = .state ((plainStates ms).states k) at a
      cases hg : Keydb.getState st.db k with
      | error e => rw [hg] at a; cases a
      | ok x => rw [hg] at a; rw [Ans.state.inj a]
    · show (ms.states k).map plain = ((ms.states k).map plain).map plain
      cases ms.states k with
      | none => rfl
      | some s =>
        simp only [Option.map_some, plain, KeyEntry.public, Option.map_map, Option.some.injEq, State.mk.injEq,
          true_and, and_true]
        refine ⟨?_, ?_⟩ <;> congr 1
  | setState k s =>
    obtain ⟨s', rfl, hss⟩ := hs
    obtain ⟨a, b⟩ := h.db.step P (.setState k (plain s')) (covers_plain_set hss hc)
    refine ⟨fun _ => ?_, ⟨?_, h.privs, h.pubs, h.nyms, h.out⟩⟩
    · exact ok_of_ans (fun _ => by simp) (fun _ _ _ => rfl) (x := .ok ()) a _ rfl
    · show R (plainStates { ms with states := _ }) _
      rw [plainStates_set, hss]; exact b
  | storeSession k root chain send recv =>
    cases hs
    obtain ⟨a, b⟩ := h.db.step P (.store k root chain send recv) (covered_plain _ hc)
    obtain ⟨e1, e2⟩ := plainStates_store ms k root chain send recv
    obtain ⟨f1, f2, f3, f4⟩ := frame_store ms k root chain send recv
    refine ⟨?_, ⟨?_, h.privs.trans f1.symm, h.pubs.trans f2.symm, h.nyms.trans f3.symm, h.out.trans f4.symm⟩⟩
    · refine ok_of_ans (f := fun _ => Ans.done) (fun _ => by simp) (fun _ _ _ => rfl) ?_
      change _ = ansOf _ ((plainStates ms).storeSession k root chain send recv).1 at a
      rw [e1] at a; exact a
    · change R ((plainStates ms).storeSession k root chain send recv).2 _ at b
      rw [e2] at b; exact b
  | hasSession k =>
    cases hs
    obtain ⟨a, b⟩ := h.db.step P (.has k) trivial
    exact ⟨Ans.bool.inj a, h⟩
  | getPriv hh =>
    cases hs
    refine ⟨?_, h⟩
    show (match st.privs hh with | none => .error .noKeyEntry | some ke => .ok ke) = ms.getPrivateKeyEntry hh
    rw [h.privs]; rfl
  | getPub i =>
    cases hs
    refine ⟨?_, h⟩
    intro a hx
    rw [← hx]
    show (match st.pubs i with | none => .error .noKeyEntry | some ke => .ok (ke, st.nyms i)) = ms.getPublicKeyEntry i
    rw [h.pubs, h.nyms]; rfl
  | getMsgKey k d i =>
    cases hs
    obtain ⟨a, b⟩ := h.db.step P (.key k d i) trivial
    exact ⟨ok_of_ans (f := .bytes) (fun _ => by simp) (fun _ _ h => Ans.bytes.inj h) a, h⟩
  | numKeys k =>
    cases hs
    obtain ⟨a, b⟩ := h.db.step P (.num k) trivial
    exact ⟨ok_of_ans (f := .num) (fun _ => by simp) (fun _ _ h => Ans.num.inj h) a, h⟩
  | getRootHash k =>
    cases hs
    obtain ⟨a, b⟩ := h.db.step P (.root k) trivial
    exact ⟨ok_of_ans (f := .bytes) (fun _ => by simp) (fun _ _ h => Ans.bytes.inj h) a, h⟩
  | getChain k =>
    cases hs
    obtain ⟨a, b⟩ := h.db.step P (.chain k) trivial
    exact ⟨ok_of_ans (f := .bytes) (fun _ => by simp) (fun _ _ h => Ans.bytes.inj h) a, h⟩
  | delMsgKey k d i =>
    cases hs
    obtain ⟨a, b⟩ := h.db.step P (.delKey k d i) (covered_plain _ hc)
    obtain ⟨e1, e2⟩ := plainStates_del ms k d i
    obtain ⟨f1, f2, f3, f4⟩ := frame_del ms k d i
    refine ⟨?_, ⟨?_, h.privs.trans f1.symm, h.pubs.trans f2.symm, h.nyms.trans f3.symm, h.out.trans f4.symm⟩⟩
    · refine ok_of_ans (f := fun _ => Ans.done) (fun _ => by simp) (fun _ _ _ => rfl) ?_
      change _ = ansOf _ ((plainStates ms).delMessageKey k d i).1 at a
      rw [e1] at a; exact a
    · change R ((plainStates ms).delMessageKey k d i).2 _ at b
      rw [e2] at b; exact b
  | addSKey hh ke p =>
    cases hs
    obtain ⟨a, b⟩ := h.db.step P (.addSKey hh ke p) (covered_plain _ hc)
    refine ⟨?_, ⟨b, h.privs, h.pubs, h.nyms, h.out⟩⟩
    exact ok_of_ans (f := fun _ => Ans.done) (fun _ => by simp) (fun _ _ _ => rfl) (x := .ok ()) a
  | getSKey hh =>
    cases hs
    obtain ⟨a, b⟩ := h.db.step P (.getSKey hh) (covered_plain _ hc)
    refine ⟨ok_of_ans (f := fun (x : KeyEntry × Str) => Ans.skey x.1 x.2) (fun _ => by simp) (fun _ _ h => ?_) a, h⟩
    have := Ans.skey.inj h
    exact Prod.ext this.1 this.2
  | delSKey hh =>
    cases hs
    obtain ⟨a, b⟩ := h.db.step P (.delSKey hh) (covered_plain _ hc)
    obtain ⟨f1, f2, f3, f4⟩ := frame_delSKey ms hh
    refine ⟨?_, ⟨?_, h.privs.trans f1.symm, h.pubs.trans f2.symm, h.nyms.trans f3.symm, h.out.trans f4.symm⟩⟩
    · exact ok_of_ans (f := fun _ => Ans.done) (fun _ => by simp) (fun _ _ _ => rfl) (x := .ok ()) a
    · change R ((plainStates ms).delPrivSessionKey hh) _ at b
      rw [plainStates_delSKey] at b; exact b
  | write b =>
    cases hs
    refine ⟨trivial, ⟨⟨h.db.sess, h.db.inj, h.db.old, h.db.states, h.db.skeys⟩, h.privs, h.pubs, h.nyms, ?_⟩⟩
    show st.out ++ b = ms.out ++ b
    rw [h.out]

/-- A run that succeeds on the memory store and makes only covered calls succeeds on the
database, with the same result and leaving the same contents. -/
theorem Rel.sim (P : Prims) {α β : Type} {Q : α → β → Prop} {p : Prog α} {q : Prog β} (h : Rel Q p q)
    {ms ms' : MemStore} {st : Store} {a : α} (hr : Rep ms st) (hc : Cov P p ms)
    (hok : p.run (MemStore.handle P) ms = (.ok a, ms')) :
    ∃ b st', q.run (Store.handle P) st = (.ok b, st') ∧ Q a b ∧ Rep ms' st' := by
  induction h generalizing ms st with
  | ret h =>
    simp only [run_ret, Prod.mk.injEq, Res.ok.injEq] at hok
    obtain ⟨rfl, rfl⟩ := hok
    exact ⟨_, st, rfl, h, hr⟩
  | fail e q => cases hok
  | panic q => cases hok
  | call hs h ih =>
    obtain ⟨c1, c2⟩ := hc
    obtain ⟨s1, s2⟩ := hr.step P hs c1
    exact ih _ _ s1 s2 c2 hok

/-! ### Coverage of sequences -/

section
variable {P : Prims} {α β : Type}

theorem Cov.bind {p : Prog α} {f : α → Prog β} {ms ms1 : MemStore} {a : α}
    (hp : p.run (MemStore.handle P) ms = (.ok a, ms1)) (h1 : Cov P p ms) (h2 : Cov P (f a) ms1) :
    Cov P (p.bind f) ms := by
  induction p generalizing ms with
  | ret x =>
    simp only [run_ret, Prod.mk.injEq, Res.ok.injEq] at hp
    obtain ⟨rfl, rfl⟩ := hp; exact h2
  | fail e => cases hp
  | panic => cases hp
  | call r k ih => exact ⟨h1.1, ih _ hp h1.2⟩

theorem Cov.noCall {p : Prog α} (h : NoCall p) (ms : MemStore) : Cov P p ms := by
  cases h <;> trivial

theorem Cov.ask {r : Req (Except SErr α)} {ms : MemStore} (h : Covers ms r) : Cov P (Prog.ask r) ms := by
  refine ⟨h, ?_⟩
  cases (MemStore.handle P r ms).1 <;> trivial

theorem Cov.try' {r : Req α} {ms : MemStore} (h : Covers ms r) : Cov P (Prog.try' r) ms := ⟨h, trivial⟩

/-- A covered run never extends a session: the number of keys of each session stays. -/
theorem Cov.length {p : Prog α} {ms : MemStore} (hc : Cov P p ms) {k : Str} {t : Sess}
    (ht : ms.sessions k = some t) :
    ∃ t', (p.run (MemStore.handle P) ms).2.sessions k = some t' ∧ t'.send.length = t.send.length := by
  induction p generalizing ms t with
  | ret a => exact ⟨t, ht, rfl⟩
  | fail e => exact ⟨t, ht, rfl⟩
  | panic => exact ⟨t, ht, rfl⟩
  | call r f ih =>
    obtain ⟨c1, c2⟩ := hc
    have step : ∃ t1, (MemStore.handle P r ms).2.sessions k = some t1 ∧ t1.send.length = t.send.length := by
      cases r with
      | storeSession k' root chain send recv =>
        simp only [MemStore.handle]
        unfold MemStore.storeSession
        split
        · exact ⟨t, ht, rfl⟩
        · have hne : k ≠ k' := by
            intro e; subst e
            rw [c1.2.2.2.1] at ht; cases ht
          rw [c1.2.2.2.1]
          exact ⟨t, by simp only [MemStore.setSess, Msg.upd, if_neg hne]; exact ht, rfl⟩
      | delMsgKey k' d i =>
        simp only [MemStore.handle]
        unfold MemStore.delMessageKey
        cases hs : ms.sessions k' with
        | none => exact ⟨t, ht, rfl⟩
        | some s =>
          simp only
          split
          · exact ⟨t, ht, rfl⟩
          · by_cases e : k = k'
            · subst e
              rw [hs] at ht
              obtain rfl := Option.some.inj ht
              refine ⟨_, by simp only [MemStore.setSess, Msg.upd, if_true]; rfl, ?_⟩
              split <;> simp
            · exact ⟨t, by simp only [MemStore.setSess, Msg.upd, if_neg e]; exact ht, rfl⟩
      | delSKey hh =>
        simp only [MemStore.handle]
        unfold MemStore.delPrivSessionKey
        split <;> exact ⟨t, ht, rfl⟩
      | _ => exact ⟨t, ht, rfl⟩
    obtain ⟨t1, h1, h2⟩ := step
    obtain ⟨t2, h3, h4⟩ := ih _ c2 h1
    exact ⟨t2, h3, h4.trans h2⟩

end

/-! ### Encrypt and Decrypt do not look at private keys in session states -/

/-- Session states that differ in private keys only. -/
structure Like (s s' : State) : Prop where
  eq : plain s = plain s'

section
variable {s s' : State} (h : Like s s')
include h

theorem Like.rt : s.recipientTemp.public = s'.recipientTemp.public := congrArg State.recipientTemp h.eq
theorem Like.ssp : s.senderSessionPub.public = s'.senderSessionPub.public :=
  congrArg State.senderSessionPub h.eq
theorem Like.next : s.nextSenderSessionPub.map KeyEntry.public = s'.nextSenderSessionPub.map KeyEntry.public :=
  congrArg State.nextSenderSessionPub h.eq
theorem Like.seen : s.nextRecipientSessionPubSeen.map KeyEntry.public =
    s'.nextRecipientSessionPubSeen.map KeyEntry.public :=
  congrArg State.nextRecipientSessionPubSeen h.eq
theorem Like.c1 : s.senderSessionCount = s'.senderSessionCount := by
  have e := congrArg (fun x : State => x.senderSessionCount) h.eq; exact e
theorem Like.c2 : s.senderMessageCount = s'.senderMessageCount := by
  have e := congrArg (fun x : State => x.senderMessageCount) h.eq; exact e
theorem Like.nym : s.nymAddress = s'.nymAddress := by
  have e := congrArg (fun x : State => x.nymAddress) h.eq; exact e
theorem Like.kis : s.keyInitSession = s'.keyInitSession := by
  have e := congrArg (fun x : State => x.keyInitSession) h.eq; exact e
theorem Like.rtHash : s.recipientTemp.hash = s'.recipientTemp.hash := by
  have e := congrArg KeyEntry.hash h.rt; exact e
theorem Like.sspHash : s.senderSessionPub.hash = s'.senderSessionPub.hash := by
  have e := congrArg KeyEntry.hash h.ssp; exact e
theorem Like.rtPub (P : Prims) : s.recipientTemp.pub32 P = s'.recipientTemp.pub32 P := by
  have e := congrArg (KeyEntry.pub32 P) h.rt; exact e
theorem Like.sspPub (P : Prims) : s.senderSessionPub.pub32 P = s'.senderSessionPub.pub32 P := by
  have e := congrArg (KeyEntry.pub32 P) h.ssp; exact e

theorem Like.header (a : EncArgs) (rnd : Rnd) : newHeader a rnd s = newHeader a rnd s' := by
  unfold newHeader
  rw [h.rtHash, h.ssp, h.next, h.seen, h.c1, h.c2]

/-- States with the same fields apart from the message counter. -/
theorem Like.count : Like { s with senderMessageCount := s.senderMessageCount + 1 }
    { s' with senderMessageCount := s'.senderMessageCount + 1 } := by
  constructor
  show ({ plain s with senderMessageCount := s.senderMessageCount + 1 } : State) =
    { plain s' with senderMessageCount := s'.senderMessageCount + 1 }
  rw [h.eq, h.c2]

theorem Like.setNext (ke : KeyEntry) : Like { s with nextSenderSessionPub := some ke }
    { s' with nextSenderSessionPub := some ke } := by
  constructor
  show ({ plain s with nextSenderSessionPub := some ke.public } : State) =
    { plain s' with nextSenderSessionPub := some ke.public }
  rw [h.eq]

theorem Like.setSeen (ke : KeyEntry) : Like { s with nextRecipientSessionPubSeen := some ke }
    { s' with nextRecipientSessionPubSeen := some ke } := by
  constructor
  show ({ plain s with nextRecipientSessionPubSeen := some ke.public } : State) =
    { plain s' with nextRecipientSessionPubSeen := some ke.public }
  rw [h.eq]

theorem Like.nextNone : s.nextSenderSessionPub.isNone = s'.nextSenderSessionPub.isNone := by
  have := congrArg Option.isNone h.next
  simpa using this

theorem Like.seenNone : s.nextRecipientSessionPubSeen.isNone = s'.nextRecipientSessionPubSeen.isNone := by
  have := congrArg Option.isNone h.seen
  simpa using this

end

/-- Both there or neither, and then alike. -/
inductive LikeO : Option State → Option State → Prop where
  | none : LikeO none none
  | some {s s' : State} (h : Like s s') : LikeO (some s) (some s')

theorem likeO_of_map {s s' : Option State} (h : s.map plain = s'.map plain) : LikeO s s' := by
  cases s <;> cases s'
  · exact .none
  · cases h
  · cases h
  · exact .some ⟨Option.some.inj h⟩

section
variable (P : Prims)

theorem rel_addSKey (ke : KeyEntry) : Rel Eq (addSessionKey P ke) (addSessionKey P ke) := by
  unfold addSessionKey
  simp only [bind_eq]
  refine Rel.noCallB (NoCall.orPanic _) fun a => ?_
  exact .ask rfl fun _ _ h => h

theorem rel_getSKey (hh : Str) : Rel Eq (getSessionKey P hh) (getSessionKey P hh) := by
  unfold getSessionKey
  simp only [bind_eq]
  refine Rel.askB rfl (fun _ _ h => h) fun ⟨ke, p⟩ => ?_
  refine Rel.noCall ?_
  simp only
  repeat' split
  all_goals first | exact .ret _ | exact .fail _

theorem rel_generate (si ri sh rh : Str) (root : Bytes) (b : Bool) (sp rp : Bytes) (n : UInt64) :
    Rel Eq (generateMessageKeys P si ri sh rh root b sp rp n) (generateMessageKeys P si ri sh rh root b sp rp n) := by
  unfold generateMessageKeys
  exact .ask rfl fun _ _ h => h

theorem rel_sender (hp : Bytes) (si ri : Str) (a b c d : KeyEntry) (prev : Option Bytes) (n : UInt64) :
    Rel Eq (rootKeyAgreementSender P hp si ri a b c d prev n) (rootKeyAgreementSender P hp si ri a b c d prev n) := by
  unfold rootKeyAgreementSender
  simp only [bind_eq]
  repeat' first
    | (refine Rel.noCallB (NoCall.orPanic _) fun _ => ?_)
    | (refine Rel.noCallB (noCall_checkKeys _ _ _ _ _) fun _ => ?_)
    | (refine Rel.noCallB (noCall_ecdh _ _ _ _) fun _ => ?_)
  exact rel_generate P _ _ _ _ _ _ _ _ _

theorem rel_recipient (hp : Bytes) (si ri : Str) (a b c d : KeyEntry) (prev : Option Bytes) (n : UInt64) :
    Rel Eq (rootKeyAgreementRecipient P hp si ri a b c d prev n)
      (rootKeyAgreementRecipient P hp si ri a b c d prev n) := by
  unfold rootKeyAgreementRecipient
  simp only [bind_eq]
  repeat' first
    | (refine Rel.noCallB (NoCall.orPanic _) fun _ => ?_)
    | (refine Rel.noCallB (noCall_checkKeys _ _ _ _ _) fun _ => ?_)
    | (refine Rel.noCallB (noCall_ecdh _ _ _ _) fun _ => ?_)
  exact rel_generate P _ _ _ _ _ _ _ _ _

theorem rel_setNext {s s' : State} (h : Like s s') (k : Str) (fresh : Bytes) :
    Rel (fun x y => Like x.1 y.1 ∧ x.2 = y.2) (setNextSenderSessionPub P s k fresh)
      (setNextSenderSessionPub P s' k fresh) := by
  unfold setNextSenderSessionPub
  simp only [bind_eq]
  refine (rel_addSKey P _).bind fun _ _ _ => ?_
  refine (Rel.setState k (h.setNext _).eq).bind fun _ _ _ => ?_
  exact .ret ⟨h.setNext _, rfl⟩

theorem rel_encSession (a : EncArgs) (rnd : Rnd) (n : UInt64) (k : Str) :
    Rel (fun x y => Like x.1 y.1 ∧ x.2 = y.2) (encSession P a rnd n k) (encSession P a rnd n k) := by
  unfold encSession
  simp only [bind_eq]
  split
  · refine Rel.bind (Q := LikeO) ((Rel.getState k).mono fun _ _ h => likeO_of_map h) ?_
    intro x y hxy
    cases hxy with
    | none =>
      simp only
      refine Rel.askB rfl (fun _ _ h => h) fun ⟨rt, nym⟩ => ?_
      simp only
      refine (rel_addSKey P _).bind fun _ _ _ => ?_
      refine (rel_sender P _ _ _ _ _ _ _ _ _).bind fun _ _ _ => ?_
      refine (Rel.setState k rfl).bind fun _ _ _ => ?_
      exact .ret ⟨⟨rfl⟩, rfl⟩
    | some h =>
      simp only
      split
      · rw [h.nextNone, h.nym]
        split
        · refine (rel_setNext P h k _).bind ?_
          rintro ⟨s1, k1⟩ ⟨s2, k2⟩ ⟨h1, h2⟩
          exact .ret ⟨h1, rfl⟩
        · exact .ret ⟨h, rfl⟩
      · exact .ret ⟨h, rfl⟩
  · simp only [ret_bind]
    refine Rel.askB rfl (fun _ _ h => h) fun ⟨rt, nym⟩ => ?_
    simp only
    refine (rel_addSKey P _).bind fun _ _ _ => ?_
    refine (rel_sender P _ _ _ _ _ _ _ _ _).bind fun _ _ _ => ?_
    refine (Rel.setState k rfl).bind fun _ _ _ => ?_
    exact .ret ⟨⟨rfl⟩, rfl⟩

theorem rel_encExtend (a : EncArgs) (n : UInt64) {s s' : State} (h : Like s s') (k : Str) :
    Rel Eq (encExtend P a n s k) (encExtend P a n s' k) := by
  unfold encExtend
  simp only [bind_eq]
  refine Rel.askB rfl (fun _ _ h => h) fun m => ?_
  rw [h.c2, h.sspPub P, h.rtPub P]
  split
  · refine Rel.askB rfl (fun _ _ h => h) fun c => ?_
    refine Rel.noCallB (NoCall.orPanic _) fun _ => ?_
    refine Rel.noCallB (NoCall.orPanic _) fun _ => ?_
    exact rel_generate P _ _ _ _ _ _ _ _ _
  · exact .ret rfl

theorem noCall_newHeader (a : EncArgs) (rnd : Rnd) (s : State) : NoCall (newHeader a rnd s) := by
  unfold newHeader
  simp only [bind_eq]
  repeat' first
    | exact .ret _
    | (refine (NoCall.failIf _ _).bind fun _ => ?_)

theorem noCall_headerPacket (h : Header) (rp hp n : Bytes) : NoCall (headerPacket P h rp hp n) := by
  unfold headerPacket
  simp only
  split
  · exact .fail _
  · exact .ret _

theorem noCall_uidPublicKey (u : UID) : NoCall (uidPublicKey P u) := by
  unfold uidPublicKey
  split
  · exact .fail _
  · split
    · exact .panic
    · exact .ret _

/-- Encrypt. -/
theorem rel_encrypt (a : EncArgs) (rnd : Rnd) : Rel Eq (encrypt P a rnd) (encrypt P a rnd) := by
  unfold encrypt
  simp only [bind_eq]
  refine Rel.noCallB (NoCall.orPanic _) fun fp => ?_
  refine Rel.noCallB (NoCall.orPanic _) fun tp => ?_
  refine (rel_encSession P a rnd _ _).bind ?_
  rintro ⟨s, nym⟩ ⟨s', nym'⟩ ⟨h, hn⟩
  simp only at h hn
  subst hn
  simp only
  rw [← h.header]
  refine Rel.noCallB (noCall_newHeader _ _ _) fun hd => ?_
  refine Rel.noCallB (noCall_uidPublicKey P _) fun rp => ?_
  refine Rel.noCallB (noCall_headerPacket P _ _ _ _) fun hp => ?_
  rw [← h.sspHash, ← h.rtHash]
  refine (rel_encExtend P a _ h _).bind fun _ _ _ => ?_
  rw [← h.c2]
  refine Rel.askB rfl (fun _ _ h => h) fun mk => ?_
  refine Rel.noCallB (NoCall.failIf _ _) fun _ => ?_
  refine Rel.noCallB (NoCall.failIf _ _) fun _ => ?_
  refine Rel.tryB rfl (fun _ _ _ => rfl) fun _ => ?_
  refine Rel.askB rfl (fun _ _ h => h) fun _ => ?_
  refine (Rel.setState _ ?_).bind fun _ _ _ => .ret rfl
  have := h.count
  rw [← h.c2] at this
  exact this.eq

theorem rel_decUnknown (a : DecArgs) (n : UInt64) (hp : Bytes) (u : UID) (hd : Header) (k sk : Str)
    {s s' : Option State} (h : LikeO s s') :
    Rel LikeO (decUnknown P a n hp u hd k sk s) (decUnknown P a n hp u hd k sk s') := by
  unfold decUnknown
  simp only [bind_eq]
  refine Rel.tryB rfl (fun _ _ h => h) fun r => ?_
  cases r with
  | error e =>
    cases e
    case noKeyEntry => exact .ret h
    all_goals exact .fail _ _
  | ok ki =>
    simp only
    refine (rel_recipient P _ _ _ _ _ _ _ _ _).bind fun _ _ _ => ?_
    cases h with
    | none =>
      simp only [if_true]
      refine (rel_addSKey P _).bind fun _ _ _ => ?_
      split
      · refine Rel.askB rfl (fun _ _ h => h) fun prev => ?_
        refine (rel_sender P _ _ _ _ _ _ _ _ _).bind fun _ _ _ => ?_
        exact (Rel.setState k rfl).bind fun _ _ _ => .ret (.some ⟨rfl⟩)
      · exact (Rel.setState k rfl).bind fun _ _ _ => .ret (.some ⟨rfl⟩)
    | some h =>
      simp only [h.kis]
      split
      · refine (rel_addSKey P _).bind fun _ _ _ => ?_
        split
        · refine Rel.askB rfl (fun _ _ h => h) fun prev => ?_
          refine (rel_sender P _ _ _ _ _ _ _ _ _).bind fun _ _ _ => ?_
          exact (Rel.setState k rfl).bind fun _ _ _ => .ret (.some ⟨rfl⟩)
        · exact (Rel.setState k rfl).bind fun _ _ _ => .ret (.some ⟨rfl⟩)
      · exact .ret (.some h)

theorem rel_decKnown (a : DecArgs) (n : UInt64) (hp : Bytes) (u : UID) (hd : Header) (k sk : Str)
    {s s' : Option State} (h : LikeO s s') :
    Rel LikeO (decKnown P a n hp u hd k sk s) (decKnown P a n hp u hd k sk s') := by
  unfold decKnown
  simp only [bind_eq]
  cases h with
  | none => exact .panic _
  | some h =>
    rename_i s s'
    simp only [orPanic, ret_bind]
    have fin : ∀ {x y : State}, Like x y → Rel LikeO
        ((Prog.ask (.delSKey hd.recipientTempHash)).bind fun _ => .ret (some x))
        ((Prog.ask (.delSKey hd.recipientTempHash)).bind fun _ => .ret (some y)) := fun hxy =>
      Rel.askB rfl (fun _ _ h => h) fun _ => .ret (.some hxy)
    · rw [← h.sspHash, ← h.rtHash]
      split
      · split
        · exact fin h
        · rename_i hn hhn
          cases hs : s.nextSenderSessionPub with
          | none =>
            have hs' : s'.nextSenderSessionPub = none := by
              have := h.next; rw [hs] at this; simpa using this.symm
            rw [hs']
            simp only
            refine (rel_setNext P h k _).bind ?_
            rintro ⟨s1, k1⟩ ⟨s2, k2⟩ ⟨h1, h2⟩
            simp only at h1 h2
            subst h2
            simp only
            refine Rel.askB rfl (fun _ _ h => h) fun prev => ?_
            refine (rel_sender P _ _ _ _ _ _ _ _ _).bind fun _ _ _ => ?_
            rw [h1.seenNone]
            split
            · exact (Rel.setState k (h1.setSeen _).eq).bind fun _ _ _ => fin (h1.setSeen _)
            · exact fin h1
          | some sn =>
            obtain ⟨sn', hs', hsn⟩ : ∃ sn', s'.nextSenderSessionPub = some sn' ∧ sn.public = sn'.public := by
              have := h.next; rw [hs] at this
              cases hx : s'.nextSenderSessionPub with
              | none => rw [hx] at this; cases this
              | some x => rw [hx] at this; exact ⟨x, rfl, Option.some.inj this⟩
            have hh : sn.hash = sn'.hash := by have e := congrArg KeyEntry.hash hsn; exact e
            rw [hs']
            simp only [← hh]
            split
            · refine (rel_getSKey P _).bind ?_
              rintro nx _ rfl
              refine Rel.askB rfl (fun _ _ h => h) fun prev => ?_
              refine (rel_recipient P _ _ _ _ _ _ _ _ _).bind fun _ _ _ => ?_
              rw [h.c1, h.c2]
              exact (Rel.setState k rfl).bind fun _ _ _ => fin ⟨rfl⟩
            · exact fin h
      · cases hs : s.nextSenderSessionPub with
        | none =>
          have hs' : s'.nextSenderSessionPub = none := by
            have := h.next; rw [hs] at this; simpa using this.symm
          rw [hs']
          exact fin h
        | some sn =>
          obtain ⟨sn', hs', hsn⟩ : ∃ sn', s'.nextSenderSessionPub = some sn' ∧ sn.public = sn'.public := by
            have := h.next; rw [hs] at this
            cases hx : s'.nextSenderSessionPub with
            | none => rw [hx] at this; cases this
            | some x => rw [hx] at this; exact ⟨x, rfl, Option.some.inj this⟩
          have hh : sn.hash = sn'.hash := by have e := congrArg KeyEntry.hash hsn; exact e
          rw [hs']
          cases hr : s.nextRecipientSessionPubSeen with
          | none =>
            have hr' : s'.nextRecipientSessionPubSeen = none := by
              have := h.seen; rw [hr] at this; simpa using this.symm
            rw [hr']
            exact fin h
          | some sr =>
            obtain ⟨sr', hr', hsr⟩ : ∃ sr', s'.nextRecipientSessionPubSeen = some sr' ∧ sr.public = sr'.public := by
              have := h.seen; rw [hr] at this
              cases hx : s'.nextRecipientSessionPubSeen with
              | none => rw [hx] at this; cases this
              | some x => rw [hx] at this; exact ⟨x, rfl, Option.some.inj this⟩
            have hh' : sr.hash = sr'.hash := by have e := congrArg KeyEntry.hash hsr; exact e
            rw [hr']
            simp only [← hh, ← hh']
            split
            · have hl : Like (⟨s.senderSessionCount + s.senderMessageCount, 0, 0, hd.senderSessionPub, sn, none, none,
                  hd.nymAddress, false⟩ : State) (⟨s'.senderSessionCount + s'.senderMessageCount, 0, 0,
                  hd.senderSessionPub, sn', none, none, hd.nymAddress, false⟩ : State) := by
                constructor
                simp only [plain, h.c1, h.c2, hsn]
              exact (Rel.setState k hl.eq).bind fun _ _ _ => fin hl
            · exact fin h

theorem rel_decSession (a : DecArgs) (n : UInt64) (hp : Bytes) (u : UID) (hd : Header) :
    Rel LikeO (decSession P a n hp u hd) (decSession P a n hp u hd) := by
  unfold decSession
  simp only [bind_eq]
  refine Rel.noCallB (NoCall.orPanic _) fun rp => ?_
  refine Rel.noCallB (NoCall.orPanic _) fun sp => ?_
  refine (Rel.getState _).bind fun x y hxy => ?_
  have hl := likeO_of_map hxy
  refine Rel.tryB rfl (fun _ _ h => h) fun known => ?_
  split
  · exact rel_decKnown P a n hp u hd _ _ hl
  · exact rel_decUnknown P a n hp u hd _ _ hl

theorem orPanic_some {α : Type} (a : α) : orPanic (some a) = .ret a := rfl

theorem rel_decExtend (n : UInt64) (u : UID) (hd : Header) (sk : Str) {s s' : Option State} (h : LikeO s s') :
    Rel Eq (decExtend P n u hd sk s) (decExtend P n u hd sk s') := by
  unfold decExtend
  simp only [bind_eq]
  refine Rel.askB rfl (fun _ _ h => h) fun m => ?_
  split
  · refine Rel.askB rfl (fun _ _ h => h) fun c => ?_
    refine Rel.noCallB (NoCall.failIf _ _) fun _ => ?_
    cases h with
    | none => exact .panic _
    | some h =>
      simp only [orPanic_some, ret_bind]
      rw [h.sspHash, h.sspPub P]
      have fin : ∀ (o : Option Bytes), Rel Eq
          (Prog.bind (orPanic (o)) fun rp =>
            Prog.bind (orPanic (hd.senderSessionPub.pub32 P)) fun sp =>
              generateMessageKeys P hd.senderIdentity u.identity hd.senderIdentityPub.hash u.pubKey.hash c true sp rp
                (keysNeeded hd.senderMessageCount n))
          (Prog.bind (orPanic (o)) fun rp =>
            Prog.bind (orPanic (hd.senderSessionPub.pub32 P)) fun sp =>
              generateMessageKeys P hd.senderIdentity u.identity hd.senderIdentityPub.hash u.pubKey.hash c true sp rp
                (keysNeeded hd.senderMessageCount n)) := by
        intro o
        cases o with
        | none => exact .panic _
        | some o =>
          cases hd.senderSessionPub.pub32 P with
          | none => exact .panic _
          | some sp => exact rel_generate P _ _ _ _ _ _ _ _ _
      split
      · exact fin _
      · refine Rel.tryB rfl (fun _ _ h => h) fun r => ?_
        cases r with
        | ok ki => exact fin _
        | error e =>
          cases e
          case noKeyEntry =>
            refine (rel_getSKey P _).bind ?_
            rintro ke _ rfl
            exact fin _
          all_goals exact .fail _ _
  · exact .ret rfl

theorem rel_decBody (mk : Bytes) (su : Str) (r : Bytes) : Rel Eq (decBody P mk su r) (decBody P mk su r) := by
  unfold decBody
  simp only [bind_eq]
  repeat' first
    | exact Rel.ret rfl
    | exact Rel.fail _ _
    | (refine Rel.noCallB (noCall_readPacket _ _ _ _) fun ⟨_, _⟩ => ?_; simp only)
    | (refine Rel.noCallB (NoCall.failIf _ _) fun _ => ?_)
    | (refine Rel.noCallB (NoCall.wire _) fun ⟨_, _⟩ => ?_; simp only)
    | (refine Rel.noCallB (NoCall.orPanic _) fun _ => ?_)
    | (refine Rel.tryB rfl (fun _ _ _ => rfl) fun _ => ?_)
    | exact Rel.noCall (NoCall.failIf _ _)
    | split
    | (refine Rel.bind (Q := Eq) ?_ ?_; rotate_left; rintro _ _ rfl)

/-- Decrypt. -/
theorem rel_decrypt (a : DecArgs) : Rel Eq (decrypt P a) (decrypt P a) := by
  unfold decrypt
  simp only [bind_eq]
  refine Rel.noCallB (noCall_decHead P a) fun ⟨hp, u, hd, r⟩ => ?_
  simp only
  refine (rel_decSession P a _ hp u hd).bind fun s s' hs => ?_
  refine (rel_decExtend P _ u hd _ hs).bind fun _ _ _ => ?_
  refine Rel.askB rfl (fun _ _ h => h) fun mk => ?_
  refine (rel_decBody P _ _ _).bind ?_
  rintro sig _ rfl
  exact Rel.askB rfl (fun _ _ h => h) fun _ => .ret rfl

end

end Verif.Keydb
