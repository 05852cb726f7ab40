/-
Publishing KeyInit messages and finding the private key for a message that was encrypted to one of them
(cryptengine/keyinit.go, cryptengine/keystore.go, keydb/keydb.go): C136.
-/
import Verif.Uid.Keys

set_option autoImplicit false

namespace Verif.Crypt.KeyInits

open Verif Verif.Uid Verif.Uid.Keys Verif.Crypt

/-- A row of PrivateKeyInits (keydb.go:51-59); the KeyInit is kept as JSON in the table and read back by `NewJSONKeyInit`. -/
structure PkiRow where
  sigkeyhash : Str
  pubkeyhash : Str
  ki : KeyInit
  sigpubkey : Str
  privkey : Str
  serverSig : Str
  deriving DecidableEq, Repr

/-- `AddPrivateKeyInit` (keydb.go:523-540). -/
def addPki (t : Sql.Table PkiRow) (ki : KeyInit) (pubKeyHash sigPubKey privateKey serverSig : Str) : Sql.Table PkiRow :=
  Sql.insert t ⟨ki.contents.sigkeyhash, pubKeyHash, ki, sigPubKey, privateKey, serverSig⟩

/-- `GetPrivateKeyInit` (keydb.go:543-557): the first row. -/
def getPki (t : Sql.Table PkiRow) (pubKeyHash : Str) : Option PkiRow := (Sql.first (fun r => r.pubkeyhash = pubKeyHash) t).map (·.2)

/-- The answer of KeyInitRepository.AddKeyInit: `none` is a failed request; the field Signatures is a list (`none`: of another
type), whose elements are strings (`none`: of another type). -/
abbrev AddReply := Option (Option (List (Option Str)))

/-- What a call of `addKeyInit` meets: the rest of the key database, the time, the time 90 days later (both are read from
the clock), the random bytes for the key and for the encryption, the capabilities of the server (the keys SIGPUBKEYS; `none`: it
cannot be reached) and its answer. -/
structure Call where
  db : DB
  pseudonym : Str
  mix : Str
  nym : Str
  now : UInt64
  later : UInt64
  rand : Option Bytes
  iv : Bytes
  caps : Option (List Str)
  reply : AddReply

/-- The check of the signatures (keyinit.go:67-85) for the one KeyInit that is sent: `none` is never reached, the index of
SIGPUBKEYS panics if the list is empty. -/
def checkSigs (P : Prims) (ki : KeyInit) (keys : List Str) : Option (List (Option Str)) → Res CErr Str
  | none => .err .wrongType
  | some [] => .err .index
  | some (_ :: _ :: _) => .err .index
  | some [none] => .err .wrongType
  | some [some sig] => match keys with
    | [] => .panic
    | key :: _ => match keyInitVerifySrvSig P ki sig key with
      | .ok _ => .ok sig
      | .err e => .err (.uid e)
      | .panic => .panic

/-- `addKeyInit` (keyinit.go:17-87): the KeyInit that was sent to the server, the table afterwards, the result. -/
def addKeyInit (P : Prims) (I : Ids) (c : Call) (t : Sql.Table PkiRow) : Option KeyInit × Sql.Table PkiRow × Res CErr Unit :=
  match I.mapPlus c.pseudonym with
  | none => (none, t, .err .identity)
  | some (id, domain) => match getPriv P c.db id with
    | .err e => (none, t, .err e)
    | .panic => (none, t, .panic)
    | .ok (o, _) => match keyInit P c.now o 0 c.later 0 true domain c.mix c.nym c.rand c.iv with
      | .err e => (none, t, .err (.uid e))
      | .panic => (none, t, .panic)
      | .ok (ki, pubKeyHash, privateKey) => match c.caps with
        | none => (none, t, .err .rpc)
        | some keys => match c.reply with
          | none => (some ki, t, .err .rpc)
          | some sigs => match checkSigs P ki keys sigs with
            | .err e => (some ki, t, .err e)
            | .panic => (some ki, t, .panic)
            | .ok sig => (some ki, addPki t ki pubKeyHash o.msg.content.sigkey.pubkey privateKey sig, .ok ())

/-- `KeyEntryECDHE25519` (uid/keyinit.go:142-156). -/
def keyEntryDH (P : Prims) (ki : KeyInit) (sigPub : Str) : Res Err KeyEntry :=
  match sessionAnchor P ki sigPub with
  | .err e => .err e
  | .panic => .panic
  | .ok sa => anchorKey sa (lit "ECDHE25519")

/-- `GetPrivateKeyEntry` (keystore.go:59-78): `.err .noRow` is `session.ErrNoKeyEntry`. -/
def getPrivateKeyEntry (P : Prims) (t : Sql.Table PkiRow) (pubKeyHash : Str) : Res CErr Held :=
  match getPki t pubKeyHash with
  | none => .err .noRow
  | some r => match keyEntryDH P r.ki r.sigpubkey with
    | .err e => .err (.uid e)
    | .panic => .panic
    | .ok ke => match (loaded ke).setPrivateKey r.privkey with
      | (k, true) => .ok k
      | (_, false) => .err .wrongType

/-- What is sent by `flushKeyInit` (keyinit.go:133-171): the answer is not looked at and nothing is deleted from the database. -/
def flushKeyInit (P : Prims) (I : Ids) (c : Call) (t : Sql.Table PkiRow) : Option Str × Sql.Table PkiRow × Res CErr Unit :=
  match I.mapPlus c.pseudonym with
  | none => (none, t, .err .identity)
  | some (id, _) => match getPriv P c.db id with
    | .err e => (none, t, .err e)
    | .panic => (none, t, .panic)
    | .ok (o, _) => match c.caps with
      | none => (none, t, .err .rpc)
      | some _ => match c.reply with
        | none => (some o.msg.content.sigkey.pubkey, t, .err .rpc)
        | some _ => (some o.msg.content.sigkey.pubkey, t, .ok ())

/-- A history. -/
inductive Op where
  | add (c : Call)
  | flush (c : Call)

def step (P : Prims) (I : Ids) (t : Sql.Table PkiRow) : Op → Sql.Table PkiRow
  | .add c => (addKeyInit P I c t).2.1
  | .flush c => (flushKeyInit P I c t).2.1

def run (P : Prims) (I : Ids) (ops : List Op) : Sql.Table PkiRow := ops.foldl (step P I) []

/-! ### the specification -/

/-- A call that can occur: the private UIDs in the database hold their keys, the random reader delivers, the addresses are
ASCII. -/
structure Call.Good (P : Prims) (c : Call) : Prop where
  keyed : ∀ r ∈ c.db.privs, ∃ k, Keyed P r.2.owned k
  rand : ∀ r, c.rand = some r → r.length = 32
  iv : c.iv.length = 16
  mix : Ascii c.mix
  nym : Ascii c.nym

def Op.Good (P : Prims) : Op → Prop
  | .add c => c.Good P
  | .flush _ => True

/-- The key that a call makes. -/
def Call.entry (P : Prims) (r : Bytes) : KeyEntry :=
  ⟨defaultSuite, lit "ECDHE25519", Base64.encode (P.sha512 (P.dhPub r)), Base64.encode (P.dhPub r)⟩

/-- A call of the history that succeeded: it published `ki` for the signature key `sk` of a UID message, with the nym `nym` and
the key made from `r`. -/
def Published (P : Prims) (I : Ids) (ops : List Op) (ki : KeyInit) (sk : KeyEntry) (nym : Str) (r : Bytes) : Prop :=
  ∃ before c after, ops = before ++ .add c :: after ∧ (addKeyInit P I c (run P I before)).2.2 = .ok () ∧
    (addKeyInit P I c (run P I before)).1 = some ki ∧ c.nym = nym ∧ c.rand = some r ∧
    ∃ id domain rep o, I.mapPlus c.pseudonym = some (id, domain) ∧ getPriv P c.db id = .ok (o, rep) ∧ o.msg.content.sigkey = sk

/-! ### proofs -/

theorem created (P : Prims) (hP : P.Good) (now : UInt64) (o : Owned) (k : Bytes)
    (hk : Keyed P o k) (msgcount na nb : UInt64) (fallback : Bool) (repo mix nym : Str)
    (hmix : Ascii mix) (hnym : Ascii nym) (r : Option Bytes) (iv : Bytes) (hiv : iv.length = 16)
    (ki : KeyInit) (ph pk : Str)
    (h : keyInit P now o msgcount na nb fallback repo mix nym r iv = .ok (ki, ph, pk)) :
    ∃ s, r = some s ∧ ph = (Call.entry P s).hash ∧ pk = Base64.encode s ∧
      ki.contents.sigkeyhash = Base64.encode (P.sha512 (P.sha512 (P.edPub k))) ∧
      sessionAnchor P ki o.msg.content.sigkey.pubkey = .ok ⟨mix, nym, [Call.entry P s]⟩ := by
  unfold keyInit at h
  split at h
  · cases h
  · split at h
    · cases h
    · split at h
      · cases h
      · simp only [Res.bind_eq_ok, unb64_ok] at h
        obtain ⟨kh, hkh, h⟩ := h
        rw [hk.hash, Base64.decode_encode] at hkh
        injection hkh with hkh
        subst hkh
        split at h
        · cases h
        · split at h
          · cases h
          · simp only [Res.bind_eq_ok] at h
            obtain ⟨⟨dh, p⟩, hdh, h⟩ := h
            cases r with
            | none => simp [initDHKey] at hdh
            | some s =>
              simp only [initDHKey, Res.ok.injEq, Prod.mk.injEq] at hdh
              obtain ⟨hdh, rfl⟩ := hdh
              simp only at h
              split at h
              · cases h
              · have hkl : ((P.sha512 (P.edPub k)).take 32).length = 32 := by
                  rw [List.length_take, hP.sha512_len]; rfl
                obtain ⟨_, ct, hc1, hc2, hc3⟩ := Cipher.C66_aes_round_trip P.aes hP.aes
                  ((P.sha512 (P.edPub k)).take 32) (P.anchorJSON ⟨mix, nym, [dh]⟩) iv hkl hiv
                rw [hc1] at h
                simp only [hk.priv, Res.ok.injEq, Prod.mk.injEq] at h
                obtain ⟨rfl, rfl, rfl⟩ := h
                have hdhA : dh.Ascii := by
                  rw [← hdh]
                  exact ⟨suite_ascii, ecdhe_ascii,
                    ascii_encode _, ascii_encode _⟩
                have hA : (⟨mix, nym, [dh]⟩ : Anchor).Ascii :=
                  ⟨hmix, hnym, by intro e he; rw [List.mem_singleton.mp he]; exact hdhA⟩
                refine ⟨s, rfl, by rw [← hdh]; rfl, rfl, rfl, ?_⟩
                unfold sessionAnchor
                rw [hk.pub, unb64_encode]
                simp only [Res.bind_ok, ne_eq, not_true, if_false, unb64_encode, hc3,
                  hP.parse_anchor _ hA]
                rw [← hdh]
                rfl

/-- A row belongs to a key. -/
structure RowOf (P : Prims) (row : PkiRow) (r : Bytes) : Prop where
  hash : row.pubkeyhash = (Call.entry P r).hash
  priv : row.privkey = Base64.encode r
  size : r.length = 32
  anchor : ∃ mix nym, sessionAnchor P row.ki row.sigpubkey = .ok ⟨mix, nym, [Call.entry P r]⟩

theorem getPriv_mem {P : Prims} {db : DB} {id : Str} {o : Owned} {rep : Option Reply} (h : getPriv P db id = .ok (o, rep)) :
    ∃ r ∈ db.privs, r.2.owned = o := by
  unfold getPriv at h
  split at h
  · cases h
  · rename_i r hr
    split at h
    · simp only [Res.ok.injEq, Prod.mk.injEq] at h
      obtain ⟨rfl, -⟩ := h
      obtain ⟨x, hx, hx2⟩ := List.mem_map.mp (top_some _ _ hr).1
      exact ⟨x, hx, by rw [hx2]⟩
    · cases h
    · cases h

/-- What a call does. -/
theorem addKeyInit_cases (P : Prims) (I : Ids) (c : Call) (t : Sql.Table PkiRow) :
    ((addKeyInit P I c t).2.2 ≠ .ok () ∧ (addKeyInit P I c t).2.1 = t) ∨
    ∃ id domain o rep ki ph pk keys sigs sig, I.mapPlus c.pseudonym = some (id, domain) ∧ getPriv P c.db id = .ok (o, rep) ∧
      keyInit P c.now o 0 c.later 0 true domain c.mix c.nym c.rand c.iv = .ok (ki, ph, pk) ∧ c.caps = some keys ∧ c.reply = some sigs ∧
      checkSigs P ki keys sigs = .ok sig ∧
      addKeyInit P I c t = (some ki, addPki t ki ph o.msg.content.sigkey.pubkey pk sig, .ok ()) := by
  unfold addKeyInit
  cases h1 : I.mapPlus c.pseudonym with
  | none => exact .inl ⟨nofun, rfl⟩
  | some idd =>
    obtain ⟨id, domain⟩ := idd
    dsimp only
    cases h2 : getPriv P c.db id with
    | err e => exact .inl ⟨nofun, rfl⟩
    | panic => exact .inl ⟨nofun, rfl⟩
    | ok oo =>
      obtain ⟨o, rep⟩ := oo
      dsimp only
      cases h3 : keyInit P c.now o 0 c.later 0 true domain c.mix c.nym c.rand c.iv with
      | err e => exact .inl ⟨nofun, rfl⟩
      | panic => exact .inl ⟨nofun, rfl⟩
      | ok kk =>
        obtain ⟨ki, ph, pk⟩ := kk
        dsimp only
        cases h4 : c.caps with
        | none => exact .inl ⟨nofun, rfl⟩
        | some keys =>
          dsimp only
          cases h5 : c.reply with
          | none => exact .inl ⟨nofun, rfl⟩
          | some sigs =>
            dsimp only
            cases h6 : checkSigs P ki keys sigs with
            | err e => exact .inl ⟨nofun, rfl⟩
            | panic => exact .inl ⟨nofun, rfl⟩
            | ok sig => exact .inr ⟨id, domain, o, rep, ki, ph, pk, keys, sigs, sig, rfl, h2, h3, rfl, rfl, h6, rfl⟩

theorem flush_table (P : Prims) (I : Ids) (c : Call) (t : Sql.Table PkiRow) : (flushKeyInit P I c t).2.1 = t := by
  unfold flushKeyInit
  repeat' split
  all_goals rfl

theorem run_append (P : Prims) (I : Ids) (a b : List Op) : run P I (a ++ b) = b.foldl (step P I) (run P I a) := List.foldl_append

/-- The table only grows. -/
theorem step_mem (P : Prims) (I : Ids) (t : Sql.Table PkiRow) (op : Op) {r : Nat × PkiRow} (h : r ∈ t) : r ∈ step P I t op := by
  cases op with
  | flush c => show r ∈ (flushKeyInit P I c t).2.1; rw [flush_table]; exact h
  | add c =>
    show r ∈ (addKeyInit P I c t).2.1
    rcases addKeyInit_cases P I c t with ⟨-, h1⟩ | ⟨id, domain, o, rep, ki, ph, pk, keys, sigs, sig, -, -, -, -, -, -, h1⟩
    · rw [h1]; exact h
    · rw [h1]; exact Sql.mem_insert.mpr (.inl h)

theorem fold_mem (P : Prims) (I : Ids) (ops : List Op) : ∀ (t : Sql.Table PkiRow) {r : Nat × PkiRow}, r ∈ t → r ∈ ops.foldl (step P I) t := by
  induction ops with
  | nil => exact fun _ _ h => h
  | cons op ops ih => exact fun t _ h => ih _ (step_mem P I t op h)

theorem published_append {P : Prims} {I : Ids} {ops : List Op} (more : List Op) {ki : KeyInit} {sk : KeyEntry} {nym : Str} {r : Bytes}
    (h : Published P I ops ki sk nym r) : Published P I (ops ++ more) ki sk nym r := by
  obtain ⟨before, c, after, rfl, h⟩ := h
  exact ⟨before, c, after ++ more, by simp, h⟩

/-- Every row belongs to a key that was published. -/
theorem rows (P : Prims) (hP : P.Good) (I : Ids) (done : List Op) (ops : List Op) (hg : ∀ op ∈ ops, op.Good P)
    (h : ∀ r ∈ run P I done, ∃ s sk nym, RowOf P r.2 s ∧ Published P I done r.2.ki sk nym s) :
    ∀ r ∈ run P I (done ++ ops), ∃ s sk nym, RowOf P r.2 s ∧ Published P I (done ++ ops) r.2.ki sk nym s := by
  induction ops generalizing done with
  | nil => rw [List.append_nil]; exact h
  | cons op ops ih =>
    rw [show done ++ op :: ops = (done ++ [op]) ++ ops by simp]
    refine ih (done ++ [op]) (fun x hx => hg x (.tail _ hx)) ?_
    rw [run_append]
    have old : ∀ r ∈ run P I done, ∃ s sk nym, RowOf P r.2 s ∧ Published P I (done ++ [op]) r.2.ki sk nym s := by
      intro r hr
      obtain ⟨s, sk, nym, h1, h2⟩ := h r hr
      exact ⟨s, sk, nym, h1, published_append _ h2⟩
    cases op with
    | flush c => show ∀ r ∈ (flushKeyInit P I c (run P I done)).2.1, _; rw [flush_table]; exact old
    | add c =>
      have hc : c.Good P := hg _ (.head _)
      show ∀ r ∈ (addKeyInit P I c (run P I done)).2.1, _
      rcases addKeyInit_cases P I c (run P I done) with ⟨-, h1⟩ | ⟨id, domain, o, rep, ki, ph, pk, keys, sigs, sig, h0, h2, h3, -, -, -, h1⟩
      · rw [h1]; exact old
      · rw [h1]
        intro r hr
        rcases Sql.mem_insert.mp hr with hr | rfl
        · exact old r hr
        · obtain ⟨pr, hpr, hpo⟩ := getPriv_mem h2
          obtain ⟨k, hk⟩ := hc.keyed pr hpr
          rw [hpo] at hk
          obtain ⟨s, h4, h5, h6, h7, h8⟩ := created P hP _ o k hk _ _ _ _ _ _ _ hc.mix hc.nym _ _ hc.iv ki ph pk h3
          refine ⟨s, o.msg.content.sigkey, c.nym, ⟨h5, h6, hc.rand s h4, _, _, h8⟩, done, c, [], rfl, ?_⟩
          rw [h1]
          exact ⟨rfl, rfl, rfl, h4, id, domain, rep, o, h0, h2, rfl⟩

/-- A published key has its row, and what a sender reads from the KeyInit is that key and the nym. -/
theorem published_row (P : Prims) (hP : P.Good) (I : Ids) (ops : List Op) (hg : ∀ op ∈ ops, op.Good P) {ki : KeyInit} {sk : KeyEntry} {nym : Str} {r : Bytes}
    (h : Published P I ops ki sk nym r) :
    (∃ row ∈ run P I ops, row.2.pubkeyhash = (Call.entry P r).hash) ∧
    ∃ k mix, sk.pubkey = Base64.encode (P.edPub k) ∧ sk.hash = Base64.encode (P.sha512 (P.edPub k)) ∧
      ki.contents.sigkeyhash = Base64.encode (P.sha512 (P.sha512 (P.edPub k))) ∧ sessionAnchor P ki sk.pubkey = .ok ⟨mix, nym, [Call.entry P r]⟩ := by
  obtain ⟨before, c, after, rfl, hok, hki, rfl, hr, id, domain, rep, o, h0, h2, rfl⟩ := h
  have hc : c.Good P := hg (.add c) (by simp)
  rcases addKeyInit_cases P I c (run P I before) with ⟨hn, -⟩ | ⟨id', domain', o', rep', ki', ph, pk, keys, sigs, sig, h0', h2', h3, -, -, -, h1⟩
  · exact absurd hok hn
  · rw [h0] at h0'
    cases h0'
    rw [h2] at h2'
    cases h2'
    rw [h1] at hki
    cases hki
    obtain ⟨pr, hpr, hpo⟩ := getPriv_mem h2
    obtain ⟨k, hk⟩ := hc.keyed pr hpr
    rw [hpo] at hk
    obtain ⟨s, h4, h5, h6, h7, h8⟩ := created P hP _ o k hk _ _ _ _ _ _ _ hc.mix hc.nym _ _ hc.iv ki ph pk h3
    rw [hr] at h4
    cases h4
    refine ⟨?_, k, c.mix, hk.pub, hk.hash, h7, h8⟩
    rw [run_append]
    refine ⟨_, fold_mem P I after _ (r := (Sql.nextId (run P I before), ⟨ki.contents.sigkeyhash, ph, ki, o.msg.content.sigkey.pubkey, pk, sig⟩)) ?_, h5⟩
    show _ ∈ (addKeyInit P I c (run P I before)).2.1
    rw [h1]
    exact Sql.mem_insert.mpr (.inr rfl)

theorem getPki_some {t : Sql.Table PkiRow} {hash : Str} {row : PkiRow} (h : getPki t hash = some row) : ∃ i, (i, row) ∈ t ∧ row.pubkeyhash = hash := by
  unfold getPki at h
  obtain ⟨x, hx, rfl⟩ := Option.map_eq_some_iff.mp h
  obtain ⟨h1, h2⟩ := Sql.first_mem hx
  exact ⟨x.1, h1, by simpa using h2⟩

theorem getPki_none {t : Sql.Table PkiRow} {hash : Str} (h : getPki t hash = none) : ∀ x ∈ t, x.2.pubkeyhash ≠ hash := by
  unfold getPki at h
  rw [Option.map_eq_none_iff] at h
  intro x hx hc
  have := List.find?_eq_none.mp h x hx
  simp [hc] at this

/-- What is read from a row that belongs to a key. -/
theorem read_row (P : Prims) (hP : P.Good) (t : Sql.Table PkiRow) (hash : Str) (row : PkiRow) (s : Bytes) (hr : getPki t hash = some row) (h : RowOf P row s) :
    ∃ k, getPrivateKeyEntry P t hash = .ok k ∧ k.entry = Call.entry P s ∧ k.privateKey32 = some (some s) ∧ k.publicKey32.2 = some (some (P.dhPub s)) := by
  obtain ⟨mix, nym, ha⟩ := h.anchor
  have hke : keyEntryDH P row.ki row.sigpubkey = .ok (Call.entry P s) := by
    unfold keyEntryDH
    rw [ha]
    dsimp only
    unfold anchorKey
    simp [Call.entry]
  obtain ⟨h1, h2, h3⟩ := C135_mismatch_violated (Call.entry P s) rfl (P.dhPub s) s (Base64.decode_encode _) (hP.dhPub_len s) h.size
  refine ⟨((loaded (Call.entry P s)).setPrivateKey (Base64.encode s)).1, ?_, ?_, h2, h3⟩
  · unfold getPrivateKeyEntry
    rw [hr]
    dsimp only
    rw [hke]
    dsimp only
    rw [h.priv]
    generalize (loaded (Call.entry P s)).setPrivateKey (Base64.encode s) = x at h1
    obtain ⟨k, b⟩ := x
    cases h1
    rfl
  · unfold Held.setPrivateKey
    rw [Base64.decode_encode]
    show ((loaded (Call.entry P s)).setKey s).1.entry = _
    rw [setKey_dh _ rfl h.size]

/-! ### an example -/

open Verif.Crypt.Toy in
/-- Alice's UID message, and a KeyInit of it that the server signs. -/
theorem someCall : ∃ (o : Owned) (k : Bytes) (ki : KeyInit) (ph pk : Str), Keyed toy o k ∧
    getPriv toy ⟨[], [], [(1, ⟨aliceId, 0, o, none⟩)], []⟩ aliceId = .ok (o, none) ∧
    keyInit toy 1000 o 0 7777000 0 true (lit "mute.one") (lit "mix") (lit "nym") (some (List.replicate 32 5)) (List.replicate 16 0) = .ok (ki, ph, pk) := by
  obtain ⟨e, hw, ht, -⟩ := some_entry ⟨⟨[], 0, 0, 0, [], [], [], ⟨[], [], [], []⟩, [], none, [], [], ⟨[], []⟩, none⟩, [], [], [], []⟩
  obtain ⟨o, ho, -⟩ := Toy.created e hw ht
  obtain ⟨h1, h2, ⟨k, hk⟩, h4, -⟩ := C68_created_checks_partial toy toy_good _ _ _ _ _ _ _ _ _ ho
  have hrepo : o.msg.content.repouris = [lit "mute.one"] := by
    rw [((C68_check_iff toy o.msg).mp h1).repo, h4]
    decide +kernel
  have hkl : ((toy.sha512 (toy.edPub k)).take 32).length = 32 := by rw [List.length_take, toy_good.sha512_len]; rfl
  have hex : ∃ ki ph pk, keyInit toy 1000 o 0 7777000 0 true (lit "mute.one") (lit "mix") (lit "nym") (some (List.replicate 32 5)) (List.replicate 16 0) =
      .ok (ki, ph, pk) := by
    unfold keyInit
    rw [if_neg (by decide), if_neg (by decide), if_neg (by decide), hk.hash, unb64_encode]
    simp only [Res.bind_ok, hrepo, ne_eq, not_true, if_false, initDHKey, toy_good.sha512_len]
    obtain ⟨_, ct, hc1, -, -⟩ := Cipher.C66_aes_round_trip toy.aes toy_good.aes ((toy.sha512 (toy.edPub k)).take 32)
      (toy.anchorJSON ⟨lit "mix", lit "nym", [⟨defaultSuite, lit "ECDHE25519", Base64.encode (toy.sha512 (toy.dhPub (List.replicate 32 5))),
        Base64.encode (toy.dhPub (List.replicate 32 5))⟩]⟩) (List.replicate 16 0) hkl (by simp)
    rw [hc1]
    simp only [hk.priv]
    exact ⟨_, _, _, rfl⟩
  obtain ⟨ki, ph, pk, h⟩ := hex
  exact ⟨o, k, ki, ph, pk, hk, by simp [getPriv, top, Sql.vals, h2], h⟩

open Verif.Crypt.Toy in
/-- Alice's call with the answer `reply`. -/
def aliceCall (o : Owned) (reply : AddReply) : Call :=
  { db := ⟨[], [], [(1, ⟨aliceId, 0, o, none⟩)], []⟩, pseudonym := lit "Alice@mute.one", mix := lit "mix", nym := lit "nym", now := 1000, later := 7777000
    rand := some (List.replicate 32 5), iv := List.replicate 16 0, caps := some [Base64.encode (toy.edPub srvKey)], reply := reply }

open Verif.Crypt.Toy in
theorem aliceGood {o : Owned} {k : Bytes} (hk : Keyed toy o k) (reply : AddReply) : (aliceCall o reply).Good toy := by
  have ha : Ascii (lit "mix") ∧ Ascii (lit "nym") := by
    have : ((lit "mix") ++ lit "nym").all (fun c => decide (c < 128)) = true := by decide +kernel
    simp only [List.all_append, Bool.and_eq_true, List.all_eq_true, decide_eq_true_eq] at this
    exact this
  refine ⟨?_, ?_, by simp [aliceCall], ha.1, ha.2⟩
  · intro r hr
    have : r = (1, ⟨aliceId, 0, o, none⟩) := by simpa [aliceCall] using hr
    rw [this]
    exact ⟨k, hk⟩
  · intro r hr
    cases hr
    rfl

open Verif.Crypt.Toy in
/-- A successful call, and one that fails after the KeyInit was sent. -/
theorem someHistory : ∃ (c c' : Call) (ki : KeyInit) (sk : KeyEntry), c.Good toy ∧ c'.Good toy ∧
    Published toy ids [.add c] ki sk (lit "nym") (List.replicate 32 5) ∧ (addKeyInit toy ids c' []).1 = some ki ∧ (addKeyInit toy ids c' []).2.2 ≠ .ok () := by
  obtain ⟨o, k, ki, ph, pk, hk, h1, h2⟩ := someCall
  have h0 : ∀ (t : Sql.Table PkiRow), addKeyInit toy ids (aliceCall o (some (some [some (Base64.encode (toy.sign srvKey (toy.kiJSON ki)))]))) t =
      (some ki, addPki t ki ph o.msg.content.sigkey.pubkey pk (Base64.encode (toy.sign srvKey (toy.kiJSON ki))), .ok ()) := by
    intro t
    have hv : keyInitVerifySrvSig toy ki (Base64.encode (toy.sign srvKey (toy.kiJSON ki))) (Base64.encode (toy.edPub srvKey)) = .ok () :=
      signedBy_unchecked.mpr (signedBy_sign toy_good _ _)
    unfold addKeyInit aliceCall
    dsimp only
    rw [alice_maps.1]
    dsimp only
    rw [h1]
    dsimp only
    rw [h2]
    dsimp only
    unfold checkSigs
    dsimp only
    rw [hv]
  have h0' : addKeyInit toy ids (aliceCall o none) [] = (some ki, [], .err .rpc) := by
    unfold addKeyInit aliceCall
    dsimp only
    rw [alice_maps.1]
    dsimp only
    rw [h1]
    dsimp only
    rw [h2]
  refine ⟨aliceCall o (some (some [some (Base64.encode (toy.sign srvKey (toy.kiJSON ki)))])), aliceCall o none, ki, o.msg.content.sigkey, aliceGood hk _, aliceGood hk _, ⟨[], _, [], rfl, ?_, ?_, rfl, rfl, _, _, _, _, alice_maps.1, h1, rfl⟩, ?_, ?_⟩
  · rw [h0]
  · rw [h0]
  · rw [h0']
  · rw [h0']; exact nofun

/-! ### C136 -/

/-- C136: after any history of adding and flushing KeyInits, the private key for every KeyInit that was added successfully is
found under the hash of its public key: the entry has that hash, and its private key belongs to its public key. -/
theorem C136_found (P : Prims) (hP : P.Good) (I : Ids) (ops : List Op) (hg : ∀ op ∈ ops, op.Good P) (ki : KeyInit) (sk : KeyEntry) (nym : Str) (r : Bytes)
    (h : Published P I ops ki sk nym r) :
    ∃ k priv, getPrivateKeyEntry P (run P I ops) (Base64.encode (P.sha512 (P.dhPub r))) = .ok k ∧
      k.entry.hash = Base64.encode (P.sha512 (P.dhPub r)) ∧ P.sha512 (P.dhPub priv) = P.sha512 (P.dhPub r) ∧
      k.privateKey32 = some (some priv) ∧ k.publicKey32.2 = some (some (P.dhPub priv)) ∧ ∃ ki' sk' nym', Published P I ops ki' sk' nym' priv := by
  obtain ⟨⟨x, hx, hxh⟩, -⟩ := published_row P hP I ops hg h
  cases hp : getPki (run P I ops) (Base64.encode (P.sha512 (P.dhPub r))) with
  | none => exact absurd hxh (getPki_none hp x hx)
  | some row =>
    obtain ⟨i, hi, hh⟩ := getPki_some hp
    obtain ⟨s, sk', nym', hs, hpub⟩ := rows P hP I [] ops hg nofun (i, row) hi
    obtain ⟨k, h1, h2, h3, h4⟩ := read_row P hP _ _ row s hp hs
    have he : (Call.entry P s).hash = Base64.encode (P.sha512 (P.dhPub r)) := hs.hash.symm.trans hh
    refine ⟨k, s, h1, by rw [h2]; exact he, ?_, h3, h4, row.ki, sk', nym', hpub⟩
    have := congrArg Base64.decode he
    rw [Base64.decode_encode, show (Call.entry P s).hash = Base64.encode (P.sha512 (P.dhPub s)) from rfl, Base64.decode_encode] at this
    exact Option.some.inj this

example : ∃ c ki sk, Call.Good Toy.toy c ∧ Published Toy.toy Toy.ids [.add c] ki sk (lit "nym") (List.replicate 32 5) := by
  obtain ⟨c, -, ki, sk, h1, -, h2, -⟩ := someHistory
  exact ⟨c, ki, sk, h1, h2⟩

/-- C136: a hash that no added KeyInit has is answered with "no key entry"; in particular a key that was not published is never
handed out. -/
theorem C136_unknown (P : Prims) (hP : P.Good) (I : Ids) (ops : List Op) (hg : ∀ op ∈ ops, op.Good P) (hash : Str) :
    getPrivateKeyEntry P (run P I ops) hash = .err .noRow ↔ ¬∃ ki sk nym r, Published P I ops ki sk nym r ∧ Base64.encode (P.sha512 (P.dhPub r)) = hash := by
  constructor
  · rintro h ⟨ki, sk, nym, r, h1, rfl⟩
    obtain ⟨k, priv, h2, -⟩ := C136_found P hP I ops hg ki sk nym r h1
    rw [h2] at h
    cases h
  · intro h
    cases hp : getPki (run P I ops) hash with
    | none =>
      unfold getPrivateKeyEntry
      rw [hp]
    | some row =>
      obtain ⟨i, hi, hh⟩ := getPki_some hp
      obtain ⟨s, sk, nym, hs, hpub⟩ := rows P hP I [] ops hg nofun (i, row) hi
      exact absurd ⟨row.ki, sk, nym, s, hpub, hs.hash.symm.trans hh⟩ h

example : ∃ ops, (∀ op ∈ ops, Op.Good Toy.toy op) ∧ getPrivateKeyEntry Toy.toy (run Toy.toy Toy.ids ops) [] = .err .noRow := ⟨[], nofun, rfl⟩

/-- C136: from the sender to the recipient. A sender whose database has, for the recipient's UID message, only KeyInits that
the recipient added successfully, and at least one of them, encrypts to a key of the recipient and to the nym it was published with; and the recipient finds
the private key of it. `hcol`: no two of the public keys have the same hash. -/
theorem C136_reaches (P : Prims) (hP : P.Good) (I : Ids) (ops : List Op) (hg : ∀ op ∈ ops, op.Good P)
    (hcol : ∀ ki sk nym r ki' sk' nym' r', Published P I ops ki sk nym r → Published P I ops ki' sk' nym' r' → P.sha512 (P.dhPub r) = P.sha512 (P.dhPub r') →
      P.dhPub r = P.dhPub r') (db : DB)
    (m : Message) (h : Str) (hh : sigKeyHash P m = .ok h)
    (hall : ∀ row ∈ db.kis, row.2.sigkeyhash = h → ∃ nym r, Published P I ops row.2.ki m.content.sigkey nym r)
    (hone : ∃ row ∈ db.kis, row.2.sigkeyhash = h) :
    ∃ ki nym r, Published P I ops ki m.content.sigkey nym r ∧
      getPublicKeyEntry P db m = .ok (⟨defaultSuite, lit "ECDHE25519", Base64.encode (P.sha512 (P.dhPub r)), Base64.encode (P.dhPub r)⟩, nym) ∧
      ∃ k priv, getPrivateKeyEntry P (run P I ops) (Base64.encode (P.sha512 (P.dhPub r))) = .ok k ∧ k.privateKey32 = some (some priv) ∧
        P.dhPub priv = P.dhPub r ∧ k.publicKey32.2 = some (some (P.dhPub r)) := by
  cases hk : Sql.first (fun r : KiRow => r.sigkeyhash = h) db.kis with
  | none =>
    obtain ⟨x, hx, hx2⟩ := hone
    have := List.find?_eq_none.mp hk x hx
    simp [hx2] at this
  | some x =>
    obtain ⟨h1, h2⟩ := Sql.first_mem hk
    obtain ⟨nym, r, hp⟩ := hall x h1 (by simpa using h2)
    obtain ⟨-, k, mix, -, -, -, ha⟩ := published_row P hP I ops hg hp
    obtain ⟨k', priv, h3, -, h5, h6, h7, ki', sk', nym', h8⟩ := C136_found P hP I ops hg _ _ _ _ hp
    refine ⟨x.2.ki, nym, r, hp, ?_, k', priv, h3, h6, hcol _ _ _ _ _ _ _ _ h8 hp h5, by rw [h7, hcol _ _ _ _ _ _ _ _ h8 hp h5]⟩
    unfold getPublicKeyEntry getKi
    rw [hh]
    dsimp only
    rw [hk, Option.map_some]
    dsimp only
    rw [ha]
    dsimp only
    unfold anchorKey
    simp [Call.entry]

/-- A sender who fetched alice's only KeyInit. -/
example : ∃ (c : Call) (ki : KeyInit) (m : Message) (h : Str) (db : DB), Call.Good Toy.toy c ∧ sigKeyHash Toy.toy m = .ok h ∧
    (∀ row ∈ db.kis, row.2.sigkeyhash = h → ∃ nym r, Published Toy.toy Toy.ids [.add c] row.2.ki m.content.sigkey nym r) ∧ (∃ row ∈ db.kis, row.2.sigkeyhash = h) ∧
    ∀ ki sk nym r ki' sk' nym' r', Published Toy.toy Toy.ids [.add c] ki sk nym r → Published Toy.toy Toy.ids [.add c] ki' sk' nym' r' → Toy.toy.dhPub r = Toy.toy.dhPub r' := by
  obtain ⟨c, -, ki, sk, h1, -, h2, -⟩ := someHistory
  obtain ⟨-, k, mix, -, h4, h5, -⟩ := published_row Toy.toy Toy.toy_good Toy.ids _ (fun op ho => by rw [List.mem_singleton.mp ho]; exact h1) h2
  refine ⟨c, ki, ⟨⟨[], 0, 0, 0, [], [], [], sk, [], none, [], [], ⟨[], []⟩, none⟩, [], [], [], []⟩, Base64.encode (Toy.toy.sha512 (Toy.toy.sha512 (Toy.toy.edPub k))),
    ⟨[], [], [], [(1, ⟨Base64.encode (Toy.toy.sha512 (Toy.toy.sha512 (Toy.toy.edPub k))), ki⟩)]⟩, h1, ?_, ?_, ?_, ?_⟩
  · unfold sigKeyHash
    dsimp only
    rw [h4, unb64_encode]
    rfl
  · intro row hr _
    rw [List.mem_singleton.mp hr]
    exact ⟨_, _, h2⟩
  · exact ⟨_, .head _, rfl⟩
  · rintro ki sk nym r ki' sk' nym' r' ⟨b, d, a, e1, -, -, -, hr, -⟩ ⟨b', d', a', e1', -, -, -, hr', -⟩
    have x1 : Op.add d ∈ [Op.add c] := by rw [e1]; simp
    have x2 : Op.add d' ∈ [Op.add c] := by rw [e1']; simp
    cases List.mem_singleton.mp x1
    cases List.mem_singleton.mp x2
    rw [hr] at hr'
    cases hr'
    rfl

/-- C136: a KeyInit counts as added only if the answer was exactly one signature, which verifies over the KeyInit under the first
key of the server. -/
theorem C136_signed (P : Prims) (I : Ids) (c : Call) (t : Sql.Table PkiRow) :
    (addKeyInit P I c t).2.2 = .ok () →
    ∃ ki sig key rest, (addKeyInit P I c t).1 = some ki ∧ c.reply = some (some [some sig]) ∧ c.caps = some (key :: rest) ∧ SignedBy P key (P.kiJSON ki) sig := by
  intro h
  rcases addKeyInit_cases P I c t with ⟨hn, -⟩ | ⟨id, domain, o, rep, ki, ph, pk, keys, sigs, sig, -, -, -, h4, h5, h6, h1⟩
  · exact absurd h hn
  · unfold checkSigs at h6
    split at h6
    · cases h6
    · cases h6
    · cases h6
    · cases h6
    · rename_i sig'
      cases keys with
      | nil => cases h6
      | cons key rest =>
        dsimp only at h6
        cases hv : keyInitVerifySrvSig P ki sig' key with
        | err e => rw [hv] at h6; cases h6
        | panic => rw [hv] at h6; cases h6
        | ok u =>
          rw [h1]
          exact ⟨ki, sig', key, rest, rfl, h5, h4, signedBy_unchecked.mp hv⟩

example : ∃ c, (addKeyInit Toy.toy Toy.ids c []).2.2 = .ok () := by
  obtain ⟨c, -, ki, sk, -, -, ⟨b, c', a, -, h, -⟩, -⟩ := someHistory
  rcases addKeyInit_cases Toy.toy Toy.ids c' (run Toy.toy Toy.ids b) with ⟨hn, -⟩ | ⟨id, domain, o, rep, ki, ph, pk, keys, sigs, sig, h1, h2, h3, h4, h5, h6, -⟩
  · exact absurd h hn
  · refine ⟨c', ?_⟩
    unfold addKeyInit
    rw [h1]; dsimp only; rw [h2]; dsimp only; rw [h3]; dsimp only; rw [h4]; dsimp only; rw [h5]; dsimp only; rw [h6]

/-- C136 is violated by a call that fails after the KeyInit was sent: no answer, a bad signature, or a server that names no
key. The server has the KeyInit and hands it out, senders encrypt to it, and the private key is gone. -/
theorem C136_lost_violated (P : Prims) (hP : P.Good) (I : Ids) (c : Call) (hc : c.Good P) (t : Sql.Table PkiRow) (ki : KeyInit)
    (hsent : (addKeyInit P I c t).1 = some ki) (hfail : (addKeyInit P I c t).2.2 ≠ .ok ()) :
    ∃ r sk, c.rand = some r ∧
      (getPki t (Base64.encode (P.sha512 (P.dhPub r))) = none →
        getPrivateKeyEntry P (addKeyInit P I c t).2.1 (Base64.encode (P.sha512 (P.dhPub r))) = .err .noRow) ∧
      ∀ (db : DB) (m : Message) (h : Str), m.content.sigkey = sk → sigKeyHash P m = .ok h → getKi db h = some ki →
        getPublicKeyEntry P db m = .ok (⟨defaultSuite, lit "ECDHE25519", Base64.encode (P.sha512 (P.dhPub r)), Base64.encode (P.dhPub r)⟩, c.nym) := by
  have ht : (addKeyInit P I c t).2.1 = t := by
    rcases addKeyInit_cases P I c t with ⟨-, h1⟩ | ⟨id, domain, o, rep, ki, ph, pk, keys, sigs, sig, -, -, -, -, -, -, h1⟩
    · exact h1
    · rw [h1] at hfail; exact absurd rfl hfail
  have hk : ∃ id domain o rep ph pk, getPriv P c.db id = .ok (o, rep) ∧ keyInit P c.now o 0 c.later 0 true domain c.mix c.nym c.rand c.iv = .ok (ki, ph, pk) := by
    unfold addKeyInit at hsent
    cases h1 : I.mapPlus c.pseudonym with
    | none => rw [h1] at hsent; cases hsent
    | some idd =>
      obtain ⟨id, domain⟩ := idd
      rw [h1] at hsent
      dsimp only at hsent
      cases h2 : getPriv P c.db id with
      | err e => rw [h2] at hsent; cases hsent
      | panic => rw [h2] at hsent; cases hsent
      | ok oo =>
        obtain ⟨o, rep⟩ := oo
        rw [h2] at hsent
        dsimp only at hsent
        cases h3 : keyInit P c.now o 0 c.later 0 true domain c.mix c.nym c.rand c.iv with
        | err e => rw [h3] at hsent; cases hsent
        | panic => rw [h3] at hsent; cases hsent
        | ok kk =>
          obtain ⟨ki', ph, pk⟩ := kk
          rw [h3] at hsent
          dsimp only at hsent
          refine ⟨id, domain, o, rep, ph, pk, h2, ?_⟩
          have : ki' = ki := by
            cases h4 : c.caps with
            | none => rw [h4] at hsent; cases hsent
            | some keys =>
              rw [h4] at hsent
              dsimp only at hsent
              cases h5 : c.reply with
              | none => rw [h5] at hsent; exact Option.some.inj hsent
              | some sigs =>
                rw [h5] at hsent
                dsimp only at hsent
                cases h6 : checkSigs P ki' keys sigs with
                | err e => rw [h6] at hsent; exact Option.some.inj hsent
                | panic => rw [h6] at hsent; exact Option.some.inj hsent
                | ok sig => rw [h6] at hsent; exact Option.some.inj hsent
          rw [h3, this]
  obtain ⟨id, domain, o, rep, ph, pk, h2, h3⟩ := hk
  obtain ⟨pr, hpr, hpo⟩ := getPriv_mem h2
  obtain ⟨k, hk⟩ := hc.keyed pr hpr
  rw [hpo] at hk
  obtain ⟨r, h4, -, -, -, h8⟩ := created P hP _ o k hk _ _ _ _ _ _ _ hc.mix hc.nym _ _ hc.iv ki ph pk h3
  refine ⟨r, o.msg.content.sigkey, h4, ?_, ?_⟩
  · intro hn
    rw [ht]
    unfold getPrivateKeyEntry
    rw [hn]
  · intro db m h hm hh hki
    unfold getPublicKeyEntry
    rw [hh]
    dsimp only
    rw [hki]
    dsimp only
    rw [hm, h8]
    dsimp only
    unfold anchorKey
    simp [Call.entry]

example : ∃ c ki, Call.Good Toy.toy c ∧ (addKeyInit Toy.toy Toy.ids c []).1 = some ki ∧ (addKeyInit Toy.toy Toy.ids c []).2.2 ≠ .ok () := by
  obtain ⟨-, c, ki, -, -, h1, -, h2, h3⟩ := someHistory
  exact ⟨c, ki, h1, h2, h3⟩

end Verif.Crypt.KeyInits
