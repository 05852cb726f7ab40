/-
Searching the hash chain: what an honest key server achieves (C71) and what a
dishonest one can (C23).
-/
import Verif.Crypt.Props

namespace Verif.Crypt

open Verif.Uid Verif.Util

/-- The hash chain entry `e` registers the UID message `m` under the identity
`mapped`, as the protocol prescribes: it carries the hash of the identity under
the first key derived from its nonce, the message's hash encrypted under the hash
of the identity and the second key, and the message's index. -/
def Registers (P : Prims) (mapped : Str) (m : Message) (e : Util.Entry) : Prop :=
  e.hashID = P.sha256 ((ckdf P e.nonce).1 ++ mapped) ∧
  (∃ iv : Bytes, iv.length = 16 ∧
    Cipher.cbcEncrypt P.aes (P.sha256 ((ckdf P e.nonce).2 ++ mapped)) (P.sha256 (P.msgJSON m)) iv =
      .ok e.crUID) ∧
  e.uidIndex = P.sha256 (P.sha256 (P.msgJSON m))

/-- The reply contains the message, encrypted as `Encrypt` does. -/
def Carries (P : Prims) (m : Message) (r : Reply) : Prop :=
  ∃ iv : Bytes, iv.length = 16 ∧ encrypt P m iv =
    .ok (P.sha256 (P.msgJSON m), P.sha256 (P.sha256 (P.msgJSON m)), r.entry.uidMessageEncrypted)

theorem cbc_back {P : Prims} (hP : P.Good) {key pt iv ct : Bytes} (hk : key.length = 32)
    (hp : pt.length % 16 = 0) (hiv : iv.length = 16)
    (h : Cipher.cbcEncrypt P.aes key pt iv = .ok ct) : Cipher.cbcDecrypt P.aes key ct = .ok pt := by
  obtain ⟨h1, _⟩ := Cipher.C66_aes_round_trip P.aes hP.aes key pt iv hk hiv
  obtain ⟨ct', h2, _, h3⟩ := h1 hp
  rw [h] at h2
  injection h2 with h2
  rw [h2]
  exact h3

/-- A reply that carries a message decrypts to it. -/
theorem carries_decrypts {P : Prims} (hP : P.Good) {m : Message} {r : Reply}
    (hm : P.parseMsg (P.msgJSON m) = some m) (h : Carries P m r) :
    replyDecrypt P r (P.sha256 (P.msgJSON m)) = .ok (P.sha256 (P.sha256 (P.msgJSON m)), m) := by
  obtain ⟨iv, hiv, h⟩ := h
  unfold encrypt at h
  obtain ⟨ct, h1, h2⟩ := reply_with hP m m hm r.entry.hashchainEntry r.entry.hashchainPos [] iv hiv
  simp only [h1] at h
  injection h with h
  have h := (Prod.mk.inj (Prod.mk.inj h).2).2
  unfold replyDecrypt createReply at h2
  simp only at h2
  unfold replyDecrypt
  rw [← h]
  exact h2

/-- An entry that registers a message, together with a reply that carries it,
makes the search store the message, provided the signatures are accepted. -/
theorem matchEntry_stores {P : Prims} (hP : P.Good) {f : UInt64 → Bytes → Option Reply} {mapped : Str}
    {db : DB} {i : UInt64} {e : Util.Entry} {m : Message} {r : Reply}
    (hreg : Registers P mapped m e) (hf : f i e.uidIndex = some r) (hc : Carries P m r)
    (hm : P.parseMsg (P.msgJSON m) = some m) (hself : verifySelfSig P m = .ok ())
    (hsrv : verifyServerSig P db m r i = .ok ()) (hi : sqlInt i = true)
    (hcount : sqlInt m.content.msgcount = true) (hn : hasPub db mapped i = false) :
    matchEntry P f mapped db i e =
      ({ db with pubs := Sql.insert db.pubs ⟨m.content.identity, m.content.msgcount, i, m⟩ }, .ok ()) := by
  obtain ⟨-, ⟨iv, hiv, henc⟩, hidx⟩ := hreg
  have hdec := cbc_back hP (hP.sha256_len _) (by rw [hP.sha256_len]) hiv henc
  have hrd := carries_decrypts hP hm hc
  rw [hidx] at hf
  unfold matchEntry
  rw [hi, hn]
  simp only [Bool.true_eq_false, Bool.false_eq_true, if_false, hf, hdec, hrd, hidx, ne_eq, not_true,
    hself, hsrv, addPub, hcount, hi, Bool.and_self, if_true]

theorem registers_isFor {P : Prims} {mapped : Str} {m : Message} {e : Util.Entry}
    (h : Registers P mapped m e) : isFor P mapped e = true := by
  unfold isFor
  rw [h.1]
  simp

/-- Every message can be registered under every identity. -/
theorem exists_registers {P : Prims} (hP : P.Good) (mapped : Str) (m : Message) (prev : Bytes) :
    ∃ e : Util.Entry, e.Widths ∧ e.typ = [1] ∧ Registers P mapped m e ∧
      e.hash = P.sha256 (preimage e prev) := by
  obtain ⟨h1, _⟩ := Cipher.C66_aes_round_trip P.aes hP.aes
    (P.sha256 ((ckdf P (List.replicate 8 0)).2 ++ mapped)) (P.sha256 (P.msgJSON m))
    (List.replicate 16 0) (hP.sha256_len _) (by simp)
  obtain ⟨ct, h2, h3, h4⟩ := h1 (by rw [hP.sha256_len])
  let e : Util.Entry := ⟨[], [1], List.replicate 8 0,
    P.sha256 ((ckdf P (List.replicate 8 0)).1 ++ mapped), ct, P.sha256 (P.sha256 (P.msgJSON m))⟩
  refine ⟨{ e with hash := P.sha256 (preimage e prev) }, ⟨hP.sha256_len _, rfl, by simp [e],
    hP.sha256_len _, ?_, hP.sha256_len _⟩, rfl, ⟨rfl, ⟨_, by simp, h2⟩, rfl⟩, rfl⟩
  show ct.length = 48
  rw [h3, hP.sha256_len]

theorem exists_carries {P : Prims} (hP : P.Good) (m : Message) (hm : P.parseMsg (P.msgJSON m) = some m)
    (hcEntry : Str) (pos : UInt64) (sig : Str) :
    ∃ enc, Carries P m ⟨⟨enc, hcEntry, pos⟩, sig⟩ := by
  obtain ⟨ct, h1, h2⟩ := reply_with hP m m hm [] 0 [] (List.replicate 16 0) (by simp)
  refine ⟨Base64.encode (P.sha256 (P.sha256 (P.msgJSON m)) ++ ct), List.replicate 16 0, by simp, ?_⟩
  unfold encrypt
  simp only [h1]

/-- C23 is violated: whoever runs the key server of one domain can plant, in the
database of everyone who searches any identity of that domain, a self-signed key
server message of any other domain. The planted chain validates. If the victim
has no message of that key server yet, the planted key is from then on the key
under which all messages of that other domain are verified. -/
theorem C23_foreign_identity_stored (P : Prims) (hP : P.Good) (I : Ids) (id mapped domain victim : Str)
    (hmap : I.mapPlus id = some (mapped, domain))
    (m : Message) (hm : P.parseMsg (P.msgJSON m) = some m)
    (hself : SignedBy P m.content.sigkey.pubkey (P.contentJSON m.content) m.selfSig)
    (hid : m.content.identity = lit "keyserver@" ++ victim) (hv : 64 ∉ victim)
    (hcount : m.content.msgcount = 0)
    (db : DB) (hnew : Local I db domain []) (hp : db.privs = []) (hnp : hasPub db mapped 0 = false) :
    ∃ last fetch repo, let db1 := (sync I domain last fetch db).1
      validate P I db1 domain = .ok () ∧
      (search P I repo id false db1).2 = .ok () ∧
      (∃ r ∈ Sql.vals (search P I repo id false db1).1.pubs, r.msg = m) ∧
      ((∀ r ∈ Sql.vals db.pubs, r.identity ≠ lit "keyserver@" ++ victim) →
        ∀ pos, getPub (search P I repo id false db1).1 (lit "keyserver@" ++ victim) pos = some (m, 0)) := by
  obtain ⟨e, hw, ht, hreg, hhash⟩ := exists_registers hP mapped m (List.replicate 32 0)
  obtain ⟨enc, hcar⟩ := exists_carries hP m hm [] 0 []
  obtain ⟨s1, s2, s3, s4⟩ := C70_sync_completes I db domain [] [Base64.encode e.bytes] (by simp)
    (by simp) hnew
  simp only [List.nil_append] at s1 s2 s3 s4
  refine ⟨honestLast [Base64.encode e.bytes], honestFetch [Base64.encode e.bytes],
    fun _ _ => some ⟨⟨enc, [], 0⟩, []⟩, ?_⟩
  intro db1
  have hdb1 : db1 = (sync I domain (honestLast [Base64.encode e.bytes])
    (honestFetch [Base64.encode e.bytes]) db).1 := rfl
  rw [← hdb1] at s2 s3 s4
  have hlast : lastPos I db1 domain = some 0 := s2.1
  have hent : getEntry I db1 domain 0 = .ok (Base64.encode e.bytes) := s2.2 0 (by simp)
  have hsplit : split (Base64.encode e.bytes) = .ok e :=
    split_ok.mpr ⟨hw, ht, Base64.decode_encode _⟩
  have hsp : splitId m.content.identity = some (lit "keyserver", victim) := by
    unfold splitId
    rw [hid]
    have hf : victim.filter (· = 64) = [] := by
      rw [List.filter_eq_nil_iff]
      intro a ha hc
      simp only [decide_eq_true_eq] at hc
      subst hc
      exact hv ha
    have hlit : lit "keyserver@" = lit "keyserver" ++ [64] := by decide
    rw [hlit, List.append_assoc, List.filter_append, List.singleton_append, List.filter_cons, hf]
    have hk : (lit "keyserver").filter (· = 64) = [] := by decide
    rw [hk]
    simp only [decide_true, if_true, List.nil_append, List.length_cons, List.length_nil]
    rw [List.takeWhile_append_of_pos (by decide), List.dropWhile_append_of_pos (by decide)]
    simp
  have hms := matchEntry_stores (f := fun _ _ => some ⟨⟨enc, [], 0⟩, []⟩) (i := 0) (db := db1) hP
    hreg rfl hcar hm (verifySelfSig_iff.mpr hself)
    (by unfold verifyServerSig; rw [hsp]; simp only; rw [if_pos ⟨trivial, hcount⟩]) (by decide)
    (by rw [hcount]; decide) (by unfold hasPub getPub at *; rw [s3]; exact hnp)
  have hsearch : search P I (fun _ _ => some ⟨⟨enc, [], 0⟩, []⟩) id false db1 =
      ({ db1 with pubs := Sql.insert db1.pubs ⟨m.content.identity, m.content.msgcount, 0, m⟩ }, .ok ()) := by
    unfold search
    rw [hmap]
    simp only [hlast]
    have : positions 0 = [0] := rfl
    rw [this]
    unfold searchLoop
    simp only [hent, hsplit, ht, ne_eq, not_true, if_false, registers_isFor hreg, Bool.true_eq_false,
      Bool.false_eq_true, hms, searchLoop]
  refine ⟨?_, by rw [hsearch], ?_, ?_⟩
  · refine C21_linked_validates P I db1 domain [e] (by rw [s4, hp]) ⟨⟨0, hlast, rfl⟩, ?_⟩ ?_
    · intro i hi
      have : i = 0 := by simpa using hi
      subst this
      exact ⟨_, hent, hw, ht, Base64.decode_encode _⟩
    · intro i hi
      have : i = 0 := by simpa using hi
      subst this
      exact hhash
  · rw [hsearch]
    refine ⟨⟨m.content.identity, m.content.msgcount, 0, m⟩, ?_, rfl⟩
    simp only [Sql.vals_insert]
    exact List.mem_append_right _ (List.mem_singleton.mpr rfl)
  · intro hno pos
    rw [hsearch]
    unfold getPub
    simp only [top_insert]
    have : top (·.pos) (fun r : PubRow => r.identity = lit "keyserver@" ++ victim && r.pos ≤ pos) db1.pubs =
        none := by
      cases ht : top (·.pos) (fun r : PubRow => r.identity = lit "keyserver@" ++ victim && r.pos ≤ pos)
          db1.pubs with
      | none => rfl
      | some r =>
        obtain ⟨h1, h2, -⟩ := top_some _ _ ht
        rw [s3] at h1
        simp only [Bool.and_eq_true, decide_eq_true_eq] at h2
        exact absurd h2.1 (hno r h1)
    rw [this]
    unfold topStep
    have : (0 : UInt64) ≤ pos := by rw [UInt64.le_iff_toNat_le]; exact Nat.zero_le _
    simp [hid, this]

/-! ### C71 an honest server's messages are found -/

/-- A key server with signing key `k` registered messages under the identity
`mapped`: `reg i` is the message of position `i`. Entries of other identities
do not match the identity. -/
structure Registry (P : Prims) (mapped : Str) (k : Bytes) (es : List Util.Entry)
    (f : UInt64 → Bytes → Option Reply) (reg : Nat → Option Message) : Prop where
  other : ∀ i, ∀ h : i < es.length, reg i = none → es[i].hashID ≠ P.sha256 ((ckdf P es[i].nonce).1 ++ mapped)
  listed : ∀ i, ∀ h : i < es.length, ∀ m, reg i = some m →
    Registers P mapped m es[i] ∧ P.parseMsg (P.msgJSON m) = some m ∧ m.content.identity = mapped ∧
    SignedBy P m.content.sigkey.pubkey (P.contentJSON m.content) m.selfSig ∧
    m.content.msgcount.toNat < 2 ^ 63 ∧
    ∃ r, f (UInt64.ofNat i) es[i].uidIndex = some r ∧ Carries P m r ∧
      SignedBy P (Base64.encode (P.edPub k)) (P.entryJSON r.entry) r.serverSig
  beyond : ∀ i, es.length ≤ i → reg i = none

/-- Everything stored for the identity is registered. -/
def Genuine (mapped : Str) (reg : Nat → Option Message) (db : DB) : Prop :=
  ∀ r ∈ Sql.vals db.pubs, r.identity = mapped → reg r.pos.toNat = some r.msg

theorem hasPub_iff {db : DB} {mapped : Str} {i : UInt64} :
    hasPub db mapped i = true ↔ ∃ r ∈ Sql.vals db.pubs, r.identity = mapped ∧ r.pos = i := by
  unfold hasPub getPub
  constructor
  · intro h
    split at h
    · rename_i m p hg
      obtain ⟨r, hr, he⟩ := Option.map_eq_some_iff.mp hg
      obtain ⟨rfl, rfl⟩ := Prod.mk.inj he
      obtain ⟨h1, h2, -⟩ := top_some _ _ hr
      simp only [Bool.and_eq_true, decide_eq_true_eq] at h2 h
      exact ⟨r, h1, h2.1, h⟩
    · contradiction
  · rintro ⟨r, hr, hi, hp⟩
    obtain ⟨t, ht⟩ := top_isSome (·.pos) (fun r : PubRow => r.identity = mapped && r.pos ≤ i) hr
      (by simp [hi, hp])
    rw [ht]
    simp only [Option.map_some, decide_eq_true_eq]
    obtain ⟨-, h2, h3⟩ := top_some _ _ ht
    have := h3 r hr (by simp [hi, hp])
    simp only [Bool.and_eq_true, decide_eq_true_eq] at h2
    rw [hp] at this
    exact UInt64.le_antisymm h2.2 this

theorem getPub_other {db : DB} {id : Str} {pos : UInt64} (row : PubRow) (h : row.identity ≠ id) :
    getPub { db with pubs := Sql.insert db.pubs row } id pos = getPub db id pos := by
  unfold getPub
  simp only [top_insert]
  unfold topStep
  simp [h]

/-- What the search has achieved after the positions below `n`. -/
structure Progress (P : Prims) (I : Ids) (domain mapped srvId : Str) (reg : Nat → Option Message)
    (db0 db : DB) (n : Nat) : Prop where
  chains : db.chains = db0.chains
  genuine : Genuine mapped reg db
  srv : ∀ pos, getPub db srvId pos = getPub db0 srvId pos
  seen : ∀ i < n, ∀ m, reg i = some m →
    ∃ r ∈ Sql.vals db.pubs, r.identity = mapped ∧ r.pos = UInt64.ofNat i

theorem search_progress {P : Prims} (hP : P.Good) {I : Ids} {f : UInt64 → Bytes → Option Reply}
    {domain mapped lp dom : Str} {k : Bytes} {es : List Util.Entry} {reg : Nat → Option Message}
    {cs : List Str} (hsplit : splitId mapped = some (lp, dom))
    (hlp : lp ≠ lit "keyserver") {db0 : DB} (hloc : Local I db0 domain cs)
    (hlen : es.length = cs.length) (hmax : cs.length ≤ 2 ^ 63)
    (hes : ∀ i, ∀ h : i < cs.length, split cs[i] = .ok (es[i]'(by omega)))
    (hreg : Registry P mapped k es f reg)
    (hsrv : ∀ i < cs.length, reg i ≠ none → ∃ srv p, getPub db0 (lit "keyserver@" ++ dom) (UInt64.ofNat i) =
      some (srv, p) ∧ srv.content.sigkey.pubkey = Base64.encode (P.edPub k))
    (c : Nat) : ∀ (n : Nat) (found : Bool) (db : DB), n + c = cs.length →
      Progress P I domain mapped (lit "keyserver@" ++ dom) reg db0 db n →
      (found = true ↔ ∃ i < n, reg i ≠ none) →
      ∃ db' found', searchLoop P I f domain mapped false ((List.range' n c).map UInt64.ofNat) found db =
          (db', .ok found') ∧
        Progress P I domain mapped (lit "keyserver@" ++ dom) reg db0 db' cs.length ∧
        (found' = true ↔ ∃ i < cs.length, reg i ≠ none) := by
  have hid : lit "keyserver@" ++ dom ≠ mapped := by
    intro heq
    obtain ⟨h1, h2, h3⟩ := splitId_some hsplit
    rw [h1] at heq
    have hl : lit "keyserver@" ++ dom = lit "keyserver" ++ 64 :: dom := by
      rw [show lit "keyserver@" = lit "keyserver" ++ [64] by decide]
      simp
    rw [hl] at heq
    apply hlp
    have t1 : (lit "keyserver" ++ 64 :: dom).takeWhile (· ≠ 64) = lit "keyserver" := by
      rw [List.takeWhile_append_of_pos (by decide)]
      simp
    have t2 : (lp ++ 64 :: dom).takeWhile (· ≠ 64) = lp := by
      rw [List.takeWhile_append_of_pos]
      · simp
      · intro a ha
        simp only [ne_eq, decide_not, Bool.not_eq_true', decide_eq_false_iff_not]
        intro hc
        exact h2 (hc ▸ ha)
    rw [← t2, ← heq, t1]
  induction c with
  | zero =>
    intro n found db hn hprog hf
    rw [Nat.add_zero] at hn
    subst hn
    exact ⟨db, found, rfl, hprog, hf⟩
  | succ c ih =>
    intro n found db hn hprog hf
    have hnl : n < cs.length := by omega
    have hge : getEntry I db domain (UInt64.ofNat n) = .ok cs[n] := by
      have := hloc.2 n hnl
      unfold getEntry at this ⊢
      rw [hprog.chains]
      exact this
    have hty := (split_ok.mp (hes n hnl)).2.1
    rw [List.range'_succ, List.map_cons]
    unfold searchLoop
    simp only [hge, hes n hnl, hty, ne_eq, not_true, if_false]
    cases hr : reg n with
    | none =>
      have hno : isFor P mapped (es[n]'(by omega)) = false := by
        unfold isFor
        exact decide_eq_false (hreg.other n (by omega) hr)
      rw [hno]
      simp only [if_true]
      refine ih (n + 1) found db (by omega) ?_ ?_
      · refine ⟨hprog.chains, hprog.genuine, hprog.srv, fun i hi m hm => ?_⟩
        by_cases hin : i = n
        · subst hin; rw [hr] at hm; contradiction
        · exact hprog.seen i (by omega) m hm
      · rw [hf]
        constructor
        · rintro ⟨i, hi, h⟩; exact ⟨i, by omega, h⟩
        · rintro ⟨i, hi, h⟩
          refine ⟨i, ?_, h⟩
          by_cases hin : i = n
          · subst hin; exact absurd hr h
          · omega
    | some m =>
      obtain ⟨g1, g2, g3, g4, g5, r, g6, g7, g8⟩ := hreg.listed n (by omega) m hr
      rw [registers_isFor g1]
      simp only [Bool.true_eq_false, Bool.false_eq_true, if_false]
      have hfound : (true = true ↔ ∃ i < n + 1, reg i ≠ none) :=
        ⟨fun _ => ⟨n, by omega, by rw [hr]; simp⟩, fun _ => rfl⟩
      have hsql : sqlInt (UInt64.ofNat n) = true := sqlInt_ofNat (by omega)
      cases hh : hasPub db mapped (UInt64.ofNat n) with
      | true =>
        have : matchEntry P f mapped db (UInt64.ofNat n) (es[n]'(by omega)) = (db, .ok ()) := by
          unfold matchEntry
          rw [hsql, hh]
          simp
        rw [this]
        refine ih (n + 1) true db (by omega) ?_ hfound
        refine ⟨hprog.chains, hprog.genuine, hprog.srv, fun i hi m' hm => ?_⟩
        by_cases hin : i = n
        · subst hin; exact hasPub_iff.mp hh
        · exact hprog.seen i (by omega) m' hm
      | false =>
        have hsv : verifyServerSig P db m r (UInt64.ofNat n) = .ok () := by
          unfold verifyServerSig
          rw [g3, hsplit]
          simp only
          rw [if_neg (fun h => hlp h.1), hsql]
          simp only [Bool.true_eq_false, if_false, hprog.srv]
          obtain ⟨srv, p, q1, q2⟩ := hsrv n hnl (by rw [hr]; simp)
          rw [q1]
          simp only [q2]
          have : verifySrvSig P r m (Base64.encode (P.edPub k)) = .ok () :=
            verifySrvSig_iff.mpr ⟨⟨m, carries_decrypts hP g2 g7⟩, g8⟩
          rw [this]
          rfl
        rw [matchEntry_stores hP g1 g6 g7 g2 (verifySelfSig_iff.mpr g4) hsv hsql
          (decide_eq_true g5) hh]
        simp only
        refine ih (n + 1) true _ (by omega) ?_ hfound
        refine ⟨hprog.chains, ?_, ?_, ?_⟩
        · intro row hrow hrid
          simp only [Sql.vals_insert, List.mem_append, List.mem_singleton] at hrow
          rcases hrow with hrow | rfl
          · exact hprog.genuine row hrow hrid
          · simp only
            rw [ofNat_toNat (by omega)]
            exact hr
        · intro pos
          rw [getPub_other _ (by simp only; rw [g3]; exact fun h => hid h.symm), hprog.srv]
        · intro i hi m' hm
          simp only [Sql.vals_insert]
          by_cases hin : i = n
          · subst hin
            exact ⟨_, List.mem_append_right _ (List.mem_singleton.mpr rfl), g3, rfl⟩
          · obtain ⟨row, h1, h2⟩ := hprog.seen i (by omega) m' hm
            exact ⟨row, List.mem_append_left _ h1, h2⟩

/-- C71: let a key server register messages for an identity in its hash chain and
serve them, signed with its key, and let the local copy of the chain be complete
and the server's key be known for the positions in question. Then a search for
the identity succeeds, and afterwards the newest of the registered messages is
the one the database returns. (Nothing but registered messages may be stored for
the identity before; messages found earlier are.) -/
theorem C71_search_finds_newest (P : Prims) (hP : P.Good) (I : Ids) (f : UInt64 → Bytes → Option Reply)
    (id domain mapped lp dom : Str) (k : Bytes) (es : List Util.Entry) (reg : Nat → Option Message)
    (cs : List Str) (hmap : I.mapPlus id = some (mapped, domain))
    (hsplit : splitId mapped = some (lp, dom)) (hlp : lp ≠ lit "keyserver") (db : DB)
    (hloc : Local I db domain cs) (hlen : es.length = cs.length) (hmax : cs.length ≤ 2 ^ 63)
    (hes : ∀ i, ∀ h : i < cs.length, split cs[i] = .ok (es[i]'(by omega)))
    (hreg : Registry P mapped k es f reg)
    (hsrv : ∀ i < cs.length, reg i ≠ none → ∃ srv p, getPub db (lit "keyserver@" ++ dom) (UInt64.ofNat i) =
      some (srv, p) ∧ srv.content.sigkey.pubkey = Base64.encode (P.edPub k))
    (hgen : Genuine mapped reg db)
    (j : Nat) (m : Message) (hj : reg j = some m) (hlast : ∀ i, j < i → reg i = none) :
    ∃ db', search P I f id false db = (db', .ok ()) ∧
      getPub db' mapped 9223372036854775807 = some (m, UInt64.ofNat j) := by
  have hjl : j < cs.length := by
    by_cases h : j < cs.length
    · exact h
    · rw [hreg.beyond j (by omega)] at hj
      contradiction
  obtain ⟨db', found, h1, h2, h3⟩ := search_progress hP hsplit hlp hloc hlen hmax hes hreg hsrv
    cs.length 0 false db (by omega) ⟨rfl, hgen, fun _ => rfl, fun i hi => absurd hi (by omega)⟩
    (by simp)
  refine ⟨db', ?_, ?_⟩
  · unfold search
    rw [hmap]
    simp only
    have hl := hloc.1
    rw [if_neg (by omega)] at hl
    rw [hl]
    simp only
    have : positions (UInt64.ofNat (cs.length - 1)) = (List.range' 0 cs.length).map UInt64.ofNat := by
      unfold positions
      rw [ofNat_toNat (by omega), List.range_eq_range']
      congr 2
      omega
    rw [this, h1]
    have : found = true := h3.mpr ⟨j, hjl, by rw [hj]; simp⟩
    rw [this]
  · obtain ⟨row, r1, r2, r3⟩ := h2.seen j hjl m hj
    have hle : row.pos ≤ 9223372036854775807 := by
      rw [r3, UInt64.le_iff_toNat_le, ofNat_toNat (by omega)]
      show j ≤ 9223372036854775807
      omega
    obtain ⟨t, ht⟩ := top_isSome (·.pos)
      (fun r : PubRow => r.identity = mapped && r.pos ≤ 9223372036854775807) r1 (by simp [r2, hle])
    obtain ⟨t1, t2, t3⟩ := top_some _ _ ht
    simp only [Bool.and_eq_true, decide_eq_true_eq] at t2 t3
    have hge := t3 row r1 ⟨r2, hle⟩
    have hg := h2.genuine t t1 t2.1
    rw [r3, UInt64.le_iff_toNat_le, ofNat_toNat (by omega)] at hge
    have htj : t.pos.toNat = j := by
      by_cases h : j < t.pos.toNat
      · rw [hlast _ h] at hg; contradiction
      · omega
    rw [htj, hj] at hg
    injection hg with hg
    unfold getPub
    rw [ht]
    simp only [Option.map_some, ← hg, Option.some.injEq, Prod.mk.injEq, true_and]
    rw [← htj]
    simp

end Verif.Crypt
