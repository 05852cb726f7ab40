/-
Own nyms (C73 registration, C74 deletion) and the KeyInit messages of others
(C75 origin, C76 freshness).
-/
import Verif.Crypt.Search

namespace Verif.Crypt

open Verif.Uid Verif.Util

/-! ### Helpers -/

theorem top_update {α : Type} (key : α → UInt64) (p q : α → Bool) (g : α → α) (t : Sql.Table α)
    (hk : ∀ a, key (g a) = key a) (hp : ∀ a, p (g a) = p a) :
    top key p (Sql.update q g t) = (top key p t).map fun a => if q a then g a else a := by
  have hv : Sql.vals (Sql.update q g t) = (Sql.vals t).map fun a => if q a then g a else a := by
    simp only [Sql.vals, Sql.update, List.map_map]
    apply List.map_congr_left
    intro r _
    simp only [Function.comp]
    split <;> rfl
  rw [top_eq, top_eq, hv]
  suffices H : ∀ (l : List α) (best : Option α),
      (l.map fun a => if q a then g a else a).foldl (topStep key p)
        (best.map fun a => if q a then g a else a) =
      (l.foldl (topStep key p) best).map fun a => if q a then g a else a from H _ none
  intro l
  induction l with
  | nil => intro best; rfl
  | cons a l ih =>
    intro best
    rw [List.map_cons, List.foldl_cons, List.foldl_cons, ← ih]
    congr 1
    have hk' : ∀ a, key (if q a then g a else a) = key a := by intro a; split <;> simp [hk]
    have hp' : ∀ a, p (if q a then g a else a) = p a := by intro a; split <;> simp [hp]
    unfold topStep
    rw [hp']
    cases best with
    | none => by_cases h : p a = true <;> simp [h]
    | some b =>
      simp only [Option.map_some, hk']
      by_cases h : p a = true
      · by_cases h' : key b < key a <;> simp [h, h']
      · simp [h]

theorem getPriv_ok {P : Prims} {db : DB} {id : Str} {o : Owned} {rep : Option Reply}
    (h : getPriv P db id = .ok (o, rep)) :
    ∃ r, top (·.msgcount) (fun r : PrivRow => r.identity = id) db.privs = some r ∧ r.owned = o ∧
      r.reply = rep ∧ verifySelfSig P o.msg = .ok () := by
  unfold getPriv at h
  split at h
  · contradiction
  · rename_i r hr
    split at h
    · rename_i hs
      injection h with h
      obtain ⟨rfl, rfl⟩ := Prod.mk.inj h
      exact ⟨r, hr, rfl, rfl, hs⟩
    · contradiction
    · contradiction

theorem getPriv_reply {P : Prims} {db : DB} {id : Str} {o : Owned} {r : PrivRow}
    (hr : top (·.msgcount) (fun r : PrivRow => r.identity = id) db.privs = some r)
    (ho : r.owned = o) (hs : verifySelfSig P o.msg = .ok ()) (rep : Reply) :
    getPriv P (addPrivReply P db o.msg rep) id = .ok (o, some rep) := by
  have := top_update (·.msgcount) (fun r : PrivRow => decide (r.identity = id))
    (fun r => decide (P.msgJSON r.owned.msg = P.msgJSON o.msg))
    (fun r => { r with reply := some rep }) db.privs (fun _ => rfl) (fun _ => rfl)
  unfold getPriv addPrivReply
  simp only
  rw [this, hr]
  simp only [Option.map_some, ho, decide_true, if_true, hs]

/-- The columns of the private UIDs agree with the stored messages. -/
def WellKept (db : DB) : Prop :=
  ∀ r ∈ Sql.vals db.privs, r.identity = r.owned.msg.content.identity ∧
    r.msgcount = r.owned.msg.content.msgcount ∧ sqlInt r.msgcount = true

theorem wellKept_add {db db' : DB} {o : Owned} (h : WellKept db) (ha : addPriv db o = some db') :
    WellKept db' := by
  unfold addPriv at ha
  split at ha
  · rename_i hs
    injection ha with ha
    subst ha
    intro r hr
    simp only [Sql.vals_insert, List.mem_append, List.mem_singleton] at hr
    rcases hr with hr | rfl
    · exact h r hr
    · exact ⟨rfl, rfl, hs⟩
  · contradiction

theorem storeEntries_privs (I : Ids) (d : Str) (last : UInt64) (es : List (Option Str)) :
    ∀ i db, (storeEntries I d last es i db).1.privs = db.privs ∧
      (storeEntries I d last es i db).1.kis = db.kis := by
  induction es with
  | nil => intro i db; unfold storeEntries; split <;> exact ⟨rfl, rfl⟩
  | cons e es ih =>
    intro i db
    unfold storeEntries
    split
    · exact ⟨rfl, rfl⟩
    · cases e with
      | none => exact ⟨rfl, rfl⟩
      | some e =>
        simp only [addEntry]
        split
        · exact ⟨rfl, rfl⟩
        · rename_i heq
          rw [(ih _ _).1, (ih _ _).2]
          split at heq
          · injection heq with heq; subst heq; exact ⟨rfl, rfl⟩
          · contradiction

theorem sync_privs (I : Ids) (d : Str) (l : Option LastReply) (f : UInt64 → UInt64 → Option EntriesReply)
    (db : DB) : (sync I d l f db).1.privs = db.privs := by
  unfold sync
  split
  · rfl
  · split
    · rfl
    · split
      · rfl
      · split
        · rfl
        · split
          · rfl
          · split
            · rfl
            · split
              · rfl
              · exact (storeEntries_privs _ _ _ _ _ _).1

theorem sync_kis (I : Ids) (d : Str) (l : Option LastReply) (f : UInt64 → UInt64 → Option EntriesReply)
    (db : DB) : (sync I d l f db).1.kis = db.kis := by
  unfold sync
  split
  · rfl
  · split
    · rfl
    · split
      · rfl
      · split
        · rfl
        · split
          · rfl
          · split
            · rfl
            · split
              · rfl
              · exact (storeEntries_privs _ _ _ _ _ _).2

theorem matchEntry_privs (P : Prims) (f : UInt64 → Bytes → Option Reply) (mapped : Str) (db : DB)
    (i : UInt64) (e : Util.Entry) : (matchEntry P f mapped db i e).1.privs = db.privs := by
  rcases matchEntry_cases P f mapped db i e with hc | ⟨_, _, _, _, _, _, _, _, hc⟩ <;> rw [hc]

/-- The columns agree in every database that the commands produce. -/
theorem wellKept_run (P : Prims) (I : Ids) (ops : List Op) (db : DB) (h : WellKept db) :
    WellKept (run P I ops db) := by
  induction ops generalizing db with
  | nil => exact h
  | cons o ops ih =>
    refine ih _ ?_
    have hsame : ∀ db' : DB, db'.privs = db.privs → WellKept db' := by
      intro db' he
      unfold WellKept
      rw [he]
      exact h
    cases o with
    | sync d l f => exact hsame _ (sync_privs I d l f db)
    | search id f so =>
      refine hsame _ ?_
      show (search P I f id so db).1.privs = db.privs
      unfold search
      split
      · rfl
      · rename_i mapped domain _
        split
        · rfl
        · rename_i max _
          have := searchLoop_inv P I f domain mapped so (fun d => d.privs = db.privs)
            (fun d i e hd => by rw [matchEntry_privs]; exact hd) (positions max) false db rfl
          split <;> (rename_i heq; rw [heq] at this; exact this)
    | lookup id f ps =>
      refine hsame _ ?_
      show (lookup P I f id ps db).1.privs = db.privs
      unfold lookup
      split
      · rfl
      · rename_i mapped domain _
        split
        · rfl
        · rename_i ps'
          have := lookupLoop_inv P I f domain mapped (fun d => d.privs = db.privs)
            (fun d i e hd => by rw [matchEntry_privs]; exact hd) ps' false db rfl
          split <;> (rename_i heq; rw [heq] at this; exact this)
    | generate id later r1 r2 =>
      show WellKept (generate P I id later r1 r2 db).1
      unfold generate
      split
      · exact h
      · split
        · exact h
        · split
          · split
            · split
              · rename_i heq; exact wellKept_add h heq
              · exact h
            · exact h
            · exact h
          · exact h
          · exact h
    | register id s p =>
      show WellKept (registerOrUpdate P I id s p db).1
      unfold registerOrUpdate addPrivReply
      split
      · exact h
      · split
        · exact h
        · exact h
        · exact h
        · split
          · exact h
          · intro r hr
            simp only [Sql.vals, Sql.update, List.map_map, List.mem_map, Function.comp] at hr
            obtain ⟨x, hx, rfl⟩ := hr
            have := h x.2 (List.mem_map.mpr ⟨x, hx, rfl⟩)
            split <;> exact this
    | genupdate id r =>
      show WellKept (genupdate P I id r db).1
      unfold genupdate
      split
      · exact h
      · split
        · exact h
        · exact h
        · split
          · exact h
          · exact h
          · split
            · rename_i heq; exact wellKept_add h heq
            · exact h
    | deleteUID id =>
      show WellKept (deleteUID P I id db).1
      unfold deleteUID delPriv
      split
      · exact h
      · split
        · exact h
        · exact h
        · intro r hr
          simp only [Sql.vals_delete, List.mem_filter] at hr
          exact h r hr.1
    | fetchKeyInit id s =>
      refine hsame _ ?_
      show (fetchKeyInit P I id s db).1.privs = db.privs
      unfold fetchKeyInit addKi
      split
      · rfl
      · split
        · rfl
        · split
          · rfl
          · rfl
          · split <;> rfl

/-! ### C73 registration -/

/-- C73 is violated: after a registration that failed because the key server's
reply did not verify, every further attempt to register the nym fails without
asking the server, whatever it would answer. -/
theorem C73_refused_reply_is_final (P : Prims) (I : Ids) (pseudonym : Str)
    (server server' : Message → Option Reply) (srvPub srvPub' : Str) (db db' : DB) (e : Err)
    (id domain : Str) (hmap : I.mapPlus pseudonym = some (id, domain))
    (o : Owned) (hpriv : getPriv P db id = .ok (o, none))
    (h : registerOrUpdate P I pseudonym server srvPub db = (db', .err (.uid e))) :
    registerOrUpdate P I pseudonym server' srvPub' db' = (db', .err .already) := by
  obtain ⟨r, hr, ho, -, hs⟩ := getPriv_ok hpriv
  unfold registerOrUpdate at h
  rw [hmap] at h
  simp only [hpriv] at h
  split at h
  · cases (Prod.mk.inj h).2
  · rename_i rep _
    obtain ⟨rfl, -⟩ := Prod.mk.inj h
    have hget : getPriv P (addPrivReply P db o.msg rep) id = .ok (o, some rep) := by
      exact getPriv_reply hr ho hs rep
    unfold registerOrUpdate
    rw [hmap]
    simp only [hget]

/-- C73, the other direction: a nym without a stored reply is sent to the server,
the command succeeds exactly if the reply verifies under the server's key, and
then the reply is stored with the nym. -/
theorem C73_registers_partial (P : Prims) (I : Ids) (pseudonym : Str)
    (server : Message → Option Reply) (srvPub : Str) (db : DB)
    (id domain : Str) (hmap : I.mapPlus pseudonym = some (id, domain))
    (o : Owned) (hpriv : getPriv P db id = .ok (o, none)) :
    (registerOrUpdate P I pseudonym server srvPub db).2 = .ok () ↔
      ∃ rep, server o.msg = some rep ∧ verifySrvSig P rep o.msg srvPub = .ok () ∧
        getPriv P (registerOrUpdate P I pseudonym server srvPub db).1 id = .ok (o, some rep) := by
  obtain ⟨r, hr, ho, -, hs⟩ := getPriv_ok hpriv
  have hget : ∀ rep, getPriv P (addPrivReply P db o.msg rep) id = .ok (o, some rep) := by
    intro rep
    exact getPriv_reply hr ho hs rep
  unfold registerOrUpdate
  rw [hmap]
  simp only [hpriv]
  cases hsv : server o.msg with
  | none => simp
  | some rep =>
    simp only [Option.some.injEq, exists_eq_left', hget, and_true]
    cases verifySrvSig P rep o.msg srvPub <;> simp [ofUid]

/-! ### C74 deletion -/

/-- The database holds private keys of a nym. -/
def Holds (db : DB) (id : Str) : Prop := ∃ r ∈ Sql.vals db.privs, r.identity = id

theorem mem_privIdentities {db : DB} {id : Str} : id ∈ privIdentities db ↔ Holds db id := by
  unfold privIdentities Holds
  rw [List.mem_eraseDups, List.mem_map]

/-- C74, partial: deleting a nym that has not been updated removes all its
private keys, and those of no other nym with a different message. Missing: nyms
that have been updated (`C74_deleting_leaves_old_keys`). -/
theorem C74_delete_removes_partial (P : Prims) (I : Ids) (pseudonym id domain : Str) (db : DB)
    (hmap : I.mapPlus pseudonym = some (id, domain)) (o : Owned) (rep : Option Reply)
    (hpriv : getPriv P db id = .ok (o, rep))
    (hone : ∀ r ∈ Sql.vals db.privs, r.identity = id → r.owned.msg = o.msg) :
    (deleteUID P I pseudonym db).2 = .ok () ∧
    ¬ Holds (deleteUID P I pseudonym db).1 id ∧
    ∀ r ∈ Sql.vals db.privs, P.msgJSON r.owned.msg ≠ P.msgJSON o.msg →
      r ∈ Sql.vals (deleteUID P I pseudonym db).1.privs := by
  unfold deleteUID
  rw [hmap]
  simp only [hpriv, delPriv]
  refine ⟨trivial, ?_, ?_⟩
  · rintro ⟨r, hr, hid⟩
    simp only [Sql.vals_delete, List.mem_filter, Bool.not_eq_true', decide_eq_false_iff_not] at hr
    exact hr.2 (by rw [hone r hr.1 hid])
  · intro r hr hne
    simp only [Sql.vals_delete, List.mem_filter, Bool.not_eq_true', decide_eq_false_iff_not]
    exact ⟨hr, hne⟩

/-- The encodings of an update and its predecessor differ. -/
theorem update_json_ne {P : Prims} (hP : P.Good) {o o' : Owned} {k seed : Bytes} (hk : Keyed P o k)
    (ha : o.msg.Ascii) (hu : update P o (some seed) = .ok o') :
    o'.msg.content.msgcount = o.msg.content.msgcount + 1 ∧ P.msgJSON o'.msg ≠ P.msgJSON o.msg := by
  obtain ⟨s, hs, h1, h2, h3, h4, h5, h6, h7⟩ := update_ok hk hu
  have hc : o'.msg.content.msgcount = o.msg.content.msgcount + 1 := by rw [h3]
  refine ⟨hc, fun heq => ?_⟩
  have ha' : o'.msg.Ascii := by
    obtain ⟨a1, a2, a3, a4, a5, a6, a7, a8, a9, a10, a11, a12, a13, a14, a15, a16⟩ := ha
    unfold Message.Ascii
    rw [h3, h4, h5, h6, h7]
    have hed : Ascii (lit "ED25519") := by
      have : (lit "ED25519").all (· < 128) = true := by decide +kernel
      intro c hc
      simpa using List.all_eq_true.mp this c hc
    exact ⟨a1, a2, a3, a4, ⟨suite_ascii, hed, ascii_encode _, ascii_encode _⟩, a6, a7, a8, a9, a10,
      a11, a12, a13, ascii_encode _, ascii_encode _, a16⟩
  have e1 := hP.parse_msg _ ha
  have e2 := hP.parse_msg _ ha'
  rw [heq, e1] at e2
  injection e2 with e2
  rw [← e2] at hc
  have := congrArg UInt64.toNat hc
  rw [UInt64.toNat_add] at this
  have h8 := o.msg.content.msgcount.toNat_lt
  have h9 : (1 : UInt64).toNat = 1 := rfl
  rw [h9] at this
  omega

/-- C74 is violated: for every nym (whose counter is not at the end of the range
of the database), after an update has been generated, deleting the nym reports
success but leaves the previous message with its private keys in the database,
and the nym is still listed. -/
theorem C74_deleting_leaves_old_keys (P : Prims) (hP : P.Good) (I : Ids) (ops : List Op)
    (pseudonym id domain : Str) (db : DB) (hdb : db = run P I ops ⟨[], [], [], []⟩)
    (hmap : I.mapPlus pseudonym = some (id, domain)) (o : Owned) (rep : Option Reply)
    (hpriv : getPriv P db id = .ok (o, rep)) (k seed : Bytes) (hk : Keyed P o k)
    (ha : o.msg.Ascii) (hc : o.msg.content.msgcount.toNat + 1 < 2 ^ 63) :
    ∃ db1, genupdate P I pseudonym (some seed) db = (db1, .ok ()) ∧
    (deleteUID P I pseudonym db1).2 = .ok () ∧
    id ∈ privIdentities (deleteUID P I pseudonym db1).1 ∧
    ∃ r ∈ Sql.vals (deleteUID P I pseudonym db1).1.privs, r.identity = id ∧ r.owned = o := by
  have hwk : WellKept db := by
    rw [hdb]
    exact wellKept_run P I ops _ (fun r hr => by simp [Sql.vals] at hr)
  obtain ⟨r, hr, ho, -, hs⟩ := getPriv_ok hpriv
  obtain ⟨hr1, hr2, hr3⟩ := top_some _ _ hr
  simp only [decide_eq_true_eq] at hr2
  obtain ⟨hw1, hw2, hw3⟩ := hwk r hr1
  obtain ⟨o', hu, -, hself, hid, -, -⟩ := C18_update_verifies P hP o k seed hk
  obtain ⟨hcnt, hne⟩ := update_json_ne hP hk ha hu
  have htn : o'.msg.content.msgcount.toNat = o.msg.content.msgcount.toNat + 1 := by
    rw [hcnt, UInt64.toNat_add]
    have h9 : (1 : UInt64).toNat = 1 := rfl
    rw [h9]
    omega
  have hadd : addPriv db o' = some { db with
      privs := Sql.insert db.privs ⟨o'.msg.content.identity, o'.msg.content.msgcount, o', none⟩ } := by
    unfold addPriv
    rw [if_pos (by unfold sqlInt; rw [htn]; exact decide_eq_true hc)]
  have hid' : o'.msg.content.identity = id := by rw [hid, ← ho, ← hw1, hr2]
  obtain ⟨row, hrow⟩ : ∃ row : PrivRow,
    row = ⟨o'.msg.content.identity, o'.msg.content.msgcount, o', none⟩ := ⟨_, rfl⟩
  rw [← hrow] at hadd
  refine ⟨{ db with privs := Sql.insert db.privs row }, ?_, ?_⟩
  · unfold genupdate
    rw [hmap]
    simp only [hpriv, hu, hadd]
  · have hget : getPriv P { db with privs := Sql.insert db.privs row } id =
        .ok (o', none) := by
      subst hrow
      unfold getPriv
      simp only [top_insert]
      rw [hr]
      unfold topStep
      have hlt : r.msgcount < o'.msg.content.msgcount := by
        rw [hw2, ho, UInt64.lt_iff_toNat_lt, htn]
        omega
      simp only [hid', decide_true, if_true, hlt, hself]
    have hmem : ∃ x ∈ Sql.vals (deleteUID P I pseudonym
        { db with privs := Sql.insert db.privs row }).1.privs,
        x.identity = id ∧ x.owned = o := by
      unfold deleteUID
      rw [hmap]
      simp only [hget, delPriv, Sql.vals_delete, Sql.vals_insert]
      refine ⟨r, List.mem_filter.mpr ⟨List.mem_append_left _ hr1, ?_⟩, hr2, ho⟩
      simp only [ho, Bool.not_eq_true', decide_eq_false_iff_not]
      exact fun h => hne h.symm
    refine ⟨?_, ?_, hmem⟩
    · unfold deleteUID
      rw [hmap]
      simp only [hget]
    · obtain ⟨x, hx, hxi, -⟩ := hmem
      exact mem_privIdentities.mpr ⟨x, hx, hxi⟩

/-! ### C75, C76 KeyInit messages -/

/-- C75, partial: the key used to start a session with a recipient comes from a
stored KeyInit message under the hash of the recipient's signature key, whose
session anchor hash fits. Missing: any signature of the recipient
(`C75_forged_key_init_used`). -/
theorem C75_key_entry_partial (P : Prims) (db : DB) (m : Message) (ke : KeyEntry) (nym : Str)
    (h : getPublicKeyEntry P db m = .ok (ke, nym)) :
    ∃ r ∈ Sql.vals db.kis, ∃ sa, sigKeyHash P m = .ok r.sigkeyhash ∧
      AnchorOf P r.ki m.content.sigkey.pubkey sa ∧ ke ∈ sa.pfkeys ∧
      ke.function = lit "ECDHE25519" ∧ nym = sa.nymaddress := by
  unfold getPublicKeyEntry at h
  split at h
  · contradiction
  · contradiction
  · rename_i hsh hs
    split at h
    · contradiction
    · rename_i ki hk
      split at h
      · contradiction
      · contradiction
      · rename_i sa hsa
        split at h
        · rename_i k' hke
          injection h with h
          obtain ⟨rfl, rfl⟩ := Prod.mk.inj h
          unfold getKi at hk
          obtain ⟨⟨rid, row⟩, hrow, hrk⟩ := Option.map_eq_some_iff.mp hk
          unfold Sql.first at hrow
          have hp := List.find?_some hrow
          simp only [decide_eq_true_eq] at hp
          simp only at hrk
          refine ⟨row, List.mem_map.mpr ⟨_, List.mem_of_find?_eq_some hrow, rfl⟩, sa, ?_, ?_, ?_, ?_, rfl⟩
          · rw [hs, hp]
          · rw [hrk]; exact sessionAnchor_ok hsa
          · unfold anchorKey at hke
            split at hke
            · rename_i hf
              injection hke with hke
              subst hke
              exact List.mem_of_find?_eq_some hf
            · contradiction
          · unfold anchorKey at hke
            split at hke
            · rename_i hf
              injection hke with hke
              subst hke
              simpa using List.find?_some hf
            · contradiction
        · contradiction
        · contradiction

/-- C75 is violated: for every known recipient for whom no KeyInit message is
stored, and for every key the key server chooses, the server can reply with a
KeyInit message that carries no signature of the recipient, and the engine then
uses the server's key (and nym address) to encrypt to that recipient. -/
theorem C75_forged_key_init_used (P : Prims) (hP : P.Good) (I : Ids) (pseudonym id domain : Str)
    (db : DB) (hmap : I.mapPlus pseudonym = some (id, domain)) (m : Message) (pos : UInt64)
    (hpub : getPub db id 9223372036854775807 = some (m, pos)) (pk : Bytes)
    (hkey : m.content.sigkey.pubkey = Base64.encode pk)
    (hhash : m.content.sigkey.hash = Base64.encode (P.sha512 pk))
    (hnone : getKi db (Base64.encode (P.sha512 (P.sha512 pk))) = none)
    (ke : KeyEntry) (hke : ke.function = lit "ECDHE25519") (nym : Str) (hak : ke.Ascii) (han : Ascii nym) :
    ∃ forged : KeyInit, forged.signature = [] ∧
      (fetchKeyInit P I pseudonym (fun _ => some forged) db).2 = .ok () ∧
      getPublicKeyEntry P (fetchKeyInit P I pseudonym (fun _ => some forged) db).1 m = .ok (ke, nym) := by
  let sa : Anchor := ⟨[], nym, [ke]⟩
  have hsa : P.parseAnchor (P.anchorJSON sa) = some sa := by
    refine hP.parse_anchor sa ⟨fun c hc => by simp [sa] at hc, han, ?_⟩
    intro k hk
    rw [List.mem_singleton.mp hk]
    exact hak
  obtain ⟨-, enc, h1, h2, h3⟩ := Cipher.C66_aes_round_trip P.aes hP.aes ((P.sha512 pk).take 32)
    (P.anchorJSON sa) (List.replicate 16 0) (by rw [List.length_take, hP.sha512_len]; rfl) (by simp)
  let c : KIContents :=
    { version := lit "1.0", msgcount := 0, notafter := 0, notbefore := 0, fallback := false
      sigkeyhash := Base64.encode (P.sha512 (P.sha512 pk)), repouri := []
      sessionanchor := Base64.encode enc
      sessionanchorhash := Base64.encode (P.sha512 (P.anchorJSON sa)) }
  have hsk : sigKeyHash P m = .ok (Base64.encode (P.sha512 (P.sha512 pk))) := by
    unfold sigKeyHash
    rw [hhash, unb64_encode]
    rfl
  have hfetch : fetchKeyInit P I pseudonym (fun _ => some ⟨c, []⟩) db = (addKi db ⟨c, []⟩, .ok ()) := by
    unfold fetchKeyInit
    rw [hmap]
    simp only [hpub, hsk]
  refine ⟨⟨c, []⟩, rfl, by rw [hfetch], ?_⟩
  rw [hfetch]
  unfold getPublicKeyEntry
  rw [hsk]
  simp only
  have hget : getKi (addKi db ⟨c, []⟩) (Base64.encode (P.sha512 (P.sha512 pk))) = some ⟨c, []⟩ := by
    unfold getKi addKi at *
    simp only [Sql.first_insert]
    rw [Option.map_eq_none_iff.mp hnone]
    simp [c]
  rw [hget]
  have hanc : sessionAnchor P ⟨c, []⟩ m.content.sigkey.pubkey = .ok sa := by
    unfold sessionAnchor
    rw [hkey]
    simp only [unb64_encode, Res.bind_ok, c, ne_eq, not_true, if_false, h3, hsa]
  simp only [hanc]
  have : anchorKey sa (lit "ECDHE25519") = .ok ke := by
    unfold anchorKey
    simp [sa, hke]
  rw [this]

/-- C76 is violated: once a KeyInit message is stored for a recipient's signature
key, it is used for every later session; no command, in particular no later fetch
of a newer message, changes that. (There is no test of its validity period
either.) -/
theorem C76_first_key_init_wins (P : Prims) (I : Ids) (ops : List Op) (db : DB) (h : Str) (ki : KeyInit)
    (hk : getKi db h = some ki) : getKi (run P I ops db) h = some ki := by
  induction ops generalizing db with
  | nil => exact hk
  | cons o ops ih =>
    refine ih _ ?_
    refine step_inv P I (fun db => getKi db h = some ki) ?_ ?_ ?_ ?_ o db hk
    · intro f mapped db i e hk
      rcases matchEntry_cases P f mapped db i e with hc | ⟨_, _, _, _, _, _, _, _, hc⟩ <;>
        (rw [hc]; exact hk)
    · intro d l f db hk
      unfold getKi at *
      rw [sync_kis]
      exact hk
    · intro db _ hk
      exact hk
    · intro db k hk
      unfold getKi addKi at *
      simp only [Sql.first_insert]
      obtain ⟨x, hx, hx'⟩ := Option.map_eq_some_iff.mp hk
      rw [hx]
      simpa using hx'

end Verif.Crypt
