/-
Toy primitives that satisfy the assumptions of the theorems about UID messages and
the key server client, with the concrete JSON encoding, and a concrete history of
a key server: the hypotheses of the theorems can be met.
-/
import Verif.Uid.Json
import Verif.Uid.Props
import Verif.Crypt.Search
import Verif.Crypt.Own
import Verif.Ident.Props
import Verif.Msg.HeaderJson

namespace Verif.Crypt.Toy

open Verif.Uid Verif.Util

/-- The last `n` bytes of a number. -/
def bytesOf : Nat → Nat → Bytes
  | 0, _ => []
  | n + 1, x => UInt8.ofNat (x % 256) :: bytesOf n (x / 256)

theorem bytesOf_length (n x : Nat) : (bytesOf n x).length = n := by
  induction n generalizing x with
  | zero => rfl
  | succ n ih => simp [bytesOf, ih]

/-- A polynomial checksum. -/
def sum (x : Bytes) : Nat :=
  x.foldl (fun a b => (a * 65599 + b.toNat + 1) % 2 ^ 512) 7

def chars (s : Str) : List Char := s.map fun b => Char.ofNat b.toNat
def unchars (s : List Char) : Str := s.map fun c => UInt8.ofNat c.toNat

/-- The toy primitives: checksums as hashes, the XOR cipher, "signatures" that
name the public key and the message. -/
def toy : Prims where
  sha256 x := bytesOf 32 (sum x)
  sha512 x := bytesOf 64 (sum x)
  aes := Cipher.xorBlock
  edPriv r := r
  edPub k := bytesOf 32 (sum k)
  sign k m := bytesOf 32 (sum k) ++ bytesOf 32 (sum m)
  verify pk m s := s == pk ++ bytesOf 32 (sum m)
  dhPub k := bytesOf 32 (sum k)
  contentJSON := Js.jContent
  msgJSON := Js.jMsg
  parseMsg := Js.whole Js.pMsg
  entryJSON := Js.jEntry
  anchorJSON := Js.jAnchor
  parseAnchor := Js.whole Js.pAnchor
  kiContentsJSON := Js.jKIContents
  kiJSON := Js.jKI
  isMapped s := Ident.isMapped Ident.uniW (chars s)

theorem toy_good : toy.Good where
  sha256_len _ := bytesOf_length _ _
  sha512_len _ := bytesOf_length _ _
  aes := Cipher.xorBlock_good
  edPub_len _ := bytesOf_length _ _
  sign_verify k m := by simp [toy]
  dhPub_len _ := bytesOf_length _ _
  parse_msg m _ := Js.whole_ok Js.pMsg_jMsg m
  parse_anchor a _ := Js.whole_ok Js.pAnchor_jAnchor a

/-- Package identity on byte strings. -/
def ids : Ids where
  mapDomain s := unchars (Ident.mapDomain Ident.uniW (chars s))
  mapPlus s := match Ident.mapPlus Ident.uniW (chars s) with
    | .ok (a, b) => some (unchars a, unchars b)
    | _ => none

def aliceId : Str := lit "alice@mute.one"
def srvKey : Bytes := [1]
def zeros : Bytes := List.replicate 32 0

theorem alice_maps : ids.mapPlus (lit "Alice@mute.one") = some (aliceId, lit "mute.one") ∧
    toy.isMapped aliceId = true ∧ splitId aliceId = some (lit "alice", lit "mute.one") := by
  decide +kernel

/-- Some first entry of a hash chain. -/
theorem some_entry (m : Message) : ∃ e : Util.Entry, e.Widths ∧ e.typ = [1] ∧ Registers toy aliceId m e ∧
    e.hash = toy.sha256 (preimage e zeros) := exists_registers toy_good aliceId m zeros

/-- `Create` works for alice (C17, C18, C19, C68, C73, C74). -/
theorem created (e : Util.Entry) (hw : e.Widths) (ht : e.typ = [1]) :
    ∃ o, create toy aliceId false [] [] .strict (Base64.encode e.bytes) 1000 (some [3]) (some [4]) none =
      .ok o ∧ o.msg.Ascii := by
  have hs : splitEntry (Base64.encode e.bytes) = .ok e :=
    ((C20_split_entry_exact _).2 e).mpr ⟨hw, ht, Base64.decode_encode _⟩
  unfold create
  rw [alice_maps.2.1]
  simp only [Bool.true_eq_false, if_false, initSigKey, initDHKey, escrowKey, Res.bind_ok, checkLastEntry, hs,
    ite_self]
  refine ⟨_, rfl, ?_⟩
  have h0 : Ascii [] := fun c hc => by simp at hc
  have h1 : Ascii (lit "1.0") ∧ Ascii aliceId ∧ Ascii (lit "ED25519") ∧ Ascii (splitId' aliceId).2 ∧
      Ascii Pfs.strict.string := by
    have : ((lit "1.0") ++ aliceId ++ lit "ED25519" ++ (splitId' aliceId).2 ++ Pfs.strict.string).all
        (fun c => decide (c < 128)) = true := by decide +kernel
    simp only [List.all_append, Bool.and_eq_true, List.all_eq_true, decide_eq_true_eq] at this
    obtain ⟨⟨⟨⟨a, b⟩, c⟩, d⟩, e⟩ := this
    exact ⟨a, b, c, d, e⟩
  obtain ⟨a, b, c, d, f⟩ := h1
  refine ⟨a, h0, h0, b, ⟨suite_ascii, c, ascii_encode _, ascii_encode _⟩, ?_, ?_, ascii_encode _, ?_, f, ?_, ?_,
    h0, h0, ascii_encode _, h0⟩
  · intro k hk
    rw [List.mem_singleton.mp hk]
    exact ⟨suite_ascii, ecdhe_ascii, ascii_encode _, ascii_encode _⟩
  · intro k hk; cases hk
  · intro x hx; rw [List.mem_singleton.mp hx]; exact d
  · intro x hx; rw [List.mem_singleton.mp hx]; exact suite_ascii
  · intro k hk; cases hk

def empty : DB := ⟨[], [], [], []⟩

theorem empty_local : Local ids empty (lit "mute.one") [] := ⟨rfl, fun i h => absurd h (by simp)⟩

/-- The database after syncing with a server that holds one entry (C70). -/
def synced (e : Util.Entry) : DB :=
  (sync ids (lit "mute.one") (honestLast [Base64.encode e.bytes]) (honestFetch [Base64.encode e.bytes]) empty).1

theorem synced_local (e : Util.Entry) : Local ids (synced e) (lit "mute.one") [Base64.encode e.bytes] :=
  (C70_sync_completes ids empty _ [] [Base64.encode e.bytes] (by simp) (by simp) empty_local).2.1

/-- C22: an entry that stays. -/
example (e : Util.Entry) : getEntry ids (synced e) (lit "mute.one") 0 = .ok (Base64.encode e.bytes) :=
  (synced_local e).2 0 (by simp)

/-- C21: a chain that validates. -/
theorem synced_validates (m : Message) : ∃ e, Registers toy aliceId m e ∧ e.Widths ∧ e.typ = [1] ∧
    validate toy ids (synced e) (lit "mute.one") = .ok () := by
  obtain ⟨e, hw, ht, hr, hh⟩ := some_entry m
  refine ⟨e, hr, hw, ht, C21_linked_validates toy ids _ _ [e] ?_ ⟨⟨0, (synced_local e).1, rfl⟩, ?_⟩ ?_⟩
  · exact (C70_sync_completes ids empty _ [] [Base64.encode e.bytes] (by simp) (by simp) empty_local).2.2.2
  · intro i hi
    have : i = 0 := by simp at hi; exact hi
    subst this
    exact ⟨_, (synced_local e).2 0 (by simp), hw, ht, Base64.decode_encode _⟩
  · intro i hi
    have : i = 0 := by simp at hi; exact hi
    subst this
    rw [show [e][0] = e from rfl, hh]
    rfl

/-- C71, C23: alice's message is found, in a database that knows the key server's
key. -/
theorem alice_found : ∃ (o ks : Owned) (e : Util.Entry) (f : UInt64 → Bytes → Option Reply) (db' : DB),
    (∃ k, Keyed toy o k) ∧ o.msg.Ascii ∧ o.msg.content.identity = aliceId ∧
    search toy ids f (lit "Alice@mute.one") false
      { synced e with pubs := [(1, ⟨lit "keyserver@mute.one", 0, 0, ks.msg⟩)] } = (db', .ok ()) ∧
    getPub db' aliceId 9223372036854775807 = some (o.msg, 0) := by
  obtain ⟨x, hx, htx, -⟩ := some_entry ⟨⟨[], 0, 0, 0, [], [], [], ⟨[], [], [], []⟩, [], none, [], [],
    ⟨[], []⟩, none⟩, [], [], [], []⟩
  obtain ⟨o, ho, ha⟩ := created x hx htx
  obtain ⟨-, h2, h3, h4, h5⟩ := C68_created_checks_partial toy toy_good _ _ _ _ _ _ _ _ _ ho
  obtain ⟨e, hw, ht, hr, hh⟩ := some_entry o.msg
  have hm : toy.parseMsg (toy.msgJSON o.msg) = some o.msg := toy_good.parse_msg _ ha
  obtain ⟨enc, hc⟩ := exists_carries toy_good o.msg hm (Base64.encode e.bytes) 0 []
  let ks : Owned := ⟨{ o.msg with content := { o.msg.content with
    sigkey := ⟨[], [], [], Base64.encode (toy.edPub srvKey)⟩ } }, none, none⟩
  let f : UInt64 → Bytes → Option Reply := fun _ _ =>
    some (createReply toy enc (Base64.encode e.bytes) 0 srvKey)
  let db : DB := { synced e with pubs := [(1, ⟨lit "keyserver@mute.one", 0, 0, ks.msg⟩)] }
  have hloc : Local ids db (lit "mute.one") [Base64.encode e.bytes] := synced_local e
  have hks : (lit "keyserver@mute.one" = aliceId) = False := by
    have : decide (lit "keyserver@mute.one" = aliceId) = false := by decide +kernel
    simpa using this
  have hreg : Registry toy aliceId srvKey [e] f (fun i => if i = 0 then some o.msg else none) := by
    refine ⟨?_, ?_, ?_⟩
    · intro i hi h
      have : i = 0 := by simp at hi; exact hi
      subst this
      simp at h
    · intro i hi m h
      have : i = 0 := by simp at hi; exact hi
      subst this
      simp only [if_true, Option.some.injEq] at h
      subst h
      refine ⟨hr, hm, h4, verifySelfSig_iff.mp h2, by rw [h5]; decide, _, rfl, hc, signedBy_sign toy_good _ _⟩
    · intro i hi
      have : i ≠ 0 := by simp at hi; omega
      simp [this]
  obtain ⟨db', g1, g2⟩ := C71_search_finds_newest toy toy_good ids f (lit "Alice@mute.one") (lit "mute.one")
    aliceId (lit "alice") (lit "mute.one") srvKey [e] _ [Base64.encode e.bytes] alice_maps.1 alice_maps.2.2
    (by decide +kernel) db hloc rfl (by simp) (by
      intro i hi
      have : i = 0 := by simp at hi; exact hi
      subst this
      exact split_ok.mpr ⟨hw, ht, Base64.decode_encode _⟩) hreg (by
      intro i hi _
      have : i = 0 := by simp at hi; exact hi
      subst this
      refine ⟨ks.msg, 0, ?_, rfl⟩
      have : lit "keyserver@" ++ lit "mute.one" = lit "keyserver@mute.one" := by decide +kernel
      rw [this]
      simp [getPub, top, db, Sql.vals]) (by
      intro r hr hid
      simp only [db, Sql.vals, List.map_cons, List.map_nil, List.mem_singleton] at hr
      subst hr
      simp only at hid
      rw [hks] at hid
      exact hid.elim) 0 o.msg rfl (fun i hi => by simp; omega)
  refine ⟨o, ks, e, f, db', h3, ha, h4, g1, g2⟩

/-- Generating the nym alice after the sync. -/
def history (e : Util.Entry) : List Op :=
  [.sync (lit "mute.one") (honestLast [Base64.encode e.bytes]) (honestFetch [Base64.encode e.bytes]),
   .generate (lit "Alice@mute.one") 1000 (some [3]) (some [4])]

theorem generated : ∃ (e : Util.Entry) (o : Owned), (∃ k, Keyed toy o k) ∧ o.msg.Ascii ∧
    o.msg.content.msgcount = 0 ∧
    getPriv toy (run toy ids (history e) empty) aliceId = .ok (o, none) ∧
    (run toy ids (history e) empty).privs = [(1, ⟨aliceId, 0, o, none⟩)] := by
  obtain ⟨e, hw, ht, -⟩ := some_entry ⟨⟨[], 0, 0, 0, [], [], [], ⟨[], [], [], []⟩, [], none, [], [],
    ⟨[], []⟩, none⟩, [], [], [], []⟩
  obtain ⟨o, ho, ha⟩ := created e hw ht
  obtain ⟨-, h2, h3, h4, h5⟩ := C68_created_checks_partial toy toy_good _ _ _ _ _ _ _ _ _ ho
  refine ⟨e, o, h3, ha, h5, ?_⟩
  have hp : (synced e).privs = [] :=
    (C70_sync_completes ids empty _ [] [Base64.encode e.bytes] (by simp) (by simp) empty_local).2.2.2
  have hl : lastPos ids (synced e) (lit "mute.one") = some 0 := (synced_local e).1
  have he : getEntry ids (synced e) (lit "mute.one") 0 = .ok (Base64.encode e.bytes) :=
    (synced_local e).2 0 (by simp)
  have hrun : run toy ids (history e) empty =
      (generate toy ids (lit "Alice@mute.one") 1000 (some [3]) (some [4]) (synced e)).1 := rfl
  have hg : generate toy ids (lit "Alice@mute.one") 1000 (some [3]) (some [4]) (synced e) =
      ({ synced e with privs := [(1, ⟨aliceId, 0, o, none⟩)] }, .ok ()) := by
    unfold generate
    rw [alice_maps.1]
    simp only [hl, he, ho, addPriv, h5, hp, h4]
    rfl
  rw [hrun, hg]
  refine ⟨?_, rfl⟩
  simp [getPriv, top, Sql.vals, h2]

/-- C73: an attempt to register that fails because of the reply, and the failing
attempts after it. -/
example : ∃ (db db' : DB) (server : Message → Option Reply) (srvPub : Str) (e : Err),
    registerOrUpdate toy ids (lit "Alice@mute.one") server srvPub db = (db', .err (.uid e)) ∧
    ∀ server' srvPub', registerOrUpdate toy ids (lit "Alice@mute.one") server' srvPub' db' =
      (db', .err .already) := by
  obtain ⟨e, o, -, -, -, h, -⟩ := generated
  let rep : Reply := ⟨⟨[1], [], 0⟩, []⟩
  have hf : registerOrUpdate toy ids (lit "Alice@mute.one") (fun _ => some rep) []
      (run toy ids (history e) empty) = (addPrivReply toy (run toy ids (history e) empty) o.msg rep,
        .err (.uid .base64)) := by
    unfold registerOrUpdate
    rw [alice_maps.1]
    have hd : Base64.decode [1] = none := by decide +kernel
    simp [h, verifySrvSig, replyDecrypt, rep, hd, ofUid]
  exact ⟨_, _, _, _, _, hf, fun server' srvPub' => C73_refused_reply_is_final toy ids _ _ server' _ srvPub' _ _ _
    aliceId _ alice_maps.1 o h hf⟩

/-- C74: a nym that was updated, and one that was not. -/
example : ∃ e db1, genupdate toy ids (lit "Alice@mute.one") (some [11]) (run toy ids (history e) empty) =
      (db1, .ok ()) ∧ aliceId ∈ privIdentities (deleteUID toy ids (lit "Alice@mute.one") db1).1 ∧
    ¬ Holds (deleteUID toy ids (lit "Alice@mute.one") (run toy ids (history e) empty)).1 aliceId := by
  obtain ⟨e, o, ⟨k, hk⟩, ha, h0, h, hp⟩ := generated
  obtain ⟨db1, h1, -, h3, -⟩ := C74_deleting_leaves_old_keys toy toy_good ids _ _ aliceId _ _ rfl
    alice_maps.1 o none h k [11] hk ha (by rw [h0]; decide)
  refine ⟨e, db1, h1, h3, (C74_delete_removes_partial toy ids _ aliceId _ _ alice_maps.1 o none h ?_).2.1⟩
  intro r hr _
  rw [hp] at hr
  simp only [Sql.vals, List.map_cons, List.map_nil, List.mem_singleton] at hr
  rw [hr]

/-- C75, C76: a forged KeyInit message for alice. -/
example : ∃ (db : DB) (m : Message) (forged : KeyInit), forged.signature = [] ∧
    getPublicKeyEntry toy (fetchKeyInit toy ids (lit "Alice@mute.one") (fun _ => some forged) db).1 m =
      .ok (⟨[], lit "ECDHE25519", [], lit "mallory"⟩, lit "nym") := by
  obtain ⟨-, o, ⟨k, hk⟩, -⟩ := generated
  have ha : ((lit "mallory") ++ lit "nym").all (fun c => decide (c < 128)) = true := by decide +kernel
  simp only [List.all_append, Bool.and_eq_true, List.all_eq_true, decide_eq_true_eq] at ha
  obtain ⟨f, h1, -, h2⟩ := C75_forged_key_init_used toy toy_good ids (lit "Alice@mute.one") aliceId (lit "mute.one")
    { empty with pubs := [(1, ⟨aliceId, 0, 0, o.msg⟩)] } alice_maps.1 o.msg 0
    (by simp [getPub, top, Sql.vals]) (toy.edPub k) hk.pub hk.hash rfl
    ⟨[], lit "ECDHE25519", [], lit "mallory"⟩ rfl (lit "nym")
    ⟨fun c hc => by simp at hc, ecdhe_ascii, fun c hc => by simp at hc, ha.1⟩ ha.2
  exact ⟨_, _, f, h1, h2⟩

/-- C19: KeyInit messages can be made. -/
example : ∃ (o : Owned) (x : KeyInit × Str × Str), (∃ k, Keyed toy o k) ∧
    keyInit toy 500 o 0 2000 100 false (lit "mute.one") [] (lit "nym") (some [12]) (List.replicate 16 0) = .ok x := by
  obtain ⟨-, o, ⟨k, hk⟩, -⟩ := generated
  obtain ⟨a, b, c, d, f⟩ := hk
  obtain ⟨-, ct, hct, -⟩ := Cipher.C66_aes_round_trip toy.aes toy_good.aes ((toy.sha512 (toy.edPub k)).take 32)
    (toy.anchorJSON ⟨[], lit "nym", [⟨defaultSuite, lit "ECDHE25519", Base64.encode (toy.sha512 (toy.dhPub [12])),
      Base64.encode (toy.dhPub [12])⟩]⟩) (List.replicate 16 0)
    (by rw [List.length_take, toy_good.sha512_len]; rfl) (by simp)
  let o' : Owned := { o with msg := { o.msg with content := { o.msg.content with repouris := [lit "mute.one"] } } }
  have hl : ¬ (toy.sha512 (toy.edPub k)).length < 32 := by rw [toy_good.sha512_len]; decide
  refine ⟨o', ?_, ⟨k, ⟨a, b, c, d, f⟩⟩, ?_⟩
  rotate_left
  · unfold keyInit
    rw [if_neg (by decide), if_neg (by decide), if_neg (by decide)]
    simp only [o', c, unb64_encode, Res.bind_ok, ne_eq, not_true, if_false, initDHKey, hl, hct, a]
    rfl

/-- C62: alice exists with and without escrow key, and so do inputs for her
headers. -/
theorem alice_made (b : Bool) : ∃ o : Owned, HJ.Made toy b o ∧ o.msg.content.identity.length ≤ 14 ∧
    o.msg.content.mixaddress = [] ∧ o.msg.content.nymaddress = [] ∧ o.msg.content.lastentry.length = 204 := by
  obtain ⟨e, hw, ht, -, -⟩ := some_entry
    ⟨newContent aliceId [] [] .strict [] 0 ⟨[], [], [], []⟩ ⟨[], [], [], []⟩ none, [], [], [], []⟩
  have hs : splitEntry (Base64.encode e.bytes) = .ok e :=
    ((C20_split_entry_exact _).2 e).mpr ⟨hw, ht, Base64.decode_encode _⟩
  have h : ∃ o, create toy aliceId b [] [] .strict (Base64.encode e.bytes) 1000 (some [3]) (some [4]) (some [5]) = .ok o ∧
      o.msg.content.identity = aliceId ∧ o.msg.content.mixaddress = [] ∧ o.msg.content.nymaddress = [] ∧
      o.msg.content.lastentry = Base64.encode e.bytes := by
    unfold create
    rw [alice_maps.2.1]
    cases b <;>
    · simp only [Bool.true_eq_false, if_false, initSigKey, initDHKey, escrowKey, Res.bind_ok, checkLastEntry, hs,
        ite_self]
      exact ⟨_, rfl, rfl, rfl, rfl, rfl⟩
  obtain ⟨o, ho, h1, h2, h3, h4⟩ := h
  have h0 : Json.Plain ([] : Str) := fun c hc => by simp at hc
  refine ⟨o, .create ⟨HJ.lit_plain (by decide +kernel), h0, h0, HJ.base64_plain _⟩ ho, ?_, h2, h3, ?_⟩
  · rw [h1]; decide +kernel
  · rw [h4, Base64.encode_length]
    obtain ⟨w1, w2, w3, w4, w5, w6⟩ := hw
    simp [Util.Entry.bytes, *]

example (b : Bool) : ∃ (o : Owned) (k : KeyEntry) (h : HJ.Header), HJ.Made toy b o ∧
    HJ.Inputs toy o.msg k.hash k none (some k) (lit "nym") (List.replicate 204 65) (fun n => List.replicate n 7) 0 ∧
    HJ.newHeader toy o.msg o.msg k.hash k none (some k) (lit "nym") 12 345 (List.replicate 204 65)
      (fun n => List.replicate n 7) 0 = .ok h := by
  obtain ⟨o, ho, h1, h2, h3, h4⟩ := alice_made b
  obtain ⟨-, -, k, hk, hd⟩ := HJ.made_v1 ho
  have hi : HJ.Inputs toy o.msg k.hash k none (some k) (lit "nym") (List.replicate 204 65)
      (fun n => List.replicate n 7) 0 :=
    ⟨⟨k, [], hk, hd⟩, ⟨k, hd, rfl⟩, hd, (fun _ h => by cases h), (fun _ h => by cases h; exact hd),
      HJ.lit_plain (by decide +kernel), (fun c hc => by rw [List.eq_of_mem_replicate hc]; rfl),
      (fun n => List.length_replicate), by omega⟩
  have hl := HJ.jMsg_length_le toy_good (fun _ _ => by simp [toy, bytesOf_length]) ho h2 h3 (by omega)
  have hs := HJ.splitId_length o.msg.content.identity
  obtain ⟨h, hh⟩ := (HJ.C62_header_fails_only_on_limits toy b o ho o.msg k.hash k none (some k) (lit "nym")
    (List.replicate 204 65) 12 345 (fun n => List.replicate n 7) 0 hi).mpr ⟨List.length_replicate, by omega,
      by decide +kernel, by split at hl <;> omega⟩
  exact ⟨o, k, h, ho, hi, hh⟩

end Verif.Crypt.Toy
