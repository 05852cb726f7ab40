/-
The cache of the wallet store, verification keys, and received tokens: C87, C90, C92, C93.
-/
import Verif.Guard.Client
import Verif.Guard.KeyPoolProps
import Verif.Guard.StoreProps

namespace Verif.Guard.Client
open Verif.Asn1 Verif.Util
open Verif.Mix (fix32 fix64 unhex fix32_of_length)
open Verif.Guard.Store (Db)
open Verif.Guard.KeyPool (Pool PubKey Source)

/-! ### C87 the cache -/

theorem fItems_flatMap (l : List Bytes) (h : ∀ k ∈ l, k.length < 2 ^ 31) (n : Nat) (hn : l.length ≤ n) : fItems n (l.flatMap eBytes) = some l := by
  induction l generalizing n with
  | nil => cases n <;> rfl
  | cons k l ih =>
    cases n with
    | zero => simp at hn
    | succ n =>
      rw [List.flatMap_cons]
      have hc : eBytes k ++ l.flatMap eBytes = 4 :: (encLen k.length ++ k ++ l.flatMap eBytes) := by simp [eBytes, tlv]
      have hf := fBytes_eBytes k (h k (by simp)) (l.flatMap eBytes)
      rw [hc] at hf ⊢
      rw [fItems, hf, Option.bind_some]
      · simp only
        rw [ih (fun k hk => h k (List.mem_cons_of_mem _ hk)) n (by simpa using hn)]
        rfl
      all_goals simp

theorem flatMap_length (l : List Bytes) (h : ∀ k ∈ l, k.length = 32) : (l.flatMap eBytes).length ≤ 38 * l.length ∧ l.length ≤ (l.flatMap eBytes).length := by
  induction l with
  | nil => simp
  | cons k l ih =>
    have h1 := ih fun k hk => h k (List.mem_cons_of_mem _ hk)
    have h2 := tlv_length 4 k (by have := h k (by simp); omega)
    have h3 := h k (by simp)
    rw [List.flatMap_cons, List.length_append, List.length_cons]
    simp only [eBytes] at *
    omega

/-- What is written decodes to what was in memory; no token is read as the empty token. -/
theorem C87_round_trip_partial (c : Cache) (ht : -2 ^ 63 ≤ c.tries ∧ c.tries < 2 ^ 63) (hk : ∀ k ∈ c.verifyKeys, k.length = 32)
    (hs : (c.authToken.getD []).length + 38 * c.verifyKeys.length < 2 ^ 30) :
    Cache.unmarshal c.marshal = some { c with authToken := some (c.authToken.getD []) } := by
  have t1 := tlv_length 4 (c.authToken.getD []) (by omega)
  have t2 : (encInt c.tries).length ≤ 8 := encInt_length 8 c.tries (by omega) (by omega)
  have t3 := tlv_length 2 (encInt c.tries) (by omega)
  have t4 := flatMap_length c.verifyKeys hk
  have t5 := tlv_length 48 (c.verifyKeys.flatMap eBytes) (by omega)
  unfold Cache.unmarshal Cache.marshal
  rw [Base64.decode_encode, Option.bind_some, ← List.append_nil (tlv 48 _), readTLV_tlv]
  · simp only [Option.bind_some]
    rw [fBytes_eBytes _ (by omega)]
    simp only [Option.bind_some]
    rw [fInt64_eInt _ ht]
    simp only [Option.bind_some]
    unfold fList eList
    rw [← List.append_nil (tlv 48 _), readTLV_tlv _ _ (by omega)]
    simp only [Option.bind_some]
    rw [fItems_flatMap _ (fun k h => by have := hk k h; omega) _ (by omega)]
    simp only [Option.map_some, Option.bind_some]
    have : c.verifyKeys.map fix32 = c.verifyKeys := by
      rw [show c.verifyKeys.map fix32 = c.verifyKeys.map id from List.map_congr_left fun k h => fix32_of_length (hk k h), List.map_id]
    rw [this]
  · simp only [List.length_append, eBytes, eInt, eList] at *
    omega

/-- Reading the cache never succeeds: the query has two columns, and is scanned into one
variable. -/
theorem read_eq (s : CacheStore) : s.read = s := by
  unfold CacheStore.read CacheStore.query
  cases h : s.row with
  | none => rfl
  | some d => rfl

theorem load_eq (s : CacheStore) : s.load = s := by
  unfold CacheStore.load
  split
  · exact read_eq s
  · rfl

/-- C87, violation: whatever was written to the cache in the past, after the wallet is opened
again there is no authentication token, no count of tries and no verification key. -/
theorem C87_lost (s : CacheStore) (ops : List COp) :
    (crun s (ops ++ [.reopen])).getAuthToken.2 = (none, 0) ∧ (crun s (ops ++ [.reopen])).getVerifyKeys.2 = [] := by
  have h : (crun s (ops ++ [.reopen])).cache = none := by
    unfold crun
    rw [List.foldl_append]
    rfl
  unfold CacheStore.getAuthToken CacheStore.getVerifyKeys
  rw [load_eq, h]
  exact ⟨rfl, rfl⟩

/-- C87, partial: as long as the wallet is open, the last authentication token is returned. -/
theorem C87_token_open_partial (s : CacheStore) (t : Option Bytes) (n : Int) (ops : List COp) (h : ∀ op ∈ ops, op ≠ .reopen ∧ ∀ t n, op ≠ .setAuthToken t n) :
    (crun s (.setAuthToken t n :: ops)).getAuthToken.2 = (t, n) := by
  have key : ∀ (ops : List COp) (s : CacheStore), (∀ op ∈ ops, op ≠ .reopen ∧ ∀ t n, op ≠ .setAuthToken t n) →
      (∃ c, s.cache = some c ∧ c.authToken = t ∧ c.tries = n) → ∃ c, (crun s ops).cache = some c ∧ c.authToken = t ∧ c.tries = n := by
    intro ops
    induction ops with
    | nil => exact fun _ _ h => h
    | cons op ops ih =>
      intro s ho ⟨c, hc, h1, h2⟩
      refine ih (cstep s op) (fun o h => ho o (List.mem_cons_of_mem _ h)) ?_
      have hop := ho op (by simp)
      cases op with
      | setVerifyKeys l => exact ⟨_, rfl, by simp [hc, h1], by simp [hc, h2]⟩
      | setAuthToken t n => exact absurd rfl (hop.2 t n)
      | getVerifyKeys =>
        refine ⟨c, ?_, h1, h2⟩
        simp [cstep, CacheStore.getVerifyKeys, load_eq, hc]
      | getAuthToken =>
        refine ⟨c, ?_, h1, h2⟩
        simp [cstep, CacheStore.getAuthToken, load_eq, hc]
      | reopen => exact absurd rfl hop.1
  obtain ⟨c, hc, h1, h2⟩ := key ops (s.setAuthToken t n) h ⟨_, rfl, rfl, rfl⟩
  have hc : (crun s (.setAuthToken t n :: ops)).cache = some c := hc
  unfold CacheStore.getAuthToken
  rw [load_eq, hc]
  simp only [h1, h2]

/-- C87, partial: as long as the wallet is open, the last list of verification keys is returned. -/
theorem C87_keys_open_partial (s : CacheStore) (l : List Bytes) (ops : List COp) (h : ∀ op ∈ ops, op ≠ .reopen ∧ ∀ l, op ≠ .setVerifyKeys l) :
    (crun s (.setVerifyKeys l :: ops)).getVerifyKeys.2 = l := by
  have key : ∀ (ops : List COp) (s : CacheStore), (∀ op ∈ ops, op ≠ .reopen ∧ ∀ l, op ≠ .setVerifyKeys l) →
      (∃ c, s.cache = some c ∧ c.verifyKeys = l) → ∃ c, (crun s ops).cache = some c ∧ c.verifyKeys = l := by
    intro ops
    induction ops with
    | nil => exact fun _ _ h => h
    | cons op ops ih =>
      intro s ho ⟨c, hc, h1⟩
      refine ih (cstep s op) (fun o h => ho o (List.mem_cons_of_mem _ h)) ?_
      have hop := ho op (by simp)
      cases op with
      | setVerifyKeys l => exact absurd rfl (hop.2 l)
      | setAuthToken t n => exact ⟨_, rfl, by simp [hc, h1]⟩
      | getVerifyKeys =>
        refine ⟨c, ?_, h1⟩
        simp [cstep, CacheStore.getVerifyKeys, load_eq, hc]
      | getAuthToken =>
        refine ⟨c, ?_, h1⟩
        simp [cstep, CacheStore.getAuthToken, load_eq, hc]
      | reopen => exact absurd rfl hop.1
  obtain ⟨c, hc, h1⟩ := key ops (s.setVerifyKeys l) h ⟨_, rfl, rfl⟩
  have hc : (crun s (.setVerifyKeys l :: ops)).cache = some c := hc
  unfold CacheStore.getVerifyKeys
  rw [load_eq, hc]
  exact h1

/-- Non-vacuity: a history without reopening. -/
example : (crun ⟨none, none⟩ [.setAuthToken (some [1]) 2, .setVerifyKeys [[3]], .getVerifyKeys]).getAuthToken.2 = (some [1], 2) :=
  C87_token_open_partial _ _ _ _ (by simp)

/-- C87: what is lost is still in the database, and could be read. -/
theorem C87_still_stored (s : CacheStore) (t : Option Bytes) (n : Int) (hn : -2 ^ 63 ≤ n ∧ n < 2 ^ 63)
    (hk : ∀ k ∈ (s.cache.getD .empty).verifyKeys, k.length = 32) (hs : (t.getD []).length + 38 * (s.cache.getD .empty).verifyKeys.length < 2 ^ 30) :
    ∃ d, (s.setAuthToken t n).reopen.query = some [cacheKey, d] ∧
      Cache.unmarshal d = some ⟨some (t.getD []), n, (s.cache.getD .empty).verifyKeys⟩ := by
  refine ⟨_, rfl, ?_⟩
  have := C87_round_trip_partial { s.cache.getD .empty with authToken := t, tries := n } hn hk hs
  exact this

/-- C87: the same for the verification keys. -/
theorem C87_keys_stored (s : CacheStore) (l : List Bytes) (hn : -2 ^ 63 ≤ (s.cache.getD .empty).tries ∧ (s.cache.getD .empty).tries < 2 ^ 63)
    (hk : ∀ k ∈ l, k.length = 32) (hs : ((s.cache.getD .empty).authToken.getD []).length + 38 * l.length < 2 ^ 30) :
    ∃ d, (s.setVerifyKeys l).reopen.query = some [cacheKey, d] ∧
      Cache.unmarshal d = some ⟨some ((s.cache.getD .empty).authToken.getD []), (s.cache.getD .empty).tries, l⟩ := by
  refine ⟨_, rfl, ?_⟩
  exact C87_round_trip_partial { s.cache.getD .empty with verifyKeys := l } hn hk hs

/-- Non-vacuity. -/
example : ∃ d, (CacheStore.setVerifyKeys ⟨none, none⟩ [List.replicate 32 1]).reopen.query = some [cacheKey, d] ∧
    Cache.unmarshal d = some ⟨some [], 0, [List.replicate 32 1]⟩ :=
  C87_keys_stored ⟨none, none⟩ [List.replicate 32 1] (by decide) (by decide) (by decide)

/-! ### C90, C93 verification keys -/

theorem mem_addKeys (l : List Bytes) (p : Pool) (k : Bytes) : k ∈ (addKeys p l).verifyKeys ↔ k ∈ l ∨ k ∈ p.verifyKeys := by
  induction l generalizing p with
  | nil => simp [addKeys]
  | cons a l ih =>
    show k ∈ (addKeys (p.addVerifyKey a) l).verifyKeys ↔ _
    rw [ih, List.mem_cons]
    simp only [Pool.addVerifyKey, List.mem_cons]
    constructor
    · rintro (h | h | h) <;> simp [h]
    · rintro ((h | h) | h) <;> simp [h]

/-- C90, partial: a client that is online already and asks for the verification keys knows them
afterwards, and keeps those it knew. -/
theorem C90_asked_online_partial (c : Client) (h : c.online = true) (l : List Bytes) :
    (∀ k ∈ l, k ∈ (c.getVerifyKeys (some l)).pool.verifyKeys) ∧ (∀ k ∈ c.pool.verifyKeys, k ∈ (c.getVerifyKeys (some l)).pool.verifyKeys) ∧
    (c.getVerifyKeys (some l)).cache.getVerifyKeys.2 = l := by
  unfold Client.getVerifyKeys
  rw [h]
  simp only
  refine ⟨fun k hk => (mem_addKeys ..).mpr (.inl hk), fun k hk => (mem_addKeys ..).mpr (.inr hk), ?_⟩
  exact C87_keys_open_partial c.cache l [] nofun

/-- Nothing but the list of the service and known keys is added. -/
theorem C90_only_listed (c : Client) (server : Option (List Bytes)) (k : Bytes) (hk : k ∈ (c.goOnline server).pool.verifyKeys) :
    k ∈ c.pool.verifyKeys ∨ k ∈ c.cache.getVerifyKeys.2 ∨ ∃ l, server = some l ∧ k ∈ l := by
  unfold Client.goOnline Client.getVerifyKeys at hk
  split at hk
  · rcases (mem_addKeys ..).mp hk with h | h
    · exact .inr (.inr ⟨_, rfl, h⟩)
    · exact .inl h
  · rcases (mem_addKeys ..).mp hk with h | h
    · exact .inr (.inl h)
    · exact .inl h

/-- C90, violation: a client that is offline and goes online does not ask the key lookup service:
its keys are the same whatever the service would answer. -/
theorem C90_not_asked (c : Client) (h : c.online = false) (server server' : Option (List Bytes)) : c.goOnline server = c.goOnline server' := by
  unfold Client.goOnline Client.getVerifyKeys
  rw [h]

/-- C93, violation: a new client has no signing keys, whatever keys were stored: they are loaded
before it knows any verification key. -/
theorem C93_nothing_loaded (P : Prims) (utf8 : Bytes → Bool) (now : Int) (stored : List Bytes) (walletKey : Bytes) (db : Db) (row : Option Bytes) :
    (Client.new P utf8 now stored walletKey db row).pool.keys = [] := by
  have key : ∀ (ds : List Bytes) (p : Pool), p.verifyKeys = [] → p.loadAll P utf8 now ds = p := by
    intro ds
    induction ds with
    | nil => exact fun _ _ => rfl
    | cons d ds ih =>
      intro p hp
      unfold Pool.loadAll
      split
      · rfl
      · rename_i k _
        have : (p.loadKey P now k).1 = p := (KeyPool.C41_rejected P p now k (.inr (.inr (.inl (by rw [hp]; simp))))).1
        rw [this]
        exact ih p hp
  show ((Pool.new ⟨[], 2592000, none⟩).loadAll P utf8 now stored).keys = []
  rw [key _ _ rfl]
  rfl

/-- C90, violation: a new client that goes online knows no verification key, so that it accepts
no signing key at all. -/
theorem C90_new_client (P : Prims) (utf8 : Bytes → Bool) (now : Int) (stored : List Bytes) (walletKey : Bytes) (db : Db) (row : Option Bytes)
    (server : Option (List Bytes)) (t : Int) (k : PubKey) :
    let c := (Client.new P utf8 now stored walletKey db row).goOnline server
    c.pool.verifyKeys = [] ∧ ∃ e, (c.pool.loadKey P t k).2 = .error e ∧ (c.pool.loadKey P t k).1 = c.pool := by
  have hv : ∀ k, k ∉ ((Client.new P utf8 now stored walletKey db row).goOnline server).pool.verifyKeys := by
    intro k hk
    rw [C90_not_asked _ rfl server none] at hk
    rcases C90_only_listed _ _ _ hk with h | h | ⟨l, h, _⟩
    · have := (KeyPool.loadAll_ok (P := P) (utf8 := utf8) (now := now) stored (Pool.new ⟨[], 2592000, none⟩)).1.2
      have h : k ∈ ((Pool.new ⟨[], 2592000, none⟩).loadAll P utf8 now stored).verifyKeys := h
      rw [this] at h
      cases h
    · have h1 := C87_lost ⟨row, none⟩ []
      have h2 : (Client.new P utf8 now stored walletKey db row).cache.getVerifyKeys.2 = [] := h1.2
      rw [h2] at h
      cases h
    · cases h
  refine ⟨List.eq_nil_iff_forall_not_mem.mpr hv, ?_⟩
  obtain ⟨h1, e, _, h2⟩ := KeyPool.C41_rejected P ((Client.new P utf8 now stored walletKey db row).goOnline server).pool t k (.inr (.inr (.inl (hv _))))
  exact ⟨e, h2, h1⟩

/-- C93, partial: a key in a database storage is found by its id, once its signer is known. -/
theorem C93_fetched_partial (P : Prims) (utf8 : Bytes → Bool) (p : Pool) (k : PubKey) (d : Bytes) (now : Int) (rest : List Source)
    (hd : PubKey.unmarshal utf8 d = some k)
    (hus : p.gen.usage ≠ [] → k.usage = p.gen.usage) (hv : k.signer ∈ p.verifyKeys) (hid : P.sha256 k.image = k.keyID)
    (hsig : P.verify k.signer k.keyID k.signature = true) (hn : p.find k.keyID = none) (hl : now ≤ k.expire) :
    (p.lookupFetch P utf8 now k.keyID (.storage (some d) :: rest)).2 = .ok k := by
  unfold Pool.lookupFetch
  have h1 : p.lookup now k.keyID = .error .notFound := by unfold Pool.lookup; rw [hn]
  rw [h1]
  simp only [List.isEmpty_cons, Bool.false_eq_true, if_false, KeyPool.fetchAll, Source.fetch]
  unfold Pool.take
  rw [hd]
  simp only
  rcases KeyPool.loadKey_cases P p now k with e | ⟨_, _, _, e⟩ | ⟨_, _, e⟩
  · exfalso
    have ha : KeyPool.usable (p.loadKey P now k).2 = true := by
      unfold Pool.loadKey
      rw [if_neg (fun h => h.2 (hus h.1)), if_neg (by omega), if_neg (by simp [Pool.hasVerifyKey, hv]), if_neg, hn]
      · rfl
      · unfold PubKey.verify PubKey.calc
        rw [if_neg (by simp [hid]), hid, hsig]
        decide
    rw [e.2] at ha
    cases ha
  · rw [e]; simp [KeyPool.usable]
  · rw [e]; simp [KeyPool.usable]

/-! ### C92 received tokens -/

/-- A key that was accepted by the pool of the client. -/
structure Good (P : Prims) (c : Client) (now : Int) (k : PubKey) : Prop where
  id : P.sha256 k.image = k.keyID
  signed : P.verify k.signer k.keyID k.signature = true
  signer : k.signer ∈ c.pool.verifyKeys
  fresh : now ≤ k.expire

theorem getPubKey_ok {P : Prims} {env : Env} {c c' : Client} {id : Bytes} {k : PubKey} (hi : KeyPool.Inv P c.pool) (hg : c.pool.gen.keys = none)
    (h : c.getPubKey P env id = (c', .ok k)) :
    Good P c env.now k ∧ c'.db = c.db ∧ c'.walletKey = c.walletKey ∧ (c.online = false → k.keyID = id) ∧
    (∀ k', (c.pool.lookupFetch P env.utf8 env.now id env.sources).2 = .ok k' → k'.keyID = k.keyID) := by
  unfold Client.getPubKey at h
  have hok := KeyPool.lookupFetch_ok (P := P) (utf8 := env.utf8) (now := env.now) id env.sources c.pool
  split at h
  · rename_i p k' e
    cases h
    have h1 := KeyPool.lookupFetch_key hi (by rw [e])
    refine ⟨⟨h1.2.2.signed.id, h1.2.2.signed.sig, ?_, h1.2.1⟩, rfl, rfl, fun _ => h1.1, ?_⟩
    · rcases h1.2.2.signer with h | ⟨_, h⟩
      · exact h
      · rw [hg] at h; cases h
    · intro k' hk'; rw [e] at hk'; cases hk'; rfl
  · rename_i p e
    rw [e] at hok
    split at h
    · rename_i ho
      split at h
      · cases h
      · split at h
        · cases h
        · rename_i k' _
          simp only at h
          split at h
          · rename_i hu
            cases h
            refine ⟨?_, rfl, rfl, fun hf => (by rw [hf] at ho; cases ho), fun k' hk' => (by rw [e] at hk'; cases hk')⟩
            have : KeyPool.Accepted P p env.now k := by
              rcases KeyPool.loadKey_cases P p env.now k with e | ⟨ha, _⟩ | ⟨ha, _⟩
              · rw [e.2] at hu; cases hu
              · exact ha
              · exact ha
            refine ⟨this.signed.id, this.signed.sig, ?_, this.expire⟩
            have h2 := hok.1.2
            simp only at h2
            rw [← h2]; exact this.signer
          · cases h
    · cases h
  · cases h

/-- C92, partial: a token is received only if it decodes, is signed by a signing key that a
known verification key has signed, has not expired and is for the requested usage; if it belongs
to this wallet; and if it was not readable in the wallet before. It is then in the wallet, with
the usage and expiry of the key, and all other tokens are unchanged. Missing: that the key is the
one the token names. That holds for a client that is offline, but not for one that is online
(`C92_other_key`). -/
theorem C92_received_partial (P : Prims) (env : Env) (c c' : Client) (usage input : Bytes) (hi : KeyPool.Inv P c.pool) (hg : c.pool.gen.keys = none)
    (hw : c.walletKey.length = 64) (h : c.receive P env usage input = (c', .ok ())) :
    ∃ t k, Token.unmarshal input = some t ∧ Good P c env.now k ∧ k.usage = usage ∧
      env.blindVerify (k.x, k.y) t.signature (t.hash P) = true ∧
      t.flag = true ∧ fix32 t.owner = c.walletKey.drop 32 ∧ (c.online = false → k.keyID = fix32 t.keyID) ∧
      (∀ e, c.db.getToken (t.hash P) (-1) ≠ .ok e) ∧
      (∃ e, c'.db.getToken (t.hash P) (-1) = .ok e ∧ e.token = input ∧ e.usage = usage ∧ e.expire = k.expire ∧ e.ownerPub = some (c.walletKey.drop 32)) ∧
      ∀ hash, hash ≠ t.hash P → ∀ l, c'.db.getToken hash l = c.db.getToken hash l := by
  unfold Client.receive Client.verify at h
  cases ht : Token.unmarshal input with
  | none => rw [ht] at h; cases h
  | some t =>
    rw [ht] at h
    simp only at h
    cases hk : c.getPubKey P env t.properties.1 with
    | mk c1 r =>
      rw [hk] at h
      cases r with
      | err e => cases h
      | panic => cases h
      | ok k =>
        simp only at h
        obtain ⟨h1, h2, h3, h4, _⟩ := getPubKey_ok hi hg hk
        cases hc : checkToken P env input t k with
        | err e => rw [hc] at h; cases h
        | panic => rw [hc] at h; cases h
        | ok e =>
          rw [hc] at h
          simp only at h
          unfold checkToken at hc
          split at hc
          · cases hc
          · split at hc
            · rename_i hb
              cases hc
              unfold Client.store at h
              simp only at h
              split at h
              · cases h
              · rename_i hu
                have hu : k.usage = usage := Decidable.not_not.mp hu
                split at h
                · cases h
                · rename_i o ho
                  split at h
                  · cases h
                  · rename_i hown
                    have hown : o = c1.pubKey := Decidable.not_not.mp hown
                    have hflag : t.flag = true ∧ fix32 t.owner = o := by
                      unfold Token.properties at ho
                      simp only at ho
                      split at ho
                      · rename_i hf; exact ⟨hf, by cases ho; rfl⟩
                      · cases ho
                    have hpk : c1.pubKey = c.walletKey.drop 32 := by unfold Client.pubKey; rw [h3]
                    split at h
                    · cases h
                    · rename_i hno
                      have hwf : (Entry.mk (t.hash P) input none t.properties.2 none false false k.usage k.expire none none none none).Wf := by
                        refine ⟨⟨o, ho, ?_⟩, nofun, nofun, nofun, nofun, nofun, nofun, fun h => absurd rfl h, by simp⟩
                        rw [hown, hpk]; simp [hw]
                      obtain ⟨d, hd, hread⟩ := Store.C39_stored_partial c1.db _ hwf
                      rw [hd] at h
                      cases h
                      refine ⟨t, k, rfl, h1, hu, hb, hflag.1, by rw [hflag.2, hown, hpk], fun hf => (h4 hf), ?_, ⟨_, hread, rfl, hu, rfl, ?_⟩, ?_⟩
                      · intro e he
                        rw [← h2] at he
                        exact hno e he
                      · show t.properties.2 = _
                        rw [ho, hown, hpk]
                      · intro hash hne l
                        show d.getToken hash l = _
                        rw [Store.C39_others_unchanged c1.db d _ hd hash hne l, h2]
            · cases hc

/-- The other direction of C92: what is missing for a token to be received. -/
theorem C92_accepted (P : Prims) (env : Env) (c : Client) (usage input : Bytes) (t : Token) (k : PubKey) (c1 : Client)
    (hw : c.walletKey.length = 64) (ht : Token.unmarshal input = some t) (hk : c.getPubKey P env (fix32 t.keyID) = (c1, .ok k))
    (hd : c1.db = c.db ∧ c1.walletKey = c.walletKey) (he : env.now ≤ k.expire)
    (hb : env.blindVerify (k.x, k.y) t.signature (t.hash P) = true) (hu : k.usage = usage) (hf : t.flag = true) (ho : fix32 t.owner = c.walletKey.drop 32)
    (hno : ∀ e, c.db.getToken (t.hash P) (-1) ≠ .ok e) : (c.receive P env usage input).2 = .ok () := by
  unfold Client.receive Client.verify
  rw [ht]
  simp only
  rw [show t.properties.1 = fix32 t.keyID from rfl, hk]
  simp only
  unfold checkToken
  rw [if_neg (by omega), if_pos hb]
  simp only
  unfold Client.store
  simp only
  rw [if_neg (by simp [hu])]
  have hp : t.properties.2 = some (c.walletKey.drop 32) := by
    unfold Token.properties
    rw [hf, ← ho]
    rfl
  have hpk : c1.pubKey = c.walletKey.drop 32 := by unfold Client.pubKey; rw [hd.2]
  rw [hp]
  simp only
  rw [if_neg (by simp [hpk])]
  split
  · rename_i e he'
    rw [hd.1] at he'
    exact absurd he' (hno e)
  · have hwf : (Entry.mk (t.hash P) input none (some (c.walletKey.drop 32)) none false false k.usage k.expire none none none none).Wf :=
      ⟨⟨_, rfl, by simp [hw]⟩, nofun, nofun, nofun, nofun, nofun, nofun, fun h => absurd rfl h, by simp⟩
    obtain ⟨d, hd', _⟩ := Store.C39_stored_partial c1.db _ hwf
    rw [hd']

/-- C92, violation: the key that the lookup service returns is not checked to be the one the
token names. A token that names the key `id` is received if it verifies with any other acceptable
key, if the service returns that. -/
theorem C92_other_key (P : Prims) (env : Env) (c : Client) (usage input d : Bytes) (t : Token) (k : PubKey)
    (hw : c.walletKey.length = 64) (hon : c.online = true) (hsrc : env.sources = []) (hu' : c.pool.gen.usage = [])
    (ht : Token.unmarshal input = some t) (hnk : c.pool.find (fix32 t.keyID) = none)
    (hs : env.service (fix32 t.keyID) = .key d) (hdk : PubKey.unmarshal env.utf8 d = some k) (_hother : k.keyID ≠ fix32 t.keyID)
    (hgood : Good P c env.now k)
    (hb : env.blindVerify (k.x, k.y) t.signature (t.hash P) = true) (hu : k.usage = usage) (hf : t.flag = true) (ho : fix32 t.owner = c.walletKey.drop 32)
    (hno : ∀ e, c.db.getToken (t.hash P) (-1) ≠ .ok e) : (c.receive P env usage input).2 = .ok () := by
  have hl : c.pool.lookupFetch P env.utf8 env.now (fix32 t.keyID) env.sources = (c.pool, .error .notFound) := by
    unfold Pool.lookupFetch
    have h1 : c.pool.lookup env.now (fix32 t.keyID) = .error .notFound := by unfold Pool.lookup; rw [hnk]
    rw [h1, hsrc]
    rfl
  have hus : KeyPool.usable (c.pool.loadKey P env.now k).2 = true := by
    rcases KeyPool.loadKey_cases P c.pool env.now k with e | ⟨_, _, _, e⟩ | ⟨_, _, e⟩
    · exfalso
      have ha : KeyPool.usable (c.pool.loadKey P env.now k).2 = true := by
        have h3 := hgood.fresh
        unfold Pool.loadKey
        rw [if_neg (fun h => h.1 hu'), if_neg (by omega), if_neg (by simp [Pool.hasVerifyKey, hgood.signer]), if_neg]
        · cases c.pool.find k.keyID <;> rfl
        · unfold PubKey.verify PubKey.calc
          rw [if_neg (by simp [hgood.id]), hgood.id, hgood.signed]
          decide
      rw [e.2] at ha
      cases ha
    · rw [e]; rfl
    · rw [e]; rfl
  have hk : c.getPubKey P env (fix32 t.keyID) = ({ c with pool := (c.pool.loadKey P env.now k).1 }, .ok k) := by
    unfold Client.getPubKey
    rw [hl]
    simp only [hon, if_true, hs, hdk, hus]
  exact C92_accepted P env c usage input t k _ hw ht hk ⟨rfl, rfl⟩ hgood.fresh hb hu hf ho hno

/-- C92, violation: a valid token without owner, for the requested usage, crashes the receiver. -/
theorem C92_ownerless_panics (P : Prims) (env : Env) (c : Client) (usage input : Bytes) (t : Token) (k : PubKey) (c1 : Client)
    (ht : Token.unmarshal input = some t) (hk : c.getPubKey P env (fix32 t.keyID) = (c1, .ok k)) (he : env.now ≤ k.expire)
    (hb : env.blindVerify (k.x, k.y) t.signature (t.hash P) = true) (hu : k.usage = usage) (hf : t.flag = false) :
    (c.receive P env usage input).2 = .panic := by
  unfold Client.receive Client.verify
  rw [ht]
  simp only
  rw [show t.properties.1 = fix32 t.keyID from rfl, hk]
  simp only
  unfold checkToken
  rw [if_neg (by omega), if_pos hb]
  simp only
  unfold Client.store
  simp only
  rw [if_neg (by simp [hu])]
  have hp : t.properties.2 = none := by
    unfold Token.properties
    rw [hf]
    rfl
  rw [hp]

/-! ### a concrete client -/

/-- A token that names the key of 32 ones and belongs to the wallet of 32 fives. -/
def exOwned : Token := ⟨List.replicate 32 1, true, [], List.replicate 32 5, [], [], [], []⟩

/-- A key with that id, in a pool that knows its signer. -/
def exKey : PubKey := ⟨List.replicate 32 1, 5, 6, 100, [117], List.replicate 32 2, List.replicate 64 7⟩
def exPrims : Prims := ⟨fun _ => List.replicate 32 1, fun _ _ => List.replicate 64 7, fun _ _ s => s == List.replicate 64 7⟩
def exClient : Client :=
  ⟨false, List.replicate 64 5, ⟨⟨[], 0, none⟩, [(List.replicate 32 1, exKey)], [List.replicate 32 2], none, none⟩, ⟨[], []⟩, ⟨none, none⟩⟩
def exEnv : Env := ⟨50, fun _ => true, [], fun _ => .fail true, fun _ _ _ => true⟩

/-- Non-vacuity of C92: this client satisfies the hypotheses and receives the token. -/
example : KeyPool.Inv exPrims exClient.pool ∧ exClient.pool.gen.keys = none ∧ exClient.walletKey.length = 64 ∧
    (exClient.receive exPrims exEnv [117] exOwned.marshal).2 = .ok () := by
  refine ⟨⟨?_, nofun⟩, rfl, by decide, ?_⟩
  · intro r hr
    rw [List.mem_singleton.mp hr]
    exact ⟨rfl, ⟨rfl, by decide⟩, .inl (by decide), by decide⟩
  · exact C92_accepted exPrims exEnv exClient [117] exOwned.marshal exOwned exKey exClient (by decide) (C85_round_trip exOwned (by decide)) rfl
      ⟨rfl, rfl⟩ (by decide) rfl rfl rfl (by decide) nofun

/-- Non-vacuity of `C92_other_key`: the token names the key of 32 threes, the service answers with
the key of 32 ones. -/
example : ({ exClient with online := true, pool := { exClient.pool with keys := [] } }.receive exPrims { exEnv with service := fun _ => .key ((exKey.marshal fun _ => true).getD []) }
    [117] { exOwned with keyID := List.replicate 32 3 }.marshal).2 = .ok () :=
  C92_other_key exPrims _ _ [117] _ _ { exOwned with keyID := List.replicate 32 3 } exKey (by decide) rfl rfl rfl
    (C85_round_trip _ (by decide)) rfl rfl (KeyPool.C91_round_trip _ exKey _ (by decide) (by decide) (by decide) (by decide) (by decide) (by decide +kernel) (by decide +kernel) (by decide +kernel)) (by decide)
    ⟨rfl, by decide, by decide, by decide⟩ rfl rfl rfl (by decide) nofun

/-- Non-vacuity of `C92_ownerless_panics`. -/
example : (exClient.receive exPrims exEnv [117] { exOwned with flag := false }.marshal).2 = .panic :=
  C92_ownerless_panics exPrims exEnv exClient [117] _ { exOwned with flag := false } exKey exClient (C85_round_trip _ (by decide)) rfl (by decide) rfl rfl rfl

end Verif.Guard.Client
