/-
The requests to a mix (mix/client/mixrpc.go): the keys of the mix, which become the candidates of
the addresses made for a nym (util/nymaddr.go), and the revocation of a message. C134.
-/
import Verif.Ctrl.Mailbox
import Verif.Mix.Addr

set_option autoImplicit false

namespace Verif.Ctrl.MixKeys

open Verif Verif.Mix Verif.Ctrl.Mailbox

/-- Errors of the requests to a mix. -/
inductive RpcErr where
  /-- the mix has no host, `ErrNoHost` (mixrpc.go:28-30) -/
  | noHost
  /-- the request failed (mixrpc.go:51-62) -/
  | transport
  /-- the answer is no statement (mixrpc.go:89-93) -/
  | json
  /-- the mix reports an error (mixrpc.go:112-114) -/
  | remote (text : Bytes)
  /-- `ErrProto` (mixrpc.go:116) -/
  | proto
  deriving DecidableEq, Repr

/-- `GetMixKeys` (mixrpc.go:80-95). `host` is what `GetMixAddress` finds, `get` the answer to a request
to the host (`none`: it failed), `parse` is `json.Unmarshal` into a statement. -/
def getMixKeys (host : Option Bytes) (get : Bytes → Option Bytes) (parse : Bytes → Option Stmt) : Except RpcErr Stmt :=
  match host with
  | none => .error .noHost
  | some a =>
    match get a with
    | none => .error .transport
    | some body =>
      match parse body with
      | none => .error .json
      | some s => .ok s

/-- "REVOKED" (mixrpc.go:109). -/
def revoked : Bytes := [82, 69, 86, 79, 75, 69, 68]
/-- "ERROR" (mixrpc.go:112). -/
def errorText : Bytes := [69, 82, 82, 79, 82]

/-- `RevokeMessage` (mixrpc.go:97-117). The slices `body[0:7]` and `body[0:5]` are within the bounds
checked before. -/
def revokeMessage (host : Option Bytes) (get : Bytes → Option Bytes) : Except RpcErr Bool :=
  match host with
  | none => .error .noHost
  | some a =>
    match get a with
    | none => .error .transport
    | some body =>
      if 7 < body.length then
        if body.take 7 = revoked then .ok true
        else if body.take 5 = errorText then .error (.remote body)
        else .error .proto
      else .error .proto

/-- The candidates of `NewNymAddress` (util/nymaddr.go:50-57): the addresses of the statement. -/
def candidates (r : Except RpcErr Stmt) : Option (List MAddr) :=
  match r with
  | .error _ => none
  | .ok s => some s.addresses

/-- `NewNymAddress` with its request (util/nymaddr.go:31-72). -/
def makeAddress (P : Prims) (clock : Int) (mapped configured : Bool) (host : Option Bytes) (get : Bytes → Option Bytes)
    (parse : Bytes → Option Stmt) (p : Params) (id pub server : Bytes) (r : Nat) (eph nonce : Bytes) : Verif.Res Err (Bytes × Bytes) :=
  newNymAddress P clock mapped configured (candidates (getMixKeys host get parse)) p id pub server r eph nonce

theorem candidates_some {host : Option Bytes} {get : Bytes → Option Bytes} {parse : Bytes → Option Stmt} {l : List MAddr}
    (h : candidates (getMixKeys host get parse) = some l) :
    ∃ a body s, host = some a ∧ get a = some body ∧ parse body = some s ∧ l = s.addresses := by
  unfold getMixKeys at h
  split at h
  · cases h
  · split at h
    · cases h
    · rename_i body hb
      split at h
      · cases h
      · rename_i s hs
        exact ⟨_, body, s, rfl, hb, hs, (Option.some.inj h).symm⟩

/-! ### C134 -/

/-- C134: an address that is made names the mix address, the key and the token key of one entry of the
statement with which the mix answered, and that entry expires after the address. -/
theorem C134_candidates (P : Prims) (clock now : Int) (mapped configured : Bool) (host : Option Bytes) (get : Bytes → Option Bytes)
    (parse : Bytes → Option Stmt) (p : Params) (hp : (p.template []).Fits) (id pub server : Bytes) (r : Nat) (eph nonce ma na b : Bytes)
    (h : makeAddress P clock mapped configured host get parse p id pub server r eph nonce = .ok (ma, na))
    (hb : Base64.decode na = some b) (hl : b.length < 2 ^ 31) (hnow : now ≤ p.expire) :
    ∃ a body s, host = some a ∧ get a = some body ∧ parse body = some s ∧
      ∃ m ∈ s.addresses, ma = m.address ∧ (p.expire ≠ 0 → p.expire < m.expire) ∧
        ∃ addr, parseAddress now b = .ok addr ∧ addr.mixAddress = m.address ∧ addr.mixPubKey = m.pubkey ∧
          addr.tokenPubKey = m.tokenKey ∧ addr.expire = p.expire ∧ addr.singleUse = p.singleUse := by
  obtain ⟨_, _, mixes, box, b', a', hk, hbox, hn, ha, hma, hna⟩ := newNymAddress_ok P clock mapped configured _ p id pub server r eph nonce ma na h
  obtain ⟨a, body, s, h1, h2, h3, rfl⟩ := candidates_some hk
  rw [hna, Base64.decode_encode] at hb
  have hb := Option.some.inj hb
  subst hb
  have ht : (p.template s.addresses).Fits := ⟨hp.sys, hp.exp, hp.lo, hp.hi⟩
  obtain ⟨m, pd, g1, g2, g3, hb'⟩ := newAddress_ok P clock (p.template s.addresses) box (P.hash id) r eph nonce b' hn
  have hparse : NAddr.parse b' = some (NAddr.mk m.address p.expire p.singleUse m.tokenKey m.pubkey (P.pub eph) pd) := by
    have := NAddr.parse_asn1 (NAddr.mk m.address p.expire p.singleUse m.tokenKey m.pubkey (P.pub eph) pd) hp.exp (by rw [hb'] at hl; exact hl) []
    rw [List.append_nil] at this
    rw [hb']
    exact this
  refine ⟨a, body, s, h1, h2, h3, m, g1, ?_, fun h0 => ?_, NAddr.mk m.address p.expire p.singleUse m.tokenKey m.pubkey (P.pub eph) pd, ?_, rfl, rfl, rfl, rfl, rfl⟩
  · rw [hma, parseAddress_mem ha, hparse]
    rfl
  · have g2 : (if p.expire = 0 then clock else p.expire) < m.expire := g2
    rwa [if_neg h0] at g2
  · rw [parseAddress, hparse, ofOpt_some, Res.bind_ok, if_neg (show ¬ p.expire < now by omega)]

/-- C134: without an answer that is a statement there is no address. -/
theorem C134_no_answer (P : Prims) (clock : Int) (mapped configured : Bool) (host : Option Bytes) (get : Bytes → Option Bytes)
    (parse : Bytes → Option Stmt) (p : Params) (id pub server : Bytes) (r : Nat) (eph nonce : Bytes) (x : Bytes × Bytes)
    (h : ∀ a body s, host = some a → get a = some body → parse body ≠ some s) :
    makeAddress P clock mapped configured host get parse p id pub server r eph nonce ≠ .ok x := by
  intro hm
  obtain ⟨_, _, mixes, box, b', a', hk, _⟩ := newNymAddress_ok P clock mapped configured _ p id pub server r eph nonce x.1 x.2 hm
  obtain ⟨a, body, s, h1, h2, h3, _⟩ := candidates_some hk
  exact h a body s h1 h2 h3

/-- C134, violated: nobody verifies the statement. Whoever answers the request instead of the mix, with
a statement whose signature does not verify and whose keys are their own, has the address made for
their key: they open the private part of the address, which holds the mailbox of the recipient. -/
theorem C134_forged_violated (E : Ed) (P : Prims) (hP : P.Good) (clock now : Int) (mapped configured : Bool) (host : Option Bytes)
    (get : Bytes → Option Bytes) (parse : Bytes → Option Stmt) (p : Params) (hp : (p.template []).Fits) (id pub server : Bytes) (r : Nat)
    (eph nonce ma na b : Bytes) (a body : Bytes) (s : Stmt) (forger : Bytes)
    (hhost : host = some a) (hget : get a = some body) (hparse : parse body = some s)
    (_hforged : s.verify E = false) (hkeys : ∀ m ∈ s.addresses, m.pubkey = P.pub forger)
    (h : makeAddress P clock mapped configured host get parse p id pub server r eph nonce = .ok (ma, na))
    (hb : Base64.decode na = some b) (hl : b.length < 2 ^ 31) (hnow : now ≤ p.expire) :
    ∃ addr priv box, parseAddress now b = .ok addr ∧ mailbox pub server = .ok box ∧
      getMixData P (fun k => if k = P.pub forger then some forger else none) addr = .ok priv ∧ priv.address = box := by
  obtain ⟨_, _, mixes, box, b', a', hk, hbox, hn, ha, hma, hna⟩ := newNymAddress_ok P clock mapped configured _ p id pub server r eph nonce ma na h
  obtain ⟨a1, body1, s1, h1, h2, h3, rfl⟩ := candidates_some hk
  rw [hhost] at h1
  have h1 := Option.some.inj h1
  subst h1
  rw [hget] at h2
  have h2 := Option.some.inj h2
  subst h2
  rw [hparse] at h3
  have h3 := Option.some.inj h3
  subst h3
  rw [hna, Base64.decode_encode] at hb
  have hb := Option.some.inj hb
  subst hb
  have ht : (p.template s.addresses).Fits := ⟨hp.sys, hp.exp, hp.lo, hp.hi⟩
  obtain ⟨m, hm, addr, g1, _, _, g4⟩ := address_uses P hP clock now (p.template s.addresses) ht box (P.hash id) r eph nonce b' hl hn hnow
  exact ⟨addr, _, box, g1, hbox, g4 _ forger (hkeys m hm) (if_pos rfl), rfl⟩

/-- C134, violated: the answer counts by its entries alone; the signature and the key of the statement
make no difference. -/
theorem C134_unsigned_violated (P : Prims) (clock : Int) (mapped configured : Bool) (a body : Bytes) (s s' : Stmt)
    (same : s'.addresses = s.addresses) (p : Params) (id pub server : Bytes) (r : Nat) (eph nonce : Bytes) :
    makeAddress P clock mapped configured (some a) (fun _ => some body) (fun _ => some s') p id pub server r eph nonce =
      makeAddress P clock mapped configured (some a) (fun _ => some body) (fun _ => some s) p id pub server r eph nonce := by
  unfold makeAddress getMixKeys candidates
  simp only [same]

/-- C134: a revocation is reported to have succeeded exactly if the mix answers with "REVOKED" and at
least one byte more; a text that begins with "ERROR" and is longer than seven bytes is returned as the error. -/
theorem C134_revoke (host : Option Bytes) (get : Bytes → Option Bytes) :
    (revokeMessage host get = .ok true ↔ ∃ a rest, host = some a ∧ get a = some (revoked ++ rest) ∧ rest ≠ []) ∧
    (∀ text, revokeMessage host get = .error (.remote text) ↔
      ∃ a rest, host = some a ∧ get a = some text ∧ text = errorText ++ rest ∧ 2 < rest.length) ∧
    revokeMessage host get ≠ .ok false := by
  unfold revokeMessage
  cases host with
  | none => simp
  | some a =>
    cases hg : get a with
    | none => simp [hg]
    | some body =>
      have e7 : ∀ body : Bytes, (7 < body.length ∧ body.take 7 = revoked) ↔ ∃ rest, body = revoked ++ rest ∧ rest ≠ [] := by
        intro body
        constructor
        · rintro ⟨hl, ht⟩
          refine ⟨body.drop 7, by rw [← ht, List.take_append_drop], fun h0 => ?_⟩
          have := congrArg List.length h0
          simp only [List.length_drop, List.length_nil] at this
          omega
        · rintro ⟨rest, rfl, hr⟩
          refine ⟨?_, ?_⟩
          · have := List.length_pos_iff.mpr hr
            rw [List.length_append, show revoked.length = 7 from rfl]; omega
          · exact List.take_left' rfl
      have e5 : ∀ body : Bytes, (7 < body.length ∧ body.take 5 = errorText) ↔ ∃ rest, body = errorText ++ rest ∧ 2 < rest.length := by
        intro body
        constructor
        · rintro ⟨hl, ht⟩
          exact ⟨body.drop 5, by rw [← ht, List.take_append_drop], by rw [List.length_drop]; omega⟩
        · rintro ⟨rest, rfl, hr⟩
          exact ⟨by rw [List.length_append, show errorText.length = 5 from rfl]; omega, List.take_left' rfl⟩
      have both : ∀ body : Bytes, body.take 7 = revoked → body.take 5 ≠ errorText := by
        intro body h7 h5
        have : (body.take 7).take 5 = errorText := by rw [List.take_take]; exact h5
        rw [h7] at this
        exact absurd this (by decide)
      dsimp only
      rw [hg]
      dsimp only
      refine ⟨?_, fun text => ?_, ?_⟩
      · have := e7 body
        constructor
        · intro h
          split at h
          · rename_i hl
            split at h
            · rename_i ht
              obtain ⟨rest, hb, hr⟩ := this.mp ⟨hl, ht⟩
              exact ⟨a, rest, rfl, by rw [hg, hb], hr⟩
            · split at h <;> cases h
          · cases h
        · rintro ⟨a', rest, ha, hb, hr⟩
          have ha := Option.some.inj ha
          subst ha
          rw [hg] at hb
          obtain ⟨hl, ht⟩ := this.mpr ⟨rest, Option.some.inj hb, hr⟩
          rw [if_pos hl, if_pos ht]
      · have := e5 body
        constructor
        · intro h
          split at h
          · rename_i hl
            split at h
            · cases h
            · split at h
              · rename_i ht
                have h : body = text := by
                  injection h with h
                  injection h
                subst h
                obtain ⟨rest, hb, hr⟩ := this.mp ⟨hl, ht⟩
                exact ⟨a, rest, rfl, hg, hb, hr⟩
              · cases h
          · cases h
        · rintro ⟨a', rest, ha, hb, ht, hr⟩
          have ha := Option.some.inj ha
          subst ha
          rw [hg] at hb
          have hb := Option.some.inj hb
          subst hb
          obtain ⟨hl, h5⟩ := this.mpr ⟨rest, ht, hr⟩
          rw [if_pos hl, if_neg (fun h7 => both body h7 h5), if_pos h5]
      · split
        · split
          · simp
          · split <;> simp
        · simp

/-- C134, violated: the answer "REVOKED" alone is an error. -/
theorem C134_bare_violated (a : Bytes) : revokeMessage (some a) (fun _ => some revoked) = .error .proto := by
  unfold revokeMessage revoked
  simp

/-! ### the theorems apply -/

/-- The toy mix answers with the one key it has; the signature is empty. -/
def forgedStmt : Stmt := ⟨[toyMix], [], []⟩

/-- A signature scheme that accepts nothing but the hash of the message signed. -/
def strict : Ed := ⟨fun b => 1 :: b, fun k m => k ++ m, fun k m s => s.take 33 == k ++ m⟩

example : forgedStmt.verify strict = false := by decide +kernel

theorem toy_made : makeAddress toy 10 true true (some [1]) (fun _ => some [2]) (fun _ => some forgedStmt) toyParams [9] toyPub ([97, 46] ++ domain) 0 [8]
    (List.replicate 32 3) = .ok ([109], Base64.encode toyAddr'.asn1) := toy_newNymAddress

/-- C134_candidates: the address of the toy account. -/
example := C134_candidates toy 10 20 true true (some [1]) (fun _ => some [2]) (fun _ => some forgedStmt) toyParams toyParams_fits [9] toyPub
    ([97, 46] ++ domain) 0 [8] (List.replicate 32 3) [109] (Base64.encode toyAddr'.asn1) toyAddr'.asn1 toy_made (Base64.decode_encode _)
    (Nat.lt_of_le_of_lt toyAddr'_length (by omega)) (by simp [toyParams])

/-- C134_forged_violated: the forger's private key is that of the toy mix. -/
example :=
  C134_forged_violated strict toy toy_good 10 20 true true (some [1]) (fun _ => some [2]) (fun _ => some forgedStmt) toyParams toyParams_fits [9] toyPub
    ([97, 46] ++ domain) 0 [8] (List.replicate 32 3) [109] (Base64.encode toyAddr'.asn1) toyAddr'.asn1 [1] [2] forgedStmt [5] rfl rfl rfl
    (by decide +kernel) (fun m hm => by rw [List.mem_singleton.mp hm]; rfl) toy_made (Base64.decode_encode _)
    (Nat.lt_of_le_of_lt toyAddr'_length (by omega)) (by simp [toyParams])

/-- C134_no_answer: the mix answers with something else. -/
example := C134_no_answer toy 10 true true (some [1]) (fun _ => some [2]) (fun _ => none) toyParams [9] toyPub ([97, 46] ++ domain) 0 [8] (List.replicate 32 3)
    ([], []) (by intro _ _ _ _ _ h; cases h)

/-- C134_revoke: "REVOKED\n", "ERROR: unknown", "OK". -/
example : revokeMessage (some [1]) (fun _ => some (revoked ++ [10])) = .ok true := rfl
example : revokeMessage (some [1]) (fun _ => some (errorText ++ [58, 32, 117])) = .error (.remote (errorText ++ [58, 32, 117])) := rfl
example : revokeMessage (some [1]) (fun _ => some [79, 75]) = .error .proto := rfl

end Verif.Ctrl.MixKeys
