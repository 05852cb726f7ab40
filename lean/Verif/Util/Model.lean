/-
Models of the small helper packages: util/wallet (token polling), util/fuzzer,
mix/client/io.go (mail bodies), keyserver/hashchain (entry splitting),
msg/msgid and util.ContainsString. util/digits is modelled in Msg/Encrypt.lean
(`digitsCount`).
-/
import Verif.Go
import Verif.Util.Base64

namespace Verif.Util

/-! ### util/wallet -/

/-- Result of one `walletClient.GetToken` call (wallet.go:26,40): a token, the
error `client.ErrRetry`, or any other error. -/
inductive Reply (τ ε : Type) where
  | token (t : τ)
  | retry
  | fail (e : ε)
  deriving DecidableEq, Repr

/-- `b.Duration()` of the n-th retry in nanoseconds, for Min = 100 ms,
Max = 5 s, Factor = 1.5 without jitter (wallet.go:29-34). The third-party
package computes in float64; the products below the cap are exact there. -/
def backoffDur (n : Nat) : Nat := min (100000000 * 3 ^ n / 2 ^ n) 5000000000

/-- `def.WalletGetTokenMaxDuration`, 5 minutes in ns (def/def.go:195). -/
def maxTokenWait : Nat := 300000000000

theorem backoffDur_pos (n : Nat) : 100000000 ≤ backoffDur n := by
  have h : 100000000 * 2 ^ n ≤ 100000000 * 3 ^ n :=
    Nat.mul_le_mul_left _ (Nat.pow_le_pow_left (by decide) n)
  have h2 : 100000000 ≤ 100000000 * 3 ^ n / 2 ^ n :=
    (Nat.le_div_iff_mul_le (Nat.two_pow_pos n)).mpr h
  unfold backoffDur
  omega

/-- What the polling did: last reply, number of `GetToken` calls, time slept. -/
structure Poll (τ ε : Type) where
  last : Reply τ ε
  calls : Nat
  slept : Nat

/-- The `for` loop (wallet.go:36-49); `n` retries were made before, `total` ns
slept; `replies i` is what the i-th call returns. -/
def pollLoop {τ ε : Type} (replies : Nat → Reply τ ε) (n total : Nat) : Poll τ ε :=
  let total' := total + backoffDur n
  match replies (n + 1) with
  | .retry =>
    if maxTokenWait ≤ total' then ⟨.retry, n + 2, total'⟩
    else pollLoop replies (n + 1) total'
  | r => ⟨r, n + 2, total'⟩
  termination_by maxTokenWait - total
  decreasing_by
    have := backoffDur_pos n
    omega

/-- `GetToken` (wallet.go:21-55). The returned error is the client's
`LastError`; only the deciding reply is kept here. -/
def getToken {τ ε : Type} (replies : Nat → Reply τ ε) : Poll τ ε :=
  match replies 0 with
  | .retry => pollLoop replies 0 0
  | r => ⟨r, 1, 0⟩

/-! ### util/fuzzer -/

/-- `switchBit` (fuzzer.go:49-55): a modified copy. Only called with
`pos < 8 * len(d)`; the index panic outside is modelled by the caller's range. -/
def switchBit (d : Bytes) (pos : Nat) : Bytes :=
  d.modify (pos / 8) (fun b => b ^^^ UInt8.ofNat (2 ^ (pos % 8)))

/-- Memory of the fuzzer run: buffer 0 holds `sf.Data`; every `make` appends a
buffer. -/
abbrev Heap := List Bytes

/-- What one run of `Fuzz` leaves behind. -/
structure FuzzRun (ε : Type) where
  heap : Heap
  presented : List Bytes
  errors : List (Option ε)
  deriving Repr

/-- The test loop (fuzzer.go:34-41). `test` gets the copy, returns its error
and whatever it leaves in the buffer it was given. -/
def fuzzLoop {ε : Type} (test : Bytes → Bytes × Option ε) :
    List Nat → FuzzRun ε → FuzzRun ε
  | [], r => r
  | i :: is, r =>
    let x := switchBit (r.heap.headD []) i
    let (x', e) := test x
    fuzzLoop test is ⟨r.heap ++ [x'], r.presented ++ [x], r.errors ++ [e]⟩

/-- `Fuzz` (fuzzer.go:20-46). Panics on an empty input (21-23) and when the
number of tests is negative (`make`, 33). Returns the verdict and the run. -/
def fuzz {ε : Type} (data : Bytes) (start stop : Int) (test : Bytes → Bytes × Option ε) :
    Res Unit (Bool × FuzzRun ε) :=
  if data = [] then .panic else
  let l : Int := data.length * 8
  let stop := if stop > l ∨ stop = 0 then l else stop
  let start := if start < 0 ∨ start > l then 0 else start
  if stop - start < 0 then .panic else
  let r := fuzzLoop test (List.range' start.toNat (stop - start).toNat) ⟨[data], [], []⟩
  .ok (r.errors.length == (r.errors.filter Option.isSome).length, r)

/-! ### mix/client/io.go -/

/-- Carriage return and line feed. -/
def crlf : Bytes := [13, 10]

/-- The loop of `splitMaxLine` (io.go:47-53), for a positive width. -/
def splitLines (width : Nat) (hw : 0 < width) (s : Bytes) : List Bytes :=
  if s.length ≤ width then
    if s = [] then [] else [s]
  else s.take width :: splitLines width hw (s.drop width)
  termination_by s.length
  decreasing_by simp; omega

/-- `splitMaxLine` (io.go:41-55). A width of zero makes the Go loop run
forever on non-empty input; the model requires a positive width, the only call
uses 72. -/
def splitMaxLine (s : Bytes) (width : Nat) (hw : 0 < width) : Bytes :=
  if s.length ≤ width then s else crlf.intercalate (splitLines width hw s)

/-- `MaxMessageSize` (mix/client/init.go:17). -/
def maxMailSize : Nat := 266240

/-- Errors of `ReadMail`. -/
inductive MailErr where
  | maxSize
  | base64
  deriving DecidableEq, Repr

/-- The body part of `WriteMail` (io.go:38): everything after the header. -/
def writeMailBody (body : Bytes) : Bytes := splitMaxLine (Base64.encode body) 72 (by decide)

/-- `ReadMail` (io.go:18-29) from the point where net/mail has removed the
header: the size check and the decoding. -/
def readMailBody (text : Bytes) : Res MailErr Bytes :=
  if text.length > maxMailSize then .err .maxSize
  else match Base64.decode text with
    | none => .err .base64
    | some b => .ok b

/-! ### keyserver/hashchain -/

/-- The fields of a hash chain entry. -/
structure Entry where
  hash : Bytes
  typ : Bytes
  nonce : Bytes
  hashID : Bytes
  crUID : Bytes
  uidIndex : Bytes
  deriving DecidableEq, Repr

/-- Errors of `SplitEntry`. -/
inductive EntryErr where
  | base64
  | length
  | typ
  deriving DecidableEq, Repr

/-- `SplitEntry` (hashchain.go:29-52). -/
def splitEntry (entry : Bytes) : Res EntryErr Entry :=
  match Base64.decode entry with
  | none => .err .base64
  | some e =>
    if e.length ≠ 153 then .err .length else
    let r : Entry := {
      hash := e.take 32
      typ := (e.take 33).drop 32
      nonce := (e.take 41).drop 33
      hashID := (e.take 73).drop 41
      crUID := (e.take 121).drop 73
      uidIndex := e.drop 121 }
    if r.typ ≠ [1] then .err .typ else .ok r

/-! ### msg/msgid and util -/

/-- One step of `strings.SplitN(s, "-", n)`: the text before the first dash and
the text after it, if there is a dash. -/
def cutDash : Bytes → Option (Bytes × Bytes)
  | [] => none
  | c :: cs =>
    if c = 45 then some ([], cs)
    else match cutDash cs with
      | none => none
      | some (a, b) => some (c :: a, b)

/-- `Parse` (msgid.go:34-40): fourth part of `SplitN(id, "-", 4)`, empty if
there are fewer parts. -/
def parseMsgID (id : Bytes) : Bytes :=
  match cutDash id with
  | none => []
  | some (_, r1) => match cutDash r1 with
    | none => []
    | some (_, r2) => match cutDash r2 with
      | none => []
      | some (_, r3) => r3

/-- Lower-case hexadecimal digit. -/
def hexDigit (n : Nat) : UInt8 := if n < 10 then UInt8.ofNat (48 + n) else UInt8.ofNat (87 + n)

/-- `hex.EncodeToString`. -/
def hex (b : Bytes) : Bytes := b.flatMap fun x => [hexDigit (x.toNat / 16), hexDigit (x.toNat % 16)]

/-- `Generate` (msgid.go:20-30) after the sender check: `year` and `month` are
the texts produced by the time formatting, `random` the 16 random bytes. -/
def genMsgID (year month random sender : Bytes) : Bytes :=
  year ++ [45] ++ month ++ [45] ++ hex random ++ [45] ++ sender

/-- `ContainsString` (util/util.go:60-67). -/
def containsString {α : Type} [DecidableEq α] : List α → α → Bool
  | [], _ => false
  | v :: vs, s => if v = s then true else containsString vs s

end Verif.Util
