/-
`mutectrl msg list` and `mutectrl msg read` (ctrlengine/msg.go:848-914): how messages are shown.

The subject of a message goes through `mime.QEncoding.Encode` of the Go library, which is modelled
as in mime/encodedword.go. The two formats of a time (time.RFC3339 in the local time zone and
time.RFC1123Z) are functions on the seconds since 1970.
-/
import Verif.Ctrl.TransferProps
import Verif.Msgdb.Nyms
import Verif.Mime.Model
import Verif.Ident.Model

set_option autoImplicit false

namespace Verif.Ctrl.Show
open Verif.Sql Verif.Msgdb Verif.Ctrl.Transfer

/-! ### encoded words -/

/-- `'!' <= b && b <= '~'` without the three special characters of the encoding (writeQString). -/
def plainByte (b : UInt8) : Bool := 33 ≤ b && b ≤ 126 && b != 61 && b != 63 && b != 95

/-- An upper case hexadecimal digit. -/
def hexDigit (n : UInt8) : UInt8 := if n < 10 then 48 + n else 55 + n

/-- One byte in an encoded word (`writeQString`). -/
def qByte (b : UInt8) : Bytes :=
  if b = 32 then [95] else if plainByte b then [b] else [61, hexDigit (b / 16), hexDigit (b % 16)]

/-- `writeQString`. -/
def qString (s : Bytes) : Bytes := s.flatMap qByte

/-- "=?utf-8?q?" and "?=" (`openWord` and `closeWord`). -/
def wordOpen : Bytes := [61, 63, 117, 116, 102, 45, 56, 63, 113, 63]
def wordClose : Bytes := [63, 61]

/-- The length of the first character (`utf8.DecodeRuneInString`), for any decoder that reports at
least one byte and not more than there are. -/
def runeLen (width : Bytes → Nat) (s : Bytes) : Nat := max 1 (min (width s) s.length)

/-- `qEncode` (with `maxContentLen` 63 and `splitWord`): `cur` is `currentLen`; the first argument
bounds the number of rounds. -/
def qEncode (width : Bytes → Nat) : Nat → Nat → Bytes → Bytes
  | 0, _, _ => []
  | _ + 1, _, [] => []
  | k + 1, cur, b :: s =>
    let simple := b = 32 ∨ plainByte b = true
    let n := if simple then 1 else runeLen width (b :: s)
    let enc := if simple then 1 else 3 * n
    if cur + enc > 63 then
      wordClose ++ (32 :: (wordOpen ++ (qString ((b :: s).take n) ++ qEncode width k enc ((b :: s).drop n))))
    else qString ((b :: s).take n) ++ qEncode width k (cur + enc) ((b :: s).drop n)

/-- `needsEncoding`. -/
def needsEncoding (s : Bytes) : Bool := s.any fun b => !(32 ≤ b && b ≤ 126) && b != 9

/-- `mime.QEncoding.Encode("utf-8", s)` (msg.go:908). -/
def encode (width : Bytes → Nat) (s : Bytes) : Bytes :=
  if needsEncoding s then wordOpen ++ (qEncode width s.length 0 s ++ wordClose) else s

/-! ### the commands -/

def txtDate : Bytes := "Date".toUTF8.data.toList
def txtFrom : Bytes := "From".toUTF8.data.toList
def txtTo : Bytes := "To".toUTF8.data.toList
def txtSubject : Bytes := "Subject".toUTF8.data.toList
def txtVersion : Bytes := "MIME-Version".toUTF8.data.toList
def txtOne : Bytes := "1.0".toUTF8.data.toList
def txtType : Bytes := "Content-Type".toUTF8.data.toList
def txtText : Bytes := "text/plain; charset=UTF-8".toUTF8.data.toList

/-- One line of the list (msg.go:858-884). -/
def listLine (zone : Int → Bytes) (r : Nat × Message) : Bytes :=
  let dir : UInt8 := if r.2.outgoing then 60 else 62
  let status : UInt8 := if r.2.outgoing then (if r.2.sent then 83 else 80) else (if r.2.read then 82 else 78)
  [dir, status, 32] ++ (dec r.1 ++ 9 :: (zone r.2.date ++ 9 :: (r.2.from_ ++ 9 :: (r.2.to ++ 9 :: (r.2.subject ++ [10])))))

/-- `msgList` (msg.go:848-887): the output. -/
def msgList (I : Ids) (zone : Int → Bytes) (db : Db) (id : Bytes) : Except Msgdb.Err Bytes :=
  match I.map id with
  | none => .error .notMapped
  | some idMapped =>
    match db.getMsgIDs I idMapped with
    | .error e => .error e
    | .ok t => .ok (t.flatMap (listLine zone))

/-- A header line (msg.go:903-911). -/
def headerLine (name value : Bytes) : Bytes := name ++ ([58, 32] ++ (value ++ [13, 10]))

/-- The text of a message (msg.go:902-913). -/
def mailText (width : Bytes → Nat) (rfc1123 : Int → Bytes) (x : Shown) : Bytes :=
  let p := Mime.splitMessage x.msg
  headerLine txtDate (rfc1123 x.date) ++ (headerLine txtFrom x.from_ ++ (headerLine txtTo x.to ++
    ((if p.1 = [] then [] else headerLine txtSubject (encode width p.1)) ++
      (headerLine txtVersion txtOne ++ (headerLine txtType txtText ++ (13 :: 10 :: p.2))))))

/-- `msgRead` (msg.go:889-914): the output and the database. -/
def msgRead (I : Ids) (width : Bytes → Nat) (rfc1123 : Int → Bytes) (db : Db) (myID : Bytes) (msgID : Nat) :
    Except Msgdb.Err (Bytes × Db) :=
  match I.map myID with
  | none => .error .notMapped
  | some idMapped =>
    match db.getMessage I idMapped msgID with
    | .error e => .error e
    | .ok x => .ok (mailText width rfc1123 x, db.readMessage msgID)

/-! ### specification: what a reader of the output sees -/

/-- The lines of a text. -/
def linesOf : Bytes → List Bytes
  | [] => []
  | c :: s =>
    if c = 10 then [] :: linesOf s
    else match linesOf s with
      | [] => [[c]]
      | l :: ls => (c :: l) :: ls

/-- The parts of a text before and after the first occurrence of a byte. -/
def cutAt (d : UInt8) : Bytes → Option (Bytes × Bytes)
  | [] => none
  | c :: s => if c = d then some ([], s) else (cutAt d s).map fun p => (c :: p.1, p.2)

/-- What a line of the list says. `done` is: read, for a message received; delivered, for a
message written. -/
structure Entry where
  incoming : Bool
  done : Bool
  id : Nat
  date : Bytes
  from_ : Bytes
  to : Bytes
  subject : Bytes
  deriving DecidableEq, Repr

/-- The letters: ">R" and ">N" for messages received, "<S" and "<P" for messages written. -/
def letters (a b : UInt8) : Option (Bool × Bool) :=
  if a = 62 ∧ b = 82 then some (true, true)
  else if a = 62 ∧ b = 78 then some (true, false)
  else if a = 60 ∧ b = 83 then some (false, true)
  else if a = 60 ∧ b = 80 then some (false, false)
  else none

/-- Reading a line: two letters, a space, the number, and four more columns. -/
def readLine : Bytes → Option Entry
  | a :: b :: 32 :: s => do
    let (incoming, done) ← letters a b
    let (i, s) ← cutAt 9 s
    let id ← Conf.digits i
    let (date, s) ← cutAt 9 s
    let (from_, s) ← cutAt 9 s
    let (to, subject) ← cutAt 9 s
    some ⟨incoming, done, id, date, from_, to, subject⟩
  | _ => none

/-- Reading the list. -/
def readList (s : Bytes) : Option (List Entry) := (linesOf s).mapM readLine

/-- Reading a mail: header lines up to an empty line, then the body. A line ends with LF or
CRLF; name and value of a header are separated by ": ". The number bounds the lines. -/
def readHeaders : Nat → Bytes → Option (List (Bytes × Bytes) × Bytes)
  | 0, _ => none
  | k + 1, s => do
    let (l, s) ← cutAt 10 s
    let l := if l.getLast? = some 13 then l.dropLast else l
    if l = [] then some ([], s)
    else
      let (name, v) ← cutAt 58 l
      let value ← if v.head? = some 32 then some v.tail else none
      let (hs, body) ← readHeaders k s
      some ((name, value) :: hs, body)

def readMail (s : Bytes) : Option (List (Bytes × Bytes) × Bytes) := readHeaders s.length s

/-- Value of an upper case hexadecimal digit. -/
def unhex (c : UInt8) : Option UInt8 :=
  if 48 ≤ c ∧ c ≤ 57 then some (c - 48) else if 65 ≤ c ∧ c ≤ 70 then some (c - 55) else none

/-- RFC 2047, section 4.2: the text in an encoded word. -/
def unQ : Bytes → Option Bytes
  | [] => some []
  | 61 :: a :: b :: s => do
    let x ← unhex a
    let y ← unhex b
    let r ← unQ s
    some ((16 * x + y) :: r)
  | c :: s =>
    if c = 61 ∨ c = 63 ∨ c = 32 then none
    else (unQ s).map fun r => (if c = 95 then 32 else c) :: r

/-- An encoded word of RFC 2047 with UTF-8 and the "Q" encoding, and what it stands for. -/
def unWord (t : Bytes) : Option Bytes :=
  if wordOpen.isPrefixOf t ∧ wordClose.isSuffixOf t ∧ 12 ≤ t.length then unQ ((t.drop 10).take (t.length - 12)) else none

/-- The parts of a text between spaces. -/
def words : Bytes → List Bytes
  | [] => [[]]
  | c :: s =>
    if c = 32 then [] :: words s
    else match words s with
      | [] => [[c]]
      | l :: ls => (c :: l) :: ls

/-- RFC 2047, section 6.2: encoded words are replaced by what they stand for; the space between
two of them is not shown. `prev` says that the word before was an encoded one. -/
def showWords : Bool → List Bytes → Bytes
  | _, [] => []
  | prev, t :: ts =>
    match unWord t with
    | some x => (if prev then [] else [32]) ++ (x ++ showWords true ts)
    | none => 32 :: (t ++ showWords false ts)

/-- A header value as it is shown. -/
def decodeHeader (s : Bytes) : Bytes :=
  match words s with
  | [] => []
  | t :: ts =>
    match unWord t with
    | some x => x ++ showWords true ts
    | none => t ++ showWords false ts

/-- The entry `e` of a list describes the message with number `r.1` of the nym `my`. -/
structure Describes (db : Db) (zone : Int → Bytes) (my : Bytes) (e : Entry) (r : Nat × Message) : Prop where
  id : e.id = r.1
  incoming : e.incoming = !r.2.outgoing
  done : e.done = if r.2.outgoing then r.2.sent else r.2.read
  date : e.date = zone r.2.date
  /-- one side is the nym, the other side the contact -/
  me : (if r.2.outgoing then e.from_ else e.to) = my
  peer : ∃ k, (r.2.peer, k) ∈ db.contacts ∧ k.mapped = if r.2.outgoing then e.to else e.from_
  /-- the subject is the first line of the message -/
  subject : 10 ∉ e.subject ∧ (r.2.message = e.subject ∨ ∃ body, r.2.message = e.subject ++ 10 :: body)

/-- No tab and no line break. -/
def OneField (s : Bytes) : Prop := 9 ∉ s ∧ 10 ∉ s

/-- A message text as subject, carriage returns, line break and body. -/
def HasParts (msg subj body : Bytes) : Prop :=
  10 ∉ subj ∧ subj.getLast? ≠ some 13 ∧
  ∃ k, msg = subj ++ (List.replicate k 13 ++ 10 :: body) ∨ msg = subj ++ List.replicate k 13 ∧ body = []

/-- "=?" does not occur. -/
def NoWordStart (s : Bytes) : Prop := ∀ a b, s ≠ a ++ 61 :: 63 :: b

end Verif.Ctrl.Show
