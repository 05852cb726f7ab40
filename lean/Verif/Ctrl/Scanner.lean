/-
How passphrases are read: `bufio.Scanner` with lines as tokens, whose `Bytes` are slices of a buffer
that later calls reuse, and the programs that keep several of these slices: `db create` and `db rekey`
(ctrlengine/db.go, cryptengine/db.go) and `Readline` (util/util.go).

The scanner is the one of Go's standard library (bufio/scan.go). The reader delivers chunks, as a
pipe does, and then the end of the file or an error. An empty chunk is skipped (the library gives up
after 100 of them in a row; a file does not deliver them).
-/
import Verif.Util.Model

namespace Verif.Ctrl.Scan

/-- Errors of a scanner: the end of the file, another error of the reader, a token that does not fit. -/
inductive RErr
  | eof
  | other
  | tooLong
  deriving DecidableEq, Repr

/-- `bufio.Scanner`: the arrays it does not use any more, its buffer (an array of the length of the
slice `buf`), the bounds of the unread data, the error, what the reader will deliver and how it ends. -/
structure Scanner where
  old : List Bytes
  buf : Bytes
  start : Nat
  stop : Nat
  err : Option RErr
  input : List Bytes
  last : RErr
  deriving DecidableEq, Repr

/-- A slice of one of the arrays. -/
structure View where
  arr : Nat
  off : Nat
  len : Nat
  deriving DecidableEq, Repr

/-- What a slice contains at the moment. -/
def Scanner.view (s : Scanner) (v : View) : Bytes :=
  (((s.old ++ [s.buf]).getD v.arr []).drop v.off).take v.len

/-- `bufio.NewScanner`. -/
def newScanner (input : List Bytes) (last : RErr) : Scanner := ⟨[], [], 0, 0, none, input, last⟩

/-- `dropCR` of bufio. -/
def dropCR (l : Bytes) : Bytes := if l.getLast? = some 13 then l.dropLast else l

/-- `bufio.ScanLines`: the number of bytes to advance and the length of the token. -/
def scanLines (data : Bytes) (atEOF : Bool) : Option (Nat × Nat) :=
  match data.findIdx? (· = 10) with
  | some i => some (i + 1, (dropCR (data.take i)).length)
  | none => if atEOF = true ∧ data ≠ [] then some (data.length, (dropCR data).length) else none

/-- `startBufSize` and `MaxScanTokenSize`. -/
def startBufSize : Nat := 4096
def maxTokenSize : Nat := 65536

/-- Data is shifted to the beginning of the buffer if space is needed or more than half of it is used
up. This overwrites what earlier slices refer to. -/
def Scanner.shift (s : Scanner) : Scanner :=
  if 0 < s.start ∧ (s.stop = s.buf.length ∨ s.buf.length / 2 < s.start) then
    { s with
      buf := (s.buf.drop s.start).take (s.stop - s.start) ++ s.buf.drop (s.stop - s.start)
      start := 0
      stop := s.stop - s.start }
  else s

/-- A full buffer is replaced by a larger one, up to a limit; earlier slices keep the old array. -/
def Scanner.grow (s : Scanner) : Option Scanner :=
  if s.stop = s.buf.length then
    if maxTokenSize ≤ s.buf.length then none
    else
      let size := min (if s.buf.length = 0 then startBufSize else 2 * s.buf.length) maxTokenSize
      let data := (s.buf.drop s.start).take (s.stop - s.start)
      some { s with
        old := s.old ++ [s.buf]
        buf := data ++ List.replicate (size - data.length) 0
        start := 0
        stop := s.stop - s.start }
  else some s

/-- One read. -/
def Scanner.read (s : Scanner) : Scanner :=
  match s.input with
  | [] => { s with err := some s.last }
  | c :: cs =>
    let d := c.take (s.buf.length - s.stop)
    { s with
      buf := s.buf.take s.stop ++ d ++ s.buf.drop (s.stop + d.length)
      stop := s.stop + d.length
      input := if d.length = c.length then cs else c.drop d.length :: cs }

/-- The token that can be cut from the buffer. -/
def Scanner.token (s : Scanner) : Option (Nat × Nat) :=
  if s.start < s.stop ∨ s.err.isSome = true then scanLines ((s.buf.drop s.start).take (s.stop - s.start)) s.err.isSome else none

/-- `Scan` with a bound on the number of reads; none if it is reached. The slice is the answer of `Bytes`. -/
def scanN : Nat → Scanner → Option (Option View × Scanner)
  | 0, _ => none
  | n + 1, s =>
    match s.token with
    | some (adv, len) => some (some ⟨s.old.length, s.start, len⟩, { s with start := s.start + adv })
    | none =>
      if s.err.isSome = true then some (none, { s with start := 0, stop := 0 })
      else match s.shift.grow with
        | none => some (none, { s.shift with err := some .tooLong })
        | some t => scanN n t.read

/-- `if scanner.Scan() { p = scanner.Bytes() } else if err := scanner.Err(); err != nil { return err }`
(ctrlengine/db.go:99-104 and alike): a slice, empty at the end of the file. -/
def next (n : Nat) (s : Scanner) : Option (Except RErr View × Scanner) :=
  match scanN n s with
  | none => none
  | some (some v, t) => some (.ok v, t)
  | some (none, t) => if t.err = some .eof then some (.ok ⟨0, 0, 0⟩, t) else some (.error (t.err.getD .other), t)

/-- The result of asking for passphrases: an error of the reader, different answers, or the result. -/
inductive Asked (α : Type)
  | failed (e : RErr)
  | differ
  | got (a : α)
  deriving DecidableEq, Repr

/-- `dbCreate` up to the comparison (ctrlengine/db.go:97-131, cryptengine/db.go:19-46): the passphrase
used for the database. -/
def askCreate (n : Nat) (input : List Bytes) (last : RErr) : Option (Asked Bytes) :=
  (next n (newScanner input last)).bind fun r1 =>
  match r1.1 with
  | .error e => some (.failed e)
  | .ok p1 => (next n r1.2).bind fun r2 =>
    match r2.1 with
    | .error e => some (.failed e)
    | .ok p2 => if r2.2.view p1 ≠ r2.2.view p2 then some .differ else some (.got (r2.2.view p1))

/-- `dbRekey` up to the comparison (ctrlengine/db.go:229-284, cryptengine/db.go:51-87): the old and the
new passphrase used. -/
def askRekey (n : Nat) (input : List Bytes) (last : RErr) : Option (Asked (Bytes × Bytes)) :=
  (next n (newScanner input last)).bind fun r0 =>
  match r0.1 with
  | .error e => some (.failed e)
  | .ok p0 => (next n r0.2).bind fun r1 =>
    match r1.1 with
    | .error e => some (.failed e)
    | .ok p1 => (next n r1.2).bind fun r2 =>
      match r2.1 with
      | .error e => some (.failed e)
      | .ok p2 => if r2.2.view p1 ≠ r2.2.view p2 then some .differ else some (.got (r2.2.view p0, r2.2.view p1))

/-- `util.Readline` (util/util.go:32-47), not from a terminal. -/
def readline (n : Nat) (input : List Bytes) (last : RErr) : Option (Except RErr Bytes) :=
  (next n (newScanner input last)).map fun r =>
  match r.1 with
  | .error e => .error e
  | .ok v => .ok (r.2.view v)

/-! ### specification -/

/-- The first line of a text and the rest: up to the line feed, without a carriage return before it. -/
def firstLine (inp : Bytes) : Bytes :=
  if (inp.takeWhile (· ≠ 10)).getLast? = some 13 then (inp.takeWhile (· ≠ 10)).dropLast else inp.takeWhile (· ≠ 10)
def otherLines (inp : Bytes) : Bytes := (inp.dropWhile (· ≠ 10)).drop 1

end Verif.Ctrl.Scan
