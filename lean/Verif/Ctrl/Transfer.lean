/-
The transfer of fetched messages from `muteproto` to `mutectrl` (ctrlengine/msg.go:478-647,
protoengine/fetch.go:21-103): two processes with three pipes, and three goroutines in `mutectrl`.

`muteproto` writes status lines to its stderr and the texts of messages to its stdout. In
`mutectrl` the main goroutine reads the status lines and writes commands, one goroutine reads
stdout in pieces of up to 4096 bytes and passes them on by an unbuffered channel, and for every
message a third goroutine collects the pieces until the main goroutine has told it the length.

The relation `Step` below is one step of one of them. Every order of steps and every way in which
writes and reads are cut into pieces is an execution. `muteproto` can be killed at any time and
every database operation can fail; that `mutectrl` is killed is an execution that ends early.

Simplifications: a command ("NEXT" or "QUIT", five bytes) is written and read at once; the blanks
at the ends of a status line that are trimmed are the ASCII ones; no read or write on a pipe
fails while both ends are open.
-/
import Verif.Ctrl.Fetch
import Verif.Conf.Init
import Verif.Mix.Client

namespace Verif.Ctrl.Transfer
open Verif.Sql Verif.Msgdb

/-! ### the lines -/

/-- The decimal digits of a number (`%d` of fetch.go:88 and 90), with enough fuel. -/
def decGo : Nat → Nat → Bytes
  | 0, _ => []
  | k + 1, n => if n < 10 then [UInt8.ofNat (48 + n)] else decGo k (n / 10) ++ [UInt8.ofNat (48 + n % 10)]

/-- `%d` of a number that is not negative. -/
def dec (n : Nat) : Bytes := decGo (n + 1) n

/-- `%d` of an `int64`. -/
def decInt (t : Int) : Bytes := if t < 0 then 45 :: dec t.natAbs else dec t.toNat

/-- "MESSAGEID:", "LENGTH:", "RECEIVETIME:" and "NONE" (fetch.go:71, 88, 90 and 101). -/
def txtId : Bytes := "MESSAGEID:".toUTF8.data.toList
def txtLen : Bytes := "LENGTH:".toUTF8.data.toList
def txtTime : Bytes := "RECEIVETIME:".toUTF8.data.toList
def txtNone : Bytes := "NONE".toUTF8.data.toList
/-- The start of the error output of `muteproto` (util.go:24-27). -/
def txtError : Bytes := "muteproto: error: ".toUTF8.data.toList
/-- "accountdb: nothing found" (msg.go:556). -/
def txtNothing : Bytes := "accountdb: nothing found".toUTF8.data.toList

/-- A line with a name and a value (fetch.go:71, 88 and 90). -/
def line (name value : Bytes) : Bytes := name ++ 9 :: (value ++ [10])

/-- The three lines of a message (fetch.go:71, 88 and 90). -/
def idLine (m : Mail) : Bytes := line txtId m.id
def lenLine (m : Mail) : Bytes := line txtLen (dec m.text.length)
def timeLine (m : Mail) : Bytes := line txtTime (decInt m.time)

/-- The last output: "NONE" (fetch.go:100-101), or the error (cmd/muteproto, util.go:24-27). -/
def lastLine : Option Bytes → Bytes
  | none => txtNone ++ [10]
  | some e => txtError ++ (e ++ [10])

/-- `strings.Split(s, "\t")`. -/
def splitTab : Bytes → List Bytes
  | [] => [[]]
  | b :: t =>
    if b = 9 then [] :: splitTab t
    else match splitTab t with
      | [] => [[b]]
      | r :: rs => (b :: r) :: rs

/-- The blanks of `strings.TrimSpace`, as far as they are ASCII. -/
def isBlank (c : UInt8) : Bool := c == 32 || c == 9 || c == 10 || c == 11 || c == 12 || c == 13

/-- `strings.TrimSpace` (simplified, see above). -/
def trim (s : Bytes) : Bytes := ((s.dropWhile isBlank).reverse.dropWhile isBlank).reverse

/-- What the main goroutine makes of a line it reads at the start of its loop. -/
inductive Heard
  | none
  | nothing
  | id (x : Bytes)
  | bad
  deriving DecidableEq, Repr

/-- msg.go:551-564; the line comes without its line feed. -/
def hearId (l : Bytes) : Heard :=
  let s := trim l
  if s = txtNone then .none
  else if txtNothing.isSuffixOf s then .nothing
  else match splitTab s with
    | [a, b] => if a = txtId then .id b else .bad
    | _ => .bad

/-- msg.go:605-612. -/
def hearLen (l : Bytes) : Option Nat :=
  match splitTab l with
  | [a, b] => if a = txtLen then Conf.parseUint b else none
  | _ => none

/-- msg.go:619-626. -/
def hearTime (l : Bytes) : Option Int :=
  match splitTab l with
  | [a, b] => if a = txtTime then Mix.atoi b else none
  | _ => none

/-! ### the processes -/

/-- A run of `muteprotoFetch`: the account, the cached message IDs, the messages the server lists and
delivers one after the other, the error that `muteproto` meets after them, if any, and how many bytes a
pipe holds. -/
structure Job where
  my : Bytes
  c : Bytes
  cache : List Bytes
  mails : List Mail
  fail : Option Bytes
  cap : Nat

/-- Where `muteproto` goes on after a status line. -/
inductive Cont
  | await (m : Mail) (l : List Mail)
  | time (m : Mail) (l : List Mail)
  | head (l : List Mail)
  | exit

/-- Where `muteproto` is: at the head of its loop, writing to stderr, waiting for a command, writing to
stdout, or gone. -/
inductive Proto
  | head (l : List Mail)
  | say (rest : Bytes) (k : Cont)
  | await (m : Mail) (l : List Mail)
  | text (rest : Bytes) (m : Mail) (l : List Mail)
  | exited (ok : Bool)

/-- The commands (msg.go:568 and 577). -/
inductive Cmd
  | next
  | quit

/-- The goroutine that collects a message (msg.go:585-598). -/
inductive Coll
  | off
  | select
  | need (n : Nat)
  | done

/-- The main goroutine (msg.go:545-646). -/
inductive Main
  /-- reads the status line at the start of the loop -/
  | id
  /-- has written NEXT, is going to add the message ID to the cache -/
  | add (x : Bytes)
  | len
  | time (n : Nat)
  | stop (n : Nat) (t : Int)
  | wait (t : Int)
  | store (t : Int)
  /-- has written QUIT, is going to remove message IDs from the cache -/
  | quit (x : Bytes)
  /-- in `cmd.Wait` -/
  | finish
  /-- has returned the time of the newest message, or an error -/
  | ret (r : Option Int)
  deriving DecidableEq

/-- The state of a run. The list `ops` contains the database operations done, in their order;
`faults` counts that `muteproto` is killed and that a database operation fails. -/
structure State where
  proto : Proto
  out : Bytes
  stat : Bytes
  cmd : List Cmd
  /-- what the reading goroutine offers on the channel -/
  held : Option Bytes
  coll : Coll
  outbuf : Bytes
  /-- the buffer of the reader of status lines -/
  buf : Bytes
  main : Main
  new : Option Int
  ops : List Op
  faults : Nat

/-- The state after `cmd.Start` and the reading of the cache (msg.go:519-544). -/
def start (J : Job) : State :=
  { proto := .head J.mails, out := [], stat := [], cmd := [], held := none, coll := .off, outbuf := [],
    buf := [], main := .id, new := none, ops := [], faults := 0 }

/-- After a status line (fetch.go:71-103). -/
def Cont.go (J : Job) : Cont → Proto
  | .await m l => .await m l
  | .time m l => .say (timeLine m) (.head l)
  | .head l => .head l
  | .exit => .exited J.fail.isNone

/-- The main goroutine waits for a status line. -/
def Main.reads : Main → Bool
  | .id | .len | .time _ => true
  | _ => false

/-- The main goroutine is going to do a database operation. -/
def Main.stores : Main → Bool
  | .add _ | .store _ | .quit _ => true
  | _ => false

/-- What the main goroutine does with the first line (msg.go:551-583). -/
def onId (J : Job) (s : State) (h : Heard) : State :=
  match h with
  | .none => { s with main := .finish }
  | .nothing => { s with main := .ret (some 0) }
  | .bad => { s with main := .ret none }
  | .id x =>
    if x ∈ J.cache then { s with cmd := s.cmd ++ [.quit], main := .quit x }
    else { s with cmd := s.cmd ++ [.next], main := .add x }

/-- One step. -/
inductive Step (J : Job) : State → State → Prop
  /- muteproto: the next message is fetched and announced (fetch.go:61-71) -/
  | announce (s m l) : s.proto = .head (m :: l) → Step J s { s with proto := .say (idLine m) (.await m l) }
  /- muteproto: no more messages, or an error (fetch.go:62-66 and 99-102) -/
  | last (s) : s.proto = .head [] → Step J s { s with proto := .say (lastLine J.fail) .exit }
  /- muteproto: writes a part of a line -/
  | say (s a b k) : s.proto = .say (a ++ b) k → a ≠ [] → s.stat.length + a.length ≤ J.cap →
      Step J s { s with proto := .say b k, stat := s.stat ++ a }
  | said (s k) : s.proto = .say [] k → Step J s { s with proto := k.go J }
  /- muteproto: reads a command (fetch.go:72-96) -/
  | next (s m l q) : s.proto = .await m l → s.cmd = .next :: q → Step J s { s with proto := .text m.text m l, cmd := q }
  | quit (s m l q) : s.proto = .await m l → s.cmd = .quit :: q → Step J s { s with proto := .exited true, cmd := q }
  /- muteproto: writes a part of a text (fetch.go:83-86) -/
  | text (s a b m l) : s.proto = .text (a ++ b) m l → a ≠ [] → s.out.length + a.length ≤ J.cap →
      Step J s { s with proto := .text b m l, out := s.out ++ a }
  | texted (s m l) : s.proto = .text [] m l → Step J s { s with proto := .say (lenLine m) (.time m l) }
  /- muteproto is killed -/
  | kill (s) : (∀ b, s.proto ≠ .exited b) → Step J s { s with proto := .exited false, faults := s.faults + 1 }
  /- the reading goroutine reads a piece of stdout (msg.go:527-532) -/
  | read (s a b) : s.held = none → s.out = a ++ b → a ≠ [] → a.length ≤ 4096 → Step J s { s with held := some a, out := b }
  /- the collecting goroutine receives it (msg.go:588-590 and 592-594) -/
  | collect (s a) : s.held = some a → s.coll = .select → Step J s { s with held := none, outbuf := s.outbuf ++ a }
  | collectRest (s a n) : s.held = some a → s.coll = .need n → s.outbuf.length < n →
      Step J s { s with held := none, outbuf := s.outbuf ++ a }
  | enough (s n) : s.coll = .need n → n ≤ s.outbuf.length → Step J s { s with coll := .done }
  /- the main goroutine reads a piece of stderr into its buffer -/
  | fill (s a b) : s.main.reads = true → 10 ∉ s.buf → s.stat = a ++ b → a ≠ [] → Step J s { s with buf := s.buf ++ a, stat := b }
  /- the main goroutine meets the end of stderr (msg.go:548-550) -/
  | eof (s b) : s.main.reads = true → 10 ∉ s.buf → s.stat = [] → s.proto = .exited b → Step J s { s with main := .ret none }
  /- the main goroutine has a line -/
  | hearId (s a b) : s.main = .id → s.buf = a ++ 10 :: b → 10 ∉ a → Step J s (onId J { s with buf := b } (hearId a))
  | hearLen (s a b) : s.main = .len → s.buf = a ++ 10 :: b → 10 ∉ a →
      Step J s { s with buf := b, main := match Transfer.hearLen a with | some n => .time n | none => .ret none }
  | hearTime (s a b n) : s.main = .time n → s.buf = a ++ 10 :: b → 10 ∉ a →
      Step J s { s with buf := b, main := match Transfer.hearTime a with | some t => .stop n t | none => .ret none }
  /- the main goroutine changes the database (msg.go:569-572, 578-582 and 632-640), and starts the
  collecting goroutine -/
  | remove (s x) : s.main = .quit x → Step J s { s with main := .finish, ops := s.ops ++ [.removeCache J.my J.c x] }
  | add (s x) : s.main = .add x → Step J s { s with main := .len, coll := .select, ops := s.ops ++ [.addCache J.my J.c x] }
  | store (s t) : s.main = .store t →
      Step J s { s with main := .id, ops := s.ops ++ [.addInQueue J.my J.c t s.outbuf], outbuf := [], new := s.new <|> some t }
  | dbfail (s) : s.main.stores = true → Step J s { s with main := .ret none, faults := s.faults + 1 }
  /- the main goroutine meets the collecting one (msg.go:630-631) -/
  | stop (s n t) : s.main = .stop n t → s.coll = .select → Step J s { s with main := .wait t, coll := .need n }
  | done (s t) : s.main = .wait t → s.coll = .done → Step J s { s with main := .store t, coll := .off }
  /- `cmd.Wait` (msg.go:643-646) -/
  | waited (s b) : s.main = .finish → s.proto = .exited b → Step J s { s with main := .ret (if b then some (s.new.getD 0) else none) }

/-- The executions, with the number of their steps. -/
inductive Run (J : Job) : Nat → State → Prop
  | start : Run J 0 (start J)
  | step (n s s') : Run J n s → Step J s s' → Run J (n + 1) s'

end Verif.Ctrl.Transfer
