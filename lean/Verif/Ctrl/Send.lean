/-
Sending messages (ctrlengine/msg.go:106-476): the out-queue of a nym is processed, all undelivered
messages are encrypted and queued, and the out-queue is processed again. Every call of the message
database and every call of another program is one step, so that the engine can stop between any two
of them.
-/
import Verif.Msgdb.Delivery

namespace Verif.Ctrl
open Verif.Sql Verif.Msgdb

/-- What `muteproto deliver` reports (msg.go:235-272, 322-345): the message was handed over, has to
be sent again later, cannot be delivered with this envelope (the error ends with
`client.ErrFinal`), or another error. -/
inductive Outcome
  | accepted | resend | final | failed
  deriving DecidableEq, Repr

/-- What the rest of the world answers in one step.
* `env`: parsing the nym address, getting a token and `muteproto create` (msg.go:296-313);
* `outcome`, `now`: `muteproto deliver` (msg.go:323-326) and the time before it (msg.go:325);
  `failDelivery` (a test option) is the outcome `failed`;
* `address`: `GetAccount` and `NewNymAddress` (msg.go:432-452);
* `enc`: `mutecryptEncrypt` (msg.go:456-457): the ciphertext and the nym address of the recipient. -/
structure Reply where
  env : Option Bytes
  outcome : Outcome
  now : Int
  address : Option Bytes
  enc : Option (Bytes × Bytes)

/-- What the engine did, as far as it concerns the fate of messages. -/
inductive Ev
  /-- A message was given this number. -/
  | added (i : Nat)
  /-- `mutecryptEncrypt` of this text for this recipient, with or without a signature, gave the ciphertext and the nym
  address. -/
  | encrypted (i : Nat) (to text : Bytes) (sign : Bool) (enc na : Bytes)
  /-- `muteproto create` made an envelope from the ciphertext for the nym address, with these delays. -/
  | created (i : Nat) (enc na : Bytes) (min max : Int) (env : Bytes)
  /-- `muteproto deliver`, called at this time, handed the envelope over. -/
  | accepted (i : Nat) (env : Bytes) (now : Int)
  deriving DecidableEq, Repr

/-- The place in `msgSend` and `procOutQueue` (msg.go:274-360, 387-476). The Boolean tells the first
call of `procOutQueue` (msg.go:404) from the second one (msg.go:471). -/
inductive Pc
  /-- `ClearResendOutQueue` (msg.go:399). -/
  | clear
  /-- `GetOutQueue` (msg.go:281). -/
  | get (old : Bool)
  /-- msg.go:292-313 -/
  | create (old : Bool) (i : Nat) (e : OutEntry)
  /-- `SetOutQueue` (msg.go:315) -/
  | store (old : Bool) (i : Nat) (e : OutEntry) (env : Bytes)
  /-- msg.go:325-326 -/
  | deliver (old : Bool) (i : Nat) (e : OutEntry) (msg : Bytes)
  /-- `RetractOutQueue` (msg.go:337) -/
  | retract (old : Bool) (i : Nat)
  /-- `SetResendOutQueue` (msg.go:347) -/
  | resend (old : Bool) (i : Nat)
  /-- `RemoveOutQueue` (msg.go:353) -/
  | remove (old : Bool) (i : Nat) (date : Int)
  /-- `GetUndeliveredMessage` (msg.go:421), with the nym address determined so far. -/
  | undelivered (recv : Bytes)
  /-- msg.go:431-453 -/
  | address (x : Undelivered)
  /-- msg.go:456 -/
  | encrypt (recv : Bytes) (x : Undelivered)
  /-- `AddOutQueue` (msg.go:463) -/
  | add (recv : Bytes) (x : Undelivered) (enc nymaddress : Bytes)
  /-- `msgSend` returned nil. -/
  | done
  /-- `msgSend` returned an error. -/
  | failed
  deriving DecidableEq, Repr

/-- The database, the nym that is processed, the nyms after it (msg.go:397), the place in the code,
the events (the newest first) and the entries of the out-queue whose delivery was attempted in the
current call of `procOutQueue` (the newest first). -/
structure St where
  db : Db
  nym : Bytes
  todo : List Bytes
  pc : Pc
  log : List Ev
  tried : List Nat

/-- The next nym (msg.go:397). -/
def St.next (s : St) : St :=
  match s.todo with
  | [] => { s with pc := .done }
  | n :: t => { s with nym := n, todo := t, pc := .clear }

/-- The end of `procOutQueue` (msg.go:290, 404-407, 471-473). -/
def St.leave (s : St) (old : Bool) : St := if old then { s with pc := .undelivered [] } else s.next

/-- `return err`. -/
def St.fail (s : St) : St := { s with pc := .failed }

/-- msg.go:287-293 -/
def St.got (s : St) (old : Bool) : Option (Nat × OutEntry) → St
  | none => s.leave old
  | some (i, e) =>
    if e.msg = [] then s.leave old
    else if e.envelope then { s with pc := .deliver old i e e.msg }
    else { s with pc := .create old i e }

/-- msg.go:326-357 -/
def St.delivered (s : St) (old : Bool) (i : Nat) (e : OutEntry) (msg : Bytes) (r : Reply) : St :=
  match r.outcome with
  | .accepted => { s with pc := .remove old i (r.now + e.minDelay), log := .accepted e.msgID msg r.now :: s.log, tried := i :: s.tried }
  | .resend => { s with pc := .resend old i, tried := i :: s.tried }
  | .final => { s with pc := .retract old i, tried := i :: s.tried }
  | .failed => { s with pc := .failed, tried := i :: s.tried }

/-- msg.go:426-431, 469-471 -/
def St.picked (s : St) (recv : Bytes) : Option Undelivered → St
  | none => { s with pc := .get false, tried := [] }
  | some x =>
    if x.contactID = [] then { s with pc := .get false, tried := [] }
    else if recv = [] then { s with pc := .address x }
    else { s with pc := .encrypt recv x }

/-- The result of a call of the database. -/
def St.after (s : St) (pc : Pc) : Except Err Db → St
  | .error _ => s.fail
  | .ok d => { s with db := d, pc := pc }

/-- One step of `msgSend` (msg.go:397-475) and `procOutQueue` (msg.go:280-358). -/
def St.step (I : Ids) (r : Reply) (s : St) : St :=
  match s.pc with
  | .clear => { s.after (.get true) (s.db.clearResend I s.nym) with tried := [] }
  | .get old =>
    match s.db.getOutQueue I s.nym with
    | .error _ => s.fail
    | .ok x => s.got old x
  | .create old i e =>
    match r.env with
    | none => s.fail
    | some env => { s with pc := .store old i e env, log := .created e.msgID e.msg e.nymaddress e.minDelay e.maxDelay env :: s.log }
  | .store old i e env => s.after (.deliver old i e env) (.ok (s.db.setOutQueue i env))
  | .deliver old i e msg => s.delivered old i e msg r
  | .retract old i => s.after (.get old) (s.db.retractOutQueue i)
  | .resend old i => s.after (.get old) (.ok (s.db.setResend i))
  | .remove old i date => s.after (.get old) (s.db.removeOutQueue i date)
  | .undelivered recv =>
    match s.db.getUndelivered I s.nym with
    | .error _ => s.fail
    | .ok x => s.picked recv x
  | .address x =>
    match r.address with
    | none => s.fail
    | some a => { s with pc := .encrypt a x }
  | .encrypt recv x =>
    match r.enc with
    | none => s.fail
    | some (enc, na) => { s with pc := .add recv x enc na, log := .encrypted x.msgNum x.contactID x.msg x.sign enc na :: s.log }
  | .add recv x enc na => s.after (.undelivered recv) (s.db.addOutQueue I s.nym x.msgNum enc na x.minDelay x.maxDelay)
  | .done => s
  | .failed => s

/-- The steps under the given answers. -/
def St.steps (I : Ids) (s : St) : List Reply → St
  | [] => s
  | r :: rs => (s.step I r).steps I rs

/-- Calling `msgSend` (msg.go:387-397) for these nyms, in a fresh process or in the same one. -/
def St.start (s : St) (nyms : List Bytes) : St := { s with todo := nyms, pc := .done, tried := [] }.next

/-- No call of `msgSend` is active. -/
def Pc.idle : Pc → Bool
  | .done | .failed => true
  | _ => false

/-- The operations of the database other than those on the out-queue. -/
def userOp : Op → Bool
  | .addOutQueue .. | .setOutQueue .. | .removeOutQueue .. | .retractOutQueue .. | .setResend .. | .clearResend .. => false
  | _ => true

/-- The number a new message was given, if the operation adds one. -/
def addedBy (db : Db) : Op → List Ev
  | .addMessage .. => [.added (nextId db.messages)]
  | .removeInQueue _ _ _ drop => if drop then [] else [.added (nextId db.messages)]
  | _ => []

/-- Any other command of the engine: one operation of the database. -/
def St.user (I : Ids) (s : St) (op : Op) : St :=
  match s.db.apply I op with
  | .error _ => s
  | .ok d => { s with db := d, log := addedBy s.db op ++ s.log }

/-- What can happen: the engine takes a step; it crashes; `msgSend` is called; another command runs
while `msgSend` is not active. -/
inductive Act
  | step (r : Reply)
  | crash
  | start (nyms : List Bytes)
  | user (op : Op)

/-- One thing that happens. -/
def St.act (I : Ids) (s : St) : Act → St
  | .step r => s.step I r
  | .crash => s.fail
  | .start nyms => s.start nyms
  | .user op => if s.pc.idle && userOp op then s.user I op else s

/-- The state at the beginning. -/
def St.new : St := ⟨Db.new, [], [], .done, [], []⟩

/-- A history. -/
def St.run (I : Ids) (s : St) : List Act → St
  | [] => s
  | a :: as => (s.act I a).run I as

end Verif.Ctrl
