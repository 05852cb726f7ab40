/-
The message database (msgdb/): tables and the functions on them.

Strings are byte strings. SQLite itself is modelled by `Verif.Sql`: every statement and every
transaction either takes effect completely or not at all, and errors of the storage layer (disk
full, locked file) are not modelled. Foreign keys are enforced (encdb.go:155-156).
-/
import Verif.Sql

namespace Verif.Msgdb
open Verif.Sql

/-- `identity.Map` (uid/identity/identity.go:36-42); none is an error. -/
structure Ids where
  map : Bytes → Option Bytes

/-- `identity.IsMapped` (identity.go:46-52). -/
def Ids.isMapped (I : Ids) (id : Bytes) : Bool := I.map id == some id

inductive Err
  | notMapped
  | noRows
  | constraint
  | undefined
  | mismatch
  | unknown
  | nilMessageID
  deriving DecidableEq, Repr

/-- A row of `Nyms` (msgdb.go:30-38). -/
structure Nym where
  mapped : Bytes
  unmapped : Bytes
  fullName : Bytes
  upkeepAll : Int
  upkeepAccounts : Int
  deriving DecidableEq, Repr

/-- A row of `Contacts` (msgdb.go:44-54). `blocked` is 0 for the white list, 1 for the gray list
and 2 for the black list. -/
structure Contact where
  myID : Nat
  mapped : Bytes
  unmapped : Bytes
  fullName : Bytes
  blocked : Int
  deriving DecidableEq, Repr

/-- A row of `Accounts` (msgdb.go:55-69). The keys are stored in base64, see `Verif.Util`; the
model keeps them decoded. -/
structure Account where
  myID : Nat
  contactID : Nat
  privkey : Bytes
  server : Bytes
  secret : Bytes
  minDelay : Int
  maxDelay : Int
  loadTime : Int
  lastMsgTime : Int
  deriving DecidableEq, Repr

/-- A row of `Messages` (msgdb.go:78-101), without the unused column `Star`. -/
structure Message where
  self : Nat
  peer : Nat
  outgoing : Bool
  toSend : Bool
  sent : Bool
  from_ : Bytes
  to : Bytes
  date : Int
  subject : Bytes
  message : Bytes
  sign : Bool
  minDelay : Int
  maxDelay : Int
  read : Bool
  deriving DecidableEq, Repr

/-- A row of `OutQueue` (msgdb.go:123-136). -/
structure OutEntry where
  self : Nat
  msgID : Nat
  msg : Bytes
  nymaddress : Bytes
  minDelay : Int
  maxDelay : Int
  envelope : Bool
  resend : Bool
  deriving DecidableEq, Repr

/-- A row of `InQueue` (msgdb.go:137-146). -/
structure InEntry where
  myID : Nat
  contactID : Nat
  date : Int
  msg : Bytes
  envelope : Bool
  deriving DecidableEq, Repr

/-- A row of `MessageIDCache` (msgdb.go:147-154). -/
structure CacheEntry where
  myID : Nat
  contactID : Nat
  messageID : Bytes
  deriving DecidableEq, Repr

/-- The database (msgdb.go:266-287); `Attachments` and `Chunks` are never written. -/
structure Db where
  values : Table (Bytes × Bytes)
  nyms : Table Nym
  contacts : Table Contact
  accounts : Table Account
  messages : Table Message
  outQueue : Table OutEntry
  inQueue : Table InEntry
  cache : Table CacheEntry

/-- `Create` (msgdb.go:266-287), without the version entry. -/
def Db.new : Db := ⟨[], [], [], [], [], [], [], []⟩

/-! ### values -/

/-- `AddValue` (keyvalue.go:14-36; keydb/keyvalue.go:14-36 is the same). -/
def Db.addValue (db : Db) (key value : Bytes) : Except Err Db :=
  if key = [] then .error .undefined
  else if value = [] then .error .undefined
  else if (select (fun r : Bytes × Bytes => r.1 == key) db.values).length = 0 then .ok { db with values := insert db.values (key, value) }
  else .ok { db with values := update (fun r : Bytes × Bytes => r.1 == key) (fun r => (r.1, value)) db.values }

/-- `GetValue` (keyvalue.go:39-53; keydb/keyvalue.go:39-53). -/
def Db.getValue (db : Db) (key : Bytes) : Except Err Bytes :=
  if key = [] then .error .undefined
  else match first (fun r : Bytes × Bytes => r.1 == key) db.values with
    | none => .ok []
    | some r => .ok r.2.2

/-! ### nyms -/

/-- `getNymUIDQuery` (msgdb.go:162). -/
def Db.nymUID (db : Db) (mapped : Bytes) : Option Nat := (first (fun n : Nym => n.mapped == mapped) db.nyms).map Prod.fst

/-- `AddNym` (nyms.go:16-51). Both columns are unique (msgdb.go:33-34). -/
def Db.addNym (I : Ids) (db : Db) (mapped unmapped fullName : Bytes) : Except Err Db :=
  if mapped = [] then .error .undefined
  else if unmapped = [] then .error .undefined
  else if I.isMapped mapped = false then .error .notMapped
  else if I.map unmapped ≠ some mapped then .error .mismatch
  else if (select (fun n : Nym => n.unmapped == unmapped && n.mapped != mapped) db.nyms).length ≠ 0 then .error .constraint
  else if (select (fun n : Nym => n.mapped == mapped) db.nyms).length = 0 then
    .ok { db with nyms := insert db.nyms ⟨mapped, unmapped, fullName, 0, 0⟩ }
  else .ok { db with nyms := update (fun n : Nym => n.mapped == mapped) (fun n => { n with unmapped, fullName }) db.nyms }

/-- `GetNym` (nyms.go:54-71). -/
def Db.getNym (I : Ids) (db : Db) (mapped : Bytes) : Except Err (Bytes × Bytes) :=
  if I.isMapped mapped = false then .error .notMapped
  else match first (fun n : Nym => n.mapped == mapped) db.nyms with
    | none => .ok ([], [])
    | some r => .ok (r.2.unmapped, r.2.fullName)

/-- `fullName <unmappedID>` (nyms.go:91-95, contacts.go:141-145). -/
def display (unmapped fullName : Bytes) : Bytes := if fullName = [] then unmapped else fullName ++ [32, 60] ++ unmapped ++ [62]

/-- `GetNyms` (nyms.go:74-101). -/
def Db.getNyms (db : Db) (mapped : Bool) : List Bytes :=
  db.nyms.map fun r => if mapped then r.2.mapped else display r.2.unmapped r.2.fullName

/-- The rows that go with a nym (`ON DELETE CASCADE`, msgdb.go:53, 68, 99, 134-135, 145, 153). -/
def Db.cascade (db : Db) (u : Nat) : Db :=
  let gone := (select (fun m : Message => m.self == u) db.messages).map Prod.fst
  { db with
    nyms := deleteId u db.nyms
    contacts := delete (fun c : Contact => c.myID == u) db.contacts
    accounts := delete (fun a : Account => a.myID == u) db.accounts
    messages := delete (fun m : Message => m.self == u) db.messages
    outQueue := delete (fun o : OutEntry => o.self == u || gone.contains o.msgID) db.outQueue
    inQueue := delete (fun i : InEntry => i.myID == u) db.inQueue
    cache := delete (fun c : CacheEntry => c.myID == u) db.cache }

/-- A message of another nym with a contact that would be deleted (`FOREIGN KEY(Peer)`,
msgdb.go:100, has no action). -/
def Db.blocksDelete (db : Db) (u : Nat) : Bool :=
  db.messages.any fun r => r.2.self != u && db.contacts.any fun c => c.1 == r.2.peer && c.2.myID == u

/-- `DelNym` (nyms.go:104-119). -/
def Db.delNym (I : Ids) (db : Db) (mapped : Bytes) : Except Err Db :=
  if I.isMapped mapped = false then .error .notMapped
  else match first (fun n : Nym => n.mapped == mapped) db.nyms with
    | none => .error .unknown
    | some (u, n) =>
      if n.unmapped = [] then .error .unknown
      else if db.blocksDelete u then .error .constraint
      else .ok (db.cascade u)

/-- `SetUpkeepAll` (nyms.go:134-142). -/
def Db.setUpkeepAll (I : Ids) (db : Db) (mapped : Bytes) (t : Int) : Except Err Db :=
  if I.isMapped mapped = false then .error .notMapped
  else .ok { db with nyms := update (fun n : Nym => n.mapped == mapped) (fun n => { n with upkeepAll := t }) db.nyms }

/-- `GetUpkeepAll` (nyms.go:122-131). -/
def Db.getUpkeepAll (I : Ids) (db : Db) (mapped : Bytes) : Except Err Int :=
  if I.isMapped mapped = false then .error .notMapped
  else match first (fun n : Nym => n.mapped == mapped) db.nyms with
    | none => .error .noRows
    | some r => .ok r.2.upkeepAll

/-- `SetUpkeepAccounts` (nyms.go:157-165). -/
def Db.setUpkeepAccounts (I : Ids) (db : Db) (mapped : Bytes) (t : Int) : Except Err Db :=
  if I.isMapped mapped = false then .error .notMapped
  else .ok { db with nyms := update (fun n : Nym => n.mapped == mapped) (fun n => { n with upkeepAccounts := t }) db.nyms }

/-- `GetUpkeepAccounts` (nyms.go:145-154). -/
def Db.getUpkeepAccounts (I : Ids) (db : Db) (mapped : Bytes) : Except Err Int :=
  if I.isMapped mapped = false then .error .notMapped
  else match first (fun n : Nym => n.mapped == mapped) db.nyms with
    | none => .error .noRows
    | some r => .ok r.2.upkeepAccounts

/-! ### contacts -/

/-- The condition `MyID=? AND MappedID=?`. -/
def isContact (u : Nat) (mapped : Bytes) (c : Contact) : Bool := c.myID == u && c.mapped == mapped

/-- `getContactUIDQuery` (msgdb.go:167). -/
def Db.contactUID (db : Db) (u : Nat) (mapped : Bytes) : Option Nat := (first (isContact u mapped) db.contacts).map Prod.fst

/-- `getContactMappedQuery` (msgdb.go:166). -/
def Db.contactMapped (db : Db) (u c : Nat) : Option Bytes := (byId c db.contacts).bind fun r => if r.myID == u then some r.mapped else none

/-- `AddContact` (contacts.go:28-72). -/
def Db.addContact (I : Ids) (db : Db) (myID mapped unmapped fullName : Bytes) (type : Int) : Except Err Db :=
  if I.isMapped myID = false then .error .notMapped
  else if I.isMapped mapped = false then .error .notMapped
  else if unmapped = [] then .error .undefined
  else if I.map unmapped ≠ some mapped then .error .mismatch
  else match db.nymUID myID with
    | none => .error .noRows
    | some u =>
      if (select (isContact u mapped) db.contacts).length = 0 then .ok { db with contacts := insert db.contacts ⟨u, mapped, unmapped, fullName, type⟩ }
      else .ok { db with contacts := update (isContact u mapped) (fun c => { c with unmapped, fullName, blocked := type }) db.contacts }

/-- `GetContact` (contacts.go:75-112): unmapped ID, full name and type. -/
def Db.getContact (I : Ids) (db : Db) (myID contactID : Bytes) : Except Err (Bytes × Bytes × Int) :=
  if I.isMapped myID = false then .error .notMapped
  else if I.isMapped contactID = false then .error .notMapped
  else match db.nymUID myID with
    | none => .error .noRows
    | some u =>
      match first (isContact u contactID) db.contacts with
      | none => .ok ([], [], 0)
      | some r =>
        if r.2.blocked = 0 ∨ r.2.blocked = 1 ∨ r.2.blocked = 2 then .ok (r.2.unmapped, r.2.fullName, r.2.blocked)
        else .error .unknown

/-- `GetContacts` (contacts.go:116-151). -/
def Db.getContacts (I : Ids) (db : Db) (myID : Bytes) (blocked : Bool) : Except Err (List Bytes) :=
  if I.isMapped myID = false then .error .notMapped
  else match db.nymUID myID with
    | none => .error .noRows
    | some u =>
      .ok ((select (fun c : Contact => c.myID == u && c.blocked == (if blocked then 2 else 0)) db.contacts).map
        fun r => display r.2.unmapped r.2.fullName)

/-- `RemoveContact` (contacts.go:155-172). -/
def Db.removeContact (I : Ids) (db : Db) (myID contactID : Bytes) : Except Err Db :=
  if I.isMapped myID = false then .error .notMapped
  else if I.isMapped contactID = false then .error .notMapped
  else match db.nymUID myID with
    | none => .error .noRows
    | some u => .ok { db with contacts := update (isContact u contactID) (fun c => { c with blocked := 1 }) db.contacts }

/-! ### accounts -/

/-- The identifiers of a nym and an optional contact, as looked up at the start of the functions on
accounts, the in-queue and the cache (accounts.go:23-43, inqueue.go:18-35, cache.go:15-38). -/
def Db.pair (I : Ids) (db : Db) (myID contactID : Bytes) : Except Err (Nat × Nat) :=
  if I.isMapped myID = false then .error .notMapped
  else if contactID ≠ [] ∧ I.isMapped contactID = false then .error .notMapped
  else match db.nymUID myID with
    | none => .error .noRows
    | some u =>
      if contactID = [] then .ok (u, 0)
      else match db.contactUID u contactID with
        | none => .error .noRows
        | some c => .ok (u, c)

/-- The condition `MyID=? AND ContactID=?` on accounts. -/
def isAccount (u c : Nat) (a : Account) : Bool := a.myID == u && a.contactID == c

/-- `AddAccount` (accounts.go:16-51). -/
def Db.addAccount (I : Ids) (db : Db) (myID contactID privkey server secret : Bytes) (minDelay maxDelay : Int) : Except Err Db :=
  match db.pair I myID contactID with
  | .error e => .error e
  | .ok (u, c) =>
    if (select (isAccount u c) db.accounts).length ≠ 0 then .error .constraint
    else .ok { db with accounts := insert db.accounts ⟨u, c, privkey, server, secret, minDelay, maxDelay, 0, 0⟩ }

/-- `SetAccountTime` (accounts.go:55-85). -/
def Db.setAccountTime (I : Ids) (db : Db) (myID contactID : Bytes) (t : Int) : Except Err Db :=
  match db.pair I myID contactID with
  | .error e => .error e
  | .ok (u, c) => .ok { db with accounts := update (isAccount u c) (fun a => { a with loadTime := t }) db.accounts }

/-- `SetAccountLastMsg` (accounts.go:89-120). -/
def Db.setAccountLastMsg (I : Ids) (db : Db) (myID contactID : Bytes) (t : Int) : Except Err Db :=
  match db.pair I myID contactID with
  | .error e => .error e
  | .ok (u, c) => .ok { db with accounts := update (isAccount u c) (fun a => { a with lastMsgTime := t }) db.accounts }

/-- `GetAccount` and `GetAccountTime` (accounts.go:123-177, 227-258). -/
def Db.getAccount (I : Ids) (db : Db) (myID contactID : Bytes) : Except Err Account :=
  match db.pair I myID contactID with
  | .error e => .error e
  | .ok (u, c) =>
    match first (isAccount u c) db.accounts with
    | none => .error .noRows
    | some r => .ok r.2

/-- The mapped identities of a list of contacts; an unknown one is an error (accounts.go:213-220). -/
def Db.contactNames (db : Db) (u : Nat) : List Nat → Except Err (List Bytes)
  | [] => .ok []
  | c :: cs =>
    match db.contactMapped u c with
    | none => .error .noRows
    | some m =>
      match db.contactNames u cs with
      | .error e => .error e
      | .ok l => .ok (m :: l)

/-- `GetAccounts` (accounts.go:181-223). -/
def Db.getAccounts (I : Ids) (db : Db) (myID : Bytes) : Except Err (List Bytes) :=
  if I.isMapped myID = false then .error .notMapped
  else match db.nymUID myID with
    | none => .error .noRows
    | some u =>
      let ids := (select (fun a : Account => a.myID == u) db.accounts).map fun r => r.2.contactID
      match db.contactNames u (ids.filter (· != 0)) with
      | .error e => .error e
      | .ok l => .ok ((ids.filter (· == 0)).map (fun _ => []) ++ l)

/-! ### messages -/

/-- `strings.SplitN(message, "\n", 2)[0]` (messages.go:60-61, inqueue.go:113-114). -/
def subject (message : Bytes) : Bytes := message.takeWhile (· != 10)

/-- `AddMessage` (messages.go:17-68). -/
def Db.addMessage (I : Ids) (db : Db) (selfID peerID : Bytes) (date : Int) (sent : Bool) (message : Bytes) (sign : Bool) (minDelay maxDelay : Int) : Except Err Db :=
  if I.isMapped selfID = false then .error .notMapped
  else if I.isMapped peerID = false then .error .notMapped
  else match db.nymUID selfID with
    | none => .error .noRows
    | some self =>
      match db.contactUID self peerID with
      | none => .error .noRows
      | some peer =>
        .ok { db with messages := insert db.messages ⟨self, peer, sent, sent, false, if sent then selfID else peerID, if sent then peerID else selfID,
          date, subject message, message, sign, minDelay, maxDelay, false⟩ }

/-- The text shown for a nym in a message (messages.go:98-106, 124-133). -/
def Db.showNym (I : Ids) (db : Db) (id : Bytes) : Except Err Bytes :=
  match db.getNym I id with
  | .error e => .error e
  | .ok (u, f) => .ok (display u f)

/-- The text shown for a contact in a message (messages.go:107-115, 117-123). -/
def Db.showContact (I : Ids) (db : Db) (my id : Bytes) : Except Err Bytes :=
  match db.getContact I my id with
  | .error e => .error e
  | .ok (u, f, _) => .ok (display u f)

structure Shown where
  from_ : Bytes
  to : Bytes
  msg : Bytes
  date : Int
  deriving DecidableEq, Repr

/-- Sender and recipient in the order of the direction (messages.go:97-141). -/
def Db.showMessage (I : Ids) (db : Db) (selfID peerID : Bytes) (m : Message) : Except Err Shown :=
  match db.showNym I selfID, db.showContact I selfID peerID with
  | .ok n, .ok c => .ok ⟨if m.outgoing then n else c, if m.outgoing then c else n, m.message, m.date⟩
  | .error e, _ => .error e
  | _, .error e => .error e

/-- `GetMessage` (messages.go:71-142). -/
def Db.getMessage (I : Ids) (db : Db) (myID : Bytes) (msgNum : Nat) : Except Err Shown :=
  if I.isMapped myID = false then .error .notMapped
  else match byId msgNum db.messages with
    | none => .error .noRows
    | some m =>
      match byId m.self db.nyms with
      | none => .error .noRows
      | some n =>
        if myID ≠ n.mapped then .error .unknown
        else match db.contactMapped m.self m.peer with
          | none => .error .noRows
          | some peerID => db.showMessage I n.mapped peerID m

/-- `ReadMessage` (messages.go:145-150). -/
def Db.readMessage (db : Db) (msgNum : Nat) : Db := { db with messages := updateId msgNum (fun m => { m with read := true }) db.messages }

/-- `DelMessage` (messages.go:153-174); the out-queue follows (msgdb.go:135). -/
def Db.delMessage (I : Ids) (db : Db) (myID : Bytes) (msgNum : Nat) : Except Err Db :=
  if I.isMapped myID = false then .error .notMapped
  else match db.nymUID myID with
    | none => .error .noRows
    | some u =>
      match byId msgNum db.messages with
      | none => .error .unknown
      | some m =>
        if m.self = u then
          .ok { db with messages := deleteId msgNum db.messages, outQueue := delete (fun o : OutEntry => o.msgID == msgNum) db.outQueue }
        else .error .unknown

/-- `GetMsgIDs` (messages.go:189-247), as rows. -/
def Db.getMsgIDs (I : Ids) (db : Db) (myID : Bytes) : Except Err (Table Message) :=
  if I.isMapped myID = false then .error .notMapped
  else match db.nymUID myID with
    | none => .error .noRows
    | some u => .ok (select (fun m : Message => m.self == u) db.messages)

/-- What `GetUndeliveredMessage` returns. -/
structure Undelivered where
  msgNum : Nat
  contactID : Bytes
  msg : Bytes
  sign : Bool
  minDelay : Int
  maxDelay : Int
  deriving DecidableEq, Repr

/-- `GetUndeliveredMessage` (messages.go:251-284); none if there is no such message. -/
def Db.getUndelivered (I : Ids) (db : Db) (myID : Bytes) : Except Err (Option Undelivered) :=
  if I.isMapped myID = false then .error .notMapped
  else match db.nymUID myID with
    | none => .error .noRows
    | some u =>
      match firstAsc (fun m : Message => m.self == u && m.toSend) db.messages with
      | none => .ok none
      | some (i, m) =>
        match db.contactMapped u m.peer with
        | none => .error .noRows
        | some c => .ok (some ⟨i, c, m.message, m.sign, m.minDelay, m.maxDelay⟩)

/-! ### out-queue -/

/-- `AddOutQueue` (outqueue.go:16-48): one transaction. The message must exist (msgdb.go:135). -/
def Db.addOutQueue (I : Ids) (db : Db) (myID : Bytes) (msgID : Nat) (encMsg nymaddress : Bytes) (minDelay maxDelay : Int) : Except Err Db :=
  if I.isMapped myID = false then .error .notMapped
  else match db.nymUID myID with
    | none => .error .noRows
    | some u =>
      match byId msgID db.messages with
      | none => .error .constraint
      | some _ =>
        .ok { db with
          messages := updateId msgID (fun m => { m with toSend := false }) db.messages
          outQueue := insert db.outQueue ⟨u, msgID, encMsg, nymaddress, minDelay, maxDelay, false, false⟩ }

/-- `GetOutQueue` (outqueue.go:52-79); none if there is no entry. -/
def Db.getOutQueue (I : Ids) (db : Db) (myID : Bytes) : Except Err (Option (Nat × OutEntry)) :=
  if I.isMapped myID = false then .error .notMapped
  else match db.nymUID myID with
    | none => .error .noRows
    | some u => .ok (firstAsc (fun o : OutEntry => o.self == u && !o.resend) db.outQueue)

/-- `SetOutQueue` (outqueue.go:83-88). -/
def Db.setOutQueue (db : Db) (oqIdx : Nat) (envMsg : Bytes) : Db :=
  { db with outQueue := updateId oqIdx (fun o => { o with msg := envMsg, envelope := true }) db.outQueue }

/-- `RemoveOutQueue` (outqueue.go:92-120): one transaction. -/
def Db.removeOutQueue (db : Db) (oqIdx : Nat) (date : Int) : Except Err Db :=
  match byId oqIdx db.outQueue with
  | none => .error .noRows
  | some o =>
    .ok { db with
      messages := updateId o.msgID (fun m => { m with date := date, sent := true }) db.messages
      outQueue := deleteId oqIdx db.outQueue }

/-- `RetractOutQueue` (outqueue.go:124-152): one transaction. -/
def Db.retractOutQueue (db : Db) (oqIdx : Nat) : Except Err Db :=
  match byId oqIdx db.outQueue with
  | none => .error .noRows
  | some o =>
    .ok { db with
      messages := updateId o.msgID (fun m => { m with toSend := true }) db.messages
      outQueue := deleteId oqIdx db.outQueue }

/-- `SetResendOutQueue` (outqueue.go:155-160). -/
def Db.setResend (db : Db) (oqIdx : Nat) : Db := { db with outQueue := updateId oqIdx (fun o => { o with resend := true }) db.outQueue }

/-- `ClearResendOutQueue` (outqueue.go:163-175). -/
def Db.clearResend (I : Ids) (db : Db) (myID : Bytes) : Except Err Db :=
  if I.isMapped myID = false then .error .notMapped
  else match db.nymUID myID with
    | none => .error .noRows
    | some u => .ok { db with outQueue := update (fun o : OutEntry => o.self == u && o.resend) (fun o => { o with resend := false }) db.outQueue }

/-! ### in-queue -/

/-- `AddInQueue` (inqueue.go:17-40). -/
def Db.addInQueue (I : Ids) (db : Db) (myID contactID : Bytes) (date : Int) (msg : Bytes) : Except Err Db :=
  match db.pair I myID contactID with
  | .error e => .error e
  | .ok (u, c) => .ok { db with inQueue := insert db.inQueue ⟨u, c, date, msg, true⟩ }

/-- What `GetInQueue` returns. -/
structure InFirst where
  iqIdx : Nat
  myID : Bytes
  contactID : Bytes
  msg : Bytes
  envelope : Bool
  deriving DecidableEq, Repr

/-- `GetInQueue` (inqueue.go:43-73); none if the queue is empty. -/
def Db.getInQueue (db : Db) : Except Err (Option InFirst) :=
  match firstAsc (fun _ : InEntry => true) db.inQueue with
  | none => .ok none
  | some (i, e) =>
    match byId e.myID db.nyms with
    | none => .error .noRows
    | some n =>
      if e.contactID = 0 then .ok (some ⟨i, n.mapped, [], e.msg, e.envelope⟩)
      else match db.contactMapped e.myID e.contactID with
        | none => .error .noRows
        | some c => .ok (some ⟨i, n.mapped, c, e.msg, e.envelope⟩)

/-- `SetInQueue` (inqueue.go:77-82). -/
def Db.setInQueue (db : Db) (iqIdx : Nat) (msg : Bytes) : Db :=
  { db with inQueue := updateId iqIdx (fun e => { e with msg := msg, envelope := false }) db.inQueue }

/-- `RemoveInQueue` (inqueue.go:86-133): one transaction. -/
def Db.removeInQueue (I : Ids) (db : Db) (iqIdx : Nat) (plainMsg fromID : Bytes) (drop : Bool) : Except Err Db :=
  if I.isMapped fromID = false then .error .notMapped
  else match byId iqIdx db.inQueue with
    | none => .error .noRows
    | some e =>
      match db.contactUID e.myID fromID with
      | none => .error .noRows
      | some c =>
        match byId e.myID db.nyms with
        | none => .error .noRows
        | some n =>
          .ok { db with
            messages := if drop then db.messages
              else insert db.messages ⟨e.myID, c, false, false, false, fromID, n.mapped, e.date, subject plainMsg, plainMsg, false, 0, 0, false⟩
            inQueue := deleteId iqIdx db.inQueue }

/-- `DelInQueue` (inqueue.go:136-141). -/
def Db.delInQueue (db : Db) (iqIdx : Nat) : Db := { db with inQueue := deleteId iqIdx db.inQueue }

/-! ### message ID cache -/

/-- The condition `MyID=? AND ContactID=?` on the cache. -/
def isCached (u c : Nat) (e : CacheEntry) : Bool := e.myID == u && e.contactID == c

/-- `AddMessageIDCache` (cache.go:14-45). -/
def Db.addCache (I : Ids) (db : Db) (myID contactID messageID : Bytes) : Except Err Db :=
  if messageID = [] then .error .nilMessageID
  else match db.pair I myID contactID with
    | .error e => .error e
    | .ok (u, c) => .ok { db with cache := insert db.cache ⟨u, c, messageID⟩ }

/-- `GetMessageIDCache` (cache.go:49-93): the keys of the map. -/
def Db.getCache (I : Ids) (db : Db) (myID contactID : Bytes) : Except Err (List Bytes) :=
  match db.pair I myID contactID with
  | .error e => .error e
  | .ok (u, c) => .ok ((select (isCached u c) db.cache).map fun r => r.2.messageID)

/-- `RemoveMessageIDCache` (cache.go:97-136). -/
def Db.removeCache (I : Ids) (db : Db) (myID contactID messageID : Bytes) : Except Err Db :=
  if messageID = [] then .error .nilMessageID
  else match db.pair I myID contactID with
    | .error e => .error e
    | .ok (u, c) =>
      match first (fun e => isCached u c e && e.messageID == messageID) db.cache with
      | none => .error .noRows
      | some (entry, _) => .ok { db with cache := db.cache.filter fun r => !(isCached u c r.2 && decide (r.1 < entry)) }

/-! ### histories -/

/-- The operations that change the database. -/
inductive Op
  | addValue (key value : Bytes)
  | addNym (mapped unmapped fullName : Bytes)
  | delNym (mapped : Bytes)
  | setUpkeepAll (mapped : Bytes) (t : Int)
  | setUpkeepAccounts (mapped : Bytes) (t : Int)
  | addContact (myID mapped unmapped fullName : Bytes) (type : Int)
  | removeContact (myID contactID : Bytes)
  | addAccount (myID contactID privkey server secret : Bytes) (minDelay maxDelay : Int)
  | setAccountTime (myID contactID : Bytes) (t : Int)
  | setAccountLastMsg (myID contactID : Bytes) (t : Int)
  | addMessage (selfID peerID : Bytes) (date : Int) (sent : Bool) (message : Bytes) (sign : Bool) (minDelay maxDelay : Int)
  | readMessage (msgNum : Nat)
  | delMessage (myID : Bytes) (msgNum : Nat)
  | addOutQueue (myID : Bytes) (msgID : Nat) (encMsg nymaddress : Bytes) (minDelay maxDelay : Int)
  | setOutQueue (oqIdx : Nat) (envMsg : Bytes)
  | removeOutQueue (oqIdx : Nat) (date : Int)
  | retractOutQueue (oqIdx : Nat)
  | setResend (oqIdx : Nat)
  | clearResend (myID : Bytes)
  | addInQueue (myID contactID : Bytes) (date : Int) (msg : Bytes)
  | setInQueue (iqIdx : Nat) (msg : Bytes)
  | removeInQueue (iqIdx : Nat) (plainMsg fromID : Bytes) (drop : Bool)
  | delInQueue (iqIdx : Nat)
  | addCache (myID contactID messageID : Bytes)
  | removeCache (myID contactID messageID : Bytes)
  deriving DecidableEq, Repr

/-- One operation. -/
def Db.apply (I : Ids) (db : Db) : Op → Except Err Db
  | .addValue k v => db.addValue k v
  | .addNym m u f => db.addNym I m u f
  | .delNym m => db.delNym I m
  | .setUpkeepAll m t => db.setUpkeepAll I m t
  | .setUpkeepAccounts m t => db.setUpkeepAccounts I m t
  | .addContact my m u f ty => db.addContact I my m u f ty
  | .removeContact my c => db.removeContact I my c
  | .addAccount my c k sv se mi ma => db.addAccount I my c k sv se mi ma
  | .setAccountTime my c t => db.setAccountTime I my c t
  | .setAccountLastMsg my c t => db.setAccountLastMsg I my c t
  | .addMessage s p d b m g mi ma => db.addMessage I s p d b m g mi ma
  | .readMessage n => .ok (db.readMessage n)
  | .delMessage my n => db.delMessage I my n
  | .addOutQueue my i e a mi ma => db.addOutQueue I my i e a mi ma
  | .setOutQueue i m => .ok (db.setOutQueue i m)
  | .removeOutQueue i d => db.removeOutQueue i d
  | .retractOutQueue i => db.retractOutQueue i
  | .setResend i => .ok (db.setResend i)
  | .clearResend my => db.clearResend I my
  | .addInQueue my c d m => db.addInQueue I my c d m
  | .setInQueue i m => .ok (db.setInQueue i m)
  | .removeInQueue i p f d => db.removeInQueue I i p f d
  | .delInQueue i => .ok (db.delInQueue i)
  | .addCache my c m => db.addCache I my c m
  | .removeCache my c m => db.removeCache I my c m

/-- The database after an operation; a failed one has no effect, because it fails before its
first statement or is rolled back. -/
def Db.step (I : Ids) (db : Db) (op : Op) : Db :=
  match db.apply I op with
  | .ok d => d
  | .error _ => db

/-- The database after a history. -/
def Db.run (I : Ids) (db : Db) (ops : List Op) : Db := ops.foldl (Db.step I) db

end Verif.Msgdb
