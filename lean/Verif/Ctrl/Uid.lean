/-
The commands about user IDs (ctrlengine/uid.go): `uid new`, `uid edit`, `uid switch`, `uid active`
and `uid delete`.

What they talk to is an environment with any behaviour: the wallet, the account servers, the key
server and the process `mutecrypt`, which gets commands over a pipe and answers with lines on its
standard error. Opening pipes and writing the passphrase is part of starting the process. A token
stands for its hash, too.
-/
import Verif.Ctrl.Fetch

namespace Verif.Ctrl.Uid
open Verif.Sql Verif.Msgdb

/-- The commands for `mutecrypt`. -/
inductive Cmd
  | generate (id : Bytes)
  | caps (domain : Bytes)
  | register (id token : Bytes)
  | delete (id : Bytes)
  | keyinit (id mixaddress nymaddress token : Bytes)
  | quit
  deriving DecidableEq, Repr

/-- What a scan of the standard error of `mutecrypt` yields: a line, the end of the stream, a read
error, or nothing for ever. -/
inductive Line
  | text (t : Bytes)
  | eof
  | fail
  | block
  deriving DecidableEq, Repr

/-- What a token is for. -/
inductive Usage
  | account
  | uid
  | message
  deriving DecidableEq, Repr

/-- The world around the control engine. -/
structure Env (σ : Type) where
  /-- The domain of a mapped identity. -/
  domain : Bytes → Bytes
  /-- `upkeepHashchain` for a domain. -/
  sync : σ → Bytes → σ × Bool
  /-- `mutecryptHashchainSearch` (uid.go:256-292): whether it found the identity. -/
  search : σ → Bytes → σ × Bool
  /-- `wallet.GetToken` for a usage and, except for accounts, an owner. -/
  token : σ → Usage → Bytes → σ × Option Bytes
  /-- `ed25519.GenerateKey`. -/
  key : σ → σ × Option Bytes
  /-- 64 random bytes. -/
  secret : σ → σ × Option Bytes
  /-- `mixclient.DefaultAccountServer`. -/
  default : Bytes
  /-- `LoadAccount` on a server with an account key and a token: the server of the account. -/
  load : σ → Bytes → Bytes → Bytes → σ × Option Bytes
  /-- `util.NewNymAddress` for a domain, a secret, an identity, the key of the account and its server: mix address
  and nym address. -/
  address : σ → Bytes → Bytes → Bytes → Bytes → Bytes → σ × Option (Bytes × Bytes)
  /-- Start `mutecrypt` with pipes. -/
  start : σ → σ × Bool
  /-- Write a command. -/
  send : σ → Cmd → σ × Bool
  /-- Scan for a line. -/
  line : σ → σ × Line
  /-- The capabilities on the standard output: the key of the token owner. -/
  owner : σ → σ × Option Bytes
  /-- Wait for the end of the process: whether it exited normally. -/
  wait : σ → σ × Bool
  /-- `UnlockToken`, -/
  unlock : σ → Bytes → σ
  /-- `DelToken`. -/
  del : σ → Bytes → σ
  /-- `mutecryptDeleteUID` (uid.go:450-474). -/
  deleteKey : σ → Bytes → σ × Bool
  /-- `mixclient.DeleteAccount` with an account key and a server. -/
  deleteAccount : σ → Bytes → Bytes → σ × Bool

inductive UErr
  | db (e : Err)
  | identity
  | sync
  | owned
  | taken
  | wallet
  | random
  | pay
  | address
  | pipe
  | caps
  | crypt (line : Bytes)
  | wait
  | unknown
  | aborted
  | deleteKey
  | deleteAccount
  | noActive
  deriving DecidableEq, Repr

/-- What happens to tokens and between the processes. -/
inductive Ev
  | took (u : Usage) (token : Bytes)
  | paid (server key token : Bytes)
  | refused (server key token : Bytes)
  | freed (token : Bytes)
  | gone (token : Bytes)
  | sent (c : Cmd)
  | said (l : Line)
  | closed (key server : Bytes) (done : Bool)
  deriving DecidableEq, Repr

/-- The environment, the database and what happened so far. -/
structure St (σ : Type) where
  w : σ
  db : Db
  log : List Ev

/-- How a command ends: with a result, with an error, or not at all. -/
inductive R (α : Type)
  | ok (a : α)
  | err (e : UErr)
  | hang
  deriving DecidableEq, Repr

variable {σ α β : Type}

abbrev M (σ α : Type) := St σ → St σ × R α

def ret (a : α) : M σ α := fun s => (s, .ok a)

def throw (e : UErr) : M σ α := fun s => (s, .err e)

/-- Go on unless there was an error. -/
def andThen (m : M σ α) (k : α → M σ β) : M σ β := fun s =>
  match m s with
  | (s', .ok a) => k a s'
  | (s', .err e) => (s', .err e)
  | (s', .hang) => (s', .hang)

instance : Monad (M σ) where
  pure := ret
  bind := andThen

/-- A call that can fail with the error `e`. -/
def call (e : UErr) (f : σ → σ × Option α) : M σ α := fun s =>
  match f s.w with
  | (w, none) => ({ s with w }, .err e)
  | (w, some a) => ({ s with w }, .ok a)

/-- A call that yields a value. -/
def ask (f : σ → σ × α) : M σ α := fun s => ({ s with w := (f s.w).1 }, .ok (f s.w).2)

/-- A call that succeeds or fails with the error `e`. -/
def check (e : UErr) (f : σ → σ × Bool) : M σ Unit := fun s =>
  match f s.w with
  | (w, true) => ({ s with w }, .ok ())
  | (w, false) => ({ s with w }, .err e)

/-- A read of the database. -/
def read (f : Db → Except Err α) : M σ α := fun s =>
  match f s.db with
  | .error e => (s, .err (.db e))
  | .ok a => (s, .ok a)

/-- A write to the database. -/
def write (f : Db → Except Err Db) : M σ Unit := fun s =>
  match f s.db with
  | .error e => (s, .err (.db e))
  | .ok db => ({ s with db }, .ok ())

def note (e : Ev) : M σ Unit := fun s => ({ s with log := s.log ++ [e] }, .ok ())

/-- Take a token from the wallet. -/
def takeToken (E : Env σ) (u : Usage) (owner : Bytes) : M σ Bytes := do
  let t ← call .wallet fun w => E.token w u owner
  note (.took u t)
  ret t

def unlock (E : Env σ) (t : Bytes) : M σ Unit := fun s => ({ s with w := E.unlock s.w t, log := s.log ++ [.freed t] }, .ok ())

def del (E : Env σ) (t : Bytes) : M σ Unit := fun s => ({ s with w := E.del s.w t, log := s.log ++ [.gone t] }, .ok ())

/-- Write a command to `mutecrypt`: whether that worked. -/
def trySend (E : Env σ) (c : Cmd) : M σ Bool := do
  let ok ← ask fun w => E.send w c
  note (.sent c)
  ret ok

def send (E : Env σ) (c : Cmd) : M σ Unit := do
  let ok ← trySend E c
  if ok then ret () else throw .pipe

/-- Scan for a line. -/
def scan (E : Env σ) : M σ Line := do
  let l ← ask E.line
  note (.said l)
  ret l

/-- The line that `mutecrypt` writes after each command (cryptengine.go:146): "READY." -/
def ready : Bytes := [82, 69, 65, 68, 89, 46]

/-- The line that `mutecrypt` writes when it quits (cryptengine.go:135): "QUITTING" -/
def quitting : Bytes := [81, 85, 73, 84, 84, 73, 78, 71]

/-- A loop that looks at one line only (e.g. uid.go:105-114): the end of the stream is no error. -/
def expect (E : Env σ) (want : Bytes) : M σ Unit := do
  let l ← scan E
  match l with
  | .text t => if t = want then ret () else throw (.crypt t)
  | .eof => ret ()
  | .fail => throw .pipe
  | .block => fun s => (s, .hang)

/-- What the loop after `uid register` found. -/
inductive Loop
  | fine
  | bad (line : Bytes)
  | broken
  deriving DecidableEq, Repr

/-- The loop after `uid register` (uid.go:172-184), for at most `n` lines: the last line before
"READY.", if there is one. -/
def untilReady (E : Env σ) : Nat → Loop → M σ Loop
  | 0, _ => fun s => (s, .hang)
  | n + 1, err => do
    let l ← scan E
    match l with
    | .text t => if t = ready then ret err else untilReady E n (.bad t)
    | .eof => ret err
    | .fail => ret .broken
    | .block => fun s => (s, .hang)

/-- Start `mutecrypt`, generate the identity and get the owner of tokens (uid.go:61-155). -/
def prepare (E : Env σ) (id : Bytes) : M σ Bytes := do
  check .pipe E.start
  send E (.generate id)
  expect E ready
  send E (.caps (E.domain id))
  expect E ready
  call .caps E.owner

/-- Register the identity (uid.go:156-207), with at most `n` lines of output: the error, if there
is one. -/
def register (E : Env σ) (n : Nat) (id owner : Bytes) : M σ (Option Bytes) := do
  let t ← takeToken E .uid owner
  let ok ← trySend E (.register id t)
  if !ok then
    unlock E t
    throw .pipe
  else
    match ← untilReady E n .fine with
    | .broken =>
      unlock E t
      throw .pipe
    | .bad l =>
      unlock E t
      send E (.delete id)
      expect E ready
      ret (some l)
    | .fine =>
      del E t
      ret none

/-- Add the key init message (uid.go:209-240). A line that is an error returns without giving the
token back. -/
def addKeyInit (E : Env σ) (id mixaddress nymaddress owner : Bytes) : M σ Unit := do
  let t ← takeToken E .message owner
  let ok ← trySend E (.keyinit id mixaddress nymaddress t)
  if !ok then
    unlock E t
    throw .pipe
  else
    match ← scan E with
    | .text l => if l = ready then del E t else throw (.crypt l)
    | .eof => del E t
    | .fail =>
      unlock E t
      throw .pipe
    | .block => fun s => (s, .hang)

/-- `mutecryptNewUID` (uid.go:46-254). -/
def newCrypt (E : Env σ) (n : Nat) (id mixaddress nymaddress : Bytes) : M σ Unit := do
  let owner ← prepare E id
  let err ← register E n id owner
  addKeyInit E id mixaddress nymaddress owner
  send E .quit
  expect E quitting
  check .wait E.wait
  match err with
  | some l => throw (.crypt l)
  | none => ret ()

/-- Get a paid account (uid.go:340-359): its key and its server. -/
def newAccount (E : Env σ) : M σ (Bytes × Bytes) := do
  let t ← takeToken E .account []
  let key ← call .random E.key
  match ← ask fun w => E.load w E.default key t with
  | none =>
    note (.refused E.default key t)
    unlock E t
    throw .pay
  | some server =>
    note (.paid E.default key t)
    del E t
    ret (key, server)

/-- `msgdb.ActiveUID` (msgdb/keyvalue.go): "ActiveUID". -/
def activeKey : Bytes := [65, 99, 116, 105, 118, 101, 85, 73, 68]

/-- `uidNew` (uid.go:294-407). A mapped identity is never the word "keyserver", so that the hash chain is
always synchronised. `n` bounds the lines of output of the registration. -/
def uidNew (E : Env σ) (I : Ids) (n : Nat) (unmapped fullName : Bytes) (minDelay maxDelay : Int) : M σ Unit :=
  match I.map unmapped with
  | none => throw .identity
  | some id => do
    check .sync fun w => E.sync w (E.domain id)
    let (known, _) ← read fun db => db.getNym I id
    if known ≠ [] then throw .owned
    else do
      let found ← ask fun w => E.search w id
      if found then throw .taken
      else do
        let (key, server) ← newAccount E
        let secret ← call .random E.secret
        let (mixaddress, nymaddress) ← call .address fun w => E.address w (E.domain id) secret id key server
        newCrypt E n id mixaddress nymaddress
        write fun db => db.addNym I id unmapped fullName
        write fun db => db.addAccount I id [] key server secret minDelay maxDelay
        let active ← read fun db => db.getValue activeKey
        if active = [] then write fun db => db.addValue activeKey unmapped else ret ()

/-- `uidEdit` (uid.go:409-422). -/
def uidEdit (I : Ids) (unmapped fullName : Bytes) : M σ Unit :=
  match I.map unmapped with
  | none => throw .identity
  | some id => do
    let (old, _) ← read fun db => db.getNym I id
    if old = [] then throw .unknown else write fun db => db.addNym I id unmapped fullName

/-- `uidActive` (uid.go:424-439): what is written. -/
def uidActive : M σ Bytes := do
  let a ← read fun db => db.getValue activeKey
  if a = [] then throw .noActive else ret a

/-- `uidSwitch` (uid.go:441-454). -/
def uidSwitch (I : Ids) (unmapped : Bytes) : M σ Unit :=
  match I.map unmapped with
  | none => throw .identity
  | some id => do
    let (old, _) ← read fun db => db.getNym I id
    if old = [] then throw .unknown else write fun db => db.addValue activeKey id

/-- The account keys and servers of a list of contacts (uid.go:512-521). -/
def keysOf (I : Ids) (my : Bytes) (db : Db) : List Bytes → Except Err (List (Bytes × Bytes))
  | [] => .ok []
  | c :: l =>
    match db.getAccount I my c with
    | .error e => .error e
    | .ok a =>
      match keysOf I my db l with
      | .error e => .error e
      | .ok r => .ok ((a.privkey, a.server) :: r)

/-- Delete accounts on their servers (uid.go:535-540). -/
def closeAll (E : Env σ) : List (Bytes × Bytes) → M σ Unit
  | [] => ret ()
  | (k, v) :: l => do
    let ok ← ask fun w => E.deleteAccount w k v
    note (.closed k v ok)
    if ok then closeAll E l else throw .deleteAccount

/-- `uidDelete` (uid.go:476-543). `yes` is the option `--force` or the answer of the user. -/
def uidDelete (E : Env σ) (I : Ids) (unmapped : Bytes) (yes : Bool) : M σ Unit :=
  match I.map unmapped with
  | none => throw .identity
  | some id => do
    let (old, _) ← read fun db => db.getNym I id
    if old = [] then throw .unknown
    else if yes = false then throw .aborted
    else do
      let contacts ← read fun db => db.getAccounts I id
      let keys ← read fun db => keysOf I id db contacts
      write fun db => db.delNym I id
      check .deleteKey fun w => E.deleteKey w id
      closeAll E keys

end Verif.Ctrl.Uid
