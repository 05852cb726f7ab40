/-
The start of `mutectrl`: making the databases and changing their passphrase (ctrlengine/db.go,
cryptengine/db.go), fetching, storing and applying the configuration (ctrlengine/upkeep.go:96-158),
and the preparation of every command (ctrlengine/ctrlengine.go:89-294).

An encrypted database is a value that is locked with a passphrase; the files behind it are the subject
of C52, C53 and C67. Every write to the disk can fail or be the point at which the program is killed.
-/
import Verif.Conf.Init
import Verif.Conf.Update
import Verif.Ctrl.ScannerProps
import Verif.Util.Base64
import Verif.Mix.Addr

namespace Verif.Ctrl.Setup
open Verif.Conf (Config Settings initMute)
open Verif.Ctrl.Scan (Asked askCreate askRekey handOn)

/-- A database: not there, left behind half made, or locked with a passphrase. A half made one can
neither be opened nor be made again (C67). -/
inductive Vault (α : Type)
  | absent
  | broken
  | locked (pass : Bytes) (data : α)

/-- Change what a database contains. -/
def Vault.modify {α : Type} (f : α → α) : Vault α → Vault α
  | .locked p x => .locked p (f x)
  | v => v

/-- What the message database contains for these commands: the configuration (under the net domain),
the time at which it was fetched (in seconds, under "time." and the net domain), and the wallet key in
base64, empty if there is none. The configuration is kept in JSON, which is taken to be faithful. -/
structure Data where
  conf : Option Config
  time : Option Int
  wallet : Bytes

/-- The home directory: both databases and the configuration file for `mutecrypt` and `muteproto`.
What is in the key database is not looked at. -/
structure Disk where
  msgs : Vault Data
  keys : Vault Bytes
  file : Option Config

/-- A running `mutectrl`: the disk, how many more writes succeed, the configuration in memory
(`ce.config`), the settings, and whether a server was contacted. -/
structure St where
  disk : Disk
  budget : Nat
  config : Config
  set : Settings
  online : Bool

inductive Err where
  | read
  | differ
  | exist
  | iter
  | passphrase
  | io
  | fetch
  | init
  | crypt
  | random
  | walletKey
  | offline
  | outdated
  | date
  deriving DecidableEq, Repr

abbrev M (α : Type) := St → St × Res Err α

def ret {α : Type} (a : α) : M α := fun s => (s, .ok a)
def throw {α : Type} (e : Err) : M α := fun s => (s, .err e)

def andThen {α β : Type} (p : M α) (f : α → M β) : M β := fun s =>
  match p s with
  | (t, .ok a) => f a t
  | (t, .err e) => (t, .err e)
  | (t, .panic) => (t, .panic)

instance : Monad M where
  pure := ret
  bind := andThen

/-- A write to the disk. If it fails the disk is unchanged. -/
def emit (f : Disk → Disk) : M Unit := fun s =>
  match s.budget with
  | 0 => (s, .err .io)
  | n + 1 => ({ s with disk := f s.disk, budget := n }, .ok ())

/-! ### the message database -/

/-- `msgdb.Create` (msgdb/msgdb.go, encdb/encdb.go:64-118). -/
def createMsgs (iterOk : Bool) (p : Bytes) : M Unit := fun s =>
  match s.disk.msgs with
  | .absent =>
    if iterOk = false then (s, .err .iter)
    else andThen (emit fun d => { d with msgs := .broken }) (fun _ => emit fun d => { d with msgs := .locked p ⟨none, none, []⟩ }) s
  | _ => (s, .err .exist)

/-- Change the contents, with `AddValue`. -/
def write (f : Data → Data) : M Unit :=
  emit fun d => { d with msgs := d.msgs.modify f }

/-- `msgdb.Rekey` (encdb/encdb.go:181-189): the key file is replaced by a rename. -/
def rekeyMsgs (iterOk : Bool) (o p : Bytes) : M Unit := fun s =>
  match s.disk.msgs with
  | .locked q x =>
    if q ≠ o then (s, .err .passphrase)
    else if iterOk = false then (s, .err .iter)
    else emit (fun d => { d with msgs := .locked p x }) s
  | _ => (s, .err .passphrase)

/-! ### the configuration -/

/-- The `Unmarshal` of a stored configuration into `ce.config` (ctrlengine.go:96): entries of a map that is
already there stay if the new one does not have them; the current server is not stored. -/
def load (c stored : Config) : Config :=
  { stored with
    curServer := c.curServer
    map := match stored.map, c.map with
      | some m, some old => some (m ++ old.filter fun e => (m.lookup e.1).isNone)
      | some m, none => some m
      | none, _ => none }

/-- `InitMute`, applied to the configuration in memory. -/
def applyConfig : M Unit := fun s =>
  match initMute s.set s.config with
  | (g, true) => ({ s with set := g }, .ok ())
  | (g, false) => ({ s with set := g }, .err .init)

/-- `upkeepFetchconf` (upkeep.go:109-158). `pinned` is the built-in public key, `e` what the
configuration servers answer, `now` the time in nanoseconds. The configuration file is replaced by a
rename (upkeep.go:96-107). -/
def fetchconf (P : Conf.Prims) (pinned : Bytes) (e : Conf.Env) (now : Int) : M Unit := do
  let c ← (fun s =>
    match Conf.update P e { s.config with publicKey := pinned } with
    | (c, .ok ()) => ({ s with config := c, online := true }, .ok c)
    | (c, .err _) => ({ s with config := c, online := true }, .err .fetch)
    | (c, .panic) => ({ s with config := c, online := true }, .panic) : M Config)
  write fun x => { x with conf := some c }
  write fun x => { x with time := some (now / 1000000000) }
  applyConfig
  emit fun d => { d with file := some c }

/-- `FetchconfMinDuration` and `FetchconfMaxDuration` (def.go:182-188), in nanoseconds. -/
def minAge : Int := 24 * 3600 * 1000000000
def maxAge : Int := 7 * 24 * 3600 * 1000000000

/-- `getConfig` (ctrlengine.go:89-162) for the data of the opened database. -/
def getConfig (P : Conf.Prims) (pinned : Bytes) (e : Conf.Env) (now : Int) (offline : Bool) (x : Data) : M Unit :=
  match x.conf with
  | none => if offline = true then throw .offline else fetchconf P pinned e now
  | some stored => fun s =>
    let s := { s with config := load s.config stored }
    match applyConfig s with
    | (s, .ok ()) =>
      match x.time with
      | none => (s, .ok ())
      | some t =>
        if minAge < now - t * 1000000000 then
          if offline = true then
            if maxAge < now - t * 1000000000 then (s, .err .offline) else (s, .ok ())
          else fetchconf P pinned e now s
        else (s, .ok ())
    | (s, _) => if offline = true then (s, .err .offline) else fetchconf P pinned e now s

/-! ### wallet keys -/

/-- `printWalletKey` (wallet.go:15-22): the public key in base64. -/
def printWalletKey (k : Bytes) : Res Err Bytes :=
  match Base64.decode k with
  | none => .err .walletKey
  | some pk => if pk.length < 32 then .panic else .ok (Base64.encode (pk.drop 32))

/-- `decodeWalletKey` (ctrlengine.go:1376-1384): shorter keys are filled up with zeros, longer ones cut. -/
def decodeWalletKey (k : Bytes) : Res Err Bytes :=
  match Base64.decode k with
  | none => .err .walletKey
  | some pk => .ok (Mix.fix64 pk)

/-! ### the commands of `mutecrypt` -/

/-- The start of `mutecrypt` (cryptengine.go:53-86): the configuration file must be there and usable.
It is another process with its own settings. -/
def cryptStarts (d : Disk) : Bool :=
  match d.file with
  | none => false
  | some c => (initMute ⟨[], [], [], [], [], [], [], none, none, none, none, []⟩ c).2

/-- `createKeyDB` (db.go:30-76) and `dbCreate` of `mutecrypt` (cryptengine/db.go:19-46). The pipe
delivers what was written to it in pieces. -/
def createKeys (n : Nat) (pipe : Bytes → List Bytes) (iterOk : Bool) (p : Bytes) : M Unit := fun s =>
  if cryptStarts s.disk = false then (s, .err .crypt)
  else match askCreate n (pipe (handOn [p, p])) .eof with
    | some (.got q) =>
      match s.disk.keys with
      | .absent =>
        if iterOk = false then (s, .err .crypt)
        else andThen (emit fun d => { d with keys := .broken }) (fun _ => emit fun d => { d with keys := .locked q [] }) s
      | _ => (s, .err .crypt)
    | _ => (s, .err .crypt)

/-- `rekeyKeyDB` (db.go:174-212) and `dbRekey` of `mutecrypt` (cryptengine/db.go:49-87). -/
def rekeyKeys (n : Nat) (pipe : Bytes → List Bytes) (iterOk : Bool) (o p : Bytes) : M Unit := fun s =>
  if cryptStarts s.disk = false then (s, .err .crypt)
  else match askRekey n (pipe (handOn [o, p, p])) .eof with
    | some (.got (o', p')) =>
      match s.disk.keys with
      | .locked q x =>
        if q ≠ o' then (s, .err .crypt)
        else if iterOk = false then (s, .err .crypt)
        else emit (fun d => { d with keys := .locked p' x }) s
      | _ => (s, .err .crypt)
    | _ => (s, .err .crypt)

/-! ### the commands -/

/-- What `db create` gets: the passphrase input in pieces, the option `--walletkey` (empty if it is not
given), the private key that is generated otherwise, and whether the number of iterations is allowed.
`n` bounds the number of reads. -/
structure CreateArgs where
  n : Nat
  input : List Bytes
  pipe : Bytes → List Bytes
  iterOk : Bool
  walletKey : Bytes
  fresh : Option Bytes

/-- The wallet key (db.go:155-164). -/
def chooseKey (a : CreateArgs) : M Bytes :=
  if a.walletKey = [] then
    match a.fresh with
    | none => throw .random
    | some k => ret (Base64.encode k)
  else ret a.walletKey

/-- `dbCreate` (db.go:79-171): the public key it prints. -/
def dbCreate (P : Conf.Prims) (pinned : Bytes) (e : Conf.Env) (now : Int) (a : CreateArgs) : M Bytes :=
  match askCreate a.n a.input .eof with
  | some (.got p) => do
    createMsgs a.iterOk p
    fetchconf P pinned e now
    createKeys a.n a.pipe a.iterOk p
    let k ← chooseKey a
    write fun x => { x with wallet := k }
    fun s => (s, printWalletKey k)
  | some .differ => throw .differ
  | _ => throw .read

/-- What `db rekey` gets. -/
structure RekeyArgs where
  n : Nat
  input : List Bytes
  pipe : Bytes → List Bytes
  iterOk : Bool

/-- `dbRekey` (db.go:215-293). -/
def dbRekey (a : RekeyArgs) : M Unit :=
  match askRekey a.n a.input .eof with
  | some (.got (o, p)) => do
    rekeyMsgs a.iterOk o p
    rekeyKeys a.n a.pipe a.iterOk o p
  | some .differ => throw .differ
  | _ => throw .read

/-! ### updates of the software -/

/-- The commit and the date of a release, in seconds. -/
structure Build where
  commit : Bytes
  date : Bytes
  deriving DecidableEq, Repr

def keyCommit : Bytes := "release.Commit".toUTF8.data.toList
def keyDate : Bytes := "release.Date".toUTF8.data.toList

/-- The release named in a configuration; missing entries are empty. -/
def released (c : Config) : Build :=
  ⟨((c.map.getD []).lookup keyCommit).getD [], ((c.map.getD []).lookup keyDate).getD []⟩

/-- `UpdateDuration` (def.go:190), in seconds. -/
def updateAge : Int := 14 * 24 * 3600

/-- What `checkUpdates` does. -/
inductive Check
  | silent
  | inform
  deriving DecidableEq, Repr

/-- `checkUpdates` (ctrlengine.go:164-204). `parse` is `time.Parse` with the date format of git. -/
def checkUpdates (parse : Bytes → Option Int) (bin : Build) (c : Config) : Res Err Check :=
  if bin.commit = (released c).commit then .ok .silent
  else match parse (released c).date with
    | none => .err .date
    | some r =>
      match parse bin.date with
      | none => .err .date
      | some b =>
        if ¬ b < r then .ok .silent
        else if b + updateAge < r then .err .outdated
        else .ok .inform

/-- What `upkeep update` does after fetching the configuration. -/
inductive Update
  | upToDate
  | developer
  | build (commit : Bytes)
  deriving DecidableEq, Repr

/-- `upkeepUpdate` (upkeep.go:250-318) after the fetch, up to the call of `updateMuteFromSource`. -/
def decideUpdate (parse : Bytes → Option Int) (bin : Build) (c : Config) : Res Err Update :=
  if bin.commit = (released c).commit then .ok .upToDate
  else match parse (released c).date with
    | none => .err .date
    | some r =>
      match parse bin.date with
      | none => .err .date
      | some b => if r < b then .ok .developer else .ok (.build (released c).commit)

/-! ### the preparation of a command -/

/-- `startWallet` (ctrlengine.go:206-230): the private key in use. Online, the verification keys are
fetched (the answer is not modelled). -/
def startWallet (offline : Bool) (x : Data) : M Bytes := fun s =>
  match decodeWalletKey x.wallet with
  | .ok k => ({ s with online := s.online || !offline }, .ok k)
  | .err e => (s, .err e)
  | .panic => (s, .panic)

/-- `openMsgDB` (ctrlengine.go:1386-1411). -/
def openMsgs (pass : Bytes) : M Data := fun s =>
  match s.disk.msgs with
  | .locked q x => if q = pass then (s, .ok x) else (s, .err .passphrase)
  | _ => (s, .err .passphrase)

/-- The contents of the opened database. -/
def opened : M Data := fun s =>
  match s.disk.msgs with
  | .locked _ x => (s, .ok x)
  | _ => (s, .err .io)

/-- The check for updates, if it is asked for (ctrlengine.go:278-283). -/
def gate (parse : Bytes → Option Int) (bin : Build) (check : Bool) : M Unit := fun s =>
  if check = true then
    match checkUpdates parse bin s.config with
    | .ok _ => (s, .ok ())
    | .err e => (s, .err e)
    | .panic => (s, .panic)
  else (s, .ok ())

/-- The start of the wallet (ctrlengine.go:285-290). -/
def finish (offline : Bool) : M Bytes := do
  let x ← opened
  startWallet offline x

/-- `prepare` with an open database (ctrlengine.go:260-294): the wallet key. `check` is false only for
`upkeep update`. -/
def prepare (P : Conf.Prims) (pinned : Bytes) (e : Conf.Env) (now : Int) (parse : Bytes → Option Int) (bin : Build)
    (pass : Bytes) (offline check : Bool) : M Bytes := do
  let x ← openMsgs pass
  getConfig P pinned e now offline x
  gate parse bin check
  finish offline

/-- `upkeep fetchconf` (ctrlengine.go:1199-1211). The second environment and time are those of its own
fetch. -/
def upkeepFetch (P : Conf.Prims) (pinned : Bytes) (e : Conf.Env) (now : Int) (parse : Bytes → Option Int) (bin : Build)
    (pass : Bytes) (offline : Bool) (e' : Conf.Env) (now' : Int) : M Unit := do
  let _ ← prepare P pinned e now parse bin pass offline true
  fetchconf P pinned e' now'

/-- `upkeep update` (ctrlengine.go:1226-1245, upkeep.go:250-318) up to the call of `updateMuteFromSource`. -/
def upkeepUpdate (P : Conf.Prims) (pinned : Bytes) (e : Conf.Env) (now : Int) (parse : Bytes → Option Int) (bin : Build)
    (pass : Bytes) (offline : Bool) (e' : Conf.Env) (now' : Int) : M Update := do
  let _ ← prepare P pinned e now parse bin pass offline false
  fetchconf P pinned e' now'
  fun s => (s, decideUpdate parse bin s.config)

/-! ### the command loop -/

def optHome : Bytes := "--homedir".toUTF8.data.toList
def optLogdir : Bytes := "--logdir".toUTF8.data.toList
def optLevel : Bytes := "--loglevel".toUTF8.data.toList
def optOffline : Bytes := "--offline".toUTF8.data.toList

/-- The arguments for a command in interactive mode (ctrlengine.go:345-359), `words` being the line. -/
def loopArgs (name homedir logdir level : Bytes) (words : List Bytes) : List Bytes :=
  [name, optHome, homedir, optLogdir, logdir, optLevel, level] ++ words

end Verif.Ctrl.Setup
