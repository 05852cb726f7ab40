/-
C139: the programs call each other through command lines. The command lines that `mutectrl` makes for `mutecrypt` and `muteproto`
(ctrlengine/contact.go, db.go, msg.go, uid.go, upkeep.go), how these programs take them apart (cryptengine/cryptengine.go:155-846,
protoengine/protoengine.go:72-198, util/descriptors/descriptors.go) and what they then do.

`App.Run`, `App.RunAsSubcommand` and `Command.Run` are those of github.com/urfave/cli v1.20.0, which is not part of the repository. Values are any
bytes (an argument of a process cannot contain a zero byte). Giving both forms of an option (`-h --help`) counts as a request for help.
-/
import Verif.Ctrl.Delay
import Verif.Ctrl.AddContact

set_option autoImplicit false

namespace Verif.Ctrl.Calls
open Verif.Flags
open Verif.Ctrl.Transfer (decInt)
open Verif.Ctrl.Delay (intFlag toI32)

def tHelp : Bytes := "help".toUTF8.data.toList
def tH : Bytes := "h".toUTF8.data.toList
def tVersion : Bytes := "version".toUTF8.data.toList
def tV : Bytes := "v".toUTF8.data.toList
def tHomedir : Bytes := "homedir".toUTF8.data.toList
def tLoglevel : Bytes := "loglevel".toUTF8.data.toList
def tLogdir : Bytes := "logdir".toUTF8.data.toList
def tLogconsole : Bytes := "logconsole".toUTF8.data.toList
def tKeyserver : Bytes := "keyserver".toUTF8.data.toList
def tKeyhost : Bytes := "keyhost".toUTF8.data.toList
def tKeyport : Bytes := "keyport".toUTF8.data.toList
def tAcchost : Bytes := "acchost".toUTF8.data.toList
def tInputFd : Bytes := "input-fd".toUTF8.data.toList
def tOutputFd : Bytes := "output-fd".toUTF8.data.toList
def tStatusFd : Bytes := "status-fd".toUTF8.data.toList
def tPassphraseFd : Bytes := "passphrase-fd".toUTF8.data.toList
def tCommandFd : Bytes := "command-fd".toUTF8.data.toList
def tStdin : Bytes := "stdin".toUTF8.data.toList
def tStdout : Bytes := "stdout".toUTF8.data.toList
def tStderr : Bytes := "stderr".toUTF8.data.toList
def tPort : Bytes := ":8080".toUTF8.data.toList
def tInfo : Bytes := "info".toUTF8.data.toList
def tDb : Bytes := "db".toUTF8.data.toList
def tCreate : Bytes := "create".toUTF8.data.toList
def tRekey : Bytes := "rekey".toUTF8.data.toList
def tVacuum : Bytes := "vacuum".toUTF8.data.toList
def tStatus : Bytes := "status".toUTF8.data.toList
def tIncremental : Bytes := "incremental".toUTF8.data.toList
def tIterations : Bytes := "iterations".toUTF8.data.toList
def tAutoVacuum : Bytes := "auto-vacuum".toUTF8.data.toList
def tPages : Bytes := "pages".toUTF8.data.toList
def tCaps : Bytes := "caps".toUTF8.data.toList
def tGet : Bytes := "get".toUTF8.data.toList
def tShow : Bytes := "show".toUTF8.data.toList
def tDomain : Bytes := "domain".toUTF8.data.toList
def tHost : Bytes := "host".toUTF8.data.toList
def tUid : Bytes := "uid".toUTF8.data.toList
def tGenerate : Bytes := "generate".toUTF8.data.toList
def tRegister : Bytes := "register".toUTF8.data.toList
def tGenupdate : Bytes := "genupdate".toUTF8.data.toList
def tUpdate : Bytes := "update".toUTF8.data.toList
def tDelete : Bytes := "delete".toUTF8.data.toList
def tList : Bytes := "list".toUTF8.data.toList
def tId : Bytes := "id".toUTF8.data.toList
def tToken : Bytes := "token".toUTF8.data.toList
def tForce : Bytes := "force".toUTF8.data.toList
def tKeyinit : Bytes := "keyinit".toUTF8.data.toList
def tAdd : Bytes := "add".toUTF8.data.toList
def tFetch : Bytes := "fetch".toUTF8.data.toList
def tFlush : Bytes := "flush".toUTF8.data.toList
def tMixaddress : Bytes := "mixaddress".toUTF8.data.toList
def tNymaddress : Bytes := "nymaddress".toUTF8.data.toList
def tHashchain : Bytes := "hashchain".toUTF8.data.toList
def tSync : Bytes := "sync".toUTF8.data.toList
def tValidate : Bytes := "validate".toUTF8.data.toList
def tSearch : Bytes := "search".toUTF8.data.toList
def tLookup : Bytes := "lookup".toUTF8.data.toList
def tSearchOnly : Bytes := "search-only".toUTF8.data.toList
def tEncrypt : Bytes := "encrypt".toUTF8.data.toList
def tDecrypt : Bytes := "decrypt".toUTF8.data.toList
def tFrom : Bytes := "from".toUTF8.data.toList
def tTo : Bytes := "to".toUTF8.data.toList
def tSign : Bytes := "sign".toUTF8.data.toList
def tQuit : Bytes := "quit".toUTF8.data.toList
def tMindelay : Bytes := "mindelay".toUTF8.data.toList
def tMaxdelay : Bytes := "maxdelay".toUTF8.data.toList
def tDeliver : Bytes := "deliver".toUTF8.data.toList
def tServer : Bytes := "server".toUTF8.data.toList
def tLast : Bytes := "last-message-time".toUTF8.data.toList

/-! ### the command line interface of a program -/

/-- `StringFlag`, `BoolFlag` and `IntFlag`. -/
inductive Opt
  | str
  | bool
  | int
  deriving DecidableEq, Repr

/-- How the option is written: an `IntFlag` takes a value like a `StringFlag`. -/
def Opt.kind : Opt → Kind
  | .bool => .bool
  | _ => .str

/-- A command: its options and those that must be set. Every command refuses arguments that are no options. -/
structure Command where
  opts : List (Bytes × Opt)
  must : List Bytes
  deriving DecidableEq, Repr

/-- A program: its global options and its commands, of one word or two. -/
structure Program where
  global : List (Bytes × Opt)
  commands : List (List Bytes × Command)

/-- The options for file descriptors (util/descriptors/descriptors.go:16-47). -/
def fdOpts : List (Bytes × Opt) := [(tInputFd, .str), (tOutputFd, .str), (tStatusFd, .str), (tPassphraseFd, .str), (tCommandFd, .str)]

/-- `mutecrypt` (cryptengine.go:161-191, 202-846). `db status` and `db incremental`, and the option of `db vacuum`, are commented out
(cryptengine.go:256-273, 278-285, 298-321). -/
def mutecrypt : Program where
  global := [(tHomedir, .str), (tKeyserver, .bool), (tKeyhost, .str), (tKeyport, .str)] ++ fdOpts ++
    [(tLoglevel, .str), (tLogdir, .str), (tLogconsole, .bool)]
  commands := [
    ([tDb, tCreate], ⟨[(tIterations, .int)], []⟩),
    ([tDb, tRekey], ⟨[(tIterations, .int)], []⟩),
    ([tDb, tVacuum], ⟨[], []⟩),
    ([tDb, tVersion], ⟨[], []⟩),
    ([tCaps, tGet], ⟨[(tDomain, .str), (tHost, .str)], [tDomain]⟩),
    ([tCaps, tShow], ⟨[(tDomain, .str), (tHost, .str)], [tDomain]⟩),
    ([tUid, tGenerate], ⟨[(tId, .str)], [tId]⟩),
    ([tUid, tRegister], ⟨[(tId, .str), (tToken, .str)], [tId, tToken]⟩),
    ([tUid, tGenupdate], ⟨[(tId, .str)], [tId]⟩),
    ([tUid, tUpdate], ⟨[(tId, .str), (tToken, .str)], [tId, tToken]⟩),
    ([tUid, tDelete], ⟨[(tId, .str), (tForce, .bool)], [tId]⟩),
    ([tUid, tList], ⟨[], []⟩),
    ([tKeyinit, tAdd], ⟨[(tId, .str), (tMixaddress, .str), (tNymaddress, .str), (tToken, .str)], [tId, tMixaddress, tNymaddress, tToken]⟩),
    ([tKeyinit, tFetch], ⟨[(tId, .str)], [tId]⟩),
    ([tKeyinit, tFlush], ⟨[(tId, .str)], [tId]⟩),
    ([tHashchain, tSync], ⟨[(tDomain, .str)], [tDomain]⟩),
    ([tHashchain, tValidate], ⟨[(tDomain, .str)], [tDomain]⟩),
    ([tHashchain, tSearch], ⟨[(tId, .str), (tSearchOnly, .bool)], [tId]⟩),
    ([tHashchain, tLookup], ⟨[(tId, .str)], [tId]⟩),
    ([tHashchain, tShow], ⟨[(tDomain, .str)], [tDomain]⟩),
    ([tHashchain, tDelete], ⟨[(tDomain, .str)], [tDomain]⟩),
    ([tEncrypt], ⟨[(tFrom, .str), (tTo, .str), (tSign, .bool), (tNymaddress, .str)], [tFrom, tTo, tNymaddress]⟩),
    ([tDecrypt], ⟨[], []⟩),
    ([tQuit], ⟨[], []⟩)]

/-- `muteproto` (protoengine.go:78-197). -/
def muteproto : Program where
  global := [(tHomedir, .str), (tAcchost, .str)] ++ fdOpts ++ [(tLoglevel, .str), (tLogdir, .str), (tLogconsole, .bool)]
  commands := [
    ([tCreate], ⟨[(tMindelay, .int), (tMaxdelay, .int), (tToken, .str), (tNymaddress, .str)], [tToken, tNymaddress]⟩),
    ([tDeliver], ⟨[], []⟩),
    ([tFetch], ⟨[(tServer, .str), (tLast, .str)], [tServer]⟩)]

/-! ### taking a command line apart -/

/-- The options that are declared; the library adds the ones for help, and for the version at the top. -/
def declOf (top : Bool) (os : List (Bytes × Opt)) : Decl := fun n =>
  match os.lookup n with
  | some o => some o.kind
  | none => if n = tHelp ∨ n = tH ∨ (top ∧ (n = tVersion ∨ n = tV)) then some .bool else none

/-- `flagSet` and `FlagSet.Parse`: a number that is none is an error. -/
def flagParse (top : Bool) (os : List (Bytes × Opt)) (args : List Bytes) : Option (Settings × List Bytes) :=
  match parse (declOf top os) args with
  | none => none
  | some (S, rest) => if S.all fun p => os.lookup p.1 ≠ some .int ∨ (intFlag p.2).isSome then some (S, rest) else none

/-- The help is shown, or the version, and nothing else is done. -/
def asksHelp (S : Settings) : Bool := S.on tHelp || S.on tH || S.on tVersion || S.on tV

/-- An argument that looks like an option; "-" does not. -/
def looksOption (a : Bytes) : Bool := a.head? == some 45 && a != [45]

/-- `Command.Run`: arguments in front of the options are moved behind them, unless they come after "--". -/
def reorder (args : List Bytes) : List Bytes :=
  let front := args.takeWhile (· ≠ [45, 45])
  front.dropWhile (!looksOption ·) ++ front.takeWhile (!looksOption ·) ++ args.dropWhile (· ≠ [45, 45])

/-- A command that is run: the global options, the words of the command and its options. -/
structure Run where
  global : Settings
  path : List Bytes
  opts : Settings
  deriving DecidableEq, Repr

/-- What becomes of a command line: `app.Run` returns an error, it shows a help text (or the version) and returns no error, or a command is run. -/
inductive Parsed
  | refused
  | help
  | run (r : Run)
  deriving DecidableEq, Repr

/-- `Command.Run` and the checks in front of every command (for example cryptengine.go:597-605). -/
def leaf (S : Settings) (path : List Bytes) (c : Command) (args : List Bytes) : Parsed :=
  match flagParse false c.opts (reorder args) with
  | none => .refused
  | some (T, rest) =>
    if asksHelp T then .help
    else if rest ≠ [] then .refused
    else if c.must.all fun n => T.any fun p => p.1 = n then .run ⟨S, path, T⟩
    else .refused

/-- The commands of a program (`App.Run` behind the global options, `App.RunAsSubcommand`). A word that is no command is refused by the loop of
`mutecrypt` (cryptengine.go:100-104) and for `muteproto` and the groups of commands by the library ("No help topic"); the commands `help` and `h`
of the library count as such words. A group without a command shows its help. -/
def command (P : Program) (S : Settings) : List Bytes → Parsed
  | [] => .run ⟨S, [], []⟩
  | a :: more =>
    match P.commands.lookup [a] with
    | some c => leaf S [a] c more
    | none =>
      if P.commands.any fun e => e.1.head? = some a then
        match flagParse false [] more with
        | none => .refused
        | some (T, rest) =>
          if asksHelp T then .help
          else match rest with
            | [] => .help
            | b :: more =>
              match P.commands.lookup [a, b] with
              | none => .refused
              | some c => leaf S [a, b] c more
      else .refused

/-- `App.Run`. Without a command it is the loop of `mutecrypt` (the empty path). -/
def understand (P : Program) (argv : List Bytes) : Parsed :=
  match flagParse true P.global argv with
  | none => .refused
  | some (S, rest) => if asksHelp S then .help else command P S rest

/-! ### what the programs then do -/

/-- What a program is asked to do. -/
inductive Job
  | loop
  | dbCreate (iterations : Int)
  | dbRekey (iterations : Int)
  | dbVacuum
  | dbVersion
  | caps (show_ : Bool) (domain host : Bytes)
  | generate (id : Bytes) (keyserver : Bool)
  | register (id token : Bytes)
  | genupdate (id : Bytes)
  | update (id token : Bytes)
  | deleteUID (id : Bytes) (force : Bool)
  | listUIDs
  | addKeyInit (id mix nym token : Bytes)
  | fetchKeyInit (id : Bytes)
  | flushKeyInit (id : Bytes)
  | sync (domain : Bytes)
  | validate (domain : Bytes)
  | search (id : Bytes) (only : Bool)
  | lookup (id : Bytes)
  | showChain (domain : Bytes)
  | deleteChain (domain : Bytes)
  | encrypt (from_ to_ : Bytes) (sign : Bool) (nym : Bytes)
  | decrypt
  | quit
  | create (min max : Int) (token nym : Bytes)
  | deliver
  | fetch (server : Bytes) (last : Int)
  deriving DecidableEq, Repr

/-- `c.Int`: what is no number is 0. -/
def Int_ (S : Settings) (n : Bytes) (dflt : Int) : Int :=
  if S.any fun p => p.1 = n then (intFlag (S.get n [])).getD 0 else dflt

/-- `encdb.KDFIterations` (encdb/encdb.go:43). -/
def kdfIterations : Int := 64000

/-- The actions of `mutecrypt` (cryptengine.go:224-843). -/
def cryptJob (r : Run) : Option Job :=
  let T := r.opts
  if r.path = [] then some .loop
  else if r.path = [tDb, tCreate] then some (.dbCreate (Int_ T tIterations kdfIterations))
  else if r.path = [tDb, tRekey] then some (.dbRekey (Int_ T tIterations kdfIterations))
  else if r.path = [tDb, tVacuum] then some .dbVacuum
  else if r.path = [tDb, tVersion] then some .dbVersion
  else if r.path = [tCaps, tGet] then some (.caps false (T.get tDomain []) (T.get tHost []))
  else if r.path = [tCaps, tShow] then some (.caps true (T.get tDomain []) (T.get tHost []))
  else if r.path = [tUid, tGenerate] then some (.generate (T.get tId []) (r.global.on tKeyserver))
  else if r.path = [tUid, tRegister] then some (.register (T.get tId []) (T.get tToken []))
  else if r.path = [tUid, tGenupdate] then some (.genupdate (T.get tId []))
  else if r.path = [tUid, tUpdate] then some (.update (T.get tId []) (T.get tToken []))
  else if r.path = [tUid, tDelete] then some (.deleteUID (T.get tId []) (T.on tForce))
  else if r.path = [tUid, tList] then some .listUIDs
  else if r.path = [tKeyinit, tAdd] then some (.addKeyInit (T.get tId []) (T.get tMixaddress []) (T.get tNymaddress []) (T.get tToken []))
  else if r.path = [tKeyinit, tFetch] then some (.fetchKeyInit (T.get tId []))
  else if r.path = [tKeyinit, tFlush] then some (.flushKeyInit (T.get tId []))
  else if r.path = [tHashchain, tSync] then some (.sync (T.get tDomain []))
  else if r.path = [tHashchain, tValidate] then some (.validate (T.get tDomain []))
  else if r.path = [tHashchain, tSearch] then some (.search (T.get tId []) (T.on tSearchOnly))
  else if r.path = [tHashchain, tLookup] then some (.lookup (T.get tId []))
  else if r.path = [tHashchain, tShow] then some (.showChain (T.get tDomain []))
  else if r.path = [tHashchain, tDelete] then some (.deleteChain (T.get tDomain []))
  else if r.path = [tEncrypt] then some (.encrypt (T.get tFrom []) (T.get tTo []) (T.on tSign) (T.get tNymaddress []))
  else if r.path = [tDecrypt] then some .decrypt
  else if r.path = [tQuit] then some .quit
  else none

/-- The actions of `muteproto` (protoengine.go:146-196); the defaults of the delays are those of def/def.go:168-173. Without a command
the help is shown. -/
def protoJob (r : Run) : Option Job :=
  let T := r.opts
  if r.path = [tCreate] then
    some (.create (toI32 (Int_ T tMindelay 120)) (toI32 (Int_ T tMaxdelay 300)) (T.get tToken []) (T.get tNymaddress []))
  else if r.path = [tDeliver] then some .deliver
  else if r.path = [tFetch] then some (.fetch (T.get tServer []) (Int_ T tLast 0))
  else none

/-- `parseFDOption` (descriptors.go:64-92). -/
def parseFD (S : Settings) (name dflt : Bytes) : Option Int :=
  let s := S.get name dflt
  if s = tStdin then some 0 else if s = tStdout then some 1 else if s = tStderr then some 2 else Mix.atoi s

/-- The file descriptors a program works with (descriptors.go:50-61). -/
structure Table where
  input : Int
  output : Int
  status : Int
  passphrase : Int
  command : Int
  deriving DecidableEq, Repr

/-- `NewTable` (descriptors.go:96-120). -/
def newTable (S : Settings) : Option Table := do
  let i ← parseFD S tInputFd tStdin
  let o ← parseFD S tOutputFd tStdout
  let s ← parseFD S tStatusFd tStderr
  let p ← parseFD S tPassphraseFd [51]
  let c ← parseFD S tCommandFd [52]
  return ⟨i, o, s, p, c⟩

/-- A program at work: its directories and log level, the key server it uses instead of the configured one, its file descriptors and its job
(`prepare`: cryptengine.go:53-97, protoengine.go:44-70). The defaults of the directories are those of the system. -/
structure Work where
  homedir : Bytes
  loglevel : Bytes
  logdir : Bytes
  logconsole : Bool
  keyserver : Bool
  keyhost : Bytes
  keyport : Bytes
  table : Table
  job : Job
  deriving DecidableEq, Repr

/-- The directories that are used if none are named. -/
structure Defaults where
  homedir : Bytes
  logdir : Bytes

/-- `mutecrypt` or `muteproto` (`job`) called with these arguments; `none` if it ends with an error or only shows its help. -/
def perform (D : Defaults) (P : Program) (job : Run → Option Job) (argv : List Bytes) : Option Work :=
  match understand P argv with
  | .run r =>
    match newTable r.global, job r with
    | some t, some j => some ⟨r.global.get tHomedir D.homedir, r.global.get tLoglevel tInfo, r.global.get tLogdir D.logdir, r.global.on tLogconsole,
        r.global.on tKeyserver, r.global.get tKeyhost [], r.global.get tKeyport [], t, j⟩
    | _, _ => none
  | _ => none

/-! ### the calls -/

/-- What the engine passes on (its own global options). -/
structure Globals where
  homedir : Bytes
  loglevel : Bytes
  logdir : Bytes
  logconsole : Bool

/-- The calls of the engine. -/
inductive Call
  /-- `createKeyDB` (db.go:29-76) -/
  | dbCreate (outputFD : Nat) (iterations : Int)
  /-- `rekeyKeyDB` (db.go:176-212) -/
  | dbRekey (iterations : Int)
  /-- `mutecryptDBVersion` (db.go:427-453) -/
  | dbVersion
  /-- `mutecryptNewUID` and `mutecryptAddContact` (uid.go:52-62, contact.go:39-50): the loop -/
  | loop (host : Bytes)
  /-- `mutecryptHashchainSearch` (uid.go:268-304) -/
  | search (id host : Bytes)
  /-- `mutecryptDeleteUID` (uid.go:450-480) -/
  | deleteUID (id : Bytes)
  /-- `mutecryptHashchainSync` (upkeep.go:401-435) -/
  | sync (domain host : Bytes)
  /-- `mutecryptHashchainValidate` (upkeep.go:437-471) -/
  | validate (domain host : Bytes)
  /-- `mutecryptEncrypt` (msg.go:41-66) -/
  | encrypt (from_ to_ : Bytes) (sign : Bool) (nym : Bytes)
  /-- `mutecryptDecrypt` (msg.go:649-660) -/
  | decrypt
  /-- `muteprotoCreate` (msg.go:196-212) -/
  | create (min max : Int) (token nym : Bytes)
  /-- `muteprotoDeliver` (msg.go:234-244) -/
  | deliver
  /-- `muteprotoFetch` (msg.go:478-494) -/
  | fetch (server : Bytes) (last : Int)
  deriving DecidableEq, Repr

/-- `--name value`. -/
def opt (n v : Bytes) : List Bytes := [45 :: 45 :: n, v]
/-- `--name`. -/
def flag (n : Bytes) : List Bytes := [45 :: 45 :: n]

/-- The options every call begins with. -/
def shared (G : Globals) : List Bytes := opt tHomedir G.homedir ++ opt tLoglevel G.loglevel ++ opt tLogdir G.logdir

/-- The alternative key server (for example upkeep.go:411-415). -/
def viaHost (host : Bytes) : List Bytes := if host = [] then [] else opt tKeyhost host ++ opt tKeyport tPort

/-- The arguments of a call. -/
def argv (G : Globals) : Call → List Bytes
  | .dbCreate o n => opt tOutputFd (decInt o) ++ opt tPassphraseFd tStdin ++ shared G ++ (if G.logconsole then flag tLogconsole else []) ++
      [tDb, tCreate] ++ opt tIterations (decInt n)
  | .dbRekey n => opt tPassphraseFd tStdin ++ shared G ++ [tDb, tRekey] ++ opt tIterations (decInt n)
  | .dbVersion => shared G ++ [tDb, tVersion]
  | .loop host => shared G ++ viaHost host
  | .search id host => shared G ++ viaHost host ++ [tHashchain, tSearch] ++ flag tSearchOnly ++ opt tId id
  | .deleteUID id => shared G ++ [tUid, tDelete] ++ opt tId id ++ flag tForce
  | .sync domain host => shared G ++ viaHost host ++ [tHashchain, tSync] ++ opt tDomain domain
  | .validate domain host => shared G ++ viaHost host ++ [tHashchain, tValidate] ++ opt tDomain domain
  | .encrypt f t s n => shared G ++ [tEncrypt] ++ opt tFrom f ++ opt tTo t ++ opt tNymaddress n ++ (if s then flag tSign else [])
  | .decrypt => shared G ++ [tDecrypt]
  | .create a b t n => shared G ++ [tCreate] ++ opt tMindelay (decInt a) ++ opt tMaxdelay (decInt b) ++ opt tToken t ++ opt tNymaddress n
  | .deliver => shared G ++ [tDeliver]
  | .fetch s l => shared G ++ [tFetch] ++ opt tServer s ++ opt tLast (decInt l)

/-- The program a call is made to, and its actions. -/
def Call.program : Call → Program × (Run → Option Job)
  | .create .. => (muteproto, protoJob)
  | .deliver => (muteproto, protoJob)
  | .fetch .. => (muteproto, protoJob)
  | _ => (mutecrypt, cryptJob)

/-! ### the lines written to the loop -/

/-- The commands that are written to a running `mutecrypt` (contact.go:71-183, uid.go:84-245). -/
inductive Line
  | sync (domain : Bytes)
  | validate (domain : Bytes)
  | search (id : Bytes)
  | fetchKeyInit (id : Bytes)
  | generate (id : Bytes)
  | caps (domain host : Bytes)
  | register (id token : Bytes)
  | deleteUID (id : Bytes)
  | addKeyInit (id mix nym token : Bytes)
  | quit
  deriving DecidableEq, Repr

/-- The words of a line. -/
def Line.words : Line → List Bytes
  | .sync d => [tHashchain, tSync] ++ opt tDomain d
  | .validate d => [tHashchain, tValidate] ++ opt tDomain d
  | .search i => [tHashchain, tSearch] ++ opt tId i
  | .fetchKeyInit i => [tKeyinit, tFetch] ++ opt tId i
  | .generate i => [tUid, tGenerate] ++ opt tId i
  | .caps d h => [tCaps, tShow] ++ opt tDomain d ++ (if h = [] then [] else opt tHost h)
  | .register i t => [tUid, tRegister] ++ opt tId i ++ opt tToken t
  | .deleteUID i => [tUid, tDelete] ++ flag tForce ++ opt tId i
  | .addKeyInit i m n t => [tKeyinit, tAdd] ++ opt tId i ++ opt tMixaddress m ++ opt tNymaddress n ++ opt tToken t
  | .quit => [tQuit]

/-- `strings.Join(words, " ")`. -/
def join : List Bytes → Bytes
  | [] => []
  | [w] => w
  | w :: ws => w ++ 32 :: join ws

/-- The text of a line; a blank is written behind `caps show` (uid.go:121-124). -/
def Line.text (l : Line) : Bytes :=
  match l with
  | .caps .. => join l.words ++ [32]
  | _ => join l.words

/-- A turn of the loop up to the command (cryptengine.go:117-125). -/
def hear (text : Bytes) : Parsed := understand mutecrypt (Conf.fields 32 text)

/-! ### specification -/

/-- What a call is meant to make the other program do. -/
def Call.meant : Call → Job
  | .dbCreate _ n => .dbCreate n
  | .dbRekey n => .dbRekey n
  | .dbVersion => .dbVersion
  | .loop _ => .loop
  | .search id _ => .search id true
  | .deleteUID id => .deleteUID id true
  | .sync domain _ => .sync domain
  | .validate domain _ => .validate domain
  | .encrypt f t s n => .encrypt f t s n
  | .decrypt => .decrypt
  | .create a b t n => .create a b t n
  | .deliver => .deliver
  | .fetch s l => .fetch s l

/-- The alternative key server of a call. -/
def Call.host : Call → Bytes
  | .loop host => host
  | .search _ host => host
  | .sync _ host => host
  | .validate _ host => host
  | _ => []

/-- The file descriptors: standard input, output and error, descriptor 3 for the passphrase and 4 for commands; when a database is made or
gets a new passphrase the passphrases go to the standard input, and the descriptor of the engine's output is passed on. -/
def Call.table : Call → Table
  | .dbCreate o _ => ⟨0, o, 2, 0, 4⟩
  | .dbRekey _ => ⟨0, 1, 2, 0, 4⟩
  | _ => ⟨0, 1, 2, 3, 4⟩

/-- The other program works in the home directory of the engine, logs where the engine logs, uses the key server that was named and does what it
was called for. -/
def Call.expected (G : Globals) (c : Call) : Work where
  homedir := G.homedir
  loglevel := G.loglevel
  logdir := G.logdir
  logconsole := match c with | .dbCreate .. => G.logconsole | _ => false
  keyserver := false
  keyhost := c.host
  keyport := if c.host = [] then [] else tPort
  table := c.table
  job := c.meant

/-- Numbers fit their types. -/
def Call.Fits : Call → Prop
  | .dbCreate o n => o < 2 ^ 63 ∧ -2 ^ 63 ≤ n ∧ n < 2 ^ 63
  | .dbRekey n => -2 ^ 63 ≤ n ∧ n < 2 ^ 63
  | .create a b _ _ => Mix.I32 a ∧ Mix.I32 b
  | .fetch _ l => -2 ^ 63 ≤ l ∧ l < 2 ^ 63
  | _ => True

/-- What a line is meant to do. -/
def Line.meant : Line → Job
  | .sync d => .sync d
  | .validate d => .validate d
  | .search i => .search i false
  | .fetchKeyInit i => .fetchKeyInit i
  | .generate i => .generate i false
  | .caps d h => .caps true d h
  | .register i t => .register i t
  | .deleteUID i => .deleteUID i true
  | .addKeyInit i m n t => .addKeyInit i m n t
  | .quit => .quit

/-- A word: not empty and without white space. -/
def IsWord (w : Bytes) : Prop := w ≠ [] ∧ ∀ c ∈ w, c ≠ 32 ∧ Conf.isSpace c = false

/-- The values in a line are words; the host may be missing. -/
def Line.Plain : Line → Prop
  | .sync d => IsWord d
  | .validate d => IsWord d
  | .search i => IsWord i
  | .fetchKeyInit i => IsWord i
  | .generate i => IsWord i
  | .caps d h => IsWord d ∧ (h = [] ∨ IsWord h)
  | .register i t => IsWord i ∧ IsWord t
  | .deleteUID i => IsWord i
  | .addKeyInit i m n t => IsWord i ∧ IsWord m ∧ IsWord n ∧ IsWord t
  | .quit => True

/-! ### proofs -/

/-- An option as it is written: with a value or without. -/
abbrev Item := Bytes × Option Bytes

def write : List Item → List Bytes
  | [] => []
  | (n, some v) :: is => opt n v ++ write is
  | (n, none) :: is => flag n ++ write is

/-- What is set by options as written. -/
def settle : List Item → Settings
  | [] => []
  | (n, v) :: is => (n, v.getD txtTrue) :: settle is

/-- Option names and whether they have a value. -/
def shape (is : List Item) : List (Bytes × Bool) := is.map fun i => (i.1, i.2.isSome)

/-- These options exist. -/
def okShape (top : Bool) (os : List (Bytes × Opt)) (ks : List (Bytes × Bool)) : Bool :=
  ks.all fun k => k.1 ≠ [] && k.1.head? ≠ some 45 && !(k.1.contains 61) && declOf top os k.1 = some (if k.2 then .str else .bool) &&
    !([tHelp, tH, tVersion, tV].contains k.1)

theorem parse_flag (D : Decl) (n : Bytes) (rest : List Bytes) (hn : Name n) (hd : D n = some .bool) :
    parse D ((45 :: 45 :: n) :: rest) = (parse D rest).map fun r => ((n, txtTrue) :: r.1, r.2) := by
  have hne := hn.ne
  have h61 : n.head? ≠ some 61 := fun hz => hn.eq (List.mem_of_head? hz)
  rw [parse, if_neg, if_neg]
  · simp only [List.tail_cons, List.head?_cons, List.drop_succ_cons, List.drop_zero, if_true]
    rw [if_neg (by simp only [not_or]; exact ⟨hne, hn.dash, h61⟩)]
    simp only [cutEq_name hn, hd]
  · intro hz
    simp only [List.cons.injEq, true_and] at hz
    exact hne hz
  · simp

theorem okShape_cons {top : Bool} {os : List (Bytes × Opt)} {k : Bytes × Bool} {ks : List (Bytes × Bool)} (h : okShape top os (k :: ks) = true) :
    Name k.1 ∧ declOf top os k.1 = some (if k.2 then .str else .bool) ∧ k.1 ∉ [tHelp, tH, tVersion, tV] ∧ okShape top os ks = true := by
  unfold okShape at h ⊢
  rw [List.all_cons, Bool.and_eq_true] at h
  obtain ⟨h, h2⟩ := h
  simp only [Bool.and_eq_true, decide_eq_true_eq, Bool.not_eq_true', List.contains_eq_mem, decide_eq_false_iff_not] at h
  obtain ⟨⟨⟨⟨h3, h4⟩, h5⟩, h6⟩, h7⟩ := h
  exact ⟨⟨h3, h4, h5⟩, h6, h7, h2⟩

theorem parse_write (top : Bool) (os : List (Bytes × Opt)) (is : List Item) (h : okShape top os (shape is) = true) (rest : List Bytes)
    (hr : rest = [] ∨ ∃ w ws, rest = w :: ws ∧ Word w) : parse (declOf top os) (write is ++ rest) = some (settle is, rest) := by
  induction is with
  | nil =>
    rcases hr with rfl | ⟨w, ws, rfl, hw⟩
    · rfl
    · exact parse_word _ w ws hw
  | cons i is ih =>
    obtain ⟨h1, h2, -, h4⟩ := okShape_cons h
    have ih := ih h4
    obtain ⟨n, v⟩ := i
    cases v with
    | none =>
      show parse _ ((45 :: 45 :: n) :: (write is ++ rest)) = _
      rw [parse_flag _ n _ h1 h2, ih]; rfl
    | some v =>
      show parse _ ((45 :: 45 :: n) :: v :: (write is ++ rest)) = _
      rw [parse_pair _ n v _ h1 h2, ih]; rfl

/-- The numbers among the options. -/
def IntsOk (os : List (Bytes × Opt)) (is : List Item) : Prop := ∀ i ∈ is, os.lookup i.1 = some .int → ∃ v, i.2 = some v ∧ (intFlag v).isSome = true

theorem settle_mem {is : List Item} {p : Bytes × Bytes} (h : p ∈ settle is) : ∃ i ∈ is, p = (i.1, i.2.getD txtTrue) := by
  induction is with
  | nil => exact absurd h List.not_mem_nil
  | cons i is ih =>
    rcases List.mem_cons.1 h with rfl | h
    · exact ⟨i, List.mem_cons_self .., rfl⟩
    · obtain ⟨j, hj, e⟩ := ih h
      exact ⟨j, List.mem_cons_of_mem _ hj, e⟩

theorem flagParse_write (top : Bool) (os : List (Bytes × Opt)) (is : List Item) (h : okShape top os (shape is) = true) (hi : IntsOk os is) (rest : List Bytes)
    (hr : rest = [] ∨ ∃ w ws, rest = w :: ws ∧ Word w) : flagParse top os (write is ++ rest) = some (settle is, rest) := by
  unfold flagParse
  rw [parse_write top os is h rest hr]
  dsimp only
  rw [if_pos]
  rw [List.all_eq_true]
  intro p hp
  rw [decide_eq_true_eq]
  obtain ⟨i, hi', rfl⟩ := settle_mem hp
  by_cases hl : os.lookup i.1 = some .int
  · obtain ⟨v, hv, hs⟩ := hi i hi' hl
    right
    dsimp only
    rw [hv]
    exact hs
  · left; exact hl

theorem on_of_not_mem {S : Settings} {n : Bytes} (h : n ∉ S.map (·.1)) : S.on n = false := by
  unfold Settings.on
  rw [List.find?_eq_none.2]
  · rfl
  · intro p hp hc
    rw [decide_eq_true_eq] at hc
    exact h (hc ▸ List.mem_map_of_mem (List.mem_reverse.1 hp))

theorem get_of_not_mem {S : Settings} {n d : Bytes} (h : n ∉ S.map (·.1)) : S.get n d = d := by
  unfold Settings.get
  rw [List.find?_eq_none.2]
  · rfl
  · intro p hp hc
    rw [decide_eq_true_eq] at hc
    exact h (hc ▸ List.mem_map_of_mem (List.mem_reverse.1 hp))

theorem find_of_mem {S : Settings} {n v : Bytes} (hn : (S.map (·.1)).Nodup) (h : (n, v) ∈ S) : S.reverse.find? (·.1 = n) = some (n, v) := by
  cases hf : S.reverse.find? (·.1 = n) with
  | none =>
    have := List.find?_eq_none.1 hf (n, v) (List.mem_reverse.2 h)
    exact absurd (decide_eq_true (show (n, v).1 = n from rfl)) this
  | some p =>
    have h1 := List.find?_some hf
    have h2 := List.mem_reverse.1 (List.mem_of_find?_eq_some hf)
    rw [decide_eq_true_eq] at h1
    obtain ⟨a, b⟩ := p
    dsimp only at h1
    subst h1
    clear hf
    congr 1
    induction S with
    | nil => exact absurd h List.not_mem_nil
    | cons x S ih =>
      rw [List.map_cons, List.nodup_cons] at hn
      rcases List.mem_cons.1 h with rfl | h
      · rcases List.mem_cons.1 h2 with h2 | h2
        · exact h2
        · exact absurd (List.mem_map_of_mem (f := (·.1)) h2) hn.1
      · rcases List.mem_cons.1 h2 with h2 | h2
        · rw [← h2] at hn
          exact absurd (List.mem_map_of_mem (f := fun p : Bytes × Bytes => p.1) h) hn.1
        · first | exact ih hn.2 h h2 | exact ih hn.2 h2 h

theorem get_of_mem {S : Settings} {n v d : Bytes} (hn : (S.map (·.1)).Nodup) (h : (n, v) ∈ S) : S.get n d = v := by
  unfold Settings.get
  rw [find_of_mem hn h]
  rfl

theorem on_of_mem {S : Settings} {n : Bytes} (hn : (S.map (·.1)).Nodup) (h : (n, txtTrue) ∈ S) : S.on n = true := by
  unfold Settings.on
  rw [find_of_mem hn h]
  rfl

theorem shape_names (is : List Item) : (shape is).map (·.1) = (settle is).map (·.1) := by
  induction is with
  | nil => rfl
  | cons i is ih =>
    show i.1 :: (shape is).map (·.1) = i.1 :: (settle is).map (·.1)
    rw [ih]

theorem no_help (top : Bool) (os : List (Bytes × Opt)) (is : List Item) (h : okShape top os (shape is) = true) : asksHelp (settle is) = false := by
  have key : ∀ n ∈ [tHelp, tH, tVersion, tV], n ∉ (settle is).map (·.1) := by
    intro n hn hc
    rw [← shape_names] at hc
    obtain ⟨k, hk, rfl⟩ := List.mem_map.1 hc
    clear hc
    generalize shape is = ks at h hk
    induction ks with
    | nil => exact absurd hk List.not_mem_nil
    | cons x ks ih =>
      obtain ⟨-, -, h3, h4⟩ := okShape_cons h
      rcases List.mem_cons.1 hk with rfl | hk
      · exact h3 hn
      · exact ih h4 hk
  unfold asksHelp
  rw [on_of_not_mem (key tHelp (by simp)), on_of_not_mem (key tH (by simp)), on_of_not_mem (key tVersion (by simp)), on_of_not_mem (key tV (by simp))]
  rfl

theorem reorder_write (top : Bool) (os : List (Bytes × Opt)) (is : List Item) (h : okShape top os (shape is) = true) : reorder (write is) = write is := by
  have key : ∀ (n : Bytes) (xs : List Bytes), n ≠ [] → reorder ((45 :: 45 :: n) :: xs) = (45 :: 45 :: n) :: xs := by
    intro n xs hn
    have h1 : decide ((45 :: 45 :: n : Bytes) ≠ [45, 45]) = true := by simpa using hn
    have h2 : (!looksOption (45 :: 45 :: n)) = false := by simp [looksOption]
    have h3 := List.takeWhile_append_dropWhile (p := fun a : Bytes => decide (a ≠ [45, 45])) (l := (45 :: 45 :: n) :: xs)
    unfold reorder
    rw [List.takeWhile_cons_of_pos (p := fun a : Bytes => decide (a ≠ [45, 45])) h1] at h3 ⊢
    dsimp only
    rw [List.dropWhile_cons_of_neg (p := fun a : Bytes => !looksOption a) (by rw [h2]; simp),
      List.takeWhile_cons_of_neg (p := fun a : Bytes => !looksOption a) (by rw [h2]; simp), List.append_nil]
    exact h3
  cases is with
  | nil => rfl
  | cons i is =>
    obtain ⟨h1, -, -, -⟩ := okShape_cons h
    obtain ⟨n, v⟩ := i
    cases v with
    | none => exact key n _ h1.ne
    | some v => exact key n _ h1.ne

/-- The options that must be set are among them. -/
def mustOk (c : Command) (ks : List (Bytes × Bool)) : Bool := c.must.all fun n => (ks.map (·.1)).contains n

theorem leaf_write (S : Settings) (path : List Bytes) (c : Command) (is : List Item) (h : okShape false c.opts (shape is) = true) (hi : IntsOk c.opts is)
    (hm : mustOk c (shape is) = true) : leaf S path c (write is) = .run ⟨S, path, settle is⟩ := by
  unfold leaf
  have := flagParse_write false c.opts is h hi [] (.inl rfl)
  rw [List.append_nil] at this
  rw [reorder_write false c.opts is h, this]
  dsimp only
  rw [no_help false c.opts is h, if_neg (by simp), if_neg (by simp), if_pos]
  unfold mustOk at hm
  rw [shape_names] at hm
  rw [List.all_eq_true] at hm ⊢
  intro n hn
  have := hm n hn
  rw [List.contains_eq_mem, decide_eq_true_eq] at this
  obtain ⟨p, hp, rfl⟩ := List.mem_map.1 this
  rw [List.any_eq_true]
  exact ⟨p, hp, by simp⟩

/-- What has to be checked for a command line: the options exist and the command is there. -/
def okLine (P : Program) (gs : List (Bytes × Bool)) (path : List Bytes) (is : List (Bytes × Bool)) : Bool :=
  okShape true P.global gs && !(gs.any fun g => P.global.lookup g.1 = some .int) &&
  match path with
  | [] => is = []
  | [a] => (match P.commands.lookup [a] with
    | some c => okShape false c.opts is && mustOk c is
    | none => false) && a ≠ [] && a.head? ≠ some 45
  | [a, b] => (P.commands.lookup [a]).isNone && (P.commands.any fun e => e.1.head? = some a) && (match P.commands.lookup [a, b] with
    | some c => okShape false c.opts is && mustOk c is
    | none => false) && a ≠ [] && a.head? ≠ some 45 && b ≠ [] && b.head? ≠ some 45
  | _ => false

/-- The options of the command. -/
def optsOf (P : Program) (path : List Bytes) : List (Bytes × Opt) := ((P.commands.lookup path).map (·.opts)).getD []

theorem understand_line (P : Program) (gs is : List Item) (path : List Bytes) (h : okLine P (shape gs) path (shape is) = true)
    (hi : IntsOk (optsOf P path) is) : understand P (write gs ++ path ++ write is) = .run ⟨settle gs, path, settle is⟩ := by
  unfold okLine at h
  rw [Bool.and_eq_true, Bool.and_eq_true] at h
  obtain ⟨⟨h1, h2⟩, h3⟩ := h
  have hints : IntsOk P.global gs := by
    intro i hi' hl
    rw [Bool.not_eq_true', List.any_eq_false] at h2
    have := h2 (i.1, i.2.isSome) (List.mem_map_of_mem (f := fun i : Item => (i.1, i.2.isSome)) hi')
    exact absurd (decide_eq_true hl) this
  have start : ∀ rest : List Bytes, (rest = [] ∨ ∃ w ws, rest = w :: ws ∧ Word w) → understand P (write gs ++ rest) = command P (settle gs) rest := by
    intro rest hr
    unfold understand
    rw [flagParse_write true P.global gs h1 hints rest hr]
    dsimp only
    rw [no_help true P.global gs h1, if_neg (by simp)]
  rw [List.append_assoc]
  match path, h3, hi with
  | [], h3, _ =>
    have : is = [] := by
      have h3 := of_decide_eq_true h3
      cases is with
      | nil => rfl
      | cons => cases h3
    subst this
    exact start [] (.inl rfl)
  | [a], h3, hi =>
    simp only [Bool.and_eq_true, decide_eq_true_eq] at h3
    obtain ⟨⟨h3, h4⟩, h5⟩ := h3
    show understand P (write gs ++ a :: write is) = _
    rw [start _ (.inr ⟨a, _, rfl, h4, h5⟩)]
    unfold command
    dsimp only
    cases hc : P.commands.lookup [a] with
    | none => rw [hc] at h3; cases h3
    | some c =>
      rw [hc] at h3
      dsimp only at h3 ⊢
      rw [Bool.and_eq_true] at h3
      try rw [hc]
      exact leaf_write _ _ c is h3.1 (by unfold optsOf at hi; rw [hc] at hi; exact hi) h3.2
  | [a, b], h3, hi =>
    simp only [Bool.and_eq_true, decide_eq_true_eq] at h3
    obtain ⟨⟨⟨⟨⟨⟨h6, h7⟩, h3⟩, h4⟩, h5⟩, h8⟩, h9⟩ := h3
    show understand P (write gs ++ a :: b :: write is) = _
    rw [start _ (.inr ⟨a, _, rfl, h4, h5⟩)]
    unfold command
    rw [Option.isNone_iff_eq_none] at h6
    dsimp only
    rw [h6]
    dsimp only
    rw [if_pos (by simpa using h7)]
    have : flagParse false [] (b :: write is) = some ([], b :: write is) :=
      flagParse_write false [] [] rfl (fun _ h => absurd h List.not_mem_nil) _ (.inr ⟨b, _, rfl, h8, h9⟩)
    rw [this]
    dsimp only
    rw [show asksHelp [] = false from rfl, if_neg (by simp)]
    cases hc : P.commands.lookup [a, b] with
    | none => rw [hc] at h3; cases h3
    | some c =>
      rw [hc] at h3
      dsimp only at h3 ⊢
      rw [Bool.and_eq_true] at h3
      try rw [hc]
      exact leaf_write _ _ c is h3.1 (by unfold optsOf at hi; rw [hc] at hi; exact hi) h3.2

/-- What `prepare` finds in the global options. -/
structure Found (S : Settings) (G : Globals) (console : Bool) (host port : Bytes) (t : Table) : Prop where
  homedir : ∀ d, S.get tHomedir d = G.homedir
  loglevel : ∀ d, S.get tLoglevel d = G.loglevel
  logdir : ∀ d, S.get tLogdir d = G.logdir
  console : S.on tLogconsole = console
  keyserver : S.on tKeyserver = false
  host : S.get tKeyhost [] = host
  port : S.get tKeyport [] = port
  table : newTable S = some t

theorem perform_found {D : Defaults} {P : Program} {job : Run → Option Job} {args : List Bytes} {S T : Settings} {path : List Bytes} {G : Globals} {console : Bool}
    {host port : Bytes} {t : Table} {j : Job} (h : understand P args = .run ⟨S, path, T⟩) (hf : Found S G console host port t) (hj : job ⟨S, path, T⟩ = some j) :
    perform D P job args = some ⟨G.homedir, G.loglevel, G.logdir, console, false, host, port, t, j⟩ := by
  unfold perform
  rw [h]
  dsimp only
  rw [hf.table, hj]
  dsimp only
  rw [hf.homedir, hf.loglevel, hf.logdir, hf.console, hf.keyserver, hf.host, hf.port]

def gShared (G : Globals) : List Item := [(tHomedir, some G.homedir), (tLoglevel, some G.loglevel), (tLogdir, some G.logdir)]
def gHost (host : Bytes) : List Item := [(tKeyhost, some host), (tKeyport, some tPort)]

theorem parseFD_const {S : Settings} {n d v : Bytes} (h : S.get n d = v) (k : Int)
    (hv : (if v = tStdin then some 0 else if v = tStdout then some 1 else if v = tStderr then some 2 else Mix.atoi v) = some k) : parseFD S n d = some k := by
  unfold parseFD
  dsimp only
  rw [h, hv]

theorem table_of {S : Settings} {i o s p c : Int} (h1 : parseFD S tInputFd tStdin = some i) (h2 : parseFD S tOutputFd tStdout = some o)
    (h3 : parseFD S tStatusFd tStderr = some s) (h4 : parseFD S tPassphraseFd [51] = some p) (h5 : parseFD S tCommandFd [52] = some c) :
    newTable S = some ⟨i, o, s, p, c⟩ := by
  unfold newTable
  rw [h1, h2, h3, h4, h5]
  rfl

/-- Prove that a name is set once in settings with known names. -/
macro "set_once" : tactic =>
  `(tactic| ((first | refine get_of_mem ?_ ?_ | refine on_of_mem ?_ ?_)
             · simp only [settle, gShared, gHost, List.map, List.append, List.cons_append, List.nil_append]
               decide +kernel
             · simp only [settle, gShared, gHost, List.append, List.cons_append, List.nil_append, Option.getD_some, Option.getD_none, List.mem_cons, if_true, true_or,
                 or_true]))

/-- Prove that a name is not set in settings with known names. -/
macro "not_set" : tactic =>
  `(tactic| ((first | refine get_of_not_mem ?_ | refine on_of_not_mem ?_)
             simp only [settle, gShared, gHost, List.map, List.append, List.cons_append, List.nil_append]
             decide +kernel))

theorem found_shared (G : Globals) : Found (settle (gShared G)) G false [] [] ⟨0, 1, 2, 3, 4⟩ where
  homedir _ := by set_once
  loglevel _ := by set_once
  logdir _ := by set_once
  console := by not_set
  keyserver := by not_set
  host := by not_set
  port := by not_set
  table := table_of (parseFD_const (v := tStdin) (by not_set) 0 (by decide +kernel)) (parseFD_const (v := tStdout) (by not_set) 1 (by decide +kernel))
    (parseFD_const (v := tStderr) (by not_set) 2 (by decide +kernel)) (parseFD_const (v := [51]) (by not_set) 3 (by decide +kernel))
    (parseFD_const (v := [52]) (by not_set) 4 (by decide +kernel))

theorem found_host (G : Globals) (host : Bytes) : Found (settle (gShared G ++ gHost host)) G false host tPort ⟨0, 1, 2, 3, 4⟩ where
  homedir _ := by set_once
  loglevel _ := by set_once
  logdir _ := by set_once
  console := by not_set
  keyserver := by not_set
  host := by set_once
  port := by set_once
  table := table_of (parseFD_const (v := tStdin) (by not_set) 0 (by decide +kernel)) (parseFD_const (v := tStdout) (by not_set) 1 (by decide +kernel))
    (parseFD_const (v := tStderr) (by not_set) 2 (by decide +kernel)) (parseFD_const (v := [51]) (by not_set) 3 (by decide +kernel))
    (parseFD_const (v := [52]) (by not_set) 4 (by decide +kernel))

theorem found_rekey (G : Globals) : Found (settle ((tPassphraseFd, some tStdin) :: gShared G)) G false [] [] ⟨0, 1, 2, 0, 4⟩ where
  homedir _ := by set_once
  loglevel _ := by set_once
  logdir _ := by set_once
  console := by not_set
  keyserver := by not_set
  host := by not_set
  port := by not_set
  table := table_of (parseFD_const (v := tStdin) (by not_set) 0 (by decide +kernel)) (parseFD_const (v := tStdout) (by not_set) 1 (by decide +kernel))
    (parseFD_const (v := tStderr) (by not_set) 2 (by decide +kernel)) (parseFD_const (v := tStdin) (by set_once) 0 (by decide +kernel))
    (parseFD_const (v := [52]) (by not_set) 4 (by decide +kernel))

theorem found_create (G : Globals) (o : Nat) (ho : o < 2 ^ 63) (console : Bool) :
    Found (settle ((tOutputFd, some (decInt o)) :: (tPassphraseFd, some tStdin) :: gShared G ++ (if console then [(tLogconsole, none)] else []))) G console [] []
      ⟨0, o, 2, 0, 4⟩ := by
  have hd : (if decInt (o : Int) = tStdin then some 0 else if decInt (o : Int) = tStdout then some 1 else if decInt (o : Int) = tStderr then some 2
      else Mix.atoi (decInt (o : Int))) = some (o : Int) := by
    have h := Transfer.atoi_decInt (t := (o : Int)) (by omega)
    have hne : ∀ x, Mix.atoi x = none → decInt (o : Int) ≠ x := by
      intro x hx e
      rw [e, hx] at h
      cases h
    rw [if_neg (hne _ (by decide +kernel)), if_neg (hne _ (by decide +kernel)), if_neg (hne _ (by decide +kernel)), h]
  cases console with
  | false =>
    exact {
      homedir := fun _ => by set_once
      loglevel := fun _ => by set_once
      logdir := fun _ => by set_once
      console := by not_set
      keyserver := by not_set
      host := by not_set
      port := by not_set
      table := table_of (parseFD_const (v := tStdin) (by not_set) 0 (by decide +kernel)) (parseFD_const (v := decInt (o : Int)) (by set_once) o hd)
        (parseFD_const (v := tStderr) (by not_set) 2 (by decide +kernel)) (parseFD_const (v := tStdin) (by set_once) 0 (by decide +kernel))
        (parseFD_const (v := [52]) (by not_set) 4 (by decide +kernel)) }
  | true =>
    exact {
      homedir := fun _ => by set_once
      loglevel := fun _ => by set_once
      logdir := fun _ => by set_once
      console := by set_once
      keyserver := by not_set
      host := by not_set
      port := by not_set
      table := table_of (parseFD_const (v := tStdin) (by not_set) 0 (by decide +kernel)) (parseFD_const (v := decInt (o : Int)) (by set_once) o hd)
        (parseFD_const (v := tStderr) (by not_set) 2 (by decide +kernel)) (parseFD_const (v := tStdin) (by set_once) 0 (by decide +kernel))
        (parseFD_const (v := [52]) (by not_set) 4 (by decide +kernel)) }


theorem int_of_mem {S : Settings} {n : Bytes} {t d : Int} (hn : (S.map (·.1)).Nodup) (h : (n, decInt t) ∈ S) (ht : -2 ^ 63 ≤ t ∧ t < 2 ^ 63) : Int_ S n d = t := by
  unfold Int_
  rw [if_pos (List.any_eq_true.2 ⟨_, h, by simp⟩), get_of_mem hn h, Delay.intFlag_decInt ht]
  rfl

/-- Prove that a number is set once in settings with known names. -/
macro "int_once " h:term : tactic =>
  `(tactic| (refine int_of_mem ?_ ?_ $h
             · simp only [settle, List.map]
               decide +kernel
             · simp only [settle, Option.getD_some, Option.getD_none, List.mem_cons, true_or, or_true]))

theorem no_ints {os : List (Bytes × Opt)} (is : List Item) (h : ((shape is).all fun k => os.lookup k.1 ≠ some .int) = true) : IntsOk os is := by
  intro i hi hl
  rw [List.all_eq_true] at h
  have := h (i.1, i.2.isSome) (List.mem_map_of_mem (f := fun i : Item => (i.1, i.2.isSome)) hi)
  exact absurd hl (of_decide_eq_true this)

theorem cryptJob_search (S T : Settings) : cryptJob ⟨S, [tHashchain, tSearch], T⟩ = some (.search (T.get tId []) (T.on tSearchOnly)) := rfl
theorem cryptJob_deleteUID (S T : Settings) : cryptJob ⟨S, [tUid, tDelete], T⟩ = some (.deleteUID (T.get tId []) (T.on tForce)) := rfl
theorem cryptJob_sync (S T : Settings) : cryptJob ⟨S, [tHashchain, tSync], T⟩ = some (.sync (T.get tDomain [])) := rfl
theorem cryptJob_validate (S T : Settings) : cryptJob ⟨S, [tHashchain, tValidate], T⟩ = some (.validate (T.get tDomain [])) := rfl
theorem cryptJob_encrypt (S T : Settings) :
    cryptJob ⟨S, [tEncrypt], T⟩ = some (.encrypt (T.get tFrom []) (T.get tTo []) (T.on tSign) (T.get tNymaddress [])) := rfl
theorem cryptJob_decrypt (S T : Settings) : cryptJob ⟨S, [tDecrypt], T⟩ = some .decrypt := rfl
theorem cryptJob_quit (S T : Settings) : cryptJob ⟨S, [tQuit], T⟩ = some .quit := rfl
theorem cryptJob_create (S T : Settings) : cryptJob ⟨S, [tDb, tCreate], T⟩ = some (.dbCreate (Int_ T tIterations kdfIterations)) := rfl
theorem cryptJob_rekey (S T : Settings) : cryptJob ⟨S, [tDb, tRekey], T⟩ = some (.dbRekey (Int_ T tIterations kdfIterations)) := rfl
theorem cryptJob_version (S T : Settings) : cryptJob ⟨S, [tDb, tVersion], T⟩ = some .dbVersion := rfl
theorem cryptJob_fetchKeyInit (S T : Settings) : cryptJob ⟨S, [tKeyinit, tFetch], T⟩ = some (.fetchKeyInit (T.get tId [])) := rfl
theorem cryptJob_generate (S T : Settings) : cryptJob ⟨S, [tUid, tGenerate], T⟩ = some (.generate (T.get tId []) (S.on tKeyserver)) := rfl
theorem cryptJob_caps (S T : Settings) : cryptJob ⟨S, [tCaps, tShow], T⟩ = some (.caps true (T.get tDomain []) (T.get tHost [])) := rfl
theorem cryptJob_register (S T : Settings) : cryptJob ⟨S, [tUid, tRegister], T⟩ = some (.register (T.get tId []) (T.get tToken [])) := rfl
theorem cryptJob_addKeyInit (S T : Settings) : cryptJob ⟨S, [tKeyinit, tAdd], T⟩ =
    some (.addKeyInit (T.get tId []) (T.get tMixaddress []) (T.get tNymaddress []) (T.get tToken [])) := rfl
theorem protoJob_create (S T : Settings) : protoJob ⟨S, [tCreate], T⟩ =
    some (.create (toI32 (Int_ T tMindelay 120)) (toI32 (Int_ T tMaxdelay 300)) (T.get tToken []) (T.get tNymaddress [])) := rfl
theorem protoJob_deliver (S T : Settings) : protoJob ⟨S, [tDeliver], T⟩ = some .deliver := rfl
theorem protoJob_fetch (S T : Settings) : protoJob ⟨S, [tFetch], T⟩ = some (.fetch (T.get tServer []) (Int_ T tLast 0)) := rfl

/-- Decide what only depends on the names of options. -/
macro "closed" : tactic =>
  `(tactic| (simp only [shape, gShared, gHost, List.map, List.cons_append, List.nil_append, Option.isSome_some, Option.isSome_none, reduceCtorEq, if_true, if_false]
             decide +kernel))

/-- Calls that may name an alternative key server. -/
theorem perform_host {D : Defaults} {job : Run → Option Job} (G : Globals) (host : Bytes) (path : List Bytes) (is : List Item) (j : Job)
    (h1 : okLine mutecrypt (shape (gShared ⟨[], [], [], false⟩)) path (shape is) = true)
    (h2 : okLine mutecrypt (shape (gShared ⟨[], [], [], false⟩ ++ gHost [])) path (shape is) = true)
    (hi : IntsOk (optsOf mutecrypt path) is) (hj : ∀ S, job ⟨S, path, settle is⟩ = some j) :
    perform D mutecrypt job (shared G ++ viaHost host ++ path ++ write is) =
      some ⟨G.homedir, G.loglevel, G.logdir, false, false, host, if host = [] then [] else tPort, ⟨0, 1, 2, 3, 4⟩, j⟩ := by
  unfold viaHost
  by_cases hh : host = []
  · rw [if_pos hh, if_pos hh, List.append_nil, hh]
    exact perform_found (understand_line mutecrypt (gShared G) is path h1 hi) (found_shared G) (hj _)
  · rw [if_neg hh, if_neg hh]
    exact perform_found (understand_line mutecrypt (gShared G ++ gHost host) is path h2 hi) (found_host G host) (hj _)

/-- Every call of the engine is understood as it is meant. -/
theorem C139_understood (D : Defaults) (G : Globals) (c : Call) (h : c.Fits) :
    perform D c.program.1 c.program.2 (argv G c) = some (c.expected G) := by
  cases c with
  | dbCreate o n =>
    obtain ⟨ho, hn⟩ := h
    have hargs : argv G (.dbCreate o n) = write ((tOutputFd, some (decInt o)) :: (tPassphraseFd, some tStdin) :: gShared G ++
        (if G.logconsole then [(tLogconsole, none)] else [])) ++ [tDb, tCreate] ++ write [(tIterations, some (decInt n))] := by
      unfold argv
      cases G.logconsole <;> rfl
    show perform D mutecrypt cryptJob (argv G (.dbCreate o n)) = _
    rw [hargs]
    refine perform_found (understand_line mutecrypt _ [(tIterations, some (decInt n))] [tDb, tCreate] ?_ ?_) (found_create G o ho G.logconsole) ?_
    · cases G.logconsole <;> closed
    · intro i hi _
      rw [List.mem_singleton.1 hi]
      exact ⟨_, rfl, by rw [Delay.intFlag_decInt hn]; rfl⟩
    · rw [cryptJob_create, show Int_ _ tIterations _ = n by int_once hn]; rfl
  | dbRekey n =>
    refine perform_found (understand_line mutecrypt ((tPassphraseFd, some tStdin) :: gShared G) [(tIterations, some (decInt n))] [tDb, tRekey] (by closed) ?_)
      (found_rekey G) ?_
    · intro i hi _
      rw [List.mem_singleton.1 hi]
      exact ⟨_, rfl, by rw [Delay.intFlag_decInt h]; rfl⟩
    · dsimp only [Call.program]
      rw [cryptJob_rekey, show Int_ _ tIterations _ = n by int_once h]; rfl
  | dbVersion =>
    exact perform_found (understand_line mutecrypt (gShared G) [] [tDb, tVersion] (by closed) (no_ints _ rfl)) (found_shared G) rfl
  | loop host =>
    have := perform_host (D := D) (job := cryptJob) G host [] [] .loop (by closed) (by closed) (no_ints _ rfl) (fun _ => rfl)
    rw [List.append_nil, show write [] = [] from rfl, List.append_nil] at this
    exact this
  | search id host =>
    show perform D mutecrypt cryptJob (shared G ++ viaHost host ++ [tHashchain, tSearch] ++ flag tSearchOnly ++ opt tId id) = _
    rw [List.append_assoc (shared G ++ viaHost host ++ [tHashchain, tSearch])]
    exact perform_host (D := D) (job := cryptJob) G host [tHashchain, tSearch] [(tSearchOnly, none), (tId, some id)] (.search id true) (by closed)
      (by closed) (no_ints _ (by closed))
      (fun S => by rw [cryptJob_search, show Settings.get _ tId _ = id by set_once, show Settings.on _ tSearchOnly = true by set_once])
  | deleteUID id =>
    exact perform_found (understand_line mutecrypt (gShared G) [(tId, some id), (tForce, none)] [tUid, tDelete] (by closed) (no_ints _ (by closed)))
      (found_shared G) (by
        dsimp only [Call.program]
        rw [cryptJob_deleteUID, show Settings.get _ tId _ = id by set_once, show Settings.on _ tForce = true by set_once]; rfl)
  | sync domain host =>
    exact perform_host (D := D) (job := cryptJob) G host [tHashchain, tSync] [(tDomain, some domain)] (.sync domain) (by closed)
      (by closed) (no_ints _ (by closed)) (fun S => by rw [cryptJob_sync, show Settings.get _ tDomain _ = domain by set_once])
  | validate domain host =>
    exact perform_host (D := D) (job := cryptJob) G host [tHashchain, tValidate] [(tDomain, some domain)] (.validate domain) (by closed)
      (by closed) (no_ints _ (by closed)) (fun S => by rw [cryptJob_validate, show Settings.get _ tDomain _ = domain by set_once])
  | encrypt f t s n =>
    cases s with
    | false =>
      exact perform_found (understand_line mutecrypt (gShared G) [(tFrom, some f), (tTo, some t), (tNymaddress, some n)] [tEncrypt] (by closed)
        (no_ints _ (by closed))) (found_shared G) (by
          dsimp only [Call.program]
          rw [cryptJob_encrypt, show Settings.get _ tFrom _ = f by set_once, show Settings.get _ tTo _ = t by set_once,
            show Settings.get _ tNymaddress _ = n by set_once, show Settings.on _ tSign = false by not_set]; rfl)
    | true =>
      exact perform_found (understand_line mutecrypt (gShared G) [(tFrom, some f), (tTo, some t), (tNymaddress, some n), (tSign, none)] [tEncrypt] (by closed)
        (no_ints _ (by closed))) (found_shared G) (by
          dsimp only [Call.program]
          rw [cryptJob_encrypt, show Settings.get _ tFrom _ = f by set_once, show Settings.get _ tTo _ = t by set_once,
            show Settings.get _ tNymaddress _ = n by set_once, show Settings.on _ tSign = true by set_once]; rfl)
  | decrypt =>
    exact perform_found (understand_line mutecrypt (gShared G) [] [tDecrypt] (by closed) (no_ints _ rfl)) (found_shared G) rfl
  | create a b t n =>
    obtain ⟨ha, hb⟩ := h
    have ha' : -2 ^ 63 ≤ a ∧ a < 2 ^ 63 := by unfold Mix.I32 at ha; omega
    have hb' : -2 ^ 63 ≤ b ∧ b < 2 ^ 63 := by unfold Mix.I32 at hb; omega
    refine perform_found (understand_line muteproto (gShared G) [(tMindelay, some (decInt a)), (tMaxdelay, some (decInt b)), (tToken, some t), (tNymaddress, some n)]
      [tCreate] (by closed) ?_) (found_shared G) ?_
    · intro i hi hl
      simp only [List.mem_cons, List.not_mem_nil, or_false] at hi
      rcases hi with rfl | rfl | rfl | rfl
      · exact ⟨_, rfl, by rw [Delay.intFlag_decInt ha']; rfl⟩
      · exact ⟨_, rfl, by rw [Delay.intFlag_decInt hb']; rfl⟩
      · exact absurd hl (by dsimp only; decide +kernel)
      · exact absurd hl (by dsimp only; decide +kernel)
    · dsimp only [Call.program]
      rw [protoJob_create, show Int_ _ tMindelay _ = a by int_once ha', show Int_ _ tMaxdelay _ = b by int_once hb', show Settings.get _ tToken _ = t by set_once,
            show Settings.get _ tNymaddress _ = n by set_once, Delay.toI32_id ha, Delay.toI32_id hb]; rfl
  | deliver =>
    exact perform_found (understand_line muteproto (gShared G) [] [tDeliver] (by closed) (no_ints _ rfl)) (found_shared G) rfl
  | fetch s l =>
    refine perform_found (understand_line muteproto (gShared G) [(tServer, some s), (tLast, some (decInt l))] [tFetch] (by closed) ?_) (found_shared G) ?_
    · intro i hi hl
      simp only [List.mem_cons, List.not_mem_nil, or_false] at hi
      rcases hi with rfl | rfl
      · exact absurd hl (by dsimp only; decide +kernel)
      · exact ⟨_, rfl, by rw [Delay.intFlag_decInt h]; rfl⟩
    · dsimp only [Call.program]
      rw [protoJob_fetch, show Int_ _ tLast _ = l by int_once h, show Settings.get _ tServer _ = s by set_once]; rfl

theorem fields_join : ∀ ws : List Bytes, (∀ w ∈ ws, IsWord w) → Conf.fields 32 (join ws) = ws
  | [], _ => rfl
  | [w], h => by
    have := h w (List.mem_cons_self ..)
    exact Conf.fields_last 32 w this.1 this.2
  | w :: v :: ws, h => by
    have hw := h w (List.mem_cons_self ..)
    show Conf.fields 32 (w ++ 32 :: join (v :: ws)) = _
    rw [Conf.fields_sep 32 w _ hw.1 hw.2, fields_join (v :: ws) (fun x hx => h x (List.mem_cons_of_mem _ hx))]

theorem fields_join_blank : ∀ ws : List Bytes, (∀ w ∈ ws, IsWord w) → Conf.fields 32 (join ws ++ [32]) = ws
  | [], _ => rfl
  | [w], h => by
    have := h w (List.mem_cons_self ..)
    show Conf.fields 32 (w ++ 32 :: []) = _
    rw [Conf.fields_sep 32 w _ this.1 this.2]
    rfl
  | w :: v :: ws, h => by
    have hw := h w (List.mem_cons_self ..)
    show Conf.fields 32 ((w ++ 32 :: join (v :: ws)) ++ [32]) = _
    rw [List.append_assoc, List.cons_append, Conf.fields_sep 32 w _ hw.1 hw.2, fields_join_blank (v :: ws) (fun x hx => h x (List.mem_cons_of_mem _ hx))]

theorem isWord_of (w : Bytes) (h : (w ≠ [] && w.all fun c => c ≠ 32 && !Conf.isSpace c) = true) : IsWord w := by
  rw [Bool.and_eq_true, decide_eq_true_eq, List.all_eq_true] at h
  refine ⟨h.1, fun c hc => ?_⟩
  have := h.2 c hc
  rw [Bool.and_eq_true, decide_eq_true_eq, Bool.not_eq_true'] at this
  exact this

inductive AllWords : List Bytes → Prop
  | nil : AllWords []
  | cons {w : Bytes} {ws : List Bytes} (h : IsWord w) (hs : AllWords ws) : AllWords (w :: ws)

theorem AllWords.all {ws : List Bytes} (h : AllWords ws) : ∀ w ∈ ws, IsWord w := by
  induction h with
  | nil => exact fun _ h => absurd h List.not_mem_nil
  | cons h _ ih =>
    intro v hv
    rcases List.mem_cons.1 hv with rfl | hv
    · exact h
    · exact ih v hv

/-- Constant words, and words that are given. -/
macro "all_words" : tactic =>
  `(tactic| (simp only [Line.words, opt, flag, List.cons_append, List.nil_append]
             refine AllWords.all ?_
             repeat' (with_reducible apply AllWords.cons)
             all_goals (first | with_reducible exact AllWords.nil | with_reducible assumption | (refine isWord_of _ ?_; decide +kernel))))

theorem hear_line (l : Line) (is : List Item) (path : List Bytes) (ht : l.words = write [] ++ path ++ write is) (hw : ∀ w ∈ l.words, IsWord w)
    (h : okLine mutecrypt (shape []) path (shape is) = true) (hi : IntsOk (optsOf mutecrypt path) is) (j : Job) (hj : cryptJob ⟨[], path, settle is⟩ = some j) :
    ∃ r, hear l.text = .run r ∧ cryptJob r = some j := by
  refine ⟨⟨[], path, settle is⟩, ?_, hj⟩
  have hr := understand_line mutecrypt [] is path h hi
  rw [← ht] at hr
  refine Eq.trans ?_ hr
  unfold hear
  cases l with
  | caps d h => show understand mutecrypt (Conf.fields 32 (join _ ++ [32])) = _; rw [fields_join_blank _ hw]
  | _ => show understand mutecrypt (Conf.fields 32 (join _)) = _; rw [fields_join _ hw]

/-- Every line written to the loop is understood as it is meant if the values in it are words; without them, see
`C139_help_violated`. -/
theorem C139_piped_partial (l : Line) (h : l.Plain) : ∃ r, hear l.text = .run r ∧ cryptJob r = some l.meant := by
  cases l with
  | sync d =>
    refine hear_line (.sync d) [(tDomain, some d)] [tHashchain, tSync] rfl (by replace h : IsWord _ := h; all_words) (by closed) (no_ints _ (by closed)) _ ?_
    rw [cryptJob_sync, show Settings.get _ tDomain _ = d by set_once]; rfl
  | validate d =>
    refine hear_line (.validate d) [(tDomain, some d)] [tHashchain, tValidate] rfl (by replace h : IsWord _ := h; all_words) (by closed) (no_ints _ (by closed)) _ ?_
    rw [cryptJob_validate, show Settings.get _ tDomain _ = d by set_once]; rfl
  | search i =>
    refine hear_line (.search i) [(tId, some i)] [tHashchain, tSearch] rfl (by replace h : IsWord _ := h; all_words) (by closed) (no_ints _ (by closed)) _ ?_
    rw [cryptJob_search, show Settings.get _ tId _ = i by set_once, show Settings.on _ tSearchOnly = false by not_set]; rfl
  | fetchKeyInit i =>
    refine hear_line (.fetchKeyInit i) [(tId, some i)] [tKeyinit, tFetch] rfl (by replace h : IsWord _ := h; all_words) (by closed) (no_ints _ (by closed)) _ ?_
    rw [cryptJob_fetchKeyInit, show Settings.get _ tId _ = i by set_once]; rfl
  | generate i =>
    refine hear_line (.generate i) [(tId, some i)] [tUid, tGenerate] rfl (by replace h : IsWord _ := h; all_words) (by closed) (no_ints _ (by closed)) _ ?_
    rw [cryptJob_generate, show Settings.get _ tId _ = i by set_once]; rfl
  | caps d host =>
    obtain ⟨h1, h2⟩ := h
    by_cases hh : host = []
    · have hw : (Line.caps d host).words = [tCaps, tShow] ++ opt tDomain d := by rw [Line.words, if_pos hh, List.append_nil]
      refine hear_line (.caps d host) [(tDomain, some d)] [tCaps, tShow] hw (by rw [hw]; all_words) (by closed) (no_ints _ (by closed)) _ ?_
      rw [cryptJob_caps, show Settings.get _ tDomain _ = d by set_once, show Settings.get _ tHost _ = [] by not_set, hh]; rfl
    · have h2 := h2.resolve_left hh
      have hw : (Line.caps d host).words = [tCaps, tShow] ++ opt tDomain d ++ opt tHost host := by rw [Line.words, if_neg hh]
      refine hear_line (.caps d host) [(tDomain, some d), (tHost, some host)] [tCaps, tShow] hw (by rw [hw]; all_words) (by closed) (no_ints _ (by closed)) _ ?_
      rw [cryptJob_caps, show Settings.get _ tDomain _ = d by set_once, show Settings.get _ tHost _ = host by set_once]; rfl
  | register i t =>
    obtain ⟨h1, h2⟩ := h
    refine hear_line (.register i t) [(tId, some i), (tToken, some t)] [tUid, tRegister] rfl (by all_words) (by closed) (no_ints _ (by closed)) _ ?_
    rw [cryptJob_register, show Settings.get _ tId _ = i by set_once, show Settings.get _ tToken _ = t by set_once]; rfl
  | deleteUID i =>
    refine hear_line (.deleteUID i) [(tForce, none), (tId, some i)] [tUid, tDelete] rfl (by replace h : IsWord _ := h; all_words) (by closed) (no_ints _ (by closed)) _ ?_
    rw [cryptJob_deleteUID, show Settings.get _ tId _ = i by set_once, show Settings.on _ tForce = true by set_once]; rfl
  | addKeyInit i m n t =>
    obtain ⟨h1, h2, h3, h4⟩ := h
    refine hear_line (.addKeyInit i m n t) [(tId, some i), (tMixaddress, some m), (tNymaddress, some n), (tToken, some t)] [tKeyinit, tAdd] rfl (by all_words) (by closed) (no_ints _ (by closed)) _ ?_
    rw [cryptJob_addKeyInit, show Settings.get _ tId _ = i by set_once, show Settings.get _ tMixaddress _ = m by set_once,
      show Settings.get _ tNymaddress _ = n by set_once, show Settings.get _ tToken _ = t by set_once]; rfl
  | quit =>
    exact hear_line .quit [] [tQuit] rfl (by all_words) (by closed) (no_ints _ rfl) _ (cryptJob_quit _ _)

/-- The lines of `contact add` are among them. -/
theorem C139_contact_lines (id domain : Bytes) : (AddContact.steps id domain).map (·.1) =
    [Line.sync domain, .validate domain, .search (AddContact.txtKeyserverAt ++ domain), .search id, .fetchKeyInit id, .quit].map Line.text := by
  simp only [AddContact.steps, List.map_cons, List.map_nil, AddContact.line, Line.text, Line.words, join, opt, List.cons_append, List.nil_append, List.append_assoc]
  rfl

/-- The global options of the loop are those of `Crypt.Loop`. -/
theorem C139_globals (n : Bytes) : declOf true mutecrypt.global n = Crypt.Loop.decl n := by
  by_cases h : n ∈ mutecrypt.global.map (·.1) ++ [tHelp, tH, tVersion, tV]
  · have : ∀ n ∈ mutecrypt.global.map (·.1) ++ [tHelp, tH, tVersion, tV], declOf true mutecrypt.global n = Crypt.Loop.decl n := by decide +kernel
    exact this n h
  · have h1 : mutecrypt.global.lookup n = none := by
      rw [List.lookup_eq_none_iff]
      intro p hp
      rw [bne_iff_ne]
      rintro rfl
      exact h (List.mem_append_left _ (List.mem_map_of_mem hp))
    have h2 : n ∉ [tHelp, tH, tVersion, tV] := fun hn => h (List.mem_append_right _ hn)
    have key : ∀ l : List Bytes, (l.all fun x => (mutecrypt.global.map (·.1) ++ [tHelp, tH, tVersion, tV]).contains x) = true → n ∉ l := by
      intro l hl hn
      have := List.all_eq_true.1 hl n hn
      rw [List.contains_eq_mem, decide_eq_true_eq] at this
      exact h this
    unfold declOf Crypt.Loop.decl
    rw [h1, if_neg (key _ (by decide +kernel)), if_neg (key _ (by decide +kernel))]
    dsimp only
    rw [if_neg]
    simp only [List.mem_cons, List.not_mem_nil, or_false, not_or] at h2
    simp only [true_and, not_or]
    exact ⟨h2.1, h2.2.1, h2.2.2.1, h2.2.2.2⟩

/-- `mutecrypt` in its loop, doing its jobs somehow. -/
def engineOf {σ : Type} (jobs : Job → σ → σ × Crypt.Loop.Res) (usage unknown : List Bytes → Bytes) : Crypt.Loop.Machine σ where
  known a := mutecrypt.commands.any fun e => e.1.head? = some a
  exec S ws w := match command mutecrypt S ws with
    | .refused => (w, .refused (usage ws))
    | .help => (w, .done none)
    | .run r => match cryptJob r with
      | some j => jobs j w
      | none => (w, .done none)
  usage := usage
  unknown := unknown
  scanner := []

def eve : Bytes := "eve@x.org -h".toUTF8.data.toList
def eveDomain : Bytes := "x.org -h".toUTF8.data.toList

/-- C139, violated: the domain of an identity may contain a blank and an option. With "-h" every line written for `contact add` asks for a help
text: the answer is "READY." and nothing is looked up, whatever the state of the key database and the server, and the contact is accepted. -/
theorem C139_help_violated {σ : Type} (jobs : Job → σ → σ × Crypt.Loop.Res) (usage unknown : List Bytes → Bytes) (w : σ) :
    Ident.mapPlus Ident.uniW "eve@x.org -h".toList = .ok ("eve@x.org -h".toList, "x.org -h".toList) ∧
    (∀ l ∈ (AddContact.steps eve eveDomain).map (·.1), l ≠ tQuit → hear l = .help) ∧
    AddContact.fetchContact (engineOf jobs usage unknown) false w eve eveDomain = .ok := by
  refine ⟨by decide +kernel, by decide +kernel, ?_⟩
  let todo : List (Bytes × List Bytes) := (AddContact.todo eve eveDomain).map fun x => (x.1, Conf.fields 32 x.1)
  have hexec : ∀ x ∈ todo, ∀ w, (engineOf jobs usage unknown).exec [] x.2 w = (w, .done none) := by
    intro x hx w
    have : ∀ x ∈ todo, command mutecrypt [] x.2 = .help := by decide +kernel
    show (match command mutecrypt [] x.2 with | .refused => _ | .help => _ | .run _ => _) = _
    rw [this x hx]
  have hcmd : ∀ x ∈ todo, AddContact.Cmd (engineOf jobs usage unknown) x.1 x.2 := by
    intro x hx
    have h1 : ∀ x ∈ todo, Crypt.Loop.words x.1 = x.2 ∧ 10 ∉ x.1 ∧ Scan.dropCR x.1 ≠ [] ∧ x.2 ≠ [Crypt.Loop.txtQuit] ∧ x.1.length ≤ 65535 ∧
      (mutecrypt.commands.any fun e => e.1.head? = some (x.2.headD [])) = true := by decide +kernel
    obtain ⟨a, b, c, d, e, f⟩ := h1 x hx
    exact ⟨a, b, c, d, e, f⟩
  have hall : ∀ ts : List (Bytes × List Bytes), (∀ x ∈ ts, x ∈ todo) → AddContact.AllDone (engineOf jobs usage unknown) (ts.map (·.2)) w w := by
    intro ts
    induction ts with
    | nil => intro _; exact .nil w
    | cons x ts ih =>
      intro hx
      exact .cons (hexec x (hx x (List.mem_cons_self ..)) w) (ih fun y hy => hx y (List.mem_cons_of_mem _ hy))
  have := AddContact.dialogue_cmds (engineOf jobs usage unknown) ⟨w, [], []⟩ todo hcmd (by
    intro c hc w' e he
    obtain ⟨x, hx, rfl⟩ := List.mem_map.1 hc
    rw [hexec x hx w'] at he
    rcases he with he | he <;> cases he) [] 0 w ⟨rfl, rfl, rfl, .inl rfl⟩
  rcases this with ⟨h, -⟩ | ⟨-, h⟩
  · exact h
  · exact absurd ⟨w, hall todo fun x h => h⟩ h

/-! ### Non-vacuity -/

example : (Call.dbCreate 7 64000).Fits ∧ (Call.create 120 (-300) [] []).Fits ∧ (Call.fetch [] 1446000000).Fits := by
  refine ⟨⟨by omega, by omega, by omega⟩, ⟨?_, ?_⟩, by unfold Call.Fits; omega⟩ <;> (unfold Mix.I32; omega)

/-- A call and what it comes to. -/
example : perform ⟨"/root".toUTF8.data.toList, []⟩ mutecrypt cryptJob (argv ⟨"/h".toUTF8.data.toList, tInfo, "/l".toUTF8.data.toList, true⟩
    (.encrypt "a@b".toUTF8.data.toList "--help".toUTF8.data.toList true "n".toUTF8.data.toList)) =
    some ⟨"/h".toUTF8.data.toList, tInfo, "/l".toUTF8.data.toList, false, false, [], [], ⟨0, 1, 2, 3, 4⟩,
      .encrypt "a@b".toUTF8.data.toList "--help".toUTF8.data.toList true "n".toUTF8.data.toList⟩ := by
  decide +kernel

/-- Not everything is understood. -/
example : understand mutecrypt [tUid, tDelete] = .refused ∧ understand mutecrypt [tUid, tDelete, [45, 104]] = .help ∧
    understand mutecrypt [tDecrypt, tQuit] = .refused := by
  decide +kernel

example : (Line.addKeyInit "a@b".toUTF8.data.toList "m".toUTF8.data.toList "n".toUTF8.data.toList "t=".toUTF8.data.toList).Plain ∧
    (Line.caps tDomain []).Plain := by
  refine ⟨⟨isWord_of _ (by decide +kernel), isWord_of _ (by decide +kernel), isWord_of _ (by decide +kernel), isWord_of _ (by decide +kernel)⟩,
    isWord_of _ (by decide +kernel), .inl rfl⟩

end Verif.Ctrl.Calls
