/-
encdb/keyfile.go and encdb/encdb.go: key files and re-keying, over a file
system. File operations are lists of steps, so that a crash can stop them
anywhere.
-/
import Verif.Wire.Model
import Verif.Cipher.Aes

namespace Verif.Encdb
open Verif.Cipher

/-- `pbkdf2.Key(…, 32, sha256.New)` and the block cipher. -/
structure Prims where
  block : Block
  kdf : Bytes → Bytes → Nat → Bytes

structure Prims.Good (P : Prims) : Prop where
  block : P.block.Good
  kdf_len : ∀ pass salt iter, (P.kdf pass salt iter).length = 32

/-- A file system: the content of every existing file. -/
abbrev FS := Bytes → Option Bytes

/-- The file operations used. -/
inductive Step where
  | remove (f : Bytes)
  | create (f : Bytes)
  | append (f data : Bytes)
  | rename (src dst : Bytes)
  deriving DecidableEq, Repr

def upd (fs : FS) (f : Bytes) (v : Option Bytes) : FS := fun g => if g = f then v else fs g

/-- Effect of a completed step; a rename replaces its target atomically. -/
def apply (fs : FS) : Step → FS
  | .remove f => upd fs f none
  | .create f => upd fs f (some [])
  | .append f d => upd fs f (some ((fs f).getD [] ++ d))
  | .rename s d => upd (upd fs d (fs s)) s none

def applyAll (fs : FS) (steps : List Step) : FS := steps.foldl apply fs

/-- A write may be cut off after any byte. -/
def fine : Step → List Step
  | .append f d => d.map fun b => .append f [b]
  | s => [s]

/-- The file systems a process crash during `steps` can leave. -/
def CrashState (fs : FS) (steps : List Step) (fs' : FS) : Prop :=
  ∃ k, fs' = applyAll fs ((steps.flatMap fine).take k)

inductive Err where
  | notFound
  | exist
  | iter
  | keyLen
  | eof
  | wrongKey
  deriving DecidableEq, Repr

/-- `writeKeyfile` (keyfile.go:47-94); `salt` and `iv` are the random values.
Returns the file steps and the result. -/
def writeKeyfile (P : Prims) (fs : FS) (f pass : Bytes) (iter : Int) (key salt iv : Bytes) :
    List Step × Res Err Unit :=
  if (fs f).isSome then ([], .err .exist)
  else if iter < 0 ∨ iter > 2147483647 then ([], .err .iter)
  else if key.length ≠ 32 then ([], .err .keyLen)
  else
    let dk := P.kdf pass salt iter.toNat
    match cbcEncrypt P.block dk key iv with
    | .ok encKey =>
      ([.create f, .append f (Wire.toByte8 (UInt64.ofNat iter.toNat)), .append f salt,
        .append f encKey], .ok ())
    | _ => ([.create f], .panic)

/-- `keyfile.Read(buf)` with an `n` byte buffer: end of file is an error, a
short read is not and leaves the rest of the buffer zero. -/
def readBuf (n : Nat) (rest : Bytes) : Option (Bytes × Bytes) :=
  if rest = [] then none
  else some (rest.take n ++ List.replicate (n - rest.length) 0, rest.drop n)

/-- `ReadKeyfile` (keyfile.go:117-148). -/
def readKeyfile (P : Prims) (fs : FS) (f pass : Bytes) : Res Err Bytes :=
  match fs f with
  | none => .err .notFound
  | some content => match readBuf 8 content with
    | none => .err .eof
    | some (biter, r1) => match Wire.toUint64 biter with
      | .err _ => .panic
      | .panic => .panic
      | .ok uiter =>
        if uiter > 2147483647 then .err .iter else
        match readBuf 32 r1 with
        | none => .err .eof
        | some (salt, r2) => match readBuf 48 r2 with
          | none => .err .eof
          | some (encKey, _) =>
            match cbcDecrypt P.block (P.kdf pass salt uiter.toNat) encKey with
            | .ok key => .ok key
            | .err _ => .panic
            | .panic => .panic

/-- The suffix ".new". -/
def newSuffix : Bytes := [46, 110, 101, 119]

/-- `replaceKeyfile` (keyfile.go:150-161). Removing a left-over temporary file
is taken to succeed. -/
def replaceKeyfile (P : Prims) (fs : FS) (f oldPass newPass : Bytes) (newIter : Int)
    (salt iv : Bytes) : List Step × Res Err Unit :=
  match readKeyfile P fs f oldPass with
  | .err e => ([], .err e)
  | .panic => ([], .panic)
  | .ok key =>
    let tmp := f ++ newSuffix
    let fs1 := apply fs (.remove tmp)
    match writeKeyfile P fs1 tmp newPass newIter key salt iv with
    | (ws, .ok ()) => (.remove tmp :: ws ++ [.rename tmp f], .ok ())
    | (ws, .err e) => (.remove tmp :: ws, .err e)
    | (ws, .panic) => (.remove tmp :: ws, .panic)

/-- `Open` (encdb.go:129-167) as far as the key goes: the database opens if the
key file yields the key it was created with (the key test of line 162). -/
def openDB (P : Prims) (fs : FS) (f dbKey pass : Bytes) : Res Err Unit :=
  match readKeyfile P fs f pass with
  | .ok key => if key = dbKey then .ok () else .err .wrongKey
  | .err e => .err e
  | .panic => .panic

/-- `Rekey` (encdb.go:181-189). -/
def rekey (P : Prims) (fs : FS) (f dbKey oldPass newPass : Bytes) (newIter : Int)
    (salt iv : Bytes) : List Step × Res Err Unit :=
  match openDB P fs f dbKey oldPass with
  | .ok () => replaceKeyfile P fs f oldPass newPass newIter salt iv
  | .err e => ([], .err e)
  | .panic => ([], .panic)

/-- `Create` (encdb.go:64-118): the checks and the key file, then the database
file (its content is one step here). -/
def create (P : Prims) (fs : FS) (db f pass : Bytes) (iter : Int) (key salt iv : Bytes) :
    List Step × Res Err Unit :=
  if (fs db).isSome then ([], .err .exist)
  else if (fs f).isSome then ([], .err .exist)
  else match writeKeyfile P fs f pass iter key salt iv with
    | (ws, .ok ()) => (ws ++ [.create db], .ok ())
    | r => r

/-- `Open` including the existence checks (encdb.go:133-138). -/
def openFull (P : Prims) (fs : FS) (db f dbKey pass : Bytes) : Res Err Unit :=
  if (fs db).isNone then .err .notFound
  else if (fs f).isNone then .err .notFound
  else openDB P fs f dbKey pass

end Verif.Encdb
