/-
uid/identity/identity.go: mapping of identities.

Strings are lists of Unicode characters (valid UTF-8; an invalid byte in a
local part is reported as an illegal character by the Go code). Go's length is
the UTF-8 length.
-/
import Verif.Go

namespace Verif.Ident

/-- The parts of Go's `unicode` package the code uses: `unicode.ToLower` (through
`strings.ToLower`) and `unicode.IsSpace` (through `strings.TrimSpace`). -/
structure Unicode where
  lower : Char → Char
  space : Char → Bool

/-- Facts about `unicode.ToLower` and `unicode.IsSpace` used by the proofs. -/
structure Unicode.Good (U : Unicode) : Prop where
  /-- lower case of the characters that may stay in an identity -/
  lower_fix : ∀ c, (c.isLower ∨ c.isDigit ∨ c = '-' ∨ c = '.') → U.lower c = c
  /-- lower-casing twice is lower-casing once -/
  lower_idem : ∀ c, U.lower (U.lower c) = U.lower c
  /-- lower-casing makes no '@' -/
  lower_at : ∀ c, U.lower c = '@' ↔ c = '@'
  /-- identity characters are not white space -/
  space_no : ∀ c, (c.isLower ∨ c.isDigit ∨ c = '-' ∨ c = '.') → U.space c = false

/-- Errors of the package (identity.go:22-25, 85-152, 167). -/
inductive Err where
  | notMapped
  | tooLong
  | minLength
  | startSep
  | endSep
  | sequence
  | character
  | maxLength
  | noSingleAt
  deriving DecidableEq, Repr

abbrev Str := List Char

/-- Go's `len(s)`. -/
def byteLen (s : Str) : Nat := (s.map Char.utf8Size).sum

/-- `MaxLen` (identity.go:19). -/
def maxLen : Nat := 254

/-- `strings.Split(s, "@")`. -/
def splitAt : Str → List Str
  | [] => [[]]
  | c :: cs =>
    if c = '@' then [] :: splitAt cs
    else match splitAt cs with
      | [] => [[c]]
      | p :: ps => (c :: p) :: ps

/-- `Split` (identity.go:164-170). -/
def split (identity : Str) : Res Err (Str × Str) :=
  match splitAt identity with
  | [lp, domain] => .ok (lp, domain)
  | _ => .err .noSingleAt

/-- `MapDomain` (identity.go:159-161). -/
def mapDomain (U : Unicode) (domain : Str) : Str := domain.map U.lower

/-- `strings.TrimSpace`. -/
def trimSpace (U : Unicode) (s : Str) : Str :=
  ((s.dropWhile U.space).reverse.dropWhile U.space).reverse

/-- `strings.Contains(s, string(a, b))` for a two character sequence. -/
def containsPair (a b : Char) : Str → Bool
  | x :: y :: rest => (x == a && y == b) || containsPair a b (y :: rest)
  | _ => false

/-- The closure `mapping` (identity.go:126-144); `none` is the error case. -/
def mapping (r : Char) : Option Char :=
  if r = '0' then some 'o'
  else if r = '1' then some 'l'
  else if r = 'j' then some 'i'
  else if 'a' ≤ r ∧ r ≤ 'z' then some r
  else if '2' ≤ r ∧ r ≤ '9' then some r
  else if r = '-' ∨ r = '.' then some r
  else none

/-- `strings.Map(mapping, lp)` together with the captured error
(identity.go:125-148). -/
def mapAll : Str → Option Str
  | [] => some []
  | c :: cs => match mapping c, mapAll cs with
    | some d, some ds => some (d :: ds)
    | _, _ => none

/-- `MapLocalpart` (identity.go:76-156). The byte tests on the first and last
byte are tests on the first and last character, because '-' and '.' are ASCII. -/
def mapLocalpart (U : Unicode) (localpart : Str) : Res Err Str :=
  let lp := (trimSpace U localpart).map U.lower
  if byteLen lp < 3 then .err .minLength
  else if lp.head? = some '-' then .err .startSep
  else if lp.head? = some '.' then .err .startSep
  else if lp.getLast? = some '-' then .err .endSep
  else if lp.getLast? = some '.' then .err .endSep
  else if containsPair '-' '-' lp then .err .sequence
  else if containsPair '-' '.' lp then .err .sequence
  else if containsPair '.' '-' lp then .err .sequence
  else if containsPair '.' '.' lp then .err .sequence
  else match mapAll lp with
    | none => .err .character
    | some lp => if byteLen lp > 64 then .err .maxLength else .ok lp

/-- `Map` (identity.go:29-42). -/
def map (U : Unicode) (identity : Str) : Res Err Str :=
  if byteLen identity > maxLen then .err .tooLong else
  match split identity with
  | .ok (lp, domain) => match mapLocalpart U lp with
    | .ok mlp => .ok (mlp ++ '@' :: mapDomain U domain)
    | .err e => .err e
    | .panic => .panic
  | .err e => .err e
  | .panic => .panic

/-- `IsMapped` (identity.go:46-52); `true` is the nil error. -/
def isMapped (U : Unicode) (identity : Str) : Bool :=
  match map U identity with
  | .ok m => m == identity
  | _ => false

/-- `MapPlus` (identity.go:57-72). -/
def mapPlus (U : Unicode) (identity : Str) : Res Err (Str × Str) :=
  if byteLen identity > maxLen then .err .tooLong else
  match split identity with
  | .ok (lp, domain) => match mapLocalpart U lp with
    | .ok mlp => .ok (mlp ++ '@' :: mapDomain U domain, mapDomain U domain)
    | .err e => .err e
    | .panic => .panic
  | .err e => .err e
  | .panic => .panic

end Verif.Ident
