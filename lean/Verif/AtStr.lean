import Verif.AtCore
/-!
# cellular_at_core.c at the level of string values

The same functions as `Verif.AtCore`, on string *contents* instead of a memory object.  The models of
the higher layers are written with these; `Verif.AtCoreLemmas` proves that the byte-buffer model of
`Verif.AtCore` computes exactly these values (and touches nothing else).
`Option Str` stands for a `char *` that may be NULL.
-/

namespace Cellular.AtStr
open Cellular AtCore

/-- What `validateString` accepts, cellular_at_core.c:67-92. -/
def valid (s : Str) : Bool := s != [] && s.length ≤ maxStringSize

/-- cellular_at_core.c:356-405. -/
def removeAllWhiteSpaces (s : Str) : AtErr × Str :=
  if valid s then (.success, s.filter (fun b => !isSpace b)) else (.badParameter, s)

/-- cellular_at_core.c:461-503. -/
def removeAllDoubleQuote (s : Str) : AtErr × Str :=
  if valid s then (.success, s.filter (fun b => !(b == 34))) else (.badParameter, s)

/-- cellular_at_core.c:263-299. -/
def removeLeadingWhiteSpaces (s : Str) : AtErr × Str :=
  if valid s then (.success, s.dropWhile isSpace) else (.badParameter, s)

/-- The list without its trailing elements satisfying `f`. -/
def dropTrailing (f : Byte → Bool) (l : Str) : Str := (l.reverse.dropWhile f).reverse

/-- cellular_at_core.c:303-352: nothing for length <= 2; the first character is never removed. -/
def removeTrailingWhiteSpaces (s : Str) : AtErr × Str :=
  if valid s then
    (.success, if s.length > 2 then s.take 1 ++ dropTrailing isSpace (s.drop 1) else s)
  else (.badParameter, s)

/-- cellular_at_core.c:409-457: for length > 2, a leading quote and a trailing quote are removed
independently of each other. -/
def removeOutermostDoubleQuote (s : Str) : AtErr × Str :=
  if valid s then
    (.success,
      if s.length > 2 then
        let s1 := if s.head? = some 34 then s.drop 1 else s
        if s1.getLast? = some 34 then s1.dropLast else s1
      else s)
  else (.badParameter, s)

/-- cellular_at_core.c:96-159; second component `none` = result not written. -/
def isPrefixPresent (s : Str) : AtErr × Option Bool :=
  if valid s then
    (.success, some (s.contains 58 && (s.head? == some 43) &&
      (s.takeWhile (fun b => b != 58)).all (fun b => !notPrefixChar b)))
  else (.badParameter, none)

/-- cellular_at_core.c:163-215. -/
def strStartWith (s k : Str) : AtErr × Option Bool :=
  if valid s && valid k then (.success, some (k.isPrefixOf s)) else (.badParameter, none)

/-- cellular_at_core.c:219-259. -/
def removePrefix (s : Str) : AtErr × Option Str :=
  if valid s then
    if s.contains 58 then (.success, some ((s.dropWhile (fun b => b != 58)).drop 1))
    else (.badParameter, none)
  else (.badParameter, some s)

/-- cellular_at_core.c:507-585 for a one-character delimiter: status, rest, token. -/
def getTok (d : Byte) (s : Str) : AtErr × Str × Option Str :=
  if valid s then
    (.success, (s.dropWhile (fun b => b != d)).drop 1, some (s.takeWhile (fun b => b != d)))
  else (.badParameter, s, none)

/-- `Cellular_ATGetNextTok`, cellular_at_core.c:507-524. -/
def getNextTok (s : Str) : AtErr × Str × Option Str := getTok 44 s

/-- cellular_at_core.c:677-719. -/
def isStrDigit (s : Str) : AtErr × Option Bool :=
  if valid s then (.success, some (s.all isDigit)) else (.badParameter, none)

/-- cellular_at_core.c:723-763 for key lists of at most 255 entries (beyond that the C loop may not
terminate, see `AtCoreProps`).  Keys that are not valid strings never match. -/
def checkErrorCode (s : Str) (keys : Option (List Str)) : AtErr × Option Bool :=
  match keys with
  | none => (.badParameter, none)
  | some keys =>
    if valid s then (.success, some (keys.any (fun k => valid k && k.isPrefixOf s)))
    else (.badParameter, none)

end Cellular.AtStr
