import Verif.CStr
/-!
# Model of source/cellular_at_core.c (byte-buffer level)

Every function works on one memory object `m` and an offset; the outcome `none` is undefined
behaviour (a read or write outside the object, or use of a null pointer).  NULL arguments are
`none : Option Nat`; for `char **` parameters "the pointer is NULL" and "it points to NULL" are one
case because the code treats them alike.
-/

namespace Cellular.AtCore
open Cellular

/-- `CellularATError_t`, source/include/common/cellular_at_core.h. -/
inductive AtErr
  | success | badParameter | noMemory | unsupported | modemError | error | unknown
  deriving DecidableEq, Repr

/-- `CELLULAR_AT_MAX_STRING_SIZE`, source/include/cellular_config_defaults.h (default). -/
def maxStringSize : Nat := 256

/-- `CellularATStringValidationResult_t`, cellular_at_core.c:45-56. -/
inductive StrValid | empty | tooLarge | valid
  deriving DecidableEq, Repr

/-- `validateString`, cellular_at_core.c:67-92. -/
def validateString (m : Mem) (p : Nat) : Option StrValid :=
  match memchr0L (m.drop p) (maxStringSize + 1) with
  | none => none
  | some (some 0) => some .empty
  | some none => some .tooLarge
  | some (some _) => some .valid

/-- Macro CELLULAR_CHECK_IS_PREFIX_LEADING_CHAR, cellular_config_defaults.h:419. -/
def isPrefixLeading (b : Byte) : Bool := b == 43

/-- Macro CELLULAR_CHECK_IS_PREFIX_CHAR, cellular_config_defaults.h:436-440.  NB: true when the
character is *not* allowed in a prefix. -/
def notPrefixChar (b : Byte) : Bool :=
  !isAlpha b && !isDigit b && b != 95 && !isPrefixLeading b

/-- The `for` loop of `Cellular_ATIsPrefixPresent`, cellular_at_core.c:137-154: `n` characters left
before the colon. -/
def prefixLoop : List Byte → Nat → Option Bool
  | _, 0 => some true
  | [], _ + 1 => none
  | b :: t, n + 1 => if notPrefixChar b then some false else prefixLoop t n

/-- `Cellular_ATIsPrefixPresent`, cellular_at_core.c:96-159.  Second component: the value stored in
`*pResult`, `none` when it is not written. -/
def isPrefixPresent (m : Mem) (p : Option Nat) : Option (AtErr × Option Bool) :=
  match p with
  | none => some (.badParameter, none)
  | some p => do
    let v ← validateString m p
    if v ≠ .valid then return (.badParameter, none)
    match ← strchrL 58 (m.drop p) with
    | none => return (.success, some false)
    | some colon =>
      let c ← rd m p
      if !isPrefixLeading c then return (.success, some false)
      let r ← prefixLoop (m.drop p) colon
      return (.success, some r)

/-- Loop of `Cellular_ATStrStartWith`, cellular_at_core.c:201-211. -/
def startWithLoop : List Byte → List Byte → Option Bool
  | _, [] => none
  | s, b :: t =>
    if b = 0 then some true
    else match s with
      | [] => none
      | c :: s' => if b ≠ c then some false else startWithLoop s' t

/-- `Cellular_ATStrStartWith`, cellular_at_core.c:163-215.  The string is at `p` in `m`, the prefix
at `q` in `k` (two objects, only read). -/
def strStartWith (m : Mem) (p : Option Nat) (k : Mem) (q : Option Nat) :
    Option (AtErr × Option Bool) :=
  match p, q with
  | some p, some q => do
    let v ← validateString m p
    if v ≠ .valid then return (.badParameter, none)
    let v ← validateString k q
    if v ≠ .valid then return (.badParameter, none)
    let r ← startWithLoop (m.drop p) (k.drop q)
    return (.success, some r)
  | _, _ => some (.badParameter, none)

/-- `Cellular_ATRemovePrefix`, cellular_at_core.c:219-259: new value of `*ppString`
(`none` = NULL). -/
def removePrefix (m : Mem) (p : Option Nat) : Option (AtErr × Option Nat) :=
  match p with
  | none => some (.badParameter, none)
  | some p => do
    let v ← validateString m p
    if v ≠ .valid then return (.badParameter, some p)
    match ← strchrL 58 (m.drop p) with
    | none => return (.badParameter, none)
    | some c => return (.success, some (p + c + 1))

/-- Loop of `Cellular_ATRemoveLeadingWhiteSpaces`, cellular_at_core.c:292-295: how far the pointer
advances. -/
def leadingLoop : List Byte → Option Nat
  | [] => none
  | b :: t => if b ≠ 0 ∧ isSpace b = true then (leadingLoop t).map (· + 1) else some 0

/-- `Cellular_ATRemoveLeadingWhiteSpaces`, cellular_at_core.c:263-299. -/
def removeLeadingWhiteSpaces (m : Mem) (p : Option Nat) : Option (AtErr × Option Nat) :=
  match p with
  | none => some (.badParameter, none)
  | some p => do
    let v ← validateString m p
    if v ≠ .valid then return (.badParameter, some p)
    let n ← leadingLoop (m.drop p)
    return (.success, some (p + n))

/-- The do-while of `Cellular_ATRemoveTrailingWhiteSpaces`, cellular_at_core.c:335-345.  The pointer
`p` of the C code is `base + off`; each round decrements it first, and continues while it is above
`base` and on a white space.  Result: the offset where the loop stops. -/
def trailingLoop (m : Mem) (base : Nat) : Nat → Option Nat
  | 0 => none                      -- `--p` below the string: never reached (off starts > 2)
  | off + 1 =>
    if off = 0 then some 0         -- `p > pString` is false; `*p` is not read
    else match rd m (base + off) with
      | none => none
      | some b => if isSpace b then trailingLoop m base off else some off

/-- `Cellular_ATRemoveTrailingWhiteSpaces`, cellular_at_core.c:303-352. -/
def removeTrailingWhiteSpaces (m : Mem) (p : Option Nat) : Option (AtErr × Mem) :=
  match p with
  | none => some (.badParameter, m)
  | some p => do
    let v ← validateString m p
    if v ≠ .valid then return (.badParameter, m)
    let len ← strlen m p
    if len > 2 then
      let off ← trailingLoop m p len
      let m' ← wr m (p + off + 1) 0
      return (.success, m')
    else return (.success, m)

/-- The compaction loop of `Cellular_ATRemoveAllWhiteSpaces` (cellular_at_core.c:383-401) and of
`Cellular_ATRemoveAllDoubleQuote` (488-499); `del b` = the character is to be removed.  `r` is the
read pointer, `w` = `&p[ind]` the write position.  `ind` is a `uint16_t` in the C code; it never
exceeds the string length (<= 256), so it is modelled without wrap-around. -/
def compactLoop (del : Byte → Bool) (m : Mem) (r w : Nat) : Option Mem :=
  match h : rd m r with
  | none => none
  | some b =>
    if b = 0 then wr m w 0
    else if del b then compactLoop del m (r + 1) w
    else match hw : wr m w b with
      | none => none
      | some m' => compactLoop del m' (r + 1) (w + 1)
termination_by m.length - r
decreasing_by
  all_goals
    simp only [rd] at h
    have hr : r < m.length := by
      rcases Nat.lt_or_ge r m.length with h' | h'
      · exact h'
      · rw [List.getElem?_eq_none h'] at h; exact absurd h (by simp)
  · omega
  · have : m'.length = m.length := by
      unfold wr at hw; split at hw
      · injection hw with hw; rw [← hw]; simp
      · exact absurd hw (by simp)
    omega

/-- `Cellular_ATRemoveAllWhiteSpaces`, cellular_at_core.c:356-405. -/
def removeAllWhiteSpaces (m : Mem) (p : Option Nat) : Option (AtErr × Mem) :=
  match p with
  | none => some (.badParameter, m)
  | some p => do
    let v ← validateString m p
    if v ≠ .valid then return (.badParameter, m)
    let m' ← compactLoop isSpace m p p
    return (.success, m')

/-- `Cellular_ATRemoveAllDoubleQuote`, cellular_at_core.c:461-503. -/
def removeAllDoubleQuote (m : Mem) (p : Option Nat) : Option (AtErr × Mem) :=
  match p with
  | none => some (.badParameter, m)
  | some p => do
    let v ← validateString m p
    if v ≠ .valid then return (.badParameter, m)
    let m' ← compactLoop (fun b => b == 34) m p p
    return (.success, m')

/-- `Cellular_ATRemoveOutermostDoubleQuote`, cellular_at_core.c:409-457: new `*ppString` and
memory. -/
def removeOutermostDoubleQuote (m : Mem) (p : Option Nat) : Option (AtErr × Option Nat × Mem) :=
  match p with
  | none => some (.badParameter, none, m)
  | some p => do
    let v ← validateString m p
    if v ≠ .valid then return (.badParameter, some p, m)
    let len ← strlen m p
    if len > 2 then
      let c ← rd m p
      let p' := if c = 34 then p + 1 else p
      let l' ← strlen m p'                 -- while( *p != '\0' ) p++;
      if p' + l' = 0 then none else        -- *--p before the object
      let e ← rd m (p' + l' - 1)
      if e = 34 then
        let m' ← wr m (p' + l' - 1) 0
        return (.success, some p', m')
      else return (.success, some p', m)
    else return (.success, some p, m)

/-- Result of the tokenizer: status, new `*ppString`, token pointer, memory. -/
structure TokRes where
  status : AtErr
  next : Option Nat
  tok : Option Nat
  mem : Mem
  deriving DecidableEq, Repr

/-- `Cellular_ATGetSpecificNextTok`, cellular_at_core.c:528-585.  The delimiter string is constant
and passed by value.  The `uint16_t` lengths cannot truncate (<= 256).  A null token is passed to
`strlen`: undefined behaviour. -/
def getSpecificNextTok (m : Mem) (p : Option Nat) (delim : Str) : Option TokRes :=
  match p with
  | none => some ⟨.badParameter, none, none, m⟩
  | some p => do
    let v ← validateString m p
    if v ≠ .valid then return ⟨.badParameter, some p, none, m⟩
    let dataLen ← strlen m p
    let c ← rd m p
    let (tok, m') ←
      (if c = delim.headD 0 then (do let m' ← wr m p 0; return (some p, m'))
       else strtok m p delim)
    match tok with
    | none => none
    | some t =>
      let tokLen ← strlen m' t
      if tokLen < dataLen then
        let nb ← rd m' (p + tokLen + 1)
        if nb ≠ 0 then return ⟨.success, some (t + tokLen + 1), some t, m'⟩
        else return ⟨.success, some (t + tokLen), some t, m'⟩
      else return ⟨.success, some (t + tokLen), some t, m'⟩

/-- `Cellular_ATGetNextTok`, cellular_at_core.c:507-524. -/
def getNextTok (m : Mem) (p : Option Nat) : Option TokRes := getSpecificNextTok m p [44]

/-- `_charToNibble`, cellular_at_core.c:589-610. -/
def charToNibble (c : Byte) : Byte :=
  if 48 ≤ c ∧ c ≤ 57 then c - 48
  else if 97 ≤ c ∧ c ≤ 102 then c - 97 + 10
  else if 65 ≤ c ∧ c ≤ 70 then c - 65 + 10
  else 255

/-- One output byte of `Cellular_ATHexStrToHex`, cellular_at_core.c:655-666. -/
def hexByte (a b : Byte) : Byte :=
  if charToNibble a = 255 then charToNibble a
  else (charToNibble a <<< 4) ||| charToNibble b

/-- The loop of `Cellular_ATHexStrToHex`, cellular_at_core.c:653-669: `n` iterations left, `i` the
index written in the destination object `dst`. -/
def hexLoop (m : Mem) (r : Nat) (dst : Mem) (i : Nat) : Nat → Option Mem
  | 0 => some dst
  | n + 1 =>
    match rd m r, rd m (r + 1) with
    | some a, some b =>
      match wr dst i (hexByte a b) with
      | none => none
      | some dst' => hexLoop m (r + 2) dst' (i + 1) n
    | _, _ => none

/-- `Cellular_ATHexStrToHex`, cellular_at_core.c:614-673.  `dst` is the object `pHexData` points to
(its real size is its length), `cap` the `hexDataLen` argument. -/
def hexStrToHex (m : Mem) (p : Option Nat) (dst : Option Mem) (cap : Nat) :
    Option (AtErr × Option Mem) :=
  match p, dst with
  | some p, some dst => do
    let v ← validateString m p
    if v ≠ .valid then return (.badParameter, some dst)
    let len ← strlen m p
    if len / 2 ≥ cap then return (.noMemory, some dst)
    let dst' ← hexLoop m p dst 0 (len / 2)
    return (.success, some dst')
  | _, dst => some (.badParameter, dst)

/-- Loop of `Cellular_ATIsStrDigit`, cellular_at_core.c:703-715 (it does not stop early). -/
def isDigitLoop : List Byte → Bool → Option Bool
  | [], _ => none
  | b :: t, acc => if b = 0 then some acc else isDigitLoop t (if isDigit b then acc else false)

/-- `Cellular_ATIsStrDigit`, cellular_at_core.c:677-719. -/
def isStrDigit (m : Mem) (p : Option Nat) : Option (AtErr × Option Bool) :=
  match p with
  | none => some (.badParameter, none)
  | some p => do
    let v ← validateString m p
    if v ≠ .valid then return (.badParameter, none)
    let r ← isDigitLoop (m.drop p) true
    return (.success, some r)

/-- Outcome of a loop that may not terminate. -/
inductive LoopRes (α : Type) | done (a : α) | outOfFuel | ub
  deriving DecidableEq, Repr

/-- The loop of `Cellular_ATcheckErrorCode`, cellular_at_core.c:752-759.  The index is a `uint8_t`
compared with the `size_t` list length, so it wraps at 256: `fuel` bounds the number of iterations
and running out of it is a separate outcome.  The keys are separate C strings. -/
def checkLoop (m : Mem) (p : Nat) (keys : List (Mem × Nat)) : Nat → UInt8 → LoopRes Bool
  | 0, _ => .outOfFuel
  | fuel + 1, i =>
    if i.toNat < keys.length then
      match keys[i.toNat]? with
      | none => .ub
      | some (k, q) =>
        match strStartWith m (some p) k (some q) with
        | none => .ub
        | some (.success, some true) => .done true
        | some _ => checkLoop m p keys fuel (i + 1)
    else .done false

/-- `Cellular_ATcheckErrorCode`, cellular_at_core.c:723-763. -/
def checkErrorCode (fuel : Nat) (m : Mem) (p : Option Nat) (keys : Option (List (Mem × Nat))) :
    LoopRes (AtErr × Option Bool) :=
  match p, keys with
  | some p, some keys =>
    match validateString m p with
    | none => .ub
    | some v =>
      if v ≠ .valid then .done (.badParameter, none)
      else match checkLoop m p keys fuel 0 with
        | .done r => .done (.success, some r)
        | .outOfFuel => .outOfFuel
        | .ub => .ub
  | _, _ => .done (.badParameter, none)

/-- Copy loop of `Cellular_ATStrDup`, cellular_at_core.c:798-805, into a fresh object. -/
def dupLoop : List Byte → Mem → Nat → Option Mem
  | [], _, _ => none
  | b :: t, dst, w =>
    if b = 0 then wr dst w 0
    else match wr dst w b with
      | none => none
      | some dst' => dupLoop t dst' (w + 1)

/-- `Cellular_ATStrDup`, cellular_at_core.c:767-814.  `alloc n` is `Platform_Malloc(n)`: NULL or an
object of `n` bytes of arbitrary contents. -/
def strDup (alloc : Nat → Option Mem) (m : Mem) (p : Option Nat) : Option (AtErr × Option Mem) :=
  match p with
  | none => some (.badParameter, none)
  | some p => do
    let v ← validateString m p
    if v ≠ .valid then return (.badParameter, none)
    let len ← strlen m p
    match alloc (len + 1) with
    | none => return (.noMemory, none)
    | some dst =>
      let dst' ← dupLoop (m.drop p) dst 0
      return (.success, some dst')

/-! ## strtol -/

/-- Value of a digit in `base` (2..36), as `strtol` reads it. -/
def digitVal (base : Nat) (b : Byte) : Option Nat :=
  let v := if isDigit b then some (b.toNat - 48)
    else if 97 ≤ b ∧ b ≤ 122 then some (b.toNat - 97 + 10)
    else if 65 ≤ b ∧ b ≤ 90 then some (b.toNat - 65 + 10)
    else none
  match v with
  | some d => if d < base then some d else none
  | none => none

/-- Digits are read as long as they are valid; value and whether there was at least one. -/
def digitsLoop (base : Nat) : Str → Nat → Bool → Nat × Bool
  | [], acc, any => (acc, any)
  | b :: t, acc, any =>
    match digitVal base b with
    | some d => digitsLoop base t (acc * base + d) true
    | none => (acc, any)

/-- The optional `0x` of base 16 (only skipped when a hexadecimal digit follows). -/
def skip0x (base : Nat) (s : Str) : Str :=
  match s with
  | 48 :: x :: d :: t =>
    if base = 16 ∧ (x = 120 ∨ x = 88) ∧ (digitVal 16 d).isSome then d :: t else s
  | _ => s

/-- The optional sign of `strtol`. -/
def splitSign : Str → Bool × Str
  | 45 :: t => (true, t)
  | 43 :: t => (false, t)
  | s => (false, s)

/-- `strtol(s, &end, base)` (C11 7.22.1.4) for base 2..36 on a C string: the (saturated) value and
whether any conversion was performed (`end != s`).  `longMax` is LONG_MAX of the platform
(2^31-1 on the 32-bit targets, 2^63-1 on 64-bit hosts). -/
def strtol (longMax : Nat) (base : Nat) (s : Str) : Int × Bool :=
  let sg := splitSign (s.dropWhile isSpace)
  let r := digitsLoop base (skip0x base sg.2) 0 false
  if r.2 then
    (if sg.1 then (if r.1 ≤ longMax + 1 then -(r.1 : Int) else -((longMax : Int) + 1))
     else (if r.1 ≤ longMax then (r.1 : Int) else (longMax : Int)), true)
  else (0, false)

/-- Conversion of a `long` to `int32_t` (wraps modulo 2^32; implementation-defined in C, and this is
what gcc, clang and the ARM compilers define). -/
def toInt32 (v : Int) : Int := (v + 2 ^ 31) % 2 ^ 32 - 2 ^ 31

/-- `Cellular_ATStrtoi`, cellular_at_core.c:818-858, on a C string: status and the value stored in
`*pResult` (`none` = not written).  The string is only read, up to its terminator, so it is passed
by value; NULL is `none`. -/
def strtoi (longMax : Nat) (s : Option Str) (base : Nat) : AtErr × Option Int :=
  match s with
  | none => (.badParameter, none)
  | some s =>
    match strtol longMax base s with
    | (v, true) => (.success, some (toInt32 v))
    | (_, false) => (.error, none)

end Cellular.AtCore
