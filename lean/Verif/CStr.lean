/-!
# Bytes, C strings and memory objects

Base layer used by every model.  Nothing here models a particular file of the repository: it is the
part of the C language / C library the modelled code relies on.

* `Mem` is one C object (an array of bytes); pointers into it are offsets.
* `rd`/`wr` give `none` - undefined behaviour - outside the object.
* `Str` is the contents of a C string (without its terminator).
-/

namespace Cellular

abbrev Byte := UInt8
/-- Contents of a C string, without the terminating NUL. -/
abbrev Str := List Byte
/-- One C object: a fixed number of bytes. -/
abbrev Mem := List Byte

/-- Text literal to bytes (ASCII). -/
def str (s : String) : Str := s.toList.map (fun c => UInt8.ofNat c.toNat)

/-- `m[i]` as an rvalue; `none` = out of bounds = undefined behaviour. -/
def rd (m : Mem) (i : Nat) : Option Byte := m[i]?

/-- `m[i] = b`; `none` = out of bounds = undefined behaviour. -/
def wr (m : Mem) (i : Nat) (b : Byte) : Option Mem :=
  if i < m.length then some (m.set i b) else none

/-- No NUL among the characters. -/
def NoNul (s : Str) : Prop := ∀ b ∈ s, b ≠ 0

instance (s : Str) : Decidable (NoNul s) := by unfold NoNul; infer_instance

/-- A NUL-terminated string with contents `s` starts at offset `p` of `m`. -/
def CStrAt (m : Mem) (p : Nat) (s : Str) : Prop :=
  NoNul s ∧ ∃ pre post, m = pre ++ (s ++ 0 :: post) ∧ pre.length = p

/-- `isspace` in the "C" locale.  Bytes >= 0x80 are not spaces (for a signed `char` the C standard
leaves `isspace` of them undefined; glibc and newlib answer 0). -/
def isSpace (b : Byte) : Bool := b == 32 || (9 ≤ b && b ≤ 13)

/-- `isdigit`. -/
def isDigit (b : Byte) : Bool := 48 ≤ b && b ≤ 57

/-- `isalpha` in the "C" locale. -/
def isAlpha (b : Byte) : Bool := (65 ≤ b && b ≤ 90) || (97 ≤ b && b ≤ 122)

/-- `strlen` of the string starting at the head of the (rest of the) object. -/
def strlenL : List Byte → Option Nat
  | [] => none
  | b :: t => if b = 0 then some 0 else (strlenL t).map (· + 1)

/-- `strlen(&m[p])`. -/
def strlen (m : Mem) (p : Nat) : Option Nat := strlenL (m.drop p)

/-- `memchr(s, '\0', n)`: position of the first NUL among the first `n` bytes.  C11 7.24.5.1:
the bytes are read sequentially up to the match, so only those must be inside the object. -/
def memchr0L : List Byte → Nat → Option (Option Nat)
  | _, 0 => some none
  | [], _ + 1 => none
  | b :: t, n + 1 => if b = 0 then some (some 0) else (memchr0L t n).map (·.map (· + 1))

/-- `strchr(s, c)` for `c ≠ 0`: outer `none` = ran out of the object, inner `none` = NULL. -/
def strchrL (c : Byte) : List Byte → Option (Option Nat)
  | [] => none
  | b :: t =>
    if b = c then some (some 0)
    else if b = 0 then some none
    else (strchrL c t).map (·.map (· + 1))

/-- `strspn`-like scan used by `strtok`: number of leading characters satisfying `f`
before the first one that does not (the terminator never satisfies it). -/
def spanL (f : Byte → Bool) : List Byte → Option Nat
  | [] => none
  | b :: t => if b ≠ 0 ∧ f b = true then (spanL f t).map (· + 1) else some 0

/-- `strtok(&m[p], delims)`, first call: skip leading delimiters; NULL if only delimiters are left;
otherwise the token start, and the delimiter ending the token (if any) is overwritten by NUL. -/
def strtok (m : Mem) (p : Nat) (delims : Str) : Option (Option Nat × Mem) := do
  let skip ← spanL (fun b => delims.contains b) (m.drop p)
  let b ← rd m (p + skip)
  if b = 0 then return (none, m)
  let len ← spanL (fun b => !delims.contains b) (m.drop (p + skip))
  let e ← rd m (p + skip + len)
  if e = 0 then return (some (p + skip), m)
  let m' ← wr m (p + skip + len) 0
  return (some (p + skip), m')

end Cellular
