import Verif.Types
/-!
# Model of the URC part of source/cellular_pkthandler.c

URC handler table check, lookup, and delivery of one URC line.
-/

namespace Cellular.Urc
open Cellular AtCore

/-- `CellularAtParseTokenMap_t` (cellular_common_portable.h): the handler is abstracted to a number;
`none` is a NULL function pointer. -/
structure Entry where
  name : Str
  handler : Option Nat
  deriving DecidableEq, Repr

/-- Sign of `strncmp(a, b, n)` with `n <= ` both lengths: difference of the first differing
characters, compared as `unsigned char`. -/
def strncmpS : Str → Str → Int
  | a :: s, b :: t => if a = b then strncmpS s t else if a < b then -1 else 1
  | _, _ => 0

/-- `_searchCompareFunc` and `_sortCompareFunc`, cellular_pkthandler.c:363-391 and 395-423: `strncmp`
over the shorter length, ties broken by length. -/
def cmpTok (a b : Str) : Int :=
  let n := min a.length b.length
  let c := strncmpS (a.take n) (b.take n)
  if c = 0 ∧ a.length ≠ b.length then (if a.length > b.length then 1 else -1) else c

/-- The sortedness loop of `_Cellular_AtParseInit`, cellular_pkthandler.c:818-828: every adjacent
pair is compared (the loop does not stop at the first error). -/
def sortedLoop : List Entry → Bool → Bool
  | a :: b :: t, ok => sortedLoop (b :: t) (if cmpTok a.name b.name ≥ 0 then false else ok)
  | _, ok => ok

/-- `_Cellular_AtParseInit`, cellular_pkthandler.c:802-847; `none` = NULL table. -/
def atParseInit (table : Option (List Entry)) : PktStatus :=
  match table with
  | none => .invalidHandle
  | some t => if t.length > 0 then (if sortedLoop t true then .ok else .badParam) else .invalidHandle

/-- `bsearch` of the C library (the usual implementation, e.g. glibc stdlib/bsearch.c): returns the
index of an element comparing equal. -/
def bsearch (key : Str) (t : List Entry) (lo hi : Nat) : Option Nat :=
  if h : lo < hi then
    match t[(lo + hi) / 2]? with
    | none => none
    | some e =>
      if cmpTok key e.name < 0 then bsearch key t lo ((lo + hi) / 2)
      else if cmpTok key e.name > 0 then bsearch key t ((lo + hi) / 2 + 1) hi
      else some ((lo + hi) / 2)
  else none
termination_by hi - lo
decreasing_by all_goals omega

/-- An observable effect of handling a line: a registered handler called with its text, the generic
URC callback, or the module's undefined-message callback. -/
inductive Call
  | handler (h : Nat) (arg : Str)
  | generic (line : Str)
  | undefinedMsg (line : Str)
  deriving DecidableEq, Repr

/-- `_atParseGetHandler`, cellular_pkthandler.c:427-465: the handler found (if any) is called with
the text at `arg`. -/
def atParseGetHandler (table : List Entry) (tok : Str) (arg : Str) : PktStatus × List Call :=
  match (bsearch tok table 0 table.length).bind (fun i => t[i]?) with
  | some e =>
    match e.handler with
    | some h => (.ok, [.handler h arg])
    | none => (.failure, [])
  | none => (.prefixMismatch, [])
where t := table

/-- `strtok_r(&m[p], ":", &save)`: token start, memory and the saved pointer.  When the token ends
at the terminator, glibc leaves `save` pointing at that terminator while newlib and musl store NULL
(`endNull`). -/
def strtokR (endNull : Bool) (m : Mem) (p : Nat) (delims : Str) :
    Option (Option Nat × Mem × Option Nat) := do
  let skip ← spanL (fun b => delims.contains b) (m.drop p)
  let b ← rd m (p + skip)
  if b = 0 then return (none, m, if endNull then none else some (p + skip))
  let len ← spanL (fun b => !delims.contains b) (m.drop (p + skip))
  let e ← rd m (p + skip + len)
  if e = 0 then
    return (some (p + skip), m, if endNull then none else some (p + skip + len))
  let m' ← wr m (p + skip + len) 0
  return (some (p + skip), m', some (p + skip + len + 1))

/-- `_processUrcPacket`, cellular_pkthandler.c:124-197.  `none` = undefined behaviour.  `alloc` tells
whether the heap copy of the line can be made; the copy is the object `s ++ [0]` (see
`C09_strdup`).  A generic callback is always assumed registered; without one the call has no
effect (cellular_common.c:866-890). -/
def processUrcPacket (endNull alloc : Bool) (table : List Entry) (s : Str) :
    Option (PktStatus × List Call) :=
  if !AtStr.valid s || !alloc then some (.failure, [])
  else
    let m : Mem := s ++ [0]
    if (AtStr.isPrefixPresent s).2 = some true then do
      let (tok, m1, save) ← strtokR endNull m 1 [58]
      match tok with
      | none => return (.badRequest, [])
      | some t =>
        let name ← readStr m1 t
        match save with
        | none => none     -- the handler, or the restoring write below, gets a NULL pointer
        | some q =>
          let arg ← readStr m1 q
          let r := atParseGetHandler table name arg
          if r.1 = .prefixMismatch then
            if q = 0 then none else
            let m2 ← wr m1 (q - 1) 58
            let line ← readStr m2 0
            return (.ok, r.2 ++ [.generic line])
          else return r
    else
      let r := atParseGetHandler table s s
      if r.1 = .prefixMismatch then return (.ok, r.2 ++ [.generic s])
      else return r

/-- `_handleUndefinedMessage`, cellular_pkthandler.c:472-500; `cb` = result of the module's callback
on this line if one is registered. -/
def handleUndefinedMessage (cb : Option (Str → PktStatus)) (line : Str) : PktStatus × List Call :=
  match cb with
  | none => (.invalidData, [])
  | some f => (if f line = .ok then .ok else .invalidData, [.undefinedMsg line])

end Cellular.Urc
