import Verif.PktioSpec
/-!
# Specification of receiving with an input buffer callback (C73)

A modem port may install a callback that sees the unprocessed bytes before the library looks for lines
in them (`_Cellular_RegisterInputBufferCallback`, cellular_common.h:640-665); it is meant for binary messages.  The abstract receiver offers the
text to it, and goes on with what it leaves.
-/

namespace Cellular.Spec
open Cellular Cellular.Pktio

/-- An input buffer callback: status, the bytes it leaves, and how many of them it has consumed. -/
abbrev InputCb := Str → PktStatus × Str × Nat

/-- What the callback decides about a text: the library looks for a line in these bytes; it waits for
more; it throws its input away. -/
inductive Offered
  | parse (rest : Str)
  | wait (rest : Str)
  | drop
  deriving DecidableEq

/-- The text after the callback has seen it. -/
def afterCb (f : InputCb) (t : Str) : Str := (f t).2.1 ++ t.drop (f t).2.1.length

/-- A text is offered to the callback: bytes it has consumed are skipped, a text it does not know is
parsed, an incomplete one is kept, and any error - or a claim to have consumed more than there is -
throws the input away. -/
def offer (f : InputCb) (t : Str) : Offered :=
  match (f t).1 with
  | .ok => if (f t).2.2 ≤ t.length then .parse ((afterCb f t).drop (f t).2.2) else .drop
  | .prefixMismatch => .parse (afterCb f t)
  | .sizeMismatch => .wait (afterCb f t)
  | _ => .drop

/-- Scan a text: offer it to the callback, process one line of what is left, and so on; the result is the
new state and the bytes that are kept for the next read.  No result: the input is thrown away while
lines of a pending response have been collected (see `C73_witness_collected_lost`).  The first argument
bounds the number of rounds; it is one more than the number of bytes. -/
def Rx.scan (cfg : Cfg) (f : InputCb) : Nat → Rx → Str → Option (Rx × Str)
  | 0, _, _ => none
  | k + 1, a, text =>
    match offer f (text.dropWhile (fun b => decide (LineEnd b))) with
    | .drop => if a.lines = [] then some (a, []) else none
    | .wait t => some (a, t)
    | .parse t =>
      match t.findIdx? (fun b => decide (LineEnd b)) with
      | none => some (a, t)
      | some i =>
        match a.line cfg (t.take i) with
        | none => some (a.dropped (t.take i), [])
        | some a => Rx.scan cfg f k a (t.drop (i + 1))

/-- One read: the bytes kept so far and the new ones are scanned. -/
def Rx.readCb (cfg : Cfg) (f : InputCb) (x : Rx × Str) (chunk : Str) : Option (Rx × Str) :=
  if chunk = [] then some x else Rx.scan cfg f ((x.2 ++ chunk).length + 1) x.1 (x.2 ++ chunk)

/-- A sequence of reads. -/
def Rx.readsCb (cfg : Cfg) (f : InputCb) : Rx × Str → List Str → Option (Rx × Str)
  | x, [] => some x
  | x, c :: cs => match Rx.readCb cfg f x c with
    | none => none
    | some y => Rx.readsCb cfg f y cs

/-- One piece of a modem's stream: line ends, then possibly a binary frame, then a line and its end. -/
structure Piece where
  gap : Str
  frame : Option Str
  line : Str
  stop : Byte

/-- The bytes of a piece. -/
def Piece.bytes (p : Piece) : Str := p.gap ++ (p.frame.getD [] ++ (p.line ++ [p.stop]))

/-- The bytes of a sequence of pieces. -/
def bytesOf (ps : List Piece) : Str := (ps.map Piece.bytes).flatten

/-- The callback recognises exactly the frames in `Frame`, by their first byte (`Mark`): a whole frame is
consumed, the beginning of one makes the library wait, anything else is declined; it never changes the
text. -/
structure Recognises (f : InputCb) (Frame : Str → Prop) (Mark : Byte → Prop) : Prop where
  start : ∀ F, Frame F → ∃ b r, F = b :: r ∧ Mark b
  notEnd : ∀ b, Mark b → ¬ LineEnd b
  whole : ∀ F u, Frame F → (f (F ++ u)).1 = .ok ∧ (f (F ++ u)).2.2 = F.length
  part : ∀ F u, Frame F → u ≠ [] → u <+: F → u ≠ F → (f u).1 = .sizeMismatch
  other : ∀ t, (∀ b r, t = b :: r → ¬ Mark b) → (f t).1 = .prefixMismatch
  same : ∀ t, afterCb f t = t

/-- A well-formed piece: a frame is followed directly by a (non-empty) line. -/
structure Piece.Ok (Frame : Str → Prop) (Mark : Byte → Prop) (p : Piece) : Prop where
  gap : ∀ b ∈ p.gap, LineEnd b
  frame : ∀ F, p.frame = some F → Frame F
  line : p.line ≠ []
  noEnd : ∀ b ∈ p.line, ¬ LineEnd b
  notMark : ∀ b r, p.line = b :: r → ¬ Mark b
  stop : LineEnd p.stop

end Cellular.Spec
