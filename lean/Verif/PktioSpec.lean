import Verif.Pktio
/-!
# Specification of receiving: lines of a byte stream, and what a line does

The abstract receiver has no buffer, no pointers and no reads: it is a function of the sequence of
bytes.  `Verif.PktioRefine` shows that the buffer machine of `Verif.Pktio` behaves like it.
-/

namespace Cellular.Spec
open Cellular Cellular.Pktio

/-- A byte that ends a line: carriage return, line feed or NUL. -/
def LineEnd (b : Byte) : Prop := b = 13 ∨ b = 10 ∨ b = 0

instance (b : Byte) : Decidable (LineEnd b) := by unfold LineEnd; infer_instance

/-- The complete non-empty lines of a text that continues the unfinished line `cur`, and the unfinished
line at its end. -/
def linesFrom : Str → Str → List Str × Str
  | cur, [] => ([], cur)
  | cur, b :: t =>
    if LineEnd b then
      if cur = [] then linesFrom [] t else (cur :: (linesFrom [] t).1, (linesFrom [] t).2)
    else linesFrom (cur ++ [b]) t

/-- The complete non-empty lines of a stream. -/
def linesOf (stream : Str) : List Str := (linesFrom [] stream).1

/-- The unfinished line at the end of a stream. -/
def unfinished (stream : Str) : Str := (linesFrom [] stream).2

/-- What an abstract receiver remembers: the pending command, the lines collected for it, and what was
handed to the packet handler so far. -/
structure Rx where
  cmd : CmdType
  pfx : Option Str
  lines : List Str
  events : List Event
  deriving DecidableEq

/-- A line nobody expects goes to the handler of undefined messages; `none`: that handler refuses it, and
the library drops its input. -/
def Rx.undefinedLine (cfg : Cfg) (a : Rx) (line : Str) : Option Rx :=
  if cfg.undefCb line = .ok then some { a with events := a.events ++ [.undefined line] } else none

/-- The pending command completes. -/
def Rx.complete (a : Rx) (status : Bool) (lines : List Str) : Rx :=
  { cmd := .noCommand, pfx := none, lines := [], events := a.events ++ [.response status lines] }

/-- Effect of one complete line (classification: see C14; result codes: see C07). -/
def Rx.line (cfg : Cfg) (a : Rx) (line : Str) : Option Rx :=
  match getMsgType cfg a.cmd a.pfx line with
  | .unsolicited => some { a with events := a.events ++ [.urc line] }
  | .undefined => a.undefinedLine cfg line
  | .solicited =>
    if cfg.err = none ∨ cfg.succ = none then a.undefinedLine cfg line
    else if isToken line cfg.extra ∨ isToken line cfg.succ then some (a.complete true a.lines)
    else if isToken line cfg.err then some (a.complete false a.lines)
    else match a.cmd with
      | .woPrefix => if a.lines = [] then some { a with lines := [line] } else a.undefinedLine cfg line
      | .withPrefix => if a.lines = [] then some { a with lines := [line] } else a.undefinedLine cfg line
      | .multiWithPrefix => some { a with lines := a.lines ++ [line] }
      | .multiWoPrefix => some { a with lines := a.lines ++ [line] }
      | .multiDataWoPrefix => some { a with lines := a.lines ++ [line] }
      | .woPrefixNoResultCode => some (a.complete true (a.lines ++ [line]))
      | .withPrefixNoResultCode => some (a.complete true (a.lines ++ [line]))
      | .noResult => a.undefinedLine cfg line
      | .noCommand => a.undefinedLine cfg line

/-- Effect of a sequence of lines. -/
def Rx.run (cfg : Cfg) : Rx → List Str → Option Rx
  | a, [] => some a
  | a, l :: t => match a.line cfg l with
    | none => none
    | some a => Rx.run cfg a t

/-- The library drops its input and forgets the pending command, without telling it. -/
def Rx.dropped (a : Rx) (line : Str) : Rx :=
  { cmd := .noCommand, pfx := none, lines := [], events := a.events ++ [.undefined line] }

/-- Effect of the lines completed by one read, which ends in the unfinished line `cur`: a refused line ends
it and the rest of the read is lost. -/
def Rx.feed (cfg : Cfg) : Rx → List Str → Str → Rx × Str
  | a, [], cur => (a, cur)
  | a, l :: ls, cur => match a.line cfg l with
    | none => (a.dropped l, [])
    | some a => Rx.feed cfg a ls cur

/-- One read of `chunk` in a state with the unfinished line `x.2`. -/
def Rx.read (cfg : Cfg) (x : Rx × Str) (chunk : Str) : Rx × Str :=
  Rx.feed cfg x.1 (linesFrom x.2 chunk).1 (linesFrom x.2 chunk).2

/-- A sequence of reads. -/
def Rx.reads (cfg : Cfg) (x : Rx × Str) (chunks : List Str) : Rx × Str := chunks.foldl (Rx.read cfg) x

end Cellular.Spec
