import Verif.PktioSpec
/-!
# Specification of responses with binary data

A response may contain blocks of binary data, each announced by a header line.  Which lines are headers,
and how many bytes they announce, is known to the port; here it is a function of the text.  A stream is
then a sequence of lines and blocks, again without buffers and reads.
-/

namespace Cellular.Spec
open Cellular Cellular.Pktio

/-- What a text, taken from the start of a line, is: no header; the beginning of a header, or of the line
end after it; or a header of `len` characters and a line end of `eol` characters, announcing `n` bytes. -/
inductive Hdr
  | no
  | incomplete
  | block (len eol n : Nat)
  deriving DecidableEq, Repr

/-- How a port recognises headers.  The answer does not depend on what follows: a header stays a header, and a
text that is not one and has a line end will not become one. -/
structure Recogniser where
  hdr : Str → Hdr
  block_ext : ∀ t x l e n, hdr t = .block l e n → hdr (t ++ x) = .block l e n
  no_ext : ∀ t x, hdr t = .no → (∃ b ∈ t, LineEnd b) → hdr (t ++ x) = .no
  shape : ∀ t l e n, hdr t = .block l e n → 0 < l ∧ 0 < e ∧ 0 < n ∧ l + e ≤ t.length ∧
    (∀ b ∈ t.take l, ¬ LineEnd b) ∧ (∀ b ∈ (t.drop l).take e, LineEnd b)

/-- What a stream consists of. -/
inductive Elem
  | line (l : Str)
  | header (l : Str)
  | data (d : Str)
  deriving DecidableEq, Repr

/-- How a stream ends: in text that is not complete yet, or in `got`, the first of the `n` bytes of a
block. -/
inductive Rest
  | text (cur : Str)
  | data (got : Str) (n : Nat)
  deriving DecidableEq, Repr

/-- The elements of a stream and its rest: lines are ended by a line end, empty lines are ignored, and after
a header exactly the announced number of bytes is data, whatever they are. -/
def parse (R : Recogniser) : Str → List Elem × Rest
  | [] => ([], .text [])
  | b :: r =>
    if LineEnd b then parse R r
    else match R.hdr (b :: r) with
      | .incomplete => ([], .text (b :: r))
      | .block l e n =>
        if n ≤ ((b :: r).drop (l + e)).length then
          (.header ((b :: r).take l) :: .data (((b :: r).drop (l + e)).take n) ::
            (parse R (r.drop (l + e + n - 1))).1, (parse R (r.drop (l + e + n - 1))).2)
        else ([.header ((b :: r).take l)], .data ((b :: r).drop (l + e)) n)
      | .no =>
        match (b :: r).findIdx? (fun c => decide (LineEnd c)) with
        | none => ([], .text (b :: r))
        | some i => (.line ((b :: r).take i) :: (parse R (r.drop i)).1, (parse R (r.drop i)).2)
  termination_by t => t.length
  decreasing_by all_goals simp; try omega

/-- The elements completed by further bytes. -/
def resume (R : Recogniser) : Rest → Str → List Elem × Rest
  | .text cur, c => parse R (cur ++ c)
  | .data got n, c =>
    if n ≤ (got ++ c).length then
      (.data ((got ++ c).take n) :: (parse R ((got ++ c).drop n)).1, (parse R ((got ++ c).drop n)).2)
    else ([], .data (got ++ c) n)

/-- A header belongs to a pending command that expects data. -/
def Rx.header (cfg : Cfg) (a : Rx) (l : Str) : Option Rx :=
  if a.cmd = .multiDataWoPrefix ∧ getMsgType cfg a.cmd a.pfx l = .solicited ∧ cfg.err ≠ none ∧ cfg.succ ≠ none ∧
      isToken l cfg.extra = false ∧ isToken l cfg.succ = false ∧ isToken l cfg.err = false then
    some { a with lines := a.lines ++ [l] }
  else none

/-- Effect of one element. -/
def Rx.elem (cfg : Cfg) (a : Rx) : Elem → Option Rx
  | .line l => a.line cfg l
  | .header l => a.header cfg l
  | .data d => some { a with lines := a.lines ++ [d] }

/-- Effect of a sequence of elements. -/
def Rx.elems (cfg : Cfg) : Rx → List Elem → Option Rx
  | a, [] => some a
  | a, x :: t => match a.elem cfg x with
    | none => none
    | some a => Rx.elems cfg a t

/-- No header starts in the text. -/
def NoHeader (R : Recogniser) (t : Str) : Prop := ∀ y, y ≠ [] → y <:+ t → R.hdr y = .no

/-- The port's data prefix callback works as the recogniser says: it leaves the text as it is, except that
it may replace the line end after a header by other line ends. -/
def Implements (R : Recogniser) (f : Str → PktStatus × Str × Option (Nat × Nat)) : Prop :=
  ∀ t, t ≠ [] → match R.hdr t with
    | .no => f t = (.prefixMismatch, t, none) ∨ f t = (.ok, t, none)
    | .incomplete => f t = (.sizeMismatch, t, none)
    | .block l e n => ∃ t', f t = (.ok, t', some (l + e, n)) ∧ t'.length = t.length ∧
        t'.take l = t.take l ∧ (∃ b, t'[l]? = some b ∧ LineEnd b) ∧ t'.drop (l + e) = t.drop (l + e)

end Cellular.Spec
