import Verif.BytesSafe
import Verif.BytesOwn
import Verif.PktioData
import Verif.PktioPrompt
/-!
# Concurrent requests over the byte stream: the pieces of the stream (C82)

With data prefix callbacks and data send prefix callbacks, what the receive task makes of the byte stream is a sequence of pieces: lines,
header lines with the announced number of bytes, and prompts.  Which callback is asked about a line depends on the schedule.  The pieces are described here without
buffer, reads and tasks (`Divided`); the invariant says that every place of the receive task is a place in such a division of the stream.
-/

namespace Cellular.Spec
open Cellular Cellular.Pktio

/-- What the prefix callbacks of a request recognise: headers of data (`pktDataPrefixCallback`), and the prompt for its data, of which
`pktDataSendPrefixCallback` makes the line `shown`. -/
structure Prefixes extends Recogniser where
  prompt : Str
  shown : Str

/-- A piece of the stream: a line, with the request whose data prefix callback was asked about it (if any); a header of the
request `i` with its data; the prompt of request `i`, taken up as the line `l`. -/
inductive StreamPart
  | line (asked : Option Nat) (l : Str)
  | block (i : Nat) (l d : Str)
  | prompt (i : Nat) (l : Str)
  deriving DecidableEq, Repr

/-- The line of a piece. -/
def StreamPart.head : StreamPart → Str
  | .line _ l => l
  | .block _ l _ => l
  | .prompt _ l => l

/-- The texts of a piece. -/
def StreamPart.texts : StreamPart → List Str
  | .line _ l => [l]
  | .block _ l d => [l, d]
  | .prompt _ l => [l]

/-- The request whose data prefix callback was asked, or whose prompt it is. -/
def StreamPart.asked : StreamPart → Option Nat
  | .line a _ => a
  | .block i _ _ => some i
  | .prompt i _ => some i

/-- **The stream `s` consists of these pieces, in order, and `u`**: between pieces there are only line ends; a line is not empty and ends at
a line end, and is not a header for the callback that was asked; a block is a header and exactly as many bytes as it announces; a prompt is the text of the prompt, without a line end.  Bytes may have been
dropped only directly after a line for which `Drops` holds. -/
inductive Divided (R : Nat → Prefixes) (Drops : Str → Prop) : List StreamPart → Str → Str → Prop
  | rest (u : Str) : Divided R Drops [] u u
  | eol {b : Byte} {ps : List StreamPart} {s u : Str} (hb : LineEnd b) (h : Divided R Drops ps s u) : Divided R Drops ps (b :: s) u
  | line {a : Option Nat} {l : Str} {e : Byte} {ps : List StreamPart} {s u : Str} (hl : ∀ b ∈ l, ¬ LineEnd b) (hne : l ≠ []) (he : LineEnd e)
      (ha : ∀ i, a = some i → (R i).hdr (l ++ e :: s) = .no) (h : Divided R Drops ps s u) : Divided R Drops (.line a l :: ps) (l ++ e :: s) u
  | refused {a : Option Nat} {l : Str} {e : Byte} {ps : List StreamPart} {x s u : Str} (hl : ∀ b ∈ l, ¬ LineEnd b) (hne : l ≠ []) (he : LineEnd e)
      (ha : ∀ i, a = some i → (R i).hdr (l ++ e :: (x ++ s)) = .no) (hd : Drops l) (h : Divided R Drops ps s u) :
      Divided R Drops (.line a l :: ps) (l ++ e :: (x ++ s)) u
  | block {i l e n : Nat} {ps : List StreamPart} {s u : Str} (hh : (R i).hdr s = .block l e n) (hn : l + e + n ≤ s.length)
      (h : Divided R Drops ps (s.drop (l + e + n)) u) : Divided R Drops (.block i (s.take l) ((s.drop (l + e)).take n) :: ps) s u
  | prompt {i : Nat} {ps : List StreamPart} {s u : Str} (h : Divided R Drops ps s u) :
      Divided R Drops (.prompt i (R i).shown :: ps) ((R i).prompt ++ s) u

/-- After line `l` bytes may have been dropped: the port's handler for lines without a place refused it (never, unless `lost`). -/
def Dropped (cfg : Cfg) (lost : Bool) (l : Str) : Prop := lost = true ∧ cfg.undefCb l ≠ .ok

/-- The texts of the pieces with these numbers. -/
def textsOf (ps : List StreamPart) (ns : List Nat) : List Str := ns.flatMap (fun n => (ps[n]?.map StreamPart.texts).getD [])

/-- The callback of request `i` was asked about the line number `n`, just before it was taken up. -/
def Asked (log : List Conc.Ev) (i n : Nat) : Prop := ∃ a b, log = a ++ .prefixCb i :: .recv n :: b

end Cellular.Spec

namespace Cellular.Props
open Cellular Cellular.Spec
open Cellular.Pktio (Cur CmdType MsgType Item Resp Cfg getMsgType processLine cleanBuf readPos room skipEol preprocessInput
  preprocessLine findLine handleData getNextLine itemContents put isEol slice)
open Cellular.Bytes (Pc Fns)
open Cellular.Conc (Ev)

/-! ## Cuts -/

theorem _root_.Cellular.Spec.Divided.extend {R : Nat → Prefixes} {P : Str → Prop} {ps : List StreamPart} {s u : Str} (h : Divided R P ps s u) (x : Str) :
    Divided R P ps (s ++ x) (u ++ x) := by
  induction h with
  | rest u => exact .rest _
  | eol hb _ ih => exact .eol hb ih
  | @line a l e ps s u hl hne he ha h ih =>
    rw [List.append_assoc, List.cons_append]
    refine .line hl hne he (fun i hi => ?_) ih
    have := (R i).no_ext _ x (ha i hi) ⟨e, by simp, he⟩
    simpa using this
  | @refused a l e ps y s u hl hne he ha hd h ih =>
    rw [List.append_assoc, List.cons_append, List.append_assoc]
    refine .refused hl hne he (fun i hi => ?_) hd ih
    have := (R i).no_ext _ x (ha i hi) ⟨e, by simp, he⟩
    simpa using this
  | @block i l e n ps s u hh hn h ih =>
    have h1 := Divided.block (R := R) (Drops := P) (ps := ps) (u := u ++ x) ((R i).block_ext _ x _ _ _ hh) (by simp; omega)
      (by rw [List.drop_append_of_le_length hn]; exact ih)
    rw [List.take_append_of_le_length (by omega), List.drop_append_of_le_length (by omega),
      List.take_append_of_le_length (by simp; omega)] at h1
    exact h1
  | prompt _ ih => rw [List.append_assoc]; exact .prompt ih

theorem _root_.Cellular.Spec.Divided.trans {R : Nat → Prefixes} {P : Str → Prop} {ps qs : List StreamPart} {s u v : Str} (h : Divided R P ps s u) (h' : Divided R P qs u v) :
    Divided R P (ps ++ qs) s v := by
  induction h with
  | rest u => exact h'
  | eol hb _ ih => exact .eol hb (ih h')
  | line hl hne he ha _ ih => exact .line hl hne he ha (ih h')
  | refused hl hne he ha hd _ ih => exact .refused hl hne he ha hd (ih h')
  | block hh hn _ ih => exact .block hh hn (ih h')
  | prompt _ ih => exact .prompt (ih h')

theorem _root_.Cellular.Spec.Divided.mono {R : Nat → Prefixes} {P Q : Str → Prop} (hPQ : ∀ l, P l → Q l) {ps : List StreamPart} {s u : Str}
    (h : Divided R P ps s u) : Divided R Q ps s u := by
  induction h with
  | rest u => exact .rest _
  | eol hb _ ih => exact .eol hb ih
  | line hl hne he ha _ ih => exact .line hl hne he ha ih
  | refused hl hne he ha hd _ ih => exact .refused hl hne he ha (hPQ _ hd) ih
  | block hh hn _ ih => exact .block hh hn ih
  | prompt _ ih => exact .prompt ih

theorem _root_.Cellular.Spec.Divided.toLost {R : Nat → Prefixes} {cfg : Cfg} {lo : Bool} {ps : List StreamPart} {s u : Str}
    (h : Divided R (Dropped cfg lo) ps s u) : Divided R (Dropped cfg true) ps s u := h.mono (fun _ hl => ⟨rfl, hl.2⟩)

/-- After the last piece, a line, all the rest is dropped. -/
theorem _root_.Cellular.Spec.Divided.drop {R : Nat → Prefixes} {P : Str → Prop} {ps : List StreamPart} {s u : Str} (h : Divided R P ps s u) {qs : List StreamPart}
    {a : Option Nat} {l : Str} (hps : ps = qs ++ [.line a l]) (hd : P l) : Divided R P ps s [] := by
  induction h generalizing qs with
  | rest u => cases qs <;> cases hps
  | eol hb _ ih => exact .eol hb (ih hps)
  | @line a' l' e ps s u hl hne he ha h ih =>
    cases qs with
    | nil =>
      simp only [List.nil_append, List.cons.injEq, StreamPart.line.injEq] at hps
      obtain ⟨⟨rfl, rfl⟩, rfl⟩ := hps
      have := Divided.refused (R := R) (x := s) (s := []) hl hne he (by rw [List.append_nil]; exact ha) hd (.rest [])
      rw [List.append_nil] at this
      exact this
    | cons q qs => exact .line hl hne he ha (ih (List.cons.inj hps).2)
  | @refused a' l' e ps x s u hl hne he ha hd' h ih =>
    cases qs with
    | nil =>
      simp only [List.nil_append, List.cons.injEq, StreamPart.line.injEq] at hps
      obtain ⟨⟨rfl, rfl⟩, rfl⟩ := hps
      have := Divided.refused (R := R) (x := x ++ s) (s := []) hl hne he (by rw [List.append_nil]; exact ha) hd (.rest [])
      rw [List.append_nil] at this
      exact this
    | cons q qs => exact .refused hl hne he ha hd' (ih (List.cons.inj hps).2)
  | @block i l' e n ps s u hh hn h ih =>
    cases qs with
    | nil => cases hps
    | cons q qs => exact .block hh hn (ih (List.cons.inj hps).2)
  | prompt _ ih =>
    cases qs with
    | nil => cases hps
    | cons q qs => exact .prompt (ih (List.cons.inj hps).2)

theorem _root_.Cellular.Spec.Divided.skip {R : Nat → Prefixes} {P : Str → Prop} {ps : List StreamPart} {s u : Str} (h : Divided R P ps s u) : Divided R P ps s (u.dropWhile isEol) := by
  have aux : ∀ u : Str, Divided R P [] u (u.dropWhile isEol) := by
    intro u
    induction u with
    | nil => exact .rest _
    | cons b u ih =>
      by_cases hb : isEol b = true
      · rw [List.dropWhile_cons_of_pos hb]; exact .eol ((isEol_iff b).mp hb) ih
      · rw [List.dropWhile_cons_of_neg hb]; exact .rest _
  have h1 := Divided.trans h (aux u)
  rwa [List.append_nil] at h1

theorem textsOf_snoc {ps : List StreamPart} {ns : List Nat} (p : StreamPart) (h : ∀ n ∈ ns, n < ps.length) : textsOf (ps ++ [p]) ns = textsOf ps ns := by
  induction ns with
  | nil => rfl
  | cons n ns ih =>
    simp only [textsOf, List.flatMap_cons] at ih ⊢
    rw [ih (fun m hm => h m (List.mem_cons_of_mem _ hm)), List.getElem?_append_left (h n List.mem_cons_self)]

theorem textsOf_append (ps : List StreamPart) (ns ms : List Nat) : textsOf ps (ns ++ ms) = textsOf ps ns ++ textsOf ps ms := by
  simp [textsOf]

theorem textsOf_last (ps : List StreamPart) (p : StreamPart) : textsOf (ps ++ [p]) [ps.length] = p.texts := by
  simp [textsOf]

theorem _root_.Cellular.Spec.Asked.extend {log : List Conc.Ev} {i n : Nat} (h : Asked log i n) (l : List Conc.Ev) : Asked (log ++ l) i n := by
  obtain ⟨a, b, h⟩ := h
  exact ⟨a, b ++ l, by rw [h]; simp⟩

/-! ## The invariant -/

/-- Numbers of pieces. -/
def Nums (ps : List StreamPart) (ns : List Nat) : Prop := ns.Pairwise (· < ·) ∧ ∀ n ∈ ns, n < ps.length

theorem Nums.snoc {ps : List StreamPart} {ns : List Nat} (h : Nums ps ns) (p : StreamPart) : Nums (ps ++ [p]) (ns ++ [ps.length]) := by
  refine ⟨List.pairwise_append.mpr ⟨h.1, List.pairwise_singleton _ _, ?_⟩, ?_⟩
  · intro a ha b hb
    simp only [List.mem_singleton] at hb
    subst hb
    exact h.2 a ha
  · intro n hn
    simp only [List.length_append, List.length_cons, List.length_nil]
    rcases List.mem_append.mp hn with hn | hn
    · have := h.2 n hn; omega
    · simp only [List.mem_singleton] at hn; omega

theorem Nums.more {ps : List StreamPart} {ns : List Nat} (h : Nums ps ns) (p : StreamPart) : Nums (ps ++ [p]) ns :=
  ⟨h.1, fun n hn => by have := h.2 n hn; simp; omega⟩

/-- The history, and what is left of the stream. -/
structure Hist (cfg : Cfg) (R : Nat → Prefixes) (s : Bytes.St) (ps : List StreamPart) (tail : Str) : Prop where
  cut : Divided R (Dropped cfg s.lost) ps s.stream tail
  given : s.given = (s.sh.log.filterMap calledWith).map (fun e => (e.1, textsOf ps e.2))
  known : ∀ e ∈ s.sh.log.filterMap calledWith, Nums ps e.2
  asked : ∀ n p i, ps[n]? = some p → p.asked = some i → Asked s.sh.log i n

/-- The collected items. -/
def Held (rx : Pktio.St) (ps : List StreamPart) (ns : List Nat) (base : Nat) : Prop :=
  List.Forall₂ (ItemAt rx.buf base) (rx.resp.getD ⟨false, []⟩).items (textsOf ps ns) ∧ Nums ps ns

/-- Between pieces: the rest of the stream is the text at `base`. -/
structure Idle (sh : Conc.St) (rx : Pktio.St) (nums : List Nat) (ps : List StreamPart) (tail : Str) (base n : Nat) : Prop where
  received : sh.received = ps.map StreamPart.head
  held : Held rx ps nums base
  text : txt rx.buf base n = tail

/-- In the data: the header is collected, the data begin at `start`. -/
def Open (R : Nat → Prefixes) (sh : Conc.St) (rx : Pktio.St) (nums : List Nat) (ps : List StreamPart) (tail : Str) (start avail : Nat) : Prop :=
  ∃ i l e ns, (R i).hdr tail = .block l e rx.dataLen ∧ sh.received = ps.map StreamPart.head ++ [tail.take l] ∧ nums = ns ++ [ps.length] ∧ Nums ps ns ∧
    List.Forall₂ (ItemAt rx.buf start) (rx.resp.getD ⟨false, []⟩).items (textsOf ps ns ++ [tail.take l]) ∧
    tail.drop (l + e) = txt rx.buf start avail ∧ Asked sh.log i ps.length

/-- A line in hand. -/
structure InHand (R : Nat → Prefixes) (sh : Conc.St) (rx : Pktio.St) (nums : List Nat) (ps : List StreamPart) (tail : Str) (c : Cur) (len : Nat)
    (line : Str) (pc : StreamPart) : Prop where
  received : sh.received = ps.map StreamPart.head ++ [line]
  at_ : LineAt rx.buf c.p line
  length : line.length = len
  ne : line ≠ []
  noEol : NoEol line
  held : Held rx ps nums c.p
  asked : ∀ i, pc.asked = some i → Asked sh.log i ps.length
  texts : pc.texts = [line]
  plain : rx.dataLen = 0 → (∀ D, Divided R D [pc] tail (txt rx.buf (c.p + (len + 1)) (c.n - (len + 1)))) ∧
    ((∃ a e x, pc = .line a line ∧ LineEnd e ∧ tail = line ++ e :: x) ∨
      ((∃ i, line = (R i).shown ∧ tail = (R i).prompt) ∧ txt rx.buf (c.p + (len + 1)) (c.n - (len + 1)) = []))
  header : rx.dataLen ≠ 0 → ∃ i e, pc.asked = some i ∧ (R i).hdr tail = .block len e rx.dataLen ∧ line = tail.take len ∧ 0 < e ∧
    c.sd = some (c.p + (len + e)) ∧ len + e ≤ c.n ∧ tail.drop (len + e) = txt rx.buf (c.p + (len + e)) (c.n - (len + e))

/-- Nothing can be taken up from this text: it has no line end, or is an incomplete header for a callback. -/
def Nothing (R : Nat → Prefixes) (t : Str) : Prop := NoEol t ∨ ∃ i, (R i).hdr t = .incomplete

/-- What holds at each place. -/
def Fits (cfg : Cfg) (R : Nat → Prefixes) (sh : Conc.St) (rx : Pktio.St) (nums : List Nat) (ps : List StreamPart) (tail : Str) : Pc → Prop
  | .wait => (rx.dataLen = 0 → Idle sh rx nums ps tail (rx.readPtr.getD 0) rx.partialLen ∧ Nothing R tail) ∧
      (rx.dataLen ≠ 0 → Open R sh rx nums ps tail (rx.readPtr.getD 0) rx.partialLen ∧ rx.partialLen < rx.dataLen)
  | .top c => Idle sh rx nums ps tail c.p c.n
  | .pre c _ _ => Idle sh rx nums ps tail c.p c.n ∧ ∃ b, tail.head? = some b ∧ ¬ LineEnd b
  | .classify c len => ∃ line a, InHand R sh rx nums ps tail c len line a
  | .classify2 c len _ => ∃ line a, InHand R sh rx nums ps tail c len line a
  | .proc c len => ∃ line a, InHand R sh rx nums ps tail c len line a
  | .proc2 c len _ => ∃ line a, InHand R sh rx nums ps tail c len line a
  | .done c len => Idle sh rx nums ps tail (c.p + (len + 1)) (c.n - (len + 1))
  | .handle c len => Idle sh rx nums ps tail (c.p + (len + 1)) (c.n - (len + 1))
  | .call c len => Idle sh rx nums ps tail (c.p + (len + 1)) (c.n - (len + 1))
  | .inCb c len _ => Idle sh rx nums ps tail (c.p + (len + 1)) (c.n - (len + 1))
  | .send c len _ => Idle sh rx nums ps tail (c.p + (len + 1)) (c.n - (len + 1))
  | .free c len => Idle sh rx nums ps tail (c.p + (len + 1)) (c.n - (len + 1))
  | .undef c len => Idle sh rx nums ps tail (c.p + (len + 1)) (c.n - (len + 1)) ∧ ∃ qs p l, ps = qs ++ [p] ∧ LineAt rx.buf c.p l ∧ ((∃ a, p = .line a l) ∨ tail = [])
  | .undefFail c len => Idle sh rx nums ps tail (c.p + (len + 1)) (c.n - (len + 1)) ∧ ∃ qs p l, ps = qs ++ [p] ∧ cfg.undefCb l ≠ .ok ∧ ((∃ a, p = .line a l) ∨ tail = [])
  | .after c len st t =>
      (rx.dataLen = 0 → Idle sh rx nums ps tail (c.p + (len + 1)) (c.n - (len + 1)) ∧
        (st = .ok → t = .solicited → (rx.resp.getD ⟨false, []⟩).items = [])) ∧
      (rx.dataLen ≠ 0 → ∃ start, c.sd = some start ∧ c.p ≤ start ∧ start ≤ c.p + c.n ∧
        Open R sh rx nums ps tail start (c.n - (start - c.p)))
  | .crashed => True
  | .bad => True

/-- The invariant: the state is a place in a division of the stream. -/
def WInv (cfg : Cfg) (R : Nat → Prefixes) (s : Bytes.St) : Prop := ∃ ps tail, Hist cfg R s ps tail ∧ Fits cfg R s.sh s.rx s.nums ps tail s.pc

theorem Hist.move {R : Nat → Prefixes} {s s' : Bytes.St} {ps : List StreamPart} {tail : Str} (h : Hist cfg R s ps tail) (hlo : s'.lost = s.lost)
    (hst : s'.stream = s.stream) (hg : s'.given = s.given) {l : List Conc.Ev} (hlog : s'.sh.log = s.sh.log ++ l)
    (hl : l.filterMap calledWith = []) : Hist cfg R s' ps tail := by
  have e : s'.sh.log.filterMap calledWith = s.sh.log.filterMap calledWith := by rw [hlog, List.filterMap_append, hl, List.append_nil]
  refine ⟨?_, ?_, ?_, ?_⟩
  · rw [hlo, hst]; exact h.cut
  · rw [hg, e]; exact h.given
  · rw [e]; exact h.known
  · intro n p i h1 h2; rw [hlog]; exact Asked.extend (h.asked n p i h1 h2) l

theorem Hist.same {R : Nat → Prefixes} {s s' : Bytes.St} {ps : List StreamPart} {tail : Str} (h : Hist cfg R s ps tail) (hlo : s'.lost = s.lost)
    (hst : s'.stream = s.stream) (hg : s'.given = s.given) (hlog : s'.sh.log = s.sh.log) : Hist cfg R s' ps tail :=
  h.move (l := []) hlo hst hg (by rw [hlog, List.append_nil]) rfl

/-- The next piece is complete. -/
theorem Hist.piece {R : Nat → Prefixes} {s : Bytes.St} {ps : List StreamPart} {tail u : Str} (h : Hist cfg R s ps tail) {p : StreamPart}
    (hc : Divided R (Dropped cfg s.lost) [p] tail u) (ha : ∀ i, p.asked = some i → Asked s.sh.log i ps.length) : Hist cfg R s (ps ++ [p]) u := by
  refine ⟨h.cut.trans hc, ?_, fun e he => (h.known e he).more p, ?_⟩
  · rw [h.given]
    apply List.map_congr_left
    intro e he
    rw [textsOf_snoc p (h.known e he).2]
  · intro n q i hq hi
    by_cases hn : n < ps.length
    · rw [List.getElem?_append_left hn] at hq
      exact h.asked n q i hq hi
    · have hlt := (List.getElem?_eq_some_iff.mp hq).1
      simp only [List.length_append, List.length_cons, List.length_nil] at hlt
      have : n = ps.length := by omega
      subst this
      rw [List.getElem?_concat_length] at hq
      cases hq
      exact ha i hi

/-- The line in hand is complete (no data announced). -/
theorem close_line {R : Nat → Prefixes} {s : Bytes.St} {sh : Conc.St} {rx : Pktio.St} {nums : List Nat} {ps : List StreamPart} {tail : Str} {c : Cur}
    {len : Nat} {line : Str} {a : StreamPart} (h : Hist cfg R s ps tail) (hi : InHand R sh rx nums ps tail c len line a) (h0 : rx.dataLen = 0)
    (hlog : sh.log = s.sh.log) :
    Hist cfg R s (ps ++ [a]) (txt rx.buf (c.p + (len + 1)) (c.n - (len + 1))) :=
  h.piece ((hi.plain h0).1 _) (fun i hii => by rw [← hlog]; exact hi.asked i hii)

theorem head_of_texts {p : StreamPart} {l : Str} (h : p.texts = [l]) : p.head = l := by
  cases p <;> simp_all [StreamPart.texts, StreamPart.head]

theorem Held.more {rx : Pktio.St} {ps : List StreamPart} {ns : List Nat} {base : Nat} (h : Held rx ps ns base) (p : StreamPart) {rx' : Pktio.St} {base' : Nat}
    (hr : rx'.resp = rx.resp) (hb : base ≤ base') (hm : ∀ i, i < base → rx'.buf[i]? = rx.buf[i]?) : Held rx' (ps ++ [p]) ns base' := by
  refine ⟨?_, h.2.more p⟩
  rw [textsOf_snoc p h.2.2, hr]
  exact forall₂_items_congr h.1 hb hm

theorem Held.congr {rx : Pktio.St} {ps : List StreamPart} {ns : List Nat} {base : Nat} (h : Held rx ps ns base) {rx' : Pktio.St} {base' : Nat}
    (hr : rx'.resp = rx.resp) (hb : base ≤ base') (hm : ∀ i, i < base → rx'.buf[i]? = rx.buf[i]?) : Held rx' ps ns base' :=
  ⟨by rw [hr]; exact forall₂_items_congr h.1 hb hm, h.2⟩

/-! ## Steps -/

theorem Idle.congr {sh sh' : Conc.St} {rx rx' : Pktio.St} {nums : List Nat} {ps : List StreamPart} {tail : Str} {base n : Nat}
    (h : Idle sh rx nums ps tail base n) (hs : sh'.received = sh.received) (hr : rx'.resp = rx.resp) (hb : rx'.buf = rx.buf) :
    Idle sh' rx' nums ps tail base n :=
  ⟨hs.trans h.received, h.held.congr hr (Nat.le_refl _) (fun _ _ => by rw [hb]), by rw [hb]; exact h.text⟩

theorem Open.congr {R : Nat → Prefixes} {sh sh' : Conc.St} {rx rx' : Pktio.St} {nums : List Nat} {ps : List StreamPart} {tail : Str}
    {start avail : Nat} (h : Open R sh rx nums ps tail start avail) (hs : sh'.received = sh.received) {l : List Conc.Ev}
    (hlog : sh'.log = sh.log ++ l) (hd : rx'.dataLen = rx.dataLen) (hr : rx'.resp = rx.resp) (hb : rx'.buf = rx.buf) :
    Open R sh' rx' nums ps tail start avail := by
  obtain ⟨i, l', e, ns, h1, h2, h3, h4, h5, h6, h7⟩ := h
  refine ⟨i, l', e, ns, by rw [hd]; exact h1, hs.trans h2, h3, h4, by rw [hb, hr]; exact h5, by rw [hb]; exact h6, ?_⟩
  rw [hlog]
  exact Asked.extend h7 _

theorem InHand.congr {R : Nat → Prefixes} {sh sh' : Conc.St} {rx : Pktio.St} {nums : List Nat} {ps : List StreamPart} {tail : Str} {c : Cur}
    {len : Nat} {line : Str} {a : StreamPart} (h : InHand R sh rx nums ps tail c len line a) (hs : sh'.received = sh.received) {l : List Conc.Ev}
    (hlog : sh'.log = sh.log ++ l) : InHand R sh' rx nums ps tail c len line a :=
  ⟨hs.trans h.received, h.at_, h.length, h.ne, h.noEol, h.held, fun i hi => by rw [hlog]; exact Asked.extend (h.asked i hi) _, h.texts, h.plain, h.header⟩

/-- Threads do not change a place. -/
theorem Fits.congr {R : Nat → Prefixes} {sh sh' : Conc.St} {rx : Pktio.St} {nums : List Nat} {ps : List StreamPart} {tail : Str} {pc : Pc}
    (h : Fits cfg R sh rx nums ps tail pc) (hs : sh'.received = sh.received) {l : List Conc.Ev} (hlog : sh'.log = sh.log ++ l) :
    Fits cfg R sh' rx nums ps tail pc := by
  cases pc with
  | wait => exact ⟨fun h0 => ⟨(h.1 h0).1.congr hs rfl rfl, (h.1 h0).2⟩, fun h0 => ⟨(h.2 h0).1.congr hs hlog rfl rfl rfl, (h.2 h0).2⟩⟩
  | top c => exact Idle.congr h hs rfl rfl
  | pre c r d => exact ⟨h.1.congr hs rfl rfl, h.2⟩
  | classify c len => obtain ⟨line, a, h⟩ := h; exact ⟨line, a, h.congr hs hlog⟩
  | classify2 c len on => obtain ⟨line, a, h⟩ := h; exact ⟨line, a, h.congr hs hlog⟩
  | proc c len => obtain ⟨line, a, h⟩ := h; exact ⟨line, a, h.congr hs hlog⟩
  | proc2 c len t => obtain ⟨line, a, h⟩ := h; exact ⟨line, a, h.congr hs hlog⟩
  | done c len => exact Idle.congr h hs rfl rfl
  | handle c len => exact Idle.congr h hs rfl rfl
  | call c len => exact Idle.congr h hs rfl rfl
  | inCb c len i => exact Idle.congr h hs rfl rfl
  | send c len st => exact Idle.congr h hs rfl rfl
  | free c len => exact Idle.congr h hs rfl rfl
  | undef c len => exact ⟨Idle.congr h.1 hs rfl rfl, h.2⟩
  | undefFail c len => exact ⟨Idle.congr h.1 hs rfl rfl, h.2⟩
  | after c len st t =>
    refine ⟨fun h0 => ⟨(h.1 h0).1.congr hs rfl rfl, (h.1 h0).2⟩, fun h0 => ?_⟩
    obtain ⟨start, h1, h2, h3, h4⟩ := h.2 h0
    exact ⟨start, h1, h2, h3, h4.congr hs hlog rfl rfl rfl⟩
  | crashed => trivial
  | bad => trivial

/-- The data are complete or not. -/
theorem data_step {R : Nat → Prefixes} {s : Bytes.St} {sh : Conc.St} {rx : Pktio.St} {nums : List Nat} {ps : List StreamPart} {tail : Str}
    {start p n : Nat} (h : Hist cfg R s ps tail) (hlog : sh.log = s.sh.log) (ho : Open R sh rx nums ps tail start (n - (start - p))) (h1 : p ≤ start)
    (h2 : start ≤ p + n) (hlen : p + n ≤ rx.buf.length) {r : Resp} (hr : rx.resp = some r) :
    (n - (start - p) < rx.dataLen ∧
      handleData rx start p n = some (0, p, { rx with readPtr := some start, partialLen := n - (start - p) })) ∨
    (rx.dataLen ≤ n - (start - p) ∧ ∃ rx' ps' tail', handleData rx start p n = some (n - (start - p) - rx.dataLen, start + rx.dataLen, rx') ∧
      rx'.buf = rx.buf ∧ rx'.dataLen = 0 ∧ rx'.readPtr = some (start + rx.dataLen) ∧ rx'.partialLen = n - (start - p) - rx.dataLen ∧
      Hist cfg R s ps' tail' ∧ Idle sh rx' nums ps' tail' (start + rx.dataLen) (n - (start - p) - rx.dataLen)) := by
  obtain ⟨i, l, e, ns, hh, hrec, hnums, hns, hits, htx, hask⟩ := ho
  unfold handleData
  rw [if_neg (by omega)]
  simp only [hr]
  by_cases hd : n - (start - p) ≥ rx.dataLen
  · right
    rw [if_pos hd]
    obtain ⟨_, _, hn0, hle, _, _⟩ := (R i).shape _ _ _ _ hh
    have htl : (txt rx.buf start (n - (start - p))).length = n - (start - p) := txt_length (by omega)
    have hlen' : l + e + rx.dataLen ≤ tail.length := by
      have := congrArg List.length htx
      rw [htl, List.length_drop] at this
      omega
    refine ⟨hd, _, ps ++ [.block i (tail.take l) ((tail.drop (l + e)).take rx.dataLen)], tail.drop (l + e + rx.dataLen), rfl, rfl, rfl, rfl, rfl, ?_, ?_⟩
    · exact h.piece (.block hh hlen' (.rest _)) (by rintro _ ⟨⟩; rw [← hlog]; exact hask)
    · refine ⟨by rw [hrec, List.map_append]; rfl, ⟨?_, by rw [hnums]; exact hns.snoc _⟩, ?_⟩
      · simp only [Option.getD_some]
        rw [hnums, textsOf_append, textsOf_snoc _ hns.2, textsOf_last]
        rw [hr] at hits
        simp only [Option.getD_some] at hits
        simp only [StreamPart.texts]
        rw [show ∀ x y : Str, [x, y] = [x] ++ [y] from fun _ _ => rfl, ← List.append_assoc]
        have hdl : ((tail.drop (l + e)).take rx.dataLen).length = rx.dataLen := by simp; omega
        refine forall₂_append_one (forall₂_items_congr hits (by omega) (fun _ _ => rfl)) (.inr ⟨start, by rw [hdl], ?_, by rw [hdl], by rw [hdl]; omega⟩)
        rw [hdl, htx, txt_take _ _ _ _ hd]
      · rw [← List.drop_drop, htx, txt_drop]
  · exact .inl ⟨by omega, by rw [if_neg hd]⟩

theorem rxEnter_dataLen {cfg : Cfg} {s s' : Pktio.St} {chunk : Str} {n : Nat} {oc : Option Cur} (h0 : s.dataLen = 0)
    (h : rxEnter cfg s chunk = some (n, s', oc)) : s'.dataLen = 0 := by
  unfold rxEnter at h
  cases hr : readPos cfg s with
  | none => rw [hr] at h; cases h
  | some q =>
    obtain ⟨s1, p, pr, em⟩ := q
    have h1 : s1.dataLen = 0 := by
      unfold readPos at hr
      split at hr
      · cases hr; exact h0
      · split at hr
        · split at hr
          · cases hr
          · split at hr
            · cases hr
            · rename_i m _
              cases hw : Cellular.wr m s.partialLen 0 with
              | none => rw [hw] at hr; cases hr
              | some m' => rw [hw] at hr; cases hr; exact h0
        · cases hr; exact h0
    rw [hr] at h
    simp only [] at h
    split at h
    · split at h
      · cases h; exact h1
      · split at h
        · cases h
        · rw [if_neg (by simp [h1])] at h
          simp only [] at h
          split at h
          · split at h
            · cases h
            · cases h; exact h1
          · cases h; exact h1
    · cases h; exact h1

/-- A read while nothing is announced. -/
theorem w_enter0 {cfg : Cfg} {R : Nat → Prefixes} {s : Bytes.St} (hw : WInv cfg R s) (hpc : s.pc = .wait) (D : PcD cfg s.rx s.pc)
    (h0 : s.rx.dataLen = 0) {chunk : Str} (hroom : chunk.length ≤ room cfg s.rx) (hov : (Bytes.enter cfg chunk s).overflowed = false) :
    WInv cfg R (Bytes.enter cfg chunk s) := by
  obtain ⟨sh, rx, pc, nums, stream, given, lost, ov⟩ := s
  simp only at hpc h0 hroom
  subst hpc
  obtain ⟨ps, tail, H, F⟩ := hw
  obtain ⟨⟨d, hi, _⟩, hpos⟩ := D
  have hd : d = 0 := hi.data.symm.trans h0
  subst hd
  obtain ⟨I, Q⟩ := F.1 h0
  have hov' : ¬ (room cfg rx = 0 ∧ (rx.partialLen ≠ 0 ∨ (rx.resp.getD ⟨false, []⟩).items ≠ [])) := by
    intro hx
    unfold Bytes.enter at hov
    simp only [Bytes.St.items] at hov
    revert hov
    split <;> simp only [Bool.or_eq_false_iff] <;> exact fun h => of_decide_eq_false h.2 hx
  obtain ⟨n, rx', oc, e, hresp, x, y⟩ := enter_text ⟨hi, hpos⟩ I.held.1 I.text hroom hov'
  have hd' := rxEnter_dataLen h0 e
  unfold Bytes.enter
  simp only []
  rw [e]
  cases oc with
  | none =>
    obtain ⟨hc, x1, x2⟩ := x rfl
    subst hc
    refine ⟨ps, tail, ⟨?_, H.given, H.known, H.asked⟩, fun _ => ⟨⟨I.received, ⟨?_, I.held.2⟩, x2⟩, Q⟩, fun hn => absurd hd' hn⟩
    · show Divided R (Dropped cfg lost) ps (stream ++ []) tail
      rw [List.append_nil]; exact H.cut
    · show List.Forall₂ _ (rx'.resp.getD ⟨false, []⟩).items _
      rw [hresp]; exact x1
  | some c =>
    obtain ⟨y1, y2⟩ := y c rfl
    refine ⟨ps, tail ++ chunk, ⟨H.cut.extend chunk, H.given, H.known, H.asked⟩, I.received, ⟨?_, I.held.2⟩, y2⟩
    show List.Forall₂ _ (rx'.resp.getD ⟨false, []⟩).items _
    rw [hresp]; exact y1

/-- A read while data are awaited. -/
theorem w_enterD {cfg : Cfg} {R : Nat → Prefixes} {s : Bytes.St} (hw : WInv cfg R s) (hpc : s.pc = .wait) (D : PcD cfg s.rx s.pc)
    (h0 : s.rx.dataLen ≠ 0) {chunk : Str} (hroom : chunk.length ≤ room cfg s.rx) (hov : (Bytes.enter cfg chunk s).overflowed = false) :
    WInv cfg R (Bytes.enter cfg chunk s) := by
  obtain ⟨sh, rx, pc, nums, stream, given, lost, ov⟩ := s
  simp only at hpc h0 hroom
  subst hpc
  obtain ⟨ps, tail, H, F⟩ := hw
  obtain ⟨⟨d, hi, hsome⟩, hpos⟩ := D
  have hd : d ≠ 0 := fun h => h0 (hi.data.trans h)
  obtain ⟨r, hr⟩ := Option.isSome_iff_exists.mp (hsome hd)
  obtain ⟨O, hshort⟩ := F.2 h0
  simp only at O hshort
  have hne : (rx.resp.getD ⟨false, []⟩).items ≠ [] := by
    obtain ⟨_, _, _, _, _, _, _, _, h5, _⟩ := O
    intro h
    rw [h] at h5
    have := h5.length_eq
    simp at this
  have hroom0 : room cfg rx ≠ 0 := by
    intro hx
    unfold Bytes.enter at hov
    simp only [Bytes.St.items] at hov
    revert hov
    split <;> simp only [Bool.or_eq_false_iff] <;> exact fun h => of_decide_eq_false h.2 ⟨hx, .inr hne⟩
  unfold PosIn at hpos
  have er : readPos cfg rx = some (rx, rx.readPtr.getD 0, rx.readPtr.getD 0 + rx.partialLen,
      (cfg.size : Int) - rx.partialLen - ((rx.readPtr.getD 0 : Nat) : Int)) := by
    unfold readPos
    cases hp : rx.readPtr with
    | none => simp
    | some q =>
      simp only []
      rw [if_neg (by rw [hr]; simp)]
      simp only [Option.getD_some]
  generalize hq : rx.readPtr.getD 0 = q at *
  have hl := hi.len
  simp only at hl hpos
  have hre : room cfg rx = ((cfg.size : Int) - rx.partialLen - (q : Int)).toNat := room_eq er
  have hem : (cfg.size : Int) - rx.partialLen - (q : Int) > 0 := by omega
  unfold Bytes.enter
  simp only []
  unfold rxEnter
  rw [er]
  simp only []
  rw [if_pos hem]
  by_cases hc : chunk = []
  · rw [if_pos hc]
    subst hc
    refine ⟨ps, tail, ⟨?_, H.given, H.known, H.asked⟩, fun hn => absurd hn h0, fun _ => ⟨?_, hshort⟩⟩
    · show Divided R (Dropped cfg lost) ps (stream ++ []) tail
      rw [List.append_nil]; exact H.cut
    · show Open R sh rx nums ps tail (rx.readPtr.getD 0) rx.partialLen
      rw [hq]; exact O
  · rw [if_neg hc]
    have hlen0 : 0 < chunk.length := List.length_pos_iff.mpr hc
    obtain ⟨m, em, hm1, hm2⟩ := put_some (m := rx.buf) (p := q + rx.partialLen) (t := chunk ++ [0]) (by simp; omega)
    rw [em]
    simp only []
    rw [if_pos h0]
    -- the text, extended
    have htx : txt m q (chunk.length + rx.partialLen) = txt rx.buf q rx.partialLen ++ chunk := by
      rw [Nat.add_comm, txt_append]
      congr 1
      · exact txt_congr (fun x h1 h2 => hm2 x (Or.inl (by omega)))
      · have hp2 := txt_put em
        have h5 := txt_take m (q + rx.partialLen) (chunk ++ [0]).length chunk.length (by simp)
        rw [hp2] at h5
        rw [← h5]
        simp
    have H' : Hist cfg R ⟨sh, rx, .wait, nums, stream ++ chunk, given, lost, ov⟩ ps (tail ++ chunk) :=
      ⟨H.cut.extend chunk, H.given, H.known, H.asked⟩
    have O' : Open R sh { rx with buf := m, partialLen := 0 } nums ps (tail ++ chunk) q (chunk.length + rx.partialLen - (q - q)) := by
      obtain ⟨i, l, e, ns, h1, h2, h3, h4, h5, h6, h7⟩ := O
      obtain ⟨_, _, _, hle, _, _⟩ := (R i).shape _ _ _ _ h1
      refine ⟨i, l, e, ns, (R i).block_ext _ _ _ _ _ h1, ?_, h3, h4, ?_, ?_, h7⟩
      · rw [List.take_append_of_le_length (by omega)]; exact h2
      · rw [List.take_append_of_le_length (by omega)]
        exact forall₂_items_congr h5 (Nat.le_refl _) (fun x hx => hm2 x (Or.inl (by omega)))
      · rw [List.drop_append_of_le_length (by omega), h6, Nat.sub_self, Nat.sub_zero]
        exact htx.symm
    rcases data_step H' rfl O' (Nat.le_refl _) (by omega) (by simp only []; omega) (r := r) hr with ⟨hs, e⟩ | ⟨hs, rx', ps', tail', e, e1, e2, e3, e4, H2, I2⟩
    · simp only [Nat.sub_self, Nat.sub_zero] at e hs
      rw [e]
      simp only [Nat.lt_irrefl, if_false, gt_iff_lt]
      refine ⟨ps, tail ++ chunk, ⟨H'.cut, H.given, H.known, H.asked⟩, fun hn => absurd hn h0, fun _ => ⟨?_, hs⟩⟩
      rw [Nat.sub_self, Nat.sub_zero] at O'
      exact O'.congr rfl (l := []) (List.append_nil _).symm rfl rfl rfl
    · simp only [Nat.sub_self, Nat.sub_zero] at e hs e3 e4 I2
      rw [e]
      simp only []
      have hfit : q + rx.partialLen + chunk.length ≤ cfg.size := by omega
      by_cases hz : chunk.length + rx.partialLen - rx.dataLen > 0
      · rw [if_pos hz, e1, wr_some (by simp only [] at hm1 hs ⊢; rw [hm1, hl]; omega)]
        refine ⟨ps', tail', ⟨H2.cut, H2.given, H2.known, H2.asked⟩, I2.received, ?_, ?_⟩
        · exact I2.held.congr rfl (Nat.le_refl _) (fun x hx => by rw [e1]; exact List.getElem?_set_ne (by omega))
        · rw [← I2.text, e1]
          exact txt_congr (fun x h1 h2 => List.getElem?_set_ne (by simp only [] at h2; omega))
      · rw [if_neg hz]
        refine ⟨ps', tail', ⟨H2.cut, H2.given, H2.known, H2.asked⟩, fun _ => ⟨?_, .inl ?_⟩, fun hn => absurd e2 hn⟩
        · simp only [e3, e4, Option.getD_some]; exact I2
        · rw [← I2.text, show chunk.length + rx.partialLen - rx.dataLen = 0 by omega]
          intro b hb
          simp [txt] at hb

theorem fetched_none (o : Option Nat) : (Conc.fetchedBy o).filterMap calledWith = [] := by
  cases o <;> rfl

theorem called_none (r d : Option Nat) : (Bytes.calledBy r d).filterMap calledWith = [] := by
  cases d <;> cases r <;> rfl

theorem consult_none (s : Bytes.St) : (Bytes.consult s).filterMap calledWith = [] := by
  unfold Bytes.consult
  split <;> rfl

/-- Line ends are skipped. -/
theorem w_top {cfg : Cfg} (hin : cfg.inputCb = none) {R : Nat → Prefixes} {s : Bytes.St} (hw : WInv cfg R s) {c : Cur} (hpc : s.pc = .top c)
    (D : PcD cfg s.rx s.pc) : WInv cfg R (Bytes.top cfg c s) := by
  obtain ⟨sh, rx, pc, nums, stream, given, lost, ov⟩ := s
  simp only at hpc
  subst hpc
  obtain ⟨ps, tail, H, F⟩ := hw
  obtain ⟨hi, hpos⟩ := D
  have I : Idle sh rx nums ps tail c.p c.n := F
  have hl := hi.len
  simp only at hl
  have hT : txt rx.buf c.p c.n = tail := I.text
  have htl : tail.length = c.n := by rw [← hT]; exact txt_length (by omega)
  generalize hj : (tail.takeWhile isEol).length = j
  have hskip : skipEol rx.buf c.p c.n = some (c.p + j, c.n - j) := by
    rw [skipEol_eq rx.buf c.n c.p (by omega), hT, hj]
  have ht1 : tail.dropWhile isEol = txt rx.buf (c.p + j) (c.n - j) := by
    rw [dropWhile_eq_drop, hj, ← hT, txt_drop]
  have hjn : j ≤ c.n := by
    rw [← hj, ← htl]; exact (List.takeWhile_sublist _).length_le
  have hpi : preprocessInput cfg rx (c.p + j) (c.n - j) = some (true, rx, c.p + j, c.n - j) := by
    simp [preprocessInput, hin]
  have hl0 : (Conc.fetchedBy sh.recvCb ++ Conc.fetchedBy sh.sendCb).filterMap calledWith = [] := by
    rw [List.filterMap_append, fetched_none, fetched_none]; rfl
  have H1 : Hist cfg R ⟨sh, rx, .top c, nums, stream, given, lost, ov⟩ ps (tail.dropWhile isEol) := ⟨H.cut.skip, H.given, H.known, H.asked⟩
  have held : Held rx ps nums (c.p + j) := I.held.congr rfl (by omega) (fun _ _ => rfl)
  unfold Bytes.top
  simp only []
  rw [hskip]
  simp only []
  rw [hpi]
  simp only []
  by_cases hn : c.n - j = 0
  · rw [if_pos hn]
    refine ⟨ps, tail.dropWhile isEol, H1.move rfl rfl rfl (List.append_assoc _ _ _) hl0, ⟨fun _ => ⟨⟨I.received, held.congr rfl (Nat.le_refl _) (fun _ _ => rfl), ?_⟩, .inl ?_⟩,
      fun hx => absurd hi.data hx⟩⟩
    · rw [ht1, hn]; rfl
    · rw [ht1, hn]
      intro b hb
      simp [txt] at hb
  · rw [if_neg hn]
    refine ⟨ps, tail.dropWhile isEol, H1.move rfl rfl rfl (List.append_assoc _ _ _) hl0, ⟨I.received, held, ht1.symm⟩, ?_⟩
    have h2 := List.head?_dropWhile_not isEol tail
    cases hh : (tail.dropWhile isEol).head? with
    | none =>
      have := List.head?_eq_none_iff.mp hh
      rw [ht1] at this
      have h3 := txt_length (m := rx.buf) (p := c.p + j) (n := c.n - j) (by omega)
      rw [this] at h3
      exact absurd h3.symm hn
    | some b =>
      rw [hh] at h2
      simp only at h2
      exact ⟨b, rfl, fun hx => by rw [(isEol_iff b).mpr hx] at h2; simp at h2⟩

/-- A line is looked for, in a buffer whose text is `t`. -/
theorem w_find {rx : Pktio.St} {t : Str} {c : Cur} {i : Nat} (ht : txt rx.buf c.p c.n = t) (hlen : c.p + c.n ≤ rx.buf.length) (hf : t.findIdx? isEol = some i) (hhd : ∃ b, t.head? = some b ∧ ¬ LineEnd b) :
    ∃ m, wr rx.buf (c.p + i) 0 = some m ∧ (∀ k, k ≠ c.p + i → m[k]? = rx.buf[k]?) ∧ LineAt m c.p (t.take i) ∧ (t.take i).length = i ∧ t.take i ≠ [] ∧
      NoEol (t.take i) ∧ ∃ e, LineEnd e ∧ t = t.take i ++ e :: txt m (c.p + (i + 1)) (c.n - (i + 1)) := by
  obtain ⟨e, hsplit, he, hno, hi0⟩ := findIdx_split hf
  have hTl : t.length = c.n := by rw [← ht]; exact txt_length hlen
  rw [hTl] at hi0
  have hll : (t.take i).length = i := by simp [hTl]; omega
  obtain ⟨b, hhead, hnb⟩ := hhd
  have hne : t.take i ≠ [] := by
    intro h0
    rw [h0, List.nil_append] at hsplit
    rw [hsplit] at hhead
    simp at hhead
    exact hnb (hhead ▸ he)
  have htk : t.take i = txt rx.buf c.p i := by rw [← ht]; exact txt_take _ _ _ _ (by omega)
  have hdr : t.drop (i + 1) = txt rx.buf (c.p + (i + 1)) (c.n - (i + 1)) := by rw [← ht]; exact txt_drop _ _ _ _
  have hmo : ∀ k, k ≠ c.p + i → (rx.buf.set (c.p + i) 0)[k]? = rx.buf[k]? := fun k hk => List.getElem?_set_ne (by omega)
  refine ⟨_, wr_some (by omega), hmo, ⟨hno.noNul, ?_, ?_⟩, hll, hne, hno, e, he, ?_⟩
  · rw [txt_congr (m := rx.buf) (fun k h1 h2 => hmo k (by omega)), hll, ← htk]
  · rw [hll]; exact List.getElem?_set_self (by omega)
  · rw [txt_congr (m := rx.buf) (fun k h1 h2 => hmo k (by omega)), ← hdr]
    exact hsplit

theorem put_self {m : Mem} {p n : Nat} (h : p + n ≤ m.length) : put m p (txt m p n) = some m := by
  have hl : (txt m p n).length = n := txt_length h
  obtain ⟨m', e, h1, h2⟩ := put_some (m := m) (p := p) (t := txt m p n) (by omega)
  rw [e]
  congr 1
  apply List.ext_getElem?
  intro k
  by_cases hk : p ≤ k ∧ k < p + n
  · have h3 := txt_put e
    rw [hl] at h3
    have h4 := congrArg (·[k - p]?) h3
    rw [txt_getElem? _ _ _ _ (by omega), txt_getElem? _ _ _ _ (by omega)] at h4
    rwa [show p + (k - p) = k by omega] at h4
  · exact h2 k (by omega)

/-- A line is looked for where the callback found no header. -/
theorem w_line {R : Nat → Prefixes} {cfg : Cfg} {sh : Conc.St} {rx rx0 : Pktio.St} {nums : List Nat} {stream : Str} {given : List (Nat × List Str)}
    {lost ov : Bool} {pc : Pc} {ps : List StreamPart} {tail : Str} {c : Cur} {a : Option Nat} {evs : List Conc.Ev}
    (H : Hist cfg R ⟨sh, rx0, pc, nums, stream, given, lost, ov⟩ ps tail) (I : Idle sh rx nums ps tail c.p c.n) (hi : RxInv0 cfg rx)
    (hpos : c.p + c.n ≤ cfg.size) (hhd : ∃ b, tail.head? = some b ∧ ¬ LineEnd b) (ha : ∀ i, a = some i → (R i).hdr tail = .no)
    (hev : evs.filterMap calledWith = []) (hask : ∀ i, a = some i → ∃ x, evs = x ++ [.prefixCb i]) :
    ∃ s', WInv cfg R s' ∧ (match findLine rx c.p c.n with
      | none => ({ sh := { sh with log := sh.log ++ evs }, rx := rx0, pc := .bad, nums := nums, stream := stream, given := given, lost := lost,
                   overflowed := ov } : Bytes.St)
      | some (rx, none) => { sh := { sh with log := sh.log ++ evs }, rx := rx, pc := .wait, nums := nums, stream := stream, given := given, lost := lost,
                             overflowed := ov }
      | some (rx, some len) =>
        match readStr rx.buf c.p with
        | none => { sh := { sh with log := sh.log ++ evs }, rx := rx0, pc := .bad, nums := nums, stream := stream, given := given, lost := lost, overflowed := ov }
        | some line => { sh := { sh with log := sh.log ++ evs ++ [.recv sh.received.length], received := sh.received ++ [line] }, rx := rx,
                         pc := .classify ⟨c.p, c.n, c.sd⟩ len, nums := nums, stream := stream, given := given, lost := lost, overflowed := ov }) = s' := by
  refine ⟨_, ?_, rfl⟩
  have hl := hi.len
  have hsl : slice rx.buf c.p c.n = some tail := by rw [← I.text]; exact slice_some (by omega)
  unfold findLine
  rw [hsl]
  simp only []
  cases hf : tail.findIdx? isEol with
  | none =>
    simp only []
    exact ⟨ps, tail, H.move rfl rfl rfl rfl hev, fun _ => ⟨I.congr rfl rfl rfl, .inl (findIdx_none hf)⟩, fun hx => absurd hi.data hx⟩
  | some i =>
    obtain ⟨m, em, hmo, hL, hll, hne, hno, e, he, hsp⟩ := w_find I.text (by omega) hf hhd
    simp only [em, Option.map_some]
    rw [hL.readStr]
    simp only []
    refine ⟨ps, tail, H.move (l := evs ++ [.recv sh.received.length]) rfl rfl rfl (List.append_assoc _ _ _) ?_, tail.take i, .line a (tail.take i), ?_, hL, hll, hne, hno, ?_, ?_, rfl, ?_,
      fun hx => absurd hi.data hx⟩
    · rw [List.filterMap_append, hev]; rfl
    · show sh.received ++ [tail.take i] = _
      rw [I.received]
    · exact I.held.congr rfl (Nat.le_refl _) (fun k hk => hmo k (by omega))
    · intro j hj
      obtain ⟨x, hx⟩ := hask j hj
      refine ⟨sh.log ++ x, [], ?_⟩
      show sh.log ++ evs ++ [Conc.Ev.recv sh.received.length] = _
      rw [hx, I.received, List.length_map]
      simp
    · intro _
      refine ⟨fun D => ?_, .inl ⟨a, e, _, rfl, he, hsp⟩⟩
      have hcut := Divided.line (R := R) (Drops := D) (a := a) hno hne he (s := txt m (c.p + (i + 1)) (c.n - (i + 1)))
        (fun j hj => by rw [← hsp]; exact ha j hj) (.rest _)
      rw [← hsp] at hcut
      exact hcut

/-- A data send prefix callback is asked: the text is the prompt, or it is left alone. -/
theorem w_pre_send {cfg : Cfg} {fn : Fns} {R : Nat → Prefixes} (hP : ∀ i, Prompts (fn.send i) (R i).prompt (R i).shown) {sh : Conc.St} {rx : Pktio.St}
    {nums : List Nat} {stream : Str} {given : List (Nat × List Str)} {lost ov : Bool} {pc : Pc} {ps : List StreamPart} {tail : Str} {c : Cur} {r : Option Nat}
    {j : Nat} (H : Hist cfg R ⟨sh, rx, pc, nums, stream, given, lost, ov⟩ ps tail) (I : Idle sh rx nums ps tail c.p c.n) (hi : RxInv0 cfg rx)
    (hpos : c.p + c.n ≤ cfg.size) (hhd : ∃ b, tail.head? = some b ∧ ¬ LineEnd b) (hn0 : c.n ≠ 0) (hne : tail ≠ []) :
    WInv cfg R (Bytes.pre cfg fn c r (some j) ⟨sh, rx, pc, nums, stream, given, lost, ov⟩) := by
  have hl := hi.len
  have him := hP j
  unfold Bytes.pre
  simp only [Option.map_some]
  generalize fn.send j = f at him ⊢
  generalize r.map fn.data = dcb
  have hsl : slice rx.buf c.p c.n = some tail := by rw [← I.text]; exact slice_some (by omega)
  have hps : put rx.buf c.p tail = some rx.buf := by rw [← I.text]; exact put_self (by omega)
  have htl : tail.length = c.n := by rw [← I.text]; exact txt_length (by omega)
  have hcount := him.count tail
  by_cases hp : tail = (R j).prompt
  · obtain ⟨hst, e, he, htext⟩ := him.prompt
    rw [← hp] at hst htext
    have hplace := him.place
    rw [← hp, htl] at hplace
    obtain ⟨hne2, hno⟩ := him.line
    generalize hL0 : (R j).shown = L at *
    obtain ⟨m, em, hm1, hm2⟩ := put_some (m := rx.buf) (p := c.p) (t := L ++ [e]) (by simp; omega)
    have hpre : preprocessLine cfg { rx with sendCb := some f, dataCb := dcb } c.p c.n c.sd =
        some (true, { rx with sendCb := some f, dataCb := dcb, buf := m }, c.n, c.sd) := by
      unfold preprocessLine
      rw [if_neg hn0]
      simp only [hsl]
      generalize hft : f tail = ft at hst htext hcount
      obtain ⟨f1, f2, f3⟩ := ft
      simp only at hst htext hcount ⊢
      subst htext
      simp only [em]
      rw [hcount, htl]
      rcases hst with h | h <;> subst h <;> rfl
    rw [hpre]
    simp only []
    have htx : txt m c.p c.n = L ++ [e] := by
      have := txt_put em
      rwa [List.length_append, List.length_singleton, ← hplace] at this
    have hf : (L ++ [e]).findIdx? isEol = some L.length := by
      rw [List.findIdx?_eq_some_iff_getElem]
      refine ⟨by simp, by simp [(isEol_iff e).mpr he], ?_⟩
      intro k hk hx
      rw [List.getElem_append_left hk] at hx
      exact hno _ (List.getElem_mem hk) ((isEol_iff _).mp hx)
    have hhd' : ∃ b, (L ++ [e]).head? = some b ∧ ¬ LineEnd b := by
      cases L with
      | nil => exact absurd rfl hne2
      | cons b L => exact ⟨b, rfl, hno b List.mem_cons_self⟩
    obtain ⟨m2, em2, hmo, hLA, hll, _, hno2, e2, he2, hsp⟩ := w_find (rx := { rx with sendCb := some f, dataCb := dcb, buf := m })
      (c := c) htx (by simp only []; omega) hf hhd'
    simp only [] at em2 hmo hLA
    have hsl2 : slice m c.p c.n = some (L ++ [e]) := by rw [← htx]; exact slice_some (by omega)
    unfold findLine
    simp only []
    rw [hsl2]
    simp only []
    rw [hf]
    simp only [em2, Option.map_some]
    rw [hLA.readStr]
    rw [List.take_left'  rfl] at hLA hll hno2
    simp only []
    have hrest : ∀ m' : Mem, txt m' (c.p + (L.length + 1)) (c.n - (L.length + 1)) = [] := by
      intro m'
      rw [hplace, Nat.sub_self]
      simp [txt]
    refine ⟨ps, tail, H.move (l := Bytes.calledBy r (some j) ++ [.recv sh.received.length]) rfl rfl rfl (List.append_assoc _ _ _) ?_, L, .prompt j L, ?_, hLA, rfl, hne2, hno2,
      ?_, ?_, rfl, ?_, fun hx => absurd hi.data hx⟩
    · rw [List.filterMap_append, called_none]; rfl
    · show sh.received ++ [(L ++ [e]).take L.length] = _
      rw [I.received, List.take_left' rfl]
    · exact I.held.congr rfl (Nat.le_refl _) (fun k hk => (hmo k (by omega)).trans (hm2 k (Or.inl hk)))
    · rintro _ ⟨⟩
      refine ⟨sh.log, [], ?_⟩
      show sh.log ++ Bytes.calledBy r (some j) ++ [Conc.Ev.recv sh.received.length] = _
      rw [I.received, List.length_map]
      simp [Bytes.calledBy]
    · intro _
      refine ⟨fun D => ?_, .inr ⟨⟨j, hL0.symm, hp⟩, hrest _⟩⟩
      rw [hrest]
      have hc := Divided.prompt (R := R) (Drops := D) (i := j) (.rest [])
      rw [List.append_nil, ← hp, hL0] at hc
      exact hc
  · obtain ⟨hst, htext⟩ := him.other tail hp
    have hpre : preprocessLine cfg { rx with sendCb := some f, dataCb := dcb } c.p c.n c.sd =
        some (true, { rx with sendCb := some f, dataCb := dcb }, c.n, c.sd) := by
      unfold preprocessLine
      rw [if_neg hn0]
      simp only [hsl]
      generalize hft : f tail = ft at hst htext hcount
      obtain ⟨f1, f2, f3⟩ := ft
      simp only at hst htext hcount ⊢
      subst htext
      simp only [hps]
      rw [hcount, htl]
      rcases hst with h | h <;> subst h <;> rfl
    rw [hpre]
    simp only []
    obtain ⟨s', hw', e⟩ := w_line (cfg := cfg) (rx := { rx with sendCb := some f, dataCb := dcb }) (rx0 := rx) (pc := pc) (a := none)
      (evs := Bytes.calledBy r (some j)) H (I.congr rfl rfl rfl) ⟨hi.len, hi.last, hi.items, hi.data⟩ hpos hhd nofun (called_none _ _) nofun
    refine cast (congrArg (WInv cfg R) ?_) hw'
    rw [← e]
    rfl

theorem w_pre {cfg : Cfg} {fn : Fns} {R : Nat → Prefixes} (hR : ∀ i, Implements (R i).toRecogniser (fn.data i))
    (hP : ∀ i, Prompts (fn.send i) (R i).prompt (R i).shown) {s : Bytes.St} (hw : WInv cfg R s) {c : Cur}
    {r d : Option Nat} (hpc : s.pc = .pre c r d) (D : PcD cfg s.rx s.pc) : WInv cfg R (Bytes.pre cfg fn c r d s) := by
  obtain ⟨sh, rx, pc, nums, stream, given, lost, ov⟩ := s
  simp only at hpc
  subst hpc
  obtain ⟨ps, tail, H, F⟩ := hw
  obtain ⟨hi, hpos⟩ := D
  obtain ⟨I, hhd⟩ := F
  simp only at I
  have hl := hi.len
  simp only at hl
  have hn0 : c.n ≠ 0 := by
    intro h0
    obtain ⟨b, hb, _⟩ := hhd
    have ht := I.text
    rw [h0] at ht
    rw [← ht] at hb
    simp [txt] at hb
  have hne : tail ≠ [] := by
    rintro rfl
    obtain ⟨b, hb, _⟩ := hhd
    simp at hb
  cases d with
  | some j => exact w_pre_send hP H I hi hpos hhd hn0 hne
  | none =>
  cases r with
  | none =>
    unfold Bytes.pre
    simp only [Option.map_none]
    have hpre : preprocessLine cfg { rx with sendCb := none, dataCb := none } c.p c.n c.sd =
        some (true, { rx with sendCb := none, dataCb := none }, c.n, c.sd) := by simp [preprocessLine, hn0]
    rw [hpre]
    simp only []
    obtain ⟨s', hw', e⟩ := w_line (cfg := cfg) (rx := { rx with sendCb := none, dataCb := none }) (rx0 := rx) (pc := .pre c none none) (a := none)
      (evs := Bytes.calledBy none none) H (I.congr rfl rfl rfl) ⟨hi.len, hi.last, hi.items, hi.data⟩ hpos hhd nofun (called_none _ _) nofun
    refine cast (congrArg (WInv cfg R) ?_) hw'
    rw [← e]
    rfl
  | some i =>
    unfold Bytes.pre
    simp only [Option.map_none, Option.map_some]
    have him := hR i tail hne
    generalize fn.data i = f at him ⊢
    have hsl : slice rx.buf c.p c.n = some tail := by rw [← I.text]; exact slice_some (by omega)
    have hps : put rx.buf c.p tail = some rx.buf := by rw [← I.text]; exact put_self (by omega)
    cases hh : (R i).hdr tail with
    | no =>
      rw [hh] at him
      simp only [] at him
      have hpre : preprocessLine cfg { rx with sendCb := none, dataCb := some f } c.p c.n c.sd =
          some (true, { rx with sendCb := none, dataCb := some f }, c.n, c.sd) := by
        unfold preprocessLine
        rw [if_neg hn0]
        simp only [hsl]
        rcases him with him | him <;> rw [him] <;> simp only [hps] <;> rfl
      rw [hpre]
      simp only []
      obtain ⟨s', hw', e⟩ := w_line (cfg := cfg) (rx := { rx with sendCb := none, dataCb := some f }) (rx0 := rx) (pc := .pre c (some i) none) (a := some i)
        (evs := Bytes.calledBy (some i) none) H (I.congr rfl rfl rfl) ⟨hi.len, hi.last, hi.items, hi.data⟩ hpos hhd (by rintro _ ⟨⟩; exact hh) (called_none _ _)
        (by rintro _ ⟨⟩; exact ⟨[], rfl⟩)
      refine cast (congrArg (WInv cfg R) ?_) hw'
      rw [← e]
      rfl
    | incomplete =>
      rw [hh] at him
      simp only [] at him
      have hpre : preprocessLine cfg { rx with sendCb := none, dataCb := some f } c.p c.n c.sd =
          some (false, { rx with sendCb := none, dataCb := some f, readPtr := some c.p, partialLen := c.n }, c.n, c.sd) := by
        unfold preprocessLine
        rw [if_neg hn0]
        simp only [hsl]
        rw [him]
        simp only [hps]
        rfl
      rw [hpre]
      simp only []
      exact ⟨ps, tail, H.move rfl rfl rfl rfl (called_none _ _), fun _ => ⟨I.congr rfl rfl rfl, .inr ⟨i, hh⟩⟩, fun hx => absurd hi.data hx⟩
    | block l e n =>
      rw [hh] at him
      simp only [] at him
      obtain ⟨t', him, ht1, ht2, ⟨b, hb1, hb2⟩, ht3⟩ := him
      obtain ⟨g1, g2, g3, g4, g5, g6⟩ := (R i).shape _ _ _ _ hh
      have htl : tail.length = c.n := by rw [← I.text]; exact txt_length (by omega)
      obtain ⟨m, em, hm1, hm2⟩ := put_some (m := rx.buf) (p := c.p) (t := t') (by omega)
      have hpre : preprocessLine cfg { rx with sendCb := none, dataCb := some f } c.p c.n c.sd =
          some (true, { rx with sendCb := none, dataCb := some f, buf := m, dataLen := n }, c.n, some (c.p + (l + e))) := by
        unfold preprocessLine
        rw [if_neg hn0]
        simp only [hsl]
        rw [him]
        simp only [em]
        rfl
      rw [hpre]
      simp only []
      have htx : txt m c.p c.n = t' := by
        have := txt_put em
        rwa [ht1, htl] at this
      have hf : t'.findIdx? isEol = some l := by
        rw [List.findIdx?_eq_some_iff_getElem]
        have hlt : l < t'.length := by omega
        rw [List.getElem?_eq_getElem hlt] at hb1
        have hb1 : t'[l] = b := by simpa using hb1
        refine ⟨hlt, by rw [hb1]; exact (isEol_iff b).mpr hb2, ?_⟩
        intro j hj hx
        have hm : t'[j] ∈ tail.take l := by
          rw [← ht2]
          rw [List.mem_iff_getElem]
          exact ⟨j, by simp; omega, by simp⟩
        exact g5 _ hm ((isEol_iff _).mp hx)
      have hhd' : ∃ b, t'.head? = some b ∧ ¬ LineEnd b := by
        obtain ⟨b0, hb0, hnb⟩ := hhd
        refine ⟨b0, ?_, hnb⟩
        have h1 : (t'.take l).head? = (tail.take l).head? := by rw [ht2]
        rwa [List.head?_take, List.head?_take, if_neg (by omega), if_neg (by omega), hb0] at h1
      obtain ⟨m2, em2, hmo, hL, hll, hne2, hno, e2, he2, hsp⟩ := w_find (rx := { rx with sendCb := none, dataCb := some f, buf := m, dataLen := n })
        (c := ⟨c.p, c.n, some (c.p + (l + e))⟩) htx (by simp only []; omega) hf hhd'
      simp only [] at em2 hmo hL
      have hsl2 : slice m c.p c.n = some t' := by rw [← htx]; exact slice_some (by omega)
      unfold findLine
      simp only []
      rw [hsl2]
      simp only []
      rw [hf]
      simp only [em2, Option.map_some]
      rw [hL.readStr]
      rw [ht2] at hL hll hne2 hno
      refine ⟨ps, tail, H.move (l := Bytes.calledBy (some i) none ++ [.recv sh.received.length]) rfl rfl rfl (List.append_assoc _ _ _) ?_, tail.take l, .line (some i) (tail.take l), ?_, hL, hll, hne2, hno, ?_, ?_, rfl, ?_, ?_⟩
      · rw [List.filterMap_append, called_none]; rfl
      · show sh.received ++ [t'.take l] = _
        rw [I.received, ht2]
      · exact I.held.congr rfl (Nat.le_refl _) (fun k hk => (hmo k (by omega)).trans (hm2 k (Or.inl hk)))
      · rintro _ ⟨⟩
        refine ⟨sh.log, [], ?_⟩
        show sh.log ++ Bytes.calledBy (some i) none ++ [Conc.Ev.recv sh.received.length] = _
        rw [I.received, List.length_map]
        simp [Bytes.calledBy]
      · intro hx
        exact absurd hx (by simp only []; omega)
      · intro _
        refine ⟨i, e, rfl, hh, rfl, g2, rfl, by simp only []; omega, ?_⟩
        simp only []
        rw [← ht3, ← htx, txt_drop]
        exact txt_congr (fun k h1 h2 => (hmo k (by omega)).symm)

/-- Classification. -/
theorem w_classify {cfg : Cfg} (hu : ∀ l, (cfg.urcEdit l).length ≤ l.length) {R : Nat → Prefixes} {s : Bytes.St} (hw : WInv cfg R s) {c : Cur} {len : Nat}
    {on : Bool} (hpc : s.pc = .classify2 c len on) (D : PcD cfg s.rx s.pc) (hnl : ¬ Late (Bytes.classify cfg c len on s)) :
    WInv cfg R (Bytes.classify cfg c len on s) := by
  obtain ⟨sh, rx, pc, nums, stream, given, lost, ov⟩ := s
  simp only at hpc
  subst hpc
  obtain ⟨ps, tail, H, line, a, F⟩ := hw
  obtain ⟨ha, h1, h2, h3⟩ := D
  obtain ⟨d, hd⟩ := ha.inv
  have hl := hd.len
  simp only at h1 h2 h3 hl
  have hrd : readStr rx.buf c.p = some line := F.at_.readStr
  unfold Bytes.classify at hnl ⊢
  simp only [hrd] at hnl ⊢
  cases hg : getMsgType cfg sh.cmd (if on then some sh.pfxBuf else none) line with
  | solicited => exact ⟨ps, tail, H.same rfl rfl rfl rfl, line, a, F⟩
  | undefined =>
    rw [hg] at hnl
    simp only [] at hnl
    have h0 : rx.dataLen = 0 := by
      by_contra hn
      exact hnl ⟨hn, trivial⟩
    refine ⟨_, _, (close_line H F h0 rfl).same rfl rfl rfl rfl, ⟨?_, ?_, rfl⟩, ps, a, line, rfl, F.at_,
      (F.plain h0).2.imp (fun ⟨a, _, _, h, _⟩ => ⟨a, h⟩) (·.2)⟩
    · show sh.received = _
      rw [F.received, List.map_append, List.map_singleton, head_of_texts F.texts]
    · exact F.held.more _ rfl (by omega) (fun _ _ => rfl)
  | unsolicited =>
    rw [hg] at hnl
    simp only [] at hnl
    have hul := hu line
    have hlen := F.length
    obtain ⟨m, em, hm1, hm2⟩ := put_some (m := rx.buf) (p := c.p) (t := cfg.urcEdit line) (by omega)
    simp only [em] at hnl ⊢
    have h0 : rx.dataLen = 0 := by
      by_contra hn
      exact hnl ⟨hn, nofun⟩
    refine ⟨_, _, (close_line H F h0 rfl).same rfl rfl rfl rfl, fun _ => ⟨⟨?_, ?_, ?_⟩, fun _ => nofun⟩, fun hn => absurd h0 hn⟩
    · show sh.received = _
      rw [F.received, List.map_append, List.map_singleton, head_of_texts F.texts]
    · exact F.held.more _ rfl (by omega) (fun k hk => hm2 k (Or.inl hk))
    · exact txt_congr (fun k hk1 hk2 => hm2 k (Or.inr (by omega)))

/-- What `_Cellular_ProcessLine` does to the items. -/
theorem processLine_new {cfg : Cfg} {line : Str} {it : Item} {r : Resp} {t : CmdType} :
    (processLine cfg line it r t).2.items = r.items ∨ (processLine cfg line it r t).2.items = r.items ++ [it] := by
  rcases (processLine_pair (cfg := cfg) (line := line) (it1 := it) (it2 := it) (t := t) (rfl : r.status = r.status) Iff.rfl).2.2 with h | h
  · exact .inl h.1
  · exact .inr h.1

/-- A line that is pending in the buffer was collected. -/
theorem processLine_buffer {cfg : Cfg} {line : Str} {it : Item} {r r' : Resp} {t : CmdType}
    (h : processLine cfg line it r t = (.pendingBuffer, r')) : r'.items = r.items ++ [it] := by
  unfold processLine at h
  split at h
  · split at h
    · cases h
    · split at h
      · cases h
      · unfold Pktio.processIntermediate at h
        cases t <;> simp only [] at h <;> first
          | (cases h; rfl)
          | (split at h <;> cases h)
          | cases h
  · cases h

/-- The line is processed. -/
theorem w_proc {cfg : Cfg} {R : Nat → Prefixes} {s : Bytes.St} (hw : WInv cfg R s) {c : Cur} {len : Nat} {t : CmdType} (hpc : s.pc = .proc2 c len t)
    (D : PcD cfg s.rx s.pc) (hnl : ¬ Late (Bytes.proc cfg c len t s)) : WInv cfg R (Bytes.proc cfg c len t s) := by
  obtain ⟨sh, rx, pc, nums, stream, given, lost, ov⟩ := s
  simp only at hpc
  subst hpc
  obtain ⟨ps, tail, H, line, a, F⟩ := hw
  obtain ⟨ha, h1, h2, h3⟩ := D
  simp only at h1 h2 h3
  have hrd : readStr rx.buf c.p = some line := F.at_.readStr
  have hlen := F.length
  have hcur : sh.received.length - 1 = ps.length := by rw [F.received]; simp
  unfold Bytes.proc at hnl ⊢
  simp only [hrd] at hnl ⊢
  generalize hq : processLine { cfg with extra := sh.extra.map (·.2) } line (.line c.p) (rx.resp.getD ⟨false, []⟩) t = q at hnl ⊢
  obtain ⟨st, r⟩ := q
  simp only [] at hnl ⊢
  have hnew : r.items = (rx.resp.getD ⟨false, []⟩).items ∨ r.items = (rx.resp.getD ⟨false, []⟩).items ++ [.line c.p] := by
    have := processLine_new (cfg := { cfg with extra := sh.extra.map (·.2) }) (line := line) (it := .line c.p) (r := rx.resp.getD ⟨false, []⟩) (t := t)
    rw [hq] at this
    exact this
  have hitem : ItemAt rx.buf (c.p + (len + 1)) (.line c.p) line := .inl ⟨c.p, rfl, F.at_, by omega⟩
  have hrec : sh.received = (ps ++ [a]).map StreamPart.head := by
    rw [F.received, List.map_append, List.map_singleton, head_of_texts F.texts]
  -- what is collected, if the line is complete
  have held : ∀ (st' : PktStatus), Held { rx with resp := some r } (ps ++ [a])
      (if r.items.length = (rx.resp.getD ⟨false, []⟩).items.length then nums else nums ++ [sh.received.length - 1]) (c.p + (len + 1)) := by
    intro _
    rcases hnew with hn | hn
    · rw [if_pos (by rw [hn])]
      refine ⟨?_, F.held.2.more _⟩
      rw [textsOf_snoc _ F.held.2.2]
      simp only [Option.getD_some]
      rw [hn]
      exact forall₂_items_congr F.held.1 (by omega) (fun _ _ => rfl)
    · rw [if_neg (by rw [hn]; simp), hcur]
      refine ⟨?_, F.held.2.snoc _⟩
      rw [textsOf_append, textsOf_snoc _ F.held.2.2, textsOf_last, F.texts]
      simp only [Option.getD_some]
      rw [hn]
      exact forall₂_append_one (forall₂_items_congr F.held.1 (by omega) (fun _ _ => rfl)) hitem
  have hcl : ∀ h0 : rx.dataLen = 0, Hist cfg R ⟨sh, rx, .proc2 c len t, nums, stream, given, lost, ov⟩ (ps ++ [a])
      (txt rx.buf (c.p + (len + 1)) (c.n - (len + 1))) := fun h0 => close_line H F h0 rfl
  cases hst : st with
  | ok =>
    subst hst
    simp only [] at hnl ⊢
    have h0 : rx.dataLen = 0 := by by_contra hn; exact hnl ⟨hn, trivial⟩
    refine ⟨_, _, (hcl h0).move (l := Bytes.consult ⟨sh, rx, .proc2 c len t, nums, stream, given, lost, ov⟩ ++ [.final r.status (sh.received.length - 1)])
      rfl rfl rfl (List.append_assoc _ _ _) ?_, hrec, held .ok, rfl⟩
    rw [List.filterMap_append, consult_none]; rfl
  | pendingBuffer =>
    subst hst
    simp only [] at hnl ⊢
    by_cases h0 : rx.dataLen = 0
    · exact ⟨_, _, (hcl h0).move rfl rfl rfl rfl (consult_none _), fun _ => ⟨⟨hrec, held .ok, rfl⟩, nofun⟩, fun hn => absurd h0 hn⟩
    · have hb := processLine_buffer hq
      obtain ⟨i, e, ha, hh, hline, he0, hsd, hle, hdr⟩ := F.header h0
      refine ⟨_, _, H.move rfl rfl rfl rfl (consult_none _), fun hn => absurd hn h0, fun _ => ⟨c.p + (len + e), hsd, by omega, by omega, ?_⟩⟩
      refine ⟨i, len, e, nums, hh, ?_, ?_, F.held.2, ?_, ?_, ?_⟩
      · show sh.received = _
        rw [F.received, hline]
      · simp only []
        rw [if_neg (by rw [hb]; simp)]
        show nums ++ [sh.received.length - 1] = _
        rw [hcur]
      · simp only [Option.getD_some]
        rw [hb, ← hline]
        refine forall₂_append_one (forall₂_items_congr F.held.1 (by omega) (fun _ _ => rfl)) ?_
        exact .inl ⟨c.p, rfl, F.at_, by omega⟩
      · rw [hdr]
        show txt rx.buf _ _ = txt rx.buf _ _
        congr 1
        omega
      · exact Asked.extend (F.asked i ha) _
  | pendingData =>
    subst hst
    simp only [] at hnl ⊢
    have h0 : rx.dataLen = 0 := by by_contra hn; exact hnl ⟨hn, nofun⟩
    exact ⟨_, _, (hcl h0).move rfl rfl rfl rfl (consult_none _), fun _ => ⟨⟨hrec, held .ok, rfl⟩, nofun⟩, fun hn => absurd h0 hn⟩
  | _ =>
    subst hst
    simp only [] at hnl ⊢
    have h0 : rx.dataLen = 0 := by by_contra hn; exact hnl ⟨hn, trivial⟩
    exact ⟨_, _, (hcl h0).move rfl rfl rfl rfl (consult_none _), ⟨hrec, held .ok, rfl⟩, ps, a, line, rfl, F.at_,
      (F.plain h0).2.imp (fun ⟨a, _, _, h, _⟩ => ⟨a, h⟩) (·.2)⟩

/-- The end of an iteration. -/
theorem w_after {cfg : Cfg} {R : Nat → Prefixes} {s : Bytes.St} (hw : WInv cfg R s) {c : Cur} {len : Nat} {st : PktStatus} {t : MsgType}
    (hpc : s.pc = .after c len st t) (D : PcD cfg s.rx s.pc) : WInv cfg R (Bytes.after c len st t s) := by
  obtain ⟨sh, rx, pc, nums, stream, given, lost, ov⟩ := s
  simp only at hpc
  subst hpc
  obtain ⟨ps, tail, H, F0, FD⟩ := hw
  obtain ⟨ha, ⟨h1, h2, h3⟩, hr⟩ := D
  simp only at h1 h2 h3 F0 FD hr
  obtain ⟨d, hd⟩ := ha.inv
  have hl := hd.len
  simp only at hl
  unfold Bytes.after
  simp only []
  by_cases hdl : st = .pendingBuffer ∧ rx.dataLen ≠ 0
  · rw [if_pos hdl]
    obtain ⟨start, hsd, hs1, hs2, O⟩ := FD hdl.2
    obtain ⟨r, hrr⟩ := Option.isSome_iff_exists.mp (hr hdl.2).2
    rw [hsd]
    simp only []
    rcases data_step H rfl O hs1 hs2 (by omega) hrr with ⟨hs, e⟩ | ⟨hs, rx', ps', tail', e, e1, e2, e3, e4, H2, I2⟩
    · rw [e]
      simp only []
      rw [if_pos trivial]
      refine ⟨ps, tail, H.same rfl rfl rfl rfl, fun hn => absurd hn hdl.2, fun _ => ⟨?_, hs⟩⟩
      exact O.congr rfl (l := []) (List.append_nil _).symm rfl rfl rfl
    · rw [e]
      simp only []
      by_cases hz : c.n - (start - c.p) - rx.dataLen = 0
      · rw [if_pos hz]
        refine ⟨ps', tail', H2.same rfl rfl rfl rfl, fun _ => ⟨?_, .inl ?_⟩, fun hn => absurd e2 hn⟩
        · simp only [e3, e4, Option.getD_some]; exact I2
        · rw [← I2.text, hz]
          intro b hb
          simp [txt] at hb
      · rw [if_neg hz]
        exact ⟨ps', tail', H2.same rfl rfl rfl rfl, I2⟩
  · rw [if_neg hdl]
    have h0 : rx.dataLen = 0 := by
      by_contra hn
      exact hdl ⟨(hr hn).1, hn⟩
    obtain ⟨I, hfree⟩ := F0 h0
    unfold getNextLine
    simp only []
    by_cases hok : st = .ok ∧ t = .solicited
    · rw [if_pos hok]
      have hsl : slice rx.buf (c.p + (len + 1)) (c.n - (len + 1)) = some tail := by rw [← I.text]; exact slice_some (by omega)
      rw [hsl]
      simp only []
      have htl : tail.length = c.n - (len + 1) := by rw [← I.text]; exact txt_length (by omega)
      obtain ⟨m, em, hm1, hm2⟩ := put_some (m := rx.buf) (p := 0) (t := tail) (by omega)
      rw [em]
      simp only [Option.map_some]
      have hit := hfree hok.1 hok.2
      refine ⟨ps, tail, H.same rfl rfl rfl rfl, I.received, ⟨?_, I.held.2⟩, ?_⟩
      · have h5 := I.held.1
        rw [hit] at h5
        show List.Forall₂ _ (rx.resp.getD ⟨false, []⟩).items _
        rw [hit]
        cases hx : textsOf ps nums with
        | nil => exact .nil
        | cons x y => rw [hx] at h5; cases h5
      · have := txt_put em
        rw [htl] at this
        exact this
    · rw [if_neg hok]
      exact ⟨ps, tail, H.same rfl rfl rfl rfl, I.congr rfl rfl rfl⟩

/-- One step of the receive task keeps the invariant, unless data come late. -/
theorem w_next {cfg : Cfg} (hin : cfg.inputCb = none) (hu : ∀ l, (cfg.urcEdit l).length ≤ l.length) {fn : Fns} {R : Nat → Prefixes}
    (hR : ∀ i, Implements (R i).toRecogniser (fn.data i)) (hP : ∀ i, Prompts (fn.send i) (R i).prompt (R i).shown) {s : Bytes.St} (hw : WInv cfg R s)
    (D : PcD cfg s.rx s.pc) {chunk : Str}
    (v : PktStatus) (hroom : chunk.length ≤ room cfg s.rx) (hov : (Bytes.next cfg fn chunk v s).overflowed = false)
    (hnl : ¬ Late (Bytes.next cfg fn chunk v s)) : WInv cfg R (Bytes.next cfg fn chunk v s) := by
  unfold Bytes.next at hov hnl ⊢
  cases hc : s.pc with
  | wait =>
    rw [hc] at hov
    by_cases h0 : s.rx.dataLen = 0
    · exact w_enter0 hw hc D h0 hroom hov
    · exact w_enterD hw hc D h0 hroom hov
  | top c => exact w_top hin hw hc D
  | pre c r d => exact w_pre hR hP hw hc D
  | classify c len =>
    obtain ⟨ps, tail, H, F⟩ := hw
    rw [hc] at F
    exact ⟨ps, tail, H.same rfl rfl rfl rfl, F⟩
  | classify2 c len on => rw [hc] at hnl; exact w_classify hu hw hc D hnl
  | proc c len =>
    obtain ⟨ps, tail, H, F⟩ := hw
    rw [hc] at F
    exact ⟨ps, tail, H.same rfl rfl rfl rfl, F⟩
  | proc2 c len t => rw [hc] at hnl; exact w_proc hw hc D hnl
  | done c len =>
    obtain ⟨ps, tail, H, F⟩ := hw
    rw [hc] at F
    exact ⟨ps, tail, H.same rfl rfl rfl rfl, Idle.congr F rfl rfl rfl⟩
  | handle c len =>
    obtain ⟨ps, tail, H, F⟩ := hw
    rw [hc] at F
    refine ⟨ps, tail, H.same rfl rfl rfl rfl, ?_⟩
    simp only [Bytes.handled]
    split
    · trivial
    · split
      · exact F
      · split <;> exact F
  | call c len =>
    obtain ⟨ps, tail, H, F⟩ := hw
    rw [hc] at F
    simp only []
    split
    · exact ⟨ps, tail, H.move (l := [.nullCall]) rfl rfl rfl rfl rfl, trivial⟩
    · exact ⟨ps, tail, H.same rfl rfl rfl rfl, F⟩
  | inCb c len i =>
    obtain ⟨ps, tail, H, F⟩ := hw
    rw [hc] at F
    have I : Idle s.sh s.rx s.nums ps tail (c.p + (len + 1)) (c.n - (len + 1)) := F
    simp only [Bytes.callback, Bytes.St.items]
    rw [itemsAt_contents I.held.1]
    simp only []
    refine ⟨ps, tail, ⟨H.cut, ?_, ?_, ?_⟩, I.congr rfl rfl rfl⟩
    · show s.given ++ [(i, textsOf ps s.nums)] = ((s.sh.log ++ [Conc.Ev.callback i (s.nums.map .line) v]).filterMap calledWith).map _
      rw [List.filterMap_append, List.map_append, ← H.given]
      simp only [List.filterMap_cons, calledWith, List.filterMap_nil, List.map_cons, List.map_nil, lineNo_map]
    · show ∀ e ∈ (s.sh.log ++ [Conc.Ev.callback i (s.nums.map .line) v]).filterMap calledWith, _
      rw [List.filterMap_append]
      intro e he
      rcases List.mem_append.mp he with he | he
      · exact H.known e he
      · simp only [List.filterMap_cons, calledWith, List.filterMap_nil, lineNo_map, List.mem_singleton] at he
        subst he
        exact I.held.2
    · intro n p j h1 h2
      exact Asked.extend (H.asked n p j h1 h2) _
  | send c len st =>
    obtain ⟨ps, tail, H, F⟩ := hw
    rw [hc] at F
    exact ⟨ps, tail, H.same rfl rfl rfl rfl, Idle.congr F rfl rfl rfl⟩
  | free c len =>
    obtain ⟨ps, tail, H, F⟩ := hw
    rw [hc] at F D
    exact ⟨ps, tail, H.same rfl rfl rfl rfl, fun _ => ⟨⟨F.received, ⟨.nil, .nil, nofun⟩, F.text⟩, fun _ _ => rfl⟩, fun hn => absurd D.1.data hn⟩
  | undef c len =>
    obtain ⟨ps, tail, H, F⟩ := hw
    rw [hc] at F D
    simp only [Bytes.undef]
    obtain ⟨I, qs, a, l, hps, hl, hlast⟩ := F
    rw [hl.readStr]
    simp only
    split
    · exact ⟨ps, tail, H.same rfl rfl rfl rfl, fun _ => ⟨I, fun _ => nofun⟩, fun hn => absurd D.1.data hn⟩
    · exact ⟨ps, tail, H.same rfl rfl rfl rfl, I, qs, a, l, hps, by assumption, hlast⟩
  | undefFail c len =>
    obtain ⟨ps, tail, H, F⟩ := hw
    rw [hc] at F D
    obtain ⟨I, qs, a, l, hps, hl, hlast⟩ := F
    have hcut : Divided R (Dropped cfg true) ps s.stream [] := by
      rcases hlast with ⟨b, rfl⟩ | h0
      · exact H.cut.toLost.drop hps ⟨rfl, hl⟩
      · have := H.cut.toLost
        rwa [h0] at this
    refine ⟨ps, [], ⟨hcut, H.given, H.known, H.asked⟩, fun _ => ⟨⟨I.received, ⟨.nil, .nil, nofun⟩, ?_⟩, .inl nofun⟩, fun hn => absurd D.1.data hn⟩
    simp [cleanBuf, txt]
  | after c len st t => exact w_after hw hc D
  | crashed => exact hw
  | bad => exact hw

theorem w_thr {R : Nat → Prefixes} {comm : Bool} {t : Nat} {s : Bytes.St} {sh : Conc.St} (hw : WInv cfg R s) (h : Conc.ThrStep comm t s.sh sh) :
    WInv cfg R { s with sh := sh } := by
  have hk := thr_keeps h
  obtain ⟨l, hl⟩ := (step_grows (cfg := cfg) (fn := noFns) (.thr t h)).1
  obtain ⟨ps, tail, H, F⟩ := hw
  refine ⟨ps, tail, ?_, F.congr hk.received hl⟩
  refine ⟨H.cut, ?_, ?_, fun n p i h1 h2 => ?_⟩
  · show s.given = (sh.log.filterMap calledWith).map _
    rw [hk.log]; exact H.given
  · show ∀ e ∈ sh.log.filterMap calledWith, _
    rw [hk.log]; exact H.known
  · have := Asked.extend (H.asked n p i h1 h2) l
    rw [← hl] at this
    exact this

/-- The data prefix callback of each request works as its recogniser says; its data send prefix callback turns its prompt into a line, in place; the other callbacks of the port that change the text only shorten it. -/
structure DataFns (cfg : Cfg) (R : Nat → Prefixes) (fn : Fns) : Prop where
  input : cfg.inputCb = none
  urc : ∀ l, (cfg.urcEdit l).length ≤ l.length
  data : ∀ i, Implements (R i).toRecogniser (fn.data i)
  send : ∀ i, Prompts (fn.send i) (R i).prompt (R i).shown

theorem DataFns.sane {cfg : Cfg} {R : Nat → Prefixes} {fn : Fns} (h : DataFns cfg R fn) : FnsSane cfg fn := by
  refine ⟨h.urc, by rw [h.input]; nofun, fun i t => ⟨?_, Nat.le_of_eq ((h.send i).count t)⟩, fun i t ht => ?_⟩
  · by_cases hp : t = (R i).prompt
    · obtain ⟨_, e, _, h2⟩ := (h.send i).prompt
      rw [hp, h2, (h.send i).place, List.length_append]
      exact Nat.le_refl _
    · rw [((h.send i).other t hp).2]
  have hi := h.data i t ht
  cases hh : (R i).hdr t with
  | no =>
    rw [hh] at hi
    rcases hi with e | e <;> rw [e] <;> exact ⟨Nat.le_refl _, nofun⟩
  | incomplete => rw [hh] at hi; simp only [] at hi; rw [hi]; exact ⟨Nat.le_refl _, nofun⟩
  | block l e n =>
    rw [hh] at hi
    obtain ⟨t', h1, h2, _, ⟨b, h4, h5⟩, _⟩ := hi
    obtain ⟨_, _, _, h6, _, _⟩ := (R i).shape t l e n hh
    rw [h1]
    refine ⟨Nat.le_of_eq h2, ?_⟩
    rintro start len ⟨⟩
    exact ⟨h6, fun _ => ⟨rfl, b, List.mem_of_getElem? h4, (isEol_iff b).mpr h5⟩⟩

theorem w_reachable {cfg : Cfg} {R : Nat → Prefixes} {fn : Fns} (hF : DataFns cfg R fn) {comm : Bool} {s : Bytes.St}
    (h : Bytes.Reachable cfg fn comm s) (ho : s.overflowed = false) :
    (PcD cfg s.rx s.pc ∧ WInv cfg R s) ∨ ∃ s0, Bytes.Reachable cfg fn comm s0 ∧ Late s0 ∧ GoesTo cfg fn comm s0 s := by
  induction h with
  | init =>
    have h := rxInv_init cfg
    refine .inl ⟨⟨h.1.rest, h.2⟩, [], [], ⟨.rest _, rfl, nofun, nofun⟩, fun _ => ⟨⟨rfl, ⟨.nil, .nil, nofun⟩, ?_⟩, .inl nofun⟩, fun hn => absurd rfl hn⟩
    simp [Bytes.init, Pktio.init, txt]
  | @step s1 s2 hr hs ih =>
    have ho1 : s1.overflowed = false := by
      cases hs with
      | thr t h => exact ho
      | rx _ chunk v _ => exact (next_keeps cfg fn chunk v s1).2.2 ho
    rcases ih ho1 with ⟨D, W⟩ | ⟨s0, h1, h2, h3⟩
    · have hs' := hs
      cases hs with
      | thr t ht => exact .inl ⟨D, w_thr W ht⟩
      | rx _ chunk v hroom =>
        by_cases hl : Late (Bytes.next cfg fn chunk v s1)
        · exact .inr ⟨_, .step hr hs', hl, .refl⟩
        · have W' := w_next hF.input hF.urc hF.data hF.send W D v hroom ho hl
          refine .inl ⟨?_, W'⟩
          rcases next_pcD hF.sane D v hroom with h | h
          · exact h
          · exact absurd h.1 hl
    · exact .inr ⟨s0, h1, h2, .step h3 hs⟩

/-! ## The theorem -/

/-- **What the receive task made of the stream so far**: pieces `ps`, and the rest `tail`.  The lines taken up are the lines of the pieces, and possibly the one
at the beginning of the rest; each response callback that ran was given exactly the texts of the pieces with the numbers in the log, which increase;
a piece about which a callback was asked was so just before it was taken up. -/
structure PiecesLaw (cfg : Cfg) (R : Nat → Prefixes) (s : Bytes.St) (ps : List StreamPart) (tail : Str) : Prop where
  cut : Divided R (Dropped cfg s.lost) ps s.stream tail
  received : s.sh.received = ps.map StreamPart.head ∨ ∃ l, s.sh.received = ps.map StreamPart.head ++ [l] ∧ l ≠ [] ∧ (∀ b ∈ l, ¬ LineEnd b) ∧
    ((∃ b x, LineEnd b ∧ tail = l ++ b :: x) ∨ ∃ i, l = (R i).shown ∧ tail = (R i).prompt)
  given : s.given = (s.sh.log.filterMap calledWith).map (fun e => (e.1, textsOf ps e.2))
  order : ∀ e ∈ s.sh.log.filterMap calledWith, e.2.Pairwise (· < ·) ∧ ∀ n ∈ e.2, n < ps.length
  asked : ∀ n p i, ps[n]? = some p → p.asked = some i → Asked s.sh.log i n
  idle : s.pc = .wait → s.rx.dataLen = 0 → Nothing R tail
  data : s.pc = .wait → s.rx.dataLen ≠ 0 → ∃ i l e, (R i).hdr tail = .block l e s.rx.dataLen ∧ tail.length < l + e + s.rx.dataLen

theorem head_block {R : Recogniser} {t : Str} {l e n : Nat} (h : R.hdr t = .block l e n) :
    t.take l ≠ [] ∧ (∀ b ∈ t.take l, ¬ LineEnd b) ∧ ∃ b, LineEnd b ∧ ∃ x, t = t.take l ++ b :: x := by
  obtain ⟨g1, g2, _, g4, g5, g6⟩ := R.shape _ _ _ _ h
  refine ⟨?_, g5, ?_⟩
  · intro hx
    have := congrArg List.length hx
    simp at this
    rcases this with rfl | rfl
    · omega
    · simp at g4; omega
  cases hd : t.drop l with
  | nil =>
    have := congrArg List.length hd
    simp at this
    omega
  | cons b u =>
    refine ⟨b, g6 b ?_, u, ?_⟩
    swap
    · rw [← hd]; exact (List.take_append_drop _ _).symm
    rw [hd]
    cases e with
    | zero => omega
    | succ e => simp

theorem pieces_of {R : Nat → Prefixes} {s : Bytes.St} (h : WInv cfg R s) (h1 : s.pc ≠ .crashed) (h2 : s.pc ≠ .bad)
    (hlen : s.rx.readPtr.getD 0 + s.rx.partialLen ≤ s.rx.buf.length ∨ s.pc ≠ .wait) : ∃ ps tail, PiecesLaw cfg R s ps tail := by
  obtain ⟨ps, tail, H, F⟩ := h
  have opn : ∀ {start avail}, Open R s.sh s.rx s.nums ps tail start avail → ∃ l, s.sh.received = ps.map StreamPart.head ++ [l] ∧ l ≠ [] ∧ (∀ b ∈ l, ¬ LineEnd b) ∧
      ((∃ b x, LineEnd b ∧ tail = l ++ b :: x) ∨ ∃ i, l = (R i).shown ∧ tail = (R i).prompt) := by
    rintro start avail ⟨i, l, e, ns, g1, g2, _⟩
    obtain ⟨k1, k2, b, k3, x, k4⟩ := head_block g1
    exact ⟨_, g2, k1, k2, .inl ⟨b, x, k3, k4⟩⟩
  refine ⟨ps, tail, H.cut, ?_, H.given, H.known, H.asked, ?_, ?_⟩
  · have inh : ∀ {c len line a}, InHand R s.sh s.rx s.nums ps tail c len line a → ∃ l, s.sh.received = ps.map StreamPart.head ++ [l] ∧
        l ≠ [] ∧ (∀ b ∈ l, ¬ LineEnd b) ∧ ((∃ b x, LineEnd b ∧ tail = l ++ b :: x) ∨ ∃ i, l = (R i).shown ∧ tail = (R i).prompt) := by
      intro c len line a hi
      by_cases h0 : s.rx.dataLen = 0
      · exact ⟨line, hi.received, hi.ne, hi.noEol, (hi.plain h0).2.imp (fun ⟨_, e, x, _, he, ht⟩ => ⟨e, x, he, ht⟩) (·.1)⟩
      · obtain ⟨i, e, _, hh, hline, _⟩ := hi.header h0
        obtain ⟨k1, k2, b, k3, x, k4⟩ := head_block hh
        rw [← hline] at k4
        exact ⟨line, hi.received, hi.ne, hi.noEol, .inl ⟨b, x, k3, k4⟩⟩
    cases hc : s.pc with
    | wait =>
      rw [hc] at F
      by_cases h0 : s.rx.dataLen = 0
      · exact .inl (F.1 h0).1.received
      · exact .inr (opn (F.2 h0).1)
    | after c len st t =>
      rw [hc] at F
      by_cases h0 : s.rx.dataLen = 0
      · exact .inl (F.1 h0).1.received
      · obtain ⟨_, _, _, _, O⟩ := F.2 h0
        exact .inr (opn O)
    | crashed => exact absurd hc h1
    | bad => exact absurd hc h2
    | pre c r d => rw [hc] at F; exact .inl F.1.received
    | classify c len => rw [hc] at F; obtain ⟨_, _, F⟩ := F; exact .inr (inh F)
    | classify2 c len on => rw [hc] at F; obtain ⟨_, _, F⟩ := F; exact .inr (inh F)
    | proc c len => rw [hc] at F; obtain ⟨_, _, F⟩ := F; exact .inr (inh F)
    | proc2 c len t => rw [hc] at F; obtain ⟨_, _, F⟩ := F; exact .inr (inh F)
    | undef c len => rw [hc] at F; exact .inl F.1.received
    | undefFail c len => rw [hc] at F; exact .inl F.1.received
    | _ => rw [hc] at F; exact .inl (Idle.received F)
  · intro hc h0
    rw [hc] at F
    exact (F.1 h0).2
  · intro hc h0
    rw [hc] at F
    obtain ⟨⟨i, l, e, ns, g1, _, _, _, _, g6, _⟩, hs⟩ := F.2 h0
    refine ⟨i, l, e, g1, ?_⟩
    have := congrArg List.length g6
    rw [txt_length (by rcases hlen with h | h; exact h; exact absurd hc h), List.length_drop] at this
    obtain ⟨_, _, _, g4, _⟩ := (R i).shape _ _ _ _ g1
    omega

theorem GoesTo.trans {cfg : Cfg} {fn : Fns} {comm : Bool} {s s1 s2 : Bytes.St} (h : GoesTo cfg fn comm s s1) (h' : GoesTo cfg fn comm s1 s2) :
    GoesTo cfg fn comm s s2 := by
  induction h' with
  | refl => exact h
  | step _ hs ih => exact .step ih hs

theorem GoesTo.grows {cfg : Cfg} {fn : Fns} {comm : Bool} {s s' : Bytes.St} (h : GoesTo cfg fn comm s s') :
    (∃ l, s'.sh.log = s.sh.log ++ l) ∧ ∃ q, s'.sh.reqs = s.sh.reqs ++ q := by
  induction h with
  | refl => exact ⟨⟨[], (List.append_nil _).symm⟩, [], (List.append_nil _).symm⟩
  | step _ hs ih =>
    obtain ⟨⟨l, hl⟩, q, hq⟩ := ih
    obtain ⟨⟨l', hl'⟩, q', hq'⟩ := step_grows hs
    exact ⟨⟨l ++ l', by rw [hl', hl, List.append_assoc]⟩, q ++ q', by rw [hq', hq, List.append_assoc]⟩

theorem late_not_pcD {cfg : Cfg} {s : Bytes.St} (h : Late s) : ¬ PcD cfg s.rx s.pc := by
  intro D
  obtain ⟨h0, h⟩ := h
  cases hc : s.pc with
  | undef c len => rw [hc] at D; exact h0 D.1.data
  | done c len => rw [hc] at D; exact h0 D.1.data
  | after c len st t =>
    rw [hc] at D h
    exact h (D.2.2 h0).1
  | _ => rw [hc] at h; exact h

/-- Without time-outs late data are preceded by a stray header. -/
theorem late_stray {cfg : Cfg} {fn : Fns} (hfs : FnsSane cfg fn) {comm : Bool} {s s0 : Bytes.St} (hf : HeadersFit cfg fn s.sh.reqs)
    (hn : NoLoss s.sh.log) (h : Bytes.Reachable cfg fn comm s0) (hl : Late s0) (hg : GoesTo cfg fn comm s0 s) :
    ∃ s1, Bytes.Reachable cfg fn comm s1 ∧ Stray fn s1 ∧ GoesTo cfg fn comm s1 s := by
  obtain ⟨⟨l, hl'⟩, q, hq⟩ := hg.grows
  rw [hq] at hf
  rw [hl'] at hn
  rcases stray_reachable hfs h hf.prefix (noLoss_prefix hn) with ⟨D, _⟩ | ⟨s1, h1, h2, h3⟩
  · exact absurd D (late_not_pcD hl)
  · exact ⟨s1, h1, h2, h3.trans hg⟩

/-- C82: **data are received whole and in place**, in all executions: any number of threads and requests with data prefix callbacks and data send prefix callbacks, any interleaving, any
division of the stream into reads.  As long as the buffer does not overflow, and unless a line with which data were announced was not collected for
a data response: the stream is a sequence of lines and blocks, each block a header and exactly the bytes it announces, whatever these bytes are;
and what a response callback is given are the texts of such pieces, byte for byte, a header always with its data. -/
theorem C82_pieces {cfg : Cfg} {R : Nat → Prefixes} {fn : Fns} (hF : DataFns cfg R fn) {comm : Bool} {s : Bytes.St}
    (h : Bytes.Reachable cfg fn comm s) (ho : s.overflowed = false) (hc : s.pc ≠ .crashed) :
    (∃ ps tail, PiecesLaw cfg R s ps tail) ∨ ∃ s0, Bytes.Reachable cfg fn comm s0 ∧ Late s0 ∧ GoesTo cfg fn comm s0 s := by
  rcases w_reachable hF h ho with ⟨D, W⟩ | h
  · left
    refine pieces_of W hc ?_ ?_
    · intro hb; rw [hb] at D; exact D
    · cases hp : s.pc with
      | wait =>
        rw [hp] at D
        obtain ⟨⟨d, hd, _⟩, hpos⟩ := D
        left
        unfold PosIn at hpos
        have := hd.len
        omega
      | _ => right; nofun
  · exact .inr h

/-- Missing: not if a request timed out (`C82_data_timeout_witness`).  The same, with the only cause of exceptions that remains: a header that a prefix callback
recognised although its request did not wait for the response. -/
theorem C82_pieces_stray_partial {cfg : Cfg} {R : Nat → Prefixes} {fn : Fns} (hF : DataFns cfg R fn) (hfs : FnsSane cfg fn) {comm : Bool} {s : Bytes.St}
    (h : Bytes.Reachable cfg fn comm s) (hf : HeadersFit cfg fn s.sh.reqs) (hl : NoLoss s.sh.log)
    (ho : s.overflowed = false) :
    (∃ ps tail, PiecesLaw cfg R s ps tail) ∨ ∃ s1, Bytes.Reachable cfg fn comm s1 ∧ Stray fn s1 ∧ GoesTo cfg fn comm s1 s := by
  rcases C82_pieces hF h ho (C82_no_crashed_partial h hl) with h | ⟨s0, h0, h1, h2⟩
  · exact .inl h
  · exact .inr (late_stray hfs hf hl h0 h1 h2)

/-- Missing: not if a request timed out or a data send failed before (as in C24).  What the callback of a request is given, byte for byte, are the texts of
pieces of the stream - lines, and headers with exactly the announced data - whose lines were received while the request was in progress (or last before it
started); the only exceptions follow a header that no request waits for. -/
theorem C82_own_pieces_partial {cfg : Cfg} {R : Nat → Prefixes} {fn : Fns} (hF : DataFns cfg R fn) (hfs : FnsSane cfg fn) {comm : Bool} {s : Bytes.St}
    (h : Bytes.Reachable cfg fn comm s) (hf : HeadersFit cfg fn s.sh.reqs) (hl : NoLoss s.sh.log)
    (ho : s.overflowed = false) {a b : List Ev} {i : Nat} {items : List Item} {st : PktStatus} (hlog : s.sh.log = a ++ .callback i items st :: b) :
    (∃ ps tail x y ns, Divided R (Dropped cfg s.lost) ps s.stream tail ∧ a = x ++ .start i :: y ∧ (∀ f ∈ y, ¬ Boundary f) ∧
      s.given[(a.filterMap calledWith).length]? = some (i, textsOf ps ns) ∧ ns.Pairwise (· < ·) ∧ ∀ n ∈ ns, n < ps.length ∧
        (Ev.recv n ∈ y ∨ (Ev.recv n ∈ x ∧ ∀ k, n < k → Ev.recv k ∉ x))) ∨
    ∃ s1, Bytes.Reachable cfg fn comm s1 ∧ Stray fn s1 ∧ GoesTo cfg fn comm s1 s := by
  refine (C82_pieces_stray_partial hF hfs h hf hl ho).imp ?_ id
  rintro ⟨ps, tail, L⟩
  obtain ⟨x, y, h1, h2, h3⟩ := C82_recent_lines_partial h hl hlog
  have hcw := filterMap_at (f := calledWith) hlog rfl
  obtain ⟨o1, o2⟩ := L.order _ (List.mem_of_getElem? hcw)
  refine ⟨ps, tail, x, y, items.map lineNo, L.cut, h1, h2, ?_, o1, fun n hn' => ⟨o2 n hn', ?_⟩⟩
  · rw [L.given, List.getElem?_map, hcw]
    rfl
  · obtain ⟨it, hit, rfl⟩ := List.mem_map.mp hn'
    obtain ⟨n, rfl, hn2⟩ := h3 it hit
    exact hn2

/-! ## Executions -/

/-- What the prefix callbacks of the examples recognise. -/
def demoPrefixes : Prefixes := { demoRecogniser with prompt := str "> ", shown := str ">" }

/-- The port of the examples. -/
theorem exFns_data : DataFns (demoCfg 40) (fun _ => demoPrefixes) exFns := by
  refine ⟨rfl, fun _ => Nat.le_refl _, fun _ => demo_implements, fun _ => ⟨fun t => ?_, fun t ht => ?_, ?_, rfl, ⟨by decide, ?_⟩, ?_⟩⟩
  · simp only [exFns]
    split
    · rename_i h; subst h; rfl
    · rfl
  · have ht : t ≠ str "> " := ht
    simp only [exFns, if_neg ht]
    exact ⟨.inl trivial, trivial⟩
  · exact ⟨.inl rfl, 10, by unfold LineEnd; decide, rfl⟩
  · unfold LineEnd; decide
  · unfold LineEnd; decide

/-- Not crashed. -/
def crashedB : Pc → Bool
  | .crashed => true
  | _ => false

theorem crashedB_sound {pc : Pc} (h : crashedB pc = false) : pc ≠ .crashed := by
  rintro rfl
  cases h

/-- The hypotheses are met by an execution in which data that contain line ends and a result code are received, with an unsolicited code before them, a
second request waiting, and the data split over two reads; the callback of the request is given the header and the seven bytes. -/
example : DataFns (demoCfg 40) (fun _ => demoPrefixes) exFns ∧ FnsSane (demoCfg 40) exFns ∧ ∃ s, Bytes.Reachable (demoCfg 40) exFns true s ∧
    HeadersFit (demoCfg 40) exFns s.sh.reqs ∧ NoLoss s.sh.log ∧ s.overflowed = false ∧ s.pc ≠ .crashed ∧
    s.stream = str "+Q: 1\r\n+D:7\r\nab\r\nOK\r\r\nOK\r\n" ∧ s.given = [(0, [str "+D:7", str "ab\r\nOK\r"])] ∧
    s.sh.received = [str "+Q: 1", str "+D:7", str "OK"] := by
  refine ⟨exFns_data, exFns_sane, ?_⟩
  obtain ⟨s, hr, he⟩ := Bytes.exec_reach (cfg := demoCfg 40) (fn := exFns) (comm := true)
    ((begins 0 exReqBlock).map .thr ++ [.thr (.call 1 exReqBlock), .rx (str "+Q: 1\r\n+D:7\r\nab\r\n") .ok] ++ rxk 12 ++
      [.rx (str "OK\r\r\nOK\r\n") .ok] ++ rxk 20)
    (fun s => (decide (s.given = [(0, [str "+D:7", str "ab\r\nOK\r"])]) && decide (s.stream = str "+Q: 1\r\n+D:7\r\nab\r\nOK\r\r\nOK\r\n") &&
      decide (s.sh.received = [str "+Q: 1", str "+D:7", str "OK"]),
      noLossB s.sh.log && s.sh.reqs.all fitsB, !s.overflowed && !crashedB s.pc))
    (true, true, true) (by decide +kernel)
  simp only [Prod.mk.injEq, Bool.and_eq_true, Bool.not_eq_true', decide_eq_true_eq] at he
  obtain ⟨⟨⟨h1, h2⟩, h3⟩, ⟨h4, h5⟩, h7, h8⟩ := he
  exact ⟨s, hr, ex_headersFit h5, noLossB_sound h4, h7, crashedB_sound h8, h2, h1, h3⟩

/-- The pieces of that stream. -/
example : Divided (fun _ => demoPrefixes) (Dropped (demoCfg 40) false) [.line (some 0) (str "+Q: 1"), .block 0 (str "+D:7") (str "ab\r\nOK\r"), .line (some 0) (str "OK")]
    (str "+Q: 1\r\n+D:7\r\nab\r\nOK\r\r\nOK\r\n") (str "\n") := by
  have h3 : Divided (fun _ => demoPrefixes) (Dropped (demoCfg 40) false) [.line (some 0) (str "OK")] (str "OK\r\n") (str "\n") :=
    Divided.line (l := str "OK") (e := 13) (s := str "\n") (by unfold LineEnd; decide) (by decide) (by unfold LineEnd; decide) (fun _ _ => by decide +kernel) (.rest _)
  have h2 : Divided (fun _ => demoPrefixes) (Dropped (demoCfg 40) false) [.block 0 (str "+D:7") (str "ab\r\nOK\r"), .line (some 0) (str "OK")]
      (str "+D:7\r\nab\r\nOK\r\r\nOK\r\n") (str "\n") :=
    Divided.block (R := fun _ => demoPrefixes) (i := 0) (l := 4) (e := 2) (n := 7) (s := str "+D:7\r\nab\r\nOK\r\r\nOK\r\n") (by decide +kernel) (by decide)
      (.eol (by unfold LineEnd; decide) (.eol (by unfold LineEnd; decide) h3))
  exact Divided.line (l := str "+Q: 1") (e := 13) (s := str "\n+D:7\r\nab\r\nOK\r\r\nOK\r\n") (by unfold LineEnd; decide) (by decide) (by unfold LineEnd; decide)
    (fun _ _ => by decide +kernel) (.eol (by unfold LineEnd; decide) h2)

/-- The port's handler refuses the line "xyz": the rest of that read is dropped, what is read later is not. -/
example : ∃ s, Bytes.Reachable (demoCfg 40) exFns true s ∧ s.overflowed = false ∧ s.pc ≠ .crashed ∧ s.sh.reqs = [] ∧ s.lost = true ∧
    s.stream = str "xyz\r\n+R: 1\r\n+Q: 1\r\n" ∧ s.sh.received = [str "xyz", str "+Q: 1"] := by
  obtain ⟨s, hr, he⟩ := Bytes.exec_reach (cfg := demoCfg 40) (fn := exFns) (comm := true)
    ([.rx (str "xyz\r\n+R: 1\r\n") .ok] ++ rxk 7 ++ [.rx (str "+Q: 1\r\n") .ok] ++ rxk 10)
    (fun s => (decide (s.stream = str "xyz\r\n+R: 1\r\n+Q: 1\r\n") && decide (s.sh.received = [str "xyz", str "+Q: 1"]),
      decide (s.sh.reqs = []) && s.lost && !s.overflowed && !crashedB s.pc))
    (true, true) (by decide +kernel)
  simp only [Prod.mk.injEq, Bool.and_eq_true, Bool.not_eq_true', decide_eq_true_eq] at he
  obtain ⟨⟨h1, h2⟩, ⟨⟨h3, h4⟩, h5⟩, h6⟩ := he
  exact ⟨s, hr, h5, crashedB_sound h6, h3, h4, h1, h2⟩

/-- The pieces of that stream. -/
example : Divided (fun _ => demoPrefixes) (Dropped (demoCfg 40) true) [.line none (str "xyz"), .line none (str "+Q: 1")]
    (str "xyz\r\n+R: 1\r\n+Q: 1\r\n") (str "\n") :=
  Divided.refused (l := str "xyz") (e := 13) (x := str "\n+R: 1\r\n") (s := str "+Q: 1\r\n") (by unfold LineEnd; decide) (by decide) (by unfold LineEnd; decide)
    nofun ⟨rfl, by decide⟩
    (Divided.line (l := str "+Q: 1") (e := 13) (s := str "\n") (by unfold LineEnd; decide) (by decide) (by unfold LineEnd; decide) nofun (.rest _))

/-- A data send whose prompt is recognised by a data send prefix callback, and a port for which ">" is a success code. -/
def exReqPrompt : Conc.Req :=
  { cmd := some (str "AT"), type := .noResult, pfx := none, hasCb := false, kind := .dataSend ⟨some (str "hey"), true, none⟩ true }
def exPromptCfg : Cfg := { demoCfg 40 with succ := some [str "OK", str ">"] }

/-- An unsolicited code, the prompt in two reads, the data, the answer. -/
def promptActs : List Bytes.Act :=
  (begins 0 exReqPrompt).map .thr ++ [.rx (str "\r\n+Q: 1\r\n>") .ok] ++ rxk 10 ++ [.rx (str " ") .ok] ++ rxk 12 ++ (gos 0 4).map .thr ++
    [.thr (.go 0 3)] ++ [.rx (str "\r\nOK\r\n") .ok] ++ rxk 12 ++ (gos 0 3).map .thr

/-- The hypotheses of `C82_pieces` are met by a data send with a prompt: the prompt, which no line end follows, is taken up as the line ">", and answers the command. -/
example : DataFns exPromptCfg (fun _ => demoPrefixes) exFns ∧ ∃ s, Bytes.Reachable exPromptCfg exFns true s ∧ s.overflowed = false ∧ s.pc ≠ .crashed ∧
    s.sh.reqs.map (·.cmd) = [some (str "AT")] ∧ s.stream = str "\r\n+Q: 1\r\n> \r\nOK\r\n" ∧ s.sh.received = [str "+Q: 1", str ">", str "OK"] ∧
    s.sh.log = [.start 0, .command 0 (str "AT"), .fetched 0, .prefixCb 0, .recv 0, .fetched 0, .prefixCb 0, .fetched 0, .prefixCb 0, .recv 1,
      .final true 1, .fetched 0, .got 0 .ok, .data 0 (str "hey") 3, .recv 2, .final true 2, .got 0 .ok, .ret 0 .ok (some 3)] := by
  refine ⟨⟨exFns_data.input, exFns_data.urc, exFns_data.data, exFns_data.send⟩, ?_⟩
  obtain ⟨s, hr, he⟩ := Bytes.exec_reach (cfg := exPromptCfg) (fn := exFns) (comm := true) promptActs
    (fun s => ((s.sh.log, decide (s.sh.received = [str "+Q: 1", str ">", str "OK"])),
      decide (s.sh.reqs.map (·.cmd) = [some (str "AT")]) && !s.overflowed && !crashedB s.pc, s.stream))
    ((([.start 0, .command 0 (str "AT"), .fetched 0, .prefixCb 0, .recv 0, .fetched 0, .prefixCb 0, .fetched 0, .prefixCb 0, .recv 1,
      .final true 1, .fetched 0, .got 0 .ok, .data 0 (str "hey") 3, .recv 2, .final true 2, .got 0 .ok, .ret 0 .ok (some 3)] : List Ev), true), true,
      str "\r\n+Q: 1\r\n> \r\nOK\r\n") (by decide +kernel)
  simp only [Prod.mk.injEq, Bool.and_eq_true, Bool.not_eq_true', decide_eq_true_eq] at he
  obtain ⟨⟨h1, h2⟩, ⟨⟨h3, h4⟩, h5⟩, h6⟩ := he
  exact ⟨s, hr, h4, crashedB_sound h5, h3, h6, h2, h1⟩

/-- The pieces of that stream. -/
example : Divided (fun _ => demoPrefixes) (Dropped exPromptCfg false) [.line none (str "+Q: 1"), .prompt 0 (str ">"), .line none (str "OK")]
    (str "\r\n+Q: 1\r\n> \r\nOK\r\n") (str "\n") := by
  have e13 : LineEnd 13 := by unfold LineEnd; decide
  have e10 : LineEnd 10 := by unfold LineEnd; decide
  exact .eol e13 (.eol e10 (Divided.line (l := str "+Q: 1") (e := 13) (s := str "\n> \r\nOK\r\n") (by unfold LineEnd; decide) (by decide) e13 nofun
    (.eol e10 (Divided.prompt (R := fun _ => demoPrefixes) (i := 0) (s := str "\r\nOK\r\n")
      (.eol e13 (.eol e10 (Divided.line (l := str "OK") (e := 13) (s := str "\n") (by unfold LineEnd; decide) (by decide) e13 nofun (.rest _))))))))

end Cellular.Props
