import Verif.PktioSafe
import Verif.PktioSpec
/-!
# The buffer machine refines the abstract receiver (base of C10, C12, C13, C15)
-/

namespace Cellular.Props
open Cellular Cellular.Spec Cellular.Pktio

/-! ## Lines of a text -/

theorem isEol_iff (b : Byte) : isEol b = true ↔ LineEnd b := by
  simp [isEol, LineEnd, or_assoc]

/-- No line end in the text. -/
def NoEol (t : Str) : Prop := ∀ b ∈ t, ¬ LineEnd b

theorem NoEol.noNul {t : Str} (h : NoEol t) : NoNul t := fun b hb h0 => h b hb (by simp [LineEnd, h0])

theorem linesFrom_append (cur t u : Str) :
    linesFrom cur (t ++ u) =
      ((linesFrom cur t).1 ++ (linesFrom (linesFrom cur t).2 u).1, (linesFrom (linesFrom cur t).2 u).2) := by
  induction t generalizing cur with
  | nil => simp [linesFrom]
  | cons b t ih =>
    simp only [List.cons_append, linesFrom]
    split
    · split
      · exact ih []
      · rw [ih []]; simp
    · exact ih _

theorem linesFrom_noEol {t : Str} (h : NoEol t) (cur u : Str) :
    linesFrom cur (t ++ u) = linesFrom (cur ++ t) u := by
  induction t generalizing cur with
  | nil => simp
  | cons b t ih =>
    have hb := h b (by simp)
    simp only [List.cons_append, linesFrom, hb, if_false]
    rw [ih (fun x hx => h x (by simp [hx]))]
    simp

theorem linesFrom_noEol' {t : Str} (h : NoEol t) : linesFrom [] t = ([], t) := by
  have := linesFrom_noEol h [] []
  simpa [linesFrom] using this

theorem linesFrom_line {l : Str} (h : NoEol l) (hne : l ≠ []) {e : Byte} (he : LineEnd e) (r : Str) :
    linesFrom [] (l ++ e :: r) = (l :: (linesFrom [] r).1, (linesFrom [] r).2) := by
  rw [linesFrom_noEol h]
  simp [linesFrom, he, hne]

theorem linesFrom_skip {t : Str} : linesFrom [] (t.dropWhile isEol) = linesFrom [] t := by
  induction t with
  | nil => rfl
  | cons b t ih =>
    by_cases hb : isEol b = true
    · rw [List.dropWhile_cons_of_pos hb, ih]
      simp [linesFrom, (isEol_iff b).mp hb]
    · rw [List.dropWhile_cons_of_neg hb]

theorem linesFrom_tail_noEol (cur t : Str) (h : NoEol cur) : NoEol (linesFrom cur t).2 := by
  induction t generalizing cur with
  | nil => exact h
  | cons b t ih =>
    simp only [linesFrom]
    split
    · split <;> exact ih [] (by intro x hx; cases hx)
    · rename_i hb
      apply ih
      intro x hx
      rcases List.mem_append.mp hx with hx | hx
      · exact h x hx
      · simp at hx; subst hx; exact hb

theorem Rx.run_append (cfg : Cfg) (a : Rx) (l m : List Str) :
    Rx.run cfg a (l ++ m) = (Rx.run cfg a l).bind (fun a => Rx.run cfg a m) := by
  induction l generalizing a with
  | nil => rfl
  | cons x t ih =>
    simp only [List.cons_append, Rx.run]
    cases Rx.line cfg a x with
    | none => rfl
    | some b => exact ih b

/-! ## The text in the buffer -/

/-- The `n` bytes at `p`. -/
def txt (m : Mem) (p n : Nat) : Str := (m.drop p).take n

theorem txt_length {m : Mem} {p n : Nat} (h : p + n ≤ m.length) : (txt m p n).length = n := by
  simp [txt]; omega

theorem txt_getElem? (m : Mem) (p n i : Nat) (hi : i < n) : (txt m p n)[i]? = m[p + i]? := by
  simp [txt, List.getElem?_take_of_lt hi]

theorem txt_congr {m m' : Mem} {p n : Nat} (h : ∀ i, p ≤ i → i < p + n → m'[i]? = m[i]?) :
    txt m' p n = txt m p n := by
  apply List.ext_getElem?
  intro i
  by_cases hi : i < n
  · rw [txt_getElem? _ _ _ _ hi, txt_getElem? _ _ _ _ hi]
    exact h _ (by omega) (by omega)
  · rw [List.getElem?_eq_none (by simp [txt]; omega), List.getElem?_eq_none (by simp [txt]; omega)]

theorem txt_drop (m : Mem) (p n k : Nat) : (txt m p n).drop k = txt m (p + k) (n - k) := by
  simp [txt, List.drop_take, List.drop_drop]

theorem txt_take (m : Mem) (p n k : Nat) (h : k ≤ n) : (txt m p n).take k = txt m p k := by
  simp [txt, List.take_take, Nat.min_eq_left h]

theorem txt_put {m m' : Mem} {p : Nat} {t : Str} (h : put m p t = some m') : txt m' p t.length = t := by
  unfold put at h
  split at h <;> cases h
  rename_i hl
  simp only [txt, List.append_assoc]
  rw [List.drop_left' (by simp; omega)]
  simp

theorem skipEol_eq (m : Mem) : ∀ (n p : Nat), p + n ≤ m.length →
    skipEol m p n = some (p + ((txt m p n).takeWhile isEol).length,
      n - ((txt m p n).takeWhile isEol).length) := by
  intro n
  induction n with
  | zero => intro p _; simp [skipEol, txt]
  | succ n ih =>
    intro p h
    have hlt : p < m.length := by omega
    have e : txt m p (n + 1) = m[p] :: txt m (p + 1) n := by
      simp only [txt]
      rw [List.drop_eq_getElem_cons hlt]
      rfl
    unfold skipEol
    simp only [rd, List.getElem?_eq_getElem hlt]
    rw [e]
    by_cases hb : isEol m[p] = true
    · rw [if_pos hb, ih (p + 1) (by omega), List.takeWhile_cons_of_pos hb]
      simp; omega
    · rw [if_neg hb, List.takeWhile_cons_of_neg hb]
      simp

/-- The C string at `off` has the contents `l`. -/
def LineAt (m : Mem) (off : Nat) (l : Str) : Prop :=
  NoNul l ∧ txt m off l.length = l ∧ m[off + l.length]? = some 0

theorem LineAt.readStr {m : Mem} {off : Nat} {l : Str} (h : LineAt m off l) :
    readStr m off = some l := by
  obtain ⟨h1, h2, h3⟩ := h
  have hlt : off + l.length < m.length := by
    by_cases hh : off + l.length < m.length
    · exact hh
    · rw [List.getElem?_eq_none (by omega)] at h3; cases h3
  have hd : m.drop off = l ++ 0 :: m.drop (off + l.length + 1) := by
    have e1 : m.drop off = (m.drop off).take l.length ++ (m.drop off).drop l.length :=
      (List.take_append_drop _ _).symm
    rw [e1, List.drop_drop, List.drop_eq_getElem_cons hlt]
    rw [List.getElem?_eq_getElem hlt] at h3
    have h2' : (m.drop off).take l.length = l := h2
    rw [h2']
    have : m[off + l.length] = 0 := by simpa using h3
    rw [this]
  unfold Cellular.readStr
  rw [hd, readStrL_append h1]
  simp [readStrL]

theorem LineAt.congr {m m' : Mem} {off : Nat} {l : Str} (h : LineAt m off l)
    (hm : ∀ i, off ≤ i → i ≤ off + l.length → m'[i]? = m[i]?) : LineAt m' off l :=
  ⟨h.1, (txt_congr (fun i h1 h2 => hm i h1 (by omega))).trans h.2.1,
    (hm _ (by omega) (by omega)).trans h.2.2⟩

/-- The item is the line or the data `l`, stored before position `base`. -/
def ItemAt (m : Mem) (base : Nat) (it : Item) (l : Str) : Prop :=
  (∃ off, it = .line off ∧ LineAt m off l ∧ off + l.length < base) ∨
  (∃ off, it = .data off l.length ∧ txt m off l.length = l ∧ off + l.length ≤ base ∧
    off + l.length ≤ m.length)

/-- The collected items are the given lines. -/
def ItemsAt (m : Mem) (base : Nat) (r : Option Resp) (lines : List Str) : Prop :=
  (r.getD ⟨false, []⟩).status = false ∧
    List.Forall₂ (ItemAt m base) (r.getD ⟨false, []⟩).items lines

theorem ItemsAt.congr {m m' : Mem} {base base' : Nat} {r : Option Resp} {lines : List Str}
    (h : ItemsAt m base r lines) (hb : base ≤ base') (hm : ∀ i, i < base → m'[i]? = m[i]?) :
    ItemsAt m' base' r lines := by
  refine ⟨h.1, h.2.imp ?_⟩
  rintro it l (⟨off, rfl, hl, ho⟩ | ⟨off, rfl, hl, ho, hin⟩)
  · exact Or.inl ⟨off, rfl, hl.congr (fun i _ h2 => hm i (by omega)), by omega⟩
  · refine Or.inr ⟨off, rfl, (txt_congr (fun i _ h2 => hm i (by omega))).trans hl, by omega, ?_⟩
    by_cases h0 : l.length = 0
    · by_cases hx : off ≤ m'.length
      · omega
      · have h1 : m[m'.length]? = none ∨ base ≤ m'.length := by
          by_cases hy : m'.length < base
          · left; rw [← hm _ hy]; simp
          · right; omega
        rcases h1 with h1 | h1
        · have := List.getElem?_eq_none_iff.mp h1
          omega
        · omega
    · have h1 := hm (off + l.length - 1) (by omega)
      rw [List.getElem?_eq_getElem (l := m) (by omega)] at h1
      have h2 : off + l.length - 1 < m'.length := by
        by_cases hx : off + l.length - 1 < m'.length
        · exact hx
        · rw [List.getElem?_eq_none (by omega)] at h1; cases h1
      omega

theorem itemsAt_contents {m : Mem} {base : Nat} {items : List Item} {lines : List Str}
    (h : List.Forall₂ (ItemAt m base) items lines) :
    items.mapM (itemContents m) = some lines := by
  induction h with
  | nil => rfl
  | cons h _ ih =>
    rcases h with ⟨off, rfl, hl, _⟩ | ⟨off, rfl, hl, _, hin⟩
    · simp [List.mapM_cons, itemContents, hl.readStr, ih]
    · simp only [List.mapM_cons, itemContents, slice_some hin]
      rw [show (m.drop off).take _ = _ from hl, ih]
      rfl

/-- The concrete state represents the abstract one; items are stored before `base`. -/
structure Rep (s : St) (a : Rx) (base : Nat) : Prop where
  cmd : s.cmd = a.cmd
  pfx : s.pfx = a.pfx
  events : s.events = a.events
  items : ItemsAt s.buf base s.resp a.lines
  idle : a.cmd = .noCommand → a.lines = [] → s.resp = none

/-- No callback is installed. -/
structure NoCb (cfg : Cfg) (s : St) : Prop where
  input : cfg.inputCb = none
  send : s.sendCb = none
  data : s.dataCb = none
  urc : ∀ l, (cfg.urcEdit l).length ≤ l.length

theorem NoCb.inText {cfg : Cfg} {s : St} (h : NoCb cfg s) : CallbacksInText cfg s := by
  refine ⟨h.urc, ?_, ?_, ?_⟩ <;> intro f hf
  · rw [h.input] at hf; cases hf
  · rw [h.send] at hf; cases hf
  · rw [h.data] at hf; cases hf

theorem NoCb.of_same {cfg : Cfg} {s s' : St} (h : NoCb cfg s) (hs : SameCb s s') : NoCb cfg s' :=
  ⟨h.input, hs.1.trans h.send, hs.2.trans h.data, h.urc⟩

/-- Between reads: the state represents `a` and the unfinished line `cur`. -/
structure Between (s : St) (a : Rx) (cur : Str) : Prop where
  rep : Rep s a (s.readPtr.getD 0)
  text : txt s.buf (s.readPtr.getD 0) s.partialLen = cur
  noEol : NoEol cur

/-! ## One line -/

theorem undefined_refines {cfg : Cfg} {s : St} {a a' : Rx} {base : Nat} (hr : Rep s a base) (line : Str)
    (h : a.undefinedLine cfg line = some a') :
    ∃ s', handleUndefined cfg s line = (.ok, s') ∧ s'.buf = s.buf ∧ Rep s' a' base ∧
      s'.dataLen = s.dataLen := by
  unfold Rx.undefinedLine at h
  split at h
  · rename_i hu
    cases h
    unfold handleUndefined
    simp only [hu]
    exact ⟨_, rfl, rfl, ⟨hr.cmd, hr.pfx, by simp [hr.events], hr.items, hr.idle⟩, rfl⟩
  · cases h

theorem getMsgType_solicited {cfg : Cfg} {cmd : CmdType} {pfx : Option Str} {line : Str}
    (h : getMsgType cfg cmd pfx line = .solicited) : cmd ≠ .noCommand := by
  rintro rfl
  unfold getMsgType at h
  simp only [ne_eq, not_true_eq_false, false_and, if_false] at h
  repeat' split at h
  all_goals cases h

/-- Effect of one complete line stored at `p`. -/
structure LineDone (cfg : Cfg) (s : St) (p : Nat) (line : Str) (a' : Rx)
    (r : Option (PktStatus × MsgType × St)) : Prop where
  ex : ∃ st t s', r = some (st, t, s') ∧ (st = .ok ∨ st = .pendingData ∨ st = .pendingBuffer) ∧
    s'.buf.length = s.buf.length ∧
    (∀ i, i < p ∨ p + line.length ≤ i → s'.buf[i]? = s.buf[i]?) ∧
    Rep s' a' (p + line.length + 1) ∧ (st = .ok → t = .solicited → a'.lines = []) ∧ s'.dataLen = s.dataLen

theorem forall₂_append_one {α β : Type} {R : α → β → Prop} {l : List α} {m : List β} {x : α} {y : β}
    (h : List.Forall₂ R l m) (hxy : R x y) : List.Forall₂ R (l ++ [x]) (m ++ [y]) := by
  induction h with
  | nil => exact .cons hxy .nil
  | cons h _ ih => exact .cons h ih

theorem handleMsgType_refines {cfg : Cfg} {s : St} {a a' : Rx} {p : Nat} {line : Str}
    (hu : ∀ l, (cfg.urcEdit l).length ≤ l.length)
    (hlen : p + line.length < s.buf.length) (hr : Rep s a p) (hl : LineAt s.buf p line)
    (h : a.line cfg line = some a') : LineDone cfg s p line a' (handleMsgType cfg s p line) := by
  have hbase : Rep s a (p + line.length + 1) :=
    ⟨hr.cmd, hr.pfx, hr.events, hr.items.congr (by omega) (fun _ _ => rfl), hr.idle⟩
  have undef : ∀ (r : Option Resp), ItemsAt s.buf (p + line.length + 1) r a.lines →
      (a.cmd = .noCommand → a.lines = [] → r = none) →
      a.undefinedLine cfg line = some a' →
      LineDone cfg s p line a' (some ((handleUndefined cfg { s with resp := r } line).1, .undefined,
        (handleUndefined cfg { s with resp := r } line).2)) := by
    intro r hri hidle hua
    have hr' : Rep { s with resp := r } a (p + line.length + 1) := ⟨hr.cmd, hr.pfx, hr.events, hri, hidle⟩
    obtain ⟨s', e, e2, e3, e4⟩ := undefined_refines hr' line hua
    rw [e]
    exact ⟨_, _, _, rfl, Or.inl rfl, by rw [e2], fun i _ => by rw [e2], e3, by simp, e4⟩
  unfold Rx.line at h
  rw [show getMsgType cfg a.cmd a.pfx line = getMsgType cfg s.cmd s.pfx line by rw [hr.cmd, hr.pfx]] at h
  unfold handleMsgType
  cases hm : getMsgType cfg s.cmd s.pfx line with
  | unsolicited =>
    rw [hm] at h
    simp only [Option.some.injEq] at h
    subst h
    have hle := hu line
    obtain ⟨m, em, hm1, hm2⟩ := put_some (m := s.buf) (p := p) (t := cfg.urcEdit line) (by omega)
    simp only []
    rw [em]
    refine ⟨_, _, _, rfl, Or.inl rfl, hm1, ?_, ⟨hr.cmd, hr.pfx, by simp [hr.events], ?_, hr.idle⟩, by simp, rfl⟩
    · intro i hi; exact hm2 i (by omega)
    · exact hr.items.congr (by omega) (fun i hi => hm2 i (Or.inl hi))
  | undefined =>
    rw [hm] at h
    exact undef s.resp hbase.items hr.idle h
  | solicited =>
    rw [hm] at h
    simp only [] at h ⊢
    have hns : ∀ r : Resp, a.cmd = .noCommand → a.lines = [] → some r = none := by
      intro r hc
      exact absurd (hr.cmd.trans hc) (getMsgType_solicited hm)
    have hres := hbase.items
    generalize hq : s.resp.getD ⟨false, []⟩ = r0
    have hr0 : ItemsAt s.buf (p + line.length + 1) (some r0) a.lines := by
      unfold ItemsAt at hres ⊢
      rw [hq] at hres
      exact hres
    have hst0 : r0.status = false := hr0.1
    have hit0 : List.Forall₂ (ItemAt s.buf (p + line.length + 1)) r0.items a.lines := hr0.2
    have hnew : ItemAt s.buf (p + line.length + 1) (.line p) line := Or.inl ⟨p, rfl, hl, by omega⟩
    have hempty : r0.items = [] ↔ a.lines = [] := by
      constructor
      · intro e; rw [e] at hit0; generalize a.lines = x at hit0; cases hit0; rfl
      · intro e; rw [e] at hit0; generalize r0.items = x at hit0; cases hit0; rfl
    have happ := forall₂_append_one hit0 hnew
    have done : ∀ (st : Bool) (items : List Item) (lines : List Str),
        List.Forall₂ (ItemAt s.buf (p + line.length + 1)) items lines →
        a' = a.complete st lines →
        LineDone cfg s p line a' (match items.mapM (itemContents s.buf) with
          | none => none
          | some c => some (PktStatus.ok, MsgType.solicited,
              { s with cmd := .noCommand, pfx := none, resp := none,
                       events := s.events ++ [.response st c] })) := by
      intro st items lines hf ha
      subst ha
      rw [itemsAt_contents hf]
      exact ⟨_, _, _, rfl, Or.inl rfl, rfl, fun i _ => rfl,
        ⟨rfl, rfl, by simp [Rx.complete, hr.events], ⟨rfl, by simp [Rx.complete]⟩, fun _ _ => rfl⟩, by simp [Rx.complete], rfl⟩
    have save : ∀ (st : PktStatus), st = .pendingData ∨ st = .pendingBuffer →
        a' = { a with lines := a.lines ++ [line] } →
        LineDone cfg s p line a' (some (st, MsgType.solicited,
          { s with resp := some { r0 with items := r0.items ++ [.line p] } })) := by
      intro st hst ha
      subst ha
      refine ⟨_, _, _, rfl, Or.inr hst, rfl, fun i _ => rfl,
        ⟨hr.cmd, hr.pfx, hr.events, ⟨hst0, happ⟩, by simp⟩, ?_, rfl⟩
      intro e
      rcases hst with e' | e' <;> rw [e] at e' <;> cases e'
    unfold processLine
    by_cases ht : cfg.err = none ∨ cfg.succ = none
    · rw [if_pos ht] at h
      rw [if_neg (by
        rintro ⟨h1, h2⟩
        rcases ht with h' | h' <;> simp [h'] at h1 h2)]
      exact undef (some r0) hr0 (hns r0) h
    · rw [if_neg ht] at h
      have ht' : cfg.err.isSome ∧ cfg.succ.isSome := by
        constructor
        · cases he : cfg.err
          · exact absurd (Or.inl he) ht
          · rfl
        · cases he : cfg.succ
          · exact absurd (Or.inr he) ht
          · rfl
      rw [if_pos ht']
      by_cases h1 : isToken line cfg.extra = true ∨ isToken line cfg.succ = true
      · rw [if_pos h1] at h
        rw [if_pos h1]
        exact done true r0.items a.lines hit0 (by simpa using h.symm)
      · rw [if_neg h1] at h
        rw [if_neg h1]
        by_cases h2 : isToken line cfg.err = true
        · rw [if_pos h2] at h
          rw [if_pos h2]
          exact done false r0.items a.lines hit0 (by simpa using h.symm)
        · rw [if_neg h2] at h
          rw [if_neg h2]
          have hone : (s.cmd = .woPrefix ∨ s.cmd = .withPrefix) →
              (if a.lines = [] then some { a with lines := [line] } else a.undefinedLine cfg line) = some a' →
              LineDone cfg s p line a'
                (match processIntermediate (.line p) r0 s.cmd with
                | (.ok, r) =>
                  match r.items.mapM (itemContents s.buf) with
                  | none => none
                  | some c => some (PktStatus.ok, MsgType.solicited,
                      { s with cmd := .noCommand, pfx := none, resp := none,
                               events := s.events ++ [.response r.status c] })
                | (.pendingBuffer, r) => some (.pendingBuffer, .solicited, { s with resp := some r })
                | (.pendingData, r) => some (.pendingData, .solicited, { s with resp := some r })
                | (_, r) => some ((handleUndefined cfg { s with resp := some r } line).1, .undefined,
                    (handleUndefined cfg { s with resp := some r } line).2)) := by
            intro hc hh
            by_cases he : a.lines = []
            · rw [if_pos he] at hh
              have hq : processIntermediate (.line p) r0 s.cmd =
                  (.pendingData, { r0 with items := r0.items ++ [.line p] }) := by
                rcases hc with hc | hc <;> rw [hc] <;> simp [processIntermediate, hempty.mpr he]
              rw [hq]
              exact save .pendingData (Or.inl rfl) (by rw [he]; simpa using hh.symm)
            · rw [if_neg he] at hh
              have hne : r0.items ≠ [] := fun hx => he (hempty.mp hx)
              have hq : processIntermediate (.line p) r0 s.cmd = (.invalidData, r0) := by
                rcases hc with hc | hc <;> rw [hc] <;> simp [processIntermediate, hne]
              rw [hq]
              exact undef (some r0) hr0 (hns r0) hh
          cases hcmd : a.cmd <;> rw [hcmd] at h <;> simp only [] at h <;> have hsc := hr.cmd.trans hcmd
          case woPrefix => exact hone (Or.inl hsc) (by rw [hcmd]; exact h)
          case withPrefix => exact hone (Or.inr hsc) (by rw [hcmd]; exact h)
          case multiWithPrefix =>
            have hq : processIntermediate (.line p) r0 s.cmd =
              (.pendingData, { r0 with items := r0.items ++ [.line p] }) := by rw [hsc]; rfl
            rw [hq]
            exact save .pendingData (Or.inl rfl) (by rw [hcmd]; simpa using h.symm)
          case multiWoPrefix =>
            have hq : processIntermediate (.line p) r0 s.cmd =
              (.pendingData, { r0 with items := r0.items ++ [.line p] }) := by rw [hsc]; rfl
            rw [hq]
            exact save .pendingData (Or.inl rfl) (by rw [hcmd]; simpa using h.symm)
          case multiDataWoPrefix =>
            have hq : processIntermediate (.line p) r0 s.cmd =
              (.pendingBuffer, { r0 with items := r0.items ++ [.line p] }) := by rw [hsc]; rfl
            rw [hq]
            exact save .pendingBuffer (Or.inr rfl) (by rw [hcmd]; simpa using h.symm)
          case woPrefixNoResultCode =>
            have hq : processIntermediate (.line p) r0 s.cmd =
              (.ok, ⟨true, r0.items ++ [.line p]⟩) := by rw [hsc]; rfl
            rw [hq]
            exact done true _ _ happ (by simpa using h.symm)
          case withPrefixNoResultCode =>
            have hq : processIntermediate (.line p) r0 s.cmd =
              (.ok, ⟨true, r0.items ++ [.line p]⟩) := by rw [hsc]; rfl
            rw [hq]
            exact done true _ _ happ (by simpa using h.symm)
          case noResult =>
            have hq : processIntermediate (.line p) r0 s.cmd = (.invalidData, r0) := by rw [hsc]; rfl
            rw [hq]
            exact undef (some r0) hr0 (hns r0) h
          case noCommand =>
            have hq : processIntermediate (.line p) r0 s.cmd = (.invalidData, r0) := by rw [hsc]; rfl
            rw [hq]
            exact undef (some r0) hr0 (hns r0) h

/-- A line that is refused: the buffer is cleared and the command forgotten. -/
theorem handleMsgType_refused {cfg : Cfg} {s : St} {a : Rx} {p : Nat} {line : Str} (hr : Rep s a p)
    (h : a.line cfg line = none) :
    ∃ s', handleMsgType cfg s p line = some (.invalidData, .undefined, s') ∧
      Between s' (a.dropped line) [] := by
  have refuse : ∀ r, a.undefinedLine cfg line = none →
      ∃ s', some ((handleUndefined cfg { s with resp := r } line).1, MsgType.undefined,
        (handleUndefined cfg { s with resp := r } line).2) = some (PktStatus.invalidData, .undefined, s') ∧
        Between s' (a.dropped line) [] := by
    intro r hu
    unfold Rx.undefinedLine at hu
    split at hu
    · cases hu
    · rename_i hne
      have : handleUndefined cfg { s with resp := r } line = (.invalidData,
          { cleanBuf cfg { s with resp := r, events := s.events ++ [.undefined line] } with
            cmd := .noCommand, pfx := none, resp := none }) := by
        unfold handleUndefined
        simp only []
      rw [this]
      refine ⟨_, rfl, ⟨⟨rfl, rfl, by simp [Rx.dropped, cleanBuf, hr.events], ⟨rfl, ?_⟩, fun _ _ => rfl⟩, ?_, ?_⟩⟩
      · simp [Rx.dropped]
      · simp [txt, cleanBuf]
      · intro b hb; cases hb
  unfold Rx.line at h
  rw [show getMsgType cfg a.cmd a.pfx line = getMsgType cfg s.cmd s.pfx line by rw [hr.cmd, hr.pfx]] at h
  unfold handleMsgType
  cases hm : getMsgType cfg s.cmd s.pfx line with
  | unsolicited => rw [hm] at h; cases h
  | undefined => rw [hm] at h; exact refuse s.resp h
  | solicited =>
    rw [hm] at h
    simp only [] at h ⊢
    have hres := hr.items
    generalize hq : s.resp.getD ⟨false, []⟩ = r0
    have hit0 : List.Forall₂ (ItemAt s.buf p) r0.items a.lines := by
      have := hres.2
      rw [hq] at this
      exact this
    have hempty : r0.items = [] → a.lines = [] := by
      intro e; rw [e] at hit0; generalize a.lines = x at hit0; cases hit0; rfl
    unfold processLine
    by_cases ht : cfg.err = none ∨ cfg.succ = none
    · rw [if_pos ht] at h
      rw [if_neg (by
        rintro ⟨h1, h2⟩
        rcases ht with h' | h' <;> simp [h'] at h1 h2)]
      exact refuse (some r0) h
    · rw [if_neg ht] at h
      have ht' : cfg.err.isSome ∧ cfg.succ.isSome := by
        constructor
        · cases he : cfg.err
          · exact absurd (Or.inl he) ht
          · rfl
        · cases he : cfg.succ
          · exact absurd (Or.inr he) ht
          · rfl
      rw [if_pos ht']
      split at h
      · cases h
      · rename_i h1
        rw [if_neg h1]
        split at h
        · cases h
        · rename_i h2
          rw [if_neg h2]
          have hone : (s.cmd = .woPrefix ∨ s.cmd = .withPrefix) → a.lines ≠ [] →
              processIntermediate (.line p) r0 s.cmd = (.invalidData, r0) := by
            intro hc hl
            have hne : r0.items ≠ [] := fun hx => hl (hempty hx)
            rcases hc with hc | hc <;> rw [hc] <;> simp [processIntermediate, hne]
          have hbad : processIntermediate (.line p) r0 s.cmd = (.invalidData, r0) ∧
              a.undefinedLine cfg line = none := by
            cases hcmd : a.cmd <;> rw [hcmd] at h <;> simp only [] at h <;>
              have hsc := hr.cmd.trans hcmd
            case noResult => exact ⟨by rw [hsc]; rfl, h⟩
            case noCommand => exact ⟨by rw [hsc]; rfl, h⟩
            case woPrefix =>
              split at h
              · cases h
              · rename_i hl; exact ⟨hone (Or.inl hsc) hl, h⟩
            case withPrefix =>
              split at h
              · cases h
              · rename_i hl; exact ⟨hone (Or.inr hsc) hl, h⟩
            all_goals cases h
          rw [hbad.1]
          exact refuse (some r0) hbad.2

/-! ## The loop -/

theorem dropWhile_eq_drop {f : Byte → Bool} (t : Str) :
    t.dropWhile f = t.drop (t.takeWhile f).length := by
  have := List.takeWhile_append_dropWhile (p := f) (l := t)
  conv => rhs; rw [← this]
  rw [List.drop_left' (by rw [this])]

theorem findIdx_none {t : Str} (h : t.findIdx? isEol = none) : NoEol t := by
  rw [List.findIdx?_eq_none_iff] at h
  intro b hb he
  have := h b hb
  rw [(isEol_iff b).mpr he] at this
  cases this

theorem findIdx_split {t : Str} {i : Nat} (h : t.findIdx? isEol = some i) :
    ∃ e, t = t.take i ++ e :: t.drop (i + 1) ∧ LineEnd e ∧ NoEol (t.take i) ∧ i < t.length := by
  have hi := findIdx_lt h
  rw [List.findIdx?_eq_some_iff_getElem] at h
  obtain ⟨h1, h2, h3⟩ := h
  refine ⟨t[i], ?_, (isEol_iff _).mp h2, ?_, hi⟩
  · rw [← List.drop_eq_getElem_cons]
    exact (List.take_append_drop i t).symm
  · intro b hb he
    obtain ⟨k, hk, rfl⟩ := List.mem_iff_getElem.mp hb
    rw [List.getElem_take] at he
    have hk' : k < i := by simp at hk; omega
    have := h3 k hk'
    simp [(isEol_iff _).mpr he] at this

theorem iter_refines {cfg : Cfg} {s : St} {a : Rx} {c : Cur} (h : RxInv0 cfg s) (hn : NoCb cfg s)
    (hp : c.p + c.n ≤ cfg.size) (hr : Rep s a c.p) :
    ((linesFrom [] (txt s.buf c.p c.n)).1 = [] →
      ∃ s', iter cfg s c = some (none, s') ∧ Between s' a (linesFrom [] (txt s.buf c.p c.n)).2) ∧
    (∀ l ls a', (linesFrom [] (txt s.buf c.p c.n)).1 = l :: ls → a.line cfg l = some a' →
      ∃ c' s', iter cfg s c = some (some c', s') ∧ Rep s' a' c'.p ∧
        linesFrom [] (txt s'.buf c'.p c'.n) = (ls, (linesFrom [] (txt s.buf c.p c.n)).2)) ∧
    (∀ l ls, (linesFrom [] (txt s.buf c.p c.n)).1 = l :: ls → a.line cfg l = none →
      ∃ s', iter cfg s c = some (none, s') ∧ Between s' (a.dropped l) []) := by
  have hl := h.len
  generalize ht : txt s.buf c.p c.n = t
  have htl : t.length = c.n := by rw [← ht]; exact txt_length (by omega)
  generalize hj : (t.takeWhile isEol).length = j
  have hskip : skipEol s.buf c.p c.n = some (c.p + j, c.n - j) := by
    rw [skipEol_eq s.buf c.n c.p (by omega), ht, hj]
  have ht1 : t.dropWhile isEol = txt s.buf (c.p + j) (c.n - j) := by
    rw [dropWhile_eq_drop, hj, ← ht, txt_drop]
  have hlin : linesFrom [] t = linesFrom [] (txt s.buf (c.p + j) (c.n - j)) := by
    rw [← ht1, linesFrom_skip]
  have hjn : j ≤ c.n := by
    rw [← hj, ← htl]; exact (List.takeWhile_sublist _).length_le
  have hin : preprocessInput cfg s (c.p + j) (c.n - j) = some (true, s, c.p + j, c.n - j) := by
    simp [preprocessInput, hn.input]
  have hIter : iter cfg s c = (match preprocessLine cfg s (c.p + j) (c.n - j) c.sd with
      | none => none
      | some (false, s, _, _) => some (none, s)
      | some (true, s, n, sd) =>
        match findLine s (c.p + j) n with
        | none => none
        | some (s, none) => some (none, s)
        | some (s, some len) => handleLine cfg s ⟨c.p + j, n, sd⟩ len) := by
    unfold iter
    rw [hskip]
    simp only []
    rw [hin]
    rfl
  rw [hIter, hlin]
  clear hIter
  generalize hP : c.p + j = P
  generalize hN : c.n - j = N
  rw [hP, hN] at ht1 hlin
  have hPN : P + N ≤ cfg.size := by omega
  have hrP : Rep s a P := ⟨hr.cmd, hr.pfx, hr.events, hr.items.congr (by omega) (fun _ _ => rfl), hr.idle⟩
  by_cases hN0 : N = 0
  · -- only line ends
    have hpre : preprocessLine cfg s P N c.sd =
        some (false, { s with readPtr := some P, partialLen := 0 }, N, c.sd) := by
      simp [preprocessLine, hN0]
    rw [hpre]
    subst hN0
    constructor
    · intro _
      refine ⟨_, rfl, ⟨hrP.cmd, hrP.pfx, hrP.events, hrP.items, hrP.idle⟩, ?_, ?_⟩
      · simp [txt, linesFrom]
      · simp [txt, linesFrom]; intro b hb; cases hb
    · constructor
      · intro l ls a' hc
        simp [txt, linesFrom] at hc
      · intro l ls hc
        simp [txt, linesFrom] at hc
  · have hpre : preprocessLine cfg s P N c.sd = some (true, s, N, c.sd) := by
      simp [preprocessLine, hN0, hn.send, hn.data]
    rw [hpre]
    simp only []
    have hsl : slice s.buf P N = some (txt s.buf P N) := slice_some (by omega)
    have hTl : (txt s.buf P N).length = N := txt_length (by omega)
    unfold findLine
    rw [hsl]
    simp only []
    cases hf : (txt s.buf P N).findIdx? isEol with
    | none =>
      have hno := findIdx_none hf
      rw [linesFrom_noEol' hno]
      simp only []
      constructor
      · intro _
        exact ⟨_, rfl, ⟨hrP.cmd, hrP.pfx, hrP.events, hrP.items, hrP.idle⟩, rfl, hno⟩
      · exact ⟨fun l ls a' hc => (by cases hc), fun l ls hc => (by cases hc)⟩
    | some i =>
      obtain ⟨e, hsplit, he, hno, hi⟩ := findIdx_split hf
      rw [hTl] at hi
      have hi0 : (txt s.buf P N).take i ≠ [] := by
        intro h0
        have hi' : i = 0 := by
          have := congrArg List.length h0
          simp [hTl] at this
          omega
        rw [h0, List.nil_append] at hsplit
        have : ((t.dropWhile isEol).head?) = some e := by rw [ht1, hsplit]; rfl
        have h2 := List.head?_dropWhile_not isEol t
        rw [this] at h2
        simp [(isEol_iff e).mpr he] at h2
      have htk : (txt s.buf P N).take i = txt s.buf P i := txt_take _ _ _ _ (by omega)
      have hdr : (txt s.buf P N).drop (i + 1) = txt s.buf (P + (i + 1)) (N - (i + 1)) := txt_drop _ _ _ _
      generalize hline : (txt s.buf P N).take i = line at *
      have hll : line.length = i := by rw [← hline]; simp [hTl]; omega
      have hlf : linesFrom [] (txt s.buf P N) =
          (line :: (linesFrom [] ((txt s.buf P N).drop (i + 1))).1,
            (linesFrom [] ((txt s.buf P N).drop (i + 1))).2) := by
        conv => lhs; rw [hsplit]
        exact linesFrom_line hno hi0 he _
      rw [hlf, hdr]
      constructor
      · intro hc; cases hc
      · have hwr : wr s.buf (P + i) 0 = some (s.buf.set (P + i) 0) := wr_some (by omega)
        simp only [hwr, Option.map_some]
        -- the buffer with the line terminated
        generalize hm : s.buf.set (P + i) 0 = m
        have hml : m.length = s.buf.length := by rw [← hm]; simp
        have hmo : ∀ k, k ≠ P + i → m[k]? = s.buf[k]? := by
          intro k hk
          rw [← hm, List.getElem?_set_ne (by omega)]
        have hLine : LineAt m P line := by
          refine ⟨hno.noNul, ?_, ?_⟩
          · rw [txt_congr (m := s.buf) (fun k h1 h2 => hmo k (by omega)), hll, ← htk]
          · rw [hll, ← hm]; exact List.getElem?_set_self (by omega)
        have hrm : Rep { s with buf := m } a P :=
          ⟨hrP.cmd, hrP.pfx, hrP.events, hrP.items.congr (Nat.le_refl _) (fun k hk => hmo k (by omega)), hrP.idle⟩
        have hbl : ({ s with buf := m } : St).buf.length = s.buf.length := hml
        constructor
        · intro l ls a' hc hla
          simp only [List.cons.injEq] at hc
          obtain ⟨rfl, rfl⟩ := hc
          obtain ⟨st, ty, s2, e2, hst, hlen2, hsame, hrep2, hfin, hd2⟩ :=
            (handleMsgType_refines (cfg := cfg) (s := { s with buf := m }) hn.urc (by simp only []; omega) hrm hLine
              hla).ex
          have hdl : s2.dataLen = 0 := hd2.trans h.data
          have hrest : txt s2.buf (P + (i + 1)) (N - (i + 1)) = txt s.buf (P + (i + 1)) (N - (i + 1)) := by
            apply txt_congr
            intro k h1 h2
            rw [hsame k (by omega)]
            exact hmo k (by omega)
          have hHL : handleLine cfg { s with buf := m } ⟨P, N, c.sd⟩ i =
              (getNextLine s2 P N i st ty).map (fun r => (some ⟨r.1, r.2.1, c.sd⟩, r.2.2)) := by
            unfold handleLine
            simp only [hLine.readStr, e2]
            rcases hst with rfl | rfl | rfl
            · rfl
            · rfl
            · simp [hdl]
          rw [hHL]
          unfold getNextLine
          simp only []
          by_cases hgc : st = .ok ∧ ty = .solicited
          · rw [if_pos hgc]
            rw [slice_some (by omega)]
            simp only []
            obtain ⟨m3, em3, h31, h32⟩ := put_some (m := s2.buf) (p := 0)
              (t := txt s2.buf (P + (i + 1)) (N - (i + 1)))
              (by rw [txt_length (by omega)]; omega)
            have em3' : put s2.buf 0 (List.take (N - (i + 1)) (List.drop (P + (i + 1)) s2.buf)) = some m3 := em3
            rw [em3']
            refine ⟨_, _, rfl, ⟨hrep2.cmd, hrep2.pfx, hrep2.events, ?_, hrep2.idle⟩, ?_⟩
            · have hnil := hfin hgc.1 hgc.2
              have := hrep2.items
              rw [hnil] at this ⊢
              refine ⟨this.1, ?_⟩
              have h2 := this.2
              simp only [] at h2 ⊢
              generalize (s2.resp.getD ⟨false, []⟩).items = its at h2 ⊢
              cases h2
              exact .nil
            · simp only []
              have := txt_put em3
              rw [txt_length (by omega)] at this
              rw [this, hrest]
          · rw [if_neg hgc]
            refine ⟨_, _, rfl, ?_, ?_⟩
            · simp only []
              rw [show P + (i + 1) = P + line.length + 1 by omega]
              exact ⟨hrep2.cmd, hrep2.pfx, hrep2.events, hrep2.items, hrep2.idle⟩
            · simp only []
              rw [hrest]
        · intro l ls hc hla
          simp only [List.cons.injEq] at hc
          obtain ⟨rfl, rfl⟩ := hc
          obtain ⟨s2, e2, hb2⟩ := handleMsgType_refused hrm hla
          refine ⟨s2, ?_, hb2⟩
          unfold handleLine
          simp only [hLine.readStr, e2]

theorem loop_refines {cfg : Cfg} : ∀ (k : Nat) {s : St} {c : Cur} {a : Rx}, RxInv0 cfg s → NoCb cfg s →
    c.p + c.n ≤ cfg.size → c.n < k → Rep s a c.p →
    ∃ s', loop cfg k s c = some s' ∧
      Between s' (Rx.read cfg (a, []) (txt s.buf c.p c.n)).1 (Rx.read cfg (a, []) (txt s.buf c.p c.n)).2 := by
  intro k
  induction k with
  | zero => intro s c a _ _ _ h; omega
  | succ k ih =>
    intro s c a h hn hp hk hr
    obtain ⟨hA, hB, hC⟩ := iter_refines h hn hp hr
    unfold loop
    simp only [Rx.read] at ih ⊢
    cases hls : (linesFrom [] (txt s.buf c.p c.n)).1 with
    | nil =>
      obtain ⟨s', e, hb⟩ := hA hls
      rw [e]
      exact ⟨s', rfl, hb⟩
    | cons l ls =>
      simp only [Rx.feed]
      cases hla : a.line cfg l with
      | none =>
        obtain ⟨s', e, hb⟩ := hC l ls hls hla
        rw [e]
        exact ⟨s', rfl, hb⟩
      | some a1 =>
        obtain ⟨c', s', e, hr', hlf⟩ := hB l ls a1 hls hla
        obtain ⟨c2, s2, e2, i2, sc2, _, y2⟩ := iter_inv h hn.inText (Nat.le_refl _) hp
        rw [e] at e2
        cases e2
        have hy := y2 c' rfl
        rw [e]
        simp only []
        obtain ⟨s3, e3, hb3⟩ := ih i2 (hn.of_same sc2) (by omega) (by omega) hr'
        rw [hlf] at hb3
        exact ⟨s3, e3, hb3⟩

/-! ## One read -/

/-- The read buffer is full although something in it is still needed: an unfinished line, or lines of the
pending response. -/
def Overflow (cfg : Cfg) (s : St) (a : Rx) (cur : Str) : Prop :=
  room cfg s = 0 ∧ (cur ≠ [] ∨ a.lines ≠ [])

theorem itemsAt_nil {m m' : Mem} {b b' : Nat} {r : Option Resp} (h : ItemsAt m b r []) :
    ItemsAt m' b' r [] := by
  refine ⟨h.1, ?_⟩
  have h2 := h.2
  generalize (r.getD ⟨false, []⟩).items = its at h2 ⊢
  cases h2
  exact .nil

theorem readPos_refines {cfg : Cfg} {s : St} {a : Rx} {cur : Str} (h : RxInv cfg s) (hb : Between s a cur) :
    ∃ s' p pr e, readPos cfg s = some (s', p, pr, e) ∧ Between s' a cur ∧ s'.readPtr.getD 0 = p ∧
      (s'.readPtr = none → s.readPtr = none) := by
  obtain ⟨h, hpos⟩ := h
  unfold PosIn at hpos
  unfold readPos
  cases hr : s.readPtr with
  | none => exact ⟨_, _, _, _, rfl, hb, by simp [hr], by simp⟩
  | some q =>
    simp only [hr, Option.getD_some] at hpos
    have hbt := hb.text
    have hbi := hb.rep.items
    simp only [hr, Option.getD_some] at hbt hbi
    simp only []
    split
    · rename_i hc
      have hl := h.len
      have hs : slice s.buf q s.partialLen = some (txt s.buf q s.partialLen) := slice_some (by omega)
      rw [hs]
      simp only []
      have htl : (txt s.buf q s.partialLen).length = s.partialLen := txt_length (by omega)
      obtain ⟨m, em, h1, h2⟩ := put_some (m := s.buf) (p := 0) (t := txt s.buf q s.partialLen) (by omega)
      rw [em]
      simp only []
      rw [wr_some (by omega)]
      refine ⟨_, _, _, _, rfl, ⟨⟨hb.rep.cmd, hb.rep.pfx, hb.rep.events, ?_, hb.rep.idle⟩, ?_, hb.noEol⟩, rfl, by simp⟩
      · have hnil : a.lines = [] := by
          have h3 := hbi.2
          simp only [hc.2.2, Option.getD_none] at h3
          generalize a.lines = x at h3
          cases h3
          rfl
        rw [hnil] at hbi ⊢
        exact itemsAt_nil hbi
      · simp only [Option.getD_some]
        have := txt_put em
        rw [htl, hbt] at this
        rw [txt_congr (m := m) ?_]
        · exact this
        · intro k _ hk
          exact List.getElem?_set_ne (by omega)
    · exact ⟨_, _, _, _, rfl, hb, by simp [hr], by simp [hr]⟩

theorem txt_append (m : Mem) (p n k : Nat) : txt m p (n + k) = txt m p n ++ txt m (p + n) k := by
  simp only [txt]
  rw [List.take_add, List.drop_drop]

/-- One receive event does what the abstract receiver does with the bytes read - whatever their number. -/
theorem rxEvent_refines {cfg : Cfg} {s : St} {a : Rx} {cur chunk : Str} (h : RxInv cfg s)
    (hn : NoCb cfg s) (hb : Between s a cur) (hroom : chunk.length ≤ room cfg s)
    (hov : ¬ Overflow cfg s a cur) :
    ∃ k s', rxEvent cfg s chunk = some (k, s') ∧ RxInv cfg s' ∧ NoCb cfg s' ∧
      Between s' (Rx.read cfg (a, cur) chunk).1 (Rx.read cfg (a, cur) chunk).2 ∧
      PosIn (s.readPtr.getD 0 + s.partialLen + chunk.length) s' := by
  obtain ⟨k, s', e, i, sc, hpos', _⟩ := rxEvent_inv h hn.inText hroom
  refine ⟨k, s', e, i, hn.of_same sc, ?_, hpos'⟩
  obtain ⟨s1, p, pr, em, er, h1, c1, hpl, hpr, hpe, _⟩ := readPos_inv h
  obtain ⟨s1', p', pr', em', er', hb1, hrp, hno⟩ := readPos_refines h hb
  rw [er] at er'
  cases er'
  rw [room_eq er] at hroom
  unfold rxEvent at e
  rw [er] at e
  simp only [] at e
  by_cases hem : em > 0
  · rw [if_pos hem] at e
    by_cases hch : chunk = []
    · subst hch
      simp only [if_true, Option.some.injEq, Prod.mk.injEq] at e
      obtain ⟨_, rfl⟩ := e
      simp only [linesFrom, Rx.read, Rx.feed]
      exact hb1
    · rw [if_neg hch] at e
      have hl := h1.1.len
      have hpos : pr + chunk.length ≤ cfg.size := by omega
      obtain ⟨m, emm, hm1, hm2⟩ := put_some (m := s1.buf) (p := pr) (t := chunk ++ [0]) (by simp; omega)
      rw [emm] at e
      simp only [] at e
      rw [if_neg (by simp [h1.1.data])] at e
      simp only [] at e
      have hlen0 : 0 < chunk.length := List.length_pos_iff.mpr hch
      rw [if_pos (by omega), wr_some (by omega)] at e
      simp only [handleAllReceived] at e
      have hcurl : cur.length = s1.partialLen := by
        rw [← hb1.text]; apply txt_length; rw [hrp]; omega
      -- the text: the unfinished line followed by the bytes read
      generalize hm' : m.set (p + (chunk.length + s1.partialLen)) 0 = m' at e
      have hm'l : m'.length = m.length := by rw [← hm']; simp
      have hm'o : ∀ x, x ≠ p + (chunk.length + s1.partialLen) → m'[x]? = m[x]? := by
        intro x hx; rw [← hm', List.getElem?_set_ne (by omega)]
      have htxt : txt m' p (chunk.length + s1.partialLen) = cur ++ chunk := by
        rw [Nat.add_comm, txt_append]
        congr 1
        · rw [← hb1.text, hrp]
          apply txt_congr
          intro x hx1 hx2
          rw [hm'o x (by omega), hm2 x (Or.inl (by omega))]
        · have hp2 := txt_put emm
          have : txt m pr chunk.length = chunk := by
            have h5 := txt_take m pr (chunk ++ [0]).length chunk.length (by simp)
            rw [hp2] at h5
            rw [← h5]
            simp
          rw [show p + s1.partialLen = pr by omega]
          conv => rhs; rw [← this]
          apply txt_congr
          intro x hx1 hx2
          exact hm'o x (by omega)
      have hlast : m'[cfg.size]? = some 0 := by
        by_cases hb : p + (chunk.length + s1.partialLen) = cfg.size
        · rw [← hm', hb]; exact List.getElem?_set_self (by omega)
        · rw [hm'o _ (by omega), hm2 _ (Or.inr (by simp; omega))]; exact h1.1.last
      have hi0 : RxInv0 cfg { s1 with buf := m', partialLen := 0 } :=
        ⟨by simp only []; omega, hlast, h1.1.items, h1.1.data⟩
      have hlf : linesFrom [] (cur ++ chunk) = linesFrom cur chunk := by
        rw [linesFrom_noEol hb1.noEol]; rfl
      have hrep : Rep { s1 with buf := m', partialLen := 0 } a p := by
        have := hb1.rep
        rw [hrp] at this
        refine ⟨this.cmd, this.pfx, this.events, this.items.congr (Nat.le_refl _) ?_, this.idle⟩
        intro x hx
        rw [hm'o x (by omega), hm2 x (Or.inl (by omega))]
      obtain ⟨s3, e3, hb3⟩ := loop_refines (chunk.length + s1.partialLen + 1)
        (c := ⟨p, chunk.length + s1.partialLen, none⟩) hi0
        (hn.of_same (SameCb.trans c1 ⟨rfl, rfl⟩)) (by simp only []; omega) (by simp) hrep
      rw [e3] at e
      simp only [Option.map_some, Option.some.injEq, Prod.mk.injEq] at e
      obtain ⟨_, rfl⟩ := e
      simp only [Rx.read] at hb3 ⊢
      rw [htxt, hlf] at hb3
      exact hb3
  · rw [if_neg hem] at e
    have hr0 : room cfg s = 0 := by rw [room_eq er]; omega
    have hch : chunk = [] := List.length_eq_zero_iff.mp (by omega)
    subst hch
    simp only [linesFrom, Rx.read, Rx.feed]
    simp only [Option.some.injEq, Prod.mk.injEq] at e
    obtain ⟨_, rfl⟩ := e
    have hcur : cur = [] := Classical.byContradiction fun hx => hov ⟨hr0, Or.inl hx⟩
    have hlin : a.lines = [] := Classical.byContradiction fun hx => hov ⟨hr0, Or.inr hx⟩
    subst hcur
    refine ⟨⟨hb1.rep.cmd, hb1.rep.pfx, hb1.rep.events, ?_, hb1.rep.idle⟩, by simp [txt], hb1.noEol⟩
    have := hb1.rep.items
    rw [hlin] at this ⊢
    exact itemsAt_nil this

end Cellular.Props
