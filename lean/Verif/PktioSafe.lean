import Verif.PktioProps
/-!
# Memory safety of the receive path (C11)
-/

namespace Cellular.Props
open Cellular Cellular.Spec Cellular.Pktio

/-! ## Bytes -/

theorem slice_some {m : Mem} {p n : Nat} (h : p + n ≤ m.length) :
    slice m p n = some ((m.drop p).take n) := by simp [slice, h]

theorem slice_len {m : Mem} {p n : Nat} {t : Str} (h : slice m p n = some t) :
    t.length = n ∧ p + n ≤ m.length := by
  unfold slice at h
  split at h <;> cases h
  refine ⟨?_, by assumption⟩
  simp; omega

theorem put_some {m : Mem} {p : Nat} {t : Str} (h : p + t.length ≤ m.length) :
    ∃ m', put m p t = some m' ∧ m'.length = m.length ∧
      (∀ i, i < p ∨ p + t.length ≤ i → m'[i]? = m[i]?) := by
  refine ⟨_, if_pos h, by simp; omega, ?_⟩
  intro i hi
  rcases hi with hi | hi
  · rw [List.append_assoc, List.getElem?_append_left (by simp; omega)]
    rw [List.getElem?_take_of_lt hi]
  · rw [List.getElem?_append_right (by simp; omega)]
    simp only [List.length_append, List.length_take, List.getElem?_drop]
    congr 1
    omega

theorem wr_some {m : Mem} {i : Nat} {b : Byte} (h : i < m.length) :
    wr m i b = some (m.set i b) := by simp [wr, h]

theorem readStr_isSome {m : Mem} {i p : Nat} (h : m[i]? = some 0) (hp : p ≤ i) :
    (readStr m p).isSome := by
  have key : ∀ (l : List Byte) (j : Nat), l[j]? = some 0 → (readStrL l).isSome := by
    intro l
    induction l with
    | nil => intro j h; simp at h
    | cons b t ih =>
      intro j h
      unfold readStrL
      by_cases hb : b = 0
      · simp [hb]
      · cases j with
        | zero => simp at h; exact absurd h hb
        | succ j =>
          have := ih j (by simpa using h)
          simp [hb, this]
  apply key _ (i - p)
  rw [List.getElem?_drop]
  rw [show p + (i - p) = i from by omega]
  exact h

theorem readStr_len {m : Mem} {i p : Nat} {t : Str} (h : m[i]? = some 0) (hp : p ≤ i)
    (hr : readStr m p = some t) : p + t.length ≤ i := by
  have key : ∀ (l : List Byte) (j : Nat) (t : Str), l[j]? = some 0 → readStrL l = some t →
      t.length ≤ j := by
    intro l
    induction l with
    | nil => intro j t h; simp at h
    | cons b l ih =>
      intro j t h hr
      unfold readStrL at hr
      by_cases hb : b = 0
      · simp [hb] at hr; subst hr; simp
      · cases j with
        | zero => simp at h; exact absurd h hb
        | succ j =>
          simp only [hb, if_false, Option.map_eq_some_iff] at hr
          obtain ⟨t', ht', rfl⟩ := hr
          have := ih j t' (by simpa using h) ht'
          simp; omega
  have := key (m.drop p) (i - p) t (by
    rw [List.getElem?_drop, show p + (i - p) = i from by omega]; exact h) hr
  omega

theorem skipEol_some (m : Mem) : ∀ (n p : Nat), p + n ≤ m.length →
    ∃ p' n', skipEol m p n = some (p', n') ∧ p' + n' = p + n ∧ n' ≤ n := by
  intro n
  induction n with
  | zero => intro p _; exact ⟨p, 0, rfl, rfl, Nat.le_refl _⟩
  | succ n ih =>
    intro p h
    have hlt : p < m.length := by omega
    obtain ⟨b, hb⟩ : ∃ b, rd m p = some b := ⟨m[p], by simp [rd, hlt]⟩
    unfold skipEol
    rw [hb]
    simp only []
    split
    · obtain ⟨p', n', e, h1, h2⟩ := ih (p + 1) (by omega)
      exact ⟨p', n', e, by omega, by omega⟩
    · exact ⟨p, n + 1, rfl, rfl, Nat.le_refl _⟩

/-! ## The invariant -/

/-- What the port's callbacks may do: overwrite at most the text they were given, and report a text
that is not longer.  The callback that recognises data announces none (see `C16` for those that do, and
the witness below). -/
structure CallbacksInText (cfg : Cfg) (s : St) : Prop where
  urc : ∀ l, (cfg.urcEdit l).length ≤ l.length
  input : ∀ f, cfg.inputCb = some f → ∀ t, (f t).2.1.length ≤ t.length
  send : ∀ f, s.sendCb = some f → ∀ t, (f t).2.1.length ≤ t.length ∧ (f t).2.2 ≤ t.length
  data : ∀ f, s.dataCb = some f → ∀ t, (f t).2.1.length ≤ t.length ∧ (f t).2.2 = none

/-- A saved item lies inside the buffer. -/
def ItemIn (cfg : Cfg) : Item → Prop
  | .line off => off ≤ cfg.size
  | .data off len => off + len ≤ cfg.size

/-- Invariant of the receive side while text is being processed: the buffer has its size and ends in
NUL, the saved items lie inside it. -/
structure RxInvD (cfg : Cfg) (d : Nat) (s : St) : Prop where
  len : s.buf.length = cfg.size + 1
  last : s.buf[cfg.size]? = some 0
  items : ∀ r, s.resp = some r → ∀ it ∈ r.items, ItemIn cfg it
  data : s.dataLen = d

/-- ... with no data announced. -/
abbrev RxInv0 (cfg : Cfg) (s : St) : Prop := RxInvD cfg 0 s

/-- The unprocessed text ends at or before position `E`. -/
def PosIn (E : Nat) (s : St) : Prop := s.readPtr.getD 0 + s.partialLen ≤ E

/-- Invariant of the receive side between reads. -/
def RxInv (cfg : Cfg) (s : St) : Prop := RxInv0 cfg s ∧ PosIn cfg.size s

/-- The two states have the same callbacks. -/
def SameCb (s s' : St) : Prop := s'.sendCb = s.sendCb ∧ s'.dataCb = s.dataCb

theorem SameCb.refl (s : St) : SameCb s s := ⟨rfl, rfl⟩

theorem SameCb.trans {a b c : St} (h : SameCb a b) (h' : SameCb b c) : SameCb a c :=
  ⟨h'.1.trans h.1, h'.2.trans h.2⟩

theorem CallbacksInText.of_same {cfg : Cfg} {s s' : St} (h : CallbacksInText cfg s)
    (hs : SameCb s s') : CallbacksInText cfg s' :=
  ⟨h.urc, h.input, fun f hf => h.send f (hs.1 ▸ hf), fun f hf => h.data f (hs.2 ▸ hf)⟩

theorem RxInvD.withBuf {cfg : Cfg} {d : Nat} {s : St} (h : RxInvD cfg d s) {m : Mem} (h1 : m.length = s.buf.length)
    (h2 : m[cfg.size]? = some 0) : RxInvD cfg d { s with buf := m } :=
  ⟨h1.trans h.len, h2, h.items, h.data⟩

theorem RxInvD.put {cfg : Cfg} {d : Nat} {s : St} (h : RxInvD cfg d s) {p : Nat} {t : Str}
    (hp : p + t.length ≤ cfg.size) : ∃ m, put s.buf p t = some m ∧ RxInvD cfg d { s with buf := m } := by
  have hl := h.len
  obtain ⟨m, e, h1, h2⟩ := put_some (m := s.buf) (p := p) (t := t) (by omega)
  exact ⟨m, e, h.withBuf h1 (by rw [h2 _ (Or.inr hp)]; exact h.last)⟩

theorem RxInvD.wr0 {cfg : Cfg} {d : Nat} {s : St} (h : RxInvD cfg d s) {i : Nat} (hi : i ≤ cfg.size) :
    ∃ m, wr s.buf i 0 = some m ∧ RxInvD cfg d { s with buf := m } := by
  have hl := h.len
  refine ⟨_, wr_some (by omega), h.withBuf (by simp) ?_⟩
  by_cases he : i = cfg.size
  · subst he; rw [List.getElem?_set_self (by omega)]
  · rw [List.getElem?_set_ne he]; exact h.last

theorem RxInvD.clean {cfg : Cfg} {d : Nat} {s : St} (h : RxInvD cfg d s) : RxInvD cfg d (cleanBuf cfg s) := by
  refine ⟨by simp [cleanBuf], ?_, h.items, h.data⟩
  simp [cleanBuf]

theorem posIn_clean (E : Nat) (cfg : Cfg) (s : St) : PosIn E (cleanBuf cfg s) := by
  simp [PosIn, cleanBuf]

theorem callbackResult_inv {cfg : Cfg} {d : Nat} {s : St} (h : RxInvD cfg d s) (st : PktStatus) {p n : Nat}
    {E : Nat} (hE : E ≤ cfg.size) (hp : p + n ≤ E) :
    RxInvD cfg d (handleCallbackResult cfg s st p n).2 ∧ SameCb s (handleCallbackResult cfg s st p n).2 ∧
      ((handleCallbackResult cfg s st p n).1 = false → PosIn E (handleCallbackResult cfg s st p n).2) := by
  unfold handleCallbackResult
  split
  · exact ⟨h, .refl _, by simp⟩
  · exact ⟨⟨h.len, h.last, h.items, h.data⟩, .refl _, fun _ => hp⟩
  · exact ⟨h, .refl _, by simp⟩
  · exact ⟨h.clean, .refl _, fun _ => posIn_clean _ _ _⟩

theorem preprocessInput_inv {cfg : Cfg} {d : Nat} {s : St} (h : RxInvD cfg d s)
    (hc : ∀ f, cfg.inputCb = some f → ∀ t, (f t).2.1.length ≤ t.length)
    {p n : Nat} {E : Nat} (hE : E ≤ cfg.size) (hp : p + n ≤ E) :
    ∃ b s' p' n', preprocessInput cfg s p n = some (b, s', p', n') ∧ RxInvD cfg d s' ∧ SameCb s s' ∧
      p' + n' ≤ E ∧ n' ≤ n ∧ (b = false → PosIn E s') := by
  unfold preprocessInput
  cases hi : cfg.inputCb with
  | none => exact ⟨true, s, p, n, rfl, h, .refl _, hp, Nat.le_refl _, by simp⟩
  | some f =>
    simp only []
    rw [slice_some (by have := h.len; omega)]
    simp only []
    have ht : ((s.buf.drop p).take n).length = n := by
      have := h.len
      simp; omega
    have hlen := hc f hi ((s.buf.drop p).take n)
    rw [ht] at hlen
    obtain ⟨m, em, hm⟩ := h.put (p := p) (t := (f ((s.buf.drop p).take n)).2.1) (by omega)
    generalize hft : f ((s.buf.drop p).take n) = r at *
    obtain ⟨st, text', len⟩ := r
    simp only [] at em ⊢
    rw [em]
    simp only []
    have hcb := callbackResult_inv hm st hE hp
    have other : ∃ b s' p' n', some ((handleCallbackResult cfg { s with buf := m } st p n).1,
        (handleCallbackResult cfg { s with buf := m } st p n).2, p, n) = some (b, s', p', n') ∧
        RxInvD cfg d s' ∧ SameCb s s' ∧ p' + n' ≤ E ∧ n' ≤ n ∧ (b = false → PosIn E s') :=
      ⟨_, _, _, _, rfl, hcb.1, hcb.2.1, hp, Nat.le_refl _, hcb.2.2⟩
    cases st with
    | ok =>
      simp only []
      split
      · exact ⟨_, _, _, _, rfl, hm.clean, .refl _, hp, Nat.le_refl _, fun _ => posIn_clean _ _ _⟩
      · exact ⟨_, _, _, _, rfl, ⟨hm.len, hm.last, hm.items, hm.data⟩, .refl _, by omega, by omega, by simp⟩
    | _ => exact other

theorem preprocessLine_inv {cfg : Cfg} {d : Nat} {s : St} (h : RxInvD cfg d s) (hc : CallbacksInText cfg s)
    {p n : Nat} {E : Nat} (hE : E ≤ cfg.size) (hp : p + n ≤ E) (sd : Option Nat) :
    ∃ b s' n', preprocessLine cfg s p n sd = some (b, s', n', sd) ∧ RxInvD cfg d s' ∧ SameCb s s' ∧
      n' ≤ n ∧ (b = false → PosIn E s') := by
  unfold preprocessLine
  by_cases hn : n = 0
  · refine ⟨false, _, n, if_pos hn, ⟨h.len, h.last, h.items, h.data⟩, .refl _, Nat.le_refl _,
      fun _ => ?_⟩
    simp [PosIn]; omega
  · rw [if_neg hn]
    have ht : ((s.buf.drop p).take n).length = n := by
      have := h.len
      simp; omega
    have hsl : slice s.buf p n = some ((s.buf.drop p).take n) :=
      slice_some (by have := h.len; omega)
    cases hs : s.sendCb with
    | some f =>
      simp only []
      rw [hsl]
      simp only []
      have hlen := hc.send f hs ((s.buf.drop p).take n)
      rw [ht] at hlen
      obtain ⟨m, em, hm⟩ := h.put (p := p) (t := (f ((s.buf.drop p).take n)).2.1) (by omega)
      generalize f ((s.buf.drop p).take n) = r at *
      obtain ⟨st, text', n'⟩ := r
      simp only [] at em hlen ⊢
      rw [em]
      have hcb := callbackResult_inv hm st hE (p := p) (n := n') (by omega)
      rw [← hs]
      exact ⟨_, _, _, rfl, hcb.1, hcb.2.1, hlen.2, hcb.2.2⟩
    | none =>
      cases hd : s.dataCb with
      | none => exact ⟨true, s, n, rfl, h, .refl _, Nat.le_refl _, by simp⟩
      | some f =>
        simp only []
        rw [hsl]
        simp only []
        have hlen := hc.data f hd ((s.buf.drop p).take n)
        rw [ht] at hlen
        obtain ⟨m, em, hm⟩ := h.put (p := p) (t := (f ((s.buf.drop p).take n)).2.1) (by omega)
        generalize f ((s.buf.drop p).take n) = r at *
        obtain ⟨st, text', out⟩ := r
        simp only [] at em hlen ⊢
        obtain ⟨hlen, rfl⟩ := hlen
        rw [em]
        have hcb := callbackResult_inv hm st hE hp
        rw [← hs, ← hd]
        exact ⟨_, _, _, rfl, hcb.1, hcb.2.1, Nat.le_refl _, hcb.2.2⟩

theorem findIdx_lt {t : Str} {i : Nat} (h : t.findIdx? isEol = some i) : i < t.length := by
  rw [List.findIdx?_eq_some_iff_findIdx_eq] at h
  exact h.1

theorem findLine_inv {cfg : Cfg} {d : Nat} {s : St} (h : RxInvD cfg d s) {p n : Nat} {E : Nat} (hE : E ≤ cfg.size) (hp : p + n ≤ E) :
    ∃ s' l, findLine s p n = some (s', l) ∧ RxInvD cfg d s' ∧ SameCb s s' ∧
      (l = none → PosIn E s') ∧
      (∀ i, l = some i → i < n ∧ s'.buf[p + i]? = some 0) := by
  unfold findLine
  rw [slice_some (by have := h.len; omega)]
  simp only []
  have ht : ((s.buf.drop p).take n).length = n := by
    have := h.len
    simp; omega
  cases hf : ((s.buf.drop p).take n).findIdx? isEol with
  | none =>
    exact ⟨_, _, rfl, ⟨h.len, h.last, h.items, h.data⟩, .refl _, fun _ => hp, by simp⟩
  | some i =>
    have hi := findIdx_lt hf
    rw [ht] at hi
    obtain ⟨m, em, hm⟩ := h.wr0 (i := p + i) (by omega)
    simp only []
    rw [em]
    refine ⟨_, _, rfl, hm, .refl _, by simp, ?_⟩
    rintro j hj
    cases hj
    refine ⟨hi, ?_⟩
    rw [wr_some (by have := h.len; omega)] at em
    cases em
    exact List.getElem?_set_self (by have := h.len; omega)

theorem processIntermediate_items {it : Item} {r : Resp} {t : CmdType} :
    ∀ x ∈ (processIntermediate it r t).2.items, x ∈ r.items ∨ x = it := by
  intro x
  cases t <;> simp only [processIntermediate] <;> (try split) <;>
    intro h <;> first
      | exact Or.inl h
      | simpa using h

theorem processLine_items {cfg : Cfg} {line : Str} {it : Item} {r : Resp} {t : CmdType} :
    ∀ x ∈ (processLine cfg line it r t).2.items, x ∈ r.items ∨ x = it := by
  intro x
  unfold processLine
  split
  · split
    · intro h; exact Or.inl h
    · split
      · intro h; exact Or.inl h
      · exact processIntermediate_items x
  · intro h; exact Or.inl h

theorem handleUndefined_inv (E : Nat) {cfg : Cfg} {d : Nat} {s : St} (h : RxInvD cfg d s) (line : Str) :
    RxInvD cfg d (handleUndefined cfg s line).2 ∧ SameCb s (handleUndefined cfg s line).2 ∧
      ((handleUndefined cfg s line).1 = .ok ∨
        (handleUndefined cfg s line).1 = .invalidData ∧ PosIn E (handleUndefined cfg s line).2) := by
  unfold handleUndefined
  simp only []
  cases hu : cfg.undefCb line with
  | ok => exact ⟨⟨h.len, h.last, h.items, h.data⟩, .refl _, Or.inl rfl⟩
  | _ =>
    refine ⟨⟨by simp [cleanBuf], by simp [cleanBuf], by simp, h.data⟩, .refl _, Or.inr ⟨rfl, ?_⟩⟩
    simp [PosIn, cleanBuf]

theorem mapM_isSome {α β : Type} {f : α → Option β} {l : List α} (h : ∀ x ∈ l, (f x).isSome) :
    ∃ r, l.mapM f = some r := by
  induction l with
  | nil => exact ⟨[], rfl⟩
  | cons x t ih =>
    obtain ⟨r, hr⟩ := ih (fun y hy => h y (by simp [hy]))
    obtain ⟨v, hv⟩ := Option.isSome_iff_exists.mp (h x (by simp))
    exact ⟨v :: r, by simp [List.mapM_cons, hv, hr]⟩

theorem itemContents_isSome {cfg : Cfg} {d : Nat} {s : St} (h : RxInvD cfg d s) {it : Item} (hi : ItemIn cfg it) :
    (itemContents s.buf it).isSome := by
  cases it with
  | line off => exact readStr_isSome h.last hi
  | data off len =>
    simp only [itemContents]
    rw [slice_some (by have := h.len; simp [ItemIn] at hi; omega)]
    rfl

/-- Outcome of handling one line that keeps the invariant. -/
def MsgOk (E : Nat) (cfg : Cfg) (d : Nat) (s : St) (r : Option (PktStatus × MsgType × St)) : Prop :=
  ∃ st t s', r = some (st, t, s') ∧ RxInvD cfg d s' ∧ SameCb s s' ∧
    (st = .ok ∨ st = .pendingData ∨ st = .pendingBuffer ∨ PosIn E s')

theorem handleMsgType_inv {cfg : Cfg} {d : Nat} {s : St} (h : RxInvD cfg d s)
    (hc : ∀ l, (cfg.urcEdit l).length ≤ l.length)
    {p : Nat} {line : Str} {E : Nat} (hE : E ≤ cfg.size) (hp : p + line.length ≤ E) :
    MsgOk E cfg d s (handleMsgType cfg s p line) := by
  unfold handleMsgType
  cases hm : getMsgType cfg s.cmd s.pfx line with
  | unsolicited =>
    have hl := hc line
    obtain ⟨m, em, hm'⟩ := h.put (p := p) (t := cfg.urcEdit line) (by omega)
    simp only []
    rw [em]
    exact ⟨_, _, _, rfl, ⟨hm'.len, hm'.last, hm'.items, hm'.data⟩, .refl _, Or.inl rfl⟩
  | undefined =>
    have hu := handleUndefined_inv E h line
    refine ⟨_, _, _, rfl, hu.1, hu.2.1, ?_⟩
    rcases hu.2.2 with h1 | h1
    · exact Or.inl h1
    · exact Or.inr (Or.inr (Or.inr h1.2))
  | solicited =>
    simp only []
    have hit : ∀ x ∈ (s.resp.getD ⟨false, []⟩).items, ItemIn cfg x := by
      intro x hx
      cases hr : s.resp with
      | none => simp [hr] at hx
      | some r => simp [hr] at hx; exact h.items r hr x hx
    have hpl : ∀ x ∈ (processLine cfg line (.line p) (s.resp.getD ⟨false, []⟩) s.cmd).2.items,
        ItemIn cfg x := by
      intro x hx
      rcases processLine_items x hx with h1 | h1
      · exact hit x h1
      · subst h1; simp [ItemIn]; omega
    generalize processLine cfg line (.line p) (s.resp.getD ⟨false, []⟩) s.cmd = q at *
    obtain ⟨st, r⟩ := q
    have other : MsgOk E cfg d s (some ((handleUndefined cfg { s with resp := some r } line).1, MsgType.undefined,
        (handleUndefined cfg { s with resp := some r } line).2)) := by
      have h' : RxInvD cfg d { s with resp := some r } :=
        ⟨h.len, h.last, by rintro _ ⟨⟩; exact hpl, h.data⟩
      have hu := handleUndefined_inv E h' line
      refine ⟨_, _, _, rfl, hu.1, hu.2.1, ?_⟩
      rcases hu.2.2 with h1 | h1
      · exact Or.inl h1
      · exact Or.inr (Or.inr (Or.inr h1.2))
    cases st with
    | ok =>
      simp only []
      obtain ⟨c, hcc⟩ := mapM_isSome (f := itemContents s.buf) (l := r.items)
        (fun x hx => itemContents_isSome h (hpl x hx))
      rw [hcc]
      exact ⟨_, _, _, rfl, ⟨h.len, h.last, by simp, h.data⟩, .refl _, Or.inl rfl⟩
    | pendingBuffer =>
      exact ⟨_, _, _, rfl, ⟨h.len, h.last, by rintro _ ⟨⟩; exact hpl, h.data⟩, .refl _,
        Or.inr (Or.inr (Or.inl rfl))⟩
    | pendingData =>
      exact ⟨_, _, _, rfl, ⟨h.len, h.last, by rintro _ ⟨⟩; exact hpl, h.data⟩, .refl _,
        Or.inr (Or.inl rfl)⟩
    | _ => exact other

theorem getNextLine_inv {cfg : Cfg} {d : Nat} {s : St} (h : RxInvD cfg d s) {p n len : Nat}
    {E : Nat} (hE : E ≤ cfg.size) (hp : p + n ≤ E) (hlen : len < n) (st : PktStatus) (t : MsgType) :
    ∃ p' n' s', getNextLine s p n len st t = some (p', n', s') ∧ RxInvD cfg d s' ∧ SameCb s s' ∧
      p' + n' ≤ E ∧ n' < n := by
  unfold getNextLine
  simp only []
  split
  · have hs : slice s.buf (p + (len + 1)) (n - (len + 1)) = _ :=
      slice_some (by have := h.len; omega)
    rw [hs]
    simp only []
    have hl := (slice_len hs).1
    obtain ⟨m, em, hm⟩ := h.put (p := 0)
      (t := (List.drop (p + (len + 1)) s.buf).take (n - (len + 1))) (by omega)
    rw [em]
    exact ⟨_, _, _, rfl, ⟨hm.len, hm.last, hm.items, hm.data⟩, .refl _, by omega, by omega⟩
  · exact ⟨_, _, _, rfl, ⟨h.len, h.last, h.items, h.data⟩, .refl _, by omega, by omega⟩

/-- Outcome of one iteration that keeps the invariant and makes progress. -/
def IterOk (E : Nat) (cfg : Cfg) (s : St) (n : Nat) (r : Option (Option Cur × St)) : Prop :=
  ∃ c s', r = some (c, s') ∧ RxInv0 cfg s' ∧ SameCb s s' ∧
    (c = none → PosIn E s') ∧ ∀ c', c = some c' → c'.p + c'.n ≤ E ∧ c'.n < n

theorem handleLine_inv {cfg : Cfg} {s : St} (h : RxInv0 cfg s)
    (hc : ∀ l, (cfg.urcEdit l).length ≤ l.length)
    {c : Cur} {len : Nat} {E : Nat} (hE : E ≤ cfg.size) (hp : c.p + c.n ≤ E) (hlen : len < c.n)
    (hnul : s.buf[c.p + len]? = some 0) : IterOk E cfg s c.n (handleLine cfg s c len) := by
  unfold handleLine
  obtain ⟨line, hline⟩ := Option.isSome_iff_exists.mp (readStr_isSome hnul (Nat.le_add_right c.p len))
  have hll := readStr_len hnul (Nat.le_add_right c.p len) hline
  rw [hline]
  simp only []
  obtain ⟨st, t, s', e, h1, h2, h3⟩ := handleMsgType_inv h hc hE (p := c.p) (line := line) (by omega)
  rw [e]
  simp only []
  have next : ∀ st', IterOk E cfg s c.n ((getNextLine s' c.p c.n len st' t).map
      (fun r => (some { c with p := r.1, n := r.2.1 }, r.2.2))) := by
    intro st'
    obtain ⟨p', n', s'', e', g1, g2, g3, g4⟩ := getNextLine_inv h1 hE hp hlen st' t
    rw [e']
    refine ⟨_, _, rfl, g1, h2.trans g2, by simp, ?_⟩
    rintro c' hc'
    cases hc'
    exact ⟨g3, g4⟩
  have stop : PosIn E s' → IterOk E cfg s c.n (some (none, s')) := by
    intro hpos
    exact ⟨_, _, rfl, h1, h2, fun _ => hpos, by simp⟩
  cases st with
  | ok => exact next _
  | pendingData => exact next _
  | pendingBuffer =>
    simp only []
    rw [if_neg (by simp [h1.data])]
    exact next _
  | _ => exact stop (by simpa using h3)

theorem iter_inv {cfg : Cfg} {s : St} (h : RxInv0 cfg s) (hc : CallbacksInText cfg s) {c : Cur}
    {E : Nat} (hE : E ≤ cfg.size) (hp : c.p + c.n ≤ E) : IterOk E cfg s c.n (iter cfg s c) := by
  unfold iter
  obtain ⟨p1, n1, e1, a1, a2⟩ := skipEol_some s.buf c.n c.p (by have := h.len; omega)
  rw [e1]
  simp only []
  obtain ⟨b2, s2, p2, n2, e2, i2, c2, q2, l2, x2⟩ := preprocessInput_inv h hc.input hE (p := p1) (n := n1) (by omega)
  rw [e2]
  cases b2 with
  | false => exact ⟨_, _, rfl, i2, c2, fun _ => x2 rfl, by simp⟩
  | true =>
    simp only []
    obtain ⟨b3, s3, n3, e3, i3, c3, l3, x3⟩ := preprocessLine_inv i2 (hc.of_same c2) hE q2 c.sd
    rw [e3]
    cases b3 with
    | false => exact ⟨_, _, rfl, i3, c2.trans c3, fun _ => x3 rfl, by simp⟩
    | true =>
      simp only []
      obtain ⟨s4, l, e4, i4, c4, x4, y4⟩ := findLine_inv i3 hE (p := p2) (n := n3) (by omega)
      rw [e4]
      cases l with
      | none => exact ⟨_, _, rfl, i4, (c2.trans c3).trans c4, fun _ => x4 rfl, by simp⟩
      | some len =>
        simp only []
        obtain ⟨hl, hnul⟩ := y4 len rfl
        have hc4 := hc.of_same ((c2.trans c3).trans c4)
        obtain ⟨c', s5, e5, i5, c5, x5, y5⟩ :=
          handleLine_inv i4 hc4.urc hE (c := ⟨p2, n3, c.sd⟩) (len := len) (by simp only []; omega) hl hnul
        refine ⟨c', s5, e5, i5, ((c2.trans c3).trans c4).trans c5, x5, fun c'' hc'' => ?_⟩
        have := y5 c'' hc''
        simp only [] at this
        omega

theorem loop_inv {cfg : Cfg} {E : Nat} : ∀ (k : Nat) {s : St} {c : Cur}, RxInv0 cfg s → CallbacksInText cfg s →
    E ≤ cfg.size → c.p + c.n ≤ E → c.n < k →
    ∃ s', loop cfg k s c = some s' ∧ RxInv0 cfg s' ∧ PosIn E s' ∧ SameCb s s' := by
  intro k
  induction k with
  | zero => intro s c _ _ _ _ h; omega
  | succ k ih =>
    intro s c h hc hE hp hk
    obtain ⟨c', s', e, i, sc, x, y⟩ := iter_inv h hc hE hp
    unfold loop
    rw [e]
    cases c' with
    | none => exact ⟨s', rfl, i, x rfl, sc⟩
    | some c' =>
      have hy := y c' rfl
      obtain ⟨s'', e', i', q', sc'⟩ := ih i (hc.of_same sc) hE hy.1 (by omega)
      exact ⟨s'', e', i', q', sc.trans sc'⟩

/-- Where the next read goes: it stays in the buffer. -/
theorem readPos_inv {cfg : Cfg} {d : Nat} {s : St} (h : RxInvD cfg d s ∧ PosIn cfg.size s) :
    ∃ s' p pr e, readPos cfg s = some (s', p, pr, e) ∧ (RxInvD cfg d s' ∧ PosIn cfg.size s') ∧ SameCb s s' ∧
      s'.partialLen = s.partialLen ∧ pr = p + s.partialLen ∧ (pr : Int) + e = cfg.size ∧
      p ≤ s.readPtr.getD 0 ∧ s'.readPtr.getD 0 ≤ p := by
  obtain ⟨h, hpos⟩ := h
  unfold readPos
  unfold PosIn at hpos
  cases hr : s.readPtr with
  | none => exact ⟨_, _, _, _, rfl, ⟨h, hpos⟩, .refl _, rfl, by simp, by omega, by simp, by simp [hr]⟩
  | some q =>
    simp only [hr, Option.getD_some] at hpos
    simp only []
    split
    · have hs : slice s.buf q s.partialLen = _ := slice_some (by have := h.len; omega)
      rw [hs]
      simp only []
      have hl := (slice_len hs).1
      obtain ⟨m, em, hm⟩ := h.put (p := 0) (t := (List.drop q s.buf).take s.partialLen) (by omega)
      rw [em]
      simp only []
      obtain ⟨m', em', hm'⟩ := hm.wr0 (i := s.partialLen) (by omega)
      simp only [] at em'
      rw [em']
      refine ⟨_, _, _, _, rfl, ⟨⟨hm'.len, hm'.last, hm'.items, hm'.data⟩, ?_⟩, .refl _, rfl, by simp, ?_,
        by simp, by simp⟩
      · simp [PosIn]; omega
      · omega
    · refine ⟨_, _, _, _, rfl, ⟨h, ?_⟩, .refl _, rfl, by simp, by omega, by simp, by simp [hr]⟩
      simpa [PosIn, hr] using hpos

theorem room_eq {cfg : Cfg} {s s' : St} {p pr : Nat} {e : Int} (h : readPos cfg s = some (s', p, pr, e)) :
    room cfg s = e.toNat := by simp [room, h]

/-- One receive event is free of undefined behaviour and keeps the invariant; the text does not move
towards the end of the buffer by more than the bytes read. -/
theorem rxEvent_inv {cfg : Cfg} {s : St} (h : RxInv cfg s) (hc : CallbacksInText cfg s) {chunk : Str}
    (hroom : chunk.length ≤ room cfg s) :
    ∃ k s', rxEvent cfg s chunk = some (k, s') ∧ RxInv cfg s' ∧ SameCb s s' ∧
      PosIn (s.readPtr.getD 0 + s.partialLen + chunk.length) s' ∧ (k = 0 ↔ chunk = []) := by
  obtain ⟨s1, p, pr, e, er, h1, c1, hpl, hpr, hpe, hpp, hpq⟩ := readPos_inv h
  rw [room_eq er] at hroom
  unfold rxEvent
  rw [er]
  simp only []
  split
  · split
    · rename_i hch
      refine ⟨_, _, rfl, h1, c1, ?_, by simp [hch]⟩
      simp only [PosIn]; omega
    · have hl := h1.1.len
      have hpos : pr + chunk.length ≤ cfg.size := by omega
      obtain ⟨m, em, hm1, hm2⟩ := put_some (m := s1.buf) (p := pr) (t := chunk ++ [0])
        (by simp; omega)
      rw [em]
      simp only []
      rw [if_neg (by simp [h1.1.data])]
      simp only []
      have hlast : m[cfg.size]? = some 0 := by
        by_cases hb : pr + chunk.length = cfg.size
        · have em' := em
          unfold Pktio.put at em'
          rw [if_pos (by simp; omega)] at em'
          cases em'
          rw [List.append_assoc, List.getElem?_append_right (by simp; omega)]
          rw [List.append_assoc, List.getElem?_append_right (by simp; omega)]
          simp only [List.length_take, List.singleton_append]
          rw [show cfg.size - min pr s1.buf.length - chunk.length = 0 from by omega]
          rfl
        · rw [hm2 _ (Or.inr (by simp; omega))]; exact h1.1.last
      have hi : RxInv0 cfg { s1 with buf := m, partialLen := 0 } :=
        ⟨hm1.trans h1.1.len, hlast, h1.1.items, h1.1.data⟩
      have hlpos : p + (chunk.length + s1.partialLen) ≤ cfg.size := by omega
      rename_i hne
      have hlen0 : 0 < chunk.length := List.length_pos_iff.mpr hne
      rw [if_pos (by omega)]
      obtain ⟨m', em', hm'⟩ := hi.wr0 (i := p + (chunk.length + s1.partialLen)) hlpos
      simp only [] at em' hm'
      rw [em']
      simp only [handleAllReceived]
      obtain ⟨s', e', i', q', sc'⟩ := loop_inv (cfg := cfg) (chunk.length + s1.partialLen + 1)
        (c := ⟨p, chunk.length + s1.partialLen, none⟩) hm' (hc.of_same (SameCb.trans c1 (.refl _))) hlpos
        (Nat.le_refl _) (by simp)
      rw [e']
      refine ⟨_, _, rfl, ⟨i', ?_⟩, SameCb.trans (SameCb.trans c1 (.refl _)) sc', ?_, ?_⟩
      · simp only [PosIn] at q' ⊢; omega
      · simp only [PosIn] at q' ⊢; omega
      · simp only [hne, iff_false]; omega
  · refine ⟨_, _, rfl, ⟨⟨h1.1.len, h1.1.last, h1.1.items, h1.1.data⟩, ?_⟩, c1, ?_, ?_⟩
    · simp [PosIn]
    · simp [PosIn]
    · simp only [true_iff]; exact List.length_eq_zero_iff.mp (by omega)

/-! ## C11 -/

/-- The receive task handles a notification - the transport delivers `bytes`, cut off at what it was asked
for - or another task starts or abandons a command and installs or removes prefix callbacks. -/
inductive RxAct
  | recv (bytes : Str)
  | control (cmd : CmdType) (pfx : Option Str) (sendCb : Option (Str → PktStatus × Str × Nat))
      (dataCb : Option (Str → PktStatus × Str × Option (Nat × Nat)))

/-- One step of a history; `none` = undefined behaviour. -/
def rxAct (cfg : Cfg) (s : St) : RxAct → Option St
  | .recv bytes => (rxEvent cfg s (bytes.take (room cfg s))).map (·.2)
  | .control cmd pfx sendCb dataCb => some { s with cmd := cmd, pfx := pfx, sendCb := sendCb, dataCb := dataCb }

/-- A history from the state after initialisation. -/
def rxRun (cfg : Cfg) : St → List RxAct → Option St
  | s, [] => some s
  | s, a :: t => match rxAct cfg s a with
    | none => none
    | some s => rxRun cfg s t

/-- The callbacks installed by a step stay inside the text they are given. -/
def ActOk (cfg : Cfg) : RxAct → Prop
  | .recv _ => True
  | .control _ _ sendCb dataCb =>
    CallbacksInText cfg { init cfg.size with sendCb := sendCb, dataCb := dataCb }

theorem rxInv_init (cfg : Cfg) : RxInv cfg (init cfg.size) := by
  refine ⟨⟨by simp [init], by simp [init], by simp [init], rfl⟩, by simp [PosIn, init]⟩

theorem rxRun_inv {cfg : Cfg} : ∀ (acts : List RxAct) {s : St}, RxInv cfg s → CallbacksInText cfg s →
    (∀ a ∈ acts, ActOk cfg a) → ∃ s', rxRun cfg s acts = some s' ∧ RxInv cfg s' := by
  intro acts
  induction acts with
  | nil => intro s h _ _; exact ⟨s, rfl, h⟩
  | cons a t ih =>
    intro s h hc ha
    unfold rxRun
    cases a with
    | recv bytes =>
      obtain ⟨k, s', e, i, sc, _⟩ := rxEvent_inv h hc (chunk := bytes.take (room cfg s)) (by simp; omega)
      simp only [rxAct, e, Option.map_some]
      exact ih i (hc.of_same sc) (fun x hx => ha x (by simp [hx]))
    | control cmd pfx sendCb dataCb =>
      simp only [rxAct]
      have hx := ha (.control cmd pfx sendCb dataCb) (by simp)
      exact ih ⟨⟨h.1.len, h.1.last, h.1.items, h.1.data⟩, h.2⟩ ⟨hx.urc, hx.input, hx.send, hx.data⟩
        (fun x hx => ha x (by simp [hx]))

/-- For every buffer size, every token table, every history of bytes from the modem - cut into reads in
any way - and of commands started and abandoned, with any callbacks that stay inside the text they
are given, receiving never accesses memory outside the buffer, dereferences NULL or wraps a length;
the text and the saved lines stay inside the buffer.
Missing: callbacks that announce binary data, for which the claim is false (witness below). -/
theorem C11_memory_safe_partial (cfg : Cfg) (acts : List RxAct)
    (hc : CallbacksInText cfg (init cfg.size)) (ha : ∀ a ∈ acts, ActOk cfg a) :
    ∃ s', rxRun cfg (init cfg.size) acts = some s' ∧
      s'.buf.length = cfg.size + 1 ∧ s'.readPtr.getD 0 + s'.partialLen ≤ cfg.size ∧
      ∀ r, s'.resp = some r → ∀ it ∈ r.items, (itemContents s'.buf it).isSome := by
  obtain ⟨s', e, i⟩ := rxRun_inv acts (rxInv_init cfg) hc ha
  exact ⟨s', e, i.1.len, i.2, fun r hr it hit => itemContents_isSome i.1 (i.1.items r hr it hit)⟩

example : CallbacksInText (demoCfg 30) (init 30) ∧
    ActOk (demoCfg 30) (.control .withPrefix (some (str "+CREG")) none none) ∧
    ((rxRun (demoCfg 30) (init 30) [.recv (str "\r\n+CRE"), .recv (str "G: 1\r\nRI"),
      .control .withPrefix (some (str "+CREG")) none none, .recv (str "NG\r\n+CREG: 2\r"),
      .recv (str "\nOK\r\n")]).map (·.events)) =
      some [.urc (str "+CREG: 1"), .urc (str "RING"), .response true [str "+CREG: 2"]] := by
  refine ⟨⟨fun l => Nat.le_refl _, ?_, ?_, ?_⟩, ⟨fun l => Nat.le_refl _, ?_, ?_, ?_⟩, by decide +kernel⟩ <;>
    (intro f hf; cases hf)

/-- A data prefix callback for headers `+D:` announcing three bytes. -/
def demoData (text : Str) : PktStatus × Str × Option (Nat × Nat) :=
  if (str "+D:").isPrefixOf text then (.ok, text, some (5, 3)) else (.ok, text, none)

/-- A data header that arrives when its command is already complete, but its prefix callback is still
installed (the command's task removes it later): the announced data is then stored through the NULL
response. -/
theorem C11_witness_late_data :
    rxRun (demoCfg 30) (init 30) [.control .multiDataWoPrefix (some (str "+D")) none (some demoData),
      .recv (str "OK\r\n"), .recv (str "+D:3\r"), .recv (str "abc\r\n")] = none := by decide +kernel

/-- Each iteration of the line loop consumes at least one byte (so the loop of the code terminates). -/
theorem C11_loop_progress (cfg : Cfg) (s : St) (c : Cur) (h : RxInv0 cfg s) (hc : CallbacksInText cfg s)
    (hp : c.p + c.n ≤ cfg.size) (c' : Cur) (s' : St) (e : iter cfg s c = some (some c', s')) :
    c'.n < c.n := by
  obtain ⟨d, s'', e', _, _, _, y⟩ := iter_inv h hc (Nat.le_refl _) hp
  rw [e] at e'
  cases e'
  exact (y c' rfl).2

end Cellular.Props
