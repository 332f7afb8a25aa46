import Verif.PktioInputProps
/-!
# The prompt of a data send (C78)

A command that is followed by data may bring a callback (`pktDataSendPrefixCallback`, cellular_common.h:577-606) that
recognises the modem's prompt for the data, typically `> ` without a line end, and makes a line of it.  The
callback is offered the text of the receive buffer like an input buffer callback that consumes nothing; so the receiver
with it is the abstract receiver of C73.
-/

namespace Cellular.Spec
open Cellular Cellular.Pktio

/-- A data send prefix callback: status, the bytes it leaves, and their number. -/
abbrev SendCb := Str → PktStatus × Str × Nat

/-- The same as an input buffer callback: it consumes nothing. -/
def asInput (f : SendCb) : InputCb := fun t =>
  if t = [] then (.prefixMismatch, [], 0)
  else (if (f t).1 = .ok then .prefixMismatch else (f t).1, (f t).2.1, 0)

/-- The callback leaves every text alone except the prompt `P`, of which it makes the line `L`, in
place. -/
structure Prompts (f : SendCb) (P L : Str) : Prop where
  count : ∀ t, (f t).2.2 = t.length
  other : ∀ t, t ≠ P → ((f t).1 = .ok ∨ (f t).1 = .prefixMismatch) ∧ (f t).2.1 = t
  prompt : ((f P).1 = .ok ∨ (f P).1 = .prefixMismatch) ∧ ∃ e, LineEnd e ∧ (f P).2.1 = L ++ [e]
  place : P.length = L.length + 1
  line : L ≠ [] ∧ ∀ b ∈ L, ¬ LineEnd b
  noEnd : ∀ b ∈ P, ¬ LineEnd b

end Cellular.Spec

namespace Cellular.Props
open Cellular Cellular.Spec Cellular.Pktio

/-! ## The callback as an input buffer callback -/

/-- The state with another data send prefix callback. -/
def sc (x : Option SendCb) (s : St) : St := { s with sendCb := x }

theorem handleUndefined_sc (cfg : Cfg) (x : Option SendCb) (s : St) (line : Str) :
    handleUndefined cfg (sc x s) line = ((handleUndefined cfg s line).1, sc x (handleUndefined cfg s line).2) := by
  unfold handleUndefined
  simp only []
  split <;> rfl

theorem handleMsgType_sc (cfg : Cfg) (x : Option SendCb) (s : St) (p : Nat) (line : Str) :
    handleMsgType cfg (sc x s) p line = (handleMsgType cfg s p line).map (fun r => (r.1, r.2.1, sc x r.2.2)) := by
  unfold handleMsgType
  have h1 : (sc x s).cmd = s.cmd := rfl
  have h2 : (sc x s).pfx = s.pfx := rfl
  have h3 : (sc x s).buf = s.buf := rfl
  have h4 : (sc x s).resp = s.resp := rfl
  rw [h1, h2, h3, h4]
  split
  · split <;> rfl
  · simp only []
    split
    · split <;> rfl
    · rfl
    · rfl
    · rename_i r _ _ _ _
      have := handleUndefined_sc cfg x { s with resp := some r } line
      exact congrArg (fun q => some (q.1, MsgType.undefined, q.2)) this
  · simp only [handleUndefined_sc, Option.map_some]

theorem getNextLine_sc (x : Option SendCb) (s : St) (p n len : Nat) (st : PktStatus) (t : MsgType) :
    getNextLine (sc x s) p n len st t = (getNextLine s p n len st t).map (fun r => (r.1, r.2.1, sc x r.2.2)) := by
  unfold getNextLine
  have h3 : (sc x s).buf = s.buf := rfl
  rw [h3]
  simp only []
  split
  · split
    · rfl
    · cases put s.buf 0 _ <;> rfl
  · rfl

theorem handleData_sc (x : Option SendCb) (s : St) (start p n : Nat) :
    handleData (sc x s) start p n = (handleData s start p n).map (fun r => (r.1, r.2.1, sc x r.2.2)) := by
  unfold handleData
  have h3 : (sc x s).resp = s.resp := rfl
  have h4 : (sc x s).dataLen = s.dataLen := rfl
  rw [h3, h4]
  simp only []
  split
  · rfl
  · split
    · split <;> rfl
    · rfl

theorem handleLine_sc (cfg : Cfg) (x : Option SendCb) (s : St) (c : Cur) (len : Nat) :
    handleLine cfg (sc x s) c len = (handleLine cfg s c len).map (fun r => (r.1, sc x r.2)) := by
  unfold handleLine
  have h3 : (sc x s).buf = s.buf := rfl
  rw [h3]
  split
  · rfl
  · rw [handleMsgType_sc]
    cases handleMsgType cfg s c.p _ with
    | none => rfl
    | some r =>
      obtain ⟨st, t, s1⟩ := r
      simp only [Option.map_some]
      have hd : (sc x s1).dataLen = s1.dataLen := rfl
      have next : ∀ st, Option.map (fun r : Nat × Nat × St => (some ({ c with p := r.1, n := r.2.1 } : Cur), r.2.2))
          (getNextLine (sc x s1) c.p c.n len st t) =
          Option.map (fun r : Option Cur × St => (r.1, sc x r.2))
            (Option.map (fun r : Nat × Nat × St => (some ({ c with p := r.1, n := r.2.1 } : Cur), r.2.2))
              (getNextLine s1 c.p c.n len st t)) := by
        intro st
        rw [getNextLine_sc]
        cases getNextLine s1 c.p c.n len st t <;> rfl
      cases st <;> simp only [hd, next]
      case pendingBuffer =>
        split
        · split
          · rfl
          · rw [handleData_sc]
            cases handleData s1 _ c.p c.n <;> rfl
        · rfl
      all_goals rfl

/-- The receiver with the data send prefix callback `f` seen as a port with an input buffer callback. -/
def asPort (cfg : Cfg) (f : SendCb) : Cfg := { cfg with inputCb := some (asInput f) }

theorem iter_prompt {cfg : Cfg} {f : SendCb} {s : St} {c : Cur} (hi : cfg.inputCb = none) (hs : s.sendCb = none)
    (hd : s.dataCb = none) (hf : ∀ t, (f t).2.2 = t.length) (hb : c.p + c.n ≤ s.buf.length) :
    iter cfg (sc (some f) s) c = (iter (asPort cfg f) s c).map (fun r => (r.1, sc (some f) r.2)) := by
  unfold iter
  have h3 : (sc (some f) s).buf = s.buf := rfl
  rw [h3]
  obtain ⟨p, n, e, h1, h2⟩ := skipEol_some s.buf c.n c.p hb
  rw [e]
  simp only []
  have hsl : slice s.buf p n = some ((s.buf.drop p).take n) := by unfold slice; rw [if_pos (by omega)]
  have hlen : ((s.buf.drop p).take n).length = n := by simp; omega
  generalize (s.buf.drop p).take n = t at hsl hlen
  have hfind : ∀ (q : St) (sd : Option Nat),
      (match findLine (sc (some f) q) p n with
        | none => none
        | some (s, none) => some (none, s)
        | some (s, some len) => handleLine cfg s ⟨p, n, sd⟩ len) =
      Option.map (fun r : Option Cur × St => (r.1, sc (some f) r.2))
        (match findLine q p n with
        | none => none
        | some (s, none) => some (none, s)
        | some (s, some len) => handleLine (asPort cfg f) s ⟨p, n, sd⟩ len) := by
    intro q sd
    unfold findLine
    have hq : (sc (some f) q).buf = q.buf := rfl
    rw [hq]
    cases slice q.buf p n with
    | none => rfl
    | some u =>
      simp only []
      cases u.findIdx? isEol with
      | none => rfl
      | some i =>
        simp only []
        cases wr q.buf (p + i) 0 with
        | none => rfl
        | some m =>
          simp only [Option.map_some]
          exact handleLine_sc cfg (some f) { q with buf := m } ⟨p, n, sd⟩ i
  have hpi : preprocessInput cfg (sc (some f) s) p n = some (true, sc (some f) s, p, n) := by
    unfold preprocessInput; rw [hi]
  rw [hpi]
  simp only []
  by_cases hn : n = 0
  · subst hn
    have ht : t = [] := List.length_eq_zero_iff.mp hlen
    subst ht
    have hput : put s.buf p [] = some s.buf := by unfold put; rw [if_pos (by simp; omega)]; simp
    have : preprocessInput (asPort cfg f) s p 0 = some (true, s, p, 0) := by
      unfold preprocessInput asPort
      simp only [hsl, asInput, if_pos, hput, handleCallbackResult]
    rw [this]
    simp [preprocessLine, sc]
  · have htne : t ≠ [] := by rintro rfl; simp at hlen; omega
    have hpl : preprocessLine cfg (sc (some f) s) p n c.sd = (put s.buf p (f t).2.1).map (fun m =>
        ((handleCallbackResult cfg { sc (some f) s with buf := m } (f t).1 p n).1,
          (handleCallbackResult cfg { sc (some f) s with buf := m } (f t).1 p n).2, n, c.sd)) := by
      unfold preprocessLine
      rw [if_neg hn]
      simp only [sc, hsl]
      have := hf t
      rcases hft : f t with ⟨st, t', n'⟩
      rw [hft] at this
      simp only at this
      simp only [this, hlen]
      cases put s.buf p t' <;> rfl
    rw [hpl]
    have hpp : preprocessInput (asPort cfg f) s p n = (put s.buf p (f t).2.1).map (fun m =>
        ((handleCallbackResult cfg { s with buf := m } (f t).1 p n).1,
          (handleCallbackResult cfg { s with buf := m } (f t).1 p n).2, p, n)) := by
      unfold preprocessInput asPort
      simp only [hsl, asInput, if_neg htne]
      rcases hft : f t with ⟨st, t', n'⟩
      simp only
      cases put s.buf p t' with
      | none => rfl
      | some m => cases st <;> rfl
    rw [hpp]
    cases put s.buf p (f t).2.1 with
    | none => rfl
    | some m =>
      simp only [Option.map_some]
      have hl : ∀ q : St, q.sendCb = none → q.dataCb = none →
          preprocessLine (asPort cfg f) q p n c.sd = some (true, q, n, c.sd) := by
        intro q h1 h2
        unfold preprocessLine
        rw [if_neg hn, h1, h2]
      cases hst : (f t).1 <;> simp only [handleCallbackResult, Option.map_some]
      case ok => rw [hl { s with buf := m } hs hd]; exact hfind { s with buf := m } c.sd
      case prefixMismatch => rw [hl { s with buf := m } hs hd]; exact hfind { s with buf := m } c.sd
      all_goals rfl

theorem asPort_inText {cfg : Cfg} {f : SendCb} {s : St} (hu : ∀ l, (cfg.urcEdit l).length ≤ l.length)
    (hf : ∀ t, (f t).2.1.length ≤ t.length) (hs : s.sendCb = none) (hd : s.dataCb = none) :
    InCb (asPort cfg f) (asInput f) s := by
  refine ⟨rfl, ?_, hs, hd, hu⟩
  intro t
  unfold asInput
  split
  · simp
  · exact hf t

theorem loop_prompt {cfg : Cfg} {f : SendCb} (hi : cfg.inputCb = none) (hu : ∀ l, (cfg.urcEdit l).length ≤ l.length)
    (hc : ∀ t, (f t).2.2 = t.length) (hf : ∀ t, (f t).2.1.length ≤ t.length) : ∀ (k : Nat) {s : St} {c : Cur},
    RxInv0 (asPort cfg f) s → s.sendCb = none → s.dataCb = none → c.p + c.n ≤ cfg.size →
    loop cfg k (sc (some f) s) c = (loop (asPort cfg f) k s c).map (sc (some f)) := by
  intro k
  induction k with
  | zero => intro s c _ _ _ _; rfl
  | succ k ih =>
    intro s c h hs hd hp
    obtain ⟨c', s', e, i, sm, x, y⟩ := iter_inv h (asPort_inText hu hf hs hd).inText (E := cfg.size) (c := c)
      (Nat.le_refl _) hp
    unfold loop
    rw [iter_prompt hi hs hd hc (by have := h.len; simp only [asPort] at this; omega), e]
    cases c' with
    | none => rfl
    | some c' => exact ih i (sm.1.trans hs) (sm.2.trans hd) (y c' rfl).1

theorem readPos_sc (cfg : Cfg) (x : Option SendCb) (s : St) :
    readPos cfg (sc x s) = (readPos cfg s).map (fun r => (sc x r.1, r.2)) := by
  unfold readPos
  have h1 : (sc x s).readPtr = s.readPtr := rfl
  have h2 : (sc x s).partialLen = s.partialLen := rfl
  have h3 : (sc x s).buf = s.buf := rfl
  have h4 : (sc x s).resp = s.resp := rfl
  rw [h1, h2, h3, h4]
  cases s.readPtr with
  | none => rfl
  | some q =>
    simp only []
    split
    · cases slice s.buf q s.partialLen with
      | none => rfl
      | some t =>
        simp only []
        cases put s.buf 0 t with
        | none => rfl
        | some m =>
          simp only []
          cases wr m s.partialLen 0 <;> rfl
    · rfl

theorem room_prompt (cfg : Cfg) (f : SendCb) (s : St) : room cfg (sc (some f) s) = room (asPort cfg f) s := by
  unfold room
  rw [readPos_sc]
  show _ = match readPos cfg s with | none => 0 | some (_, _, _, e) => e.toNat
  cases readPos cfg s <;> rfl

theorem rxEvent_prompt {cfg : Cfg} {f : SendCb} (hi : cfg.inputCb = none) (hu : ∀ l, (cfg.urcEdit l).length ≤ l.length)
    (hc : ∀ t, (f t).2.2 = t.length) (hf : ∀ t, (f t).2.1.length ≤ t.length) {s : St} {chunk : Str}
    (h : RxInv (asPort cfg f) s) (hs : s.sendCb = none) (hd : s.dataCb = none)
    (hroom : chunk.length ≤ room (asPort cfg f) s) :
    rxEvent cfg (sc (some f) s) chunk = (rxEvent (asPort cfg f) s chunk).map (fun r => (r.1, sc (some f) r.2)) := by
  obtain ⟨s1, p, pr, e, er, h1, c1, hpl, hpr, hpe, hpp, hpq⟩ := readPos_inv h
  rw [room_eq er] at hroom
  unfold rxEvent
  rw [readPos_sc]
  have er' : readPos cfg s = some (s1, p, pr, e) := er
  rw [er', er]
  simp only [Option.map_some]
  split
  · split
    · rfl
    · rename_i hne
      have hb : (sc (some f) s1).buf = s1.buf := rfl
      rw [hb]
      cases hm : put s1.buf pr (chunk ++ [0]) with
      | none => rfl
      | some m =>
        simp only []
        have hsz : (asPort cfg f).size = cfg.size := rfl
        have h10 : s1.dataLen = 0 := h1.1.data
        have h11 : (sc (some f) s1).dataLen = 0 := h10
        have h12 : (sc (some f) s1).partialLen = s1.partialLen := rfl
        rw [h12, if_neg (not_not.mpr h11), if_neg (not_not.mpr h10)]
        simp only []
        split
        · cases hw : wr m (p + (chunk.length + s1.partialLen)) 0 with
          | none => rfl
          | some m' =>
            simp only [handleAllReceived]
            have hlen := h1.1.len
            have hle : p + (chunk.length + s1.partialLen) ≤ cfg.size := by omega
            obtain ⟨m2, em2, hm1, hm2⟩ := put_some (m := s1.buf) (p := pr) (t := chunk ++ [0]) (by simp; omega)
            rw [hm] at em2
            cases em2
            have hlast : m[(asPort cfg f).size]? = some 0 := by
              by_cases hb : pr + chunk.length = cfg.size
              · have em' := hm
                unfold Pktio.put at em'
                rw [if_pos (by simp; omega)] at em'
                cases em'
                rw [List.append_assoc, List.getElem?_append_right (by simp; omega)]
                rw [List.append_assoc, List.getElem?_append_right (by simp; omega)]
                simp only [List.length_take, List.singleton_append]
                rw [show (asPort cfg f).size - min pr s1.buf.length - chunk.length = 0 from by omega]
                rfl
              · rw [hm2 _ (Or.inr (by simp; omega))]; exact h1.1.last
            have hii : RxInv0 (asPort cfg f) { s1 with buf := m, partialLen := 0 } :=
              ⟨hm1.trans h1.1.len, hlast, h1.1.items, h1.1.data⟩
            obtain ⟨m3, em3, hm3⟩ := hii.wr0 (i := p + (chunk.length + s1.partialLen)) hle
            simp only [] at em3 hm3
            rw [hw] at em3
            cases em3
            have := loop_prompt hi hu hc hf (chunk.length + s1.partialLen + 1)
              (s := { s1 with buf := m', partialLen := 0 }) (c := ⟨p, chunk.length + s1.partialLen, none⟩) hm3
              (c1.1.trans hs) (c1.2.trans hd) hle
            have t2 : loop cfg (chunk.length + s1.partialLen + 1)
                { (sc (some f) s1) with buf := m', partialLen := 0 } ⟨p, chunk.length + s1.partialLen, none⟩ = _ := this
            refine Eq.trans (congrArg (Option.map _) t2) ?_
            cases loop (asPort cfg f) (chunk.length + s1.partialLen + 1) _ _ <;> rfl
        · rfl
  · rfl

/-! ## The abstract receiver with a prompt -/

theorem offer_asInput {f : SendCb} {P L : Str} (hf : Prompts f P L) {t : Str} (h : t ≠ P) :
    offer (asInput f) t = .parse t := by
  by_cases h0 : t = []
  · subst h0; simp [offer, asInput, afterCb]
  · obtain ⟨h1, h2⟩ := hf.other t h
    rcases h1 with h1 | h1 <;> simp [offer, asInput, afterCb, h0, h1, h2]

theorem offer_prompt {f : SendCb} {P L : Str} (hf : Prompts f P L) :
    ∃ e, LineEnd e ∧ offer (asInput f) P = .parse (L ++ [e]) := by
  obtain ⟨h1, e, he, h2⟩ := hf.prompt
  have h0 : P ≠ [] := by
    intro h
    have := hf.place
    rw [h] at this
    simp at this
  refine ⟨e, he, ?_⟩
  have hl : P.drop (L ++ [e]).length = [] := by
    apply List.drop_of_length_le
    have := hf.place
    simp
    omega
  rcases h1 with h1 | h1 <;> simp only [offer, asInput, afterCb, if_neg h0, h1, h2, hl, List.append_nil, if_true,
    reduceCtorEq, if_false]

/-- A text that does not contain the prompt is read as without the callback; what is kept is its end. -/
theorem scan_noPrompt {cfg : Cfg} {f : SendCb} {P L : Str} (hf : Prompts f P L) : ∀ (k : Nat) (a : Rx) (text : Str),
    text.length < k → ¬ P <:+: text → Rx.scan cfg (asInput f) k a text = some (Rx.read cfg (a, []) text) := by
  intro k
  induction k with
  | zero => intro a text h; omega
  | succ k ih =>
    intro a text hk hno
    unfold Rx.scan
    have hsuf : text.dropWhile isEol <:+ text := List.dropWhile_suffix _
    rw [eolFun, offer_asInput hf (t := text.dropWhile isEol) (by rintro h; exact hno (h ▸ hsuf.isInfix))]
    simp only [Rx.read]
    rw [← linesFrom_skip (t := text)]
    have hle : (text.dropWhile isEol).length ≤ text.length := (List.dropWhile_sublist _).length_le
    have hhead := List.head?_dropWhile_not isEol text
    generalize text.dropWhile isEol = t at hle hhead hsuf ⊢
    cases hfi : t.findIdx? isEol with
    | none =>
      rw [linesFrom_noEol' (findIdx_none hfi)]
      rfl
    | some i =>
      obtain ⟨e, hsplit, he, hne0, hi⟩ := findIdx_split hfi
      have hne : t.take i ≠ [] := by
        intro h0
        rw [h0, List.nil_append] at hsplit
        rw [hsplit] at hhead
        simp [(isEol_iff e).mpr he] at hhead
      have hlf : linesFrom [] t = (t.take i :: (linesFrom [] (t.drop (i + 1))).1, (linesFrom [] (t.drop (i + 1))).2) := by
        conv => lhs; rw [hsplit]
        exact linesFrom_line hne0 hne he _
      rw [hlf]
      simp only [Rx.feed]
      cases a.line cfg (t.take i) with
      | none => rfl
      | some a1 =>
        simp only []
        rw [ih a1 (t.drop (i + 1)) (by simp; omega)
          (fun h => hno (h.trans ((List.drop_suffix _ _).trans hsuf).isInfix))]
        rfl

/-- What is left unread is an end of the text. -/
theorem linesFrom_suffix : ∀ (t cur : Str), (linesFrom cur t).2 <:+ cur ++ t := by
  intro t
  induction t with
  | nil => intro cur; simp [linesFrom]
  | cons b t ih =>
    intro cur
    simp only [linesFrom]
    split
    · have h1 : t <:+ cur ++ b :: t := ⟨cur ++ [b], by simp⟩
      split <;> exact (by simpa using ih []  : (linesFrom [] t).2 <:+ t).trans h1
    · have := ih (cur ++ [b])
      simpa using this

theorem feed_suffix {cfg : Cfg} : ∀ (ls : List Str) (a : Rx) (cur : Str), (Rx.feed cfg a ls cur).2 <:+ cur := by
  intro ls
  induction ls with
  | nil => intro a cur; exact List.suffix_refl _
  | cons l ls ih =>
    intro a cur
    simp only [Rx.feed]
    split
    · exact List.nil_suffix
    · exact ih _ _

/-- A stream that does not contain the prompt is read as without the callback, however it is cut. -/
theorem readsCb_noPrompt {cfg : Cfg} {f : SendCb} {P L : Str} (hf : Prompts f P L) : ∀ (chunks : List Str) (x : Rx × Str),
    NoEol x.2 → ¬ P <:+: x.2 ++ chunks.flatten →
    Rx.readsCb cfg (asInput f) x chunks = some (Rx.reads cfg x chunks) := by
  intro chunks
  induction chunks with
  | nil => intro x _ _; rfl
  | cons c cs ih =>
    intro x hx hno
    rw [List.flatten_cons] at hno
    have h1 : Rx.readCb cfg (asInput f) x c = some (Rx.read cfg x c) := by
      unfold Rx.readCb
      split
      · rename_i hc
        subst hc
        rfl
      · rw [scan_noPrompt hf _ _ _ (by omega) (fun h => hno (h.trans ⟨[], cs.flatten, by simp⟩))]
        simp only [Rx.read]
        rw [linesFrom_noEol hx]
        rfl
    have h2 : NoEol (Rx.read cfg x c).2 := feed_noEol _ _ _ (linesFrom_tail_noEol _ _ hx)
    unfold Rx.readsCb
    rw [h1]
    refine ih _ h2 ?_
    intro h
    apply hno
    have hs : (Rx.read cfg x c).2 <:+ x.2 ++ c := (feed_suffix _ _ _).trans (linesFrom_suffix _ _)
    obtain ⟨u, hu⟩ := hs
    refine h.trans ⟨u, [], ?_⟩
    rw [← List.append_assoc x.2, ← hu]
    simp

theorem scan_prompt {cfg : Cfg} {f : SendCb} {P L : Str} (hf : Prompts f P L) : ∀ (k : Nat) (a a1 a' : Rx) (text : Str)
    (ls : List Str), text.length < k → linesFrom [] text = (ls, P) → Rx.run cfg a ls = some a1 →
    a1.line cfg L = some a' → Rx.scan cfg (asInput f) k a text = some (a', []) := by
  intro k
  induction k with
  | zero => intro a a1 a' text ls h; omega
  | succ k ih =>
    intro a a1 a' text ls hk hl hrun hL
    unfold Rx.scan
    rw [eolFun]
    rw [← linesFrom_skip (t := text)] at hl
    have hle : (text.dropWhile isEol).length ≤ text.length := (List.dropWhile_sublist _).length_le
    have hhead := List.head?_dropWhile_not isEol text
    generalize text.dropWhile isEol = t at hle hhead hl ⊢
    by_cases htP : t = P
    · subst htP
      have hnoe : NoEol t := fun b hb => hf.noEnd b hb
      rw [linesFrom_noEol' hnoe] at hl
      cases hl
      simp only [Rx.run, Option.some.injEq] at hrun
      subst hrun
      obtain ⟨e, he, ho⟩ := offer_prompt hf
      rw [ho]
      simp only []
      have hidx : (L ++ [e]).findIdx? isEol = some L.length := by
        rw [← eolFun]
        exact findIdx_end_some (r := []) hf.line.2 he
      rw [hidx]
      simp only [List.take_left', hL]
      have hd : (L ++ [e]).drop (L.length + 1) = [] := List.drop_of_length_le (by simp)
      rw [hd]
      have hk0 : ∃ j, k = j + 1 := by
        have := hf.place
        exact ⟨k - 1, by omega⟩
      obtain ⟨j, rfl⟩ := hk0
      simp [Rx.scan, offer, asInput, afterCb]
    · rw [offer_asInput hf htP]
      simp only []
      cases hfi : t.findIdx? isEol with
      | none =>
        rw [linesFrom_noEol' (findIdx_none hfi)] at hl
        simp only [Prod.mk.injEq] at hl
        exact absurd hl.2 htP
      | some i =>
        obtain ⟨e, hsplit, he, hne0, hi⟩ := findIdx_split hfi
        have hne : t.take i ≠ [] := by
          intro h0
          rw [h0, List.nil_append] at hsplit
          rw [hsplit] at hhead
          simp [(isEol_iff e).mpr he] at hhead
        have hlf : linesFrom [] t = (t.take i :: (linesFrom [] (t.drop (i + 1))).1, (linesFrom [] (t.drop (i + 1))).2) := by
          conv => lhs; rw [hsplit]
          exact linesFrom_line hne0 hne he _
        rw [hlf] at hl
        simp only [Prod.mk.injEq] at hl
        obtain ⟨h1, h2⟩ := hl
        rw [← h1] at hrun
        simp only [Rx.run] at hrun
        cases hla : a.line cfg (t.take i) with
        | none => rw [hla] at hrun; cases hrun
        | some b =>
          rw [hla] at hrun
          simp only [hla]
          exact ih b a1 a' (t.drop (i + 1)) _ (by simp; omega) (Prod.ext rfl h2) hrun hL

/-- Lines, then the prompt at the end of the stream and nowhere before: however the stream is cut, the
effect is that of the lines and of the line made of the prompt. -/
theorem readsCb_prompt {cfg : Cfg} {f : SendCb} {P L : Str} (hf : Prompts f P L) : ∀ (chunks : List Str) (a a1 a' : Rx)
    (cur : Str) (ls : List Str), NoEol cur → chunks.flatten ≠ [] → linesFrom cur chunks.flatten = (ls, P) →
    ¬ P <:+: (cur ++ chunks.flatten).dropLast → Rx.run cfg a ls = some a1 → a1.line cfg L = some a' →
    Rx.readsCb cfg (asInput f) (a, cur) chunks = some (a', []) := by
  intro chunks
  induction chunks with
  | nil => intro a a1 a' cur ls _ h; exact absurd rfl h
  | cons c cs ih =>
    intro a a1 a' cur ls hx hne hl hno hrun hL
    rw [List.flatten_cons] at hne hl hno
    by_cases hc : c = []
    · subst hc
      have h1 : Rx.readCb cfg (asInput f) (a, cur) [] = some (a, cur) := by simp [Rx.readCb]
      unfold Rx.readsCb
      rw [h1]
      exact ih a a1 a' cur ls hx (by simpa using hne) (by simpa using hl) (by simpa using hno) hrun hL
    · by_cases hcs : cs.flatten = []
      · rw [hcs, List.append_nil] at hl hno
        have h1 : Rx.readCb cfg (asInput f) (a, cur) c = some (a', []) := by
          unfold Rx.readCb
          rw [if_neg hc]
          refine scan_prompt hf _ a a1 a' (cur ++ c) ls (Nat.lt_succ_self _) ?_ hrun hL
          rw [← hl, linesFrom_noEol hx]
          rfl
        unfold Rx.readsCb
        rw [h1]
        simp only []
        clear ih hne hl hno h1
        induction cs with
        | nil => rfl
        | cons d ds ihd =>
          simp only [List.flatten_cons, List.append_eq_nil_iff] at hcs
          unfold Rx.readsCb
          have : Rx.readCb cfg (asInput f) (a', []) d = some (a', []) := by simp [Rx.readCb, hcs.1]
          rw [this]
          exact ihd hcs.2
      · rw [linesFrom_append] at hl
        simp only [Prod.mk.injEq] at hl
        obtain ⟨hl1, hl2⟩ := hl
        rw [← hl1, Rx.run_append] at hrun
        cases hr1 : Rx.run cfg a (linesFrom cur c).1 with
        | none => rw [hr1] at hrun; cases hrun
        | some b =>
          rw [hr1] at hrun
          have hpre : (cur ++ (c ++ cs.flatten)).dropLast = cur ++ c ++ cs.flatten.dropLast := by
            rw [← List.append_assoc, List.dropLast_append_of_ne_nil hcs]
          have hno1 : ¬ P <:+: cur ++ c := by
            intro h
            apply hno
            rw [hpre]
            exact h.trans ⟨[], cs.flatten.dropLast, by simp⟩
          have hrd : Rx.read cfg (a, cur) c = (b, (linesFrom cur c).2) := feed_run hr1
          have h1 : Rx.readCb cfg (asInput f) (a, cur) c = some (b, (linesFrom cur c).2) := by
            unfold Rx.readCb
            rw [if_neg hc, scan_noPrompt hf _ _ _ (Nat.lt_succ_self _) hno1, ← hrd]
            simp only [Rx.read]
            rw [linesFrom_noEol hx]
            rfl
          unfold Rx.readsCb
          rw [h1]
          refine ih b a1 a' _ _ (linesFrom_tail_noEol _ _ hx) hcs (Prod.ext rfl hl2) ?_ hrun hL
          rw [List.dropLast_append_of_ne_nil hcs]
          intro h
          apply hno
          rw [hpre]
          obtain ⟨u, hu⟩ := linesFrom_suffix c cur
          refine h.trans ⟨u, [], ?_⟩
          rw [← hu]
          simp

end Cellular.Props
