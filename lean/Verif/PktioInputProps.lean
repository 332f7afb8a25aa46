import Verif.PktioInput
/-!
# C73: the input buffer callback
-/

namespace Cellular.Props
open Cellular Cellular.Spec Cellular.Pktio

/-- With an input buffer callback `f`, and as long as the buffer does not overflow, any sequence of reads has
exactly the effect of offering the text to `f` before each line is looked for: the packet handler is
called with the same messages in the same order, the same command is pending, and the same bytes are
kept.  Missing: `f` fails while lines of a response are collected (the first witness below). -/
theorem C73_input_callback_partial (cfg : Cfg) (f : InputCb) (s s' : St) (chunks : List Str) (x : Rx × Str)
    (hi : RxInv cfg s) (hn : InCb cfg f s) (hq : Quiet s) (hR : ReadsOk cfg s chunks s')
    (hx : Rx.readsCb cfg f (⟨s.cmd, s.pfx, [], s.events⟩, []) chunks = some x) :
    s'.events = x.1.events ∧ s'.cmd = x.1.cmd ∧ s'.pfx = x.1.pfx ∧ unread s' = x.2 := by
  obtain ⟨_, _, hb⟩ := readsOk_scan hR hi hn hq.between.holds hx
  exact ⟨hb.rep.events, hb.rep.cmd, hb.rep.pfx, hb.text⟩

/-! ## Frames -/

theorem dropWhile_end {g t : Str} (hg : ∀ b ∈ g, LineEnd b) (ht : ∀ b r, t = b :: r → ¬ LineEnd b) :
    (g ++ t).dropWhile (fun b => decide (LineEnd b)) = t := by
  induction g with
  | nil =>
    cases t with
    | nil => rfl
    | cons b r =>
      rw [List.nil_append, List.dropWhile_cons_of_neg]
      simpa using ht b r rfl
  | cons b g ih =>
    rw [List.cons_append, List.dropWhile_cons_of_pos (by simpa using hg b (by simp))]
    exact ih (fun x hx => hg x (by simp [hx]))

theorem findIdx_end_none {t : Str} (h : ∀ b ∈ t, ¬ LineEnd b) :
    t.findIdx? (fun b => decide (LineEnd b)) = none := by
  rw [List.findIdx?_eq_none_iff]
  intro b hb
  simpa using h b hb

theorem findIdx_end_some {l r : Str} {e : Byte} (h : ∀ b ∈ l, ¬ LineEnd b) (he : LineEnd e) :
    (l ++ e :: r).findIdx? (fun b => decide (LineEnd b)) = some l.length := by
  rw [List.findIdx?_append, findIdx_end_none h]
  simp [List.findIdx?_cons, he]

theorem offer_other {f : InputCb} {Frame : Str → Prop} {Mark : Byte → Prop} (hf : Recognises f Frame Mark) {t : Str}
    (h : ∀ b r, t = b :: r → ¬ Mark b) : offer f t = .parse t := by
  simp [offer, hf.other t h, hf.same]

theorem offer_whole {f : InputCb} {Frame : Str → Prop} {Mark : Byte → Prop} (hf : Recognises f Frame Mark)
    {F u : Str} (h : Frame F) : offer f (F ++ u) = .parse u := by
  have := hf.whole F u h
  simp [offer, this.1, this.2, hf.same]

theorem offer_part {f : InputCb} {Frame : Str → Prop} {Mark : Byte → Prop} (hf : Recognises f Frame Mark)
    {F u : Str} (h : Frame F) (h0 : u ≠ []) (hp : u <+: F) (hne : u ≠ F) : offer f u = .wait u := by
  simp [offer, hf.part F u h h0 hp hne, hf.same]

/-- What is left of a stream of pieces when the text read so far has been scanned. -/
structure Left (cfg : Cfg) (Frame : Str → Prop) (Mark : Byte → Prop) (N : Nat) (a' : Rx) (rem : Str) (x : Rx × Str)
    (ps : List Piece) : Prop where
  bytes : x.2 ++ rem = bytesOf ps
  ok : ∀ p ∈ ps, p.Ok Frame Mark
  run : Rx.run cfg x.1 (ps.map (·.line)) = some a'
  short : ∀ p, ps.head? = some p → x.2.length < p.bytes.length
  fits : ∀ p ∈ ps, p.bytes.length ≤ N

theorem scan_pieces {cfg : Cfg} {f : InputCb} {Frame : Str → Prop} {Mark : Byte → Prop}
    (hf : Recognises f Frame Mark) {N : Nat} {a' : Rx} {rem : Str} :
    ∀ (k : Nat) (a : Rx) (text : Str) (ps : List Piece), text.length < k →
      text ++ rem = bytesOf ps → (∀ p ∈ ps, p.Ok Frame Mark) → Rx.run cfg a (ps.map (·.line)) = some a' →
      (∀ p ∈ ps, p.bytes.length ≤ N) →
      ∃ x ps', Rx.scan cfg f k a text = some x ∧ Left cfg Frame Mark N a' rem x ps' := by
  intro k
  induction k with
  | zero => intro a text ps h; omega
  | succ k ih =>
    intro a text ps hk hb hok hrun hN
    have empty : offer f [] = .parse [] := offer_other hf (by intro b r h; cases h)
    cases ps with
    | nil =>
      simp only [bytesOf, List.map_nil, List.flatten_nil, List.append_eq_nil_iff] at hb
      obtain ⟨rfl, rfl⟩ := hb
      refine ⟨(a, []), [], ?_, rfl, by simp, hrun, by simp, by simp⟩
      simp [Rx.scan, empty]
    | cons p ps =>
      have hp := hok p (by simp)
      have hps : ∀ q ∈ ps, q.Ok Frame Mark := fun q hq => hok q (by simp [hq])
      have hpN := hN p (by simp)
      have hpsN : ∀ q ∈ ps, q.bytes.length ≤ N := fun q hq => hN q (by simp [hq])
      simp only [Piece.bytes, List.length_append, List.length_cons, List.length_nil] at hpN
      have hrun' := hrun
      simp only [List.map_cons, Rx.run] at hrun
      cases hl : a.line cfg p.line with
      | none => rw [hl] at hrun; cases hrun
      | some a1 =>
      rw [hl] at hrun
      simp only [] at hrun
      have hbe : bytesOf (p :: ps) = p.gap ++ (p.frame.getD [] ++ (p.line ++ p.stop :: bytesOf ps)) := by
        simp [bytesOf, Piece.bytes]
      rw [hbe] at hb
      -- the part after a frame
      have after : ∀ u, u.length ≤ text.length → u ++ rem = p.line ++ p.stop :: bytesOf ps →
          ∃ x ps', (match u.findIdx? (fun b => decide (LineEnd b)) with
            | none => some (a, u)
            | some i =>
              match a.line cfg (u.take i) with
              | none => some (a.dropped (u.take i), [])
              | some a => Rx.scan cfg f k a (u.drop (i + 1))) = some x ∧
            Left cfg Frame Mark N a' rem x ps' := by
        intro u hul hu
        rcases List.append_eq_append_iff.mp hu with ⟨v, h1, h2⟩ | ⟨v, h1, h2⟩
        · rw [findIdx_end_none (fun b hb => hp.noEnd b (by rw [h1]; simp [hb]))]
          refine ⟨(a, u), ⟨[], none, p.line, p.stop⟩ :: ps, rfl, ?_, ?_, hrun', ?_, ?_⟩
          · simp only [bytesOf, List.map_cons, List.flatten_cons, Piece.bytes, Option.getD_none, List.nil_append]
            rw [hu]
            simp [bytesOf]
          · intro q hq
            rcases List.mem_cons.mp hq with rfl | hq
            · exact ⟨by simp, by simp, hp.line, hp.noEnd, hp.notMark, hp.stop⟩
            · exact hps q hq
          · intro q hq
            cases hq
            have := congrArg List.length h1
            simp only [List.length_append] at this
            simp only [Piece.bytes, Option.getD_none, List.nil_append, List.length_append, List.length_cons,
              List.length_nil]
            omega
          · intro q hq
            rcases List.mem_cons.mp hq with rfl | hq
            · simp only [Piece.bytes, Option.getD_none, Option.getD_some, List.nil_append, List.length_append,
                List.length_cons, List.length_nil] at hpN ⊢
              omega
            · exact hpsN q hq
        · cases v with
          | nil =>
            simp only [List.append_nil] at h1
            rw [h1, findIdx_end_none hp.noEnd]
            refine ⟨(a, p.line), ⟨[], none, p.line, p.stop⟩ :: ps, rfl, ?_, ?_, hrun', ?_, ?_⟩
            · simp only [bytesOf, List.map_cons, List.flatten_cons, Piece.bytes, Option.getD_none, List.nil_append]
              rw [← h1, hu, h1]
              simp [bytesOf]
            · intro q hq
              rcases List.mem_cons.mp hq with rfl | hq
              · exact ⟨by simp, by simp, hp.line, hp.noEnd, hp.notMark, hp.stop⟩
              · exact hps q hq
            · intro q hq
              cases hq
              simp [Piece.bytes]
            · intro q hq
              rcases List.mem_cons.mp hq with rfl | hq
              · simp only [Piece.bytes, Option.getD_none, Option.getD_some, List.nil_append, List.length_append,
                  List.length_cons, List.length_nil] at hpN ⊢
                omega
              · exact hpsN q hq
          | cons e v =>
            simp only [List.cons_append, List.cons.injEq] at h2
            obtain ⟨rfl, h2⟩ := h2
            rw [h1, findIdx_end_some hp.noEnd hp.stop]
            simp only [List.take_left', hl]
            rw [show (p.line ++ p.stop :: v).drop (p.line.length + 1) = v by
              rw [← List.drop_drop, List.drop_left]; rfl]
            have hlen := congrArg List.length h1
            simp only [List.length_append, List.length_cons] at hlen
            exact ih a1 v ps (by omega) h2.symm hps hrun hpsN
      have gapOnly : ∀ v, p.gap = text ++ v →
          rem = v ++ (p.frame.getD [] ++ (p.line ++ p.stop :: bytesOf ps)) →
          ∃ x ps', Rx.scan cfg f (k + 1) a text = some x ∧ Left cfg Frame Mark N a' rem x ps' := by
        intro v h1 h2
        have hsc : Rx.scan cfg f (k + 1) a text = some (a, []) := by
          have hd : text.dropWhile (fun b => decide (LineEnd b)) = [] := by
            have := dropWhile_end (g := text) (t := []) (fun b hb => hp.gap b (by rw [h1]; simp [hb]))
              (by intro b r h; cases h)
            simpa using this
          unfold Rx.scan
          rw [hd, empty]
          rfl
        refine ⟨_, ⟨v, p.frame, p.line, p.stop⟩ :: ps, hsc, ?_, ?_, hrun', ?_, ?_⟩
        · rw [List.nil_append, h2]; simp [bytesOf, Piece.bytes]
        · intro q hq
          rcases List.mem_cons.mp hq with rfl | hq
          · exact ⟨fun b hb => hp.gap b (by rw [h1]; simp [hb]), hp.frame, hp.line, hp.noEnd, hp.notMark, hp.stop⟩
          · exact hps q hq
        · intro q hq
          cases hq
          simp only [Piece.bytes, List.length_append, List.length_cons, List.length_nil]
          omega
        · intro q hq
          rcases List.mem_cons.mp hq with rfl | hq
          · have := congrArg List.length h1
            simp only [List.length_append] at this
            simp only [Piece.bytes, Option.getD_none, Option.getD_some, List.nil_append, List.length_append,
              List.length_cons, List.length_nil] at hpN ⊢
            omega
          · exact hpsN q hq
      rcases List.append_eq_append_iff.mp hb with ⟨v, h1, h2⟩ | ⟨t, h1, h2⟩
      · exact gapOnly v h1 h2
      by_cases ht0 : t = []
      · subst ht0
        exact gapOnly [] (by rw [h1]; simp) (by simpa using h2.symm)
      · have htl : t.length ≤ text.length := by rw [h1]; simp
        have hsame : ∀ (hd : text.dropWhile (fun b => decide (LineEnd b)) = t) (u : Str), offer f t = .parse u →
            u.length ≤ text.length → u ++ rem = p.line ++ p.stop :: bytesOf ps →
            ∃ x ps', Rx.scan cfg f (k + 1) a text = some x ∧ Left cfg Frame Mark N a' rem x ps' := by
          intro hd u hu hul he
          unfold Rx.scan
          rw [hd, hu]
          exact after u hul he
        cases hfr : p.frame with
        | none =>
          simp only [hfr, Option.getD_none, List.nil_append] at h2
          have hhead : ∀ b r, t = b :: r → ¬ Mark b ∧ ¬ LineEnd b := by
            rintro b r rfl
            cases hpl : p.line with
            | nil => exact absurd hpl hp.line
            | cons b' r' =>
              rw [hpl] at h2
              simp only [List.cons_append, List.cons.injEq] at h2
              obtain ⟨rfl, _⟩ := h2
              exact ⟨hp.notMark _ _ hpl, hp.noEnd _ (by rw [hpl]; simp)⟩
          refine hsame ?_ t (offer_other hf (fun b r h => (hhead b r h).1)) htl h2.symm
          rw [h1]
          exact dropWhile_end hp.gap (fun b r h => (hhead b r h).2)
        | some F =>
          simp only [hfr, Option.getD_some] at h2
          have hF := hp.frame F hfr
          obtain ⟨b0, r0, rfl, hm0⟩ := hf.start F hF
          have hd : text.dropWhile (fun b => decide (LineEnd b)) = t := by
            rw [h1]
            refine dropWhile_end hp.gap ?_
            rintro b r rfl
            simp only [List.cons_append, List.cons.injEq] at h2
            obtain ⟨rfl, _⟩ := h2
            exact hf.notEnd _ hm0
          rcases List.append_eq_append_iff.mp h2 with ⟨v, h3, h4⟩ | ⟨v, h3, h4⟩
          · -- the frame is there
            subst h3
            exact hsame hd v (offer_whole hf hF) (by simp at htl; omega) h4.symm
          · by_cases hv : v = []
            · subst hv
              simp only [List.append_nil, List.nil_append] at h3 h4
              rw [← h3] at hd hsame
              have hw := offer_whole (u := []) hf hF
              rw [List.append_nil] at hw
              exact hsame hd [] hw (by simp) (by simpa using h4)
            · have hne : t ≠ b0 :: r0 := by
                intro h
                rw [← h] at h3
                exact hv (by simpa using h3)
              have hw : offer f t = .wait t := offer_part hf hF ht0 ⟨v, h3.symm⟩ hne
              refine ⟨(a, t), ⟨[], p.frame, p.line, p.stop⟩ :: ps, ?_, ?_, ?_, hrun', ?_, ?_⟩
              · unfold Rx.scan
                rw [hd, hw]
              · simp only [bytesOf, List.map_cons, List.flatten_cons, Piece.bytes, List.nil_append, hfr,
                  Option.getD_some]
                rw [← h2]
                simp [bytesOf]
              · intro q hq
                rcases List.mem_cons.mp hq with rfl | hq
                · exact ⟨by simp, hp.frame, hp.line, hp.noEnd, hp.notMark, hp.stop⟩
                · exact hps q hq
              · intro q hq
                cases hq
                have := congrArg List.length h3
                simp only [List.length_append] at this
                simp only [Piece.bytes, hfr, Option.getD_some, List.nil_append, List.length_append,
                  List.length_cons, List.length_nil] at this ⊢
                omega
              · intro q hq
                rcases List.mem_cons.mp hq with rfl | hq
                · simp only [hfr, Piece.bytes, Option.getD_none, Option.getD_some, List.nil_append, List.length_append,
                    List.length_cons, List.length_nil] at hpN ⊢
                  omega
                · exact hpsN q hq

theorem readCb_pieces {cfg : Cfg} {f : InputCb} {Frame : Str → Prop} {Mark : Byte → Prop}
    (hf : Recognises f Frame Mark) {N : Nat} {a' : Rx} {rem chunk : Str} {x : Rx × Str} {ps : List Piece}
    (h : Left cfg Frame Mark N a' (chunk ++ rem) x ps) :
    ∃ y ps', Rx.readCb cfg f x chunk = some y ∧ Left cfg Frame Mark N a' rem y ps' := by
  unfold Rx.readCb
  by_cases hc : chunk = []
  · subst hc
    exact ⟨x, ps, by simp, h⟩
  · rw [if_neg hc]
    exact scan_pieces hf _ x.1 (x.2 ++ chunk) ps (by omega) (by rw [List.append_assoc]; exact h.bytes) h.ok h.run h.fits

theorem readsCb_pieces {cfg : Cfg} {f : InputCb} {Frame : Str → Prop} {Mark : Byte → Prop}
    (hf : Recognises f Frame Mark) {N : Nat} {a' : Rx} : ∀ (chunks : List Str) {x : Rx × Str} {ps : List Piece},
      Left cfg Frame Mark N a' chunks.flatten x ps → Rx.readsCb cfg f x chunks = some (a', []) := by
  intro chunks
  induction chunks with
  | nil =>
    intro x ps h
    obtain ⟨a, cur⟩ := x
    have hps : ps = [] := by
      cases ps with
      | nil => rfl
      | cons p ps =>
        have h1 := h.short p rfl
        have h2 := congrArg List.length h.bytes
        simp only [List.flatten_nil, List.append_nil, bytesOf, List.map_cons, List.flatten_cons,
          List.length_append] at h1 h2
        omega
    subst hps
    have h1 := h.bytes
    have h2 := h.run
    simp only [List.flatten_nil, List.append_nil, bytesOf, List.map_nil, Rx.run, Option.some.injEq] at h1 h2
    simp [Rx.readsCb, h1, h2]
  | cons c cs ih =>
    intro x ps h
    rw [List.flatten_cons] at h
    obtain ⟨y, ps', e, h'⟩ := readCb_pieces hf h
    unfold Rx.readsCb
    rw [e]
    exact ih h'

theorem left_start {cfg : Cfg} {Frame : Str → Prop} {Mark : Byte → Prop} {N : Nat} {a a' : Rx} {rem : Str}
    {ps : List Piece} (hN : ∀ p ∈ ps, p.bytes.length ≤ N)
    (hb : rem = bytesOf ps) (hok : ∀ p ∈ ps, p.Ok Frame Mark)
    (hrun : Rx.run cfg a (ps.map (·.line)) = some a') : Left cfg Frame Mark N a' rem (a, []) ps :=
  ⟨by simpa using hb, hok, hrun, fun p _ => by
    simp only [Piece.bytes, List.length_append, List.length_cons, List.length_nil]; omega, hN⟩

/-- The stream consists of lines and binary frames, each frame directly before a line, and the callback
recognises the frames.  However the stream is cut into reads - also inside a frame - and whatever bytes the
frames contain, line ends included: the effect is that of the lines alone, in order; no byte of a frame is
ever taken for a line or for a part of one, and no byte of a line is lost.
Missing: a frame followed by a line end or by another frame, for which the claim is false (witnesses),
reads that overflow the buffer, and lines refused as undefined. -/
theorem C73_frames_partial (cfg : Cfg) (f : InputCb) (Frame : Str → Prop) (Mark : Byte → Prop) (s s' : St)
    (chunks : List Str) (ps : List Piece) (a' : Rx)
    (hi : RxInv cfg s) (hn : InCb cfg f s) (hq : Quiet s) (hf : Recognises f Frame Mark)
    (hR : ReadsOk cfg s chunks s') (hok : ∀ p ∈ ps, p.Ok Frame Mark) (hs : chunks.flatten = bytesOf ps)
    (hrun : Rx.run cfg ⟨s.cmd, s.pfx, [], s.events⟩ (ps.map (·.line)) = some a') :
    s'.events = a'.events ∧ s'.cmd = a'.cmd ∧ s'.pfx = a'.pfx ∧ unread s' = [] :=
  C73_input_callback_partial cfg f s s' chunks (a', []) hi hn hq hR
    (readsCb_pieces hf chunks (left_start (N := (bytesOf ps).length) (fun p hp =>
      (List.sublist_flatten_of_mem (List.mem_map_of_mem hp)).length_le) hs hok hrun))

theorem line_idle_keeps {cfg : Cfg} {a a1 : Rx} {l : Str} (hc : a.cmd = .noCommand) (h : a.line cfg l = some a1) :
    a1.cmd = .noCommand ∧ a1.pfx = a.pfx ∧ a1.lines = a.lines := by
  have hu : a.undefinedLine cfg l = some a1 → a1.cmd = .noCommand ∧ a1.pfx = a.pfx ∧ a1.lines = a.lines := by
    intro h
    unfold Rx.undefinedLine at h
    split at h <;> cases h
    exact ⟨hc, rfl, rfl⟩
  unfold Rx.line at h
  split at h
  · cases h; exact ⟨hc, rfl, rfl⟩
  · exact hu h
  · rename_i hm
    exact absurd hc (getMsgType_solicited hm)

theorem scan_idle {cfg : Cfg} {f : InputCb} : ∀ (k : Nat) {a : Rx} {text : Str} {x : Rx × Str},
    Rx.scan cfg f k a text = some x → a.cmd = .noCommand → a.lines = [] → x.1.cmd = .noCommand ∧ x.1.lines = [] := by
  intro k
  induction k with
  | zero => intro a text x h; cases h
  | succ k ih =>
    intro a text x h hc hl
    unfold Rx.scan at h
    split at h
    · rw [if_pos hl] at h
      cases h
      exact ⟨hc, hl⟩
    · cases h; exact ⟨hc, hl⟩
    · split at h
      · cases h; exact ⟨hc, hl⟩
      · split at h
        · cases h; exact ⟨rfl, rfl⟩
        · rename_i ha
          obtain ⟨h1, _, h3⟩ := line_idle_keeps hc ha
          exact ih h h1 (h3.trans hl)

theorem reads_pieces {cfg : Cfg} {f : InputCb} {Frame : Str → Prop} {Mark : Byte → Prop}
    (hf : Recognises f Frame Mark) {a' : Rx} {s s' : St} {chunks : List Str} (hR : Reads cfg s chunks s') :
    ∀ {x : Rx × Str} {ps : List Piece}, RxInv cfg s → InCb cfg f s → Holds s x.1 x.2 → x.1.cmd = .noCommand →
      x.1.lines = [] → Left cfg Frame Mark cfg.size a' chunks.flatten x ps → (ps = [] → x.2 = []) →
      Holds s' a' [] := by
  induction hR with
  | nil s =>
    intro x ps h hn hb hc hl hL _
    have := readsCb_pieces hf [] hL
    simp only [Rx.readsCb, Option.some.injEq] at this
    rw [this] at hb
    exact hb
  | cons hroom he _ ih =>
    rename_i s s1 s2 chunk chunks k hR
    intro x ps h hn hb hc hl hL hnil
    have hno : ¬ Overflow cfg s x.1 x.2 := by
      rintro ⟨h0, h1⟩
      have hcur : x.2 ≠ [] := by
        rcases h1 with h1 | h1
        · exact h1
        · exact absurd hl h1
      have hlen : x.2.length < cfg.size := by
        cases ps with
        | nil => exact absurd (hnil rfl) hcur
        | cons p ps =>
          have h2 := hL.short p rfl
          have h3 := hL.fits p (by simp)
          omega
      have := idle_room h hb.rep hb.text hc hl hcur hlen
      omega
    rw [List.flatten_cons] at hL
    obtain ⟨y, ps', ey, hL'⟩ := readCb_pieces hf hL
    obtain ⟨k', s1', e, h1, n1, b1, _⟩ := rxEvent_scan h hn hb hroom hno ey
    rw [he] at e
    cases e
    have hy : y.1.cmd = .noCommand ∧ y.1.lines = [] := by
      unfold Rx.readCb at ey
      split at ey
      · cases ey; exact ⟨hc, hl⟩
      · exact scan_idle _ ey hc hl
    refine ih h1 n1 b1 hy.1 hy.2 hL' ?_
    intro he'
    have := hL'.bytes
    rw [he'] at this
    simp only [bytesOf, List.map_nil, List.flatten_nil, List.append_eq_nil_iff] at this
    exact this.1

/-- The same while no command is pending, for streams of any length: every line is handed over exactly once,
in order and unchanged, and nothing else is. -/
theorem C73_frames_idle_partial (cfg : Cfg) (f : InputCb) (Frame : Str → Prop) (Mark : Byte → Prop) (s s' : St)
    (chunks : List Str) (ps : List Piece)
    (hi : RxInv cfg s) (hn : InCb cfg f s) (hq : Quiet s) (hc : s.cmd = .noCommand) (hp : s.pfx = none)
    (hf : Recognises f Frame Mark) (hR : Reads cfg s chunks s') (hok : ∀ p ∈ ps, p.Ok Frame Mark)
    (hfit : ∀ p ∈ ps, p.bytes.length ≤ cfg.size) (hs : chunks.flatten = bytesOf ps)
    (hacc : ∀ p ∈ ps, UrcLike cfg p.line ∨ cfg.undefCb p.line = .ok) :
    ∃ evs, s'.events = s.events ++ evs ∧ List.Forall₂ (HandedOver cfg) (ps.map (·.line)) evs ∧
      unread s' = [] := by
  obtain ⟨evs, hr, hf2⟩ := run_idle (cfg := cfg) (ls := ps.map (·.line)) (a := ⟨s.cmd, s.pfx, [], s.events⟩) hc hp
    (by
      intro l hl
      obtain ⟨p, hpm, rfl⟩ := List.mem_map.mp hl
      exact ⟨(hok p hpm).line, hacc p hpm⟩)
  have hb := reads_pieces hf hR hi hn hq.between.holds hc rfl (left_start hfit hs hok hr) (fun _ => rfl)
  exact ⟨evs, hb.rep.events, hf2, hb.text⟩

/-! ## Declining, waiting, failing -/

/-- A callback that declines every text and leaves it alone. -/
def Declines (f : InputCb) : Prop := ∀ t, (f t).1 = .prefixMismatch ∧ afterCb f t = t

theorem scan_declines {cfg : Cfg} {f : InputCb} (hf : Declines f) : ∀ (k : Nat) (a : Rx) (text : Str),
    text.length < k → Rx.scan cfg f k a text = some (Rx.read cfg (a, []) text) := by
  intro k
  induction k with
  | zero => intro a text h; omega
  | succ k ih =>
    intro a text hk
    unfold Rx.scan
    have ho : ∀ t, offer f t = .parse t := fun t => by simp [offer, (hf t).1, (hf t).2]
    rw [ho, eolFun]
    simp only [Rx.read]
    rw [← linesFrom_skip (t := text)]
    have hle : (text.dropWhile isEol).length ≤ text.length := (List.dropWhile_sublist _).length_le
    have hhead := List.head?_dropWhile_not isEol text
    generalize text.dropWhile isEol = t at hle hhead ⊢
    cases hfi : t.findIdx? isEol with
    | none =>
      rw [linesFrom_noEol' (findIdx_none hfi)]
      rfl
    | some i =>
      obtain ⟨e, hsplit, he, hno, hi⟩ := findIdx_split hfi
      have hne : t.take i ≠ [] := by
        intro h0
        rw [h0, List.nil_append] at hsplit
        rw [hsplit] at hhead
        simp [(isEol_iff e).mpr he] at hhead
      have hlf : linesFrom [] t = (t.take i :: (linesFrom [] (t.drop (i + 1))).1, (linesFrom [] (t.drop (i + 1))).2) := by
        conv => lhs; rw [hsplit]
        exact linesFrom_line hno hne he _
      rw [hlf]
      simp only [Rx.feed]
      cases a.line cfg (t.take i) with
      | none => rfl
      | some a1 =>
        simp only []
        rw [ih a1 (t.drop (i + 1)) (by simp; omega)]
        rfl

theorem feed_noEol {cfg : Cfg} : ∀ (ls : List Str) (a : Rx) (cur : Str), NoEol cur → NoEol (Rx.feed cfg a ls cur).2 := by
  intro ls
  induction ls with
  | nil => intro a cur h; exact h
  | cons l ls ih =>
    intro a cur h
    simp only [Rx.feed]
    split
    · intro b hb; cases hb
    · exact ih _ _ h

theorem readsCb_declines {cfg : Cfg} {f : InputCb} (hf : Declines f) : ∀ (chunks : List Str) (x : Rx × Str), NoEol x.2 →
    Rx.readsCb cfg f x chunks = some (Rx.reads cfg x chunks) := by
  intro chunks
  induction chunks with
  | nil => intro x _; rfl
  | cons c cs ih =>
    intro x hx
    have h1 : Rx.readCb cfg f x c = some (Rx.read cfg x c) := by
      unfold Rx.readCb
      split
      · rename_i hc
        subst hc
        rfl
      · rw [scan_declines hf _ _ _ (by omega)]
        simp only [Rx.read]
        rw [linesFrom_noEol hx]
        rfl
    have h2 : NoEol (Rx.read cfg x c).2 := feed_noEol _ _ _ (linesFrom_tail_noEol _ _ hx)
    unfold Rx.readsCb
    rw [h1]
    exact ih _ h2

theorem Rx.reads_input (cfg : Cfg) (g : Option InputCb) : Rx.reads { cfg with inputCb := g } = Rx.reads cfg := by
  have hl : ∀ a l, Rx.line { cfg with inputCb := g } a l = Rx.line cfg a l := fun _ _ => rfl
  have hf : ∀ ls a cur, Rx.feed { cfg with inputCb := g } a ls cur = Rx.feed cfg a ls cur := by
    intro ls
    induction ls with
    | nil => intro a cur; rfl
    | cons l ls ih =>
      intro a cur
      simp only [Rx.feed]
      rw [hl]
      split
      · rfl
      · exact ih _ _
  funext x cs
  simp only [Rx.reads]
  congr 1
  funext y c
  exact hf _ _ _

/-- A callback that declines everything changes nothing: the same reads on a port without an input callback
give the same messages, the same pending command and the same unprocessed bytes. -/
theorem C73_declined (cfg : Cfg) (f : InputCb) (s s1 s2 : St) (chunks : List Str)
    (hi : RxInv cfg s) (hn : InCb cfg f s) (hq : Quiet s) (hf : Declines f) (hR : ReadsOk cfg s chunks s1)
    (hR' : ReadsOk { cfg with inputCb := none } s chunks s2) :
    s1.events = s2.events ∧ s1.cmd = s2.cmd ∧ s1.pfx = s2.pfx ∧ unread s1 = unread s2 := by
  obtain ⟨h1, h2, h3, h4⟩ := C73_input_callback_partial cfg f s s1 chunks _ hi hn hq hR
    (readsCb_declines hf chunks _ (by intro b hb; cases hb))
  have hi' : RxInv { cfg with inputCb := none } s := ⟨⟨hi.1.len, hi.1.last, hi.1.items, hi.1.data⟩, hi.2⟩
  obtain ⟨_, _, hb⟩ := readsOk_refine hR' hi' ⟨rfl, hn.send, hn.data, hn.urc⟩ hq.between
  rw [Rx.reads_input] at hb
  exact ⟨h1.trans hb.rep.events.symm, h2.trans hb.rep.cmd.symm, h3.trans hb.rep.pfx.symm, h4.trans hb.text.symm⟩

theorem scan_wait {cfg : Cfg} {f : InputCb} {a : Rx} {b : Byte} {r : Str} {k : Nat} (hb : ¬ LineEnd b)
    (hw : (f (b :: r)).1 = .sizeMismatch) (hsame : afterCb f (b :: r) = b :: r) :
    Rx.scan cfg f (k + 1) a (b :: r) = some (a, b :: r) := by
  have hd : (b :: r).dropWhile (fun b => decide (LineEnd b)) = b :: r := by
    rw [List.dropWhile_cons_of_neg]; simpa using hb
  simp only [Rx.scan, hd, offer, hw, hsame]

/-- A callback that needs more bytes is offered, with every read, all bytes since the first one it asked to
keep: as long as it answers so for each of these texts, nothing happens but that the bytes are kept. -/
theorem C73_waiting (cfg : Cfg) (f : InputCb) (s s' : St) (chunks : List Str) (hi : RxInv cfg s) (hn : InCb cfg f s)
    (hq : Quiet s) (hR : ReadsOk cfg s chunks s')
    (hw : ∀ k b r, (chunks.take k).flatten = b :: r →
      ¬ LineEnd b ∧ (f (b :: r)).1 = .sizeMismatch ∧ afterCb f (b :: r) = b :: r) :
    s'.events = s.events ∧ s'.cmd = s.cmd ∧ s'.pfx = s.pfx ∧ unread s' = chunks.flatten := by
  refine C73_input_callback_partial cfg f s s' chunks (⟨s.cmd, s.pfx, [], s.events⟩, chunks.flatten) hi hn hq hR ?_
  generalize (⟨s.cmd, s.pfx, [], s.events⟩ : Rx) = a
  have key : ∀ (cs : List Str) (cur : Str), (∀ k b r, cur ++ (cs.take k).flatten = b :: r →
      ¬ LineEnd b ∧ (f (b :: r)).1 = .sizeMismatch ∧ afterCb f (b :: r) = b :: r) →
      Rx.readsCb cfg f (a, cur) cs = some (a, cur ++ cs.flatten) := by
    intro cs
    induction cs with
    | nil => intro cur _; simp [Rx.readsCb]
    | cons c cs ih =>
      intro cur h
      have h1 : Rx.readCb cfg f (a, cur) c = some (a, cur ++ c) := by
        unfold Rx.readCb
        split
        · rename_i hc
          simp [hc]
        · rename_i hc
          simp only []
          have h2 := h 1
          simp only [List.take_succ_cons, List.take_zero, List.flatten_cons, List.flatten_nil, List.append_nil] at h2
          cases ht : cur ++ c with
          | nil => simp at ht; exact absurd ht.2 hc
          | cons b r =>
            obtain ⟨x, y, z⟩ := h2 b r ht
            exact scan_wait x y z
      unfold Rx.readsCb
      rw [h1]
      simp only []
      rw [ih (cur ++ c)]
      · simp
      · intro k b r hb
        exact h (k + 1) b r (by simpa using hb)
  have := key chunks [] (by simpa using hw)
  simpa using this

/-- A callback that reports an error, or that it has consumed more bytes than it was given: all bytes
received are thrown away, nothing is handed over, and a pending command stays pending. -/
theorem C73_failing (cfg : Cfg) (f : InputCb) (s s' : St) (b : Byte) (r : Str) (hi : RxInv cfg s) (hn : InCb cfg f s)
    (hq : Quiet s) (hR : ReadsOk cfg s [b :: r] s') (hb : ¬ LineEnd b)
    (hfail : ((f (b :: r)).1 = .ok ∧ (b :: r).length < (f (b :: r)).2.2) ∨
      ((f (b :: r)).1 ≠ .ok ∧ (f (b :: r)).1 ≠ .prefixMismatch ∧ (f (b :: r)).1 ≠ .sizeMismatch)) :
    s'.events = s.events ∧ s'.cmd = s.cmd ∧ s'.pfx = s.pfx ∧ unread s' = [] := by
  refine C73_input_callback_partial cfg f s s' [b :: r] (⟨s.cmd, s.pfx, [], s.events⟩, []) hi hn hq hR ?_
  have hd : (b :: r).dropWhile (fun b => decide (LineEnd b)) = b :: r := by
    rw [List.dropWhile_cons_of_neg]; simpa using hb
  have ho : offer f (b :: r) = .drop := by
    unfold offer
    rcases hfail with ⟨h1, h2⟩ | ⟨h1, h2, h3⟩
    · simp only [h1]
      rw [if_neg (by omega)]
    · cases h : (f (b :: r)).1 <;> simp_all
  simp [Rx.readsCb, Rx.readCb, Rx.scan, hd, ho]

/-! ## A port with frames: `@` and two bytes -/

/-- The callback of the example port. -/
def frameCb : InputCb := fun t =>
  match t with
  | 64 :: _ :: _ :: _ => (.ok, t, 3)
  | 64 :: _ => (.sizeMismatch, t, 0)
  | 35 :: _ => (.failure, t, 0)
  | _ => (.prefixMismatch, t, 0)

/-- The example port. -/
def frameCfg (size : Nat) : Cfg := { demoCfg size with inputCb := some frameCb }

/-- The callback of the example port without its error case. -/
def frameCb' : InputCb := fun t =>
  match t with
  | 64 :: _ :: _ :: _ => (.ok, t, 3)
  | 64 :: _ => (.sizeMismatch, t, 0)
  | _ => (.prefixMismatch, t, 0)

theorem frameCb'_recognises : Recognises frameCb' (fun F => ∃ x y, F = [64, x, y]) (· = 64) := by
  refine ⟨?_, ?_, ?_, ?_, ?_, ?_⟩
  · rintro F ⟨x, y, rfl⟩; exact ⟨_, _, rfl, rfl⟩
  · rintro b rfl; unfold LineEnd; decide
  · rintro F u ⟨x, y, rfl⟩; exact ⟨rfl, rfl⟩
  · rintro F u ⟨x, y, rfl⟩ h0 hp hne
    obtain ⟨v, hv⟩ := hp
    match u, h0, hne, hv with
    | [a], _, _, hv => simp at hv; obtain ⟨rfl, _⟩ := hv; rfl
    | [a, b], _, _, hv => simp at hv; obtain ⟨rfl, _⟩ := hv; rfl
    | a :: b :: c :: d, _, hne, hv =>
      simp at hv
      obtain ⟨rfl, rfl, rfl, hd, _⟩ := hv
      subst hd
      exact absurd rfl hne
  · intro t h
    unfold frameCb'
    split
    · exact absurd rfl (h _ _ rfl)
    · exact absurd rfl (h _ _ rfl)
    · rfl
  · intro t
    unfold afterCb frameCb'
    split <;> simp

example : RxInv { demoCfg 16 with inputCb := some frameCb' } (init 16) ∧
    InCb { demoCfg 16 with inputCb := some frameCb' } frameCb' (init 16) ∧ Quiet (init 16) ∧
    (∀ p ∈ [(⟨str "\r\n", some [64, 13, 0], str "RING", 13⟩ : Piece), ⟨str "\n", none, str "+A: 1", 10⟩],
      p.Ok (fun F => ∃ x y, F = [64, x, y]) (· = 64) ∧ p.bytes.length ≤ 16 ∧
      (UrcLike (demoCfg 16) p.line)) ∧
    ((rxRun { demoCfg 16 with inputCb := some frameCb' } (init 16)
      [.recv [13, 10, 64], .recv [13, 0, 82, 73], .recv (str "NG\r\n+A"), .recv (str ": 1\n")]).map (·.events)) =
      some [.urc (str "RING"), .urc (str "+A: 1")] := by
  refine ⟨⟨⟨by decide, by decide, by simp [init], rfl⟩, by simp [PosIn, init]⟩,
    ⟨rfl, ?_, rfl, rfl, fun _ => Nat.le_refl _⟩, ⟨rfl, rfl⟩, ?_, by decide +kernel⟩
  · intro t; unfold frameCb'; split <;> simp
  · intro p hp
    simp only [List.mem_cons, List.not_mem_nil, or_false] at hp
    rcases hp with rfl | rfl
    · refine ⟨⟨by unfold LineEnd; decide, ?_, by decide, by unfold LineEnd; decide, ?_, by unfold LineEnd; decide⟩,
        by decide, Or.inl ⟨_, rfl, by decide⟩⟩
      · intro F hF; cases hF; exact ⟨_, _, rfl⟩
      · intro b r h
        simp only [] at h
        have h1 : some b = (str "RING").head? := by rw [h]; rfl
        rw [show (str "RING").head? = some 82 from by decide] at h1
        cases h1
        decide
    · refine ⟨⟨by unfold LineEnd; decide, by simp, by decide, by unfold LineEnd; decide, ?_, by unfold LineEnd; decide⟩,
        by decide, Or.inr ⟨⟨str "A", str " 1", by decide, by unfold PrefixChar; decide⟩, by decide⟩⟩
      intro b r h
      simp only [] at h
      have h1 : some b = (str "+A: 1").head? := by rw [h]; rfl
      rw [show (str "+A: 1").head? = some 43 from by decide] at h1
      cases h1
      decide

/-- Two frames in one read: the callback is not asked again before the library looks for a line, so the
second frame is taken for the beginning of the line `RING`, which is lost.  The same bytes in two reads
are understood. -/
theorem C73_witness_adjacent_frames :
    (rxRun (frameCfg 16) (init 16) [.recv (str "@ab@cdRING\r\n")]).map (·.events) =
      some [.undefined (str "@cdRING")] ∧
    (rxRun (frameCfg 16) (init 16) [.recv (str "@ab"), .recv (str "@cdRING\r\n")]).map (·.events) =
      some [.urc (str "RING")] := by
  constructor <;> decide +kernel

/-- A frame followed by a line end: line ends are not skipped after a frame, so an empty line is processed.
With no command pending it is refused as undefined and the rest of the input is lost; a pending command is
given an empty line as its answer and the real answer is refused, or it is given a line too many. -/
theorem C73_witness_frame_then_line_end :
    (rxRun (frameCfg 16) (init 16) [.recv (str "@ab\r\nRING\r\n")]).map (·.events) =
      some [.undefined []] ∧
    (rxRun (frameCfg 20) (demoPending 20 .woPrefix none) [.recv (str "@ab\r\n1234\r\nOK\r\n")]).map
      (fun s => (s.events, s.cmd)) = some ([.undefined (str "1234")], .noCommand) ∧
    (rxRun (frameCfg 20) (demoPending 20 .multiWoPrefix none) [.recv (str "@ab\r\n1234\r\nOK\r\n")]).map
      (·.events) = some [.response true [[], str "1234"]] ∧
    (rxRun (frameCfg 20) (demoPending 20 .multiWoPrefix none)
      [.recv (str "@ab"), .recv (str "\r\n1234\r\nOK\r\n")]).map (·.events) =
      some [.response true [str "1234"]] := by
  refine ⟨?_, ?_, ?_, ?_⟩ <;> decide +kernel

/-- The callback fails while a response is being collected: the buffer is cleared under the collected lines,
and the command is completed as successful with lines the modem never sent in answer to it. -/
theorem C73_witness_collected_lost :
    (rxRun (frameCfg 20) (demoPending 20 .multiWoPrefix none)
      [.recv (str "1234\r\n"), .recv (str "#\r\n"), .recv (str "OK\r\n")]).map (·.events) =
      some [.response true [str "OK"]] := by decide +kernel

end Cellular.Props
