import Verif.PktioRefine
/-!
# Delivery of lines and responses (C10, C12, C13, C15)
-/

namespace Cellular.Props
open Cellular Cellular.Spec Cellular.Pktio

/-! ## Sequences of reads -/

/-- The receive task reads `chunks`, one per receive event; the transport never delivers more than it
was asked for.  An empty chunk is an event in which nothing was read. -/
inductive Reads (cfg : Cfg) : St → List Str → St → Prop
  | nil (s) : Reads cfg s [] s
  | cons {s s1 s2 chunk chunks k} : chunk.length ≤ room cfg s → rxEvent cfg s chunk = some (k, s1) →
      Reads cfg s1 chunks s2 → Reads cfg s (chunk :: chunks) s2

/-- The bytes received but not yet processed. -/
def unread (s : St) : Str := txt s.buf (s.readPtr.getD 0) s.partialLen

/-- The port has no input callback, handles unsolicited lines in place, and no prefix callback is
installed. -/
def Plain (cfg : Cfg) (s : St) : Prop :=
  cfg.inputCb = none ∧ s.sendCb = none ∧ s.dataCb = none ∧ ∀ l, (cfg.urcEdit l).length ≤ l.length

/-- Nothing is pending: no unread bytes, no lines collected. -/
def Quiet (s : St) : Prop := s.partialLen = 0 ∧ s.resp = none

theorem Plain.noCb {cfg : Cfg} {s : St} (h : Plain cfg s) : NoCb cfg s := ⟨h.1, h.2.1, h.2.2.1, h.2.2.2⟩

theorem Quiet.between {s : St} (h : Quiet s) : Between s ⟨s.cmd, s.pfx, [], s.events⟩ [] := by
  refine ⟨⟨rfl, rfl, rfl, ⟨by simp [h.2], by simp [h.2]⟩, fun _ _ => h.2⟩, by simp [txt, h.1], ?_⟩
  intro b hb; cases hb

theorem room_fits {cfg : Cfg} {s : St} (h : RxInv cfg s) :
    cfg.size ≤ room cfg s + (s.readPtr.getD 0 + s.partialLen) := by
  obtain ⟨s', p, pr, e, er, _, _, _, hpr, hpe, hpp, _⟩ := readPos_inv h
  rw [room_eq er]
  omega

/-- Reads whose total fits in the rest of the buffer do what the abstract receiver does. -/
theorem reads_fit {cfg : Cfg} {s s' : St} {chunks : List Str} (hR : Reads cfg s chunks s') :
    ∀ {a : Rx} {cur : Str}, RxInv cfg s → NoCb cfg s → Between s a cur →
    s.readPtr.getD 0 + s.partialLen + chunks.flatten.length < cfg.size →
    RxInv cfg s' ∧ NoCb cfg s' ∧
      Between s' (Rx.reads cfg (a, cur) chunks).1 (Rx.reads cfg (a, cur) chunks).2 := by
  induction hR with
  | nil s => intro a cur h hn hb _; exact ⟨h, hn, hb⟩
  | cons hroom he _ ih =>
    intro a cur h hn hb hfit
    have hrf := room_fits h
    simp only [List.flatten_cons, List.length_append] at hfit
    obtain ⟨k, s1, e, h1, n1, b1, p1⟩ := rxEvent_refines h hn hb hroom
      (fun ho => by have := ho.1; omega)
    rw [he] at e
    cases e
    simp only [PosIn] at p1
    exact ih h1 n1 b1 (by omega)

theorem feed_run {cfg : Cfg} : ∀ {ls : List Str} {a a' : Rx} {cur : Str}, Rx.run cfg a ls = some a' →
    Rx.feed cfg a ls cur = (a', cur) := by
  intro ls
  induction ls with
  | nil => intro a a' cur h; simp only [Rx.run, Option.some.injEq] at h; simp [Rx.feed, h]
  | cons l t ih =>
    intro a a' cur h
    simp only [Rx.run] at h
    simp only [Rx.feed]
    cases hl : a.line cfg l with
    | none => rw [hl] at h; cases h
    | some b => rw [hl] at h; exact ih h

/-- As long as no line is refused, the reads make no difference: only the stream counts. -/
theorem reads_run {cfg : Cfg} : ∀ {chunks : List Str} {a a' : Rx} {cur : Str},
    Rx.run cfg a (linesFrom cur chunks.flatten).1 = some a' →
    Rx.reads cfg (a, cur) chunks = (a', (linesFrom cur chunks.flatten).2) := by
  intro chunks
  induction chunks with
  | nil =>
    intro a a' cur h
    simp only [List.flatten_nil, linesFrom, Rx.run, Option.some.injEq] at h
    simp [Rx.reads, linesFrom, h]
  | cons c t ih =>
    intro a a' cur h
    rw [List.flatten_cons, linesFrom_append] at h ⊢
    simp only [] at h ⊢
    rw [Rx.run_append] at h
    cases h1 : Rx.run cfg a (linesFrom cur c).1 with
    | none => rw [h1] at h; cases h
    | some a1 =>
      rw [h1] at h
      have := ih (a := a1) (cur := (linesFrom cur c).2) h
      simp only [Rx.reads, List.foldl_cons] at this ⊢
      rw [show Rx.read cfg (a, cur) c = (a1, (linesFrom cur c).2) from feed_run h1]
      exact this

/-! ## Idle library -/

/-- A line that is an unsolicited result code: listed by the port, or with a prefix. -/
def UrcLike (cfg : Cfg) (l : Str) : Prop := Listed cfg l ∨ (Prefixed l ∧ l.length ≤ 256)

theorem line_idle {cfg : Cfg} {a : Rx} {l : Str} (hc : a.cmd = .noCommand) (hp : a.pfx = none)
    (hne : l ≠ []) (h : UrcLike cfg l ∨ cfg.undefCb l = .ok) :
    ∃ e, a.line cfg l = some { a with events := a.events ++ [e] } ∧
      (e = .urc l ∧ UrcLike cfg l ∨ e = .undefined l ∧ ¬ UrcLike cfg l) := by
  have hcl : getMsgType cfg a.cmd a.pfx l = .unsolicited ∧ UrcLike cfg l ∨
      getMsgType cfg a.cmd a.pfx l = .undefined ∧ ¬ UrcLike cfg l := by
    rw [hc, hp]
    by_cases hlen : l.length ≤ 256
    · have hC := C14_classification_partial cfg .noCommand none l hne hlen (by simp)
      have hA : ¬ AwaitedPrefix .noCommand none l := by rintro ⟨h, _⟩; exact h rfl
      by_cases hu : UrcLike cfg l
      · refine Or.inl ⟨hC.1.mpr ?_, hu⟩
        rcases hu with h1 | h1
        · exact Or.inl h1
        · exact Or.inr ⟨h1.1, hA⟩
      · exact Or.inr ⟨hC.2.2.mpr ⟨fun hx => hu (Or.inl hx), fun hx => hu (Or.inr ⟨hx, hlen⟩), rfl⟩, hu⟩
    · by_cases hl : Listed cfg l
      · exact Or.inl ⟨by simp [getMsgType, (isUrcToken_iff cfg l).mpr hl], Or.inl hl⟩
      · have := C14_witness_long_lines cfg .noCommand none l (by omega) hl
        refine Or.inr ⟨by simpa using this, ?_⟩
        rintro (h | h)
        · exact hl h
        · exact hlen h.2
  rcases hcl with ⟨hm, hu⟩ | ⟨hm, hu⟩
  · exact ⟨_, by simp [Rx.line, hm], Or.inl ⟨rfl, hu⟩⟩
  · have := h.resolve_left hu
    exact ⟨_, by simp [Rx.line, hm, Rx.undefinedLine, this], Or.inr ⟨rfl, hu⟩⟩

/-- What the packet handler is given for a line while the library is idle. -/
def HandedOver (cfg : Cfg) (l : Str) (e : Event) : Prop :=
  e = .urc l ∧ UrcLike cfg l ∨ e = .undefined l ∧ ¬ UrcLike cfg l

theorem run_idle {cfg : Cfg} : ∀ {ls : List Str} {a : Rx}, a.cmd = .noCommand → a.pfx = none →
    (∀ l ∈ ls, l ≠ [] ∧ (UrcLike cfg l ∨ cfg.undefCb l = .ok)) →
    ∃ evs, Rx.run cfg a ls = some { a with events := a.events ++ evs } ∧
      List.Forall₂ (HandedOver cfg) ls evs := by
  intro ls
  induction ls with
  | nil => intro a _ _ _; exact ⟨[], by simp [Rx.run], .nil⟩
  | cons l t ih =>
    intro a hc hp h
    obtain ⟨e, he, hh⟩ := line_idle hc hp (h l (by simp)).1 (h l (by simp)).2
    obtain ⟨evs, hr, hf⟩ := ih (a := { a with events := a.events ++ [e] }) hc hp
      (fun x hx => h x (by simp [hx]))
    refine ⟨e :: evs, ?_, .cons hh hf⟩
    simp only [Rx.run, he, hr]
    simp

theorem linesFrom_ne_nil : ∀ (t cur : Str), ∀ l ∈ (linesFrom cur t).1, l ≠ [] := by
  intro t
  induction t with
  | nil => intro cur l hl; simp [linesFrom] at hl
  | cons b t ih =>
    intro cur l hl
    simp only [linesFrom] at hl
    split at hl
    · split at hl
      · exact ih _ l hl
      · rename_i hne
        rcases List.mem_cons.mp hl with rfl | hl
        · exact hne
        · exact ih _ l hl
    · exact ih _ l hl

/-- An unfinished line becomes part of a line or of the unfinished line at the end. -/
theorem linesFrom_grows : ∀ (t cur : Str),
    (∃ l ∈ (linesFrom cur t).1, cur.length ≤ l.length) ∨ cur.length ≤ (linesFrom cur t).2.length := by
  intro t
  induction t with
  | nil => intro cur; exact Or.inr (Nat.le_refl _)
  | cons b t ih =>
    intro cur
    simp only [linesFrom]
    split
    · split
      · rename_i hc; subst hc; exact Or.inr (Nat.zero_le _)
      · exact Or.inl ⟨cur, by simp, Nat.le_refl _⟩
    · rcases ih (cur ++ [b]) with ⟨l, hl, h⟩ | h
      · exact Or.inl ⟨l, hl, by simp at h; omega⟩
      · exact Or.inr (by simp at h; omega)

theorem idle_room {cfg : Cfg} {s : St} {a : Rx} {cur : Str} (h : RxInv cfg s)
    (hrep : Rep s a (s.readPtr.getD 0)) (htext : txt s.buf (s.readPtr.getD 0) s.partialLen = cur)
    (hc : a.cmd = .noCommand) (hl : a.lines = []) (hcur : cur ≠ []) (hlen : cur.length < cfg.size) :
    0 < room cfg s := by
  have hres := hrep.idle hc hl
  have hcl : cur.length = s.partialLen := by
    rw [← htext]
    apply txt_length
    have := h.1.len
    have := h.2
    simp only [PosIn] at this
    omega
  have hp0 : s.partialLen ≠ 0 := by
    rw [← hcl]; intro e; exact hcur (List.length_eq_zero_iff.mp e)
  obtain ⟨s', p, pr, e, er, _, _, _, hpr, hpe, _⟩ := readPos_inv h
  rw [room_eq er]
  have hp : p = 0 := by
    unfold readPos at er
    cases hr : s.readPtr with
    | none => rw [hr] at er; simp only [Option.some.injEq, Prod.mk.injEq] at er; exact er.2.1.symm
    | some q =>
      rw [hr] at er
      simp only [] at er
      by_cases hq : q = 0
      · subst hq
        simp only [ne_eq, not_true_eq_false, false_and, if_false, Option.some.injEq, Prod.mk.injEq] at er
        exact er.2.1.symm
      · rw [if_pos ⟨hq, hp0, hres⟩] at er
        cases h1 : slice s.buf q s.partialLen with
        | none => rw [h1] at er; cases er
        | some rest =>
          rw [h1] at er
          simp only [] at er
          cases h2 : put s.buf 0 rest with
          | none => rw [h2] at er; cases er
          | some m =>
            rw [h2] at er
            simp only [Option.map_eq_some_iff, Prod.mk.injEq] at er
            obtain ⟨m', _, _, hp, _⟩ := er
            exact hp.symm
  omega

/-- Reads of an idle library, of any total length. -/
theorem reads_idle {cfg : Cfg} {s s' : St} {chunks : List Str} (hR : Reads cfg s chunks s') :
    ∀ {a : Rx} {cur : Str}, RxInv cfg s → NoCb cfg s → Between s a cur →
    a.cmd = .noCommand → a.pfx = none → a.lines = [] →
    (∀ l ∈ (linesFrom cur chunks.flatten).1, l.length < cfg.size ∧ (UrcLike cfg l ∨ cfg.undefCb l = .ok)) →
    (linesFrom cur chunks.flatten).2.length < cfg.size →
    RxInv cfg s' ∧ NoCb cfg s' ∧ ∃ evs,
      Between s' { a with events := a.events ++ evs } (linesFrom cur chunks.flatten).2 ∧
      List.Forall₂ (HandedOver cfg) (linesFrom cur chunks.flatten).1 evs := by
  induction hR with
  | nil s =>
    intro a cur h hn hb _ _ _ _ _
    exact ⟨h, hn, [], by simpa [linesFrom] using hb, by simp [linesFrom]⟩
  | cons hroom he _ ih =>
    rename_i s s1 s2 chunk chunks k hR
    intro a cur h hn hb hc hp hl hlines hlast
    rw [List.flatten_cons, linesFrom_append] at hlines hlast ⊢
    simp only [] at hlines hlast ⊢
    have hno : ¬ Overflow cfg s a cur := by
      rintro ⟨h0, h1⟩
      have hcur : cur ≠ [] := by
        rcases h1 with h1 | h1
        · exact h1
        · exact absurd hl h1
      have hlen : cur.length < cfg.size := by
        have hg := linesFrom_grows (chunk ++ chunks.flatten) cur
        rw [linesFrom_append] at hg
        rcases hg with ⟨l, hm, hle⟩ | hle
        · have := (hlines l hm).1; omega
        · simp only [] at hle; omega
      have := idle_room h hb.rep hb.text hc hl hcur hlen
      omega
    obtain ⟨k', s1', e, h1, n1, b1, _⟩ := rxEvent_refines h hn hb hroom hno
    rw [he] at e
    cases e
    obtain ⟨evs1, hr1, hf1⟩ := run_idle (cfg := cfg) (ls := (linesFrom cur chunk).1) hc hp (fun l hlm =>
      ⟨linesFrom_ne_nil _ _ l hlm, (hlines l (by simp [hlm])).2⟩)
    have hread : Rx.read cfg (a, cur) chunk = ({ a with events := a.events ++ evs1 }, (linesFrom cur chunk).2) :=
      feed_run hr1
    rw [hread] at b1
    obtain ⟨hi, hn', evs2, hb2, hf2⟩ := ih (a := { a with events := a.events ++ evs1 }) h1 n1 b1 hc hp hl
      (fun l hlm => hlines l (by simp [hlm])) hlast
    refine ⟨hi, hn', evs1 ++ evs2, by simpa using hb2, ?_⟩
    exact List.rel_append hf1 hf2

/-! ## C10 -/

/-- While no command is pending, whatever the bytes and however they are cut into reads - of any total
length - every complete non-empty line is handed over exactly once, in order and unchanged:
unsolicited result codes to the unsolicited handler, other lines to the handler of undefined
messages; and the unfinished line at the end is kept.
Missing: lines as long as the buffer, and streams with a line the handler of undefined messages
refuses (witnesses below). -/
theorem C10_lines_delivered_partial (cfg : Cfg) (s s' : St) (chunks : List Str)
    (hi : RxInv cfg s) (hpl : Plain cfg s) (hq : Quiet s) (hc : s.cmd = .noCommand) (hp : s.pfx = none)
    (hR : Reads cfg s chunks s')
    (hlines : ∀ l ∈ linesOf chunks.flatten, l.length < cfg.size ∧ (UrcLike cfg l ∨ cfg.undefCb l = .ok))
    (hlast : (unfinished chunks.flatten).length < cfg.size) :
    ∃ evs, s'.events = s.events ++ evs ∧
      List.Forall₂ (HandedOver cfg) (linesOf chunks.flatten) evs ∧
      unread s' = unfinished chunks.flatten := by
  obtain ⟨_, _, evs, hb, hf⟩ := reads_idle hR hi hpl.noCb hq.between hc hp rfl hlines hlast
  exact ⟨evs, hb.rep.events, hf, hb.text⟩

/-- Two ways of cutting the same stream into reads give the same events. -/
theorem C10_chunking_irrelevant_partial (cfg : Cfg) (s s1 s2 : St) (chunks1 chunks2 : List Str)
    (hi : RxInv cfg s) (hpl : Plain cfg s) (hq : Quiet s) (hc : s.cmd = .noCommand) (hp : s.pfx = none)
    (hR1 : Reads cfg s chunks1 s1) (hR2 : Reads cfg s chunks2 s2) (heq : chunks1.flatten = chunks2.flatten)
    (hlines : ∀ l ∈ linesOf chunks1.flatten, l.length < cfg.size ∧ (UrcLike cfg l ∨ cfg.undefCb l = .ok))
    (hlast : (unfinished chunks1.flatten).length < cfg.size) :
    s1.events = s2.events ∧ unread s1 = unread s2 := by
  obtain ⟨e1, a1, b1, c1⟩ := C10_lines_delivered_partial cfg s s1 chunks1 hi hpl hq hc hp hR1 hlines hlast
  obtain ⟨e2, a2, b2, c2⟩ := C10_lines_delivered_partial cfg s s2 chunks2 hi hpl hq hc hp hR2
    (heq ▸ hlines) (heq ▸ hlast)
  have : ∀ (ls : List Str) (x y : List Event), List.Forall₂ (HandedOver cfg) ls x →
      List.Forall₂ (HandedOver cfg) ls y → x = y := by
    intro ls
    induction ls with
    | nil => intro x y hx hy; cases hx; cases hy; rfl
    | cons l t ih =>
      intro x y hx hy
      cases hx with
      | cons hx hx' =>
        cases hy with
        | cons hy hy' =>
          rw [ih _ _ hx' hy']
          rcases hx with ⟨rfl, h⟩ | ⟨rfl, h⟩ <;> rcases hy with ⟨rfl, h'⟩ | ⟨rfl, h'⟩
          · rfl
          · exact absurd h h'
          · exact absurd h' h
          · rfl
  rw [heq] at b1 c1
  exact ⟨by rw [a1, a2, this _ _ _ b1 b2], by rw [c1, c2]⟩

/-- Such reads are always possible: an idle library never gets stuck - it can accept a byte now, or after
one more receive event. -/
theorem C10_never_stuck (cfg : Cfg) (s : St) (hi : RxInv cfg s) (hpl : Plain cfg s) (hsz : 0 < cfg.size) :
    0 < room cfg s ∨ ∃ s1, rxEvent cfg s [] = some (0, s1) ∧ room cfg s1 = cfg.size := by
  by_cases h0 : 0 < room cfg s
  · exact Or.inl h0
  · right
    obtain ⟨s1, p, pr, e, er, _, _, _, hpr, hpe, _⟩ := readPos_inv hi
    rw [room_eq er] at h0
    refine ⟨{ s1 with partialLen := 0, readPtr := none }, ?_, ?_⟩
    · simp only [rxEvent, er]
      rw [if_neg (by omega)]
    · simp [room, readPos]

/-- The reads of the example below. -/
def demoChunks : List Str := [str "\r\nRI", str "NG\r\n+CREG: 1", str "\r", str "\nRING\r\n+CSQ"]

example : RxInv (demoCfg 16) (init 16) ∧ Plain (demoCfg 16) (init 16) ∧ Quiet (init 16) ∧
    linesOf demoChunks.flatten = [str "RING", str "+CREG: 1", str "RING"] ∧
    unfinished demoChunks.flatten = str "+CSQ" ∧
    ((rxRun (demoCfg 40) (init 40) (demoChunks.map .recv)).map (fun s => (s.events, unread s))) =
      some ([.urc (str "RING"), .urc (str "+CREG: 1"), .urc (str "RING")], str "+CSQ") :=
  ⟨rxInv_init (demoCfg 16), ⟨rfl, rfl, rfl, fun _ => Nat.le_refl _⟩, ⟨rfl, rfl⟩, by decide +kernel,
    by decide +kernel, by decide +kernel⟩

/-- A line nobody expects makes the library drop every line after it in the same read - but not when they
come in another read. -/
theorem C10_witness_dropped_lines :
    (rxRun (demoCfg 40) (init 40) [.recv (str "hello\r\nRING\r\n")]).map (·.events) =
      some [.undefined (str "hello")] ∧
    (rxRun (demoCfg 40) (init 40) [.recv (str "hello\r\n"), .recv (str "RING\r\n")]).map (·.events) =
      some [.undefined (str "hello"), .urc (str "RING")] := by decide +kernel

/-- A line as long as the buffer is lost, and its end is taken for a line. -/
theorem C10_witness_long_line :
    (rxRun { demoCfg 8 with undefCb := fun _ => .ok } (init 8)
      [.recv (str "+CREG: 1"), .recv [], .recv (str ",2\r\n")]).map (·.events) =
      some [.undefined (str ",2")] := by decide +kernel

/-! ## C12 -/

/-- The inner loop of `_pktioReadThread`, cellular_pktio.c:1237-1241: handle receive events until one
reports no byte.  `pending` are the bytes the transport holds; each `recv` takes as many of them as fit.
Result: bytes left in the transport, state. -/
def drain (cfg : Cfg) : Nat → St → Str → Option (Str × St)
  | 0, _, _ => none
  | k + 1, s, pending =>
    match rxEvent cfg s (pending.take (room cfg s)) with
    | none => none
    | some (n, s') => if n = 0 then some (pending, s') else drain cfg k s' (pending.drop (room cfg s))

/-- A receive event reports no byte exactly when the transport delivered none. -/
theorem C12_stops_when_no_byte (cfg : Cfg) (s s' : St) (chunk : Str) (k : Nat) (h : RxInv cfg s)
    (hc : CallbacksInText cfg s) (hroom : chunk.length ≤ room cfg s) (e : rxEvent cfg s chunk = some (k, s')) :
    k = 0 ↔ chunk = [] := by
  obtain ⟨k', s'', e', _, _, _, hk⟩ := rxEvent_inv h hc hroom
  rw [e] at e'
  cases e'
  exact hk

/-- Handling a notification reads everything the transport holds if that is less than the free space.
Missing: more bytes - the loop stops when a read fills the buffer exactly (witness). -/
theorem C12_drains_partial (cfg : Cfg) : ∀ (k : Nat) (s : St) (pending : Str), RxInv cfg s →
    CallbacksInText cfg s → s.readPtr.getD 0 + s.partialLen + pending.length < cfg.size →
    pending.length + 1 < k → ∃ s', drain cfg k s pending = some ([], s') ∧ RxInv cfg s' := by
  intro k
  induction k with
  | zero => intro s pending _ _ _ h; omega
  | succ k ih =>
    intro s pending h hc hfit hk
    have hrf := room_fits h
    have htake : pending.take (room cfg s) = pending := List.take_of_length_le (by omega)
    have hdrop : pending.drop (room cfg s) = [] := List.drop_eq_nil_of_le (by omega)
    unfold drain
    rw [htake, hdrop]
    obtain ⟨n, s1, e, h1, sc, hpos, hk0⟩ := rxEvent_inv h hc (chunk := pending) (by omega)
    rw [e]
    simp only []
    by_cases hp : pending = []
    · rw [if_pos (hk0.mpr hp)]
      subst hp
      exact ⟨s1, rfl, h1⟩
    · rw [if_neg (fun hx => hp (hk0.mp hx))]
      have hpl : 0 < pending.length := List.length_pos_iff.mpr hp
      simp only [PosIn] at hpos
      exact ih s1 [] h1 (hc.of_same sc) (by simp; omega) (by simp; omega)

example : RxInv (demoCfg 16) (init 16) ∧ (init 16).partialLen + (str "RING\r\nRING\r\n").length < 16 ∧
    ((drain (demoCfg 16) 20 (init 16) (str "RING\r\nRING\r\n")).map (fun r => (r.1, r.2.events))) =
      some ([], [.urc (str "RING"), .urc (str "RING")]) :=
  ⟨rxInv_init (demoCfg 16), by decide, by decide +kernel⟩

/-- A read that fills the buffer exactly: the next event reports no byte although the transport holds
more, the receive task goes back to sleep, and the second line waits for another notification. -/
theorem C12_witness_stall :
    (drain (demoCfg 6) 20 (init 6) (str "RING\r\nRING\r\n")).map (fun r => (r.1, r.2.events)) =
      some (str "RING\r\n", [.urc (str "RING")]) := by decide +kernel

/-! ## C13 -/

/-- The lines of every response reported by the abstract receiver are received lines, in order. -/
theorem run_responses {cfg : Cfg} : ∀ (ls : List Str) (a a' : Rx), Rx.run cfg a ls = some a' →
    ∃ evs, a'.events = a.events ++ evs ∧ (a'.lines.Sublist (a.lines ++ ls)) ∧
      ∀ st r, Event.response st r ∈ evs → r.Sublist (a.lines ++ ls) := by
  intro ls
  induction ls with
  | nil =>
    intro a a' h
    simp only [Rx.run, Option.some.injEq] at h
    subst h
    exact ⟨[], by simp, by simp, by simp⟩
  | cons l t ih =>
    intro a a' h
    simp only [Rx.run] at h
    cases hl : a.line cfg l with
    | none => rw [hl] at h; cases h
    | some b =>
      rw [hl] at h
      obtain ⟨evs, e1, e2, e3⟩ := ih b a' h
      -- effect of the first line
      have hone : ∃ ev, b.events = a.events ++ ev ∧ b.lines.Sublist (a.lines ++ [l]) ∧
          ∀ st r, Event.response st r ∈ ev → r.Sublist (a.lines ++ [l]) := by
        have hund : ∀ b', a.undefinedLine cfg l = some b' →
            ∃ ev, b'.events = a.events ++ ev ∧ b'.lines.Sublist (a.lines ++ [l]) ∧
            ∀ st r, Event.response st r ∈ ev → r.Sublist (a.lines ++ [l]) := by
          intro b' hb
          unfold Rx.undefinedLine at hb
          split at hb
          · cases hb
            exact ⟨_, rfl, by simp, by simp⟩
          · cases hb
        have hcomp : ∀ st ls', ls'.Sublist (a.lines ++ [l]) →
            ∃ ev, (a.complete st ls').events = a.events ++ ev ∧
            (a.complete st ls').lines.Sublist (a.lines ++ [l]) ∧
            ∀ st r, Event.response st r ∈ ev → r.Sublist (a.lines ++ [l]) := by
          intro st ls' hs
          refine ⟨_, rfl, by simp [Rx.complete], ?_⟩
          intro st' r hr
          simp at hr
          rw [hr.2]; exact hs
        have hsave : ∃ ev, a.events = a.events ++ ev ∧ (a.lines ++ [l]).Sublist (a.lines ++ [l]) ∧
            ∀ st r, Event.response st r ∈ ev → r.Sublist (a.lines ++ [l]) := ⟨[], by simp, by simp, by simp⟩
        unfold Rx.line at hl
        split at hl
        · cases hl
          exact ⟨_, rfl, by simp, by simp⟩
        · exact hund b hl
        · split at hl
          · exact hund b hl
          · split at hl
            · cases hl; exact hcomp _ _ (by simp)
            · split at hl
              · cases hl; exact hcomp _ _ (by simp)
              · split at hl
                case h_1 =>
                  split at hl
                  · cases hl; exact ⟨[], by simp, by simp, by simp⟩
                  · exact hund b hl
                case h_2 =>
                  split at hl
                  · cases hl; exact ⟨[], by simp, by simp, by simp⟩
                  · exact hund b hl
                case h_3 => cases hl; exact hsave
                case h_4 => cases hl; exact hsave
                case h_5 => cases hl; exact hsave
                case h_6 => cases hl; exact hcomp _ _ (by simp)
                case h_7 => cases hl; exact hcomp _ _ (by simp)
                case h_8 => exact hund b hl
                case h_9 => exact hund b hl
      obtain ⟨ev, f1, f2, f3⟩ := hone
      have hsub : (b.lines ++ t).Sublist (a.lines ++ l :: t) := by
        have := f2.append (List.Sublist.refl t)
        simpa using this
      refine ⟨ev ++ evs, by rw [e1, f1, List.append_assoc], e2.trans hsub, ?_⟩
      intro st r hr
      rcases List.mem_append.mp hr with hr | hr
      · exact (f3 st r hr).trans (by
          have := (List.Sublist.refl (a.lines ++ [l])).append (List.nil_sublist t)
          simpa using this)
      · exact (e3 st r hr).trans hsub

/-- The lines of one read: processed up to the end, or up to a refused line. -/
theorem feed_cases {cfg : Cfg} : ∀ (ls : List Str) (a : Rx) (cur : Str),
    (∃ a', Rx.run cfg a ls = some a' ∧ Rx.feed cfg a ls cur = (a', cur)) ∨
    (∃ ls1 l ls2 a', ls = ls1 ++ l :: ls2 ∧ Rx.run cfg a ls1 = some a' ∧
      Rx.feed cfg a ls cur = (a'.dropped l, [])) := by
  intro ls
  induction ls with
  | nil => intro a cur; exact Or.inl ⟨a, rfl, rfl⟩
  | cons l t ih =>
    intro a cur
    cases hl : a.line cfg l with
    | none => exact Or.inr ⟨[], l, t, a, rfl, rfl, by simp [Rx.feed, hl]⟩
    | some b =>
      rcases ih b cur with ⟨a', h1, h2⟩ | ⟨ls1, x, ls2, a', h1, h2, h3⟩
      · exact Or.inl ⟨a', by simp [Rx.run, hl, h1], by simp [Rx.feed, hl, h2]⟩
      · exact Or.inr ⟨l :: ls1, x, ls2, a', by simp [h1], by simp [Rx.run, hl, h2], by simp [Rx.feed, hl, h3]⟩

/-- Without a pending command a line reports no response. -/
theorem line_noCommand {cfg : Cfg} {a b : Rx} {l : Str} (hc : a.cmd = .noCommand)
    (h : a.line cfg l = some b) :
    b.cmd = .noCommand ∧ ∃ ev, b.events = a.events ++ ev ∧ ∀ st r, Event.response st r ∉ ev := by
  unfold Rx.line at h
  split at h
  · cases h; exact ⟨hc, _, rfl, by simp⟩
  · unfold Rx.undefinedLine at h
    split at h
    · cases h; exact ⟨hc, _, rfl, by simp⟩
    · cases h
  · rename_i hm
    exact absurd hc (getMsgType_solicited hm)

theorem feed_noCommand {cfg : Cfg} : ∀ (ls : List Str) (a : Rx) (cur : Str), a.cmd = .noCommand →
    (Rx.feed cfg a ls cur).1.cmd = .noCommand ∧
    ∃ ev, (Rx.feed cfg a ls cur).1.events = a.events ++ ev ∧ ∀ st r, Event.response st r ∉ ev := by
  intro ls
  induction ls with
  | nil => intro a cur h; exact ⟨h, [], by simp [Rx.feed], by simp⟩
  | cons l t ih =>
    intro a cur h
    simp only [Rx.feed]
    cases hl : a.line cfg l with
    | none => exact ⟨rfl, _, rfl, by simp⟩
    | some b =>
      obtain ⟨hb, ev, e1, e2⟩ := line_noCommand h hl
      obtain ⟨hb', ev', e1', e2'⟩ := ih b cur hb
      refine ⟨hb', ev ++ ev', by rw [e1', e1, List.append_assoc], ?_⟩
      intro st r hr
      rcases List.mem_append.mp hr with hr | hr
      · exact e2 st r hr
      · exact e2' st r hr

theorem reads_noCommand {cfg : Cfg} : ∀ (chunks : List Str) (x : Rx × Str), x.1.cmd = .noCommand →
    ∃ ev, (Rx.reads cfg x chunks).1.events = x.1.events ++ ev ∧ ∀ st r, Event.response st r ∉ ev := by
  intro chunks
  induction chunks with
  | nil => intro x _; exact ⟨[], by simp [Rx.reads], by simp⟩
  | cons c t ih =>
    intro x h
    obtain ⟨h1, ev, e1, e2⟩ := feed_noCommand (cfg := cfg) (linesFrom x.2 c).1 x.1 (linesFrom x.2 c).2 h
    obtain ⟨ev', e1', e2'⟩ := ih (Rx.read cfg x c) h1
    refine ⟨ev ++ ev', ?_, ?_⟩
    · simp only [Rx.reads, List.foldl_cons] at e1' ⊢
      rw [e1', show (Rx.read cfg x c).1.events = x.1.events ++ ev from e1, List.append_assoc]
    · intro st r hr
      rcases List.mem_append.mp hr with hr | hr
      · exact e2 st r hr
      · exact e2' st r hr

/-- The lines of every response reported by the abstract receiver reading in pieces are received lines. -/
theorem reads_responses {cfg : Cfg} : ∀ (chunks : List Str) (a : Rx) (cur : Str),
    ∃ evs, (Rx.reads cfg (a, cur) chunks).1.events = a.events ++ evs ∧
      ∀ st r, Event.response st r ∈ evs → r.Sublist (a.lines ++ (linesFrom cur chunks.flatten).1) := by
  intro chunks
  induction chunks with
  | nil => intro a cur; exact ⟨[], by simp [Rx.reads], by simp⟩
  | cons c t ih =>
    intro a cur
    rw [List.flatten_cons, linesFrom_append]
    simp only [Rx.reads, List.foldl_cons] at ih ⊢
    rcases feed_cases (cfg := cfg) (linesFrom cur c).1 a (linesFrom cur c).2 with
      ⟨a', h1, h2⟩ | ⟨ls1, l, ls2, a', h0, h1, h2⟩
    · obtain ⟨ev, e1, e2, e3⟩ := run_responses _ _ _ h1
      obtain ⟨ev', f1, f2⟩ := ih a' (linesFrom cur c).2
      rw [show Rx.read cfg (a, cur) c = (a', (linesFrom cur c).2) from h2]
      refine ⟨ev ++ ev', by rw [f1, e1, List.append_assoc], ?_⟩
      intro st r hr
      rw [← List.append_assoc]
      rcases List.mem_append.mp hr with hr | hr
      · have := (e3 st r hr).append (List.nil_sublist (linesFrom (linesFrom cur c).2 t.flatten).1)
        simpa using this
      · exact (f2 st r hr).trans (e2.append (List.Sublist.refl _))
    · obtain ⟨ev, e1, e2, e3⟩ := run_responses _ _ _ h1
      rw [show Rx.read cfg (a, cur) c = (a'.dropped l, []) from h2]
      obtain ⟨ev', f1, f2⟩ := reads_noCommand (cfg := cfg) t (a'.dropped l, []) rfl
      simp only [Rx.reads] at f1
      refine ⟨ev ++ (.undefined l :: ev'), ?_, ?_⟩
      · rw [f1]; simp [Rx.dropped, e1]
      · intro st r hr
        rcases List.mem_append.mp hr with hr | hr
        · refine (e3 st r hr).trans ?_
          apply List.Sublist.append (List.Sublist.refl _)
          rw [h0]
          simp
        · rcases List.mem_cons.mp hr with hr | hr
          · cases hr
          · exact absurd hr (f2 st r)

/-- The buffer is full although it still holds an unfinished line or lines of the pending response. -/
def BufferOverflow (cfg : Cfg) (s : St) : Prop :=
  room cfg s = 0 ∧ (s.partialLen ≠ 0 ∨ ∃ r, s.resp = some r ∧ r.items ≠ [])

/-- Reads in which the buffer never overflows. -/
inductive ReadsOk (cfg : Cfg) : St → List Str → St → Prop
  | nil (s) : ReadsOk cfg s [] s
  | cons {s s1 s2 chunk chunks k} : ¬ BufferOverflow cfg s → chunk.length ≤ room cfg s →
      rxEvent cfg s chunk = some (k, s1) → ReadsOk cfg s1 chunks s2 → ReadsOk cfg s (chunk :: chunks) s2

theorem Between.overflow {cfg : Cfg} {s : St} {a : Rx} {cur : Str} (hb : Between s a cur)
    (h : Overflow cfg s a cur) : BufferOverflow cfg s := by
  refine ⟨h.1, ?_⟩
  rcases h.2 with h1 | h1
  · left
    intro e
    apply h1
    rw [← hb.text, e]
    simp [txt]
  · right
    cases hr : s.resp with
    | none =>
      have := hb.rep.items.2
      rw [hr] at this
      simp only [Option.getD_none] at this
      generalize a.lines = x at this h1
      cases this
      exact absurd rfl h1
    | some r =>
      refine ⟨r, rfl, fun e => ?_⟩
      have := hb.rep.items.2
      rw [hr] at this
      simp only [Option.getD_some, e] at this
      generalize a.lines = x at this h1
      cases this
      exact absurd rfl h1

/-- Reads without overflow do what the abstract receiver does. -/
theorem readsOk_refine {cfg : Cfg} {s s' : St} {chunks : List Str} (hR : ReadsOk cfg s chunks s') :
    ∀ {a : Rx} {cur : Str}, RxInv cfg s → NoCb cfg s → Between s a cur →
    RxInv cfg s' ∧ NoCb cfg s' ∧
      Between s' (Rx.reads cfg (a, cur) chunks).1 (Rx.reads cfg (a, cur) chunks).2 := by
  induction hR with
  | nil s => intro a cur h hn hb; exact ⟨h, hn, hb⟩
  | cons hov hroom he _ ih =>
    intro a cur h hn hb
    obtain ⟨k, s1, e, h1, n1, b1, _⟩ := rxEvent_refines h hn hb hroom (fun ho => hov (hb.overflow ho))
    rw [he] at e
    cases e
    exact ih h1 n1 b1

/-- Reads whose total is less than the space after the read position cannot overflow. -/
theorem readsOk_of_fits {cfg : Cfg} {s s' : St} {chunks : List Str} (hR : Reads cfg s chunks s') :
    RxInv cfg s → CallbacksInText cfg s →
    s.readPtr.getD 0 + s.partialLen + chunks.flatten.length < cfg.size → ReadsOk cfg s chunks s' := by
  induction hR with
  | nil s => intro _ _ _; exact .nil s
  | cons hroom he _ ih =>
    intro h hc hfit
    have hrf := room_fits h
    simp only [List.flatten_cons, List.length_append] at hfit
    obtain ⟨k, s1, e, h1, sc, p1, _⟩ := rxEvent_inv h hc hroom
    rw [he] at e
    cases e
    simp only [PosIn] at p1
    exact .cons (fun ho => by have := ho.1; omega) hroom he (ih h1 (hc.of_same sc) (by omega))

/-- As long as the buffer does not overflow, however the stream is cut into reads and whatever lines it
contains, the lines of every response handed over are lines the modem sent, unaltered and in order.
Missing: responses during which the buffer overflows, for which the claim is false (witnesses). -/
theorem C13_lines_unaltered_partial (cfg : Cfg) (s s' : St) (chunks : List Str)
    (hi : RxInv cfg s) (hpl : Plain cfg s) (hq : Quiet s) (hR : ReadsOk cfg s chunks s') :
    ∃ evs, s'.events = s.events ++ evs ∧
      ∀ st r, Event.response st r ∈ evs → r.Sublist (linesOf chunks.flatten) := by
  obtain ⟨_, _, hb⟩ := readsOk_refine hR hi hpl.noCb hq.between
  obtain ⟨evs, e1, e2⟩ := reads_responses (cfg := cfg) chunks ⟨s.cmd, s.pfx, [], s.events⟩ []
  exact ⟨evs, hb.rep.events.trans e1, fun st r hr => by
    have := e2 st r hr
    simp only [List.nil_append] at this
    exact this⟩

/-- The same for streams shorter than the space after the read position, cut in any way. -/
theorem C13_lines_unaltered_fits_partial (cfg : Cfg) (s s' : St) (chunks : List Str)
    (hi : RxInv cfg s) (hpl : Plain cfg s) (hq : Quiet s) (hR : Reads cfg s chunks s')
    (hfit : s.readPtr.getD 0 + chunks.flatten.length < cfg.size) :
    ∃ evs, s'.events = s.events ++ evs ∧
      ∀ st r, Event.response st r ∈ evs → r.Sublist (linesOf chunks.flatten) :=
  C13_lines_unaltered_partial cfg s s' chunks hi hpl hq
    (readsOk_of_fits hR hi hpl.noCb.inText (by rw [hq.1]; omega))

/-- An idle state of the example port in which a multi-line command has just been started. -/
def demoPending (size : Nat) (type : CmdType) (pfx : Option Str) : St :=
  { init size with cmd := type, pfx := pfx }

example : RxInv (demoCfg 40) (demoPending 40 .multiWoPrefix none) ∧
    Plain (demoCfg 40) (demoPending 40 .multiWoPrefix none) ∧ Quiet (demoPending 40 .multiWoPrefix none) ∧
    ((rxRun (demoCfg 40) (demoPending 40 .multiWoPrefix none)
      [.recv (str "AAAA\r\nBB"), .recv (str "BB\r\nOK\r\n")]).map (·.events)) =
      some [.response true [str "AAAA", str "BBBB"]] :=
  ⟨⟨⟨by decide, by decide, by simp [demoPending, init], rfl⟩, by simp [PosIn, demoPending, init]⟩,
    ⟨rfl, rfl, rfl, fun _ => Nat.le_refl _⟩, ⟨rfl, rfl⟩, by decide +kernel⟩

/-- A response that does not fit: the buffer position is reset while the response is pending, the lines
already collected are overwritten, and the callback is given lines the modem did not send as part of
the response. -/
theorem C13_witness_altered :
    (rxRun (demoCfg 12) (demoPending 12 .multiWoPrefix none)
      [.recv (str "AAAA\r\nBBBB\r\n"), .recv [], .recv (str "CCCC\r\nOK\r\n")]).map (·.events) =
      some [.response true [str "CCCC", str "OK", str "CCCC"]] := by decide +kernel

/-- A short response after other traffic: the position is not moved back to the start of the buffer
while a response is pending, so a 14 byte response is lost in a 22 byte buffer. -/
theorem C13_witness_lost :
    (rxRun (demoCfg 22) (init 22)
      [.recv (str "RING\r\nRING\r\n"), .control .withPrefix (some (str "+CSQ")) none none,
       .recv (str "+CSQ: 1\r\nO"), .recv [], .recv (str "K\r\n")]).map (·.events) =
      some [.urc (str "RING"), .urc (str "RING"), .undefined (str "K")] := by decide +kernel

/-! ## C15 -/

/-- The line starts with one of the result codes of the table (see C07). -/
def IsResult (table : Option (List Str)) (l : Str) : Prop :=
  ∃ t, table = some t ∧ ∃ k ∈ t, k ≠ [] ∧ k.length ≤ 256 ∧ ∃ rest, l = k ++ rest

/-- A success result code, of the port or of the command. -/
def Success (cfg : Cfg) (l : Str) : Prop := IsResult cfg.extra l ∨ IsResult cfg.succ l

theorem isToken_iff {l : Str} (h1 : l ≠ []) (h2 : l.length ≤ 256) (table : Option (List Str)) :
    isToken l table = true ↔ IsResult table l := by
  have hv : AtStr.valid l = true := (valid_iff l).mpr ⟨h1, h2⟩
  unfold isToken IsResult AtStr.checkErrorCode
  cases table with
  | none => simp
  | some t =>
    simp only [hv, if_true, Option.getD_some, List.any_eq_true, Bool.and_eq_true, valid_iff,
      List.isPrefixOf_iff_prefix, Option.some.injEq]
    constructor
    · rintro ⟨k, hk, ⟨h3, h4⟩, r, hr⟩
      exact ⟨t, rfl, k, hk, h3, h4, r, hr.symm⟩
    · rintro ⟨t', rfl, k, hk, h3, h4, r, hr⟩
      exact ⟨k, hk, ⟨h3, h4⟩, r, hr.symm⟩

/-- The line belongs to the pending command: it is not a listed unsolicited code, and if it has a prefix
it is the one the command waits for. -/
def ForCommand (cfg : Cfg) (type : CmdType) (pfx : Option Str) (l : Str) : Prop :=
  ¬ Listed cfg l ∧ (Prefixed l → AwaitedPrefix type pfx l)

/-- The line is an unsolicited result code although a command is pending. -/
def ForOthers (cfg : Cfg) (type : CmdType) (pfx : Option Str) (l : Str) : Prop :=
  Listed cfg l ∨ (Prefixed l ∧ ¬ AwaitedPrefix type pfx l)

/-- An intermediate line of the response. -/
def Intermediate (cfg : Cfg) (type : CmdType) (pfx : Option Str) (l : Str) : Prop :=
  ForCommand cfg type pfx l ∧ ¬ Success cfg l ∧ ¬ IsResult cfg.err l

/-- The final line of the response. -/
def Final (cfg : Cfg) (type : CmdType) (pfx : Option Str) (l : Str) : Prop :=
  ForCommand cfg type pfx l ∧ (Success cfg l ∨ IsResult cfg.err l)

/-- A command type whose response may have several lines. -/
def Multi (type : CmdType) : Prop :=
  type = .multiWithPrefix ∨ type = .multiWoPrefix ∨ type = .multiDataWoPrefix

/-- A command type whose response has at most one line. -/
def Single (type : CmdType) : Prop := type = .woPrefix ∨ type = .withPrefix

/-- Lines received while a command is pending, marked `true` for intermediate lines of its response and
`false` for unsolicited result codes that come in between (these are recognised up to 256 characters). -/
def Mixed (cfg : Cfg) (type : CmdType) (pfx : Option Str) (body : List (Bool × Str)) : Prop :=
  ∀ x ∈ body, x.2 ≠ [] ∧ (x.1 = false → x.2.length ≤ 256) ∧
    (x.1 = true → Intermediate cfg type pfx x.2) ∧ (x.1 = false → ForOthers cfg type pfx x.2)

/-- The intermediate lines. -/
def mine (body : List (Bool × Str)) : List Str := (body.filter (·.1)).map (·.2)

/-- The unsolicited result codes. -/
def others (body : List (Bool × Str)) : List Str := (body.filter (!·.1)).map (·.2)

/-- A line recognised as a result code is one, whatever its length. -/
theorem isToken_sound {l : Str} (h1 : l ≠ []) {table : Option (List Str)} (h : isToken l table = true) :
    IsResult table l := by
  by_cases h2 : l.length ≤ 256
  · exact (isToken_iff h1 h2 table).mp h
  · have hv : AtStr.valid l = false := by
      cases hv : AtStr.valid l
      · rfl
      · exact absurd ((valid_iff l).mp hv).2 (by simp only [AtCore.maxStringSize]; omega)
    unfold isToken AtStr.checkErrorCode at h
    cases table <;> simp [hv] at h

theorem forCommand_solicited {cfg : Cfg} {type : CmdType} {pfx : Option Str} {l : Str}
    (ht : type ≠ .noCommand) (h1 : l ≠ [])
    (hp : ∀ k, pfx = some k → k ≠ [] ∧ k.length ≤ 256) (h : ForCommand cfg type pfx l) :
    getMsgType cfg type pfx l = .solicited := by
  by_cases h2 : l.length ≤ 256
  case neg => rw [C14_witness_long_lines cfg type pfx l (by omega) h.1, if_neg ht]
  refine (C14_classification_partial cfg type pfx l h1 h2 hp).2.1.mpr ⟨h.1, ?_⟩
  by_cases hpre : Prefixed l
  · exact Or.inl ⟨hpre, h.2 hpre⟩
  · exact Or.inr ⟨hpre, ht⟩

theorem line_final {cfg : Cfg} {a : Rx} {l : Str} (hs : getMsgType cfg a.cmd a.pfx l = .solicited)
    (he : cfg.err ≠ none) (hsu : cfg.succ ≠ none) (h1 : l ≠ []) (h2 : l.length ≤ 256)
    (h : Success cfg l ∨ IsResult cfg.err l) :
    ∃ st, a.line cfg l = some (a.complete st a.lines) ∧ (st = true ↔ Success cfg l) := by
  unfold Rx.line
  rw [hs]
  simp only []
  rw [if_neg (by rintro (h | h) <;> contradiction)]
  by_cases hS : Success cfg l
  · rw [if_pos (by
      rcases hS with h | h
      · exact Or.inl ((isToken_iff h1 h2 _).mpr h)
      · exact Or.inr ((isToken_iff h1 h2 _).mpr h))]
    exact ⟨true, rfl, by simp [hS]⟩
  · rw [if_neg (by
      rintro (h | h)
      · exact hS (Or.inl ((isToken_iff h1 h2 _).mp h))
      · exact hS (Or.inr ((isToken_iff h1 h2 _).mp h)))]
    rw [if_pos ((isToken_iff h1 h2 _).mpr (h.resolve_left hS))]
    exact ⟨false, rfl, by simp [hS]⟩

theorem line_intermediate {cfg : Cfg} {a : Rx} {l : Str} (hs : getMsgType cfg a.cmd a.pfx l = .solicited)
    (he : cfg.err ≠ none) (hsu : cfg.succ ≠ none) (h1 : l ≠ [])
    (hS : ¬ Success cfg l) (hE : ¬ IsResult cfg.err l)
    (ht : Multi a.cmd ∨ (Single a.cmd ∧ a.lines = [])) :
    a.line cfg l = some { a with lines := a.lines ++ [l] } := by
  unfold Rx.line
  rw [hs]
  simp only []
  rw [if_neg (by rintro (h | h) <;> contradiction), if_neg (by
      rintro (h | h)
      · exact hS (Or.inl (isToken_sound h1 h))
      · exact hS (Or.inr (isToken_sound h1 h))),
    if_neg (fun h => hE (isToken_sound h1 h))]
  rcases ht with (h | h | h) | ⟨h | h, hl⟩ <;> rw [h] <;> simp [*]

theorem run_mixed {cfg : Cfg} (he : cfg.err ≠ none) (hsu : cfg.succ ≠ none) :
    ∀ (body : List (Bool × Str)) (a : Rx), a.cmd ≠ .noCommand →
    (∀ k, a.pfx = some k → k ≠ [] ∧ k.length ≤ 256) → Mixed cfg a.cmd a.pfx body →
    (Multi a.cmd ∨ (Single a.cmd ∧ (a.lines ++ mine body).length ≤ 1)) →
    Rx.run cfg a (body.map (·.2)) =
      some { a with lines := a.lines ++ mine body, events := a.events ++ (others body).map .urc } := by
  intro body
  induction body with
  | nil => intro a _ _ _ _; simp [Rx.run, mine, others]
  | cons x t ih =>
    intro a hc hp hm ht
    obtain ⟨b, l⟩ := x
    obtain ⟨h1, h2, h3, h4⟩ := hm (b, l) (by simp)
    simp only [] at h1 h2 h3 h4
    simp only [List.map_cons, Rx.run]
    cases b with
    | true =>
      obtain ⟨hf, hS, hE⟩ := h3 rfl
      have hs := forCommand_solicited hc h1 hp hf
      have hline := line_intermediate hs he hsu h1 hS hE (by
        rcases ht with ht | ⟨ht, hlen⟩
        · exact Or.inl ht
        · refine Or.inr ⟨ht, ?_⟩
          simp [mine] at hlen
          exact List.length_eq_zero_iff.mp (by omega))
      rw [hline]
      simp only []
      rw [ih { a with lines := a.lines ++ [l] } hc hp (fun y hy => hm y (by simp [hy])) (by
        rcases ht with ht | ⟨ht, hlen⟩
        · exact Or.inl ht
        · refine Or.inr ⟨ht, ?_⟩
          simp [mine] at hlen ⊢
          omega)]
      simp [mine, others]
    | false =>
      have hu : getMsgType cfg a.cmd a.pfx l = .unsolicited :=
        (C14_classification_partial cfg a.cmd a.pfx l h1 (h2 rfl) hp).1.mpr (h4 rfl)
      have hline : a.line cfg l = some { a with events := a.events ++ [.urc l] } := by
        simp [Rx.line, hu]
      rw [hline]
      simp only []
      rw [ih { a with events := a.events ++ [.urc l] } hc hp (fun y hy => hm y (by simp [hy])) (by
        rcases ht with ht | ⟨ht, hlen⟩
        · exact Or.inl ht
        · refine Or.inr ⟨ht, ?_⟩
          simp [mine] at hlen ⊢
          omega)]
      simp [mine, others]

/-- The response to a command: the lines received since it was sent are `body` - intermediate lines of
its response and unsolicited codes in any order - and then a final result code.  Then the unsolicited
codes have been handed to the unsolicited handler, in order, followed by one response, which
consists of exactly the intermediate lines in order and whose status is success exactly when the
final line is a success code; and no command is pending any more.  This holds however the stream is
cut into reads.
Response lines may have any length.  Missing: responses during which the buffer overflows; unsolicited codes longer than
256 characters, which are taken for response lines (`C15_witness_long_urc`). -/
theorem C15_response_partial (cfg : Cfg) (s s' : St) (chunks : List Str) (body : List (Bool × Str))
    (final : Str) (hi : RxInv cfg s) (hpl : Plain cfg s) (hq : Quiet s)
    (hc : s.cmd ≠ .noCommand) (hp : ∀ k, s.pfx = some k → k ≠ [] ∧ k.length ≤ 256)
    (he : cfg.err ≠ none) (hsu : cfg.succ ≠ none)
    (hR : ReadsOk cfg s chunks s')
    (hlines : linesOf chunks.flatten = body.map (·.2) ++ [final])
    (hm : Mixed cfg s.cmd s.pfx body)
    (hf : final.length ≤ 256 ∧ Final cfg s.cmd s.pfx final)
    (ht : Multi s.cmd ∨ (Single s.cmd ∧ (mine body).length ≤ 1) ∨
      (s.cmd = .noResult ∧ mine body = [])) :
    ∃ st, s'.events = s.events ++ (others body).map .urc ++ [.response st (mine body)] ∧
      (st = true ↔ Success cfg final) ∧ s'.cmd = .noCommand ∧ s'.resp = none := by
  have hne : final ≠ [] :=
    linesFrom_ne_nil chunks.flatten [] final (by
      have : final ∈ linesOf chunks.flatten := by rw [hlines]; simp
      exact this)
  obtain ⟨_, _, hb⟩ := readsOk_refine hR hi hpl.noCb hq.between
  have hrun1 : Rx.run cfg ⟨s.cmd, s.pfx, [], s.events⟩ (body.map (·.2)) =
      some ⟨s.cmd, s.pfx, mine body, s.events ++ (others body).map .urc⟩ := by
    rcases ht with ht | ht | ⟨ht, hmine⟩
    · have := run_mixed he hsu body ⟨s.cmd, s.pfx, [], s.events⟩ hc hp hm (Or.inl ht)
      simpa using this
    · have := run_mixed he hsu body ⟨s.cmd, s.pfx, [], s.events⟩ hc hp hm (Or.inr ⟨ht.1, by simpa using ht.2⟩)
      simpa using this
    · -- no intermediate line at all
      have gen : ∀ (bd : List (Bool × Str)) (ev : List Event), Mixed cfg s.cmd s.pfx bd → mine bd = [] →
          Rx.run cfg ⟨s.cmd, s.pfx, [], ev⟩ (bd.map (·.2)) =
            some ⟨s.cmd, s.pfx, mine bd, ev ++ (others bd).map .urc⟩ := by
        intro bd
        induction bd with
        | nil => intro ev _ _; simp [Rx.run, mine, others]
        | cons x t ih =>
          intro ev hmx hmi
          obtain ⟨b, l⟩ := x
          obtain ⟨h1, h2, h3, h4⟩ := hmx (b, l) (by simp)
          cases b with
          | true => simp [mine] at hmi
          | false =>
            have hu : getMsgType cfg s.cmd s.pfx l = .unsolicited :=
              (C14_classification_partial cfg s.cmd s.pfx l h1 (h2 rfl) hp).1.mpr (h4 rfl)
            have hline : Rx.line cfg ⟨s.cmd, s.pfx, [], ev⟩ l =
                some ⟨s.cmd, s.pfx, [], ev ++ [.urc l]⟩ := by simp [Rx.line, hu]
            simp only [List.map_cons, Rx.run]
            rw [hline]
            simp only []
            rw [ih (ev ++ [Event.urc l]) (fun y hy => hmx y (by simp [hy])) (by simpa [mine] using hmi)]
            simp [mine, others]
      exact gen body s.events hm hmine
  have hs := forCommand_solicited hc hne hp hf.2.1
  obtain ⟨st, hfin, hst⟩ := line_final (a := ⟨s.cmd, s.pfx, mine body, s.events ++ (others body).map .urc⟩)
    hs he hsu hne hf.1 hf.2.2
  have hrun : Rx.run cfg ⟨s.cmd, s.pfx, [], s.events⟩ (linesFrom [] chunks.flatten).1 =
      some (Rx.complete ⟨s.cmd, s.pfx, mine body, s.events ++ (others body).map .urc⟩ st (mine body)) := by
    rw [show (linesFrom [] chunks.flatten).1 = _ from hlines, Rx.run_append, hrun1]
    simp [Rx.run, hfin]
  rw [reads_run hrun] at hb
  exact ⟨st, by simpa [Rx.complete] using hb.rep.events, hst, hb.rep.cmd, hb.rep.idle rfl rfl⟩

theorem demo_creg : Prefixed (str "+CREG: 5") :=
  ⟨str "CREG", str " 5", by decide, by unfold PrefixChar; decide⟩

example : Mixed (demoCfg 40) .withPrefix (some (str "+CSQ"))
      [(false, str "RING"), (true, str "+CSQ: 1"), (false, str "+CREG: 5")] ∧
    Final (demoCfg 40) .withPrefix (some (str "+CSQ")) (str "OK") ∧
    ((rxRun (demoCfg 60) (demoPending 60 .withPrefix (some (str "+CSQ")))
      [.recv (str "RING\r\n+CSQ: "), .recv (str "1\r\n+CREG: 5\r\nOK\r\n")]).map (·.events)) =
      some [.urc (str "RING"), .urc (str "+CREG: 5"), .response true [str "+CSQ: 1"]] := by
  refine ⟨?_, ⟨⟨?_, ?_⟩, Or.inl (Or.inr ⟨_, rfl, str "OK", by decide, by decide, by decide, [], by decide⟩)⟩,
    by decide +kernel⟩
  · intro x hx
    simp only [List.mem_cons, List.not_mem_nil, or_false] at hx
    rcases hx with rfl | rfl | rfl
    · exact ⟨by decide, by decide, nofun, fun _ => Or.inl ⟨_, rfl, by decide⟩⟩
    · refine ⟨by decide, by decide, fun _ => ⟨⟨?_, fun _ => ⟨by decide, _, rfl, str ": 1", by decide⟩⟩, ?_, ?_⟩,
        nofun⟩
      · rw [← isUrcToken_iff]; decide +kernel
      · unfold Success
        rw [← isToken_iff (by decide) (by decide), ← isToken_iff (by decide) (by decide)]
        decide +kernel
      · rw [← isToken_iff (by decide) (by decide)]
        decide +kernel
    · refine ⟨by decide, by decide, nofun, fun _ => Or.inr ⟨demo_creg, ?_⟩⟩
      rintro ⟨_, k, hk, rest, hr⟩
      cases hk
      have := congrArg (fun l => l.take 4) hr
      revert this
      rw [List.take_append_of_le_length (by decide)]
      decide
  · rw [← isUrcToken_iff]; decide +kernel
  · intro hp
    rw [← isPrefixPresent_iff (by decide) (by decide)] at hp
    exact absurd hp (by decide +kernel)

/-- Lines that are not completed are not completed later when the unfinished line before them is
forgotten. -/
theorem linesFrom_forget : ∀ (t cur : Str), (linesFrom cur t).1 = [] → (linesFrom [] t).1 = [] := by
  have none_eol : ∀ (t cur : Str), cur ≠ [] → (linesFrom cur t).1 = [] → ∀ c, (linesFrom c t).1 = [] := by
    intro t
    induction t with
    | nil => intro cur _ _ c; rfl
    | cons b t ih =>
      intro cur hc h c
      simp only [linesFrom] at h ⊢
      by_cases hb : LineEnd b
      · rw [if_pos hb, if_neg hc] at h; cases h
      · rw [if_neg hb] at h ⊢
        exact ih (cur ++ [b]) (by simp) h _
  intro t cur h
  by_cases hc : cur = []
  · rw [hc] at h; exact h
  · exact none_eol t cur hc h []

theorem reads_nothing {cfg : Cfg} : ∀ (chunks : List Str) (a : Rx) (cur : Str),
    (linesFrom cur chunks.flatten).1 = [] → (Rx.reads cfg (a, cur) chunks).1 = a := by
  intro chunks a cur h
  rw [reads_run (a' := a) (by rw [h]; rfl)]

/-- A refused line at the end of a stream. -/
theorem reads_refused {cfg : Cfg} : ∀ (chunks : List Str) (a a1 : Rx) (cur : Str) (ls : List Str) (l : Str),
    (linesFrom cur chunks.flatten).1 = ls ++ [l] → Rx.run cfg a ls = some a1 → a1.line cfg l = none →
    (Rx.reads cfg (a, cur) chunks).1 = a1.dropped l := by
  have feed_refused : ∀ (ls : List Str) (a a1 : Rx) (l cur : Str), Rx.run cfg a ls = some a1 →
      a1.line cfg l = none → Rx.feed cfg a (ls ++ [l]) cur = (a1.dropped l, []) := by
    intro ls
    induction ls with
    | nil => intro a a1 l cur h hl; cases h; simp [Rx.feed, hl]
    | cons x t ih =>
      intro a a1 l cur h hl
      simp only [Rx.run] at h
      simp only [List.cons_append, Rx.feed]
      cases hx : a.line cfg x with
      | none => rw [hx] at h; cases h
      | some b => rw [hx] at h; exact ih b a1 l cur h hl
  intro chunks
  induction chunks with
  | nil => intro a a1 cur ls l h; simp [linesFrom] at h
  | cons c t ih =>
    intro a a1 cur ls l h hr hl
    rw [List.flatten_cons, linesFrom_append] at h
    simp only [] at h
    have e : Rx.reads cfg (a, cur) (c :: t) = Rx.reads cfg (Rx.read cfg (a, cur) c) t := by
      simp [Rx.reads]
    rw [e]
    rcases List.eq_nil_or_concat (linesFrom (linesFrom cur c).2 t.flatten).1 with hB | ⟨B, x, hB⟩
    · rw [hB, List.append_nil] at h
      rw [show Rx.read cfg (a, cur) c = (a1.dropped l, []) by
        unfold Rx.read; rw [show (linesFrom (a, cur).2 c).1 = ls ++ [l] from h]; exact feed_refused _ _ _ _ _ hr hl]
      exact reads_nothing t _ _ (linesFrom_forget _ _ hB)
    · rw [List.concat_eq_append] at hB
      rw [hB, ← List.append_assoc] at h
      obtain ⟨h1, h2⟩ := List.append_inj' h rfl
      cases h2
      subst h1
      rw [Rx.run_append] at hr
      cases h1 : Rx.run cfg a (linesFrom cur c).1 with
      | none => rw [h1] at hr; cases hr
      | some a2 =>
        rw [h1] at hr
        rw [show Rx.read cfg (a, cur) c = (a2, (linesFrom cur c).2) from feed_run h1]
        exact ih a2 a1 _ B l hB hr hl

/-- Response types without result code: the first line for the command completes it, successfully, with
that line as its only line; unsolicited codes may come before.
Missing: as in `C15_response_partial`. -/
theorem C15_first_line_partial (cfg : Cfg) (s s' : St) (chunks : List Str) (urcs : List Str) (l : Str)
    (hi : RxInv cfg s) (hpl : Plain cfg s) (hq : Quiet s)
    (ht : s.cmd = .woPrefixNoResultCode ∨ s.cmd = .withPrefixNoResultCode)
    (hp : ∀ k, s.pfx = some k → k ≠ [] ∧ k.length ≤ 256)
    (he : cfg.err ≠ none) (hsu : cfg.succ ≠ none)
    (hR : ReadsOk cfg s chunks s') (hlines : linesOf chunks.flatten = urcs ++ [l])
    (hm : ∀ u ∈ urcs, u.length ≤ 256 ∧ ForOthers cfg s.cmd s.pfx u)
    (hl : Intermediate cfg s.cmd s.pfx l) :
    s'.events = s.events ++ urcs.map .urc ++ [.response true [l]] ∧ s'.cmd = .noCommand := by
  have hmem : ∀ x ∈ urcs ++ [l], x ≠ [] := fun x hx => linesFrom_ne_nil chunks.flatten [] x (by
    have : x ∈ linesOf chunks.flatten := by rw [hlines]; exact hx
    exact this)
  obtain ⟨_, _, hb⟩ := readsOk_refine hR hi hpl.noCb hq.between
  have hc : s.cmd ≠ .noCommand := by rcases ht with h | h <;> simp [h]
  have hrun1 : ∀ (us : List Str) (ev : List Event),
      (∀ u ∈ us, u ≠ [] ∧ u.length ≤ 256 ∧ ForOthers cfg s.cmd s.pfx u) →
      Rx.run cfg ⟨s.cmd, s.pfx, [], ev⟩ us = some ⟨s.cmd, s.pfx, [], ev ++ us.map .urc⟩ := by
    intro us
    induction us with
    | nil => intro ev _; simp [Rx.run]
    | cons u t ih =>
      intro ev hu
      obtain ⟨u1, u2, u3⟩ := hu u (by simp)
      have hmt : getMsgType cfg s.cmd s.pfx u = .unsolicited :=
        (C14_classification_partial cfg s.cmd s.pfx u u1 u2 hp).1.mpr u3
      have hline : Rx.line cfg ⟨s.cmd, s.pfx, [], ev⟩ u =
          some ⟨s.cmd, s.pfx, [], ev ++ [.urc u]⟩ := by simp [Rx.line, hmt]
      simp only [Rx.run]
      rw [hline]
      simp only []
      rw [ih (ev ++ [Event.urc u]) (fun y hy => hu y (by simp [hy]))]
      simp
  have h1 := hrun1 urcs s.events (fun u hu => ⟨hmem u (by simp [hu]), hm u hu⟩)
  have hne : l ≠ [] := hmem l (by simp)
  have hs := forCommand_solicited hc hne hp hl.1
  have hfin : Rx.line cfg ⟨s.cmd, s.pfx, [], s.events ++ urcs.map .urc⟩ l =
      some (Rx.complete ⟨s.cmd, s.pfx, [], s.events ++ urcs.map .urc⟩ true [l]) := by
    unfold Rx.line
    rw [hs]
    simp only []
    rw [if_neg (by rintro (h | h) <;> contradiction), if_neg (by
      rintro (h | h)
      · exact hl.2.1 (Or.inl (isToken_sound hne h))
      · exact hl.2.1 (Or.inr (isToken_sound hne h))),
      if_neg (fun h => hl.2.2 (isToken_sound hne h))]
    rcases ht with h | h <;> rw [h] <;> rfl
  have hrun : Rx.run cfg ⟨s.cmd, s.pfx, [], s.events⟩ (linesFrom [] chunks.flatten).1 =
      some (Rx.complete ⟨s.cmd, s.pfx, [], s.events ++ urcs.map .urc⟩ true [l]) := by
    rw [show (linesFrom [] chunks.flatten).1 = _ from hlines, Rx.run_append, h1]
    simp [Rx.run, hfin]
  rw [reads_run hrun] at hb
  exact ⟨by simpa [Rx.complete] using hb.rep.events, hb.rep.cmd⟩

/-- Single-line types receive at most one line: a second intermediate line is not added to the response
but handed to the handler of undefined messages.  If that handler accepts it the command stays pending
with its one line; if it refuses, the response is dropped and the command is not told.
Missing: as in `C15_response_partial`. -/
theorem C15_second_line_partial (cfg : Cfg) (s s' : St) (chunks : List Str) (body : List (Bool × Str))
    (l first : Str) (hi : RxInv cfg s) (hpl : Plain cfg s) (hq : Quiet s)
    (hp : ∀ k, s.pfx = some k → k ≠ [] ∧ k.length ≤ 256)
    (he : cfg.err ≠ none) (hsu : cfg.succ ≠ none)
    (hR : ReadsOk cfg s chunks s') (hlines : linesOf chunks.flatten = body.map (·.2) ++ [l])
    (hm : Mixed cfg s.cmd s.pfx body) (ht : Single s.cmd) (hone : mine body = [first])
    (hl : Intermediate cfg s.cmd s.pfx l) :
    s'.events = s.events ++ (others body).map .urc ++ [.undefined l] ∧
    (if cfg.undefCb l = .ok then s'.cmd = s.cmd ∧
        ∃ r, s'.resp = some r ∧ r.items.mapM (itemContents s'.buf) = some [first]
      else s'.cmd = .noCommand ∧ s'.resp = none) := by
  have hne : l ≠ [] :=
    linesFrom_ne_nil chunks.flatten [] l (by
      have : l ∈ linesOf chunks.flatten := by rw [hlines]; simp
      exact this)
  obtain ⟨_, _, hb⟩ := readsOk_refine hR hi hpl.noCb hq.between
  have hc : s.cmd ≠ .noCommand := by rcases ht with h | h <;> simp [h]
  have hrun1 : Rx.run cfg ⟨s.cmd, s.pfx, [], s.events⟩ (body.map (·.2)) =
      some ⟨s.cmd, s.pfx, [first], s.events ++ (others body).map .urc⟩ := by
    have := run_mixed he hsu body ⟨s.cmd, s.pfx, [], s.events⟩ hc hp hm (Or.inr ⟨ht, by simp [hone]⟩)
    simpa [hone] using this
  have hs := forCommand_solicited hc hne hp hl.1
  have hun : Rx.line cfg ⟨s.cmd, s.pfx, [first], s.events ++ (others body).map .urc⟩ l =
      Rx.undefinedLine cfg ⟨s.cmd, s.pfx, [first], s.events ++ (others body).map .urc⟩ l := by
    unfold Rx.line
    rw [hs]
    simp only []
    rw [if_neg (by rintro (h | h) <;> contradiction), if_neg (by
      rintro (h | h)
      · exact hl.2.1 (Or.inl (isToken_sound hne h))
      · exact hl.2.1 (Or.inr (isToken_sound hne h))),
      if_neg (fun h => hl.2.2 (isToken_sound hne h))]
    rcases ht with h | h <;> rw [h] <;> simp
  by_cases hu : cfg.undefCb l = .ok
  · rw [if_pos hu]
    simp only [Rx.undefinedLine, if_pos hu] at hun
    have hrun : Rx.run cfg ⟨s.cmd, s.pfx, [], s.events⟩ (linesFrom [] chunks.flatten).1 =
        some ⟨s.cmd, s.pfx, [first], s.events ++ (others body).map .urc ++ [.undefined l]⟩ := by
      rw [show (linesFrom [] chunks.flatten).1 = _ from hlines, Rx.run_append, hrun1]
      simp [Rx.run, hun]
    rw [reads_run hrun] at hb
    refine ⟨by simpa using hb.rep.events, hb.rep.cmd, ?_⟩
    have hit := itemsAt_contents hb.rep.items.2
    cases hr : s'.resp with
    | none => rw [hr] at hit; cases hit
    | some r => rw [hr] at hit; exact ⟨r, rfl, hit⟩
  · rw [if_neg hu]
    simp only [Rx.undefinedLine, if_neg hu] at hun
    have := reads_refused (cfg := cfg) chunks ⟨s.cmd, s.pfx, [], s.events⟩ _ [] _ l hlines hrun1 hun
    have hrep := hb.rep
    rw [this] at hrep
    exact ⟨by simpa [Rx.dropped] using hrep.events, hrep.cmd, hrep.idle rfl rfl⟩

/-- `>` is an intermediate line for a command without result code. -/
example : Intermediate (demoCfg 40) .woPrefixNoResultCode none (str ">") ∧
    ForOthers (demoCfg 40) .woPrefixNoResultCode none (str "RING") ∧
    ((rxRun (demoCfg 40) (demoPending 40 .woPrefixNoResultCode none)
      [.recv (str "RING\r\n"), .recv (str ">\r\n")]).map (·.events)) =
      some [.urc (str "RING"), .response true [str ">"]] := by
  refine ⟨⟨⟨?_, ?_⟩, ?_, ?_⟩, Or.inl ⟨_, rfl, by decide⟩, by decide +kernel⟩
  · rw [← isUrcToken_iff]; decide +kernel
  · intro hp
    rw [← isPrefixPresent_iff (by decide) (by decide)] at hp
    exact absurd hp (by decide +kernel)
  · unfold Success
    rw [← isToken_iff (by decide) (by decide), ← isToken_iff (by decide) (by decide)]
    decide +kernel
  · rw [← isToken_iff (by decide) (by decide)]
    decide +kernel

/-- A second line for a single-line command: refused by the handler, and the response is dropped. -/
theorem C15_witness_second_line :
    (rxRun (demoCfg 40) (demoPending 40 .woPrefix none)
      [.recv (str "AB\r\nCD\r\nOK\r\n")]).map (fun s => (s.events, s.cmd)) =
      some ([.undefined (str "CD")], .noCommand) := by decide +kernel

/-- A line of more than 256 characters that is not listed is taken for a line of the response of the pending command
whatever its text: also an unsolicited code, and also a text that begins with a result code. -/
theorem C15_witness_long_urc (cfg : Cfg) (a : Rx) (l : Str) (hlen : 256 < l.length) (hl : ¬ Listed cfg l)
    (hc : Multi a.cmd) (he : cfg.err ≠ none) (hsu : cfg.succ ≠ none) :
    a.line cfg l = some { a with lines := a.lines ++ [l] } := by
  have hn : a.cmd ≠ .noCommand := by rcases hc with h | h | h <;> simp [h]
  have hs : getMsgType cfg a.cmd a.pfx l = .solicited := by
    rw [C14_witness_long_lines cfg _ _ l hlen hl, if_neg hn]
  have hv : AtStr.valid l = false := by
    cases hv : AtStr.valid l
    · rfl
    · exact absurd ((valid_iff l).mp hv).2 (by simp only [AtCore.maxStringSize]; omega)
  have ht : ∀ table, isToken l table = false := by
    intro table
    unfold isToken AtStr.checkErrorCode
    cases table <;> simp [hv]
  unfold Rx.line
  rw [hs]
  simp only [ht]
  rw [if_neg (by rintro (h | h) <;> contradiction), if_neg (by simp), if_neg (by simp)]
  rcases hc with h | h | h <;> rw [h]

/-- A response line of 300 characters, and an unsolicited code of 307: both end up in the response. -/
example : ((rxRun (demoCfg 700) (demoPending 700 .multiWithPrefix (some (str "+CSQ")))
      [.recv (str "+CSQ" ++ List.replicate 296 49 ++ str "\r\n+CREG: " ++ List.replicate 300 50 ++ str "\r\nOK\r\n")]).map
        (·.events)) =
      some [.response true [str "+CSQ" ++ List.replicate 296 49, str "+CREG: " ++ List.replicate 300 50]] := by
  decide +kernel

end Cellular.Props
