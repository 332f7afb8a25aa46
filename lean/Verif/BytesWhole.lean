import Verif.BytesOwn
import Verif.ConcWhole
/-!
# Concurrent requests over the byte stream: an answer is complete and in order (C83)

What the response callback of a request is given are, byte for byte, all the lines of contents among the lines of the stream that
follow one another from the sending of its command to the first line that ends the answer.
-/

namespace Cellular.Spec
open Cellular Conc
open Cellular.Pktio (CmdType Cfg)

open Classical in
/-- `texts` is the answer contained in the lines `ls`: the last of them ends it with status `ok`, none before does, and `texts` are
all the lines of contents among them (only the first if the type has just one). -/
def AnswerText (cfg : Cfg) (w : Want) (ls : List Str) (ok : Bool) (texts : List Str) : Prop :=
  ∃ ms l, ls = ms ++ [l] ∧ w.ends cfg l ok ∧ (∀ k ∈ ms, ∀ b, ¬ w.ends cfg k b) ∧
    texts = keeps w.type (ls.filter (fun l => decide (w.part cfg l)))

end Cellular.Spec

namespace Cellular.Props
open Cellular Cellular.Spec Cellular.ConcLemmas
open Cellular.Pktio (Cur CmdType MsgType Item Resp Cfg)
open Cellular.Bytes (Pc Fns)
open Cellular.Conc (Ev)

theorem rxOnly_received {cfg : Cfg} {a b : Conc.St} (h : RxOnly cfg a b) :
    b.thr = a.thr ∧ (b.received = a.received ∨ a.received.length < b.received.length) := by
  cases h with
  | rx h => cases h <;> first | exact ⟨rfl, .inl rfl⟩ | exact ⟨rfl, .inr (by simp)⟩

/-- The receive task of the model with lines, alone: the modem stays silent if it was silent all the time. -/
theorem rxFrom_quiet {cfg : Cfg} {comm : Bool} {o a : Conc.St} (ho : Conc.Run cfg comm Conc.Quiet o) (h : RxFrom cfg comm o a) :
    a.thr = o.thr ∧ o.received.length ≤ a.received.length ∧
    ((∀ t, Conc.Sending (o.thr t) → a.received = o.received) → Conc.Run cfg comm Conc.Quiet a) := by
  induction h with
  | refl => exact ⟨rfl, Nat.le_refl _, fun _ => ho⟩
  | @step a b _ hs ih =>
    obtain ⟨i1, i2, i3⟩ := ih
    obtain ⟨j1, j2⟩ := rxOnly_received hs
    have hle : a.received.length ≤ b.received.length := by
      rcases j2 with j2 | j2
      · rw [j2]
      · omega
    refine ⟨j1.trans i1, by omega, fun H => ?_⟩
    have key : ∀ t, Conc.Sending (o.thr t) → b.received = a.received := by
      intro t ht
      rcases j2 with j2 | j2
      · exact j2
      · have := congrArg List.length (H t ht)
        omega
    cases hs with
    | rx hs =>
      refine .step (i3 (fun t ht => (key t ht).symm.trans (H t ht))) (.rx hs) ⟨fun t h1 h2 => ?_, fun t ht => key t (i1 ▸ ht)⟩
      rw [j1] at h2
      exact absurd h2 h1

/-- An execution over the byte stream in which the modem is silent while a step is about to be sent is one of the model with lines. -/
theorem bytes_quiet {cfg : Cfg} {fn : Fns} {comm : Bool} (hin : cfg.inputCb = none) (hu : ∀ l, (cfg.urcEdit l).length ≤ l.length)
    {s : Bytes.St} (h : BytesRun cfg fn comm QuietBytes s) (hn : NoPrefix s.sh.reqs) (ho : s.overflowed = false) :
    Conc.Run cfg comm Conc.Quiet (absSt s) := by
  induction h with
  | init => exact .init
  | @step s s' hr hs hp ih =>
    cases hs with
    | @thr t _ sh hst =>
      have hk := thr_keeps hst
      obtain ⟨l, hl⟩ := hk.reqs
      have hn' : NoPrefix s.sh.reqs := fun r hr => hn r (by simp only []; rw [hl]; exact List.mem_append_left _ hr)
      have i3 := ih hn' ho
      suffices H : ∀ a b, Conc.Run cfg comm Conc.Quiet a → a = b → Conc.Run cfg comm Conc.Quiet b by
        refine H _ _ (.step i3 (.thr t (thr_other hst _ _)) ⟨fun u h1 h2 => ?_, fun u h1 => ?_⟩) (by
          unfold absSt absResp Bytes.St.cur
          simp only [hk.received])
        · exact absRx_rests (hp.1 u h1 h2)
        · exact hp.2 u h1
      rintro a _ h rfl
      exact h
    | rx _ chunk v hc =>
      obtain ⟨k1, k2, k3⟩ := next_keeps cfg fn chunk v s
      rw [k1] at hn
      obtain ⟨i1, i2, i3⟩ := bytes_sim hin hu (run_reachable hr) hn (k3 ho)
      obtain ⟨c1, c2⟩ := noPrefix_cbs i3 hn
      have hg := good_next (fn := fn) (comm := comm) hin hu i1 i2 c1 c2 v hc ho
      exact (rxFrom_quiet (ih hn (k3 ho)) (hg.2 .refl)).2.2 (fun t ht => hp.2 t ht)

/-! ## Lines are numbered in the order of arrival -/

theorem rx_recvs {cfg : Cfg} {s s' : Conc.St} (h : Conc.RxStep cfg s s') (ih : recvs s.log = List.range s.received.length) :
    recvs s'.log = List.range s'.received.length := by
  have hf := fun o => (dull_fetched o).recvs
  have hc := fun n => (dull_consult s n).recvs
  cases h <;> simp_all [Conc.St.emit, recvs_append, recvs, List.range_succ]

theorem recvs_range {cfg : Cfg} {comm : Bool} {s : Conc.St} (h : Conc.Reachable cfg comm s) :
    recvs s.log = List.range s.received.length := by
  induction h with
  | init => rfl
  | @step s s' _ hs ih =>
    cases hs with
    | rx h => exact rx_recvs h ih
    | thr t h => cases h <;> simpa [Conc.St.set, Conc.St.emit, recvs_append, recvs] using ih

theorem range_lines (ls : List Str) : (List.range ls.length).map (fun k => ls.getD k []) = ls := by
  apply List.ext_getElem
  · simp
  · intro i h1 h2
    simp at h1
    simp [List.getD, h1]

theorem keeps_map {α β : Type} (f : α → β) (t : CmdType) (l : List α) : keeps t (l.map f) = (keeps t l).map f := by
  cases t <;> simp [keeps]

theorem answered_text {cfg : Cfg} {w : Want} {line : Nat → Str} {ns : List Nat} {ok : Bool} {n : Nat} {items : List Item}
    (h : Answered cfg w line ns ok n items) : AnswerText cfg w (ns.map line) ok (items.map (fun it => line (lineNo it))) := by
  obtain ⟨ms, rfl, h2, h3, rfl⟩ := h
  refine ⟨ms.map line, line n, by simp, h2, ?_, ?_⟩
  · intro k hk b
    obtain ⟨m, hm, rfl⟩ := List.mem_map.mp hk
    exact h3 m hm b
  · rw [List.map_map, List.filter_map, keeps_map]
    rfl

/-- The lines of a piece of history are a piece of the lines. -/
theorem lines_between {cfg : Cfg} {comm : Bool} {s : Conc.St} (h : Conc.Reachable cfg comm s) {x y z : List Ev} (hl : s.log = x ++ y ++ z) :
    s.received.take (recvs x).length ++ (recvs y).map (fun k => s.received.getD k []) <+: s.received := by
  have h1 := recvs_range h
  have h2 := range_lines s.received
  rw [← h1, hl, recvs_append, recvs_append, List.map_append, List.map_append] at h2
  refine ⟨(recvs z).map (fun k => s.received.getD k []), ?_⟩
  conv_rhs => rw [← h2]
  congr 2
  conv_lhs => rw [← h2]
  rw [List.append_assoc, List.take_left' (by simp)]

theorem bytes_given {cfg : Cfg} {fn : Fns} {comm : Bool} {s : Bytes.St} (h : BytesRun cfg fn comm QuietBytes s) (ht : TextOnly cfg s)
    (hc : s.pc ≠ .crashed) {a b : List Ev} {i : Nat} {items : List Item} {st : PktStatus}
    (hl : s.sh.log = a ++ .callback i items st :: b) {r : Conc.Req} (G : GivenWhole cfg s.sh.received r a i items) :
    ∃ x text y before ls texts, a = x ++ .command i text :: y ∧ (∀ f ∈ y, ¬ Boundary f ∧ ¬ isGot f) ∧
      before.length = (recvs x).length ∧ before ++ ls <+: s.sh.received ∧ (s.lost = false → before ++ ls <+: linesOf s.stream) ∧
      AnswerText cfg (commandWant r) ls true texts ∧ s.given[(a.filterMap calledWith).length]? = some (i, texts) := by
  obtain ⟨_, h2, h3⟩ := bytes_sim ht.input ht.urc (run_reachable h) ht.noPrefix ht.fits
  obtain ⟨x, text, y, n, z, e1, e2, e3, e4⟩ := G
  have hcw := filterMap_at (f := calledWith) hl rfl
  have hb := lines_between (s := absSt s) (x := x ++ [.command i text]) (y := y) (z := .final true n :: z ++ .callback i items st :: b) h3
    (by show s.sh.log = _; rw [hl, e1]; simp)
  have hx : recvs (x ++ [.command i text]) = recvs x := by rw [recvs_append]; simp [recvs]
  rw [hx] at hb
  have hxl : (recvs x).length ≤ s.sh.received.length := by
    have := congrArg List.length (recvs_range h3)
    change (recvs s.sh.log).length = _ at this
    rw [hl, e1, recvs_append, recvs_append, List.length_append, List.length_append, List.length_range] at this
    show _ ≤ (absSt s).received.length
    omega
  refine ⟨x, text, y ++ .final true n :: z, _, _, _, e1, ?_, ?_, hb, ?_, answered_text e4, ?_⟩
  · intro f hf
    simp only [List.mem_append, List.mem_cons] at hf
    rcases hf with hf | rfl | hf
    · exact e2 f (by simp [hf])
    · simp [Boundary, isGot]
    · exact e2 f (by simp [hf])
  · show (s.sh.received.take _).length = _
    rw [List.length_take]
    omega
  · intro hlo
    exact hb.trans (C82_lines (run_reachable h) ht hlo hc)
  · rw [h2.given, List.getElem?_map, hcw]
    simp only [Option.map_some, List.map_map]
    rfl

/-- C83 over the byte stream.  What the response callback of a request is given, read from the receive buffer at that moment: `before`
are the lines received before the command was sent, `ls` those received since then; they are consecutive lines of what was received
(of the byte stream, if no line was refused); the last is the first that can end the answer, and the callback is given all the lines
of contents among them, byte for byte, in order.  Missing: as in `C83_answer_partial`; requests with prefix callbacks; a full buffer. -/
theorem C83_bytes_partial {cfg : Cfg} {fn : Fns} {comm : Bool} {s : Bytes.St} (h : BytesRun cfg fn comm QuietBytes s) (ht : TextOnly cfg s)
    (hn : NoLoss s.sh.log) {a b : List Ev} {i : Nat} {items : List Item} {st : PktStatus}
    (hl : s.sh.log = a ++ .callback i items st :: b) {r : Conc.Req} (hr : s.sh.reqs[i]? = some r) :
    ∃ x text y before ls texts, a = x ++ .command i text :: y ∧ (∀ f ∈ y, ¬ Boundary f ∧ ¬ isGot f) ∧
      before.length = (recvs x).length ∧ before ++ ls <+: s.sh.received ∧ (s.lost = false → before ++ ls <+: linesOf s.stream) ∧
      AnswerText cfg (commandWant r) ls true texts ∧ s.given[(a.filterMap calledWith).length]? = some (i, texts) :=
  bytes_given h ht (C82_no_crashed_partial (run_reachable h) hn) hl
    (C83_answer_partial (s := absSt s) (bytes_quiet ht.input ht.urc h ht.noPrefix ht.fits) hn hl hr (ht.noPrefix r (List.mem_of_getElem? hr)))

/-- The result a step takes, over the byte stream.  Missing: as in `C83_bytes_partial`. -/
theorem C83_bytes_result_partial {cfg : Cfg} {fn : Fns} {comm : Bool} {s : Bytes.St} (h : BytesRun cfg fn comm QuietBytes s) (ht : TextOnly cfg s)
    (hn : NoLoss s.sh.log) {a b : List Ev} {i : Nat} {st : PktStatus} (hl : s.sh.log = a ++ .got i st :: b) {r : Conc.Req}
    (hr : s.sh.reqs[i]? = some r) : ResultWhole cfg s.sh.received r a i st :=
  C83_result_partial (s := absSt s) (bytes_quiet ht.input ht.urc h ht.noPrefix ht.fits) hn hl hr (ht.noPrefix r (List.mem_of_getElem? hr))

/-- What the execution of the example leads to. -/
def wholeSeen : Seen :=
  { log := [.start 0, .command 0 [65, 84], .recv 0, .recv 1, .recv 2, .recv 3, .final true 3, .callback 0 [.line 0, .line 2] .ok,
      .got 0 .ok, .ret 0 .ok none],
    given := [(0, [str "+A:1", str "+A:3"])], stream := str "+A:1\r\n+U:2\r\n+A:3\r\nOK\r\n",
    received := [str "+A:1", str "+U:2", str "+A:3", str "OK"], overflowed := false, lost := false, noPrefix := true }

/-- An answer in pieces with an unsolicited code in between: the callback is given "+A:1" and "+A:3". -/
example : ∃ s, BytesRun exCfg noFns true QuietBytes s ∧ TextOnly exCfg s ∧ NoLoss s.sh.log ∧ s.sh.reqs[0]? = some exReqPfx ∧
    seen s = wholeSeen := by
  obtain ⟨s, hr, he⟩ := quietExec_reach (cfg := exCfg) (fn := noFns) (comm := true)
    ((begins 0 exReqPfx).map .thr ++ [.rx (str "+A:1\r\n+U") .ok] ++ rxk 20 ++ [.rx (str ":2\r\n+A:3\r\nO") .ok] ++ rxk 30 ++
      [.rx (str "K\r\n") .ok] ++ rxk 20 ++ (gos 0 4).map .thr)
    (fun s => (seen s, s.sh.reqs)) (wholeSeen, [exReqPfx]) (by decide +kernel)
  have e1 : seen s = wholeSeen := congrArg Prod.fst he
  have e2 : s.sh.reqs = [exReqPfx] := congrArg Prod.snd he
  have e3 : s.sh.log = wholeSeen.log := congrArg Seen.log e1
  refine ⟨s, hr, ⟨rfl, fun _ => Nat.le_refl _, noPrefixB_sound (congrArg Seen.noPrefix e1), congrArg Seen.overflowed e1⟩, ?_,
    by rw [e2]; rfl, e1⟩
  rw [e3]
  intro i
  simp [wholeSeen]

end Cellular.Props
