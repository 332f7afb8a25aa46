import Verif.BytesWhole
import Verif.ConcTidy
/-!
# Recovery from time-outs over the byte stream (C85)
-/

namespace Cellular.Spec
open Cellular Cellular.Bytes

/-- The modem is silent while a step is about to be sent, and requests time out unanswered. -/
def TidyBytes (s s' : Bytes.St) : Prop := QuietBytes s s' ∧ HarmlessBytes s'

end Cellular.Spec

namespace Cellular.Props
open Cellular Cellular.Spec Cellular.ConcLemmas
open Cellular.Pktio (Cur CmdType MsgType Item Resp Cfg)
open Cellular.Bytes (Pc Fns)
open Cellular.Conc (Ev)

theorem bytes_tidy_monitor {cfg : Cfg} {fn : Fns} {comm : Bool} {s : Bytes.St} (h : BytesRun cfg fn comm TidyBytes s) :
    ∃ m, own true s.sh.log = some m := by
  obtain ⟨m, hm, _⟩ := (bytes_own (tol := true) (strict := true) h (fun _ _ _ h => h.1) (.inr ⟨rfl, fun _ _ h => h.2⟩)).2
  exact ⟨m, hm⟩

theorem bytes_harmless_keeps {cfg : Cfg} {fn : Fns} {comm : Bool} {s : Bytes.St} (h : BytesRun cfg fn comm (fun _ b => HarmlessBytes b) s) :
    Keeps true false s :=
  (bytes_own (tol := true) (strict := false) h nofun (.inr ⟨rfl, fun _ _ h => h⟩)).2

/-- C85 for any port, any prefix callbacks, any buffer, overflow or not: a result is that of a line received after the request's own bytes were sent,
also after other requests timed out. -/
theorem C85_bytes_own_result {cfg : Cfg} {fn : Fns} {comm : Bool} {s : Bytes.St} (h : BytesRun cfg fn comm TidyBytes s)
    {a b : List Ev} {i : Nat} {st : PktStatus} (hl : s.sh.log = a ++ .got i st :: b) : OwnResult a i st := by
  obtain ⟨m, hm⟩ := bytes_tidy_monitor h
  exact monitor_own_result hm hl

/-- C85.  So are the lines given to a callback. -/
theorem C85_bytes_own_lines {cfg : Cfg} {fn : Fns} {comm : Bool} {s : Bytes.St} (h : BytesRun cfg fn comm TidyBytes s)
    {a b : List Ev} {i : Nat} {items : List Item} {st : PktStatus} (hl : s.sh.log = a ++ .callback i items st :: b) :
    ∃ x e y, a = x ++ e :: y ∧ Sends i e ∧ (∀ f ∈ y, ¬ Boundary f) ∧ ∀ it ∈ items, ∃ n, it = .line n ∧ Ev.recv n ∈ y := by
  obtain ⟨m, hm⟩ := bytes_tidy_monitor h
  exact monitor_own_lines hm hl

/-- C85.  A callback runs at most once and only while its request is in progress. -/
theorem C85_bytes_once {cfg : Cfg} {fn : Fns} {comm : Bool} {s : Bytes.St} (h : BytesRun cfg fn comm (fun _ b => HarmlessBytes b) s)
    {a b : List Ev} {i : Nat} {items : List Item} {st : PktStatus} (hl : s.sh.log = a ++ .callback i items st :: b) :
    InProgress a i ∧ ∀ items' st', Ev.callback i items' st' ∉ a := by
  obtain ⟨m, hm, _⟩ := bytes_harmless_keeps h
  exact monitor_once hm (fun _ _ => bytes_start_once (run_reachable h)) hl

/-- C85.  The receive task does not crash. -/
theorem C85_bytes_no_crash {cfg : Cfg} {fn : Fns} {comm : Bool} {s : Bytes.St} (h : BytesRun cfg fn comm (fun _ b => HarmlessBytes b) s) :
    Ev.nullCall ∉ s.sh.log ∧ s.pc ≠ .crashed := by
  obtain ⟨m, hm, rx, resp, J, hj⟩ := bytes_harmless_keeps h
  refine ⟨monitor_no_null hm, fun hc => ?_⟩
  have hrx : rx = .crashed := by
    rw [(hj (by rw [hc]; nofun)).1, hc]
    rfl
  subst hrx
  exact inv2_alive J rfl

/-- C85 over the byte stream.  If the modem sends no line to the requests that time out, the callback of every request is given exactly the lines of its
own answer, byte for byte (the conclusion is that of C83_bytes_partial).  Missing: requests with prefix callbacks; a full buffer. -/
theorem C85_bytes_answer {cfg : Cfg} {fn : Fns} {comm : Bool} {s : Bytes.St} (h : BytesRun cfg fn comm QuietBytes s) (ht : TextOnly cfg s)
    (hs : SilentTimeouts s.sh.log) (he : ∀ i, Ev.sendError i ∉ s.sh.log) {a b : List Ev} {i : Nat} {items : List Item} {st : PktStatus}
    (hl : s.sh.log = a ++ .callback i items st :: b) {r : Conc.Req} (hr : s.sh.reqs[i]? = some r) :
    ∃ x text y before ls texts, a = x ++ .command i text :: y ∧ (∀ f ∈ y, ¬ Boundary f ∧ ¬ isGot f) ∧
      before.length = (recvs x).length ∧ before ++ ls <+: s.sh.received ∧ (s.lost = false → before ++ ls <+: linesOf s.stream) ∧
      AnswerText cfg (commandWant r) ls true texts ∧ s.given[(a.filterMap calledWith).length]? = some (i, texts) := by
  obtain ⟨hT, -, m, hm, J⟩ := silent_inv (s := absSt s) (bytes_quiet ht.input ht.urc h ht.noPrefix ht.fits) hs he
  refine bytes_given h ht (fun hc => inv2_alive J ?_) hl (C85_answer hT hl hr (ht.noPrefix r (List.mem_of_getElem? hr)))
  show absRx _ _ s.pc = .crashed
  rw [hc]; rfl

/-- C85.  The result a step takes, over the byte stream. -/
theorem C85_bytes_result {cfg : Cfg} {fn : Fns} {comm : Bool} {s : Bytes.St} (h : BytesRun cfg fn comm QuietBytes s) (ht : TextOnly cfg s)
    (hs : SilentTimeouts s.sh.log) (he : ∀ i, Ev.sendError i ∉ s.sh.log) {a b : List Ev} {i : Nat} {st : PktStatus}
    (hl : s.sh.log = a ++ .got i st :: b) {r : Conc.Req} (hr : s.sh.reqs[i]? = some r) : ResultWhole cfg s.sh.received r a i st :=
  C85_result (s := absSt s) (C85_silence (bytes_quiet ht.input ht.urc h ht.noPrefix ht.fits) hs he) hl hr (ht.noPrefix r (List.mem_of_getElem? hr))

/-! ## Executions -/

/-- A check for `HarmlessBytes`. -/
def harmlessBytesB (s : Bytes.St) : Bool :=
  (match s.sh.mutex with
   | none => true
   | some t => !Ending (s.sh.thr t) ||
      (s.sh.queue.isNone && (s.rx.resp.isNone || (match s.pc with | .free _ _ => true | _ => false)) && NotAnsweringPc s.pc)) &&
  s.sh.log.all (fun e => match e with | .sendError _ => false | _ => true)

theorem harmlessBytesB_sound {s : Bytes.St} (I : ConcLemmas.Inv s.sh) (h : harmlessBytesB s = true) : HarmlessBytes s := by
  unfold harmlessBytesB at h
  rw [Bool.and_eq_true] at h
  refine ⟨fun i hi => ?_, fun t ht => ?_⟩
  · have := List.all_eq_true.mp h.2 _ hi
    cases this
  · have hm := (I.m t).1 (by revert ht; cases s.sh.thr t <;> simp [Ending, active])
    have h1 := h.1
    rw [hm] at h1
    simp only [ht, Bool.not_true, Bool.false_or, Bool.and_eq_true, Bool.or_eq_true, Option.isNone_iff_eq_none] at h1
    refine ⟨h1.1.1, h1.1.2.imp id (fun h => ?_), h1.2⟩
    split at h
    · rename_i c len e; exact ⟨c, len, e⟩
    · cases h

def tidyExec (cfg : Cfg) (fn : Fns) (comm : Bool) : List Bytes.Act → Bytes.St → Option Bytes.St
  | [], s => some s
  | a :: as, s => (Bytes.act cfg fn comm a s).bind (fun s' => if quietBytesB s s' && harmlessBytesB s' then tidyExec cfg fn comm as s' else none)

theorem tidyExec_sound {cfg : Cfg} {fn : Fns} {comm : Bool} {as : List Bytes.Act} {s s' : Bytes.St} (hr : BytesRun cfg fn comm TidyBytes s)
    (h : tidyExec cfg fn comm as s = some s') : BytesRun cfg fn comm TidyBytes s' := by
  induction as generalizing s with
  | nil => cases h; exact hr
  | cons a as ih =>
    unfold tidyExec at h
    cases hn : Bytes.act cfg fn comm a s with
    | none => rw [hn] at h; cases h
    | some s1 =>
      rw [hn] at h
      simp only [Option.bind_some] at h
      split at h
      · rename_i hp
        rw [Bool.and_eq_true] at hp
        have hs := Bytes.act_sound hn
        have I' := (bytes_inv ((run_reachable hr).step hs)).1
        exact ih (hr.step hs ⟨quietBytesB_sound (bytes_inv (run_reachable hr)).1 I' hp.1, harmlessBytesB_sound I' hp.2⟩) h
      · cases h

theorem tidyExec_reach {cfg : Cfg} {fn : Fns} {comm : Bool} (as : List Bytes.Act) {α : Type} (f : Bytes.St → α) (v : α)
    (h : (tidyExec cfg fn comm as (Bytes.init cfg.size)).map f = some v) : ∃ s, BytesRun cfg fn comm TidyBytes s ∧ f s = v := by
  cases hs : tidyExec cfg fn comm as (Bytes.init cfg.size) with
  | none => rw [hs] at h; cases h
  | some s => rw [hs] at h; exact ⟨s, tidyExec_sound .init hs, by simpa using h⟩

/-- Request 0 times out while the first half of an unsolicited code has arrived; the second half comes with the answer to request 1. -/
example : ∃ s, BytesRun exCfg noFns true TidyBytes s ∧ (s.sh.log, s.given) =
    ([.start 0, .command 0 [65, 84], .timeout 0, .ret 0 .timedOut none, .start 1, .command 1 [65, 84], .recv 0, .recv 1, .recv 2,
      .final true 2, .callback 1 [.line 1] .ok, .got 1 .ok, .ret 1 .ok none], [(1, [str "+A:1"])]) :=
  tidyExec_reach ((begins 0 exReqPfx).map .thr ++ [.rx (str "+U") .ok] ++ rxk 2 ++ [.thr (.expire 0)] ++ (gos 0 3).map .thr ++
    (begins 1 exReqPfx).map .thr ++ [.rx (str ":2\r\n+A:1\r\nOK\r\n") .ok] ++ rxk 40 ++ (gos 1 4).map .thr) _ _ (by decide +kernel)

end Cellular.Props
