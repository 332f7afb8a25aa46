import Verif.BytesSim
import Verif.BytesInv
import Verif.PktioData
/-!
# Concurrent requests over the byte stream: C82

Any number of threads make requests while the receive task works on the byte stream in its buffer.  `linesOf`, `unfinished` are the lines of
a byte stream (`Verif.PktioSpec`), `given` is what the response callbacks were really given, read from the buffer at that moment.
-/

namespace Cellular.Bytes
open Cellular
open Cellular.Pktio (Cfg room)

/-! ## Executions by computation -/

/-- A scheduling decision with the choices of the environment. -/
inductive Act
  /-- a decision about a thread (call, go, expire) -/
  | thr (a : Conc.Act)
  /-- the receive task goes on; the transport delivers `chunk` if it is asked, a response callback returns `v` if it is called -/
  | rx (chunk : Str) (v : PktStatus)

/-- One decision. -/
def act (cfg : Cfg) (fn : Fns) (comm : Bool) (a : Act) (s : St) : Option St :=
  match a with
  | .thr (.call t r) => match s.sh.thr t with
    | .idle => some { s with sh := { s.sh.set t (.waiting s.sh.reqs.length r) with reqs := s.sh.reqs ++ [r] } }
    | _ => none
  | .thr (.go t n) => (Conc.goThr comm t n s.sh).map (fun sh => { s with sh := sh })
  | .thr (.expire t) => (Conc.expireThr t s.sh).map (fun sh => { s with sh := sh })
  | .thr _ => none
  | .rx chunk v => if chunk.length ≤ room cfg s.rx then some (next cfg fn chunk v s) else none

theorem act_sound {cfg : Cfg} {fn : Fns} {comm : Bool} {a : Act} {s s' : St} (h : act cfg fn comm a s = some s') :
    Step cfg fn comm s s' := by
  unfold act at h
  split at h
  · split at h
    · cases h; exact .thr _ (.call s.sh _ ‹_›)
    · cases h
  · obtain ⟨x, h1, h2⟩ := Option.map_eq_some_iff.mp h
    subst h2; exact .thr _ (Conc.goThr_sound h1)
  · obtain ⟨x, h1, h2⟩ := Option.map_eq_some_iff.mp h
    subst h2; exact .thr _ (Conc.expireThr_sound h1)
  · cases h
  · split at h
    · cases h; exact .rx _ _ _ ‹_›
    · cases h

/-- A schedule. -/
def exec (cfg : Cfg) (fn : Fns) (comm : Bool) : List Act → St → Option St
  | [], s => some s
  | a :: as, s => (act cfg fn comm a s).bind (exec cfg fn comm as)

theorem exec_sound {cfg : Cfg} {fn : Fns} {comm : Bool} {as : List Act} {s s' : St} (hr : Reachable cfg fn comm s)
    (h : exec cfg fn comm as s = some s') : Reachable cfg fn comm s' := by
  induction as generalizing s with
  | nil => cases h; exact hr
  | cons a as ih =>
    unfold exec at h
    cases hn : act cfg fn comm a s with
    | none => rw [hn] at h; cases h
    | some s1 => rw [hn] at h; exact ih (hr.step (act_sound hn)) h

/-- A property of what a schedule leads to. -/
theorem exec_reach {cfg : Cfg} {fn : Fns} {comm : Bool} (as : List Act) {α : Type} (f : St → α) (v : α)
    (h : (exec cfg fn comm as (init cfg.size)).map f = some v) : ∃ s, Reachable cfg fn comm s ∧ f s = v := by
  cases hs : exec cfg fn comm as (init cfg.size) with
  | none => rw [hs] at h; cases h
  | some s => rw [hs] at h; exact ⟨s, exec_sound .init hs, by simpa using h⟩

end Cellular.Bytes

namespace Cellular.Props
open Cellular Cellular.Spec
open Cellular.Pktio (Cur CmdType MsgType Item Resp Cfg room)
open Cellular.Bytes (Pc Fns)
open Cellular.Conc (Ev)

/-! ## The theorems -/

/-- The setting: no input buffer callback, URC handlers write only where the line was, no request has used a prefix callback, and the buffer
was never full with something still needed in it. -/
structure TextOnly (cfg : Cfg) (s : Bytes.St) : Prop where
  input : cfg.inputCb = none
  urc : ∀ l, (cfg.urcEdit l).length ≤ l.length
  noPrefix : NoPrefix s.sh.reqs
  fits : s.overflowed = false

/-- C82: every execution over the byte stream is an execution of the model in which the receive task gets complete lines: the same
requests, the same events in the same order, the same threads at the same places. -/
theorem C82_linearises {cfg : Cfg} {fn : Fns} {comm : Bool} {s : Bytes.St} (h : Bytes.Reachable cfg fn comm s) (ht : TextOnly cfg s) :
    ∃ a : Conc.St, Conc.Reachable cfg comm a ∧ a.log = s.sh.log ∧ a.reqs = s.sh.reqs ∧ a.thr = s.sh.thr ∧
      a.received = s.sh.received ∧ a.mutex = s.sh.mutex ∧ a.queue = s.sh.queue ∧ a.cmd = s.sh.cmd :=
  ⟨absSt s, (bytes_sim ht.input ht.urc h ht.noPrefix ht.fits).2.2, rfl, rfl, rfl, rfl, rfl, rfl, rfl⟩

/-- C82: whatever the threads do in the meantime, the lines the receive task takes up are those of the byte stream, in order, each once and
whole, however the transport splits it into reads: nothing is lost, invented or joined. -/
theorem C82_lines {cfg : Cfg} {fn : Fns} {comm : Bool} {s : Bytes.St} (h : Bytes.Reachable cfg fn comm s) (ht : TextOnly cfg s)
    (hl : s.lost = false) (hc : s.pc ≠ .crashed) : s.sh.received <+: linesOf s.stream := by
  obtain ⟨_, h2, _⟩ := bytes_sim ht.input ht.urc h ht.noPrefix ht.fits
  rw [(h2.stream hl hc).1]
  exact List.prefix_append _ _

/-- When the receive task waits for the transport, it has taken up every complete line. -/
theorem C82_all_lines {cfg : Cfg} {fn : Fns} {comm : Bool} {s : Bytes.St} (h : Bytes.Reachable cfg fn comm s) (ht : TextOnly cfg s)
    (hl : s.lost = false) (hw : s.pc = .wait) : s.sh.received = linesOf s.stream := by
  obtain ⟨_, h2, _⟩ := bytes_sim ht.input ht.urc h ht.noPrefix ht.fits
  have h3 := (h2.stream hl (by rw [hw]; nofun)).1
  rw [linesFrom_noEol' (h2.noEol hw)] at h3
  simpa using h3.symm

/-- C82: what a response callback is given, read from the receive buffer at that moment, are the texts of lines of the byte stream, those
that the history says. -/
theorem C82_given {cfg : Cfg} {fn : Fns} {comm : Bool} {s : Bytes.St} (h : Bytes.Reachable cfg fn comm s) (ht : TextOnly cfg s) :
    s.given = (s.sh.log.filterMap calledWith).map (fun e => (e.1, e.2.map s.sh.line)) ∧
    ∀ g ∈ s.given, ∀ l ∈ g.2, l ∈ s.sh.received := by
  obtain ⟨_, h2, _⟩ := bytes_sim ht.input ht.urc h ht.noPrefix ht.fits
  refine ⟨h2.given, ?_⟩
  intro g hg l hl
  rw [h2.given] at hg
  obtain ⟨e, he, rfl⟩ := List.mem_map.mp hg
  obtain ⟨n, hn, rfl⟩ := List.mem_map.mp hl
  have hk := h2.known e he n hn
  simp only [Conc.St.line, List.getD, List.getElem?_eq_getElem hk, Option.getD_some]
  exact List.getElem_mem hk

theorem filterMap_at {α β : Type} {f : α → Option β} {l a b : List α} {x : α} {y : β} (hl : l = a ++ x :: b) (hx : f x = some y) :
    (l.filterMap f)[(a.filterMap f).length]? = some y := by
  subst hl
  rw [List.filterMap_append, List.filterMap_cons, hx]
  simp

/-- Missing: as in C24.  What the callback of a request is given, byte for byte, are lines of the stream that were received while the request was in
progress (or the last one before it started). -/
theorem C82_own_bytes_partial {cfg : Cfg} {fn : Fns} {comm : Bool} {s : Bytes.St} (h : Bytes.Reachable cfg fn comm s) (ht : TextOnly cfg s)
    (hn : NoLoss s.sh.log) {a b : List Ev} {i : Nat} {items : List Item} {st : PktStatus}
    (hl : s.sh.log = a ++ .callback i items st :: b) :
    ∃ x y texts, a = x ++ .start i :: y ∧ (∀ f ∈ y, ¬ Boundary f) ∧
      s.given[(a.filterMap calledWith).length]? = some (i, texts) ∧
      ∀ l ∈ texts, ∃ n, s.sh.received[n]? = some l ∧ (Ev.recv n ∈ y ∨ (Ev.recv n ∈ x ∧ ∀ k, n < k → Ev.recv k ∉ x)) := by
  obtain ⟨_, h2, h3⟩ := bytes_sim ht.input ht.urc h ht.noPrefix ht.fits
  obtain ⟨x, y, h4, h5, h6⟩ := C24_recent_lines_partial h3 hn hl
  have hcw := filterMap_at (f := calledWith) hl rfl
  refine ⟨x, y, (items.map lineNo).map s.sh.line, h4, h5, ?_, ?_⟩
  · rw [h2.given, List.getElem?_map, hcw]
    rfl
  · intro l hl'
    obtain ⟨n, hn', rfl⟩ := List.mem_map.mp hl'
    obtain ⟨it, hit, rfl⟩ := List.mem_map.mp hn'
    obtain ⟨n, rfl, hn2⟩ := h6 it hit
    refine ⟨n, ?_, hn2⟩
    have hk := h2.known _ (List.mem_of_getElem? hcw) n (List.mem_map_of_mem (f := lineNo) hit)
    simp [lineNo, Conc.St.line, List.getD, List.getElem?_eq_getElem hk]

/-! ## Executions -/

/-- `k` steps of the receive task, nothing to read. -/
def rxk (k : Nat) : List Bytes.Act := List.replicate k (.rx [] .ok)

/-- What an execution led to. -/
structure Seen where
  log : List Ev
  given : List (Nat × List Str)
  stream : Str
  received : List Str
  overflowed : Bool
  lost : Bool
  noPrefix : Bool
  deriving DecidableEq

/-- The request has no prefix callback. -/
def noPrefixB (r : Conc.Req) : Bool :=
  match r.kind with
  | .dataRecv b => !b
  | .dataSend _ b => !b
  | _ => true

theorem noPrefixB_sound {reqs : List Conc.Req} (h : reqs.all noPrefixB = true) : NoPrefix reqs := by
  intro r hr
  have := List.all_eq_true.mp h r hr
  unfold noPrefixB at this
  constructor
  · intro e; rw [e] at this; cases this
  · intro d e; rw [e] at this; cases this

def seen (s : Bytes.St) : Seen := ⟨s.sh.log, s.given, s.stream, s.sh.received, s.overflowed, s.lost, s.sh.reqs.all noPrefixB⟩

theorem seen_text {cfg : Cfg} {fn : Fns} {comm : Bool} {v : Seen} (hi : cfg.inputCb = none) (hu : ∀ l, (cfg.urcEdit l).length ≤ l.length)
    (ho : v.overflowed = false) (hn : v.noPrefix = true) (h : ∃ s, Bytes.Reachable cfg fn comm s ∧ seen s = v) :
    ∃ s, Bytes.Reachable cfg fn comm s ∧ TextOnly cfg s ∧ seen s = v := by
  obtain ⟨s, h1, rfl⟩ := h
  exact ⟨s, h1, ⟨hi, hu, noPrefixB_sound hn, ho⟩, rfl⟩

/-- A request while the response arrives in pieces: "X", then CR LF "Y" CR LF "O", then "K" CR LF; between them a second thread asks. -/
example : ∃ s, Bytes.Reachable exCfg noFns true s ∧ TextOnly exCfg s ∧ seen s =
    { log := [.start 0, .command 0 [65, 84], .recv 0, .recv 1, .recv 2, .final true 2, .callback 0 [.line 0, .line 1] .ok, .got 0 .ok,
        .ret 0 .ok none, .start 1],
      given := [(0, [str "X", str "Y"])], stream := str "X\r\nY\r\nOK\r\n", received := [str "X", str "Y", str "OK"],
      overflowed := false, lost := false, noPrefix := true } :=
  seen_text rfl (fun _ => Nat.le_refl _) rfl rfl <| Bytes.exec_reach ((begins 0 exReqCb).map .thr ++ [.rx (str "X") .ok] ++ rxk 2 ++ [.thr (.call 1 exReq), .rx (str "\r\nY\r\nO") .ok] ++ rxk 16 ++
    [.rx (str "K\r\n") .ok] ++ rxk 14 ++ (gos 0 4 ++ gos 1 1).map .thr) seen _ (by decide +kernel)

/-- A request times out in the middle of its response: the line "X" collected for it goes to the next request, byte for byte. -/
theorem C82_leftover_witness : ∃ s, Bytes.Reachable exCfg noFns true s ∧ TextOnly exCfg s ∧ seen s =
    { log := [.start 0, .command 0 [65, 84], .recv 0, .timeout 0, .ret 0 .timedOut none, .start 1, .command 1 [65, 84], .recv 1,
        .recv 2, .final true 2, .callback 1 [.line 0, .line 1] .ok, .got 1 .ok, .ret 1 .ok none],
      given := [(1, [str "X", str "Y"])], stream := str "X\r\nY\r\nOK\r\n", received := [str "X", str "Y", str "OK"],
      overflowed := false, lost := false, noPrefix := true } :=
  seen_text rfl (fun _ => Nat.le_refl _) rfl rfl <| Bytes.exec_reach ((begins 0 exReqCb).map .thr ++ [.rx (str "X\r\n") .ok] ++ rxk 8 ++
    (.expire 0 :: gos 0 3 ++ begins 1 exReqCb).map .thr ++ [.rx (str "Y\r\nOK\r\n") .ok] ++ rxk 23 ++ (gos 1 4).map .thr) seen _ (by decide +kernel)

/-- A data receive whose data prefix callback recognises "+D:7". -/
def exReqBlock : Conc.Req :=
  { cmd := some [65, 84], type := .multiDataWoPrefix, pfx := some (str "+D"), hasCb := true, kind := .dataRecv true }

/-- Its port; the prompt for data to send is "> ". -/
def exFns : Fns := ⟨fun _ t => if t = str "> " then (.ok, str ">\n", 2) else (.ok, t, t.length), fun _ t => demoDataCb t⟩

/-- Without interference the data arrives. -/
example : ∃ s, Bytes.Reachable (demoCfg 40) exFns true s ∧ s.given = [(0, [str "+D:7", str "abcdefg"])] :=
  Bytes.exec_reach ((begins 0 exReqBlock).map .thr ++ [.rx (str "+D:7\r\n") .ok] ++ rxk 7 ++ [.rx (str "abcdefg") .ok, .rx (str "\r\nOK\r\n") .ok] ++
    rxk 20) Bytes.St.given _ (by decide +kernel)

/-- Undefined behaviour was reached. -/
def isBad : Pc → Bool
  | .bad => true
  | _ => false

theorem isBad_iff {pc : Pc} (h : isBad pc = true) : pc = .bad := by
  cases pc <;> first | rfl | cases h

/-- If the request times out after the data prefix callback announced the data and before its header line is classified, the header is
taken for a URC, the announced length stays, and when the data comes it is appended to a response that does not exist: `_saveData` is called
with NULL and dereferences it (cellular_pktio.c:684, 143-175). -/
theorem C82_data_timeout_witness : ∃ s s', Bytes.Reachable (demoCfg 40) exFns true s ∧
    s.sh.log = [.start 0, .command 0 [65, 84], .fetched 0, .prefixCb 0, .recv 0, .timeout 0, .ret 0 .timedOut none] ∧
    s.stream = str "+D:7\r\n" ∧ s.rx.dataLen = 7 ∧ s.rx.resp = none ∧
    Bytes.Step (demoCfg 40) exFns true s s' ∧ s'.pc = .bad := by
  obtain ⟨s, hr, he⟩ := Bytes.exec_reach (cfg := demoCfg 40) (fn := exFns) (comm := true)
    ((begins 0 exReqBlock).map .thr ++ [.rx (str "+D:7\r\n") .ok] ++ rxk 2 ++ (.expire 0 :: gos 0 3).map .thr ++ rxk 6)
    (fun s => ((s.sh.log, s.stream), s.rx.dataLen, s.rx.resp.isNone && isBad (Bytes.next (demoCfg 40) exFns (str "abcdefg") .ok s).pc &&
      decide ((str "abcdefg").length ≤ room (demoCfg 40) s.rx)))
    (([.start 0, .command 0 [65, 84], .fetched 0, .prefixCb 0, .recv 0, .timeout 0, .ret 0 .timedOut none], str "+D:7\r\n"), 7, true)
    (by decide +kernel)
  simp only [Prod.mk.injEq, Bool.and_eq_true] at he
  obtain ⟨⟨h1, h2⟩, h3, ⟨h4, h5⟩, h6⟩ := he
  exact ⟨s, _, hr, h1, h2, h3, Option.isNone_iff_eq_none.mp h4, .rx s (str "abcdefg") .ok (of_decide_eq_true h6), isBad_iff h5⟩

end Cellular.Props
