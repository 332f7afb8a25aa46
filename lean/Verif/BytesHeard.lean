import Verif.ConcHeard
import Verif.BytesTidy
import Verif.BytesCalm
/-!
# No answer is overlooked in the byte stream (C87)
-/

namespace Cellular.Props
open Cellular Cellular.Spec Cellular.ConcLemmas
open Cellular.Pktio (Cur CmdType MsgType Item Resp Cfg)
open Cellular.Bytes (Pc Fns)
open Cellular.Conc (Ev)

/-- C87 over the byte stream.  A request waits, no result is queued for it and the receive task waits for the transport.  Then none of the complete lines
of the byte stream that came since the bytes of its step were sent (`ls`; `before` came before) ends its answer.  Missing: a full buffer (false then: `C87_full_buffer_witness`); streams in which
the port's handler refused a line (false then: `C87_refused_witness`); requests with prefix callbacks (for these: `C87_pieces_partial`). -/
theorem C87_bytes_partial {cfg : Cfg} {fn : Fns} {comm : Bool} {s : Bytes.St} (h : BytesRun cfg fn comm QuietBytes s) (ht : TextOnly cfg s)
    (hs : SilentTimeouts s.sh.log) (hse : ∀ i, Ev.sendError i ∉ s.sh.log) (he : cfg.err.isSome = true) (hsu : cfg.succ.isSome = true)
    (hlost : s.lost = false) (hpc : s.pc = .wait) {t i : Nat} (hw : Waiting i (s.sh.thr t)) (hq : s.sh.queue = none)
    {r : Conc.Req} (hr : s.sh.reqs[i]? = some r) :
    ∃ w x e y before ls, WaitsSince s.sh.log i r w x e y ∧ before.length = (recvs x).length ∧ linesOf s.stream = before ++ ls ∧
      ls = (recvs y).map s.sh.line ∧ ∀ l ∈ ls, ∀ ok, ¬ w.ends cfg l ok := by
  have hcalm : Calm s := ⟨hlost, by rw [hpc]; rfl⟩
  obtain ⟨hT, -, -⟩ := silent_inv (s := absSt s) (bytes_quiet (cfg := calm cfg) ht.input ht.urc (calm_run h hcalm) ht.noPrefix ht.fits) hs hse
  obtain ⟨w, x, e, y, hW, hQ⟩ := C87_answered hT he hsu (t := t) (i := i) hw hr (ht.noPrefix r (List.mem_of_getElem? hr))
  have hl : s.sh.log = x ++ e :: y := hW.split
  have h3 := (bytes_sim ht.input ht.urc (run_reachable h) ht.noPrefix ht.fits).2.2
  have hrec := recvs_range h3
  change recvs s.sh.log = List.range s.sh.received.length at hrec
  have hnr : recvs (e :: y) = recvs y := by
    rcases hW.step with ⟨-, text, rfl⟩ | ⟨-, b, k, rfl⟩ <;> rfl
  rw [hl, recvs_append, hnr] at hrec
  have hxy := congrArg (List.map (fun k => s.sh.received.getD k [])) hrec
  rw [range_lines, List.map_append] at hxy
  refine ⟨w, x, e, y, (recvs x).map (fun k => s.sh.received.getD k []), (recvs y).map s.sh.line, hW, by simp, ?_, rfl, ?_⟩
  · exact (C82_all_lines (run_reachable h) ht hlost hpc).symm.trans hxy.symm
  · rcases hQ hq with hR | ⟨ms, rest, h1, -, h2, h4⟩
    · exact absurd hR calm_refused
    · intro l hl ok
      have hidle : (absSt s).rx = .idle := by unfold absSt; simp only [hpc]; rfl
      rw [h2 (fun hx => hx hidle), List.append_nil] at h1
      obtain ⟨k, hk, rfl⟩ := List.mem_map.mp hl
      rw [h1] at hk
      exact h4 k hk ok

/-- Request `i` waits for a result in thread 0, nothing is queued, the receive task waits for the transport, and the buffer never was a problem. -/
def waitsB (i : Nat) (s : Bytes.St) : Bool :=
  (match s.sh.thr 0 with | .raw3 j _ => j == i | _ => false) && (match s.pc with | .wait => true | _ => false) && !s.lost && !s.overflowed &&
    s.sh.queue.isNone

theorem waitsB_sound {i : Nat} {s : Bytes.St} (h : waitsB i s = true) :
    Waiting i (s.sh.thr 0) ∧ s.pc = .wait ∧ s.lost = false ∧ s.overflowed = false ∧ s.sh.queue = none := by
  simp only [waitsB, Bool.and_eq_true, Bool.not_eq_true', Option.isNone_iff_eq_none] at h
  obtain ⟨⟨⟨⟨h1, h2⟩, h3⟩, h4⟩, h5⟩ := h
  refine ⟨.inl ?_, ?_, h3, h4, h5⟩
  · split at h1
    · rename_i j r hj
      exact ⟨r, by rw [hj, eq_of_beq h1]⟩
    · cases h1
  · split at h2
    · assumption
    · cases h2

/-- A line of contents, an unsolicited code and the beginning of the final line "OK" have come: the request goes on waiting, rightly. -/
example : ∃ s, BytesRun exCfg noFns true QuietBytes s ∧ TextOnly exCfg s ∧ s.lost = false ∧ s.pc = .wait ∧ Waiting 0 (s.sh.thr 0) ∧ s.sh.queue = none ∧
    s.sh.reqs[0]? = some exReqPfx ∧ s.sh.log = [.start 0, .command 0 [65, 84], .recv 0, .recv 1] ∧ s.stream = str "+A:1\r\n+U:2\r\nO" := by
  obtain ⟨s, hr, he⟩ := quietExec_reach (cfg := exCfg) (fn := noFns) (comm := true)
    ((begins 0 exReqPfx).map .thr ++ [.rx (str "+A:1\r\n+U:2\r\nO") .ok] ++ rxk 14)
    (fun s => ((s.sh.log, s.stream), s.sh.reqs, waitsB 0 s)) (([.start 0, .command 0 [65, 84], .recv 0, .recv 1], str "+A:1\r\n+U:2\r\nO"), [exReqPfx], true)
    (by decide +kernel)
  simp only [Prod.mk.injEq] at he
  obtain ⟨⟨h1, h2⟩, h3, h4⟩ := he
  obtain ⟨w1, w2, w3, w4, w5⟩ := waitsB_sound h4
  refine ⟨s, hr, ⟨rfl, fun l => Nat.le_refl _, ?_, w4⟩, w3, w2, w1, w5, by rw [h3]; rfl, h1, h2⟩
  rw [h3]
  intro r hr
  rw [List.mem_singleton.mp hr]
  exact ⟨nofun, fun d => nofun⟩

/-- The state is as in `waitsB`, but the buffer was full. -/
def waitsFullB (i : Nat) (s : Bytes.St) : Bool := waitsB i { s with overflowed := false } && s.overflowed

/-- A full buffer has to be excepted: the line of contents is kept in the buffer of 8 bytes, "OK" fills the rest of it, and the next read discards it.  The stream
contains the whole answer, nothing was refused, the receive task waits for the transport - and the request goes on waiting, until it times out. -/
theorem C87_full_buffer_witness : ∃ s, BytesRun { exCfg with size := 8 } noFns true QuietBytes s ∧ s.lost = false ∧ s.pc = .wait ∧ Waiting 0 (s.sh.thr 0) ∧
    s.sh.queue = none ∧ s.overflowed = true ∧ s.sh.reqs[0]? = some exReqPfx ∧ s.sh.log = [.start 0, .command 0 [65, 84], .recv 0] ∧
    linesOf s.stream = [str "+A:1", str "OK"] ∧ (commandWant exReqPfx).ends { exCfg with size := 8 } (str "OK") true := by
  obtain ⟨s, hr, he⟩ := quietExec_reach (cfg := { exCfg with size := 8 }) (fn := noFns) (comm := true)
    ((begins 0 exReqPfx).map .thr ++ [.rx (str "+A:1\r\nOK") .ok] ++ rxk 9 ++ [.rx [] .ok, .rx (str "\r\n") .ok] ++ rxk 1)
    (fun s => ((s.sh.log, linesOf s.stream), s.sh.reqs, waitsFullB 0 s)) (([.start 0, .command 0 [65, 84], .recv 0], [str "+A:1", str "OK"]), [exReqPfx], true)
    (by decide +kernel)
  simp only [Prod.mk.injEq] at he
  obtain ⟨⟨h1, h2⟩, h3, h4⟩ := he
  simp only [waitsFullB, Bool.and_eq_true] at h4
  obtain ⟨w1, w2, w3, -, w5⟩ := waitsB_sound h4.1
  exact ⟨s, hr, w3, w2, w1, w5, h4.2, by rw [h3]; rfl, h1, h2, by unfold Want.mine; decide +kernel, .inl ⟨.inr (by decide +kernel), rfl⟩⟩

end Cellular.Props
