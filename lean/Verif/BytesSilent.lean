import Verif.BytesTidy
/-!
# Silent time-outs over the byte stream (C85)

If the modem sends no line to the requests that time out, they time out unanswered - for any port, any prefix callbacks, overflow or not.
-/

namespace Cellular.Props
open Cellular Cellular.Spec Cellular.ConcLemmas
open Cellular.Pktio (Cur CmdType MsgType Item Resp Cfg)
open Cellular.Bytes (Pc Fns)
open Cellular.Conc (Ev)

/-- LineGap two lines. -/
def restsB : Pc → Bool
  | .wait => true
  | .top _ => true
  | .pre _ _ _ => true
  | .after _ _ _ _ => true
  | _ => false

theorem restsB_idle {n : Nat} {r : Resp} {pc : Pc} : absRx n r pc = .idle ↔ restsB pc = true := by
  cases pc <;> simp [absRx, restsB]

theorem map_none_iff {a b : Option Resp} (h : a.map Resp.status = b.map Resp.status) : a = none ↔ b = none := by
  cases a <;> cases b <;> simp_all

/-- What a step between two lines does. -/
structure LineGap (s s' : Bytes.St) : Prop where
  queue : s'.sh.queue = s.sh.queue
  cmd : s'.sh.cmd = s.sh.cmd
  resp : s'.rx.resp = none ↔ s.rx.resp = none
  pc : restsB s'.pc = true ∨ (∃ l, s'.sh.log = s.sh.log ++ l ∧ ∃ n, Ev.recv n ∈ l) ∧ NotAnsweringPc s'.pc = true ∧ ∀ c len, s'.pc ≠ .free c len

theorem next_between {cfg : Cfg} {fn : Fns} {chunk : Str} {v : PktStatus} {s : Bytes.St} (hr : restsB s.pc = true)
    (hb : (Bytes.next cfg fn chunk v s).pc ≠ .bad) : LineGap s (Bytes.next cfg fn chunk v s) := by
  obtain ⟨sh, rx, pc, nums, stream, given, lost, ov⟩ := s
  cases pc with
  | wait =>
    change (Bytes.enter cfg chunk _).pc ≠ .bad at hb
    show LineGap _ (Bytes.enter cfg chunk _)
    unfold Bytes.enter at hb ⊢
    simp only [] at hb ⊢
    split at hb
    · exact absurd rfl hb
    · rename_i h
      exact ⟨rfl, rfl, map_none_iff (own_rxEnter_resp h), .inl rfl⟩
    · rename_i h
      exact ⟨rfl, rfl, map_none_iff (own_rxEnter_resp h), .inl rfl⟩
  | top c =>
    change (Bytes.top cfg c _).pc ≠ .bad at hb
    show LineGap _ (Bytes.top cfg c _)
    unfold Bytes.top at hb ⊢
    simp only [] at hb ⊢
    split at hb
    · exact absurd rfl hb
    · split at hb
      · exact absurd rfl hb
      · rename_i h
        exact ⟨rfl, rfl, by rw [own_preprocessInput_resp h], .inl rfl⟩
      · rename_i h
        split
        · exact ⟨rfl, rfl, by simp only []; rw [own_preprocessInput_resp h], .inl rfl⟩
        · exact ⟨rfl, rfl, by simp only []; rw [own_preprocessInput_resp h], .inl rfl⟩
  | pre c r d =>
    change (Bytes.pre cfg fn c r d _).pc ≠ .bad at hb
    show LineGap _ (Bytes.pre cfg fn c r d _)
    unfold Bytes.pre at hb ⊢
    simp only [] at hb ⊢
    split at hb
    · exact absurd rfl hb
    · rename_i h
      exact ⟨rfl, rfl, by simp only []; rw [own_preprocessLine_resp h], .inl rfl⟩
    · rename_i h
      split at hb
      · exact absurd rfl hb
      · rename_i h2
        exact ⟨rfl, rfl, by simp only []; rw [own_findLine_resp h2, own_preprocessLine_resp h], .inl rfl⟩
      · rename_i h2
        split at hb
        · exact absurd rfl hb
        · rename_i h3
          exact ⟨rfl, rfl, by simp only []; rw [own_findLine_resp h2, own_preprocessLine_resp h],
            .inr ⟨⟨Bytes.calledBy r d ++ [.recv sh.received.length], by simp only [List.append_assoc], sh.received.length, by simp⟩, rfl, nofun⟩⟩
  | after c len st t =>
    change (Bytes.after c len st t _).pc ≠ .bad at hb
    show LineGap _ (Bytes.after c len st t _)
    unfold Bytes.after at hb ⊢
    simp only [] at hb ⊢
    split at hb
    · rename_i h0
      rw [if_pos h0]
      split at hb
      · exact absurd rfl hb
      · split at hb
        · exact absurd rfl hb
        · rename_i h
          exact ⟨rfl, rfl, map_none_iff (own_handleData_resp h), .inl (by simp only []; split <;> rfl)⟩
    · rename_i h0
      rw [if_neg h0]
      split at hb
      · exact absurd rfl hb
      · rename_i h
        exact ⟨rfl, rfl, by simp only []; rw [own_getNextLine_resp h], .inl rfl⟩
  | _ => cases hr

/-- The receive task while the command is closed. -/
theorem next_unanswered {cfg : Cfg} {fn : Fns} {chunk : Str} {v : PktStatus} {s : Bytes.St} (U : UnansweredBytes s) (hc : s.sh.cmd = .noCommand)
    (hb : (Bytes.next cfg fn chunk v s).pc ≠ .bad) : UnansweredBytes (Bytes.next cfg fn chunk v s) := by
  obtain ⟨u1, u2, u3⟩ := U
  by_cases hr : restsB s.pc = true
  · obtain ⟨h1, h2, h3, h4⟩ := next_between hr hb
    have hn : s.rx.resp = none := u2.resolve_right (by rintro ⟨c, len, h⟩; rw [h] at hr; cases hr)
    refine ⟨h1.trans u1, .inl (h3.mpr hn), ?_⟩
    rcases h4 with h4 | ⟨-, h4, -⟩
    · revert h4; cases (Bytes.next cfg fn chunk v s).pc <;> simp [restsB, NotAnsweringPc]
    · exact h4
  · obtain ⟨sh, rx, pc, nums, stream, given, lost, ov⟩ := s
    cases pc with
    | classify c len => exact ⟨u1, .inl (u2.resolve_right nofun), rfl⟩
    | classify2 c len on =>
      have hn : rx.resp = none := u2.resolve_right nofun
      change (Bytes.classify cfg c len on _).pc ≠ .bad at hb
      show UnansweredBytes (Bytes.classify cfg c len on _)
      unfold Bytes.classify at hb ⊢
      simp only [] at hb ⊢
      split at hb
      · exact absurd rfl hb
      · rename_i line hl
        have hg := getMsgType_noCommand cfg (if on then some sh.pfxBuf else none) line
        simp only at hc
        split at hb
        · rename_i h1
          split at hb
          · exact absurd rfl hb
          · rename_i h2
            exact ⟨u1, .inl hn, rfl⟩
        · rename_i h1
          rw [hc] at h1
          simp_all
        · rename_i h1
          exact ⟨u1, .inl hn, rfl⟩
    | free c len => exact ⟨u1, .inl rfl, rfl⟩
    | undef c len =>
      have hn : rx.resp = none := u2.resolve_right nofun
      change (Bytes.undef cfg c len _).pc ≠ .bad at hb
      show UnansweredBytes (Bytes.undef cfg c len _)
      unfold Bytes.undef at hb ⊢
      split at hb
      · exact absurd rfl hb
      · rename_i h
        split
        · exact ⟨u1, .inl hn, rfl⟩
        · exact ⟨u1, .inl hn, rfl⟩
    | undefFail c len => exact ⟨u1, .inl rfl, rfl⟩
    | wait => exact absurd rfl hr
    | top => exact absurd rfl hr
    | pre => exact absurd rfl hr
    | after => exact absurd rfl hr
    | _ => cases u3

theorem still_next {cfg : Cfg} {fn : Fns} {chunk : Str} {v : PktStatus} {s : Bytes.St} {m : Own} (J : Inv2 true true (absSt s) m)
    (hs : SilentTimeouts (Bytes.next cfg fn chunk v s).sh.log) (S : Still (absSt s)) (hb : (Bytes.next cfg fn chunk v s).pc ≠ .bad) :
    Still (absSt (Bytes.next cfg fn chunk v s)) := by
  have M := next_move cfg fn chunk v s
  have B := fun h => next_between (cfg := cfg) (fn := fn) (chunk := chunk) (v := v) (s := s) h hb
  generalize Bytes.next cfg fn chunk v s = s' at *
  obtain ⟨l, hl, hno⟩ := M.log
  have norets : ∀ st sent i, Ev.ret i st sent ∉ l := by
    intro st sent i he
    rcases hno _ he with h | h | ⟨n, h⟩ | h
    · cases hx : s.sh.recvCb <;> simp [hx, Conc.fetchedBy] at h
    · cases hx : s.sh.sendCb <;> simp [hx, Conc.fetchedBy] at h
    · unfold Conc.consult at h
      split at h <;> simp at h
    · exact h
  have hno : ∀ i, ∀ e ∈ l, ¬ Sends i e := by
    intro i e he hse
    rcases hno e he with h | h | ⟨n, h⟩ | h
    · cases hx : s.sh.recvCb <;> simp [hx, Conc.fetchedBy] at h
      subst h; cases hse
    · cases hx : s.sh.sendCb <;> simp [hx, Conc.fetchedBy] at h
      subst h; cases hse
    · unfold Conc.consult at h
      split at h <;> simp at h
      subst h; cases hse
    · cases e <;> first | exact h | cases hse
  have hcur : cur (absSt s') = cur (absSt s) := by
    unfold cur absSt; simp only [M.thr, M.mutex]
  have idle : ∀ x : Bytes.St, (absSt x).rx = .idle ↔ restsB x.pc = true := fun x => restsB_idle
  have rnone : ∀ x : Bytes.St, (absSt x).resp = none ↔ x.rx.resp = none := fun x => by simp [absSt, absResp]
  refine ⟨fun hc => ?_, fun p i hp hi hw hns hh => ?_, fun hc hcmd => ?_⟩
  · have hc0 : csend (absSt s) = true := by unfold csend at hc ⊢; rw [← hcur]; exact hc
    obtain ⟨hidle, -⟩ := J.sending rfl hc0
    show s'.sh.cmd ≠ _
    rw [(B ((idle s).mp hidle)).cmd]
    exact S.armed hc0
  · rw [hcur] at hp
    change Hush s'.sh.log i at hh
    rw [hl] at hh
    obtain ⟨hh0, hnr⟩ := hush_snoc hh (hno i)
    obtain ⟨h1, h2, h3⟩ := S.waits p i hp hi hw hns hh0
    have b := B ((idle s).mp h1)
    refine ⟨(idle s').mpr (b.pc.resolve_right ?_), (rnone s').mpr (b.resp.mpr ((rnone s).mp h2)), b.queue.trans h3⟩
    rintro ⟨⟨l', e, n, hn⟩, -⟩
    rw [hl] at e
    exact hnr n (by rw [List.append_cancel_left e]; exact hn)
  · have hc0 : cend (absSt s) = true := by unfold cend at hc ⊢; rw [← hcur]; exact hc
    have hcmd0 : s.sh.cmd ≠ .noCommand := by
      intro h0
      apply hcmd
      rcases M.cmd with h | h
      · exact h.1.trans h0
      · exact h
    obtain ⟨h1, h2, h3, a, i, c, ha, hnr⟩ := S.ends hc0 hcmd0
    have b := B ((idle s).mp h1)
    change s.sh.log = _ at ha
    have hnone : ∀ n, Ev.recv n ∉ l := by
      intro n hn
      obtain ⟨l1, l2, rfl⟩ := List.append_of_mem hn
      obtain ⟨-, hsl⟩ := hs a i (c ++ (l1 ++ .recv n :: l2)) (by rw [hl, ha]; simp)
      obtain ⟨st, sent, hr⟩ := hsl (c ++ l1) n l2 (by simp)
      rcases List.mem_append.mp hr with hr | hr
      · exact hnr st sent hr
      · exact norets st sent i (List.mem_append_left _ hr)
    exact ⟨(idle s').mpr (b.pc.resolve_right (by
      rintro ⟨⟨l', e, n, hn⟩, -⟩
      rw [hl] at e
      exact hnone n (by rw [List.append_cancel_left e]; exact hn))), (rnone s').mpr (b.resp.mpr ((rnone s).mp h2)), b.queue.trans h3, a, i, c ++ l,
      by show s'.sh.log = _; rw [hl, ha]; simp, fun st sent h => by
        rcases List.mem_append.mp h with h | h
        · exact hnr st sent h
        · exact norets st sent i h⟩

theorem next_bad {cfg : Cfg} {fn : Fns} {chunk : Str} {v : PktStatus} {s : Bytes.St} (h : s.pc = .bad) : (Bytes.next cfg fn chunk v s).pc = .bad := by
  unfold Bytes.next
  rw [h]
  exact h

theorem unansweredBytes_of {s : Bytes.St} (hx : Unanswered (absSt s)) : UnansweredBytes s := by
  obtain ⟨h1, h2, h3⟩ := hx
  refine ⟨h1, h2.imp (fun h => by simpa [absSt, absResp] using h) (fun h => ?_), ?_⟩
  · change absRx _ _ s.pc = .free at h
    revert h; cases s.pc <;> simp [absRx]
  · change NotAnswering (absRx _ _ s.pc) = true at h3
    revert h3; cases s.pc <;> simp [absRx, NotAnswering, NotAnsweringPc]

theorem endsClean_next {cfg : Cfg} {fn : Fns} {chunk : Str} {v : PktStatus} {s : Bytes.St} {m : Own} (I : ConcLemmas.Inv (absSt s))
    (J : Inv2 true true (absSt s) m) (hs : SilentTimeouts (Bytes.next cfg fn chunk v s).sh.log) (S : Still (absSt s))
    (hb : (Bytes.next cfg fn chunk v s).pc ≠ .bad) : ∀ t, Ending ((Bytes.next cfg fn chunk v s).sh.thr t) = true →
      UnansweredBytes (Bytes.next cfg fn chunk v s) := by
  intro t ht
  have S' := still_next J hs S hb
  rw [(next_move cfg fn chunk v s).thr] at ht
  have U := unansweredBytes_of (endsClean_inv I J t ht)
  by_cases hc : s.sh.cmd = .noCommand
  · exact next_unanswered U hc hb
  · obtain ⟨-, hcur⟩ := cur_owner I (t := t) rfl (by revert ht; show Ending ((absSt s).thr t) = true → _; cases (absSt s).thr t <;> simp [Ending, active])
    obtain ⟨h1, h2, h3, -⟩ := S.ends (by simp only [cend, hcur, Option.any_some]; exact ht) hc
    have b := next_between (restsB_idle.mp h1) hb
    refine ⟨b.queue.trans h3, .inl (b.resp.mpr (by simpa [absSt, absResp] using h2)), ?_⟩
    rcases b.pc with h4 | ⟨-, h4, -⟩
    · revert h4; cases (Bytes.next cfg fn chunk v s).pc <;> simp [restsB, NotAnsweringPc]
    · exact h4

theorem bytes_silent {cfg : Cfg} {fn : Fns} {comm : Bool} {s : Bytes.St} (h : BytesRun cfg fn comm QuietBytes s)
    (hs : SilentTimeouts s.sh.log) (he : ∀ i, Ev.sendError i ∉ s.sh.log) (hb : s.pc ≠ .bad) :
    BytesRun cfg fn comm TidyBytes s ∧ Still (absSt s) := by
  induction h with
  | init => exact ⟨.init, still_init⟩
  | @step s s' hr hst hq ih =>
    have hlog : ∃ l, s'.sh.log = s.sh.log ++ l := by
      cases hst with
      | thr t h => exact step_log (cfg := cfg) (.thr t h)
      | rx _ chunk v h => exact (next_move cfg fn chunk v s).log.imp fun _ h => h.1
    obtain ⟨l, hl⟩ := hlog
    have hb0 : s.pc ≠ .bad := by
      intro e
      cases hst with
      | thr t h => exact hb e
      | rx _ chunk v h => exact hb (next_bad e)
    obtain ⟨hR, S⟩ := ih (by rw [hl] at hs; exact silent_prefix hs) (fun i hi => he i (by rw [hl]; exact List.mem_append_left _ hi)) hb0
    obtain ⟨hN, m, hm, rx, resp, J, hj⟩ := bytes_own (tol := true) (strict := true) hR (fun _ _ _ h => h.1) (.inr ⟨rfl, fun _ _ h => h.2⟩)
    obtain ⟨rfl, rfl⟩ := hj hb0
    have hI := (bytes_inv (run_reachable hr)).1
    have I : ConcLemmas.Inv (absSt s) := ⟨hI.m, hI.ex, hI.rc, hI.sc, hI.ser⟩
    have hI' := (bytes_inv (run_reachable (.step hr hst hq))).1
    have I' : ConcLemmas.Inv (absSt s') := ⟨hI'.m, hI'.ex, hI'.rc, hI'.sc, hI'.ser⟩
    suffices h : Still (absSt s') ∧ ∀ t, Ending (s'.sh.thr t) = true → UnansweredBytes s' from ⟨.step hR hst ⟨hq, he, h.2⟩, h.1⟩
    cases hst with
    | @thr t _ sh' h =>
      have hk := thr_keeps h
      have e : absSt { s with sh := sh' } = { sh' with rx := (absSt s).rx, resp := (absSt s).resp } := by
        unfold absSt absResp Bytes.St.cur
        simp only [hk.received]
      have st := thr_other h (absSt s).rx (absSt s).resp
      rw [e] at I' ⊢
      refine ⟨still_thr st I J he hs S, fun u hu => unansweredBytes_of ?_⟩
      rw [e]
      exact endsClean_thr st I I' J he hs S u hu
    | rx _ chunk v h => exact ⟨still_next J hs S hb, endsClean_next I J hs S hb⟩

/-- C85 for any port, any prefix callbacks, any buffer, overflow or not.  If the modem sends no line to the requests that time out (and is silent
while a step is about to be sent, the transport accepts all data and the port's callbacks stay within the buffer), the execution is tidy, so
C85_bytes_own_result, C85_bytes_own_lines, C85_bytes_once and C85_bytes_no_crash apply to it. -/
theorem C85_bytes_silence {cfg : Cfg} {fn : Fns} {comm : Bool} {s : Bytes.St} (h : BytesRun cfg fn comm QuietBytes s)
    (hs : SilentTimeouts s.sh.log) (he : ∀ i, Ev.sendError i ∉ s.sh.log) (hb : s.pc ≠ .bad) : BytesRun cfg fn comm TidyBytes s :=
  (bytes_silent h hs he hb).1

/-- The hypotheses are met: request 0 (with a data prefix callback) times out in silence, its answer comes late and is nobody's, and request 1 gets
its own header, data and result. -/
example : ∃ s, BytesRun (demoCfg 40) exFns true QuietBytes s ∧ SilentTimeouts s.sh.log ∧ (∀ i, Ev.sendError i ∉ s.sh.log) ∧ s.pc ≠ .bad ∧
    s.given = [(1, [str "+D:7", str "ab\r\nOK\r"])] := by
  obtain ⟨s, hr, he⟩ := quietExec_reach (cfg := demoCfg 40) (fn := exFns) (comm := true)
    ((begins 0 exReqBlock).map .thr ++ [.thr (.expire 0)] ++ (gos 0 3).map .thr ++ [.rx (str "OK\r\n") .ok] ++ rxk 8 ++
      (begins 1 exReqBlock).map .thr ++ [.rx (str "+D:7\r\nab\r\nOK\r\r\nOK\r\n") .ok] ++ rxk 20 ++ (gos 1 4).map .thr)
    (fun s => (s.sh.log, if restsB s.pc then s.given else [])) ([.start 0, .command 0 (str "AT"), .timeout 0, .ret 0 .timedOut none, .recv 0,
      .start 1, .command 1 (str "AT"), .fetched 1, .prefixCb 1, .recv 1, .fetched 1, .prefixCb 1, .recv 2, .final true 2, .callback 1 [.line 1] .ok,
      .got 1 .ok, .ret 1 .ok none], [(1, [str "+D:7", str "ab\r\nOK\r"])]) (by decide +kernel)
  simp only [Prod.mk.injEq] at he
  obtain ⟨h1, h2⟩ := he
  have h3 : restsB s.pc = true := by
    cases h : restsB s.pc with
    | true => rfl
    | false => rw [h] at h2; cases h2
  rw [if_pos h3] at h2
  refine ⟨s, hr, ?_, ?_, fun e => (by rw [e] at h3; cases h3), h2⟩
  · rw [h1]
    intro a i b h
    have key : a = [.start 0, .command 0 (str "AT")] ∧ i = 0 ∧ ∃ b', b = .ret 0 .timedOut none :: b' := by
      rcases a with _ | ⟨a0, _ | ⟨a1, _ | ⟨a2, a⟩⟩⟩ <;> simp at h
      · obtain ⟨rfl, rfl, rfl, rfl⟩ := h
        exact ⟨rfl, rfl, _, rfl⟩
      · obtain ⟨-, -, -, h⟩ := h
        have : Ev.timeout i ∈ a ++ Ev.timeout i :: b := by simp
        rw [← h] at this
        simp at this
    obtain ⟨rfl, rfl, b', rfl⟩ := key
    refine ⟨⟨[.start 0], _, [], rfl, rfl, by simp⟩, fun c n d hc => ⟨.timedOut, none, ?_⟩⟩
    cases c with
    | nil => simp at hc
    | cons e c => simp only [List.cons_append, List.cons.injEq] at hc; simp [← hc.1]
  · rw [h1]; simp

end Cellular.Props
