import Verif.ConcTidy
/-!
# Requests: no answer is overlooked (C87)

A request whose answer has come does not go on waiting: when the receive task has worked through the lines that came since the bytes of a step were
sent, and none of them was refused, either the result is there for the request to take or none of the lines can end the answer.
-/

namespace Cellular.Spec
open Cellular Conc
open Cellular.Pktio (CmdType MsgType Item Resp Cfg)

/-- Request `i` (`r`) waits for what `w` describes since event `e` handed its bytes to the transport; `y` has happened since then. -/
structure WaitsSince (log : List Ev) (i : Nat) (r : Req) (w : Want) (x : List Ev) (e : Ev) (y : List Ev) : Prop where
  split : log = x ++ e :: y
  step : w = commandWant r ∧ (∃ text, e = .command i text) ∨ w = dataWant ∧ ∃ b k, e = .data i b k
  since : ∀ f ∈ y, ¬ Boundary f ∧ ¬ isGot f

/-- Thread `p` waits for the answer to a step of request `i`: a time-out can end the wait. -/
def Waiting (i : Nat) (p : Thr) : Prop := (∃ r, p = .raw3 i r) ∨ ∃ n, p = .data3 i n

/-- None of the lines `ns` ends the answer, except that the last one may be in hand. -/
def NotEnded (cfg : Cfg) (w : Want) (line : Nat → Str) (ns : List Nat) (busy : Prop) : Prop :=
  ∃ ms rest, ns = ms ++ rest ∧ rest.length ≤ 1 ∧ (¬ busy → rest = []) ∧ ∀ k ∈ ms, ∀ ok, ¬ w.ends cfg (line k) ok

end Cellular.Spec

namespace Cellular.Props
open Cellular Spec Conc ConcLemmas
open Cellular.Pktio (CmdType MsgType Item Resp Cfg getMsgType processLine isToken)

theorem gathered_unanswered {cfg : Cfg} {w : Want} {line : Nat → Str} {ns : List Nat} {resp : Option Resp} {busy : Prop}
    (e1 : cfg.err.isSome = true) (e2 : cfg.succ.isSome = true) (H : Gathered cfg w line ns resp) : NotEnded cfg w line ns busy :=
  ⟨ns, [], by simp, by simp, fun _ => rfl, (H e1 e2).2⟩

theorem gathered_last {cfg : Cfg} {w : Want} {line : Nat → Str} {ns : List Nat} {resp : Option Resp} {busy : Prop} {n : Nat} (hb : busy)
    (e1 : cfg.err.isSome = true) (e2 : cfg.succ.isSome = true) (H : ∃ ms, ns = ms ++ [n] ∧ Gathered cfg w line ms resp) :
    NotEnded cfg w line ns busy := by
  obtain ⟨ms, e, H⟩ := H
  exact ⟨ms, [n], e, by simp, fun h => absurd hb h, (H e1 e2).2⟩

/-- A step that waits: nothing is queued for it. -/
theorem track_unanswered {cfg : Cfg} {s : St} {w : Want} {i : Nat} {raw : Prop} {y : List Ev} (T : Track cfg s w i raw y) (hq : s.queue = none)
    (e1 : cfg.err.isSome = true) (e2 : cfg.succ.isSome = true) :
    RefusedLine cfg w s.line (recvs y) ∨ NotEnded cfg w s.line (recvs y) (s.rx ≠ .idle) := by
  have ended : ∀ {y1 z ok n items}, y = y1 ++ .final ok n :: z → recvs z = [] → Answered cfg w s.line (recvs y1) ok n items → s.rx ≠ .idle →
      NotEnded cfg w s.line (recvs y) (s.rx ≠ .idle) := by
    intro y1 z ok n items hy hz hA hx
    obtain ⟨ms, h1, -, h3, -⟩ := hA
    refine ⟨ms, [n], ?_, by simp, fun h => absurd hx h, h3⟩
    rw [hy, recvs_append, ← h1]
    simp [recvs, hz]
  cases T with
  | pend _ hf ha hp =>
    unfold Pend at hp
    generalize hrx : s.rx = rx at hp
    cases rx with
    | idle => exact .inr (gathered_unanswered e1 e2 hp)
    | got n => exact .inr (gathered_last nofun e1 e2 hp)
    | pre n d e => exact .inr (gathered_last nofun e1 e2 hp.2.2)
    | classify n => exact .inr (gathered_last nofun e1 e2 hp)
    | classify2 n on => exact .inr (gathered_last nofun e1 e2 hp.2)
    | proc n => exact .inr (gathered_last nofun e1 e2 hp.2)
    | proc2 n t => exact .inr (gathered_last nofun e1 e2 hp.2.2)
    | undef n => exact .inr (gathered_unanswered e1 e2 hp.2)
    | undefFail => exact .inl hp
    | _ => exact hp.elim
  | lost _ hf hc hx hu => exact .inl hu
  | fin y1 z ok n r _ hy hf hz hA hs hx =>
    exact .inr (ended hy hz hA (by rcases hx with hx | ⟨-, hx | ⟨-, hx | ⟨hx, -⟩⟩⟩ <;> rw [hx] <;> nofun))
  | past y1 z ok n items hy hf hA hc hx =>
    rcases hx with ⟨-, hx⟩ | ⟨⟨st, hx⟩, hz⟩
    · exact absurd hq hx
    · exact .inr (ended hy hz hA (by rw [hx]; nofun))

/-- C87.  While a request waits and no result is queued for it, no line that came since its bytes were sent ends the answer - the last one excepted
while the receive task is at work on it - unless the port's handler refused one of them. -/
theorem C87_answered {cfg : Cfg} {comm : Bool} {s : St} (h : Run cfg comm Unharmed s) (he : cfg.err.isSome = true) (hsu : cfg.succ.isSome = true)
    {t i : Nat} (hw : Waiting i (s.thr t)) {r : Req} (hr : s.reqs[i]? = some r) (hp : NoPrefixCb r) :
    ∃ w x e y, WaitsSince s.log i r w x e y ∧ (s.queue = none →
      RefusedLine cfg w s.line (recvs y) ∨ NotEnded cfg w s.line (recvs y) (s.rx ≠ .idle)) := by
  obtain ⟨W, m, hm, J⟩ := whole_run h (fun _ _ h => h.1) (.inr ⟨rfl, fun _ _ h => h.2⟩)
  have hloc := (inv3_reachable h.reachable).loc t
  rcases hw with ⟨r', ht⟩ | ⟨n, ht⟩
  · obtain ⟨hmx, hc⟩ := cur_owner (inv_reachable h.reachable) ht (by simp [active])
    rw [ht] at hloc
    obtain rfl : r' = r := Option.some.inj (hloc.symm.trans hr)
    obtain ⟨x, e, y, hl, ⟨text, ho⟩, hb, T⟩ := W.wait _ i _ hc rfl rfl hp
    exact ⟨_, x, e, y, ⟨hl, .inl ⟨rfl, text, ho⟩, hb⟩, fun hq => track_unanswered T hq he hsu⟩
  · obtain ⟨hmx, hc⟩ := cur_owner (inv_reachable h.reachable) ht (by simp [active])
    obtain ⟨x, e, y, hl, ⟨b, k, ho⟩, hb, T⟩ := W.wait _ i dataWant hc rfl rfl trivial
    exact ⟨_, x, e, y, ⟨hl, .inr ⟨rfl, b, k, ho⟩, hb⟩, fun hq => track_unanswered T hq he hsu⟩

/-- A time-out ends a wait, with nothing queued. -/
theorem timeout_waits {comm : Bool} {t i : Nat} {s s' : St} (h : ThrStep comm t s s') (hl : s'.log = s.log ++ [.timeout i]) :
    Waiting i (s.thr t) ∧ s.queue = none := by
  cases h with
  | raw3timeout j r h hq =>
    simp only [St.set, St.emit, List.append_cancel_left_eq, List.cons.injEq, Ev.timeout.injEq, and_true] at hl
    exact ⟨.inl ⟨r, hl ▸ h⟩, hq⟩
  | data3timeout j n h hq =>
    simp only [St.set, St.emit, List.append_cancel_left_eq, List.cons.injEq, Ev.timeout.injEq, and_true] at hl
    exact ⟨.inr ⟨n, hl ▸ h⟩, hq⟩
  | _ => simp [St.set, St.emit] at hl

/-- C87.  A request does not time out if its answer has come: when it does, none of the lines that came since its bytes were sent ends the answer -
the last one excepted while the receive task is at work on it - unless the port's handler refused one of them. -/
theorem C87_timeout {cfg : Cfg} {comm : Bool} {s s' : St} (h : Run cfg comm Unharmed s) (he : cfg.err.isSome = true) (hsu : cfg.succ.isSome = true)
    {t i : Nat} (hs : ThrStep comm t s s') (hl : s'.log = s.log ++ [.timeout i]) {r : Req} (hr : s.reqs[i]? = some r) (hp : NoPrefixCb r) :
    ∃ w x e y, WaitsSince s.log i r w x e y ∧
      (RefusedLine cfg w s.line (recvs y) ∨ NotEnded cfg w s.line (recvs y) (s.rx ≠ .idle)) := by
  obtain ⟨hw, hq⟩ := timeout_waits hs hl
  obtain ⟨w, x, e, y, h1, h2⟩ := C87_answered h he hsu hw hr hp
  exact ⟨w, x, e, y, h1, h2 hq⟩

/-! ## Executions -/

/-- The lines received and the history before and after thread 0 times out at the end of a schedule. -/
def expired (cfg : Cfg) (as : List Act) : Option (List Str × List Ev × List Ev) :=
  (execTidy cfg true as init).bind (fun s => (expireThr 0 s).map (fun s' => (s.received, s.log, s'.log)))

theorem expired_sound {cfg : Cfg} {as : List Act} {ls : List Str} {a b : List Ev} (h : expired cfg as = some (ls, a, b)) :
    ∃ s s', Run cfg true Unharmed s ∧ ThrStep true 0 s s' ∧ s.received = ls ∧ s.log = a ∧ s'.log = b := by
  unfold expired at h
  cases h1 : execTidy cfg true as init with
  | none => rw [h1] at h; cases h
  | some s =>
    rw [h1] at h
    cases h2 : expireThr 0 s with
    | none => simp [h2] at h
    | some s' =>
      simp only [h2, Option.bind_some, Option.map_some, Option.some.injEq, Prod.mk.injEq] at h
      exact ⟨s, s', execTidy_sound .init h1, expireThr_sound h2, h.1, h.2.1, h.2.2⟩

/-- The only line "+A:1" and then nothing: a time-out, rightly. -/
example : ∃ s s', Run exCfg true Unharmed s ∧ ThrStep true 0 s s' ∧ s.received = [str "+A:1"] ∧
    s.log = [.start 0, .command 0 [65, 84], .recv 0] ∧ s'.log = s.log ++ [.timeout 0] := by
  obtain ⟨s, s', h1, h2, h3, h4, h5⟩ := expired_sound (cfg := exCfg) (as := begins 0 exReqPfx ++ .recv (str "+A:1") :: rxs 6)
    (a := [.start 0, .command 0 [65, 84], .recv 0]) (b := [.start 0, .command 0 [65, 84], .recv 0, .timeout 0])
    (ls := [str "+A:1"]) (by decide +kernel)
  exact ⟨s, s', h1, h2, h3, h4, by rw [h5, h4]; rfl⟩

theorem ends_ok {l : Str} (hl : l = str "OK") : (commandWant exReqPfx).ends exCfg l true ∧ (commandWant exReq).ends exCfg l true := by
  subst hl
  refine ⟨?_, ?_⟩ <;> exact ⟨by unfold Want.mine; decide +kernel, .inl ⟨.inr (by decide +kernel), rfl⟩⟩

/-- The line in hand has to be excepted: the request times out while the receive task is at work on "OK". -/
theorem C87_in_hand_witness : ∃ s s', Run exCfg true Unharmed s ∧ ThrStep true 0 s s' ∧
    s.log = [.start 0, .command 0 [65, 84], .recv 0] ∧ s'.log = s.log ++ [.timeout 0] ∧ (commandWant exReqPfx).ends exCfg (s.line 0) true := by
  obtain ⟨s, s', h1, h2, h3, h4, h5⟩ := expired_sound (cfg := exCfg) (as := begins 0 exReqPfx ++ .recv (str "OK") :: rxs 3)
    (a := [.start 0, .command 0 [65, 84], .recv 0]) (b := [.start 0, .command 0 [65, 84], .recv 0, .timeout 0])
    (ls := [str "OK"]) (by decide +kernel)
  exact ⟨s, s', h1, h2, h4, by rw [h5, h4]; rfl, (ends_ok (by unfold St.line; rw [h3]; rfl)).1⟩

/-- So have refused lines: after a line of contents for a command that has none, which the port's handler refuses, "OK" is overlooked, and the request times out. -/
theorem C87_refused_witness : ∃ s s', Run exCfg true Unharmed s ∧ ThrStep true 0 s s' ∧ s.log = [.start 0, .command 0 [65, 84], .recv 0, .recv 1] ∧
    s'.log = s.log ++ [.timeout 0] ∧ (commandWant exReq).ends exCfg (s.line 1) true ∧ RefusedLine exCfg (commandWant exReq) s.line [0, 1] := by
  obtain ⟨s, s', h1, h2, h3, h4, h5⟩ := expired_sound (cfg := exCfg) (as := begins 0 exReq ++ .recv (str "BUSY") :: rxs 8 ++ .recv (str "OK") :: rxs 6)
    (a := [.start 0, .command 0 [65, 84], .recv 0, .recv 1]) (b := [.start 0, .command 0 [65, 84], .recv 0, .recv 1, .timeout 0])
    (ls := [str "BUSY", str "OK"]) (by decide +kernel)
  refine ⟨s, s', h1, h2, h4, by rw [h5, h4]; rfl, (ends_ok (by unfold St.line; rw [h3]; rfl)).2,
    [], 0, [1], rfl, nofun, fun _ _ => .inr ⟨?_, rfl⟩⟩
  have h0 : s.line 0 = str "BUSY" := by unfold St.line; rw [h3]; rfl
  rw [h0]
  exact ⟨by unfold Want.mine; decide +kernel, by unfold Want.code Want.okCode; decide +kernel⟩

end Cellular.Props
