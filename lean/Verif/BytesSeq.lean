import Verif.BytesThm
import Mathlib.Logic.Relation
/-!
# The receive task alone (C82)

As long as no thread interferes, the receive task of `Verif.Bytes` does what `Verif.Pktio` says: the two models of the receive side agree.
-/

namespace Cellular.Props
open Cellular Cellular.Spec
open Cellular.Pktio (Cur CmdType MsgType Item Resp Cfg getMsgType processLine cleanBuf readPos room skipEol preprocessInput
  preprocessLine findLine handleData getNextLine itemContents put slice isEol handleMsgType handleLine iter loop handleUndefined
  handleCallbackResult rxEvent)
open Cellular.Bytes (Pc Fns)

/-- The receive side as `Verif.Pktio` sees it: the buffer, with the shared members. -/
def alone (fn : Fns) (ev : List Pktio.Event) (s : Bytes.St) : Pktio.St :=
  { s.rx with
    cmd := s.sh.cmd, pfx := if s.sh.pfxOn then some s.sh.pfxBuf else none, sendCb := s.sh.sendCb.map fn.send,
    dataCb := s.sh.recvCb.map fn.data, events := ev }

/-- The tables in effect. -/
def tablesOf (cfg : Cfg) (s : Bytes.St) : Cfg := { cfg with extra := s.sh.extra.map (·.2) }

/-- The buffer of `m` with the other members of `x`. -/
def onto (x m : Pktio.St) : Pktio.St :=
  { x with buf := m.buf, readPtr := m.readPtr, partialLen := m.partialLen, dataLen := m.dataLen, resp := m.resp }

theorem alone_onto (fn : Fns) (ev : List Pktio.Event) (s : Bytes.St) : alone fn ev s = onto (alone fn ev s) s.rx := rfl

theorem handleCallbackResult_onto (cfg : Cfg) (x m : Pktio.St) (st : PktStatus) (p n : Nat) :
    handleCallbackResult cfg (onto x m) st p n = ((handleCallbackResult cfg m st p n).1, onto x (handleCallbackResult cfg m st p n).2) := by
  unfold handleCallbackResult
  split <;> rfl

theorem preprocessInput_onto (cfg : Cfg) (x m : Pktio.St) (p n : Nat) :
    preprocessInput cfg (onto x m) p n = (preprocessInput cfg m p n).map (fun r => (r.1, onto x r.2.1, r.2.2.1, r.2.2.2)) := by
  unfold preprocessInput
  cases cfg.inputCb with
  | none => rfl
  | some f =>
    simp only []
    show (match slice m.buf p n with | none => _ | some text => _) = _
    cases slice m.buf p n with
    | none => rfl
    | some text =>
      simp only []
      generalize f text = r
      obtain ⟨st, t, len⟩ := r
      simp only []
      show (match put m.buf p t with | none => _ | some m => _) = _
      cases put m.buf p t with
      | none => rfl
      | some b =>
        simp only []
        cases st <;> simp only [] <;> first | rfl | (split <;> rfl)

theorem preprocessLine_onto (cfg : Cfg) (x m : Pktio.St) (hs : m.sendCb = x.sendCb) (hd : m.dataCb = x.dataCb) (p n : Nat) (sd : Option Nat) :
    preprocessLine cfg (onto x m) p n sd = (preprocessLine cfg m p n sd).map (fun r => (r.1, onto x r.2.1, r.2.2.1, r.2.2.2)) := by
  obtain ⟨b1, r1, l1, d1, re1, c1, p1, sc, dc, e1⟩ := x
  obtain ⟨b2, r2, l2, d2, re2, c2, p2, sc2, dc2, e2⟩ := m
  simp only at hs hd
  subst hs hd
  unfold preprocessLine
  split
  · rfl
  · cases sc2 with
    | some f =>
      simp only [onto]
      cases slice b2 p n with
      | none => rfl
      | some text =>
        simp only []
        generalize f text = r
        obtain ⟨st, t, len⟩ := r
        simp only []
        cases put b2 p t with
        | none => rfl
        | some b =>
          simp only [Option.map_some]
          cases st <;> rfl
    | none =>
      cases dc2 with
      | none => rfl
      | some f =>
        simp only [onto]
        cases slice b2 p n with
        | none => rfl
        | some text =>
          simp only []
          generalize f text = r
          obtain ⟨st, t, out⟩ := r
          simp only []
          cases put b2 p t with
          | none => rfl
          | some b =>
            simp only [Option.map_some]
            cases out <;> cases st <;> rfl

theorem findLine_onto (x m : Pktio.St) (p n : Nat) :
    findLine (onto x m) p n = (findLine m p n).map (fun r => (onto x r.1, r.2)) := by
  unfold findLine
  show (match slice m.buf p n with | none => _ | some text => _) = _
  cases slice m.buf p n with
  | none => rfl
  | some text =>
    simp only []
    cases text.findIdx? isEol with
    | none => rfl
    | some i =>
      simp only []
      show Option.map _ (wr m.buf (p + i) 0) = _
      cases wr m.buf (p + i) 0 <;> rfl

theorem handleData_onto (x m : Pktio.St) (a p n : Nat) :
    handleData (onto x m) a p n = (handleData m a p n).map (fun r => (r.1, r.2.1, onto x r.2.2)) := by
  unfold handleData
  split
  · rfl
  · simp only []
    show (if n - (a - p) ≥ m.dataLen then _ else _) = _
    split
    · show (match m.resp with | none => _ | some r => _) = _
      cases m.resp <;> rfl
    · rfl

theorem getNextLine_onto (x m : Pktio.St) (p n len : Nat) (st : PktStatus) (t : MsgType) :
    getNextLine (onto x m) p n len st t = (getNextLine m p n len st t).map (fun r => (r.1, r.2.1, onto x r.2.2)) := by
  unfold getNextLine
  simp only []
  split
  · show (match slice m.buf (p + (len + 1)) (n - (len + 1)) with | none => _ | some rest => _) = _
    cases slice m.buf (p + (len + 1)) (n - (len + 1)) with
    | none => rfl
    | some rest =>
      simp only []
      show Option.map _ (put m.buf 0 rest) = _
      cases put m.buf 0 rest <;> rfl
  · rfl

/-- A step of the receive task that does not read from the transport; response callbacks return `v`. -/
def Tick (cfg : Cfg) (fn : Fns) (v : PktStatus) (s s' : Bytes.St) : Prop := s.pc ≠ .wait ∧ s' = Bytes.next cfg fn [] v s

abbrev Ticks (cfg : Cfg) (fn : Fns) (v : PktStatus) := Relation.ReflTransGen (Tick cfg fn v)

/-- The place after an iteration of the loop. -/
def placeOf : Option Cur → Pc
  | none => .wait
  | some c => .top c

/-- What the receive task does not change. -/
structure SameSide (s s' : Bytes.St) : Prop where
  extra : s'.sh.extra = s.sh.extra
  cb : s'.sh.cb = s.sh.cb
  recvCb : s'.sh.recvCb = s.sh.recvCb
  sendCb : s'.sh.sendCb = s.sh.sendCb
  thr : s'.sh.thr = s.sh.thr
  stream : s'.stream = s.stream

/-- What the response callback `cb` is given for these events: the lines of each successful response. -/
def handed (cb : Option Nat) : List Pktio.Event → List (Nat × List Str)
  | [] => []
  | .response true l :: es => (cb.map (fun i => (i, l))).toList ++ handed cb es
  | _ :: es => handed cb es

theorem handed_append (cb : Option Nat) (a b : List Pktio.Event) : handed cb (a ++ b) = handed cb a ++ handed cb b := by
  induction a with
  | nil => rfl
  | cons e a ih =>
    cases e with
    | response st l => cases st <;> simp only [List.cons_append, handed, ih, List.append_assoc]
    | _ => exact ih

/-- The receive task arrives where `Verif.Pktio` says; the events since `ev` are those of `Verif.Pktio`, and the response
callbacks were given the responses among them. -/
def Arrives (cfg : Cfg) (fn : Fns) (v : PktStatus) (s : Bytes.St) (ev : List Pktio.Event) (oc : Option Cur) (m : Pktio.St) : Prop :=
  ∃ s', Ticks cfg fn v s s' ∧ s'.pc = placeOf oc ∧ alone fn m.events s' = m ∧ SameSide s s' ∧
    ∃ new, m.events = ev ++ new ∧ s'.given = s.given ++ handed s.sh.cb new

theorem SameSide.trans {a b c : Bytes.St} (h : SameSide a b) (h' : SameSide b c) : SameSide a c :=
  ⟨h'.1.trans h.1, h'.2.trans h.2, h'.3.trans h.3, h'.4.trans h.4, h'.5.trans h.5, h'.6.trans h.6⟩

theorem Arrives.stepE {cfg : Cfg} {fn : Fns} {v : PktStatus} {s s1 : Bytes.St} {ev : List Pktio.Event} (e : List Pktio.Event) {oc : Option Cur}
    {m : Pktio.St} (hw : s.pc ≠ .wait) (h1 : Bytes.next cfg fn [] v s = s1) (hs : SameSide s s1) (hg : s1.given = s.given ++ handed s.sh.cb e)
    (h : Arrives cfg fn v s1 (ev ++ e) oc m) : Arrives cfg fn v s ev oc m := by
  obtain ⟨s', h2, h3, h4, h5, new, h6, h7⟩ := h
  refine ⟨s', .head ⟨hw, h1.symm⟩ h2, h3, h4, hs.trans h5, e ++ new, by rw [h6, List.append_assoc], ?_⟩
  rw [h7, hg, hs.cb, handed_append, List.append_assoc]

theorem Arrives.step {cfg : Cfg} {fn : Fns} {v : PktStatus} {s s1 : Bytes.St} {ev : List Pktio.Event} {oc : Option Cur} {m : Pktio.St}
    (hw : s.pc ≠ .wait) (h1 : Bytes.next cfg fn [] v s = s1) (hs : SameSide s s1) (hg : s1.given = s.given)
    (h : Arrives cfg fn v s1 ev oc m) : Arrives cfg fn v s ev oc m :=
  .stepE [] hw h1 hs (by rw [hg]; exact (List.append_nil _).symm) (by rw [List.append_nil]; exact h)

theorem Arrives.here {cfg : Cfg} {fn : Fns} {v : PktStatus} {s : Bytes.St} {oc : Option Cur} {m : Pktio.St} (hp : s.pc = placeOf oc)
    (hm : alone fn m.events s = m) : Arrives cfg fn v s m.events oc m :=
  ⟨s, .refl, hp, hm, ⟨rfl, rfl, rfl, rfl, rfl, rfl⟩, [], (List.append_nil _).symm, (List.append_nil _).symm⟩

/-- The end of an iteration in `Verif.Pktio`. -/
def tailOf (m : Pktio.St) (c : Cur) (len : Nat) (st : PktStatus) (t : MsgType) : Option (Option Cur × Pktio.St) :=
  if st = .pendingBuffer ∧ m.dataLen ≠ 0 then
    match c.sd with
    | none => none
    | some start => (handleData m start c.p c.n).map (fun r => (if r.1 = 0 then none else some { c with p := r.2.1, n := r.1 }, r.2.2))
  else (getNextLine m c.p c.n len st t).map (fun r => (some { c with p := r.1, n := r.2.1 }, r.2.2))

theorem arrives_after {cfg : Cfg} {fn : Fns} {v : PktStatus} {s : Bytes.St} {c : Cur} {len : Nat} {st : PktStatus} {t : MsgType}
    (hpc : s.pc = .after c len st t) {ev : List Pktio.Event} {oc : Option Cur} {m : Pktio.St}
    (h : tailOf (alone fn ev s) c len st t = some (oc, m)) : Arrives cfg fn v s ev oc m := by
  obtain ⟨sh, rx, pc, nums, stream, given, lost, ov⟩ := s
  simp only at hpc
  subst hpc
  have hn : Bytes.next cfg fn [] v ⟨sh, rx, .after c len st t, nums, stream, given, lost, ov⟩ =
      Bytes.after c len st t ⟨sh, rx, .after c len st t, nums, stream, given, lost, ov⟩ := rfl
  unfold Bytes.after at hn
  simp only [] at hn
  unfold tailOf at h
  rw [alone_onto] at h
  by_cases hd : st = .pendingBuffer ∧ rx.dataLen ≠ 0
  · rw [if_pos hd] at hn
    rw [if_pos (by exact hd)] at h
    cases hsd : c.sd with
    | none => rw [hsd] at h; cases h
    | some a =>
      rw [hsd] at h hn
      simp only [] at h hn
      rw [handleData_onto] at h
      cases hh : handleData rx a c.p c.n with
      | none => simp only [hh] at h; cases h
      | some r =>
        simp only [hh, Option.map_some, Option.some.injEq, Prod.mk.injEq] at h
        obtain ⟨rfl, rfl⟩ := h
        obtain ⟨left, p, rx'⟩ := r
        rw [hh] at hn
        refine .step nofun hn ⟨rfl, rfl, rfl, rfl, rfl, rfl⟩ rfl (.here ?_ rfl)
        by_cases hl : left = 0
        · simp only [hl, if_true]; rfl
        · simp only [hl, if_false]; rw [← hsd]; rfl
  · rw [if_neg hd] at hn
    rw [if_neg (by exact hd), getNextLine_onto] at h
    cases hh : getNextLine rx c.p c.n len st t with
    | none => simp only [hh] at h; cases h
    | some r =>
      simp only [hh, Option.map_some, Option.some.injEq, Prod.mk.injEq] at h
      obtain ⟨rfl, rfl⟩ := h
      rw [hh] at hn
      exact .step nofun hn ⟨rfl, rfl, rfl, rfl, rfl, rfl⟩ rfl (.here rfl rfl)

/-- The undefined branch in `Verif.Pktio`, and the end of the iteration. -/
def undefOf (cfg : Cfg) (m : Pktio.St) (c : Cur) (len : Nat) (line : Str) : Option (Option Cur × Pktio.St) :=
  if cfg.undefCb line = .ok then tailOf { m with events := m.events ++ [.undefined line] } c len .ok .undefined
  else some (none, { cleanBuf cfg { m with events := m.events ++ [.undefined line] } with cmd := .noCommand, pfx := none, resp := none })

theorem arrives_undef {cfg : Cfg} {fn : Fns} {v : PktStatus} {s : Bytes.St} {c : Cur} {len : Nat} {line : Str}
    (hpc : s.pc = .undef c len) (hl : readStr s.rx.buf c.p = some line) {ev : List Pktio.Event} {oc : Option Cur} {m : Pktio.St}
    (h : undefOf cfg (alone fn ev s) c len line = some (oc, m)) : Arrives cfg fn v s ev oc m := by
  obtain ⟨sh, rx, pc, nums, stream, given, lost, ov⟩ := s
  simp only at hpc hl
  subst hpc
  have hn : Bytes.next cfg fn [] v ⟨sh, rx, .undef c len, nums, stream, given, lost, ov⟩ =
      if cfg.undefCb line = .ok then ⟨sh, rx, .after c len .ok .undefined, nums, stream, given, lost, ov⟩
      else ⟨sh, rx, .undefFail c len, nums, stream, given, lost, ov⟩ := by
    simp only [Bytes.next, Bytes.undef, hl]
  unfold undefOf at h
  by_cases hu : cfg.undefCb line = .ok
  · rw [if_pos hu] at hn h
    exact .stepE [.undefined line] nofun hn ⟨rfl, rfl, rfl, rfl, rfl, rfl⟩ (List.append_nil _).symm (arrives_after rfl h)
  · rw [if_neg hu] at hn h
    cases h
    refine .stepE [.undefined line] nofun hn ⟨rfl, rfl, rfl, rfl, rfl, rfl⟩ (List.append_nil _).symm
      (.step (s1 := _) nofun rfl ⟨rfl, rfl, rfl, rfl, rfl, rfl⟩ rfl ?_)
    exact Arrives.here rfl rfl

/-- The response is complete, in `Verif.Pktio`. -/
theorem arrives_done {cfg : Cfg} {fn : Fns} {v : PktStatus} {s : Bytes.St} {c : Cur} {len : Nat} {r : Resp} {l : List Str}
    (hpc : s.pc = .done c len) (hr : s.rx.resp = some r) (hl : r.items.mapM (itemContents s.rx.buf) = some l) {ev : List Pktio.Event}
    {oc : Option Cur} {m : Pktio.St}
    (h : tailOf { alone fn (ev ++ [.response r.status l]) s with cmd := .noCommand, pfx := none, resp := none } c len .ok .solicited = some (oc, m)) :
    Arrives cfg fn v s ev oc m := by
  obtain ⟨sh, rx, pc, nums, stream, given, lost, ov⟩ := s
  simp only at hpc hl hr
  subst hpc
  -- the response is handed over, whatever the callback says
  have hsend : ∀ (q : PktStatus) (given' : List (Nat × List Str)) (log' : List Conc.Ev),
      Arrives cfg fn v ⟨{ sh with cmd := .noCommand, pfxOn := false, log := log' }, rx, .send c len q, nums, stream, given', lost, ov⟩
        (ev ++ [.response r.status l]) oc m := by
    intro q given' log'
    refine .step nofun rfl ⟨rfl, rfl, rfl, rfl, rfl, rfl⟩ rfl (.step nofun rfl ⟨rfl, rfl, rfl, rfl, rfl, rfl⟩ rfl (arrives_after rfl h))
  refine .step nofun rfl ⟨rfl, rfl, rfl, rfl, rfl, rfl⟩ rfl ?_
  have hn : Bytes.next cfg fn [] v ⟨{ sh with cmd := .noCommand, pfxOn := false }, rx, .handle c len, nums, stream, given, lost, ov⟩ =
      ⟨{ sh with cmd := .noCommand, pfxOn := false }, rx,
        Bytes.handled c len ⟨{ sh with cmd := .noCommand, pfxOn := false }, rx, .handle c len, nums, stream, given, lost, ov⟩,
        nums, stream, given, lost, ov⟩ := rfl
  have hh : Bytes.handled c len ⟨{ sh with cmd := .noCommand, pfxOn := false }, rx, .handle c len, nums, stream, given, lost, ov⟩ =
      if r.status = false then .send c len .failure else if sh.cb = none then .send c len .ok else .call c len := by
    unfold Bytes.handled
    simp only [hr]
    cases sh.cb <;> simp
  rw [hh] at hn
  by_cases hst : r.status = false
  · rw [if_pos hst] at hn
    refine .stepE [.response r.status l] nofun hn ⟨rfl, rfl, rfl, rfl, rfl, rfl⟩ ?_ (hsend _ _ _)
    rw [hst]
    exact (List.append_nil _).symm
  · rw [if_neg hst] at hn
    have hst' : r.status = true := by simpa using hst
    by_cases hcb : sh.cb = none
    · rw [if_pos hcb] at hn
      refine .stepE [.response r.status l] nofun hn ⟨rfl, rfl, rfl, rfl, rfl, rfl⟩ ?_ (hsend _ _ _)
      rw [hst']
      show given = given ++ ((sh.cb.map (fun i => (i, l))).toList ++ [])
      rw [hcb]
      exact (List.append_nil _).symm
    · rw [if_neg hcb] at hn
      refine .step nofun hn ⟨rfl, rfl, rfl, rfl, rfl, rfl⟩ rfl ?_
      obtain ⟨i, hi⟩ := Option.ne_none_iff_exists'.mp hcb
      have h1 : Bytes.next cfg fn [] v ⟨{ sh with cmd := .noCommand, pfxOn := false }, rx, .call c len, nums, stream, given, lost, ov⟩ =
          ⟨{ sh with cmd := .noCommand, pfxOn := false }, rx, .inCb c len i, nums, stream, given, lost, ov⟩ := by
        simp only [Bytes.next, hi]
      refine .step nofun h1 ⟨rfl, rfl, rfl, rfl, rfl, rfl⟩ rfl ?_
      have h2 : Bytes.next cfg fn [] v ⟨{ sh with cmd := .noCommand, pfxOn := false }, rx, .inCb c len i, nums, stream, given, lost, ov⟩ =
          ⟨{ sh with cmd := .noCommand, pfxOn := false, log := sh.log ++ [.callback i (nums.map .line) v] }, rx, .send c len v, nums, stream,
            given ++ [(i, l)], lost, ov⟩ := by
        have : (⟨{ sh with cmd := .noCommand, pfxOn := false }, rx, .inCb c len i, nums, stream, given, lost, ov⟩ : Bytes.St).items = r.items := by
          simp [Bytes.St.items, hr]
        simp only [Bytes.next, Bytes.callback, this, hl]
      refine .stepE [.response r.status l] nofun h2 ⟨rfl, rfl, rfl, rfl, rfl, rfl⟩ ?_ (hsend _ _ _)
      rw [hst']
      show given ++ [(i, l)] = given ++ ((sh.cb.map (fun i => (i, l))).toList ++ [])
      rw [hi]
      rfl

/-- What follows `_handleMsgType` in an iteration, cellular_pktio.c:1135-1158. -/
def endOf (c : Cur) (len : Nat) (st : PktStatus) (t : MsgType) (m : Pktio.St) : Option (Option Cur × Pktio.St) :=
  match st with
  | .ok => tailOf m c len .ok t
  | .pendingBuffer => tailOf m c len .pendingBuffer t
  | .pendingData => tailOf m c len .pendingData t
  | _ => some (none, m)

theorem handleLine_end {cfg : Cfg} {m : Pktio.St} {c : Cur} {len : Nat} {line : Str} (hl : readStr m.buf c.p = some line) :
    handleLine cfg m c len = (handleMsgType cfg m c.p line).bind (fun r => endOf c len r.1 r.2.1 r.2.2) := by
  unfold handleLine
  rw [hl]
  simp only []
  cases handleMsgType cfg m c.p line with
  | none => rfl
  | some r =>
    obtain ⟨st, t, m⟩ := r
    simp only [Option.bind_some, endOf, tailOf]
    cases st with
    | pendingBuffer =>
      by_cases hd : m.dataLen = 0
      · simp [hd]
      · simp only [ne_eq, hd, not_false_eq_true, if_true, and_self]
        cases c.sd <;> rfl
    | _ => simp

theorem undef_end (cfg : Cfg) (m : Pktio.St) (c : Cur) (len : Nat) (line : Str) :
    endOf c len (handleUndefined cfg m line).1 .undefined (handleUndefined cfg m line).2 = undefOf cfg m c len line := by
  unfold handleUndefined undefOf
  simp only []
  cases cfg.undefCb line <;> rfl

/-- A solicited line in `Verif.Pktio`. -/
def procOf (cfg : Cfg) (m : Pktio.St) (c : Cur) (len : Nat) (line : Str) (q : PktStatus × Resp) : Option (Option Cur × Pktio.St) :=
  match q.1 with
  | .ok => (q.2.items.mapM (itemContents m.buf)).bind (fun l =>
      tailOf { m with cmd := .noCommand, pfx := none, resp := none, events := m.events ++ [.response q.2.status l] } c len .ok .solicited)
  | .pendingBuffer => tailOf { m with resp := some q.2 } c len .pendingBuffer .solicited
  | .pendingData => tailOf { m with resp := some q.2 } c len .pendingData .solicited
  | _ => undefOf cfg { m with resp := some q.2 } c len line

theorem handleLine_solicited {cfg : Cfg} {m : Pktio.St} {c : Cur} {len : Nat} {line : Str} (hl : readStr m.buf c.p = some line)
    (hg : getMsgType cfg m.cmd m.pfx line = .solicited) :
    handleLine cfg m c len = procOf cfg m c len line (processLine cfg line (.line c.p) (m.resp.getD ⟨false, []⟩) m.cmd) := by
  rw [handleLine_end hl]
  unfold handleMsgType procOf
  rw [hg]
  simp only []
  generalize processLine cfg line (.line c.p) (m.resp.getD ⟨false, []⟩) m.cmd = q
  obtain ⟨st, r⟩ := q
  cases st <;> simp only [] <;> first
    | rfl
    | exact undef_end cfg { m with resp := some r } c len line
    | (cases r.items.mapM (itemContents m.buf) <;> rfl)

theorem handleLine_undefined {cfg : Cfg} {m : Pktio.St} {c : Cur} {len : Nat} {line : Str} (hl : readStr m.buf c.p = some line)
    (hg : getMsgType cfg m.cmd m.pfx line = .undefined) : handleLine cfg m c len = undefOf cfg m c len line := by
  rw [handleLine_end hl]
  unfold handleMsgType
  rw [hg]
  exact undef_end cfg m c len line

theorem handleLine_unsolicited {cfg : Cfg} {m : Pktio.St} {c : Cur} {len : Nat} {line : Str} (hl : readStr m.buf c.p = some line)
    (hg : getMsgType cfg m.cmd m.pfx line = .unsolicited) :
    handleLine cfg m c len = (put m.buf c.p (cfg.urcEdit line)).bind (fun b =>
      tailOf { m with buf := b, events := m.events ++ [.urc line] } c len .ok .unsolicited) := by
  rw [handleLine_end hl]
  unfold handleMsgType
  rw [hg]
  simp only []
  cases put m.buf c.p (cfg.urcEdit line) <;> rfl

theorem arrives_proc2 {cfg : Cfg} {fn : Fns} {v : PktStatus} {s : Bytes.St} {c : Cur} {len : Nat} {line : Str}
    (hpc : s.pc = .proc2 c len s.sh.cmd) (hl : readStr s.rx.buf c.p = some line) {ev : List Pktio.Event} {oc : Option Cur} {m : Pktio.St}
    (h : procOf (tablesOf cfg s) (alone fn ev s) c len line
      (processLine (tablesOf cfg s) line (.line c.p) (s.rx.resp.getD ⟨false, []⟩) s.sh.cmd) = some (oc, m)) : Arrives cfg fn v s ev oc m := by
  obtain ⟨sh, rx, pc, nums, stream, given, lost, ov⟩ := s
  simp only at hpc hl
  subst hpc
  have hn : Bytes.next cfg fn [] v ⟨sh, rx, .proc2 c len sh.cmd, nums, stream, given, lost, ov⟩ =
      Bytes.proc cfg c len sh.cmd ⟨sh, rx, .proc2 c len sh.cmd, nums, stream, given, lost, ov⟩ := rfl
  unfold Bytes.proc at hn
  simp only [hl] at hn
  unfold tablesOf at h
  simp only [] at h
  generalize processLine { cfg with extra := sh.extra.map (·.2) } line (.line c.p) (rx.resp.getD ⟨false, []⟩) sh.cmd = q at h hn
  obtain ⟨st, r⟩ := q
  unfold procOf at h
  cases st with
  | ok =>
    simp only [] at h hn
    cases hm : r.items.mapM (itemContents rx.buf) with
    | none =>
      rw [show r.items.mapM (itemContents (alone fn ev ⟨sh, rx, .proc2 c len sh.cmd, nums, stream, given, lost, ov⟩).buf) = _ from hm] at h
      cases h
    | some l =>
      rw [show r.items.mapM (itemContents (alone fn ev ⟨sh, rx, .proc2 c len sh.cmd, nums, stream, given, lost, ov⟩).buf) = _ from hm] at h
      refine .step nofun hn ⟨rfl, rfl, rfl, rfl, rfl, rfl⟩ rfl (arrives_done (r := r) rfl rfl hm (ev := ev) ?_)
      exact h
  | pendingBuffer => exact .step nofun hn ⟨rfl, rfl, rfl, rfl, rfl, rfl⟩ rfl (arrives_after rfl (ev := ev) h)
  | pendingData => exact .step nofun hn ⟨rfl, rfl, rfl, rfl, rfl, rfl⟩ rfl (arrives_after rfl (ev := ev) h)
  | _ => exact .step nofun hn ⟨rfl, rfl, rfl, rfl, rfl, rfl⟩ rfl (arrives_undef rfl hl (ev := ev) h)

theorem arrives_classify {cfg : Cfg} {fn : Fns} {v : PktStatus} {s : Bytes.St} {c : Cur} {len : Nat} {line : Str}
    (hpc : s.pc = .classify c len) (hl : readStr s.rx.buf c.p = some line) {ev : List Pktio.Event} {oc : Option Cur} {m : Pktio.St}
    (h : handleLine (tablesOf cfg s) (alone fn ev s) c len = some (oc, m)) : Arrives cfg fn v s ev oc m := by
  obtain ⟨sh, rx, pc, nums, stream, given, lost, ov⟩ := s
  simp only at hpc hl
  subst hpc
  refine .step nofun rfl ⟨rfl, rfl, rfl, rfl, rfl, rfl⟩ rfl ?_
  generalize hg : getMsgType cfg sh.cmd (if sh.pfxOn = true then some sh.pfxBuf else none) line = g
  have hn : Bytes.next cfg fn [] v ⟨sh, rx, .classify2 c len sh.pfxOn, nums, stream, given, lost, ov⟩ =
      Bytes.classify cfg c len sh.pfxOn ⟨sh, rx, .classify2 c len sh.pfxOn, nums, stream, given, lost, ov⟩ := rfl
  unfold Bytes.classify at hn
  simp only [hl, hg] at hn
  cases g with
  | unsolicited =>
    rw [handleLine_unsolicited (cfg := tablesOf cfg ⟨sh, rx, .classify c len, nums, stream, given, lost, ov⟩) (m := alone fn ev ⟨sh, rx, .classify c len, nums, stream, given, lost, ov⟩) hl hg] at h
    simp only [] at hn
    cases hp : put rx.buf c.p (cfg.urcEdit line) with
    | none =>
      rw [show put (alone fn ev ⟨sh, rx, .classify c len, nums, stream, given, lost, ov⟩).buf c.p
        ((tablesOf cfg ⟨sh, rx, .classify c len, nums, stream, given, lost, ov⟩).urcEdit line) = _ from hp] at h
      cases h
    | some b =>
      rw [show put (alone fn ev ⟨sh, rx, .classify c len, nums, stream, given, lost, ov⟩).buf c.p
        ((tablesOf cfg ⟨sh, rx, .classify c len, nums, stream, given, lost, ov⟩).urcEdit line) = _ from hp] at h
      rw [hp] at hn
      simp only [] at hn
      refine .stepE [.urc line] nofun hn ⟨rfl, rfl, rfl, rfl, rfl, rfl⟩ (List.append_nil _).symm (arrives_after rfl ?_)
      exact h
  | undefined =>
    rw [handleLine_undefined (cfg := tablesOf cfg ⟨sh, rx, .classify c len, nums, stream, given, lost, ov⟩) (m := alone fn ev ⟨sh, rx, .classify c len, nums, stream, given, lost, ov⟩) hl hg] at h
    exact .step nofun hn ⟨rfl, rfl, rfl, rfl, rfl, rfl⟩ rfl (arrives_undef rfl hl (ev := ev) h)
  | solicited =>
    rw [handleLine_solicited (cfg := tablesOf cfg ⟨sh, rx, .classify c len, nums, stream, given, lost, ov⟩) (m := alone fn ev ⟨sh, rx, .classify c len, nums, stream, given, lost, ov⟩) hl hg] at h
    refine .step nofun hn ⟨rfl, rfl, rfl, rfl, rfl, rfl⟩ rfl (.step nofun rfl ⟨rfl, rfl, rfl, rfl, rfl, rfl⟩ rfl ?_)
    exact arrives_proc2 rfl hl (ev := ev) h

theorem arrives_iter {cfg : Cfg} {fn : Fns} {v : PktStatus} {s : Bytes.St} {c : Cur} (hpc : s.pc = .top c) {ev : List Pktio.Event}
    {oc : Option Cur} {m : Pktio.St} (h : iter (tablesOf cfg s) (alone fn ev s) c = some (oc, m)) : Arrives cfg fn v s ev oc m := by
  obtain ⟨sh, rx, pc, nums, stream, given, lost, ov⟩ := s
  simp only at hpc
  subst hpc
  have hn : Bytes.next cfg fn [] v ⟨sh, rx, .top c, nums, stream, given, lost, ov⟩ =
      Bytes.top cfg c ⟨sh, rx, .top c, nums, stream, given, lost, ov⟩ := rfl
  generalize hx : alone fn ev ⟨sh, rx, .top c, nums, stream, given, lost, ov⟩ = x at h
  have hxb : x.buf = rx.buf := by rw [← hx]; rfl
  have hxo : x = onto x rx := by rw [← hx]; rfl
  unfold iter at h
  unfold Bytes.top at hn
  rw [hxb] at h
  simp only [] at hn
  cases hsk : skipEol rx.buf c.p c.n with
  | none => rw [hsk] at h; cases h
  | some q =>
    obtain ⟨p, n⟩ := q
    rw [hsk] at h hn
    simp only [] at h hn
    rw [show preprocessInput (tablesOf cfg ⟨sh, rx, .top c, nums, stream, given, lost, ov⟩) x p n = preprocessInput cfg x p n from rfl, hxo,
      preprocessInput_onto] at h
    cases hpi : preprocessInput cfg rx p n with
    | none => rw [hpi] at h; cases h
    | some q =>
      obtain ⟨go, rx1, p1, n1⟩ := q
      rw [hpi] at h hn
      simp only [Option.map_some] at h
      cases go with
      | false =>
        cases h
        refine .step nofun hn ⟨rfl, rfl, rfl, rfl, rfl, rfl⟩ rfl ?_
        rw [← hx]; exact Arrives.here rfl rfl
      | true =>
        simp only [] at h hn
        by_cases hz : n1 = 0
        · rw [if_pos hz] at hn
          rw [preprocessLine, if_pos hz] at h
          cases h
          refine .step nofun hn ⟨rfl, rfl, rfl, rfl, rfl, rfl⟩ rfl ?_
          rw [← hx]; exact Arrives.here rfl rfl
        · rw [if_neg hz] at hn
          refine .step nofun hn ⟨rfl, rfl, rfl, rfl, rfl, rfl⟩ rfl ?_
          generalize hlog : sh.log ++ Conc.fetchedBy sh.recvCb ++ Conc.fetchedBy sh.sendCb = log1
          have hn2 : Bytes.next cfg fn [] v ⟨{ sh with log := log1 }, rx1, .pre ⟨p1, n1, c.sd⟩ sh.recvCb sh.sendCb, nums, stream, given, lost, ov⟩ =
              Bytes.pre cfg fn ⟨p1, n1, c.sd⟩ sh.recvCb sh.sendCb
                ⟨{ sh with log := log1 }, rx1, .pre ⟨p1, n1, c.sd⟩ sh.recvCb sh.sendCb, nums, stream, given, lost, ov⟩ := rfl
          unfold Bytes.pre at hn2
          simp only [] at hn2
          have hxo2 : onto x rx1 = onto x { rx1 with sendCb := sh.sendCb.map fn.send, dataCb := sh.recvCb.map fn.data } := rfl
          rw [show preprocessLine (tablesOf cfg ⟨sh, rx, .top c, nums, stream, given, lost, ov⟩) = preprocessLine cfg from rfl, hxo2,
            preprocessLine_onto (hs := by rw [← hx]; rfl) (hd := by rw [← hx]; rfl)] at h
          cases hpl : preprocessLine cfg { rx1 with sendCb := sh.sendCb.map fn.send, dataCb := sh.recvCb.map fn.data } p1 n1 c.sd with
          | none => rw [hpl] at h; cases h
          | some q =>
            obtain ⟨go, rx2, n2, sd⟩ := q
            rw [hpl] at h hn2
            simp only [Option.map_some] at h
            cases go with
            | false =>
              cases h
              refine .step nofun hn2 ⟨rfl, rfl, rfl, rfl, rfl, rfl⟩ rfl ?_
              rw [← hx]; exact Arrives.here rfl rfl
            | true =>
              simp only [] at h hn2
              rw [findLine_onto] at h
              cases hfl : findLine rx2 p1 n2 with
              | none => rw [hfl] at h; cases h
              | some q =>
                obtain ⟨rx3, ol⟩ := q
                rw [hfl] at h hn2
                simp only [Option.map_some] at h
                cases ol with
                | none =>
                  cases h
                  refine .step nofun hn2 ⟨rfl, rfl, rfl, rfl, rfl, rfl⟩ rfl ?_
                  rw [← hx]; exact Arrives.here rfl rfl
                | some len =>
                  simp only [] at h hn2
                  cases hrs : readStr rx3.buf p1 with
                  | none =>
                    rw [handleLine, show readStr (onto x rx3).buf (Cur.p ⟨p1, n2, sd⟩) = none from hrs] at h
                    cases h
                  | some line =>
                    rw [hrs] at hn2
                    refine .step nofun hn2 ⟨rfl, rfl, rfl, rfl, rfl, rfl⟩ rfl (arrives_classify rfl hrs (ev := ev) ?_)
                    rw [← hx] at h
                    exact h

theorem arrives_loop {cfg : Cfg} {fn : Fns} {v : PktStatus} : ∀ (k : Nat) {s : Bytes.St} {c : Cur} (_ : s.pc = .top c) {ev : List Pktio.Event}
    {m : Pktio.St} (_ : loop (tablesOf cfg s) k (alone fn ev s) c = some m), Arrives cfg fn v s ev none m := by
  intro k
  induction k with
  | zero => intro s c _ ev m h; cases h
  | succ k ih =>
    intro s c hpc ev m h
    rw [loop] at h
    cases hi : iter (tablesOf cfg s) (alone fn ev s) c with
    | none => rw [hi] at h; cases h
    | some q =>
      obtain ⟨oc, m1⟩ := q
      rw [hi] at h
      have ha := arrives_iter (cfg := cfg) (fn := fn) (v := v) hpc hi
      cases oc with
      | none => cases h; exact ha
      | some c1 =>
        simp only [] at h
        obtain ⟨s1, ht, hp1, hm1, hs1, new1, he1, hg1⟩ := ha
        have htab : tablesOf cfg s = tablesOf cfg s1 := by unfold tablesOf; rw [hs1.extra]
        rw [htab, ← hm1] at h
        obtain ⟨s2, ht2, hp2, hm2, hs2, new2, he2, hg2⟩ := ih hp1 h
        refine ⟨s2, ht.trans ht2, hp2, hm2, hs1.trans hs2, new1 ++ new2, by rw [he2, he1, List.append_assoc], ?_⟩
        rw [hg2, hg1, hs1.cb, handed_append, List.append_assoc]

theorem readPos_onto (cfg : Cfg) (x m : Pktio.St) :
    readPos cfg (onto x m) = (readPos cfg m).map (fun r => (onto x r.1, r.2)) := by
  unfold readPos
  show (match m.readPtr with | none => _ | some q => _) = _
  cases m.readPtr with
  | none => rfl
  | some q =>
    simp only []
    by_cases hq : q ≠ 0 ∧ m.partialLen ≠ 0 ∧ m.resp = none
    · rw [if_pos hq, if_pos (by exact hq)]
      show (match slice m.buf q m.partialLen with | none => _ | some rest => _) = _
      cases slice m.buf q m.partialLen with
      | none => rfl
      | some rest =>
        simp only []
        show (match put m.buf 0 rest with | none => _ | some m => _) = _
        cases put m.buf 0 rest with
        | none => rfl
        | some b =>
          simp only []
          show Option.map _ (wr b m.partialLen 0) = _
          cases wr b m.partialLen 0 <;> rfl
    · rw [if_neg hq, if_neg (by exact hq)]
      rfl

theorem rxEnter_onto (cfg : Cfg) (x m : Pktio.St) (chunk : Str) :
    rxEnter cfg (onto x m) chunk = (rxEnter cfg m chunk).map (fun r => (r.1, onto x r.2.1, r.2.2)) := by
  unfold rxEnter
  rw [readPos_onto]
  cases readPos cfg m with
  | none => rfl
  | some q =>
    obtain ⟨m1, p, pr, e⟩ := q
    simp only [Option.map_some]
    split
    · split
      · rfl
      · show (match put m1.buf pr (chunk ++ [0]) with | none => _ | some m => _) = _
        cases put m1.buf pr (chunk ++ [0]) with
        | none => rfl
        | some b =>
          simp only []
          rw [show (if (onto x m1).dataLen ≠ 0 then
              handleData { onto x m1 with buf := b, partialLen := 0 } p p (chunk.length + (onto x m1).partialLen)
            else some (chunk.length + (onto x m1).partialLen, p, { onto x m1 with buf := b, partialLen := 0 })) =
            (if m1.dataLen ≠ 0 then handleData { m1 with buf := b, partialLen := 0 } p p (chunk.length + m1.partialLen)
              else some (chunk.length + m1.partialLen, p, { m1 with buf := b, partialLen := 0 })).map (fun r => (r.1, r.2.1, onto x r.2.2)) from by
            by_cases hd : m1.dataLen ≠ 0
            · rw [if_pos hd, if_pos (by exact hd)]
              exact handleData_onto x { m1 with buf := b, partialLen := 0 } p p (chunk.length + m1.partialLen)
            · rw [if_neg hd, if_neg (by exact hd)]
              rfl]
          generalize (if m1.dataLen ≠ 0 then handleData { m1 with buf := b, partialLen := 0 } p p (chunk.length + m1.partialLen)
              else some (chunk.length + m1.partialLen, p, { m1 with buf := b, partialLen := 0 })) = r
          cases r with
          | none => rfl
          | some q =>
            obtain ⟨left, p2, m2⟩ := q
            simp only [Option.map_some]
            split
            · show (match wr m2.buf (p2 + left) 0 with | none => _ | some m => _) = _
              cases wr m2.buf (p2 + left) 0 <;> rfl
            · rfl
    · rfl

/-- C82: **as long as no thread takes a step, the receive task of the interleaved system does what it does alone**: from a
place where it waits for the transport, one event of `Verif.Pktio` -- the read, all the line processing, the callbacks -- is the next step and
a number of further steps, up to where it waits again, with the same buffer, pointers, response record, pending command and prefix; and
the response callback that is installed was given exactly the successful responses among the events of `Verif.Pktio`. -/
theorem C82_alone {cfg : Cfg} {fn : Fns} {v : PktStatus} {s : Bytes.St} {chunk : Str} {ev : List Pktio.Event} {n : Nat} {m : Pktio.St}
    (hpc : s.pc = .wait) (h : rxEvent (tablesOf cfg s) (alone fn ev s) chunk = some (n, m)) :
    ∃ s', Ticks cfg fn v (Bytes.next cfg fn chunk v s) s' ∧ s'.pc = .wait ∧ alone fn m.events s' = m ∧ s'.stream = s.stream ++ chunk ∧
      s'.sh.thr = s.sh.thr ∧ ∃ new, m.events = ev ++ new ∧ s'.given = s.given ++ handed s.sh.cb new := by
  obtain ⟨sh, rx, pc, nums, stream, given, lost, ov⟩ := s
  simp only at hpc
  subst hpc
  rw [rxEvent_enter, show rxEnter (tablesOf cfg ⟨sh, rx, .wait, nums, stream, given, lost, ov⟩) = rxEnter cfg from rfl, alone_onto, rxEnter_onto] at h
  have hn : Bytes.next cfg fn chunk v ⟨sh, rx, .wait, nums, stream, given, lost, ov⟩ =
      Bytes.enter cfg chunk ⟨sh, rx, .wait, nums, stream, given, lost, ov⟩ := rfl
  unfold Bytes.enter at hn
  simp only [] at hn
  cases he : rxEnter cfg rx chunk with
  | none => rw [he] at h; cases h
  | some q =>
    obtain ⟨n1, rx1, oc⟩ := q
    rw [he] at h hn
    simp only [Option.map_some] at h
    rw [hn]
    cases oc with
    | none =>
      cases h
      exact ⟨_, .refl, rfl, rfl, rfl, rfl, [], (List.append_nil _).symm, (List.append_nil _).symm⟩
    | some c =>
      simp only [Option.map_eq_some_iff] at h
      obtain ⟨m1, hl, e⟩ := h
      cases e
      generalize (ov || decide (room cfg rx = 0 ∧ (rx.partialLen ≠ 0 ∨
        (⟨sh, rx, .wait, nums, stream, given, lost, ov⟩ : Bytes.St).items ≠ []))) = ov'
      obtain ⟨s', h1, h2, h3, h4, new, h5, h6⟩ := arrives_loop (cfg := cfg) (fn := fn) (v := v) (c.n + 1)
        (s := ⟨sh, rx1, .top c, nums, stream ++ chunk, given, lost, ov'⟩) rfl (ev := ev) hl
      exact ⟨s', h1, h2, h3, h4.stream, h4.thr, new, h5, h6⟩

/-- The receive task waits for the transport. -/
def isWait : Pc → Bool
  | .wait => true
  | _ => false

theorem isWait_iff {pc : Pc} (h : isWait pc = true) : pc = .wait := by
  cases pc <;> first | rfl | cases h

/-- What the example looks at. -/
structure AloneSeen where
  waits : Bool
  cb : Option Nat
  given : List (Nat × List Str)
  next : Option (List (Nat × List Str))
  deriving DecidableEq

/-- A reachable state that meets the hypotheses: a data receive is pending, and its whole response arrives in one read; the callback of
request 0 is given the header and the data. -/
example : ∃ s s', Bytes.Reachable (demoCfg 40) exFns true s ∧
    Ticks (demoCfg 40) exFns .ok (Bytes.next (demoCfg 40) exFns (str "+D:7\r\nabcdefg\r\nOK\r\n") .ok s) s' ∧
    s'.given = [(0, [str "+D:7", str "abcdefg"])] := by
  obtain ⟨s, hr, hf⟩ := Bytes.exec_reach (cfg := demoCfg 40) (fn := exFns) (comm := true) ((begins 0 exReqBlock).map .thr)
    (fun s => AloneSeen.mk (isWait s.pc) s.sh.cb s.given
      ((rxEvent (tablesOf (demoCfg 40) s) (alone exFns [] s) (str "+D:7\r\nabcdefg\r\nOK\r\n")).map (fun r => handed (some 0) r.2.events)))
    (.mk true (some 0) [] (some [(0, [str "+D:7", str "abcdefg"])])) (by decide +kernel)
  simp only [AloneSeen.mk.injEq, Option.map_eq_some_iff] at hf
  obtain ⟨hw, hcb, hg, ⟨n, m⟩, he, hm⟩ := hf
  obtain ⟨s', h1, _, _, _, _, new, h2, h3⟩ := C82_alone (v := .ok) (isWait_iff hw) he
  refine ⟨s, s', hr, h1, ?_⟩
  simp only [] at hm
  rw [List.nil_append] at h2
  rw [h3, hg, hcb, ← h2, hm]
  rfl

end Cellular.Props
