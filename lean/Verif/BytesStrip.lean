import Verif.BytesPieces
import Verif.BytesHeard
/-!
# Answers with data are complete and in order (C83)

`Verif.BytesWhole` shows that an answer is complete for requests without prefix callbacks.  Here requests may have them, so that answers may contain
announced data and prompts.  An execution over the byte stream in which data are received corresponds to one of the model with lines in which the
prefix callbacks are left out: the events of these callbacks are left out of the history, a header counts as the line it is, and a prompt as the line
made of it.
-/

namespace Cellular.Props
open Cellular Cellular.Spec Cellular.ConcLemmas
open Cellular.Pktio (Cur CmdType MsgType Item Resp Cfg getMsgType processLine processIntermediate cleanBuf readPos room skipEol preprocessInput
  preprocessLine findLine handleData getNextLine itemContents put slice isEol)
open Cellular.Bytes (Pc Fns)
open Cellular.Conc (Ev)

/-! ## Leaving out the prefix callbacks -/

/-- The same kind of request without prefix callback. -/
def bareKind : Conc.Kind → Conc.Kind
  | .dataRecv _ => .dataRecv false
  | .dataSend d _ => .dataSend d false
  | k => k

/-- The same request without prefix callback. -/
def bareReq (r : Conc.Req) : Conc.Req := { r with kind := bareKind r.kind }

/-- The thread with its request. -/
def bareThr : Conc.Thr → Conc.Thr
  | .idle => .idle
  | .waiting i r => .waiting i (bareReq r)
  | .install i r => .install i (bareReq r)
  | .raw0 i r => .raw0 i (bareReq r)
  | .raw1 i r => .raw1 i (bareReq r)
  | .raw2 i r => .raw2 i (bareReq r)
  | .raw3 i r => .raw3 i (bareReq r)
  | .raw4 i r st => .raw4 i (bareReq r) st
  | .uninstall i r st => .uninstall i (bareReq r) st
  | .data0 i d => .data0 i d
  | .data1 i d b => .data1 i d b
  | .data2 i d n e => .data2 i d n e
  | .data3 i n => .data3 i n
  | .data4 i n st => .data4 i n st
  | .release i st sent => .release i st sent

/-- Not an event of a prefix callback. -/
def bareEv : Ev → Bool
  | .fetched _ => false
  | .prefixCb _ => false
  | _ => true

/-- The state without prefix callbacks. -/
def bare (s : Conc.St) : Conc.St :=
  { s with recvCb := none, sendCb := none, thr := fun u => bareThr (s.thr u), reqs := s.reqs.map bareReq, log := s.log.filter bareEv }

/-- The corresponding state of the model with lines. -/
def bareSt (s : Bytes.St) : Conc.St := bare (absSt s)

theorem bare_table (k : Conc.Kind) : (bareKind k).table = k.table := by cases k <;> rfl
theorem bare_data (k : Conc.Kind) : (bareKind k).data = k.data := by cases k <;> rfl
theorem bare_check (comm : Bool) (text : Str) (r : Conc.Req) : Conc.sendCheck comm text (bareReq r) = Conc.sendCheck comm text r := rfl
theorem bare_want (r : Conc.Req) : commandWant (bareReq r) = commandWant r := by unfold commandWant bareReq; simp only [bare_table]

theorem bare_noPrefix (r : Conc.Req) : NoPrefixCb (bareReq r) := by
  unfold NoPrefixCb bareReq bareKind
  refine ⟨?_, ?_⟩
  · cases r.kind <;> simp
  · intro d
    cases r.kind <;> simp

theorem bare_sending (p : Conc.Thr) : Conc.Sending (bareThr p) ↔ Conc.Sending p := by cases p <;> exact Iff.rfl

theorem bare_afterRaw (i : Nat) (d : Option Conc.Data) (st : PktStatus) : bareThr (Conc.afterRaw i d st) = Conc.afterRaw i d st := by
  unfold Conc.afterRaw; split <;> rfl

theorem bare_afterData (i : Nat) (d : Conc.Data) (n : Nat) : bareThr (Conc.afterData i d n) = Conc.afterData i d n := by
  unfold Conc.afterData; split <;> rfl

theorem bare_set (s : Conc.St) (t : Nat) (p : Conc.Thr) : bare (s.set t p) = (bare s).set t (bareThr p) := by
  unfold bare Conc.St.set
  simp only []
  congr 1
  funext u
  split <;> rfl

theorem bare_emit (s : Conc.St) {e : Ev} (h : bareEv e = true) : bare (s.emit e) = (bare s).emit e := by
  unfold bare Conc.St.emit
  simp [List.filter_append, h]

theorem thr_step_of {comm : Bool} {t : Nat} {a b c : Conc.St} (h : Conc.ThrStep comm t a b) (e : c = b) : Conc.ThrStep comm t a c := e ▸ h

/-- A step of a thread is one without the callbacks. -/
theorem bare_thr {comm : Bool} {t : Nat} {s s' : Conc.St} (h : Conc.ThrStep comm t s s') : Conc.ThrStep comm t (bare s) (bare s') := by
  have hT : ∀ {p}, s.thr t = p → (bare s).thr t = bareThr p := fun h => congrArg bareThr h
  cases h with
  | call r h =>
    refine thr_step_of (.call _ (bareReq r) (hT h)) ?_
    unfold bare Conc.St.set
    simp only [List.length_map, List.map_append, List.map_cons, List.map_nil]
    congr 1
    funext u
    split <;> rfl
  | acquire i r h hm =>
    refine thr_step_of (.acquire _ i (bareReq r) (hT h) hm) ?_
    rw [bare_emit _ rfl, bare_set]
    rfl
  | install i r h =>
    refine thr_step_of (.install _ i (bareReq r) (hT h)) ?_
    rw [bare_set]
    congr 1
    unfold bare bareReq
    simp only []
    cases hk : r.kind <;> simp [Conc.Kind.installExtra, Conc.Kind.installRecv, Conc.Kind.installSend, bareKind, Conc.Kind.table]
  | raw0null i r h hc => exact thr_step_of (.raw0null _ i (bareReq r) (hT h) hc) (bare_set _ _ _)
  | raw0 i r text h hc => exact thr_step_of (.raw0 _ i (bareReq r) text (hT h) hc) (bare_set _ _ _)
  | raw1fail i r text e h hc he => exact thr_step_of (.raw1fail _ i (bareReq r) text e (hT h) hc he) (bare_set _ _ _)
  | raw1 i r text p h hc he => exact thr_step_of (.raw1 _ i (bareReq r) text p (hT h) hc he) (bare_set _ _ _)
  | raw2 i r text h hc =>
    refine thr_step_of (.raw2 _ i (bareReq r) text (hT h) hc) ?_
    rw [bare_emit _ rfl, bare_set]
    rfl
  | raw3got i r st h hq =>
    refine thr_step_of (.raw3got _ i (bareReq r) st (hT h) hq) ?_
    rw [bare_emit _ rfl, bare_set]
    rfl
  | raw3timeout i r h hq =>
    refine thr_step_of (.raw3timeout _ i (bareReq r) (hT h) hq) ?_
    rw [bare_emit _ rfl, bare_set]
    rfl
  | raw4 i r st h => exact thr_step_of (.raw4 _ i (bareReq r) st (hT h)) (bare_set _ _ _)
  | uninstall i r st h =>
    refine thr_step_of (.uninstall _ i (bareReq r) st (hT h)) ?_
    rw [bare_set, bare_afterRaw]
    unfold bareReq
    simp only [bare_data]
    congr 1
    unfold bare
    simp only []
    cases hk : r.kind <;> simp [Conc.Kind.removeExtra, Conc.Kind.removeRecv, Conc.Kind.removeSend, bareKind, Conc.Kind.table]
  | data0null i d h hd => exact thr_step_of (.data0null _ i d (hT h) hd) (bare_set _ _ _)
  | data0 i d b h hd hp => exact thr_step_of (.data0 _ i d b (hT h) hd hp) (bare_set _ _ _)
  | data1 i d b n h hn =>
    refine thr_step_of (.data1 _ i d b n (hT h) hn) ?_
    rw [bare_emit _ rfl, bare_set, bare_afterData]
  | data1short i d b n h hn =>
    refine thr_step_of (.data1short _ i d b n (hT h) hn) ?_
    rw [bare_emit _ rfl, bare_emit _ rfl, bare_set]
    rfl
  | data2 i d n e m h hm =>
    refine thr_step_of (.data2 _ i d n e m (hT h) hm) ?_
    rw [bare_emit _ rfl, bare_set]
    rfl
  | data2short i d n e m h hm =>
    refine thr_step_of (.data2short _ i d n e m (hT h) hm) ?_
    rw [bare_emit _ rfl, bare_emit _ rfl, bare_set]
    rfl
  | data3got i n st h hq =>
    refine thr_step_of (.data3got _ i n st (hT h) hq) ?_
    rw [bare_emit _ rfl, bare_set]
    rfl
  | data3timeout i n h hq =>
    refine thr_step_of (.data3timeout _ i n (hT h) hq) ?_
    rw [bare_emit _ rfl, bare_set]
    rfl
  | data4 i n st h => exact thr_step_of (.data4 _ i n st (hT h)) (bare_set _ _ _)
  | release i st sent h =>
    refine thr_step_of (.release _ i st sent (hT h)) ?_
    rw [bare_emit _ rfl, bare_set]
    rfl

/-! ## The receive task -/

theorem bare_fetched (o : Option Nat) : (Conc.fetchedBy o).filter bareEv = [] := by cases o <;> rfl

theorem bare_called (r d : Option Nat) : (Bytes.calledBy r d).filter bareEv = [] := by cases r <;> cases d <;> rfl

theorem bare_consult (s : Bytes.St) : (Bytes.consult s).filter bareEv = Bytes.consult s := by
  unfold Bytes.consult
  split <;> rfl

/-- Two receive sides whose responses have the same status. -/
def SameResp (a b : Pktio.St) : Prop := a.resp.map (·.status) = b.resp.map (·.status)

theorem SameResp.absResp {sh sh' : Conc.St} {rx rx' : Pktio.St} {pc pc' : Pc} {nums : List Nat} {st st' : Str} {g g' : List (Nat × List Str)}
    {l l' o o' : Bool} (h : SameResp rx rx') :
    absResp ⟨sh, rx, pc, nums, st, g, l, o⟩ = absResp ⟨sh', rx', pc', nums, st', g', l', o'⟩ := by
  unfold SameResp at h
  unfold Props.absResp
  simp only []
  cases h1 : rx.resp <;> cases h2 : rx'.resp <;> simp_all

theorem handleData_same {s s' : Pktio.St} {start p n a b : Nat} (h : handleData s start p n = some (a, b, s')) : SameResp s' s := by
  unfold handleData at h
  split at h
  · cases h
  simp only at h
  split at h
  · cases hr : s.resp with
    | none => rw [hr] at h; cases h
    | some r => rw [hr] at h; cases h; simp [SameResp, hr]
  · cases h; rfl

theorem readPos_same {cfg : Cfg} {s s' : Pktio.St} {a b : Nat} {e : Int} (h : readPos cfg s = some (s', a, b, e)) : s'.resp = s.resp := by
  unfold readPos at h
  split at h
  · cases h; rfl
  · split at h
    · split at h
      · cases h
      · split at h
        · cases h
        · rename_i m _
          cases hw : Cellular.wr m s.partialLen 0 with
          | none => rw [hw] at h; cases h
          | some m' => rw [hw] at h; cases h; rfl
    · cases h; rfl

theorem rxEnter_same {cfg : Cfg} {s s' : Pktio.St} {chunk : Str} {n : Nat} {oc : Option Cur} (h : rxEnter cfg s chunk = some (n, s', oc)) :
    SameResp s' s := by
  unfold rxEnter at h
  cases hr : readPos cfg s with
  | none => rw [hr] at h; cases h
  | some q =>
    obtain ⟨s1, p, pr, em⟩ := q
    have h1 := readPos_same hr
    rw [hr] at h
    simp only at h
    split at h
    · split at h
      · cases h; unfold SameResp; rw [h1]
      · split at h
        · cases h
        · split at h
          · cases h
          · rename_i left p' s2 hd
            have h2 : SameResp s2 s := by
              split at hd
              · exact (handleData_same hd).trans (congrArg _ h1)
              · cases hd
                exact congrArg _ h1
            split at h
            · split at h
              · cases h
              · cases h; exact h2
            · cases h; exact h2
    · cases h
      exact congrArg _ h1

theorem callbackResult_same {cfg : Cfg} {s : Pktio.St} {st : PktStatus} {p n : Nat} :
    (Pktio.handleCallbackResult cfg s st p n).2.resp = s.resp := by
  unfold Pktio.handleCallbackResult
  cases st <;> rfl

theorem preprocessLine_same {cfg : Cfg} {s s' : Pktio.St} {p n m : Nat} {sd sd' : Option Nat} {b : Bool}
    (h : preprocessLine cfg s p n sd = some (b, s', m, sd')) : s'.resp = s.resp := by
  unfold preprocessLine at h
  split at h
  · cases h; rfl
  split at h
  · split at h
    · cases h
    · simp only at h
      split at h
      · cases h
      · cases h
        exact callbackResult_same
  · split at h
    · split at h
      · cases h
      · simp only at h
        split at h
        · cases h
        · cases h
          refine callbackResult_same.trans ?_
          split <;> rfl
    · cases h; rfl

theorem findLine_same {s s' : Pktio.St} {p n : Nat} {o : Option Nat} (h : findLine s p n = some (s', o)) : s'.resp = s.resp := by
  unfold findLine at h
  split at h
  · cases h
  · rename_i text _
    split at h
    · rename_i i _
      cases hw : Cellular.wr s.buf (p + i) 0 with
      | none => rw [hw] at h; cases h
      | some m => rw [hw] at h; cases h; rfl
    · cases h; rfl

theorem getNextLine_same {s s' : Pktio.St} {p n len a b : Nat} {st : PktStatus} {t : MsgType} (h : getNextLine s p n len st t = some (a, b, s')) :
    s'.resp = s.resp := by
  unfold getNextLine at h
  simp only at h
  split at h
  · split at h
    · cases h
    · rename_i rest _
      cases hw : put s.buf 0 rest with
      | none => rw [hw] at h; cases h
      | some m => rw [hw] at h; cases h; rfl
  · cases h; rfl

/-- The line in hand, at an undefined line, is the last one received. -/
def UndefText (s : Bytes.St) : Prop := ∀ c len, s.pc = .undef c len → readStr s.rx.buf c.p = some (s.sh.line s.cur)

theorem inHand_line {R : Nat → Prefixes} {s : Bytes.St} {ps : List StreamPart} {tail : Str} {c : Cur} {len : Nat}
    (h : ∃ line a, InHand R s.sh s.rx s.nums ps tail c len line a) :
    readStr s.rx.buf c.p = some (s.sh.line s.cur) ∧ ((s.rx.resp.getD ⟨false, []⟩).items = [] ↔ s.nums = []) := by
  obtain ⟨line, a, h⟩ := h
  constructor
  · rw [h.at_.readStr]
    unfold Conc.St.line Bytes.St.cur
    rw [h.received]
    simp
  · obtain ⟨h1, h2, h3⟩ := h.held
    have hl := h1.length_eq
    constructor
    · intro e
      rw [e] at hl
      cases hn : s.nums with
      | nil => rfl
      | cons n ns =>
        rw [hn] at hl h3
        have := h3 n (List.mem_cons_self ..)
        obtain ⟨p, hp⟩ : ∃ p, ps[n]? = some p := ⟨ps[n], List.getElem?_eq_getElem this⟩
        have hne : 0 < p.texts.length := by cases p <;> simp [StreamPart.texts]
        simp only [textsOf, List.flatMap_cons, hp, Option.map_some, Option.getD_some, List.length_append, List.length_nil] at hl
        omega
    · intro e
      rw [e] at hl
      simp only [textsOf, List.flatMap_nil, List.length_nil] at hl
      exact List.length_eq_zero_iff.mp hl

/-- The same members, threads and line in hand, with the receive task elsewhere. -/
theorem bare_at {s s' : Bytes.St} {x : Conc.Rx} (h : bareSt s' = { bareSt s with rx := x }) {cfg : Cfg} {comm : Bool}
    (hs : Conc.RxStep cfg (bareSt s) { bareSt s with rx := x }) : RxFrom cfg comm (bareSt s) (bareSt s') :=
  reach_of (.step .refl (.rx hs)) h.symm

theorem strip_pre {cfg : Cfg} {fn : Fns} {comm : Bool} {s : Bytes.St} {c : Cur} {r d : Option Nat} (hpc : s.pc = .pre c r d)
    (hb : (Bytes.pre cfg fn c r d s).pc ≠ .bad) :
    RxFrom cfg comm (bareSt s) (bareSt (Bytes.pre cfg fn c r d s)) := by
  obtain ⟨sh, rx, pc, nums, stream, given, lost, ov⟩ := s
  simp only at hpc
  subst hpc
  unfold Bytes.pre at hb ⊢
  simp only at hb ⊢
  split at hb
  · exact absurd rfl hb
  · rename_i rx1 n sd hp
    have h1 := preprocessLine_same hp
    refine reach_of .refl ?_
    unfold bareSt bare absSt absResp Bytes.St.cur
    simp only [h1, List.filter_append, bare_called, List.append_nil, absRx]
  · rename_i rx1 n sd hp
    have h1 := preprocessLine_same hp
    split at hb
    · exact absurd rfl hb
    · rename_i rx2 hf
      have h2 := findLine_same hf
      refine reach_of .refl ?_
      unfold bareSt bare absSt absResp Bytes.St.cur
      simp only [h2, h1, List.filter_append, bare_called, List.append_nil, absRx]
    · rename_i rx2 len hf
      have h2 := findLine_same hf
      split at hb
      · exact absurd rfl hb
      · rename_i line hl
        have s1 := RxFrom.step (cfg := cfg) (comm := comm) (.refl (o := bareSt ⟨sh, rx, .pre c r d, nums, stream, given, lost, ov⟩)) (.rx (.receive _ line rfl))
        have s2 := RxFrom.step s1 (.rx (.fetch _ _ rfl))
        have e2 : ∀ (st : Conc.St) (n : Nat), st.recvCb = none → st.sendCb = none →
            ({ st with rx := .pre n st.recvCb st.sendCb, log := st.log ++ Conc.fetchedBy st.recvCb ++ Conc.fetchedBy st.sendCb } : Conc.St) =
            { st with rx := .pre n none none } := by
          intro st n h1 h2
          rw [show Conc.fetchedBy st.recvCb = [] by rw [h1]; rfl, show Conc.fetchedBy st.sendCb = [] by rw [h2]; rfl, List.append_nil,
            List.append_nil, h1, h2]
        have s2' := reach_of s2 (e2 _ _ rfl rfl)
        have s3 := RxFrom.step s2' (.rx (.preNone _ _ rfl))
        refine reach_of s3 ?_
        unfold bareSt bare absSt absResp Bytes.St.cur
        simp [h2, h1, List.filter_append, bare_called, absRx]
        rfl

theorem strip_classify2 {cfg : Cfg} {R : Nat → Prefixes} {comm : Bool} {s : Bytes.St} {ps : List StreamPart} {tail : Str} {c : Cur} {len : Nat}
    {on : Bool} (hpc : s.pc = .classify2 c len on) (h : ∃ line a, InHand R s.sh s.rx s.nums ps tail c len line a)
    (hb : (Bytes.classify cfg c len on s).pc ≠ .bad) :
    RxFrom cfg comm (bareSt s) (bareSt (Bytes.classify cfg c len on s)) ∧ UndefText (Bytes.classify cfg c len on s) := by
  obtain ⟨hr, -⟩ := inHand_line h
  obtain ⟨sh, rx, pc, nums, stream, given, lost, ov⟩ := s
  simp only at hpc hr
  subst hpc
  have hst : ∀ x, x = Conc.classified cfg (bareSt ⟨sh, rx, .classify2 c len on, nums, stream, given, lost, ov⟩) (sh.received.length - 1) on →
      Conc.RxStep cfg (bareSt ⟨sh, rx, .classify2 c len on, nums, stream, given, lost, ov⟩)
        { bareSt ⟨sh, rx, .classify2 c len on, nums, stream, given, lost, ov⟩ with rx := x } := by
    rintro x rfl
    exact .classify _ _ _ rfl
  have hcls : Conc.classified cfg (bareSt ⟨sh, rx, .classify2 c len on, nums, stream, given, lost, ov⟩)
      (sh.received.length - 1) on = clsOf (sh.received.length - 1)
        (getMsgType cfg sh.cmd (if on = true then some sh.pfxBuf else none) (sh.line (sh.received.length - 1))) := by
    unfold Conc.classified clsOf
    rfl
  unfold Bytes.classify at hb ⊢
  simp only [Bytes.St.cur] at hb hr ⊢
  rw [hr] at hb ⊢
  simp only at hb ⊢
  generalize hg : getMsgType cfg sh.cmd (if on = true then some sh.pfxBuf else none) (sh.line (sh.received.length - 1)) = g at hb hcls ⊢
  cases g with
  | unsolicited =>
    simp only at hb ⊢
    split at hb
    · exact absurd rfl hb
    · rename_i m hm
      exact ⟨bare_at (x := .idle) rfl (hst _ hcls.symm), nofun⟩
  | solicited => exact ⟨bare_at (x := .proc _) rfl (hst _ hcls.symm), nofun⟩
  | undefined =>
    refine ⟨bare_at (x := .undef _) rfl (hst _ hcls.symm), ?_⟩
    rintro c' len' ⟨⟩
    exact hr

theorem strip_proc2 {cfg : Cfg} {R : Nat → Prefixes} {comm : Bool} {s : Bytes.St} {ps : List StreamPart} {tail : Str} {c : Cur} {len : Nat}
    {t : CmdType} (hpc : s.pc = .proc2 c len t) (h : ∃ line a, InHand R s.sh s.rx s.nums ps tail c len line a) :
    RxFrom cfg comm (bareSt s) (bareSt (Bytes.proc cfg c len t s)) ∧ UndefText (Bytes.proc cfg c len t s) := by
  obtain ⟨hr, hnil⟩ := inHand_line h
  obtain ⟨sh, rx, pc, nums, stream, given, lost, ov⟩ := s
  simp only at hpc hr hnil
  subst hpc
  generalize hs0 : (⟨sh, rx, .proc2 c len t, nums, stream, given, lost, ov⟩ : Bytes.St) = s0
  have habs := absResp_getD (s := s0) (by
    rw [← hs0]; intro hn; simp only at hn; rw [hn] at hnil; simpa using hnil)
  have hpair := processLine_pair (cfg := { cfg with extra := sh.extra.map (·.2) }) (line := sh.line (sh.received.length - 1))
    (it1 := .line c.p) (it2 := .line (sh.received.length - 1)) (r1 := rx.resp.getD ⟨false, []⟩) (r2 := (absResp s0).getD ⟨false, []⟩) (t := t)
    (by rw [habs, ← hs0]) (by rw [habs, ← hs0, hnil]; simp)
  have hproc : Conc.procResult cfg (bareSt s0) (sh.received.length - 1) t = processLine { cfg with extra := sh.extra.map (·.2) }
      (sh.line (sh.received.length - 1)) (.line (sh.received.length - 1)) ((absResp s0).getD ⟨false, []⟩) t := by rw [← hs0]; rfl
  generalize processLine { cfg with extra := sh.extra.map (·.2) }
      (sh.line (sh.received.length - 1)) (.line (sh.received.length - 1)) ((absResp s0).getD ⟨false, []⟩) t = q2 at hpair hproc
  rw [← hs0] at *
  unfold Bytes.proc
  simp only [Bytes.St.cur] at hr ⊢
  rw [hr]
  simp only
  generalize processLine { cfg with extra := sh.extra.map (·.2) }
      (sh.line (sh.received.length - 1)) (.line c.p) (rx.resp.getD ⟨false, []⟩) t = q1 at *
  obtain ⟨st1, r1⟩ := q1
  obtain ⟨st2, r2⟩ := q2
  simp only at hpair ⊢
  obtain ⟨hst, hstatus, hitems⟩ := hpair
  subst hst
  generalize hn : (if r1.items.length = (rx.resp.getD ⟨false, []⟩).items.length then nums else nums ++ [sh.received.length - 1]) = nums'
  have key : r2 = ⟨r1.status, nums'.map .line⟩ := by
    obtain ⟨x, y⟩ := r2
    simp only at hstatus hitems
    rcases hitems with ⟨ha, hb'⟩ | ⟨ha, hb'⟩
    · rw [ha, if_pos rfl] at hn
      subst hn
      rw [hb', hstatus, habs]
    · rw [ha, if_neg (by simp)] at hn
      subst hn
      rw [hb', hstatus, habs]
      simp
  subst key
  have hcon : Conc.consult (bareSt ⟨sh, rx, .proc2 c len t, nums, stream, given, lost, ov⟩)
      (Bytes.St.cur ⟨sh, rx, .proc2 c len t, nums, stream, given, lost, ov⟩) =
      Bytes.consult ⟨sh, rx, .proc2 c len t, nums, stream, given, lost, ov⟩ := by
    unfold Conc.consult Bytes.consult
    rfl
  have hu : ∀ c' len', readStr rx.buf c.p = some (sh.line (sh.received.length - 1)) → Pc.undef c len = .undef c' len' →
      readStr rx.buf c'.p = some (sh.line (sh.received.length - 1)) := by
    rintro c' len' h ⟨⟩
    exact h
  cases st1 with
  | ok =>
    refine ⟨reach_of (.step .refl (.rx (.procDone _ _ _ _ rfl hproc))) ?_, nofun⟩
    rw [hcon]
    unfold bareSt bare absSt absResp
    simp [List.filter_append, bare_consult, absRx, Bytes.St.cur]
    rfl
  | pendingBuffer =>
    refine ⟨reach_of (.step .refl (.rx (.procPending _ _ _ _ _ rfl hproc (Or.inl rfl)))) ?_, nofun⟩
    rw [hcon]
    unfold bareSt bare absSt absResp
    simp [List.filter_append, bare_consult, absRx, Bytes.St.cur]
  | pendingData =>
    refine ⟨reach_of (.step .refl (.rx (.procPending _ _ _ _ _ rfl hproc (Or.inr rfl)))) ?_, nofun⟩
    rw [hcon]
    unfold bareSt bare absSt absResp
    simp [List.filter_append, bare_consult, absRx, Bytes.St.cur]
  | _ =>
    refine ⟨reach_of (.step .refl (.rx (.procUndef _ _ _ _ _ rfl hproc ⟨nofun, nofun, nofun⟩))) ?_, fun c' len' hh => ?_⟩
    · rw [hcon]
      unfold bareSt bare absSt absResp
      simp [List.filter_append, bare_consult, absRx, Bytes.St.cur]
    · exact hu c' len' hr hh

theorem bare_of_resp {s s' : Bytes.St} (hsh : s'.sh = s.sh) (hr : absResp s' = absResp s) (hx : ∀ r, absRx s'.cur r s'.pc = absRx s.cur r s.pc) :
    bareSt s' = bareSt s := by
  unfold bareSt absSt
  rw [hsh, hr, hx]

theorem strip_next {cfg : Cfg} (hin : cfg.inputCb = none) {fn : Fns} {R : Nat → Prefixes} {comm : Bool} {s : Bytes.St} (hw : WInv cfg R s)
    (D : PcD cfg s.rx s.pc) (hu : UndefText s) {chunk : Str} (v : PktStatus)
    (hb : (Bytes.next cfg fn chunk v s).pc ≠ .bad) :
    RxFrom cfg comm (bareSt s) (bareSt (Bytes.next cfg fn chunk v s)) ∧ UndefText (Bytes.next cfg fn chunk v s) := by
  obtain ⟨ps, tail, H, F⟩ := hw
  obtain ⟨sh, rx, pc, nums, stream, given, lost, ov⟩ := s
  simp only at D F
  have same : ∀ {s' : Bytes.St}, s'.sh = sh → SameResp s'.rx rx → s'.nums = nums →
      (∀ r, absRx (sh.received.length - 1) r s'.pc = absRx (sh.received.length - 1) r pc) →
      RxFrom cfg comm (bareSt ⟨sh, rx, pc, nums, stream, given, lost, ov⟩) (bareSt s') := by
    rintro ⟨sh', rx', pc', nums', st', g', l', o'⟩ rfl h2 rfl h3
    exact reach_of .refl (bare_of_resp (s := ⟨_, rx, pc, _, stream, given, lost, ov⟩) (s' := ⟨_, rx', pc', _, st', g', l', o'⟩) rfl h2.absResp h3).symm
  unfold Bytes.next at hb ⊢
  cases pc with
  | wait =>
    simp only at hb ⊢
    unfold Bytes.enter at hb ⊢
    simp only at hb ⊢
    split at hb
    · exact absurd rfl hb
    · rename_i h
      exact ⟨same rfl (rxEnter_same h) rfl (fun _ => rfl), nofun⟩
    · rename_i h
      exact ⟨same rfl (rxEnter_same h) rfl (fun _ => rfl), nofun⟩
  | top c =>
    simp only at hb ⊢
    unfold Bytes.top at hb ⊢
    split at hb
    · exact absurd rfl hb
    · rename_i p n _
      simp only [preprocessInput, hin] at hb ⊢
      by_cases h0 : n = 0
      · rw [if_pos h0]
        refine ⟨reach_of .refl ?_, nofun⟩
        unfold bareSt bare absSt absResp
        simp [List.filter_append, bare_fetched, absRx]
      · rw [if_neg h0]
        refine ⟨reach_of .refl ?_, nofun⟩
        unfold bareSt bare absSt absResp
        simp [List.filter_append, bare_fetched, absRx]
  | pre c r d =>
    refine ⟨strip_pre rfl hb, ?_⟩
    intro c' len' hpc
    exfalso
    revert hpc
    simp only
    unfold Bytes.pre
    simp only
    split
    · nofun
    · nofun
    · split
      · nofun
      · nofun
      · split <;> nofun
  | classify c len => exact ⟨reach_of (.step .refl (.rx (.readPrefix _ _ rfl))) rfl, nofun⟩
  | classify2 c len on => exact strip_classify2 (ps := ps) (tail := tail) rfl F hb
  | proc c len => exact ⟨reach_of (.step .refl (.rx (.readType _ _ rfl))) rfl, nofun⟩
  | proc2 c len t => exact strip_proc2 (ps := ps) (tail := tail) rfl F
  | done c len => exact ⟨reach_of (.step .refl (.rx (.done _ _ rfl))) rfl, nofun⟩
  | handle c len =>
    obtain ⟨r, hr⟩ := Option.isSome_iff_exists.mp D.2.2
    have ha : ∀ pc', absResp ⟨sh, rx, pc', nums, stream, given, lost, ov⟩ = some ⟨r.status, nums.map .line⟩ := fun pc' => by simp [absResp, hr]
    have hab : ∀ pc', bareSt ⟨sh, rx, pc', nums, stream, given, lost, ov⟩ =
        { bare sh with rx := absRx (sh.received.length - 1) ⟨r.status, nums.map .line⟩ pc', resp := some ⟨r.status, nums.map .line⟩ } := by
      intro pc'
      unfold bareSt absSt
      rw [ha]
      rfl
    have hstep : RxFrom cfg comm (bareSt ⟨sh, rx, .handle c len, nums, stream, given, lost, ov⟩) { bare sh with
        rx := Conc.handled ⟨r.status, nums.map .line⟩ sh.cb, resp := some ⟨r.status, nums.map .line⟩ } := by
      rw [hab]
      exact .step .refl (.rx (.handle _ _ rfl))
    simp only at hb ⊢
    have hcase : ∀ pc', absRx (sh.received.length - 1) ⟨r.status, nums.map .line⟩ pc' = Conc.handled ⟨r.status, nums.map .line⟩ sh.cb →
        RxFrom cfg comm (bareSt ⟨sh, rx, .handle c len, nums, stream, given, lost, ov⟩) (bareSt ⟨sh, rx, pc', nums, stream, given, lost, ov⟩) := by
      intro pc' h
      refine reach_of hstep ?_
      rw [hab, h]
    unfold Bytes.handled
    simp only [hr]
    cases hst : r.status with
    | false => exact ⟨hcase _ (by simp [absRx, Conc.handled, hst]), nofun⟩
    | true =>
      cases hc : sh.cb with
      | none => exact ⟨hcase _ (by simp [absRx, Conc.handled, hst, hc]), nofun⟩
      | some i => exact ⟨hcase _ (by simp [absRx, Conc.handled, hst, hc]), nofun⟩
  | call c len =>
    simp only at hb ⊢
    cases hc : sh.cb with
    | none =>
      refine ⟨reach_of (.step .refl (.rx (.callNull _ _ rfl hc))) ?_, nofun⟩
      unfold bareSt bare absSt absResp Conc.St.emit
      simp [List.filter_append, absRx, hc]
      rfl
    | some i => exact ⟨reach_of (.step .refl (.rx (.call _ _ i rfl hc))) rfl, nofun⟩
  | inCb c len i =>
    obtain ⟨r, hr⟩ := Option.isSome_iff_exists.mp D.2.2
    have ha : absResp ⟨sh, rx, .inCb c len i, nums, stream, given, lost, ov⟩ = some ⟨r.status, nums.map .line⟩ := by simp [absResp, hr]
    simp only at hb ⊢
    unfold Bytes.callback at hb ⊢
    split at hb
    · exact absurd rfl hb
    · refine ⟨reach_of (.step .refl (.rx (.callback _ _ i v rfl))) ?_, nofun⟩
      unfold bareSt bare absSt Conc.St.emit
      simp only [ha, Option.getD_some, List.filter_append, absRx]
      simp only [absResp, hr]
      rfl
  | send c len st => exact ⟨reach_of (.step .refl (.rx (.send _ _ rfl))) rfl, nofun⟩
  | free c len => exact ⟨reach_of (.step .refl (.rx (.free _ rfl))) rfl, nofun⟩
  | undef c len =>
    have hr : readStr rx.buf c.p = some (sh.line (sh.received.length - 1)) := hu c len rfl
    simp only at hb ⊢
    unfold Bytes.undef
    simp only [hr]
    split
    · rename_i h
      exact ⟨reach_of (.step .refl (.rx (.undefOk _ _ rfl h))) rfl, nofun⟩
    · rename_i h
      exact ⟨reach_of (.step .refl (.rx (.undefRefused _ _ rfl h))) rfl, nofun⟩
  | undefFail c len => exact ⟨reach_of (.step .refl (.rx (.undefFail _ rfl))) rfl, nofun⟩
  | after c len st t =>
    simp only at hb ⊢
    unfold Bytes.after at hb ⊢
    simp only at hb ⊢
    by_cases hd : st = .pendingBuffer ∧ rx.dataLen ≠ 0
    · rw [if_pos hd] at hb ⊢
      split at hb
      · exact absurd rfl hb
      · split at hb
        · exact absurd rfl hb
        · rename_i h
          have h1 := handleData_same h
          split
          · exact ⟨same rfl h1 rfl (fun _ => rfl), nofun⟩
          · exact ⟨same rfl h1 rfl (fun _ => rfl), nofun⟩
    · rw [if_neg hd] at hb ⊢
      split at hb
      · exact absurd rfl hb
      · rename_i h
        have h1 := getNextLine_same h
        exact ⟨same rfl (congrArg _ h1) rfl (fun _ => rfl), nofun⟩
  | crashed => exact ⟨.refl, nofun⟩
  | bad => exact D.elim

end Cellular.Props
