import Verif.BytesStrip
/-!
# Answers with data are complete and in order (C83, C85, C87)

The theorems of `Verif.BytesWhole` and `Verif.BytesHeard` for requests that may have a data prefix callback or a data send prefix callback: the response callback is given all the
pieces of contents of the answer - lines, and headers with the data they announce - in order.
-/

namespace Cellular.Spec
open Cellular Conc
open Cellular.Pktio (CmdType Cfg)

open Classical in
/-- `texts` is the answer contained in the pieces `qs`: the line of the last of them ends it with status `ok`, no line before does, and `texts` are
all the texts of the pieces of contents among them, each header followed by its data (only of the first piece if the type has just one). -/
def AnswerPieces (cfg : Cfg) (w : Want) (qs : List StreamPart) (ok : Bool) (texts : List Str) : Prop :=
  ∃ ms q, qs = ms ++ [q] ∧ w.ends cfg q.head ok ∧ (∀ p ∈ ms, ∀ b, ¬ w.ends cfg p.head b) ∧
    texts = (keeps w.type (qs.filter (fun p => decide (w.part cfg p.head)))).flatMap StreamPart.texts

end Cellular.Spec

namespace Cellular.Props
open Cellular Cellular.Spec Cellular.ConcLemmas
open Cellular.Pktio (Cur CmdType MsgType Item Resp Cfg getMsgType isToken)
open Cellular.Bytes (Pc Fns)
open Cellular.Conc (Ev)

/-! ## The run without prefix callbacks -/

/-- Data arrived that were not collected as part of a response. -/
def LateBefore (cfg : Cfg) (fn : Fns) (comm : Bool) (s : Bytes.St) : Prop :=
  ∃ s0, Bytes.Reachable cfg fn comm s0 ∧ Late s0 ∧ GoesTo cfg fn comm s0 s

theorem pcD_bad {cfg : Cfg} {s : Bytes.St} (h : PcD cfg s.rx s.pc) : s.pc ≠ .bad := by
  intro e
  rw [e] at h
  exact h

theorem undefText_thr {s : Bytes.St} {sh : Conc.St} (h : UndefText s) (hr : sh.received = s.sh.received) : UndefText { s with sh := sh } := by
  intro c len hpc
  have := h c len hpc
  unfold Conc.St.line Bytes.St.cur at this ⊢
  simp only at this ⊢
  rw [hr]
  exact this

theorem rxInvD_calm {cfg : Cfg} {d : Nat} {rx : Pktio.St} (h : RxInvD cfg d rx) : RxInvD (calm cfg) d rx := ⟨h.len, h.last, h.items, h.data⟩

theorem pcD_calm {cfg : Cfg} {rx : Pktio.St} {pc : Pc} (h : PcD cfg rx pc) : PcD (calm cfg) rx pc := by
  have harm : ∀ {c}, Armed cfg rx c → Armed (calm cfg) rx c := by
    intro c h
    rcases h with h | ⟨d, start, h1, h2, h3⟩
    · exact .inl (rxInvD_calm h)
    · exact .inr ⟨d, start, h1, rxInvD_calm h2, h3⟩
  cases pc with
  | wait =>
    obtain ⟨⟨d, h1, h2⟩, h3⟩ := h
    exact ⟨⟨d, rxInvD_calm h1, h2⟩, h3⟩
  | top c => exact ⟨rxInvD_calm h.1, h.2⟩
  | pre c r d => exact ⟨rxInvD_calm h.1, h.2⟩
  | classify c len => exact ⟨harm h.1, h.2⟩
  | classify2 c len on => exact ⟨harm h.1, h.2⟩
  | proc c len => exact ⟨harm h.1, h.2⟩
  | proc2 c len t => exact ⟨harm h.1, h.2⟩
  | after c len st t => exact ⟨harm h.1, h.2⟩
  | crashed => trivial
  | bad => exact h
  | _ => exact ⟨rxInvD_calm h.1, h.2⟩

theorem wInv_calm {cfg : Cfg} {R : Nat → Prefixes} {s : Bytes.St} (h : WInv cfg R s) (hc : Calm s) : WInv (calm cfg) R s := by
  obtain ⟨ps, tail, H, F⟩ := h
  refine ⟨ps, tail, ⟨H.cut.mono (fun l hl => ?_), H.given, H.known, H.asked⟩, ?_⟩
  · rw [hc.1] at hl
    exact absurd hl.1 nofun
  · have h2 := hc.2
    cases hp : s.pc <;> rw [hp] at F h2 <;> first | exact F | cases h2

theorem strip_run {cfg : Cfg} {R : Nat → Prefixes} {fn : Fns} (hF : DataFns cfg R fn) {comm : Bool} {s : Bytes.St}
    (h : BytesRun cfg fn comm QuietBytes s) (ho : s.overflowed = false) :
    (PcD cfg s.rx s.pc ∧ WInv cfg R s ∧ UndefText s ∧ Conc.Run cfg comm Conc.Quiet (bareSt s) ∧ (Calm s → Conc.Run (calm cfg) comm Conc.Quiet (bareSt s))) ∨
    LateBefore cfg fn comm s := by
  induction h with
  | init =>
    have h := rxInv_init cfg
    refine .inl ⟨⟨h.1.rest, h.2⟩, ⟨[], [], ⟨.rest _, rfl, nofun, nofun⟩, fun _ => ⟨⟨rfl, ⟨.nil, .nil, nofun⟩, ?_⟩, .inl nofun⟩, fun hn => absurd rfl hn⟩,
      nofun, .init, fun _ => .init⟩
    simp [Bytes.init, Pktio.init, txt]
  | @step s1 s2 hr hs hq ih =>
    have ho1 : s1.overflowed = false := by
      cases hs with
      | thr t h => exact ho
      | rx _ chunk v _ => exact (next_keeps cfg fn chunk v s1).2.2 ho
    have hr0 := run_reachable hr
    rcases ih ho1 with ⟨D, W, U, Q, QC⟩ | ⟨s0, h1, h2, h3⟩
    · have hs' := hs
      cases hs with
      | @thr t _ sh ht =>
        have hk := thr_keeps ht
        have key : ∀ cfg', Conc.Run cfg' comm Conc.Quiet (bareSt s1) → Conc.Run cfg' comm Conc.Quiet (bareSt { s1 with sh := sh }) := by
          intro cfg' Q
          suffices H : ∀ a b, Conc.Run cfg' comm Conc.Quiet a → a = b → Conc.Run cfg' comm Conc.Quiet b by
            refine H _ _ (.step Q (.thr t (bare_thr (thr_other ht _ _))) ⟨fun u h1 h2 => ?_, fun u h1 => ?_⟩) (by
              unfold bareSt absSt absResp Bytes.St.cur
              simp only [hk.received])
            · exact absRx_rests (hq.1 u (fun h => h1 ((bare_sending _).mpr h)) ((bare_sending _).mp h2))
            · exact hq.2 u ((bare_sending _).mp h1)
          rintro a _ h rfl
          exact h
        exact .inl ⟨D, w_thr W ht, undefText_thr U hk.received, key _ Q, fun hc => key _ (QC hc)⟩
      | rx _ chunk v hroom =>
        by_cases hl : Late (Bytes.next cfg fn chunk v s1)
        · exact .inr ⟨_, .step hr0 hs', hl, .refl⟩
        · have W' := w_next hF.input hF.urc hF.data hF.send W D v hroom ho hl
          have D' : PcD cfg (Bytes.next cfg fn chunk v s1).rx (Bytes.next cfg fn chunk v s1).pc := by
            rcases next_pcD hF.sane D v hroom with h | h
            · exact h
            · exact absurd h.1 hl
          obtain ⟨h1, h2⟩ := strip_next (comm := comm) hF.input W D U v (pcD_bad D')
          refine .inl ⟨D', W', h2, (rxFrom_quiet Q h1).2.2 (fun t ht => hq.2 t ((bare_sending _).mp ht)), fun hc => ?_⟩
          have hc1 := hc.back hs'
          have hD' : PcD (calm cfg) (Bytes.next (calm cfg) fn chunk v s1).rx (Bytes.next (calm cfg) fn chunk v s1).pc := by
            rw [next_calm hc.2]
            exact pcD_calm D'
          have h3 := (strip_next (comm := comm) (cfg := calm cfg) hF.input (wInv_calm W hc1) (pcD_calm D) U v (pcD_bad hD')).1
          rw [next_calm hc.2] at h3
          exact (rxFrom_quiet (QC hc1) h3).2.2 (fun t ht => hq.2 t ((bare_sending _).mp ht))
    · exact .inr ⟨s0, h1, h2, .step h3 hs⟩

/-! ## Histories -/

theorem bare_recvs (l : List Ev) : recvs (l.filter bareEv) = recvs l := by
  induction l with
  | nil => rfl
  | cons e l ih =>
    rw [List.filter_cons]
    cases e <;> simpa [bareEv, recvs] using ih

theorem bare_mem {l : List Ev} {e : Ev} (h : e ∈ l.filter bareEv) : e ∈ l := List.mem_of_mem_filter h

theorem bare_split {l x y : List Ev} {e : Ev} (h : l.filter bareEv = x ++ e :: y) :
    ∃ x' y', l = x' ++ e :: y' ∧ x'.filter bareEv = x ∧ y'.filter bareEv = y := by
  obtain ⟨l1, l2, rfl, h1, h2⟩ := List.filter_eq_append_iff.mp h
  obtain ⟨u, v, rfl, hu, he, hv⟩ := List.filter_eq_cons_iff.mp h2
  refine ⟨l1 ++ u, v, by simp, ?_, hv⟩
  rw [List.filter_append, h1, List.filter_eq_nil_iff.mpr hu, List.append_nil]

theorem bare_plain {l : List Ev} {P : Ev → Prop} (hP : ∀ e, bareEv e = false → P e) (h : ∀ f ∈ l.filter bareEv, P f) : ∀ f ∈ l, P f := by
  intro f hf
  cases hb : bareEv f with
  | false => exact hP f hb
  | true => exact h f (List.mem_filter.mpr ⟨hf, hb⟩)

theorem bare_within (e : Ev) (h : bareEv e = false) : ¬ Boundary e ∧ ¬ isGot e := by
  cases e <;> simp [bareEv, Boundary, isGot] at h ⊢

theorem bare_notFinal (e : Ev) (h : bareEv e = false) : ¬ isFinal e := by
  cases e <;> simp [bareEv, isFinal] at h ⊢

theorem bare_notCallback (e : Ev) (h : bareEv e = false) : ¬ isCallback e := by
  cases e <;> simp [bareEv, isCallback] at h ⊢

theorem bare_silent {l : List Ev} (h : SilentTimeouts l) : SilentTimeouts (l.filter bareEv) := by
  intro a i b hl
  obtain ⟨a', b', rfl, rfl, rfl⟩ := bare_split hl
  obtain ⟨⟨x, e, y, rfl, h2, h3⟩, h4⟩ := h a' i b' rfl
  have he : bareEv e = true := by
    revert h2
    cases e <;> simp [Sends, bareEv]
  refine ⟨⟨x.filter bareEv, e, y.filter bareEv, by simp [List.filter_append, he], h2, fun n hn => h3 n (bare_mem hn)⟩, fun c n d hb => ?_⟩
  obtain ⟨c', d', rfl, rfl, rfl⟩ := bare_split hb
  obtain ⟨st, sent, h5⟩ := h4 c' n d' rfl
  exact ⟨st, sent, List.mem_filter.mpr ⟨h5, rfl⟩⟩

theorem bare_given {cfg : Cfg} {lines : List Str} {r : Conc.Req} {a : List Ev} {i : Nat} {items : List Item}
    (h : GivenWhole cfg lines (bareReq r) (a.filter bareEv) i items) : GivenWhole cfg lines r a i items := by
  obtain ⟨x, text, y, n, z, e1, e2, e3, e4⟩ := h
  obtain ⟨x', u, rfl, -, hu⟩ := bare_split e1
  obtain ⟨y', z', rfl, rfl, rfl⟩ := bare_split hu
  refine ⟨x', text, y', n, z', rfl, ?_, ?_, ?_⟩
  · refine bare_plain bare_within (fun f hf => e2 f ?_)
    rw [List.filter_append] at hf
    exact hf
  · rw [← bare_recvs, e3]
  · rw [bare_recvs, bare_want] at e4
    exact e4

theorem bare_result {cfg : Cfg} {lines : List Str} {r : Conc.Req} {a : List Ev} {i : Nat} {st : PktStatus}
    (h : ResultWhole cfg lines (bareReq r) (a.filter bareEv) i st) : ResultWhole cfg lines r a i st := by
  obtain ⟨w, x, e, y, ok, n, z, e1, e2, e3, e4, ⟨items, e5⟩, e6⟩ := h
  obtain ⟨x', u, rfl, -, hu⟩ := bare_split e1
  obtain ⟨y', z', rfl, rfl, rfl⟩ := bare_split hu
  rw [bare_recvs] at e5
  rw [bare_want] at e2
  refine ⟨w, x', e, y', ok, n, z', rfl, e2, ?_, ?_, ⟨items, e5⟩, ?_⟩
  · refine bare_plain bare_within (fun f hf => e3 f ?_)
    rw [List.filter_append] at hf
    exact hf
  · refine bare_plain bare_notFinal (fun f hf => e4 f ?_)
    rw [List.filter_append] at hf
    exact hf
  · rcases e6 with ⟨h1, h2⟩ | ⟨h1, its, h2⟩
    · exact .inl ⟨h1, bare_plain bare_notCallback h2⟩
    · exact .inr ⟨h1, its, bare_mem h2⟩

theorem bare_waits {log : List Ev} {i : Nat} {r : Conc.Req} {w : Want} {x : List Ev} {e : Ev} {y : List Ev}
    (h : WaitsSince (log.filter bareEv) i (bareReq r) w x e y) :
    ∃ x' y', WaitsSince log i r w x' e y' ∧ recvs x' = recvs x ∧ recvs y' = recvs y := by
  obtain ⟨h1, h2, h3⟩ := h
  obtain ⟨x', y', rfl, rfl, rfl⟩ := bare_split h1
  refine ⟨x', y', ⟨rfl, ?_, bare_plain bare_within h3⟩, (bare_recvs _).symm, (bare_recvs _).symm⟩
  rw [bare_want] at h2
  exact h2

/-- A step that runs a response callback does nothing else. -/
theorem next_callback (cfg : Cfg) (fn : Fns) (chunk : Str) (v : PktStatus) (s : Bytes.St) :
    (∃ l, (Bytes.next cfg fn chunk v s).sh.log = s.sh.log ++ l ∧ ∀ e ∈ l, ¬ isCallback e) ∨
    ∃ c len i, (Bytes.next cfg fn chunk v s).sh.log = s.sh.log ++ [.callback i (s.nums.map .line) v] ∧
      (Bytes.next cfg fn chunk v s).pc = .send c len v := by
  have keep : ∀ {s' : Bytes.St}, s'.sh.log = s.sh.log → ∃ l, s'.sh.log = s.sh.log ++ l ∧ ∀ e ∈ l, ¬ isCallback e :=
    fun h => ⟨[], by rw [h, List.append_nil], nofun⟩
  have hcal : ∀ r d, ∀ e ∈ Bytes.calledBy r d, ¬ isCallback e := by
    intro r d e he
    cases r <;> cases d <;> simp [Bytes.calledBy] at he <;> subst he <;> exact id
  have hfet : ∀ o, ∀ e ∈ Conc.fetchedBy o, ¬ isCallback e := by
    intro o e he
    cases o <;> simp [Conc.fetchedBy] at he
    subst he
    exact id
  have hcon : ∀ e ∈ Bytes.consult s, ¬ isCallback e := by
    intro e he
    unfold Bytes.consult at he
    split at he
    · rw [List.mem_singleton.mp he]; exact id
    · cases he
  unfold Bytes.next
  cases hc : s.pc with
  | wait =>
    refine .inl ?_
    simp only
    unfold Bytes.enter
    simp only
    split <;> exact keep rfl
  | top c =>
    refine .inl ?_
    simp only
    unfold Bytes.top
    split
    · exact keep rfl
    · split
      · exact keep rfl
      · exact keep rfl
      · simp only
        split <;> exact ⟨_, List.append_assoc _ _ _, fun e he => (List.mem_append.mp he).elim (hfet _ e) (hfet _ e)⟩
  | pre c r d =>
    refine .inl ?_
    simp only
    unfold Bytes.pre
    simp only
    split
    · exact ⟨_, rfl, hcal r d⟩
    · exact ⟨_, rfl, hcal r d⟩
    · split
      · exact ⟨_, rfl, hcal r d⟩
      · exact ⟨_, rfl, hcal r d⟩
      · split
        · exact ⟨_, rfl, hcal r d⟩
        · refine ⟨_, List.append_assoc _ _ _, fun e he => (List.mem_append.mp he).elim (hcal _ _ e) ?_⟩
          intro he
          rw [List.mem_singleton.mp he]
          exact id
  | classify2 c len on =>
    refine .inl ?_
    simp only
    unfold Bytes.classify
    split
    · exact keep rfl
    · split
      · split <;> exact keep rfl
      · exact keep rfl
      · exact keep rfl
  | proc2 c len t =>
    refine .inl ?_
    simp only
    unfold Bytes.proc
    split
    · exact keep rfl
    · simp only
      split
      · refine ⟨_, List.append_assoc _ _ _, fun e he => (List.mem_append.mp he).elim (hcon e) ?_⟩
        intro he
        rw [List.mem_singleton.mp he]
        exact id
      · exact ⟨_, rfl, hcon⟩
      · exact ⟨_, rfl, hcon⟩
      · exact ⟨_, rfl, hcon⟩
  | call c len =>
    refine .inl ?_
    simp only
    split
    · refine ⟨_, rfl, ?_⟩
      intro e he
      rw [List.mem_singleton.mp he]
      exact id
    · exact keep rfl
  | inCb c len i =>
    simp only
    unfold Bytes.callback
    split
    · exact .inl (keep rfl)
    · exact .inr ⟨c, len, i, rfl, rfl⟩
  | undef c len =>
    refine .inl ?_
    simp only
    unfold Bytes.undef
    split
    · exact keep rfl
    · split <;> exact keep rfl
  | after c len st t =>
    refine .inl ?_
    simp only
    unfold Bytes.after
    simp only
    split
    · split
      · exact keep rfl
      · split <;> exact keep rfl
    · split <;> exact keep rfl
  | _ => exact .inl (keep rfl)

theorem thr_noCallback {comm : Bool} {t : Nat} {s s' : Conc.St} (h : Conc.ThrStep comm t s s') : ∃ l, s'.log = s.log ++ l ∧ ∀ e ∈ l, ¬ isCallback e := by
  cases h <;> simp only [Conc.St.set, Conc.St.emit, List.append_assoc] <;>
    first
    | exact ⟨[], (List.append_nil _).symm, nofun⟩
    | exact ⟨_, rfl, by simp [isCallback]⟩

theorem split_old {a b l m : List Ev} {e : Ev} (h : l ++ m = a ++ e :: b) (hm : e ∉ m) : ∃ b', l = a ++ e :: b' := by
  rcases List.append_eq_append_iff.mp h with ⟨c, h1, h2⟩ | ⟨c, h1, h2⟩
  · exact absurd (by rw [h2]; simp) hm
  · cases c with
    | nil =>
      simp only [List.nil_append] at h2
      exact absurd (by rw [← h2]; simp) hm
    | cons f c =>
      simp only [List.cons_append, List.cons.injEq] at h2
      exact ⟨c, by rw [h1, h2.1]⟩

theorem GoesTo.adds {cfg : Cfg} {fn : Fns} {comm : Bool} {s s' : Bytes.St} (h : GoesTo cfg fn comm s s') :
    (s'.overflowed = false → s.overflowed = false) ∧ (s.lost = true → s'.lost = true) ∧ s.stream <+: s'.stream ∧
    s.sh.received <+: s'.sh.received ∧ s.given <+: s'.given := by
  induction h with
  | refl => exact ⟨id, id, List.prefix_refl _, List.prefix_refl _, List.prefix_refl _⟩
  | step _ hs ih =>
    obtain ⟨i1, i2, i3, i4, i5⟩ := ih
    cases hs with
    | thr t h => exact ⟨i1, i2, i3, by simp only [(thr_keeps h).received]; exact i4, i5⟩
    | rx _ chunk v _ =>
      obtain ⟨h2, h3, h4, h5⟩ := next_adds cfg fn chunk v _
      exact ⟨fun h => i1 ((next_keeps cfg fn chunk v _).2.2 h), fun h => h2 (i2 h), i3.trans h3, i4.trans h4, i5.trans h5⟩

/-- A response callback ran: the state just after that. -/
theorem callback_state {cfg : Cfg} {fn : Fns} {comm : Bool} {P : Bytes.St → Bytes.St → Prop} {s : Bytes.St} (h : BytesRun cfg fn comm P s)
    {a b : List Ev} {i : Nat} {items : List Item} {st : PktStatus} (hl : s.sh.log = a ++ .callback i items st :: b) :
    ∃ s1, BytesRun cfg fn comm P s1 ∧ s1.sh.log = a ++ [.callback i items st] ∧ (∃ c len, s1.pc = .send c len st) ∧ GoesTo cfg fn comm s1 s := by
  induction h generalizing b with
  | init => cases a <;> cases hl
  | @step s1 s2 hr hs hp ih =>
    have back : (∃ l, s2.sh.log = s1.sh.log ++ l ∧ ∀ e ∈ l, ¬ isCallback e) →
        ∃ s0, BytesRun cfg fn comm P s0 ∧ s0.sh.log = a ++ [.callback i items st] ∧ (∃ c len, s0.pc = .send c len st) ∧ GoesTo cfg fn comm s0 s2 := by
      rintro ⟨l, h1, h2⟩
      rw [h1] at hl
      obtain ⟨b', hb⟩ := split_old hl (fun hm => h2 _ hm trivial)
      obtain ⟨s0, g1, g2, g3, g4⟩ := ih hb
      exact ⟨s0, g1, g2, g3, .step g4 hs⟩
    have hs' := hs
    cases hs with
    | thr t h => exact back (thr_noCallback h)
    | rx _ chunk v hroom =>
      rcases next_callback cfg fn chunk v s1 with h | ⟨c, len, j, h1, h2⟩
      · exact back h
      · rcases List.eq_nil_or_concat b with rfl | ⟨b', e, rfl⟩
        · have hh := h1.symm.trans hl
          obtain ⟨_, hh⟩ := List.append_inj' hh rfl
          cases hh
          exact ⟨_, .step hr hs' hp, hl, ⟨c, len, h2⟩, .refl⟩
        · have hh := h1.symm.trans hl
          rw [List.concat_eq_append, ← List.cons_append, ← List.append_assoc] at hh
          obtain ⟨hh, _⟩ := List.append_inj' hh rfl
          obtain ⟨s0, g1, g2, g3, g4⟩ := ih hh
          exact ⟨s0, g1, g2, g3, .step g4 hs'⟩

/-! ## The pieces of an answer -/

/-- Piece number `k`. -/
def pieceAt (ps : List StreamPart) (k : Nat) : StreamPart := ps.getD k (.line none [])

theorem pieceAt_head (ps : List StreamPart) (k : Nat) : (pieceAt ps k).head = (ps.map StreamPart.head).getD k [] := by
  unfold pieceAt
  rw [List.getD_eq_getElem?_getD, List.getD_eq_getElem?_getD, List.getElem?_map]
  cases ps[k]? <;> rfl

theorem range_pieces (ps : List StreamPart) : (List.range ps.length).map (pieceAt ps) = ps := by
  apply List.ext_getElem
  · simp
  · intro i h1 h2
    simp at h1
    simp [pieceAt, List.getD, h1]

theorem textsOf_pieces {ps : List StreamPart} {ns : List Nat} (h : ∀ n ∈ ns, n < ps.length) : textsOf ps ns = (ns.map (pieceAt ps)).flatMap StreamPart.texts := by
  induction ns with
  | nil => rfl
  | cons n ns ih =>
    have := ih (fun m hm => h m (List.mem_cons_of_mem _ hm))
    have hn := h n List.mem_cons_self
    simp only [textsOf, List.flatMap_cons, List.map_cons] at this ⊢
    rw [this]
    congr 1
    simp [pieceAt, List.getD, hn]

theorem answered_pieces {cfg : Cfg} {w : Want} {ps : List StreamPart} {ns : List Nat} {ok : Bool} {n : Nat} {items : List Item}
    (h : Answered cfg w (fun k => (ps.map StreamPart.head).getD k []) ns ok n items) (hn : ∀ m ∈ items.map lineNo, m < ps.length) :
    AnswerPieces cfg w (ns.map (pieceAt ps)) ok (textsOf ps (items.map lineNo)) := by
  obtain ⟨ms, rfl, h2, h3, rfl⟩ := h
  refine ⟨ms.map (pieceAt ps), pieceAt ps n, by simp, by rw [pieceAt_head]; exact h2, ?_, ?_⟩
  · intro p hp b
    obtain ⟨m, hm, rfl⟩ := List.mem_map.mp hp
    rw [pieceAt_head]
    exact h3 m hm b
  · rw [textsOf_pieces hn, List.filter_map, keeps_map]
    congr 1
    rw [List.map_map]
    simp only [Want.parts, List.map_map]
    congr 2
    refine List.filter_congr (fun k _ => ?_)
    exact decide_eq_decide.mpr (by simp only [pieceAt_head])

theorem late_goes {cfg : Cfg} {fn : Fns} {comm : Bool} {s s' : Bytes.St} (h : LateBefore cfg fn comm s) (hg : GoesTo cfg fn comm s s') :
    LateBefore cfg fn comm s' := by
  obtain ⟨s0, h1, h2, h3⟩ := h
  exact ⟨s0, h1, h2, h3.trans hg⟩

theorem bare_reqs {s : Bytes.St} {i : Nat} {r : Conc.Req} (h : (bareSt s).reqs[i]? = some r) : ∃ r', s.sh.reqs[i]? = some r' ∧ r = bareReq r' := by
  have h' : (s.sh.reqs.map bareReq)[i]? = some r := h
  rw [List.getElem?_map] at h'
  obtain ⟨r', h1, h2⟩ := Option.map_eq_some_iff.mp h'
  exact ⟨r', h1, h2.symm⟩

/-- C85 over the byte stream, with data.  If the modem sends no line to the requests that time out, what the callback of a request is given, read from the
receive buffer at that moment, is its own answer: the stream is a sequence of pieces - lines, and headers with exactly the announced data -, `before` are
those received before the command was sent, `qs` those since then; the last is the first whose line can end the answer, and the callback is given
all the texts of the pieces of contents among them, byte for byte, in order, each header with its data.  The only exceptions follow data announced by a
line that was not collected for a data response. -/
theorem C85_pieces {cfg : Cfg} {R : Nat → Prefixes} {fn : Fns} (hF : DataFns cfg R fn) {comm : Bool} {s : Bytes.St}
    (h : BytesRun cfg fn comm QuietBytes s) (ho : s.overflowed = false) (hs : SilentTimeouts s.sh.log)
    (he : ∀ i, Ev.sendError i ∉ s.sh.log) {a b : List Ev} {i : Nat} {items : List Item} {st : PktStatus}
    (hl : s.sh.log = a ++ .callback i items st :: b) {r : Conc.Req} (hr : s.sh.reqs[i]? = some r) :
    (∃ x text y before qs tail texts, a = x ++ .command i text :: y ∧ (∀ f ∈ y, ¬ Boundary f ∧ ¬ isGot f) ∧
      Divided R (Dropped cfg s.lost) (before ++ qs) s.stream tail ∧ before.length = (recvs x).length ∧ (before ++ qs).map StreamPart.head <+: s.sh.received ∧
      AnswerPieces cfg (commandWant r) qs true texts ∧ s.given[(a.filterMap calledWith).length]? = some (i, texts)) ∨
    LateBefore cfg fn comm s := by
  obtain ⟨s1, h1, hl1, ⟨c, len, hpc⟩, hg⟩ := callback_state h hl
  obtain ⟨k1, k2, ⟨xs, k3⟩, k4, ⟨g, k5⟩⟩ := hg.adds
  obtain ⟨⟨l2, hl2⟩, q2, hq2⟩ := hg.grows
  rcases strip_run hF h1 (k1 ho) with ⟨D, W, U, Q, QC⟩ | hL
  swap
  · exact .inr (late_goes hL hg)
  left
  have hs1 : SilentTimeouts (bareSt s1).log := bare_silent (l := s1.sh.log) (silent_prefix (l' := l2) (hl2 ▸ hs))
  have he1 : ∀ i, Ev.sendError i ∉ (bareSt s1).log := fun i hi => he i (by rw [hl2]; exact List.mem_append_left _ (bare_mem hi))
  have hlb : (bareSt s1).log = a.filter bareEv ++ .callback i items st :: [] := by
    show s1.sh.log.filter bareEv = _
    rw [hl1, List.filter_append]
    rfl
  obtain ⟨r', hr', hG⟩ := (whole_hist (C85_silence Q hs1 he1) (fun _ _ h => h.1) (.inr ⟨rfl, fun _ _ h => h.2⟩)).1 _ _ i items st hlb
  obtain ⟨r1, hr1, rfl⟩ := bare_reqs hr'
  have hrr : r1 = r := by
    have := getElem?_mono hr1 q2
    rw [← hq2, hr] at this
    exact (Option.some.inj this).symm
  subst hrr
  have G := bare_given (hG (bare_noPrefix r1))
  obtain ⟨ps, tail, H, F⟩ := W
  rw [hpc] at F
  have hrec : s1.sh.received = ps.map StreamPart.head := F.received
  obtain ⟨x, text, y, n, z, e1, e2, e3, e4⟩ := G
  have e4' : Answered cfg (commandWant r1) (fun k => (ps.map StreamPart.head).getD k []) (recvs y) true n items := by
    rw [← hrec]; exact e4
  have hcw := filterMap_at (f := calledWith) hl1 rfl
  have hkn := H.known _ (List.mem_of_getElem? hcw)
  have hrng : recvs s1.sh.log = List.range s1.sh.received.length := by
    have := recvs_range Q.reachable
    rw [show (bareSt s1).log = s1.sh.log.filter bareEv from rfl, bare_recvs] at this
    exact this
  have hall : recvs x ++ recvs y = List.range ps.length := by
    rw [hl1, e1, hrec, List.length_map] at hrng
    simp only [recvs_append, recvs, e3, List.append_nil, List.append_assoc, List.cons_append] at hrng
    exact hrng
  have hps : (recvs x).map (pieceAt ps) ++ (recvs y).map (pieceAt ps) = ps := by
    rw [← List.map_append, hall, range_pieces]
  refine ⟨x, text, y ++ .final true n :: z, (recvs x).map (pieceAt ps), (recvs y).map (pieceAt ps), tail ++ xs, _, e1, ?_, ?_, by simp, ?_,
    answered_pieces e4' hkn.2, ?_⟩
  · intro f hf
    simp only [List.mem_append, List.mem_cons] at hf
    rcases hf with hf | rfl | hf
    · exact e2 f (by simp [hf])
    · simp [Boundary, isGot]
    · exact e2 f (by simp [hf])
  · rw [hps, ← k3]
    have hc := H.cut.extend xs
    cases hlo : s1.lost with
    | false =>
      rw [hlo] at hc
      cases hlo' : s.lost with
      | false => exact hc
      | true => exact hc.toLost
    | true =>
      rw [hlo] at hc
      rw [k2 hlo]
      exact hc
  · rw [hps, ← hrec]
    exact k4
  · rw [← k5]
    refine getElem?_mono ?_ g
    rw [H.given, List.getElem?_map, hcw]
    rfl

/-- C83 over the byte stream, with data.  Missing: not if a request timed out or a data send failed before (but see `C85_pieces`); the rest as there. -/
theorem C83_pieces_partial {cfg : Cfg} {R : Nat → Prefixes} {fn : Fns} (hF : DataFns cfg R fn) {comm : Bool} {s : Bytes.St}
    (h : BytesRun cfg fn comm QuietBytes s) (ho : s.overflowed = false) (hn : NoLoss s.sh.log)
    {a b : List Ev} {i : Nat} {items : List Item} {st : PktStatus} (hl : s.sh.log = a ++ .callback i items st :: b) {r : Conc.Req}
    (hr : s.sh.reqs[i]? = some r) :
    (∃ x text y before qs tail texts, a = x ++ .command i text :: y ∧ (∀ f ∈ y, ¬ Boundary f ∧ ¬ isGot f) ∧
      Divided R (Dropped cfg s.lost) (before ++ qs) s.stream tail ∧ before.length = (recvs x).length ∧ (before ++ qs).map StreamPart.head <+: s.sh.received ∧
      AnswerPieces cfg (commandWant r) qs true texts ∧ s.given[(a.filterMap calledWith).length]? = some (i, texts)) ∨
    LateBefore cfg fn comm s :=
  C85_pieces hF h ho (silent_noLoss hn) (fun i => (hn i).2) hl hr

/-- The same for ports whose callbacks recognise nothing but headers of the response they wait for: the only exceptions follow a header that was
recognised although the request did not wait for the response. -/
theorem C83_pieces_stray_partial {cfg : Cfg} {R : Nat → Prefixes} {fn : Fns} (hF : DataFns cfg R fn) (hfs : FnsSane cfg fn) {comm : Bool} {s : Bytes.St}
    (h : BytesRun cfg fn comm QuietBytes s) (hf : HeadersFit cfg fn s.sh.reqs) (ho : s.overflowed = false)
    (hn : NoLoss s.sh.log) {a b : List Ev} {i : Nat} {items : List Item} {st : PktStatus} (hl : s.sh.log = a ++ .callback i items st :: b)
    {r : Conc.Req} (hr : s.sh.reqs[i]? = some r) :
    (∃ x text y before qs tail texts, a = x ++ .command i text :: y ∧ (∀ f ∈ y, ¬ Boundary f ∧ ¬ isGot f) ∧
      Divided R (Dropped cfg s.lost) (before ++ qs) s.stream tail ∧ before.length = (recvs x).length ∧ (before ++ qs).map StreamPart.head <+: s.sh.received ∧
      AnswerPieces cfg (commandWant r) qs true texts ∧ s.given[(a.filterMap calledWith).length]? = some (i, texts)) ∨
    ∃ s1, Bytes.Reachable cfg fn comm s1 ∧ Stray fn s1 ∧ GoesTo cfg fn comm s1 s := by
  refine (C83_pieces_partial hF h ho hn hl hr).imp id ?_
  rintro ⟨s0, h1, h2, h3⟩
  exact late_stray hfs hf hn h1 h2 h3

/-- C85.  The result a step takes is that of the first line that can end its answer, data or not. -/
theorem C85_pieces_result {cfg : Cfg} {R : Nat → Prefixes} {fn : Fns} (hF : DataFns cfg R fn) {comm : Bool} {s : Bytes.St}
    (h : BytesRun cfg fn comm QuietBytes s) (ho : s.overflowed = false) (hs : SilentTimeouts s.sh.log)
    (he : ∀ i, Ev.sendError i ∉ s.sh.log) {a b : List Ev} {i : Nat} {st : PktStatus} (hl : s.sh.log = a ++ .got i st :: b) {r : Conc.Req}
    (hr : s.sh.reqs[i]? = some r) : ResultWhole cfg s.sh.received r a i st ∨ LateBefore cfg fn comm s := by
  rcases strip_run hF h ho with ⟨D, W, U, Q, QC⟩ | hL
  swap
  · exact .inr hL
  left
  have hs1 : SilentTimeouts (bareSt s).log := bare_silent hs
  have hlb : (bareSt s).log = a.filter bareEv ++ .got i st :: b.filter bareEv := by
    show s.sh.log.filter bareEv = _
    rw [hl, List.filter_append]
    rfl
  have hr' : (bareSt s).reqs[i]? = some (bareReq r) := by
    show (s.sh.reqs.map bareReq)[i]? = _
    rw [List.getElem?_map, hr]
    rfl
  exact bare_result (C85_result (C85_silence Q hs1 (fun i hi => he i (bare_mem hi))) hlb hr' (bare_noPrefix r))

/-- C83.  Missing: as in `C83_pieces_partial`. -/
theorem C83_pieces_result_partial {cfg : Cfg} {R : Nat → Prefixes} {fn : Fns} (hF : DataFns cfg R fn) {comm : Bool} {s : Bytes.St}
    (h : BytesRun cfg fn comm QuietBytes s) (ho : s.overflowed = false) (hn : NoLoss s.sh.log)
    {a b : List Ev} {i : Nat} {st : PktStatus} (hl : s.sh.log = a ++ .got i st :: b) {r : Conc.Req} (hr : s.sh.reqs[i]? = some r) :
    ResultWhole cfg s.sh.received r a i st ∨ LateBefore cfg fn comm s :=
  C85_pieces_result hF h ho (silent_noLoss hn) (fun i => (hn i).2) hl hr

theorem bare_waiting {i : Nat} {p : Conc.Thr} (h : Waiting i p) : Waiting i (bareThr p) := by
  rcases h with ⟨r, rfl⟩ | ⟨n, rfl⟩
  · exact .inl ⟨_, rfl⟩
  · exact .inr ⟨n, rfl⟩

/-- C87 over the byte stream, with data.  A request waits, no result is queued for it and the receive task waits for the transport.  Then the stream is a
sequence of pieces (see `C82_pieces`), and none of the lines and headers taken up since the bytes of the step were sent ends its answer, unless the
port's handler refused one of them (then `lost`).  Missing: a full buffer; after data announced by a line that was not
collected for a data response. -/
theorem C87_pieces_partial {cfg : Cfg} {R : Nat → Prefixes} {fn : Fns} (hF : DataFns cfg R fn) {comm : Bool} {s : Bytes.St}
    (h : BytesRun cfg fn comm QuietBytes s) (ho : s.overflowed = false) (hs : SilentTimeouts s.sh.log)
    (hse : ∀ i, Ev.sendError i ∉ s.sh.log) (he : cfg.err.isSome = true) (hsu : cfg.succ.isSome = true)
    (hpc : s.pc = .wait) {t i : Nat} (hw : Waiting i (s.sh.thr t)) (hq : s.sh.queue = none) {r : Conc.Req} (hr : s.sh.reqs[i]? = some r) :
    (∃ ps tail w x e y, PiecesLaw cfg R s ps tail ∧ WaitsSince s.sh.log i r w x e y ∧
      (s.lost = true ∧ RefusedLine cfg w s.sh.line (recvs y) ∨ ∀ k ∈ recvs y, ∀ ok, ¬ w.ends cfg (s.sh.line k) ok)) ∨
    LateBefore cfg fn comm s := by
  rcases strip_run hF h ho with ⟨D, W, U, Q, QC⟩ | hL
  swap
  · exact .inr hL
  rcases C82_pieces hF (run_reachable h) ho (by rw [hpc]; nofun) with ⟨ps, tail, hP⟩ | hL
  swap
  · exact .inr hL
  left
  have hr' : (bareSt s).reqs[i]? = some (bareReq r) := by
    show (s.sh.reqs.map bareReq)[i]? = _
    rw [List.getElem?_map, hr]
    rfl
  have hidle : (bareSt s).rx = .idle := by
    show (absSt s).rx = .idle
    unfold absSt; simp only [hpc]; rfl
  have hse' : ∀ i, Ev.sendError i ∉ (bareSt s).log := fun i hi => hse i (bare_mem hi)
  cases hlo : s.lost with
  | true =>
    obtain ⟨w, x, e, y, hW, hQ⟩ := C87_answered (C85_silence Q (bare_silent hs) hse') he hsu (t := t) (i := i) (bare_waiting hw) hr' (bare_noPrefix r)
    obtain ⟨x', y', hW', -, hy⟩ := bare_waits hW
    refine ⟨ps, tail, w, x', e, y', hP, hW', ?_⟩
    rw [hy]
    rcases hQ hq with hR | ⟨ms, rest, h1, -, h2, h4⟩
    · exact .inl ⟨rfl, hR⟩
    · refine .inr (fun k hk => ?_)
      rw [h2 (fun hx => hx hidle), List.append_nil] at h1
      rw [h1] at hk
      exact h4 k hk
  | false =>
    have QC' := QC ⟨hlo, by rw [hpc]; rfl⟩
    obtain ⟨w, x, e, y, hW, hQ⟩ := C87_answered (C85_silence QC' (bare_silent hs) hse') he hsu (t := t) (i := i) (bare_waiting hw) hr' (bare_noPrefix r)
    obtain ⟨x', y', hW', -, hy⟩ := bare_waits hW
    refine ⟨ps, tail, w, x', e, y', hP, hW', ?_⟩
    rw [hy]
    rcases hQ hq with hR | ⟨ms, rest, h1, -, h2, h4⟩
    · exact absurd hR calm_refused
    · refine .inr (fun k hk => ?_)
      rw [h2 (fun hx => hx hidle), List.append_nil] at h1
      rw [h1] at hk
      exact h4 k hk

/-! ## Executions -/

/-- The hypotheses of `C85_pieces` are met: request 0 (with a data prefix callback) times out in silence, its answer comes late and is nobody's, and request 1
gets its own header, data that contain a line "OK", and result. -/
example : DataFns (demoCfg 40) (fun _ => demoPrefixes) exFns ∧ ∃ s, BytesRun (demoCfg 40) exFns true QuietBytes s ∧
    s.overflowed = false ∧ SilentTimeouts s.sh.log ∧ (∀ i, Ev.sendError i ∉ s.sh.log) ∧ s.sh.reqs[1]? = some exReqBlock ∧
    (∃ a b, s.sh.log = a ++ .callback 1 [.line 1] .ok :: b ∧ (a.filterMap calledWith).length = 0) ∧
    s.stream = str "OK\r\n+D:7\r\nab\r\nOK\r\r\nOK\r\n" ∧ s.given = [(1, [str "+D:7", str "ab\r\nOK\r"])] := by
  refine ⟨exFns_data, ?_⟩
  obtain ⟨s, hr, he⟩ := quietExec_reach (cfg := demoCfg 40) (fn := exFns) (comm := true)
    ((begins 0 exReqBlock).map .thr ++ [.thr (.expire 0)] ++ (gos 0 3).map .thr ++ [.rx (str "OK\r\n") .ok] ++ rxk 8 ++
      (begins 1 exReqBlock).map .thr ++ [.rx (str "+D:7\r\nab\r\nOK\r\r\nOK\r\n") .ok] ++ rxk 20 ++ (gos 1 4).map .thr)
    (fun s => (s.sh.log, decide (s.given = [(1, [str "+D:7", str "ab\r\nOK\r"])]) && decide (s.stream = str "OK\r\n+D:7\r\nab\r\nOK\r\r\nOK\r\n") && !s.overflowed && decide (s.sh.reqs = [exReqBlock, exReqBlock]))) ([.start 0, .command 0 (str "AT"), .timeout 0, .ret 0 .timedOut none, .recv 0,
      .start 1, .command 1 (str "AT"), .fetched 1, .prefixCb 1, .recv 1, .fetched 1, .prefixCb 1, .recv 2, .final true 2, .callback 1 [.line 1] .ok,
      .got 1 .ok, .ret 1 .ok none], true)
    (by decide +kernel)
  simp only [Prod.mk.injEq, Bool.and_eq_true, Bool.not_eq_true', decide_eq_true_eq] at he
  obtain ⟨h1, ⟨⟨h2, h3⟩, h4⟩, h5⟩ := he
  refine ⟨s, hr, h4, ?_, ?_, by rw [h5]; rfl, ?_, h3, h2⟩
  · rw [h1]
    intro a i b h
    have key : a = [.start 0, .command 0 (str "AT")] ∧ i = 0 ∧ ∃ b', b = .ret 0 .timedOut none :: b' := by
      rcases a with _ | ⟨a0, _ | ⟨a1, _ | ⟨a2, a⟩⟩⟩ <;> simp at h
      · obtain ⟨rfl, rfl, rfl, rfl⟩ := h
        exact ⟨rfl, rfl, _, rfl⟩
      · obtain ⟨-, -, -, h⟩ := h
        have : Ev.timeout i ∈ a ++ Ev.timeout i :: b := by simp
        rw [← h] at this
        simp at this
    obtain ⟨rfl, rfl, b', rfl⟩ := key
    refine ⟨⟨[.start 0], _, [], rfl, rfl, by simp⟩, fun c n d hc => ⟨.timedOut, none, ?_⟩⟩
    cases c with
    | nil => simp at hc
    | cons e c => simp only [List.cons_append, List.cons.injEq] at hc; simp [← hc.1]
  · rw [h1]; simp
  · rw [h1]
    exact ⟨[.start 0, .command 0 (str "AT"), .timeout 0, .ret 0 .timedOut none, .recv 0, .start 1, .command 1 (str "AT"), .fetched 1, .prefixCb 1, .recv 1,
      .fetched 1, .prefixCb 1, .recv 2, .final true 2], [.got 1 .ok, .ret 1 .ok none], rfl, rfl⟩

/-- The pieces that came since its command was sent contain the answer: the header with its data; the unsolicited code is left out. -/
example : AnswerPieces (demoCfg 40) (commandWant exReqBlock)
    [.line (some 1) (str "+Q: 1"), .block 1 (str "+D:7") (str "ab\r\nOK\r"), .line (some 1) (str "OK")] true [str "+D:7", str "ab\r\nOK\r"] := by
  have hn : ∀ l, getMsgType (demoCfg 40) (commandWant exReqBlock).type (commandWant exReqBlock).pfx l ≠ .solicited →
      ∀ b, ¬ (commandWant exReqBlock).ends (demoCfg 40) l b := fun l h b hb => h hb.1
  have hp : ∀ l, isToken l (commandWant exReqBlock).tokens = false → isToken l (demoCfg 40).succ = false → isToken l (demoCfg 40).err = false →
      ¬ (commandWant exReqBlock).code (demoCfg 40) l := by
    rintro l h1 h2 h3 ((h | h) | h)
    · rw [h1] at h; cases h
    · rw [h2] at h; cases h
    · rw [h3] at h; cases h
  have hd := hp (str "+D:7") (by decide +kernel) (by decide +kernel) (by decide +kernel)
  refine ⟨[.line (some 1) (str "+Q: 1"), .block 1 (str "+D:7") (str "ab\r\nOK\r")], .line (some 1) (str "OK"), rfl, ?_, ?_, ?_⟩
  · exact ⟨by unfold Want.mine; decide +kernel, .inl ⟨.inr (by decide +kernel), rfl⟩⟩
  · intro p hm b
    simp only [List.mem_cons, List.not_mem_nil, or_false] at hm
    rcases hm with rfl | rfl
    · exact hn _ (by decide +kernel) b
    · rintro ⟨-, ⟨h, -⟩ | ⟨-, h, -⟩ | ⟨-, h, -⟩⟩
      · exact hd (.inl h)
      · exact hd (.inr h)
      · rcases h with h | h <;> cases h
  · have p1 : ¬ (commandWant exReqBlock).part (demoCfg 40) (StreamPart.line (some 1) (str "+Q: 1")).head := fun h => by
      have h1 : getMsgType (demoCfg 40) _ _ _ = .solicited := h.1
      revert h1
      decide +kernel
    have p2 : (commandWant exReqBlock).part (demoCfg 40) (StreamPart.block 1 (str "+D:7") (str "ab\r\nOK\r")).head :=
      ⟨by unfold Want.mine; decide +kernel, hd⟩
    have p3 : ¬ (commandWant exReqBlock).part (demoCfg 40) (StreamPart.line (some 1) (str "OK")).head := fun h => h.2 (.inl (.inr (by decide +kernel)))
    rw [List.filter_cons_of_neg (by simpa using p1), List.filter_cons_of_pos (by simpa using p2), List.filter_cons_of_neg (by simpa using p3)]
    rfl

/-- The hypotheses of `C87_pieces_partial` are met: an unsolicited code, the header and half of the data have come, and the request goes on waiting. -/
example : ∃ s, BytesRun (demoCfg 40) exFns true QuietBytes s ∧ s.overflowed = false ∧ NoLoss s.sh.log ∧ s.pc = .wait ∧
    Waiting 0 (s.sh.thr 0) ∧ s.sh.queue = none ∧ s.sh.reqs[0]? = some exReqBlock ∧ s.sh.received = [str "+Q: 1", str "+D:7"] ∧
    s.stream = str "+Q: 1\r\n+D:7\r\nab" := by
  obtain ⟨s, hr, he⟩ := quietExec_reach (cfg := demoCfg 40) (fn := exFns) (comm := true)
    ((begins 0 exReqBlock).map .thr ++ [.rx (str "+Q: 1\r\n+D:7\r\nab") .ok] ++ rxk 14)
    (fun s => ((noLossB s.sh.log, s.stream), (s.sh.reqs, s.sh.received), waitsB 0 s))
    ((true, str "+Q: 1\r\n+D:7\r\nab"), ([exReqBlock], [str "+Q: 1", str "+D:7"]), true) (by decide +kernel)
  simp only [Prod.mk.injEq] at he
  obtain ⟨⟨h1, h2⟩, ⟨h3, h4⟩, h5⟩ := he
  obtain ⟨w1, w2, w3, w4, w5⟩ := waitsB_sound h5
  exact ⟨s, hr, w4, noLossB_sound h1, w2, w1, w5, by rw [h3]; rfl, h4, h2⟩

/-- The hypotheses of `C83_pieces_result_partial` are met by a data send with a prompt: the results taken are those of the prompt and of the final "OK". -/
example : DataFns exPromptCfg (fun _ => demoPrefixes) exFns ∧ ∃ s, BytesRun exPromptCfg exFns true QuietBytes s ∧ s.overflowed = false ∧ NoLoss s.sh.log ∧
    s.sh.reqs.map (·.cmd) = [some (str "AT")] ∧ s.sh.received = [str "+Q: 1", str ">", str "OK"] ∧
    (∃ a b, s.sh.log = a ++ .got 0 .ok :: b ∧ (recvs a).length = 2) ∧ ∃ a b, s.sh.log = a ++ .got 0 .ok :: b ∧ (recvs a).length = 3 := by
  refine ⟨⟨exFns_data.input, exFns_data.urc, exFns_data.data, exFns_data.send⟩, ?_⟩
  obtain ⟨s, hr, he⟩ := quietExec_reach (cfg := exPromptCfg) (fn := exFns) (comm := true) promptActs
    (fun s => ((s.sh.log, decide (s.sh.received = [str "+Q: 1", str ">", str "OK"])),
      decide (s.sh.reqs.map (·.cmd) = [some (str "AT")]) && !s.overflowed && noLossB s.sh.log))
    ((([.start 0, .command 0 (str "AT"), .fetched 0, .prefixCb 0, .recv 0, .fetched 0, .prefixCb 0, .fetched 0, .prefixCb 0, .recv 1,
      .final true 1, .fetched 0, .got 0 .ok, .data 0 (str "hey") 3, .recv 2, .final true 2, .got 0 .ok, .ret 0 .ok (some 3)] : List Ev), true), true)
    (by decide +kernel)
  simp only [Prod.mk.injEq, Bool.and_eq_true, Bool.not_eq_true', decide_eq_true_eq] at he
  obtain ⟨⟨h1, h2⟩, ⟨h3, h4⟩, h5⟩ := he
  refine ⟨s, hr, h4, noLossB_sound h5, h3, h2, ?_, ?_⟩
  · rw [h1]
    exact ⟨[.start 0, .command 0 (str "AT"), .fetched 0, .prefixCb 0, .recv 0, .fetched 0, .prefixCb 0, .fetched 0, .prefixCb 0, .recv 1,
      .final true 1, .fetched 0], _, rfl, rfl⟩
  · rw [h1]
    exact ⟨[.start 0, .command 0 (str "AT"), .fetched 0, .prefixCb 0, .recv 0, .fetched 0, .prefixCb 0, .fetched 0, .prefixCb 0, .recv 1,
      .final true 1, .fetched 0, .got 0 .ok, .data 0 (str "hey") 3, .recv 2, .final true 2], _, rfl, rfl⟩

end Cellular.Props
