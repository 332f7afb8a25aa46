import Verif.Close
/-!
# C81: API calls concurrent with `Cellular_Cleanup`
-/

namespace Cellular.Spec
open Close

/-- Task `i` holds the request mutex: it is somewhere between taking it and giving it back. -/
def InRequest (p : Close.Pc) : Prop := p = .testComm ∨ p = .send ∨ p = .wait ∨ ∃ r, p = .leave r

/-- The schedule `l` from `s` keeps the rule "all calls have returned before `Cellular_Cleanup` is called, and nothing is called
with the handle afterwards": no step of a call once `Cellular_Cleanup` has begun. -/
def JoinedBefore : List Act → Close.St → Prop
  | [], _ => True
  | .main :: t, s => JoinedBefore t (step s .main)
  | .call i ok :: t, s => s.main = .inUse ∧ JoinedBefore t (step s (.call i ok))
  | .task :: t, s => JoinedBefore t (step s .task)

/-- The weaker rule "no call is going on any more once `Cellular_Cleanup` destroys the mutexes, and none begins". -/
def JoinedLate : List Act → Close.St → Prop
  | [], _ => True
  | .main :: t, s => JoinedLate t (step s .main)
  | .call i ok :: t, s => s.main ≠ .free ∧ s.main ≠ .returned ∧ JoinedLate t (step s (.call i ok))
  | .task :: t, s => JoinedLate t (step s .task)

end Cellular.Spec

namespace Cellular.Close
open Spec

/-- Control states that can occur together. -/
structure Inv (s : St) : Prop where
  own1 : ∀ i, InRequest (s.pc i) → s.owner = some (.call i)
  own2 : ∀ i, s.owner = some (.call i) → InRequest (s.pc i) ∨ s.pc i = .crashed
  own3 : s.owner = some .cleanup ↔ s.main = .delQueue
  que : s.queue = false ↔ s.main = .reset ∨ s.main = .destroy ∨ s.main = .free ∨ s.main = .returned
  clo : s.closing = false ↔ s.main = .inUse ∨ s.main = .destroy ∨ s.main = .free ∨ s.main = .returned
  opn : s.opened = false ↔ s.main = .destroy ∨ s.main = .free ∨ s.main = .returned
  mtx : s.mutexes = false ↔ s.main = .free ∨ s.main = .returned
  ctx : s.context = false ↔ s.main = .returned
  abt : s.aborted = true ∨ s.main = .delEvent ∨ s.main = .lockReq ∨ s.main = .delQueue ∨ s.queue = false →
    s.task = .callback2 ∨ s.task = .ended
  abo : s.main = .inUse ∨ s.main = .setAbort → s.abort = false ∧ s.task = .run
  nul : s.commNull = false ↔ s.task = .run ∨ s.task = .close ∨ s.task = .clear
  com : s.commOpen = true ↔ s.task = .run ∨ s.task = .close
  use : s.queue = false → ∀ i, s.pc i ≠ .send ∧ s.pc i ≠ .wait
  sdn : s.shutdown = true → s.commNull = true

theorem upd_same {α : Type} (f : Nat → α) (i : Nat) (v : α) : upd f i v i = v := by simp [upd]
theorem upd_other {α : Type} (f : Nat → α) (i j : Nat) (v : α) (h : j ≠ i) : upd f i v j = f j := by simp [upd, h]

theorem inv_init : Inv {} := by
  constructor <;> simp [InRequest]

theorem inv_main {s : St} (h : Inv s) : Inv (mainStep s) := by
  obtain ⟨h1, h2, h3, h4, h5, h6, h7, h8, h9, h10, h11, h12, h13, h14⟩ := h
  obtain ⟨pc, mn, tk, op, cl, sd, ab, abd, co, cn, q, ow, mu, cx, se, wo, bad⟩ := s
  simp only at *
  cases mn <;> simp only [mainStep] <;> (repeat' split) <;> constructor <;> simp_all <;> (try assumption)
  all_goals
    intro i
    first
    | exact h1 i
    | exact h2 i
    | (constructor <;> intro hp <;> exact h1 i (by simp [InRequest, hp]))
    | skip

theorem inv_task {s : St} (h : Inv s) : Inv (taskStep s) := by
  obtain ⟨h1, h2, h3, h4, h5, h6, h7, h8, h9, h10, h11, h12, h13, h14⟩ := h
  obtain ⟨pc, mn, tk, op, cl, sd, ab, abd, co, cn, q, ow, mu, cx, se, wo, bad⟩ := s
  simp only at *
  cases tk <;> simp only [taskStep] <;> (repeat' split) <;> constructor <;> simp_all <;> (try assumption)

/-- The possible steps of a call, one constructor per outcome. -/
inductive CallRel (s : St) (i : Nat) (ok : Bool) : St → Prop
  | start : s.pc i = .idle → CallRel s i ok (s.go i .check1)
  | stay : s.pc i = .crashed ∨ (s.pc i = .lock ∧ s.owner ≠ none) → CallRel s i ok s
  | crash (b : Bad) : s.pc i ≠ .idle → s.pc i ≠ .crashed →
      ((b = .context i ∧ s.context = false) ∨ (b = .mutex i ∧ s.mutexes = false) ∨
       (b = .transport i ∧ s.pc i = .send ∧ s.commOpen = false) ∨
       (b = .queue i ∧ s.pc i = .wait ∧ s.queue = false)) → CallRel s i ok (s.crash i b)
  | notOpen : s.pc i = .check1 → s.opened = false → CallRel s i ok (s.go i .idle)
  | isOpen : s.pc i = .check1 → s.opened = true → CallRel s i ok (s.go i .check2)
  | refused : s.pc i = .check2 → s.shutdown = true ∨ s.closing = true → CallRel s i ok (s.go i .idle)
  | passed : s.pc i = .check2 → s.shutdown = false → s.closing = false → CallRel s i ok (s.go i .lock)
  | locked : s.pc i = .lock → s.owner = none → s.mutexes = true →
      CallRel s i ok { s.go i .testComm with owner := some (.call i) }
  | noComm : s.pc i = .testComm → s.commNull = true → CallRel s i ok (s.go i (.leave false))
  | comm : s.pc i = .testComm → s.commNull = false → CallRel s i ok (s.go i .send)
  | sent : s.pc i = .send → s.commOpen = true →
      CallRel s i ok { s.go i .wait with sent := upd s.sent i (s.sent i + 1) }
  | answered : s.pc i = .wait → s.queue = true → CallRel s i ok (s.go i (.leave ok))
  | left (r : Bool) : s.pc i = .leave r →
      CallRel s i ok { s.go i .idle with owner := none, won := if r then upd s.won i (s.won i + 1) else s.won }

theorem callRel (s : St) (i : Nat) (ok : Bool) : CallRel s i ok (callStep s i ok) := by
  unfold callStep
  split
  · exact .start (by assumption)
  · exact .stay (Or.inl (by assumption))
  · next h1 h2 =>
    split
    · next hc => exact .crash _ h1 h2 (Or.inl ⟨rfl, hc⟩)
    · split
      · next hp =>
        split
        · next hm => exact .crash _ h1 h2 (Or.inr (Or.inl ⟨rfl, hm⟩))
        · split
          · next ho => exact .notOpen hp ho
          · next ho => exact .isOpen hp (by simpa using ho)
      · next hp =>
        split
        · next hm => exact .crash _ h1 h2 (Or.inr (Or.inl ⟨rfl, hm⟩))
        · split
          · next ho => exact .refused hp (by simpa using ho)
          · next ho =>
            simp only [Bool.or_eq_true, not_or, Bool.not_eq_true] at ho
            exact .passed hp ho.1 ho.2
      · next hp =>
        split
        · next hm => exact .crash _ h1 h2 (Or.inr (Or.inl ⟨rfl, hm⟩))
        · next hm =>
          split
          · next ho => exact .locked hp ho (by simpa using hm)
          · next ho => exact .stay (Or.inr ⟨hp, ho⟩)
      · next hp =>
        split
        · next hm => exact .crash _ h1 h2 (Or.inr (Or.inl ⟨rfl, hm⟩))
        · split
          · next ho => exact .noComm hp ho
          · next ho => exact .comm hp (by simpa using ho)
      · next hp =>
        split
        · next ho => exact .sent hp ho
        · next ho => exact .crash _ h1 h2 (Or.inr (Or.inr (Or.inl ⟨rfl, hp, by simpa using ho⟩)))
      · next hp =>
        split
        · next ho => exact .crash _ h1 h2 (Or.inr (Or.inr (Or.inr ⟨rfl, hp, ho⟩)))
        · next ho => exact .answered hp (by simpa using ho)
      · next r hp =>
        split
        · next hm => exact .crash _ h1 h2 (Or.inr (Or.inl ⟨rfl, hm⟩))
        · exact .left r hp
      · next g1 g2 g3 g4 g5 g6 g7 =>
        exfalso
        cases hp : s.pc i
        · exact h1 hp
        · exact g1 hp
        · exact g2 hp
        · exact g3 hp
        · exact g4 hp
        · exact g5 hp
        · exact g6 hp
        · exact g7 _ hp
        · exact h2 hp

theorem inv_go {s : St} (h : Inv s) (i : Nat) (p : Pc) (se wo : Nat → Nat) (bad : List Bad)
    (h0 : s.pc i ≠ .crashed) (hp : InRequest p → InRequest (s.pc i))
    (hq : InRequest (s.pc i) → InRequest p ∨ p = .crashed) (hw : p = .send ∨ p = .wait → s.queue = true) :
    Inv { s with pc := upd s.pc i p, sent := se, won := wo, bad := bad } := by
  refine ⟨fun j hj => ?_, fun j hj => ?_, h.own3, h.que, h.clo, h.opn, h.mtx, h.ctx, h.abt, h.abo, h.nul, h.com,
    fun hc j => ?_, h.sdn⟩
  · by_cases e : j = i
    · subst e; exact h.own1 _ (hp (by simpa [upd] using hj))
    · exact h.own1 _ (by simpa [upd, e] using hj)
  · by_cases e : j = i
    · subst e
      rcases h.own2 _ hj with a | a
      · simpa [upd] using hq a
      · exact absurd a h0
    · simpa [upd, e] using h.own2 _ hj
  · by_cases e : j = i
    · subst e
      simp only [upd_same]
      constructor <;> intro e' <;> have := hw (by simp [e']) <;> simp_all
    · simpa [upd, e] using h.use hc j

theorem inv_call {s : St} (h : Inv s) (i : Nat) (ok : Bool) : Inv (callStep s i ok) := by
  have hr := callRel s i ok
  generalize callStep s i ok = t at hr
  have nr : ∀ p, s.pc i = p → (p = .idle ∨ p = .check1 ∨ p = .check2 ∨ p = .lock) → ¬ InRequest (s.pc i) := by
    intro p hp h'; rw [hp]; rcases h' with e | e | e | e <;> simp [e, InRequest]
  cases hr with
  | start hp => exact inv_go h i _ _ _ _ (by simp [hp]) (by simp [InRequest]) (fun a => absurd a (nr _ hp (by simp))) (by simp)
  | stay hp => exact h
  | crash b h1 h2 h3 => exact inv_go h i _ _ _ _ h2 (by simp [InRequest]) (fun a => Or.inr rfl) (by simp)
  | notOpen hp ho => exact inv_go h i _ _ _ _ (by simp [hp]) (by simp [InRequest]) (fun a => absurd a (nr _ hp (by simp))) (by simp)
  | isOpen hp ho => exact inv_go h i _ _ _ _ (by simp [hp]) (by simp [InRequest]) (fun a => absurd a (nr _ hp (by simp))) (by simp)
  | refused hp ho => exact inv_go h i _ _ _ _ (by simp [hp]) (by simp [InRequest]) (fun a => absurd a (nr _ hp (by simp))) (by simp)
  | passed hp ho hc => exact inv_go h i _ _ _ _ (by simp [hp]) (by simp [InRequest]) (fun a => absurd a (nr _ hp (by simp))) (by simp)
  | noComm hp ho => exact inv_go h i _ _ _ _ (by simp [hp]) (by simp [InRequest, hp]) (by simp [InRequest]) (by simp)
  | comm hp ho =>
    refine inv_go h i _ _ _ _ (by simp [hp]) (by simp [InRequest, hp]) (by simp [InRequest]) (fun _ => ?_)
    cases hq : s.queue with
    | true => rfl
    | false =>
      have := h.abt (by simp [hq])
      have hn := h.nul
      rcases this with e | e <;> simp [e, ho] at hn
  | sent hp ho =>
    refine inv_go h i _ _ _ _ (by simp [hp]) (by simp [InRequest, hp]) (by simp [InRequest]) (fun _ => ?_)
    cases hq : s.queue with
    | true => rfl
    | false => exact absurd hp (h.use hq i).1
  | answered hp ho => exact inv_go h i _ _ _ _ (by simp [hp]) (by simp [InRequest, hp]) (by simp [InRequest]) (by simp)
  | locked hp ho hm =>
    refine ⟨fun j hj => ?_, fun j hj => ?_, ?_, h.que, h.clo, h.opn, h.mtx, h.ctx, h.abt, h.abo, h.nul, h.com,
      fun hc j => ?_, h.sdn⟩
    · by_cases e : j = i
      · subst e; rfl
      · have := h.own1 j (by simpa [St.go, upd, e] using hj)
        simp [ho] at this
    · simp only [Option.some.injEq, Who.call.injEq] at hj
      subst hj
      left; simp [St.go, upd, InRequest]
    · have := h.own3
      simp only [ho] at this
      simpa [St.go] using this
    · by_cases e : j = i
      · subst e; simp [St.go, upd]
      · simpa [St.go, upd, e] using h.use hc j
  | left r hp =>
    have hme : s.owner = some (.call i) := h.own1 i (by simp [hp, InRequest])
    refine ⟨fun j hj => ?_, fun j hj => ?_, ?_, h.que, h.clo, h.opn, h.mtx, h.ctx, h.abt, h.abo, h.nul, h.com,
      fun hc j => ?_, h.sdn⟩
    · by_cases e : j = i
      · subst e; simp [St.go, upd, InRequest] at hj
      · have := h.own1 j (by simpa [St.go, upd, e] using hj)
        simp only [hme, Option.some.injEq, Who.call.injEq] at this
        exact absurd this.symm e
    · simp at hj
    · have := h.own3
      simp only [hme] at this
      simpa [St.go] using this
    · by_cases e : j = i
      · subst e; simp [St.go, upd]
      · simpa [St.go, upd, e] using h.use hc j

theorem inv_step {s : St} (h : Inv s) (a : Act) : Inv (step s a) := by
  cases a with
  | call i ok => exact inv_call h i ok
  | main => exact inv_main h
  | task => exact inv_task h

theorem inv_foldl (l : List Act) {s : St} (h : Inv s) : Inv (l.foldl step s) := by
  induction l generalizing s with
  | nil => exact h
  | cons a t ih => exact ih (inv_step h a)

theorem inv_run (l : List Act) : Inv (run l) := inv_foldl l inv_init

/-! ## Late calls -/

/-- Where a call can be that began after `Cellular_Cleanup` did. -/
def Late (s : St) (i : Nat) : Prop :=
  s.main ≠ .inUse ∧
  (s.pc i = .idle ∨ s.pc i = .check1 ∨ s.pc i = .check2 ∨ s.pc i = .crashed ∨
    (s.commNull = true ∧ (s.pc i = .lock ∨ s.pc i = .testComm ∨ s.pc i = .leave false)))

theorem mainStep_inUse (s : St) (h : s.main ≠ .inUse) : (mainStep s).main ≠ .inUse := by
  cases hm : s.main <;> simp only [mainStep, hm] <;> (repeat' split) <;> simp_all

theorem mainStep_frame (s : St) : (mainStep s).pc = s.pc ∧ (mainStep s).commNull = s.commNull ∧
    (mainStep s).sent = s.sent ∧ (mainStep s).won = s.won ∧ (mainStep s).bad = s.bad := by
  cases hm : s.main <;> simp only [mainStep, hm] <;> (repeat' split) <;> simp_all

theorem taskStep_frame (s : St) : (taskStep s).pc = s.pc ∧ (s.commNull = true → (taskStep s).commNull = true) ∧
    (taskStep s).sent = s.sent ∧ (taskStep s).won = s.won ∧ (taskStep s).main = s.main ∧
    (∀ b ∈ (taskStep s).bad, b ∈ s.bad ∨ b = .taskContext) := by
  cases hm : s.task <;> simp only [taskStep, hm] <;> (repeat' split) <;> simp_all

/-- What a step of a call leaves alone. -/
theorem callStep_frame (s : St) (i : Nat) (ok : Bool) :
    (callStep s i ok).main = s.main ∧ (callStep s i ok).task = s.task ∧ (callStep s i ok).commNull = s.commNull ∧
    (callStep s i ok).commOpen = s.commOpen ∧
    (∀ j, j ≠ i → (callStep s i ok).pc j = s.pc j ∧ (callStep s i ok).sent j = s.sent j ∧ (callStep s i ok).won j = s.won j) := by
  have hr := callRel s i ok
  generalize callStep s i ok = t at hr
  cases hr <;> refine ⟨rfl, rfl, rfl, rfl, fun j hj => ?_⟩ <;> simp [St.go, St.crash, upd, hj]
  split <;> simp [upd, hj]

theorem null_of_reset {s : St} (h : Inv s) (hm : s.main ≠ .inUse) (hc : s.closing = false) : s.commNull = true := by
  have h1 := h.clo.mp hc
  have hq : s.queue = false := h.que.mpr (by rcases h1 with e | e | e | e <;> simp_all)
  have ht := h.abt (by simp [hq])
  cases hn : s.commNull with
  | true => rfl
  | false => have := h.nul.mp hn; rcases ht with e | e <;> simp [e] at this

theorem late_step {s : St} (h : Inv s) (i : Nat) (hl : Late s i) (a : Act) :
    Late (step s a) i ∧ (step s a).sent i = s.sent i ∧ (step s a).won i = s.won i := by
  obtain ⟨hm, hp⟩ := hl
  cases a with
  | main =>
    obtain ⟨e1, e2, e3, e4, _⟩ := mainStep_frame s
    refine ⟨⟨mainStep_inUse s hm, ?_⟩, by simp [step, e3], by simp [step, e4]⟩
    simp only [step, e1, e2]; exact hp
  | task =>
    obtain ⟨e1, e2, e3, e4, e5, _⟩ := taskStep_frame s
    refine ⟨⟨by simp only [step, e5]; exact hm, ?_⟩, by simp [step, e3], by simp [step, e4]⟩
    simp only [step, e1]
    rcases hp with e | e | e | e | ⟨e, e'⟩
    · simp [e]
    · simp [e]
    · simp [e]
    · simp [e]
    · exact Or.inr (Or.inr (Or.inr (Or.inr ⟨e2 e, e'⟩)))
  | call j ok =>
    obtain ⟨e1, e2, e3, e4, e5⟩ := callStep_frame s j ok
    by_cases hj : i = j
    · subst hj
      have hr := callRel s i ok
      simp only [step]
      generalize callStep s i ok = t at hr e1 e2 e3 e4 e5
      cases hr with
      | start hq => exact ⟨⟨hm, by simp [St.go, upd]⟩, rfl, rfl⟩
      | stay hq => exact ⟨⟨hm, hp⟩, rfl, rfl⟩
      | crash b h1 h2 h3 => exact ⟨⟨hm, by simp [St.go, St.crash, upd]⟩, rfl, rfl⟩
      | notOpen hq ho => exact ⟨⟨hm, by simp [St.go, upd]⟩, rfl, rfl⟩
      | isOpen hq ho => exact ⟨⟨hm, by simp [St.go, upd]⟩, rfl, rfl⟩
      | refused hq ho => exact ⟨⟨hm, by simp [St.go, upd]⟩, rfl, rfl⟩
      | passed hq ho hc =>
        refine ⟨⟨hm, ?_⟩, rfl, rfl⟩
        simp [St.go, upd, null_of_reset h hm hc]
      | locked hq ho hx =>
        refine ⟨⟨hm, ?_⟩, rfl, rfl⟩
        rw [hq] at hp
        simp at hp
        simp [St.go, upd, hp]
      | noComm hq ho => exact ⟨⟨hm, by simp [St.go, upd, ho]⟩, rfl, rfl⟩
      | comm hq ho => rw [hq, ho] at hp; simp at hp
      | sent hq ho => rw [hq] at hp; simp at hp
      | answered hq ho => rw [hq] at hp; simp at hp
      | left r hq =>
        rw [hq] at hp
        simp at hp
        refine ⟨⟨hm, by simp [St.go, upd]⟩, rfl, ?_⟩
        simp [hp.2]
    · obtain ⟨g1, g2, g3⟩ := e5 i hj
      refine ⟨⟨by simp only [step, e1]; exact hm, ?_⟩, by simp only [step, g2], by simp only [step, g3]⟩
      simp only [step, g1, e3]; exact hp

theorem late_foldl (l : List Act) {s : St} (h : Inv s) (i : Nat) (hl : Late s i) :
    Late (l.foldl step s) i ∧ (l.foldl step s).sent i = s.sent i ∧ (l.foldl step s).won i = s.won i := by
  induction l generalizing s with
  | nil => exact ⟨hl, rfl, rfl⟩
  | cons a t ih =>
    obtain ⟨h1, h2, h3⟩ := late_step h i hl a
    obtain ⟨g1, g2, g3⟩ := ih (inv_step h a) h1
    exact ⟨g1, g2.trans h2, g3.trans h3⟩

/-- A task, after `Cellular_Cleanup` has begun: it has sent nothing since, or one command - and then it is in the rest of that
call or in a late call. -/
def OneMore (n : Nat) (s : St) (i : Nat) : Prop :=
  s.main ≠ .inUse ∧ (s.sent i = n ∨ (s.sent i = n + 1 ∧ (s.pc i = .wait ∨ (∃ r, s.pc i = .leave r) ∨ Late s i)))

theorem oneMore_step {n : Nat} {s : St} (h : Inv s) (i : Nat) (hl : OneMore n s i) (a : Act) : OneMore n (step s a) i := by
  obtain ⟨hm, hp⟩ := hl
  cases a with
  | main =>
    obtain ⟨e1, e2, e3, e4, _⟩ := mainStep_frame s
    refine ⟨mainStep_inUse s hm, ?_⟩
    simp only [step, e1, e3]
    rcases hp with e | ⟨e, e' | e' | e'⟩
    · exact Or.inl e
    · exact Or.inr ⟨e, Or.inl e'⟩
    · exact Or.inr ⟨e, Or.inr (Or.inl e')⟩
    · exact Or.inr ⟨e, Or.inr (Or.inr (late_step h i e' .main).1)⟩
  | task =>
    obtain ⟨e1, e2, e3, e4, e5, _⟩ := taskStep_frame s
    refine ⟨by simp only [step, e5]; exact hm, ?_⟩
    simp only [step, e1, e3]
    rcases hp with e | ⟨e, e' | e' | e'⟩
    · exact Or.inl e
    · exact Or.inr ⟨e, Or.inl e'⟩
    · exact Or.inr ⟨e, Or.inr (Or.inl e')⟩
    · exact Or.inr ⟨e, Or.inr (Or.inr (late_step h i e' .task).1)⟩
  | call j ok =>
    obtain ⟨e1, e2, e3, e4, e5⟩ := callStep_frame s j ok
    refine ⟨by simp only [step, e1]; exact hm, ?_⟩
    by_cases hj : i = j
    · subst hj
      rcases hp with e | ⟨e, e' | e' | e'⟩
      · have hr := callRel s i ok
        simp only [step]
        generalize callStep s i ok = t at hr e1 e2 e3 e4 e5
        cases hr with
        | sent hq ho => exact Or.inr ⟨by simp [upd, e], by simp [St.go, upd]⟩
        | _ => exact Or.inl e
      · have hr := callRel s i ok
        simp only [step]
        generalize callStep s i ok = t at hr e1 e2 e3 e4 e5
        cases hr <;> simp_all
        · exact Or.inr ⟨e, by simp [Late, hm, St.go, St.crash, upd]⟩
        · exact Or.inr ⟨e, by simp [St.go, upd]⟩
      · obtain ⟨r, e'⟩ := e'
        have hr := callRel s i ok
        simp only [step]
        generalize callStep s i ok = t at hr e1 e2 e3 e4 e5
        cases hr <;> simp_all
        · exact Or.inr ⟨e, by simp [Late, hm, St.go, St.crash, upd]⟩
        · exact Or.inr ⟨e, by simp [Late, hm, St.go, upd]⟩
      · obtain ⟨g1, g2, g3⟩ := late_step h i e' (.call i ok)
        exact Or.inr ⟨g2.trans e, Or.inr (Or.inr g1)⟩
    · obtain ⟨g1, g2, g3⟩ := e5 i hj
      simp only [step, g1, g2]
      rcases hp with e | ⟨e, e' | e' | e'⟩
      · exact Or.inl e
      · exact Or.inr ⟨e, Or.inl e'⟩
      · exact Or.inr ⟨e, Or.inr (Or.inl e')⟩
      · exact Or.inr ⟨e, Or.inr (Or.inr (late_step h i e' (.call j ok)).1)⟩

/-! ## Violations -/

/-- Which violation a step can add. -/
theorem step_bad (s : St) (a : Act) (b : Bad) (hb : b ∈ (step s a).bad) :
    b ∈ s.bad ∨ (a = .task ∧ b = .taskContext) ∨
    (∃ i ok, a = .call i ok ∧ s.pc i ≠ .idle ∧
      ((b = .context i ∧ s.context = false) ∨ (b = .mutex i ∧ s.mutexes = false) ∨
       (b = .transport i ∧ s.pc i = .send ∧ s.commOpen = false) ∨
       (b = .queue i ∧ s.pc i = .wait ∧ s.queue = false))) := by
  cases a with
  | main => simp only [step, (mainStep_frame s).2.2.2.2] at hb; exact Or.inl hb
  | task =>
    rcases (taskStep_frame s).2.2.2.2.2 b hb with e | e
    · exact Or.inl e
    · exact Or.inr (Or.inl ⟨rfl, e⟩)
  | call i ok =>
    have hr := callRel s i ok
    simp only [step] at hb
    generalize callStep s i ok = t at hr hb
    cases hr with
    | crash b' h1 h2 h3 =>
      rcases List.mem_cons.mp hb with e | e
      · subst e; exact Or.inr (Or.inr ⟨i, ok, rfl, h1, h3⟩)
      · exact Or.inl e
    | _ => exact Or.inl hb

theorem no_queue_bad (l : List Act) {s : St} (h : Inv s) (hb : ∀ i, .queue i ∉ s.bad) :
    ∀ i, .queue i ∉ (l.foldl step s).bad := by
  induction l generalizing s with
  | nil => exact hb
  | cons a t ih =>
    refine ih (inv_step h a) (fun i hi => ?_)
    rcases step_bad s a _ hi with e | ⟨_, e⟩ | ⟨j, ok, _, _, e⟩
    · exact hb i e
    · simp at e
    · simp at e
      obtain ⟨e1, e2, e3⟩ := e
      exact (h.use e3 j).2 e2

theorem joinedLate_bad (l : List Act) {s : St} (h : Inv s) (hj : JoinedLate l s)
    (hb : ∀ b ∈ s.bad, b = .taskContext ∨ ∃ i, b = .transport i) :
    ∀ b ∈ (l.foldl step s).bad, b = .taskContext ∨ ∃ i, b = .transport i := by
  induction l generalizing s with
  | nil => exact hb
  | cons a t ih =>
    have hj' : JoinedLate t (step s a) := by cases a <;> simp_all [JoinedLate]
    refine ih (inv_step h a) hj' (fun b hb' => ?_)
    rcases step_bad s a _ hb' with e | ⟨_, e⟩ | ⟨j, ok, ha, _, e⟩
    · exact hb b e
    · exact Or.inl e
    · subst ha
      simp only [JoinedLate] at hj
      rcases e with ⟨_, e⟩ | ⟨_, e⟩ | ⟨e, _⟩ | ⟨e, e2, e3⟩
      · exact absurd (h.ctx.mp e) hj.2.1
      · rcases h.mtx.mp e with e | e
        · exact absurd e hj.1
        · exact absurd e hj.2.1
      · exact Or.inr ⟨j, e⟩
      · exact absurd e2 (h.use e3 j).2

theorem joinedBefore_bad (l : List Act) {s : St} (h : Inv s) (hj : JoinedBefore l s) (hb : ∀ b ∈ s.bad, b = .taskContext) :
    ∀ b ∈ (l.foldl step s).bad, b = .taskContext := by
  induction l generalizing s with
  | nil => exact hb
  | cons a t ih =>
    have hj' : JoinedBefore t (step s a) := by cases a <;> simp_all [JoinedBefore]
    refine ih (inv_step h a) hj' (fun b hb' => ?_)
    rcases step_bad s a _ hb' with e | ⟨_, e⟩ | ⟨j, ok, ha, _, e⟩
    · exact hb b e
    · exact e
    · subst ha
      simp only [JoinedBefore] at hj
      have hm := hj.1
      rcases e with ⟨_, e⟩ | ⟨_, e⟩ | ⟨_, _, e⟩ | ⟨_, _, e⟩
      · simp [h.ctx, hm] at e
      · simp [h.mtx, hm] at e
      · have := h.com
        simp [(h.abo (Or.inl hm)).2, e] at this
      · simp [h.que, hm] at e

/-! ## Cleanup can always go on -/

/-- The part of the handshake that lets `Cellular_Cleanup` go on. -/
def Going (s : St) : Prop :=
  (s.main = .poll → s.abort = true ∨ s.task ≠ .run) ∧ (s.task = .callback2 ∨ s.task = .ended → s.aborted = true)

theorem going_step {s : St} (hg : Going s) (a : Act) : Going (step s a) := by
  cases a with
  | main =>
    obtain ⟨pc, mn, tk, op, cl, sd, ab, abd, co, cn, q, ow, mu, cx, se, wo, bad⟩ := s
    cases mn <;> simp only [Going, step, mainStep] at * <;> (repeat' split) <;> simp_all
  | task =>
    obtain ⟨pc, mn, tk, op, cl, sd, ab, abd, co, cn, q, ow, mu, cx, se, wo, bad⟩ := s
    cases tk <;> simp only [Going, step, taskStep] at * <;> (repeat' split) <;> simp_all
  | call i ok =>
    have hr := callRel s i ok
    simp only [step]
    generalize callStep s i ok = t at hr
    cases hr <;> exact hg

theorem going_foldl (l : List Act) {s : St} (hg : Going s) : Going (l.foldl step s) := by
  induction l generalizing s with
  | nil => exact hg
  | cons a t ih => exact ih (going_step hg a)

/-- Steps left for the cleanup. -/
def mainRank : Main → Nat
  | .inUse => 9 | .setAbort => 8 | .poll => 7 | .delEvent => 6 | .lockReq => 5 | .delQueue => 4 | .reset => 3 | .destroy => 2
  | .free => 1 | .returned => 0

/-- Steps left for the receive task. -/
def taskRank : Task → Nat
  | .run => 6 | .close => 5 | .clear => 4 | .callback1 => 3 | .setAborted => 2 | .callback2 => 1 | .ended => 0

/-- The request mutex is not in the way of the cleanup. -/
def Free (s : St) : Prop := s.owner = none ∨ s.main = .delQueue ∨ s.queue = false

theorem free_progress {s : St} (h : Inv s) (hg : Going s) (hm : s.main ≠ .inUse) (hr : s.main ≠ .returned) (ho : Free s) :
    (mainRank (mainStep s).main < mainRank s.main ∧ Free (mainStep s)) ∨
    (mainRank (taskStep s).main = mainRank s.main ∧ taskRank (taskStep s).task < taskRank s.task ∧ Free (taskStep s)) := by
  have a2 := h.abo
  have a3 := h.que
  obtain ⟨g1, g2⟩ := hg
  clear h
  obtain ⟨pc, mn, tk, op, cl, sd, ab, abd, co, cn, q, ow, mu, cx, se, wo, bad⟩ := s
  simp only at *
  cases mn with
  | poll =>
    cases abd with
    | true => left; simp_all [mainStep, mainRank, Free]
    | false =>
      right
      cases tk <;> simp_all [taskStep, mainRank, taskRank, Free]
  | _ => left; simp_all [mainStep, mainRank, Free]

theorem free_returns (n : Nat) {s : St} (hn : 7 * mainRank s.main + taskRank s.task ≤ n) (h : Inv s) (hg : Going s)
    (hm : s.main ≠ .inUse) (ho : Free s) :
    ∃ l : List Act, (∀ a ∈ l, a = .main ∨ a = .task) ∧ (l.foldl step s).main = .returned := by
  induction n generalizing s with
  | zero =>
    refine ⟨[], nofun, ?_⟩
    cases hq : s.main <;> simp [hq, mainRank] at hn
    exact hq
  | succ n ih =>
    by_cases hr : s.main = .returned
    · exact ⟨[], nofun, hr⟩
    · rcases free_progress h hg hm hr ho with ⟨h1, h2⟩ | ⟨h1, h2, h3⟩
      · have hlt : taskRank (mainStep s).task = taskRank s.task := by
          congr 1
          cases hq : s.main <;> simp only [mainStep, hq] <;> (repeat' split) <;> rfl
        obtain ⟨l, hl, he⟩ := ih (s := step s .main) (by simp only [step]; omega) (inv_step h _) (going_step hg _)
          (mainStep_inUse s hm) h2
        exact ⟨.main :: l, by simpa using hl, he⟩
      · obtain ⟨l, hl, he⟩ := ih (s := step s .task) (by simp only [step]; omega) (inv_step h _) (going_step hg _)
          (by simp only [step, (taskStep_frame s).2.2.2.2.1]; exact hm) h3
        exact ⟨.task :: l, by simpa using hl, he⟩

/-- A request whose call has not been caught by the closing of the transport gives the mutex back. -/
theorem owner_leaves {s : St} (h : Inv s) (i : Nat) (hp : InRequest (s.pc i)) (hc : s.pc i = .send → s.commOpen = true)
    (hm : s.mutexes = true) (hx : s.context = true) :
    ∃ l : List Act, (∀ a ∈ l, a = .task ∨ ∃ ok, a = .call i ok) ∧ (l.foldl step s).owner = none ∧
      (l.foldl step s).main = s.main := by
  -- from `leave`
  have k1 : ∀ (s : St) (r : Bool), s.pc i = .leave r → s.mutexes = true → s.context = true →
      (step s (.call i true)).owner = none ∧ (step s (.call i true)).main = s.main := by
    intro s r e m x
    simp only [step]
    refine ⟨?_, (callStep_frame s i true).1⟩
    unfold callStep
    simp [e, m, x]
  -- from `wait`
  have k2 : ∀ (s : St), s.pc i = .wait → s.mutexes = true → s.context = true → s.queue = true →
      ∃ l : List Act, (∀ a ∈ l, a = .task ∨ ∃ ok, a = .call i ok) ∧ (l.foldl step s).owner = none ∧
        (l.foldl step s).main = s.main := by
    intro s e m x q
    have hs : step s (.call i true) = s.go i (.leave true) := by simp only [step]; unfold callStep; simp [e, x, q]
    obtain ⟨o1, o2⟩ := k1 (s.go i (.leave true)) true (by simp [St.go, upd]) m x
    exact ⟨[.call i true, .call i true], by simp, by simpa [hs, St.go] using o1, by simpa [hs, St.go] using o2⟩
  -- from `send`
  have k3 : ∀ (s : St), Inv s → s.pc i = .send → s.commOpen = true → s.mutexes = true → s.context = true →
      ∃ l : List Act, (∀ a ∈ l, a = .task ∨ ∃ ok, a = .call i ok) ∧ (l.foldl step s).owner = none ∧
        (l.foldl step s).main = s.main := by
    intro s h e c m x
    have q : s.queue = true := by
      cases hq : s.queue with
      | true => rfl
      | false => exact absurd e (h.use hq i).1
    have hs : step s (.call i true) = { s.go i .wait with sent := upd s.sent i (s.sent i + 1) } := by
      simp only [step]; unfold callStep; simp [e, x, c]
    obtain ⟨l, hl, ho, hmn⟩ := k2 { s.go i .wait with sent := upd s.sent i (s.sent i + 1) } (by simp [St.go, upd]) m x q
    refine ⟨.call i true :: l, by simpa using hl, by simpa [hs, St.go] using ho, by simpa [hs, St.go] using hmn⟩
  -- from `testComm` with the handle gone
  have k4 : ∀ (s : St), s.pc i = .testComm → s.commNull = true → s.mutexes = true → s.context = true →
      ∃ l : List Act, (∀ a ∈ l, a = .task ∨ ∃ ok, a = .call i ok) ∧ (l.foldl step s).owner = none ∧
        (l.foldl step s).main = s.main := by
    intro s e c m x
    have hs : step s (.call i true) = s.go i (.leave false) := by simp only [step]; unfold callStep; simp [e, x, m, c]
    obtain ⟨o1, o2⟩ := k1 (s.go i (.leave false)) false (by simp [St.go, upd]) m x
    exact ⟨[.call i true, .call i true], by simp, by simpa [hs, St.go] using o1, by simpa [hs, St.go] using o2⟩
  rcases hp with e | e | e | ⟨r, e⟩
  · cases hn : s.commNull with
    | true => exact k4 s e hn hm hx
    | false =>
      cases hco : s.commOpen with
      | true =>
        have hs : step s (.call i true) = s.go i .send := by simp only [step]; unfold callStep; simp [e, hx, hm, hn]
        have hi := inv_step h (.call i true)
        rw [hs] at hi
        obtain ⟨l, hl, ho, hmn⟩ := k3 _ hi (by simp [St.go, upd]) hco hm hx
        exact ⟨.call i true :: l, by simpa using hl, by simpa [hs, St.go] using ho, by simpa [hs, St.go] using hmn⟩
      | false =>
        have ht : s.task = .clear := by
          have b1 := h.nul.mp hn
          have b2 := h.com
          rcases b1 with e' | e' | e' <;> simp_all
        have hs : step s .task = { s with task := .callback1, commNull := true } := by simp [step, taskStep, ht]
        obtain ⟨l, hl, ho, hmn⟩ := k4 { s with task := .callback1, commNull := true } e rfl hm hx
        exact ⟨.task :: l, by simpa using hl, by simpa [hs, St.go] using ho, by simpa [hs, St.go] using hmn⟩
  · exact k3 s h e (hc e) hm hx
  · have q : s.queue = true := by
      cases hq : s.queue with
      | true => rfl
      | false => exact absurd e (h.use hq i).2
    exact k2 s e hm hx q
  · obtain ⟨o1, o2⟩ := k1 s r e hm hx
    exact ⟨[.call i true], by simp, o1, o2⟩

end Cellular.Close

namespace Cellular.Props
open Close Spec

/-! ## C81 -/

/-- C81: a call that begins after `Cellular_Cleanup` has begun sends nothing to the modem and does not return success, whatever
the schedule (also when it passes the status checks, see `C81_witness_check_passes`). -/
theorem C81_late_call_refused (l l' : List Act) (i : Nat) (hc : (run l).main ≠ .inUse) (hi : (run l).pc i = .idle) :
    (run (l ++ l')).sent i = (run l).sent i ∧ (run (l ++ l')).won i = (run l).won i := by
  have := late_foldl l' (inv_run l) i ⟨hc, Or.inl hi⟩
  rw [run, List.foldl_append]
  exact this.2

/-- C81: once `Cellular_Cleanup` has begun, every task sends at most one more command (that of the call it is in). -/
theorem C81_at_most_one_more (l l' : List Act) (i : Nat) (hc : (run l).main ≠ .inUse) :
    (run (l ++ l')).sent i ≤ (run l).sent i + 1 := by
  have key : ∀ (l' : List Act) (s : St), Close.Inv s → OneMore ((run l).sent i) s i →
      OneMore ((run l).sent i) (l'.foldl step s) i := by
    intro l'
    induction l' with
    | nil => exact fun s _ h => h
    | cons a t ih => exact fun s hi h => ih _ (inv_step hi a) (oneMore_step hi i h a)
  have := key l' (run l) (inv_run l) ⟨hc, Or.inl rfl⟩
  rw [run, List.foldl_append]
  rcases this.2 with e | ⟨e, _⟩
  · exact Nat.le_succ_of_le (Nat.le_of_eq e)
  · exact Nat.le_of_eq e

/-- C81: `Cellular_Cleanup` waits for the request in progress: in every schedule, the response queue is gone only when no task is
sending or waiting for an answer, and no task ever uses the deleted queue. -/
theorem C81_queue_safe (l : List Act) :
    ((run l).queue = false → ∀ i, (run l).pc i ≠ .send ∧ (run l).pc i ≠ .wait) ∧ ∀ i, .queue i ∉ (run l).bad :=
  ⟨(inv_run l).use, no_queue_bad l inv_init (by simp)⟩

/-- C81: at most one task is in a request at any time, also during the cleanup, and none while the queue is being deleted. -/
theorem C81_one_request (l : List Act) (i j : Nat) (hi : InRequest ((run l).pc i)) :
    (InRequest ((run l).pc j) → j = i) ∧ (run l).main ≠ .delQueue := by
  have h := inv_run l
  have h1 := h.own1 i hi
  refine ⟨fun hj => ?_, fun hm => ?_⟩
  · have h2 := h.own1 j hj
    rw [h1] at h2
    simpa using h2.symm
  · have := h.own3.mpr hm
    rw [h1] at this
    simp at this

/-- C81: if all calls have returned when `Cellular_Cleanup` is called and none begins later, no call uses anything that is gone.
What remains is the receive task's last read of the context (C37). -/
theorem C81_safe_if_joined (l : List Act) (h : JoinedBefore l {}) : ∀ b ∈ (run l).bad, b = .taskContext :=
  joinedBefore_bad l inv_init h (by simp)

/-- C81, what is true of calls that overlap the cleanup.  If no call is going on any more when the mutexes are destroyed, the
only violation left to a call is that it gives its command to the transport that the receive task has just closed.
MISSING: that case, and calls going on longer (witnesses below). -/
theorem C81_overlap_partial (l : List Act) (h : JoinedLate l {}) :
    ∀ b ∈ (run l).bad, b = .taskContext ∨ ∃ i, b = .transport i :=
  joinedLate_bad l inv_init h (by simp)

/-- C81: once `Cellular_Cleanup` is past the wait for the receive task, that task ends within one more step of its own (the second call of the
shutdown callback) and does nothing after that, and the transport is closed by then. -/
theorem C81_task_ends (l : List Act) (h : (run l).main = .delEvent ∨ (run l).main = .lockReq ∨ (run l).main = .delQueue ∨ (run l).queue = false) :
    (run l).commOpen = false ∧ (step (run l) .task).task = .ended ∧ step (step (run l) .task) .task = step (run l) .task := by
  have I := inv_run l
  have ht := I.abt (.inr h)
  have hc : (run l).commOpen = false := by
    cases hb : (run l).commOpen with
    | false => rfl
    | true => rcases I.com.mp hb with e | e <;> rcases ht with e' | e' <;> rw [e] at e' <;> cases e'
  have hs : (step (run l) .task).task = .ended := by
    rcases ht with e | e
    · simp only [step, taskStep, e]
      split <;> rfl
    · simp only [step, taskStep, e]
  refine ⟨hc, hs, ?_⟩
  show taskStep (step (run l) .task) = _
  unfold taskStep
  rw [hs]

example : (run [.main, .main, .task, .task, .task, .task, .task, .main]).main = .delEvent := by decide +kernel

/-- C81: a request in progress is no deadlock.  Whatever has happened, as long as no task has been caught by the closing of the
transport, `Cellular_Cleanup` can end by steps of itself, the receive task and the task that holds the request mutex alone. -/
theorem C81_cleanup_can_return (l : List Act) (hm : (run l).main ≠ .inUse)
    (hc : ∀ i, (run l).pc i ≠ .crashed ∧ ((run l).pc i = .send → (run l).commOpen = true)) :
    ∃ l' : List Act, (∀ a ∈ l', a = .main ∨ a = .task ∨ ∃ i ok, a = .call i ok ∧ (run l).owner = some (.call i)) ∧
      (run (l ++ l')).main = .returned := by
  have h := inv_run l
  have hg : Going (run l) := going_foldl l (by simp [Going])
  have key : ∀ s, Close.Inv s → Going s → s.main ≠ .inUse → Free s → ∃ l' : List Act, (∀ a ∈ l', a = .main ∨ a = .task) ∧
      (l'.foldl step s).main = .returned := fun s a b c d => free_returns _ (Nat.le_refl _) a b c d
  by_cases hf : Free (run l)
  · obtain ⟨l', h1, h2⟩ := key _ h hg hm hf
    refine ⟨l', fun a ha => ?_, by rw [run, List.foldl_append]; exact h2⟩
    rcases h1 a ha with e | e
    · exact Or.inl e
    · exact Or.inr (Or.inl e)
  · simp only [Free, not_or] at hf
    obtain ⟨f1, f2, f3⟩ := hf
    cases ho : (run l).owner with
    | none => exact absurd ho f1
    | some w =>
      cases w with
      | cleanup => exact absurd (h.own3.mp ho) f2
      | call i =>
        have hp : InRequest ((run l).pc i) := (h.own2 i ho).resolve_right (hc i).1
        have hq : ¬ ((run l).main = .reset ∨ (run l).main = .destroy ∨ (run l).main = .free ∨ (run l).main = .returned) :=
          fun e => f3 (h.que.mpr e)
        simp only [not_or] at hq
        have hmu : (run l).mutexes = true := by
          cases e : (run l).mutexes with
          | true => rfl
          | false => rcases h.mtx.mp e with e | e <;> simp_all
        have hcx : (run l).context = true := by
          cases e : (run l).context with
          | true => rfl
          | false => have := h.ctx.mp e; simp_all
        obtain ⟨l1, h1, h2, h3⟩ := owner_leaves h i hp (hc i).2 hmu hcx
        obtain ⟨l2, g1, g2⟩ := key _ (inv_foldl l1 h) (going_foldl l1 hg) (by rw [h3]; exact hm) (Or.inl h2)
        refine ⟨l1 ++ l2, fun a ha => ?_, by rw [run, List.foldl_append, List.foldl_append]; exact g2⟩
        rcases List.mem_append.mp ha with ha | ha
        · rcases h1 a ha with e | ⟨ok, e⟩
          · exact Or.inr (Or.inl e)
          · exact Or.inr (Or.inr ⟨i, ok, e, by simp⟩)
        · rcases g1 a ha with e | e
          · exact Or.inl e
          · exact Or.inr (Or.inl e)

/-- C81 is false of the code: a task has passed the status checks and is about to make its request when another cleans up; the
context is freed before it takes the request mutex, which is part of the context. -/
theorem C81_witness_use_after_free :
    ∃ l, (run l).main = .returned ∧ .context 0 ∈ (run l).bad ∧ (run l).won 0 = 0 :=
  ⟨[.call 0 true, .call 0 true, .call 0 true, .main, .main, .task, .task, .task, .task, .task, .main, .main, .main, .main, .main,
    .main, .main, .call 0 true], by decide +kernel, by decide +kernel, by decide +kernel⟩

/-- ... the status checks themselves do not protect the call: a call can pass both after `libClose` is finished. -/
theorem C81_witness_check_passes :
    ∃ l l', (run l).main ≠ .inUse ∧ (run l).pc 0 = .idle ∧ (run (l ++ l')).main = .destroy ∧ (run (l ++ l')).pc 0 = .lock :=
  ⟨[.main], [.call 0 true, .call 0 true, .main, .task, .task, .task, .task, .task, .task, .main, .main, .main, .main, .main,
    .call 0 true], by decide +kernel, by decide +kernel, by decide +kernel, by decide +kernel⟩

/-- ... and a call that found the transport open gives its command to the closed transport. -/
theorem C81_witness_closed_transport : ∃ l, (run l).context = true ∧ (run l).bad = [.transport 0] :=
  ⟨[.call 0 true, .call 0 true, .call 0 true, .call 0 true, .call 0 true, .main, .main, .task, .task, .call 0 true],
    by decide +kernel, by decide +kernel⟩

/-- C81, false: no call is made at all, and yet the receive task uses the context after it has been freed: the cleanup is told that the
task has ended before the task's last call of the shutdown callback. -/
theorem C81_witness_task_after_free : ∃ l, (∀ i ok, .call i ok ∉ l) ∧ (run l).main = .returned ∧ (run l).bad = [.taskContext] :=
  ⟨[.main, .main, .task, .task, .task, .task, .task, .main, .main, .main, .main, .main, .main, .main, .task],
    by simp, by decide +kernel, by decide +kernel⟩

/-- Calls work before the cleanup: two tasks send one command each, one succeeds, and a third call after the beginning of
the cleanup is refused. -/
example : ∃ l, (run l).sent 0 = 1 ∧ (run l).sent 1 = 1 ∧ (run l).won 0 = 1 ∧ (run l).main ≠ .inUse ∧ (run l).pc 0 = .idle ∧
    (run (l ++ [.call 0 true, .call 0 true, .call 0 true])).pc 0 = .idle :=
  ⟨[.call 0 true, .call 0 true, .call 0 true, .call 0 true, .call 0 true, .call 0 true, .call 1 true, .call 0 true, .call 0 true,
    .call 1 true, .call 1 true, .call 1 true, .call 1 true, .call 1 true, .main], by decide +kernel, by decide +kernel,
    by decide +kernel, by decide +kernel, by decide +kernel, by decide +kernel⟩

/-- The rules can be kept: a call returns, then the library is cleaned up completely. -/
example : ∃ l : List Act, JoinedBefore l {} ∧ (run l).sent 0 = 1 ∧ (run l).main = .returned :=
  ⟨[.call 0 true, .call 0 true, .call 0 true, .call 0 true, .call 0 true, .call 0 true, .call 0 true, .call 0 true, .main, .main,
    .task, .task, .task, .task, .task, .main, .main, .main, .main, .main, .main, .main], by simp [JoinedBefore, step, callStep,
      mainStep, taskStep, St.go, upd], by decide +kernel, by decide +kernel⟩

/-- A request is pending when the cleanup begins: the hypotheses of `C81_cleanup_can_return` are met. -/
example : ∃ l : List Act, (run l).main = .lockReq ∧ (run l).pc 0 = .wait ∧ (run l).owner = some (.call 0) :=
  ⟨[.call 0 true, .call 0 true, .call 0 true, .call 0 true, .call 0 true, .call 0 true, .main, .main, .task, .task, .task, .task,
    .task, .main, .main], by decide +kernel, by decide +kernel, by decide +kernel⟩

end Cellular.Props
