import Verif.Locks
/-!
# C69: no deadlock between library calls, the receive task and the callbacks
-/

namespace Cellular.Locks
open Code

/-- The lock discipline of a skeleton entered with the mutexes `h` held. -/
def Code.safe : Code → List Lk → Bool
  | .skip, _ => true
  | .step, _ => true
  | .seq c d, h => c.safe h && d.safe h
  | .alt c d, h => c.safe h && d.safe h
  | .star c, h => c.safe h
  | .locked l c, h => h.all (fun k => rank k < rank l) && c.safe (l :: h)

/-- The lock discipline of a task. -/
def Ok : List Lk → List Act → Prop
  | h, [] => h = []
  | h, .lock l :: r => (∀ k ∈ h, rank k < rank l) ∧ Ok (l :: h) r
  | h, .unlock l :: r => Ok (h.erase l) r
  | h, .signal _ :: r => Ok h r
  | h, .await f :: r => (h = [] ∨ f = .up) ∧ Ok h r
  | h, .step :: r => Ok h r

/-- Signals and waits of a task: what it waits for before it signals `f` comes before `f`. -/
def FOk : List Act → Prop
  | [] => True
  | .await g :: r => (∀ f, Act.signal f ∈ r → frank g < frank f) ∧ Act.signal .up ∉ r ∧ FOk r
  | .signal f :: r => Act.signal .up ∉ r ∧ FOk r
  | _ :: r => Act.signal .up ∉ r ∧ FOk r

/-- No signalling action. -/
def Plain (t : List Act) : Prop := ∀ a ∈ t, ∀ f, a ≠ .signal f ∧ a ≠ .await f

theorem plain_of_trace {c : Code} {t : List Act} (h : Trace c t) : Plain t := by
  induction h with
  | skip => intro a ha; simp at ha
  | step => intro a ha f; simp at ha; subst ha; simp
  | seq _ _ ih1 ih2 =>
    intro a ha f; rcases List.mem_append.mp ha with h | h
    · exact ih1 a h f
    · exact ih2 a h f
  | altL _ ih => exact ih
  | altR _ ih => exact ih
  | starNil => intro a ha; simp at ha
  | starCons _ _ ih1 ih2 =>
    intro a ha f; rcases List.mem_append.mp ha with h | h
    · exact ih1 a h f
    · exact ih2 a h f
  | locked _ ih =>
    intro a ha f
    simp only [List.mem_cons, List.mem_append, List.not_mem_nil, or_false] at ha
    rcases ha with rfl | h | rfl
    · simp
    · exact ih a h f
    · simp

/-- The discipline of a skeleton gives the discipline of its runs. -/
theorem ok_of_trace {c : Code} {t : List Act} (ht : Trace c t) :
    ∀ (h : List Lk) (rest : List Act), c.safe h = true → Ok h rest → Ok h (t ++ rest) := by
  induction ht with
  | skip => intro h rest _ hr; exact hr
  | step => intro h rest _ hr; exact hr
  | seq _ _ ih1 ih2 =>
    intro h rest hs hr
    simp only [Code.safe, Bool.and_eq_true] at hs
    rw [List.append_assoc]
    exact ih1 h _ hs.1 (ih2 h rest hs.2 hr)
  | altL _ ih => intro h rest hs hr; simp only [Code.safe, Bool.and_eq_true] at hs; exact ih h rest hs.1 hr
  | altR _ ih => intro h rest hs hr; simp only [Code.safe, Bool.and_eq_true] at hs; exact ih h rest hs.2 hr
  | starNil => intro h rest _ hr; exact hr
  | starCons _ _ ih1 ih2 =>
    intro h rest hs hr
    rw [List.append_assoc]
    exact ih1 h _ hs (ih2 h rest hs hr)
  | @locked l c s _ ih =>
    intro h rest hs hr
    simp only [Code.safe, Bool.and_eq_true, List.all_eq_true, decide_eq_true_eq] at hs
    rw [List.cons_append, List.append_assoc]
    refine ⟨hs.1, ih (l :: h) _ hs.2 ?_⟩
    simpa [Ok] using hr

theorem fok_plain : ∀ (t : List Act) (rest : List Act), Plain t → Act.signal .up ∉ rest → FOk rest → FOk (t ++ rest)
  | [], rest, _, _, hr => hr
  | a :: t, rest, hp, hu, hr => by
    have h2 := fok_plain t rest (fun b hb => hp b (List.mem_cons_of_mem _ hb)) hu hr
    have hno : Act.signal .up ∉ t ++ rest := by
      intro hm
      rcases List.mem_append.mp hm with h | h
      · exact (hp _ (List.mem_cons_of_mem _ h) .up).1 rfl
      · exact hu h
    cases a with
    | signal f => exact absurd rfl (hp _ (List.mem_cons_self ..) f).1
    | await f => exact absurd rfl (hp _ (List.mem_cons_self ..) f).2
    | lock l => exact ⟨hno, h2⟩
    | unlock l => exact ⟨hno, h2⟩
    | step => exact ⟨hno, h2⟩

/-- What every reachable state satisfies. -/
structure Good (s : Sys) : Prop where
  ok : ∀ t ∈ s.tasks, Ok t.held t.todo
  fok : ∀ t ∈ s.tasks, FOk t.todo
  sig : ∀ f, f ∈ s.flags ∨ (∃ t ∈ s.tasks, Act.signal f ∈ t.todo) ∨ ∀ t ∈ s.tasks, Act.await f ∉ t.todo

theorem mem_of_get {s : Sys} {i : Nat} {t : Task} (h : s.tasks[i]? = some t) : t ∈ s.tasks :=
  List.mem_of_getElem? h

theorem FOk.tail {a : Act} {r : List Act} (h : FOk (a :: r)) : FOk r := by
  cases a with
  | lock l => exact h.2
  | unlock l => exact h.2
  | signal f => exact h.2
  | await f => exact h.2.2
  | step => exact h.2

theorem good_set {s : Sys} {i : Nat} {h : List Lk} {a : Act} {r : List Act} (g : Good s)
    (hi : s.tasks[i]? = some ⟨h, a :: r⟩) {h' : List Lk} {fl : List Flag} (hok : Ok h' r)
    (hfl : ∀ f ∈ s.flags, f ∈ fl) (ha : ∀ f, a = .signal f → f ∈ fl) :
    Good { tasks := s.tasks.set i ⟨h', r⟩, flags := fl } := by
  have hmem : ∀ t ∈ s.tasks.set i ⟨h', r⟩, t ∈ s.tasks ∨ t = ⟨h', r⟩ := fun t ht => List.mem_or_eq_of_mem_set ht
  have hlt : i < s.tasks.length := by
    rcases Nat.lt_or_ge i s.tasks.length with h | h
    · exact h
    · rw [List.getElem?_eq_none h] at hi; exact absurd hi (by simp)
  refine ⟨?_, ?_, ?_⟩
  · intro t ht
    rcases hmem t ht with h1 | rfl
    · exact g.ok t h1
    · exact hok
  · intro t ht
    rcases hmem t ht with h1 | rfl
    · exact g.fok t h1
    · exact (g.fok _ (mem_of_get hi)).tail
  · intro f
    rcases g.sig f with h1 | ⟨t, h1, h2⟩ | h1
    · exact .inl (hfl f h1)
    · by_cases hta : f ∈ fl
      · exact .inl hta
      · refine .inr (.inl ?_)
        obtain ⟨j, hj⟩ := List.mem_iff_getElem?.mp h1
        by_cases hij : j = i
        · subst hij
          rw [hi] at hj; injection hj with hj; subst hj
          refine ⟨⟨h', r⟩, List.mem_set hlt _, ?_⟩
          rcases List.mem_cons.mp h2 with h3 | h3
          · exact absurd (ha f h3.symm) hta
          · exact h3
        · refine ⟨t, ?_, h2⟩
          exact List.mem_of_getElem? (i := j) (by rw [List.getElem?_set_ne (Ne.symm hij)]; exact hj)
    · refine .inr (.inr ?_)
      intro t ht
      rcases hmem t ht with h2 | rfl
      · exact h1 t h2
      · intro hm
        exact h1 _ (mem_of_get hi) (List.mem_cons_of_mem _ hm)

theorem good_step {s u : Sys} {i : Nat} (g : Good s) (h : Step i s u) : Good u := by
  cases h with
  | lock hi hf => exact good_set g hi (g.ok _ (mem_of_get hi)).2 (fun _ h => h) (by simp)
  | unlock hi => exact good_set g hi (g.ok _ (mem_of_get hi)) (fun _ h => h) (by simp)
  | signal hi =>
    exact good_set g hi (g.ok _ (mem_of_get hi)) (fun _ h => List.mem_cons_of_mem _ h) (by simp)
  | await hi hf => exact good_set g hi (g.ok _ (mem_of_get hi)).2 (fun _ h => h) (by simp)
  | step hi => exact good_set g hi (g.ok _ (mem_of_get hi)) (fun _ h => h) (by simp)

theorem good_run {s u : Sys} {n : Nat} (g : Good s) (h : Run s n u) : Good u := by
  induction h with
  | nil => exact g
  | snoc _ hs ih => exact good_step ih hs

/-- Someone can go on. -/
def CanStep (s : Sys) : Prop := ∃ i u, Step i s u

theorem rank_lt : ∀ l, rank l < 4 := by intro l; cases l <;> decide

theorem frank_signal {a : List Act} {g : Flag} {f : Flag} (h : FOk (.await g :: a)) (hm : Act.signal f ∈ a) :
    frank g < frank f := h.1 f hm

/-- A task that waits for a flag nobody has raised: someone can go on. -/
theorem await_progress {s : Sys} (g : Good s) (hlock : ∀ t ∈ s.tasks, ∀ l r, t.todo ≠ .lock l :: r)
    (n : Nat) : ∀ t ∈ s.tasks, ∀ f r, t.todo = .await f :: r → frank f = n → CanStep s := by
  induction n using Nat.strongRecOn with
  | _ n ih =>
    intro t ht f r htodo hn
    obtain ⟨i, hi⟩ := List.mem_iff_getElem?.mp ht
    obtain ⟨h, td⟩ := t
    simp only at htodo; subst htodo
    by_cases hf : f ∈ s.flags
    · exact ⟨i, _, .await hi hf⟩
    · rcases g.sig f with h1 | ⟨u, hu, hsig⟩ | h1
      · exact absurd h1 hf
      · obtain ⟨j, hj⟩ := List.mem_iff_getElem?.mp hu
        obtain ⟨hu', tdu⟩ := u
        cases tdu with
        | nil => simp at hsig
        | cons a ru =>
          cases a with
          | lock l => exact absurd rfl (hlock _ hu l ru)
          | unlock l => exact ⟨j, _, .unlock hj⟩
          | signal f' => exact ⟨j, _, .signal hj⟩
          | step => exact ⟨j, _, .step hj⟩
          | await f' =>
            have hm : Act.signal f ∈ ru := by
              rcases List.mem_cons.mp hsig with h | h
              · exact absurd h (by simp)
              · exact h
            have := frank_signal (g.fok _ hu) hm
            exact ih (frank f') (by omega) _ hu f' ru rfl rfl
      · exact absurd (List.mem_cons_self ..) (h1 _ ht)

/-- A task that waits for a mutex: someone can go on. -/
theorem lock_progress {s : Sys} (g : Good s) (n : Nat) :
    ∀ t ∈ s.tasks, ∀ l r, t.todo = .lock l :: r → 4 - rank l = n → CanStep s := by
  induction n using Nat.strongRecOn with
  | _ n ih =>
    intro t ht l r htodo hn
    obtain ⟨i, hi⟩ := List.mem_iff_getElem?.mp ht
    obtain ⟨h, td⟩ := t
    simp only at htodo; subst htodo
    by_cases hfree : Free s l
    · exact ⟨i, _, .lock hi hfree⟩
    · simp only [Free, Classical.not_forall, Classical.not_not] at hfree
      obtain ⟨o, ho, hl⟩ := hfree
      obtain ⟨j, hj⟩ := List.mem_iff_getElem?.mp ho
      obtain ⟨ho', tdo⟩ := o
      have hok := g.ok _ ho
      cases tdo with
      | nil => simp only [Ok] at hok; simp only at hl; rw [hok] at hl; simp at hl
      | cons a ro =>
        cases a with
        | unlock l => exact ⟨j, _, .unlock hj⟩
        | signal f' => exact ⟨j, _, .signal hj⟩
        | step => exact ⟨j, _, .step hj⟩
        | lock l' =>
          have h1 : rank l < rank l' := hok.1 l hl
          have h2 := rank_lt l'
          exact ih (4 - rank l') (by omega) _ ho l' ro rfl rfl
        | await f =>
          rcases hok.1 with h1 | h1
          · simp only at hl h1; rw [h1] at hl; simp at hl
          · subst h1
            by_cases hf : Flag.up ∈ s.flags
            · exact ⟨j, _, .await hj hf⟩
            · rcases g.sig .up with h1 | ⟨u, hu, hsig⟩ | h1
              · exact absurd h1 hf
              · obtain ⟨k, hk⟩ := List.mem_iff_getElem?.mp hu
                obtain ⟨hu', tdu⟩ := u
                cases tdu with
                | nil => simp at hsig
                | cons a ru =>
                  have hfk := g.fok _ hu
                  rcases List.mem_cons.mp hsig with h | h
                  · subst h; exact ⟨k, _, .signal hk⟩
                  · cases a with
                    | lock l => exact absurd h hfk.1
                    | unlock l => exact absurd h hfk.1
                    | signal f => exact absurd h hfk.1
                    | step => exact absurd h hfk.1
                    | await f => exact absurd h hfk.2.1
              · exact absurd (List.mem_cons_self ..) (h1 _ ho)

/-- As long as some task has something to do, some task can go on. -/
theorem good_progress {s : Sys} (g : Good s) (hnf : ¬ Finished s) : CanStep s := by
  simp only [Finished, Classical.not_forall] at hnf
  obtain ⟨t, ht, htodo⟩ := hnf
  by_cases hlock : ∀ t ∈ s.tasks, ∀ l r, t.todo ≠ .lock l :: r
  · obtain ⟨i, hi⟩ := List.mem_iff_getElem?.mp ht
    obtain ⟨h, td⟩ := t
    cases td with
    | nil => exact absurd rfl htodo
    | cons a r =>
      cases a with
      | lock l => exact absurd rfl (hlock _ ht l r)
      | unlock l => exact ⟨i, _, .unlock hi⟩
      | signal f => exact ⟨i, _, .signal hi⟩
      | step => exact ⟨i, _, .step hi⟩
      | await f => exact await_progress g hlock _ _ ht f r rfl rfl
  · simp only [Classical.not_forall, Classical.not_not] at hlock
    obtain ⟨u, hu, l, r, h⟩ := hlock
    exact lock_progress g _ u hu l r h rfl

/-- Actions still to be done. -/
def left (s : Sys) : Nat := (s.tasks.map (fun t => t.todo.length)).sum

theorem sum_set (ts : List Task) : ∀ (i : Nat) (h h' : List Lk) (a : Act) (r : List Act),
    ts[i]? = some ⟨h, a :: r⟩ →
    (ts.map (fun t => t.todo.length)).sum = ((ts.set i ⟨h', r⟩).map (fun t => t.todo.length)).sum + 1 := by
  induction ts with
  | nil => intro i h h' a r hi; simp at hi
  | cons t ts ih =>
    intro i h h' a r hi
    cases i with
    | zero =>
      simp only [List.getElem?_cons_zero, Option.some.injEq] at hi
      subst hi
      simp; omega
    | succ i =>
      simp only [List.getElem?_cons_succ] at hi
      have := ih i h h' a r hi
      simp only [List.map_cons, List.sum_cons, List.set_cons_succ, this]
      omega

theorem left_step {s u : Sys} {i : Nat} (h : Step i s u) : left s = left u + 1 := by
  cases h with
  | lock hi _ => exact sum_set _ _ _ _ _ _ hi
  | unlock hi => exact sum_set _ _ _ _ _ _ hi
  | signal hi => exact sum_set _ _ _ _ _ _ hi
  | await hi _ => exact sum_set _ _ _ _ _ _ hi
  | step hi => exact sum_set _ _ _ _ _ _ hi

theorem left_run {s u : Sys} {n : Nat} (h : Run s n u) : left s = left u + n := by
  induction h with
  | nil => rfl
  | snoc _ hs ih => rw [ih, left_step hs]; omega

/-! ## The skeletons keep the discipline -/

theorem api_safe : ∀ c ∈ apiCalls, c.safe [] = true := by decide

theorem api_noReg_safe : ∀ c ∈ apiCallsNoReg, c.safe [.atData] = true := by decide

theorem oneOf_safe (h : List Lk) : ∀ cs : List Code, (∀ c ∈ cs, c.safe h = true) → (oneOf cs).safe h = true
  | [], _ => rfl
  | [c], hc => hc c (List.mem_cons_self ..)
  | c :: d :: cs, hc => by
    simp only [oneOf, Code.safe, Bool.and_eq_true]
    exact ⟨hc c (List.mem_cons_self ..), oneOf_safe h (d :: cs) (fun e he => hc e (List.mem_cons_of_mem _ he))⟩

/-- What is asked of the code called by the receive task. -/
structure Polite (cb : Callbacks) : Prop where
  netReg : cb.netReg.safe [.atData] = true
  other : cb.other.safe [] = true
  input : cb.input.safe [.resp] = true

theorem rx_safe {cb : Callbacks} (hc : Polite cb) : (handleAllReceived cb).safe [] = true := by
  have h1 := hc.netReg
  have h2 := hc.other
  have h3 := hc.input
  simp [handleAllReceived, preprocessInput, preprocessLine, getMsgType, handleMsgType, handlePacket, processLine,
    recvNetworkReg, urcReg, opt, oneOf, Code.safe, h1, h2, h3]

end Cellular.Locks

namespace Cellular.Props
open Cellular.Locks Code

/-- A program of an application task: any sequence of calls. -/
def Calls (t : List Act) : Prop := Trace (star (oneOf apiCalls)) t

/-- What the receive task does for the data it gets, with the given callbacks. -/
def Receives (cb : Callbacks) (t : List Act) : Prop := Trace (star (handleAllReceived cb)) t

theorem calls_ok {t : List Act} (h : Calls t) (rest : List Act) (hr : Ok [] rest) : Ok [] (t ++ rest) :=
  ok_of_trace h [] rest (oneOf_safe [] apiCalls api_safe) hr

theorem plain_no {t : List Act} (h : Plain t) (f : Flag) : Act.signal f ∉ t ∧ Act.await f ∉ t :=
  ⟨fun hm => (h _ hm f).1 rfl, fun hm => (h _ hm f).2 rfl⟩

theorem life_good {cb : Callbacks} (hc : Polite cb) {main msgs : List Act} {users : List (List Act)}
    (hm : Calls main) (hr : Receives cb msgs) (hu : ∀ u ∈ users, Calls u) : Good (life main msgs users) := by
  have pm := plain_of_trace hm
  have pr := plain_of_trace hr
  refine ⟨?_, ?_, ?_⟩
  · intro t ht
    simp only [life, List.mem_cons, List.mem_map] at ht
    rcases ht with rfl | rfl | ⟨u, h, rfl⟩
    · refine ⟨.inr rfl, ?_⟩
      exact calls_ok hm _ (by simp [Ok])
    · exact ok_of_trace hr [] _ (rx_safe hc) (by simp [Ok])
    · have := calls_ok (hu u h) [] rfl
      rw [List.append_nil] at this
      exact ⟨.inl rfl, this⟩
  · intro t ht
    simp only [life, List.mem_cons, List.mem_map] at ht
    rcases ht with rfl | rfl | ⟨u, h, rfl⟩
    · have hf : FOk (main ++ [.lock .lib, .unlock .lib, .signal .abort, .await .aborted, .lock .req, .unlock .req,
          .lock .lib, .unlock .lib]) := fok_plain _ _ pm (by simp) (by simp [FOk])
      have n1 := (plain_no pm .up).1
      refine ⟨?_, by simp [n1], ⟨by simp [n1], ⟨by simp [n1], hf⟩⟩⟩
      intro f hmem
      rcases List.mem_cons.mp hmem with h | hmem
      · exact absurd h (by simp)
      rcases List.mem_cons.mp hmem with h | hmem
      · injection h with h; subst h; decide
      change Act.signal f ∈ main ++ [.lock .lib, .unlock .lib, .signal .abort, .await .aborted, .lock .req,
        .unlock .req, .lock .lib, .unlock .lib] at hmem
      rcases List.mem_append.mp hmem with h | h
      · exact absurd h (plain_no pm f).1
      · have : f = .abort := by simpa using h
        subst this; decide
    · have hf : FOk (msgs ++ [.await .abort, .signal .aborted]) :=
        fok_plain _ _ pr (by simp) (by simp [FOk, frank])
      exact ⟨by simp [(plain_no pr .up).1], hf⟩
    · have hp := plain_of_trace (hu u h)
      have := fok_plain u [] hp (by simp) trivial
      rw [List.append_nil] at this
      exact ⟨fun f hmem => absurd hmem (plain_no hp f).1, (plain_no hp .up).1, this⟩
  · intro f
    refine .inr (.inl ?_)
    cases f with
    | up => exact ⟨rxTask msgs, by simp [life], by simp [rxTask]⟩
    | opened => exact ⟨mainTask main, by simp [life], by simp [mainTask]⟩
    | abort => exact ⟨mainTask main, by simp [life], by simp [mainTask]⟩
    | aborted => exact ⟨rxTask msgs, by simp [life], by simp [rxTask]⟩

/-- C69: in every state reachable by any schedule of any number of application tasks making any calls, with any data
received and callbacks that keep the discipline, some task can go on until everything has returned: there is no
deadlock on the library's mutexes, from `Cellular_Init` to `Cellular_Cleanup`. -/
theorem C69_no_deadlock {cb : Callbacks} (hc : Polite cb) {main msgs : List Act} {users : List (List Act)}
    (hm : Calls main) (hr : Receives cb msgs) (hu : ∀ u ∈ users, Calls u) {n : Nat} {s : Sys}
    (h : Run (life main msgs users) n s) : Finished s ∨ ∃ i u, Step i s u := by
  by_cases hf : Finished s
  · exact .inl hf
  · exact .inr (good_progress (good_run (life_good hc hm hr hu) h) hf)

/-- C69: no schedule goes on for ever, and a schedule that cannot be continued has let every call return and the
receive task end; no fairness is needed. -/
theorem C69_every_call_returns {cb : Callbacks} (hc : Polite cb) {main msgs : List Act} {users : List (List Act)}
    (hm : Calls main) (hr : Receives cb msgs) (hu : ∀ u ∈ users, Calls u) {n : Nat} {s : Sys}
    (h : Run (life main msgs users) n s) :
    n ≤ left (life main msgs users) ∧ ((∀ i u, ¬ Step i s u) → Finished s) := by
  refine ⟨by have := left_run h; omega, ?_⟩
  intro hno
  rcases C69_no_deadlock hc hm hr hu h with h1 | ⟨i, u, h1⟩
  · exact h1
  · exact absurd h1 (hno i u)

/-- C69: the same when the communication port cannot be opened. -/
theorem C69_failed_open {n : Nat} {s : Sys} (h : Run failedOpen n s) : Finished s ∨ ∃ i u, Step i s u := by
  have g : Good failedOpen := by
    refine ⟨?_, ?_, ?_⟩
    · intro t ht
      simp only [failedOpen, List.mem_cons, List.not_mem_nil, or_false] at ht
      rcases ht with rfl | rfl
      · simp [Ok, rank]
      · simp [Ok]
    · intro t ht
      simp only [failedOpen, List.mem_cons, List.not_mem_nil, or_false] at ht
      rcases ht with rfl | rfl <;> simp [FOk]
    · intro f
      cases f with
      | up => exact .inr (.inl ⟨⟨[], [.signal .up]⟩, by simp [failedOpen], by simp⟩)
      | opened => exact .inr (.inr (by simp [failedOpen]))
      | abort => exact .inr (.inr (by simp [failedOpen]))
      | aborted => exact .inr (.inr (by simp [failedOpen]))
  by_cases hf : Finished s
  · exact .inl hf
  · exact .inr (good_progress (good_run g h) hf)

/-- Which callbacks keep the discipline: a registration-event callback may make any sequence of calls other than
reading the registration state, other callbacks any sequence of calls, the input-buffer callback none that takes a
mutex. -/
theorem C69_allowed_callbacks : Polite ⟨star (oneOf apiCallsNoReg), star (oneOf apiCalls), step⟩ :=
  ⟨oneOf_safe _ _ api_noReg_safe, oneOf_safe _ _ api_safe, rfl⟩

/-! ## Executable schedules (for the examples) -/

instance (s : Sys) (l : Lk) : Decidable (Free s l) := by unfold Free; infer_instance

def stepFn (i : Nat) (s : Sys) : Option Sys :=
  match s.tasks[i]? with
  | some ⟨h, .lock l :: r⟩ => if Free s l then some { s with tasks := s.tasks.set i ⟨l :: h, r⟩ } else none
  | some ⟨h, .unlock l :: r⟩ => some { s with tasks := s.tasks.set i ⟨h.erase l, r⟩ }
  | some ⟨h, .signal f :: r⟩ => some { tasks := s.tasks.set i ⟨h, r⟩, flags := f :: s.flags }
  | some ⟨h, .await f :: r⟩ => if f ∈ s.flags then some { s with tasks := s.tasks.set i ⟨h, r⟩ } else none
  | some ⟨h, .step :: r⟩ => some { s with tasks := s.tasks.set i ⟨h, r⟩ }
  | _ => none

theorem stepFn_sound {i : Nat} {s u : Sys} (h : stepFn i s = some u) : Step i s u := by
  unfold stepFn at h
  split at h
  · rename_i hi
    split at h
    · injection h with h; subst h; exact .lock hi ‹_›
    · exact absurd h (by simp)
  · rename_i hi; injection h with h; subst h; exact .unlock hi
  · rename_i hi; injection h with h; subst h; exact .signal hi
  · rename_i hi
    split at h
    · injection h with h; subst h; exact .await hi ‹_›
    · exact absurd h (by simp)
  · rename_i hi; injection h with h; subst h; exact .step hi
  · exact absurd h (by simp)

def runFn : List Nat → Sys → Option Sys
  | [], s => some s
  | i :: is, s => (stepFn i s).bind (runFn is)

theorem Run.trans_step {s m u : Sys} {i n : Nat} (h1 : Step i s m) (h2 : Run m n u) : Run s (n + 1) u := by
  induction h2 with
  | nil => exact .snoc .nil h1
  | snoc _ hs ih => exact .snoc ih hs

theorem runFn_sound : ∀ (is : List Nat) {s u : Sys}, runFn is s = some u → Run s is.length u
  | [], s, u, h => by simp only [runFn, Option.some.injEq] at h; subst h; exact .nil
  | i :: is, s, u, h => by
    simp only [runFn, Option.bind_eq_some_iff] at h
    obtain ⟨m, h1, h2⟩ := h
    exact Run.trans_step (stepFn_sound h1) (runFn_sound is h2)

/-- A task that waits for a mutex it holds itself never moves again. -/
theorem self_blocked {s u : Sys} {n i : Nat} {h : List Lk} {l : Lk} {r : List Act}
    (hi : s.tasks[i]? = some ⟨h, .lock l :: r⟩) (hl : l ∈ h) (hr : Run s n u) :
    u.tasks[i]? = some ⟨h, .lock l :: r⟩ := by
  induction hr with
  | nil => exact hi
  | @snoc n m j u _ hs ih =>
    have key : ∀ t' : Task, j ≠ i → (m.tasks.set j t')[i]? = some ⟨h, .lock l :: r⟩ := fun t' hne => by
      rw [List.getElem?_set_ne hne]; exact ih
    have hne : j ≠ i := by
      intro hji
      subst hji
      cases hs with
      | lock hi' hf =>
        rw [ih] at hi'; injection hi' with hi'; injection hi' with e1 e2; injection e2 with e2 _
        injection e2 with e2
        subst e2
        exact hf _ (mem_of_get ih) hl
      | unlock hi' => rw [ih] at hi'; simp at hi'
      | signal hi' => rw [ih] at hi'; simp at hi'
      | await hi' _ => rw [ih] at hi'; simp at hi'
      | step hi' => rw [ih] at hi'; simp at hi'
    cases hs with
    | lock _ _ => exact key _ hne
    | unlock _ => exact key _ hne
    | signal _ => exact key _ hne
    | await _ _ => exact key _ hne
    | step _ => exact key _ hne

/-! ## Traces used by the examples -/

/-- `_Cellular_CheckLibraryStatus` on an open library. -/
def checkLibRun : List Act := [.lock .lib, .unlock .lib, .lock .lib, .unlock .lib]

theorem checkLib_run : Trace checkLib checkLibRun :=
  .altR (.seq (s := [.lock .lib, .unlock .lib]) (.locked .skip) (.altR (.locked .skip)))

/-- `_Cellular_GetCurrentRat` on an open library. -/
def ratRun : List Act := checkLibRun ++ [.lock .atData, .unlock .atData]

theorem rat_run : Trace getCurrentRat ratRun := .seq checkLib_run (.altR (.locked .skip))

/-- A registration URC whose event callback does `cbRun`. -/
def regUrcRun (cbRun : List Act) : List Act :=
  [.step, .lock .resp, .unlock .resp, .lock .resp, .unlock .resp, .lock .atData] ++ cbRun ++ [.unlock .atData]

theorem regUrc_run {cb : Callbacks} {t : List Act} (h : Trace cb.netReg t) : Receives cb (regUrcRun t) := by
  have h1 : Trace (urcReg cb) (.lock .atData :: (t ++ [.unlock .atData])) := .altR (.locked (.altR h))
  have h2 : Trace (handlePacket cb) (.lock .atData :: (t ++ [.unlock .atData])) := .altR (.altL h1)
  have h3 : Trace (handleMsgType cb) ((.lock .atData :: (t ++ [.unlock .atData])) ++ ([] ++ [])) :=
    .seq (.altR h2) (.seq (.altL .skip) (.altL .skip))
  have h4 : Trace (preprocessInput cb) [] := .altL .skip
  have h5 : Trace (preprocessLine cb) ([.lock .resp, .unlock .resp] ++ []) := .seq (.locked .skip) (.altL .skip)
  have h6 : Trace (opt (getMsgType ;; handleMsgType cb)) _ := .altR (.seq (.locked .skip) h3)
  have h7 := Trace.seq (c := opt step) (.altR .step) (.starCons (.seq h4 (.seq h5 h6)) .starNil)
  have h8 := Trace.starCons h7 .starNil
  simpa [regUrcRun, Receives, handleAllReceived, getMsgType] using h8

/-- An ordinary life: the callback asks for the model, another task asks for the RAT; all of it ends. -/
example : ∃ cb msgs, Polite cb ∧ Receives cb msgs ∧ Calls ratRun ∧
    (runFn ([1, 0, 0, 0, 2, 2, 2, 2, 2, 1, 1, 1, 1, 1, 1, 1, 1, 1, 1, 1] ++ [2, 2] ++
      List.replicate 3 0 ++ [1, 1] ++ List.replicate 5 0) (life [] msgs [ratRun])).map
        (fun s => decide (∀ t ∈ s.tasks, t.todo = [])) = some true := by
  have hapi : Trace (oneOf apiCalls) ratRun := by
    simp only [apiCalls, oneOf]
    exact .altR (.altR (.altR (.altR (.altR (.altR (.altR (.altR (.altL rat_run))))))))
  refine ⟨⟨checkLib, step, step⟩, regUrcRun checkLibRun, ⟨rfl, rfl, rfl⟩, regUrc_run checkLib_run, ?_, by decide⟩
  have := Trace.starCons hapi .starNil
  rwa [List.append_nil] at this

theorem stepFn_complete {i : Nat} {s u : Sys} (h : Step i s u) : stepFn i s = some u := by
  cases h with
  | lock hi hf => simp [stepFn, hi, hf]
  | unlock hi => simp [stepFn, hi]
  | signal hi => simp [stepFn, hi]
  | await hi hf => simp [stepFn, hi, hf]
  | step hi => simp [stepFn, hi]

/-- Deadlock: no task can go on and some task has not finished. -/
def Deadlocked (s : Sys) : Prop := (∀ i u, ¬ Step i s u) ∧ ¬ Finished s

theorem deadlocked_of {s : Sys} (h1 : ∀ i, i < s.tasks.length → stepFn i s = none)
    (h2 : (s.tasks.any (fun t => t.todo ≠ [])) = true) : Deadlocked s := by
  refine ⟨?_, ?_⟩
  · intro i u hs
    have hc := stepFn_complete hs
    rcases Nat.lt_or_ge i s.tasks.length with h | h
    · rw [h1 i h] at hc; exact absurd hc (by simp)
    · simp [stepFn, List.getElem?_eq_none h] at hc
  · intro hf
    rw [List.any_eq_true] at h2
    obtain ⟨t, ht, h3⟩ := h2
    simp [hf t ht] at h3

/-- C69 fails for a registration-event callback that asks for the registration state (`_Cellular_GetCurrentRat`;
`Cellular_GetServiceStatus` is alike): the callback is called with libAtDataMutex held, the receive task waits for ever
for a mutex it holds itself, and `Cellular_Cleanup` waits for the receive task. -/
theorem C69_witness_callback_deadlock :
    ∃ msgs, Receives ⟨getCurrentRat, step, step⟩ msgs ∧ Calls [] ∧
      ∃ n s, Run (life [] msgs []) n s ∧ Deadlocked s ∧
        (s.tasks[0]?.map (·.todo.head?) = some (some (.await .aborted))) ∧
        s.tasks[1]?.map (fun t => (t.held, t.todo.head?)) = some ([.atData], some (.lock .atData)) := by
  refine ⟨regUrcRun ratRun, regUrc_run rat_run, .starNil, _, _,
    runFn_sound [1, 0, 0, 0, 1, 1, 1, 1, 1, 1, 1, 1, 1, 1, 0, 0, 0] rfl, ?_, rfl, rfl⟩
  exact deadlocked_of (by decide) (by decide)

/-- C69 fails for an input-buffer callback that registers a callback (or makes any other call that takes PktRespMutex):
it is called with that mutex held. -/
theorem C69_witness_input_callback :
    ∃ msgs, Receives ⟨step, step, registerModuleCallback⟩ msgs ∧
      ∃ n s, Run (life [] msgs []) n s ∧ Deadlocked s ∧
        s.tasks[1]?.map (fun t => (t.held, t.todo.head?)) = some ([.resp], some (.lock .resp)) := by
  have h1 : Trace (preprocessInput ⟨step, step, registerModuleCallback⟩) [.lock .resp, .lock .resp, .unlock .resp, .unlock .resp] :=
    .altR (.locked (s := [.lock .resp, .unlock .resp]) (.altR (.locked .skip)))
  have h2 : Trace (preprocessLine ⟨step, step, registerModuleCallback⟩) ([.lock .resp, .unlock .resp] ++ []) :=
    .seq (.locked .skip) (.altL .skip)
  have h3 := Trace.seq (c := opt step) (.altR .step) (.starCons (.seq h1 (.seq h2
    (.altL (d := getMsgType ;; handleMsgType ⟨step, step, registerModuleCallback⟩) .skip))) .starNil)
  have h4 := Trace.starCons h3 .starNil
  refine ⟨_, h4, _, _, runFn_sound [1, 0, 0, 0, 1, 1, 0, 0, 0] rfl, ?_, rfl⟩
  exact deadlocked_of (by decide) (by decide)

/-- C69 fails for a callback that closes the library (`Cellular_Cleanup` in the receive task): it waits for the receive
task, that is for itself.  The receive task is at `signal abort; await aborted` of `_Cellular_PktioShutdown`. -/
theorem C69_witness_cleanup_in_callback (rest : List Act) (s u : Sys) (n : Nat)
    (hrx : s.tasks[1]? = some ⟨[], .await .aborted :: rest⟩) (hfl : Flag.aborted ∉ s.flags)
    (honly : ∀ i t, s.tasks[i]? = some t → i ≠ 1 → Act.signal .aborted ∉ t.todo) (hrun : Run s n u) :
    u.tasks[1]? = some ⟨[], .await .aborted :: rest⟩ ∧ ¬ Finished u := by
  have inv : u.tasks[1]? = some ⟨[], .await .aborted :: rest⟩ ∧ Flag.aborted ∉ u.flags ∧
      ∀ i t, u.tasks[i]? = some t → i ≠ 1 → Act.signal .aborted ∉ t.todo := by
    induction hrun with
    | nil => exact ⟨hrx, hfl, honly⟩
    | @snoc k m j u _ hs ih =>
      obtain ⟨i1, i2, i3⟩ := ih
      have hne : j ≠ 1 := by
        intro hj
        subst hj
        cases hs with
        | lock hi' _ => rw [i1] at hi'; simp at hi'
        | unlock hi' => rw [i1] at hi'; simp at hi'
        | signal hi' => rw [i1] at hi'; simp at hi'
        | await hi' hf =>
          rw [i1] at hi'; simp only [Option.some.injEq, Task.mk.injEq, List.cons.injEq, Act.await.injEq] at hi'
          rw [← hi'.2.1] at hf; exact i2 hf
        | step hi' => rw [i1] at hi'; simp at hi'
      have key : ∀ (h h' : List Lk) (a : Act) (r : List Act), m.tasks[j]? = some ⟨h, a :: r⟩ →
          (m.tasks.set j ⟨h', r⟩)[1]? = some ⟨[], .await .aborted :: rest⟩ ∧
          ∀ i t, (m.tasks.set j ⟨h', r⟩)[i]? = some t → i ≠ 1 → Act.signal .aborted ∉ t.todo := by
        intro h h' a r hj
        refine ⟨by rw [List.getElem?_set_ne hne]; exact i1, ?_⟩
        intro i t hi hi1
        by_cases hij : j = i
        · subst hij
          rw [List.getElem?_set_self (by
            rcases Nat.lt_or_ge j m.tasks.length with h | h
            · exact h
            · rw [List.getElem?_eq_none h] at hj; exact absurd hj (by simp))] at hi
          injection hi with hi; subst hi
          intro hm
          exact i3 j _ hj hi1 (List.mem_cons_of_mem _ hm)
        · rw [List.getElem?_set_ne hij] at hi
          exact i3 i t hi hi1
      cases hs with
      | lock hj _ => exact ⟨(key _ _ _ _ hj).1, i2, (key _ _ _ _ hj).2⟩
      | unlock hj => exact ⟨(key _ _ _ _ hj).1, i2, (key _ _ _ _ hj).2⟩
      | @signal h f r hj =>
        refine ⟨(key _ _ _ _ hj).1, ?_, (key _ _ _ _ hj).2⟩
        intro hm
        rcases List.mem_cons.mp hm with hm | hm
        · subst hm; exact i3 j _ hj hne (List.mem_cons_self ..)
        · exact i2 hm
      | await hj _ => exact ⟨(key _ _ _ _ hj).1, i2, (key _ _ _ _ hj).2⟩
      | step hj => exact ⟨(key _ _ _ _ hj).1, i2, (key _ _ _ _ hj).2⟩
  refine ⟨inv.1, fun hf => ?_⟩
  have := hf _ (mem_of_get inv.1)
  simp at this

/-- Such a state: the receive task has handled a URC whose callback cleans up. -/
example : ∃ n s, Run ⟨[mainTask [], rxTask [.lock .lib, .unlock .lib, .signal .abort, .await .aborted]], []⟩ n s ∧
    s.tasks[1]? = some ⟨[], [.await .aborted, .await .abort, .signal .aborted]⟩ ∧ Flag.aborted ∉ s.flags ∧
    ∀ i t, s.tasks[i]? = some t → i ≠ 1 → Act.signal .aborted ∉ t.todo := by
  refine ⟨7, ⟨[⟨[], [.lock .lib, .unlock .lib, .signal .abort, .await .aborted, .lock .req, .unlock .req, .lock .lib,
    .unlock .lib]⟩, ⟨[], [.await .aborted, .await .abort, .signal .aborted]⟩], [.abort, .opened, .up]⟩,
    runFn_sound [1, 0, 0, 0, 1, 1, 1] rfl, rfl, by decide, ?_⟩
  intro i t hi h1
  match i, hi with
  | 0, hi => simp only [List.getElem?_cons_zero, Option.some.injEq] at hi; subst hi; decide
  | 1, _ => exact absurd rfl h1
  | i + 2, hi => simp at hi

end Cellular.Props
