import Verif.LifecycleProps
/-!
# The receive task: no lost notification (C65), start-up and shutdown end (C66)

Theorems about the schedules of `Verif.Lifecycle` (`hsRun`): the caller, the receive task and the
transport's receive callback move in any order.
-/

namespace Cellular.Props
open Cellular Cellular.Lifecycle

theorem act_snoc_ind {P : List Act → Prop} (h0 : P []) (h1 : ∀ l e, P l → P (l ++ [e])) (l : List Act) : P l := by
  rw [← List.reverse_reverse l]
  induction l.reverse with
  | nil => exact h0
  | cons a t ih => rw [List.reverse_cons]; exact h1 _ _ ih

theorem hs_snoc (l : List Act) (s : Hs) (a : Act) : (l ++ [a]).foldl hsStep s = hsStep (l.foldl hsStep s) a := by
  rw [List.foldl_append]; rfl

/-! ## C65 -/

/-- In the moves `l` made after state `s` the receive task called the transport's `recv` until it reported
no more byte. -/
def DrainedSince (s : Hs) (l : List Act) : Prop :=
  ∃ p q, l = p ++ .thr false :: q ∧ (p.foldl hsStep s).thr = .handleRx

theorem DrainedSince.snoc {s : Hs} {l : List Act} (h : DrainedSince s l) (a : Act) :
    DrainedSince s (l ++ [a]) := by
  obtain ⟨p, q, rfl, h⟩ := h
  exact ⟨p, q ++ [a], by simp, h⟩

/-- What is kept while a notification is not yet served. -/
def NotifyPending (s : Hs) : Prop :=
  s.rx = true ∧ (s.thr = .setStarted ∨ s.thr = .waitEvent) ∨ s.thr = .handleRx ∨
    s.thr = .close ∨ s.thr = .callback1 ∨ s.thr = .setAborted ∨ s.thr = .callback2 ∨ s.thr = .ended

theorem pending_step (s : Hs) (a : Act) (h : NotifyPending s) :
    NotifyPending (hsStep s a) ∨ (a = .thr false ∧ s.thr = .handleRx) := by
  obtain ⟨mn, th, cl, el, st, ab, abd, rx, co, bad⟩ := s
  simp only [NotifyPending] at h
  cases a with
  | main =>
    left
    cases mn <;> simp only [hsStep] <;> (repeat' split) <;> exact h
  | thr ok =>
    cases ok <;> cases th <;> simp only [hsStep, Hs.useCtx, Hs.useEv] <;> (repeat' split) <;> simp_all [NotifyPending]
  | isr =>
    left
    simp only [hsStep]
    (repeat' split) <;> simp only [NotifyPending] <;> first | exact h | (
      rcases h with ⟨_, h⟩ | h
      · exact Or.inl ⟨trivial, h⟩
      · exact Or.inr h)

theorem pending_run (s : Hs) (h : NotifyPending s) (l : List Act) :
    NotifyPending (l.foldl hsStep s) ∨ DrainedSince s l := by
  induction l using act_snoc_ind with
  | h0 => exact Or.inl h
  | h1 l a ih =>
    rcases ih with ih | ih
    · rcases pending_step _ a ih with h' | ⟨rfl, h'⟩
      · exact Or.inl (by rw [hs_snoc]; exact h')
      · exact Or.inr ⟨l, [], rfl, h'⟩
    · exact Or.inr (ih.snoc a)

theorem hsInv_live {s : Hs} (h : HsInv s) (hc : s.commOpen = true) : s.ctxLive = true ∧ s.evLive = true := by
  obtain ⟨mn, th, cl, el, st, ab, abd, rx, co, bad⟩ := s
  obtain ⟨h1, h2, h3, h4, h5⟩ := h
  simp only at hc h1 h2 h3 h4
  have h4 := h4 hc
  constructor
  · cases cl with
    | true => rfl
    | false =>
      have := h3 (Or.inr (Or.inr (Or.inl (h2.mp rfl))))
      rcases this with rfl | rfl <;> simp at h4
  · cases el with
    | true => rfl
    | false =>
      have := h3 (by rcases h1.mp rfl with h | h <;> simp [h])
      rcases this with rfl | rfl <;> simp at h4

/-- No receive notification is lost.  Whenever the transport's receive callback is called (which it is only
while the transport is open), in every schedule before (`l`) and after (`l'`) the call: if the
receive task waits for events again, with no notification left to serve, then it has read from the transport
after the call until the transport reported no more bytes. -/
theorem C65_no_lost_notification (l l' : List Act) (hopen : (hsRun l).commOpen = true)
    (hwait : (hsRun (l ++ [.isr] ++ l')).thr = .waitEvent) (hnone : (hsRun (l ++ [.isr] ++ l')).rx = false) :
    DrainedSince (hsRun (l ++ [.isr])) l' := by
  have hi := hsInv_run l
  obtain ⟨hcl, hel⟩ := hsInv_live hi hopen
  have h4 := hi.2.2.2.1 hopen
  have hp : NotifyPending (hsRun (l ++ [.isr])) := by
    unfold hsRun at hopen hcl hel h4 ⊢
    rw [hs_snoc]
    simp only [hsStep, hopen, hcl, hel, if_true, NotifyPending, true_and]
    rcases h4 with h | h | h | h <;> simp [h]
  rcases pending_run _ hp l' with h | h
  · exfalso
    have e : hsRun (l ++ [.isr] ++ l') = l'.foldl hsStep (hsRun (l ++ [.isr])) := by
      unfold hsRun; rw [List.foldl_append]
    rw [← e] at h
    rcases h with h | h
    · rw [hnone] at h; simp at h
    · rw [hwait] at h; simp at h
  · exact h

/-- A notification is raised while the task is reading: it reads again. -/
example : (hsRun [.thr true, .thr true, .main, .isr, .thr true]).commOpen = true ∧
    (hsRun ([.thr true, .thr true, .main, .isr, .thr true] ++ [.isr] ++
      [.thr true, .thr false, .thr true, .thr false])).thr = .waitEvent ∧
    (hsRun ([.thr true, .thr true, .main, .isr, .thr true] ++ [.isr] ++
      [.thr true, .thr false, .thr true, .thr false])).rx = false ∧
    (hsRun ([.thr true, .thr true, .main, .isr, .thr true] ++ [.isr] ++ [.thr true, .thr false])).rx = true := by
  decide

/-- The task stops reading only when the transport reported no byte, and serves a notification by
reading. -/
theorem C65_reads_until_empty (s : Hs) (h : s.thr = .handleRx) :
    (hsStep s (.thr true)).thr = .handleRx ∧ (hsStep s (.thr false)).thr = .waitEvent := by
  obtain ⟨mn, th, cl, el, st, ab, abd, rx, co, bad⟩ := s
  simp only at h
  subst h
  simp only [hsStep, Hs.useCtx]
  constructor <;> (repeat' split) <;> simp_all

/-- A signalled notification makes the waiting task read, unless it is told to end. -/
theorem C65_wakes (s : Hs) (ok : Bool) (h : s.thr = .waitEvent) (hr : s.rx = true) (ha : s.abort = false) :
    (hsStep s (.thr ok)).thr = .handleRx := by
  obtain ⟨mn, th, cl, el, st, ab, abd, rx, co, bad⟩ := s
  simp only at h hr ha
  subst h hr ha
  simp only [hsStep, Hs.useCtx, Hs.useEv]
  (repeat' split) <;> simp_all

/-- Number of times the receive task is woken to read, in the moves `l` after state `s`. -/
def wakeUps : Hs → List Act → Nat
  | _, [] => 0
  | s, a :: l =>
    (if s.thr = .waitEvent ∧ (hsStep s a).thr = .handleRx then 1 else 0) + wakeUps (hsStep s a) l

/-- Number of notifications of the transport. -/
def notifications (l : List Act) : Nat := l.countP (fun a => match a with | .isr => true | _ => false)

theorem wakeUps_le (l : List Act) : ∀ s : Hs, wakeUps s l ≤ notifications l + (if s.rx then 1 else 0) := by
  induction l with
  | nil => intro s; simp [wakeUps]
  | cons a l ih =>
    intro s
    have hn : notifications (a :: l) = notifications l + (match a with | .isr => 1 | _ => 0) := by
      cases a <;> simp [notifications]
    have key : (if s.thr = .waitEvent ∧ (hsStep s a).thr = .handleRx then 1 else 0) +
        (if (hsStep s a).rx then 1 else 0) ≤ (match a with | .isr => 1 | _ => 0) + (if s.rx then 1 else 0) := by
      obtain ⟨mn, th, cl, el, st, ab, abd, rx, co, bad⟩ := s
      cases a with
      | main =>
        have hth : ¬ (th = .waitEvent ∧ th = .handleRx) := by rintro ⟨h1, h2⟩; rw [h1] at h2; cases h2
        cases mn <;> cases abd <;> cases st <;> cases el <;> cases rx <;> simp [hsStep, hth]
      | thr ok =>
        cases th <;> cases rx <;> cases ab <;> cases ok <;> cases cl <;> cases el <;>
          simp [hsStep, Hs.useCtx, Hs.useEv]
      | isr => cases th <;> cases rx <;> cases co <;> cases cl <;> cases el <;> simp [hsStep]
    have h := ih (hsStep s a)
    rw [hn, wakeUps]
    omega

/-- The receive task is never woken more often than the transport notified: it does not spin. -/
theorem C65_no_spurious_wake (l : List Act) : wakeUps {} l ≤ notifications l := by
  have := wakeUps_le l {}
  simpa using this

/-! ## C66 -/

/-- Number of moves of the receive task whose read (if the move is one) reports no byte. -/
def quietMoves (l : List Act) : Nat := l.countP (fun a => match a with | .thr false => true | _ => false)
/-- Number of moves of the caller. -/
def callerMoves (l : List Act) : Nat := l.countP (fun a => match a with | .main => true | _ => false)

/-- Moves the receive task still needs before it has reported its end, once it was told to end. -/
def thrLeft : ThrPc → Nat
  | .open => 7
  | .setStarted => 6
  | .handleRx => 6
  | .waitEvent => 5
  | .close => 4
  | .callback1 => 3
  | .setAborted => 2
  | .callback2 => 1
  | .ended => 0

/-- Moves the caller still needs once the task has reported its end. -/
def mainLeft : MainPc → Nat
  | .poll => 3
  | .deleteEvent => 2
  | .freeCtx => 1
  | _ => 0

/-- Shutting down: the task was told to end, or is past the point where it would notice. -/
def Stopping (s : Hs) : Prop :=
  (s.main = .poll ∨ s.main = .deleteEvent ∨ s.main = .freeCtx ∨ s.main = .returned) ∧
  (s.abort = true ∨ thrLeft s.thr ≤ 4) ∧ (thrLeft s.thr ≤ 1 → s.aborted = true ∨ s.main ≠ .poll)

theorem stopping_step (s : Hs) (a : Act) (h : Stopping s) :
    Stopping (hsStep s a) ∧ thrLeft (hsStep s a).thr ≤ thrLeft s.thr - quietMoves [a] ∧
      mainLeft (hsStep s a).main ≤ mainLeft s.main ∧
      (thrLeft s.thr ≤ 1 → mainLeft (hsStep s a).main ≤ mainLeft s.main - callerMoves [a]) := by
  obtain ⟨mn, th, cl, el, st, ab, abd, rx, co, bad⟩ := s
  obtain ⟨h1, h2, h3⟩ := h
  simp only at h1 h2 h3
  cases a with
  | main =>
    cases mn <;> simp only [hsStep] <;> (repeat' split) <;>
      simp_all [Stopping, quietMoves, callerMoves, mainLeft, thrLeft]
  | thr ok =>
    cases ok <;> cases th <;> simp only [hsStep, Hs.useCtx, Hs.useEv] <;> (repeat' split) <;>
      simp_all [Stopping, quietMoves, callerMoves, mainLeft, thrLeft]
  | isr =>
    simp only [hsStep]
    (repeat' split) <;> simp_all [Stopping, quietMoves, callerMoves, mainLeft, thrLeft]

theorem stopping_run : ∀ (l : List Act) (s : Hs), Stopping s → Stopping (l.foldl hsStep s) ∧
    thrLeft (l.foldl hsStep s).thr ≤ thrLeft s.thr - quietMoves l ∧
    (thrLeft s.thr ≤ 1 → mainLeft (l.foldl hsStep s).main ≤ mainLeft s.main - callerMoves l) ∧
    mainLeft (l.foldl hsStep s).main ≤ mainLeft s.main := by
  intro l
  induction l with
  | nil => intro s h; exact ⟨h, by simp [quietMoves], by simp [callerMoves], Nat.le_refl _⟩
  | cons a t ih =>
    intro s h
    obtain ⟨k1, k2, k3, k4⟩ := stopping_step s a h
    obtain ⟨i1, i2, i3, i4⟩ := ih _ k1
    rw [List.foldl_cons]
    have q1 : quietMoves (a :: t) = quietMoves [a] + quietMoves t := by
      simp only [quietMoves, List.countP_cons, List.countP_nil]; omega
    have q2 : callerMoves (a :: t) = callerMoves [a] + callerMoves t := by
      simp only [callerMoves, List.countP_cons, List.countP_nil]; omega
    refine ⟨i1, by omega, fun hle => ?_, by omega⟩
    have := k4 hle
    have := i3 (by omega)
    omega

theorem stopping_reached (l : List Act) (h : (hsRun l).main = .poll) : Stopping (hsRun l) := by
  have key : ∀ l, ((hsRun l).main = .poll → Stopping (hsRun l)) ∧
      ((hsRun l).main = .waitStart ∨ (hsRun l).main = .inUse ∨ (hsRun l).main = .setAbort →
        thrLeft (hsRun l).thr ≤ 1 → (hsRun l).aborted = true) := by
    intro l
    induction l using act_snoc_ind with
    | h0 => exact ⟨(by intro h; cases h), (by intro _ h; simp [hsRun, thrLeft] at h)⟩
    | h1 l a ih =>
      unfold hsRun at ih ⊢
      rw [hs_snoc]
      generalize List.foldl hsStep {} l = s at ih ⊢
      obtain ⟨mn, th, cl, el, st, ab, abd, rx, co, bad⟩ := s
      simp only at ih
      cases a with
      | main =>
        cases mn <;> simp only [hsStep] <;> (repeat' split) <;> simp_all [Stopping]
      | thr ok =>
        cases th <;> simp only [hsStep, Hs.useCtx, Hs.useEv] <;> (repeat' split) <;>
          simp_all [Stopping, thrLeft]
      | isr =>
        simp only [hsStep]
        (repeat' split) <;> exact ih
  exact (key l).1 h

/-- Shutdown ends: in every schedule, once the caller has told the receive task to end, it returns after the
task has moved seven times with reads reporting no more bytes, and then the caller three times -
whatever else happens in between, including notifications.
Missing: a modem that sends without pause (witness below). -/
theorem C66_shutdown_returns_partial (l a b : List Act) (h : (hsRun l).main = .poll)
    (ha : 7 ≤ quietMoves a) (hb : 3 ≤ callerMoves b) :
    (hsRun (l ++ a ++ b)).main = .returned ∧ (hsRun (l ++ a ++ b)).thr = .ended := by
  have hs := stopping_reached l h
  have e : hsRun (l ++ a ++ b) = b.foldl hsStep (a.foldl hsStep (hsRun l)) := by
    unfold hsRun; rw [List.foldl_append, List.foldl_append]
  obtain ⟨i1, i2, _, i4⟩ := stopping_run a _ hs
  obtain ⟨j1, j2, j3, _⟩ := stopping_run b _ i1
  have hmax : thrLeft (hsRun l).thr ≤ 7 := by cases (hsRun l).thr <;> simp [thrLeft]
  have hm3 : mainLeft (List.foldl hsStep (hsRun l) a).main ≤ 3 := by
    generalize (List.foldl hsStep (hsRun l) a).main = m
    cases m <;> simp [mainLeft]
  rw [e]
  have h0 : mainLeft (List.foldl hsStep (List.foldl hsStep (hsRun l) a) b).main = 0 := by
    have := j3 (by omega)
    omega
  have h1 := j1.1
  constructor
  · rcases h1 with h1 | h1 | h1 | h1
    · rw [h1] at h0; simp [mainLeft] at h0
    · rw [h1] at h0; simp [mainLeft] at h0
    · rw [h1] at h0; simp [mainLeft] at h0
    · exact h1
  · have : thrLeft (List.foldl hsStep (List.foldl hsStep (hsRun l) a) b).thr = 0 := by omega
    generalize (List.foldl hsStep (List.foldl hsStep (hsRun l) a) b).thr = t at this ⊢
    cases t <;> simp [thrLeft] at this ⊢

/-- Start-up ends: the caller of the initialisation waits for the receive task, and is released as soon as
the task has moved twice. -/
theorem C66_start_returns (l : List Act) (h : (hsRun l).main = .waitStart)
    (ht : (hsRun l).thr ≠ .open ∧ (hsRun l).thr ≠ .setStarted ∧ (hsRun l).thr ≠ .setAborted) :
    (hsStep (hsRun l) .main).main = .inUse ∨ (hsStep (hsRun l) .main).main = .deleteEvent := by
  have key : ∀ l, (hsRun l).main = .waitStart → (hsRun l).thr = .open ∨ (hsRun l).thr = .setStarted ∨
      (hsRun l).started = true ∨ ((hsRun l).aborted = true) ∨ ((hsRun l).thr = .setAborted) := by
    intro l
    induction l using act_snoc_ind with
    | h0 => intro _; exact Or.inl rfl
    | h1 l a ih =>
      unfold hsRun at ih ⊢
      rw [hs_snoc]
      generalize List.foldl hsStep {} l = s at ih ⊢
      obtain ⟨mn, th, cl, el, st, ab, abd, rx, co, bad⟩ := s
      simp only at ih
      cases a with
      | main => cases mn <;> simp only [hsStep] <;> (repeat' split) <;> simp_all
      | thr ok => cases ok <;> cases th <;> simp only [hsStep, Hs.useCtx, Hs.useEv] <;> (repeat' split) <;> simp_all
      | isr => simp only [hsStep]; (repeat' split) <;> simp_all
  have := key l h
  generalize hsRun l = s at h ht this ⊢
  obtain ⟨mn, th, cl, el, st, ab, abd, rx, co, bad⟩ := s
  simp only at h ht this
  subst h
  simp only [hsStep]
  (repeat' split) <;> simp_all

/-- The schedule of the witness: cleanup is called while data arrives, and every further read reports
bytes. -/
def busyModem (n : Nat) : List Act :=
  [.thr true, .thr true, .main, .isr, .thr true, .main, .main] ++ (List.replicate n [Act.thr true, Act.main]).flatten

/-- A modem that sends without pause keeps shutdown from returning: however often the task reads and the caller
looks, the task does not look whether it should end. -/
theorem C66_witness_busy_modem (n : Nat) :
    (hsRun (busyModem n)).main = .poll ∧ (hsRun (busyModem n)).thr = .handleRx ∧ (hsRun (busyModem n)).abort = true := by
  have key : ∀ n s, s = hsRun [.thr true, .thr true, .main, .isr, .thr true, .main, .main] →
      (List.replicate n [Act.thr true, Act.main]).flatten.foldl hsStep s = s := by
    intro n s hs
    induction n with
    | zero => rfl
    | succ n ih =>
      rw [List.replicate_succ, List.flatten_cons, List.foldl_append]
      have : [Act.thr true, Act.main].foldl hsStep s = s := by rw [hs]; rfl
      rw [this]; exact ih
  have : hsRun (busyModem n) = hsRun [.thr true, .thr true, .main, .isr, .thr true, .main, .main] := by
    unfold busyModem
    conv => lhs; unfold hsRun
    rw [List.foldl_append]
    exact key n _ rfl
  rw [this]
  decide

/-- Shutdown requested while the task handles received data; two notifications in between. -/
example : (hsRun [.thr true, .thr true, .main, .isr, .thr true, .main, .main]).main = .poll ∧
    7 ≤ quietMoves [.thr true, .isr, .thr false, .thr false, .thr false, .main, .thr false, .isr, .thr false, .thr false,
      .thr false] ∧ 3 ≤ callerMoves [.main, .isr, .main, .main] := by decide

end Cellular.Props
