import Verif.ConcHist
/-!
# Requests: reading the monitors

What acceptance by the monitors `Spec.serial` and `Spec.own` says about the history as a list of events.
-/

namespace Cellular.Spec
open Cellular Conc
open Cellular.Pktio (Item)

/-- The request an action is done for by the calling thread, or with whose tokens or prefix callbacks the
receive task works. -/
def doneFor : Ev → Option Nat
  | .command i _ => some i
  | .data i _ _ => some i
  | .pattern i _ _ => some i
  | .got i _ => some i
  | .timeout i => some i
  | .sendError i => some i
  | .consulted i _ => some i
  | .fetched i => some i
  | .ret i _ _ => some i
  | _ => none

/-- A request starts or returns. -/
def Boundary : Ev → Prop
  | .start _ => True
  | .ret _ _ _ => True
  | _ => False

/-- After history `a`, request `i` is in progress: it started and since then no request started or returned. -/
def InProgress (a : List Ev) (i : Nat) : Prop := ∃ x y, a = x ++ .start i :: y ∧ ∀ e ∈ y, ¬ Boundary e

/-- `e` hands the bytes of a step of request `i` to the transport. -/
def Sends (i : Nat) : Ev → Prop
  | .command j _ => j = i
  | .data j _ _ => j = i
  | _ => False

def isGot : Ev → Prop
  | .got _ _ => True
  | _ => False

def isFinal : Ev → Prop
  | .final _ _ => True
  | _ => False

def isCallback : Ev → Prop
  | .callback _ _ _ => True
  | _ => False

/-- Line `n` was received in `y`, after the step's bytes were sent.  If not `strict`: `y` begins with the start
of the request, and `n` may also be the last line received before (in `x`). -/
def Fresh (strict : Bool) (x y : List Ev) (n : Nat) : Prop :=
  Ev.recv n ∈ y ∨ (strict = false ∧ Ev.recv n ∈ x ∧ ∀ k, n < k → Ev.recv k ∉ x)

/-- The event from which on lines count for request `i`. -/
def Opens (strict : Bool) (i : Nat) (e : Ev) : Prop :=
  if strict then Sends i e else e = .start i

end Cellular.Spec

namespace Cellular.ConcLemmas
open Cellular Spec Conc
open Cellular.Pktio (CmdType MsgType Item Resp Cfg getMsgType processLine writeMax)

theorem snoc_ind {P : List Ev → Prop} (h0 : P []) (h1 : ∀ l e, P l → P (l ++ [e])) (l : List Ev) : P l := by
  have : ∀ l : List Ev, P l.reverse := by
    intro l
    induction l with
    | nil => exact h0
    | cons e l ih => rw [List.reverse_cons]; exact h1 _ _ ih
  have h := this l.reverse
  rwa [List.reverse_reverse] at h

theorem fold_none {σ : Type} (f : σ → Ev → Option σ) (l : List Ev) :
    l.foldl (fun c e => c.bind (fun c => f c e)) none = none := by
  induction l with
  | nil => rfl
  | cons e l ih => exact ih

theorem serial_prefix {a c : List Ev} {e : Ev} {r : Option Nat} (h : serial (a ++ e :: c) = some r) :
    ∃ m m', serial a = some m ∧ serialStep m e = some m' := by
  rw [serial_append] at h
  rw [List.foldl_cons] at h
  cases ha : serial a with
  | none => rw [ha] at h; simp only [Option.bind_none] at h; rw [fold_none] at h; cases h
  | some m =>
    rw [ha] at h
    simp only [Option.bind_some] at h
    cases he : serialStep m e with
    | none => rw [he, fold_none] at h; cases h
    | some m' => exact ⟨m, m', rfl, he⟩

theorem own_prefix {strict : Bool} {a c : List Ev} {e : Ev} {r : Own} (h : own strict (a ++ e :: c) = some r) :
    ∃ m m', own strict a = some m ∧ ownStep strict m e = some m' := by
  rw [own_append] at h
  rw [List.foldl_cons] at h
  cases ha : own strict a with
  | none => rw [ha] at h; simp only [Option.bind_none] at h; rw [fold_none] at h; cases h
  | some m =>
    rw [ha] at h
    simp only [Option.bind_some] at h
    cases he : ownStep strict m e with
    | none => rw [he, fold_none] at h; cases h
    | some m' => exact ⟨m, m', rfl, he⟩

theorem serialStep_cases {m m' : Option Nat} {e : Ev} (h : serialStep m e = some m') :
    (∃ i, e = .start i ∧ m = none ∧ m' = some i) ∨
    (∃ i st sent, e = .ret i st sent ∧ m = some i ∧ m' = none) ∨ (¬ Boundary e ∧ m' = m) := by
  cases e <;> cases m <;> simp_all [serialStep, Boundary]

/-- From a request in progress: it returns, or it stays in progress. -/
theorem serial_from {y : List Ev} {j : Nat} {c : Option Nat}
    (h : y.foldl (fun c e => c.bind (fun c => serialStep c e)) (some (some j)) = some c) :
    (∃ st sent, Ev.ret j st sent ∈ y) ∨ (c = some j ∧ ∀ e ∈ y, ¬ Boundary e) := by
  induction y with
  | nil => cases h; exact .inr ⟨rfl, by simp⟩
  | cons e y ih =>
    rw [List.foldl_cons] at h
    simp only [Option.bind_some] at h
    cases hs : serialStep (some j) e with
    | none => rw [hs, fold_none] at h; cases h
    | some m' =>
      rw [hs] at h
      rcases serialStep_cases hs with ⟨i, rfl, h1, rfl⟩ | ⟨i, st, sent, rfl, h1, rfl⟩ | ⟨hb, rfl⟩
      · cases h1
      · cases h1; exact .inl ⟨st, sent, by simp⟩
      · rcases ih h with ⟨st, sent, h'⟩ | ⟨h1, h2⟩
        · exact .inl ⟨st, sent, List.mem_cons_of_mem _ h'⟩
        · right
          refine ⟨h1, ?_⟩
          intro f hf
          rcases List.mem_cons.1 hf with rfl | hf
          · exact hb
          · exact h2 f hf

/-- A request that started returned before any other started. -/
theorem serial_before {x y : List Ev} {j : Nat} {c : Option Nat} (h : serial (x ++ .start j :: y) = some c) :
    (∃ st sent, Ev.ret j st sent ∈ y) ∨ (c = some j ∧ ∀ e ∈ y, ¬ Boundary e) := by
  obtain ⟨m, m', hm, hs⟩ := serial_prefix h
  rw [serial_append, hm, List.foldl_cons] at h
  simp only [Option.bind_some, hs] at h
  rcases serialStep_cases hs with ⟨i, h1, _, rfl⟩ | ⟨i, st, sent, h1, _, _⟩ | ⟨hb, _⟩
  · cases h1; exact serial_from h
  · cases h1
  · exact absurd trivial hb

/-- The request in progress according to the monitor is in progress. -/
theorem serial_open {a : List Ev} {i : Nat} (h : serial a = some (some i)) : InProgress a i := by
  induction a using snoc_ind with
  | h0 => cases h
  | h1 l e ih =>
    obtain ⟨m, m', hm, hs⟩ := serial_prefix (c := []) h
    have hc : some i = m' := by
      rw [serial_append, hm] at h
      simp only [List.foldl_cons, List.foldl_nil, Option.bind_some, hs, Option.some.injEq] at h
      exact h.symm
    subst hc
    rcases serialStep_cases hs with ⟨j, rfl, rfl, h'⟩ | ⟨j, st, sent, rfl, rfl, h'⟩ | ⟨hb, rfl⟩
    · cases h'; exact ⟨l, [], rfl, by simp⟩
    · cases h'
    · obtain ⟨x, y, hl, hn⟩ := ih hm
      refine ⟨x, y ++ [e], by rw [hl]; simp, ?_⟩
      intro f hf
      rcases List.mem_append.1 hf with hf | hf
      · exact hn f hf
      · simp only [List.mem_singleton] at hf; subst hf; exact hb

theorem serialStep_doneFor {m m' : Option Nat} {e : Ev} {i : Nat} (h : serialStep m e = some m')
    (hd : doneFor e = some i) : m = some i := by
  cases e <;> cases m <;> simp_all [serialStep, doneFor]

/-! ### the monitor `own` -/

theorem ownStep_cases {strict : Bool} {m m' : Own} {e : Ev} (h : ownStep strict m e = some m') :
    (∃ n, e = .recv n ∧ n = m.lines ∧ m' = { m with lines := m.lines + 1 }) ∨
    (∃ i, e = .start i ∧ m.req = none ∧
      m' = { m with req := some i, since := m.lines - 1, sent := false, answer := .none, called := false }) ∨
    (∃ i, Sends i e ∧ m.req = some i ∧
      m' = { m with sent := true, since := if strict then m.lines else m.since }) ∨
    (∃ ok n, e = .final ok n ∧ (m.req ≠ none ∧ m.answer = .none ∧ m.since ≤ n ∧ n < m.lines ∧
      (strict = true → m.sent = true)) ∧ m' = { m with answer := .final ok }) ∨
    (∃ i items st, e = .callback i items st ∧ (m.req = some i ∧ m.answer = .final true ∧ m.called = false ∧
      ∀ it ∈ items, m.fits it) ∧ m' = { m with answer := .judged st, called := true }) ∨
    (∃ i st, e = .got i st ∧ (m.req = some i ∧ m.answer.status = some st) ∧
      m' = { m with answer := .none, sent := false }) ∨
    (∃ i st sent, e = .ret i st sent ∧ m.req = some i ∧ m' = { m with req := none }) ∨
    ((¬ Boundary e ∧ (∀ i, ¬ Sends i e) ∧ ¬ isGot e ∧ ¬ isFinal e ∧ ¬ isCallback e ∧ ∀ n, e ≠ .recv n) ∧ m' = m) := by
  cases e with
  | recv n =>
    simp only [ownStep] at h; split at h
    · rename_i hn; cases h; exact .inl ⟨n, rfl, hn, rfl⟩
    · cases h
  | start i =>
    simp only [ownStep] at h; split at h
    · rename_i hn; cases h; exact .inr (.inl ⟨i, rfl, hn, rfl⟩)
    · cases h
  | command i text =>
    simp only [ownStep] at h; split at h
    · rename_i hn; cases h; exact .inr (.inr (.inl ⟨i, rfl, hn, rfl⟩))
    · cases h
  | data i b n =>
    simp only [ownStep] at h; split at h
    · rename_i hn; cases h; exact .inr (.inr (.inl ⟨i, rfl, hn, rfl⟩))
    · cases h
  | final ok n =>
    simp only [ownStep] at h; split at h
    · rename_i hn; cases h; exact .inr (.inr (.inr (.inl ⟨ok, n, rfl, hn, rfl⟩)))
    · cases h
  | callback i items st =>
    simp only [ownStep] at h; split at h
    · rename_i hn; cases h; exact .inr (.inr (.inr (.inr (.inl ⟨i, items, st, rfl, hn, rfl⟩))))
    · cases h
  | got i st =>
    simp only [ownStep] at h; split at h
    · rename_i hn; cases h; exact .inr (.inr (.inr (.inr (.inr (.inl ⟨i, st, rfl, hn, rfl⟩)))))
    · cases h
  | ret i st sent =>
    simp only [ownStep] at h; split at h
    · rename_i hn; cases h; exact .inr (.inr (.inr (.inr (.inr (.inr (.inl ⟨i, st, sent, rfl, hn, rfl⟩))))))
    · cases h
  | nullCall => simp [ownStep] at h
  | _ =>
    simp only [ownStep, Option.some.injEq] at h
    exact .inr (.inr (.inr (.inr (.inr (.inr (.inr ⟨by simp [Boundary, Sends, isGot, isFinal, isCallback], h.symm⟩))))))

/-- What the monitor's state says about the history. -/
structure Explains (strict : Bool) (l : List Ev) (m : Own) : Prop where
  lines : ∀ n, n < m.lines ↔ Ev.recv n ∈ l
  sent : strict = true → m.answer ≠ .none → m.req ≠ none → m.sent = true
  opened : ∀ i, m.req = some i → (strict = true → m.sent = true) →
    ∃ x e y, l = x ++ e :: y ∧ Opens strict i e ∧ (∀ f ∈ y, ¬ Boundary f) ∧
      ∀ n, m.since ≤ n → n < m.lines → Fresh strict x y n
  answered : ∀ i, m.req = some i → m.answer ≠ .none →
    ∃ x e y ok n z, l = x ++ e :: y ++ .final ok n :: z ∧ Opens strict i e ∧ (∀ f ∈ y ++ z, ¬ Boundary f) ∧
      Fresh strict x y n ∧ (∀ f ∈ z, ¬ isGot f ∧ ¬ isFinal f) ∧
      (m.answer = .final ok ∧ (∀ f ∈ z, ¬ isCallback f) ∨
        ok = true ∧ ∃ items st, m.answer = .judged st ∧ Ev.callback i items st ∈ z)
  uncalled : ∀ i, m.req = some i → m.called = false →
    ∃ x y, l = x ++ .start i :: y ∧ (∀ f ∈ y, ¬ Boundary f) ∧ ∀ f ∈ y, ¬ isCallback f

theorem explains_init (strict : Bool) : Explains strict [] own0 :=
  ⟨by simp [own0], by simp [own0], by simp [own0], by simp [own0], by simp [own0]⟩

theorem _root_.Cellular.Spec.Fresh.snoc {strict : Bool} {x y : List Ev} {n : Nat} (h : Fresh strict x y n) (e : Ev) :
    Fresh strict x (y ++ [e]) n := by
  rcases h with h | h
  · exact .inl (List.mem_append_left _ h)
  · exact .inr h

theorem all_snoc {P : Ev → Prop} {y : List Ev} {e : Ev} (h : ∀ f ∈ y, P f) (he : P e) : ∀ f ∈ y ++ [e], P f := by
  intro f hf
  rcases List.mem_append.1 hf with hf | hf
  · exact h f hf
  · simp only [List.mem_singleton] at hf; subst hf; exact he

theorem sends_other {i : Nat} {e : Ev} (h : Sends i e) :
    ¬ Boundary e ∧ ¬ isGot e ∧ ¬ isFinal e ∧ ¬ isCallback e ∧ ∀ n, e ≠ .recv n := by
  cases e with
  | command => exact ⟨id, id, id, id, by simp⟩
  | data => exact ⟨id, id, id, id, by simp⟩
  | _ => exact h.elim

theorem explains_step {strict : Bool} {l : List Ev} {m m' : Own} {e : Ev} (E : Explains strict l m)
    (h : ownStep strict m e = some m') : Explains strict (l ++ [e]) m' := by
  have hline : (∀ n, e ≠ .recv n) → ∀ n, n < m.lines ↔ Ev.recv n ∈ l ++ [e] := by
    intro hn n
    rw [E.lines n]
    simp only [List.mem_append, List.mem_singleton]
    exact ⟨.inl, fun h => h.resolve_right (fun h => hn n h.symm)⟩
  have hop : ¬ Boundary e → ∀ i, m.req = some i → (strict = true → m.sent = true) →
      ∃ x e' y, l ++ [e] = x ++ e' :: y ∧ Opens strict i e' ∧ (∀ f ∈ y, ¬ Boundary f) ∧
        ∀ n, m.since ≤ n → n < m.lines → Fresh strict x y n := by
    intro hb i hi hs
    obtain ⟨x, e', y, h1, h2, h3, h4⟩ := E.opened i hi hs
    exact ⟨x, e', y ++ [e], by rw [h1]; simp, h2, all_snoc h3 hb, fun n a b => (h4 n a b).snoc e⟩
  have hun : ¬ Boundary e → ¬ isCallback e → ∀ i, m.req = some i → m.called = false →
      ∃ x y, l ++ [e] = x ++ .start i :: y ∧ (∀ f ∈ y, ¬ Boundary f) ∧ ∀ f ∈ y, ¬ isCallback f := by
    intro hb hc i hi hcl
    obtain ⟨x, y, h1, h2, h3⟩ := E.uncalled i hi hcl
    exact ⟨x, y ++ [e], by rw [h1]; simp, all_snoc h2 hb, all_snoc h3 hc⟩
  have han : ¬ Boundary e → ¬ isGot e → ¬ isFinal e → ¬ isCallback e → ∀ i, m.req = some i → m.answer ≠ .none →
      ∃ x e' y ok n z, l ++ [e] = x ++ e' :: y ++ .final ok n :: z ∧ Opens strict i e' ∧
        (∀ f ∈ y ++ z, ¬ Boundary f) ∧ Fresh strict x y n ∧ (∀ f ∈ z, ¬ isGot f ∧ ¬ isFinal f) ∧
        (m.answer = .final ok ∧ (∀ f ∈ z, ¬ isCallback f) ∨
          ok = true ∧ ∃ items st, m.answer = .judged st ∧ Ev.callback i items st ∈ z) := by
    intro hb hg hf hc i hi ha
    obtain ⟨x, e', y, ok, n, z, h1, h2, h3, h4, h5, h6⟩ := E.answered i hi ha
    refine ⟨x, e', y, ok, n, z ++ [e], by rw [h1]; simp, h2, ?_, h4, all_snoc h5 ⟨hg, hf⟩, ?_⟩
    · rw [← List.append_assoc]; exact all_snoc h3 hb
    · rcases h6 with ⟨h6, h7⟩ | ⟨h6, items, st, h7, h8⟩
      · exact .inl ⟨h6, all_snoc h7 hc⟩
      · exact .inr ⟨h6, items, st, h7, List.mem_append_left _ h8⟩
  rcases ownStep_cases h with ⟨n, rfl, rfl, rfl⟩ | ⟨i, rfl, hr, rfl⟩ | ⟨i, hse, hr, rfl⟩ | ⟨ok, n, rfl, hc, rfl⟩ |
    ⟨i, items, st, rfl, hc, rfl⟩ | ⟨i, st, rfl, hc, rfl⟩ | ⟨i, st, sent, rfl, hr, rfl⟩ | ⟨hc, rfl⟩
  · -- recv
    refine ⟨?_, E.sent, ?_, han (by simp [Boundary]) (by simp [isGot]) (by simp [isFinal]) (by simp [isCallback]),
      hun (by simp [Boundary]) (by simp [isCallback])⟩
    · intro n
      simp only [List.mem_append, List.mem_singleton, Ev.recv.injEq, ← E.lines n]
      omega
    · intro i hi hs
      obtain ⟨x, e', y, h1, h2, h3, h4⟩ := E.opened i hi hs
      refine ⟨x, e', y ++ [.recv m.lines], by rw [h1]; simp, h2, all_snoc h3 (by simp [Boundary]), ?_⟩
      intro n hn1 hn2
      simp only at hn1 hn2
      by_cases hn : n = m.lines
      · subst hn; exact .inl (by simp)
      · exact (h4 n hn1 (by omega)).snoc _
  · -- start
    refine ⟨hline (by simp), by simp, ?_, by simp, ?_⟩
    · intro j hj hs
      cases hj
      cases strict with
      | true => simp at hs
      | false =>
        refine ⟨l, .start i, [], rfl, rfl, by simp, ?_⟩
        intro n hn1 hn2
        simp only at hn1 hn2
        refine .inr ⟨rfl, (E.lines n).1 hn2, ?_⟩
        intro k hk hm
        have := (E.lines k).2 hm
        omega
    · intro j hj _
      cases hj
      exact ⟨l, [], rfl, by simp, by simp⟩
  · -- send
    have hb := sends_other hse
    refine ⟨hline hb.2.2.2.2, fun _ _ _ => rfl, ?_, han hb.1 hb.2.1 hb.2.2.1 hb.2.2.2.1, hun hb.1 hb.2.2.2.1⟩
    intro j hj _
    cases hstr : strict with
    | true =>
      refine ⟨l, e, [], rfl, ?_, by simp, ?_⟩
      · simp only at hj; rw [hr] at hj; cases hj; simpa [Opens] using hse
      · intro n hn1 hn2; simp only [hstr, if_true] at hn1 hn2; omega
    | false =>
      subst hstr
      exact hop hb.1 j hj (by simp)
  · -- final
    obtain ⟨hq, ha, hn1, hn2, hs⟩ := hc
    have hb : ¬ Boundary (.final ok n) := by simp [Boundary]
    refine ⟨hline (by simp), fun h _ _ => hs h, hop hb, ?_, hun hb (by simp [isCallback])⟩
    intro i hi _
    obtain ⟨x, e', y, h1, h2, h3, h4⟩ := E.opened i hi hs
    exact ⟨x, e', y, ok, n, [], by rw [h1], h2, by simpa using h3, h4 n hn1 hn2, by simp, .inl ⟨rfl, by simp⟩⟩
  · -- callback
    obtain ⟨hq, ha, hcl, hit⟩ := hc
    have hb : ¬ Boundary (.callback i items st) := by simp [Boundary]
    refine ⟨hline (by simp), fun h _ hq' => E.sent h (by rw [ha]; simp) hq', hop hb, ?_, by simp⟩
    intro j hj _
    have hji : j = i := by simp only at hj; rw [hq] at hj; cases hj; rfl
    subst hji
    obtain ⟨x, e', y, ok, n, z, h1, h2, h3, h4, h5, h6⟩ := E.answered j hj (by rw [ha]; simp)
    refine ⟨x, e', y, ok, n, z ++ [.callback j items st], by rw [h1]; simp, h2, ?_, h4,
      all_snoc h5 (by simp [isGot, isFinal]), ?_⟩
    · rw [← List.append_assoc]; exact all_snoc h3 hb
    · right
      rcases h6 with ⟨h6, h7⟩ | ⟨h6, items', st', h7, h8⟩
      · rw [ha] at h6; cases h6
        exact ⟨rfl, items, st, rfl, by simp⟩
      · rw [ha] at h7; cases h7
  · -- got
    have hb : ¬ Boundary (.got i st) := by simp [Boundary]
    refine ⟨hline (by simp), by simp, ?_, by simp, hun hb (by simp [isCallback])⟩
    intro j hj hs
    cases hstr : strict with
    | true => simp [hstr] at hs
    | false =>
      subst hstr
      exact hop hb j hj (by simp)
  · -- ret
    exact ⟨hline (by simp), by simp, by simp, by simp, by simp⟩
  · exact ⟨hline hc.2.2.2.2.2, E.sent, hop hc.1, han hc.1 hc.2.2.1 hc.2.2.2.1 hc.2.2.2.2.1, hun hc.1 hc.2.2.2.2.1⟩

theorem own_explains {strict : Bool} {l : List Ev} {m : Own} (h : own strict l = some m) : Explains strict l m := by
  induction l using snoc_ind generalizing m with
  | h0 => cases h; exact explains_init strict
  | h1 l e ih =>
    obtain ⟨m0, m', hm, hs⟩ := own_prefix (c := []) h
    have : m = m' := by
      rw [own_append, hm] at h
      simp only [List.foldl_cons, List.foldl_nil, Option.bind_some, hs, Option.some.injEq] at h
      exact h.symm
    subst this
    exact explains_step (ih hm) hs

end Cellular.ConcLemmas
