import Verif.BytesWhole
/-!
# Executions in which no line was refused (C87)

As long as the port's handler for lines without a place has refused none, an execution is also one of a port whose handler refuses nothing.
-/

namespace Cellular.Props
open Cellular Cellular.Spec Cellular.ConcLemmas
open Cellular.Pktio (Cur CmdType MsgType Item Resp Cfg)
open Cellular.Bytes (Pc Fns)
open Cellular.Conc (Ev)

/-- The port with a handler that refuses nothing. -/
def calm (cfg : Cfg) : Cfg := { cfg with undefCb := fun _ => .ok }

/-- A refused line is about to be dropped. -/
def refusing : Pc → Bool
  | .undefFail _ _ => true
  | _ => false

theorem next_refusing {cfg : Cfg} {fn : Fns} {chunk : Str} {v : PktStatus} {s : Bytes.St} (h : refusing s.pc = true) :
    (Bytes.next cfg fn chunk v s).lost = true := by
  unfold Bytes.next
  cases hc : s.pc <;> rw [hc] at h <;> first | rfl | cases h

theorem next_calm {cfg : Cfg} {fn : Fns} {chunk : Str} {v : PktStatus} {s : Bytes.St} (h : refusing (Bytes.next cfg fn chunk v s).pc = false) :
    Bytes.next (calm cfg) fn chunk v s = Bytes.next cfg fn chunk v s := by
  cases hc : s.pc with
  | undef c len =>
    unfold Bytes.next at h ⊢
    rw [hc] at h
    simp only [hc] at h ⊢
    unfold Bytes.undef at h ⊢
    cases hl : readStr s.rx.buf c.p with
    | none => rfl
    | some line =>
      rw [hl] at h
      simp only at h ⊢
      by_cases hu : cfg.undefCb line = .ok
      · rw [if_pos hu]
        exact if_pos rfl
      · rw [if_neg hu] at h
        cases h
  | _ => (unfold Bytes.next; rw [hc]) <;> rfl

theorem step_calm {cfg : Cfg} {fn : Fns} {comm : Bool} {s s' : Bytes.St} (h : Bytes.Step cfg fn comm s s') (hp : refusing s'.pc = false) :
    Bytes.Step (calm cfg) fn comm s s' := by
  cases h with
  | thr t h => exact .thr t h
  | rx _ chunk v hroom =>
    rw [← next_calm hp]
    exact .rx s chunk v hroom

/-- What a step of the receive task only adds to. -/
theorem next_adds (cfg : Cfg) (fn : Fns) (chunk : Str) (v : PktStatus) (s : Bytes.St) :
    (s.lost = true → (Bytes.next cfg fn chunk v s).lost = true) ∧ s.stream <+: (Bytes.next cfg fn chunk v s).stream ∧
    s.sh.received <+: (Bytes.next cfg fn chunk v s).sh.received ∧ s.given <+: (Bytes.next cfg fn chunk v s).given := by
  have keep : ∀ {s' : Bytes.St}, (s.lost = true → s'.lost = true) → s'.stream = s.stream → s'.sh.received = s.sh.received → s'.given = s.given →
      (s.lost = true → s'.lost = true) ∧ s.stream <+: s'.stream ∧ s.sh.received <+: s'.sh.received ∧ s.given <+: s'.given :=
    fun h0 h1 h2 h3 => ⟨h0, h1 ▸ List.prefix_refl _, h2 ▸ List.prefix_refl _, h3 ▸ List.prefix_refl _⟩
  unfold Bytes.next
  cases hc : s.pc with
  | wait =>
    simp only
    unfold Bytes.enter
    simp only
    split
    · exact keep id rfl rfl rfl
    · exact ⟨id, List.prefix_append _ _, List.prefix_refl _, List.prefix_refl _⟩
    · exact ⟨id, List.prefix_append _ _, List.prefix_refl _, List.prefix_refl _⟩
  | top c =>
    simp only
    unfold Bytes.top
    split
    · exact keep id rfl rfl rfl
    · split
      · exact keep id rfl rfl rfl
      · exact keep id rfl rfl rfl
      · simp only
        split <;> exact keep id rfl rfl rfl
  | pre c r d =>
    simp only
    unfold Bytes.pre
    simp only
    split
    · exact keep id rfl rfl rfl
    · exact keep id rfl rfl rfl
    · split
      · exact keep id rfl rfl rfl
      · exact keep id rfl rfl rfl
      · split
        · exact keep id rfl rfl rfl
        · exact ⟨id, List.prefix_refl _, List.prefix_append _ _, List.prefix_refl _⟩
  | classify2 c len on =>
    simp only
    unfold Bytes.classify
    split
    · exact keep id rfl rfl rfl
    · split
      · split <;> exact keep id rfl rfl rfl
      · exact keep id rfl rfl rfl
      · exact keep id rfl rfl rfl
  | proc2 c len t =>
    simp only
    unfold Bytes.proc
    split
    · exact keep id rfl rfl rfl
    · simp only
      split <;> exact keep id rfl rfl rfl
  | call c len =>
    simp only
    split <;> exact keep id rfl rfl rfl
  | inCb c len i =>
    simp only
    unfold Bytes.callback
    split
    · exact keep id rfl rfl rfl
    · exact ⟨id, List.prefix_refl _, List.prefix_refl _, List.prefix_append _ _⟩
  | undef c len =>
    simp only
    unfold Bytes.undef
    split
    · exact keep id rfl rfl rfl
    · split <;> exact keep id rfl rfl rfl
  | undefFail c len => exact keep (fun _ => rfl) rfl rfl rfl
  | after c len st t =>
    simp only
    unfold Bytes.after
    simp only
    split
    · split
      · exact keep id rfl rfl rfl
      · split <;> exact keep id rfl rfl rfl
    · split <;> exact keep id rfl rfl rfl
  | _ => exact keep id rfl rfl rfl

/-- No line has been refused. -/
def Calm (s : Bytes.St) : Prop := s.lost = false ∧ refusing s.pc = false

theorem Calm.back {cfg : Cfg} {fn : Fns} {comm : Bool} {s s' : Bytes.St} (h : Bytes.Step cfg fn comm s s') (hl : Calm s') : Calm s := by
  cases h with
  | thr t h => exact hl
  | rx _ chunk v hroom =>
    constructor
    · cases h : s.lost with
      | false => rfl
      | true => exact absurd ((next_adds cfg fn chunk v s).1 h) (by rw [hl.1]; nofun)
    · cases h : refusing s.pc with
      | false => rfl
      | true => exact absurd (next_refusing h) (by rw [hl.1]; nofun)

theorem calm_run {cfg : Cfg} {fn : Fns} {comm : Bool} {P : Bytes.St → Bytes.St → Prop} {s : Bytes.St} (h : BytesRun cfg fn comm P s) (hl : Calm s) :
    BytesRun (calm cfg) fn comm P s := by
  induction h with
  | init => exact .init
  | step hr hs hp ih => exact .step (ih (hl.back hs)) (step_calm hs hl.2) hp

theorem calm_refused {cfg : Cfg} {w : Want} {line : Nat → Str} {ns : List Nat} : ¬ RefusedLine (calm cfg) w line ns := by
  rintro ⟨_, _, _, _, h, _⟩
  exact h rfl

end Cellular.Props
