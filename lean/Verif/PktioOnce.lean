import Verif.PktioSafe
/-!
# At most one response per command (C15), without any assumption on buffers or callbacks
-/

namespace Cellular.Props
open Cellular Cellular.Pktio

/-- Number of responses handed to the packet handler. -/
def responses : List Event → Nat
  | [] => 0
  | .response _ _ :: t => responses t + 1
  | _ :: t => responses t

theorem responses_append (a b : List Event) : responses (a ++ b) = responses a + responses b := by
  induction a with
  | nil => simp [responses]
  | cons e t ih => cases e <;> simp [responses, ih] <;> omega

/-- Responses handed over plus the one that may still come. -/
def owed (s : St) : Nat := responses s.events + if s.cmd = .noCommand then 0 else 1

theorem owed_congr {s s' : St} (h1 : s'.events = s.events) (h2 : s'.cmd = s.cmd) : owed s' = owed s := by
  simp [owed, h1, h2]

theorem cleanBuf_owed (cfg : Cfg) (s : St) : owed (cleanBuf cfg s) = owed s := rfl

theorem getMsgType_idle (cfg : Cfg) (pfx : Option Str) (line : Str) :
    getMsgType cfg .noCommand pfx line ≠ .solicited := by
  unfold getMsgType
  split
  · simp
  · simp only []
    split <;> split <;> simp <;> split <;> simp

theorem handleUndefined_owed (cfg : Cfg) (s : St) (line : Str) : owed (handleUndefined cfg s line).2 ≤ owed s := by
  unfold handleUndefined
  simp only []
  split
  · simp [owed, responses_append, responses]
  · simp [owed, cleanBuf, responses_append, responses]

theorem handleMsgType_owed {cfg : Cfg} {s : St} {p : Nat} {line : Str} {r : PktStatus × MsgType × St}
    (h : handleMsgType cfg s p line = some r) : owed r.2.2 ≤ owed s := by
  unfold handleMsgType at h
  split at h
  · split at h
    · cases h
    · cases h; simp [owed, responses_append, responses]
  · rename_i hs
    have hc : s.cmd ≠ .noCommand := fun hc => getMsgType_idle cfg s.pfx line (hc ▸ hs)
    simp only [] at h
    split at h
    · split at h
      · cases h
      · cases h; simp [owed, responses_append, responses, hc]
    · cases h; simp [owed]
    · cases h; simp [owed]
    · cases h
      exact handleUndefined_owed cfg _ line
  · cases h
    exact handleUndefined_owed cfg s line

theorem handleCallbackResult_owed (cfg : Cfg) (s : St) (st : PktStatus) (p n : Nat) :
    owed (handleCallbackResult cfg s st p n).2 = owed s := by
  unfold handleCallbackResult
  split <;> rfl

theorem preprocessInput_owed {cfg : Cfg} {s : St} {p n : Nat} {r : Bool × St × Nat × Nat}
    (h : preprocessInput cfg s p n = some r) : owed r.2.1 = owed s := by
  unfold preprocessInput at h
  split at h
  · cases h; rfl
  · split at h
    · cases h
    · split at h
      simp only [] at h
      split at h
      · cases h
      · split at h
        · split at h <;> cases h <;> rfl
        · cases h
          exact handleCallbackResult_owed cfg _ _ p n

theorem preprocessLine_owed {cfg : Cfg} {s : St} {p n : Nat} {sd : Option Nat}
    {r : Bool × St × Nat × Option Nat} (h : preprocessLine cfg s p n sd = some r) : owed r.2.1 = owed s := by
  unfold preprocessLine at h
  split at h
  · cases h; rfl
  · split at h
    · split at h
      · cases h
      · split at h
        simp only [] at h
        split at h
        · cases h
        · cases h
          exact handleCallbackResult_owed cfg _ _ p _
    · split at h
      · split at h
        · cases h
        · split at h
          simp only [] at h
          split at h
          · cases h
          · cases h
            rw [handleCallbackResult_owed]
            split <;> rfl
      · cases h; rfl

theorem findLine_owed {s : St} {p n : Nat} {r : St × Option Nat} (h : findLine s p n = some r) :
    owed r.1 = owed s := by
  unfold findLine at h
  split at h
  · cases h
  · split at h
    · simp only [Option.map_eq_some_iff] at h
      obtain ⟨m, _, rfl⟩ := h
      rfl
    · cases h; rfl

theorem handleData_owed {s : St} {start p n : Nat} {r : Nat × Nat × St} (h : handleData s start p n = some r) :
    owed r.2.2 = owed s := by
  unfold handleData at h
  split at h
  · cases h
  · simp only [] at h
    split at h
    · split at h
      · cases h
      · cases h; rfl
    · cases h; rfl

theorem getNextLine_owed {s : St} {p n len : Nat} {st : PktStatus} {t : MsgType} {r : Nat × Nat × St}
    (h : getNextLine s p n len st t = some r) : owed r.2.2 = owed s := by
  unfold getNextLine at h
  simp only [] at h
  split at h
  · split at h
    · cases h
    · simp only [Option.map_eq_some_iff] at h
      obtain ⟨m, _, rfl⟩ := h
      rfl
  · cases h; rfl

theorem handleLine_owed {cfg : Cfg} {s : St} {c : Cur} {len : Nat} {r : Option Cur × St}
    (h : handleLine cfg s c len = some r) : owed r.2 ≤ owed s := by
  unfold handleLine at h
  split at h
  · cases h
  · split at h
    · cases h
    · rename_i hm
      have h1 := handleMsgType_owed hm
      simp only [] at h1 h
      have next : ∀ {st t q}, Option.map (fun r : Nat × Nat × St =>
          (some ({ c with p := r.1, n := r.2.1 } : Cur), r.2.2)) (getNextLine q c.p c.n len st t) = some r →
          owed r.2 = owed q := by
        intro st t q hq
        simp only [Option.map_eq_some_iff] at hq
        obtain ⟨x, hx, rfl⟩ := hq
        exact getNextLine_owed hx
      split at h
      · split at h
        · split at h
          · cases h
          · simp only [Option.map_eq_some_iff] at h
            obtain ⟨x, hx, rfl⟩ := h
            simp only []
            rw [handleData_owed hx]; exact h1
        · rw [next h]; exact h1
      · rw [next h]; exact h1
      · rw [next h]; exact h1
      · cases h; exact h1

theorem iter_owed {cfg : Cfg} {s : St} {c : Cur} {r : Option Cur × St} (h : iter cfg s c = some r) :
    owed r.2 ≤ owed s := by
  unfold iter at h
  split at h
  · cases h
  · split at h
    · cases h
    · rename_i h1
      cases h
      exact Nat.le_of_eq (preprocessInput_owed h1)
    · rename_i h1
      have e1 := preprocessInput_owed h1
      simp only [] at e1
      split at h
      · cases h
      · rename_i h2
        cases h
        have e2 := preprocessLine_owed h2
        simp only [] at e2 ⊢
        omega
      · rename_i h2
        have e2 := preprocessLine_owed h2
        simp only [] at e2
        split at h
        · cases h
        · rename_i h3
          cases h
          have e3 := findLine_owed h3
          simp only [] at e3 ⊢
          omega
        · rename_i h3
          have e3 := findLine_owed h3
          simp only [] at e3
          have e4 := handleLine_owed h
          omega

theorem loop_owed {cfg : Cfg} : ∀ {k : Nat} {s s' : St} {c : Cur}, loop cfg k s c = some s' →
    owed s' ≤ owed s := by
  intro k
  induction k with
  | zero => intro s s' c h; cases h
  | succ k ih =>
    intro s s' c h
    unfold loop at h
    split at h
    · cases h
    · rename_i h1; cases h; exact iter_owed h1
    · rename_i h1; exact Nat.le_trans (ih h) (iter_owed h1)

theorem readPos_owed {cfg : Cfg} {s : St} {r : St × Nat × Nat × Int} (h : readPos cfg s = some r) :
    owed r.1 = owed s := by
  unfold readPos at h
  split at h
  · cases h; rfl
  · split at h
    · split at h
      · cases h
      · split at h
        · cases h
        · simp only [Option.map_eq_some_iff] at h
          obtain ⟨m, _, rfl⟩ := h
          rfl
    · cases h; rfl

theorem rxEvent_owed {cfg : Cfg} {s : St} {chunk : Str} {r : Nat × St} (h : rxEvent cfg s chunk = some r) :
    owed r.2 ≤ owed s := by
  unfold rxEvent at h
  split at h
  · cases h
  · rename_i h0
    have e0 := readPos_owed h0
    simp only [] at e0
    split at h
    · split at h
      · cases h; exact Nat.le_of_eq e0
      · split at h
        · cases h
        · simp only [] at h
          split at h
          · cases h
          · rename_i h2
            have e2 : ∀ {x : Nat × Nat × St} {q : St} {c : Prop} [Decidable c] {y : Option (Nat × Nat × St)}
                {a b : Nat}, (if c then y else some (a, b, q)) = some x → (∀ z, y = some z → owed z.2.2 = owed q) →
                owed x.2.2 = owed q := by
              intro x q c _ y a b hx hy
              split at hx
              · exact hy _ hx
              · cases hx; rfl
            have e3 := e2 h2 (fun z hz => handleData_owed hz)
            simp only [] at e3
            split at h
            · split at h
              · cases h
              · simp only [Option.map_eq_some_iff] at h
                obtain ⟨s3, h3, rfl⟩ := h
                have e4 := loop_owed h3
                simp only [owed] at e0 e3 e4 ⊢
                omega
            · cases h
              simp only [owed] at e0 e3 ⊢
              omega
    · cases h
      simp only [owed] at e0 ⊢
      omega

/-- Number of commands started in a history. -/
def commands : List RxAct → Nat
  | [] => 0
  | .recv _ :: t => commands t
  | .control cmd _ _ _ :: t => commands t + if cmd = .noCommand then 0 else 1

/-- For every history of bytes from the modem, cut into reads in any way, and of commands started and
abandoned, with any buffer size, token tables and callbacks, and whether or not the buffer overflows:
there are never more responses than commands; no response is handed over without a command, and no
command gets two. -/
theorem C15_one_response_per_command (cfg : Cfg) (acts : List RxAct) (s s' : St)
    (h : rxRun cfg s acts = some s') :
    responses s'.events ≤ responses s.events + (if s.cmd = .noCommand then 0 else 1) + commands acts := by
  suffices hs : owed s' ≤ owed s + commands acts by simp only [owed] at hs; omega
  induction acts generalizing s with
  | nil => cases h; simp [commands]
  | cons a t ih =>
    unfold rxRun at h
    split at h
    · cases h
    · rename_i s1 h1
      have := ih s1 h
      cases a with
      | recv bytes =>
        simp only [rxAct, Option.map_eq_some_iff] at h1
        obtain ⟨r, hr, rfl⟩ := h1
        have := rxEvent_owed hr
        simp only [commands]
        omega
      | control cmd pfx f g =>
        simp only [rxAct, Option.some.injEq] at h1
        subst h1
        simp only [commands, owed] at this ⊢
        omega

example : ((rxRun (demoCfg 30) (init 30) [.control .withPrefix (some (str "+CSQ")) none none,
      .recv (str "+CSQ: 2\r\nOK\r\nRING\r\n"), .recv (str "OK\r\n")]).map
      (fun s => (s.events, responses s.events))) =
      some ([.response true [str "+CSQ: 2"], .urc (str "RING"), .undefined (str "OK")], 1) := by decide +kernel

end Cellular.Props
