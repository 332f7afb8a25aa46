import Verif.BytesThm
import Verif.BytesData
/-!
# The receive task gets back to listening (C86)
-/

namespace Cellular.Spec
open Cellular Cellular.Bytes
open Cellular.Pktio (Cfg)

/-- The receive task waits for the transport to signal data, or has ended in undefined behaviour (excluded by C11, C82). -/
def Listens (s : Bytes.St) : Prop := s.pc = .wait ∨ s.pc = .crashed ∨ s.pc = .bad

/-- Executions from `s` with any steps of the other tasks and `k` steps of the receive task, after none of which it listens. -/
inductive Busy (cfg : Cfg) (fn : Fns) (comm : Bool) (s : Bytes.St) : Nat → Bytes.St → Prop
  | start : Busy cfg fn comm s 0 s
  | thr {k : Nat} {s' : Bytes.St} {sh : Conc.St} (t : Nat) (h : Busy cfg fn comm s k s') (hs : Conc.ThrStep comm t s'.sh sh) :
      Busy cfg fn comm s k { s' with sh := sh }
  | rx {k : Nat} {s' : Bytes.St} (chunk : Str) (v : PktStatus) (h : Busy cfg fn comm s k s') (hc : chunk.length ≤ Pktio.room cfg s'.rx)
      (hl : ¬ Listens (next cfg fn chunk v s')) : Busy cfg fn comm s (k + 1) (next cfg fn chunk v s')

/-- The data send prefix callbacks do not claim that there is more text than they were given. -/
def SendSane (fn : Fns) : Prop := ∀ i t, (fn.send i t).2.2 ≤ t.length

end Cellular.Spec

namespace Cellular.Props
open Cellular Cellular.Spec
open Cellular.Pktio (Cur CmdType MsgType Item Resp Cfg isEol skipEol preprocessInput preprocessLine findLine readPos handleData getNextLine)
open Cellular.Bytes (Pc Fns)

/-- Bytes of the text in hand. -/
def textLeft : Pc → Nat
  | .top c => c.n
  | .pre c _ _ => c.n
  | .classify c _ => c.n
  | .classify2 c _ _ => c.n
  | .proc c _ => c.n
  | .proc2 c _ _ => c.n
  | .done c _ => c.n
  | .handle c _ => c.n
  | .call c _ => c.n
  | .inCb c _ _ => c.n
  | .send c _ _ => c.n
  | .free c _ => c.n
  | .undef c _ => c.n
  | .undefFail c _ => c.n
  | .after c _ _ _ => c.n
  | _ => 0

/-- A bound on the steps the receive task can take before it listens. -/
def workLeft : Pc → Nat
  | .wait => 0
  | .crashed => 0
  | .bad => 0
  | .top c => 14 * c.n + 1
  | .pre c _ _ => 14 * c.n
  | .classify c _ => 14 * (c.n - 1) + 13
  | .classify2 c _ _ => 14 * (c.n - 1) + 12
  | .proc c _ => 14 * (c.n - 1) + 11
  | .proc2 c _ _ => 14 * (c.n - 1) + 10
  | .done c _ => 14 * (c.n - 1) + 9
  | .handle c _ => 14 * (c.n - 1) + 8
  | .call c _ => 14 * (c.n - 1) + 7
  | .inCb c _ _ => 14 * (c.n - 1) + 6
  | .send c _ _ => 14 * (c.n - 1) + 5
  | .free c _ => 14 * (c.n - 1) + 4
  | .undef c _ => 14 * (c.n - 1) + 4
  | .undefFail c _ => 14 * (c.n - 1) + 2
  | .after c _ _ _ => 14 * (c.n - 1) + 2

theorem workLeft_le (pc : Pc) : workLeft pc ≤ 14 * textLeft pc + 13 := by
  cases pc <;> simp only [workLeft, textLeft] <;> omega

theorem workLeft_lt {pc : Pc} (h : workLeft pc = 0) (hi : ∀ c r d, pc = .pre c r d → c.n ≠ 0) : pc = .wait ∨ pc = .crashed ∨ pc = .bad := by
  cases pc <;> simp [workLeft] at h hi ⊢
  omega

theorem skipEol_le {m : Mem} : ∀ {n p p' n' : Nat}, skipEol m p n = some (p', n') → n' ≤ n
  | 0, p, p', n', h => by simp only [skipEol, Option.some.injEq, Prod.mk.injEq] at h; omega
  | n + 1, p, p', n', h => by
    unfold skipEol at h
    split at h
    · cases h
    · split at h
      · have := skipEol_le h; omega
      · simp only [Option.some.injEq, Prod.mk.injEq] at h; omega

theorem preprocessInput_le {cfg : Cfg} {rx rx' : Pktio.St} {p n p' n' : Nat} {b : Bool} (h : preprocessInput cfg rx p n = some (b, rx', p', n')) : n' ≤ n := by
  unfold preprocessInput at h
  split at h
  · simp only [Option.some.injEq, Prod.mk.injEq] at h; omega
  · split at h
    · cases h
    · split at h
      split at h
      · cases h
      · simp only [] at h
        split at h
        · split at h
          · simp only [Option.some.injEq, Prod.mk.injEq] at h; omega
          · simp only [Option.some.injEq, Prod.mk.injEq] at h; omega
        · simp only [Option.some.injEq, Prod.mk.injEq] at h; omega

theorem preprocessLine_le {cfg : Cfg} {rx rx' : Pktio.St} {p n n' : Nat} {sd sd' : Option Nat} {b : Bool}
    (hs : ∀ f, rx.sendCb = some f → ∀ t, (f t).2.2 ≤ t.length)
    (h : preprocessLine cfg rx p n sd = some (b, rx', n', sd')) : n' ≤ n ∧ (b = true → n ≠ 0) := by
  unfold preprocessLine at h
  split at h
  · simp only [Option.some.injEq, Prod.mk.injEq] at h
    obtain ⟨rfl, -, rfl, -⟩ := h
    exact ⟨Nat.le_refl _, nofun⟩
  · rename_i hn
    split at h
    · rename_i f hf
      split at h
      · cases h
      · rename_i text ht
        have hl := hs f hf text
        rw [(slice_len ht).1] at hl
        revert hl h
        rcases f text with ⟨st, text', n1⟩
        intro h hl
        simp only [] at h hl
        split at h
        · cases h
        · simp only [Option.some.injEq, Prod.mk.injEq] at h
          exact ⟨by omega, fun _ => hn⟩
    · split at h
      · split at h
        · cases h
        · split at h
          split at h
          · cases h
          · simp only [Option.some.injEq, Prod.mk.injEq] at h
            exact ⟨by omega, fun _ => hn⟩
      · simp only [Option.some.injEq, Prod.mk.injEq] at h
        exact ⟨by omega, fun _ => hn⟩

theorem handleData_le {rx rx' : Pktio.St} {a b c l p : Nat} (h : handleData rx a b c = some (l, p, rx')) : l ≤ c - rx.dataLen := by
  unfold handleData at h
  split at h
  · cases h
  · simp only [] at h
    split at h
    · split at h
      · cases h
      · simp only [Option.some.injEq, Prod.mk.injEq] at h; omega
    · simp only [Option.some.injEq, Prod.mk.injEq] at h; omega

theorem getNextLine_le {rx rx' : Pktio.St} {p n len p' n' : Nat} {st : PktStatus} {t : MsgType}
    (h : getNextLine rx p n len st t = some (p', n', rx')) : n' ≤ n - 1 := by
  unfold getNextLine at h
  simp only [] at h
  split at h
  · split at h
    · cases h
    · rename_i rest _
      cases hp : Pktio.put rx.buf 0 rest with
      | none => rw [hp] at h; cases h
      | some m =>
        rw [hp] at h
        simp only [Option.map_some, Option.some.injEq, Prod.mk.injEq] at h; omega
  · simp only [Option.some.injEq, Prod.mk.injEq] at h; omega

theorem rxEnter_le {cfg : Cfg} {rx rx' : Pktio.St} {chunk : Str} {k : Nat} {c : Cur} (hc : chunk.length ≤ Pktio.room cfg rx)
    (h : rxEnter cfg rx chunk = some (k, rx', some c)) : c.n ≤ cfg.size := by
  unfold rxEnter at h
  unfold Pktio.room at hc
  cases hp : readPos cfg rx with
  | none => rw [hp] at h; cases h
  | some q =>
    obtain ⟨s1, p, q, e⟩ := q
    rw [hp] at h hc
    simp only [] at h hc
    have he : e = (cfg.size : Int) - s1.partialLen - p ∨ (0 < e → chunk.length + s1.partialLen ≤ cfg.size) := by
      unfold readPos at hp
      split at hp
      · simp only [Option.some.injEq, Prod.mk.injEq] at hp
        obtain ⟨rfl, rfl, rfl, rfl⟩ := hp
        left; simp
      · split at hp
        · split at hp
          · cases hp
          · split at hp
            · cases hp
            · rename_i m _
              cases hw : wr m rx.partialLen 0 with
              | none => rw [hw] at hp; cases hp
              | some m' =>
                rw [hw] at hp
                simp only [Option.map_some, Option.some.injEq, Prod.mk.injEq] at hp
                obtain ⟨rfl, rfl, rfl, rfl⟩ := hp
                left; simp
        · simp only [Option.some.injEq, Prod.mk.injEq] at hp
          obtain ⟨rfl, rfl, rfl, rfl⟩ := hp
          left; rfl
    split at h
    · rename_i hpos
      have hn : chunk.length + s1.partialLen ≤ cfg.size := by
        rcases he with he | he
        · omega
        · exact he hpos
      split at h
      · cases h
      · split at h
        · cases h
        · rename_i m _
          split at h
          · cases h
          · rename_i o left p' s' ho
            have hl : left ≤ chunk.length + s1.partialLen := by
              split at ho
              · have := handleData_le ho; omega
              · simp only [Option.some.injEq, Prod.mk.injEq] at ho; omega
            split at h
            · split at h
              · cases h
              · simp only [Option.some.injEq, Prod.mk.injEq] at h
                obtain ⟨-, -, rfl⟩ := h
                exact Nat.le_trans hl hn
            · simp only [Option.some.injEq, Prod.mk.injEq] at h
              obtain ⟨-, -, h⟩ := h
              cases h
    · simp only [Option.some.injEq, Prod.mk.injEq] at h
      obtain ⟨-, -, h⟩ := h
      cases h

/-- One step of the receive task while it works. -/
theorem work_next {cfg : Cfg} {fn : Fns} {chunk : Str} {v : PktStatus} {s : Bytes.St} (hf : SendSane fn) (hs : ¬ Listens s) :
    Listens (Bytes.next cfg fn chunk v s) ∨
      workLeft (Bytes.next cfg fn chunk v s).pc < workLeft s.pc ∧ textLeft (Bytes.next cfg fn chunk v s).pc ≤ textLeft s.pc := by
  obtain ⟨sh, rx, pc, nums, stream, given, lost, ov⟩ := s
  cases pc with
  | wait => exact absurd (.inl rfl) hs
  | crashed => exact absurd (.inr (.inl rfl)) hs
  | bad => exact absurd (.inr (.inr rfl)) hs
  | top c =>
    show Listens (Bytes.top cfg c _) ∨ workLeft (Bytes.top cfg c _).pc < _ ∧ textLeft (Bytes.top cfg c _).pc ≤ _
    unfold Bytes.top
    simp only []
    split
    · exact .inl (.inr (.inr rfl))
    · rename_i h
      have h1 := skipEol_le h
      split
      · exact .inl (.inr (.inr rfl))
      · exact .inl (.inl rfl)
      · rename_i h2
        have h2 := preprocessInput_le h2
        split
        · exact .inl (.inl rfl)
        · right
          simp only [workLeft, textLeft]
          omega
  | pre c r d =>
    show Listens (Bytes.pre cfg fn c r d _) ∨ workLeft (Bytes.pre cfg fn c r d _).pc < _ ∧ textLeft (Bytes.pre cfg fn c r d _).pc ≤ _
    unfold Bytes.pre
    simp only []
    split
    · exact .inl (.inr (.inr rfl))
    · exact .inl (.inl rfl)
    · rename_i h
      have h1 := preprocessLine_le (by
        intro f hf'
        cases d with
        | none => cases hf'
        | some i =>
          simp only [Option.map_some, Option.some.injEq] at hf'
          subst hf'
          exact hf i) h
      split
      · exact .inl (.inr (.inr rfl))
      · exact .inl (.inl rfl)
      · split
        · exact .inl (.inr (.inr rfl))
        · right
          simp only [workLeft, textLeft]
          have := h1.2 rfl
          omega
  | classify c len => right; simp [Bytes.next, workLeft, textLeft]
  | classify2 c len on =>
    show Listens (Bytes.classify cfg c len on _) ∨ workLeft (Bytes.classify cfg c len on _).pc < _ ∧ textLeft (Bytes.classify cfg c len on _).pc ≤ _
    unfold Bytes.classify
    simp only []
    split
    · exact .inl (.inr (.inr rfl))
    · split
      · split
        · exact .inl (.inr (.inr rfl))
        · right; simp [workLeft, textLeft]
      · right; simp [workLeft, textLeft]
      · right; simp [workLeft, textLeft]
  | proc c len => right; simp [Bytes.next, workLeft, textLeft]
  | proc2 c len t =>
    show Listens (Bytes.proc cfg c len t _) ∨ workLeft (Bytes.proc cfg c len t _).pc < _ ∧ textLeft (Bytes.proc cfg c len t _).pc ≤ _
    unfold Bytes.proc
    simp only []
    split
    · exact .inl (.inr (.inr rfl))
    · split <;> (right; simp [workLeft, textLeft])
  | done c len => right; simp [Bytes.next, workLeft, textLeft]
  | handle c len =>
    unfold Bytes.next Bytes.handled Listens
    simp only []
    split
    · exact .inl (.inr (.inr rfl))
    · right
      split
      · simp [workLeft, textLeft]
      · split <;> simp [workLeft, textLeft]
  | call c len =>
    unfold Bytes.next
    simp only []
    split
    · exact .inl (.inr (.inl rfl))
    · right; simp [workLeft, textLeft]
  | inCb c len i =>
    show Listens (Bytes.callback c len i v _) ∨ workLeft (Bytes.callback c len i v _).pc < _ ∧ textLeft (Bytes.callback c len i v _).pc ≤ _
    unfold Bytes.callback
    split
    · exact .inl (.inr (.inr rfl))
    · right; simp [workLeft, textLeft]
  | send c len st => right; simp [Bytes.next, workLeft, textLeft]
  | free c len => right; simp [Bytes.next, workLeft, textLeft]
  | undef c len =>
    show Listens (Bytes.undef cfg c len _) ∨ workLeft (Bytes.undef cfg c len _).pc < _ ∧ textLeft (Bytes.undef cfg c len _).pc ≤ _
    unfold Bytes.undef
    split
    · exact .inl (.inr (.inr rfl))
    · split <;> (right; simp [workLeft, textLeft])
  | undefFail c len => exact .inl (.inl rfl)
  | after c len st t =>
    show Listens (Bytes.after c len st t _) ∨ workLeft (Bytes.after c len st t _).pc < _ ∧ textLeft (Bytes.after c len st t _).pc ≤ _
    unfold Bytes.after
    simp only []
    split
    · rename_i h0
      split
      · exact .inl (.inr (.inr rfl))
      · split
        · exact .inl (.inr (.inr rfl))
        · rename_i left p rx' h
          have := handleData_le h
          by_cases hl : left = 0
          · left; left; simp only [if_pos hl]
          · right
            simp only [if_neg hl, workLeft, textLeft]
            have := h0.2
            omega
    · split
      · exact .inl (.inr (.inr rfl))
      · rename_i h
        have := getNextLine_le h
        right
        simp only [workLeft, textLeft]
        omega

/-- One step of the receive task while it listens. -/
theorem work_enter {cfg : Cfg} {fn : Fns} {chunk : Str} {v : PktStatus} {s : Bytes.St} (hs : Listens s) (hc : chunk.length ≤ Pktio.room cfg s.rx) :
    Listens (Bytes.next cfg fn chunk v s) ∨
      workLeft (Bytes.next cfg fn chunk v s).pc ≤ 14 * cfg.size + 1 ∧ textLeft (Bytes.next cfg fn chunk v s).pc ≤ cfg.size := by
  obtain ⟨sh, rx, pc, nums, stream, given, lost, ov⟩ := s
  rcases hs with h | h | h
  · simp only at h
    subst h
    show Listens (Bytes.enter cfg chunk _) ∨ workLeft (Bytes.enter cfg chunk _).pc ≤ _ ∧ textLeft (Bytes.enter cfg chunk _).pc ≤ _
    unfold Bytes.enter
    simp only []
    split
    · exact .inl (.inr (.inr rfl))
    · exact .inl (.inl rfl)
    · rename_i h
      have := rxEnter_le hc h
      right
      simp only [workLeft, textLeft]
      omega
  · simp only at h
    subst h
    exact .inl (.inr (.inl rfl))
  · simp only at h
    subst h
    exact .inl (.inr (.inr rfl))

/-- At most a buffer of text is in hand. -/
theorem hand_bound {cfg : Cfg} {fn : Fns} {comm : Bool} (hf : SendSane fn) {s : Bytes.St} (h : Bytes.Reachable cfg fn comm s) : textLeft s.pc ≤ cfg.size := by
  have zero : ∀ s : Bytes.St, Listens s → textLeft s.pc ≤ cfg.size := by
    rintro s (h | h | h) <;> rw [h] <;> exact Nat.zero_le _
  induction h with
  | init => exact Nat.zero_le _
  | step hr hs ih =>
    cases hs with
    | thr t h => exact ih
    | rx _ chunk v hc =>
      rename_i s
      by_cases hl : Listens s
      · rcases work_enter (fn := fn) (v := v) hl hc with h | h
        · exact zero _ h
        · exact h.2
      · rcases work_next (cfg := cfg) (chunk := chunk) (v := v) hf hl with h | h
        · exact zero _ h
        · exact Nat.le_trans h.2 ih

theorem busy_bound {cfg : Cfg} {fn : Fns} {comm : Bool} (hf : SendSane fn) {s s' : Bytes.St} (hb : textLeft s.pc ≤ cfg.size) {k : Nat}
    (h : Busy cfg fn comm s k s') : k = 0 ∧ s'.pc = s.pc ∨ ¬ Listens s' ∧ k + workLeft s'.pc ≤ 14 * cfg.size + 13 := by
  induction h with
  | start => exact .inl ⟨rfl, rfl⟩
  | thr t h hs ih => exact ih
  | @rx k s' chunk v h hc hl ih =>
    right
    refine ⟨hl, ?_⟩
    rcases ih with ⟨rfl, hp⟩ | ⟨h1, h2⟩
    · by_cases hls : Listens s'
      · have h := (work_enter (fn := fn) (v := v) hls hc).resolve_left hl
        omega
      · have h := (work_next (cfg := cfg) (chunk := chunk) (v := v) hf hls).resolve_left hl
        rw [hp] at h
        have hw := workLeft_le s.pc
        omega
    · have h := (work_next (cfg := cfg) (chunk := chunk) (v := v) hf h1).resolve_left hl
      omega

/-- C86.  Whatever bytes have come and come, whatever callbacks and tokens there are and whatever the other tasks do, the receive task gets back to
listening after a number of its own steps that depends on the size of the receive buffer only. -/
theorem C86_listens_again {cfg : Cfg} {fn : Fns} {comm : Bool} (hf : SendSane fn) {s s' : Bytes.St} {k : Nat} (hr : Bytes.Reachable cfg fn comm s)
    (h : Busy cfg fn comm s k s') : k ≤ 14 * cfg.size + 13 := by
  rcases busy_bound hf (hand_bound hf hr) h with ⟨rfl, -⟩ | ⟨-, h⟩
  · exact Nat.zero_le _
  · omega

/-- C86.  In particular, it gets there if it is left alone, whatever the callbacks it calls return. -/
theorem C86_gets_back {cfg : Cfg} {fn : Fns} {comm : Bool} (hf : SendSane fn) {s : Bytes.St} (hr : Bytes.Reachable cfg fn comm s) (v : Nat → PktStatus) :
    ∃ k, k ≤ 14 * cfg.size + 14 ∧ Listens (k.rec s (fun j s' => Bytes.next cfg fn [] (v j) s')) := by
  by_contra hne
  have key : ∀ k, k ≤ 14 * cfg.size + 14 → Busy cfg fn comm s k (k.rec s (fun j s' => Bytes.next cfg fn [] (v j) s')) := by
    intro k
    induction k with
    | zero => exact fun _ => .start
    | succ k ih =>
      intro hk
      exact .rx [] (v k) (ih (by omega)) (Nat.zero_le _) (fun hl => hne ⟨k + 1, hk, hl⟩)
  have := C86_listens_again hf hr (key _ (Nat.le_refl _))
  omega

/-! ## Executions -/

def listensB : Pc → Bool
  | .wait => true
  | .crashed => true
  | .bad => true
  | _ => false

/-- Steps of the receive task alone, after none of which it listens. -/
def busyExec (cfg : Cfg) (fn : Fns) : List Str → Bytes.St → Option Bytes.St
  | [], s => some s
  | c :: cs, s =>
    let s' := Bytes.next cfg fn c .ok s
    if c.length ≤ Pktio.room cfg s.rx ∧ listensB s'.pc = false then busyExec cfg fn cs s' else none

theorem busyExec_sound {cfg : Cfg} {fn : Fns} {comm : Bool} {s0 : Bytes.St} {cs : List Str} {k : Nat} {s s' : Bytes.St} (hb : Busy cfg fn comm s0 k s)
    (h : busyExec cfg fn cs s = some s') : Busy cfg fn comm s0 (k + cs.length) s' := by
  induction cs generalizing s k with
  | nil => simp only [busyExec, Option.some.injEq] at h; subst h; exact hb
  | cons c cs ih =>
    simp only [busyExec] at h
    split at h
    · rename_i hc
      have := ih (.rx c .ok hb hc.1 (by rintro (h | h | h) <;> (rw [h] at hc; exact nomatch hc.2))) h
      rw [List.length_cons, Nat.add_comm cs.length 1, ← Nat.add_assoc]; exact this
    · cases h

/-- Two unsolicited codes and the beginning of a third in one read: 12 steps without listening. -/
example : ∃ s, Busy exCfg noFns true (Bytes.init exCfg.size) 12 s := by
  have h : (busyExec exCfg noFns (str "+U:1\r\n+U:2\r\n+" :: List.replicate 11 []) (Bytes.init exCfg.size)).isSome = true := by decide +kernel
  obtain ⟨s, hs⟩ := Option.isSome_iff_exists.mp h
  exact ⟨s, busyExec_sound (k := 0) .start hs⟩

end Cellular.Props
