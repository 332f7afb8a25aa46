import Verif.ApiQuery
import Verif.AtNumber
/-!
# Properties of the PSM and eDRX queries: C47, C48
-/

namespace Cellular.Props
open Cellular Spec Api Signal Tok
open Cellular.AtCore (strtoi AtErr)
open Cellular.AtStr

/-- A number text with white space before it. -/
def Padded (base : Nat) (s : Str) (v : Nat) : Prop :=
  ∃ ws t, s = ws ++ t ∧ (∀ b ∈ ws, White b) ∧ Numeral base t v

theorem strtoi_padded {lm : Nat} (hlm : 2 ^ 31 - 1 ≤ lm) {base : Nat} {s : Str} {v : Nat}
    (h : Padded base s v) (hv : v < 2 ^ 31) : strtoi lm (some s) base = (.success, some (v : Int)) := by
  obtain ⟨ws, t, rfl, hw, ht⟩ := h
  have := C08_strtoi_faithful_partial lm hlm base ws [] t [] false v hw .none ht (by simp)
    (by simp) (by simpa using hv)
  simpa using this

theorem padded_noComma {base : Nat} {s : Str} {v : Nat} (h : Padded base s v) : NoComma s := by
  obtain ⟨ws, t, rfl, hw, ht⟩ := h
  unfold NoComma
  rw [List.mem_append, not_or]
  exact ⟨fun hm => absurd (hw _ hm) (by unfold White; decide), numeral_noComma ht⟩

theorem padded_ne_nil {base : Nat} {s : Str} {v : Nat} (h : Padded base s v) : s ≠ [] := by
  obtain ⟨ws, t, rfl, hw, ht⟩ := h
  have := numeral_ne_nil ht
  simp [this]

theorem parseT3412_padded {lm : Nat} (hlm : 2 ^ 31 - 1 ≤ lm) {s : Str} {v : Nat} (h : Padded 2 s v)
    (hv : v < 256) :
    parseT3412 lm s = match timerSeconds unitT3412 v with
      | some s => (.success, some s)
      | none => (.error, none) := by
  obtain ⟨ws, t, hs, hw, ht⟩ := id h
  refine Eq.trans ?_ (C45_t3412 lm hlm t v ht hv)
  unfold parseT3412
  rw [strtoi_padded hlm h (by omega), strtoi_numeral hlm ht (by omega)]

theorem parseT3324_padded {lm : Nat} (hlm : 2 ^ 31 - 1 ≤ lm) {s : Str} {v : Nat} (h : Padded 2 s v)
    (hv : v < 256) :
    parseT3324 lm s = match timerSeconds unitT3324 v with
      | some s => (.success, some s)
      | none => (.error, none) := by
  obtain ⟨ws, t, hs, hw, ht⟩ := id h
  refine Eq.trans ?_ (C45_t3324 lm hlm t v ht hv)
  unfold parseT3324
  rw [strtoi_padded hlm h (by omega), strtoi_numeral hlm ht (by omega)]

theorem timers_any_text (lm : Nat) (tok : Str) :
    (∀ v : Int, strtoi lm (some tok) 2 = (.success, some v) → 0 ≤ v →
      parseT3412 lm tok = (match timerSeconds unitT3412 (v.toNat % 256) with
        | some s => (.success, some s)
        | none => (.error, none)) ∧
      parseT3324 lm tok = (match timerSeconds unitT3324 (v.toNat % 256) with
        | some s => (.success, some s)
        | none => (.error, none))) ∧
    (∀ v : Int, strtoi lm (some tok) 2 = (.success, some v) → v < 0 →
      parseT3412 lm tok = (.error, none) ∧ parseT3324 lm tok = (.error, none)) ∧
    (∀ e o, strtoi lm (some tok) 2 = (e, o) → e ≠ .success →
      parseT3412 lm tok = (e, none) ∧ parseT3324 lm tok = (e, none)) := by
  refine ⟨?_, ?_, ?_⟩
  · intro v h h0
    obtain ⟨n, rfl⟩ := Int.eq_ofNat_of_zero_le h0
    unfold parseT3412 parseT3324
    rw [h]
    simp only [Int.toNat_natCast]
    rw [if_neg (by omega), if_neg (by omega)]
    have e1 : n % 256 / 32 = n / 32 % 8 := by omega
    have e2 : n % 256 % 32 = n % 32 := by omega
    unfold timerSeconds
    rw [e1, e2]
    have : n / 32 % 8 = 0 ∨ n / 32 % 8 = 1 ∨ n / 32 % 8 = 2 ∨ n / 32 % 8 = 3 ∨ n / 32 % 8 = 4 ∨
      n / 32 % 8 = 5 ∨ n / 32 % 8 = 6 ∨ n / 32 % 8 = 7 := by omega
    rcases this with h | h | h | h | h | h | h | h <;> rw [h] <;>
      simp [unitT3412, unitT3324, deactivated, Nat.mul_comm]
  · intro v h h0
    unfold parseT3412 parseT3324
    rw [h]
    simp [h0]
  · intro e o h he
    unfold parseT3412 parseT3324
    rw [h]
    cases e <;> first | exact absurd rfl he | exact ⟨rfl, rfl⟩

/-- C45: any other text.  A text that begins with a number (C08) is decoded by the low eight bits of the number, a
negative number and a text without a number are refused and nothing is stored. -/
theorem C45_any_text (lm : Nat) (tok : Str) :
    (∀ v : Int, ReadsAs lm 2 tok v → 0 ≤ v →
      parseT3412 lm tok = (match timerSeconds unitT3412 (v.toNat % 256) with
        | some s => (.success, some s)
        | none => (.error, none)) ∧
      parseT3324 lm tok = (match timerSeconds unitT3324 (v.toNat % 256) with
        | some s => (.success, some s)
        | none => (.error, none))) ∧
    (∀ v : Int, ReadsAs lm 2 tok v → v < 0 →
      parseT3412 lm tok = (.error, none) ∧ parseT3324 lm tok = (.error, none)) ∧
    (TextNumber 2 tok none → parseT3412 lm tok = (.error, none) ∧ parseT3324 lm tok = (.error, none)) := by
  obtain ⟨h1, h2, h3⟩ := timers_any_text lm tok
  refine ⟨fun v h => h1 v ((strtoi_iff_reads lm 2 (by omega) tok v).mpr h),
    fun v h => h2 v ((strtoi_iff_reads lm 2 (by omega) tok v).mpr h), fun h => ?_⟩
  exact h3 _ _ (C08_exact lm 2 (by omega) h) (by decide)

/-- A negative number text with white space before it. -/
def PaddedNeg (base : Nat) (s : Str) (v : Nat) : Prop :=
  ∃ ws t, s = ws ++ 45 :: t ∧ (∀ b ∈ ws, White b) ∧ Numeral base t v

theorem strtoi_paddedNeg {lm : Nat} (hlm : 2 ^ 31 - 1 ≤ lm) {base : Nat} {s : Str} {v : Nat}
    (h : PaddedNeg base s v) (hv : v < 2 ^ 31) : strtoi lm (some s) base = (.success, some (-(v : Int))) := by
  obtain ⟨ws, t, rfl, hw, ht⟩ := h
  have := C08_strtoi_faithful_partial lm hlm base ws [45] t [] true v hw .minus ht (by simp)
    (by simp) (by simp; omega)
  simpa using this

example : parseT3412 (2 ^ 31 - 1) (str "-101") = (.error, none) ∧ PaddedNeg 2 (str "-101") 5 := by
  refine ⟨by decide +kernel, [], str "101", by decide, by simp, ?_⟩
  have := binText_numeral 3 5 (by decide)
  rwa [show binText 3 5 = str "101" by decide] at this

/-- Walking a comma separated text: the tokens are the fields. -/
theorem next_join {t : Str} {ts : List Str} (h : NoComma t) (hne : ts = [] → t ≠ [])
    (hl : (joinComma (t :: ts)).length ≤ 256) :
    getNextTok (joinComma (t :: ts)) = (.success, joinComma ts, some t) := by
  cases ts with
  | nil => exact getNextTok_last (hne rfl) h hl
  | cons u us => exact getNextTok_eq h hl

theorem join_tail_len {t : Str} {ts : List Str} : (joinComma ts).length ≤ (joinComma (t :: ts)).length := by
  cases ts with
  | nil => simp [joinComma]
  | cons u us => simp only [joinComma, List.length_append, List.length_cons]; omega

/-! ## C47 -/

/-- What the reception function computes for the fields `fs`, field number `idx` first. -/
def psmFold (lm : Nat) : Nat → List Str → AtErr → Psm → AtErr × Psm
  | _, [], e, p => (e, p)
  | idx, t :: ts, _, p => psmFold lm (idx + 1) ts (parsePsmToken lm t idx p).1 (parsePsmToken lm t idx p).2

theorem psmTokens_join (lm : Nat) (ts : List Str) : ∀ (t : Str) (idx : Nat) (p : Psm) (e : AtErr),
    (∀ f ∈ ts, NoComma f) → ts.getLast? ≠ some [] → (joinComma ts).length ≤ 256 →
    psmTokens lm idx t (joinComma ts) p = psmFold lm idx (t :: ts) e p := by
  induction ts with
  | nil =>
    intro t idx p e _ _ _
    unfold psmTokens
    simp only [joinComma, psmFold]
    unfold getNextTok
    rw [getTok_nil]
  | cons u us ih =>
    intro t idx p e hc hlast hl
    unfold psmTokens
    have hn : getNextTok (joinComma (u :: us)) = (.success, joinComma us, some u) := by
      apply next_join (hc u (by simp)) _ hl
      intro hu; subst hu; simpa using hlast
    simp only [psmFold]
    split
    · rename_i rest' tok' heq
      rw [hn] at heq
      simp only [Prod.mk.injEq, Option.some.injEq, true_and] at heq
      obtain ⟨rfl, rfl⟩ := heq
      have := ih u (idx + 1) (parsePsmToken lm t idx p).2 (parsePsmToken lm t idx p).1
        (fun f hf => hc f (by simp [hf])) (by
          cases us with
          | nil => simp
          | cons v vs => simpa using hlast) (by have := @join_tail_len u us; omega)
      simpa [psmFold] using this
    · rename_i hne
      exact (hne _ _ hn).elim

/-- The reception function on a line whose fields are `fs`. -/
theorem recvPsm_fields (lm : Nat) (pre body : Str) (rest : List Str) (p : Psm) (fs : List Str)
    (hpre : (58 : Byte) ∉ pre) (hl : (pre ++ 58 :: body).length ≤ 256) (hne : fs ≠ [])
    (hc : ∀ f ∈ fs, NoComma f) (hlast : fs.getLast? ≠ some []) (hb : noQuote body = joinComma fs) :
    recvPsm lm ((pre ++ 58 :: body) :: rest) p =
      (translateAt (psmFold lm 0 fs .success p).1, (psmFold lm 0 fs .success p).2) := by
  have hbl : body.length ≤ 256 := by
    simp only [List.length_append, List.length_cons] at hl; omega
  have hqne : noQuote body ≠ [] := by
    rw [hb]; exact joinComma_ne_nil fs hne hlast
  have hbne : body ≠ [] := ne_nil_of_filter hqne
  have hq := noQuote_len body
  cases fs with
  | nil => exact absurd rfl hne
  | cons t ts =>
    have hn : getNextTok (joinComma (t :: ts)) = (.success, joinComma ts, some t) := by
      apply next_join (hc t (by simp)) _ (by rw [← hb]; omega)
      intro hu; subst hu; simpa using hlast
    unfold recvPsm
    simp only
    rw [removePrefix_eq hpre hl]
    simp only
    rw [removeAllDoubleQuote_eq hbne hbl, hb]
    simp only
    rw [hn]
    simp only
    rw [psmTokens_join lm ts t 0 p .success (fun f hf => hc f (by simp [hf])) (by
          cases ts with
          | nil => simp
          | cons v vs => simpa using hlast) (by have := @join_tail_len t ts; rw [← hb] at this; omega)]

/-- C47, what holds: a response in which every field is legal is decoded completely: mode, periodic
RAU, GPRS READY timer, periodic TAU and active time, with the timer tables of 3GPP TS 24.008.
Missing: the converse (see the witness). -/
theorem C47_psm_decoded_partial (lm : Nat) (hlm : 2 ^ 31 - 1 ≤ lm) {t0 t1 t2 t3 t4 : Str}
    {v0 v1 v2 v3 v4 s1 s2 s3 s4 : Nat}
    (h0 : Padded 2 t0 v0) (h1 : Padded 2 t1 v1) (h2 : Padded 2 t2 v2) (h3 : Padded 2 t3 v3)
    (h4 : Padded 2 t4 v4) (b0 : v0 < 256) (b1 : v1 < 256) (b2 : v2 < 256) (b3 : v3 < 256) (b4 : v4 < 256)
    (d1 : timerSeconds unitT3412 v1 = some s1) (d2 : timerSeconds unitT3324 v2 = some s2)
    (d3 : timerSeconds unitT3412 v3 = some s3) (d4 : timerSeconds unitT3324 v4 = some s4)
    (pre body : Str) (rest : List Str) (p : Psm) (hpre : (58 : Byte) ∉ pre)
    (hl : (pre ++ 58 :: body).length ≤ 256) (hb : noQuote body = joinComma [t0, t1, t2, t3, t4]) :
    recvPsm lm ((pre ++ 58 :: body) :: rest) p = (.ok, ⟨v0, s1, s2, s3, s4⟩) := by
  have hlast : t4 ≠ [] := padded_ne_nil h4
  rw [recvPsm_fields lm pre body rest p [t0, t1, t2, t3, t4] hpre hl (by simp) (by
    intro f hf
    simp only [List.mem_cons, List.not_mem_nil, or_false] at hf
    rcases hf with rfl | rfl | rfl | rfl | rfl <;> exact padded_noComma (by assumption)) (by
    simpa using hlast) hb]
  have e0 : ∀ p, parsePsmToken lm t0 0 p = (.success, { p with mode := v0 }) := by
    intro p
    unfold parsePsmToken parseCpsmsMode
    simp only
    rw [strtoi_padded hlm h0 (by omega)]
    simp only
    rw [if_pos (by omega)]
    simp
  have e1 : ∀ p, parsePsmToken lm t1 1 p = (.success, { p with rau := s1 }) := by
    intro p
    unfold parsePsmToken storeTimer
    simp only
    rw [parseT3412_padded hlm h1 b1, d1]
  have e2 : ∀ p, parsePsmToken lm t2 2 p = (.success, { p with rdy := s2 }) := by
    intro p
    unfold parsePsmToken storeTimer
    simp only
    rw [parseT3324_padded hlm h2 b2, d2]
  have e3 : ∀ p, parsePsmToken lm t3 3 p = (.success, { p with tau := s3 }) := by
    intro p
    unfold parsePsmToken storeTimer
    simp only
    rw [parseT3412_padded hlm h3 b3, d3]
  have e4 : ∀ p, parsePsmToken lm t4 4 p = (.success, { p with active := s4 }) := by
    intro p
    unfold parsePsmToken storeTimer
    simp only
    rw [parseT3324_padded hlm h4 b4, d4]
  simp [psmFold, e0, e1, e2, e3, e4, translateAt]

example : recvPsm (2 ^ 31 - 1) [str "+CPSMS: 1,\"00100001\",\"00000001\",\"01000111\",\"00000010\""]
    ⟨0xFF, 0, 0, 0, 0⟩ = (.ok, ⟨1, 3600, 2, 252000, 4⟩) := by decide +kernel

/-- The timer fields in the order of the response, with the tables that decode them. -/
def psmTable (i : Nat) : Nat → Option Nat := if i % 2 = 1 then unitT3412 else unitT3324

/-- C47, what holds: an illegal value in the last field (number 1..4) of a response makes the query fail,
and so does a negative number there, any sixth field, and a mode that does not fit into one byte. -/
theorem C47_last_field_refused_partial (lm : Nat) (hlm : 2 ^ 31 - 1 ≤ lm) (fs : List Str) (t : Str)
    (hc : ∀ f ∈ fs, NoComma f) (hbad : (1 ≤ fs.length ∧ fs.length ≤ 4 ∧
        ∃ v, Padded 2 t v ∧ v < 256 ∧ timerSeconds (psmTable fs.length) v = none) ∨
      (fs.length ≤ 4 ∧ ∃ v, PaddedNeg 2 t v ∧ 0 < v ∧ v < 2 ^ 31) ∨
      (5 ≤ fs.length ∧ NoComma t ∧ t ≠ []) ∨ (fs = [] ∧ ∃ v, Padded 2 t v ∧ 256 ≤ v ∧ v < 2 ^ 31))
    (pre body : Str) (rest : List Str) (p : Psm) (hpre : (58 : Byte) ∉ pre)
    (hl : (pre ++ 58 :: body).length ≤ 256) (hb : noQuote body = joinComma (fs ++ [t])) :
    (recvPsm lm ((pre ++ 58 :: body) :: rest) p).1 ≠ .ok := by
  have ht : NoComma t ∧ t ≠ [] := by
    rcases hbad with ⟨_, _, v, hp, _⟩ | ⟨_, v, ⟨ws, t', rfl, hw, hn⟩, _⟩ | ⟨_, h1, h2⟩ | ⟨_, v, hp, _⟩
    · exact ⟨padded_noComma hp, padded_ne_nil hp⟩
    · refine ⟨?_, by simp⟩
      unfold NoComma
      rw [List.mem_append, List.mem_cons, not_or, not_or]
      exact ⟨fun hm => absurd (hw _ hm) (by unfold White; decide), by decide, numeral_noComma hn⟩
    · exact ⟨h1, h2⟩
    · exact ⟨padded_noComma hp, padded_ne_nil hp⟩
  rw [recvPsm_fields lm pre body rest p (fs ++ [t]) hpre hl (by simp) (by
    intro f hf
    rw [List.mem_append, List.mem_singleton] at hf
    rcases hf with hf | rfl
    · exact hc f hf
    · exact ht.1) (by simpa using ht.2) hb]
  have hfold : ∀ (fs : List Str) (i : Nat) (e : AtErr) (p : Psm),
      ∃ q, psmFold lm i (fs ++ [t]) e p = parsePsmToken lm t (i + fs.length) q := by
    intro fs
    induction fs with
    | nil => intro i e p; exact ⟨p, rfl⟩
    | cons f fs ih =>
      intro i e p
      obtain ⟨q, hq⟩ := ih (i + 1) (parsePsmToken lm f i p).1 (parsePsmToken lm f i p).2
      refine ⟨q, ?_⟩
      simp only [List.cons_append, psmFold, hq, List.length_cons]
      congr 1
      omega
  obtain ⟨q, hq⟩ := hfold fs 0 .success p
  rw [hq, Nat.zero_add]
  simp only
  have : (parsePsmToken lm t fs.length q).1 = .error := by
    rcases hbad with ⟨h1, h4, v, hp, hv, hn⟩ | ⟨h4, v, hn, h0, hv⟩ | ⟨h5, _⟩ | ⟨rfl, v, hp, hv1, hv2⟩
    · have : fs.length = 1 ∨ fs.length = 2 ∨ fs.length = 3 ∨ fs.length = 4 := by omega
      rcases this with h | h | h | h <;> rw [h] at hn ⊢ <;> simp only [psmTable] at hn <;>
        simp [parsePsmToken, storeTimer, parseT3412_padded hlm hp hv, parseT3324_padded hlm hp hv] <;>
        simp at hn <;> simp [hn]
    · have hs := strtoi_paddedNeg (lm := lm) hlm hn hv
      obtain ⟨e1, e2⟩ := (timers_any_text lm t).2.1 _ hs (by omega)
      have : fs.length = 0 ∨ fs.length = 1 ∨ fs.length = 2 ∨ fs.length = 3 ∨ fs.length = 4 := by omega
      rcases this with h | h | h | h | h <;> rw [h] <;>
        simp [parsePsmToken, storeTimer, e1, e2, parseCpsmsMode, hs]
      rw [if_neg (by omega)]
    · obtain ⟨k, hk⟩ : ∃ k, fs.length = k + 5 := ⟨fs.length - 5, by omega⟩
      rw [hk]; rfl
    · simp only [List.length_nil, parsePsmToken, parseCpsmsMode]
      rw [strtoi_padded hlm hp (by omega)]
      simp only
      rw [if_neg (by omega)]
  rw [this]
  decide

/-- C47 as written is false: an illegal periodic RAU value (unit 6) followed by legal fields is
reported as success, with the member left at 0. -/
theorem C47_witness_masked_failure :
    timerSeconds unitT3412 0b11000000 = none ∧
    recvPsm (2 ^ 31 - 1) [str "+CPSMS: 1,\"11000000\",\"00000001\",\"00000001\",\"00000001\""]
      ⟨0xFF, 0, 0, 0, 0⟩ = (.ok, ⟨1, 0, 2, 600, 2⟩) := by decide +kernel

/-! ## C48 -/

/-- A response line for one radio access technology: number and requested cycle. -/
def EdrxLine (line : Str) (rat value : Nat) : Prop :=
  ∃ pre body t0 t1 more, line = pre ++ 58 :: body ∧ (58 : Byte) ∉ pre ∧ line.length ≤ 256 ∧
    noQuote body = joinComma (t0 :: t1 :: more) ∧ (∀ f ∈ more, NoComma f) ∧
    (more ≠ [] → more.getLast? ≠ some []) ∧
    Padded 10 t0 rat ∧ rat < 256 ∧ Padded 2 t1 value ∧ value < 256 ∧
    line ≠ str "+CEDRXS: 0" ∧ line ≠ str "+CEDRXS:"

theorem edrxTokens_more (lm : Nat) (ts : List Str) : ∀ (t : Str) (idx count : Nat) (l : EdrxList), 2 ≤ idx →
    (∀ f ∈ ts, NoComma f) → ts.getLast? ≠ some [] → (joinComma ts).length ≤ 256 →
    edrxTokens lm idx count t (joinComma ts) l = some l := by
  induction ts with
  | nil =>
    intro t idx count l hi _ _ _
    unfold edrxTokens
    obtain ⟨k, rfl⟩ : ∃ k, idx = k + 2 := ⟨idx - 2, by omega⟩
    simp only [parseEdrxToken, joinComma]
    unfold getNextTok
    rw [getTok_nil]
  | cons u us ih =>
    intro t idx count l hi hc hlast hl
    unfold edrxTokens
    obtain ⟨k, rfl⟩ : ∃ k, idx = k + 2 := ⟨idx - 2, by omega⟩
    have hn : getNextTok (joinComma (u :: us)) = (.success, joinComma us, some u) := by
      apply next_join (hc u (by simp)) _ hl
      intro hu; subst hu; simpa using hlast
    simp only [parseEdrxToken]
    split
    · rename_i rest' tok' heq
      rw [hn] at heq
      simp only [Prod.mk.injEq, Option.some.injEq, true_and] at heq
      obtain ⟨rfl, rfl⟩ := heq
      exact ih u (k + 2 + 1) count l (by omega) (fun f hf => hc f (by simp [hf])) (by
          cases us with
          | nil => simp
          | cons v vs => simpa using hlast) (by have := @join_tail_len u us; omega)
    · rename_i hne
      exact (hne _ _ hn).elim

theorem edrxLine_parse {lm : Nat} (hlm : 2 ^ 31 - 1 ≤ lm) {line : Str} {rat value : Nat}
    (h : EdrxLine line rat value) (count : Nat) (l : EdrxList) :
    parseEdrxLine lm line count l =
      if count < l.list.length then
        some (.success, { l with list := l.list.set count ⟨rat, value⟩ }) else none := by
  obtain ⟨pre, body, t0, t1, more, rfl, hpre, hl, hb, hc, hlast, h0, b0, h1, b1, _⟩ := h
  have hbl : body.length ≤ 256 := by
    simp only [List.length_append, List.length_cons] at hl; omega
  have hqne : noQuote body ≠ [] := by
    rw [hb]; simp [joinComma]
  have hbne : body ≠ [] := ne_nil_of_filter hqne
  have hq := noQuote_len body
  have hj : (joinComma (t0 :: t1 :: more)).length ≤ 256 := by rw [← hb]; omega
  have hj1 : (joinComma (t1 :: more)).length ≤ 256 := by
    have := @join_tail_len t0 (t1 :: more); omega
  have hj2 : (joinComma more).length ≤ 256 := by
    have := @join_tail_len t1 more; omega
  unfold parseEdrxLine
  rw [removePrefix_eq hpre hl]
  simp only
  rw [removeAllDoubleQuote_eq hbne hbl, hb]
  simp only
  rw [next_join (padded_noComma h0) (fun hh => by simp at hh) hj]
  simp only
  have n1 := next_join (padded_noComma h1) (fun _ => padded_ne_nil h1) hj1
  have p0 : parseEdrxToken lm t0 0 count l = l.upd count (fun e => { e with rat := rat }) := by
    unfold parseEdrxToken
    simp only
    rw [strtoi_padded hlm h0 (by omega)]
    simp only
    rw [if_pos (by omega)]
    simp
  have p1 : ∀ l : EdrxList, parseEdrxToken lm t1 1 count l = l.upd count (fun e => { e with value := value }) := by
    intro l
    unfold parseEdrxToken
    simp only
    rw [strtoi_padded hlm h1 (by omega)]
    simp only
    rw [if_pos (by omega)]
    simp
  unfold edrxTokens
  rw [p0]
  by_cases hlt : count < l.list.length
  · rw [if_pos hlt]
    have u0 : l.upd count (fun e => { e with rat := rat }) =
        some { l with list := l.list.set count { l.list[count] with rat := rat } } := by
      unfold EdrxList.upd
      rw [List.getElem?_eq_getElem hlt]
    rw [u0]
    simp only
    split
    case h_2 hne => exact (hne _ _ n1).elim
    rename_i rest' tok' heq
    rw [n1] at heq
    simp only [Prod.mk.injEq, Option.some.injEq, true_and] at heq
    obtain ⟨rfl, rfl⟩ := heq
    unfold edrxTokens
    rw [p1]
    have u1 : ({ l with list := l.list.set count { l.list[count] with rat := rat } } : EdrxList).upd count
        (fun e => { e with value := value }) = some { l with list := l.list.set count ⟨rat, value⟩ } := by
      unfold EdrxList.upd
      simp only
      rw [List.getElem?_set_self hlt]
      simp
    rw [u1]
    simp only
    cases more with
    | nil =>
      have : getNextTok (joinComma []) = (.badParameter, [], none) := getTok_nil 44
      split
      · rename_i heq; rw [this] at heq; simp at heq
      · rfl
    | cons u us =>
      have hl' := hlast (by simp)
      have n2 : getNextTok (joinComma (u :: us)) = (.success, joinComma us, some u) := by
        apply next_join (hc u (by simp)) _ hj2
        intro hu; subst hu; simpa using hl'
      split
      case h_2 hne => exact (hne _ _ n2).elim
      rename_i rest' tok' heq
      rw [n2] at heq
      simp only [Prod.mk.injEq, Option.some.injEq, true_and] at heq
      obtain ⟨rfl, rfl⟩ := heq
      rw [edrxTokens_more lm us u 2 count _ (by omega) (fun f hf => hc f (by simp [hf])) (by
          cases us with
          | nil => simp
          | cons v vs => simpa using hl') (by have := @join_tail_len u us; omega)]
      rfl
  · rw [if_neg hlt]
    have u0 : l.upd count (fun e => { e with rat := rat }) = none := by
      unfold EdrxList.upd
      rw [List.getElem?_eq_none (by omega)]
    rw [u0]
    rfl

/-- The response lines for these (technology, cycle) pairs, in order; a line `+CEDRXS: 0` or `+CEDRXS:` says that nothing
is set. -/
inductive EdrxLines : List Str → List (Nat × Nat) → Prop
  | nil : EdrxLines [] []
  | unset {line : Str} {ls : List Str} {es : List (Nat × Nat)} :
      line = str "+CEDRXS: 0" ∨ line = str "+CEDRXS:" → EdrxLines ls es → EdrxLines (line :: ls) es
  | cons {line : Str} {ls : List Str} {r v : Nat} {es : List (Nat × Nat)} :
      EdrxLine line r v → EdrxLines ls es → EdrxLines (line :: ls) ((r, v) :: es)

theorem recvEdrxLoop_lines {lm : Nat} (hlm : 2 ^ 31 - 1 ≤ lm) {ls : List Str} {es : List (Nat × Nat)}
    (h : EdrxLines ls es) : ∀ (done : List Edrx) (n c : Nat), done.length + n ≤ 255 → c = done.length →
    recvEdrxLoop lm ls done.length ⟨done ++ List.replicate n ⟨0, 0⟩, c⟩ =
      if es.length ≤ n then
        some (.ok, ⟨done ++ es.map (fun e => ⟨e.1, e.2⟩) ++ List.replicate (n - es.length) ⟨0, 0⟩,
          done.length + es.length⟩)
      else none := by
  induction h with
  | nil =>
    intro done n c _ hc
    subst hc
    simp [recvEdrxLoop]
  | @unset line ls es hline _ ih =>
    intro done n c hn _
    simp only [recvEdrxLoop]
    rw [if_pos hline]
    exact ih done n _ hn rfl
  | @cons line ls r v es hline hls ih =>
    intro done n c hn _
    have hx := hline
    obtain ⟨_, _, _, _, _, _, _, _, _, _, _, _, _, _, _, x1, x2⟩ := hx
    simp only [recvEdrxLoop]
    rw [if_neg (by simp [x1, x2]), edrxLine_parse hlm hline]
    simp only [List.length_append, List.length_replicate]
    cases n with
    | zero =>
      rw [if_neg (by omega), if_neg (by simp)]
    | succ n =>
      rw [if_pos (by omega)]
      simp only [translateAt]
      have hm : (done.length + 1) % 256 = (done ++ [(⟨r, v⟩ : Edrx)]).length := by simp; omega
      have hs : (done ++ List.replicate (n + 1) (⟨0, 0⟩ : Edrx)).set done.length ⟨r, v⟩ =
          (done ++ [⟨r, v⟩]) ++ List.replicate n ⟨0, 0⟩ := by
        rw [List.set_append_right _ _ (by omega)]
        simp [List.replicate_succ]
      rw [hm, hs, ih (done ++ [(⟨r, v⟩ : Edrx)]) n (done ++ [(⟨r, v⟩ : Edrx)]).length (by simp; omega) rfl]
      by_cases hle : es.length ≤ n
      · rw [if_pos hle, if_pos (by simp; omega)]
        simp; omega
      · rw [if_neg hle, if_neg (by simp; omega)]

/-- C48, what holds: up to four well-formed lines are stored in order, with their number; the other
entries are zero.  Missing: more than four lines (see the witness). -/
theorem C48_edrx_decoded_partial (lm : Nat) (hlm : 2 ^ 31 - 1 ≤ lm) {ls : List Str} {es : List (Nat × Nat)}
    (h : EdrxLines ls es) (hne : ls ≠ []) (h4 : es.length ≤ 4) :
    recvEdrx lm ls EdrxList.zero =
      some (.ok, ⟨es.map (fun e => ⟨e.1, e.2⟩) ++ List.replicate (4 - es.length) ⟨0, 0⟩, es.length⟩) := by
  have := recvEdrxLoop_lines hlm h [] 4 0 (by decide) rfl
  cases ls with
  | nil => exact absurd rfl hne
  | cons l ls =>
    simp only [recvEdrx]
    simp only [List.length_nil, List.nil_append, Nat.zero_add] at this
    rw [if_pos h4] at this
    exact this

example : EdrxLine (str "+CEDRXS: 4,\"0101\"") 4 5 :=
  ⟨str "+CEDRXS", str " 4,\"0101\"", str " 4", str "0101", [], by decide, by decide, by decide, by decide,
    by simp, by simp, ⟨str " ", str "4", by decide, by decide, .one (b := 52) (by decide) (by decide)⟩, by decide,
    ⟨[], str "0101", by decide, by decide, by
      have := binText_numeral 4 5 (by decide)
      rwa [show binText 4 5 = str "0101" by decide] at this⟩, by decide, by decide, by decide⟩

/-- C48 as written is false: with more than four well-formed lines the function writes beyond the end
of the caller's list (undefined behaviour). -/
theorem C48_witness_overrun (lm : Nat) (hlm : 2 ^ 31 - 1 ≤ lm) {ls : List Str} {es : List (Nat × Nat)}
    (h : EdrxLines ls es) (h4 : 4 < es.length) : recvEdrx lm ls EdrxList.zero = none := by
  have := recvEdrxLoop_lines hlm h [] 4 0 (by decide) rfl
  rw [if_neg (by omega)] at this
  cases h with
  | nil => simp at h4
  | unset _ _ => exact this
  | cons _ _ => exact this

theorem parseEdrxToken_safe (lm : Nat) (tok : Str) (i c : Nat) (l : EdrxList) (h : c < l.list.length) :
    ∃ l', parseEdrxToken lm tok i c l = some l' ∧ l'.list.length = l.list.length ∧ l'.count = l.count := by
  have hu : ∀ f, ∃ l', l.upd c f = some l' ∧ l'.list.length = l.list.length ∧ l'.count = l.count := by
    intro f
    unfold EdrxList.upd
    rw [List.getElem?_eq_getElem h]
    exact ⟨_, rfl, by simp, rfl⟩
  unfold parseEdrxToken
  split
  · split
    · split
      · exact hu _
      · exact ⟨l, rfl, rfl, rfl⟩
    · exact ⟨l, rfl, rfl, rfl⟩
  · split
    · split
      · exact hu _
      · exact ⟨l, rfl, rfl, rfl⟩
    · exact ⟨l, rfl, rfl, rfl⟩
  · exact ⟨l, rfl, rfl, rfl⟩

theorem edrxTokens_safe (lm : Nat) : ∀ (n : Nat) (rest : Str) (tok : Str) (i c : Nat) (l : EdrxList),
    rest.length ≤ n → c < l.list.length →
    ∃ l', edrxTokens lm i c tok rest l = some l' ∧ l'.list.length = l.list.length ∧ l'.count = l.count := by
  intro n
  induction n with
  | zero =>
    intro rest tok i c l hn h
    obtain ⟨l1, e1, e2, e3⟩ := parseEdrxToken_safe lm tok i c l h
    have hr : rest = [] := List.eq_nil_of_length_eq_zero (by omega)
    subst hr
    unfold edrxTokens
    rw [e1]
    simp only
    split
    · rename_i heq
      have := Reg.getNextTok_rest_lt _ _ _ heq
      simp at this
    · exact ⟨l1, rfl, e2, e3⟩
  | succ n ih =>
    intro rest tok i c l hn h
    obtain ⟨l1, e1, e2, e3⟩ := parseEdrxToken_safe lm tok i c l h
    unfold edrxTokens
    rw [e1]
    simp only
    split
    · rename_i rest' tok' heq
      have := Reg.getNextTok_rest_lt _ _ _ heq
      obtain ⟨l2, f1, f2, f3⟩ := ih rest' tok' (i + 1) c l1 (by omega) (by omega)
      exact ⟨l2, f1, by omega, by omega⟩
    · exact ⟨l1, rfl, e2, e3⟩

theorem recvEdrxLoop_safe (lm : Nat) : ∀ (ls : List Str) (c : Nat) (l : EdrxList),
    c + ls.length ≤ 4 → l.list.length = 4 → l.count ≤ 4 →
    ∃ r, recvEdrxLoop lm ls c l = some r ∧ r.2.list.length = 4 ∧ r.2.count ≤ 4 := by
  intro ls
  induction ls with
  | nil => intro c l _ h1 h2; exact ⟨_, rfl, h1, h2⟩
  | cons line ls ih =>
    intro c l hc h1 h2
    simp only [List.length_cons] at hc
    simp only [recvEdrxLoop]
    split
    · exact ih c _ (by omega) h1 (by simp only; omega)
    · have hp : ∃ e l', parseEdrxLine lm line c l = some (e, l') ∧ l'.list.length = 4 := by
        unfold parseEdrxLine
        split
        · split
          · split
            · obtain ⟨l', e1, e2, _⟩ := edrxTokens_safe lm _ _ _ 0 c l (Nat.le_refl _) (by omega)
              rw [e1]
              exact ⟨_, _, rfl, by omega⟩
            · exact ⟨_, _, rfl, h1⟩
          · exact ⟨_, _, rfl, h1⟩
        · exact ⟨_, _, rfl, h1⟩
      obtain ⟨e, l', e1, e2⟩ := hp
      rw [e1]
      simp only
      split
      · exact ih _ _ (by omega) e2 (by simp only; omega)
      · exact ⟨_, rfl, e2, by simp only; omega⟩

/-- C48, what holds: whatever the contents of up to four response lines, the caller's list is not
overrun and the number reported is at most four. -/
theorem C48_edrx_safe_partial (lm : Nat) (w : World) (ho : LibraryOpen w) (p : EdrxList)
    (hm : ∀ ls, w.modem w.sent ⟨str "AT+CEDRXS?", .multiWithPrefix, some (str "+CEDRXS")⟩ = .lines ls → ls.length ≤ 4) :
    ∃ r l, getEidrxSettings lm w (some p) = some r ∧ r.out = some l ∧ l.list.length = 4 ∧ l.count ≤ 4 := by
  unfold getEidrxSettings requestCb request
  rw [checkLib_open ho]
  simp only
  rw [if_neg (by decide)]
  have hz : EdrxList.zero.list.length = 4 ∧ EdrxList.zero.count ≤ 4 := by decide
  cases hr : w.modem w.sent ⟨str "AT+CEDRXS?", .multiWithPrefix, some (str "+CEDRXS")⟩ with
  | sendFailed => exact ⟨_, _, rfl, rfl, hz⟩
  | timeout => exact ⟨_, _, rfl, rfl, hz⟩
  | error => exact ⟨_, _, rfl, rfl, hz⟩
  | lines ls =>
    have hr' : ∃ r, recvEdrx lm ls EdrxList.zero = some r ∧ r.2.list.length = 4 ∧ r.2.count ≤ 4 := by
      unfold recvEdrx
      split
      · exact ⟨_, rfl, hz⟩
      · exact recvEdrxLoop_safe lm ls 0 _ (by have := hm _ hr; omega) hz.1 hz.2
    obtain ⟨q, e1, e2⟩ := hr'
    simp only [e1]
    exact ⟨_, _, rfl, rfl, e2⟩

/-- Every member of every entry fits the byte it is stored in. -/
def EdrxBytes (l : EdrxList) : Prop := ∀ e ∈ l.list, e.rat ≤ 255 ∧ e.value ≤ 255

theorem upd_bytes {l l' : EdrxList} {i : Nat} {f : Edrx → Edrx} (hu : l.upd i f = some l') (hl : EdrxBytes l)
    (hf : ∀ e, e.rat ≤ 255 ∧ e.value ≤ 255 → (f e).rat ≤ 255 ∧ (f e).value ≤ 255) : EdrxBytes l' := by
  unfold EdrxList.upd at hu
  split at hu
  · exact absurd hu (by simp)
  · rename_i e he
    simp only [Option.some.injEq] at hu
    subst hu
    intro x hx
    rcases List.mem_or_eq_of_mem_set hx with h | h
    · exact hl x h
    · rw [h]; exact hf e (hl e (List.mem_of_getElem? he))

theorem parseEdrxToken_bytes (lm : Nat) (tok : Str) (i c : Nat) {l l' : EdrxList}
    (h : parseEdrxToken lm tok i c l = some l') (hl : EdrxBytes l) : EdrxBytes l' := by
  unfold parseEdrxToken at h
  split at h
  · split at h
    · split at h
      · exact upd_bytes h hl (fun e he => ⟨by simp only; omega, he.2⟩)
      · simp only [Option.some.injEq] at h; exact h ▸ hl
    · simp only [Option.some.injEq] at h; exact h ▸ hl
  · split at h
    · split at h
      · exact upd_bytes h hl (fun e he => ⟨he.1, by simp only; omega⟩)
      · simp only [Option.some.injEq] at h; exact h ▸ hl
    · simp only [Option.some.injEq] at h; exact h ▸ hl
  · simp only [Option.some.injEq] at h; exact h ▸ hl

theorem edrxTokens_bytes (lm : Nat) : ∀ (n : Nat) (rest : Str) (tok : Str) (i c : Nat) (l l' : EdrxList),
    rest.length ≤ n → edrxTokens lm i c tok rest l = some l' → EdrxBytes l → EdrxBytes l' := by
  intro n
  induction n with
  | zero =>
    intro rest tok i c l l' hn h hl
    unfold edrxTokens at h
    split at h
    · exact absurd h (by simp)
    · rename_i l1 h1
      have hb := parseEdrxToken_bytes lm tok i c h1 hl
      split at h
      · rename_i rest' tok' heq
        have := Reg.getNextTok_rest_lt _ _ _ heq
        omega
      · simp only [Option.some.injEq] at h; exact h ▸ hb
  | succ n ih =>
    intro rest tok i c l l' hn h hl
    unfold edrxTokens at h
    split at h
    · exact absurd h (by simp)
    · rename_i l1 h1
      have hb := parseEdrxToken_bytes lm tok i c h1 hl
      split at h
      · rename_i rest' tok' heq
        have := Reg.getNextTok_rest_lt _ _ _ heq
        exact ih rest' tok' _ c l1 l' (by omega) h hb
      · simp only [Option.some.injEq] at h; exact h ▸ hb

theorem recvEdrxLoop_bytes (lm : Nat) : ∀ (ls : List Str) (c : Nat) (l : EdrxList) (r : PktStatus × EdrxList),
    recvEdrxLoop lm ls c l = some r → EdrxBytes l → EdrxBytes r.2 := by
  intro ls
  induction ls with
  | nil => intro c l r h hl; simp only [recvEdrxLoop, Option.some.injEq] at h; exact h ▸ hl
  | cons line ls ih =>
    intro c l r h hl
    simp only [recvEdrxLoop] at h
    split at h
    · exact ih _ _ r h hl
    · split at h
      · exact absurd h (by simp)
      · rename_i e l1 h1
        have hb : EdrxBytes l1 := by
          unfold parseEdrxLine at h1
          split at h1
          · split at h1
            · split at h1
              · simp only [Option.map_eq_some_iff, Prod.mk.injEq] at h1
                obtain ⟨a, ha, _, rfl⟩ := h1
                exact edrxTokens_bytes lm _ _ _ _ _ _ _ (Nat.le_refl _) ha hl
              · simp only [Option.some.injEq, Prod.mk.injEq] at h1; exact h1.2 ▸ hl
            · simp only [Option.some.injEq, Prod.mk.injEq] at h1; exact h1.2 ▸ hl
          · simp only [Option.some.injEq, Prod.mk.injEq] at h1; exact h1.2 ▸ hl
        split at h
        · exact ih _ _ r h hb
        · simp only [Option.some.injEq] at h; exact h ▸ hb

/-- C48: whatever the modem answers, no entry of the list the caller is given carries a value outside the
range of its byte (a RAT or eDRX value above 255 is not stored). -/
theorem C48_edrx_ranges (lm : Nat) (w : World) (ho : LibraryOpen w) (p : EdrxList)
    {r : Res (Option EdrxList)} {l : EdrxList} (h : getEidrxSettings lm w (some p) = some r) (hout : r.out = some l) :
    ∀ e ∈ l.list, e.rat ≤ 255 ∧ e.value ≤ 255 := by
  have hz : EdrxBytes EdrxList.zero := by unfold EdrxBytes; decide
  unfold getEidrxSettings requestCb request at h
  rw [checkLib_open ho] at h
  simp only at h
  rw [if_neg (by decide)] at h
  cases hr : w.modem w.sent ⟨str "AT+CEDRXS?", .multiWithPrefix, some (str "+CEDRXS")⟩ with
  | sendFailed => rw [hr] at h; simp at h; subst h; simp at hout; subst hout; exact hz
  | timeout => rw [hr] at h; simp at h; subst h; simp at hout; subst hout; exact hz
  | error => rw [hr] at h; simp at h; subst h; simp at hout; subst hout; exact hz
  | lines ls =>
    rw [hr] at h
    simp only at h
    cases hq : recvEdrx lm ls EdrxList.zero with
    | none => rw [hq] at h; simp at h
    | some q =>
      rw [hq] at h
      simp at h
      subst h
      simp at hout
      subst hout
      unfold recvEdrx at hq
      split at hq
      · simp at hq; subst hq; exact hz
      · exact recvEdrxLoop_bytes lm _ _ _ q hq hz

/-- An answer with a RAT and an eDRX value that do not fit a byte: they are not stored. -/
example : recvEdrx (2 ^ 31 - 1) [str "+CEDRXS: 300,\"100000000\"", str "+CEDRXS: 255,\"11111111\""] EdrxList.zero =
    some (.ok, ⟨[⟨0, 0⟩, ⟨255, 255⟩, ⟨0, 0⟩, ⟨0, 0⟩], 2⟩) := by decide +kernel

end Cellular.Props
