import Verif.Signal
/-! # Properties C28, C29, C30, C39 -/
namespace Cellular.Props
open Cellular AtCore Signal

/-- The radio technologies with a defined bar scale, as numbers of `CellularRat_t` (cellular_types.h): GSM = 0, EDGE = 3
(received signal strength) ... -/
def GsmLike (rat : Nat) : Prop := rat = 0 ∨ rat = 3
/-- ... and LTE = 7, Cat-M1 = 8, NB-IoT = 9 (reference signal power). -/
def LteLike (rat : Nat) : Prop := rat = 7 ∨ rat = 8 ∨ rat = 9

/-- The power that is shown for a technology. -/
def shownPower (rat : Nat) (i : SignalInfo) : Int := if rat = 0 ∨ rat = 3 then i.rssi else i.rsrp

/-- In range: 1..5 for every non-positive power; and only the bars change.  MISSING for the full C28:
a (physically impossible) positive power gives 255 (witness). -/
theorem C28_bars_in_range_partial (rat : Nat) (hr : GsmLike rat ∨ LteLike rat) (i : SignalInfo)
    (hp : shownPower rat i ≤ 0) :
    ∃ b, computeSignalBars rat (some i) = (.success, some { i with bars := b }) ∧ 1 ≤ b ∧ b ≤ 5 := by
  have hb : ∀ (v : Int), v ≤ 0 → ∀ t ∈ [gsmTable, catmTable, nbTable],
      1 ≤ barsLoop v t ∧ barsLoop v t ≤ 5 := by
    intro v hv t ht
    simp only [List.mem_cons, List.not_mem_nil, or_false] at ht
    rcases ht with h | h | h <;> subst h <;>
      simp only [gsmTable, catmTable, nbTable, barsLoop] <;> (repeat' split) <;> omega
  simp only [GsmLike, LteLike, ratGsm, ratEdge, ratLte, ratCatM1, ratNbIot] at hr
  rcases hr with (h | h) | (h | h | h) <;> subst h <;>
    refine ⟨_, rfl, ?_⟩ <;>
    simp only [getSignalBars, shownPower, ratGsm, ratEdge, ratLte, ratCatM1, ratNbIot] at hp ⊢ <;>
    simp at hp ⊢ <;> first | exact hb _ hp gsmTable (by simp) | exact hb _ hp catmTable (by simp) | exact hb _ hp nbTable (by simp)

/-- Monotone: a stronger signal never shows fewer bars. -/
theorem C28_bars_monotone (rat : Nat) (hr : GsmLike rat ∨ LteLike rat) (i j : SignalInfo)
    (hij : shownPower rat i ≤ shownPower rat j) (bi bj : SignalInfo)
    (hi : computeSignalBars rat (some i) = (.success, some bi))
    (hj : computeSignalBars rat (some j) = (.success, some bj)) : bi.bars ≤ bj.bars := by
  have hb : ∀ (v w : Int), v ≤ w → ∀ t ∈ [gsmTable, catmTable, nbTable],
      barsLoop v t ≤ barsLoop w t := by
    intro v w hv t ht
    simp only [List.mem_cons, List.not_mem_nil, or_false] at ht
    rcases ht with h | h | h <;> subst h <;>
      simp only [gsmTable, catmTable, nbTable, barsLoop, invalidBars] <;> (repeat' split) <;> omega
  simp only [GsmLike, LteLike, ratGsm, ratEdge, ratLte, ratCatM1, ratNbIot] at hr
  rcases hr with (h | h) | (h | h | h) <;> subst h <;>
    simp only [computeSignalBars, getSignalBars, shownPower, ratGsm, ratEdge, ratLte, ratCatM1,
      ratNbIot] at hij hi hj <;>
    simp at hij hi hj <;> subst hi <;> subst hj <;>
    first | exact hb _ _ hij gsmTable (by simp) | exact hb _ _ hij catmTable (by simp) | exact hb _ _ hij nbTable (by simp)

/-- Other technologies are refused and marked invalid. -/
theorem C28_unsupported_refused (rat : Nat) (h : ¬ (GsmLike rat ∨ LteLike rat)) (i : SignalInfo) :
    computeSignalBars rat (some i) = (.unknown, some { i with bars := 255 }) := by
  simp only [GsmLike, LteLike] at h
  have h1 : ¬ (rat = ratGsm ∨ rat = ratEdge) := fun e => h (Or.inl e)
  have h2 : ¬ (rat = ratLte ∨ rat = ratCatM1 ∨ rat = ratNbIot) := fun e => h (Or.inr e)
  simp [computeSignalBars, h1, h2, invalidBars]

/-- Number of thresholds a power exceeds. -/
def exceeded (thresholds : List Int) (v : Int) : Nat := thresholds.countP (fun t => decide (t < v))

/-- The thresholds in dBm: RSSI for GSM and EDGE, RSRP for LTE, Cat-M1 and NB-IoT. -/
def thresholds (rat : Nat) : List Int :=
  if rat = 0 ∨ rat = 3 then [-104, -98, -89, -80] else [-115, -105, -95, -85]

/-- For a power of at most 0 dBm the number of bars is one more than the number of thresholds exceeded. -/
theorem C28_thresholds (rat : Nat) (hr : GsmLike rat ∨ LteLike rat) (i : SignalInfo)
    (hp : shownPower rat i ≤ 0) :
    computeSignalBars rat (some i) =
      (.success, some { i with bars := 1 + exceeded (thresholds rat) (shownPower rat i) }) := by
  obtain ⟨rssi, rsrp, bars⟩ := i
  simp only [GsmLike, LteLike, ratGsm, ratEdge, ratLte, ratCatM1, ratNbIot] at hr
  rcases hr with (h | h) | (h | h | h) <;> subst h <;>
    simp [computeSignalBars, getSignalBars, shownPower, GsmLike, ratGsm, ratEdge, ratLte, ratCatM1, ratNbIot, gsmTable,
      catmTable, nbTable, barsLoop, exceeded, thresholds, List.countP_cons] at hp ⊢ <;>
    (repeat' split) <;> omega

/-- The thresholds separate: two GSM signals 12 dB apart around -98 dBm show different bars. -/
example : computeSignalBars ratGsm (some ⟨-104, 0, 0⟩) = (.success, some ⟨-104, 0, 1⟩) ∧
    computeSignalBars ratGsm (some ⟨-92, 0, 0⟩) = (.success, some ⟨-92, 0, 3⟩) ∧
    computeSignalBars ratCatM1 (some ⟨0, -84, 0⟩) = (.success, some ⟨0, -84, 5⟩) ∧
    (GsmLike ratGsm ∨ LteLike ratGsm) ∧ ¬ (GsmLike 2 ∨ LteLike 2) := by
  refine ⟨by decide, by decide, by decide, Or.inl (Or.inl rfl), ?_⟩
  simp [GsmLike, LteLike, ratGsm, ratEdge, ratLte, ratCatM1, ratNbIot]

/-- A positive power (physically impossible) is marked invalid, for every supported technology. -/
theorem C28_positive_invalid (rat : Nat) (hr : GsmLike rat ∨ LteLike rat) (i : SignalInfo)
    (hp : 0 < shownPower rat i) :
    computeSignalBars rat (some i) = (.success, some { i with bars := 255 }) := by
  obtain ⟨rssi, rsrp, bars⟩ := i
  simp only [GsmLike, LteLike, ratGsm, ratEdge, ratLte, ratCatM1, ratNbIot] at hr
  rcases hr with (h | h) | (h | h | h) <;> subst h <;>
    simp [computeSignalBars, getSignalBars, shownPower, GsmLike, ratGsm, ratEdge, ratLte, ratCatM1, ratNbIot, gsmTable,
      catmTable, nbTable, barsLoop, invalidBars] at hp ⊢ <;>
    (repeat' split) <;> omega

example : 0 < shownPower ratNbIot ⟨0, 1, 0⟩ := by decide

/-- Without a place to store the bars the call is refused, whatever the technology. -/
theorem C28_no_destination (rat : Nat) : computeSignalBars rat none = (.badParameter, none) := rfl

theorem C28_witness_positive :
    computeSignalBars ratGsm (some ⟨1, 0, 0⟩) = (.success, some ⟨1, 0, 255⟩) := by decide

/-- C29 is false of the code: the 'invalid signal' marker is shown as one bar, with success, for every
supported technology.  What holds instead: it is never shown as more than one bar. -/
theorem C29_witness_invalid_shown_as_one_bar (rat : Nat) (h : GsmLike rat ∨ LteLike rat) :
    computeSignalBars rat (some ⟨invalidSignal, invalidSignal, 0⟩)
      = (.success, some ⟨invalidSignal, invalidSignal, 1⟩) := by
  simp only [GsmLike, LteLike, ratGsm, ratEdge, ratLte, ratCatM1, ratNbIot] at h
  rcases h with (h | h) | (h | h | h) <;> subst h <;> decide

/-- The part of C29 that holds: the marker is never shown as more than the lowest bar count, and for
unsupported technologies it is shown as invalid. -/
theorem C29_invalid_signal_lowest_partial (rat : Nat) (i : SignalInfo)
    (hi : i.rssi = invalidSignal ∧ i.rsrp = invalidSignal) :
    ∃ b e, computeSignalBars rat (some i) = (e, some { i with bars := b }) ∧
      (b = 1 ∨ (b = 255 ∧ e ≠ .success)) := by
  by_cases h : GsmLike rat ∨ LteLike rat
  · refine ⟨1, .success, ?_, Or.inl rfl⟩
    have := C29_witness_invalid_shown_as_one_bar rat h
    obtain ⟨a, b, c⟩ := i
    obtain ⟨rfl, rfl⟩ := hi
    simp only [GsmLike, LteLike, ratGsm, ratEdge, ratLte, ratCatM1, ratNbIot] at h
    rcases h with (h | h) | (h | h | h) <;> subst h <;> rfl
  · exact ⟨255, .unknown, C28_unsupported_refused rat h i, Or.inr ⟨rfl, by simp⟩⟩

example : (⟨invalidSignal, invalidSignal, 7⟩ : SignalInfo).rssi = invalidSignal := rfl

/-! ## C30 -/

/-- AT+CSQ rssi: 0..31 is -113+2n dBm, 99 the invalid marker, everything else refused (nothing
stored); a NULL destination is refused. -/
theorem C30_csq_rssi (n : Int) :
    (0 ≤ n ∧ n ≤ 31 → convertCsqRssi n true = (.success, some (-113 + 2 * n))) ∧
    (convertCsqRssi 99 true = (.success, some (-32768))) ∧
    (¬ (0 ≤ n ∧ n ≤ 31) ∧ n ≠ 99 → convertCsqRssi n true = (.badParameter, none)) ∧
    convertCsqRssi n false = (.badParameter, none) := by
  refine ⟨?_, by decide, ?_, by simp [convertCsqRssi]⟩
  · rintro ⟨h1, h2⟩
    unfold convertCsqRssi
    rw [if_neg (by simp), if_neg (by omega), if_neg (by omega), Int.mul_comm]
  · rintro ⟨h1, h2⟩
    unfold convertCsqRssi
    rw [if_neg (by simp), if_neg h2, if_pos (by omega)]

/-- Bit error rate classes of 3GPP TS 45.008 (assumed values in 1/100 percent). -/
def berSpec : Nat → Int
  | 0 => 14 | 1 => 28 | 2 => 57 | 3 => 113 | 4 => 226 | 5 => 453 | 6 => 905 | _ => 1810

/-- AT+CSQ ber: 0..7 follow the table, 99 is the invalid marker, everything else refused; the table
is never read out of bounds. -/
theorem C30_csq_ber (n : Int) :
    (0 ≤ n ∧ n ≤ 7 → convertCsqBer n true = some (.success, some (berSpec n.toNat))) ∧
    (convertCsqBer 99 true = some (.success, some (-32768))) ∧
    (¬ (0 ≤ n ∧ n ≤ 7) ∧ n ≠ 99 → convertCsqBer n true = some (.badParameter, none)) ∧
    convertCsqBer n false = some (.badParameter, none) := by
  refine ⟨?_, by decide, ?_, by simp [convertCsqBer]⟩
  · rintro ⟨h1, h2⟩
    obtain ⟨k, rfl⟩ := Int.eq_ofNat_of_zero_le h1
    have hk : k ≤ 7 := by omega
    unfold convertCsqBer
    rw [if_neg (by simp), if_neg (by omega), if_neg (by omega)]
    rw [Int.toNat_natCast]
    have : ∀ k, k ≤ 7 → (berTable[k]?).map (fun v => ((.success, some v) : CellErr × Option Int))
        = some (.success, some (berSpec k)) := by decide
    exact this k hk
  · rintro ⟨h1, h2⟩
    unfold convertCsqBer
    rw [if_neg (by simp), if_neg h2, if_pos (by omega)]

example : convertCsqRssi 31 true = (.success, some (-51)) ∧ convertCsqRssi 32 true = (.badParameter, none) ∧
    convertCsqBer 7 true = some (.success, some 1810) ∧ convertCsqBer 8 true = some (.badParameter, none) := by
  decide

/-! ## C39 -/

/-- Success of an API status means success of the internal status, for both translations and their
composition; a timeout stays a timeout. -/
theorem C39_translation (p : PktStatus) (a : AtErr) :
    (translatePkt p = .success ↔ p = .ok) ∧ (translatePkt p = .timeout ↔ p = .timedOut) ∧
    (translateAt a = .ok ↔ a = .success) ∧
    (translatePkt (translateAt a) = .success ↔ a = .success) := by
  cases p <;> cases a <;> simp [translatePkt, translateAt]

example : translatePkt .pendingData ≠ .success ∧ translateAt .noMemory ≠ .ok := by decide

end Cellular.Props
