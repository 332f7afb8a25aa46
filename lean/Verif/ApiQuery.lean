import Verif.ApiTime
/-!
# Properties of the 3GPP queries: C47, C48, C51 - C55, C57, C58
-/

namespace Cellular.Props
open Cellular Spec Api Signal Tok
open Cellular.AtCore (strtoi AtErr)
open Cellular.AtStr

/-- The text with all white space deleted. -/
def noWhite (s : Str) : Str := s.filter (fun b => !decide (White b))

/-- The text with all double quotes deleted. -/
def noQuote (s : Str) : Str := s.filter (fun b => b != 34)

theorem noWhite_eq (s : Str) : s.filter (fun b => !isSpace b) = noWhite s := by
  unfold noWhite
  apply List.filter_congr
  intro b _
  congr 1
  have := isSpace_iff b
  cases hb : isSpace b <;> simp_all

theorem noQuote_eq (s : Str) : s.filter (fun b => !(b == 34)) = noQuote s := rfl

theorem noWhite_prefix (pre body : Str) : noWhite (pre ++ 58 :: body) = noWhite pre ++ 58 :: noWhite body := by
  unfold noWhite
  rw [List.filter_append, List.filter_cons_of_pos (by decide)]

theorem noWhite_mem {s : Str} {b : Byte} (h : b ∈ noWhite s) : b ∈ s := (List.mem_filter.mp h).1

theorem noWhite_len (s : Str) : (noWhite s).length ≤ s.length := List.length_filter_le _ _
theorem noQuote_len (s : Str) : (noQuote s).length ≤ s.length := List.length_filter_le _ _

theorem ne_nil_of_filter {s : Str} {f : Byte → Bool} (h : s.filter f ≠ []) : s ≠ [] := by
  intro e; rw [e] at h; simp at h

theorem removeAllWhiteSpaces_eq {s : Str} (hne : s ≠ []) (hl : s.length ≤ 256) :
    removeAllWhiteSpaces s = (.success, noWhite s) := by
  unfold removeAllWhiteSpaces
  rw [if_pos (valid_of hne hl), noWhite_eq]

theorem removeAllDoubleQuote_eq {s : Str} (hne : s ≠ []) (hl : s.length ≤ 256) :
    removeAllDoubleQuote s = (.success, noQuote s) := by
  unfold removeAllDoubleQuote
  rw [if_pos (valid_of hne hl), noQuote_eq]

theorem getNextTok_eq {tok rest : Str} (h : NoComma tok) (hl : (tok ++ 44 :: rest).length ≤ 256) :
    getNextTok (tok ++ 44 :: rest) = (.success, rest, some tok) := getTok_eq h hl

theorem getNextTok_last {tok : Str} (hne : tok ≠ []) (h : NoComma tok) (hl : tok.length ≤ 256) :
    getNextTok tok = (.success, [], some tok) := getTok_last hne h hl

/-! ## C51: SIM lock state -/

/-- The lock states a modem reports with +CPIN (3GPP TS 27.007) and their enumerators. -/
def lockStates : List (Str × SimLock) :=
  [(str "READY", .ready), (str "SIM PIN", .pin), (str "SIM PUK", .puk), (str "SIM PIN2", .pin2),
   (str "SIM PUK2", .puk2), (str "PH-NET PIN", .phNetPin), (str "PH-NET PUK", .phNetPuk),
   (str "PH-NETSUB PIN", .phNetsubPin), (str "PH-NETSUB PUK", .phNetsubPuk), (str "PH-SP PIN", .spPin),
   (str "PH-SP PUK", .spPuk), (str "PH-CORP PIN", .corpPin), (str "PH-CORP PUK", .corpPuk)]

theorem recvSimLock_eq (pre body : Str) (rest : List Str) (old : SimLock) (hpre : (58 : Byte) ∉ pre)
    (hl : (pre ++ 58 :: body).length ≤ 256) (tok tail : Str) (hc : NoComma tok)
    (hb : noWhite body = tok ∧ tok ≠ [] ∨ noWhite body = tok ++ 44 :: tail) :
    recvSimLock ((pre ++ 58 :: body) :: rest) old = (.ok, getSimLockState tok) := by
  have hbl : (noWhite body).length ≤ 256 := by
    have := noWhite_len body
    simp only [List.length_append, List.length_cons] at hl; omega
  have hl2 : (noWhite pre ++ 58 :: noWhite body).length ≤ 256 := by
    have := noWhite_len body
    have := noWhite_len pre
    simp only [List.length_append, List.length_cons] at hl ⊢; omega
  unfold recvSimLock
  simp only
  rw [removeAllWhiteSpaces_eq (by simp) hl, noWhite_prefix]
  simp only
  rw [removePrefix_eq (fun h => hpre (noWhite_mem h)) hl2]
  simp only
  rcases hb with ⟨hb, hne⟩ | hb
  · rw [hb] at hbl ⊢
    rw [getNextTok_last hne hc hbl]
  · rw [hb] at hbl ⊢
    rw [getNextTok_eq hc hbl]

/-- C51, what holds: the ready state is decoded, whatever white space surrounds it and whatever
follows a comma; every text is decoded to some enumerator with success, and a state is never taken
for READY unless the modem reported READY.
Missing: all locked states (see the next theorem). -/
theorem C51_sim_ready_partial (pre body : Str) (rest : List Str) (old : SimLock) (hpre : (58 : Byte) ∉ pre)
    (hl : (pre ++ 58 :: body).length ≤ 256) (tok tail : Str) (hc : NoComma tok)
    (hb : noWhite body = tok ∧ tok ≠ [] ∨ noWhite body = tok ++ 44 :: tail) :
    ∃ st, recvSimLock ((pre ++ 58 :: body) :: rest) old = (.ok, st) ∧ (st = .ready ↔ tok = str "READY") := by
  refine ⟨_, recvSimLock_eq pre body rest old hpre hl tok tail hc hb, ?_⟩
  unfold getSimLockState
  by_cases h : tok = str "READY"
  · simp [h]
  · rw [if_neg h]
    have aux : ∀ (c : Prop) [Decidable c] (a b : SimLock), a ≠ .ready → b ≠ .ready →
        (if c then a else b) ≠ .ready := by
      intro c _ a b ha hb; split <;> assumption
    refine ⟨fun e => absurd e ?_, fun e => absurd e h⟩
    iterate 12 refine aux _ _ _ (by decide) ?_
    decide

example : recvSimLock [str "+CPIN: READY"] .unknown = (.ok, .ready) := by decide +kernel

/-- C51 as written is false: every locked state (SIM PIN, SIM PUK, ...) contains a space, the spaces
are removed before the comparison, and the state is reported as unknown - with success. -/
theorem C51_witness_locked_states_unknown (name : Str) (st : SimLock) (h : (name, st) ∈ lockStates)
    (hn : st ≠ .ready) (old : SimLock) :
    recvSimLock [str "+CPIN: " ++ name] old = (.ok, .unknown) := by
  unfold lockStates at h
  simp only [List.mem_cons, Prod.mk.injEq, List.not_mem_nil, or_false] at h
  rcases h with ⟨rfl, rfl⟩ | ⟨rfl, rfl⟩ | ⟨rfl, rfl⟩ | ⟨rfl, rfl⟩ | ⟨rfl, rfl⟩ | ⟨rfl, rfl⟩ | ⟨rfl, rfl⟩ |
    ⟨rfl, rfl⟩ | ⟨rfl, rfl⟩ | ⟨rfl, rfl⟩ | ⟨rfl, rfl⟩ | ⟨rfl, rfl⟩ | ⟨rfl, rfl⟩
  · exact absurd rfl hn
  all_goals (cases old <;> decide +kernel)

/-! ## C52: home PLMN -/

/-- The first bytes of an EF-HPLMNwAcT record (3GPP TS 31.102 / 51.011): MCC d1 d2 d3 and
MNC m1 m2 [m3] in swapped BCD, a missing third MNC digit coded as F. -/
def plmnBytes (d1 d2 d3 m1 m2 : Nat) (m3 : Option Nat) : List Byte :=
  [UInt8.ofNat (d2 * 16 + d1), UInt8.ofNat ((m3.getD 15) * 16 + d3), UInt8.ofNat (m2 * 16 + m1)]

/-- Decimal digit character. -/
def digitChar (n : Nat) : Byte := UInt8.ofNat (48 + n)

theorem hexDigit_up {n : Nat} (h : n < 10) : hexDigit true n = digitChar n := by
  simp [hexDigit, digitChar, h]

theorem hexText_append (up : Bool) (a b : List Byte) : hexText up (a ++ b) = hexText up a ++ hexText up b := by
  induction a with
  | nil => rfl
  | cons x t ih => simp [hexText, ih]

theorem hexText_length (up : Bool) (a : List Byte) : (hexText up a).length = 2 * a.length := by
  induction a with
  | nil => rfl
  | cons x t ih => simp [hexText, ih]; omega

theorem nibbles {a b : Nat} (ha : a < 16) (hb : b < 16) :
    (UInt8.ofNat (a * 16 + b)).toNat / 16 = a ∧ (UInt8.ofNat (a * 16 + b)).toNat % 16 = b := by
  have : (UInt8.ofNat (a * 16 + b)).toNat = a * 16 + b := by
    simp; omega
  rw [this]; omega

theorem digitChar_ne_F {n : Nat} (h : n < 10) : digitChar n ≠ 70 := by
  unfold digitChar
  intro e
  have := congrArg UInt8.toNat e
  simp at this
  omega

/-- C52: for every MCC and every MNC of two or three digits, a successful AT+CRSM answer carrying the
record (upper case hexadecimal, at least five bytes) is decoded to exactly that MCC and MNC, for any
prefix, white space and quoting. -/
theorem C52_hplmn_decoded (d1 d2 d3 m1 m2 : Nat) (m3 : Option Nat) (h1 : d1 < 10) (h2 : d2 < 10)
    (h3 : d3 < 10) (h4 : m1 < 10) (h5 : m2 < 10) (h6 : ∀ m, m3 = some m → m < 10)
    (more : List Byte) (hmore : 2 ≤ more.length) (sw1 sw2 : Str)
    (hsw1 : sw1 = str "144" ∨ sw1 = str "145" ∨ sw1 = str "146") (hsw2 : NoComma sw2) (hsw2' : sw2 ≠ str "64")
    (pre body tail : Str) (rest : List Str) (old : Plmn) (hpre : (58 : Byte) ∉ pre)
    (hl : (pre ++ 58 :: body).length ≤ 256)
    (htail : tail = [] ∨ ∃ t, tail = 44 :: t)
    (hb : noQuote (noWhite body) = sw1 ++ 44 :: (sw2 ++ 44 ::
      (hexText true (plmnBytes d1 d2 d3 m1 m2 m3 ++ more) ++ tail))) :
    recvHplmn ((pre ++ 58 :: body) :: rest) old =
      (.ok, { mcc := [digitChar d1, digitChar d2, digitChar d3],
              mnc := [digitChar m1, digitChar m2] ++ (m3.map digitChar).toList }) := by
  have hbl : (noWhite body).length ≤ 256 := by
    have := noWhite_len body
    simp only [List.length_append, List.length_cons] at hl; omega
  have hl2 : (noWhite pre ++ 58 :: noWhite body).length ≤ 256 := by
    have := noWhite_len body
    have := noWhite_len pre
    simp only [List.length_append, List.length_cons] at hl ⊢; omega
  have hne : noWhite body ≠ [] := by
    intro e; rw [e] at hb; simp [noQuote] at hb
  unfold recvHplmn
  simp only
  rw [removeAllWhiteSpaces_eq (by simp) hl, noWhite_prefix]
  simp only
  rw [removePrefix_eq (fun h => hpre (noWhite_mem h)) hl2]
  simp only
  rw [removeAllDoubleQuote_eq hne hbl]
  simp only
  have hql := noQuote_len (noWhite body)
  rw [hb] at hql ⊢
  have hql' : (sw1 ++ 44 :: (sw2 ++ 44 ::
      (hexText true (plmnBytes d1 d2 d3 m1 m2 m3 ++ more) ++ tail))).length ≤ 256 := by omega
  have hsc : NoComma sw1 := by
    rcases hsw1 with h | h | h <;> subst h <;> (unfold NoComma; decide)
  rw [getNextTok_eq hsc hql']
  simp only
  rw [if_neg (by
    intro hh
    rcases hsw1 with h | h | h <;> simp [h] at hh)]
  simp only [List.length_append, List.length_cons] at hql'
  rw [getNextTok_eq hsw2 (by simp only [List.length_append, List.length_cons]; omega)]
  simp only
  rw [if_neg hsw2']
  -- the record
  obtain ⟨a1, a2⟩ := nibbles (a := d2) (b := d1) (by omega) (by omega)
  have hm15 : m3.getD 15 < 16 := by
    cases m3 with
    | none => simp
    | some m => have := h6 m rfl; simp; omega
  obtain ⟨b1, b2⟩ := nibbles (a := m3.getD 15) (b := d3) hm15 (by omega)
  obtain ⟨c1, c2⟩ := nibbles (a := m2) (b := m1) (by omega) (by omega)
  have hrec : hexText true (plmnBytes d1 d2 d3 m1 m2 m3 ++ more) =
      [digitChar d2, digitChar d1, hexDigit true (m3.getD 15), digitChar d3, digitChar m2, digitChar m1] ++
        hexText true more := by
    rw [hexText_append]
    simp only [plmnBytes, hexText, a1, a2, b1, b2, c1, c2, hexDigit_up h1, hexDigit_up h2, hexDigit_up h3,
      hexDigit_up h4, hexDigit_up h5]
  have hnc : NoComma (hexText true (plmnBytes d1 d2 d3 m1 m2 m3 ++ more)) := by
    have key : ∀ l : List Byte, NoComma (hexText true l) := by
      intro l
      induction l with
      | nil => unfold NoComma; simp [hexText]
      | cons x t ih =>
        have hd : ∀ n, n < 16 → hexDigit true n ≠ 44 := by decide +kernel
        have ha := hd (x.toNat / 16) (by have := x.toNat_lt; omega)
        have hb' := hd (x.toNat % 16) (by omega)
        unfold NoComma at ih ⊢
        simp only [hexText, List.mem_cons, not_or]
        exact ⟨fun e => ha e.symm, fun e => hb' e.symm, ih⟩
    exact key _
  have htok : ∃ r, getNextTok (hexText true (plmnBytes d1 d2 d3 m1 m2 m3 ++ more) ++ tail) =
      (.success, r, some (hexText true (plmnBytes d1 d2 d3 m1 m2 m3 ++ more))) := by
    rcases htail with h | ⟨t, h⟩
    · subst h
      rw [List.append_nil]
      refine ⟨_, getNextTok_last (by rw [hrec]; simp) hnc ?_⟩
      simp at hql' ⊢; omega
    · subst h
      refine ⟨_, getNextTok_eq hnc ?_⟩
      simp only [List.length_cons] at hql'
      simp only [List.length_append, List.length_cons]; omega
  obtain ⟨r, hr⟩ := htok
  rw [hr]
  simp only
  have hlen : ¬ (hexText true (plmnBytes d1 d2 d3 m1 m2 m3 ++ more)).length < 9 := by
    rw [hexText_length]; simp [plmnBytes]; omega
  have hF : (hexText true (plmnBytes d1 d2 d3 m1 m2 m3 ++ more)).take 6 ≠ str "FFFFFF" := by
    rw [hrec]
    intro e
    have : digitChar d2 = 70 := by
      have := congrArg (fun l : Str => l.head?) e
      simpa [str] using this
    exact digitChar_ne_F h2 this
  unfold parseHplmn
  rw [if_neg (by
    intro hh
    rcases hh with hh | hh
    · exact hlen hh
    · exact hF hh)]
  rw [hrec]
  simp only [translateAt]
  cases m3 with
  | none =>
    have : hexDigit true ((none : Option Nat).getD 15) = 70 := by decide
    simp only [this]
    simp
  | some m =>
    have hm := h6 m rfl
    have : hexDigit true ((some m).getD 15) = digitChar m := hexDigit_up hm
    simp only [this]
    have hne := digitChar_ne_F hm
    simp [hne]

example : recvHplmn [str "+CRSM: 144,0,\"13006240000000\""] ⟨[], []⟩ =
    (.ok, ⟨str "310", str "260"⟩) := by decide +kernel

/-- C52: an empty record and a record of fewer than nine characters are refused and nothing is
stored. -/
theorem C52_empty_or_short_refused (sw1 sw2 r : Str) (hr : r.length < 9 ∨ r.take 6 = str "FFFFFF")
    (hrc : NoComma r) (hrn : r ≠ []) (hsw1 : NoComma sw1) (hsw2 : NoComma sw2)
    (pre body : Str) (rest : List Str) (old : Plmn) (hpre : (58 : Byte) ∉ pre)
    (hl : (pre ++ 58 :: body).length ≤ 256)
    (hb : noQuote (noWhite body) = sw1 ++ 44 :: (sw2 ++ 44 :: r)) :
    recvHplmn ((pre ++ 58 :: body) :: rest) old = (.failure, old) := by
  have hbl : (noWhite body).length ≤ 256 := by
    have := noWhite_len body
    simp only [List.length_append, List.length_cons] at hl; omega
  have hl2 : (noWhite pre ++ 58 :: noWhite body).length ≤ 256 := by
    have := noWhite_len body
    have := noWhite_len pre
    simp only [List.length_append, List.length_cons] at hl ⊢; omega
  have hne : noWhite body ≠ [] := by
    intro e; rw [e] at hb; simp [noQuote] at hb
  unfold recvHplmn
  simp only
  rw [removeAllWhiteSpaces_eq (by simp) hl, noWhite_prefix]
  simp only
  rw [removePrefix_eq (fun h => hpre (noWhite_mem h)) hl2]
  simp only
  rw [removeAllDoubleQuote_eq hne hbl]
  simp only
  have hql := noQuote_len (noWhite body)
  rw [hb] at hql ⊢
  have hql' : (sw1 ++ 44 :: (sw2 ++ 44 :: r)).length ≤ 256 := by omega
  rw [getNextTok_eq hsw1 hql']
  simp only
  split
  · rfl
  simp only [List.length_append, List.length_cons] at hql'
  rw [getNextTok_eq hsw2 (by simp only [List.length_append, List.length_cons]; omega)]
  simp only
  split
  · rfl
  rw [getNextTok_last hrn hrc (by omega)]
  simp only
  unfold parseHplmn
  rw [if_pos hr]
  rfl

/-- Lower case hexadecimal records are not understood: a two digit MNC gets a third character. -/
theorem C52_witness_lower_case :
    recvHplmn [str "+CRSM: 144,0,\"62f2104000ffffff\""] ⟨[], []⟩ =
      (.ok, ⟨str "262", [48, 49, 102]⟩) := by decide +kernel

/-! ## C53: operator -/

theorem noQuote_append (a b : Str) : noQuote (a ++ b) = noQuote a ++ noQuote b := List.filter_append ..

theorem copsNum_numeral {lm : Nat} (hlm : 2 ^ 31 - 1 ≤ lm) {s : Str} {v : Nat} (h : Numeral 10 s v)
    (max : Nat) (hm : max ≤ 65535) (hv : v < max) (store : Nat → OpInfo → OpInfo) (o : OpInfo) :
    copsNum lm s (max : Int) store o = (true, store v o) := by
  unfold copsNum
  rw [strtoi_numeral hlm h (by omega)]
  simp only
  rw [if_pos (by omega)]
  simp

/-- C53: for every registration mode 0..4, numeric operator of five or six characters and RAT value
0..9, the +COPS text is decoded to exactly these, for any prefix, quoting and white space. -/
theorem C53_cops_decoded (lm : Nat) (hlm : 2 ^ 31 - 1 ≤ lm) {tm tf tr : Str} {mode rat : Nat}
    (hm : Numeral 10 tm mode) (hf : Numeral 10 tf 2) (hr : Numeral 10 tr rat)
    (bm : mode < 5) (br : rat < 10) (mcc mnc : Str) (hmcc : mcc.length = 3)
    (hmnc : mnc.length = 2 ∨ mnc.length = 3) (hc1 : NoComma mcc) (hc2 : NoComma mnc)
    (pre body : Str) (rest : List Str) (o : OpInfo) (hpre : (58 : Byte) ∉ pre)
    (hl : (pre ++ 58 :: body).length ≤ 256)
    (hb : noWhite (noQuote body) = joinComma [tm, tf, mcc ++ mnc, tr]) :
    recvCops lm ((pre ++ 58 :: body) :: rest) o =
      (.ok, { o with mcc := mcc, mnc := mnc, rat := rat, mode := mode, format := 2 }) := by
  have hbl : body.length ≤ 256 := by
    simp only [List.length_append, List.length_cons] at hl; omega
  have hqne : noQuote body ≠ [] := by
    intro e; rw [e] at hb; simp [noWhite, joinComma] at hb
  have hne : body ≠ [] := ne_nil_of_filter hqne
  have hq := noQuote_len body
  have hw := noWhite_len (noQuote body)
  suffices hline : copsLine lm (pre ++ 58 :: body) o =
      (.success, { o with mcc := mcc, mnc := mnc, rat := rat, mode := mode, format := 2 }) by
    unfold recvCops
    simp only [hline]
    simp
  unfold copsLine
  rw [removePrefix_eq hpre hl]
  simp only
  rw [removeAllDoubleQuote_eq hne hbl]
  simp only
  rw [removeAllWhiteSpaces_eq hqne (by omega), hb]
  rw [hb] at hw
  simp only [joinComma, List.length_append, List.length_cons] at hw
  simp only [joinComma]
  unfold parseCops
  rw [getNextTok_eq (numeral_noComma hm) (by simp only [List.length_append, List.length_cons]; omega)]
  simp only
  rw [show (5 : Int) = ((5 : Nat) : Int) from rfl, show (10 : Int) = ((10 : Nat) : Int) from rfl,
    copsNum_numeral hlm hm 5 (by omega) bm]
  simp only
  rw [getNextTok_eq (numeral_noComma hf) (by simp only [List.length_append, List.length_cons]; omega)]
  simp only
  rw [copsNum_numeral hlm hf 10 (by omega) (by omega)]
  simp only
  have hcc : NoComma (mcc ++ mnc) := by
    unfold NoComma at *; simp [hc1, hc2]
  rw [getNextTok_eq hcc (by simp only [List.length_append, List.length_cons]; omega)]
  simp only
  have hname : copsName (mcc ++ mnc) { { o with mode := mode } with format := 2 } =
      (true, { o with mode := mode, format := 2, mcc := mcc, mnc := mnc }) := by
    unfold copsName
    rw [if_neg (by simp), if_pos rfl, if_pos (by simp only [List.length_append]; omega)]
    have e1 : (mcc ++ mnc).take 3 = mcc := by
      rw [List.take_append_of_le_length (by omega), List.take_of_length_le (by omega)]
    have e2 : (mcc ++ mnc).drop 3 = mnc := by
      rw [List.drop_append_of_le_length (by omega), List.drop_of_length_le (by omega)]; rfl
    rw [e1, e2]
  rw [hname]
  simp only
  rw [getNextTok_last (numeral_ne_nil hr) (numeral_noComma hr) (by omega)]
  simp only
  rw [copsNum_numeral hlm hr ratMax (by decide) br]

/-- C53: the same with an operator name (format 0 or 1): its first 32 characters are reported.  (White space inside the
name is lost.) -/
theorem C53_cops_name_decoded (lm : Nat) (hlm : 2 ^ 31 - 1 ≤ lm) {tm tf tr : Str} {mode fmt rat : Nat}
    (hm : Numeral 10 tm mode) (hf : Numeral 10 tf fmt) (hr : Numeral 10 tr rat)
    (bm : mode < 5) (bf : fmt = 0 ∨ fmt = 1) (br : rat < 10) (name : Str) (hcc : NoComma name)
    (pre body : Str) (rest : List Str) (o : OpInfo) (hpre : (58 : Byte) ∉ pre)
    (hl : (pre ++ 58 :: body).length ≤ 256)
    (hb : noWhite (noQuote body) = joinComma [tm, tf, name, tr]) :
    recvCops lm ((pre ++ 58 :: body) :: rest) o =
      (.ok, { o with name := name.take 32, rat := rat, mode := mode, format := fmt }) := by
  have hbl : body.length ≤ 256 := by
    simp only [List.length_append, List.length_cons] at hl; omega
  have hqne : noQuote body ≠ [] := by
    intro e; rw [e] at hb; simp [noWhite, joinComma] at hb
  have hne : body ≠ [] := ne_nil_of_filter hqne
  have hq := noQuote_len body
  have hw := noWhite_len (noQuote body)
  suffices hline : copsLine lm (pre ++ 58 :: body) o =
      (.success, { o with name := name.take 32, rat := rat, mode := mode, format := fmt }) by
    unfold recvCops
    simp only [hline]
    simp
  unfold copsLine
  rw [removePrefix_eq hpre hl]
  simp only
  rw [removeAllDoubleQuote_eq hne hbl]
  simp only
  rw [removeAllWhiteSpaces_eq hqne (by omega), hb]
  rw [hb] at hw
  simp only [joinComma, List.length_append, List.length_cons] at hw
  simp only [joinComma]
  unfold parseCops
  rw [getNextTok_eq (numeral_noComma hm) (by simp only [List.length_append, List.length_cons]; omega)]
  simp only
  rw [show (5 : Int) = ((5 : Nat) : Int) from rfl, show (10 : Int) = ((10 : Nat) : Int) from rfl,
    copsNum_numeral hlm hm 5 (by omega) bm]
  simp only
  rw [getNextTok_eq (numeral_noComma hf) (by simp only [List.length_append, List.length_cons]; omega)]
  simp only
  rw [copsNum_numeral hlm hf 10 (by omega) (by omega)]
  simp only
  rw [getNextTok_eq hcc (by simp only [List.length_append, List.length_cons]; omega)]
  simp only
  have hname : copsName name { { o with mode := mode } with format := fmt } =
      (true, { o with mode := mode, format := fmt, name := name.take 32 }) := by
    unfold copsName
    rw [if_pos (by simpa using bf)]
    rfl
  rw [hname]
  simp only
  rw [getNextTok_last (numeral_ne_nil hr) (numeral_noComma hr) (by omega)]
  simp only
  rw [copsNum_numeral hlm hr ratMax (by decide) br]

example : recvCops (2 ^ 31 - 1) [str "+COPS: 1,0,\"Operator\",7"] OpInfo.zero =
    (.ok, ⟨[], [], 7, 1, 0, str "Operator"⟩) := by decide +kernel

example : recvCops (2 ^ 31 - 1) [str "+COPS: 0,2,\"310260\",8"] OpInfo.zero =
    (.ok, ⟨str "310", str "260", 8, 0, 2, []⟩) := by decide +kernel

/-! ## C54: registered network -/

/-- C54 as written is false: if the modem answers that no operator is selected (`+COPS: 0`), the query
succeeds with empty MCC and MNC. -/
theorem C54_witness_no_operator :
    let w : World :=
      { lib := some (true, false, false), atData := Reg.initAtData, regCb := false,
        events := [], sent := [],
        modem := fun _ r => if r.cmd = str "AT+COPS?" then .lines [str "+COPS: 0"] else .lines [] }
    (getRegisteredNetwork (2 ^ 31 - 1) true w (some ⟨str "111", str "22"⟩)).err = .success ∧
    (getRegisteredNetwork (2 ^ 31 - 1) true w (some ⟨str "111", str "22"⟩)).out = some ⟨[], []⟩ := by
  decide +kernel

/-- The two commands of the operator query. -/
def copsSelect : Req := ⟨str "AT+COPS=3,2", .noResult, none⟩
def copsQuery : Req := ⟨str "AT+COPS?", .withPrefix, some (str "+COPS")⟩

/-- C54, what holds: success implies that the modem accepted both commands and sent a response line;
if that line names an operator in numeric format, it is the operator reported.
Missing: a line that names no operator must not be reported as success (see the witness). -/
theorem C54_registered_network_partial (lm : Nat) (hlm : 2 ^ 31 - 1 ≤ lm) (mem : Bool) (w : World)
    (p : Option Plmn)
    (h : (getRegisteredNetwork lm mem w p).err = .success) :
    ∃ l0 line rest, w.modem w.sent copsSelect = .lines l0 ∧
      w.modem (w.sent ++ [copsSelect]) copsQuery = .lines (line :: rest) ∧
      (getRegisteredNetwork lm mem w p).world.sent = w.sent ++ [copsSelect, copsQuery] ∧
      ∀ (tm tf tr : Str) (mode rat : Nat) (mcc mnc pre body : Str),
        Numeral 10 tm mode → Numeral 10 tf 2 → Numeral 10 tr rat → mode < 5 → rat < 10 →
        mcc.length = 3 → (mnc.length = 2 ∨ mnc.length = 3) → NoComma mcc → NoComma mnc →
        line = pre ++ 58 :: body → (58 : Byte) ∉ pre → line.length ≤ 256 →
        noWhite (noQuote body) = joinComma [tm, tf, mcc ++ mnc, tr] →
        (getRegisteredNetwork lm mem w p).out = some ⟨mcc, mnc⟩ := by
  by_cases ho : checkLibraryStatus w.lib = .success
  case neg =>
    unfold getRegisteredNetwork at h
    cases hh : checkLibraryStatus w.lib <;> rw [hh] at h <;> simp at h
    exact absurd hh ho
  unfold getRegisteredNetwork at h ⊢
  rw [ho] at h ⊢
  simp only at h ⊢
  cases p with
  | none => simp at h
  | some old =>
    simp only at h ⊢
    cases mem with
    | false => simp at h
    | true =>
      simp only [Bool.true_eq_false, if_false] at h ⊢
      have e1 : (str "AT+COPS=3,2").length ≤ cmdMax := by decide
      have e2 : (str "AT+COPS?").length ≤ cmdMax := by decide
      unfold updateMccMnc requestNoCb request at h ⊢
      simp only [show ¬ (str "AT+COPS=3,2").length > cmdMax by omega,
        show ¬ (str "AT+COPS?").length > cmdMax by omega, if_false] at h ⊢
      rw [show (⟨str "AT+COPS=3,2", .noResult, none⟩ : Req) = copsSelect from rfl] at h ⊢
      rw [show (⟨str "AT+COPS?", .withPrefix, some (str "+COPS")⟩ : Req) = copsQuery from rfl] at h ⊢
      cases hm0 : w.modem w.sent copsSelect with
      | sendFailed => rw [hm0] at h; simp [translatePkt] at h
      | timeout => rw [hm0] at h; simp [translatePkt] at h
      | error => rw [hm0] at h; simp [translatePkt] at h
      | lines l0 =>
        rw [hm0] at h
        simp only at h ⊢
        cases hm1 : w.modem (w.sent ++ [copsSelect]) copsQuery with
        | sendFailed => rw [hm1] at h; simp [translatePkt] at h
        | timeout => rw [hm1] at h; simp [translatePkt] at h
        | error => rw [hm1] at h; simp [translatePkt] at h
        | lines l =>
          rw [hm1] at h
          simp only at h ⊢
          cases l with
          | nil => simp [recvCops, translatePkt] at h
          | cons line rest =>
            refine ⟨l0, line, rest, rfl, rfl, ?_, ?_⟩
            · clear h
              generalize translatePkt (recvCops lm (line :: rest) OpInfo.zero).fst = te
              cases te <;> simp only
              case success => split <;> simp
              all_goals simp
            · intro tm tf tr mode rat mcc mnc pre body hm hf hr bm br hmcc hmnc hc1 hc2 hline hpre hl hb
              subst hline
              rw [C53_cops_decoded lm hlm hm hf hr bm br mcc mnc hmcc hmnc hc1 hc2 pre body rest _ hpre hl hb]
              have : rat ≠ ratInvalid := by unfold ratInvalid; omega
              simp [translatePkt, this]

/-! ## C55: service status -/

/-- C55 as written is false: with a modem that answers every command with ERROR the query succeeds,
and what it reports is whatever the caller's structure contained. -/
theorem C55_witness_all_queries_fail (lm : Nat) (d : Reg.AtData) (old : ServiceStatus) :
    let w : World :=
      { lib := some (true, false, false), atData := d, regCb := false,
        events := [], sent := [], modem := fun _ _ => .error }
    (getServiceStatus lm w (some old)).err = .success ∧
    ((getServiceStatus lm w (some old)).out.map (·.reg)) = some old.reg := by
  exact ⟨rfl, rfl⟩

/-- The registration record as a caller sees it. -/
def recordOf (d : Reg.AtData) : RegPart :=
  { rat := d.rat, cs := d.cs, ps := d.ps, csRejCause := d.csRejCause, csRejType := d.csRejType,
    psRejCause := d.psRejCause, psRejType := d.psRejType }

/-- C55, what holds: the registration state reported is either the library's record after the queries
or - only if the query of the CS registration, or the final one of the EPS registration, failed - the
caller's old contents.
Missing: the failure is not reported (see the witness). -/
theorem C55_service_status_partial (lm : Nat) (w : World) (ho : LibraryOpen w) (old : ServiceStatus) :
    ∃ s, (getServiceStatus lm w (some old)).out = some s ∧
      ((s.reg = recordOf (getServiceStatus lm w (some old)).world.atData) ∨
       (s.reg = old.reg ∧
         ((queryNetworkStatus lm w (str "AT+CREG?") (str "+CREG") .creg).1 ≠ .success ∨
          ∃ w', (queryNetworkStatus lm w' (str "AT+CEREG?") (str "+CEREG") .cereg).1 ≠ .success))) := by
  have hcops : ∀ w o, (updateMccMnc lm w o).2.1.atData = w.atData := by
    intro w o
    have hreq : ∀ (w : World) r, (request w r).2.atData = w.atData := by
      intro w r
      unfold request
      split
      · rfl
      · cases w.modem w.sent r <;> rfl
    have hno : ∀ (w : World) r, (requestNoCb w r).2.atData = w.atData := by
      intro w r
      have := hreq w r
      unfold requestNoCb
      cases hq : request w r with
      | mk a b => rw [hq] at this; cases a <;> exact this
    unfold updateMccMnc
    have h1 := hno w ⟨str "AT+COPS=3,2", .noResult, none⟩
    cases hq : requestNoCb w ⟨str "AT+COPS=3,2", .noResult, none⟩ with
    | mk a b =>
      rw [hq] at h1
      have h2 := hreq b ⟨str "AT+COPS?", .withPrefix, some (str "+COPS")⟩
      cases a <;> first
        | exact h1
        | (simp only
           cases hq2 : request b ⟨str "AT+COPS?", .withPrefix, some (str "+COPS")⟩ with
           | mk a' b' =>
             rw [hq2] at h2
             cases a' <;> exact h2.trans h1)
  unfold getServiceStatus
  rw [checkLib_open ho]
  refine ⟨_, rfl, ?_⟩
  simp only [hcops]
  unfold queryRegStatus
  simp only
  generalize hq1 : queryNetworkStatus lm w (str "AT+CREG?") (str "+CREG") .creg = q1
  by_cases h1 : q1.1 = .success
  · simp only [h1, if_true, true_and]
    generalize (queryNetworkStatus lm q1.2 (str "AT+CGREG?") (str "+CGREG") .cgreg).2 = w2
    by_cases h2 : w2.atData.ps ≠ Reg.stHome ∧ w2.atData.ps ≠ Reg.stRoaming
    · simp only [if_pos h2]
      by_cases h3 : (queryNetworkStatus lm w2 (str "AT+CEREG?") (str "+CEREG") .cereg).1 = .success
      · simp only [h3, if_true]
        exact Or.inl rfl
      · simp only [h3, if_false]
        exact Or.inr ⟨trivial, Or.inr ⟨w2, h3⟩⟩
    · simp only [if_neg h2, if_true]
      exact Or.inl rfl
  · simp only [h1, if_false, false_and]
    exact Or.inr ⟨trivial, Or.inl h1⟩

/-! ## C57: IP address -/

theorem strncpy_some {dst : Mem} {src : Str} {n : Nat} (h : n ≤ dst.length) :
    ∃ m, strncpy dst src n = some m ∧ m.length = dst.length ∧ m.drop n = dst.drop n ∧
      (src.length < n → ∃ post, m = src ++ 0 :: post) := by
  unfold strncpy
  rw [if_pos h]
  have hlen : (src.take n ++ List.replicate (n - src.length) 0).length = n := by simp; omega
  refine ⟨_, rfl, ?_, ?_, ?_⟩
  · rw [List.length_append, hlen]; simp; omega
  · rw [List.drop_append_of_le_length (by omega), List.drop_of_length_le (by omega)]; rfl
  · intro hs
    obtain ⟨k, hk⟩ : ∃ k, n - src.length = k + 1 := ⟨n - src.length - 1, by omega⟩
    rw [hk, List.take_of_length_le (by omega), List.replicate_succ]
    exact ⟨List.replicate k 0 ++ dst.drop n, by simp⟩

theorem recvIp_safe (l : List Str) (n : Nat) (m : Mem) (h : n ≤ m.length) :
    ∃ r, recvIp l n m = some r ∧ r.2.length = m.length ∧ (r.1 ≠ .ok → r.2 = m) := by
  have hm0 : ∃ m', memset0 m n = some m' ∧ m'.length = m.length := by
    unfold memset0; rw [if_pos h]; exact ⟨_, rfl, by simp; omega⟩
  unfold recvIp
  split
  · exact ⟨_, rfl, rfl, fun _ => rfl⟩
  · by_cases hn : n = 0
    · rw [if_pos hn]; exact ⟨_, rfl, rfl, fun _ => rfl⟩
    · rw [if_neg hn]
      split
      · split
        · rename_i rest _ _
          by_cases hr : rest = []
          · obtain ⟨m', e1, e2⟩ := hm0
            rw [if_neg (by simp [hr]), e1]
            exact ⟨_, rfl, e2, by simp [translateAt]⟩
          · obtain ⟨m', e1, e2, _, _⟩ := strncpy_some (src := rest) h
            rw [if_pos hr, e1]
            exact ⟨_, rfl, e2, by simp [translateAt]⟩
        · exact ⟨_, rfl, rfl, fun _ => rfl⟩
      · exact ⟨_, rfl, rfl, fun _ => rfl⟩

/-- C57: whatever the modem answers, the query stays inside the caller's buffer of `m.length` bytes
(no undefined behaviour); on error the buffer is unchanged. -/
theorem C57_ip_in_bounds (w : World) (id : Nat) (m : Mem) :
    ∃ r m', getIPAddress w id (some m) m.length = some r ∧ r.out = some m' ∧ m'.length = m.length ∧
      (r.err ≠ .success → m' = m) := by
  unfold getIPAddress
  have htr : ∀ s, translatePkt s ≠ .success → s ≠ .ok := by intro s hs e; subst e; exact hs rfl
  split
  · simp only
    by_cases hz : m.length = 0
    · rw [if_pos hz]; exact ⟨_, m, rfl, rfl, rfl, fun _ => rfl⟩
    · rw [if_neg hz]
      split
      · unfold requestCb
        cases hq : request w ⟨snprintf 32 (str "AT+CGPADDR=" ++ fmtD id), .withPrefix,
          some (str "+CGPADDR")⟩ with
        | mk a w' =>
          cases a with
          | error e => exact ⟨_, m, rfl, rfl, rfl, fun _ => rfl⟩
          | ok l =>
            obtain ⟨r, e1, e2, e3⟩ := recvIp_safe l (m.length % 65536) m (Nat.mod_le _ _)
            simp only [e1]
            exact ⟨_, r.2, rfl, rfl, e2, fun h => e3 (htr _ h)⟩
      · exact ⟨_, m, rfl, rfl, rfl, fun _ => rfl⟩
  · exact ⟨_, m, rfl, rfl, rfl, fun _ => rfl⟩

/-- The command of the address query. -/
def ipQuery (id : Nat) : Req := ⟨str "AT+CGPADDR=" ++ decText id, .withPrefix, some (str "+CGPADDR")⟩

/-- C57, what holds: if the modem's answer carries an address text shorter than the caller's buffer,
the buffer ends up with exactly that text, NUL-terminated; if it carries none, with the empty string.
Missing: an address that fills the buffer is not terminated (see the witness). -/
theorem C57_ip_text_partial (w : World) (ho : LibraryOpen w) (id : Nat) (h1 : 1 ≤ id) (h2 : id ≤ 16)
    (m : Mem) (hm : m.length < 65536)
    (pre cid addr : Str) (rest : List Str) (hpre : (58 : Byte) ∉ pre) (hcid : NoComma cid)
    (hcidne : cid ≠ [])
    (line : Str) (hl : line.length ≤ 256)
    (hline : line = pre ++ 58 :: (cid ++ 44 :: addr) ∨ (addr = [] ∧ line = pre ++ 58 :: cid))
    (hn : NoNul addr) (hlen : addr.length < m.length)
    (hmodem : w.modem w.sent (ipQuery id) = .lines (line :: rest)) :
    ∃ r m', getIPAddress w id (some m) m.length = some r ∧ r.err = .success ∧ r.out = some m' ∧
      CStrAt m' 0 addr ∧ r.world.sent = w.sent ++ [ipQuery id] := by
  have hd := decText_length_le (n := id) (by omega)
  have hpl : (str "AT+CGPADDR=").length = 11 := by decide
  have hcmd : snprintf 32 (str "AT+CGPADDR=" ++ fmtD id) = str "AT+CGPADDR=" ++ decText id := by
    rw [fmtD_eq]
    exact List.take_of_length_le (by simp only [List.length_append, hpl]; omega)
  have hv : isValidPdn id = .success := by
    unfold isValidPdn; rw [if_neg]; omega
  unfold getIPAddress
  rw [checkLib_open ho]
  simp only
  rw [if_neg (by omega), hv]
  simp only [hcmd]
  rw [show (⟨str "AT+CGPADDR=" ++ decText id, .withPrefix, some (str "+CGPADDR")⟩ : Req) = ipQuery id from rfl]
  unfold requestCb request
  rw [if_neg (by simp only [ipQuery, List.length_append, hpl, cmdMax]; omega), hmodem]
  simp only
  rw [Nat.mod_eq_of_lt hm]
  have hrecv : ∃ m', recvIp (line :: rest) m.length m = some (.ok, m') ∧ CStrAt m' 0 addr := by
    unfold recvIp
    simp only
    rw [if_neg (by omega)]
    have hcase : ∀ body, line = pre ++ 58 :: body → removePrefix line = (.success, some body) := by
      intro body e; rw [e] at hl ⊢; exact removePrefix_eq hpre hl
    have htok : ∃ body, removePrefix line = (.success, some body) ∧
        ∃ tk, getNextTok body = (.success, addr, tk) := by
      rcases hline with e | ⟨e1, e2⟩
      · refine ⟨_, hcase _ e, _, getNextTok_eq hcid ?_⟩
        rw [e] at hl; simp only [List.length_append, List.length_cons] at hl ⊢; omega
      · refine ⟨_, hcase _ e2, some cid, ?_⟩
        · rw [e1]
          refine getNextTok_last hcidne hcid ?_
          rw [e2] at hl; simp only [List.length_append, List.length_cons] at hl; omega
    obtain ⟨body, e1, tk, e2⟩ := htok
    rw [e1]
    simp only
    rw [e2]
    simp only
    by_cases ha : addr = []
    · rw [if_neg (by simp [ha])]
      unfold memset0
      rw [if_pos (by omega)]
      refine ⟨_, rfl, ?_⟩
      subst ha
      have : m.length ≠ 0 := by omega
      obtain ⟨k, hk⟩ : ∃ k, m.length = k + 1 := ⟨m.length - 1, by omega⟩
      exact ⟨by simp [NoNul], [], _, by rw [hk, List.replicate_succ]; rfl, rfl⟩
    · rw [if_pos ha]
      obtain ⟨m', e3, _, _, e4⟩ := strncpy_some (src := addr) (dst := m) (n := m.length) (by omega)
      rw [e3]
      obtain ⟨post, hp⟩ := e4 hlen
      exact ⟨m', rfl, hn, [], post, by rw [hp]; rfl, rfl⟩
  obtain ⟨m', e1, e2⟩ := hrecv
  rw [e1]
  exact ⟨_, m', rfl, rfl, rfl, e2, rfl⟩

/-- C57 as written is false: an address exactly as long as the caller's buffer leaves no NUL in it. -/
theorem C57_witness_not_terminated :
    recvIp [str "+CGPADDR: 1,10.0.0.1"] 8 (List.replicate 8 7) = some (.ok, str "10.0.0.1") := by
  decide +kernel

/-! ## C58: identity strings -/

/-- A text field of the caller's structure of `max + 1` bytes that is NUL-terminated at its end. -/
def Field (max : Nat) (m : Mem) : Prop := m.length = max + 1 ∧ m[max]? = some 0

theorem field_zero (max : Nat) : Field max (List.replicate (max + 1) 0) := by
  constructor
  · simp
  · simp

theorem strncpy_field {max : Nat} {buf : Mem} (hb : Field max buf) (s : Str) (hn : NoNul s) :
    ∃ m, strncpy buf s max = some m ∧ Field max m ∧ CStrAt m 0 (s.take max) := by
  obtain ⟨h1, h2⟩ := hb
  have hd : buf.drop max = [0] := by
    apply List.ext_getElem?
    intro i
    rw [List.getElem?_drop]
    cases i with
    | zero => simpa using h2
    | succ i =>
      simp only [List.getElem?_cons_succ, List.getElem?_nil]
      exact List.getElem?_eq_none (by omega)
  unfold strncpy
  rw [if_pos (by omega), hd]
  have hlen : (s.take max ++ List.replicate (max - s.length) 0).length = max := by simp; omega
  refine ⟨_, rfl, ⟨by rw [List.length_append, hlen]; rfl, ?_⟩, ?_, ?_⟩
  · rw [List.getElem?_append_right (by omega), hlen]; simp
  · intro b hb
    exact hn b (List.mem_of_mem_take hb)
  · by_cases hs : max ≤ s.length
    · have : max - s.length = 0 := by omega
      rw [this]
      exact ⟨[], [], by simp, rfl⟩
    · obtain ⟨k, hk⟩ : ∃ k, max - s.length = k + 1 := ⟨max - s.length - 1, by omega⟩
      rw [hk, List.replicate_succ]
      exact ⟨[], List.replicate k 0 ++ [0], by simp, rfl⟩

theorem noNul_filter {s : Str} (f : Byte → Bool) (h : NoNul s) : NoNul (s.filter f) := by
  intro b hb; exact h b (List.mem_filter.mp hb).1

/-- C58: firmware version, model and manufacturer.  For every response line consisting of white
space, a text `t` without white space at its ends and white space again, the caller's field ends up
with `t` cut to the documented maximum, terminated; the field is not overrun.  (`t` and the trailing
white space together must have more than two characters: shorter texts keep trailing white space.) -/
theorem C58_trimmed_text (max : Nat) (buf : Mem) (hb : Field max buf) (ws1 t ws2 : Str) (rest : List Str)
    (hw1 : ∀ b ∈ ws1, White b) (hw2 : ∀ b ∈ ws2, White b)
    (hh : ∀ b, t.head? = some b → ¬ White b) (ht : ∀ b, t.getLast? = some b → ¬ White b) (hne : t ≠ [])
    (hlen : 2 < (t ++ ws2).length ∨ ws2 = []) (hl : (ws1 ++ t ++ ws2).length ≤ 256) (hn : NoNul t) :
    ∃ m, recvTrimmed max ((ws1 ++ t ++ ws2) :: rest) buf = some (.ok, m) ∧ Field max m ∧
      CStrAt m 0 (t.take max) := by
  have hsp : ∀ b, White b → isSpace b = true := fun b h => (isSpace_iff b).mpr h
  have hnsp : ∀ b, ¬ White b → isSpace b = false := by
    intro b h
    cases hb : isSpace b
    · rfl
    · exact absurd ((isSpace_iff b).mp hb) h
  obtain ⟨c, t', rfl⟩ : ∃ c t', t = c :: t' := by
    cases t with
    | nil => exact absurd rfl hne
    | cons c t' => exact ⟨c, t', rfl⟩
  have hc := hnsp c (hh c rfl)
  have hlead : removeLeadingWhiteSpaces (ws1 ++ (c :: t') ++ ws2) = (.success, (c :: t') ++ ws2) := by
    unfold removeLeadingWhiteSpaces
    rw [if_pos (valid_of (by simp) hl), List.append_assoc,
      List.dropWhile_append_of_pos (fun b hb => hsp b (hw1 b hb))]
    simp [hc]
  have hl2 : ((c :: t') ++ ws2).length ≤ 256 := by
    simp only [List.length_append, List.length_cons] at hl ⊢; omega
  have htrail : removeTrailingWhiteSpaces ((c :: t') ++ ws2) = (.success, c :: t') := by
    unfold removeTrailingWhiteSpaces
    rw [if_pos (valid_of (by simp) hl2)]
    by_cases hgt : ((c :: t') ++ ws2).length > 2
    · rw [if_pos hgt]
      congr 1
      simp only [List.cons_append, List.take_succ_cons, List.take_zero, List.drop_succ_cons, List.drop_zero,
        List.nil_append]
      congr 1
      unfold dropTrailing
      rw [List.reverse_append, List.dropWhile_append_of_pos
        (fun b hb => hsp b (hw2 b (List.mem_reverse.mp hb)))]
      cases hr : t'.reverse with
      | nil => simp at hr; simp [hr]
      | cons x u =>
        have ht' : t' = u.reverse ++ [x] := by
          have := congrArg List.reverse hr
          simpa using this
        have hx : isSpace x = false := by
          apply hnsp
          apply ht
          rw [ht']
          simp [List.getLast?_cons]
        rw [List.dropWhile_cons, hx]
        simp [ht']
    · rw [if_neg hgt]
      rcases hlen with h | h
      · omega
      · subst h; simp
  unfold recvTrimmed
  simp only [hlead, htrail]
  obtain ⟨m, e1, e2, e3⟩ := strncpy_field hb (c :: t') hn
  rw [e1]
  exact ⟨m, rfl, e2, e3⟩

/-- C58: the IMEI is the line without white space, cut to 15 characters, terminated. -/
theorem C58_imei (buf : Mem) (hb : Field 15 buf) (line : Str) (rest : List Str)
    (hne : noWhite line ≠ []) (hl : line.length ≤ 256) (hn : NoNul line) :
    ∃ m, recvImei (line :: rest) buf = some (.ok, m) ∧ Field 15 m ∧ CStrAt m 0 ((noWhite line).take 15) := by
  have hlne : line ≠ [] := ne_nil_of_filter hne
  have hdrop : noWhite (line.dropWhile isSpace) = noWhite line := by
    rw [← noWhite_eq, ← noWhite_eq]
    clear hne hl hn hlne
    induction line with
    | nil => rfl
    | cons b t ih =>
      cases hb : isSpace b
      · simp [List.dropWhile_cons, hb]
      · simp [List.dropWhile_cons, hb, ih]
  have hdl : (line.dropWhile isSpace).length ≤ 256 := by
    have := (List.dropWhile_suffix (l := line) isSpace).length_le; omega
  have hdne : line.dropWhile isSpace ≠ [] := by
    intro e; rw [e] at hdrop; rw [← hdrop] at hne; simp [noWhite] at hne
  unfold recvImei removeLeadingWhiteSpaces
  simp only
  rw [if_pos (valid_of hlne hl)]
  simp only
  rw [removeAllWhiteSpaces_eq hdne hdl, hdrop]
  simp only
  obtain ⟨m, e1, e2, e3⟩ := strncpy_field hb (noWhite line) (noNul_filter _ hn)
  rw [show imeiMax = 15 from rfl, e1]
  exact ⟨m, rfl, e2, e3⟩

theorem strncpy_full {max : Nat} {buf : Mem} (hb : Field max buf) (s : Str) (hn : NoNul s)
    (hs : s.length < max + 1) :
    ∃ m, strncpy buf s (max + 1) = some m ∧ Field max m ∧ CStrAt m 0 s := by
  obtain ⟨h1, h2⟩ := hb
  unfold strncpy
  rw [if_pos (by omega), List.drop_of_length_le (by omega), List.append_nil,
    List.take_of_length_le (by omega)]
  obtain ⟨k, hk⟩ : ∃ k, max + 1 - s.length = k + 1 := ⟨max - s.length, by omega⟩
  refine ⟨_, rfl, ⟨by simp; omega, ?_⟩, hn, [], List.replicate k 0, by rw [hk, List.replicate_succ]; rfl, rfl⟩
  rw [List.getElem?_append_right (by omega), List.getElem?_replicate, if_pos (by omega)]

/-- C58: the IMSI is the line without white space, complete and terminated, or - if longer than 15
characters - it is refused and the field unchanged. -/
theorem C58_imsi (buf : Mem) (hb : Field 15 buf) (line : Str) (rest : List Str)
    (hne : line ≠ []) (hl : line.length ≤ 256) (hn : NoNul line) :
    ((noWhite line).length ≤ 15 ∧ ∃ m, recvImsi (line :: rest) buf = some (.ok, m) ∧ Field 15 m ∧
        CStrAt m 0 (noWhite line)) ∨
    (15 < (noWhite line).length ∧ recvImsi (line :: rest) buf = some (.failure, buf)) := by
  unfold recvImsi
  simp only
  rw [removeAllWhiteSpaces_eq hne hl]
  simp only [show imsiMax = 15 from rfl]
  by_cases h : (noWhite line).length < 15 + 1
  · left
    rw [if_pos h]
    obtain ⟨m, e1, e2, e3⟩ := strncpy_full hb (noWhite line) (noNul_filter _ hn) h
    rw [e1]
    exact ⟨by omega, m, rfl, e2, e3⟩
  · right
    rw [if_neg h]
    exact ⟨by omega, rfl⟩

/-- C58: the ICCID is the text after the prefix without white space, complete and terminated, or - if
longer than 20 characters - it is refused and the field unchanged. -/
theorem C58_iccid (buf : Mem) (hb : Field 20 buf) (pre body : Str) (rest : List Str)
    (hpre : (58 : Byte) ∉ pre) (hl : (pre ++ 58 :: body).length ≤ 256) (hn : NoNul body) :
    ((noWhite body).length ≤ 20 ∧ ∃ m, recvIccid ((pre ++ 58 :: body) :: rest) buf = some (.ok, m) ∧
        Field 20 m ∧ CStrAt m 0 (noWhite body)) ∨
    (20 < (noWhite body).length ∧
      recvIccid ((pre ++ 58 :: body) :: rest) buf = some (.badParam, buf)) := by
  have hl2 : (noWhite pre ++ 58 :: noWhite body).length ≤ 256 := by
    have := noWhite_len body
    have := noWhite_len pre
    simp only [List.length_append, List.length_cons] at hl ⊢; omega
  unfold recvIccid
  simp only
  rw [removeAllWhiteSpaces_eq (by simp) hl, noWhite_prefix]
  simp only
  rw [removePrefix_eq (fun h => hpre (noWhite_mem h)) hl2]
  simp only [show iccidMax = 20 from rfl]
  by_cases h : (noWhite body).length < 20 + 1
  · left
    rw [if_pos h]
    obtain ⟨m, e1, e2, e3⟩ := strncpy_full hb (noWhite body) (noNul_filter _ hn) h
    rw [e1]
    exact ⟨by omega, m, rfl, e2, e3⟩
  · right
    rw [if_neg h]
    exact ⟨by omega, rfl⟩

theorem keep_field {max n : Nat} (hn : n ≤ max + 1) {buf : Mem} (hb : Field max buf)
    {s : Str} (hs : n = max ∨ s.length < n) :
    ∃ m, strncpy buf s n = some m ∧ Field max m := by
  obtain ⟨h1, h2⟩ := hb
  have hlen : (s.take n ++ List.replicate (n - s.length) 0).length = n := by simp; omega
  unfold strncpy
  rw [if_pos (by omega)]
  refine ⟨_, rfl, by rw [List.length_append, hlen]; simp; omega, ?_⟩
  by_cases hnm : n = max + 1
  · rw [List.getElem?_append_left (by omega)]
    have hs' : s.length < n := by rcases hs with h | h <;> omega
    rw [List.getElem?_append_right (by rw [List.length_take]; omega), List.getElem?_replicate,
      if_pos (by rw [List.length_take]; omega)]
  · rw [List.getElem?_append_right (by omega), hlen, List.getElem?_drop]
    rw [← h2]
    congr 1
    omega

theorem recvTrimmed_field {max : Nat} (l : List Str) {buf : Mem} (hb : Field max buf) :
    ∃ r, recvTrimmed max l buf = some r ∧ Field max r.2 := by
  unfold recvTrimmed
  split
  · exact ⟨_, rfl, hb⟩
  · split
    · split
      · obtain ⟨m, e1, e2⟩ := keep_field (n := max) (by omega) hb (s := _) (Or.inl rfl)
        rw [e1]; exact ⟨_, rfl, e2⟩
      · exact ⟨_, rfl, hb⟩
    · exact ⟨_, rfl, hb⟩

theorem recvImei_field (l : List Str) {buf : Mem} (hb : Field imeiMax buf) :
    ∃ r, recvImei l buf = some r ∧ Field imeiMax r.2 := by
  unfold recvImei
  split
  · exact ⟨_, rfl, hb⟩
  · split
    · split
      · obtain ⟨m, e1, e2⟩ := keep_field (n := imeiMax) (by omega) hb (s := _) (Or.inl rfl)
        rw [e1]; exact ⟨_, rfl, e2⟩
      · exact ⟨_, rfl, hb⟩
    · exact ⟨_, rfl, hb⟩

theorem recvImsi_field (l : List Str) {buf : Mem} (hb : Field imsiMax buf) :
    ∃ r, recvImsi l buf = some r ∧ Field imsiMax r.2 := by
  unfold recvImsi
  split
  · exact ⟨_, rfl, hb⟩
  · split
    · split
      · rename_i h
        obtain ⟨m, e1, e2⟩ := keep_field (n := imsiMax + 1) (by omega) hb (Or.inr h)
        rw [e1]; exact ⟨_, rfl, e2⟩
      · exact ⟨_, rfl, hb⟩
    · exact ⟨_, rfl, hb⟩

theorem recvIccid_field (l : List Str) {buf : Mem} (hb : Field iccidMax buf) :
    ∃ r, recvIccid l buf = some r ∧ Field iccidMax r.2 := by
  unfold recvIccid
  split
  · exact ⟨_, rfl, hb⟩
  · split
    · split
      · split
        · rename_i h
          obtain ⟨m, e1, e2⟩ := keep_field (n := iccidMax + 1) (by omega) hb (Or.inr h)
          rw [e1]; exact ⟨_, rfl, e2⟩
        · exact ⟨_, rfl, hb⟩
      · exact ⟨_, rfl, hb⟩
    · exact ⟨_, rfl, hb⟩

theorem requestCb_keeps {α : Type} (P : α → Prop) (w : World) (r : Req)
    (recv : List Str → α → Option (PktStatus × α)) (out : α) (h0 : P out)
    (hr : ∀ l, ∃ q, recv l out = some q ∧ P q.2) :
    ∃ s w' a, requestCb w r recv out = some (s, w', a) ∧ P a := by
  unfold requestCb
  cases request w r with
  | mk a w' =>
    cases a with
    | error e => exact ⟨_, _, _, rfl, h0⟩
    | ok l =>
      obtain ⟨q, e1, e2⟩ := hr l
      simp only [e1]
      exact ⟨_, _, _, rfl, e2⟩

/-- C58: whatever the modem answers, the modem information query never writes outside the caller's
structure and leaves each of its four text members NUL-terminated. -/
theorem C58_modem_info_safe (w : World) (ho : LibraryOpen w) (p : ModemInfo) :
    ∃ r i, getModemInfo w (some p) = some r ∧ r.out = some i ∧
      Field 32 i.fw ∧ Field 15 i.imei ∧ Field 10 i.model ∧ Field 20 i.manuf := by
  unfold getModemInfo
  rw [checkLib_open ho]
  have z1 : Field fwMax ModemInfo.zero.fw := field_zero _
  have z2 : Field imeiMax ModemInfo.zero.imei := field_zero _
  have z3 : Field modelMax ModemInfo.zero.model := field_zero _
  have z4 : Field manufMax ModemInfo.zero.manuf := field_zero _
  obtain ⟨s1, w1, a1, e1, f1⟩ := requestCb_keeps (Field fwMax) w ⟨str "AT+CGMR", .woPrefix, none⟩
    (recvTrimmed fwMax) ModemInfo.zero.fw z1 (fun l => recvTrimmed_field l z1)
  simp only [e1, Option.bind_eq_bind, Option.bind_some, Option.pure_def]
  by_cases c1 : s1 = .ok
  case neg => rw [if_pos c1]; exact ⟨_, _, rfl, rfl, f1, z2, z3, z4⟩
  rw [if_neg (by simp [c1])]
  obtain ⟨s2, w2, a2, e2, f2⟩ := requestCb_keeps (Field imeiMax) w1 ⟨str "AT+CGSN", .woPrefix, none⟩
    recvImei ModemInfo.zero.imei z2 (fun l => recvImei_field l z2)
  simp only [e2, Option.bind_some]
  by_cases c2 : s2 = .ok
  case neg => rw [if_pos c2]; exact ⟨_, _, rfl, rfl, f1, f2, z3, z4⟩
  rw [if_neg (by simp [c2])]
  obtain ⟨s3, w3, a3, e3, f3⟩ := requestCb_keeps (Field modelMax) w2 ⟨str "AT+CGMM", .woPrefix, none⟩
    (recvTrimmed modelMax) ModemInfo.zero.model z3 (fun l => recvTrimmed_field l z3)
  simp only [e3, Option.bind_some]
  by_cases c3 : s3 = .ok
  case neg => rw [if_pos c3]; exact ⟨_, _, rfl, rfl, f1, f2, f3, z4⟩
  rw [if_neg (by simp [c3])]
  obtain ⟨s4, w4, a4, e4, f4⟩ := requestCb_keeps (Field manufMax) w3 ⟨str "AT+CGMI", .woPrefix, none⟩
    (recvTrimmed manufMax) ModemInfo.zero.manuf z4 (fun l => recvTrimmed_field l z4)
  simp only [e4, Option.bind_some]
  exact ⟨_, _, rfl, rfl, f1, f2, f3, f4⟩

/-- C58: the same for the SIM information query. -/
theorem C58_sim_info_safe (w : World) (ho : LibraryOpen w) (p : SimInfo) :
    ∃ r i, getSimCardInfo w (some p) = some r ∧ r.out = some i ∧ Field 15 i.imsi ∧ Field 20 i.iccid := by
  unfold getSimCardInfo
  rw [checkLib_open ho]
  have z1 : Field imsiMax SimInfo.zero.imsi := field_zero _
  have z2 : Field iccidMax SimInfo.zero.iccid := field_zero _
  obtain ⟨s1, w1, a1, e1, f1⟩ := requestCb_keeps (Field imsiMax) w ⟨str "AT+CIMI", .woPrefix, none⟩
    recvImsi SimInfo.zero.imsi z1 (fun l => recvImsi_field l z1)
  simp only [e1, Option.bind_eq_bind, Option.bind_some, Option.pure_def]
  by_cases c1 : s1 = .ok
  case neg => rw [if_pos c1]; exact ⟨_, _, rfl, rfl, f1, z2⟩
  rw [if_neg (by simp [c1])]
  obtain ⟨s2, w2, a2, e2, _⟩ := requestCb_keeps (fun _ => True) w1
    ⟨str "AT+CRSM=176,28514,0,0,0", .withPrefix, some (str "+CRSM")⟩
    (fun l p => some (recvHplmn l p)) SimInfo.zero.plmn trivial (fun l => ⟨_, rfl, trivial⟩)
  simp only [e2, Option.bind_some]
  by_cases c2 : s2 = .ok
  case neg => rw [if_pos c2]; exact ⟨_, _, rfl, rfl, f1, z2⟩
  rw [if_neg (by simp [c2])]
  obtain ⟨s3, w3, a3, e3, f3⟩ := requestCb_keeps (Field iccidMax) w2
    ⟨str "AT+CCID", .withPrefix, some (str "+CCID")⟩ recvIccid SimInfo.zero.iccid z2
    (fun l => recvIccid_field l z2)
  simp only [e3, Option.bind_some]
  exact ⟨_, _, rfl, rfl, f1, f3⟩

end Cellular.Props
