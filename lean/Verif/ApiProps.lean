import Verif.Api
import Verif.TokLemmas
/-!
# Properties of the 3GPP API: commands sent (C38, C46, C49, C50) and timers (C45)
-/

namespace Cellular.Props
open Cellular Spec Api Signal Tok
open Cellular.AtCore (strtoi AtErr)

/-! ## C38 -/

/-- The library accepts API calls: there is a context, it was opened and is not being shut down or
closed. -/
def LibraryOpen (w : World) : Prop := w.lib = some (true, false, false)

theorem checkLib_closed {w : World} (h : ¬ LibraryOpen w) : checkLibraryStatus w.lib ≠ .success := by
  unfold LibraryOpen at h
  unfold checkLibraryStatus
  split
  · simp
  · rename_i o s c hh
    rw [hh] at h
    cases o <;> cases s <;> cases c <;> simp_all

theorem checkLib_open {w : World} (h : LibraryOpen w) : checkLibraryStatus w.lib = .success := by
  unfold LibraryOpen at h; rw [h]; rfl

/-- C38: on a NULL, never opened, shutting down or closing library every 3GPP API function returns an
error, leaves the library and the modem conversation as they are (in particular sends nothing) and
does not touch the caller's object, whatever the other arguments are. -/
theorem C38_closed_library_no_effect (lm : Nat) (w : World) (h : ¬ LibraryOpen w) :
    (∀ p, ∃ e, e ≠ .success ∧ getEidrxSettings lm w p = some ⟨e, w, p⟩) ∧
    (∀ p, ∃ e, e ≠ .success ∧ setEidrxSettings w p = ⟨e, w, ()⟩) ∧
    (∀ on, ∃ e, e ≠ .success ∧ rfSet on w = ⟨e, w, ()⟩) ∧
    (∀ mem p, ∃ e, e ≠ .success ∧ getRegisteredNetwork lm mem w p = ⟨e, w, p⟩) ∧
    (∀ p, ∃ e, e ≠ .success ∧ getServiceStatus lm w p = ⟨e, w, p⟩) ∧
    (∀ p, ∃ e, e ≠ .success ∧ getNetworkTime lm w p = ⟨e, w, p⟩) ∧
    (∀ p, ∃ e, e ≠ .success ∧ getModemInfo w p = some ⟨e, w, p⟩) ∧
    (∀ id buf len, ∃ e, e ≠ .success ∧ getIPAddress w id buf len = some ⟨e, w, buf⟩) ∧
    (∀ id p, ∃ e, e ≠ .success ∧ setPdnConfig w id p = ⟨e, w, ()⟩) ∧
    (∀ p, ∃ e, e ≠ .success ∧ getSimCardLockStatus w p = ⟨e, w, p⟩) ∧
    (∀ p, ∃ e, e ≠ .success ∧ getSimCardInfo w p = some ⟨e, w, p⟩) ∧
    (∀ p, ∃ e, e ≠ .success ∧ setPsmSettings w p = ⟨e, w, ()⟩) ∧
    (∀ p, ∃ e, e ≠ .success ∧ getPsmSettings lm w p = ⟨e, w, p⟩) := by
  have hc := checkLib_closed h
  refine ⟨?_, ?_, ?_, ?_, ?_, ?_, ?_, ?_, ?_, ?_, ?_, ?_, ?_⟩
  case refine_9 =>
    intro id p
    unfold setPdnConfig
    split
    · exact ⟨_, by simp, rfl⟩
    · split
      · exact ⟨_, by simp, rfl⟩
      · split
        · refine ⟨_, hc, ?_⟩
          cases hh : checkLibraryStatus w.lib <;> first | rfl | exact absurd hh hc
        · rename_i hne
          exact ⟨_, hne, rfl⟩
  all_goals
    intros
    refine ⟨_, hc, ?_⟩
    first
      | unfold getEidrxSettings | unfold setEidrxSettings | unfold rfSet
      | unfold getRegisteredNetwork | unfold getServiceStatus | unfold getNetworkTime
      | unfold getModemInfo | unfold getIPAddress | unfold getSimCardLockStatus
      | unfold getSimCardInfo | unfold setPsmSettings | unfold getPsmSettings
    cases hh : checkLibraryStatus w.lib <;> first | rfl | exact absurd hh hc

/-- The hypothesis is met e.g. by a NULL handle and by a closing library. -/
example (w : World) : ¬ LibraryOpen { w with lib := none } ∧
    ¬ LibraryOpen { w with lib := some (true, false, true) } := by
  constructor <;> simp [LibraryOpen]

/-- C38, NULL arguments: a NULL output or settings pointer is refused as well and nothing is sent. -/
theorem C38_null_argument_no_effect (lm : Nat) (w : World) (ho : LibraryOpen w) :
    getEidrxSettings lm w none = some ⟨.badParameter, w, none⟩ ∧
    setEidrxSettings w none = ⟨.badParameter, w, ()⟩ ∧
    (∀ mem, getRegisteredNetwork lm mem w none = ⟨.badParameter, w, none⟩) ∧
    getServiceStatus lm w none = ⟨.badParameter, w, none⟩ ∧
    getNetworkTime lm w none = ⟨.badParameter, w, none⟩ ∧
    getModemInfo w none = some ⟨.badParameter, w, none⟩ ∧
    (∀ id len, getIPAddress w id none len = some ⟨.badParameter, w, none⟩) ∧
    (∀ id buf, getIPAddress w id buf 0 = some ⟨.badParameter, w, buf⟩) ∧
    (∀ id, setPdnConfig w id none = ⟨.badParameter, w, ()⟩) ∧
    getSimCardLockStatus w none = ⟨.badParameter, w, none⟩ ∧
    getSimCardInfo w none = some ⟨.badParameter, w, none⟩ ∧
    setPsmSettings w none = ⟨.badParameter, w, ()⟩ ∧
    getPsmSettings lm w none = ⟨.badParameter, w, none⟩ := by
  have hc := checkLib_open ho
  refine ⟨?_, ?_, ?_, ?_, ?_, ?_, ?_, fun id buf => ?_, ?_, ?_, ?_, ?_, ?_⟩
  case refine_8 => unfold getIPAddress; rw [hc]; cases buf <;> rfl
  all_goals intros
  all_goals
    first
      | (unfold getEidrxSettings; rw [hc]) | (unfold setEidrxSettings; rw [hc])
      | (unfold getRegisteredNetwork; rw [hc])
      | (unfold getServiceStatus; rw [hc]) | (unfold getNetworkTime; rw [hc])
      | (unfold getModemInfo; rw [hc]) | (unfold getIPAddress; rw [hc])
      | (unfold getSimCardLockStatus; rw [hc]) | (unfold getSimCardInfo; rw [hc])
      | (unfold setPsmSettings; rw [hc]) | (unfold getPsmSettings; rw [hc]) | rfl

/-! ## Command texts -/

theorem fmtD_eq (n : Nat) : fmtD n = decText n := by
  induction n using Nat.strongRecOn with
  | ind n ih =>
    rw [fmtD, decText]
    by_cases h : n < 10
    · rw [if_pos h, if_pos h]
    · rw [if_neg h, if_neg h, ih (n / 10) (by omega)]

theorem decText_length_le {n : Nat} (h : n < 256) : (decText n).length ≤ 3 := by
  rw [decText]
  split
  · simp
  · rw [decText]
    split
    · simp
    · rw [decText]
      split
      · simp
      · omega

/-- The bits of `v`, most significant first: the text of `n` binary digits. -/
def binText : Nat → Nat → Str
  | 0, _ => []
  | n + 1, v => (if v / 2 ^ n % 2 = 1 then 49 else 48) :: binText n v

theorem bitChar_eq (i k : Nat) : bitChar i k = if i / 2 ^ k % 2 = 1 then 49 else 48 := by
  unfold bitChar
  rw [Nat.testBit_eq_decide_div_mod_eq]
  by_cases h : i / 2 ^ k % 2 = 1 <;> simp [h]

theorem int4_eq (i : Nat) : int4 i = binText 4 i := by
  simp only [int4, bitChar_eq, binText]

theorem int8_eq (i : Nat) : int8 i = binText 8 i := by
  have h (k : Nat) : i >>> 4 / 2 ^ k = i / 2 ^ (k + 4) := by
    rw [Nat.shiftRight_eq_div_pow, Nat.div_div_eq_div_mul, Nat.pow_add, Nat.mul_comm]
  simp only [int8, int4, bitChar_eq, h, binText, List.cons_append, List.nil_append]

theorem binText_numeral (n v : Nat) : 0 < n → Numeral 2 (binText n v) (v % 2 ^ n) := by
  have key : ∀ n v, 0 < n → binText n v = binText (n - 1) (v / 2) ++ [if v % 2 = 1 then 49 else 48] := by
    intro n
    induction n with
    | zero => intro v h; omega
    | succ n ih =>
      intro v _
      cases n with
      | zero => simp [binText]
      | succ n =>
        have := ih v (by omega)
        simp only [Nat.add_sub_cancel] at this ⊢
        rw [binText, this]
        simp only [binText, List.cons_append]
        rw [Nat.pow_succ', ← Nat.div_div_eq_div_mul]
  induction n generalizing v with
  | zero => intro h; omega
  | succ n ih =>
    intro _
    rw [key _ _ (by omega)]
    simp only [Nat.add_sub_cancel]
    cases n with
    | zero =>
      simp only [binText, List.nil_append, Nat.pow_one, Nat.zero_add]
      have : v % 2 = 0 ∨ v % 2 = 1 := by omega
      rcases this with h | h <;> rw [h] <;> exact .one (by decide) (by decide)
    | succ n =>
      have e : v % 2 ^ (n + 1 + 1) = (v / 2) % 2 ^ (n + 1) * 2 + v % 2 := by
        rw [Nat.pow_succ' (n := n + 1), Nat.mod_mul]; omega
      rw [e]
      have hd : v % 2 = 0 ∨ v % 2 = 1 := by omega
      refine .snoc (ih (v / 2) (by omega)) ?_ (by omega)
      rcases hd with h | h <;> rw [h] <;> decide

theorem binText_length (n v : Nat) : (binText n v).length = n := by
  induction n with
  | zero => rfl
  | succ n ih => simp [binText, ih]

/-- A command of at most 200 characters is sent exactly once. -/
theorem requestNoCb_sent (w : World) (r : Req) (h : r.cmd.length ≤ 200) :
    (requestNoCb w r).2.sent = w.sent ++ [r] := by
  unfold requestNoCb request
  rw [if_neg (by unfold cmdMax; omega)]
  cases w.modem w.sent r <;> rfl

/-! ## C49 -/

/-- C49: the eDRX command carries mode, RAT and the low four bits of the value, in full; nothing else
is sent. -/
theorem C49_edrx_command (w : World) (ho : LibraryOpen w) (mode rat value : Nat)
    (hm : mode < 256) (hr : rat < 256) :
    ∃ bits, bits.length = 4 ∧ Numeral 2 bits (value % 16) ∧
      (setEidrxSettings w (some (mode, rat, value))).world.sent =
        w.sent ++ [⟨str "AT+CEDRXS=" ++ decText mode ++ str "," ++ decText rat ++ str "," ++ quoted bits,
          .noResult, none⟩] := by
  refine ⟨binText 4 value, binText_length _ _, binText_numeral 4 value (by decide), ?_⟩
  have h1 := decText_length_le hm
  have h2 := decText_length_le hr
  have hl : (str "AT+CEDRXS=").length = 10 := by decide
  have hb := binText_length 4 value
  unfold setEidrxSettings
  rw [checkLib_open ho]
  simp only [fmtD_eq, int4_eq]
  have hlen : (str "AT+CEDRXS=" ++ decText mode ++ [44] ++ decText rat ++ [44, 34] ++ binText 4 value ++
      [34]).length ≤ 199 := by
    simp only [List.length_append, List.length_cons, List.length_nil, hl, hb]; omega
  rw [show snprintf cmdMax (str "AT+CEDRXS=" ++ decText mode ++ [44] ++ decText rat ++ [44, 34] ++
      binText 4 value ++ [34]) = str "AT+CEDRXS=" ++ decText mode ++ [44] ++ decText rat ++ [44, 34] ++
      binText 4 value ++ [34] from List.take_of_length_le hlen]
  rw [requestNoCb_sent _ _ (by simp only; omega)]
  simp [quoted, show str "," = [44] by decide]

/-! ## C50 -/

/-- The PDP type names of 3GPP TS 27.007 for the three PDN types. -/
def PdnTypeName (t : Nat) (s : Str) : Prop :=
  (t = 1 ∧ s = str "IP") ∨ (t = 2 ∧ s = str "IPV6") ∨ (t = 3 ∧ s = str "IPV4V6")

/-- C50: for every context id 1..16, every PDN type and every APN that fits the caller's structure
exactly the full AT+CGDCONT command is sent. -/
theorem C50_pdn_command (w : World) (ho : LibraryOpen w) (id : Nat) (h1 : 1 ≤ id) (h2 : id ≤ 16)
    (t : Nat) (tn : Str) (ht : PdnTypeName t tn) (apn : Str) (ha : apn.length ≤ 64) :
    (setPdnConfig w id (some ⟨t, apn⟩)).world.sent =
      w.sent ++ [⟨str "AT+CGDCONT=" ++ decText id ++ str "," ++ quoted tn ++ str "," ++ quoted apn,
        .noResult, none⟩] := by
  have hd := decText_length_le (n := id) (by omega)
  have hl : (str "AT+CGDCONT=").length = 11 := by decide
  have htn : tn.length ≤ 6 := by rcases ht with ⟨_, h⟩ | ⟨_, h⟩ | ⟨_, h⟩ <;> subst h <;> decide
  have htt : pdnTypeStr t = some tn := by
    rcases ht with ⟨h, h'⟩ | ⟨h, h'⟩ | ⟨h, h'⟩ <;> subst h <;> subst h' <;> rfl
  have hv : isValidPdn id = .success := by
    unfold isValidPdn; rw [if_neg]; omega
  unfold setPdnConfig
  simp only [htt, hv]
  rw [checkLib_open ho]
  simp only [fmtD_eq]
  have hlen : (str "AT+CGDCONT=" ++ decText id ++ [44, 34] ++ tn ++ [34, 44, 34] ++ apn ++
      [34]).length ≤ 199 := by
    simp only [List.length_append, List.length_cons, List.length_nil, hl]; omega
  rw [show snprintf cmdMax (str "AT+CGDCONT=" ++ decText id ++ [44, 34] ++ tn ++ [34, 44, 34] ++ apn ++
      [34]) = str "AT+CGDCONT=" ++ decText id ++ [44, 34] ++ tn ++ [34, 44, 34] ++ apn ++
      [34] from List.take_of_length_le hlen]
  rw [requestNoCb_sent _ _ (by simp only; omega)]
  simp [quoted, show str "," = [44] by decide]

/-- C50: the outcome reported is the modem's: success exactly if the modem accepted the command. -/
theorem C50_pdn_result (w : World) (ho : LibraryOpen w) (id : Nat) (h1 : 1 ≤ id) (h2 : id ≤ 16)
    (t : Nat) (tn : Str) (ht : PdnTypeName t tn) (apn : Str) (ha : apn.length ≤ 64) :
    (setPdnConfig w id (some ⟨t, apn⟩)).err = .success ↔
      ∃ l, w.modem w.sent ⟨str "AT+CGDCONT=" ++ decText id ++ str "," ++ quoted tn ++ str "," ++
        quoted apn, .noResult, none⟩ = .lines l := by
  have hd := decText_length_le (n := id) (by omega)
  have hl : (str "AT+CGDCONT=").length = 11 := by decide
  have htn : tn.length ≤ 6 := by rcases ht with ⟨_, h⟩ | ⟨_, h⟩ | ⟨_, h⟩ <;> subst h <;> decide
  have htt : pdnTypeStr t = some tn := by
    rcases ht with ⟨h, h'⟩ | ⟨h, h'⟩ | ⟨h, h'⟩ <;> subst h <;> subst h' <;> rfl
  have hv : isValidPdn id = .success := by
    unfold isValidPdn; rw [if_neg]; omega
  unfold setPdnConfig
  simp only [htt, hv]
  rw [checkLib_open ho]
  simp only [fmtD_eq]
  have hlen : (str "AT+CGDCONT=" ++ decText id ++ [44, 34] ++ tn ++ [34, 44, 34] ++ apn ++
      [34]).length ≤ 199 := by
    simp only [List.length_append, List.length_cons, List.length_nil, hl]; omega
  rw [show snprintf cmdMax (str "AT+CGDCONT=" ++ decText id ++ [44, 34] ++ tn ++ [34, 44, 34] ++ apn ++
      [34]) = str "AT+CGDCONT=" ++ decText id ++ str "," ++ quoted tn ++ str "," ++ quoted apn from by
    rw [show snprintf cmdMax _ = _ from List.take_of_length_le hlen]
    simp [quoted, show str "," = [44] by decide]]
  unfold requestNoCb request
  rw [if_neg (by
    simp only [cmdMax, quoted, show str "," = [44] by decide, List.length_append, List.length_cons,
      List.length_nil, hl]; omega)]
  cases w.modem w.sent _ <;> simp [translatePkt]

/-- C50: invalid context ids and PDN types are refused and nothing is sent. -/
theorem C50_invalid_refused (w : World) (id : Nat) (c : PdnConfig)
    (h : id < 1 ∨ 16 < id ∨ ∀ tn, ¬ PdnTypeName c.type tn) :
    setPdnConfig w id (some c) = ⟨.badParameter, w, ()⟩ := by
  unfold setPdnConfig
  simp only
  cases ht : pdnTypeStr c.type with
  | none => rfl
  | some tn =>
    have hn : PdnTypeName c.type tn := by
      unfold pdnTypeStr at ht
      unfold PdnTypeName
      split at ht
      · simp_all
      · split at ht
        · simp_all
        · split at ht <;> simp_all
    have hid : isValidPdn id = .badParameter := by
      unfold isValidPdn
      rw [if_pos]
      rcases h with h | h | h
      · exact Or.inr h
      · exact Or.inl h
      · exact absurd hn (h tn)
    simp only [hid]

example : PdnTypeName 3 (str "IPV4V6") ∧ ∀ tn, ¬ PdnTypeName 0 tn := by
  simp [PdnTypeName]

/-! ## C46 -/

/-- A PSM timer field of the AT+CPSMS command: empty for zero, otherwise eight binary digits in
quotes whose value is the low eight bits of the setting. -/
def PsmField (v : Nat) (f : Str) : Prop :=
  (v = 0 ∧ f = []) ∨ (v ≠ 0 ∧ ∃ bits, f = quoted bits ∧ bits.length = 8 ∧ Numeral 2 bits (v % 256))

theorem append_pattern (n v : Nat) (e : Bool) (hn : 12 ≤ n) :
    ∃ f, PsmField v f ∧ f.length ≤ 10 ∧
      appendBinaryPattern n v e = f ++ (if e then [] else [44]) := by
  unfold appendBinaryPattern
  by_cases hv : v = 0
  · subst hv
    refine ⟨[], Or.inl ⟨rfl, rfl⟩, by simp, ?_⟩
    rw [if_neg (by simp)]
    unfold snprintf
    cases e
    · simp only [Bool.false_eq_true, if_false, List.nil_append]
      exact List.take_of_length_le (by simp; omega)
    · simp
  · refine ⟨quoted (binText 8 v), Or.inr ⟨hv, _, rfl, binText_length 8 v, binText_numeral 8 v (by decide)⟩,
      by simp [quoted, binText_length], ?_⟩
    rw [if_pos hv, int8_eq]
    unfold snprintf
    rw [List.take_of_length_le]
    · simp [quoted]
    · have := binText_length 8 v
      cases e <;> simp [this] <;> omega

/-- C46: for every PSM setting exactly one command is sent: mode and the four timers (periodic RAU,
GPRS ready, periodic TAU, active time) as comma separated fields, complete. -/
theorem C46_psm_command (w : World) (ho : LibraryOpen w) (p : Psm) (hm : p.mode < 256) :
    ∃ f1 f2 f3 f4, PsmField p.rau f1 ∧ PsmField p.rdy f2 ∧ PsmField p.tau f3 ∧ PsmField p.active f4 ∧
      (setPsmSettings w (some p)).world.sent =
        w.sent ++ [⟨str "AT+CPSMS=" ++ joinComma [decText p.mode, f1, f2, f3, f4], .noResult, none⟩] := by
  have hd := decText_length_le hm
  have hl : (str "AT+CPSMS=").length = 9 := by decide
  have h0 : snprintf cmdMax (str "AT+CPSMS=" ++ fmtD p.mode ++ [44]) =
      str "AT+CPSMS=" ++ decText p.mode ++ [44] := by
    rw [fmtD_eq]
    refine List.take_of_length_le ?_
    simp only [cmdMax, List.length_append, List.length_cons, List.length_nil, hl]
    omega
  unfold setPsmSettings psmCommand
  rw [checkLib_open ho]
  simp only [h0]
  have b0 : (str "AT+CPSMS=" ++ decText p.mode ++ [44]).length ≤ 13 := by
    simp only [List.length_append, List.length_cons, List.length_nil, hl]; omega
  generalize hc0 : str "AT+CPSMS=" ++ decText p.mode ++ [44] = c0 at b0 ⊢
  obtain ⟨f1, p1, l1, e1⟩ := append_pattern (cmdMax - c0.length) p.rau false (by unfold cmdMax; omega)
  rw [e1]
  have b1 : (c0 ++ (f1 ++ [44])).length ≤ 24 := by simp; omega
  simp only [Bool.false_eq_true, if_false]
  obtain ⟨f2, p2, l2, e2⟩ := append_pattern (cmdMax - (c0 ++ (f1 ++ [44])).length) p.rdy false
    (by unfold cmdMax; omega)
  rw [e2]
  simp only [Bool.false_eq_true, if_false]
  have b2 : (c0 ++ (f1 ++ [44]) ++ (f2 ++ [44])).length ≤ 35 := by
    rw [List.length_append]; simp only [List.length_append, List.length_cons, List.length_nil] at b1 ⊢; omega
  obtain ⟨f3, p3, l3, e3⟩ := append_pattern (cmdMax - (c0 ++ (f1 ++ [44]) ++ (f2 ++ [44])).length) p.tau
    false (by unfold cmdMax; omega)
  rw [e3]
  simp only [Bool.false_eq_true, if_false]
  have b3 : (c0 ++ (f1 ++ [44]) ++ (f2 ++ [44]) ++ (f3 ++ [44])).length ≤ 46 := by
    rw [List.length_append]; simp only [List.length_append, List.length_cons, List.length_nil] at b2 ⊢; omega
  obtain ⟨f4, p4, l4, e4⟩ := append_pattern
    (cmdMax - (c0 ++ (f1 ++ [44]) ++ (f2 ++ [44]) ++ (f3 ++ [44])).length) p.active true
    (by unfold cmdMax; omega)
  rw [e4]
  refine ⟨f1, f2, f3, f4, p1, p2, p3, p4, ?_⟩
  rw [requestNoCb_sent]
  · subst hc0
    simp [joinComma]
  · simp only [if_true, List.append_nil]
    rw [List.length_append]
    omega

example : PsmField 0x21 (str "\"00100001\"") :=
  Or.inr ⟨by decide, str "00100001", by decide, by decide, by
    have := binText_numeral 8 0x21 (by decide)
    rwa [show binText 8 0x21 = str "00100001" by decide] at this⟩

/-! ## C45 -/

/-- 3GPP TS 24.008, GPRS timer 3 (T3412 extended): seconds per unit. -/
def unitT3412 : Nat → Option Nat
  | 0 => some 600 | 1 => some 3600 | 2 => some 36000 | 3 => some 2 | 4 => some 30 | 5 => some 60
  | _ => none

/-- 3GPP TS 24.008, GPRS timer 2 (T3324): seconds per unit. -/
def unitT3324 : Nat → Option Nat
  | 0 => some 2 | 1 => some 60 | 2 => some 360 | _ => none

/-- A timer octet is decoded by the unit table: `none` = refused. -/
def timerSeconds (unit : Nat → Option Nat) (octet : Nat) : Option Nat :=
  if octet / 32 = 7 then some 0xFFFFFFFF else (unit (octet / 32)).map (· * (octet % 32))

/-- C45: every text of an 8-bit binary number is decoded by the T3412 table. -/
theorem C45_t3412 (lm : Nat) (hlm : 2 ^ 31 - 1 ≤ lm) (tok : Str) (v : Nat) (h : Numeral 2 tok v)
    (hv : v < 256) :
    parseT3412 lm tok = match timerSeconds unitT3412 v with
      | some s => (.success, some s)
      | none => (.error, none) := by
  unfold parseT3412
  rw [strtoi_numeral hlm h (by omega)]
  simp only
  rw [if_neg (by omega)]
  have e : ((v : Int)).toNat = v := by omega
  rw [e]
  have hu : v / 32 % 8 = v / 32 := by omega
  rw [hu]
  unfold timerSeconds
  have : v / 32 = 0 ∨ v / 32 = 1 ∨ v / 32 = 2 ∨ v / 32 = 3 ∨ v / 32 = 4 ∨ v / 32 = 5 ∨ v / 32 = 6 ∨
    v / 32 = 7 := by omega
  rcases this with h | h | h | h | h | h | h | h <;> rw [h] <;>
    simp [unitT3412, deactivated, Nat.mul_comm]

/-- C45: every text of an 8-bit binary number is decoded by the T3324 table. -/
theorem C45_t3324 (lm : Nat) (hlm : 2 ^ 31 - 1 ≤ lm) (tok : Str) (v : Nat) (h : Numeral 2 tok v)
    (hv : v < 256) :
    parseT3324 lm tok = match timerSeconds unitT3324 v with
      | some s => (.success, some s)
      | none => (.error, none) := by
  unfold parseT3324
  rw [strtoi_numeral hlm h (by omega)]
  simp only
  rw [if_neg (by omega)]
  have e : ((v : Int)).toNat = v := by omega
  rw [e]
  have hu : v / 32 % 8 = v / 32 := by omega
  rw [hu]
  unfold timerSeconds
  have : v / 32 = 0 ∨ v / 32 = 1 ∨ v / 32 = 2 ∨ v / 32 = 3 ∨ v / 32 = 4 ∨ v / 32 = 5 ∨ v / 32 = 6 ∨
    v / 32 = 7 := by omega
  rcases this with h | h | h | h | h | h | h | h <;> rw [h] <;>
    simp [unitT3324, deactivated, Nat.mul_comm]

example : timerSeconds unitT3412 0b01000111 = some 252000 ∧ timerSeconds unitT3412 0b11000001 = none ∧
    timerSeconds unitT3324 0b11100000 = some 0xFFFFFFFF := by decide

end Cellular.Props
