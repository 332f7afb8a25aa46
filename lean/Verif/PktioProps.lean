import Verif.Pktio
import Verif.AtCoreProps
/-!
# Classification of lines (C14) and sending of commands (C17, C18)
-/

namespace Cellular.Props
open Cellular Cellular.Spec Cellular.Pktio
open Cellular.AtCore (AtErr)

/-! ## C14 -/

/-- A line with a response prefix: `+`, a name, `:`, anything. -/
def Prefixed (line : Str) : Prop :=
  ∃ name rest, line = 43 :: name ++ 58 :: rest ∧ ∀ b ∈ name, PrefixChar b

/-- The line is one of the unsolicited result codes without prefix listed by the port. -/
def Listed (cfg : Cfg) (line : Str) : Prop := ∃ t, cfg.urcWo = some t ∧ line ∈ t

/-- A command is waiting for lines with a prefix that this line has. -/
def AwaitedPrefix (cmd : CmdType) (pfx : Option Str) (line : Str) : Prop :=
  cmd ≠ .noCommand ∧ ∃ k, pfx = some k ∧ ∃ rest, line = k ++ rest

theorem isUrcToken_iff (cfg : Cfg) (line : Str) : isUrcToken cfg line = true ↔ Listed cfg line := by
  unfold isUrcToken Listed
  split <;> rename_i h <;> simp [h]

theorem isPrefixPresent_iff {line : Str} (h1 : line ≠ []) (h2 : line.length ≤ 256) :
    (AtStr.isPrefixPresent line).2.getD false = true ↔ Prefixed line := by
  have hv : AtStr.valid line = true := (valid_iff line).mpr ⟨h1, h2⟩
  simp only [AtStr.isPrefixPresent, hv, if_true, Option.getD_some]
  have h58 : ∀ b : Byte, PrefixChar b → b ≠ 58 := by
    rintro b hb rfl; revert hb; unfold PrefixChar; decide
  constructor
  · intro hh
    simp only [Bool.and_eq_true, beq_iff_eq, List.contains_iff_mem, List.all_eq_true,
      Bool.not_eq_true'] at hh
    obtain ⟨⟨hc, hhd⟩, hall⟩ := hh
    obtain ⟨c, t, rfl⟩ := List.exists_cons_of_ne_nil h1
    simp only [List.head?_cons, Option.some.injEq] at hhd
    subst hhd
    have hsp := split_at_char hc
    have e : List.takeWhile (fun b => b != (58 : Byte)) (43 :: t)
        = 43 :: List.takeWhile (fun b => b != (58 : Byte)) t := by simp
    rw [e] at hsp hall
    exact ⟨_, _, hsp, fun b hb => (notPrefixChar_iff b).mp (hall b (by simp [hb]))⟩
  · rintro ⟨name, rest, rfl, hn⟩
    have h43 : PrefixChar 43 := by simp [PrefixChar]
    have htw : List.takeWhile (fun b => b != (58 : Byte)) (43 :: name ++ 58 :: rest) = 43 :: name := by
      rw [List.takeWhile_append_of_pos]
      · simp
      · intro b hb
        rcases List.mem_cons.mp hb with hb | hb
        · subst hb; decide
        · simpa using h58 b (hn b hb)
    rw [htw]
    simp only [Bool.and_eq_true, List.all_eq_true, Bool.not_eq_true']
    refine ⟨⟨by simp, by simp⟩, fun b hb => (notPrefixChar_iff b).mpr ?_⟩
    rcases List.mem_cons.mp hb with hb | hb
    · subst hb; exact h43
    · exact hn b hb

/-- Every non-empty line of at most 256 characters is classified by the documented rule, for every
token table, every command state and every awaited prefix of 1 to 256 characters.
Missing: longer lines and empty prefixes, for which the claim is false (witnesses below). -/
theorem C14_classification_partial (cfg : Cfg) (cmd : CmdType) (pfx : Option Str) (line : Str)
    (h1 : line ≠ []) (h2 : line.length ≤ 256)
    (hp : ∀ k, pfx = some k → k ≠ [] ∧ k.length ≤ 256) :
    (getMsgType cfg cmd pfx line = .unsolicited ↔
      Listed cfg line ∨ (Prefixed line ∧ ¬ AwaitedPrefix cmd pfx line)) ∧
    (getMsgType cfg cmd pfx line = .solicited ↔
      ¬ Listed cfg line ∧ ((Prefixed line ∧ AwaitedPrefix cmd pfx line) ∨
        (¬ Prefixed line ∧ cmd ≠ .noCommand))) ∧
    (getMsgType cfg cmd pfx line = .undefined ↔
      ¬ Listed cfg line ∧ ¬ Prefixed line ∧ cmd = .noCommand) := by
  have hL := isUrcToken_iff cfg line
  have hP := isPrefixPresent_iff h1 h2
  have hv : AtStr.valid line = true := (valid_iff line).mpr ⟨h1, h2⟩
  unfold getMsgType
  by_cases hl : Listed cfg line
  · simp [hl, hL.mpr hl]
  have hl' : isUrcToken cfg line = false := by
    cases h : isUrcToken cfg line
    · rfl
    · exact absurd (hL.mp h) hl
  by_cases hpre : Prefixed line
  · have hpt := hP.mpr hpre
    simp only [hl', hpt, hl, hpre]
    cases pfx with
    | none =>
      have hA : ¬ AwaitedPrefix cmd none line := by rintro ⟨_, k, hk, _⟩; cases hk
      simp [hA]
    | some k =>
      have hk := hp k rfl
      have hvk : AtStr.valid k = true := (valid_iff k).mpr hk
      simp only [AtStr.strStartWith, hv, hvk, Bool.and_self, if_true, Option.getD_some]
      by_cases hA : AwaitedPrefix cmd (some k) line
      · have := hA
        obtain ⟨hc, k', hk', r, hr⟩ := this
        cases hk'
        have : k.isPrefixOf line = true := List.isPrefixOf_iff_prefix.mpr ⟨r, hr.symm⟩
        simp [hA, hc, this]
      · have : ¬ (cmd ≠ .noCommand ∧ k.isPrefixOf line = true) := by
          rintro ⟨hc, h⟩
          obtain ⟨r, hr⟩ := List.isPrefixOf_iff_prefix.mp h
          exact hA ⟨hc, k, rfl, r, hr.symm⟩
        rw [if_neg this]
        simp [hA]
  · have hpt : (AtStr.isPrefixPresent line).2.getD false = false := by
      cases h : (AtStr.isPrefixPresent line).2.getD false
      · rfl
      · exact absurd (hP.mp h) hpre
    simp only [hl', hpt, hl, hpre]
    by_cases hc : cmd = .noCommand <;> simp [hc]

/-- A configuration with the result codes of a typical port. -/
def demoCfg (size : Nat) : Cfg :=
  { size := size, urcWo := some [str "RING", str "POWERED DOWN"], succ := some [str "OK", str "CONNECT"],
    err := some [str "ERROR", str "+CME ERROR"], extra := none, inputCb := none,
    undefCb := fun _ => .failure, urcEdit := id }

example : Listed (demoCfg 99) (str "RING") ∧ ¬ Listed (demoCfg 99) (str "+CREG: 1") ∧
    Prefixed (str "+CREG: 1") ∧ AwaitedPrefix .withPrefix (some (str "+CREG")) (str "+CREG: 1") ∧
    getMsgType (demoCfg 99) .withPrefix (some (str "+CREG")) (str "+CREG: 1") = .solicited ∧
    getMsgType (demoCfg 99) .withPrefix (some (str "+CSQ")) (str "+CREG: 1") = .unsolicited ∧
    getMsgType (demoCfg 99) .withPrefix (some (str "+CSQ")) (str "OK") = .solicited ∧
    getMsgType (demoCfg 99) .noCommand none (str "OK") = .undefined :=
  ⟨⟨_, rfl, by decide⟩, by rintro ⟨t, ht, h⟩; cases ht; revert h; decide,
    ⟨str "CREG", str " 1", by decide, by unfold PrefixChar; decide⟩, ⟨by decide, _, rfl, str ": 1", by decide⟩,
    by decide +kernel, by decide +kernel, by decide +kernel, by decide +kernel⟩

/-- Every line of more than 256 characters that is not listed loses its prefix: it is treated as a line
of the pending command's response although it has a prefix nobody waits for, and as undefined when
no command is pending. -/
theorem C14_witness_long_lines (cfg : Cfg) (cmd : CmdType) (pfx : Option Str) (line : Str)
    (hlen : 256 < line.length) (hl : ¬ Listed cfg line) :
    getMsgType cfg cmd pfx line = if cmd = .noCommand then .undefined else .solicited := by
  have hv : AtStr.valid line = false := by
    cases h : AtStr.valid line
    · rfl
    · exact absurd ((valid_iff line).mp h).2 (by simp only [AtCore.maxStringSize]; omega)
  have hl' : isUrcToken cfg line = false := by
    cases h : isUrcToken cfg line
    · rfl
    · exact absurd ((isUrcToken_iff cfg line).mp h) hl
  unfold getMsgType
  simp only [hl', AtStr.isPrefixPresent, hv]
  by_cases hc : cmd = .noCommand <;> simp [hc]

example : Prefixed (str "+CREG: " ++ List.replicate 250 49) ∧
    256 < (str "+CREG: " ++ List.replicate 250 49).length :=
  ⟨⟨str "CREG", 32 :: List.replicate 250 49, rfl, by unfold PrefixChar; decide⟩,
    by decide +kernel⟩

/-- With an empty awaited prefix no prefixed line is classified as documented: all are undefined. -/
theorem C14_witness_empty_prefix (cfg : Cfg) (cmd : CmdType) (line : Str)
    (h2 : line.length ≤ 256) (hp : Prefixed line) (hl : ¬ Listed cfg line) :
    getMsgType cfg cmd (some []) line = .undefined := by
  have h1 : line ≠ [] := by obtain ⟨n, r, rfl, _⟩ := hp; simp
  have hl' : isUrcToken cfg line = false := by
    cases h : isUrcToken cfg line
    · rfl
    · exact absurd ((isUrcToken_iff cfg line).mp h) hl
  unfold getMsgType
  simp [hl', (isPrefixPresent_iff h1 h2).mpr hp, AtStr.strStartWith, AtStr.valid]

/-! ## C17, C18 -/

/-- The two buffers of the send side have the size the context gives them. -/
def TxWf (t : Tx) : Prop := t.prefixBuf.length = prefixMax ∧ t.sendBuf.length = writeMax + 1

/-- Command types that cannot be sent without a response prefix. -/
def NeedsPrefix (type : CmdType) : Prop :=
  type = .withPrefix ∨ type = .multiWithPrefix ∨ type = .withPrefixNoResultCode

instance (type : CmdType) : Decidable (NeedsPrefix type) := by unfold NeedsPrefix; infer_instance

/-- Command types for which a given response prefix is used. -/
def UsesPrefix (type : CmdType) : Prop :=
  NeedsPrefix type ∨ type = .multiWoPrefix ∨ type = .multiDataWoPrefix

instance (type : CmdType) : Decidable (UsesPrefix type) := by unfold UsesPrefix; infer_instance

theorem strncpy_length {dst m : Mem} {src : Str} {n : Nat} (h : Pktio.strncpy dst src n = some m) :
    m.length = dst.length := by
  unfold Pktio.strncpy at h
  split at h <;> cases h
  simp; omega

theorem setPrefix_eq {t : Tx} (hw : TxWf t) (k : Str) :
    setPrefix t k = some (.ok, { t with prefixBuf := k.take 32 ++ List.replicate (32 - k.length) 0,
                                        hasPrefix := true }) := by
  have h := hw.1
  simp only [setPrefix, Pktio.strncpy, prefixMax, h]
  rw [List.drop_eq_nil_of_le (by rw [h]; decide)]
  simp

/-- Result of choosing the prefix: refused, or stored as `strncpy` leaves it. -/
theorem setPrefixByType_eq {t : Tx} (hw : TxWf t) (type : CmdType) (pfx : Option Str) :
    setPrefixByType t type pfx =
      if type = .noCommand ∨ (NeedsPrefix type ∧ pfx = none) then some (.badParam, t)
      else match (if UsesPrefix type then pfx else none) with
        | some k => some (.ok, { t with prefixBuf := k.take 32 ++ List.replicate (32 - k.length) 0,
                                        hasPrefix := true })
        | none => some (.ok, { t with hasPrefix := false }) := by
  cases type <;> cases pfx <;> simp [setPrefixByType, NeedsPrefix, UsesPrefix, setPrefix_eq hw]

/-- Exactly what sending does, for every command, type and prefix. -/
theorem sendAtCmd_eq {t : Tx} (hw : TxWf t) (c : Str) (type : CmdType) (pfx : Option Str) :
    sendAtCmd t (some c) type pfx =
      if 200 < c.length ∨ type = .noCommand ∨ (NeedsPrefix type ∧ pfx = none) then some (.badParam, t)
      else some (.ok,
        { cmd := type
          hasPrefix := (if UsesPrefix type then pfx else none).isSome
          prefixBuf := match (if UsesPrefix type then pfx else none) with
            | some k => k.take 32 ++ List.replicate (32 - k.length) 0
            | none => t.prefixBuf
          sendBuf := c ++ 13 :: t.sendBuf.drop (c.length + 1)
          wire := t.wire ++ [c ++ [13]] }) := by
  have hS := hw.2
  unfold sendAtCmd
  by_cases hl : 200 < c.length
  · simp [hl, writeMax]
  · simp only [writeMax, hl, false_or, gt_iff_lt, if_false]
    rw [setPrefixByType_eq hw]
    by_cases hb : type = .noCommand ∨ (NeedsPrefix type ∧ pfx = none)
    · simp [hb]
    · simp only [hb, if_false]
      have key : ∀ t' : Tx, t'.sendBuf = t.sendBuf →
          (match Pktio.strncpy t'.sendBuf c c.length with
            | none => none
            | some m =>
              match wr m c.length 13 with
              | none => none
              | some m =>
                match slice m 0 (c.length + 1) with
                | none => none
                | some out => some (PktStatus.ok, { t' with cmd := type, sendBuf := m, wire := t'.wire ++ [out] })) =
          some (PktStatus.ok, { t' with cmd := type, sendBuf := c ++ 13 :: t.sendBuf.drop (c.length + 1),
                                        wire := t'.wire ++ [c ++ [13]] }) := by
        intro t' ht'
        have hle : c.length ≤ t.sendBuf.length := by rw [hS]; simp only [writeMax]; omega
        have hlt : c.length < t.sendBuf.length := by rw [hS]; simp only [writeMax]; omega
        obtain ⟨x, rest, hx⟩ : ∃ x rest, t.sendBuf.drop c.length = x :: rest := by
          cases h : t.sendBuf.drop c.length with
          | nil => have := congrArg List.length h; simp at this; omega
          | cons x r => exact ⟨x, r, rfl⟩
        have hrest : t.sendBuf.drop (c.length + 1) = rest := by
          rw [← List.drop_drop, hx]; rfl
        rw [ht']
        simp [Pktio.strncpy, hle, hx, hrest, wr, slice, List.set_append]
        rw [List.take_append, List.take_of_length_le (by omega)]
        simp
      cases hu : (if UsesPrefix type then pfx else none) with
      | none => exact key { t with hasPrefix := false } rfl
      | some k => exact key { t with prefixBuf := k.take 32 ++ List.replicate (32 - k.length) 0,
                                     hasPrefix := true } rfl

/-- A command of at most 200 characters with a definite type (and a prefix where the type needs one) is
handed to the transport as its text followed by a carriage return, in one piece, and is then the
pending command; every other command is refused with BAD_PARAM and the send state is unchanged -
nothing is written and no command becomes pending. -/
theorem C17_sent_exactly (t : Tx) (hw : TxWf t) (c : Str) (type : CmdType) (pfx : Option Str) :
    (c.length ≤ 200 ∧ type ≠ .noCommand ∧ (NeedsPrefix type → pfx ≠ none) →
      ∃ t', sendAtCmd t (some c) type pfx = some (.ok, t') ∧
        t'.wire = t.wire ++ [c ++ [13]] ∧ t'.cmd = type ∧ TxWf t') ∧
    (¬ (c.length ≤ 200 ∧ type ≠ .noCommand ∧ (NeedsPrefix type → pfx ≠ none)) →
      sendAtCmd t (some c) type pfx = some (.badParam, t)) ∧
    sendAtCmd t none type pfx = some (.badParam, t) := by
  refine ⟨?_, ?_, rfl⟩
  · rintro ⟨h1, h2, h3⟩
    rw [sendAtCmd_eq hw, if_neg]
    · refine ⟨_, rfl, rfl, rfl, ?_, ?_⟩
      · cases (if UsesPrefix type then pfx else none) with
        | none => exact hw.1
        | some k => simp [prefixMax]; omega
      · have := hw.2
        simp only [List.length_append, List.length_cons, List.length_drop]
        simp only [writeMax] at this ⊢
        omega
    · rintro (h | h | ⟨h, h'⟩)
      · omega
      · exact h2 h
      · exact h3 h h'
  · intro h
    rw [sendAtCmd_eq hw, if_pos]
    by_cases h1 : 200 < c.length
    · exact Or.inl h1
    · by_cases h2 : type = .noCommand
      · exact Or.inr (Or.inl h2)
      · by_cases h3 : NeedsPrefix type ∧ pfx = none
        · exact Or.inr (Or.inr h3)
        · exact absurd ⟨by omega, h2, fun a b => h3 ⟨a, b⟩⟩ h

/-- An idle send side. -/
def demoTx : Tx :=
  { cmd := .noCommand, hasPrefix := false, prefixBuf := List.replicate 32 0,
    sendBuf := List.replicate 201 0, wire := [] }

example : TxWf demoTx ∧ (str "AT+CREG?").length ≤ 200 ∧
    (sendAtCmd demoTx (some (str "AT+CREG?")) .withPrefix (some (str "+CREG"))).map (·.2.wire)
      = some [str "AT+CREG?\r"] ∧
    (sendAtCmd demoTx (some (str "AT+CREG?")) .withPrefix none).map (·.1) = some .badParam ∧
    (sendAtCmd demoTx (some (List.replicate 201 65)) .noResult none).map (·.1) = some .badParam :=
  ⟨⟨rfl, rfl⟩, by decide, by decide +kernel, by decide +kernel, by decide +kernel⟩

theorem readStrL_append {s : Str} (hs : NoNul s) (t : List Byte) :
    readStrL (s ++ t) = (readStrL t).map (s ++ ·) := by
  induction s with
  | nil => simp
  | cons b s ih =>
    have hb : b ≠ 0 := hs b (by simp)
    simp only [List.cons_append, readStrL, hb, if_false]
    rw [ih (fun x hx => hs x (by simp [hx]))]
    cases readStrL t <;> simp

/-- The prefix kept for matching responses, as a C string: equal to the given one exactly when that
has fewer than 32 characters; a longer one leaves no terminator in the buffer, so reading it as a C
string runs past its end.
Missing: prefixes of 32 and more characters, for which the claim is false. -/
theorem C18_prefix_stored_partial (t t' : Tx) (hw : TxWf t) (c k : Str) (type : CmdType)
    (hk : NoNul k) (hu : UsesPrefix type)
    (h : sendAtCmd t (some c) type (some k) = some (.ok, t')) :
    t'.hasPrefix = true ∧
      (k.length < 32 → readStr t'.prefixBuf 0 = some k) ∧
      (32 ≤ k.length → readStr t'.prefixBuf 0 = none) := by
  rw [sendAtCmd_eq hw] at h
  split at h
  · cases h
  · cases h
    simp only [hu, if_true, readStr, List.drop_zero]
    refine ⟨rfl, fun hl => ?_, fun hl => ?_⟩
    · rw [List.take_of_length_le (by omega), readStrL_append hk]
      obtain ⟨n, hn⟩ : ∃ n, 32 - k.length = n + 1 := ⟨31 - k.length, by omega⟩
      rw [hn, List.replicate_succ]
      simp [readStrL]
    · have e : 32 - k.length = 0 := by omega
      rw [e]
      have := readStrL_append (s := k.take 32) (fun b hb => hk b (List.mem_of_mem_take hb)) []
      simpa [readStrL] using this

/-- No prefix is left over from an earlier command when the new one has none. -/
theorem C18_no_stale_prefix (t t' : Tx) (hw : TxWf t) (c : Str) (type : CmdType) (pfx : Option Str)
    (h : sendAtCmd t (some c) type pfx = some (.ok, t')) :
    t'.hasPrefix = true ↔ UsesPrefix type ∧ pfx ≠ none := by
  rw [sendAtCmd_eq hw] at h
  split at h
  · cases h
  · cases h
    by_cases hu : UsesPrefix type <;> cases pfx <;> simp [hu]

example : NoNul (str "+CREG") ∧ (str "+CREG").length < 32 ∧ UsesPrefix .withPrefix ∧
    ((sendAtCmd demoTx (some (str "AT+CREG?")) .withPrefix (some (str "+CREG"))).map (·.1)) = some .ok :=
  ⟨by decide, by decide, by decide, by decide +kernel⟩

/-- A prefix of 40 characters is accepted and its copy is not a C string. -/
theorem C18_witness_long_prefix :
    ∃ t', sendAtCmd demoTx (some (str "AT")) .withPrefix (some (List.replicate 40 65)) = some (.ok, t') ∧
      readStr t'.prefixBuf 0 = none := by
  have hw : TxWf demoTx := ⟨rfl, rfl⟩
  obtain ⟨t', h, _⟩ := (C17_sent_exactly demoTx hw (str "AT") .withPrefix (some (List.replicate 40 65))).1
    ⟨by decide, by decide, by simp⟩
  exact ⟨t', h, (C18_prefix_stored_partial demoTx t' hw _ _ _ (by decide) (by decide) h).2.2 (by decide)⟩

end Cellular.Props
