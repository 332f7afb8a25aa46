import Verif.ServiceExact
import Verif.PktioProps
/-!
# Exact laws of trimming, result-code matching, classification and the SIM and modem texts (C02, C07, C14, C52, C58)
-/

namespace Cellular.Spec
open Cellular Api

/-- What removing trailing white space makes of `x`: texts of at most two characters stay as they are, of others the trailing white
space goes, but never the first character. -/
inductive TrimmedEnd : Str → Str → Prop
  | short {x : Str} : x.length ≤ 2 → TrimmedEnd x x
  | long {a : Byte} {t ws : Str} : 2 < (a :: (t ++ ws)).length → (∀ b ∈ ws, White b) → (∀ b, t.getLast? = some b → ¬ White b) →
      TrimmedEnd (a :: (t ++ ws)) (a :: t)

/-- A result code that is a legal text and begins the line. -/
def Begins (t s : Str) : Prop := t ≠ [] ∧ t.length ≤ 256 ∧ t <+: s

/-- A text stored in a field of `n` characters: cut, or filled with NULs. -/
def stored (n : Nat) (t : Str) : Mem := t.take n ++ List.replicate (n - t.length) 0

/-- The home operator of the fields of a `+CRSM` answer: two status words and the record. -/
def hplmnOf : List Str → PktStatus × Option Plmn
  | sw1 :: sw2 :: r :: _ =>
    if sw1 = str "144" ∨ sw1 = str "145" ∨ sw1 = str "146" then
      if sw2 = str "64" then (.failure, none)
      else if r.length < 9 ∨ str "FFFFFF" <+: r then (.failure, none)
      else
        let c := fun i => r.getD i 0
        -- the digits of each byte are swapped; a third digit of the network code is in the second byte, `F` if there is none
        (.ok, some ⟨[c 1, c 0, c 3], [c 5, c 4] ++ (if c 2 = 70 then [] else [c 2])⟩)
    else (.failure, none)
  | [sw1, sw2] =>
    if sw1 = str "144" ∨ sw1 = str "145" ∨ sw1 = str "146" then (if sw2 = str "64" then (.failure, none) else (.badParam, none))
    else (.failure, none)
  | [sw1] => if sw1 = str "144" ∨ sw1 = str "145" ∨ sw1 = str "146" then (.badParam, none) else (.failure, none)
  | [] => (.badParam, none)

end Cellular.Spec

namespace Cellular.Props
open Cellular Spec Api Signal Tok
open Cellular.AtCore (AtErr)
open Cellular.AtStr

/-! ## C02 -/

theorem dropTrailing_append {f : Byte → Bool} (t ws : Str) (hw : ∀ b ∈ ws, f b = true)
    (ht : ∀ b, t.getLast? = some b → f b = false) : dropTrailing f (t ++ ws) = t := by
  induction ws using List.reverseRecOn with
  | nil =>
    rw [List.append_nil]
    induction t using List.reverseRecOn with
    | nil => rfl
    | append_singleton t b _ =>
      rw [dropTrailing_snoc, if_neg]
      rw [ht b (by simp)]; simp
  | append_singleton ws b ih =>
    rw [← List.append_assoc, dropTrailing_snoc, if_pos (hw b (by simp))]
    exact ih (fun b hb => hw b (List.mem_append_left _ hb))

theorem trimmedEnd_eq {x y : Str} (h : TrimmedEnd x y) (hne : x ≠ []) (hl : x.length ≤ 256) :
    removeTrailingWhiteSpaces x = (.success, y) := by
  have hv : valid x = true := (valid_iff x).mpr ⟨hne, hl⟩
  unfold removeTrailingWhiteSpaces
  rw [if_pos hv]
  cases h with
  | short h => rw [if_neg (by omega)]
  | @long a t ws h hw ht =>
    rw [if_pos h]
    simp only [List.take_succ_cons, List.take_zero, List.drop_succ_cons, List.drop_zero, List.cons_append, List.nil_append]
    rw [dropTrailing_append t ws (fun b hb => (isSpace_iff b).mpr (hw b hb)) (fun b hb => ?_)]
    have := mt (isSpace_iff b).mp (ht b hb)
    simpa using this

/-- Every text has exactly one result. -/
theorem C02_trimmed_total (x : Str) : ∃ y, TrimmedEnd x y := by
  by_cases h : x.length ≤ 2
  · exact ⟨x, .short h⟩
  · cases x with
    | nil => simp at h
    | cons a r =>
      have : ∃ t ws : Str, r = t ++ ws ∧ (∀ b ∈ ws, White b) ∧ (∀ b, t.getLast? = some b → ¬ White b) := by
        clear h
        induction r using List.reverseRecOn with
        | nil => exact ⟨[], [], rfl, nofun, nofun⟩
        | append_singleton r b ih =>
          by_cases hb : White b
          · obtain ⟨t, ws, rfl, h1, h2⟩ := ih
            refine ⟨t, ws ++ [b], by simp, ?_, h2⟩
            intro c hc
            rcases List.mem_append.mp hc with hc | hc
            · exact h1 c hc
            · simp at hc; rw [hc]; exact hb
          · exact ⟨r ++ [b], [], by simp, nofun, by intro c hc; simp at hc; rw [← hc]; exact hb⟩
      obtain ⟨t, ws, rfl, h1, h2⟩ := this
      exact ⟨_, .long (by omega) h1 h2⟩

/-- C02, the exact law of trailing white space: for every text of 1 to 256 characters. -/
theorem C02_trailing_exact (m : Mem) (p : Nat) (x y : Str) (h : CStrAt m p x) (h1 : x ≠ []) (h2 : x.length ≤ 256)
    (hy : TrimmedEnd x y) :
    ∃ m', AtCore.removeTrailingWhiteSpaces m (some p) = some (.success, m') ∧ CStrAt m' p y ∧
      SameOutside m m' p (p + x.length + 1) := by
  obtain ⟨m', e1, e2, e3⟩ := removeTrailingWhiteSpaces_refines h
  rw [trimmedEnd_eq hy h1 h2] at e1 e2
  exact ⟨m', e1, e2, e3⟩

/-! ## C07 -/

theorem startWith_iff {s t : Str} (hv : valid s = true) : (AtStr.strStartWith s t).2 = some true ↔ Begins t s := by
  unfold AtStr.strStartWith Begins
  rw [hv, Bool.true_and]
  by_cases hvt : valid t = true
  · obtain ⟨g1, g2⟩ := (valid_iff t).mp hvt
    simp [hvt, g1, show t.length ≤ 256 from g2]
  · rw [if_neg hvt]
    simp only [reduceCtorEq, false_iff]
    rintro ⟨g1, g2, -⟩
    exact hvt ((valid_iff t).mpr ⟨g1, g2⟩)

theorem checkLoop_finds {m : Mem} {p : Nat} {s : Str} (h : CStrAt m p s) {keys : List (Mem × Nat)} {ts : List Str}
    (hk : List.Forall₂ (fun (k : Mem × Nat) t => CStrAt k.1 k.2 t) keys ts) {j : Nat} {t : Str} (hj : ts[j]? = some t)
    (ht : (AtStr.strStartWith s t).2 = some true) (hj2 : j < 256) :
    ∀ (n i fuel : Nat), j - i = n → i ≤ j → n < fuel → AtCore.checkLoop m p keys fuel (UInt8.ofNat i) = .done true := by
  have htl : keys.length = ts.length := hk.length_eq
  have hjl : j < ts.length := (List.getElem?_eq_some_iff.mp hj).1
  have body : ∀ (i fuel : Nat), i ≤ j → AtCore.checkLoop m p keys (fuel + 1) (UInt8.ofNat i) =
      if ∃ t', ts[i]? = some t' ∧ (AtStr.strStartWith s t').2 = some true then .done true
      else AtCore.checkLoop m p keys fuel (UInt8.ofNat (i + 1)) := by
    intro i fuel hi
    have e : (UInt8.ofNat i).toNat = i := by rw [UInt8.toNat_ofNat']; omega
    have hik : i < keys.length := by omega
    obtain ⟨k, hkk⟩ : ∃ k, keys[i]? = some k := ⟨keys[i], List.getElem?_eq_getElem hik⟩
    obtain ⟨t', ht'⟩ : ∃ t', ts[i]? = some t' := ⟨ts[i]'(by omega), List.getElem?_eq_getElem (by omega)⟩
    have hc : CStrAt k.1 k.2 t' := by
      obtain ⟨a, ha⟩ := List.getElem?_eq_some_iff.mp hkk
      obtain ⟨b, hb⟩ := List.getElem?_eq_some_iff.mp ht'
      have := List.Forall₂.get hk a b
      simp only [List.get_eq_getElem, ha, hb] at this
      exact this
    rw [AtCore.checkLoop, e, if_pos hik, hkk]
    obtain ⟨k1, k2⟩ := k
    simp only [strStartWith_refines h hc]
    have e2 : UInt8.ofNat i + 1 = UInt8.ofNat (i + 1) := by
      apply UInt8.toNat_inj.mp; simp
    by_cases hm : (AtStr.strStartWith s t').2 = some true
    · rw [if_pos ⟨t', ht', hm⟩]
      have h1 : (AtStr.strStartWith s t').1 = .success := by
        unfold AtStr.strStartWith at hm ⊢
        split at hm
        · rename_i hv; rw [if_pos hv]
        · simp at hm
      rw [show AtStr.strStartWith s t' = (.success, some true) from Prod.ext h1 hm]
    · rw [if_neg (by rintro ⟨t2, h2, h3⟩; rw [ht'] at h2; cases h2; exact hm h3), e2]
      generalize AtStr.strStartWith s t' = r at hm
      obtain ⟨r1, r2⟩ := r
      simp only at hm
      split
      · rename_i heq; cases heq
      · rename_i heq; cases heq; exact absurd rfl hm
      · rfl
  intro n
  induction n with
  | zero =>
    intro i fuel h1 h2 h3
    obtain rfl : i = j := by omega
    obtain ⟨f, rfl⟩ : ∃ f, fuel = f + 1 := ⟨fuel - 1, by omega⟩
    rw [body _ _ (Nat.le_refl _), if_pos ⟨t, hj, ht⟩]
  | succ n ih =>
    intro i fuel h1 h2 h3
    obtain ⟨f, rfl⟩ : ∃ f, fuel = f + 1 := ⟨fuel - 1, by omega⟩
    rw [body _ _ h2]
    split
    · rfl
    · exact ih (i + 1) f (by omega) (by omega) (by omega)

/-- C07, the exact law, for lists of any length: with at most 255 result codes the answer is whether one of them begins the line;
with more, it is found if it is among the first 256, and otherwise the function never returns. -/
theorem C07_exact (m : Mem) (p : Nat) (s : Str) (h : CStrAt m p s) (h1 : s ≠ []) (h2 : s.length ≤ 256)
    (keys : List (Mem × Nat)) (ts : List Str)
    (hk : List.Forall₂ (fun (k : Mem × Nat) t => CStrAt k.1 k.2 t) keys ts) :
    ((∃ t ∈ ts.take 256, Begins t s) → ∀ fuel, 256 ≤ fuel →
      AtCore.checkErrorCode fuel m (some p) (some keys) = .done (.success, some true)) ∧
    ((¬ ∃ t ∈ ts.take 256, Begins t s) → keys.length ≤ 255 → ∀ fuel, 256 ≤ fuel →
      AtCore.checkErrorCode fuel m (some p) (some keys) = .done (.success, some false)) ∧
    ((¬ ∃ t ∈ ts.take 256, Begins t s) → 256 ≤ keys.length → ∀ fuel,
      AtCore.checkErrorCode fuel m (some p) (some keys) = .outOfFuel) := by
  have hv : valid s = true := (valid_iff s).mpr ⟨h1, h2⟩
  refine ⟨?_, ?_, ?_⟩
  · rintro ⟨t, ht, hb⟩ fuel hf
    obtain ⟨j, hj, hjt⟩ := List.getElem_of_mem ht
    have hj2 : j < 256 := by simp at hj; omega
    have hjt' : ts[j]? = some t := by
      rw [← List.getElem?_take_of_lt hj2, List.getElem?_eq_getElem hj, hjt]
    have := checkLoop_finds h hk hjt' ((startWith_iff hv).mpr hb) hj2 j 0 fuel rfl (by omega) (by omega)
    rw [show UInt8.ofNat 0 = 0 from rfl] at this
    simp [AtCore.checkErrorCode, validateString_valid h hv, this]
  · intro hno hl fuel hf
    obtain ⟨r, hr, hiff⟩ := C07_check_error_code_partial m p s h (by cases s <;> simp_all) h2 keys ts hk hl
    rw [hr fuel (by omega)]
    have htl : keys.length = ts.length := hk.length_eq
    have : r ≠ true := by
      intro e
      obtain ⟨t, ht, g⟩ := hiff.mp e
      exact hno ⟨t, by rw [List.take_of_length_le (by omega)]; exact ht, g⟩
    simp [this]
  · intro hno hl fuel
    have := checkLoop_hangs h hk hl (by
      intro i hi t ht he
      refine hno ⟨t, ?_, (startWith_iff hv).mp he⟩
      apply List.mem_of_getElem? (i := i)
      rw [List.getElem?_take_of_lt hi]; exact ht) fuel 0
    simp [AtCore.checkErrorCode, validateString_valid h hv, this]

/-! ## C14 -/

/-- C14, the exact law: for every line, command and awaited prefix.  Listed lines are unsolicited.  Others: without a legal prefix (as
also the empty line and lines of more than 256 characters) they belong to the pending command, if there is one; with a prefix they
belong to it if they begin with the prefix it waits for, otherwise they are unsolicited; while a command waits for an empty prefix or
one of more than 256 characters they are undefined. -/
theorem C14_exact (cfg : Pktio.Cfg) (cmd : Pktio.CmdType) (pfx : Option Str) (line : Str) :
    (Listed cfg line → Pktio.getMsgType cfg cmd pfx line = .unsolicited) ∧
    (¬ Listed cfg line → (line = [] ∨ 256 < line.length ∨ ¬ Prefixed line) →
      Pktio.getMsgType cfg cmd pfx line = if cmd = .noCommand then .undefined else .solicited) ∧
    (¬ Listed cfg line → line.length ≤ 256 → Prefixed line →
      (pfx = none → Pktio.getMsgType cfg cmd pfx line = .unsolicited) ∧
      (∀ k, pfx = some k → k = [] ∨ 256 < k.length → Pktio.getMsgType cfg cmd pfx line = .undefined) ∧
      (∀ k, pfx = some k → k ≠ [] → k.length ≤ 256 →
        Pktio.getMsgType cfg cmd pfx line = if cmd ≠ .noCommand ∧ k <+: line then .solicited else .unsolicited)) := by
  have hL := isUrcToken_iff cfg line
  refine ⟨?_, ?_, ?_⟩
  · intro h
    unfold Pktio.getMsgType
    rw [if_pos (hL.mpr h)]
  · intro h hor
    have hwp : (isPrefixPresent line).2.getD false = false := by
      by_cases hs : line = [] ∨ 256 < line.length
      · have hv : ¬ valid line = true := by
          intro hv
          obtain ⟨a, b⟩ := (valid_iff line).mp hv
          rcases hs with e | e
          · exact a e
          · have : line.length ≤ 256 := b
            omega
        unfold isPrefixPresent
        rw [if_neg hv]
        rfl
      · have h1 : line ≠ [] := fun e => hs (Or.inl e)
        have h2 : line.length ≤ 256 := by
          by_cases h : 256 < line.length
          · exact absurd (Or.inr h) hs
          · omega
        have hp : ¬ Prefixed line := by
          rcases hor with e | e | e
          · exact absurd e h1
          · omega
          · exact e
        have := mt (isPrefixPresent_iff h1 h2).mp hp
        simpa using this
    unfold Pktio.getMsgType
    rw [if_neg (mt hL.mp h)]
    simp only [hwp]
    by_cases hc : cmd = .noCommand <;> simp [hc]
  · intro h hl hp
    have h1 : line ≠ [] := by obtain ⟨n, r, rfl, _⟩ := hp; simp
    have hwp : (isPrefixPresent line).2.getD false = true := (isPrefixPresent_iff h1 hl).mpr hp
    have hv : valid line = true := (valid_iff line).mpr ⟨h1, hl⟩
    unfold Pktio.getMsgType
    rw [if_neg (mt hL.mp h)]
    simp only [hwp]
    refine ⟨?_, ?_, ?_⟩
    · rintro rfl; simp
    · rintro k rfl hk
      have hvk : valid k = false := by
        cases hv : valid k with
        | false => rfl
        | true =>
          obtain ⟨a, b⟩ := (valid_iff k).mp hv
          rcases hk with e | e
          · exact absurd e a
          · have : k.length ≤ 256 := b
            omega
      simp [AtStr.strStartWith, hvk]
    · rintro k rfl hk1 hk2
      have hvk : valid k = true := (valid_iff k).mpr ⟨hk1, hk2⟩
      simp [AtStr.strStartWith, hv, hvk]

/-! ## C52 -/

theorem noWhite_split (pre body : Str) : noWhite (pre ++ 58 :: body) = noWhite pre ++ 58 :: noWhite body := by
  simp [noWhite, show ¬ White 58 by simp [White]]

theorem bareText_nwq (s : Str) : noQuote (noWhite s) = bareText s := by
  unfold noQuote noWhite bareText
  rw [List.filter_filter]
  congr 1; funext b
  by_cases h1 : White b <;> by_cases h2 : b = 34 <;> simp [h1, h2]

/-- The next field. -/
theorem nextTok_fields {s : Str} (hl : s.length ≤ 256) :
    (reportedFields s = [] ∧ s = [] ∧ getNextTok s = (.badParameter, [], none)) ∨
    (∃ f rest, reportedFields s = f :: reportedFields rest ∧ rest.length ≤ 256 ∧ getNextTok s = (.success, rest, some f)) := by
  by_cases h : s = []
  · subst h
    exact Or.inl ⟨reportedFields_nil, rfl, by decide⟩
  · have hg := RegLemmas.getNextTok_cons s h hl
    have := Reg.getNextTok_rest_lt _ _ _ hg
    exact Or.inr ⟨_, _, reportedFields_cons s h, by omega, hg⟩

theorem parseHplmn_eq (r : Str) : parseHplmn r = if r.length < 9 ∨ str "FFFFFF" <+: r then none
    else some ⟨[r.getD 1 0, r.getD 0 0, r.getD 3 0], [r.getD 5 0, r.getD 4 0] ++ (if r.getD 2 0 = 70 then [] else [r.getD 2 0])⟩ := by
  unfold parseHplmn
  have hiff : r.take 6 = str "FFFFFF" ↔ str "FFFFFF" <+: r := by
    rw [List.prefix_iff_eq_take]
    constructor
    · intro e; rw [← e]; simp
    · intro e; rw [e]; rfl
  by_cases h : r.length < 9 ∨ str "FFFFFF" <+: r
  · rw [if_pos h, if_pos (h.imp_right hiff.mpr)]
  · rw [if_neg h, if_neg (fun h' => h (h'.imp_right hiff.mp))]
    simp only
    generalize r.getD 2 0 = c2, r.getD 5 0 = c5, r.getD 4 0 = c4
    by_cases h2 : c2 = 70 <;> simp [h2]

/-- C52, the exact law: for every answer line of at most 256 characters with a colon. -/
theorem C52_exact (pre body : Str) (more : List Str) (old : Plmn) (hpre : (58 : Byte) ∉ pre)
    (hl : (pre ++ 58 :: body).length ≤ 256) :
    let r := hplmnOf (reportedFields (bareText body))
    recvHplmn ((pre ++ 58 :: body) :: more) old = (r.1, r.2.getD old) := by
  intro r
  have hpre' : (58 : Byte) ∉ noWhite pre := fun h => hpre (List.mem_filter.mp h).1
  have hlen : (noWhite pre ++ 58 :: noWhite body).length ≤ 256 := by
    rw [← noWhite_split]; exact Nat.le_trans (List.length_filter_le _ _) hl
  have hbl : (noWhite body).length ≤ 256 := by
    simp only [List.length_append, List.length_cons] at hlen; omega
  unfold recvHplmn
  simp only
  rw [removeAllWhiteSpaces_eq (by simp) hl, noWhite_split]
  simp only
  rw [removePrefix_eq hpre' hlen]
  simp only
  by_cases hb : noWhite body = []
  · have hbare : bareText body = [] := by rw [← bareText_nwq, hb]; rfl
    have hr : r = (.badParam, none) := by
      show hplmnOf (reportedFields (bareText body)) = _
      rw [hbare, reportedFields_nil]; rfl
    rw [hb, show removeAllDoubleQuote [] = (.badParameter, []) by decide, hr]
    rfl
  rw [removeAllDoubleQuote_eq hb hbl, bareText_nwq]
  simp only
  have hbl2 : (bareText body).length ≤ 256 := by
    have : (bareText body).length ≤ body.length := List.length_filter_le _ _
    simp only [List.length_append, List.length_cons] at hl; omega
  have hr : r = hplmnOf (reportedFields (bareText body)) := rfl
  generalize bareText body = s at hbl2 hr
  rcases nextTok_fields hbl2 with ⟨e0, -, g0⟩ | ⟨sw1, rest1, e1, l1, g1⟩
  · rw [g0, hr, e0]; rfl
  rw [g1]
  simp only
  by_cases c1 : sw1 = str "144" ∨ sw1 = str "145" ∨ sw1 = str "146"
  swap
  · have c1' : sw1 ≠ str "144" ∧ sw1 ≠ str "145" ∧ sw1 ≠ str "146" := by
      refine ⟨fun e => c1 (Or.inl e), fun e => c1 (Or.inr (Or.inl e)), fun e => c1 (Or.inr (Or.inr e))⟩
    rw [if_pos c1', hr, e1]
    rcases h : reportedFields rest1 with _ | ⟨a, _ | ⟨b, t⟩⟩ <;> simp [hplmnOf, c1, translateAt]
  rw [if_neg (by rintro ⟨a, b, c⟩; rcases c1 with e | e | e <;> contradiction)]
  rcases nextTok_fields l1 with ⟨e0, -, g0⟩ | ⟨sw2, rest2, e2, l2, g2⟩
  · rw [g0, hr, e1, e0]; simp [hplmnOf, c1, translateAt]
  rw [g2]
  simp only
  by_cases c2 : sw2 = str "64"
  · rw [if_pos c2, hr, e1, e2]
    rcases h : reportedFields rest2 with _ | ⟨a, t⟩ <;> simp [hplmnOf, c1, c2, translateAt]
  rw [if_neg c2]
  rcases nextTok_fields l2 with ⟨e0, -, g0⟩ | ⟨tok, rest3, e3, l3, g3⟩
  · rw [g0, hr, e1, e2, e0]; simp [hplmnOf, c1, c2, translateAt]
  rw [g3]
  simp only
  rw [hr, e1, e2, e3, parseHplmn_eq]
  by_cases c3 : tok.length < 9 ∨ str "FFFFFF" <+: tok
  · rw [if_pos c3]; simp only [hplmnOf, c1, c2, c3, if_true, if_false]; rfl
  · rw [if_neg c3]; simp only [hplmnOf, c1, c2, c3, if_true, if_false]; rfl

/-- All other answers are refused and change nothing. -/
theorem C52_refused (old : Plmn) : recvHplmn [] old = (.badParam, old) ∧
    ∀ line more, (256 < line.length ∨ (58 : Byte) ∉ line) → recvHplmn (line :: more) old = (.badParam, old) := by
  refine ⟨rfl, fun line more h => ?_⟩
  unfold recvHplmn
  simp only
  by_cases hl : 256 < line.length
  · unfold removeAllWhiteSpaces
    rw [if_neg (by intro hv; have := valid_len hv; omega)]
    rfl
  by_cases hn : line = []
  · subst hn; rfl
  rw [removeAllWhiteSpaces_eq hn (by omega)]
  simp only
  have h58 : (58 : Byte) ∉ noWhite line := fun hm => (h.resolve_left hl) (List.mem_filter.mp hm).1
  obtain ⟨x, hx⟩ := removePrefix_bad (line := noWhite line) (Or.inr h58)
  rw [hx]
  rfl

/-! ## C58 -/

theorem strncpy_stored {buf : Mem} {n : Nat} (hb : n ≤ buf.length) (t : Str) : strncpy buf t n = some (stored n t ++ buf.drop n) := by
  unfold strncpy stored
  rw [if_pos hb]

/-- C58, the exact law of the firmware, model and manufacturer texts: for every line of at most 256 characters that is not white
space only, the text without leading white space, trimmed at the end as above, is stored in the caller's field. -/
theorem C58_trimmed_exact (max : Nat) (buf : Mem) (hb : max ≤ buf.length) (ws x y : Str) (more : List Str)
    (hw : ∀ b ∈ ws, White b) (hx : x ≠ []) (hh : ∀ b, x.head? = some b → ¬ White b) (hl : (ws ++ x).length ≤ 256)
    (hy : TrimmedEnd x y) :
    recvTrimmed max ((ws ++ x) :: more) buf = some (.ok, stored max y ++ buf.drop max) := by
  have hv : valid (ws ++ x) = true := (valid_iff _).mpr ⟨by simp [hx], hl⟩
  have hd : (ws ++ x).dropWhile isSpace = x := by
    clear hl hv
    induction ws with
    | nil =>
      cases x with
      | nil => rfl
      | cons a t =>
        have : isSpace a = false := by
          have := mt (isSpace_iff a).mp (hh a rfl)
          simpa using this
        simp [List.dropWhile_cons, this]
    | cons a t ih =>
      have : isSpace a = true := (isSpace_iff a).mpr (hw a (by simp))
      simp [List.dropWhile_cons, this, ih (fun b hb => hw b (List.mem_cons_of_mem _ hb))]
  have hxl : x.length ≤ 256 := by simp only [List.length_append] at hl; omega
  unfold recvTrimmed removeLeadingWhiteSpaces
  simp only [hv, if_true, hd, trimmedEnd_eq hy hx hxl, strncpy_stored hb]
  rfl

/-- All other answers are refused and change nothing. -/
theorem C58_trimmed_refused (max : Nat) (buf : Mem) : recvTrimmed max [] buf = some (.badParam, buf) ∧
    (∀ line more, (256 < line.length ∨ ∀ b ∈ line, White b) → recvTrimmed max (line :: more) buf = some (.badParam, buf)) := by
  refine ⟨rfl, fun line more h => ?_⟩
  unfold recvTrimmed removeLeadingWhiteSpaces
  simp only
  by_cases hv : valid line = true
  · obtain ⟨h1, h2⟩ := (valid_iff line).mp hv
    have h2 : line.length ≤ 256 := h2
    have hw : ∀ b ∈ line, White b := h.resolve_left (by omega)
    have hd : line.dropWhile isSpace = [] := by
      rw [List.dropWhile_eq_nil_iff]
      intro b hb; exact (isSpace_iff b).mpr (hw b hb)
    simp only [hv, if_true, hd]
    rfl
  · simp only [hv]
    rfl

/-- C58, the exact law of the IMEI, IMSI and SIM identifier: for every line of at most 256 characters. -/
theorem C58_numbers_exact (more : List Str) :
    (∀ (buf : Mem) (line : Str), 15 ≤ buf.length → line.length ≤ 256 → (∃ b ∈ line, ¬ White b) →
      recvImei (line :: more) buf = some (.ok, stored 15 (noWhite line) ++ buf.drop 15)) ∧
    (∀ (buf : Mem) (line : Str), 16 ≤ buf.length → line.length ≤ 256 → line ≠ [] →
      recvImsi (line :: more) buf =
        if (noWhite line).length ≤ 15 then some (.ok, stored 16 (noWhite line) ++ buf.drop 16) else some (.failure, buf)) ∧
    (∀ (buf : Mem) (pre body : Str), 21 ≤ buf.length → (58 : Byte) ∉ pre → (pre ++ 58 :: body).length ≤ 256 →
      recvIccid ((pre ++ 58 :: body) :: more) buf =
        if (noWhite body).length ≤ 20 then some (.ok, stored 21 (noWhite body) ++ buf.drop 21) else some (.badParam, buf)) := by
  refine ⟨?_, ?_, ?_⟩
  · intro buf line hb hl hne
    have hn : line ≠ [] := by obtain ⟨b, h, _⟩ := hne; exact List.ne_nil_of_mem h
    have hv : valid line = true := (valid_iff _).mpr ⟨hn, hl⟩
    have hdw : ∀ s : Str, noWhite (s.dropWhile isSpace) = noWhite s := by
      intro s
      induction s with
      | nil => rfl
      | cons a t ih =>
        by_cases ha : isSpace a = true
        · have hw := (isSpace_iff a).mp ha
          simp only [List.dropWhile_cons, ha, if_true, ih]
          simp [noWhite, hw]
        · simp only [List.dropWhile_cons, ha]
          rfl
    have hdne : line.dropWhile isSpace ≠ [] := by
      intro e
      rw [List.dropWhile_eq_nil_iff] at e
      obtain ⟨b, h, hw⟩ := hne
      exact hw ((isSpace_iff b).mp (e b h))
    have hdl : (line.dropWhile isSpace).length ≤ 256 := Nat.le_trans (List.dropWhile_sublist _).length_le hl
    unfold recvImei removeLeadingWhiteSpaces
    simp only [hv, if_true]
    rw [removeAllWhiteSpaces_eq hdne hdl, hdw]
    simp only [show imeiMax = 15 from rfl, strncpy_stored hb]
    rfl
  · intro buf line hb hl hne
    unfold recvImsi
    simp only
    rw [removeAllWhiteSpaces_eq hne hl]
    simp only [show imsiMax = 15 from rfl]
    by_cases h : (noWhite line).length ≤ 15
    · rw [if_pos h, if_pos (by omega), strncpy_stored hb]; rfl
    · rw [if_neg h, if_neg (by omega)]; rfl
  · intro buf pre body hb hpre hl
    have hpre' : (58 : Byte) ∉ noWhite pre := fun h => hpre (List.mem_filter.mp h).1
    have hlen : (noWhite pre ++ 58 :: noWhite body).length ≤ 256 := by
      rw [← noWhite_split]; exact Nat.le_trans (List.length_filter_le _ _) hl
    unfold recvIccid
    simp only
    rw [removeAllWhiteSpaces_eq (by simp) hl, noWhite_split]
    simp only
    rw [removePrefix_eq hpre' hlen]
    simp only [show iccidMax = 20 from rfl]
    by_cases h : (noWhite body).length ≤ 20
    · rw [if_pos h, if_pos (by omega), strncpy_stored hb]; rfl
    · rw [if_neg h, if_neg (by omega)]; rfl

/-- All other answers are refused and change nothing. -/
theorem C58_numbers_refused (buf : Mem) (more : List Str) :
    recvImei [] buf = some (.badParam, buf) ∧ recvImsi [] buf = some (.badParam, buf) ∧ recvIccid [] buf = some (.badParam, buf) ∧
    (∀ line, (256 < line.length ∨ ∀ b ∈ line, White b) → recvImei (line :: more) buf = some (.badParam, buf)) ∧
    (∀ line, (256 < line.length ∨ line = []) → recvImsi (line :: more) buf = some (.badParam, buf)) ∧
    (∀ line, (256 < line.length ∨ (58 : Byte) ∉ line) → recvIccid (line :: more) buf = some (.badParam, buf)) := by
  refine ⟨rfl, rfl, rfl, ?_, ?_, ?_⟩
  · intro line h
    unfold recvImei removeLeadingWhiteSpaces
    simp only
    by_cases hv : valid line = true
    · obtain ⟨h1, h2⟩ := (valid_iff line).mp hv
      have h2 : line.length ≤ 256 := h2
      have hw : ∀ b ∈ line, White b := h.resolve_left (by omega)
      have hd : line.dropWhile isSpace = [] := by
        rw [List.dropWhile_eq_nil_iff]
        intro b hb; exact (isSpace_iff b).mpr (hw b hb)
      simp only [hv, if_true, hd]
      rfl
    · simp only [hv]
      rfl
  · intro line h
    unfold recvImsi removeAllWhiteSpaces
    simp only
    rw [if_neg]
    · rfl
    · intro hv
      have := valid_len hv
      rcases h with h | rfl
      · omega
      · exact absurd hv (by decide)
  · intro line h
    unfold recvIccid
    simp only
    by_cases hl : 256 < line.length
    · unfold removeAllWhiteSpaces
      rw [if_neg (by intro hv; have := valid_len hv; omega)]
      rfl
    by_cases hn : line = []
    · subst hn; rfl
    rw [removeAllWhiteSpaces_eq hn (by omega)]
    simp only
    have h58 : (58 : Byte) ∉ noWhite line := fun hm => (h.resolve_left hl) (List.mem_filter.mp hm).1
    obtain ⟨x, hx⟩ := removePrefix_bad (line := noWhite line) (Or.inr h58)
    rw [hx]
    rfl

/-! ## The laws are met by real texts -/

example : TrimmedEnd (str "a ") (str "a ") ∧ TrimmedEnd (str "   ") (str " ") ∧ TrimmedEnd (str "EG91 \r") (str "EG91") := by
  refine ⟨.short (by decide), .long (a := 32) (t := []) (ws := str "  ") (by decide) (by decide) nofun,
    .long (a := 69) (t := str "G91") (ws := str " \r") (by decide) (by decide) (by decide)⟩

example : Begins (str "ERROR") (str "ERROR 3") ∧ ¬ Begins [] (str "ERROR") := ⟨⟨by decide, by decide, by decide⟩, fun h => h.1 rfl⟩

example : hplmnOf (reportedFields (bareText (str " 144,0,\"62F210FFFFFF\""))) = (.ok, some ⟨str "262", str "01"⟩) ∧
    hplmnOf (reportedFields (bareText (str " 144,0,\"130014FFF\""))) = (.ok, some ⟨str "310", str "410"⟩) ∧
    hplmnOf (reportedFields (bareText (str " 144,64,\"62F210FFFFFF\""))) = (.failure, none) := by decide +kernel

example : stored 5 (str "ab") = str "ab" ++ [0, 0, 0] ∧ stored 3 (str "abcd") = str "abc" := by decide

end Cellular.Props
