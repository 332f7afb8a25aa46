import Verif.ApiProps
import Verif.AtNumber
/-!
# C56: network time
-/

namespace Cellular.Props
open Cellular Spec Api Signal Tok
open Cellular.AtCore (strtoi AtErr)
open Cellular.AtStr

theorem valid_of {s : Str} (hne : s ≠ []) (hl : s.length ≤ 256) : valid s = true := by
  simp [valid, hne, AtCore.maxStringSize, hl]

theorem valid_len {s : Str} (h : valid s = true) : s ≠ [] ∧ s.length ≤ 256 := by
  unfold valid at h
  simp only [Bool.and_eq_true, bne_iff_ne, ne_eq, decide_eq_true_eq] at h
  exact ⟨h.1, h.2⟩

theorem takeWhile_ne_append {d : Byte} {tok : Str} (rest : Str) (h : d ∉ tok) :
    (tok ++ d :: rest).takeWhile (fun b => b != d) = tok ∧
    (tok ++ d :: rest).dropWhile (fun b => b != d) = d :: rest := by
  have hp : ∀ b ∈ tok, (b != d) = true := by
    intro b hb
    simp only [bne_iff_ne, ne_eq]
    intro e; subst e; exact h hb
  rw [List.takeWhile_append_of_pos hp, List.dropWhile_append_of_pos hp]
  simp

theorem removePrefix_eq {pre body : Str} (h : (58 : Byte) ∉ pre)
    (hl : (pre ++ 58 :: body).length ≤ 256) :
    removePrefix (pre ++ 58 :: body) = (.success, some body) := by
  unfold removePrefix
  rw [if_pos (valid_of (by simp) hl), if_pos (by simp), (takeWhile_ne_append body h).2]
  rfl

theorem getTok_eq {d : Byte} {tok rest : Str} (h : d ∉ tok) (hl : (tok ++ d :: rest).length ≤ 256) :
    getTok d (tok ++ d :: rest) = (.success, rest, some tok) := by
  unfold getTok
  rw [if_pos (valid_of (by simp) hl), (takeWhile_ne_append rest h).1, (takeWhile_ne_append rest h).2]
  rfl

theorem getTok_last {d : Byte} {tok : Str} (hne : tok ≠ []) (h : d ∉ tok) (hl : tok.length ≤ 256) :
    getTok d tok = (.success, [], some tok) := by
  unfold getTok
  rw [if_pos (valid_of hne hl)]
  have hp : ∀ b ∈ tok, (b != d) = true := by
    intro b hb
    simp only [bne_iff_ne, ne_eq]
    intro e; subst e; exact h hb
  have e1 : tok.dropWhile (fun b => b != d) = [] := by
    have := List.dropWhile_append_of_pos (l₂ := []) hp
    simpa using this
  have e2 : tok.takeWhile (fun b => b != d) = tok := by
    have := List.takeWhile_append_of_pos (l₂ := []) hp
    simpa using this
  rw [e1, e2]; rfl

theorem getTok_nil (d : Byte) : getTok d [] = (.badParameter, [], none) := by
  unfold getTok; rw [if_neg (by decide)]

theorem numeral_not_mem {base : Nat} {s : Str} {v : Nat} (h : Numeral base s v) {c : Byte}
    (hc : digit? c = none) : c ∉ s := by
  intro hb
  obtain ⟨_, hd⟩ := numeral_digits h
  obtain ⟨d, hd, _⟩ := hd c hb
  rw [hc] at hd; simp at hd

theorem numTok_numeral {lm : Nat} (hlm : 2 ^ 31 - 1 ≤ lm) {s : Str} {v : Nat} (h : Numeral 10 s v)
    (max : Nat) (hm : max ≤ 65535) (hv : v ≤ max) (store : Nat → Time → Time) (t : Time) :
    numTok lm s (max : Int) store t = (.success, store v t) := by
  unfold numTok
  rw [strtoi_numeral hlm h (by omega)]
  simp only
  rw [if_pos (by omega)]
  simp

theorem strstr1_eq {c : Byte} {a b : Str} (h : c ∉ a) : strstr1 (a ++ c :: b) c = some (c :: b) := by
  unfold strstr1
  rw [if_pos (by simp), (takeWhile_ne_append b h).2]

theorem strstr1_none {c : Byte} {a : Str} (h : c ∉ a) : strstr1 a c = none := by
  unfold strstr1
  rw [if_neg (by simpa using h)]

theorem removeOutermost_quoted {t : Str} (hne : t ≠ []) (hl : t.length ≤ 254) :
    removeOutermostDoubleQuote (quoted t) = (.success, t) := by
  unfold removeOutermostDoubleQuote
  rw [if_pos (valid_of (by simp [quoted]) (by simp [quoted]; omega))]
  have h0 : t.length ≠ 0 := by simpa using hne
  rw [if_pos (by simp [quoted]; omega)]
  simp [quoted]

/-- Date, time and zone as the modem writes them: `Y/M/D,h:m:s<sign>z`. -/
def clockText (y mo d h mi s : Str) (neg : Bool) (z : Str) : Str :=
  y ++ str "/" ++ mo ++ str "/" ++ d ++ str "," ++ h ++ str ":" ++ mi ++ str ":" ++ s ++
    (if neg then str "-" else str "+") ++ z

/-- C56, first half: for every year up to 65535, every month, day, hour, minute and second up to 255
and every zone of 31 bits, written in decimal with any number of leading zeros, a response line with
any prefix whose text is - apart from white space anywhere - the quoted `Y/M/D,h:m:s±z` is decoded to
exactly these values, with the sign of the zone. -/
theorem C56_time_decoded (lm : Nat) (hlm : 2 ^ 31 - 1 ≤ lm)
    {y mo d h mi s z : Str} {vy vmo vd vh vmi vs vz : Nat}
    (hy : Numeral 10 y vy) (hmo : Numeral 10 mo vmo) (hd : Numeral 10 d vd) (hh : Numeral 10 h vh)
    (hmi : Numeral 10 mi vmi) (hs : Numeral 10 s vs) (hz : Numeral 10 z vz)
    (by' : vy ≤ 65535) (bmo : vmo ≤ 255) (bd : vd ≤ 255) (bh : vh ≤ 255) (bmi : vmi ≤ 255)
    (bs : vs ≤ 255) (bz : vz < 2 ^ 31) (neg : Bool)
    (pre body : Str) (rest : List Str) (old : Time) (hpre : (58 : Byte) ∉ pre)
    (hl : (pre ++ 58 :: body).length ≤ 256)
    (hbody : body.filter (fun b => !decide (White b)) = quoted (clockText y mo d h mi s neg z)) :
    recvNetworkTime lm ((pre ++ 58 :: body) :: rest) old =
      (.ok, { month := vmo, day := vd, hour := vh, minute := vmi, second := vs, year := vy,
              timeZone := if neg then -(vz : Int) else vz }) := by
  have hbl : body.length ≤ 256 := by simp at hl; omega
  have hbne : body ≠ [] := by
    intro e; rw [e] at hbody; simp [quoted] at hbody
  have hw : body.filter (fun b => !isSpace b) = quoted (clockText y mo d h mi s neg z) := by
    rw [← hbody]
    apply List.filter_congr
    intro b _
    congr 1
    have := isSpace_iff b
    cases hb : isSpace b <;> simp_all
  have hql : (quoted (clockText y mo d h mi s neg z)).length ≤ 256 := by
    rw [← hw]; exact Nat.le_trans (List.length_filter_le _ _) hbl
  unfold recvNetworkTime
  simp only [removePrefix_eq hpre hl]
  unfold removeAllWhiteSpaces
  rw [if_pos (valid_of hbne hbl), hw]
  simp only
  -- characters
  have e47 : digit? 47 = none := by decide
  have e44 : digit? 44 = none := by decide
  have e58 : digit? 58 = none := by decide
  have e43 : digit? 43 = none := by decide
  have e45 : digit? 45 = none := by decide
  have hct : clockText y mo d h mi s neg z =
      y ++ 47 :: (mo ++ 47 :: (d ++ 44 :: (h ++ 58 :: (mi ++ 58 :: (s ++
        (if neg then 45 else 43) :: z))))) := by
    cases neg <;> simp [clockText, str]
  have hcl : (clockText y mo d h mi s neg z).length ≤ 254 := by
    simp only [quoted, List.length_cons, List.length_append, List.length_nil] at hql; omega
  have hcne : clockText y mo d h mi s neg z ≠ [] := by rw [hct]; simp
  unfold parseTimeInfo
  rw [removeOutermost_quoted hcne hcl]
  simp only
  -- zone
  have htz : parseTimeZone lm (clockText y mo d h mi s neg z) Time.zero =
      (.success, neg, { Time.zero with timeZone := if neg then -(vz : Int) else vz }) := by
    have hsplit : clockText y mo d h mi s neg z =
        (y ++ 47 :: (mo ++ 47 :: (d ++ 44 :: (h ++ 58 :: (mi ++ 58 :: s))))) ++
          (if neg then 45 else 43) :: z := by
      rw [hct]; cases neg <;> simp
    have hnot : ∀ c, digit? c = none → c ≠ 47 → c ≠ 44 → c ≠ 58 →
        c ∉ y ++ 47 :: (mo ++ 47 :: (d ++ 44 :: (h ++ 58 :: (mi ++ 58 :: s)))) := by
      intro c hc h1 h2 h3
      simp [numeral_not_mem hy hc, numeral_not_mem hmo hc, numeral_not_mem hd hc,
        numeral_not_mem hh hc, numeral_not_mem hmi hc, numeral_not_mem hs hc, h1, h2, h3]
    unfold parseTimeZone
    rw [hsplit]
    cases neg with
    | false =>
      have := C08_strtoi_faithful_partial lm hlm 10 [] [43] z [] false vz (by simp) .plus hz (by simp)
        (by simp) (by simpa using bz)
      simp only [List.nil_append, List.cons_append, List.append_nil] at this
      simp only [Bool.false_eq_true, if_false]
      rw [strstr1_eq (hnot 43 e43 (by decide) (by decide) (by decide))]
      simp only [this, Bool.false_eq_true, if_false]
    | true =>
      have := C08_strtoi_faithful_partial lm hlm 10 [] [45] z [] true vz (by simp) .minus hz (by simp)
        (by simp) (by simp; omega)
      simp only [List.nil_append, List.cons_append, List.append_nil] at this
      simp only [if_true]
      rw [strstr1_none (by
        rw [List.mem_append]
        rintro (hx | hx)
        · exact hnot 43 e43 (by decide) (by decide) (by decide) hx
        · rcases List.mem_cons.mp hx with hx | hx
          · simp at hx
          · exact numeral_not_mem hz e43 hx)]
      simp only
      rw [strstr1_eq (hnot 45 e45 (by decide) (by decide) (by decide))]
      simp only [this, if_true]
  rw [htz]
  simp only
  have hL := hcl
  rw [hct] at hL ⊢
  simp only [List.length_append, List.length_cons] at hL
  rw [getTok_eq (numeral_not_mem hy e47) (by simp only [List.length_append, List.length_cons]; omega)]
  simp only
  unfold parseDate
  rw [show (65535 : Int) = ((65535 : Nat) : Int) from rfl, show (255 : Int) = ((255 : Nat) : Int) from rfl,
    numTok_numeral hlm hy 65535 (by omega) by']
  simp only
  rw [getTok_eq (numeral_not_mem hmo e47) (by simp only [List.length_append, List.length_cons]; omega)]
  simp only
  rw [numTok_numeral hlm hmo 255 (by omega) bmo]
  simp only
  rw [getTok_eq (numeral_not_mem hd e44) (by simp only [List.length_append, List.length_cons]; omega)]
  simp only
  rw [numTok_numeral hlm hd 255 (by omega) bd]
  simp only [translateAt]
  rw [getTok_eq (numeral_not_mem hh e58) (by simp only [List.length_append, List.length_cons]; omega)]
  simp only
  unfold parseClock
  rw [show (255 : Int) = ((255 : Nat) : Int) from rfl, numTok_numeral hlm hh 255 (by omega) bh]
  simp only
  rw [getTok_eq (numeral_not_mem hmi e58) (by simp only [List.length_append, List.length_cons]; omega)]
  simp only
  rw [numTok_numeral hlm hmi 255 (by omega) bmi]
  simp only
  rw [getTok_eq (numeral_not_mem hs (by cases neg <;> decide))
    (by simp only [List.length_append, List.length_cons]; omega)]
  simp only
  rw [numTok_numeral hlm hs 255 (by omega) bs]

/-- A concrete response line. -/
example : recvNetworkTime (2 ^ 31 - 1) [str "+CCLK: \"24/01/02,03:04:05-06\""] Time.zero =
    (.ok, ⟨1, 2, 3, 4, 5, 24, -6⟩) := by decide +kernel

/-- C56, second half, as written, is false: a text without clock is accepted, hour, minute and second
are reported as 0. -/
theorem C56_witness_missing_clock :
    recvNetworkTime (2 ^ 31 - 1) [str "+CCLK: \"24/01/02+04\""] Time.zero =
      (.ok, ⟨1, 2, 0, 0, 0, 24, 4⟩) := by decide +kernel

/-- The text begins with a number (C08) that is stored as `v`. -/
def LeadingNumber (lm : Nat) (s : Str) (v : Nat) : Prop := ReadsAs lm 10 s v

theorem numTok_ok {lm : Nat} {s : Str} {max : Int} {store : Nat → Time → Time} {t t' : Time}
    (h : numTok lm s max store t = (.success, t')) :
    ∃ v, LeadingNumber lm s v ∧ (v : Int) ≤ max ∧ t' = store v t := by
  unfold numTok at h
  split at h
  · rename_i v hv
    split at h
    · rename_i hr
      simp only [Prod.mk.injEq, true_and] at h
      refine ⟨v.toNat, ?_, by omega, h.symm⟩
      unfold LeadingNumber
      rw [← strtoi_iff_reads lm 10 (by omega), hv, show ((v.toNat : Nat) : Int) = v by omega]
    · simp at h
  · rename_i e o hne hv
    simp only [Prod.mk.injEq] at h
    obtain ⟨h1, _⟩ := h
    subst h1
    rcases strtoi_success hv with ⟨_, v, ho, _⟩ | ⟨he, _⟩
    · subst ho; exact (hne v rfl rfl).elim
    · simp at he

theorem getTok_ok {d : Byte} {s rest : Str} {o : Option Str} (h : getTok d s = (.success, rest, o)) :
    ∃ tok, o = some tok ∧ d ∉ tok ∧ ((s = tok ++ d :: rest) ∨ (s = tok ∧ rest = [] ∧ tok ≠ [])) := by
  unfold getTok at h
  split at h
  · rename_i hv
    simp only [Prod.mk.injEq, true_and] at h
    obtain ⟨h1, h2⟩ := h
    refine ⟨_, h2.symm, ?_, ?_⟩
    · intro hm
      have := List.all_takeWhile (p := fun b => b != d) (l := s)
      rw [List.all_eq_true] at this
      simpa using this d hm
    · have hs := List.takeWhile_append_dropWhile (p := fun b => b != d) (l := s)
      cases hd : s.dropWhile (fun b => b != d) with
      | nil =>
        rw [hd] at hs h1
        right
        rw [List.append_nil] at hs
        refine ⟨hs.symm, by rw [← h1]; rfl, ?_⟩
        rw [hs]; exact (valid_len hv).1
      | cons b t =>
        left
        have hb : b = d := by
          have := List.head?_dropWhile_not (fun b => b != d) s
          rw [hd] at this
          simpa using this
        rw [hd] at hs h1
        subst hb
        rw [← h1]
        exact hs.symm
  · simp at h

theorem parseTimeInfo_ok (lm : Nat) (s : Str) (t : Time)
    (h : parseTimeInfo lm s = (.ok, t)) :
    ∃ x y mo d rest,
      removeOutermostDoubleQuote s = (.success, x) ∧
      x = y ++ 47 :: (mo ++ 47 :: (d ++ rest)) ∧ (47 : Byte) ∉ y ∧ (47 : Byte) ∉ mo ∧ (44 : Byte) ∉ d ∧
      LeadingNumber lm y t.year ∧ LeadingNumber lm mo t.month ∧ LeadingNumber lm d t.day ∧
      (∃ z, (strstr1 x 43 = some z ∨ (43 ∉ x ∧ strstr1 x 45 = some z)) ∧
        strtoi lm (some z) 10 = (.success, some t.timeZone)) ∧
      ((rest = [] ∨ rest = [44]) ∧ t.hour = 0 ∧ t.minute = 0 ∧ t.second = 0 ∨
       ∃ hr mi sec c rest', rest = 44 :: (hr ++ 58 :: (mi ++ 58 :: rest')) ∧
         (c = 43 ∨ c = 45) ∧ sec = rest'.takeWhile (fun b => b != c) ∧
         LeadingNumber lm hr t.hour ∧ LeadingNumber lm mi t.minute ∧ LeadingNumber lm sec t.second) := by
  unfold parseTimeInfo at h
  split at h
  case h_2 => simp at h
  rename_i x hx
  split at h
  case h_2 =>
    rename_i e neg t0 hne htz
    simp only [Prod.mk.injEq] at h
    cases e <;> simp [translateAt] at h
    exact (hne rfl).elim
  rename_i neg t1 htz
  -- zone
  have hzone : ∃ z, (strstr1 x 43 = some z ∨ (43 ∉ x ∧ strstr1 x 45 = some z)) ∧
      ∃ v, strtoi lm (some z) 10 = (.success, some v) ∧ t1 = { Time.zero with timeZone := v } ∧
        (neg = true → (43 : Byte) ∉ x) := by
    unfold parseTimeZone at htz
    cases h43 : strstr1 x 43 with
    | some z =>
      rw [h43] at htz
      simp only at htz
      split at htz
      · rename_i v hv
        simp only [Prod.mk.injEq, true_and] at htz
        exact ⟨z, Or.inl rfl, v, hv, htz.2.symm, by intro hn; rw [← htz.1] at hn; simp at hn⟩
      · rename_i e o hne' hv
        simp only [Prod.mk.injEq] at htz
        obtain ⟨h1, _⟩ := htz
        subst h1
        rcases strtoi_success hv with ⟨_, v, ho, _⟩ | ⟨he, _⟩
        · subst ho; exact (hne' v rfl rfl).elim
        · simp at he
    | none =>
      have hn43 : (43 : Byte) ∉ x := by
        unfold strstr1 at h43
        split at h43
        · simp at h43
        · rename_i hc; simpa using hc
      rw [h43] at htz
      simp only at htz
      cases h45 : strstr1 x 45 with
      | none => rw [h45] at htz; simp at htz
      | some z =>
        rw [h45] at htz
        simp only at htz
        split at htz
        · rename_i v hv
          simp only [Prod.mk.injEq, true_and] at htz
          exact ⟨z, Or.inr ⟨hn43, rfl⟩, v, hv, htz.2.symm, fun _ => hn43⟩
        · rename_i e o hne' hv
          simp only [Prod.mk.injEq] at htz
          obtain ⟨h1, _⟩ := htz
          subst h1
          rcases strtoi_success hv with ⟨_, v, ho, _⟩ | ⟨he, _⟩
          · subst ho; exact (hne' v rfl rfl).elim
          · simp at he
  obtain ⟨z, hz, v, hzv, ht1, _⟩ := hzone
  -- the first token exists: the text is valid
  have hxne : x ≠ [] := by
    rcases hz with hz | ⟨_, hz⟩ <;> (intro e; rw [e] at hz; simp [strstr1] at hz)
  have hxl : x.length ≤ 256 := by
    unfold removeOutermostDoubleQuote at hx
    split at hx
    · rename_i hv
      have hl := (valid_len hv).2
      simp only [Prod.mk.injEq, true_and] at hx
      rw [← hx]
      have h1 : (if s.head? = some 34 then s.drop 1 else s).length ≤ s.length := by
        split <;> simp
      generalize (if s.head? = some 34 then s.drop 1 else s) = s1 at h1 ⊢
      have h2 := List.length_dropLast (xs := s1)
      by_cases c1 : s.length > 2
      · rw [if_pos c1]
        by_cases c2 : s1.getLast? = some 34
        · simp only [c2, if_true]; omega
        · simp only [c2, if_false]; omega
      · rw [if_neg c1]; exact hl
    · simp at hx
  have hvx : getTok 47 x = (.success, (x.dropWhile (fun b => b != 47)).drop 1,
      some (x.takeWhile (fun b => b != 47))) := by
    unfold getTok; rw [if_pos (valid_of hxne hxl)]
  obtain ⟨y, hy1, hy2, hy3⟩ := getTok_ok hvx
  rw [hvx, hy1] at h
  simp only at h
  generalize hr1 : (x.dropWhile (fun b => b != 47)).drop 1 = r1 at h hy3
  -- date
  cases hpd : parseDate lm y r1 t1 with
  | mk e q =>
    obtain ⟨r3, t4⟩ := q
    rw [hpd] at h
    simp only at h
    split at h
    case h_2 =>
      rename_i e' r' t' hne hh
      simp only [Prod.mk.injEq] at h hh
      rw [h.1] at hh
      exact (hne h.1).elim
    rename_i st r3' t4' hh
    simp only [Prod.mk.injEq] at hh
    obtain ⟨hte, hr3, ht4⟩ := hh
    subst hr3; subst ht4
    have hes : e = .success := by cases e <;> simp [translateAt] at hte ⊢
    subst hes
    unfold parseDate at hpd
    split at hpd
    case h_2 =>
      rename_i e' t' hne hnum
      simp only [Prod.mk.injEq] at hpd
      rw [hpd.1] at hnum
      exact (hne hpd.1).elim
    rename_i t2 hny
    obtain ⟨vy, hvy, _, rfl⟩ := numTok_ok hny
    split at hpd
    case h_2 =>
      rename_i e' r' o' hne hg
      simp only [Prod.mk.injEq] at hpd
      rw [hpd.1] at hg
      obtain ⟨tk, ho, _⟩ := getTok_ok hg
      subst ho
      exact (hne tk hpd.1 rfl).elim
    rename_i r2 mo hgm
    obtain ⟨mo', hmo1, hmo2, hmo3⟩ := getTok_ok hgm
    simp only [Option.some.injEq] at hmo1
    subst hmo1
    split at hpd
    case h_2 =>
      rename_i e' t' hne hnum
      simp only [Prod.mk.injEq] at hpd
      rw [hpd.1] at hnum
      exact (hne hpd.1).elim
    rename_i t3 hnm
    obtain ⟨vm, hvm, _, rfl⟩ := numTok_ok hnm
    split at hpd
    case h_2 =>
      rename_i e' r' o' hne hg
      simp only [Prod.mk.injEq] at hpd
      rw [hpd.1] at hg
      obtain ⟨tk, ho, _⟩ := getTok_ok hg
      subst ho
      exact (hne tk hpd.1 rfl).elim
    rename_i r3'' d hgd
    obtain ⟨d', hd1, hd2, hd3⟩ := getTok_ok hgd
    simp only [Option.some.injEq] at hd1
    subst hd1
    cases hnd : numTok lm d 255 (fun v t => { t with day := v })
      { { t1 with year := vy } with month := vm } with
    | mk e5 t5 =>
      rw [hnd] at hpd
      simp only [Prod.mk.injEq] at hpd
      obtain ⟨he5, hr, ht5⟩ := hpd
      subst he5; subst hr; subst ht5
      obtain ⟨vd, hvd, _, rfl⟩ := numTok_ok hnd
      -- shapes
      have hx1 : x = y ++ 47 :: r1 := by
        rcases hy3 with h1 | ⟨h1, h2, _⟩
        · exact h1
        · subst h2; rw [getTok_nil] at hgm; simp at hgm
      have hx2 : r1 = mo ++ 47 :: r2 := by
        rcases hmo3 with h1 | ⟨h1, h2, _⟩
        · exact h1
        · subst h2; rw [getTok_nil] at hgd; simp at hgd
      -- clock
      rcases hd3 with h3 | ⟨h3, h4, _⟩
      · -- a comma follows the day
        split at h
        · rename_i r4 hr' hg
          obtain ⟨hr'', e1, e2, e3⟩ := getTok_ok hg
          simp only [Option.some.injEq] at e1
          subst e1
          cases hpc : parseClock lm hr' neg r4
            { { { t1 with year := vy } with month := vm } with day := vd } with
          | mk e6 t6 =>
            rw [hpc] at h
            simp only [Prod.mk.injEq] at h
            obtain ⟨he6, ht6⟩ := h
            subst ht6
            have : e6 = .success := by cases e6 <;> simp [translateAt] at he6 ⊢
            subst this
            unfold parseClock at hpc
            split at hpc
            case h_2 =>
              rename_i e' t' hne hnum
              simp only [Prod.mk.injEq] at hpc
              rw [hpc.1] at hnum
              exact (hne hpc.1).elim
            rename_i t7 hnh
            obtain ⟨vh, hvh, _, rfl⟩ := numTok_ok hnh
            split at hpc
            case h_2 =>
              rename_i e' r' o' hne hg'
              simp only [Prod.mk.injEq] at hpc
              rw [hpc.1] at hg'
              obtain ⟨tk, ho, _⟩ := getTok_ok hg'
              subst ho
              exact (hne tk hpc.1 rfl).elim
            rename_i r5 mi hgmi
            obtain ⟨mi', m1, m2, m3⟩ := getTok_ok hgmi
            simp only [Option.some.injEq] at m1
            subst m1
            split at hpc
            case h_2 =>
              rename_i e' t' hne hnum
              simp only [Prod.mk.injEq] at hpc
              rw [hpc.1] at hnum
              exact (hne hpc.1).elim
            rename_i t8 hnmi
            obtain ⟨vmi, hvmi, _, rfl⟩ := numTok_ok hnmi
            split at hpc
            case h_2 =>
              rename_i e' r' o' hne hg'
              simp only [Prod.mk.injEq] at hpc
              rw [hpc.1] at hg'
              obtain ⟨tk, ho, _⟩ := getTok_ok hg'
              subst ho
              exact (hne tk hpc.1 rfl).elim
            rename_i r6 sec hgs
            obtain ⟨vs, hvs, _, ht⟩ := numTok_ok hpc
            have hr4 : r3'' = hr' ++ 58 :: r4 := by
              rcases e3 with h1 | ⟨h1, h2, _⟩
              · exact h1
              · subst h2; rw [getTok_nil] at hgmi; simp at hgmi
            have hr5 : r4 = mi ++ 58 :: r5 := by
              rcases m3 with h1 | ⟨h1, h2, _⟩
              · exact h1
              · subst h2; rw [getTok_nil] at hgs; simp at hgs
            have hsec : sec = r5.takeWhile (fun b => b != (if neg then 45 else 43)) := by
              unfold getTok at hgs
              split at hgs
              · simp only [Prod.mk.injEq, true_and, Option.some.injEq] at hgs
                exact hgs.2.symm
              · simp at hgs
            refine ⟨x, y, mo, d, 44 :: r3'', hx, ?_, hy2, hmo2, hd2, ?_, ?_, ?_, ⟨z, hz, ?_⟩, Or.inr ?_⟩
            · rw [hx1, hx2, h3]
            · subst ht; exact hvy
            · subst ht; exact hvm
            · subst ht; exact hvd
            · subst ht; rw [ht1]; exact hzv
            · refine ⟨hr', mi, sec, if neg then 45 else 43, r5, by rw [hr4, hr5], by cases neg <;> simp,
                hsec, ?_, ?_, ?_⟩
              · subst ht; exact hvh
              · subst ht; exact hvmi
              · subst ht; exact hvs
        · rename_i hne
          simp only [Prod.mk.injEq, true_and] at h
          subst h
          have hr3n : r3'' = [] := by
            apply Classical.byContradiction
            intro hn
            have hl3 : r3''.length ≤ 256 := by
              have := congrArg List.length hx1
              rw [hx2, h3] at this
              simp only [List.length_append, List.length_cons] at this
              omega
            exact hne _ _ (show getTok 58 r3'' = _ by unfold getTok; rw [if_pos (valid_of hn hl3)])
          refine ⟨x, y, mo, d, 44 :: r3'', hx, by rw [hx1, hx2, h3], hy2, hmo2, hd2, hvy, hvm, hvd,
            ⟨z, hz, by rw [ht1]; exact hzv⟩, Or.inl ⟨Or.inr (by rw [hr3n]), by rw [ht1]; rfl,
            by rw [ht1]; rfl, by rw [ht1]; rfl⟩⟩
      · subst h4
        rw [getTok_nil] at h
        simp only [Prod.mk.injEq, true_and] at h
        subst h
        refine ⟨x, y, mo, d, [], hx, by rw [hx1, hx2, h3]; simp, hy2, hmo2, hd2, hvy, hvm, hvd,
          ⟨z, hz, by rw [ht1]; exact hzv⟩, Or.inl ⟨Or.inl rfl, by rw [ht1]; rfl, by rw [ht1]; rfl,
          by rw [ht1]; rfl⟩⟩

/-- C56, second half, what holds: success means that zone, year, month and day were decoded from the
text, and that hour, minute and second were decoded too unless nothing follows the date.
Missing for the full property: a text without clock must be refused (see the witness). -/
theorem C56_success_decoded_partial (lm : Nat) (line : Str) (rest : List Str) (old t : Time)
    (h : recvNetworkTime lm (line :: rest) old = (.ok, t)) :
    ∃ pre body x y mo d tail,
      line = pre ++ 58 :: body ∧ (58 : Byte) ∉ pre ∧
      removeOutermostDoubleQuote (body.filter (fun b => !isSpace b)) = (.success, x) ∧
      x = y ++ 47 :: (mo ++ 47 :: (d ++ tail)) ∧ (47 : Byte) ∉ y ∧ (47 : Byte) ∉ mo ∧ (44 : Byte) ∉ d ∧
      LeadingNumber lm y t.year ∧ LeadingNumber lm mo t.month ∧ LeadingNumber lm d t.day ∧
      (∃ z, (strstr1 x 43 = some z ∨ (43 ∉ x ∧ strstr1 x 45 = some z)) ∧
        ReadsAs lm 10 z t.timeZone) ∧
      ((tail = [] ∨ tail = [44]) ∧ t.hour = 0 ∧ t.minute = 0 ∧ t.second = 0 ∨
       ∃ hr mi sec c tail', tail = 44 :: (hr ++ 58 :: (mi ++ 58 :: tail')) ∧
         (c = 43 ∨ c = 45) ∧ sec = tail'.takeWhile (fun b => b != c) ∧
         LeadingNumber lm hr t.hour ∧ LeadingNumber lm mi t.minute ∧ LeadingNumber lm sec t.second) := by
  simp only [← strtoi_iff_reads lm 10 (by omega)]
  unfold recvNetworkTime at h
  simp only at h
  split at h
  case h_2 =>
    rename_i e o hne hp
    simp only [Prod.mk.injEq] at h
    have : e = .success := by
      have := h.1
      cases e <;> simp [translateAt] at this ⊢
    subst this
    unfold removePrefix at hp
    split at hp
    · split at hp
      · simp only [Prod.mk.injEq, true_and] at hp
        exact (hne _ rfl hp.symm).elim
      · simp at hp
    · simp at hp
  rename_i body hp
  split at h
  case h_2 =>
    rename_i e o hne hp'
    simp only [Prod.mk.injEq] at h
    have : e = .success := by
      have := h.1
      cases e <;> simp [translateAt] at this ⊢
    exact (hne this).elim
  rename_i s hw
  have hs : s = body.filter (fun b => !isSpace b) := by
    unfold removeAllWhiteSpaces at hw
    split at hw
    · simp only [Prod.mk.injEq, true_and] at hw; exact hw.symm
    · simp at hw
  subst hs
  obtain ⟨x, y, mo, d, tail, h1, h2, h3, h4, h5, h6⟩ := parseTimeInfo_ok lm _ t h
  obtain ⟨pre, e1, e2⟩ : ∃ pre, line = pre ++ 58 :: body ∧ (58 : Byte) ∉ pre := by
    unfold removePrefix at hp
    split at hp
    · rename_i hv
      split at hp
      · rename_i hc
        simp only [Prod.mk.injEq, true_and, Option.some.injEq] at hp
        refine ⟨line.takeWhile (fun b => b != 58), ?_, ?_⟩
        · have hsplit := List.takeWhile_append_dropWhile (p := fun b => b != (58 : Byte)) (l := line)
          cases hd : line.dropWhile (fun b => b != 58) with
          | nil =>
            exfalso
            have hm : (58 : Byte) ∈ line := by simpa using hc
            rw [hd, List.append_nil] at hsplit
            rw [← hsplit] at hm
            have := List.all_takeWhile (p := fun b => b != (58 : Byte)) (l := line)
            rw [List.all_eq_true] at this
            simpa using this 58 hm
          | cons b u =>
            have hb : b = 58 := by
              have := List.head?_dropWhile_not (fun b => b != (58 : Byte)) line
              rw [hd] at this
              simpa using this
            rw [hd] at hp hsplit
            subst hb
            rw [← hp]
            exact hsplit.symm
        · intro hm
          have := List.all_takeWhile (p := fun b => b != (58 : Byte)) (l := line)
          rw [List.all_eq_true] at this
          simpa using this 58 hm
      · simp at hp
    · simp at hp
  exact ⟨pre, body, x, y, mo, d, tail, e1, e2, h1, h2, h3, h4, h5, h6⟩

end Cellular.Props
