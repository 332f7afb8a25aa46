import Verif.ApiPsm
import Verif.ApiTime
import Verif.RegProps
/-!
# API level theorems: what a query returns for a given answer of the modem

The theorems of `ApiTime`, `ApiQuery` and `ApiPsm` describe the decoding of a response; here the same
is stated for the API functions: which command is sent, and what the caller finds in his object.
-/

namespace Cellular.Props
open Cellular Spec Tok Api Signal Reg RegLemmas
open Cellular.AtCore (strtoi AtErr)
open Cellular.AtStr

/-- The modem answers the next command, if it is `r`, with success and these lines. -/
def Answers (w : World) (r : Req) (l : List Str) : Prop := w.modem w.sent r = .lines l

theorem request_answer {w : World} {r : Req} {l : List Str} (hl : r.cmd.length ≤ 200)
    (h : Answers w r l) : request w r = (.ok l, { w with sent := w.sent ++ [r] }) := by
  unfold request
  rw [if_neg (by unfold cmdMax; omega)]
  unfold Answers at h
  simp only [h]

/-! ## C61: radio on and off -/

/-- C61: switching the radio on sends exactly `AT+CFUN=1`, switching it off exactly `AT+CFUN=4`, once,
and the result is success exactly if the modem accepts the command. -/
theorem C61_rf_command (on : Bool) (w : World) (ho : LibraryOpen w) :
    let r : Req := ⟨if on then str "AT+CFUN=1" else str "AT+CFUN=4", .noResult, none⟩
    (rfSet on w).world = { w with sent := w.sent ++ [r] } ∧
    ((rfSet on w).err = .success ↔ ∃ l, Answers w r l) := by
  intro r
  have hlen : r.cmd.length ≤ 200 := by cases on <;> decide
  have hw : (rfSet on w).world = (requestNoCb w r).2 ∧
      (rfSet on w).err = translatePkt (requestNoCb w r).1 := by
    unfold rfSet; rw [checkLib_open ho]; exact ⟨rfl, rfl⟩
  rw [hw.1, hw.2]
  unfold requestNoCb request Answers
  rw [if_neg (by unfold cmdMax; omega)]
  cases hm : w.modem w.sent r <;> simp [translatePkt]

example : ∃ w : World, LibraryOpen w ∧ (rfSet true w).world.sent = [⟨str "AT+CFUN=1", .noResult, none⟩] :=
  ⟨⟨some (true, false, false), Reg.initAtData, false, [], [], fun _ _ => .lines []⟩, rfl, rfl⟩

/-! ## C53: values out of range -/

theorem copsNum_refused {lm : Nat} (hlm : 2 ^ 31 - 1 ≤ lm) {s : Str} {v : Nat} (h : Numeral 10 s v)
    (max : Nat) (hv : max ≤ v) (hb : v < 2 ^ 31) (store : Nat → OpInfo → OpInfo) (o : OpInfo) :
    copsNum lm s (max : Int) store o = (false, o) := by
  unfold copsNum
  rw [strtoi_numeral hlm h hb]
  simp only
  rw [if_neg (by omega)]

/-- C53: a mode above 4, a format above 2, a RAT above 9 or a numeric operator that is not five or six digits long
is refused; the query does not succeed. -/
theorem C53_out_of_range_refused (lm : Nat) (hlm : 2 ^ 31 - 1 ≤ lm) {tm tf tr : Str} {mode fmt rat : Nat}
    (hm : Numeral 10 tm mode) (hf : Numeral 10 tf fmt) (hr : Numeral 10 tr rat)
    (bm : mode < 2 ^ 31) (bf : fmt < 2 ^ 31) (br : rat < 2 ^ 31)
    (op : Str) (hc : NoComma op)
    (hbad : 5 ≤ mode ∨ 3 ≤ fmt ∨ 10 ≤ rat ∨ (fmt = 2 ∧ op.length ≠ 5 ∧ op.length ≠ 6))
    (pre body : Str) (rest : List Str) (o : OpInfo) (hpre : (58 : Byte) ∉ pre)
    (hl : (pre ++ 58 :: body).length ≤ 256)
    (hb : noWhite (noQuote body) = joinComma [tm, tf, op, tr]) :
    (recvCops lm ((pre ++ 58 :: body) :: rest) o).1 = .failure := by
  have hbl : body.length ≤ 256 := by
    simp only [List.length_append, List.length_cons] at hl; omega
  have hqne : noQuote body ≠ [] := by
    intro e; rw [e] at hb; simp [noWhite, joinComma] at hb
  have hne : body ≠ [] := ne_nil_of_filter hqne
  have hq := noQuote_len body
  have hw := noWhite_len (noQuote body)
  suffices hline : (copsLine lm (pre ++ 58 :: body) o).1 = .error by
    unfold recvCops
    simp only [hline]
    rfl
  unfold copsLine
  rw [removePrefix_eq hpre hl]
  simp only
  rw [removeAllDoubleQuote_eq hne hbl]
  simp only
  rw [removeAllWhiteSpaces_eq hqne (by omega), hb]
  rw [hb] at hw
  simp only [joinComma, List.length_append, List.length_cons] at hw
  simp only [joinComma]
  unfold parseCops
  rw [getNextTok_eq (numeral_noComma hm) (by simp only [List.length_append, List.length_cons]; omega)]
  simp only
  rw [show (5 : Int) = ((5 : Nat) : Int) from rfl, show (10 : Int) = ((10 : Nat) : Int) from rfl]
  by_cases h5 : mode < 5
  case neg =>
    rw [copsNum_refused hlm hm 5 (by omega) bm]
  rw [copsNum_numeral hlm hm 5 (by omega) h5]
  simp only
  rw [getNextTok_eq (numeral_noComma hf) (by simp only [List.length_append, List.length_cons]; omega)]
  simp only
  by_cases h10 : fmt < 10
  case neg =>
    rw [copsNum_refused hlm hf 10 (by omega) bf]
  rw [copsNum_numeral hlm hf 10 (by omega) h10]
  simp only
  rw [getNextTok_eq hc (by simp only [List.length_append, List.length_cons]; omega)]
  simp only
  cases hname : copsName op { { o with mode := mode } with format := fmt } with
  | mk b o' =>
    cases b with
    | false => rfl
    | true =>
      by_cases h3 : 3 ≤ fmt
      · unfold copsName at hname
        simp only at hname
        rw [if_neg (by omega), if_neg (by omega)] at hname
        simp at hname
      by_cases hop : fmt = 2 ∧ op.length ≠ 5 ∧ op.length ≠ 6
      · unfold copsName at hname
        simp only at hname
        rw [if_neg (by omega), if_pos (by omega), if_neg (by omega)] at hname
        simp at hname
      · have h : 10 ≤ rat := by omega
        simp only
        rw [getNextTok_last (numeral_ne_nil hr) (numeral_noComma hr) (by omega)]
        simp only
        rw [copsNum_refused hlm hr ratMax h br]

example : (recvCops (2 ^ 31 - 1) [str "+COPS: 5,2,\"310260\",8"] OpInfo.zero).1 = .failure ∧
    (recvCops (2 ^ 31 - 1) [str "+COPS: 4,2,\"310260\",10"] OpInfo.zero).1 = .failure ∧
    (recvCops (2 ^ 31 - 1) [str "+COPS: 4,2,\"3102\",8"] OpInfo.zero).1 = .failure := by decide +kernel

/-! ## C55: the answers of the registration queries -/

/-- The query command of each registration. -/
def regQuery : RegType → Req
  | .creg => ⟨str "AT+CREG?", .multiWithPrefix, some (str "+CREG")⟩
  | .cgreg => ⟨str "AT+CGREG?", .multiWithPrefix, some (str "+CGREG")⟩
  | .cereg => ⟨str "AT+CEREG?", .multiWithPrefix, some (str "+CEREG")⟩

/-- A line that reports the registration text `s`: the answer to a query, `+CREG: <n>,<s>`, whose
text does not begin with a quote, or an unsolicited result, `+CREG: <s>`, whose second field, if there
is one, begins with a quote. -/
inductive Reports (line s : Str) : Prop
  | answer (x : Str) (hx : NoComma x) (hline : line = x ++ 44 :: s) (hs : s.head? ≠ some 34)
  | urc (pre : Str) (hpre : (58 : Byte) ∉ pre) (hc : NoComma pre) (hline : line = pre ++ 58 :: s)
      (hs : NoComma s ∨ ∃ a b, NoComma a ∧ s = a ++ 44 :: 34 :: b)

theorem isUrc_answer {x s : Str} (hx : NoComma x) (hs : s.head? ≠ some 34) :
    regResponseIsUrc (x ++ 44 :: s) = false := by
  unfold regResponseIsUrc
  rw [strstr1_eq hx]
  cases s with
  | nil => rfl
  | cons b t => simpa using hs

theorem isUrc_urc {pre s : Str} (hc : NoComma pre)
    (hs : NoComma s ∨ ∃ a b, NoComma a ∧ s = a ++ 44 :: 34 :: b) :
    regResponseIsUrc (pre ++ 58 :: s) = true := by
  unfold regResponseIsUrc
  rcases hs with hs | ⟨a, b, ha, rfl⟩
  · rw [strstr1_none (by unfold NoComma at *; simp [hc, hs])]
  · have : strstr1 (pre ++ 58 :: (a ++ 44 :: 34 :: b)) 44 = some (44 :: 34 :: b) := by
      rw [show pre ++ 58 :: (a ++ 44 :: 34 :: b) = (pre ++ 58 :: a) ++ 44 :: 34 :: b by simp]
      exact strstr1_eq (by unfold NoComma at *; simp [hc, ha])
    rw [this]; rfl

/-- An answer and an unsolicited result with the same text have the same effect. -/
theorem parse_answer (lm : Nat) (cb : Bool) (t : RegType) {x s : Str} (hx : NoComma x) (d : AtData)
    (hl : (x ++ 44 :: s).length ≤ 256) (hne : clean s ≠ []) :
    parseRegStatus lm cb (some (x ++ 44 :: s)) false t d = parseRegStatus lm cb (some s) true t d := by
  have hls : s.length ≤ 256 := by simp only [List.length_append, List.length_cons] at hl; omega
  have hcl : clean (x ++ 44 :: s) = clean x ++ 44 :: clean s := by rw [clean_append, clean_comma]
  have hcx : (44 : Byte) ∉ clean x := by
    intro h; unfold clean at h; exact hx (List.mem_filter.mp (List.mem_filter.mp h).1).1
  have htw := takeWhile_ne_append (clean s) hcx
  rw [parse_eq lm cb _ false t d hl (by rw [hcl]; simp), parse_eq lm cb s true t d hls hne, hcl,
    reportedFields_cons _ (by simp), htw.1, htw.2]
  simp only [List.drop_succ_cons, List.drop_zero, Bool.false_eq_true, if_false, if_true]
  rw [run_ok (pf_net lm t _ d)]

/-- The record after a list of unsolicited registration results, handled one by one. -/
def afterUrcs (lm : Nat) (cb : Bool) (t : RegType) (texts : List Str) (d : AtData) : AtData :=
  texts.foldl (fun d s => (urcProcess lm cb t (some s) d).data) d

/-- Every one of the unsolicited results is accepted. -/
def AllAccepted (lm : Nat) (cb : Bool) (t : RegType) : List Str → AtData → Prop
  | [], _ => True
  | s :: ss, d => (urcProcess lm cb t (some s) d).status = .ok ∧
      AllAccepted lm cb t ss (urcProcess lm cb t (some s) d).data

/-- C55: the answer to a registration query, several lines of either form, has exactly the effect of
the corresponding unsolicited results handled one after the other, with the callbacks they make. -/
theorem C55_answer_like_urcs (lm : Nat) (cb : Bool) (t : RegType) {lines texts : List Str}
    (h : List.Forall₂ Reports lines texts) (hne : lines ≠ [])
    (hlen : ∀ l ∈ lines, l.length ≤ 256) (htxt : ∀ s ∈ texts, clean s ≠ []) (d : AtData)
    (hok : AllAccepted lm cb t texts d) :
    (recvNetworkReg lm cb t lines d).1 = .ok ∧
    (recvNetworkReg lm cb t lines d).2.1 = afterUrcs lm cb t texts d := by
  have hloop : (recvRegLoop lm cb t lines d).1 = .ok ∧
      (recvRegLoop lm cb t lines d).2.1 = afterUrcs lm cb t texts d := by
    clear hne
    induction h generalizing d with
    | nil => exact ⟨rfl, rfl⟩
    | @cons line s ls ss hr _ ih =>
      have hl := hlen line (by simp)
      have hs := htxt s (by simp)
      obtain ⟨h1, h2⟩ := hok
      have hstep : (recvRegLoop lm cb t (line :: ls) d).1 =
            (recvRegLoop lm cb t ls (urcProcess lm cb t (some s) d).data).1 ∧
          (recvRegLoop lm cb t (line :: ls) d).2.1 =
            (recvRegLoop lm cb t ls (urcProcess lm cb t (some s) d).data).2.1 := by
        cases hr with
        | answer x hx hline hq =>
          subst hline
          have hp : parseRegStatus lm cb (some (x ++ 44 :: s)) false t d = urcProcess lm cb t (some s) d :=
            parse_answer lm cb t hx d hl hs
          rw [recvRegLoop]
          simp only [isUrc_answer hx hq, Bool.false_eq_true, if_false, hp, h1]
          exact ⟨trivial, trivial⟩
        | urc pre hpre hc hline hq =>
          subst hline
          have hp : parseRegStatus lm cb (some s) true t d = urcProcess lm cb t (some s) d := rfl
          rw [recvRegLoop]
          simp only [isUrc_urc hc hq, if_true, removePrefix_eq hpre hl, hp, h1]
          exact ⟨trivial, trivial⟩
      rw [hstep.1, hstep.2]
      exact ih (fun l hl => hlen l (by simp [hl])) (fun s hs => htxt s (by simp [hs])) _ h2
  unfold recvNetworkReg
  cases lines with
  | nil => exact absurd rfl hne
  | cons a b => exact hloop

/-- The values in a registration report. -/
structure RegReport where
  n : Nat
  st : Nat
  lac : Nat
  ci : Nat
  act : Nat
  rac : Nat
  hl : Str
  hc : Str
  hr : Str
  rj : Option (Nat × Nat)

/-- The numbers are written in hexadecimal in the texts `hl`, `hc`, `hr` and in range. -/
structure RegReport.WellFormed (r : RegReport) : Prop where
  h1 : Numeral 16 r.hl r.lac
  h2 : Numeral 16 r.hc r.ci
  h3 : Numeral 16 r.hr r.rac
  st : r.st ≤ 8
  lac : r.lac ≤ 65535
  ci : r.ci < 2 ^ 31
  rac : r.rac ≤ 255
  act : r.act = 0 ∨ r.act = 3 ∨ r.act = 7 ∨ r.act = 8 ∨ r.act = 9
  rj : ∀ a b, r.rj = some (a, b) → a ≤ 255 ∧ b ≤ 255

/-- How an answer to each registration query begins. -/
def regHead : RegType → Str
  | .creg => str "+CREG: "
  | .cgreg => str "+CGREG: "
  | .cereg => str "+CEREG: "

/-- The answer line of the modem: `+CREG: 2,1,"00C3","1A2D",0`. -/
def regAnswer (t : RegType) (r : RegReport) : Str :=
  regHead t ++
  joinComma (regFields false t r.n r.st r.hl r.hc r.act r.hr r.rj)

theorem clean_ne_nil_of_mem {s : Str} {b : Byte} (h : b ∈ s) (h1 : b ≠ 34) (h2 : isSpace b = false) :
    clean s ≠ [] := by
  intro e
  have : b ∈ clean s := by
    unfold clean
    exact List.mem_filter.mpr ⟨List.mem_filter.mpr ⟨h, by simpa using h1⟩, by simp [h2]⟩
  rw [e] at this
  simp at this

/-- One query: the command sent and the record afterwards. -/
theorem queryNetworkStatus_answer (lm : Nat) (hlm : 2 ^ 31 - 1 ≤ lm) (t : RegType) (w : World)
    (r : RegReport) (hw : r.WellFormed) (hlen : (regAnswer t r).length ≤ 256)
    (ha : Answers w (regQuery t) [regAnswer t r]) :
    ∃ o : Out, (∃ ev, queryNetworkStatus lm w (regQuery t).cmd
        ((regQuery t).pfx.getD []) t =
        (.success, { w with
          sent := w.sent ++ [regQuery t], atData := o.data, events := ev })) ∧
      o = parseRegStatus lm w.regCb
        (some (joinComma (regFields true t r.n r.st r.hl r.hc r.act r.hr r.rj))) true t w.atData ∧
      (if t = .creg then o.data.cs = r.st ∧ o.data.ps = w.atData.ps
        else o.data.ps = r.st ∧ o.data.cs = w.atData.cs) ∧
      (if t = .cereg then o.data.tac = r.lac else o.data.lac = r.lac ∧ o.data.tac = w.atData.tac) ∧
      o.data.cellId = r.ci ∧ o.data.rat = r.act ∧ (t = .cgreg → o.data.rac = r.rac) ∧
      (∀ a b, r.rj = some (a, b) → r.st = 3 →
        if t = .creg then o.data.csRejType = a ∧ o.data.csRejCause = b
        else o.data.psRejType = a ∧ o.data.psRejCause = b) := by
  have hsplit : ∃ x : Str, NoComma x ∧
      regAnswer t r = x ++ 44 :: joinComma (regFields true t r.n r.st r.hl r.hc r.act r.hr r.rj) := by
    have hn := numeral_noComma (decText_numeral r.n)
    have hp : NoComma (regHead t) := by
      clear ha hlen
      cases t <;> (unfold NoComma; decide)
    refine ⟨regHead t ++ decText r.n, ?_, ?_⟩
    · unfold NoComma at *; simp only [List.mem_append, not_or]; exact ⟨hp, hn⟩
    · unfold regAnswer regFields
      cases t <;> cases r.rj <;> simp [joinComma]
  obtain ⟨x, hx, hline⟩ := hsplit
  have hst := decText_numeral r.st
  have hmem : ∀ b ∈ decText r.st,
      b ∈ joinComma (regFields true t r.n r.st r.hl r.hc r.act r.hr r.rj) := by
    intro b hb
    unfold regFields
    cases t <;> cases r.rj <;> simp [joinComma, hb]
  have hplain := numeral_plain hst
  obtain ⟨b0, bs, hb0⟩ : ∃ b0 bs, decText r.st = b0 :: bs := by
    cases h : decText r.st with
    | nil => exact absurd h (numeral_ne_nil hst)
    | cons a b => exact ⟨a, b, rfl⟩
  have hb0' := hplain b0 (by rw [hb0]; simp)
  have hcl : clean (joinComma (regFields true t r.n r.st r.hl r.hc r.act r.hr r.rj)) ≠ [] := by
    have hsp := plain_noSpace hplain
    refine clean_ne_nil_of_mem (hmem b0 (by rw [hb0]; simp)) hb0'.2 ?_
    have := List.filter_eq_self.mp hsp b0 (by rw [hb0]; simp)
    simpa using this
  have hhead : (joinComma (regFields true t r.n r.st r.hl r.hc r.act r.hr r.rj)).head? ≠ some 34 := by
    have : (joinComma (regFields true t r.n r.st r.hl r.hc r.act r.hr r.rj)).head? = some b0 := by
      unfold regFields
      cases t <;> cases r.rj <;> simp [joinComma, hb0]
    rw [this]; simpa using hb0'.2
  have hlen' : (x ++ 44 :: joinComma (regFields true t r.n r.st r.hl r.hc r.act r.hr r.rj)).length ≤ 256 := by
    rw [← hline]; exact hlen
  have hsl : (joinComma (regFields true t r.n r.st r.hl r.hc r.act r.hr r.rj)).length ≤ 256 := by
    simp only [List.length_append, List.length_cons] at hlen'; omega
  have hdec := C44_decoded_partial lm hlm w.regCb true t r.n r.st r.lac r.ci r.act r.rac r.hl r.hc r.hr r.rj
    w.atData hw.h1 hw.h2 hw.h3 hw.st hw.lac hw.ci hw.rac hw.act hw.rj hsl
  refine ⟨_, ?_, rfl, hdec.2⟩
  have hrec := C55_answer_like_urcs lm w.regCb t (lines := [regAnswer t r])
    (texts := [joinComma (regFields true t r.n r.st r.hl r.hc r.act r.hr r.rj)])
    (.cons (.answer x hx hline hhead) .nil) (by simp) (by simpa using hlen) (by simpa using hcl) w.atData
    ⟨hdec.1, trivial⟩
  unfold queryNetworkStatus
  have hq : (⟨(regQuery t).cmd, .multiWithPrefix, some ((regQuery t).pfx.getD [])⟩ : Req) = regQuery t := by
    cases t <;> rfl
  rw [hq, request_answer (by cases t <;> decide) ha]
  simp only [hrec.1, hrec.2]
  exact ⟨_, rfl⟩

/-- The answer line of the operator query. -/
def copsAnswer (mode : Nat) (mcc mnc : Str) (rat : Nat) : Str :=
  str "+COPS: " ++ joinComma [decText mode, str "2", quoted (mcc ++ mnc), decText rat]

theorem updateMccMnc_answer (lm : Nat) (hlm : 2 ^ 31 - 1 ≤ lm) (w : World) {mode rat : Nat} {mcc mnc : Str}
    {l0 : List Str} (h0 : Answers w copsSelect l0)
    (h1 : Answers { w with sent := w.sent ++ [copsSelect] } copsQuery [copsAnswer mode mcc mnc rat])
    (bm : mode < 5) (br : rat < 10) (hmcc : mcc.length = 3)
    (hmnc : mnc.length = 2 ∨ mnc.length = 3) (hc1 : NoComma mcc) (hc2 : NoComma mnc)
    (hp : Plain (mcc ++ mnc)) :
    updateMccMnc lm w OpInfo.zero =
      (.success, { w with sent := w.sent ++ [copsSelect] ++ [copsQuery] }, ⟨mcc, mnc, rat, mode, 2, []⟩) := by
  have hl1 : ∀ k < 10, (decText k).length = 1 := by
    intro k hk; unfold decText; rw [if_pos hk]; rfl
  have hrec : recvCops lm [copsAnswer mode mcc mnc rat] OpInfo.zero = (.ok, ⟨mcc, mnc, rat, mode, 2, []⟩) := by
    have e : copsAnswer mode mcc mnc rat = str "+COPS" ++ 58 :: (32 ::
        joinComma [decText mode, str "2", quoted (mcc ++ mnc), decText rat]) := rfl
    rw [e, C53_cops_decoded lm hlm (decText_numeral mode)
      (show Numeral 10 (str "2") 2 from by
        have := decText_numeral 2; rwa [show decText 2 = str "2" by decide +kernel] at this)
      (decText_numeral rat) bm br mcc mnc hmcc hmnc hc1 hc2 (str "+COPS") _ [] OpInfo.zero (by decide)
      ?_ ?_]
    · rfl
    · have := hl1 mode (by omega)
      have := hl1 rat br
      have e5 : (str "+COPS").length = 5 := by decide
      have e2 : (str "2").length = 1 := by decide
      simp only [joinComma, quoted, List.length_append, List.length_cons, List.length_nil, e5, e2]
      omega
    · have hc : ∀ s : Str, noWhite (noQuote s) = clean s := fun s => by
        rw [← noWhite_eq, ← noQuote_eq]; rfl
      have hpd : ∀ k, clean (decText k) = decText k := fun k => clean_plain (numeral_plain (decText_numeral k))
      rw [hc, show (32 : Byte) :: joinComma [decText mode, str "2", quoted (mcc ++ mnc), decText rat] =
        [32] ++ joinComma [decText mode, str "2", quoted (mcc ++ mnc), decText rat] from rfl, clean_append,
        clean_join]
      simp only [List.map_cons, List.map_nil, hpd, clean_quoted hp, show clean [32] = [] by decide,
        show clean (str "2") = str "2" by decide, List.nil_append]
  unfold updateMccMnc requestNoCb
  rw [show (⟨str "AT+COPS=3,2", .noResult, none⟩ : Req) = copsSelect from rfl,
    show (⟨str "AT+COPS?", .withPrefix, some (str "+COPS")⟩ : Req) = copsQuery from rfl,
    request_answer (by decide) h0]
  simp only
  rw [request_answer (by decide) h1]
  simp only [hrec]
  rfl

/-- What every service status query starts with. -/
structure Registered (w : World) (r1 r2 : RegReport) : Prop where
  w1 : r1.WellFormed
  w2 : r2.WellFormed
  len1 : (regAnswer .creg r1).length ≤ 256
  len2 : (regAnswer .cgreg r2).length ≤ 256
  a1 : w.modem w.sent (regQuery .creg) = .lines [regAnswer .creg r1]
  a2 : w.modem (w.sent ++ [regQuery .creg]) (regQuery .cgreg) = .lines [regAnswer .cgreg r2]

/-- C55, if the modem is registered for packet data: CREG, CGREG and the operator are queried with
exactly these commands, and the caller gets the values of the answers. -/
theorem C55_service_status_values (lm : Nat) (hlm : 2 ^ 31 - 1 ≤ lm) (w : World) (ho : LibraryOpen w)
    (old : ServiceStatus) (r1 r2 : RegReport) (h : Registered w r1 r2) (hps : r2.st = 1 ∨ r2.st = 5)
    {mode rat : Nat} {mcc mnc : Str} {l0 : List Str}
    (a3 : w.modem (w.sent ++ [regQuery .creg, regQuery .cgreg]) copsSelect = .lines l0)
    (a4 : w.modem (w.sent ++ [regQuery .creg, regQuery .cgreg, copsSelect]) copsQuery =
      .lines [copsAnswer mode mcc mnc rat])
    (bm : mode < 5) (br : rat < 10) (hmcc : mcc.length = 3)
    (hmnc : mnc.length = 2 ∨ mnc.length = 3) (hc1 : NoComma mcc) (hc2 : NoComma mnc)
    (hp : Plain (mcc ++ mnc)) :
    (getServiceStatus lm w (some old)).err = .success ∧
    (getServiceStatus lm w (some old)).world.sent =
      w.sent ++ [regQuery .creg, regQuery .cgreg, copsSelect, copsQuery] ∧
    ∃ s, (getServiceStatus lm w (some old)).out = some s ∧
      s.reg.cs = r1.st ∧ s.reg.ps = r2.st ∧ s.reg.rat = r2.act ∧
      (∀ a b, r1.rj = some (a, b) → r1.st = 3 → s.reg.csRejType = a ∧ s.reg.csRejCause = b) ∧
      s.mode = mode ∧ s.plmn = ⟨mcc, mnc⟩ ∧ s.format = 2 ∧ s.name = [] := by
  obtain ⟨o1, ⟨ev1, q1⟩, -, b1, -, -, -, -, c1⟩ :=
    queryNetworkStatus_answer lm hlm .creg w r1 h.w1 h.len1 h.a1
  obtain ⟨o2, ⟨ev2, q2⟩, e2, b2, -, -, d2, -, c2⟩ :=
    queryNetworkStatus_answer lm hlm .cgreg
      { w with sent := w.sent ++ [regQuery .creg], atData := o1.data, events := ev1 } r2 h.w2 h.len2 h.a2
  simp only [if_true, reduceCtorEq, if_false] at b1 b2 c1 c2
  have hrej := (C43_reject_only_when_denied lm w.regCb .cgreg
    (some (joinComma (regFields true .cgreg r2.n r2.st r2.hl r2.hc r2.act r2.hr r2.rj))) true o1.data).2.1 (by simp)
  simp only at e2
  rw [← e2] at hrej
  have hcops := updateMccMnc_answer lm hlm (l0 := l0)
    { w with sent := w.sent ++ [regQuery .creg] ++ [regQuery .cgreg], atData := o2.data, events := ev2 }
    (mode := mode) (rat := rat) (mcc := mcc) (mnc := mnc)
    (by unfold Answers; simpa using a3) (by unfold Answers; simpa using a4) bm br hmcc hmnc hc1 hc2 hp
  have q1' : queryNetworkStatus lm w (str "AT+CREG?") (str "+CREG") .creg = _ := q1
  have q2' := q2
  rw [show (regQuery RegType.cgreg).cmd = str "AT+CGREG?" from rfl,
    show (regQuery RegType.cgreg).pfx.getD [] = str "+CGREG" from rfl] at q2'
  have hreg : queryRegStatus lm w old.reg = (.success,
      { w with sent := w.sent ++ [regQuery .creg] ++ [regQuery .cgreg], atData := o2.data, events := ev2 },
      recordOf o2.data) := by
    unfold queryRegStatus
    simp only [q1', if_true, q2']
    have hnot : ¬ (o2.data.ps ≠ stHome ∧ o2.data.ps ≠ stRoaming) := by
      rw [b2.1]; unfold stHome stRoaming; omega
    simp only [hnot, and_false, if_false, if_true]
    rfl
  unfold getServiceStatus
  rw [checkLib_open ho]
  simp only [hreg, hcops]
  refine ⟨trivial, by simp, _, rfl, ?_⟩
  simp only [recordOf]
  refine ⟨b2.2.trans b1.1, b2.1, d2, ?_, trivial, trivial, trivial, trivial⟩
  intro a b hr hs
  have := c1 a b hr hs
  exact ⟨hrej.1.trans this.1, hrej.2.trans this.2⟩

/-- C55, if the modem is not registered for packet data in the circuit/packet core: the EPS
registration is queried as well, and the packet status and access technology are the ones it answers. -/
theorem C55_service_status_values_eps (lm : Nat) (hlm : 2 ^ 31 - 1 ≤ lm) (w : World) (ho : LibraryOpen w)
    (old : ServiceStatus) (r1 r2 r3 : RegReport) (h : Registered w r1 r2) (hps : r2.st ≠ 1 ∧ r2.st ≠ 5)
    (w3 : r3.WellFormed) (len3 : (regAnswer .cereg r3).length ≤ 256)
    (a3 : w.modem (w.sent ++ [regQuery .creg, regQuery .cgreg]) (regQuery .cereg) =
      .lines [regAnswer .cereg r3])
    {mode rat : Nat} {mcc mnc : Str} {l0 : List Str}
    (a4 : w.modem (w.sent ++ [regQuery .creg, regQuery .cgreg, regQuery .cereg]) copsSelect = .lines l0)
    (a5 : w.modem (w.sent ++ [regQuery .creg, regQuery .cgreg, regQuery .cereg, copsSelect]) copsQuery =
      .lines [copsAnswer mode mcc mnc rat])
    (bm : mode < 5) (br : rat < 10) (hmcc : mcc.length = 3)
    (hmnc : mnc.length = 2 ∨ mnc.length = 3) (hc1 : NoComma mcc) (hc2 : NoComma mnc)
    (hp : Plain (mcc ++ mnc)) :
    (getServiceStatus lm w (some old)).err = .success ∧
    (getServiceStatus lm w (some old)).world.sent =
      w.sent ++ [regQuery .creg, regQuery .cgreg, regQuery .cereg, copsSelect, copsQuery] ∧
    ∃ s, (getServiceStatus lm w (some old)).out = some s ∧
      s.reg.cs = r1.st ∧ s.reg.ps = r3.st ∧ s.reg.rat = r3.act ∧
      (∀ a b, r1.rj = some (a, b) → r1.st = 3 → s.reg.csRejType = a ∧ s.reg.csRejCause = b) ∧
      (∀ a b, r3.rj = some (a, b) → r3.st = 3 → s.reg.psRejType = a ∧ s.reg.psRejCause = b) ∧
      s.mode = mode ∧ s.plmn = ⟨mcc, mnc⟩ ∧ s.format = 2 ∧ s.name = [] := by
  obtain ⟨o1, ⟨ev1, q1⟩, -, b1, -, -, -, -, c1⟩ :=
    queryNetworkStatus_answer lm hlm .creg w r1 h.w1 h.len1 h.a1
  obtain ⟨o2, ⟨ev2, q2⟩, e2, b2, -, -, d2, -, c2⟩ :=
    queryNetworkStatus_answer lm hlm .cgreg
      { w with sent := w.sent ++ [regQuery .creg], atData := o1.data, events := ev1 } r2 h.w2 h.len2 h.a2
  obtain ⟨o3, ⟨ev3, q3⟩, e3, b3, -, -, d3, -, c3⟩ :=
    queryNetworkStatus_answer lm hlm .cereg
      { w with sent := w.sent ++ [regQuery .creg] ++ [regQuery .cgreg], atData := o2.data, events := ev2 }
      r3 w3 len3 (by unfold Answers; simpa using a3)
  simp only [if_true, reduceCtorEq, if_false] at b1 b2 b3 c1 c2 c3
  have hrej := (C43_reject_only_when_denied lm w.regCb .cgreg
    (some (joinComma (regFields true .cgreg r2.n r2.st r2.hl r2.hc r2.act r2.hr r2.rj))) true o1.data).2.1 (by simp)
  have hrej3 := (C43_reject_only_when_denied lm w.regCb .cereg
    (some (joinComma (regFields true .cereg r3.n r3.st r3.hl r3.hc r3.act r3.hr r3.rj))) true o2.data).2.1 (by simp)
  simp only at e2 e3
  rw [← e2] at hrej
  rw [← e3] at hrej3
  have hcops := updateMccMnc_answer lm hlm (l0 := l0)
    { w with
      sent := w.sent ++ [regQuery .creg] ++ [regQuery .cgreg] ++ [regQuery .cereg], atData := o3.data,
      events := ev3 }
    (mode := mode) (rat := rat) (mcc := mcc) (mnc := mnc)
    (by unfold Answers; simpa using a4) (by unfold Answers; simpa using a5) bm br hmcc hmnc hc1 hc2 hp
  have q1' : queryNetworkStatus lm w (str "AT+CREG?") (str "+CREG") .creg = _ := q1
  rw [show (regQuery RegType.cgreg).cmd = str "AT+CGREG?" from rfl,
    show (regQuery RegType.cgreg).pfx.getD [] = str "+CGREG" from rfl] at q2
  rw [show (regQuery RegType.cereg).cmd = str "AT+CEREG?" from rfl,
    show (regQuery RegType.cereg).pfx.getD [] = str "+CEREG" from rfl] at q3
  have hreg : queryRegStatus lm w old.reg = (.success,
      { w with
        sent := w.sent ++ [regQuery .creg] ++ [regQuery .cgreg] ++ [regQuery .cereg], atData := o3.data,
        events := ev3 },
      recordOf o3.data) := by
    unfold queryRegStatus
    simp only [q1', if_true, q2]
    have hyes : (o2.data.ps ≠ stHome ∧ o2.data.ps ≠ stRoaming) := by
      rw [b2.1]; unfold stHome stRoaming; omega
    simp only [if_pos (And.intro trivial hyes : True ∧ _)]
    simp only [ne_eq, hyes, not_false_eq_true, and_self, if_true, q3]
    rfl
  unfold getServiceStatus
  rw [checkLib_open ho]
  simp only [hreg, hcops]
  refine ⟨trivial, by simp, _, rfl, ?_⟩
  simp only [recordOf]
  refine ⟨b3.2.trans (b2.2.trans b1.1), b3.1, d3, ?_, c3, trivial, trivial, trivial, trivial⟩
  intro a b hr hs
  have := c1 a b hr hs
  exact ⟨hrej3.1.trans (hrej.1.trans this.1), hrej3.2.trans (hrej.2.trans this.2)⟩

/-- A report and a modem that meet the hypotheses of the two theorems above. -/
example : RegReport.WellFormed ⟨2, 1, 0xC3, 0x1A, 8, 1, str "C3", str "1A", str "1", none⟩ ∧
    regAnswer .creg ⟨2, 1, 0xC3, 0x1A, 8, 1, str "C3", str "1A", str "1", none⟩ =
      str "+CREG: 2,1,\"C3\",\"1A\",8" ∧
    copsAnswer 0 (str "310") (str "260") 8 = str "+COPS: 0,2,\"310260\",8" := by
  refine ⟨⟨?_, ?_, ?_, ?_, ?_, ?_, ?_, ?_, ?_⟩, ?_, ?_⟩
  · exact (Numeral.one (b := 67) (d := 12) (by decide) (by decide)).snoc (b := 51) (d := 3) (by decide) (by decide)
  · exact (Numeral.one (b := 49) (d := 1) (by decide) (by decide)).snoc (b := 65) (d := 10) (by decide) (by decide)
  · exact Numeral.one (b := 49) (d := 1) (by decide) (by decide)
  all_goals first | decide +kernel | simp

/-! ## Single queries -/

/-- C56 for the API: the clock is queried with `AT+CCLK?`; for every well formed answer the caller
gets exactly the time of the answer. -/
theorem C56_network_time_query (lm : Nat) (hlm : 2 ^ 31 - 1 ≤ lm) (w : World) (ho : LibraryOpen w)
    {y mo d h mi s z : Str} {vy vmo vd vh vmi vs vz : Nat}
    (hy : Numeral 10 y vy) (hmo : Numeral 10 mo vmo) (hd : Numeral 10 d vd) (hh : Numeral 10 h vh)
    (hmi : Numeral 10 mi vmi) (hs : Numeral 10 s vs) (hz : Numeral 10 z vz)
    (by' : vy ≤ 65535) (bmo : vmo ≤ 255) (bd : vd ≤ 255) (bh : vh ≤ 255) (bmi : vmi ≤ 255)
    (bs : vs ≤ 255) (bz : vz < 2 ^ 31) (neg : Bool) (body : Str) (rest : List Str) (old : Time)
    (hl : (str "+CCLK" ++ 58 :: body).length ≤ 256)
    (hbody : body.filter (fun b => !decide (White b)) = quoted (clockText y mo d h mi s neg z))
    (ha : w.modem w.sent ⟨str "AT+CCLK?", .withPrefix, some (str "+CCLK")⟩ =
      .lines ((str "+CCLK" ++ 58 :: body) :: rest)) :
    (getNetworkTime lm w (some old)).err = .success ∧
    (getNetworkTime lm w (some old)).out = some
      { month := vmo, day := vd, hour := vh, minute := vmi, second := vs, year := vy,
        timeZone := if neg then -(vz : Int) else vz } ∧
    (getNetworkTime lm w (some old)).world.sent =
      w.sent ++ [⟨str "AT+CCLK?", .withPrefix, some (str "+CCLK")⟩] := by
  have hrec := C56_time_decoded lm hlm hy hmo hd hh hmi hs hz by' bmo bd bh bmi bs bz neg (str "+CCLK") body
    rest old (by decide) hl hbody
  unfold getNetworkTime
  rw [checkLib_open ho]
  simp only [request_answer (r := ⟨str "AT+CCLK?", .withPrefix, some (str "+CCLK")⟩) (by decide) ha, hrec]
  exact ⟨rfl, trivial, trivial⟩

/-- C56: if the modem does not answer, the caller's time is untouched and the call does not succeed. -/
theorem C56_no_answer (lm : Nat) (w : World) (old : Time) (ho : LibraryOpen w)
    (ha : ∀ l, w.modem w.sent ⟨str "AT+CCLK?", .withPrefix, some (str "+CCLK")⟩ ≠ .lines l) :
    (getNetworkTime lm w (some old)).err ≠ .success ∧ (getNetworkTime lm w (some old)).out = some old := by
  unfold getNetworkTime
  rw [checkLib_open ho]
  unfold request
  simp only [show ¬ (str "AT+CCLK?").length > cmdMax by decide, if_false]
  cases hm : w.modem w.sent ⟨str "AT+CCLK?", .withPrefix, some (str "+CCLK")⟩ with
  | lines l => exact absurd hm (ha l)
  | sendFailed => simp [translatePkt]
  | timeout => simp [translatePkt]
  | error => simp [translatePkt]

/-- C51 for the API: `AT+CPIN?` is sent, and the SIM is reported ready exactly if the answer says
`READY`. -/
theorem C51_sim_query_partial (w : World) (ho : LibraryOpen w) (old : SimLock) (body : Str) (rest : List Str)
    (hl : (str "+CPIN" ++ 58 :: body).length ≤ 256) (tok tail : Str) (hc : NoComma tok)
    (hb : noWhite body = tok ∧ tok ≠ [] ∨ noWhite body = tok ++ 44 :: tail)
    (ha : w.modem w.sent ⟨str "AT+CPIN?", .withPrefix, some (str "+CPIN")⟩ =
      .lines ((str "+CPIN" ++ 58 :: body) :: rest)) :
    (getSimCardLockStatus w (some old)).err = .success ∧
    ((getSimCardLockStatus w (some old)).out = some .ready ↔ tok = str "READY") ∧
    (getSimCardLockStatus w (some old)).world.sent =
      w.sent ++ [⟨str "AT+CPIN?", .withPrefix, some (str "+CPIN")⟩] := by
  obtain ⟨st, hrec, hiff⟩ := C51_sim_ready_partial (str "+CPIN") body rest .unknown (by decide) hl tok tail hc hb
  unfold getSimCardLockStatus
  rw [checkLib_open ho]
  simp only [request_answer (r := ⟨str "AT+CPIN?", .withPrefix, some (str "+CPIN")⟩) (by decide) ha, hrec]
  exact ⟨rfl, by simpa using hiff, trivial⟩

/-- C47 for the API: `AT+CPSMS?` is sent, and for an answer with all five fields the caller gets the
mode and the four periods in seconds. -/
theorem C47_psm_query_partial (lm : Nat) (hlm : 2 ^ 31 - 1 ≤ lm) (w : World) (ho : LibraryOpen w) (old : Psm)
    {t0 t1 t2 t3 t4 : Str} {v0 v1 v2 v3 v4 s1 s2 s3 s4 : Nat}
    (h0 : Padded 2 t0 v0) (h1 : Padded 2 t1 v1) (h2 : Padded 2 t2 v2) (h3 : Padded 2 t3 v3)
    (h4 : Padded 2 t4 v4) (b0 : v0 < 256) (b1 : v1 < 256) (b2 : v2 < 256) (b3 : v3 < 256) (b4 : v4 < 256)
    (d1 : timerSeconds unitT3412 v1 = some s1) (d2 : timerSeconds unitT3324 v2 = some s2)
    (d3 : timerSeconds unitT3412 v3 = some s3) (d4 : timerSeconds unitT3324 v4 = some s4)
    (body : Str) (rest : List Str) (hl : (str "+CPSMS" ++ 58 :: body).length ≤ 256)
    (hb : noQuote body = joinComma [t0, t1, t2, t3, t4])
    (ha : w.modem w.sent ⟨str "AT+CPSMS?", .withPrefix, some (str "+CPSMS")⟩ =
      .lines ((str "+CPSMS" ++ 58 :: body) :: rest)) :
    (getPsmSettings lm w (some old)).err = .success ∧
    (getPsmSettings lm w (some old)).out = some ⟨v0, s1, s2, s3, s4⟩ ∧
    (getPsmSettings lm w (some old)).world.sent =
      w.sent ++ [⟨str "AT+CPSMS?", .withPrefix, some (str "+CPSMS")⟩] := by
  have hrec := C47_psm_decoded_partial lm hlm h0 h1 h2 h3 h4 b0 b1 b2 b3 b4 d1 d2 d3 d4 (str "+CPSMS") body rest
    ⟨0xFF, 0, 0, 0, 0⟩ (by decide) hl hb
  unfold getPsmSettings
  rw [checkLib_open ho]
  simp only [request_answer (r := ⟨str "AT+CPSMS?", .withPrefix, some (str "+CPSMS")⟩) (by decide) ha, hrec]
  exact ⟨rfl, trivial, trivial⟩

/-- C48 for the API: `AT+CEDRXS?` is sent, and for an answer of at most four lines the caller gets
the settings of these lines. -/
theorem C48_edrx_query_partial (lm : Nat) (hlm : 2 ^ 31 - 1 ≤ lm) (w : World) (ho : LibraryOpen w)
    (old : EdrxList) {ls : List Str} {es : List (Nat × Nat)} (h : EdrxLines ls es) (hne : ls ≠ [])
    (h4 : es.length ≤ 4)
    (ha : w.modem w.sent ⟨str "AT+CEDRXS?", .multiWithPrefix, some (str "+CEDRXS")⟩ = .lines ls) :
    ∃ r, getEidrxSettings lm w (some old) = some r ∧ r.err = .success ∧
      r.out = some ⟨es.map (fun e => ⟨e.1, e.2⟩) ++ List.replicate (4 - es.length) ⟨0, 0⟩, es.length⟩ ∧
      r.world.sent = w.sent ++ [⟨str "AT+CEDRXS?", .multiWithPrefix, some (str "+CEDRXS")⟩] := by
  have hrec := C48_edrx_decoded_partial lm hlm h hne h4
  unfold getEidrxSettings requestCb
  rw [checkLib_open ho]
  simp only [request_answer (r := ⟨str "AT+CEDRXS?", .multiWithPrefix, some (str "+CEDRXS")⟩) (by decide) ha, hrec]
  exact ⟨_, rfl, rfl, rfl, rfl⟩

theorem copsNum_blank (lm : Nat) (max : Int) (store : Nat → OpInfo → OpInfo) (o : OpInfo) :
    copsNum lm [] max store o = (true, o) := by
  have : strtoi lm (some []) 10 = (.error, none) := rfl
  simp [copsNum, this]

/-- The field is a number below `max`, or the modem leaves it blank and the value is the one there was. -/
def MaybeNumber (tok : Str) (max v old : Nat) : Prop := (Numeral 10 tok v ∧ v < max) ∨ (tok = [] ∧ v = old)

theorem copsNum_maybe {lm : Nat} (hlm : 2 ^ 31 - 1 ≤ lm) {tok : Str} {max v old : Nat} (h : MaybeNumber tok max v old)
    (hmax : max ≤ 10) (store : Nat → OpInfo → OpInfo) (o : OpInfo) (hold : store old o = o) :
    copsNum lm tok (max : Int) store o = (true, store v o) := by
  rcases h with ⟨h1, h2⟩ | ⟨rfl, rfl⟩
  · exact copsNum_numeral hlm h1 max (by omega) h2 store o
  · rw [copsNum_blank, hold]

theorem maybe_noComma {tok : Str} {max v old : Nat} (h : MaybeNumber tok max v old) : NoComma tok := by
  rcases h with ⟨h1, _⟩ | ⟨rfl, _⟩
  · exact numeral_noComma h1
  · simp [NoComma]

/-- C53: mode and format may be left blank by the modem: the answer is accepted, the members keep the value they
had (0 after `memset`, which means automatic mode and the long name), and the other fields are reported. -/
theorem C53_blank_fields (lm : Nat) (hlm : 2 ^ 31 - 1 ≤ lm) {tm tf tr : Str} {mode fmt rat : Nat} (o : OpInfo)
    (hm : MaybeNumber tm 5 mode o.mode) (hf : MaybeNumber tf 10 fmt o.format) (hr : Numeral 10 tr rat) (br : rat < 10)
    (op : Str) (hcc : NoComma op) (pre body : Str) (rest : List Str) (hpre : (58 : Byte) ∉ pre)
    (hl : (pre ++ 58 :: body).length ≤ 256)
    (hb : noWhite (noQuote body) = joinComma [tm, tf, op, tr]) :
    ((fmt = 0 ∨ fmt = 1) → recvCops lm ((pre ++ 58 :: body) :: rest) o =
      (.ok, { o with name := op.take 32, rat := rat, mode := mode, format := fmt })) ∧
    (fmt = 2 → op.length = 5 ∨ op.length = 6 → recvCops lm ((pre ++ 58 :: body) :: rest) o =
      (.ok, { o with mcc := op.take 3, mnc := op.drop 3, rat := rat, mode := mode, format := fmt })) := by
  have hbl : body.length ≤ 256 := by
    simp only [List.length_append, List.length_cons] at hl; omega
  have hqne : noQuote body ≠ [] := by
    intro e; rw [e] at hb; simp [noWhite, joinComma] at hb
  have hne : body ≠ [] := ne_nil_of_filter hqne
  have hq := noQuote_len body
  have hw := noWhite_len (noQuote body)
  have key : ∀ o2, copsName op { { o with mode := mode } with format := fmt } = (true, o2) →
      recvCops lm ((pre ++ 58 :: body) :: rest) o = (.ok, { o2 with rat := rat }) := by
    intro o2 ho2
    suffices hline : copsLine lm (pre ++ 58 :: body) o = (.success, { o2 with rat := rat }) by
      unfold recvCops
      simp only [hline]
      simp
    unfold copsLine
    rw [removePrefix_eq hpre hl]
    simp only
    rw [removeAllDoubleQuote_eq hne hbl]
    simp only
    rw [removeAllWhiteSpaces_eq hqne (by omega), hb]
    rw [hb] at hw
    simp only [joinComma, List.length_append, List.length_cons] at hw
    simp only [joinComma]
    unfold parseCops
    rw [getNextTok_eq (maybe_noComma hm) (by simp only [List.length_append, List.length_cons]; omega)]
    simp only
    rw [show (5 : Int) = ((5 : Nat) : Int) from rfl, show (10 : Int) = ((10 : Nat) : Int) from rfl,
      copsNum_maybe hlm hm (by omega) _ _ rfl]
    simp only
    rw [getNextTok_eq (maybe_noComma hf) (by simp only [List.length_append, List.length_cons]; omega)]
    simp only
    rw [copsNum_maybe hlm hf (by omega) _ _ rfl]
    simp only
    rw [getNextTok_eq hcc (by simp only [List.length_append, List.length_cons]; omega)]
    simp only
    rw [ho2]
    simp only
    rw [getNextTok_last (numeral_ne_nil hr) (numeral_noComma hr) (by omega)]
    simp only
    rw [copsNum_numeral hlm hr ratMax (by decide) br]
  constructor
  · intro hfm
    refine key { o with mode := mode, format := fmt, name := op.take 32 } ?_
    unfold copsName
    rw [if_pos (by simpa using hfm)]
    rfl
  · intro hfm hlen
    refine key { o with mode := mode, format := fmt, mcc := op.take 3, mnc := op.drop 3 } ?_
    unfold copsName
    subst hfm
    rw [if_neg (by simp), if_pos (by simp), if_pos (by omega)]

example : recvCops (2 ^ 31 - 1) [str "+COPS: ,,\"Operator\",7"] OpInfo.zero =
    (.ok, ⟨[], [], 7, 0, 0, str "Operator"⟩) := by decide +kernel

end Cellular.Props
