import Verif.ApiExact
import Verif.RegExact
import Verif.ApiEnd
/-!
# The exact law of the service status query (C55)

What `GetServiceStatus` makes of every sequence of answers: the commands it sends, the registration record, the callbacks made and the
caller's object.
-/

namespace Cellular.Spec
open Cellular Api

/-- The first comma of the line is not followed by a quote: the line is taken for an answer, otherwise for a report. -/
def AnswerShape (line : Str) : Prop := ∃ pre post : Str, line = pre ++ 44 :: post ∧ (44 : Byte) ∉ pre ∧ post.head? ≠ some 34

/-- The values of a line of a registration answer; `none`: not readable.  Of a report, what follows the first colon is read; of an
answer, the whole line, so that prefix and report mode are the first field. -/
inductive RegLineMeans (lm : Nat) (t : Reg.RegType) : Str → Option (List (Meaning × Option Nat)) → Prop
  | answer {line : Str} {vs} : AnswerShape line → line.length ≤ 256 →
      RegValues lm (meanings false t) (Props.reportedFields (bareText line)) vs → RegLineMeans lm t line (some vs)
  | report {pre body : Str} {vs} : ¬ AnswerShape (pre ++ 58 :: body) → (58 : Byte) ∉ pre → (pre ++ 58 :: body).length ≤ 256 →
      (∃ b ∈ body, ¬ White b ∧ b ≠ 34) → RegValues lm (meanings true t) (Props.reportedFields (bareText body)) vs →
      RegLineMeans lm t (pre ++ 58 :: body) (some vs)
  | long {line : Str} : 256 < line.length → RegLineMeans lm t line none
  | noColon {line : Str} : line.length ≤ 256 → ¬ AnswerShape line → (58 : Byte) ∉ line → RegLineMeans lm t line none
  | noText {pre body : Str} : ¬ AnswerShape (pre ++ 58 :: body) → (58 : Byte) ∉ pre → (pre ++ 58 :: body).length ≤ 256 →
      (∀ b ∈ body, White b ∨ b = 34) → RegLineMeans lm t (pre ++ 58 :: body) none

/-- A line is good if it is readable and all its fields are legal. -/
def goodLine (m : Option (List (Meaning × Option Nat))) : Bool :=
  match m with
  | none => false
  | some vs => vs.all (fun v => v.2.isSome)

/-- The record after a line. -/
def lineRecord (t : Reg.RegType) (m : Option (List (Meaning × Option Nat))) (d : Reg.AtData) : Reg.AtData :=
  match m with
  | none => d
  | some vs => regRecord t (taken vs) d

/-- What a registration event or a service status says of the record. -/
def partOf (d : Reg.AtData) : RegPart :=
  ⟨d.rat, d.cs, d.ps, d.csRejCause, d.csRejType, d.psRejCause, d.psRejType⟩

/-- The callback for a change from `d` to `d'`: made if the status of the domain changed. -/
def changeEvent (cb : Bool) (t : Reg.RegType) (d d' : Reg.AtData) : List Reg.RegEvent :=
  if cb = true ∧ (if t = .creg then d'.cs ≠ d.cs else d'.ps ≠ d.ps) then
    [{ csDomain := decide (t = .creg)
       info := ⟨d'.rat, d'.cs, d'.ps, d'.csRejCause, d'.csRejType, d'.psRejCause, d'.psRejType⟩ }]
  else []

/-- The lines one after the other, up to and including the first that is not good: the record and the callbacks made. -/
def regLines (cb : Bool) (t : Reg.RegType) : List (Option (List (Meaning × Option Nat))) → Reg.AtData →
    Reg.AtData × List Reg.RegEvent
  | [], d => (d, [])
  | m :: ms, d =>
    let d' := lineRecord t m d
    if goodLine m then
      ((regLines cb t ms d').1, changeEvent cb t d d' ++ (regLines cb t ms d').2)
    else (d', changeEvent cb t d d')

/-- What the modem's reply to a registration query means: its lines, and whether the query succeeds. -/
inductive RegReplyMeans (lm : Nat) (t : Reg.RegType) : Reply → List (Option (List (Meaning × Option Nat))) → Bool → Prop
  | nothing {r : Reply} : (∀ l, r = .lines l → l = []) → RegReplyMeans lm t r [] false
  | lines {l ms} : l ≠ [] → List.Forall₂ (RegLineMeans lm t) l ms → RegReplyMeans lm t (.lines l) ms (ms.all goodLine)

/-- The operator record read from the replies to `AT+COPS=3,2` and `AT+COPS?`, and whether the second command is sent. -/
inductive CopsMeans (lm : Nat) : Reply → Reply → Bool → OpInfo → Prop
  | notSelected {r1 r2 : Reply} : (∀ l, r1 ≠ .lines l) → CopsMeans lm r1 r2 false OpInfo.zero
  | nothing {l1 : List Str} {r2 : Reply} : (∀ l, r2 = .lines l → l = []) → CopsMeans lm (.lines l1) r2 true OpInfo.zero
  | unreadable {l1 more : List Str} {line : Str} : 256 < line.length ∨ (58 : Byte) ∉ line →
      CopsMeans lm (.lines l1) (.lines (line :: more)) true OpInfo.zero
  | line {l1 more : List Str} {pre body : Str} {fs : List (Str × Option Int)} : (58 : Byte) ∉ pre →
      (pre ++ 58 :: body).length ≤ 256 → Numbered 10 fs → fs.map Prod.fst = Props.reportedFields (bareText body) →
      CopsMeans lm (.lines l1) (.lines ((pre ++ 58 :: body) :: more)) true (copsResult lm 0 fs OpInfo.zero).1

/-- The commands of the service status query. -/
def cregQ : Req := ⟨str "AT+CREG?", .multiWithPrefix, some (str "+CREG")⟩
def cgregQ : Req := ⟨str "AT+CGREG?", .multiWithPrefix, some (str "+CGREG")⟩
def ceregQ : Req := ⟨str "AT+CEREG?", .multiWithPrefix, some (str "+CEREG")⟩

/-- The registration part: commands sent, record, callbacks and success.  If the first query fails, that is all; otherwise the GPRS
query is made, its failure does not count; if the packet domain is then not registered (1: home, 5: roaming), the EPS query decides. -/
inductive RegPhase (lm : Nat) (modem : List Req → Req → Reply) (sent : List Req) (cb : Bool) (d : Reg.AtData) :
    List Req → Reg.AtData → List Reg.RegEvent → Bool → Prop
  | fails {ms} : RegReplyMeans lm .creg (modem sent cregQ) ms false →
      RegPhase lm modem sent cb d [cregQ] (regLines cb .creg ms d).1 (regLines cb .creg ms d).2 false
  | packet {m1 m2 ok d1 e1 d2 e2} : RegReplyMeans lm .creg (modem sent cregQ) m1 true → regLines cb .creg m1 d = (d1, e1) →
      RegReplyMeans lm .cgreg (modem (sent ++ [cregQ]) cgregQ) m2 ok → regLines cb .cgreg m2 d1 = (d2, e2) →
      (d2.ps = 1 ∨ d2.ps = 5) → RegPhase lm modem sent cb d [cregQ, cgregQ] d2 (e1 ++ e2) true
  | eps {m1 m2 m3 ok ok3 d1 e1 d2 e2 d3 e3} : RegReplyMeans lm .creg (modem sent cregQ) m1 true → regLines cb .creg m1 d = (d1, e1) →
      RegReplyMeans lm .cgreg (modem (sent ++ [cregQ]) cgregQ) m2 ok → regLines cb .cgreg m2 d1 = (d2, e2) →
      ¬ (d2.ps = 1 ∨ d2.ps = 5) →
      RegReplyMeans lm .cereg (modem (sent ++ [cregQ, cgregQ]) ceregQ) m3 ok3 → regLines cb .cereg m3 d2 = (d3, e3) →
      RegPhase lm modem sent cb d [cregQ, cgregQ, ceregQ] d3 (e1 ++ e2 ++ e3) ok3

end Cellular.Spec

namespace Cellular.Props
open Cellular Spec Api Reg Signal Tok RegLemmas
open Cellular.AtCore (strtoi AtErr)
open Cellular.AtStr

/-! ## Lines -/

theorem first_byte {line : Str} {c : Byte} (h : c ∈ line) : ∃ pre body : Str, line = pre ++ c :: body ∧ c ∉ pre := by
  induction line with
  | nil => cases h
  | cons a t ih =>
    by_cases ha : a = c
    · exact ⟨[], t, by rw [ha]; rfl, by simp⟩
    · have : c ∈ t := by
        rcases List.mem_cons.mp h with h | h
        · exact absurd h.symm ha
        · exact h
      obtain ⟨pre, body, rfl, hp⟩ := ih this
      refine ⟨a :: pre, body, rfl, ?_⟩
      intro hm
      rcases List.mem_cons.mp hm with h | h
      · exact ha h.symm
      · exact hp h

theorem dropWhile_to {pre post : Str} {c : Byte} (h : c ∉ pre) : (pre ++ c :: post).dropWhile (fun b => b != c) = c :: post := by
  induction pre with
  | nil => simp
  | cons a t ih =>
    have ha : a ≠ c := fun e => h (by rw [e]; simp)
    have ht : c ∉ t := fun e => h (List.mem_cons_of_mem _ e)
    simp [List.dropWhile_cons, ha, ih ht]

theorem isUrc_iff (line : Str) : regResponseIsUrc line = false ↔ AnswerShape line := by
  unfold regResponseIsUrc strstr1
  by_cases h : (44 : Byte) ∈ line
  · obtain ⟨pre, post, rfl, hp⟩ := first_byte h
    rw [if_pos (by simp), dropWhile_to hp]
    simp only [List.getElem?_cons_succ]
    constructor
    · intro e
      refine ⟨pre, post, rfl, hp, fun hq => ?_⟩
      cases post with
      | nil => cases hq
      | cons a t => simp only [List.head?_cons, Option.some.injEq] at hq; subst hq; simp at e
    · rintro ⟨pre', post', e, hp', hq⟩
      have : post = post' := by
        have h1 := dropWhile_to (post := post) hp
        rw [e, dropWhile_to hp'] at h1
        simpa using h1.symm
      subst this
      cases post with
      | nil => rfl
      | cons a t => simp only [List.head?_cons, ne_eq, Option.some.injEq] at hq; simp [hq]
  · rw [if_neg (by simpa using h)]
    simp only [Bool.true_eq_false, false_iff]
    rintro ⟨pre, post, rfl, _⟩
    exact h (by simp)

theorem removePrefix_bad {line : Str} (h : 256 < line.length ∨ (58 : Byte) ∉ line) : ∃ x, removePrefix line = (.badParameter, x) := by
  unfold removePrefix
  split
  · rename_i hv
    have := valid_len hv
    rw [if_neg]
    · exact ⟨_, rfl⟩
    · rcases h with h | h
      · omega
      · simpa using h
  · exact ⟨_, rfl⟩

/-- What the code does with one line. -/
def regLine (lm : Nat) (cb : Bool) (t : RegType) (line : Str) (d : AtData) : Out :=
  if regResponseIsUrc line then
    match removePrefix line with
    | (.success, s) => parseRegStatus lm cb s true t d
    | (e, _) => ⟨translateAt e, d, []⟩
  else parseRegStatus lm cb (some line) false t d

theorem regLine_exact (lm : Nat) (cb : Bool) (t : RegType) {line : Str} {m : Option (List (Meaning × Option Nat))}
    (h : RegLineMeans lm t line m) (d : AtData) :
    (regLine lm cb t line d).data = lineRecord t m d ∧
    (regLine lm cb t line d).events = changeEvent cb t d (lineRecord t m d) ∧
    ((regLine lm cb t line d).status = .ok ↔ goodLine m = true) := by
  have same : changeEvent cb t d d = [] := by unfold changeEvent; split <;> simp_all
  have ok : ∀ b : Bool, ((if b then PktStatus.ok else .failure) = .ok ↔ b = true) := by decide
  unfold regLine
  cases h with
  | @answer _ vs ha hl hv =>
    rw [if_neg (by simp [(isUrc_iff line).mpr ha])]
    have hne : ∃ b ∈ line, ¬ White b ∧ b ≠ 34 := by
      obtain ⟨pre, post, rfl, _⟩ := ha
      exact ⟨44, by simp, by simp [White], by decide⟩
    have := C44_exact lm cb false t line d vs hl hne hv
    simp only at this
    rw [this]
    exact ⟨rfl, rfl, ok _⟩
  | @report pre body vs ha hp hl hne hv =>
    have hu : regResponseIsUrc (pre ++ 58 :: body) = true := by
      rcases Bool.eq_false_or_eq_true (regResponseIsUrc (pre ++ 58 :: body)) with h | h
      · exact h
      · exact absurd ((isUrc_iff _).mp h) ha
    rw [if_pos hu, removePrefix_eq hp hl]
    have hbl : body.length ≤ 256 := by
      simp only [List.length_append, List.length_cons] at hl; omega
    have := C44_exact lm cb true t body d vs hbl hne hv
    simp only at this ⊢
    rw [this]
    exact ⟨rfl, rfl, ok _⟩
  | long hl =>
    cases hu : regResponseIsUrc line with
    | true =>
      obtain ⟨x, hx⟩ := removePrefix_bad (Or.inl hl)
      simp [hx, lineRecord, same, goodLine, translateAt]
    | false =>
      obtain ⟨h1, h2, h3⟩ := C44_refused_text lm cb false t line d (Or.inl hl)
      simp only [Bool.false_eq_true, if_false, lineRecord, same, goodLine, iff_false]
      exact ⟨h1, h2, h3⟩
  | noColon _ ha hc =>
    have hu : regResponseIsUrc line = true := by
      rcases Bool.eq_false_or_eq_true (regResponseIsUrc line) with h | h
      · exact h
      · exact absurd ((isUrc_iff _).mp h) ha
    obtain ⟨x, hx⟩ := removePrefix_bad (Or.inr hc)
    simp [hu, hx, lineRecord, same, goodLine, translateAt]
  | @noText pre body ha hp hl hw =>
    have hu : regResponseIsUrc (pre ++ 58 :: body) = true := by
      rcases Bool.eq_false_or_eq_true (regResponseIsUrc (pre ++ 58 :: body)) with h | h
      · exact h
      · exact absurd ((isUrc_iff _).mp h) ha
    rw [if_pos hu, removePrefix_eq hp hl]
    obtain ⟨h1, h2, h3⟩ := C44_refused_text lm cb true t body d (Or.inr hw)
    simp only [lineRecord, same, goodLine, Bool.false_eq_true, iff_false]
    exact ⟨h1, h2, h3⟩

/-- Every line of a registration answer has exactly one meaning. -/
theorem C55_meaning (lm : Nat) (t : RegType) (line : Str) : ∃ m, RegLineMeans lm t line m ∧ ∀ m', RegLineMeans lm t line m' → m' = m := by
  by_cases hl : line.length ≤ 256
  swap
  · refine ⟨none, .long (by omega), fun m' h => ?_⟩
    cases h <;> first | rfl | omega
  by_cases ha : AnswerShape line
  · obtain ⟨vs, hv, hu⟩ := C44_values lm (meanings false t) (reportedFields (bareText line))
    refine ⟨_, .answer ha hl hv, fun m' h => ?_⟩
    cases h with
    | answer _ _ hv' => rw [hu _ hv']
    | report h | noText h | noColon _ h => contradiction
    | long h => omega
  by_cases hc : (58 : Byte) ∈ line
  swap
  · refine ⟨none, .noColon hl ha hc, fun m' h => ?_⟩
    cases h <;> first | rfl | contradiction | (exfalso; exact hc (by simp))
  obtain ⟨pre, body, rfl, hpre⟩ := first_colon hc
  by_cases hw : ∀ b ∈ body, White b ∨ b = 34
  · refine ⟨none, .noText ha hpre hl hw, fun m' h => ?_⟩
    generalize hL : pre ++ 58 :: body = L at h
    cases h with
    | answer h => rw [hL] at ha; contradiction
    | report _ hp _ hne =>
      obtain ⟨rfl, rfl⟩ := colon_unique hpre hp hL
      obtain ⟨b, hb, h1, h2⟩ := hne
      rcases hw b hb with e | e <;> contradiction
    | long | noText | noColon => rfl
  · have hne : ∃ b ∈ body, ¬ White b ∧ b ≠ 34 := by
      refine Classical.byContradiction (fun hn => hw (fun b hb => ?_))
      by_cases h1 : White b
      · exact Or.inl h1
      · by_cases h2 : b = 34
        · exact Or.inr h2
        · exact absurd ⟨b, hb, h1, h2⟩ hn
    obtain ⟨vs, hv, hu⟩ := C44_values lm (meanings true t) (reportedFields (bareText body))
    refine ⟨_, .report ha hpre hl hne hv, fun m' h => ?_⟩
    generalize hL : pre ++ 58 :: body = L at h
    cases h with
    | answer h => rw [hL] at ha; contradiction
    | report _ hp _ _ hv' =>
      obtain ⟨rfl, rfl⟩ := colon_unique hpre hp hL
      rw [hu _ hv']
    | long h => rw [← hL] at h; omega
    | noColon _ _ h => rw [← hL] at h; contradiction
    | noText _ hp _ h =>
      obtain ⟨rfl, rfl⟩ := colon_unique hpre hp hL; contradiction

theorem recvRegLoop_exact (lm : Nat) (cb : Bool) (t : RegType) {ls : List Str} {ms : List (Option (List (Meaning × Option Nat)))}
    (h : List.Forall₂ (RegLineMeans lm t) ls ms) : ∀ d, (recvRegLoop lm cb t ls d).2 = regLines cb t ms d ∧
      ((recvRegLoop lm cb t ls d).1 = .ok ↔ ms.all goodLine = true) := by
  induction h with
  | nil => intro d; simp [recvRegLoop, regLines]
  | @cons line m ls ms hm _ ih =>
    intro d
    obtain ⟨h1, h2, h3⟩ := regLine_exact lm cb t hm d
    obtain ⟨i1, i2⟩ := ih (lineRecord t m d)
    have e : recvRegLoop lm cb t (line :: ls) d =
        if (regLine lm cb t line d).status = .ok then ((recvRegLoop lm cb t ls (regLine lm cb t line d).data).1,
            (recvRegLoop lm cb t ls (regLine lm cb t line d).data).2.1,
            (regLine lm cb t line d).events ++ (recvRegLoop lm cb t ls (regLine lm cb t line d).data).2.2)
        else ((regLine lm cb t line d).status, (regLine lm cb t line d).data, (regLine lm cb t line d).events) := by
      rw [recvRegLoop]
      change (match (regLine lm cb t line d).status with
        | .ok => _
        | e => _) = _
      generalize (regLine lm cb t line d).status = s
      cases s <;> rfl
    rw [e, h1, h2]
    simp only [regLines, List.all_cons]
    by_cases hg : goodLine m = true
    · rw [h3.mpr hg, if_pos hg, hg]
      simp only [if_true, i1, Bool.true_and]
      exact ⟨trivial, i2⟩
    · have hb : goodLine m = false := by simpa using hg
      have hs : (regLine lm cb t line d).status ≠ .ok := fun e => hg (h3.mp e)
      rw [if_neg hg, if_neg hs, hb]
      simp [hs]

/-! ## Queries -/

theorem request_reply (w : World) (r : Req) (hlen : r.cmd.length ≤ cmdMax) :
    (request w r).2 = { w with sent := w.sent ++ [r] } ∧
    (∀ l, w.modem w.sent r = .lines l → (request w r).1 = .ok l) ∧
    ((∀ l, w.modem w.sent r ≠ .lines l) → ∃ e, (request w r).1 = .error e ∧ e ≠ .ok) := by
  unfold request
  rw [if_neg (by omega)]
  cases hm : w.modem w.sent r <;> simp

/-- C55: one registration query, for every reply. -/
theorem C55_query_exact (lm : Nat) (t : RegType) (w : World) (cmd pfx : Str) (hlen : cmd.length ≤ cmdMax)
    {ms : List (Option (List (Meaning × Option Nat)))} {ok : Bool}
    (h : RegReplyMeans lm t (w.modem w.sent ⟨cmd, .multiWithPrefix, some pfx⟩) ms ok) :
    (queryNetworkStatus lm w cmd pfx t).2 =
      { w with sent := w.sent ++ [⟨cmd, .multiWithPrefix, some pfx⟩],
               atData := (regLines w.regCb t ms w.atData).1,
               events := w.events ++ (regLines w.regCb t ms w.atData).2 } ∧
    ((queryNetworkStatus lm w cmd pfx t).1 = .success ↔ ok = true) := by
  obtain ⟨h1, h2, h3⟩ := request_reply w ⟨cmd, .multiWithPrefix, some pfx⟩ hlen
  generalize hr : w.modem w.sent ⟨cmd, .multiWithPrefix, some pfx⟩ = rep at h h2 h3
  unfold queryNetworkStatus
  generalize hq : request w ⟨cmd, .multiWithPrefix, some pfx⟩ = q at h1 h2 h3
  obtain ⟨q1, q2⟩ := q
  simp only at h1 h2 h3
  subst h1
  cases h with
  | nothing hn =>
    by_cases hl : ∃ l, rep = .lines l
    · obtain ⟨l, rfl⟩ := hl
      have := hn l rfl
      subst this
      rw [h2 _ rfl]
      simp [recvNetworkReg, regLines, translatePkt]
    · obtain ⟨e, he, hne⟩ := h3 (fun l hl' => hl ⟨l, hl'⟩)
      rw [he]
      simp only [regLines, List.append_nil, Bool.false_eq_true, iff_false, true_and]
      exact fun hs => hne ((translatePkt_success _).mp hs)
  | @lines l ms hne hf =>
    rw [h2 _ rfl]
    obtain ⟨i1, i2⟩ := recvRegLoop_exact lm w.regCb t hf w.atData
    have e : recvNetworkReg lm w.regCb t l w.atData = recvRegLoop lm w.regCb t l w.atData := by
      cases l with
      | nil => exact absurd rfl hne
      | cons => rfl
    simp only [e, i1, translatePkt_success, i2, true_and, and_self]

/-- Every reply means something. -/
theorem C55_reply_meaning (lm : Nat) (t : RegType) (r : Reply) : ∃ ms ok, RegReplyMeans lm t r ms ok := by
  by_cases h : ∃ l, r = .lines l ∧ l ≠ []
  · obtain ⟨l, rfl, hne⟩ := h
    have : ∃ ms, List.Forall₂ (RegLineMeans lm t) l ms := by
      clear hne
      induction l with
      | nil => exact ⟨[], .nil⟩
      | cons a l ih =>
        obtain ⟨ms, h⟩ := ih
        obtain ⟨m, hm, _⟩ := C55_meaning lm t a
        exact ⟨m :: ms, .cons hm h⟩
    obtain ⟨ms, hm⟩ := this
    exact ⟨ms, _, .lines hne hm⟩
  · refine ⟨[], false, .nothing (fun l hl => ?_)⟩
    refine Classical.byContradiction (fun hne => h ⟨l, hl, hne⟩)

/-! ## The whole query -/

theorem C55_registration_exact (lm : Nat) (w : World) (p : RegPart) {rs d ev ok}
    (h : RegPhase lm w.modem w.sent w.regCb w.atData rs d ev ok) :
    (queryRegStatus lm w p).2 = ({ w with sent := w.sent ++ rs, atData := d, events := w.events ++ ev }, if ok then partOf d else p) ∧
    ((queryRegStatus lm w p).1 = .success ↔ ok = true) := by
  have l1 : (str "AT+CREG?").length ≤ cmdMax := by decide
  have l2 : (str "AT+CGREG?").length ≤ cmdMax := by decide
  have l3 : (str "AT+CEREG?").length ≤ cmdMax := by decide
  unfold queryRegStatus
  cases h with
  | @fails ms h1 =>
    obtain ⟨a, b⟩ := C55_query_exact lm .creg w (str "AT+CREG?") (str "+CREG") l1 h1
    have b' : (queryNetworkStatus lm w (str "AT+CREG?") (str "+CREG") .creg).1 ≠ .success := fun e => by simpa using b.mp e
    simp only [b', if_false, false_and, a]
    exact ⟨rfl, by simp⟩
  | @packet m1 m2 ok d1 e1 _ e2 h1 r1 h2 r2 hp =>
    obtain ⟨a, b⟩ := C55_query_exact lm .creg w (str "AT+CREG?") (str "+CREG") l1 h1
    have b' := b.mpr rfl
    rw [r1] at a
    simp only [b', if_true, a, true_and]
    obtain ⟨a2, -⟩ := C55_query_exact lm .cgreg { w with sent := w.sent ++ [cregQ], atData := d1, events := w.events ++ e1 }
      (str "AT+CGREG?") (str "+CGREG") l2 h2
    simp only [r2] at a2
    rw [show (⟨str "AT+CREG?", .multiWithPrefix, some (str "+CREG")⟩ : Req) = cregQ from rfl, a2]
    have : ¬ (d.ps ≠ stHome ∧ d.ps ≠ stRoaming) := by
      rintro ⟨x, y⟩
      rcases hp with e | e
      · exact x e
      · exact y e
    simp only [this, if_false]
    simp [cgregQ, partOf]
  | @eps m1 m2 m3 ok2 _ d1 e1 d2 e2 d3 e3 h1 r1 h2 r2 hp h3 r3 =>
    obtain ⟨a, b⟩ := C55_query_exact lm .creg w (str "AT+CREG?") (str "+CREG") l1 h1
    have b' := b.mpr rfl
    rw [r1] at a
    simp only [b', if_true, a, true_and]
    obtain ⟨a2, -⟩ := C55_query_exact lm .cgreg { w with sent := w.sent ++ [cregQ], atData := d1, events := w.events ++ e1 }
      (str "AT+CGREG?") (str "+CGREG") l2 h2
    simp only [r2] at a2
    rw [show (⟨str "AT+CREG?", .multiWithPrefix, some (str "+CREG")⟩ : Req) = cregQ from rfl, a2]
    have hp' : d2.ps ≠ stHome ∧ d2.ps ≠ stRoaming := ⟨fun e => hp (Or.inl e), fun e => hp (Or.inr e)⟩
    simp only [hp'.1, hp'.2, ne_eq, not_false_eq_true, and_self, if_true]
    have h3' : RegReplyMeans lm .cereg (w.modem ((w.sent ++ [cregQ]) ++ [cgregQ]) ceregQ) m3 ok := by simpa using h3
    obtain ⟨a3, b3⟩ := C55_query_exact lm .cereg
      { w with sent := (w.sent ++ [cregQ]) ++ [cgregQ], atData := d2, events := (w.events ++ e1) ++ e2 }
      (str "AT+CEREG?") (str "+CEREG") l3 h3'
    simp only [r3] at a3
    rw [show (⟨str "AT+CGREG?", .multiWithPrefix, some (str "+CGREG")⟩ : Req) = cgregQ from rfl, a3]
    refine ⟨?_, b3⟩
    rw [show (if ok = true then partOf d else p) = if (queryNetworkStatus lm _ (str "AT+CEREG?") (str "+CEREG") .cereg).1 = .success
      then partOf d else p from (if_congr b3 rfl rfl).symm]
    simp [ceregQ, partOf]

theorem updateMccMnc_exact (lm : Nat) (w : World) {second o}
    (h : CopsMeans lm (w.modem w.sent copsSelect) (w.modem (w.sent ++ [copsSelect]) copsQuery) second o) :
    (updateMccMnc lm w OpInfo.zero).2 =
      ({ w with sent := w.sent ++ [copsSelect] ++ (if second then [copsQuery] else []) }, o) := by
  obtain ⟨h1, h2, h3⟩ := request_reply w copsSelect (by decide)
  obtain ⟨i1, i2, i3⟩ := request_reply { w with sent := w.sent ++ [copsSelect] } copsQuery (by decide)
  simp only at i1 i2 i3
  unfold updateMccMnc requestNoCb
  rw [show (⟨str "AT+COPS=3,2", .noResult, none⟩ : Req) = copsSelect from rfl]
  rw [show (⟨str "AT+COPS?", .withPrefix, some (str "+COPS")⟩ : Req) = copsQuery from rfl]
  generalize hr1 : w.modem w.sent copsSelect = rep1 at h h2 h3
  generalize hr2 : w.modem (w.sent ++ [copsSelect]) copsQuery = rep2 at h i2 i3
  generalize request w copsSelect = q at h1 h2 h3
  obtain ⟨q1, q2⟩ := q
  simp only at h1 h2 h3
  subst h1
  generalize hq' : request { w with sent := w.sent ++ [copsSelect] } copsQuery = q' at i1 i2 i3
  obtain ⟨q1', q2'⟩ := q'
  simp only at i1 i2 i3
  subst i1
  cases h with
  | notSelected hn =>
    obtain ⟨e, rfl, hne⟩ := h3 hn
    simp only
    cases e <;> simp_all
  | nothing hn =>
    rw [h2 _ rfl]
    simp only
    rw [hq']
    by_cases hl : ∃ l, rep2 = .lines l
    · obtain ⟨l, rfl⟩ := hl
      have := hn l rfl
      subst this
      rw [i2 _ rfl]
      simp [recvCops]
    · obtain ⟨e, rfl, hne⟩ := i3 (fun l hl' => hl ⟨l, hl'⟩)
      simp
  | unreadable hu =>
    rw [h2 _ rfl]
    simp only
    rw [hq', i2 _ rfl]
    simp only [C53_unreadable lm _ _ _ hu]
    simp
  | line hp hl hn hf =>
    rw [h2 _ rfl]
    simp only
    rw [hq', i2 _ rfl]
    simp only [C53_exact lm _ _ _ _ hp hl _ hn hf]
    simp

/-- C55, the exact law: for every behaviour of the modem, the commands sent, the record kept, the callbacks made and the contents of
the caller's object.  The registration part is the record after the queries if they succeed and otherwise what the caller's object
contained before; the operator is what was read, even of a line with an illegal field; the result is always success. -/
theorem C55_exact (lm : Nat) (w : World) (ho : LibraryOpen w) (old : ServiceStatus) {rs d ev ok second o}
    (h : RegPhase lm w.modem w.sent w.regCb w.atData rs d ev ok)
    (hc : CopsMeans lm (w.modem (w.sent ++ rs) copsSelect) (w.modem (w.sent ++ rs ++ [copsSelect]) copsQuery) second o) :
    getServiceStatus lm w (some old) =
      ⟨.success,
       { w with sent := w.sent ++ rs ++ [copsSelect] ++ (if second then [copsQuery] else []), atData := d,
                events := w.events ++ ev },
       some { reg := if ok then partOf d else old.reg, mode := o.mode, plmn := ⟨o.mcc, o.mnc⟩, name := o.name, format := o.format }⟩ := by
  obtain ⟨h1, -⟩ := C55_registration_exact lm w old.reg h
  have h2 := updateMccMnc_exact lm { w with sent := w.sent ++ rs, atData := d, events := w.events ++ ev } hc
  unfold getServiceStatus
  rw [checkLib_open ho]
  simp only [h1]
  rw [h2]

/-- The law covers every behaviour of the modem. -/
theorem C55_total (lm : Nat) (w : World) : ∃ rs d ev ok second o, RegPhase lm w.modem w.sent w.regCb w.atData rs d ev ok ∧
    CopsMeans lm (w.modem (w.sent ++ rs) copsSelect) (w.modem (w.sent ++ rs ++ [copsSelect]) copsQuery) second o := by
  have cops : ∀ r1 r2, ∃ second o, CopsMeans lm r1 r2 second o := by
    intro r1 r2
    by_cases h1 : ∃ l, r1 = .lines l
    swap
    · exact ⟨_, _, .notSelected (fun l hl => h1 ⟨l, hl⟩)⟩
    obtain ⟨l1, rfl⟩ := h1
    by_cases h2 : ∃ line more, r2 = .lines (line :: more)
    swap
    · refine ⟨_, _, .nothing (fun l hl => ?_)⟩
      cases l with
      | nil => rfl
      | cons a t => exact absurd ⟨a, t, hl⟩ h2
    obtain ⟨line, more, rfl⟩ := h2
    by_cases hu : 256 < line.length ∨ (58 : Byte) ∉ line
    · exact ⟨_, _, .unreadable hu⟩
    · have hc : (58 : Byte) ∈ line := Classical.byContradiction (fun h => hu (Or.inr h))
      obtain ⟨pre, body, rfl, hpre⟩ := first_colon hc
      have : ∀ fs : List Str, ∃ vs : List (Str × Option Int), Numbered 10 vs ∧ vs.map Prod.fst = fs := by
        intro fs
        induction fs with
        | nil => exact ⟨[], by intro f hf; simp at hf, rfl⟩
        | cons f fs ih =>
          obtain ⟨vs, hv, he⟩ := ih
          obtain ⟨z, hz⟩ := C08_every_text 10 f
          refine ⟨(f, z) :: vs, ?_, by simp [he]⟩
          intro g hg
          rcases List.mem_cons.mp hg with rfl | hg
          · exact hz
          · exact hv g hg
      obtain ⟨vs, hv, he⟩ := this (reportedFields (bareText body))
      exact ⟨_, _, .line hpre (by omega) hv he⟩
  have reg : ∃ rs d ev ok, RegPhase lm w.modem w.sent w.regCb w.atData rs d ev ok := by
    obtain ⟨m1, ok1, h1⟩ := C55_reply_meaning lm .creg (w.modem w.sent cregQ)
    cases ok1 with
    | false => exact ⟨_, _, _, _, .fails h1⟩
    | true =>
      obtain ⟨m2, ok2, h2⟩ := C55_reply_meaning lm .cgreg (w.modem (w.sent ++ [cregQ]) cgregQ)
      obtain ⟨m3, ok3, h3⟩ := C55_reply_meaning lm .cereg (w.modem (w.sent ++ [cregQ, cgregQ]) ceregQ)
      by_cases hp : (regLines w.regCb .cgreg m2 (regLines w.regCb .creg m1 w.atData).1).1.ps = 1 ∨
          (regLines w.regCb .cgreg m2 (regLines w.regCb .creg m1 w.atData).1).1.ps = 5
      · exact ⟨_, _, _, _, .packet h1 rfl h2 rfl hp⟩
      · exact ⟨_, _, _, _, .eps h1 rfl h2 rfl hp h3 rfl⟩
  obtain ⟨rs, d, ev, ok, hr⟩ := reg
  obtain ⟨second, o, hc⟩ := cops (w.modem (w.sent ++ rs) copsSelect) (w.modem (w.sent ++ rs ++ [copsSelect]) copsQuery)
  exact ⟨rs, d, ev, ok, second, o, hr, hc⟩

/-- A modem that is registered in EPS only, reports a status change among the answers to the first query, and names the operator by
numbers with an illegal access technology. -/
def epsModem : List Req → Req → Reply := fun _ r =>
  if r = cregQ then .lines [str "+CREG: 3", str "+CREG: 0,2"]
  else if r = cgregQ then .lines [str "+CGREG: 0,77"]
  else if r = ceregQ then .lines [str "+CEREG: 2,1,\"1A2B\",\"0102\",7"]
  else if r = copsQuery then .lines [str "+COPS: 0,2,\"26201\",77"]
  else .lines []

/-- The law on this modem: it is not vacuous, and this is what it says. -/
example : let w : World := ⟨some (true, false, false), ⟨0, 0, 1, 1, 0, 0, 0, 0, 0, 0, 0⟩, true, [], [], epsModem⟩
    let r := getServiceStatus (2 ^ 31 - 1) w (some ⟨⟨0, 0, 0, 0, 0, 0, 0⟩, 0, ⟨[], []⟩, [], 0⟩)
    r.err = .success ∧ r.world.sent = [cregQ, cgregQ, ceregQ, copsSelect, copsQuery] ∧ r.world.events.length = 3 ∧
    r.out = some ⟨⟨7, 2, 1, 0, 0, 0, 0⟩, 0, ⟨str "262", str "01"⟩, [], 2⟩ := by decide +kernel

end Cellular.Props
