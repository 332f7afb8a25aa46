import Verif.RegProps
import Verif.WireSession
import Verif.Dispatch
/-!
# From bytes to the registration record: C76

Registration reports - unsolicited `+CREG`, `+CGREG`, `+CEREG` codes and the answers to registration queries - through
the whole receive path: bytes, lines, classification, table of unsolicited codes or response callback, parser, record
and event callback.
-/

namespace Cellular.Spec
open Cellular Cellular.Reg

/-- What a registration report says (3GPP TS 27.007): the domain, the status, area code and cell id, access technology,
routing area code (CGREG), type and cause of a rejection. -/
structure Report where
  dom : RegType
  stat : Nat
  place : Option (Nat × Nat)
  act : Option Nat
  rac : Option Nat
  rej : Option (Nat × Nat)

/-- The values are in range, and a field is only there if those before it are. -/
structure Report.Proper (p : Report) : Prop where
  stat : p.stat ≤ 8
  place : ∀ a c, p.place = some (a, c) → a ≤ 65535 ∧ c < 2 ^ 31
  act : ∀ v, p.act = some v → v ≤ 9 ∧ p.place ≠ none
  rac : ∀ v, p.rac = some v → v ≤ 255 ∧ p.act ≠ none ∧ p.dom = .cgreg
  rej : ∀ a b, p.rej = some (a, b) → a ≤ 255 ∧ b ≤ 255 ∧ p.act ≠ none ∧ (p.dom = .cgreg → p.rac ≠ none)

/-- These texts are the numbers `vs`, in `base`. -/
inductive Numerals (base : Nat) : List Nat → List Str → Prop
  | nil : Numerals base [] []
  | cons {v s vs ss} : Numeral base s v → Numerals base vs ss → Numerals base (v :: vs) (s :: ss)

/-- The fields of a report, without quotes and blanks; decimal numbers, but area codes and cell ids are hexadecimal. -/
def Report.Fields (p : Report) (fs : List Str) : Prop :=
  ∃ s f1 f2 f3 f4, fs = s :: (f1 ++ (f2 ++ (f3 ++ f4))) ∧ Numeral 10 s p.stat ∧
    Numerals 16 (match p.place with | none => [] | some (a, c) => [a, c]) f1 ∧
    Numerals 10 p.act.toList f2 ∧ Numerals 16 p.rac.toList f3 ∧
    Numerals 10 (match p.rej with | none => [] | some (a, b) => [a, b]) f4

/-- A text without its quotation marks and white space. -/
def bare (s : Str) : Str := s.filter (fun b => decide (¬ White b ∧ b ≠ 34))

/-- The text of an unsolicited report, after `+CREG:` (at most 256 characters; quotes and blanks anywhere). -/
def Says (text : Str) (p : Report) : Prop :=
  p.Proper ∧ text.length ≤ 256 ∧ ∃ fs, p.Fields fs ∧ bare text = joinComma fs

/-- What the record says after a report: the status of its domain; a status other than registered (1, 5) makes the old
location area, routing area, cell and access technology invalid (the tracking area code is kept); then the location, access technology and routing area code it carries (a
technology other than GSM, EDGE, LTE, CAT-M1, NB-IoT counts as invalid), and, if registration was denied (3), the
rejection.  The other domain keeps its status. -/
def Report.update (p : Report) (d : AtData) : AtData :=
  let d := if p.dom = .creg then { d with cs := p.stat } else { d with ps := p.stat }
  let d := if p.stat = 1 ∨ p.stat = 5 then d else
    { d with lac := 0xFFFF, rac := 0xFF, cellId := 0xFFFFFFFF, rat := 255 }
  let d := match p.place with
    | none => d
    | some (a, c) => if p.dom = .cereg then { d with tac := a, cellId := c } else { d with lac := a, cellId := c }
  let d := match p.act with
    | none => d
    | some v => { d with rat := if v ∈ [0, 3, 7, 8, 9] then v else 255 }
  let d := match p.rac with
    | none => d
    | some v => { d with rac := v }
  match p.rej with
  | none => d
  | some (a, b) =>
    if p.stat = 3 then
      (if p.dom = .creg then { d with csRejType := a, csRejCause := b } else { d with psRejType := a, psRejCause := b })
    else d

/-- The event callback is called for a report that changes the status of its domain, with the new record. -/
def Report.events (cb : Bool) (p : Report) (d : AtData) : List RegEvent :=
  let old := if p.dom = .creg then d.cs else d.ps
  let new := p.update d
  if cb = true ∧ p.stat ≠ old then
    [⟨decide (p.dom = .creg), ⟨new.rat, new.cs, new.ps, new.csRejCause, new.csRejType, new.psRejCause, new.psRejType⟩⟩]
  else []

/-- A sequence of reports: the record and the calls of the callback. -/
def told (cb : Bool) : List Report → AtData × List RegEvent → AtData × List RegEvent
  | [], x => x
  | p :: ps, x => told cb ps (p.update x.1, x.2 ++ p.events cb x.1)

/-- The names of the three kinds of reports. -/
def regName : RegType → Str
  | .creg => str "CREG"
  | .cgreg => str "CGREG"
  | .cereg => str "CEREG"

/-- The line of an unsolicited report. -/
def ReportLine (l : Str) (p : Report) : Prop :=
  ∃ text, l = 43 :: regName p.dom ++ 58 :: text ∧ Says text p

/-- A line that is not a registration code. -/
def OtherLine (l : Str) : Prop := ∀ t, l ≠ regName t ∧ ∀ text, l ≠ 43 :: regName t ++ 58 :: text

/-- These lines carry these reports, in order. -/
inductive Carries : List Str → List Report → Prop
  | nil : Carries [] []
  | report {l p ls ps} : ReportLine l p → Carries ls ps → Carries (l :: ls) (p :: ps)
  | other {l ls ps} : OtherLine l → Carries ls ps → Carries (l :: ls) ps

/-- A line of the answer to a registration query of kind `t`: `+CREG: n,stat...` (what follows the first comma does not
begin with a quotation mark), or an unsolicited report of the same kind that came in meanwhile, recognisable by having no
comma or a quotation mark right after the first one. -/
inductive AnswerLine (t : RegType) : Str → Report → Prop
  | answer {first rest p fs} : p.dom = t → p.Proper → (first ++ 44 :: rest).length ≤ 256 → NoComma first →
      rest.head? ≠ some 34 → p.Fields fs → bare rest = joinComma fs → AnswerLine t (first ++ 44 :: rest) p
  | report {l p} : p.dom = t → ReportLine l p → l.length ≤ 256 → NoComma l → AnswerLine t l p
  | quoted {first rest p} : p.dom = t → ReportLine (first ++ 44 :: 34 :: rest) p →
      (first ++ 44 :: 34 :: rest).length ≤ 256 → NoComma first → AnswerLine t (first ++ 44 :: 34 :: rest) p

end Cellular.Spec

namespace Cellular.RegWire
open Cellular Cellular.Reg Cellular.Pktio Cellular.Urc Cellular.Dispatch Cellular.Wire Cellular.Api

/-- What the library keeps about registration, and the calls of the registration event callback so far. -/
abbrev RegState := AtData × List RegEvent

/-- A module port that hands registration codes to the library's functions, as the ports do in
`CellularUrcHandlerTable`: `handler t` is `Cellular_CommonUrcProcessCreg` (`Cgreg`, `Cereg`),
cellular_3gpp_urc_handler.c:847-924; the port's other functions do not touch the registration record. -/
structure RegPort extends Port where
  handler : RegType → Nat

/-- One call of a registered function: the three registration functions parse the text
(cellular_3gpp_urc_handler.c:847-924), anything else is the port's or the application's code. -/
def runCall (lm : Nat) (cb : Bool) (P : RegPort) (x : RegState) : Urc.Call → RegState
  | .handler h arg =>
    let by' (t : RegType) : RegState :=
      let o := urcProcess lm cb t (some arg) x.1
      (o.data, x.2 ++ o.events)
    if h = P.handler .creg then by' .creg
    else if h = P.handler .cgreg then by' .cgreg
    else if h = P.handler .cereg then by' .cereg
    else x
  | _ => x

/-- The requests `queryNetworkStatus` makes, cellular_3gpp_api.c:856-878, as called in `atcmdQueryRegStatus`,
cellular_3gpp_api.c:1445-1498. -/
def regRequest (t : RegType) : Req :=
  match t with
  | .creg => ⟨str "AT+CREG?", .multiWithPrefix, some (str "+CREG")⟩
  | .cgreg => ⟨str "AT+CGREG?", .multiWithPrefix, some (str "+CGREG")⟩
  | .cereg => ⟨str "AT+CEREG?", .multiWithPrefix, some (str "+CEREG")⟩

/-- One message of the packet layer, while the request `r` is pending: a successful response to a registration query goes
to `_Cellular_RecvFuncGetNetworkReg` (cellular_pkthandler.c:86-117), other messages to `_Cellular_HandlePacket`.
Simplification: requests with the text of a registration query are those of the library itself. -/
def absorb (lm : Nat) (cb : Bool) (P : RegPort) (r : Option Req) (x : RegState) : Event → Option RegState
  | .response true ls =>
    let by' (t : RegType) : RegState :=
      let o := recvNetworkReg lm cb t ls x.1
      (o.2.1, x.2 ++ o.2.2)
    some (if r = some (regRequest .creg) then by' .creg
      else if r = some (regRequest .cgreg) then by' .cgreg
      else if r = some (regRequest .cereg) then by' .cereg
      else x)
  | e =>
    match handlePacket P.toPort e with
    | none => none
    | some (_, cs) => some (cs.foldl (runCall lm cb P) x)

/-- A sequence of messages. -/
def absorbAll (lm : Nat) (cb : Bool) (P : RegPort) (r : Option Req) : RegState → List Event → Option RegState
  | x, [] => some x
  | x, e :: es =>
    match absorb lm cb P r x e with
    | none => none
    | some x => absorbAll lm cb P r x es

/-- `Wire.replay` with the registration record: the requests `rs` made after `done`, and what the messages received
meanwhile do to the record. -/
def regReplay (cfg : Cfg) (m : Modem) (lm : Nat) (cb : Bool) (P : RegPort) (k : Stack) (x : RegState) (done : List Req) :
    List Req → Option (Stack × RegState)
  | [] => some (k, x)
  | r :: rs =>
    match exchange cfg k r (m.during done r) with
    | none => none
    | some (_, k1) =>
      match absorbAll lm cb P (some r) x (k1.rx.events.drop k.rx.events.length) with
      | none => none
      | some x1 =>
        match reads cfg k1.rx (m.after done r) with
        | none => none
        | some s =>
          match absorbAll lm cb P none x1 (s.events.drop k1.rx.events.length) with
          | none => none
          | some x2 => regReplay cfg m lm cb P { k1 with rx := s } x2 (done ++ [r]) rs

end Cellular.RegWire

namespace Cellular.Spec
open Cellular Cellular.Reg Cellular.Pktio Cellular.Wire Cellular.Props Cellular.Dispatch Cellular.RegWire
open Cellular.Api (Req Reply)

/-- A line the packet layer hands over without loss: of at most 256 characters, not beginning with `+:`, and an
unsolicited code or something the port's callback of undefined messages accepts. -/
def Tidy (cfg : Cfg) (P : Port) (l : Str) : Prop :=
  l.length ≤ 256 ∧ (¬ ∃ r, l = 43 :: 58 :: r) ∧ (UrcLike cfg l ∨ ∃ f, P.undef = some f ∧ f l = .ok)

/-- These lines, that nobody waits for, tell of these reports. -/
def Announces (cfg : Cfg) (P : Port) (lines : List Str) (ps : List Report) : Prop :=
  (∀ l ∈ lines, Tidy cfg P l) ∧ Carries lines ps

/-- The reports in a stream of bytes read while the request `r` is pending, in the order in which the library learns of
them: those between the lines of the response; if `r` is a registration query that succeeds, those in its response; those
after the final result code. -/
def Hears (cfg : Cfg) (P : Port) (r : Req) (stream : Str) (ps : List Report) : Prop :=
  (∃ body final tail p1 p2 p3, linesOf stream = body.map (·.2) ++ final :: tail ∧
    Mixed cfg (typeOf r.type) (respPrefix r) body ∧ LineCount r.type (mine body).length ∧
    final.length ≤ 256 ∧ Final cfg (typeOf r.type) (respPrefix r) final ∧
    Announces cfg P (others body) p1 ∧
    (∀ t, Success cfg final → r = regRequest t → List.Forall₂ (AnswerLine t) (mine body) p2) ∧
    ((∀ t, r ≠ regRequest t) ∨ ¬ Success cfg final → p2 = []) ∧
    Announces cfg P tail p3 ∧ ps = p1 ++ (p2 ++ p3)) ∨
  (Silent cfg r stream ∧ Announces cfg P (linesOf stream) ps)

/-- The modem reports registration as `reps` says: during a request, and after it until the next one. -/
structure Tells (cfg : Cfg) (P : Port) (m : Modem) (reps : List Req → Req → List Report × List Report) : Prop where
  during : ∀ h r, (∀ x ∈ h, ValidReq x) → ValidReq r → Hears cfg P r (m.during h r).flatten (reps h r).1
  after : ∀ h r, (∀ x ∈ h, ValidReq x) → ValidReq r → Announces cfg P (linesOf (m.after h r).flatten) (reps h r).2

/-- All reports of a history of requests, in order. -/
def allReports (reps : List Req → Req → List Report × List Report) (done : List Req) : List Req → List Report
  | [] => []
  | r :: rs => (reps done r).1 ++ ((reps done r).2 ++ allReports reps (done ++ [r]) rs)

/-- The port's table: accepted by the library, the three registration codes go to the library's functions, nothing else
does. -/
structure ForRegistration (cfg : Cfg) (P : RegPort) : Prop where
  accepted : Urc.atParseInit (some P.table) = .ok
  uses : Uses cfg P.toPort
  entries : ∀ t, ⟨regName t, some (P.handler t)⟩ ∈ P.table
  only : ∀ t e, e ∈ P.table → e.handler = some (P.handler t) → e.name = regName t

end Cellular.Spec

namespace Cellular.Props
open Cellular Cellular.Spec Cellular.Reg Cellular.Tok Cellular.RegLemmas Signal
open Cellular.AtStr
open Cellular.AtCore (strtoi AtErr)

theorem bare_clean (s : Str) : bare s = clean s := by
  unfold clean bare
  rw [List.filter_filter]
  congr 1; funext b
  have := isSpace_iff b
  by_cases hw : White b <;> by_cases hb : b = 34 <;> simp_all

theorem numerals_all {base : Nat} {vs : List Nat} {ss : List Str} (h : Numerals base vs ss) :
    ∀ f ∈ ss, NoComma f ∧ f ≠ [] := by
  induction h with
  | nil => simp
  | cons hn _ ih =>
    intro f hf
    rcases List.mem_cons.mp hf with rfl | hf
    · exact ⟨numeral_noComma hn, numeral_ne_nil hn⟩
    · exact ih f hf

theorem report_fields_all {p : Report} {fs : List Str} (h : p.Fields fs) : fs ≠ [] ∧ ∀ f ∈ fs, NoComma f ∧ f ≠ [] := by
  obtain ⟨s, f1, f2, f3, f4, rfl, hs, h1, h2, h3, h4⟩ := h
  refine ⟨by simp, fun f hf => ?_⟩
  simp only [List.mem_cons, List.mem_append] at hf
  rcases hf with rfl | hf | hf | hf | hf
  · exact ⟨numeral_noComma hs, numeral_ne_nil hs⟩
  · exact numerals_all h1 f hf
  · exact numerals_all h2 f hf
  · exact numerals_all h3 f hf
  · exact numerals_all h4 f hf

theorem numerals_two {base a b : Nat} {ss : List Str} (h : Numerals base [a, b] ss) :
    ∃ s1 s2, ss = [s1, s2] ∧ Numeral base s1 a ∧ Numeral base s2 b := by
  cases h with
  | cons h1 h => cases h with
    | cons h2 h => cases h; exact ⟨_, _, rfl, h1, h2⟩

theorem numerals_one {base a : Nat} {ss : List Str} (h : Numerals base [a] ss) : ∃ s1, ss = [s1] ∧ Numeral base s1 a := by
  cases h with
  | cons h1 h => cases h; exact ⟨_, rfl, h1⟩

theorem numerals_zero {base : Nat} {ss : List Str} (h : Numerals base [] ss) : ss = [] := by cases h; rfl

/-- The fields of a report, read from the status on. -/
theorem report_run {lm : Nat} (hlm : 2 ^ 31 - 1 ≤ lm) {p : Report} (hp : p.Proper) {fs : List Str} (hf : p.Fields fs)
    (d : AtData) : run lm p.dom 2 fs d = (.ok, p.update d) := by
  obtain ⟨s, f1, f2, f3, f4, rfl, hs, h1, h2, h3, h4⟩ := hf
  obtain ⟨t, st, place, act, rac, rej⟩ := p
  obtain ⟨p1, p2, p3, p4, p5⟩ := hp
  simp only at *
  have e9 : (stMax : Int) = 9 := rfl
  have e10 : (ratMax : Int) = 10 := rfl
  have g1 : ∀ d, parseField lm t 2 s d = (.ok, if st = 1 ∨ st = 5 then
      (if t = .creg then { d with cs := st } else { d with ps := st }) else
      { (if t = .creg then { d with cs := st } else { d with ps := st }) with
        lac := 0xFFFF, rac := 0xFF, cellId := 0xFFFFFFFF, rat := 255 }) := by
    intro d
    rw [pf_stat]
    simp only [parseStat, field, strtoi_numeral hlm hs (by omega), e9]
    rw [if_pos (by simp; omega)]
    simp only [Int.toNat_natCast, stHome, stRoaming]
    by_cases ha : st = 1
    · simp [ha]
    · by_cases hb : st = 5
      · simp [hb]
      · simp [ha, hb, clearLoc, ratInvalid]
  have g2 : ∀ {x v d}, Numeral 16 x v → v ≤ 65535 → parseField lm t 3 x d =
      (.ok, if t = .cereg then { d with tac := v } else { d with lac := v }) := by
    intro x v d hx hv
    rw [pf_lac]
    simp only [parseLacTac, field, strtoi_numeral hlm hx (by omega)]
    rw [if_pos (by simp; omega)]
    cases t <;> simp
  have g3 : ∀ {x v d}, Numeral 16 x v → v < 2 ^ 31 → parseField lm t 4 x d = (.ok, { d with cellId := v }) := by
    intro x v d hx hv
    rw [pf_cell]
    simp only [parseCellId, field, strtoi_numeral hlm hx hv]
    rw [if_pos (by simp)]
    simp
  have g4 : ∀ {x v d}, Numeral 10 x v → v ≤ 9 → parseField lm t 5 x d =
      (.ok, { d with rat := if v ∈ [0, 3, 7, 8, 9] then v else 255 }) := by
    intro x v d hx hv
    rw [pf_rat]
    simp only [parseRat, field, strtoi_numeral hlm hx (by omega), e10]
    rw [if_pos (by simp; omega)]
    simp only [Int.toNat_natCast, ratGsm, ratEdge, ratCatM1, ratNbIot, ratLte, ratInvalid]
    have hv' : v = 0 ∨ v = 1 ∨ v = 2 ∨ v = 3 ∨ v = 4 ∨ v = 5 ∨ v = 6 ∨ v = 7 ∨ v = 8 ∨ v = 9 := by omega
    rcases hv' with e | e | e | e | e | e | e | e | e | e <;> simp [e]
  have g5 : ∀ {x v d}, Numeral 16 x v → v ≤ 255 → t = .cgreg → parseField lm t 6 x d = (.ok, { d with rac := v }) := by
    intro x v d hx hv ht
    rw [pf_6, if_pos ht]
    simp only [parseRac, field, strtoi_numeral hlm hx (by omega)]
    rw [if_pos (by simp; omega)]
    simp
  have g6 : ∀ {x v d}, Numeral 10 x v → v ≤ 255 → (if t = .creg then d.cs else d.ps) = st →
      parseRejType lm t x d = (.ok, if st = 3 then
        (if t = .creg then { d with csRejType := v } else { d with psRejType := v }) else d) := by
    intro x v d hx hv hst
    simp only [parseRejType, field, strtoi_numeral hlm hx (by omega)]
    rw [if_pos (by simp; omega)]
    cases t <;> simp at hst <;> simp [hst, stDenied]
  have g7 : ∀ {x v d}, Numeral 10 x v → v ≤ 255 → (if t = .creg then d.cs else d.ps) = st →
      parseRejCause lm t x d = (.ok, if st = 3 then
        (if t = .creg then { d with csRejCause := v } else { d with psRejCause := v }) else d) := by
    intro x v d hx hv hst
    simp only [parseRejCause, field, strtoi_numeral hlm hx (by omega)]
    rw [if_pos (by simp; omega)]
    cases t <;> simp at hst <;> simp [hst, stDenied]
  rw [run_ok (g1 d)]
  cases place with
  | none =>
    have ha : act = none := by
      cases act with
      | none => rfl
      | some v => exact absurd rfl (p3 v rfl).2
    have hr : rac = none := by
      cases rac with
      | none => rfl
      | some v => exact absurd ha (p4 v rfl).2.1
    have hj : rej = none := by
      cases rej with
      | none => rfl
      | some v => exact absurd ha (p5 v.1 v.2 rfl).2.2.1
    subst ha hr hj
    rw [numerals_zero h1, numerals_zero h2, numerals_zero h3, numerals_zero h4]
    simp only [List.append_nil, run, Report.update]
  | some ac =>
    obtain ⟨a, c⟩ := ac
    obtain ⟨x1, x2, rfl, n1, n2⟩ := numerals_two h1
    obtain ⟨b1, b2⟩ := p2 a c rfl
    simp only [List.cons_append, List.nil_append]
    rw [run_ok (g2 n1 b1), run_ok (g3 n2 b2)]
    cases act with
    | none =>
      have hr : rac = none := by
        cases rac with
        | none => rfl
        | some v => exact absurd rfl (p4 v rfl).2.1
      have hj : rej = none := by
        cases rej with
        | none => rfl
        | some v => exact absurd rfl (p5 v.1 v.2 rfl).2.2.1
      subst hr hj
      rw [numerals_zero h2, numerals_zero h3, numerals_zero h4]
      simp only [List.append_nil, run, Report.update]
      cases t <;> simp
    | some v =>
      obtain ⟨x3, rfl, n3⟩ := numerals_one h2
      simp only [List.cons_append, List.nil_append]
      rw [run_ok (g4 n3 (p3 v rfl).1)]
      cases rac with
      | none =>
        rw [numerals_zero h3]
        simp only [List.nil_append]
        cases rej with
        | none =>
          rw [numerals_zero h4]
          simp only [run, Report.update]
          cases t <;> simp
        | some xy =>
          obtain ⟨x, y⟩ := xy
          obtain ⟨c1, c2, _, c4⟩ := p5 x y rfl
          have ht : t ≠ .cgreg := fun e => absurd rfl (c4 e)
          obtain ⟨x4, x5, rfl, n4, n5⟩ := numerals_two h4
          rw [run_ok (by rw [pf_6, if_neg ht]; exact g6 n4 c1 (by cases t <;> by_cases k : st = 1 ∨ st = 5 <;> simp [k])),
            run_ok (by rw [pf_7, if_neg ht]; exact g7 n5 c2 (by
              cases t <;> by_cases k : st = 1 ∨ st = 5 <;> by_cases k3 : st = 3 <;> simp [k, k3] <;> omega))]
          simp only [run, Report.update]
          cases t <;> by_cases k3 : st = 3 <;> simp [k3]
      | some w =>
        obtain ⟨q1, _, q3⟩ := p4 w rfl
        obtain ⟨x6, rfl, n6⟩ := numerals_one h3
        simp only [List.cons_append, List.nil_append]
        rw [run_ok (g5 n6 q1 q3)]
        subst q3
        cases rej with
        | none =>
          rw [numerals_zero h4]
          simp only [run, Report.update]
          simp
        | some xy =>
          obtain ⟨x, y⟩ := xy
          obtain ⟨c1, c2, _, _⟩ := p5 x y rfl
          obtain ⟨x4, x5, rfl, n4, n5⟩ := numerals_two h4
          rw [run_ok (by rw [pf_7, if_pos rfl]; exact g6 n4 c1 (by by_cases k : st = 1 ∨ st = 5 <;> simp [k])),
            run_ok (by rw [pf_8, if_pos rfl]; exact g7 n5 c2 (by
              by_cases k : st = 1 ∨ st = 5 <;> by_cases k3 : st = 3 <;> simp [k, k3] <;> omega))]
          simp only [run, Report.update]
          by_cases k3 : st = 3 <;> simp [k3]

theorem report_changed (cb : Bool) (p : Report) (d : AtData) :
    (if eventChanged (p.update d) p.dom d.cs d.ps then genEvent cb p.dom (p.update d) else []) = p.events cb d := by
  have hs : (if p.dom = .creg then (p.update d).cs else (p.update d).ps) = p.stat := by
    unfold Report.update
    obtain ⟨t, st, place, act, rac, rej⟩ := p
    simp only
    cases t <;> by_cases k : st = 1 ∨ st = 5 <;> rcases place with _ | ⟨a, c⟩ <;> cases act <;> cases rac <;>
      rcases rej with _ | ⟨x, y⟩ <;> by_cases k3 : st = 3 <;> simp [k, k3] <;> omega
  unfold Report.events
  simp only
  generalize p.update d = n at hs ⊢
  cases ht : p.dom <;> rw [ht] at hs <;> simp at hs <;> cases cb <;>
    simp [eventChanged, genEvent, hs] <;> split <;> simp_all <;> rfl

/-- C44, all forms of reports: whatever of location, access technology, routing area code and rejection the text of a
report carries, with quotes and blanks anywhere, the record becomes what the report says (`Report.update`) and the event
callback is called exactly if the status of the domain changed (`Report.events`). -/
theorem C44_report_partial (lm : Nat) (hlm : 2 ^ 31 - 1 ≤ lm) (cb : Bool) (text : Str) (p : Report) (h : Says text p)
    (d : AtData) : urcProcess lm cb p.dom (some text) d = ⟨.ok, p.update d, p.events cb d⟩ := by
  obtain ⟨hp, hl, fs, hf, hb⟩ := h
  obtain ⟨hne, hall⟩ := report_fields_all hf
  rw [bare_clean] at hb
  unfold urcProcess
  rw [parse_fields lm cb fs true p.dom d text hb hl (fun f h => (hall f h).1) hne
    (fun h => (hall [] (List.mem_of_getLast? h)).2 rfl)]
  simp only [if_true, report_run hlm hp hf, report_changed]

/-! ## Query answers -/

theorem report_clean {p : Report} {fs : List Str} {text : Str} (hf : p.Fields fs) (hb : bare text = joinComma fs) :
    clean text ≠ [] := by
  obtain ⟨hne, hall⟩ := report_fields_all hf
  rw [← bare_clean, hb]
  exact joinComma_ne_nil fs hne (fun h => (hall [] (List.mem_of_getLast? h)).2 rfl)

theorem regName_plain (t : RegType) : (58 : Byte) ∉ 43 :: regName t ∧ NoComma (43 :: regName t) ∧
    (∀ b ∈ regName t, PrefixChar b) ∧ regName t ≠ [] ∧ (43 :: regName t).length ≤ 6 := by
  cases t <;> refine ⟨by decide, by unfold NoComma; decide, ?_, by decide, by decide⟩ <;> unfold PrefixChar <;> decide

theorem answer_step {lm : Nat} (hlm : 2 ^ 31 - 1 ≤ lm) (cb : Bool) {t : RegType} {line : Str} {p : Report}
    (h : AnswerLine t line p) (rest : List Str) (d : AtData) :
    Api.recvRegLoop lm cb t (line :: rest) d =
      ((Api.recvRegLoop lm cb t rest (p.update d)).1, (Api.recvRegLoop lm cb t rest (p.update d)).2.1,
        p.events cb d ++ (Api.recvRegLoop lm cb t rest (p.update d)).2.2) := by
  have urc : ∀ text, Says text p → p.dom = t → (43 :: regName p.dom ++ 58 :: text).length ≤ 256 →
      Api.regResponseIsUrc (43 :: regName p.dom ++ 58 :: text) = true →
      Api.recvRegLoop lm cb t ((43 :: regName p.dom ++ 58 :: text) :: rest) d =
      ((Api.recvRegLoop lm cb t rest (p.update d)).1, (Api.recvRegLoop lm cb t rest (p.update d)).2.1,
        p.events cb d ++ (Api.recvRegLoop lm cb t rest (p.update d)).2.2) := by
    intro text hs hd hl hu
    have hp : parseRegStatus lm cb (some text) true t d = ⟨.ok, p.update d, p.events cb d⟩ := by
      rw [← hd]; exact C44_report_partial lm hlm cb text p hs d
    rw [Api.recvRegLoop]
    simp only [hu, if_true, removePrefix_eq (regName_plain p.dom).1 hl, hp]
  cases h with
  | @answer first rest' _ fs hd hp hl hnc hq hf hb =>
    have hls : rest'.length ≤ 256 := by simp only [List.length_append, List.length_cons] at hl; omega
    have hpar : parseRegStatus lm cb (some (first ++ 44 :: rest')) false t d = ⟨.ok, p.update d, p.events cb d⟩ := by
      rw [parse_answer lm cb t hnc d hl (report_clean hf hb), ← hd]
      exact C44_report_partial lm hlm cb rest' p ⟨hp, hls, fs, hf, hb⟩ d
    rw [Api.recvRegLoop]
    simp only [isUrc_answer hnc hq, Bool.false_eq_true, if_false, hpar]
  | @report _ _ hd hr hl hnc =>
    obtain ⟨text, rfl, hs⟩ := hr
    refine urc text hs hd hl (isUrc_urc (regName_plain p.dom).2.1 (Or.inl ?_))
    intro hm; exact hnc (by simp [hm])
  | @quoted first rest' _ hd hr hl hnc =>
    obtain ⟨text, he, hs⟩ := hr
    rw [he] at hl ⊢
    refine urc text hs hd hl ?_
    unfold Api.regResponseIsUrc
    rw [← he, strstr1_eq hnc]
    rfl

theorem answer_loop {lm : Nat} (hlm : 2 ^ 31 - 1 ≤ lm) (cb : Bool) {t : RegType} {lines : List Str} {ps : List Report}
    (h : List.Forall₂ (AnswerLine t) lines ps) : ∀ (d : AtData) (ev : List RegEvent),
    (Api.recvRegLoop lm cb t lines d).1 = .ok ∧
    ((Api.recvRegLoop lm cb t lines d).2.1, ev ++ (Api.recvRegLoop lm cb t lines d).2.2) = told cb ps (d, ev) := by
  induction h with
  | nil => intro d ev; simp [Api.recvRegLoop, told]
  | cons hl _ ih =>
    intro d ev
    rw [answer_step hlm cb hl]
    simp only [told]
    obtain ⟨h1, h2⟩ := ih (Report.update _ d) (ev ++ Report.events cb _ d)
    refine ⟨h1, ?_⟩
    rw [← h2]
    simp

/-- C55, all forms of answers: a registration query answered by any number of lines - answers, or unsolicited reports of
the same kind that came in meanwhile - succeeds, and record and callback calls are those of the reports in order. -/
theorem C55_answer_reports (lm : Nat) (hlm : 2 ^ 31 - 1 ≤ lm) (cb : Bool) (t : RegType) (lines : List Str)
    (ps : List Report) (h : List.Forall₂ (AnswerLine t) lines ps) (hne : lines ≠ []) (d : AtData) (ev : List RegEvent) :
    (Api.recvNetworkReg lm cb t lines d).1 = .ok ∧
    ((Api.recvNetworkReg lm cb t lines d).2.1, ev ++ (Api.recvNetworkReg lm cb t lines d).2.2) = told cb ps (d, ev) := by
  unfold Api.recvNetworkReg
  cases lines with
  | nil => exact absurd rfl hne
  | cons a b => exact answer_loop hlm cb h d ev

/-! ## Messages -/

open Cellular.Pktio Cellular.Urc Cellular.Dispatch Cellular.Wire Cellular.RegWire
open Cellular.Api (Req Reply)

theorem regName_inj : ∀ {t u : RegType}, regName t = regName u → t = u := by
  intro t u; cases t <;> cases u <;> decide

theorem handler_inj {cfg : Cfg} {P : RegPort} (hP : ForRegistration cfg P) {t u : RegType}
    (h : P.handler t = P.handler u) : t = u :=
  regName_inj (hP.only u ⟨regName t, some (P.handler t)⟩ (hP.entries t) (by rw [h]))

theorem runCall_reg {cfg : Cfg} {P : RegPort} (hP : ForRegistration cfg P) (lm : Nat) (cb : Bool) (t : RegType)
    (arg : Str) (x : RegState) : runCall lm cb P x (.handler (P.handler t) arg) =
      ((urcProcess lm cb t (some arg) x.1).data, x.2 ++ (urcProcess lm cb t (some arg) x.1).events) := by
  have e : ∀ u v, P.handler u = P.handler v ↔ u = v := fun u v => ⟨handler_inj hP, fun h => by rw [h]⟩
  simp only [runCall, e]
  cases t <;> simp

theorem runCall_other {P : RegPort} (lm : Nat) (cb : Bool) (c : Urc.Call) (x : RegState)
    (h : ∀ t arg, c ≠ .handler (P.handler t) arg) : runCall lm cb P x c = x := by
  cases c with
  | handler k arg =>
    have : ∀ t, k ≠ P.handler t := fun t e => h t arg (by rw [e])
    simp [runCall, this]
  | generic => rfl
  | undefinedMsg => rfl

theorem lexLt_irrefl_names {t : List Entry} (hs : t.Pairwise (fun a b => LexLt a.name b.name)) {a b : Entry}
    (ha : a ∈ t) (hb : b ∈ t) (h : a.name = b.name) : a = b := by
  have irr := lexLt_irrefl
  induction hs with
  | nil => cases ha
  | @cons c t hc _ ih =>
    rcases List.mem_cons.mp ha with rfl | ha' <;> rcases List.mem_cons.mp hb with rfl | hb'
    · rfl
    · exact absurd (hc b hb') (by rw [h]; exact irr _)
    · exact absurd (hc a ha') (by rw [h]; exact irr _)
    · exact ih ha' hb'

theorem find_unique {t : List Entry} (hok : atParseInit (some t) = .ok) {e : Entry} (he : e ∈ t) :
    t.find? (fun x => x.name == e.name) = some e := by
  cases hf : t.find? (fun x => x.name == e.name) with
  | none => have := List.find?_eq_none.mp hf e he; simp at this
  | some x =>
    have h1 := List.mem_of_find?_eq_some hf
    have h2 : x.name = e.name := by have := List.find?_some hf; simpa using this
    rw [lexLt_irrefl_names ((C19_check_accepts_iff_sorted t).1.mp hok).2 h1 he h2]

/-- The message about one line does to the record what the line says. -/
theorem absorb_line {cfg : Cfg} {P : RegPort} (hP : ForRegistration cfg P) {lm : Nat} (hlm : 2 ^ 31 - 1 ≤ lm) (cb : Bool)
    (r : Option Req) (x : RegState) {l : Str} {e : Event} (hn : NoNul l) (hne : l ≠ []) (ht : Tidy cfg P.toPort l)
    (he : HandedOver cfg l e) :
    (∀ p, ReportLine l p → absorb lm cb P r x e = some (p.update x.1, x.2 ++ p.events cb x.1)) ∧
    (OtherLine l → absorb lm cb P r x e = some x) := by
  obtain ⟨hl, hcol, hu⟩ := ht
  constructor
  · rintro p ⟨text, rfl, hs⟩
    have hpr : UrcLike cfg (43 :: regName p.dom ++ 58 :: text) := Or.inr ⟨⟨_, _, rfl, (regName_plain p.dom).2.2.1⟩, hl⟩
    rcases he with ⟨rfl, -⟩ | ⟨-, hno⟩
    · have hd := C21_prefixed_urc_delivery_partial P.endNull P.table hP.accepted (regName p.dom) text
        (regName_plain p.dom).2.2.1 (regName_plain p.dom).2.2.2.1 (fun b hb => hn b (by simp [hb])) hl
      have hf := find_unique hP.accepted (hP.entries p.dom)
      simp only at hf
      show (match processUrcPacket P.endNull true P.table (43 :: regName p.dom ++ 58 :: text) with
        | none => none
        | some (_, cs) => some (cs.foldl (runCall lm cb P) x)) = _
      rw [hd]
      unfold expectedDelivery
      rw [hf]
      simp only [List.foldl_cons, List.foldl_nil, runCall_reg hP, C44_report_partial lm hlm cb text p hs]
    · exact absurd hpr hno
  · intro ho
    have hcb : ¬ UrcLike cfg l → P.toPort.undef ≠ none := by
      intro h
      rcases hu with h' | ⟨f, hf, -⟩
      · exact absurd h' h
      · rw [hf]; simp
    obtain ⟨st, cs, e1, d1⟩ := handlePacket_delivered hP.accepted ⟨hn, hne, hl, hcol⟩ hcb he
    have hcs : ∀ c ∈ cs, ∀ t arg, c ≠ .handler (P.handler t) arg := by
      cases d1 with
      | @named name payload h _ hm =>
        intro c hc t arg e
        rw [List.mem_singleton.mp hc] at e
        cases e
        have := hP.only t _ hm rfl
        exact (ho t).2 payload (by simp only at this; rw [this])
      | ignored => intro c hc; cases hc
      | unnamed => intro c hc t arg e; rw [List.mem_singleton.mp hc] at e; cases e
      | @listed _ h _ _ hm =>
        intro c hc t arg e
        rw [List.mem_singleton.mp hc] at e
        cases e
        exact (ho t).1 (hP.only t _ hm rfl)
      | listedIgnored => intro c hc; cases hc
      | listedUnnamed => intro c hc t arg e; rw [List.mem_singleton.mp hc] at e; cases e
      | undefined => intro c hc t arg e; rw [List.mem_singleton.mp hc] at e; cases e
    have hfold : ∀ (cs : List Urc.Call) (x : RegState), (∀ c ∈ cs, ∀ t arg, c ≠ .handler (P.handler t) arg) →
        cs.foldl (runCall lm cb P) x = x := by
      intro cs
      induction cs with
      | nil => intro x _; rfl
      | cons c cs ih =>
        intro x h
        rw [List.foldl_cons, runCall_other lm cb c x (h c (by simp))]
        exact ih x (fun c hc => h c (by simp [hc]))
    have hab : absorb lm cb P r x e = (match handlePacket P.toPort e with
        | none => none
        | some (_, cs) => some (cs.foldl (runCall lm cb P) x)) := by
      rcases he with ⟨rfl, -⟩ | ⟨rfl, -⟩ <;> rfl
    rw [hab, e1]
    simp only [hfold cs x hcs]

theorem told_append (cb : Bool) : ∀ (a b : List Report) (x : RegState), told cb (a ++ b) x = told cb b (told cb a x) := by
  intro a
  induction a with
  | nil => intro b x; rfl
  | cons p a ih => intro b x; simp only [List.cons_append, told, ih]

theorem absorbAll_append (lm : Nat) (cb : Bool) (P : RegPort) (r : Option Req) : ∀ (a b : List Event) (x y : RegState),
    absorbAll lm cb P r x a = some y → absorbAll lm cb P r x (a ++ b) = absorbAll lm cb P r y b := by
  intro a
  induction a with
  | nil => intro b x y h; cases h; rfl
  | cons e a ih =>
    intro b x y h
    simp only [absorbAll, List.cons_append] at h ⊢
    cases he : absorb lm cb P r x e with
    | none => rw [he] at h; cases h
    | some z => rw [he] at h; exact ih b z y h

theorem absorb_lines {cfg : Cfg} {P : RegPort} (hP : ForRegistration cfg P) {lm : Nat} (hlm : 2 ^ 31 - 1 ≤ lm) (cb : Bool)
    (r : Option Req) {ls : List Str} {ps : List Report} (hc : Carries ls ps) : ∀ {evs : List Event} (x : RegState),
    (∀ l ∈ ls, NoNul l ∧ l ≠ [] ∧ Tidy cfg P.toPort l) → List.Forall₂ (HandedOver cfg) ls evs →
    absorbAll lm cb P r x evs = some (told cb ps x) := by
  induction hc with
  | nil => intro evs x _ h; cases h; rfl
  | report hr _ ih =>
    intro evs x hl h
    cases h with
    | cons he h =>
      obtain ⟨h1, h2, h3⟩ := hl _ List.mem_cons_self
      have hx := (absorb_line hP hlm cb r x h1 h2 h3 he).1 _ hr
      simp only [absorbAll, hx, told]
      exact ih _ (fun l hm => hl l (by simp [hm])) h
  | other ho _ ih =>
    intro evs x hl h
    cases h with
    | cons he h =>
      obtain ⟨h1, h2, h3⟩ := hl _ List.mem_cons_self
      have hx := (absorb_line hP hlm cb r x h1 h2 h3 he).2 ho
      simp only [absorbAll, hx]
      exact ih _ (fun l hm => hl l (by simp [hm])) h

/-- The response to a request. -/
theorem absorb_response {P : RegPort} {lm : Nat} (hlm : 2 ^ 31 - 1 ≤ lm) (cb : Bool) (r : Req) (x : RegState) (st : Bool)
    (lines : List Str) (ps : List Report)
    (h1 : ∀ t, st = true → r = regRequest t → List.Forall₂ (AnswerLine t) lines ps)
    (h2 : (∀ t, r ≠ regRequest t) ∨ st = false → ps = []) :
    absorb lm cb P (some r) x (.response st lines) = some (told cb ps x) := by
  cases st with
  | false => rw [h2 (Or.inr rfl)]; rfl
  | true =>
    by_cases hr : ∃ t, r = regRequest t
    · obtain ⟨t, rfl⟩ := hr
      have hf := h1 t rfl rfl
      have : ((Api.recvNetworkReg lm cb t lines x.1).2.1, x.2 ++ (Api.recvNetworkReg lm cb t lines x.1).2.2) =
          told cb ps x := by
        cases hf with
        | nil => simp [Api.recvNetworkReg, told]
        | cons h hf => exact (C55_answer_reports lm hlm cb t _ _ (.cons h hf) (by simp) x.1 x.2).2
      have hinj : ∀ u v : RegType, (some (regRequest u) = some (regRequest v)) ↔ u = v := by
        intro u v; cases u <;> cases v <;> decide
      simp only [absorb, hinj]
      rw [← this]
      cases t <;> simp
    · have hno : ∀ t, r ≠ regRequest t := fun t e => hr ⟨t, e⟩
      rw [h2 (Or.inl hno)]
      simp [absorb, hno, told]

/-! ## Reads -/

/-- Lines while nothing is pending. -/
theorem run_idle_any {cfg : Cfg} : ∀ (ls : List Str) (a : Rx), a.cmd = .noCommand →
    (∀ k, a.pfx = some k → k ≠ [] ∧ k.length ≤ 256) →
    (∀ l ∈ ls, l ≠ [] ∧ l.length ≤ 256 ∧ (UrcLike cfg l ∨ cfg.undefCb l = .ok)) →
    ∃ evs, Rx.run cfg a ls = some { a with events := a.events ++ evs } ∧ List.Forall₂ (HandedOver cfg) ls evs := by
  intro ls
  induction ls with
  | nil => intro a _ _ _; exact ⟨[], by simp [Rx.run], .nil⟩
  | cons l t ih =>
    intro a hc hp h
    obtain ⟨h1, h2, h3⟩ := h l (by simp)
    have hcl := C14_classification_partial cfg a.cmd a.pfx l h1 h2 hp
    by_cases hu : UrcLike cfg l
    · have hm : getMsgType cfg a.cmd a.pfx l = .unsolicited := by
        refine hcl.1.mpr ?_
        rcases hu with hu | hu
        · exact Or.inl hu
        · exact Or.inr ⟨hu.1, fun hw => hw.1 hc⟩
      obtain ⟨evs, hr, hf⟩ := ih { a with events := a.events ++ [.urc l] } hc hp (fun x hx => h x (by simp [hx]))
      refine ⟨.urc l :: evs, ?_, .cons (Or.inl ⟨rfl, hu⟩) hf⟩
      have hline : Rx.line cfg a l = some { a with events := a.events ++ [.urc l] } := by simp [Rx.line, hm]
      simp only [Rx.run, hline, hr]
      simp
    · have hm : getMsgType cfg a.cmd a.pfx l = .undefined :=
        hcl.2.2.mpr ⟨fun hx => hu (Or.inl hx), fun hx => hu (Or.inr ⟨hx, h2⟩), hc⟩
      have hok : cfg.undefCb l = .ok := h3.resolve_left hu
      obtain ⟨evs, hr, hf⟩ := ih { a with events := a.events ++ [.undefined l] } hc hp (fun x hx => h x (by simp [hx]))
      refine ⟨.undefined l :: evs, ?_, .cons (Or.inr ⟨rfl, hu⟩) hf⟩
      have hline : Rx.line cfg a l = some { a with events := a.events ++ [.undefined l] } := by
        simp [Rx.line, hm, Rx.undefinedLine, hok]
      simp only [Rx.run, hline, hr]
      simp

theorem reads_events {cfg : Cfg} {s s' : St} {chunks : List Str} {a a' : Rx} (hi : RxInv cfg s) (hn : NoCb cfg s)
    (hb : Between s a []) (hfit : s.readPtr.getD 0 + s.partialLen + chunks.flatten.length < cfg.size)
    (hr : Rx.run cfg a (linesOf chunks.flatten) = some a') (he : reads cfg s chunks = some s') : s'.events = a'.events := by
  obtain ⟨s1, hR, -⟩ := readsOk_exists chunks s hi hn hfit
  have := reads_of_ok hR
  rw [he] at this
  cases this
  obtain ⟨-, -, hb1⟩ := readsOk_refine hR hi hn hb
  have hrd := reads_run (cfg := cfg) (chunks := chunks) (cur := []) hr
  rw [hrd] at hb1
  exact hb1.rep.events

theorem exchange_events {cfg : Cfg} {k k' : Stack} {P : Nat} (hk : Rest cfg k P) {r : Req} (hv : ValidReq r)
    {chunks : List Str} (hfit : P + chunks.flatten.length < cfg.size) {rep : Reply} {a' : Rx}
    (hr : Rx.run cfg ⟨typeOf r.type, respPrefix r, [], k.rx.events⟩ (linesOf chunks.flatten) = some a')
    (he : exchange cfg k r chunks = some (rep, k')) : k'.rx.events = a'.events := by
  obtain ⟨tx, hsend, hwf, hwire, hcmd, hpfx⟩ := send_ok hk.tx hv
  have hpos := hk.pos
  unfold PosIn at hpos
  obtain ⟨p0, hkb, hkp⟩ := hk.between
  unfold exchange at he
  rw [hsend] at he
  simp only [hpfx, hcmd] at he
  cases hs : reads cfg { k.rx with cmd := typeOf r.type, pfx := respPrefix r } chunks with
  | none => rw [hs] at he; cases he
  | some s =>
    rw [hs] at he
    simp only [Option.some.injEq, Prod.mk.injEq] at he
    obtain ⟨-, rfl⟩ := he
    simp only
    refine reads_events (s := { k.rx with cmd := typeOf r.type, pfx := respPrefix r })
      (a := ⟨typeOf r.type, respPrefix r, [], k.rx.events⟩) ?_ ?_ ?_ ?_ hr hs
    · exact ⟨⟨hk.inv.1.len, hk.inv.1.last, hk.inv.1.items, hk.inv.1.data⟩, hk.inv.2⟩
    · exact ⟨hk.noCb.input, hk.noCb.send, hk.noCb.data, hk.noCb.urc⟩
    · exact ⟨⟨rfl, rfl, rfl, hkb.rep.items, fun h => absurd h (typeOf_ne _)⟩, hkb.text, hkb.noEol⟩
    · show k.rx.readPtr.getD 0 + k.rx.partialLen + _ < _
      omega

theorem tidy_run {cfg : Cfg} {P : RegPort} (hP : ForRegistration cfg P) {l : Str} (h : Tidy cfg P.toPort l) :
    l.length ≤ 256 ∧ (UrcLike cfg l ∨ cfg.undefCb l = .ok) :=
  ⟨h.1, h.2.2.imp_right (fun hf => (uses_ok hP.uses l).mpr hf)⟩

theorem others_handed {cfg : Cfg} {t : Pktio.CmdType} {pfx : Option Str} : ∀ (ls : List Str),
    (∀ l ∈ ls, l.length ≤ 256 ∧ ForOthers cfg t pfx l) → List.Forall₂ (HandedOver cfg) ls (ls.map .urc) := by
  intro ls
  induction ls with
  | nil => intro _; exact .nil
  | cons l ls ih =>
    intro h
    obtain ⟨g1, g2⟩ := h l (by simp)
    refine .cons (Or.inl ⟨rfl, ?_⟩) (ih fun x hx => h x (by simp [hx]))
    rcases g2 with g | ⟨g, _⟩
    · exact Or.inl g
    · exact Or.inr ⟨g, g1⟩

theorem others_mem {cfg : Cfg} {t : Pktio.CmdType} {pfx : Option Str} {body : List (Bool × Str)}
    (hm : Mixed cfg t pfx body) (l : Str) (hl : l ∈ others body) :
    l ∈ body.map (·.2) ∧ l.length ≤ 256 ∧ ForOthers cfg t pfx l := by
  unfold others at hl
  obtain ⟨x, hx, rfl⟩ := List.mem_map.mp hl
  obtain ⟨hx, hb⟩ := List.mem_filter.mp hx
  obtain ⟨b, l⟩ := x
  cases b with
  | true => simp at hb
  | false =>
    obtain ⟨_, g2, _, g4⟩ := hm (false, l) hx
    exact ⟨List.mem_map.mpr ⟨_, hx, rfl⟩, g2 rfl, g4 rfl⟩

theorem lines_ok (stream : Str) (l : Str) (h : l ∈ linesOf stream) : NoNul l ∧ l ≠ [] :=
  ⟨linesFrom_noNul _ _ (by intro b hb; cases hb) l h, linesFrom_ne_nil _ _ l h⟩

/-- One request: the record after it. -/
theorem exchange_told {cfg : Cfg} {P : RegPort} (hp : PlainPort cfg) (hP : ForRegistration cfg P) {lm : Nat}
    (hlm : 2 ^ 31 - 1 ≤ lm) (cb : Bool) {k k' : Stack} {pos : Nat} (hk : Rest cfg k pos) {r : Req} (hv : ValidReq r)
    {chunks : List Str} (hfit : pos + chunks.flatten.length < cfg.size) {rep : Reply}
    (he : exchange cfg k r chunks = some (rep, k')) {ps : List Report} (hh : Hears cfg P.toPort r chunks.flatten ps)
    (x : RegState) :
    absorbAll lm cb P (some r) x (k'.rx.events.drop k.rx.events.length) = some (told cb ps x) := by
  have hvp := respPrefix_valid hv
  rcases hh with ⟨body, final, tail, p1, p2, p3, hlines, hm, hcount, hf1, hf2, ha1, h21, h22, ha3, rfl⟩ | ⟨hS, ha⟩
  · have hlo := lines_ok chunks.flatten
    rw [hlines] at hlo
    have hne : final ≠ [] := (hlo final (by simp)).2
    have hs := forCommand_solicited (typeOf_ne _) hne hvp hf2.1
    obtain ⟨st, hfin, hst⟩ := line_final
      (a := ⟨typeOf r.type, respPrefix r, mine body, k.rx.events ++ (others body).map .urc⟩)
      hs hp.err hp.succ hne hf1 hf2.2
    have htl : ∀ l ∈ tail, l ≠ [] ∧ l.length ≤ 256 ∧ (UrcLike cfg l ∨ cfg.undefCb l = .ok) :=
      fun l hl => ⟨(hlo l (by simp [hl])).2, tidy_run hP (ha3.1 l hl)⟩
    obtain ⟨evs, hrt, hft⟩ := run_idle_any (cfg := cfg) tail
      ⟨.noCommand, none, [], k.rx.events ++ (others body).map .urc ++ [.response st (mine body)]⟩ rfl (by simp) htl
    have hrun : Rx.run cfg ⟨typeOf r.type, respPrefix r, [], k.rx.events⟩ (linesOf chunks.flatten) =
        some ⟨.noCommand, none, [], k.rx.events ++ (others body).map .urc ++ [.response st (mine body)] ++ evs⟩ := by
      rw [hlines, Rx.run_append, run_body hp.err hp.succ r body _ hvp hm hcount]
      simp only [Option.bind_some, Rx.run, hfin]
      exact hrt
    rw [exchange_events hk hv hfit hrun he]
    simp only [List.append_assoc, List.drop_left]
    have hst' : st = true ↔ Success cfg final := hst
    rw [absorbAll_append lm cb P (some r) _ _ x (told cb p1 x) (absorb_lines hP hlm cb (some r) ha1.2 x
      (fun l hl => by
        obtain ⟨g1, -⟩ := others_mem hm l hl
        have := hlo l (List.mem_append_left _ g1)
        exact ⟨this.1, this.2, ha1.1 l hl⟩)
      (others_handed _ fun l hl => (others_mem hm l hl).2))]
    simp only [List.singleton_append, absorbAll]
    rw [absorb_response hlm cb r _ st (mine body) p2 (fun t h => h21 t (hst'.mp h)) (fun h => h22 (h.imp_right (fun h hs => by
      rw [hst'.mpr hs] at h; cases h)))]
    simp only
    rw [absorb_lines hP hlm cb (some r) ha3.2 _ (fun l hl =>
      ⟨(hlo l (by simp [hl])).1, (hlo l (by simp [hl])).2, ha3.1 l hl⟩) hft, told_append, told_append]
  · have hrun := run_silent hvp (linesOf chunks.flatten) k.rx.events (fun l hl =>
      ⟨linesFrom_ne_nil chunks.flatten [] l hl, hS l hl⟩)
    rw [exchange_events hk hv hfit hrun he]
    simp only [List.drop_left]
    exact absorb_lines hP hlm cb (some r) ha.2 x (fun l hl =>
      ⟨(lines_ok _ l hl).1, (lines_ok _ l hl).2, ha.1 l hl⟩) (others_handed _ hS)

/-- Between requests. -/
theorem idle_told {cfg : Cfg} {P : RegPort} (hP : ForRegistration cfg P) {lm : Nat}
    (hlm : 2 ^ 31 - 1 ≤ lm) (cb : Bool) {k : Stack} {s : St} {pos : Nat} (hk : Rest cfg k pos)
    {chunks : List Str} (hfit : pos + chunks.flatten.length < cfg.size) (he : reads cfg k.rx chunks = some s)
    {ps : List Report} (ha : Announces cfg P.toPort (linesOf chunks.flatten) ps) (x : RegState) :
    absorbAll lm cb P none x (s.events.drop k.rx.events.length) = some (told cb ps x) := by
  have hpos := hk.pos
  unfold PosIn at hpos
  obtain ⟨p0, hkb, hkp⟩ := hk.between
  obtain ⟨evs, hrt, hft⟩ := run_idle_any (cfg := cfg) (linesOf chunks.flatten) ⟨.noCommand, p0, [], k.rx.events⟩ rfl hkp
    (fun l hl => ⟨(lines_ok _ l hl).2, tidy_run hP (ha.1 l hl)⟩)
  rw [reads_events hk.inv hk.noCb hkb (by omega) hrt he]
  simp only [List.drop_left]
  exact absorb_lines hP hlm cb none ha.2 x (fun l hl =>
    ⟨(lines_ok _ l hl).1, (lines_ok _ l hl).2, ha.1 l hl⟩) hft

theorem regReplay_told {cfg : Cfg} {m : Modem} {ans : List Req → Req → Reply} {P : RegPort}
    {reps : List Req → Req → List Report × List Report} (hp : PlainPort cfg) (hm : Speaks cfg m ans)
    (hP : ForRegistration cfg P) (ht : Tells cfg P.toPort m reps) {lm : Nat} (hlm : 2 ^ 31 - 1 ≤ lm) (cb : Bool) :
    ∀ (rs done : List Req) (k : Stack) (x : RegState), Rest cfg k (backlog m ans 0 [] done) →
    (∀ x ∈ done, ValidReq x) → (∀ x ∈ rs, ValidReq x) →
    ∃ k', regReplay cfg m lm cb P k x done rs = some (k', told cb (allReports reps done rs) x) ∧
      replay cfg m k done rs = some k' := by
  intro rs
  induction rs with
  | nil => intro done k x hk _ _; exact ⟨k, rfl, rfl⟩
  | cons r rs ih =>
    intro done k x hk hd hr
    have hv := hr r (by simp)
    obtain ⟨k1, e1, hk1, -⟩ := exchange_speaks hp hm hk hd hv
    have hd' : ∀ x ∈ done ++ [r], ValidReq x := by
      intro x hx
      rcases List.mem_append.mp hx with h | h
      · exact hd x h
      · rw [List.mem_singleton.mp h]; exact hv
    have hback := backlog_step m ans done r
    have hfit := hm.fits (done ++ [r]) r hd'
    have hfit1 := Nat.lt_of_le_of_lt (Nat.le_add_right _ _) hfit
    rw [hback] at hfit1
    obtain ⟨s2, e2, hk2⟩ := idle_reads hk1 (chunks := m.after done r) hfit1 (hm.ends done r).2
    rw [← hback] at hk2
    have t1 := exchange_told hp hP hlm cb hk hv (hm.fits done r hd) e1 (ht.during done r hd hv) x
    have t2 := idle_told hP hlm cb hk1 hfit1 e2 (ht.after done r hd hv) (told cb (reps done r).1 x)
    obtain ⟨k', e3, e4⟩ := ih (done ++ [r]) { k1 with rx := s2 } (told cb (reps done r).2 (told cb (reps done r).1 x)) hk2 hd'
      (fun x hx => hr x (by simp [hx]))
    refine ⟨k', ?_, ?_⟩
    · simp only [regReplay, e1, t1, e2, t2, e3, allReports, told_append]
    · simp only [replay, e1, e2, e4]

/-- C76: from the transport to the registration record.  For every sequence of requests, every modem, and every cut of
its bytes into reads: what the library knows about registration, and the calls of the registration event callback, are
exactly those of the reports in the bytes received - unsolicited codes and answers to registration queries -, applied
one after the other in the order of their arrival, except that those of a response are applied when it is complete. -/
theorem C76_record_partial (cfg : Cfg) (m : Modem) (ans : List Req → Req → Reply) (P : RegPort)
    (reps : List Req → Req → List Report × List Report) (hp : PlainPort cfg) (hm : Speaks cfg m ans)
    (hP : ForRegistration cfg P) (ht : Tells cfg P.toPort m reps) (lm : Nat) (hlm : 2 ^ 31 - 1 ≤ lm) (cb : Bool)
    (sent : List Req) (hs : ∀ x ∈ sent, ValidReq x) (d : AtData) :
    ∃ k, regReplay cfg m lm cb P (start cfg) (d, []) [] sent = some (k, told cb (allReports reps [] sent) (d, [])) ∧
      replay cfg m (start cfg) [] sent = some k :=
  regReplay_told hp hm hP ht hlm cb sent [] (start cfg) (d, []) (rest_start hp) (by simp) hs

theorem query_sent (lm : Nat) (w : Api.World) (cmd pfx : Str) (t : RegType) (hl : cmd.length ≤ 200) :
    (Api.queryNetworkStatus lm w cmd pfx t).2.sent = w.sent ++ [⟨cmd, .multiWithPrefix, some pfx⟩] := by
  have h := request_world w ⟨cmd, .multiWithPrefix, some pfx⟩ hl
  unfold Api.queryNetworkStatus
  split
  · rename_i e w' heq
    rw [heq] at h
    rw [show w' = _ from h]
    rfl
  · rename_i e w' heq
    rw [heq] at h
    rw [show w' = _ from h]
    rfl

/-- C76: the registration queries of the library are these requests, in this order, whatever the modem answers; each is made only if
the ones before it were. -/
theorem C76_queries (lm : Nat) (w : Api.World) (p : Api.RegPart) :
    ∃ n, 1 ≤ n ∧ n ≤ 3 ∧ (Api.queryRegStatus lm w p).2.1.sent =
      w.sent ++ ([regRequest .creg, regRequest .cgreg, regRequest .cereg] : List Req).take n := by
  have q1 := fun w => query_sent lm w (str "AT+CREG?") (str "+CREG") .creg (by decide)
  have q2 := fun w => query_sent lm w (str "AT+CGREG?") (str "+CGREG") .cgreg (by decide)
  have q3 := fun w => query_sent lm w (str "AT+CEREG?") (str "+CEREG") .cereg (by decide)
  unfold Api.queryRegStatus
  simp only []
  by_cases h : (Api.queryNetworkStatus lm w (str "AT+CREG?") (str "+CREG") .creg).1 = .success
  · simp only [h, if_true, true_and]
    split
    · exact ⟨3, by omega, by omega, by rw [q3, q2, q1]; simp [regRequest]⟩
    · exact ⟨2, by omega, by omega, by rw [q2, q1]; simp [regRequest]⟩
  · simp only [h, if_false, false_and]
    exact ⟨1, by omega, by omega, by rw [q1]; simp [regRequest]⟩

/-- What the library knows when it has been opened: searching in both domains, no location, no access technology, no
rejection. -/
def unknownRecord : AtData :=
  { cs := 2, ps := 2, lac := 0xFFFF, rac := 0xFF, tac := 0, cellId := 0xFFFFFFFF, rat := 255, csRejType := 0,
    csRejCause := 0, psRejType := 0, psRejCause := 0 }

/-- C76, from `Cellular_Init` on. -/
theorem C76_from_open_partial (cfg : Cfg) (m : Modem) (ans : List Req → Req → Reply) (P : RegPort)
    (reps : List Req → Req → List Report × List Report) (hp : PlainPort cfg) (hm : Speaks cfg m ans)
    (hP : ForRegistration cfg P) (ht : Tells cfg P.toPort m reps) (lm : Nat) (hlm : 2 ^ 31 - 1 ≤ lm) (cb : Bool)
    (sent : List Req) (hs : ∀ x ∈ sent, ValidReq x) :
    (regReplay cfg m lm cb P (start cfg) (initAtData, []) [] sent).map (·.2) =
      some (told cb (allReports reps [] sent) (unknownRecord, [])) := by
  obtain ⟨k, h, -⟩ := C76_record_partial cfg m ans P reps hp hm hP ht lm hlm cb sent hs initAtData
  rw [h]
  rfl

/-! ## An example: a modem that reports -/

/-- The configuration of the example. -/
def regCfg : Cfg := { demoCfg 200 with undefCb := fun _ => .invalidData }

/-- A port with the three registration codes and `RING`. -/
def regDemoPort : RegPort :=
  { table := [⟨str "CEREG", some 2⟩, ⟨str "CGREG", some 1⟩, ⟨str "CREG", some 0⟩, ⟨str "RING", some 9⟩],
    undef := none, endNull := false, handler := fun t => match t with | .creg => 0 | .cgreg => 1 | .cereg => 2 }

/-- A modem that answers `AT+CREG?` in odd pieces, everything else by `OK`, and reports its EPS registration after each
request. -/
def regModem : Modem :=
  { during := fun _ r => if r = regRequest .creg then
        [str "\r\n+CR", str "EG: 2,5,\"1A\",\"2\",7\r\nRING\r\n+CREG: 3\r", str "\nOK\r\n"] else [str "OK\r", str "\n"]
    after := fun _ _ => [str "+CERE", str "G: 1,\"3\",\"4\",9\r\nRING\r\n"] }

def regModemAnswer : List Req → Req → Reply := fun _ r =>
  if r = regRequest .creg then .lines [str "+CREG: 2,5,\"1A\",\"2\",7", str "+CREG: 3"] else .lines []

/-- What it reports. -/
def regModemReports : List Req → Req → List Report × List Report := fun _ r =>
  (if r = regRequest .creg then [⟨.creg, 5, some (26, 2), some 7, none, none⟩, ⟨.creg, 3, none, none, none, none⟩] else [],
    [⟨.cereg, 1, some (3, 4), some 9, none, none⟩])

theorem regDemo_port : PlainPort regCfg ∧ ForRegistration regCfg regDemoPort := by
  refine ⟨⟨by decide, by decide, rfl, fun l => Nat.le_refl _⟩, by decide +kernel, fun l => rfl, ?_, ?_⟩
  · intro t; cases t <;> decide
  · intro t e he
    simp only [regDemoPort, List.mem_cons, List.not_mem_nil, or_false] at he
    rcases he with rfl | rfl | rfl | rfl <;> cases t <;> decide

theorem regDemo_short (h : List Req) (r : Req) : (regModem.during h r).flatten.length ≤ 60 ∧
    (regModem.after h r).flatten.length ≤ 30 := by
  unfold regModem
  simp only
  refine ⟨?_, by decide +kernel⟩
  split <;> decide +kernel

theorem regDemo_backlog : ∀ (rs done : List Req) (n : Nat), n ≤ 90 →
    backlog regModem regModemAnswer n done rs ≤ 90 := by
  intro rs
  induction rs with
  | nil => intro done n h; exact h
  | cons r rs ih =>
    intro done n _
    simp only [backlog]
    apply ih
    have h1 : regModemAnswer done r ≠ .timeout := by
      unfold regModemAnswer
      split <;> simp
    have h2 := regDemo_short done r
    split
    · rename_i h; exact absurd h h1
    · omega

theorem regDemo_body : Mixed regCfg .multiWithPrefix (some (str "+CREG"))
    [(true, str "+CREG: 2,5,\"1A\",\"2\",7"), (false, str "RING"), (true, str "+CREG: 3")] := by
  intro x hx
  simp only [List.mem_cons, List.not_mem_nil, or_false] at hx
  rcases hx with rfl | rfl | rfl
  · refine ⟨by decide +kernel, by decide +kernel, fun _ => ⟨⟨?_, fun _ => ⟨by decide, _, rfl, ?_⟩⟩, ?_, ?_⟩, nofun⟩
    · rw [← isUrcToken_iff]; decide +kernel
    · exact ⟨str ": 2,5,\"1A\",\"2\",7", by decide +kernel⟩
    · unfold Success
      rw [← isToken_iff (by decide +kernel) (by decide +kernel), ← isToken_iff (by decide +kernel) (by decide +kernel)]
      decide +kernel
    · rw [← isToken_iff (by decide +kernel) (by decide +kernel)]
      decide +kernel
  · exact ⟨by decide, by decide, nofun, fun _ => Or.inl ⟨_, rfl, by decide⟩⟩
  · refine ⟨by decide +kernel, by decide +kernel, fun _ => ⟨⟨?_, fun _ => ⟨by decide, _, rfl, ?_⟩⟩, ?_, ?_⟩, nofun⟩
    · rw [← isUrcToken_iff]; decide +kernel
    · exact ⟨str ": 3", by decide +kernel⟩
    · unfold Success
      rw [← isToken_iff (by decide +kernel) (by decide +kernel), ← isToken_iff (by decide +kernel) (by decide +kernel)]
      decide +kernel
    · rw [← isToken_iff (by decide +kernel) (by decide +kernel)]
      decide +kernel

theorem regDemo_speaks : Speaks regCfg regModem regModemAnswer where
  answers := by
    intro h r _ hv
    left
    by_cases hr : r = regRequest .creg
    · subst hr
      refine ⟨[(true, str "+CREG: 2,5,\"1A\",\"2\",7"), (false, str "RING"), (true, str "+CREG: 3")], str "OK", [], ?_,
        regDemo_body, trivial, by decide, demo_ok _ _, fun _ => ?_, fun h => absurd demo_success h⟩
      · simp only [regModem, if_true]; decide +kernel
      · simp only [regModemAnswer, if_true]; rfl
    · refine ⟨[], str "OK", [], ?_, nofun, ?_, by decide, demo_ok _ _, fun _ => ?_,
        fun h => absurd demo_success h⟩
      · simp only [regModem, if_neg hr]; decide +kernel
      · cases ht : r.type <;> simp [LineCount, mine]
      · simp only [regModemAnswer, if_neg hr]; rfl
  ends := by
    intro h r
    refine ⟨?_, ?_⟩
    · unfold regModem
      simp only
      split <;> (intro b hb; revert b; decide +kernel)
    · intro b hb; revert b; unfold regModem; simp only; decide +kernel
  fits := by
    intro h r _
    have k4 : regCfg.size = 200 := rfl
    have k1 := (regDemo_short h r).1
    have k2 := regDemo_backlog h [] 0 (by omega)
    omega

theorem regDemo_ring : Tidy regCfg regDemoPort.toPort (str "RING") ∧ OtherLine (str "RING") := by
  refine ⟨⟨by decide, ?_, Or.inl (Or.inl ⟨_, rfl, by decide⟩)⟩, ?_⟩
  · rintro ⟨r, h⟩; revert h; simp [str]
  · intro t; cases t <;> exact ⟨by decide, fun text h => by revert h; simp [str, regName]⟩

theorem regDemo_tells : Tells regCfg regDemoPort.toPort regModem regModemReports where
  during := by
    intro h r _ hv
    left
    by_cases hr : r = regRequest .creg
    · subst hr
      refine ⟨[(true, str "+CREG: 2,5,\"1A\",\"2\",7"), (false, str "RING"), (true, str "+CREG: 3")], str "OK", [],
        [], [⟨.creg, 5, some (26, 2), some 7, none, none⟩, ⟨.creg, 3, none, none, none, none⟩], [], ?_, regDemo_body, trivial, by decide, demo_ok _ _, ⟨?_, .other regDemo_ring.2 .nil⟩, ?_, ?_,
        ⟨nofun, .nil⟩, by simp only [regModemReports, if_true]; rfl⟩
      · simp only [regModem, if_true]; decide +kernel
      · intro l hl
        have : l = str "RING" := by simpa [others] using hl
        rw [this]; exact regDemo_ring.1
      · intro t _ ht
        have : t = .creg := by cases t <;> first | rfl | (revert ht; decide)
        subst this
        refine .cons ?_ (.cons ?_ .nil)
        · exact AnswerLine.answer (first := str "+CREG: 2") (rest := str "5,\"1A\",\"2\",7")
            (fs := [str "5", str "1A", str "2", str "7"]) rfl
            ⟨by decide, by rintro a c h; cases h; decide, by rintro v h; cases h; decide, nofun, nofun⟩
            (by decide) (by unfold NoComma; decide) (by decide)
            ⟨str "5", [str "1A", str "2"], [str "7"], [], [], rfl, .one rfl (by decide),
              .cons ((Numeral.one (b := 49) (d := 1) rfl (by decide)).snoc (b := 65) (d := 10) rfl (by decide)) (.cons (.one rfl (by decide)) .nil),
              .cons (.one rfl (by decide)) .nil, .nil, .nil⟩ (by decide +kernel)
        · refine AnswerLine.report (l := str "+CREG: 3") rfl ⟨str " 3", by decide,
            ⟨by decide, nofun, nofun, nofun, nofun⟩, by decide, [str "3"], ?_, by decide +kernel⟩ (by decide)
            (by unfold NoComma; decide)
          exact ⟨str "3", [], [], [], [], rfl, .one rfl (by decide), .nil, .nil, .nil, .nil⟩
      · rintro (h | h)
        · exact absurd rfl (h .creg)
        · exact absurd demo_success h
    · refine ⟨[], str "OK", [], [], [], [], ?_, nofun, ?_, by decide, demo_ok _ _,
        ⟨nofun, .nil⟩, ?_, fun _ => rfl, ⟨nofun, .nil⟩, ?_⟩
      · simp only [regModem, if_neg hr]; decide +kernel
      · cases ht : r.type <;> simp [LineCount, mine]
      · intro t _ _; exact .nil
      · simp only [regModemReports, if_neg hr]; rfl
  after := by
    intro h r _ _
    have hl : linesOf (regModem.after h r).flatten = [str "+CEREG: 1,\"3\",\"4\",9", str "RING"] := by
      unfold regModem; simp only; decide +kernel
    have hrep : ReportLine (str "+CEREG: 1,\"3\",\"4\",9") ⟨.cereg, 1, some (3, 4), some 9, none, none⟩ :=
      ⟨str " 1,\"3\",\"4\",9", by decide,
        ⟨by decide, by rintro a c h; cases h; decide, by rintro v h; cases h; decide, nofun, nofun⟩, by decide,
        [str "1", str "3", str "4", str "9"],
        ⟨str "1", [str "3", str "4"], [str "9"], [], [], rfl, .one rfl (by decide),
          .cons (.one rfl (by decide)) (.cons (.one rfl (by decide)) .nil), .cons (.one rfl (by decide)) .nil, .nil, .nil⟩,
        by decide +kernel⟩
    rw [hl]
    refine ⟨?_, .report hrep (.other regDemo_ring.2 .nil)⟩
    intro l hm
    simp only [List.mem_cons, List.not_mem_nil, or_false] at hm
    rcases hm with rfl | rfl
    · refine ⟨by decide, ?_, Or.inl (Or.inr ⟨?_, by decide⟩)⟩
      · rintro ⟨r, h⟩; revert h; simp [str]
      · exact ⟨str "CEREG", str " 1,\"3\",\"4\",9", by decide, by unfold PrefixChar; decide⟩
    · exact regDemo_ring.1

/-- All hypotheses of C76 are met by this modem and port; for two requests the record ends with the answer to the query
and the EPS reports, and the callback is called at every change of the status of a domain: roaming, then denied, then
(EPS) registered.  The second EPS report changes nothing. -/
example : PlainPort regCfg ∧ Speaks regCfg regModem regModemAnswer ∧ ForRegistration regCfg regDemoPort ∧
    Tells regCfg regDemoPort.toPort regModem regModemReports ∧
    (∀ x ∈ [regRequest .creg, clockQuery], ValidReq x) ∧
    (let x := told true (allReports regModemReports [] [regRequest .creg, clockQuery]) (initAtData, [])
     x.1.cs = 3 ∧ x.1.ps = 1 ∧ x.1.lac = 0xFFFF ∧ x.1.tac = 3 ∧ x.1.cellId = 4 ∧ x.1.rat = 9 ∧
     x.2.map (fun e => (e.info.cs, e.info.ps)) = [(5, 2), (3, 2), (3, 1)]) := by
  refine ⟨regDemo_port.1, regDemo_speaks, regDemo_port.2, regDemo_tells, ?_, by decide +kernel⟩
  intro x hx
  simp only [List.mem_cons, List.not_mem_nil, or_false] at hx
  rcases hx with rfl | rfl
  · exact valid_query _ (by decide) (by decide)
  · exact valid_clock

end Cellular.Props
