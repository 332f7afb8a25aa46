import Verif.RegWire
/-!
# The service status over the byte stream: C84

`Cellular_CommonGetServiceStatus` through the whole stack, while registration codes come in: between the lines of its answers,
between its own queries, and between the calls of the program.
-/

namespace Cellular.RegWire
open Cellular Cellular.Reg Cellular.Pktio Cellular.Urc Cellular.Dispatch Cellular.Wire Cellular.Api Cellular.Signal

/-- The library on its transport: the packet layer, the registration record with the calls of the event callback, the requests made so
far, and what the modem sends (cut into reads) before the next one. -/
structure Link where
  k : Stack
  x : RegState
  sent : List Req
  late : List Str

/-- The library right after it was opened; `d` is its record. -/
def opened (cfg : Cfg) (d : AtData) : Link := ⟨start cfg, (d, []), [], []⟩

/-- One request: what arrived since the last one is handled (by the receive task, cellular_pktio.c:1060-1236), the command is sent
and answered (cellular_pkthandler.c:196-262), and what arrives meanwhile is handled. -/
def ask (cfg : Cfg) (m : Modem) (lm : Nat) (cb : Bool) (P : RegPort) (l : Link) (r : Req) : Option (Reply × Link) :=
  match reads cfg l.k.rx l.late with
  | none => none
  | some s =>
    match absorbAll lm cb P none l.x (s.events.drop l.k.rx.events.length) with
    | none => none
    | some x0 =>
      match exchange cfg { l.k with rx := s } r (m.during l.sent r) with
      | none => none
      | some (rep, k1) =>
        match absorbAll lm cb P (some r) x0 (k1.rx.events.drop s.events.length) with
        | none => none
        | some x1 => some (rep, ⟨k1, x1, l.sent ++ [r], m.after l.sent r⟩)

/-- A sequence of requests. -/
def asks (cfg : Cfg) (m : Modem) (lm : Nat) (cb : Bool) (P : RegPort) (l : Link) : List Req → Option Link
  | [] => some l
  | r :: rs =>
    match ask cfg m lm cb P l r with
    | none => none
    | some (_, l) => asks cfg m lm cb P l rs

/-- The packet status of a request whose response callback returns `f` of the lines (cellular_pkthandler.c:86-117, 234-252). -/
def pktOf (f : List Str → PktStatus) : Reply → PktStatus
  | .sendFailed => .sendError
  | .timeout => .timedOut
  | .error => .failure
  | .lines ls => f ls

/-- `queryNetworkStatus`, cellular_3gpp_api.c:856-878.  The status of the response callback is that of its parser, which does not
depend on the record (`recvReg_status`). -/
def netQuery (cfg : Cfg) (m : Modem) (lm : Nat) (cb : Bool) (P : RegPort) (l : Link) (t : RegType) : Option (CellErr × Link) :=
  (ask cfg m lm cb P l (regRequest t)).map (fun q =>
    (translatePkt (pktOf (fun ls => (recvNetworkReg lm cb t ls l.x.1).1) q.1), q.2))

/-- What `atcmdQueryRegStatus` copies from the record, cellular_3gpp_api.c:1483-1492. -/
def copied (d : AtData) : RegPart :=
  { rat := d.rat, cs := d.cs, ps := d.ps, csRejCause := d.csRejCause, csRejType := d.csRejType, psRejCause := d.psRejCause,
    psRejType := d.psRejType }

/-- `atcmdQueryRegStatus`, cellular_3gpp_api.c:1445-1498. -/
def regStatus (cfg : Cfg) (m : Modem) (lm : Nat) (cb : Bool) (P : RegPort) (l : Link) (p : RegPart) : Option (CellErr × Link × RegPart) :=
  match netQuery cfg m lm cb P l .creg with
  | none => none
  | some (.success, l1) =>
    match netQuery cfg m lm cb P l1 .cgreg with
    | none => none
    | some (_, l2) =>
      if l2.x.1.ps ≠ stHome ∧ l2.x.1.ps ≠ stRoaming then
        match netQuery cfg m lm cb P l2 .cereg with
        | none => none
        | some (e, l3) => some (e, l3, if e = .success then copied l3.x.1 else p)
      else some (.success, l2, copied l2.x.1)
  | some (e, l1) => some (e, l1, p)

/-- `_Cellular_AtcmdRequestWithCallback` of the operator queries of `atcmdUpdateMccMnc`, cellular_3gpp_api.c:1411-1441. -/
def operator (cfg : Cfg) (m : Modem) (lm : Nat) (cb : Bool) (P : RegPort) (l : Link) (o : OpInfo) : Option (Link × OpInfo) :=
  match ask cfg m lm cb P l ⟨str "AT+COPS=3,2", .noResult, none⟩ with
  | none => none
  | some (.lines _, l1) =>
    match ask cfg m lm cb P l1 ⟨str "AT+COPS?", .withPrefix, some (str "+COPS")⟩ with
    | none => none
    | some (.lines ls, l2) => some (l2, (recvCops lm ls o).2)
    | some (_, l2) => some (l2, o)
  | some (_, l1) => some (l1, o)

/-- `Cellular_CommonGetServiceStatus`, cellular_3gpp_api.c:1837-1886. -/
def serviceStatus (cfg : Cfg) (m : Modem) (lm : Nat) (cb : Bool) (P : RegPort) (lib : Option (Bool × Bool × Bool)) (l : Link)
    (p : Option ServiceStatus) : Option (CellErr × Link × Option ServiceStatus) :=
  match checkLibraryStatus lib with
  | .success =>
    match p with
    | none => some (.badParameter, l, p)
    | some old =>
      match regStatus cfg m lm cb P l old.reg with
      | none => none
      | some (_, l1, reg) =>
        match operator cfg m lm cb P l1 OpInfo.zero with
        | none => none
        | some (l2, o) => some (.success, l2, some ⟨reg, o.mode, ⟨o.mcc, o.mnc⟩, o.name, o.format⟩)
  | e => some (e, l, p)

end Cellular.RegWire

namespace Cellular.Spec
open Cellular Cellular.Reg Cellular.RegWire
open Cellular.Api (Req Reply)

/-- All reports heard from the opening of the library until the last of the requests `sent` was answered. -/
def heard (reps : List Req → Req → List Report × List Report) (sent : List Req) : List Report :=
  match sent.getLast? with
  | none => []
  | some r => allReports reps [] sent.dropLast ++ (reps sent.dropLast r).1

/-- The modem answers the query with at least one line and success. -/
def Replies (ans : List Req → Req → Reply) (done : List Req) (r : Req) : Prop := ∃ l ls, ans done r = .lines (l :: ls)

/-- What a service status says of a registration record: each member under its own name. -/
def shown (d : AtData) : Api.RegPart :=
  { rat := d.rat
    cs := d.cs
    ps := d.ps
    csRejCause := d.csRejCause
    csRejType := d.csRejType
    psRejCause := d.psRejCause
    psRejType := d.psRejType }

open Classical in
/-- The registration a service status query made after the requests `done` reports, `old` being what the caller's object contained:
the record after the queries of the CS and PS registration, if the modem is registered for packet data then; otherwise that after the
query of the EPS registration.  Unless the CS query, or the EPS query if it is needed, is not answered. -/
noncomputable def serviceRecord (ans : List Req → Req → Reply) (reps : List Req → Req → List Report × List Report) (cb : Bool) (d : AtData)
    (done : List Req) (old : Api.RegPart) : List Req × Api.RegPart :=
  let record (sent : List Req) : AtData := (told cb (heard reps sent) (d, [])).1
  let s1 := done ++ [regRequest .creg]
  let s2 := s1 ++ [regRequest .cgreg]
  let s3 := s2 ++ [regRequest .cereg]
  if Replies ans done (regRequest .creg) then
    if (record s2).ps = 1 ∨ (record s2).ps = 5 then (s2, shown (record s2))
    else if Replies ans s2 (regRequest .cereg) then (s3, shown (record s3)) else (s3, old)
  else (s1, old)

end Cellular.Spec

namespace Cellular.Props
open Cellular Cellular.Spec Cellular.Reg Cellular.Pktio Cellular.Urc Cellular.Dispatch Cellular.Wire Cellular.RegWire Cellular.Signal
open Cellular.Api (Req Reply RegPart ServiceStatus OpInfo)

theorem copied_shown (d : AtData) : copied d = shown d := rfl

theorem field_status (lm base : Nat) (tok : Str) (ok : Int → Bool) (f g : Nat → AtData → AtData) (d d' : AtData) :
    (field lm base tok ok f d).1 = (field lm base tok ok g d').1 := by
  unfold field
  split
  · split <;> rfl
  · rfl

theorem parseField_status (lm : Nat) (t : RegType) (i : Nat) (tok : Str) (d d' : AtData) :
    (parseField lm t i tok d).1 = (parseField lm t i tok d').1 := by
  unfold parseField
  split
  · rfl
  · rename_i pos _
    cases pos <;> first | rfl | exact field_status _ _ _ _ _ _ _ _

theorem loop_status (lm : Nat) (t : RegType) : ∀ (n i : Nat) (tok rest : Str) (d d' : AtData), rest.length ≤ n →
    (Reg.loop lm t i tok rest d).1 = (Reg.loop lm t i tok rest d').1 := by
  intro n
  induction n with
  | zero =>
    intro i tok rest d d' h
    have h0 : rest = [] := List.length_eq_zero_iff.mp (by omega)
    subst h0
    have hs := parseField_status lm t i tok d d'
    rw [Reg.loop, Reg.loop]
    generalize parseField lm t i tok d = a at hs ⊢
    generalize parseField lm t i tok d' = b at hs ⊢
    obtain ⟨a1, a2⟩ := a
    obtain ⟨b1, b2⟩ := b
    simp only at hs
    subst hs
    cases a1 <;> rfl
  | succ n ih =>
    intro i tok rest d d' h
    have hs := parseField_status lm t i tok d d'
    rw [Reg.loop, Reg.loop]
    generalize parseField lm t i tok d = a at hs ⊢
    generalize parseField lm t i tok d' = b at hs ⊢
    obtain ⟨a1, a2⟩ := a
    obtain ⟨b1, b2⟩ := b
    simp only at hs
    subst hs
    cases a1 with
    | ok =>
      simp only
      split
      · rename_i rest' tok' hg
        have := getNextTok_rest_lt _ _ _ hg
        exact ih _ _ _ _ _ (by omega)
      · rfl
    | _ => rfl

theorem parseReg_status (lm : Nat) (cb cb' : Bool) (payload : Option Str) (isUrc : Bool) (t : RegType) (d d' : AtData) :
    (parseRegStatus lm cb payload isUrc t d).status = (parseRegStatus lm cb' payload isUrc t d').status := by
  unfold parseRegStatus
  split
  · rfl
  · split
    · split
      · split
        · exact loop_status lm t _ _ _ _ _ _ (Nat.le_refl _)
        · rfl
      · rfl
    · rfl

theorem regLoop_status (lm : Nat) (cb : Bool) (t : RegType) : ∀ (ls : List Str) (d d' : AtData),
    (Api.recvRegLoop lm cb t ls d).1 = (Api.recvRegLoop lm cb t ls d').1 := by
  intro ls
  induction ls with
  | nil => intro d d'; rfl
  | cons l ls ih =>
    intro d d'
    unfold Api.recvRegLoop
    simp only []
    have key : ∀ o o' : Reg.Out, o.status = o'.status →
        (match o.status with
          | .ok => ((Api.recvRegLoop lm cb t ls o.data).1, (Api.recvRegLoop lm cb t ls o.data).2.1, o.events ++ (Api.recvRegLoop lm cb t ls o.data).2.2)
          | e => (e, o.data, o.events)).1 =
        (match o'.status with
          | .ok => ((Api.recvRegLoop lm cb t ls o'.data).1, (Api.recvRegLoop lm cb t ls o'.data).2.1, o'.events ++ (Api.recvRegLoop lm cb t ls o'.data).2.2)
          | e => (e, o'.data, o'.events)).1 := by
      intro o o' h
      rw [← h]
      cases o.status <;> first | exact ih _ _ | rfl
    refine key _ _ ?_
    split
    · split
      · exact parseReg_status _ _ _ _ _ _ _ _
      · rfl
    · exact parseReg_status _ _ _ _ _ _ _ _

/-- The status of the response callback does not depend on the record. -/
theorem recvReg_status (lm : Nat) (cb : Bool) (t : RegType) (ls : List Str) (d d' : AtData) :
    (Api.recvNetworkReg lm cb t ls d).1 = (Api.recvNetworkReg lm cb t ls d').1 := by
  unfold Api.recvNetworkReg
  split
  · rfl
  · exact regLoop_status _ _ _ _ _ _

theorem exchange_rep {cfg : Cfg} {k k' : Stack} {pos : Nat} (hk : Rest cfg k pos) {r : Req} (hv : ValidReq r) {chunks : List Str} {rep : Reply}
    (he : exchange cfg k r chunks = some (rep, k')) : rep = answer (k'.rx.events.drop k.rx.events.length) := by
  obtain ⟨tx, hsend, hwf, hwire, hcmd, hpfx⟩ := send_ok hk.tx hv
  unfold exchange at he
  rw [hsend] at he
  simp only [hpfx, hcmd] at he
  cases hs : reads cfg { k.rx with cmd := typeOf r.type, pfx := respPrefix r } chunks with
  | none => rw [hs] at he; cases he
  | some s =>
    rw [hs] at he
    simp only [Option.some.injEq, Prod.mk.injEq] at he
    obtain ⟨rfl, rfl⟩ := he
    rfl

/-- What was answered, if the modem's bytes tell of reports. -/
theorem exchange_reply {cfg : Cfg} {P : RegPort} (hp : PlainPort cfg) (hP : ForRegistration cfg P) {k k' : Stack} {pos : Nat}
    (hk : Rest cfg k pos) {t : RegType} (hv : ValidReq (regRequest t))
    {chunks : List Str} (hfit : pos + chunks.flatten.length < cfg.size) {ls : List Str}
    (he : exchange cfg k (regRequest t) chunks = some (.lines ls, k')) {ps : List Report}
    (hh : Hears cfg P.toPort (regRequest t) chunks.flatten ps) : ∃ p2, List.Forall₂ (AnswerLine t) ls p2 := by
  have hvp := respPrefix_valid hv
  have hrep := exchange_rep hk hv he
  rcases hh with ⟨body, final, tail, p1, p2, p3, hlines, hm, hcount, hf1, hf2, ha1, h21, h22, ha3, rfl⟩ | ⟨hS, ha⟩
  · have hlo := lines_ok chunks.flatten
    rw [hlines] at hlo
    have hne : final ≠ [] := (hlo final (by simp)).2
    have hs := forCommand_solicited (typeOf_ne _) hne hvp hf2.1
    obtain ⟨st, hfin, hst⟩ := line_final
      (a := ⟨typeOf (regRequest t).type, respPrefix (regRequest t), mine body, k.rx.events ++ (others body).map .urc⟩)
      hs hp.err hp.succ hne hf1 hf2.2
    have htl : ∀ l ∈ tail, l ≠ [] ∧ l.length ≤ 256 ∧ (UrcLike cfg l ∨ cfg.undefCb l = .ok) :=
      fun l hl => ⟨(hlo l (by simp [hl])).2, tidy_run hP (ha3.1 l hl)⟩
    obtain ⟨evs, hrt, hft⟩ := run_idle_any (cfg := cfg) tail
      ⟨.noCommand, none, [], k.rx.events ++ (others body).map .urc ++ [.response st (mine body)]⟩ rfl (by simp) htl
    have hrun : Rx.run cfg ⟨typeOf (regRequest t).type, respPrefix (regRequest t), [], k.rx.events⟩ (linesOf chunks.flatten) =
        some ⟨.noCommand, none, [], k.rx.events ++ (others body).map .urc ++ [.response st (mine body)] ++ evs⟩ := by
      rw [hlines, Rx.run_append, run_body hp.err hp.succ (regRequest t) body _ hvp hm hcount]
      simp only [Option.bind_some, Rx.run, hfin]
      exact hrt
    rw [exchange_events hk hv hfit hrun he] at hrep
    simp only [List.append_assoc, List.drop_left, List.singleton_append] at hrep
    rw [answer_urcs] at hrep
    have hst' : st = true ↔ Success cfg final := hst
    cases st with
    | false => simp at hrep
    | true =>
      simp at hrep
      rw [hrep]
      exact ⟨p2, h21 t (hst'.mp rfl) rfl⟩
  · have hrun := run_silent hvp (linesOf chunks.flatten) k.rx.events (fun l hl =>
      ⟨linesFrom_ne_nil chunks.flatten [] l hl, hS l hl⟩)
    rw [exchange_events hk hv hfit hrun he] at hrep
    simp only [List.drop_left, answer_none] at hrep
    cases hrep

/-! ## Requests -/

/-- The library after the requests `l.sent`, on a modem that speaks and tells. -/
structure Attached (cfg : Cfg) (m : Modem) (ans : List Req → Req → Reply) (reps : List Req → Req → List Report × List Report) (cb : Bool)
    (d : AtData) (l : Link) : Prop where
  valid : ∀ x ∈ l.sent, ValidReq x
  rest : (l.sent = [] ∧ l.late = [] ∧ Rest cfg l.k 0) ∨
    ∃ done r pos, l.sent = done ++ [r] ∧ l.late = m.after done r ∧ Rest cfg l.k pos ∧
      backlog m ans 0 [] (done ++ [r]) = pos + (m.after done r).flatten.length
  record : l.x = told cb (heard reps l.sent) (d, [])

theorem linked_opened {cfg : Cfg} {m : Modem} {ans : List Req → Req → Reply} {reps : List Req → Req → List Report × List Report} {cb : Bool}
    {d : AtData} (hp : PlainPort cfg) : Attached cfg m ans reps cb d (opened cfg d) :=
  ⟨by simp [opened], .inl ⟨rfl, rfl, rest_start hp⟩, rfl⟩

theorem heard_snoc (reps : List Req → Req → List Report × List Report) (done : List Req) (r : Req) :
    heard reps (done ++ [r]) = allReports reps [] done ++ (reps done r).1 := by
  simp [heard]

theorem allReports_snoc (reps : List Req → Req → List Report × List Report) (r : Req) : ∀ (rs done : List Req),
    allReports reps done (rs ++ [r]) = allReports reps done rs ++ ((reps (done ++ rs) r).1 ++ (reps (done ++ rs) r).2) := by
  intro rs
  induction rs with
  | nil => intro done; simp [allReports]
  | cons a rs ih => intro done; simp [allReports, ih]

theorem ask_told {cfg : Cfg} {m : Modem} {ans : List Req → Req → Reply} {P : RegPort}
    {reps : List Req → Req → List Report × List Report} (hp : PlainPort cfg) (hm : Speaks cfg m ans)
    (hP : ForRegistration cfg P) (ht : Tells cfg P.toPort m reps) {lm : Nat} (hlm : 2 ^ 31 - 1 ≤ lm) {cb : Bool} {d : AtData} {l : Link}
    (hl : Attached cfg m ans reps cb d l) {r : Req} (hv : ValidReq r) :
    ∃ l', ask cfg m lm cb P l r = some (ans l.sent r, l') ∧ Attached cfg m ans reps cb d l' ∧ l'.sent = l.sent ++ [r] ∧
      (∀ t ls, r = regRequest t → ans l.sent r = .lines ls → ∃ p2, List.Forall₂ (AnswerLine t) ls p2) := by
  have h1 : ∃ s, reads cfg l.k.rx l.late = some s ∧ Rest cfg { l.k with rx := s } (backlog m ans 0 [] l.sent) ∧
      absorbAll lm cb P none l.x (s.events.drop l.k.rx.events.length) = some (told cb (allReports reps [] l.sent) (d, [])) := by
    rcases hl.rest with ⟨e1, e2, e3⟩ | ⟨done, q, pos, e1, e2, e3, hback⟩
    · refine ⟨l.k.rx, by rw [e2]; rfl, by rw [e1]; exact e3, ?_⟩
      rw [hl.record, e1]
      simp [absorbAll, heard, allReports]
    · have hd : ∀ x ∈ done, ValidReq x := fun x hx => hl.valid x (by rw [e1]; simp [hx])
      have hq : ValidReq q := hl.valid q (by rw [e1]; simp)
      have hfit := hm.fits l.sent r hl.valid
      rw [e1] at hfit
      have hfit1 := Nat.lt_of_le_of_lt (Nat.le_add_right _ _) hfit
      rw [hback] at hfit1
      obtain ⟨s2, r2, hk2⟩ := idle_reads e3 (chunks := m.after done q) hfit1 (hm.ends done q).2
      rw [← hback] at hk2
      refine ⟨s2, by rw [e2]; exact r2, by rw [e1]; exact hk2, ?_⟩
      rw [idle_told hP hlm cb e3 hfit1 r2 (ht.after done q hd hq) l.x, hl.record, e1, heard_snoc, allReports_snoc, ← told_append]
      simp
  obtain ⟨s, r1, hk, a1⟩ := h1
  obtain ⟨k1, e1, hk1, -⟩ := exchange_speaks hp hm hk hl.valid hv
  have a2 := exchange_told hp hP hlm cb hk hv (hm.fits l.sent r hl.valid) e1 (ht.during l.sent r hl.valid hv)
    (told cb (allReports reps [] l.sent) (d, []))
  refine ⟨⟨k1, told cb (reps l.sent r).1 (told cb (allReports reps [] l.sent) (d, [])), _, _⟩, ?_, ⟨?_, .inr ⟨l.sent, r, _, rfl, rfl, hk1, backlog_step m ans l.sent r⟩, ?_⟩, rfl, ?_⟩
  · unfold ask
    simp only [r1, a1, e1]
    simp only at a2
    rw [a2]
  · intro x hx
    rcases List.mem_append.mp hx with h | h
    · exact hl.valid x h
    · rw [List.mem_singleton.mp h]; exact hv
  · simp only [heard_snoc, told_append]
  · rintro t ls rfl hans
    rw [hans] at e1
    exact exchange_reply hp hP hk hv (hm.fits l.sent _ hl.valid) e1 (ht.during l.sent _ hl.valid hv)

theorem regRequest_valid (t : RegType) : ValidReq (regRequest t) := by
  cases t <;> exact ⟨by decide, by simp [regRequest], by
    rintro k ⟨⟩
    decide⟩

theorem asks_told {cfg : Cfg} {m : Modem} {ans : List Req → Req → Reply} {P : RegPort}
    {reps : List Req → Req → List Report × List Report} (hp : PlainPort cfg) (hm : Speaks cfg m ans)
    (hP : ForRegistration cfg P) (ht : Tells cfg P.toPort m reps) {lm : Nat} (hlm : 2 ^ 31 - 1 ≤ lm) {cb : Bool} {d : AtData} :
    ∀ (rs : List Req) (l : Link), Attached cfg m ans reps cb d l → (∀ x ∈ rs, ValidReq x) →
    ∃ l', asks cfg m lm cb P l rs = some l' ∧ Attached cfg m ans reps cb d l' ∧ l'.sent = l.sent ++ rs := by
  intro rs
  induction rs with
  | nil => intro l hl _; exact ⟨l, rfl, hl, by simp⟩
  | cons r rs ih =>
    intro l hl hv
    obtain ⟨l1, e1, h1, s1, -⟩ := ask_told hp hm hP ht hlm hl (hv r (by simp))
    obtain ⟨l2, e2, h2, s2⟩ := ih l1 h1 (fun x hx => hv x (by simp [hx]))
    exact ⟨l2, by simp only [asks, e1, e2], h2, by rw [s2, s1]; simp⟩

theorem netQuery_told {cfg : Cfg} {m : Modem} {ans : List Req → Req → Reply} {P : RegPort}
    {reps : List Req → Req → List Report × List Report} (hp : PlainPort cfg) (hm : Speaks cfg m ans)
    (hP : ForRegistration cfg P) (ht : Tells cfg P.toPort m reps) {lm : Nat} (hlm : 2 ^ 31 - 1 ≤ lm) {cb : Bool} {d : AtData} {l : Link}
    (hl : Attached cfg m ans reps cb d l) (t : RegType) :
    ∃ e l', netQuery cfg m lm cb P l t = some (e, l') ∧ Attached cfg m ans reps cb d l' ∧ l'.sent = l.sent ++ [regRequest t] ∧
      (e = .success ↔ Replies ans l.sent (regRequest t)) := by
  obtain ⟨l', e1, h1, s1, ha⟩ := ask_told hp hm hP ht hlm hl (regRequest_valid t)
  refine ⟨translatePkt (pktOf (fun ls => (Api.recvNetworkReg lm cb t ls l.x.1).1) (ans l.sent (regRequest t))), l',
    by simp only [netQuery, e1, Option.map_some], h1, s1, ?_⟩
  cases hr : ans l.sent (regRequest t) with
  | sendFailed => simp [pktOf, Replies, hr, translatePkt]
  | timeout => simp [pktOf, Replies, hr, translatePkt]
  | error => simp [pktOf, Replies, hr, translatePkt]
  | lines ls =>
    cases ls with
    | nil => simp [pktOf, Replies, hr, Api.recvNetworkReg, translatePkt]
    | cons a b =>
      obtain ⟨p2, hf⟩ := ha t _ rfl hr
      have := (C55_answer_reports lm hlm cb t _ _ hf (by simp) l.x.1 []).1
      simp [pktOf, Replies, hr, this, translatePkt]

theorem regStatus_told {cfg : Cfg} {m : Modem} {ans : List Req → Req → Reply} {P : RegPort}
    {reps : List Req → Req → List Report × List Report} (hp : PlainPort cfg) (hm : Speaks cfg m ans)
    (hP : ForRegistration cfg P) (ht : Tells cfg P.toPort m reps) {lm : Nat} (hlm : 2 ^ 31 - 1 ≤ lm) {cb : Bool} {d : AtData} {l : Link}
    (hl : Attached cfg m ans reps cb d l) (old : RegPart) :
    ∃ e l', regStatus cfg m lm cb P l old = some (e, l', (serviceRecord ans reps cb d l.sent old).2) ∧ Attached cfg m ans reps cb d l' ∧
      l'.sent = (serviceRecord ans reps cb d l.sent old).1 := by
  obtain ⟨e1, l1, q1, k1, s1, r1⟩ := netQuery_told hp hm hP ht hlm hl .creg
  by_cases h1 : e1 = .success
  · obtain ⟨e2, l2, q2, k2, s2, -⟩ := netQuery_told hp hm hP ht hlm k1 .cgreg
    have hx2 : l2.x.1 = (told cb (heard reps (l.sent ++ [regRequest .creg] ++ [regRequest .cgreg])) (d, [])).1 := by
      rw [k2.record, s2, s1]
    subst h1
    have hR := r1.mp rfl
    by_cases h2 : l2.x.1.ps = 1 ∨ l2.x.1.ps = 5
    · have hn : ¬ (l2.x.1.ps ≠ stHome ∧ l2.x.1.ps ≠ stRoaming) := by
        unfold stHome stRoaming
        omega
      refine ⟨.success, l2, ?_, k2, ?_⟩
      · simp only [regStatus, q1, q2, if_neg hn, serviceRecord, if_pos hR, copied_shown]
        rw [hx2] at h2
        rw [if_pos h2, hx2]
      · simp only [serviceRecord, if_pos hR]
        rw [hx2] at h2
        rw [if_pos h2, s2, s1]
    · have hn : l2.x.1.ps ≠ stHome ∧ l2.x.1.ps ≠ stRoaming := by
        unfold stHome stRoaming
        omega
      obtain ⟨e3, l3, q3, k3, s3, r3⟩ := netQuery_told hp hm hP ht hlm k2 .cereg
      rw [s2, s1] at s3 r3
      have hx3 : l3.x.1 = (told cb (heard reps (l.sent ++ [regRequest .creg] ++ [regRequest .cgreg] ++ [regRequest .cereg])) (d, [])).1 := by
        rw [k3.record, s3]
      refine ⟨e3, l3, ?_, k3, ?_⟩
      · simp only [regStatus, q1, q2, if_pos hn, q3, serviceRecord, if_pos hR, copied_shown]
        rw [hx2] at h2
        rw [if_neg h2]
        by_cases h3 : e3 = .success
        · rw [if_pos h3, if_pos (r3.mp h3), hx3]
        · rw [if_neg h3, if_neg (fun h => h3 (r3.mpr h))]
      · simp only [serviceRecord, if_pos hR]
        rw [hx2] at h2
        rw [if_neg h2, s3]
        split <;> rfl
  · have hR : ¬ Replies ans l.sent (regRequest .creg) := fun h => h1 (r1.mpr h)
    refine ⟨e1, l1, ?_, k1, ?_⟩
    · simp only [regStatus, q1, serviceRecord, if_neg hR]
    · simp only [serviceRecord, if_neg hR, s1]

/-- What the operator queries give, if the modem answers as `ans` says. -/
def operatorOf (ans : List Req → Req → Reply) (lm : Nat) (done : List Req) : OpInfo :=
  (Api.updateMccMnc lm ⟨some (true, false, false), initAtData, false, [], done, ans⟩ OpInfo.zero).2.2

theorem operator_told {cfg : Cfg} {m : Modem} {ans : List Req → Req → Reply} {P : RegPort}
    {reps : List Req → Req → List Report × List Report} (hp : PlainPort cfg) (hm : Speaks cfg m ans)
    (hP : ForRegistration cfg P) (ht : Tells cfg P.toPort m reps) {lm : Nat} (hlm : 2 ^ 31 - 1 ≤ lm) {cb : Bool} {d : AtData} {l : Link}
    (hl : Attached cfg m ans reps cb d l) :
    ∃ l', operator cfg m lm cb P l OpInfo.zero = some (l', operatorOf ans lm l.sent) ∧ Attached cfg m ans reps cb d l' ∧
      ∃ n, 1 ≤ n ∧ l'.sent = l.sent ++ ([copsSelect, copsQuery] : List Req).take n := by
  have v1 : ValidReq copsSelect := ⟨by decide, by simp [copsSelect, typeOf, NeedsPrefix], by simp [copsSelect]⟩
  have v2 : ValidReq copsQuery := ⟨by decide, by simp [copsQuery], by
    rintro k ⟨⟩
    decide⟩
  obtain ⟨l1, q1, k1, s1, -⟩ := ask_told hp hm hP ht hlm hl v1
  obtain ⟨l2, q2, k2, s2, -⟩ := ask_told hp hm hP ht hlm k1 v2
  rw [s1] at q2
  unfold copsSelect at q1 q2 s1
  unfold copsQuery at q2
  have c1 : (str "AT+COPS=3,2").length = 11 := by decide
  have c2 : (str "AT+COPS?").length = 8 := by decide
  unfold operator operatorOf Api.updateMccMnc Api.requestNoCb Api.request Api.cmdMax
  simp only [q1, c1, c2]
  cases h1 : ans l.sent ⟨str "AT+COPS=3,2", .noResult, none⟩ with
  | lines ls =>
    simp only [q2]
    cases h2 : ans (l.sent ++ [⟨str "AT+COPS=3,2", .noResult, none⟩]) ⟨str "AT+COPS?", .withPrefix, some (str "+COPS")⟩ <;>
      exact ⟨l2, by simp [h2], k2, 2, by omega, by rw [s2, s1]; simp [copsSelect, copsQuery]⟩
  | _ => exact ⟨l1, by simp [h1], k1, 1, by omega, by rw [s1]; simp [copsSelect]⟩

/-- C84: the service status over the byte stream.  After any requests `done`, on a modem that answers (`Speaks`) and reports
registration (`Tells`) in any pieces and at any time - also while the queries of this very call are being made -, the call returns
success and the registration that all reports heard since the library was opened amount to, up to the answer of its last registration
query (`serviceRecord`); the operator is the one the modem names; the record the library keeps goes on with the reports heard
during the operator queries; nothing but these queries is sent. -/
theorem C84_service_status {cfg : Cfg} {m : Modem} {ans : List Req → Req → Reply} {P : RegPort}
    {reps : List Req → Req → List Report × List Report} (hp : PlainPort cfg) (hm : Speaks cfg m ans)
    (hP : ForRegistration cfg P) (ht : Tells cfg P.toPort m reps) (lm : Nat) (hlm : 2 ^ 31 - 1 ≤ lm) (cb : Bool) (d : AtData)
    (done : List Req) (hd : ∀ x ∈ done, ValidReq x) (old : ServiceStatus) :
    ∃ l l', asks cfg m lm cb P (opened cfg d) done = some l ∧
      serviceStatus cfg m lm cb P (some (true, false, false)) l (some old) = some (.success, l', some
        (let q := serviceRecord ans reps cb d done old.reg
         let o := operatorOf ans lm q.1
         ⟨q.2, o.mode, ⟨o.mcc, o.mnc⟩, o.name, o.format⟩)) ∧
      l'.x = told cb (heard reps l'.sent) (d, []) ∧
      ∃ n, 1 ≤ n ∧ l'.sent = (serviceRecord ans reps cb d done old.reg).1 ++ ([copsSelect, copsQuery] : List Req).take n := by
  obtain ⟨l, e0, h0, s0⟩ := asks_told hp hm hP ht hlm (cb := cb) done (opened cfg d) (linked_opened hp) hd
  have s0' : l.sent = done := by rw [s0]; simp [opened]
  obtain ⟨e, l1, e1, h1, s1⟩ := regStatus_told hp hm hP ht hlm h0 old.reg
  obtain ⟨l2, e2, h2, n, hn, s2⟩ := operator_told hp hm hP ht hlm h1
  rw [s0'] at e1 s1
  refine ⟨l, l2, e0, ?_, h2.record, n, hn, by rw [s2, s1]⟩
  simp only [serviceStatus, e1, e2, s1]
  rfl

/-- C84: nothing is asked if the pointer is NULL or the library is not open. -/
theorem C84_refused (cfg : Cfg) (m : Modem) (P : RegPort) (lm : Nat) (cb : Bool) (lib : Option (Bool × Bool × Bool)) (l : Link) (p : Option ServiceStatus)
    (h : lib ≠ some (true, false, false) ∨ p = none) :
    ∃ e, e ≠ .success ∧ serviceStatus cfg m lm cb P lib l p = some (e, l, p) := by
  by_cases hl : lib = some (true, false, false)
  · rcases h with h | h
    · exact absurd hl h
    · subst h hl
      exact ⟨.badParameter, nofun, rfl⟩
  · have hc : checkLibraryStatus lib ≠ .success :=
      checkLib_closed (w := ⟨lib, initAtData, cb, [], [], fun _ _ => .timeout⟩) hl
    refine ⟨checkLibraryStatus lib, hc, ?_⟩
    unfold serviceStatus
    cases h : checkLibraryStatus lib <;> first | rfl | exact absurd h hc

/-- The modem of `Verif.RegWire` reports its EPS registration between the queries of the call: the query of the PS registration is
answered by a mere `OK`, and yet the call reports a modem registered for packet data, in NB-IoT. -/
example : PlainPort regCfg ∧ Speaks regCfg regModem regModemAnswer ∧ ForRegistration regCfg regDemoPort ∧
    Tells regCfg regDemoPort.toPort regModem regModemReports ∧
    ∀ old, (serviceRecord regModemAnswer regModemReports true initAtData [] old) =
      ([regRequest .creg, regRequest .cgreg], ⟨9, 3, 1, 0, 0, 0, 0⟩) := by
  refine ⟨regDemo_port.1, regDemo_speaks, regDemo_port.2, regDemo_tells, fun old => ?_⟩
  have h1 : Replies regModemAnswer [] (regRequest .creg) := ⟨_, _, by simp only [regModemAnswer, if_true]; rfl⟩
  have h2 : (told true (heard regModemReports ([] ++ [regRequest .creg] ++ [regRequest .cgreg])) (initAtData, [])).1.ps = 1 := by decide +kernel
  simp only [serviceRecord, if_pos h1]
  rw [if_pos (Or.inl h2)]
  refine Prod.ext rfl ?_
  show shown _ = _
  decide +kernel

end Cellular.Props
