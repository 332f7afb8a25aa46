import Verif.ApiProps
import Verif.Conc
import Verif.RegConc
/-!
# Raw AT commands and the current RAT: `Cellular_CommonATCommandRaw`, `_Cellular_GetCurrentRat` (C64)
-/

namespace Cellular.ApiRaw
open Cellular Signal
open Cellular.Pktio (CmdType)
open Cellular.Api (Reply)

/-- `CellularAtReq_t` without callback and data. -/
structure Req where
  cmd : Str
  type : CmdType
  pfx : Option Str

/-- Library state and modem, as in `Api.World`; here every command type can occur. -/
structure World where
  lib : Option (Bool × Bool × Bool)
  sent : List Req
  modem : List Req → Req → Reply

/-- `_Cellular_TimeoutAtcmdRequestWithCallback`, cellular_common.c:1086-1091, as in `Api.request`; the checks of
`_Cellular_PktioSendAtCmd` (cellular_pktio.c:1429-1477) are those of `Conc.sendCheck`.  A callback `cb` gets the response
lines and updates the caller's data. -/
def request {α : Type} (w : World) (r : Req) (cb : Option (List Str → α → PktStatus × α)) (data : α) :
    PktStatus × World × α :=
  match Conc.sendCheck true r.cmd ⟨some r.cmd, r.type, r.pfx, cb.isSome, .plain⟩ with
  | .error e => (e, w, data)
  | .ok _ =>
    let w' := { w with sent := w.sent ++ [r] }
    match w.modem w.sent r with
    | .sendFailed => (.sendError, w', data)
    | .timeout => (.timedOut, w', data)
    | .error => (.failure, w', data)
    | .lines l =>
      match cb with
      | none => (.ok, w', data)
      | some f => ((f l data).1, w', (f l data).2)

/-- `Cellular_CommonATCommandRaw`, cellular_common_api.c:363-404. -/
def atCommandRaw {α : Type} (w : World) (pfx payload : Option Str) (type : CmdType)
    (cb : Option (List Str → α → PktStatus × α)) (data : α) : CellErr × World × α :=
  match checkLibraryStatus w.lib with
  | .success =>
    match payload with
    | none => (.badParameter, w, data)
    | some cmd =>
      let r := request w ⟨cmd, type, pfx⟩ cb data
      (translatePkt r.1, r.2)
  | e => (e, w, data)

/-- `_Cellular_GetCurrentRat`, cellular_common.c:807-830; the record is read under its lock (`RegConc.currentRat`). -/
def getCurrentRat (lib : Option (Bool × Bool × Bool)) (d : Reg.AtData) (p : Option Nat) : CellErr × Option Nat :=
  match checkLibraryStatus lib with
  | .success =>
    match p with
    | none => (.badParameter, p)
    | some _ => (.success, some d.rat)
  | e => (e, p)

end Cellular.ApiRaw

namespace Cellular.Spec
open Cellular ApiRaw
open Cellular.Pktio (CmdType)

/-- The library is open. -/
def RawOpen (w : ApiRaw.World) : Prop := w.lib = some (true, false, false)

/-- A command the library can send: at most 200 characters, a real command type, and a response prefix if the
type needs one. -/
def Sendable (r : ApiRaw.Req) : Prop :=
  r.cmd.length ≤ 200 ∧ r.type ≠ .noCommand ∧
  (r.type = .withPrefix ∨ r.type = .multiWithPrefix ∨ r.type = .withPrefixNoResultCode → r.pfx ≠ none)

end Cellular.Spec

namespace Cellular.Props
open Cellular Spec Signal
open Cellular.Pktio (CmdType)

theorem sendCheck_sendable {cmd : Str} {type : CmdType} {pfx : Option Str} {b : Bool} {k : Conc.Kind} :
    (Sendable ⟨cmd, type, pfx⟩ → ∃ p, Conc.sendCheck true cmd ⟨some cmd, type, pfx, b, k⟩ = .ok p) ∧
    (¬ Sendable ⟨cmd, type, pfx⟩ → Conc.sendCheck true cmd ⟨some cmd, type, pfx, b, k⟩ = .error .badParam) := by
  unfold Sendable Conc.sendCheck Pktio.writeMax
  by_cases hl : cmd.length ≤ 200
  · have hl' : ¬ (cmd.length > 200) := by omega
    cases type <;> cases pfx <;> simp [hl, hl', Conc.prefixFor]
  · have hl' : cmd.length > 200 := by omega
    simp [hl, hl']

theorem rawCheck_open {w : ApiRaw.World} (h : RawOpen w) : checkLibraryStatus w.lib = .success := by
  unfold RawOpen at h; rw [h]; rfl

theorem rawCheck_closed {w : ApiRaw.World} (h : ¬ RawOpen w) : checkLibraryStatus w.lib ≠ .success := by
  unfold RawOpen at h
  unfold checkLibraryStatus
  rcases hw : w.lib with _ | ⟨a, b, c⟩
  · simp
  · rw [hw] at h
    cases a <;> cases b <;> cases c <;> simp_all

/-- On a library that is not open, without a command, or with one that cannot be sent: error, nothing is sent, the caller's
data is untouched. -/
theorem C64_refused {α : Type} (w : ApiRaw.World) (pfx payload : Option Str) (type : CmdType)
    (cb : Option (List Str → α → PktStatus × α)) (data : α)
    (h : ¬ RawOpen w ∨ payload = none ∨ ∃ cmd, payload = some cmd ∧ ¬ Sendable ⟨cmd, type, pfx⟩) :
    (ApiRaw.atCommandRaw w pfx payload type cb data).1 ≠ .success ∧
    (ApiRaw.atCommandRaw w pfx payload type cb data).2 = (w, data) := by
  by_cases ho : RawOpen w
  · unfold ApiRaw.atCommandRaw
    rw [rawCheck_open ho]
    rcases h with h | rfl | ⟨cmd, rfl, h⟩
    · exact absurd ho h
    · simp
    · simp only [ApiRaw.request]
      rw [(sendCheck_sendable (b := cb.isSome) (k := .plain)).2 h]
      simp [translatePkt]
  · have := rawCheck_closed ho
    unfold ApiRaw.atCommandRaw
    cases hc : checkLibraryStatus w.lib <;> simp_all

/-- Otherwise exactly the given text is sent, once, with the given type and prefix. -/
theorem C64_sent {α : Type} (w : ApiRaw.World) (ho : RawOpen w) (pfx : Option Str) (cmd : Str) (type : CmdType)
    (cb : Option (List Str → α → PktStatus × α)) (data : α) (hs : Sendable ⟨cmd, type, pfx⟩) :
    (ApiRaw.atCommandRaw w pfx (some cmd) type cb data).2.1 = { w with sent := w.sent ++ [⟨cmd, type, pfx⟩] } := by
  obtain ⟨p, hp⟩ := (sendCheck_sendable (b := cb.isSome) (k := .plain)).1 hs
  unfold ApiRaw.atCommandRaw
  rw [rawCheck_open ho]
  simp only [ApiRaw.request, hp]
  cases w.modem w.sent ⟨cmd, type, pfx⟩ <;> simp
  cases cb <;> rfl

/-- The callback gets exactly the response lines and runs only if the modem accepted the command; the call succeeds exactly
if the modem accepted it and the callback, if any, did too. -/
theorem C64_result {α : Type} (w : ApiRaw.World) (ho : RawOpen w) (pfx : Option Str) (cmd : Str) (type : CmdType)
    (cb : Option (List Str → α → PktStatus × α)) (data : α) (hs : Sendable ⟨cmd, type, pfx⟩) :
    (∀ l, w.modem w.sent ⟨cmd, type, pfx⟩ = .lines l →
      (ApiRaw.atCommandRaw w pfx (some cmd) type cb data).2.2 = (match cb with | none => data | some f => (f l data).2) ∧
      ((ApiRaw.atCommandRaw w pfx (some cmd) type cb data).1 = .success ↔
        ∀ f, cb = some f → (f l data).1 = .ok)) ∧
    ((∀ l, w.modem w.sent ⟨cmd, type, pfx⟩ ≠ .lines l) →
      (ApiRaw.atCommandRaw w pfx (some cmd) type cb data).1 ≠ .success ∧
      (ApiRaw.atCommandRaw w pfx (some cmd) type cb data).2.2 = data) := by
  obtain ⟨p, hp⟩ := (sendCheck_sendable (b := cb.isSome) (k := .plain)).1 hs
  unfold ApiRaw.atCommandRaw
  rw [rawCheck_open ho]
  simp only [ApiRaw.request, hp]
  refine ⟨?_, ?_⟩
  · intro l hl
    rw [hl]
    cases cb with
    | none => simp [translatePkt]
    | some f =>
      refine ⟨rfl, ?_⟩
      simp only [Option.some.injEq, forall_eq']
      cases (f l data).1 <;> simp [translatePkt]
  · intro hn
    cases hm : w.modem w.sent ⟨cmd, type, pfx⟩ with
    | lines l => exact absurd hm (hn l)
    | _ => simp [translatePkt]

/-- A timeout of the modem is reported as such. -/
theorem C64_timeout {α : Type} (w : ApiRaw.World) (ho : RawOpen w) (pfx : Option Str) (cmd : Str) (type : CmdType)
    (cb : Option (List Str → α → PktStatus × α)) (data : α) (hs : Sendable ⟨cmd, type, pfx⟩)
    (hm : w.modem w.sent ⟨cmd, type, pfx⟩ = .timeout) :
    (ApiRaw.atCommandRaw w pfx (some cmd) type cb data).1 = .timeout := by
  obtain ⟨p, hp⟩ := (sendCheck_sendable (b := cb.isSome) (k := .plain)).1 hs
  unfold ApiRaw.atCommandRaw
  rw [rawCheck_open ho]
  simp only [ApiRaw.request, hp, hm, translatePkt]

/-- A raw query with a callback that stores the lines. -/
example : ∃ w : ApiRaw.World, RawOpen w ∧ Sendable ⟨str "AT+CREG?", .withPrefix, some (str "+CREG")⟩ ∧
    (ApiRaw.atCommandRaw w (some (str "+CREG")) (some (str "AT+CREG?")) .withPrefix
      (some (fun l _ => (.ok, l))) []).1 = .success ∧
    (ApiRaw.atCommandRaw w (some (str "+CREG")) (some (str "AT+CREG?")) .withPrefix
      (some (fun l _ => (.ok, l))) []).2.2 = [str "+CREG: 0,1"] :=
  ⟨⟨some (true, false, false), [], fun _ _ => .lines [str "+CREG: 0,1"]⟩, rfl,
    ⟨by decide, by decide, by decide⟩, by decide +kernel, by decide +kernel⟩

/-- The current RAT is the recorded one; on a closed library or without a place to store it: error and nothing stored. -/
theorem C64_current_rat (lib : Option (Bool × Bool × Bool)) (d : Reg.AtData) (p : Option Nat) :
    (lib = some (true, false, false) → p ≠ none → ApiRaw.getCurrentRat lib d p = (.success, some d.rat)) ∧
    (lib ≠ some (true, false, false) ∨ p = none →
      (ApiRaw.getCurrentRat lib d p).1 ≠ .success ∧ (ApiRaw.getCurrentRat lib d p).2 = p) := by
  refine ⟨?_, ?_⟩
  · rintro rfl hp
    cases p with
    | none => exact absurd rfl hp
    | some x => rfl
  · intro h
    have hw := @rawCheck_closed ⟨lib, [], fun _ _ => .timeout⟩
    have ho := @rawCheck_open ⟨lib, [], fun _ _ => .timeout⟩
    unfold RawOpen at hw ho
    unfold ApiRaw.getCurrentRat
    by_cases hl : lib = some (true, false, false)
    · rcases h with h | rfl
      · exact absurd hl h
      · rw [ho hl]; simp
    · have := hw hl
      cases hc : checkLibraryStatus lib <;> simp_all

end Cellular.Props
