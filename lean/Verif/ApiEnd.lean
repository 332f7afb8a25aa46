import Verif.ApiTight
/-!
# Queries that the modem does not answer (C67); modem and SIM information end to end (C58)
-/

namespace Cellular.Props
open Cellular Spec Tok Api Signal Reg RegLemmas
open Cellular.AtCore (strtoi AtErr)
open Cellular.AtStr

/-- The modem does not give the requested information for the next command, if it is `r`: the command cannot be
sent, is not answered in time, is answered with an error, or with success but without any line. -/
def Unanswered (w : World) (r : Req) : Prop := ∀ l, w.modem w.sent r = .lines l → l = []

/-- The modem after `r` was sent. -/
def sentTo (w : World) (r : Req) : World := { w with sent := w.sent ++ [r] }

theorem request_world (w : World) (r : Req) (hl : r.cmd.length ≤ 200) : (request w r).2 = sentTo w r := by
  unfold request
  rw [if_neg (by unfold cmdMax; omega)]
  simp only
  cases w.modem w.sent r <;> rfl

theorem request_unanswered {w : World} {r : Req} (hl : r.cmd.length ≤ 200) (h : Unanswered w r) :
    (∃ e, translatePkt e ≠ .success ∧ e ≠ .ok ∧ request w r = (.error e, sentTo w r)) ∨
      request w r = (.ok [], sentTo w r) := by
  unfold Unanswered at h
  unfold request
  rw [if_neg (by unfold cmdMax; omega)]
  simp only
  cases hm : w.modem w.sent r with
  | sendFailed => exact Or.inl ⟨_, by decide, by decide, rfl⟩
  | timeout => exact Or.inl ⟨_, by decide, by decide, rfl⟩
  | error => exact Or.inl ⟨_, by decide, by decide, rfl⟩
  | lines l => rw [h l hm]; exact Or.inr rfl

/-! ## C67 -/

def clockQuery : Req := ⟨str "AT+CCLK?", .withPrefix, some (str "+CCLK")⟩
def lockQuery : Req := ⟨str "AT+CPIN?", .withPrefix, some (str "+CPIN")⟩
def psmQuery : Req := ⟨str "AT+CPSMS?", .withPrefix, some (str "+CPSMS")⟩
def edrxQuery : Req := ⟨str "AT+CEDRXS?", .multiWithPrefix, some (str "+CEDRXS")⟩

/-- C67: an unanswered clock query is an error, is sent once, and leaves the caller's time unchanged. -/
theorem C67_network_time (lm : Nat) (w : World) (ho : LibraryOpen w) (old : Time) (h : Unanswered w clockQuery) :
    (getNetworkTime lm w (some old)).err ≠ .success ∧
    (getNetworkTime lm w (some old)).out = some old ∧
    (getNetworkTime lm w (some old)).world = sentTo w clockQuery := by
  unfold getNetworkTime
  rw [checkLib_open ho]
  rcases request_unanswered (by decide) h with ⟨e, he, -, hr⟩ | hr
  all_goals (unfold clockQuery at hr; simp only [hr])
  · exact ⟨he, trivial, rfl⟩
  · exact ⟨by simp [recvNetworkTime, translatePkt], rfl, rfl⟩

/-- C67: an unanswered lock query is an error and reports the lock state as unknown. -/
theorem C67_sim_lock (w : World) (ho : LibraryOpen w) (old : SimLock) (h : Unanswered w lockQuery) :
    (getSimCardLockStatus w (some old)).err ≠ .success ∧
    (getSimCardLockStatus w (some old)).out = some .unknown ∧
    (getSimCardLockStatus w (some old)).world = sentTo w lockQuery := by
  unfold getSimCardLockStatus
  rw [checkLib_open ho]
  rcases request_unanswered (by decide) h with ⟨e, he, -, hr⟩ | hr
  all_goals (unfold lockQuery at hr; simp only [hr])
  · exact ⟨he, trivial, rfl⟩
  · exact ⟨by decide, rfl, rfl⟩

/-- C67: an unanswered PSM query is an error and reports mode 255 and no timer. -/
theorem C67_psm (lm : Nat) (w : World) (ho : LibraryOpen w) (old : Psm) (h : Unanswered w psmQuery) :
    (getPsmSettings lm w (some old)).err ≠ .success ∧
    (getPsmSettings lm w (some old)).out = some ⟨255, 0, 0, 0, 0⟩ ∧
    (getPsmSettings lm w (some old)).world = sentTo w psmQuery := by
  unfold getPsmSettings
  rw [checkLib_open ho]
  rcases request_unanswered (by decide) h with ⟨e, he, -, hr⟩ | hr
  all_goals (unfold psmQuery at hr; simp only [hr])
  · exact ⟨he, trivial, rfl⟩
  · exact ⟨by simp [recvPsm, translatePkt], rfl, rfl⟩

/-- C67: an unanswered eDRX query is an error and reports no entry. -/
theorem C67_edrx (lm : Nat) (w : World) (ho : LibraryOpen w) (old : EdrxList) (h : Unanswered w edrxQuery) :
    ∃ r, getEidrxSettings lm w (some old) = some r ∧ r.err ≠ .success ∧
      r.out = some ⟨[⟨0, 0⟩, ⟨0, 0⟩, ⟨0, 0⟩, ⟨0, 0⟩], 0⟩ ∧ r.world = sentTo w edrxQuery := by
  unfold getEidrxSettings requestCb
  rw [checkLib_open ho]
  rcases request_unanswered (by decide) h with ⟨e, he, -, hr⟩ | hr
  all_goals (unfold edrxQuery at hr; simp only [hr])
  · exact ⟨_, rfl, he, rfl, rfl⟩
  · exact ⟨_, rfl, by simp [translatePkt], rfl, rfl⟩

/-- C67: an unanswered address query is an error and leaves the caller's buffer unchanged. -/
theorem C67_ip (w : World) (ho : LibraryOpen w) (id : Nat) (h1 : 1 ≤ id) (h2 : id ≤ 16) (m : Mem)
    (hm : m ≠ []) (h : Unanswered w (ipQuery id)) :
    ∃ r, getIPAddress w id (some m) m.length = some r ∧ r.err ≠ .success ∧ r.out = some m ∧
      r.world = sentTo w (ipQuery id) := by
  have hcmd : snprintf 32 (str "AT+CGPADDR=" ++ fmtD id) = str "AT+CGPADDR=" ++ decText id ∧
      (ipQuery id).cmd.length ≤ 200 := by
    have key : ∀ i, i < 17 → snprintf 32 (str "AT+CGPADDR=" ++ fmtD i) = str "AT+CGPADDR=" ++ decText i ∧
        (ipQuery i).cmd.length ≤ 200 := by decide +kernel
    exact key id (by omega)
  have hv : isValidPdn id = .success := by
    unfold isValidPdn; rw [if_neg (by omega)]
  unfold getIPAddress requestCb
  rw [checkLib_open ho]
  simp only [hv, hcmd.1, if_neg (show ¬ m.length = 0 by simpa using hm)]
  rcases request_unanswered hcmd.2 h with ⟨e, he, -, hr⟩ | hr
  all_goals (unfold ipQuery at hr; simp only [hr])
  · exact ⟨_, rfl, he, rfl, rfl⟩
  · exact ⟨_, rfl, by simp [recvIp, translatePkt], rfl, rfl⟩

/-- C67: the registered network is not reported unless both commands are answered; the caller's object is then
unchanged. -/
theorem C67_registered_network (lm : Nat) (mem : Bool) (w : World) (ho : LibraryOpen w) (old : Plmn)
    (h : (∀ l, w.modem w.sent copsSelect ≠ .lines l) ∨ Unanswered (sentTo w copsSelect) copsQuery) :
    (getRegisteredNetwork lm mem w (some old)).err ≠ .success ∧
    (getRegisteredNetwork lm mem w (some old)).out = some old := by
  unfold getRegisteredNetwork
  rw [checkLib_open ho]
  cases mem
  · exact ⟨by simp, rfl⟩
  simp only [Bool.true_eq_false, if_false]
  have hu : ∃ e w' o, updateMccMnc lm w OpInfo.zero = (e, w', o) ∧ e ≠ .success := by
    unfold updateMccMnc requestNoCb
    rcases h with h | h
    · have hh : Unanswered w copsSelect := fun l hl => absurd hl (h l)
      rcases request_unanswered (by decide) hh with ⟨e, he, hne, hr⟩ | hr
      · unfold copsSelect at hr
        simp only [hr]
        cases e
        case ok => exact absurd rfl hne
        all_goals exact ⟨_, _, _, rfl, he⟩
      · exfalso
        unfold request at hr
        rw [if_neg (by decide)] at hr
        simp only at hr
        cases hm : w.modem w.sent copsSelect with
        | lines l => exact h l hm
        | _ => rw [hm] at hr; simp at hr
    · have hw := request_world w copsSelect (by decide)
      unfold copsSelect at hw
      cases hq : request w ⟨str "AT+COPS=3,2", .noResult, none⟩ with
      | mk a w1 =>
        rw [hq] at hw
        simp only at hw
        subst hw
        cases a with
        | error e =>
          unfold request at hq
          rw [if_neg (by decide)] at hq
          simp only at hq
          cases hm : w.modem w.sent ⟨str "AT+COPS=3,2", .noResult, none⟩ with
          | lines l => rw [hm] at hq; simp at hq
          | sendFailed =>
            rw [hm] at hq; simp only [Prod.mk.injEq, Except.error.injEq] at hq
            rw [← hq.1]; exact ⟨_, _, _, rfl, by decide⟩
          | timeout =>
            rw [hm] at hq; simp only [Prod.mk.injEq, Except.error.injEq] at hq
            rw [← hq.1]; exact ⟨_, _, _, rfl, by decide⟩
          | error =>
            rw [hm] at hq; simp only [Prod.mk.injEq, Except.error.injEq] at hq
            rw [← hq.1]; exact ⟨_, _, _, rfl, by decide⟩
        | ok l =>
          simp only
          rcases request_unanswered (by decide) h with ⟨e, he, -, hr⟩ | hr
          · unfold copsQuery copsSelect at hr
            simp only [hr]
            exact ⟨_, _, _, rfl, he⟩
          · unfold copsQuery copsSelect at hr
            simp only [hr]
            exact ⟨_, _, _, rfl, by simp [recvCops, translatePkt]⟩
  obtain ⟨e, w', o, he, hne⟩ := hu
  rw [he]
  cases e
  case success => exact absurd rfl hne
  all_goals exact ⟨by simp, rfl⟩

/-! ## Modem information and SIM information -/

theorem requestCb_ok {α : Type} {w w' : World} {r : Req} {recv : List Str → α → Option (PktStatus × α)} {a b : α}
    (hl : r.cmd.length ≤ 200) (hrecv : ∀ x y, recv [] x = some (.ok, y) → False)
    (h : requestCb w r recv a = some (.ok, w', b)) :
    w' = sentTo w r ∧ ∃ line rest, w.modem w.sent r = .lines (line :: rest) ∧ recv (line :: rest) a = some (.ok, b) := by
  unfold requestCb at h
  have hw := request_world w r hl
  cases hq : request w r with
  | mk x w1 =>
    rw [hq] at hw h
    simp only at hw h
    cases x with
    | error e =>
      simp only [Option.some.injEq, Prod.mk.injEq] at h
      obtain ⟨rfl, _, _⟩ := h
      exfalso
      unfold request at hq
      rw [if_neg (by unfold cmdMax; omega)] at hq
      simp only at hq
      cases hm : w.modem w.sent r <;> rw [hm] at hq <;> simp at hq
    | ok l =>
      have hm : w.modem w.sent r = .lines l := by
        unfold request at hq
        rw [if_neg (by unfold cmdMax; omega)] at hq
        simp only at hq
        cases hm : w.modem w.sent r <;> rw [hm] at hq <;> simp at hq
        rw [hq.1]
      simp only [Option.map_eq_some_iff, Prod.mk.injEq] at h
      obtain ⟨⟨s, b'⟩, h1, h2, h3, h4⟩ := h
      simp only at h2 h4
      subst h2 h4
      refine ⟨by rw [← h3, hw], ?_⟩
      cases l with
      | nil => exact absurd h1 (hrecv _ _)
      | cons line rest => exact ⟨line, rest, hm, h1⟩

def fwQuery : Req := ⟨str "AT+CGMR", .woPrefix, none⟩
def imeiQuery : Req := ⟨str "AT+CGSN", .woPrefix, none⟩
def modelQuery : Req := ⟨str "AT+CGMM", .woPrefix, none⟩
def manufQuery : Req := ⟨str "AT+CGMI", .woPrefix, none⟩
def imsiQuery : Req := ⟨str "AT+CIMI", .woPrefix, none⟩
def hplmnQuery : Req := ⟨str "AT+CRSM=176,28514,0,0,0", .withPrefix, some (str "+CRSM")⟩
def iccidQuery : Req := ⟨str "AT+CCID", .withPrefix, some (str "+CCID")⟩

theorem translatePkt_success (s : PktStatus) : translatePkt s = .success ↔ s = .ok := by
  cases s <;> simp [translatePkt]

/-- C67: the modem information query succeeds only if all four commands were sent, in this order, and each was
answered with a line. -/
theorem C67_modem_info (w : World) (ho : LibraryOpen w) (p : ModemInfo) (r : Res (Option ModemInfo))
    (h : getModemInfo w (some p) = some r) (hs : r.err = .success) :
    ¬ Unanswered w fwQuery ∧ ¬ Unanswered (sentTo w fwQuery) imeiQuery ∧
    ¬ Unanswered (sentTo (sentTo w fwQuery) imeiQuery) modelQuery ∧
    ¬ Unanswered (sentTo (sentTo (sentTo w fwQuery) imeiQuery) modelQuery) manufQuery ∧
    r.world.sent = w.sent ++ [fwQuery, imeiQuery, modelQuery, manufQuery] := by
  have tr : ∀ max x y, recvTrimmed max [] x = some (.ok, y) → False := by
    intro max x y; simp [recvTrimmed]
  have im : ∀ x y, recvImei [] x = some (.ok, y) → False := by
    intro x y; simp [recvImei]
  have na : ∀ {w r l t}, w.modem w.sent r = .lines (l :: t) → ¬ Unanswered w r := by
    intro w r l t hm hu; have := hu _ hm; simp at this
  unfold getModemInfo at h
  rw [checkLib_open ho] at h
  simp only [Option.bind_eq_bind, Option.pure_def] at h
  cases e1 : requestCb w ⟨str "AT+CGMR", .woPrefix, none⟩ (recvTrimmed fwMax) ModemInfo.zero.fw with
  | none => rw [e1] at h; simp at h
  | some q1 =>
    obtain ⟨s1, w1, a1⟩ := q1
    rw [e1] at h
    simp only [Option.bind_some] at h
    by_cases c1 : s1 = .ok
    case neg =>
      rw [if_pos c1] at h
      simp only [Option.some.injEq] at h
      subst h
      exact absurd ((translatePkt_success _).mp hs) c1
    subst c1
    obtain ⟨rfl, l1, t1, m1, -⟩ := requestCb_ok (by decide) (tr _) e1
    rw [if_neg (by simp)] at h
    cases e2 : requestCb (sentTo w ⟨str "AT+CGMR", .woPrefix, none⟩) ⟨str "AT+CGSN", .woPrefix, none⟩ recvImei
        ModemInfo.zero.imei with
    | none => rw [e2] at h; simp at h
    | some q2 =>
      obtain ⟨s2, w2, a2⟩ := q2
      rw [e2] at h
      simp only [Option.bind_some] at h
      by_cases c2 : s2 = .ok
      case neg =>
        rw [if_pos c2] at h
        simp only [Option.some.injEq] at h
        subst h
        exact absurd ((translatePkt_success _).mp hs) c2
      subst c2
      obtain ⟨rfl, l2, t2, m2, -⟩ := requestCb_ok (by decide) im e2
      rw [if_neg (by simp)] at h
      cases e3 : requestCb (sentTo (sentTo w ⟨str "AT+CGMR", .woPrefix, none⟩) ⟨str "AT+CGSN", .woPrefix, none⟩)
          ⟨str "AT+CGMM", .woPrefix, none⟩ (recvTrimmed modelMax) ModemInfo.zero.model with
      | none => rw [e3] at h; simp at h
      | some q3 =>
        obtain ⟨s3, w3, a3⟩ := q3
        rw [e3] at h
        simp only [Option.bind_some] at h
        by_cases c3 : s3 = .ok
        case neg =>
          rw [if_pos c3] at h
          simp only [Option.some.injEq] at h
          subst h
          exact absurd ((translatePkt_success _).mp hs) c3
        subst c3
        obtain ⟨rfl, l3, t3, m3, -⟩ := requestCb_ok (by decide) (tr _) e3
        rw [if_neg (by simp)] at h
        cases e4 : requestCb (sentTo (sentTo (sentTo w ⟨str "AT+CGMR", .woPrefix, none⟩)
            ⟨str "AT+CGSN", .woPrefix, none⟩) ⟨str "AT+CGMM", .woPrefix, none⟩)
            ⟨str "AT+CGMI", .woPrefix, none⟩ (recvTrimmed manufMax) ModemInfo.zero.manuf with
        | none => rw [e4] at h; simp at h
        | some q4 =>
          obtain ⟨s4, w4, a4⟩ := q4
          rw [e4] at h
          simp only [Option.bind_some, Option.some.injEq] at h
          subst h
          have c4 := (translatePkt_success _).mp hs
          subst c4
          obtain ⟨rfl, l4, t4, m4, -⟩ := requestCb_ok (by decide) (tr _) e4
          exact ⟨na m1, na m2, na m3, na m4, by simp [sentTo, fwQuery, imeiQuery, modelQuery, manufQuery]⟩

/-- C67: the SIM information query succeeds only if all three commands were sent, in this order, and each was
answered with a line. -/
theorem C67_sim_info (w : World) (ho : LibraryOpen w) (p : SimInfo) (r : Res (Option SimInfo))
    (h : getSimCardInfo w (some p) = some r) (hs : r.err = .success) :
    ¬ Unanswered w imsiQuery ∧ ¬ Unanswered (sentTo w imsiQuery) hplmnQuery ∧
    ¬ Unanswered (sentTo (sentTo w imsiQuery) hplmnQuery) iccidQuery ∧
    r.world.sent = w.sent ++ [imsiQuery, hplmnQuery, iccidQuery] := by
  have i1 : ∀ x y, recvImsi [] x = some (.ok, y) → False := by intro x y; simp [recvImsi]
  have i2 : ∀ x y, (fun l p => some (recvHplmn l p)) [] x = some (.ok, y) → False := by
    intro x y; simp [recvHplmn]
  have i3 : ∀ x y, recvIccid [] x = some (.ok, y) → False := by intro x y; simp [recvIccid]
  have na : ∀ {w r l t}, w.modem w.sent r = .lines (l :: t) → ¬ Unanswered w r := by
    intro w r l t hm hu; have := hu _ hm; simp at this
  unfold getSimCardInfo at h
  rw [checkLib_open ho] at h
  simp only [Option.bind_eq_bind, Option.pure_def] at h
  cases e1 : requestCb w ⟨str "AT+CIMI", .woPrefix, none⟩ recvImsi SimInfo.zero.imsi with
  | none => rw [e1] at h; simp at h
  | some q1 =>
    obtain ⟨s1, w1, a1⟩ := q1
    rw [e1] at h
    simp only [Option.bind_some] at h
    by_cases c1 : s1 = .ok
    case neg =>
      rw [if_pos c1] at h
      simp only [Option.some.injEq] at h
      subst h
      exact absurd ((translatePkt_success _).mp hs) c1
    subst c1
    obtain ⟨rfl, l1, t1, m1, -⟩ := requestCb_ok (by decide) i1 e1
    rw [if_neg (by simp)] at h
    cases e2 : requestCb (sentTo w ⟨str "AT+CIMI", .woPrefix, none⟩)
        ⟨str "AT+CRSM=176,28514,0,0,0", .withPrefix, some (str "+CRSM")⟩
        (fun l p => some (recvHplmn l p)) SimInfo.zero.plmn with
    | none => rw [e2] at h; simp at h
    | some q2 =>
      obtain ⟨s2, w2, a2⟩ := q2
      rw [e2] at h
      simp only [Option.bind_some] at h
      by_cases c2 : s2 = .ok
      case neg =>
        rw [if_pos c2] at h
        simp only [Option.some.injEq] at h
        subst h
        exact absurd ((translatePkt_success _).mp hs) c2
      subst c2
      obtain ⟨rfl, l2, t2, m2, -⟩ := requestCb_ok (by decide) i2 e2
      rw [if_neg (by simp)] at h
      cases e3 : requestCb (sentTo (sentTo w ⟨str "AT+CIMI", .woPrefix, none⟩)
          ⟨str "AT+CRSM=176,28514,0,0,0", .withPrefix, some (str "+CRSM")⟩)
          ⟨str "AT+CCID", .withPrefix, some (str "+CCID")⟩ recvIccid SimInfo.zero.iccid with
      | none => rw [e3] at h; simp at h
      | some q3 =>
        obtain ⟨s3, w3, a3⟩ := q3
        rw [e3] at h
        simp only [Option.bind_some, Option.some.injEq] at h
        subst h
        have c3 := (translatePkt_success _).mp hs
        subst c3
        obtain ⟨rfl, l3, t3, m3, -⟩ := requestCb_ok (by decide) i3 e3
        exact ⟨na m1, na m2, na m3, by simp [sentTo, imsiQuery, hplmnQuery, iccidQuery]⟩

/-! ## C58, end to end -/

theorem requestCb_lines {α : Type} {w : World} {r : Req} {recv : List Str → α → Option (PktStatus × α)} {a b : α}
    {l : List Str} (hl : r.cmd.length ≤ 200) (hm : w.modem w.sent r = .lines l) (h : recv l a = some (.ok, b)) :
    requestCb w r recv a = some (.ok, sentTo w r, b) := by
  unfold requestCb request
  rw [if_neg (by unfold cmdMax; omega)]
  simp only [hm, h]
  rfl

/-- A response line showing `t`: `t` is not empty, has no white space at its ends, and only white space surrounds it
(if `t` has at most two characters, nothing follows it). -/
structure Shows (line t : Str) : Prop where
  parts : ∃ ws1 ws2, line = ws1 ++ t ++ ws2 ∧ (∀ b ∈ ws1, White b) ∧ (∀ b ∈ ws2, White b) ∧
    (2 < (t ++ ws2).length ∨ ws2 = [])
  first : ∀ b, t.head? = some b → ¬ White b
  last : ∀ b, t.getLast? = some b → ¬ White b
  ne : t ≠ []
  noNul : NoNul t
  len : line.length ≤ 256

theorem shows_trimmed {max : Nat} {buf : Mem} (hb : Field max buf) {line t : Str} (h : Shows line t) (rest : List Str) :
    ∃ m, recvTrimmed max (line :: rest) buf = some (.ok, m) ∧ Field max m ∧ CStrAt m 0 (t.take max) := by
  obtain ⟨⟨ws1, ws2, rfl, h1, h2, h3⟩, h4, h5, h6, h7, h8⟩ := h
  exact C58_trimmed_text max buf hb ws1 t ws2 rest h1 h2 h4 h5 h6 h3 h8 h7

/-- C58: if the modem answers the four commands with lines showing a firmware version, an IMEI, a model and a
manufacturer, the caller finds exactly these texts, cut to their documented maximum and terminated. -/
theorem C58_modem_info_values (w : World) (ho : LibraryOpen w) (p : ModemInfo)
    {lf li lo la fw model manuf : Str} {rf ri ro ra : List Str}
    (a1 : w.modem w.sent fwQuery = .lines (lf :: rf))
    (a2 : w.modem (w.sent ++ [fwQuery]) imeiQuery = .lines (li :: ri))
    (a3 : w.modem (w.sent ++ [fwQuery, imeiQuery]) modelQuery = .lines (lo :: ro))
    (a4 : w.modem (w.sent ++ [fwQuery, imeiQuery, modelQuery]) manufQuery = .lines (la :: ra))
    (h1 : Shows lf fw) (h2 : noWhite li ≠ [] ∧ li.length ≤ 256 ∧ NoNul li) (h3 : Shows lo model)
    (h4 : Shows la manuf) :
    ∃ r i, getModemInfo w (some p) = some r ∧ r.err = .success ∧ r.out = some i ∧
      r.world.sent = w.sent ++ [fwQuery, imeiQuery, modelQuery, manufQuery] ∧
      CStrAt i.fw 0 (fw.take 32) ∧ CStrAt i.imei 0 ((noWhite li).take 15) ∧
      CStrAt i.model 0 (model.take 10) ∧ CStrAt i.manuf 0 (manuf.take 20) := by
  obtain ⟨m1, e1, -, c1⟩ := shows_trimmed (field_zero fwMax) h1 rf
  obtain ⟨m2, e2, -, c2⟩ := C58_imei _ (field_zero 15) li ri h2.1 h2.2.1 h2.2.2
  obtain ⟨m3, e3, -, c3⟩ := shows_trimmed (field_zero modelMax) h3 ro
  obtain ⟨m4, e4, -, c4⟩ := shows_trimmed (field_zero manufMax) h4 ra
  have r1 := requestCb_lines (w := w) (r := fwQuery) (by decide) a1 e1
  have r2 := requestCb_lines (w := sentTo w fwQuery) (r := imeiQuery) (by decide) a2 e2
  have r3 := requestCb_lines (w := sentTo (sentTo w fwQuery) imeiQuery) (r := modelQuery) (by decide)
    (by simpa [sentTo] using a3) e3
  have r4 := requestCb_lines (w := sentTo (sentTo (sentTo w fwQuery) imeiQuery) modelQuery) (r := manufQuery) (by decide)
    (by simpa [sentTo] using a4) e4
  refine ⟨⟨.success, sentTo (sentTo (sentTo (sentTo w fwQuery) imeiQuery) modelQuery) manufQuery, some ⟨m1, m2, m3, m4⟩⟩,
    ⟨m1, m2, m3, m4⟩, ?_, rfl, rfl, by simp [sentTo], c1, c2, c3, c4⟩
  unfold getModemInfo
  rw [checkLib_open ho]
  unfold fwQuery at *
  unfold imeiQuery at *
  unfold modelQuery at *
  unfold manufQuery at *
  have z1 : ModemInfo.zero.fw = List.replicate (fwMax + 1) 0 := rfl
  have z2 : ModemInfo.zero.imei = List.replicate (15 + 1) 0 := rfl
  have z3 : ModemInfo.zero.model = List.replicate (modelMax + 1) 0 := rfl
  have z4 : ModemInfo.zero.manuf = List.replicate (manufMax + 1) 0 := rfl
  simp only [Option.bind_eq_bind, Option.pure_def, z1, r1, Option.bind_some, ne_eq, not_true_eq_false, if_false, z2, r2,
    z3, r3, z4, r4, translatePkt]

/-- C58: the same for the SIM: IMSI, home network and ICCID. -/
theorem C58_sim_info_values (w : World) (ho : LibraryOpen w) (p : SimInfo)
    {li lh body : Str} {plmn : Plmn} {ri rh rc : List Str} (pre : Str)
    (a1 : w.modem w.sent imsiQuery = .lines (li :: ri))
    (a2 : w.modem (w.sent ++ [imsiQuery]) hplmnQuery = .lines (lh :: rh))
    (a3 : w.modem (w.sent ++ [imsiQuery, hplmnQuery]) iccidQuery = .lines ((pre ++ 58 :: body) :: rc))
    (h1 : li ≠ [] ∧ li.length ≤ 256 ∧ NoNul li ∧ (noWhite li).length ≤ 15)
    (h2 : ∀ old, recvHplmn (lh :: rh) old = (.ok, plmn))
    (h3 : (58 : Byte) ∉ pre ∧ (pre ++ 58 :: body).length ≤ 256 ∧ NoNul body ∧ (noWhite body).length ≤ 20) :
    ∃ r i, getSimCardInfo w (some p) = some r ∧ r.err = .success ∧ r.out = some i ∧
      r.world.sent = w.sent ++ [imsiQuery, hplmnQuery, iccidQuery] ∧
      CStrAt i.imsi 0 (noWhite li) ∧ i.plmn = plmn ∧ CStrAt i.iccid 0 (noWhite body) := by
  rcases C58_imsi _ (field_zero 15) li ri h1.1 h1.2.1 h1.2.2.1 with ⟨-, m1, e1, -, c1⟩ | ⟨hh, -⟩
  case inr => exact absurd h1.2.2.2 (by omega)
  rcases C58_iccid _ (field_zero 20) pre body rc h3.1 h3.2.1 h3.2.2.1 with ⟨-, m3, e3, -, c3⟩ | ⟨hh, -⟩
  case inr => exact absurd h3.2.2.2 (by omega)
  have r1 := requestCb_lines (w := w) (r := imsiQuery) (by decide) a1 e1
  have r2 := requestCb_lines (w := sentTo w imsiQuery) (r := hplmnQuery)
    (recv := fun l p => some (recvHplmn l p)) (a := SimInfo.zero.plmn) (by decide) a2
    (congrArg some (h2 _))
  have r3 := requestCb_lines (w := sentTo (sentTo w imsiQuery) hplmnQuery) (r := iccidQuery) (by decide)
    (by simpa [sentTo] using a3) e3
  refine ⟨⟨.success, sentTo (sentTo (sentTo w imsiQuery) hplmnQuery) iccidQuery, some ⟨m3, m1, plmn⟩⟩,
    ⟨m3, m1, plmn⟩, ?_, rfl, rfl, by simp [sentTo], c1, rfl, c3⟩
  unfold getSimCardInfo
  rw [checkLib_open ho]
  unfold imsiQuery at *
  unfold hplmnQuery at *
  unfold iccidQuery at *
  have z1 : SimInfo.zero.imsi = List.replicate (15 + 1) 0 := rfl
  have z3 : SimInfo.zero.iccid = List.replicate (20 + 1) 0 := rfl
  simp only [Option.bind_eq_bind, Option.pure_def, z1, r1, Option.bind_some, ne_eq, not_true_eq_false, if_false, r2,
    z3, r3, translatePkt]

/-! ## C55: unregistered modem, missing operator -/

/-- The answer of a modem that only reports a status: `+CREG: 2,3`. -/
def statusAnswer (t : RegType) (n st : Nat) : Str := regHead t ++ joinComma [decText n, decText st]

theorem queryNetworkStatus_status (lm : Nat) (hlm : 2 ^ 31 - 1 ≤ lm) (t : RegType) (w : World) (n st : Nat)
    (hst : st ≤ 8) (h1 : st ≠ 1) (h5 : st ≠ 5) (hlen : (statusAnswer t n st).length ≤ 256)
    (ha : Answers w (regQuery t) [statusAnswer t n st]) :
    ∃ ev, queryNetworkStatus lm w (regQuery t).cmd ((regQuery t).pfx.getD []) t =
        (.success, { w with
          sent := w.sent ++ [regQuery t],
          atData := { w.atData with lac := 0xFFFF, rac := 0xFF, cellId := 0xFFFFFFFF, rat := 255,
                                    cs := (if t = .creg then st else w.atData.cs),
                                    ps := (if t = .creg then w.atData.ps else st) },
          events := ev }) := by
  have hnum := decText_numeral st
  have hx : NoComma (regHead t ++ decText n) := by
    have hn := numeral_noComma (decText_numeral n)
    have hp : NoComma (regHead t) := by
      clear ha hlen
      cases t <;> (unfold NoComma; decide)
    unfold NoComma at *; simp only [List.mem_append, not_or]; exact ⟨hp, hn⟩
  have hline : statusAnswer t n st = (regHead t ++ decText n) ++ 44 :: decText st := by
    simp [statusAnswer, joinComma]
  obtain ⟨b0, bs, hb0⟩ : ∃ b0 bs, decText st = b0 :: bs := by
    cases h : decText st with
    | nil => exact absurd h (numeral_ne_nil hnum)
    | cons a b => exact ⟨a, b, rfl⟩
  have hb0' := numeral_plain hnum b0 (by rw [hb0]; simp)
  have hcl : clean (decText st) ≠ [] := by
    refine clean_ne_nil_of_mem (b := b0) (by rw [hb0]; simp) hb0'.2 ?_
    have := List.filter_eq_self.mp (plain_noSpace (numeral_plain hnum)) b0 (by rw [hb0]; simp)
    simpa using this
  have hl : (joinComma [decText n, decText st]).length ≤ 256 := by
    simp only [statusAnswer, List.length_append] at hlen; omega
  have hs := C42_status_only_partial lm hlm w.regCb t n st hst h1 h5 true w.atData hl
  simp only [if_true] at hs
  have hrec := C55_answer_like_urcs lm w.regCb t (lines := [statusAnswer t n st]) (texts := [decText st])
    (.cons (.answer _ hx hline (by rw [hb0]; simpa using hb0'.2)) .nil) (by simp) (by simpa using hlen)
    (by simpa using hcl) w.atData ⟨hs.1, trivial⟩
  unfold queryNetworkStatus
  have hq : (⟨(regQuery t).cmd, .multiWithPrefix, some ((regQuery t).pfx.getD [])⟩ : Req) = regQuery t := by
    cases t <;> rfl
  rw [hq, request_answer (by cases t <;> decide) ha]
  simp only [hrec.1, hrec.2, afterUrcs, List.foldl_cons, List.foldl_nil]
  have : (urcProcess lm w.regCb t (some (decText st)) w.atData).data = _ := hs.2.2.2
  rw [this]
  exact ⟨_, rfl⟩

/-- C55: a library that has just been initialised, with a modem that reports a status other than registered in all
three domains, reports these statuses, no access technology and no rejection. -/
theorem C55_fresh_not_registered (lm : Nat) (hlm : 2 ^ 31 - 1 ≤ lm) (w : World) (ho : LibraryOpen w)
    (hd : w.atData = Reg.initAtData) (old : ServiceStatus) (n1 n2 n3 s1 s2 s3 : Nat)
    (hs1 : s1 ≤ 8 ∧ s1 ≠ 1 ∧ s1 ≠ 5) (hs2 : s2 ≤ 8 ∧ s2 ≠ 1 ∧ s2 ≠ 5) (hs3 : s3 ≤ 8 ∧ s3 ≠ 1 ∧ s3 ≠ 5)
    (l1 : (statusAnswer .creg n1 s1).length ≤ 256) (l2 : (statusAnswer .cgreg n2 s2).length ≤ 256)
    (l3 : (statusAnswer .cereg n3 s3).length ≤ 256)
    (a1 : w.modem w.sent (regQuery .creg) = .lines [statusAnswer .creg n1 s1])
    (a2 : w.modem (w.sent ++ [regQuery .creg]) (regQuery .cgreg) = .lines [statusAnswer .cgreg n2 s2])
    (a3 : w.modem (w.sent ++ [regQuery .creg, regQuery .cgreg]) (regQuery .cereg) =
      .lines [statusAnswer .cereg n3 s3]) :
    (getServiceStatus lm w (some old)).err = .success ∧
    ∃ s, (getServiceStatus lm w (some old)).out = some s ∧
      s.reg = { rat := 255, cs := s1, ps := s3, csRejCause := 0, csRejType := 0, psRejCause := 0, psRejType := 0 } := by
  obtain ⟨ev1, q1⟩ := queryNetworkStatus_status lm hlm .creg w n1 s1 hs1.1 hs1.2.1 hs1.2.2 l1 a1
  obtain ⟨ev2, q2⟩ := queryNetworkStatus_status lm hlm .cgreg (n := n2) (st := s2) (hst := hs2.1) (h1 := hs2.2.1) (h5 := hs2.2.2) (hlen := l2)
    (w := { w with
          sent := w.sent ++ [regQuery .creg],
          atData := { w.atData with lac := 0xFFFF, rac := 0xFF, cellId := 0xFFFFFFFF, rat := 255, cs := s1 },
          events := ev1 }) (ha := a2)
  obtain ⟨ev3, q3⟩ := queryNetworkStatus_status lm hlm .cereg (n := n3) (st := s3) (hst := hs3.1) (h1 := hs3.2.1) (h5 := hs3.2.2) (hlen := l3)
    (w := { w with
          sent := w.sent ++ [regQuery .creg] ++ [regQuery .cgreg],
          atData := { w.atData with lac := 0xFFFF, rac := 0xFF, cellId := 0xFFFFFFFF, rat := 255, cs := s1, ps := s2 },
          events := ev2 }) (ha := by unfold Answers; simpa using a3)
  have q1' : queryNetworkStatus lm w (str "AT+CREG?") (str "+CREG") .creg = _ := q1
  simp only [reduceCtorEq, if_true, if_false] at q1' q2 q3
  have q2' := q2
  rw [show (regQuery RegType.cgreg).cmd = str "AT+CGREG?" from rfl,
    show (regQuery RegType.cgreg).pfx.getD [] = str "+CGREG" from rfl] at q2'
  have q3' := q3
  rw [show (regQuery RegType.cereg).cmd = str "AT+CEREG?" from rfl,
    show (regQuery RegType.cereg).pfx.getD [] = str "+CEREG" from rfl] at q3'
  unfold getServiceStatus
  rw [checkLib_open ho]
  refine ⟨rfl, _, rfl, ?_⟩
  simp only
  unfold queryRegStatus
  have hn1 : ¬ s2 = stHome := hs2.2.1
  have hn2 : ¬ s2 = stRoaming := hs2.2.2
  simp only [q1', q2', hn1, hn2, ne_eq, not_false_eq_true, and_self, if_true, q3']
  rw [hd]
  rfl

/-- C55: if the operator is not answered the caller finds no operator, whatever his object contained. -/
theorem C55_no_operator (lm : Nat) (w : World) (ho : LibraryOpen w) (old : ServiceStatus)
    (h : ∀ s r, r = copsSelect ∨ r = copsQuery → ∀ l, w.modem s r = .lines l → l = []) :
    ∃ s, (getServiceStatus lm w (some old)).out = some s ∧ s.mode = 0 ∧ s.plmn = ⟨[], []⟩ ∧ s.name = [] ∧ s.format = 0 := by
  have hreq : ∀ (w : World) r, (request w r).2.modem = w.modem := by
    intro w r
    unfold request
    split
    · rfl
    · cases w.modem w.sent r <;> rfl
  have hns : ∀ (w : World) c p t, (queryNetworkStatus lm w c p t).2.modem = w.modem := by
    intro w c p t
    have := hreq w ⟨c, .multiWithPrefix, some p⟩
    unfold queryNetworkStatus
    cases hq : request w ⟨c, .multiWithPrefix, some p⟩ with
    | mk a w1 => rw [hq] at this; cases a <;> exact this
  have hrs : (queryRegStatus lm w old.reg).2.1.modem = w.modem := by
    unfold queryRegStatus
    simp only
    (repeat' split) <;> simp only [hns]
  have hop : ∀ w' : World, w'.modem = w.modem → (updateMccMnc lm w' OpInfo.zero).2.2 = OpInfo.zero := by
    intro w' hm
    have u1 : Unanswered w' copsSelect := by intro l hl; rw [hm] at hl; exact h _ _ (Or.inl rfl) l hl
    have u2 : Unanswered (sentTo w' copsSelect) copsQuery := by
      intro l hl
      have : (sentTo w' copsSelect).modem = w.modem := hm
      rw [this] at hl; exact h _ _ (Or.inr rfl) l hl
    unfold updateMccMnc requestNoCb
    rcases request_unanswered (by decide) u1 with ⟨e, he, hne, hr⟩ | hr
    · unfold copsSelect at hr
      simp only [hr]
    · unfold copsSelect at hr u2
      simp only [hr]
      rcases request_unanswered (by decide) u2 with ⟨e, he, hne, hr⟩ | hr
      all_goals (unfold copsQuery at hr; simp only [hr]; try rfl)
  unfold getServiceStatus
  rw [checkLib_open ho]
  refine ⟨_, rfl, ?_⟩
  simp only [hop _ hrs]
  exact ⟨rfl, rfl, rfl, rfl⟩

/-- A modem for the examples. -/
def demoModem : List Req → Req → Reply := fun _ r =>
  if r = fwQuery then .lines [str " FW_1.2 "] else if r = imeiQuery then .lines [str "12345 67890"]
  else if r = modelQuery then .lines [str "M1"] else if r = manufQuery then .lines [str "ACME Corp"]
  else if r = imsiQuery then .lines [str "310260000000001"]
  else if r = hplmnQuery then .lines [str "+CRSM: 144,0,\"130062FFFFFF\""]
  else if r = iccidQuery then .lines [str "+CCID: 8901260000000000001"] else .lines []

def demoWorld : World := ⟨some (true, false, false), Reg.initAtData, false, [], [], demoModem⟩

example : Shows (str " FW_1.2 ") (str "FW_1.2") :=
  ⟨⟨[32], [32], by decide, by decide, by decide, Or.inl (by decide)⟩, by decide, by decide, by decide,
    by unfold NoNul; decide, by decide⟩

example : (∀ old, recvHplmn [str "+CRSM: 144,0,\"130062FFFFFF\""] old = (.ok, ⟨str "310", str "260"⟩)) := by
  intro old; rfl

example : Unanswered demoWorld clockQuery ∧ ¬ Unanswered demoWorld fwQuery := by
  constructor
  · intro l h
    have : demoWorld.modem demoWorld.sent clockQuery = .lines [] := by decide +kernel
    rw [this] at h; injection h with h; exact h.symm
  · intro h
    have : demoWorld.modem demoWorld.sent fwQuery = .lines [str " FW_1.2 "] := by decide +kernel
    have := h _ this; simp at this

example : ((getModemInfo demoWorld none).map (·.err)) = some .badParameter ∧
    ((getModemInfo demoWorld (some ModemInfo.zero)).map (fun r => (r.err, r.out.map (·.fw.take 7)))) =
      some (.success, some (str "FW_1.2" ++ [0])) := by decide +kernel

end Cellular.Props
