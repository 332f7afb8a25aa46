import Verif.WireApi
/-!
# Sessions: every API call over the byte stream

C70 for all API functions of the model and all sequences of calls: over a transport with arbitrary cuts, interleaved
unsolicited codes and so on, a program that calls the library gets the same results as with a modem that returns its
answers directly.
-/

namespace Cellular.Wire
open Cellular
open Cellular.Api (Req Reply World Time SimLock Psm EdrxList ModemInfo SimInfo Plmn ServiceStatus PdnConfig)

/-- A call of an API function with its arguments (`none`: a NULL pointer; otherwise the contents of the caller's
object). -/
inductive Call
  | getEidrx (p : Option EdrxList)
  | setEidrx (p : Option (Nat × Nat × Nat))
  | rf (on : Bool)
  | getRegisteredNetwork (mem : Bool) (p : Option Plmn)
  | getServiceStatus (p : Option ServiceStatus)
  | getNetworkTime (p : Option Time)
  | getModemInfo (p : Option ModemInfo)
  | getIp (contextId : Nat) (buf : Option Mem) (len : Nat)
  | setPdn (contextId : Nat) (p : Option PdnConfig)
  | getSimLock (p : Option SimLock)
  | getSimInfo (p : Option SimInfo)
  | setPsm (p : Option Psm)
  | getPsm (p : Option Psm)

/-- What the caller finds in his object after a call. -/
inductive Obj
  | nothing
  | eidrx (p : Option EdrxList)
  | plmn (p : Option Plmn)
  | service (p : Option ServiceStatus)
  | time (p : Option Time)
  | modem (p : Option ModemInfo)
  | ip (p : Option Mem)
  | lock (p : Option SimLock)
  | sim (p : Option SimInfo)
  | psm (p : Option Psm)

/-- The result of an API function, and the world afterwards. -/
def pack {α : Type} (f : α → Obj) (r : Api.Res α) : CellErr × Obj × World := (r.err, f r.out, r.world)

/-- The function that is called (cellular_3gpp_api.c; see the definitions in `Verif.Api` for the lines); `none` =
undefined behaviour. -/
def Call.run (lm : Nat) (w : World) : Call → Option (CellErr × Obj × World)
  | .getEidrx p => (Api.getEidrxSettings lm w p).map (pack .eidrx)
  | .setEidrx p => some (pack (fun _ => .nothing) (Api.setEidrxSettings w p))
  | .rf on => some (pack (fun _ => .nothing) (Api.rfSet on w))
  | .getRegisteredNetwork mem p => some (pack .plmn (Api.getRegisteredNetwork lm mem w p))
  | .getServiceStatus p => some (pack .service (Api.getServiceStatus lm w p))
  | .getNetworkTime p => some (pack .time (Api.getNetworkTime lm w p))
  | .getModemInfo p => (Api.getModemInfo w p).map (pack .modem)
  | .getIp c b n => (Api.getIPAddress w c b n).map (pack .ip)
  | .setPdn c p => some (pack (fun _ => .nothing) (Api.setPdnConfig w c p))
  | .getSimLock p => some (pack .lock (Api.getSimCardLockStatus w p))
  | .getSimInfo p => (Api.getSimCardInfo w p).map (pack .sim)
  | .setPsm p => some (pack (fun _ => .nothing) (Api.setPsmSettings w p))
  | .getPsm p => some (pack .psm (Api.getPsmSettings lm w p))

/-- What happens to the library: a call, or unsolicited registration codes change the registration record (to
anything) and are announced. -/
inductive Action
  | call (c : Call)
  | registration (d : Reg.AtData) (ev : List Reg.RegEvent)

/-- A sequence of actions: the results of the calls, in order, and the world afterwards. -/
def session (lm : Nat) : World → List Action → Option (List (CellErr × Obj) × World)
  | w, [] => some ([], w)
  | w, .registration d ev :: as => session lm { w with atData := d, events := w.events ++ ev } as
  | w, .call c :: as =>
    match c.run lm w with
    | none => none
    | some (e, o, w) => (session lm w as).map (fun r => ((e, o) :: r.1, r.2))

end Cellular.Wire

namespace Cellular.Props
open Cellular Cellular.Spec Cellular.Pktio Cellular.Wire
open Cellular.Api (Req Reply World Time SimLock Psm EdrxList ModemInfo SimInfo Plmn ServiceStatus PdnConfig)

/-- The same library connected to a modem that returns the answers `ans` directly. -/
def ideal (ans : List Req → Req → Reply) (w : World) : World := { w with modem := ans }

/-- The request has a prefix if it needs one (and a proper one). -/
def PfxOk (r : Req) : Prop :=
  (NeedsPrefix (typeOf r.type) → r.pfx ≠ none) ∧ ∀ k, r.pfx = some k → k ≠ [] ∧ k.length < 32 ∧ NoNul k

/-- The library's requests go to the modem `md`; every request made so far was one the packet layer accepts. -/
structure Linked (w : World) (md : List Req → Req → Reply) : Prop where
  modem : ∀ h r, w.modem h r = md h r
  sent : ∀ x ∈ w.sent, ValidReq x

/-- The two modems answer the requests the packet layer accepts alike. -/
def Same (md ans : List Req → Req → Reply) : Prop :=
  ∀ h, (∀ x ∈ h, ValidReq x) → ∀ r, ValidReq r → md h r = ans h r

/-- The modem at the other side of the transport. -/
def overWire (cfg : Cfg) (m : Wire.Modem) : List Req → Req → Reply := fun h r => (Wire.reply cfg m h r).getD .timeout

theorem onWire_linked {w : World} {cfg : Cfg} {m : Wire.Modem} (h : OnWire w cfg m) : Linked w (overWire cfg m) :=
  ⟨h.modem, h.sent⟩

theorem linked_onWire {w : World} {cfg : Cfg} {m : Wire.Modem} (h : Linked w (overWire cfg m)) : OnWire w cfg m :=
  ⟨h.modem, h.sent⟩

theorem speaks_same {cfg : Cfg} {m : Wire.Modem} {ans : List Req → Req → Reply} (hp : PlainPort cfg)
    (hm : Speaks cfg m ans) : Same (overWire cfg m) ans := by
  intro h hh r hr
  unfold overWire
  rw [C70_bytes_to_reply cfg m ans hp hm h hh r hr]
  rfl

section
variable {md ans : List Req → Req → Reply}

theorem request_ideal (hm : Same md ans) {w : World} (hw : Linked w md) {r : Req}
    (hr : PfxOk r) : Api.request (ideal ans w) r = ((Api.request w r).1, ideal ans (Api.request w r).2) ∧
      Linked (Api.request w r).2 md := by
  unfold Api.request
  by_cases hl : r.cmd.length > Api.cmdMax
  · simp only [if_pos hl]; exact ⟨trivial, hw⟩
  · have hv : ValidReq r := ⟨by simp only [Api.cmdMax] at hl; omega, hr.1, hr.2⟩
    have he : w.modem w.sent r = ans w.sent r := by rw [hw.modem, hm w.sent hw.sent r hv]
    have hs : ∀ x ∈ w.sent ++ [r], ValidReq x :=
      valid_append hw.sent (by intro x hx; rw [List.mem_singleton.mp hx]; exact hv)
    simp only [if_neg hl, ideal, he]
    cases ans w.sent r <;> exact ⟨rfl, hw.modem, hs⟩

theorem requestCb_ideal (hm : Same md ans) {w : World} (hw : Linked w md) {r : Req}
    (hr : PfxOk r) {α : Type} (recv : List Str → α → Option (PktStatus × α)) (out : α) :
    Api.requestCb (ideal ans w) r recv out =
      (Api.requestCb w r recv out).map (fun q => (q.1, ideal ans q.2.1, q.2.2)) ∧
    ∀ q, Api.requestCb w r recv out = some q → Linked q.2.1 md := by
  obtain ⟨h1, h2⟩ := request_ideal hm hw hr
  unfold Api.requestCb
  rw [h1]
  generalize Api.request w r = x at h2
  obtain ⟨a, w1⟩ := x
  cases a with
  | error e => exact ⟨rfl, fun q hq => by simp only [Option.some.injEq] at hq; subst hq; exact h2⟩
  | ok l =>
    simp only
    refine ⟨by simp [Option.map_map, Function.comp_def], fun q hq => ?_⟩
    obtain ⟨y, _, rfl⟩ := Option.map_eq_some_iff.1 hq
    exact h2

theorem requestNoCb_ideal (hm : Same md ans) {w : World} (hw : Linked w md) {r : Req}
    (hr : PfxOk r) : Api.requestNoCb (ideal ans w) r = ((Api.requestNoCb w r).1, ideal ans (Api.requestNoCb w r).2) ∧
      Linked (Api.requestNoCb w r).2 md := by
  obtain ⟨h1, h2⟩ := request_ideal hm hw hr
  unfold Api.requestNoCb
  rw [h1]
  generalize Api.request w r = x at h2
  obtain ⟨a, w1⟩ := x
  cases a <;> exact ⟨rfl, h2⟩

theorem pfxOk_plain (c : Str) (t : Api.CmdType) (ht : t = .noResult ∨ t = .woPrefix) : PfxOk ⟨c, t, none⟩ :=
  ⟨fun h => by rcases ht with rfl | rfl <;> simp [typeOf, NeedsPrefix] at h, fun k hk => by cases hk⟩

theorem pfxOk_with (c : Str) (t : Api.CmdType) {p : Str} (h : p ≠ [] ∧ p.length < 32 ∧ NoNul p) : PfxOk ⟨c, t, some p⟩ :=
  ⟨fun _ => by simp, fun k hk => by cases hk; exact h⟩

/-- What the caller sees is the same, and the library stays connected to the transport. -/
def Agrees {α : Type} (md ans : List Req → Req → Reply) (x y : Option (Api.Res α)) : Prop :=
  y = x.map (fun r => ⟨r.err, ideal ans r.world, r.out⟩) ∧ ∀ r, x = some r → Linked r.world md

theorem agrees_some {α : Type} {e : CellErr} {o : α} {w : World} (hw : Linked w md) :
    Agrees md ans (some ⟨e, w, o⟩) (some ⟨e, ideal ans w, o⟩) :=
  ⟨rfl, fun r hr => by simp only [Option.some.injEq] at hr; subst hr; exact hw⟩

theorem agrees_cb (hm : Same md ans) {w : World} (hw : Linked w md) {r : Req}
    (hr : PfxOk r) {α β : Type} (recv : List Str → α → Option (PktStatus × α)) (out : α)
    (k : PktStatus × World × α → Option (Api.Res β))
    (hk : ∀ s w1 b, Linked w1 md → Agrees md ans (k (s, w1, b)) (k (s, ideal ans w1, b))) :
    Agrees md ans (Api.requestCb w r recv out >>= k) (Api.requestCb (ideal ans w) r recv out >>= k) := by
  obtain ⟨h1, h2⟩ := requestCb_ideal hm hw hr recv out
  rw [h1]
  cases hq : Api.requestCb w r recv out with
  | none => exact ⟨rfl, nofun⟩
  | some q => exact hk _ _ _ (h2 q hq)

theorem agrees_request (hm : Same md ans) {w : World} (hw : Linked w md) {r : Req}
    (hr : PfxOk r) {β : Type} (k : Except PktStatus (List Str) × World → Option (Api.Res β))
    (hk : ∀ a w1, Linked w1 md → Agrees md ans (k (a, w1)) (k (a, ideal ans w1))) :
    Agrees md ans (k (Api.request w r)) (k (Api.request (ideal ans w) r)) := by
  obtain ⟨h1, h2⟩ := request_ideal hm hw hr
  rw [h1]
  exact hk _ _ h2

theorem agrees_noCb (hm : Same md ans) {w : World} (hw : Linked w md) {r : Req}
    (hr : PfxOk r) {β : Type} (k : PktStatus × World → Option (Api.Res β))
    (hk : ∀ a w1, Linked w1 md → Agrees md ans (k (a, w1)) (k (a, ideal ans w1))) :
    Agrees md ans (k (Api.requestNoCb w r)) (k (Api.requestNoCb (ideal ans w) r)) := by
  obtain ⟨h1, h2⟩ := requestNoCb_ideal hm hw hr
  rw [h1]
  exact hk _ _ h2

theorem updateMccMnc_ideal (hm : Same md ans) (lm : Nat) {w : World} (hw : Linked w md)
    (o : Api.OpInfo) : Api.updateMccMnc lm (ideal ans w) o =
      ((Api.updateMccMnc lm w o).1, ideal ans (Api.updateMccMnc lm w o).2.1, (Api.updateMccMnc lm w o).2.2) ∧
    Linked (Api.updateMccMnc lm w o).2.1 md := by
  obtain ⟨h1, h2⟩ := requestNoCb_ideal hm hw (r := ⟨str "AT+COPS=3,2", .noResult, none⟩) (pfxOk_plain _ _ (Or.inl rfl))
  unfold Api.updateMccMnc
  rw [h1]
  generalize Api.requestNoCb w ⟨str "AT+COPS=3,2", .noResult, none⟩ = x at h2
  obtain ⟨a, w1⟩ := x
  cases a <;> try exact ⟨rfl, h2⟩
  obtain ⟨h3, h4⟩ := request_ideal hm h2 (r := ⟨str "AT+COPS?", .withPrefix, some (str "+COPS")⟩)
    (pfxOk_with _ _ (by decide))
  simp only
  simp only at h3 h4
  rw [h3]
  generalize Api.request w1 ⟨str "AT+COPS?", .withPrefix, some (str "+COPS")⟩ = x at h4
  obtain ⟨a, w2⟩ := x
  cases a <;> exact ⟨rfl, h4⟩

theorem queryNetworkStatus_ideal (hm : Same md ans) (lm : Nat) {w : World} (hw : Linked w md)
    (cmd pfx : Str) (t : Reg.RegType) (hpf : pfx ≠ [] ∧ pfx.length < 32 ∧ NoNul pfx) :
    Api.queryNetworkStatus lm (ideal ans w) cmd pfx t =
      ((Api.queryNetworkStatus lm w cmd pfx t).1, ideal ans (Api.queryNetworkStatus lm w cmd pfx t).2) ∧
    Linked (Api.queryNetworkStatus lm w cmd pfx t).2 md := by
  obtain ⟨h1, h2⟩ := request_ideal hm hw (r := ⟨cmd, .multiWithPrefix, some pfx⟩) (pfxOk_with _ _ hpf)
  unfold Api.queryNetworkStatus
  rw [h1]
  generalize Api.request w ⟨cmd, .multiWithPrefix, some pfx⟩ = x at h2
  obtain ⟨a, w1⟩ := x
  cases a with
  | error e => exact ⟨rfl, h2⟩
  | ok l => exact ⟨rfl, h2.modem, h2.sent⟩

theorem queryRegStatus_ideal (hm : Same md ans) (lm : Nat) {w : World} (hw : Linked w md)
    (p : Api.RegPart) : Api.queryRegStatus lm (ideal ans w) p =
      ((Api.queryRegStatus lm w p).1, ideal ans (Api.queryRegStatus lm w p).2.1, (Api.queryRegStatus lm w p).2.2) ∧
    Linked (Api.queryRegStatus lm w p).2.1 md := by
  obtain ⟨h1, h2⟩ := queryNetworkStatus_ideal hm lm hw (str "AT+CREG?") (str "+CREG") .creg (by decide)
  unfold Api.queryRegStatus
  rw [h1]
  generalize Api.queryNetworkStatus lm w (str "AT+CREG?") (str "+CREG") .creg = x at h2
  obtain ⟨st, w1⟩ := x
  simp only at h2 ⊢
  by_cases hst : st = .success
  · subst hst
    obtain ⟨h3, h4⟩ := queryNetworkStatus_ideal hm lm h2 (str "AT+CGREG?") (str "+CGREG") .cgreg (by decide)
    simp only [if_true, true_and]
    rw [h3]
    generalize Api.queryNetworkStatus lm w1 (str "AT+CGREG?") (str "+CGREG") .cgreg = x at h4
    obtain ⟨st2, w2⟩ := x
    simp only at h4 ⊢
    by_cases hps : w2.atData.ps ≠ Reg.stHome ∧ w2.atData.ps ≠ Reg.stRoaming
    · obtain ⟨h5, h6⟩ := queryNetworkStatus_ideal hm lm h4 (str "AT+CEREG?") (str "+CEREG") .cereg (by decide)
      have hps' : (ideal ans w2).atData.ps ≠ Reg.stHome ∧ (ideal ans w2).atData.ps ≠ Reg.stRoaming := hps
      rw [if_pos hps, if_pos hps', h5]
      exact ⟨rfl, h6⟩
    · have hps' : ¬ ((ideal ans w2).atData.ps ≠ Reg.stHome ∧ (ideal ans w2).atData.ps ≠ Reg.stRoaming) := hps
      rw [if_neg hps, if_neg hps']
      exact ⟨rfl, h4⟩
  · simp only [if_neg hst, hst, false_and, if_false]
    exact ⟨trivial, h2⟩

theorem lib_ideal (w : World) : (ideal ans w).lib = w.lib := rfl

theorem agrees_getEidrx (hm : Same md ans) (lm : Nat) {w : World} (hw : Linked w md)
    (p : Option EdrxList) : Agrees md ans (Api.getEidrxSettings lm w p) (Api.getEidrxSettings lm (ideal ans w) p) := by
  unfold Api.getEidrxSettings
  rw [lib_ideal]
  cases Signal.checkLibraryStatus w.lib <;> try exact agrees_some hw
  cases p with
  | none => exact agrees_some hw
  | some old =>
    simp only [Option.map_eq_bind]
    exact agrees_cb hm hw (pfxOk_with _ _ (by decide)) _ _ _ (fun s w1 b h => agrees_some h)

theorem agrees_setEidrx (hm : Same md ans) {w : World} (hw : Linked w md)
    (p : Option (Nat × Nat × Nat)) :
    Agrees md ans (some (Api.setEidrxSettings w p)) (some (Api.setEidrxSettings (ideal ans w) p)) := by
  unfold Api.setEidrxSettings
  rw [lib_ideal]
  cases Signal.checkLibraryStatus w.lib <;> try exact agrees_some hw
  cases p with
  | none => exact agrees_some hw
  | some old =>
    exact agrees_noCb hm hw (pfxOk_plain _ _ (Or.inl rfl)) (fun r => some ⟨Signal.translatePkt r.1, r.2, ()⟩)
      (fun a w1 h => agrees_some h)

theorem agrees_rf (hm : Same md ans) {w : World} (hw : Linked w md) (on : Bool) :
    Agrees md ans (some (Api.rfSet on w)) (some (Api.rfSet on (ideal ans w))) := by
  unfold Api.rfSet
  rw [lib_ideal]
  cases Signal.checkLibraryStatus w.lib <;> try exact agrees_some hw
  exact agrees_noCb hm hw (pfxOk_plain _ _ (Or.inl rfl)) (fun r => some ⟨Signal.translatePkt r.1, r.2, ()⟩)
    (fun a w1 h => agrees_some h)

theorem agrees_getRegisteredNetwork (hm : Same md ans) (lm : Nat) {w : World}
    (hw : Linked w md) (mem : Bool) (p : Option Plmn) :
    Agrees md ans (some (Api.getRegisteredNetwork lm mem w p)) (some (Api.getRegisteredNetwork lm mem (ideal ans w) p)) := by
  unfold Api.getRegisteredNetwork
  rw [lib_ideal]
  cases Signal.checkLibraryStatus w.lib <;> try exact agrees_some hw
  cases p with
  | none => exact agrees_some hw
  | some old =>
    simp only
    split
    · exact agrees_some hw
    · obtain ⟨h1, h2⟩ := updateMccMnc_ideal hm lm hw Api.OpInfo.zero
      rw [h1]
      generalize Api.updateMccMnc lm w Api.OpInfo.zero = x at h2
      obtain ⟨e, w1, o⟩ := x
      cases e <;> try exact agrees_some h2
      simp only
      split <;> exact agrees_some h2

theorem agrees_getServiceStatus (hm : Same md ans) (lm : Nat) {w : World}
    (hw : Linked w md) (p : Option ServiceStatus) :
    Agrees md ans (some (Api.getServiceStatus lm w p)) (some (Api.getServiceStatus lm (ideal ans w) p)) := by
  unfold Api.getServiceStatus
  rw [lib_ideal]
  cases Signal.checkLibraryStatus w.lib <;> try exact agrees_some hw
  cases p with
  | none => exact agrees_some hw
  | some old =>
    simp only
    obtain ⟨h1, h2⟩ := queryRegStatus_ideal hm lm hw old.reg
    rw [h1]
    generalize Api.queryRegStatus lm w old.reg = x at h2
    obtain ⟨e, w1, o⟩ := x
    simp only at h2 ⊢
    obtain ⟨h3, h4⟩ := updateMccMnc_ideal hm lm h2 Api.OpInfo.zero
    rw [h3]
    exact agrees_some h4

theorem agrees_getNetworkTime (hm : Same md ans) (lm : Nat) {w : World}
    (hw : Linked w md) (p : Option Time) :
    Agrees md ans (some (Api.getNetworkTime lm w p)) (some (Api.getNetworkTime lm (ideal ans w) p)) := by
  unfold Api.getNetworkTime
  rw [lib_ideal]
  cases Signal.checkLibraryStatus w.lib <;> try exact agrees_some hw
  cases p with
  | none => exact agrees_some hw
  | some old =>
    exact agrees_request hm hw (pfxOk_with _ _ (by decide)) (fun r => some (match r with
      | (.error e, w) => ⟨Signal.translatePkt e, w, some old⟩
      | (.ok l, w) => ⟨Signal.translatePkt (Api.recvNetworkTime lm l old).1, w, some (Api.recvNetworkTime lm l old).2⟩))
      (fun a w1 h => by cases a <;> exact agrees_some h)

theorem agrees_getModemInfo (hm : Same md ans) {w : World}
    (hw : Linked w md) (p : Option ModemInfo) :
    Agrees md ans (Api.getModemInfo w p) (Api.getModemInfo (ideal ans w) p) := by
  unfold Api.getModemInfo
  rw [lib_ideal]
  cases Signal.checkLibraryStatus w.lib <;> try exact agrees_some hw
  cases p with
  | none => exact agrees_some hw
  | some old =>
    refine agrees_cb hm hw (pfxOk_plain _ _ (Or.inr rfl)) _ _ _ (fun s w1 b h => ?_)
    simp only
    split
    · exact agrees_some h
    refine agrees_cb hm h (pfxOk_plain _ _ (Or.inr rfl)) _ _ _ (fun s w2 b h => ?_)
    simp only
    split
    · exact agrees_some h
    refine agrees_cb hm h (pfxOk_plain _ _ (Or.inr rfl)) _ _ _ (fun s w3 b h => ?_)
    simp only
    split
    · exact agrees_some h
    exact agrees_cb hm h (pfxOk_plain _ _ (Or.inr rfl)) _ _ _ (fun s w4 b h => agrees_some h)

theorem agrees_getIp (hm : Same md ans) {w : World}
    (hw : Linked w md) (c : Nat) (p : Option Mem) (n : Nat) :
    Agrees md ans (Api.getIPAddress w c p n) (Api.getIPAddress (ideal ans w) c p n) := by
  unfold Api.getIPAddress
  rw [lib_ideal]
  cases Signal.checkLibraryStatus w.lib <;> try exact agrees_some hw
  cases p with
  | none => exact agrees_some hw
  | some old =>
    simp only
    split
    · exact agrees_some hw
    cases Signal.isValidPdn c <;> try exact agrees_some hw
    simp only [Option.map_eq_bind]
    exact agrees_cb hm hw (pfxOk_with _ _ (by decide)) _ _ _ (fun s w1 b h => agrees_some h)

theorem agrees_setPdn (hm : Same md ans) {w : World} (hw : Linked w md) (c : Nat)
    (p : Option PdnConfig) :
    Agrees md ans (some (Api.setPdnConfig w c p)) (some (Api.setPdnConfig (ideal ans w) c p)) := by
  unfold Api.setPdnConfig
  rw [lib_ideal]
  cases p with
  | none => exact agrees_some hw
  | some old =>
    simp only
    cases Api.pdnTypeStr old.type with
    | none => exact agrees_some hw
    | some t =>
      cases Signal.isValidPdn c <;> try exact agrees_some hw
      cases Signal.checkLibraryStatus w.lib <;> try exact agrees_some hw
      exact agrees_noCb hm hw (pfxOk_plain _ _ (Or.inl rfl)) (fun r => some ⟨Signal.translatePkt r.1, r.2, ()⟩)
        (fun a w1 h => agrees_some h)

theorem agrees_getSimLock (hm : Same md ans) {w : World}
    (hw : Linked w md) (p : Option SimLock) :
    Agrees md ans (some (Api.getSimCardLockStatus w p)) (some (Api.getSimCardLockStatus (ideal ans w) p)) := by
  unfold Api.getSimCardLockStatus
  rw [lib_ideal]
  cases Signal.checkLibraryStatus w.lib <;> try exact agrees_some hw
  cases p with
  | none => exact agrees_some hw
  | some old =>
    exact agrees_request hm hw (pfxOk_with _ _ (by decide)) (fun r => some (match r with
      | (.error e, w) => ⟨Signal.translatePkt e, w, some .unknown⟩
      | (.ok l, w) => ⟨Signal.translatePkt (Api.recvSimLock l .unknown).1, w, some (Api.recvSimLock l .unknown).2⟩))
      (fun a w1 h => by cases a <;> exact agrees_some h)

theorem agrees_getSimInfo (hm : Same md ans) {w : World}
    (hw : Linked w md) (p : Option SimInfo) :
    Agrees md ans (Api.getSimCardInfo w p) (Api.getSimCardInfo (ideal ans w) p) := by
  unfold Api.getSimCardInfo
  rw [lib_ideal]
  cases Signal.checkLibraryStatus w.lib <;> try exact agrees_some hw
  cases p with
  | none => exact agrees_some hw
  | some old =>
    refine agrees_cb hm hw (pfxOk_plain _ _ (Or.inr rfl)) _ _ _ (fun s w1 b h => ?_)
    simp only
    split
    · exact agrees_some h
    refine agrees_cb hm h (pfxOk_with _ _ (by decide)) _ _ _ (fun s w2 b h => ?_)
    simp only
    split
    · exact agrees_some h
    exact agrees_cb hm h (pfxOk_with _ _ (by decide)) _ _ _ (fun s w4 b h => agrees_some h)

theorem agrees_setPsm (hm : Same md ans) {w : World} (hw : Linked w md)
    (p : Option Psm) :
    Agrees md ans (some (Api.setPsmSettings w p)) (some (Api.setPsmSettings (ideal ans w) p)) := by
  unfold Api.setPsmSettings
  rw [lib_ideal]
  cases Signal.checkLibraryStatus w.lib <;> try exact agrees_some hw
  cases p with
  | none => exact agrees_some hw
  | some old =>
    exact agrees_noCb hm hw (pfxOk_plain _ _ (Or.inl rfl)) (fun r => some ⟨Signal.translatePkt r.1, r.2, ()⟩)
      (fun a w1 h => agrees_some h)

theorem agrees_getPsm (hm : Same md ans) (lm : Nat) {w : World}
    (hw : Linked w md) (p : Option Psm) :
    Agrees md ans (some (Api.getPsmSettings lm w p)) (some (Api.getPsmSettings lm (ideal ans w) p)) := by
  unfold Api.getPsmSettings
  rw [lib_ideal]
  cases Signal.checkLibraryStatus w.lib <;> try exact agrees_some hw
  cases p with
  | none => exact agrees_some hw
  | some old =>
    exact agrees_request hm hw (pfxOk_with _ _ (by decide)) (fun r => some (match r with
      | (.error e, w) => ⟨Signal.translatePkt e, w, some ⟨0xFF, 0, 0, 0, 0⟩⟩
      | (.ok l, w) => ⟨Signal.translatePkt (Api.recvPsm lm l ⟨0xFF, 0, 0, 0, 0⟩).1, w,
          some (Api.recvPsm lm l ⟨0xFF, 0, 0, 0, 0⟩).2⟩))
      (fun a w1 h => by cases a <;> exact agrees_some h)

theorem pack_agrees {α : Type} (f : α → Obj) {x y : Option (Api.Res α)} (h : Agrees md ans x y) :
    y.map (pack f) = (x.map (pack f)).map (fun r => (r.1, r.2.1, ideal ans r.2.2)) ∧
    ∀ r, x.map (pack f) = some r → Linked r.2.2 md := by
  obtain ⟨h1, h2⟩ := h
  subst h1
  refine ⟨by simp [Option.map_map, Function.comp_def, pack], fun q hq => ?_⟩
  obtain ⟨r, hr, rfl⟩ := Option.map_eq_some_iff.1 hq
  exact h2 r hr

theorem call_ideal (hm : Same md ans) (lm : Nat) {w : World} (hw : Linked w md) (c : Call) :
    c.run lm (ideal ans w) = (c.run lm w).map (fun r => (r.1, r.2.1, ideal ans r.2.2)) ∧
    ∀ r, c.run lm w = some r → Linked r.2.2 md := by
  cases c with
  | getEidrx p => exact pack_agrees _ (agrees_getEidrx hm lm hw p)
  | setEidrx p => exact pack_agrees (fun _ => .nothing) (agrees_setEidrx hm hw p)
  | rf on => exact pack_agrees (fun _ => .nothing) (agrees_rf hm hw on)
  | getRegisteredNetwork mem p => exact pack_agrees _ (agrees_getRegisteredNetwork hm lm hw mem p)
  | getServiceStatus p => exact pack_agrees _ (agrees_getServiceStatus hm lm hw p)
  | getNetworkTime p => exact pack_agrees _ (agrees_getNetworkTime hm lm hw p)
  | getModemInfo p => exact pack_agrees _ (agrees_getModemInfo hm hw p)
  | getIp c b n => exact pack_agrees _ (agrees_getIp hm hw c b n)
  | setPdn c p => exact pack_agrees (fun _ => .nothing) (agrees_setPdn hm hw c p)
  | getSimLock p => exact pack_agrees _ (agrees_getSimLock hm hw p)
  | getSimInfo p => exact pack_agrees _ (agrees_getSimInfo hm hw p)
  | setPsm p => exact pack_agrees (fun _ => .nothing) (agrees_setPsm hm hw p)
  | getPsm p => exact pack_agrees _ (agrees_getPsm hm lm hw p)

end

/-- C70, sessions: whatever sequence of API calls a program makes - with whatever arguments, while registration codes
come in between - over a transport whose modem speaks the protocol (`Speaks`: in any pieces, with unsolicited codes
between the lines of its answers, with requests it does not answer), every call returns exactly what it would return if
the modem handed its answers `ans` over directly, the objects of the caller end up with the same contents, and so does
the library (its registration record, the events it announced, the requests it made).  What the modem is sent are the
commands of these requests, each followed by a carriage return, and nothing else. -/
theorem C70_session {cfg : Cfg} {m : Wire.Modem} {ans : List Req → Req → Reply} (hp : PlainPort cfg)
    (hm : Speaks cfg m ans) (lm : Nat) (as : List Action) (w : World) (hw : OnWire w cfg m) :
    session lm (ideal ans w) as = (session lm w as).map (fun r => (r.1, ideal ans r.2)) ∧
    ∀ r, session lm w as = some r →
      ∃ k, replay cfg m (start cfg) [] r.2.sent = some k ∧ k.tx.wire = r.2.sent.map (fun q => q.cmd ++ [13]) := by
  suffices h : session lm (ideal ans w) as = (session lm w as).map (fun r => (r.1, ideal ans r.2)) ∧
      ∀ r, session lm w as = some r → OnWire r.2 cfg m from
    ⟨h.1, fun r hr => C70_bytes_sent cfg m ans hp hm _ (h.2 r hr).sent⟩
  induction as generalizing w with
  | nil => exact ⟨rfl, fun r hr => by simp only [session, Option.some.injEq] at hr; subst hr; exact hw⟩
  | cons a as ih =>
    cases a with
    | registration d ev =>
      exact ih { w with atData := d, events := w.events ++ ev } ⟨hw.modem, hw.sent⟩
    | call c =>
      obtain ⟨h1, h2⟩ := call_ideal (speaks_same hp hm) lm (onWire_linked hw) c
      simp only [session, h1]
      cases hc : c.run lm w with
      | none => exact ⟨rfl, nofun⟩
      | some q =>
        obtain ⟨e, o, w1⟩ := q
        obtain ⟨h3, h4⟩ := ih w1 (linked_onWire (h2 _ hc))
        simp only [Option.map_some, h3]
        refine ⟨by simp [Option.map_map, Function.comp_def], fun r hr => ?_⟩
        obtain ⟨x, hx, rfl⟩ := Option.map_eq_some_iff.1 hr
        exact h4 x hx

/-- C70, single calls: the case of one call. -/
theorem C70_call {cfg : Cfg} {m : Wire.Modem} {ans : List Req → Req → Reply} (hp : PlainPort cfg)
    (hm : Speaks cfg m ans) (lm : Nat) (w : World) (hw : OnWire w cfg m) (c : Call) :
    c.run lm (ideal ans w) = (c.run lm w).map (fun r => (r.1, r.2.1, ideal ans r.2.2)) :=
  (call_ideal (speaks_same hp hm) lm (onWire_linked hw) c).1

/-- The library right after its initialization, connected to `wireDemo`. -/
noncomputable def wireFresh : World :=
  ⟨some (true, false, false), Reg.initAtData, false, [], [],
    fun h r => (Wire.reply (demoCfg 200) wireDemo h r).getD .timeout⟩

/-- A session with that modem: the first query times out (the modem does not answer it); the second, of the clock, is
answered between unsolicited codes; the SIM query is answered with a mere `OK`; a NULL pointer is refused; the radio is
switched off.  The results come from the bytes of the modem, through the transport. -/
example : (session (2 ^ 63) wireFresh [.call (.getNetworkTime (some Api.Time.zero)), .registration Reg.initAtData [],
      .call (.getNetworkTime (some Api.Time.zero)), .call (.getSimLock (some .ready)), .call (.getPsm none),
      .call (.rf false)]).map (fun r => (r.1, r.2.sent.map Req.cmd)) =
    some ([(.timeout, .time (some Api.Time.zero)), (.success, .time (some ⟨1, 2, 3, 4, 5, 24, -6⟩)),
        (.internalFailure, .lock (some .unknown)), (.badParameter, .psm none), (.success, .nothing)],
      [str "AT+CCLK?", str "AT+CCLK?", str "AT+CPIN?", str "AT+CFUN=4"]) := by
  have h := (C70_session demo_port demo_speaks (2 ^ 63) [.call (.getNetworkTime (some Api.Time.zero)),
    .registration Reg.initAtData [], .call (.getNetworkTime (some Api.Time.zero)), .call (.getSimLock (some .ready)),
    .call (.getPsm none), .call (.rf false)] wireFresh ⟨fun _ _ => rfl, nofun⟩).1
  have h := congrArg (Option.map (fun r => (r.1, r.2.sent.map Req.cmd))) h
  rw [Option.map_map] at h
  exact h.symm.trans rfl

end Cellular.Props
