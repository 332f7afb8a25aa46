import Verif.ConcProps
/-!
# The user data handed to a response callback

`_convertAndQueueRespPacket` reads three members of the context without the mutex when it calls a response
callback: `pktRespCB`, `pPktUsrData` and `PktUsrDataLen` (cellular_pkthandler.c:103-106).  `Verif.Conc` has the
first; here the other two are added to that transition system.  They are written with `pktRespCB` under
`PktRespMutex` (cellular_pkthandler.c:218-223), and, unlike `pktRespCB`, never cleared.
-/

namespace Cellular.Conc
open Cellular
open Cellular.Pktio (CmdType MsgType Item Resp Cfg)

/-- What a callback was called with: the request that installed the callback, the request whose `pData` it was
given and the request whose `dataLen` it was given (`none`: the member was never written). -/
structure Given where
  cb : Nat
  data : Option Nat
  len : Option Nat
  deriving DecidableEq, Repr

/-- The system of `Verif.Conc` with `pPktUsrData` and `PktUsrDataLen` (cellular_common_internal.h:134-135; each is
denoted by the request whose value it holds), the arguments of the call that the receive task has evaluated, and the
calls made. -/
structure USt where
  base : St
  usr : Option Nat
  len : Option Nat
  argUsr : Option (Option Nat)
  argLen : Option (Option Nat)
  calls : List Given

def uinit : USt := ⟨init, none, none, none, none, []⟩

/-- `atReq.pData` and `atReq.dataLen` are stored in the critical section that stores the callback,
cellular_pkthandler.c:218-223; no other step writes them. -/
def stored (p : Thr) (old : Option Nat) : Option Nat :=
  match p with
  | .raw0 i r => if r.cmd.isSome then some i else old
  | _ => old

/-- The receive task has passed the test of `pktRespCB` and is evaluating the call. -/
def Calling : Rx → Prop
  | .call _ => True
  | .inCb _ _ => True
  | _ => False

instance (x : Rx) : Decidable (Calling x) := by cases x <;> unfold Calling <;> infer_instance

/-- In the callback or later: the call was made with the arguments evaluated before. -/
def CbOf : Rx → Option Nat
  | .inCb i _ => some i
  | _ => none

/-- One step.  The members are read in any order, cellular_pkthandler.c:103-106 (C leaves the order of evaluation of
the called expression and the arguments open); the callback runs when all three have been read. -/
inductive UStep (cfg : Cfg) (comm : Bool) : USt → USt → Prop
  | thr (s : USt) (t : Nat) (b : St) (h : ThrStep comm t s.base b) :
      UStep cfg comm s { s with base := b, usr := stored (s.base.thr t) s.usr, len := stored (s.base.thr t) s.len }
  | readUsr (s : USt) (h : Calling s.base.rx) : UStep cfg comm s { s with argUsr := some s.usr }
  | readLen (s : USt) (h : Calling s.base.rx) : UStep cfg comm s { s with argLen := some s.len }
  /-- the callback is called, cellular_pkthandler.c:103 -/
  | callback (s : USt) (b : St) (i : Nat) (u l : Option Nat) (hi : CbOf s.base.rx = some i)
      (hu : s.argUsr = some u) (hl : s.argLen = some l) (h : RxStep cfg s.base b) :
      UStep cfg comm s { s with base := b, argUsr := none, argLen := none, calls := s.calls ++ [⟨i, u, l⟩] }
  /-- any other step of the receive task -/
  | rx (s : USt) (b : St) (hi : CbOf s.base.rx = none) (h : RxStep cfg s.base b) :
      UStep cfg comm s { s with base := b }

/-- The states of all executions. -/
inductive UReachable (cfg : Cfg) (comm : Bool) : USt → Prop
  | init : UReachable cfg comm uinit
  | step {s s' : USt} (h : UReachable cfg comm s) (hs : UStep cfg comm s s') : UReachable cfg comm s'

/-- The states of the executions whose steps satisfy `P`. -/
inductive URun (cfg : Cfg) (comm : Bool) (P : USt → USt → Prop) : USt → Prop
  | init : URun cfg comm P uinit
  | step {s s' : USt} (h : URun cfg comm P s) (hs : UStep cfg comm s s') (hp : P s s') : URun cfg comm P s'

theorem URun.reachable {cfg : Cfg} {comm : Bool} {P : USt → USt → Prop} {s : USt} (h : URun cfg comm P s) : UReachable cfg comm s := by
  induction h with
  | init => exact .init
  | step _ hs _ ih => exact .step ih hs

theorem UReachable.run {cfg : Cfg} {comm : Bool} {s : USt} (h : UReachable cfg comm s) : URun cfg comm (fun _ _ => True) s := by
  induction h with
  | init => exact .init
  | step _ hs ih => exact .step ih hs trivial

end Cellular.Conc

namespace Cellular.ConcLemmas
open Cellular Spec Conc
open Cellular.Pktio (CmdType MsgType Item Resp Cfg)

theorem urun_base {cfg : Cfg} {comm : Bool} {Q : USt → USt → Prop} {P : St → St → Prop} {s : USt} (h : URun cfg comm Q s)
    (hq : ∀ a b, Q a b → P a.base b.base) : Run cfg comm P s.base := by
  induction h with
  | init => exact .init
  | step _ hs hp ih =>
    have := hq _ _ hp
    cases hs with
    | thr t b h => exact ih.step (.thr t h) this
    | readUsr => exact ih
    | readLen => exact ih
    | callback b i u l hi hu hl h => exact ih.step (.rx h) this
    | rx b hi h => exact ih.step (.rx h) this

theorem ureach_base {cfg : Cfg} {comm : Bool} {s : USt} (h : UReachable cfg comm s) : Reachable cfg comm s.base := by
  induction h with
  | init => exact .init
  | step _ hs ih =>
    cases hs with
    | thr t b h => exact ih.step (.thr t h)
    | readUsr => exact ih
    | readLen => exact ih
    | callback b i u l hi hu hl h => exact ih.step (.rx h)
    | rx b hi h => exact ih.step (.rx h)

/-- Between the command type being set and the status being taken, in the command step. -/
def rawWait : Thr → Bool
  | .raw2 _ _ => true
  | .raw3 _ _ => true
  | _ => false

theorem rawWait_of {p : Thr} (h1 : waits p = true) (h2 : cbZone p = true) : rawWait p = true := by
  cases p <;> simp_all [waits, cbZone, rawWait]

structure UInv (s : USt) : Prop where
  /-- the members belong to the request whose command step is under way -/
  usr : ∀ p, cur s.base = some p → cbZone p = true → s.usr = active p ∧ s.len = active p
  zone : ∀ i, CbOf s.base.rx = some i → ∃ p, cur s.base = some p ∧ rawWait p = true ∧ active p = some i
  args : ∀ p, Calling s.base.rx → cur s.base = some p →
    (∀ u, s.argUsr = some u → u = active p) ∧ (∀ l, s.argLen = some l → l = active p)
  none : ¬ Calling s.base.rx → s.argUsr = none ∧ s.argLen = none
  law : ∀ g ∈ s.calls, g.data = some g.cb ∧ g.len = some g.cb

/-- While the receive task evaluates the call, the request waits in its command step. -/
theorem calling_zone {tol : Bool} {s : St} {m : Own} (J : Inv2 tol false s m) (hx : Calling s.rx)
    (hz : ∀ i, CbOf s.rx = some i → ∃ p, cur s = some p ∧ rawWait p = true) :
    s.queue = none ∧ ∃ p, cur s = some p ∧ rawWait p = true := by
  cases J.ph with
  | pl r hw hc hq ha hr hi hn hcb =>
    refine ⟨hq, ?_⟩
    obtain ⟨j, hj⟩ := Option.ne_none_iff_exists'.1 hn
    have hcz := (J.cb j hj).1
    unfold cw at hw
    cases hcu : cur s with
    | none => rw [hcu] at hw; simp at hw
    | some p =>
      rw [hcu] at hw hcz
      simp only [Option.any_some] at hw hcz
      exact ⟨p, rfl, rawWait_of hw hcz⟩
  | pi i r hw hc hq ha hr hi hn hcb => exact ⟨hq, hz i (by rw [hr]; rfl)⟩
  | p0 hc hq ha hp hr => exfalso; revert hx hp; cases s.rx <;> simp [Calling, passive]
  | pa hw hq ha hp hr hcb => exfalso; revert hx hp; cases s.rx <;> simp [Calling, passive, procish]
  | pd r hw hq ha hr => rw [hr] at hx; exact hx.elim
  | ph r hw hc hq ha hr => rw [hr] at hx; exact hx.elim
  | ps st hw hc hq ha hr => rw [hr] at hx; exact hx.elim
  | pc st hw hc hq ha hp hr => exfalso; revert hx hp; cases s.rx <;> simp [Calling, passive]
  | pt _ hw hq ha hp hr => exfalso; revert hx hp; cases s.rx <;> simp [Calling, passive]

theorem calling_of_cb {x : Rx} {i : Nat} (h : CbOf x = some i) : Calling x := by
  cases x <;> simp_all [CbOf, Calling]

/-- A step of the owner of the request mutex. -/
theorem uinv_owner {s : USt} {b : St} {t : Nat} {p : Thr} (U : UInv s) (I : Inv s.base)
    (ha : active (s.base.thr t) ≠ none) (hp : active p ≠ none) (hthr : b.thr = (s.base.set t p).thr)
    (hmx : b.mutex = s.base.mutex) (hrx : b.rx = s.base.rx)
    (hz : cbZone p = true → ∀ o, (cbZone (s.base.thr t) = true → o = active (s.base.thr t)) →
      stored (s.base.thr t) o = active p)
    (hc : Calling s.base.rx → rawWait (s.base.thr t) = true → rawWait p = true ∧ active p = active (s.base.thr t))
    (hcz : Calling s.base.rx → rawWait (s.base.thr t) = true) :
    UInv { s with base := b, usr := stored (s.base.thr t) s.usr, len := stored (s.base.thr t) s.len } := by
  obtain ⟨_, k2, k3⟩ := m_keep I ha hp hthr hmx
  have hcb : ∀ {i}, CbOf s.base.rx = some i → Calling s.base.rx := by
    intro i h; revert h; cases s.base.rx <;> simp [CbOf, Calling]
  refine ⟨?_, ?_, ?_, ?_, U.law⟩
  · intro q hq hzq
    simp only at hq
    rw [k3] at hq; cases hq
    exact ⟨hz hzq _ (fun h => (U.usr _ k2 h).1), hz hzq _ (fun h => (U.usr _ k2 h).2)⟩
  · intro i h
    simp only [hrx] at h
    obtain ⟨q, h1, h2, h3⟩ := U.zone i h
    rw [k2] at h1; cases h1
    obtain ⟨e1, e2⟩ := hc (hcb h) h2
    exact ⟨p, k3, e1, by rw [e2]; exact h3⟩
  · intro q h hq
    simp only [hrx] at h
    simp only at hq
    rw [k3] at hq; cases hq
    have e := (hc h (hcz h)).2
    rw [e]
    exact U.args _ h k2
  · intro h; simp only [hrx] at h; exact U.none h

theorem uinv_thr {comm tol : Bool} {s : USt} {b : St} {t : Nat} (U : UInv s) (I : Inv s.base) {m : Own}
    (J : Inv2 tol false s.base m) (h : ThrStep comm t s.base b) (hn : Forgive tol b) :
    UInv { s with base := b, usr := stored (s.base.thr t) s.usr, len := stored (s.base.thr t) s.len } := by
  have hcall : Calling s.base.rx → s.base.queue = none ∧ ∃ p, cur s.base = some p ∧ rawWait p = true := fun hx =>
    calling_zone J hx (fun i hi => by obtain ⟨p, h1, h2, _⟩ := U.zone i hi; exact ⟨p, h1, h2⟩)
  have hown : active (s.base.thr t) ≠ none → Calling s.base.rx → rawWait (s.base.thr t) = true := by
    intro ha hx
    obtain ⟨_, p, h1, h2⟩ := hcall hx
    have hm := (I.m t).1 ha
    simp [cur, hm] at h1
    rw [h1]; exact h2
  obtain ⟨base, usr, len, au, al, calls⟩ := s
  simp only at U I J h hcall hown ⊢
  have key : ∀ (p : Thr), active (base.thr t) ≠ none → active p ≠ none → b.thr = (base.set t p).thr →
      b.mutex = base.mutex → b.rx = base.rx →
      (cbZone p = true → ∀ o, (cbZone (base.thr t) = true → o = active (base.thr t)) →
        stored (base.thr t) o = active p) →
      (Calling base.rx → rawWait (base.thr t) = true → rawWait p = true ∧ active p = active (base.thr t)) →
      UInv (⟨b, stored (base.thr t) usr, stored (base.thr t) len, au, al, calls⟩ : USt) := by
    intro p a1 a2 a3 a4 a5 a6 a7
    exact uinv_owner (s := ⟨base, usr, len, au, al, calls⟩) U I a1 a2 a3 a4 a5 a6 a7 (hown a1)
  cases h with
  | call r h =>
    have hc : cur ({ base.set t (.waiting base.reqs.length r) with reqs := base.reqs ++ [r] } : St) = cur base := by
      unfold cur
      simp only [St.set]
      cases hm : base.mutex with
      | none => rfl
      | some u =>
        have : u ≠ t := by
          rintro rfl
          have := (I.m u).2 hm
          rw [h] at this; simp [active] at this
        simp [this]
    have hst : ∀ o, stored (base.thr t) o = o := by intro o; rw [h]; rfl
    rw [hst, hst]
    exact ⟨by rw [hc]; exact U.usr, by rw [hc]; exact U.zone, by rw [hc]; exact U.args, U.none, U.law⟩
  | acquire i r h hm =>
    have hst : ∀ o, stored (base.thr t) o = o := by intro o; rw [h]; rfl
    have hno : ¬ Calling base.rx := by
      intro hx
      obtain ⟨_, p, h1, _⟩ := hcall hx
      simp [cur, hm] at h1
    rw [hst, hst]
    refine ⟨?_, ?_, fun _ h => absurd h hno, fun _ => U.none hno, U.law⟩
    · intro p hp hz
      simp [cur, St.set, St.emit] at hp
      subst hp
      simp [cbZone] at hz
    · intro j hj
      simp only [St.set, St.emit] at hj
      exact absurd (by revert hj; cases base.rx <;> simp [CbOf, Calling]) hno
  | install i r h =>
    exact key (.raw0 i r) (by simp [h, active]) (by simp [active]) rfl rfl rfl (by simp [cbZone]) (by simp [h, rawWait])
  | raw0null i r h hc =>
    exact key (.uninstall i r .badRequest) (by simp [h, active]) (by simp [active]) rfl rfl rfl (by simp [cbZone])
      (by simp [h, rawWait])
  | raw0 i r text h hc =>
    exact key (.raw1 i r) (by simp [h, active]) (by simp [active]) rfl rfl rfl
      (by intro _ o _; simp [h, stored, hc, active]) (by simp [h, rawWait])
  | raw1fail i r text e h hc he =>
    exact key (.raw4 i r e) (by simp [h, active]) (by simp [active]) rfl rfl rfl
      (by intro _ o ho; simpa [h, stored, active, cbZone] using ho) (by simp [h, rawWait])
  | raw1 i r text p h hc he =>
    exact key (.raw2 i r) (by simp [h, active]) (by simp [active]) rfl rfl rfl
      (by intro _ o ho; simpa [h, stored, active, cbZone] using ho) (by simp [h, rawWait])
  | raw2 i r text h hc =>
    exact key (.raw3 i r) (by simp [h, active]) (by simp [active]) rfl rfl rfl
      (by intro _ o ho; simpa [h, stored, active, cbZone] using ho) (by simp [h, rawWait, active])
  | raw3got i r st h hq =>
    refine key (.raw4 i r st) (by simp [h, active]) (by simp [active]) rfl rfl rfl
      (by intro _ o ho; simpa [h, stored, active, cbZone] using ho) (fun hx => ?_)
    have := (hcall hx).1
    rw [hq] at this; cases this
  | raw3timeout i r h hq =>
    refine key (.raw4 i r .timedOut) (by simp [h, active]) (by simp [active]) rfl rfl rfl
      (by intro _ o ho; simpa [h, stored, active, cbZone] using ho) (fun hx => ?_)
    exfalso
    cases tol with
    | false => exact hn.none rfl i (by simp [St.emit])
    | true =>
      have := (hn.clean rfl t (by simp [St.set, St.emit, Ending])).2.2
      simp only [St.set, St.emit] at this
      revert hx this
      cases base.rx <;> simp [Calling, NotAnswering]
  | raw4 i r st h =>
    exact key (.uninstall i r st) (by simp [h, active]) (by simp [active]) rfl rfl rfl (by simp [cbZone])
      (by simp [h, rawWait])
  | uninstall i r st h =>
    refine key (afterRaw i r.kind.data st) (by simp [h, active]) (by simp [active_afterRaw]) rfl rfl rfl ?_
      (by simp [h, rawWait])
    intro hz
    exfalso; revert hz; unfold afterRaw; split <;> simp [cbZone]
  | data0null i d h hd =>
    exact key (.release i .badRequest none) (by simp [h, active]) (by simp [active]) rfl rfl rfl (by simp [cbZone])
      (by simp [h, rawWait])
  | data0 i d x h hd hp =>
    exact key (.data1 i d x) (by simp [h, active]) (by simp [active]) rfl rfl rfl (by simp [cbZone])
      (by simp [h, rawWait])
  | data1 i d x n h hl =>
    refine key (afterData i d n) (by simp [h, active]) ?_ rfl rfl rfl ?_ (by simp [h, rawWait])
    · unfold afterData; split <;> simp [active]
    · intro hz; exfalso; revert hz; unfold afterData; split <;> simp [cbZone]
  | data1short i d x n h hl =>
    exfalso
    exact hn.sent i (by simp [St.emit])
  | data2 i d n e k h hk =>
    exact key (.data3 i n) (by simp [h, active]) (by simp [active]) rfl rfl rfl (by simp [cbZone])
      (by simp [h, rawWait])
  | data2short i d n e k h hk =>
    exfalso
    exact hn.sent i (by simp [St.emit])
  | data3got i n st h hq =>
    exact key (.data4 i n st) (by simp [h, active]) (by simp [active]) rfl rfl rfl (by simp [cbZone])
      (by simp [h, rawWait])
  | data3timeout i n h hq =>
    exact key (.data4 i n .timedOut) (by simp [h, active]) (by simp [active]) rfl rfl rfl (by simp [cbZone])
      (by simp [h, rawWait])
  | data4 i n st h =>
    exact key (.release i st (some n)) (by simp [h, active]) (by simp [active]) rfl rfl rfl (by simp [cbZone])
      (by simp [h, rawWait])
  | release i st sent h =>
    have hst : ∀ o, stored (base.thr t) o = o := by intro o; rw [h]; rfl
    have hno : ¬ Calling base.rx := by
      intro hx
      have := hown (by simp [h, active]) hx
      rw [h] at this; simp [rawWait] at this
    rw [hst, hst]
    refine ⟨?_, ?_, fun _ h => absurd h hno, fun _ => U.none hno, U.law⟩
    · intro p hp; simp [cur, St.set, St.emit] at hp
    · intro j hj
      simp only [St.set, St.emit] at hj
      exact absurd (by revert hj; cases base.rx <;> simp [CbOf, Calling]) hno

/-- A step of the receive task leaves the request in progress alone. -/
theorem rx_cur {cfg : Cfg} {s b : St} (h : RxStep cfg s b) : cur b = cur s := by
  cases h <;> rfl

theorem uinv_rx {cfg : Cfg} {s : USt} {b : St} (U : UInv s) {tol : Bool} {m : Own} (J : Inv2 tol false s.base m)
    (hi : CbOf s.base.rx = none) (h : RxStep cfg s.base b) (hn : Ev.nullCall ∉ b.log) :
    UInv { s with base := b } := by
  have hc := rx_cur h
  have hzone : Calling s.base.rx → ∃ p, cur s.base = some p ∧ rawWait p = true := fun hx =>
    (calling_zone J hx (fun i hi => by obtain ⟨p, h1, h2, _⟩ := U.zone i hi; exact ⟨p, h1, h2⟩)).2
  obtain ⟨base, usr, len, au, al, calls⟩ := s
  simp only at U J hi h hc hzone ⊢
  have key : ¬ Calling base.rx → CbOf b.rx = none →
      UInv ({ base := b, usr := usr, len := len, argUsr := au, argLen := al, calls := calls } : USt) := by
    intro h1 h2
    obtain ⟨e1, e2⟩ := U.none h1
    simp only at e1 e2
    subst e1; subst e2
    refine ⟨by rw [hc]; exact U.usr, ?_, ?_, fun _ => ⟨rfl, rfl⟩, U.law⟩
    · intro i hi; simp only [h2] at hi; cases hi
    · intro p _ _; exact ⟨fun u hu => by simp at hu, fun u hu => by simp at hu⟩
  cases h with
  | callNull r hr hcb => exact absurd (by simp [St.emit]) hn
  | call r i hr hcb =>
    refine ⟨by rw [hc]; exact U.usr, ?_, ?_, ?_, U.law⟩
    · intro j hj
      simp only [CbOf, Option.some.injEq] at hj
      subst hj
      obtain ⟨p, h1, h2⟩ := hzone (by rw [hr]; trivial)
      have hreq := (J.cb i hcb).2
      rw [J.req, h1] at hreq
      exact ⟨p, by rw [hc]; exact h1, h2, hreq⟩
    · intro p _ hp
      rw [hc] at hp
      exact U.args p (by rw [hr]; trivial) hp
    · intro hx; exact absurd trivial hx
  | callback r i st hr => simp [hr, CbOf] at hi
  | handle r hr =>
    refine key (by simp [hr, Calling]) ?_
    unfold handled
    split
    · rfl
    · split <;> rfl
  | classify n on hr =>
    refine key (by simp [hr, Calling]) ?_
    unfold classified
    split <;> rfl
  | preSend n d i keep hr => refine key (by simp [hr, Calling]) ?_; simp only [St.emit]; split <;> rfl
  | preRecv n i keep hr => refine key (by simp [hr, Calling]) ?_; simp only [St.emit]; split <;> rfl
  | _ => exact key (by simp_all [Calling]) rfl

/-- Nothing was lost, or every state was harmless. -/
def Mild (tol : Bool) (Q : USt → USt → Prop) (s : USt) : Prop :=
  (tol = false ∧ NoLoss s.base.log) ∨ (tol = true ∧ ∀ a b, Q a b → Harmless b.base)

theorem Mild.own {cfg : Cfg} {comm tol : Bool} {Q : USt → USt → Prop} {s : USt} (h : URun cfg comm Q s) (hn : Mild tol Q s) :
    ∃ m, own false s.base.log = some m ∧ Inv2 tol false s.base m := by
  rcases hn with ⟨rfl, hn⟩ | ⟨rfl, hn⟩
  · exact own_run (ureach_base h.reachable).run (by simp) hn
  · exact own_run' (P := fun _ b => Harmless b) (urun_base h hn) (by simp) (.inr ⟨rfl, fun _ _ h => h⟩)

theorem Mild.before {tol : Bool} {Q : USt → USt → Prop} {s s' : USt} {l : List Ev} (hn : Mild tol Q s') (hl : s'.base.log = s.base.log ++ l) :
    Mild tol Q s := by
  rcases hn with ⟨ht, hn⟩ | hn
  · refine .inl ⟨ht, fun i => ?_⟩
    have := hn i; simp only [hl] at this
    exact ⟨fun h => this.1 (List.mem_append_left _ h), fun h => this.2 (List.mem_append_left _ h)⟩
  · exact .inr hn

theorem uinv_run {cfg : Cfg} {comm tol : Bool} {Q : USt → USt → Prop} {s : USt} (h : URun cfg comm Q s) (hn : Mild tol Q s) :
    UInv s := by
  induction h with
  | init =>
    exact ⟨by simp [uinit, init, cur], by simp [uinit, init, CbOf], by simp [uinit, init, Calling],
      fun _ => ⟨rfl, rfl⟩, by simp [uinit]⟩
  | @step s0 s1 hr hs hp ih =>
    have hr' := ureach_base hr.reachable
    have hnull := Props.monitor_no_null (Mild.own (hr.step hs hp) hn).choose_spec.1
    have hF : Forgive tol s1.base := by
      rcases hn with ⟨rfl, hn⟩ | ⟨rfl, hn⟩
      · exact forgive_noLoss hn
      · exact forgive_harmless (hn _ _ hp)
    cases hs with
    | thr t b h =>
      obtain ⟨l, hl⟩ := step_log (cfg := cfg) (.thr t h)
      have hn0 := hn.before hl
      obtain ⟨m, _, J⟩ := hn0.own hr
      exact uinv_thr (ih hn0) (inv_reachable hr') J h hF
    | readUsr hx =>
      have U := ih hn
      refine ⟨U.usr, U.zone, ?_, fun h => absurd hx h, U.law⟩
      intro p hx' hp
      refine ⟨?_, (U.args p hx' hp).2⟩
      intro u hu
      simp only [Option.some.injEq] at hu
      subst hu
      obtain ⟨m, _, J⟩ := Mild.own hr hn
      obtain ⟨_, q, h1, h2⟩ := calling_zone J hx (fun i hi => by obtain ⟨p, h1, h2, _⟩ := U.zone i hi; exact ⟨p, h1, h2⟩)
      simp only at hp
      rw [hp] at h1; cases h1
      exact (U.usr p hp (by revert h2; cases p <;> simp [rawWait, cbZone])).1
    | readLen hx =>
      have U := ih hn
      refine ⟨U.usr, U.zone, ?_, fun h => absurd hx h, U.law⟩
      intro p hx' hp
      refine ⟨(U.args p hx' hp).1, ?_⟩
      intro u hu
      simp only [Option.some.injEq] at hu
      subst hu
      obtain ⟨m, _, J⟩ := Mild.own hr hn
      obtain ⟨_, q, h1, h2⟩ := calling_zone J hx (fun i hi => by obtain ⟨p, h1, h2, _⟩ := U.zone i hi; exact ⟨p, h1, h2⟩)
      simp only at hp
      rw [hp] at h1; cases h1
      exact (U.usr p hp (by revert h2; cases p <;> simp [rawWait, cbZone])).2
    | callback b i u l hi hu hl h =>
      obtain ⟨lg, hlg⟩ := step_log (cfg := cfg) (comm := comm) (.rx h)
      have hn0 := hn.before hlg
      have U := ih hn0
      have hc := rx_cur h
      obtain ⟨p, h1, h2, h3⟩ := U.zone i hi
      have hx := calling_of_cb hi
      have hb : ¬ Calling b.rx ∧ CbOf b.rx = none := by
        cases h <;> simp_all [CbOf, Calling, St.emit]
      refine ⟨by rw [hc]; exact U.usr, ?_, fun _ h => absurd h hb.1, fun _ => ⟨rfl, rfl⟩, ?_⟩
      · intro j hj; simp only [hb.2] at hj; cases hj
      · intro g hg
        rcases List.mem_append.1 hg with hg | hg
        · exact U.law g hg
        · simp only [List.mem_singleton] at hg
          subst hg
          obtain ⟨e1, e2⟩ := U.args p hx h1
          exact ⟨by simp only; rw [e1 u hu, h3], by simp only; rw [e2 l hl, h3]⟩
    | rx b hi h =>
      obtain ⟨lg, hlg⟩ := step_log (cfg := cfg) (comm := comm) (.rx h)
      have hn0 := hn.before hlg
      obtain ⟨m, _, J⟩ := hn0.own hr
      exact uinv_rx (ih hn0) J hi h hnull

theorem uinv_reachable {cfg : Cfg} {comm : Bool} {s : USt} (h : UReachable cfg comm s) (hn : NoLoss s.base.log) :
    UInv s := uinv_run h.run (.inl ⟨rfl, hn⟩)

end Cellular.ConcLemmas

namespace Cellular.Conc
open Cellular
open Cellular.Pktio (CmdType MsgType Item Resp Cfg)

/-- A scheduling decision in the extended system. -/
inductive UAct
  | act (a : Act)
  | readUsr
  | readLen

/-- One decision, by computation (only to exhibit executions). -/
def unext (cfg : Cfg) (comm : Bool) (a : UAct) (s : USt) : Option USt :=
  match a with
  | .readUsr => if Calling s.base.rx then some { s with argUsr := some s.usr } else none
  | .readLen => if Calling s.base.rx then some { s with argLen := some s.len } else none
  | .act (.call t r) =>
    match s.base.thr t with
    | .idle => some { s with base := { s.base.set t (.waiting s.base.reqs.length r) with reqs := s.base.reqs ++ [r] } }
    | _ => none
  | .act (.go t n) => (goThr comm t n s.base).map (fun b =>
      { s with base := b, usr := stored (s.base.thr t) s.usr, len := stored (s.base.thr t) s.len })
  | .act (.expire t) => (expireThr t s.base).map (fun b =>
      { s with base := b, usr := stored (s.base.thr t) s.usr, len := stored (s.base.thr t) s.len })
  | .act (.recv l) =>
    match s.base.rx with
    | .idle => some { s with base := { s.base with
        received := s.base.received ++ [l], rx := .got s.base.received.length,
        log := s.base.log ++ [.recv s.base.received.length] } }
    | _ => none
  | .act (.rx st) =>
    match CbOf s.base.rx, s.argUsr, s.argLen with
    | some i, some u, some l => (goRx cfg st s.base).map (fun b =>
        { s with base := b, argUsr := none, argLen := none, calls := s.calls ++ [⟨i, u, l⟩] })
    | some _, _, _ => none
    | none, _, _ => (goRx cfg st s.base).map (fun b => { s with base := b })

theorem unext_sound {cfg : Cfg} {comm : Bool} {a : UAct} {s s' : USt} (h : unext cfg comm a s = some s') :
    UStep cfg comm s s' := by
  unfold unext at h
  split at h
  · split at h
    · cases h; exact .readUsr s ‹_›
    · cases h
  · split at h
    · cases h; exact .readLen s ‹_›
    · cases h
  · split at h
    · rename_i t r _ hp
      cases h
      have := UStep.thr (cfg := cfg) s t _ (ThrStep.call (comm := comm) s.base r hp)
      rw [hp] at this
      exact this
    · cases h
  · rename_i t n
    obtain ⟨b, hb, rfl⟩ := Option.map_eq_some_iff.1 h
    exact .thr s t b (goThr_sound hb)
  · rename_i t
    obtain ⟨b, hb, rfl⟩ := Option.map_eq_some_iff.1 h
    exact .thr s t b (expireThr_sound hb)
  · split at h
    · rename_i l _ hp
      cases h
      exact .rx s _ (by rw [hp]; rfl) (.receive s.base l hp)
    · cases h
  · split at h
    · rename_i i u l h1 h2 h3
      obtain ⟨b, hb, rfl⟩ := Option.map_eq_some_iff.1 h
      exact .callback s b i u l h1 h2 h3 (goRx_sound hb)
    · cases h
    · rename_i h1
      obtain ⟨b, hb, rfl⟩ := Option.map_eq_some_iff.1 h
      exact .rx s b h1 (goRx_sound hb)

def uexec (cfg : Cfg) (comm : Bool) : List UAct → USt → Option USt
  | [], s => some s
  | a :: as, s => (unext cfg comm a s).bind (uexec cfg comm as)

theorem uexec_sound {cfg : Cfg} {comm : Bool} {as : List UAct} {s s' : USt} (hr : UReachable cfg comm s)
    (h : uexec cfg comm as s = some s') : UReachable cfg comm s' := by
  induction as generalizing s with
  | nil => cases h; exact hr
  | cons a as ih =>
    unfold uexec at h
    cases hn : unext cfg comm a s with
    | none => rw [hn] at h; cases h
    | some s1 => rw [hn] at h; exact ih (hr.step (unext_sound hn)) h

theorem uexec_reach {cfg : Cfg} {comm : Bool} (as : List UAct) {α : Type} (f : USt → α) (v : α)
    (h : (uexec cfg comm as uinit).map f = some v) : ∃ s, UReachable cfg comm s ∧ f s = v := by
  cases hs : uexec cfg comm as uinit with
  | none => rw [hs] at h; cases h
  | some s => rw [hs] at h; exact ⟨s, uexec_sound .init hs, by simpa using h⟩

end Cellular.Conc

namespace Cellular.Props
open Cellular Spec Conc ConcLemmas
open Cellular.Pktio (CmdType MsgType Item Resp Cfg)

/-- The callback executions recorded in a history. -/
def callbacksOf (log : List Ev) : List Nat :=
  log.filterMap (fun e => match e with
    | .callback i _ _ => some i
    | _ => none)

theorem callbacksOf_append (a b : List Ev) : callbacksOf (a ++ b) = callbacksOf a ++ callbacksOf b := by
  unfold callbacksOf; rw [List.filterMap_append]

theorem thr_callbacks {comm : Bool} {t : Nat} {s b : St} (h : ThrStep comm t s b) : callbacksOf b.log = callbacksOf s.log := by
  cases h <;> simp [callbacksOf, St.emit, St.set]

theorem rx_callbacks {cfg : Cfg} {s b : St} (h : RxStep cfg s b) :
    callbacksOf b.log = callbacksOf s.log ++ (CbOf s.rx).toList := by
  cases h with
  | fetch n h => cases hr : s.recvCb <;> cases hs : s.sendCb <;> simp [callbacksOf, fetchedBy, CbOf, h]
  | procDone n t r h hp => cases he : s.extra <;> simp [callbacksOf, consult, CbOf, h, he]
  | procPending n t st r h hp hs => cases he : s.extra <;> simp [callbacksOf, consult, CbOf, h, he]
  | procUndef n t st r h hp hs => cases he : s.extra <;> simp [callbacksOf, consult, CbOf, h, he]
  | _ => simp_all [callbacksOf, CbOf, St.emit]

/-- The calls recorded with their arguments are the callback executions of the history, in order. -/
theorem C75_calls_are_the_callbacks {cfg : Cfg} {comm : Bool} {s : USt} (h : UReachable cfg comm s) :
    s.calls.map (·.cb) = callbacksOf s.base.log := by
  induction h with
  | init => rfl
  | step hr hs ih =>
    cases hs with
    | thr t b h => simp only [thr_callbacks h, ih]
    | readUsr hx => exact ih
    | readLen hx => exact ih
    | callback b i u l hi hu hl h => simp only [rx_callbacks h, hi, List.map_append, ih]; rfl
    | rx b hi h => simp only [rx_callbacks h, hi, ih]; simp

/-- C75, if no request timed out and no data send failed: a response callback is given the data pointer and the length
that were passed with the request that passed the callback.  (And it runs while that request is in progress: C25.)
Missing: after a timeout it does not hold, witness below. -/
theorem C75_own_data_partial {cfg : Cfg} {comm : Bool} {s : USt} (h : UReachable cfg comm s) (hn : NoLoss s.base.log) :
    ∀ g ∈ s.calls, g.data = some g.cb ∧ g.len = some g.cb :=
  (uinv_reachable h hn).law

/-- The request in progress when a callback runs is the one whose data it was given. -/
theorem C75_data_in_progress_partial {cfg : Cfg} {comm : Bool} {s : USt} (h : UReachable cfg comm s)
    (hn : NoLoss s.base.log) {a b : List Ev} {i : Nat} {items : List Item} {st : PktStatus}
    (hl : s.base.log = a ++ .callback i items st :: b) :
    InProgress a i ∧ ∃ g, s.calls[(callbacksOf a).length]? = some g ∧ g = ⟨i, some i, some i⟩ := by
  refine ⟨(C25_once_while_pending_partial (ureach_base h) hn hl).1, ?_⟩
  have hm := C75_calls_are_the_callbacks h
  rw [hl, callbacksOf_append] at hm
  have hc : callbacksOf (.callback i items st :: b) = i :: callbacksOf b := rfl
  rw [hc] at hm
  have hk : (s.calls.map (·.cb))[(callbacksOf a).length]? = some i := by
    rw [hm, List.getElem?_append_right (Nat.le_refl _)]; simp
  rw [List.getElem?_map] at hk
  cases hg : s.calls[(callbacksOf a).length]? with
  | none => rw [hg] at hk; cases hk
  | some g =>
    rw [hg] at hk
    simp only [Option.map_some, Option.some.injEq] at hk
    have := C75_own_data_partial h hn g (List.mem_of_getElem? hg)
    refine ⟨g, rfl, ?_⟩
    obtain ⟨c, d, l⟩ := g
    simp only at hk this
    rw [hk] at this ⊢
    rw [this.1, this.2]

def uacts (as : List Act) : List UAct := as.map .act

/-- Two requests in turn, each with a response: each callback gets the data of its own request. -/
example : ∃ s, UReachable exCfg true s ∧ (s.calls, s.base.log.contains (.timeout 0)) =
    ([⟨0, some 0, some 0⟩, ⟨1, some 1, some 1⟩], false) :=
  uexec_reach (uacts (begins 0 exReqCb ++ .recv [79, 75] :: rxs 8) ++ [.readLen, .act (.rx .ok), .readUsr] ++
    uacts (rxs 3 ++ gos 0 4 ++ begins 1 exReqCb ++ .recv [79, 75] :: rxs 8) ++ [.readUsr, .readLen] ++ uacts (rxs 4))
    _ _ (by decide +kernel)

/-- C75 does not hold after a timeout: the receive task has found the callback of request 0 and read its data
pointer when request 0 times out and request 1 starts; it then calls the callback of request 1 with the data pointer
of request 0 and the length of request 1. -/
theorem C75_witness_mixed : ∃ s, UReachable exCfg true s ∧ (s.calls, s.base.log) =
    ([⟨1, some 0, some 1⟩],
     [.start 0, .command 0 [65, 84], .recv 0, .final true 0, .timeout 0, .ret 0 .timedOut none, .start 1,
      .command 1 [65, 84], .callback 1 [] .ok]) :=
  uexec_reach (uacts (begins 0 exReqCb ++ .recv [79, 75] :: rxs 8) ++ [.readUsr] ++
    uacts (.expire 0 :: gos 0 3 ++ begins 1 exReqCb) ++ [.readLen] ++ uacts (rxs 2)) _ _ (by decide +kernel)

/-- The other way round: the callback of request 0, fetched before the timeout, runs with the data of request 1. -/
theorem C75_witness_foreign_buffer : ∃ s, UReachable exCfg true s ∧ (s.calls, s.base.log) =
    ([⟨0, some 1, some 1⟩],
     [.start 0, .command 0 [65, 84], .recv 0, .final true 0, .timeout 0, .ret 0 .timedOut none, .start 1,
      .command 1 [65, 84], .callback 0 [] .ok]) :=
  uexec_reach (uacts (begins 0 exReqCb ++ .recv [79, 75] :: rxs 9 ++ .expire 0 :: gos 0 3 ++ begins 1 exReqCb) ++
    [.readUsr, .readLen] ++ uacts (rxs 1)) _ _ (by decide +kernel)

end Cellular.Props
