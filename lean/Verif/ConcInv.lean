import Verif.Conc
/-!
# Requests: specification of a serial history, and the basic invariant
-/

namespace Cellular.Spec
open Cellular Conc

/-- How one event moves the "request in progress"; no result = a violation.  A request starts only when
none is in progress; everything done on behalf of a request (its bytes, its waiting, its tokens being
compared, its prefix callbacks being fetched, its return) is done while it is the one in progress. -/
def serialStep : Option Nat → Ev → Option (Option Nat)
  | none, .start i => some (some i)
  | some _, .start _ => none
  | c, .command i _ => if c = some i then some c else none
  | c, .data i _ _ => if c = some i then some c else none
  | c, .pattern i _ _ => if c = some i then some c else none
  | c, .got i _ => if c = some i then some c else none
  | c, .timeout i => if c = some i then some c else none
  | c, .sendError i => if c = some i then some c else none
  | c, .consulted i _ => if c = some i then some c else none
  | c, .fetched i => if c = some i then some c else none
  | c, .ret i _ _ => if c = some i then some none else none
  | c, _ => some c

/-- The request in progress after a history, if the history is serial. -/
def serial (log : List Ev) : Option (Option Nat) :=
  log.foldl (fun c e => c.bind (fun c => serialStep c e)) (some none)

/-- The request a thread is executing (it owns the request mutex). -/
def active : Thr → Option Nat
  | .idle => none
  | .waiting _ _ => none
  | .install i _ => some i
  | .raw0 i _ => some i
  | .raw1 i _ => some i
  | .raw2 i _ => some i
  | .raw3 i _ => some i
  | .raw4 i _ _ => some i
  | .uninstall i _ _ => some i
  | .data0 i _ => some i
  | .data1 i _ _ => some i
  | .data2 i _ _ _ => some i
  | .data3 i _ => some i
  | .data4 i _ _ => some i
  | .release i _ _ => some i

/-- The request a thread is executing, from the installation of its tokens and callbacks to their removal. -/
def inRaw : Thr → Option (Nat × Req)
  | .raw0 i r => some (i, r)
  | .raw1 i r => some (i, r)
  | .raw2 i r => some (i, r)
  | .raw3 i r => some (i, r)
  | .raw4 i r _ => some (i, r)
  | .uninstall i r _ => some (i, r)
  | _ => none

end Cellular.Spec

namespace Cellular.ConcLemmas
open Cellular Spec Conc
open Cellular.Pktio (CmdType MsgType Item Resp Cfg getMsgType processLine writeMax)

theorem serial_append (l l' : List Ev) :
    serial (l ++ l') = l'.foldl (fun c e => c.bind (fun c => serialStep c e)) (serial l) := by
  unfold serial; rw [List.foldl_append]

theorem serial_keep {l l' : List Ev} {c : Option Nat} (h : serial l = some c)
    (h' : ∀ e ∈ l', serialStep c e = some c) : serial (l ++ l') = some c := by
  rw [serial_append, h]
  clear h
  induction l' with
  | nil => rfl
  | cons e l' ih =>
    rw [List.foldl_cons]
    simp only [Option.bind_some]
    rw [h' e List.mem_cons_self]
    exact ih (fun e he => h' e (List.mem_cons_of_mem _ he))

/-- The owner of the request mutex. -/
def cur (s : St) : Option Thr := s.mutex.map s.thr

structure Inv (s : St) : Prop where
  m : ∀ t, (active (s.thr t) ≠ none ↔ s.mutex = some t)
  ex : ∀ i tb, s.extra = some (i, tb) → ∃ p r, cur s = some p ∧ inRaw p = some (i, r) ∧ r.kind.table = some tb
  rc : ∀ i, s.recvCb = some i → ∃ p r, cur s = some p ∧ inRaw p = some (i, r) ∧ r.kind = .dataRecv true
  sc : ∀ i, s.sendCb = some i → ∃ p r d, cur s = some p ∧ inRaw p = some (i, r) ∧ r.kind = .dataSend d true
  ser : serial s.log = some ((cur s).bind active)

theorem inv_init : Inv init :=
  ⟨by intro t; simp [init, active], by simp [init], by simp [init], by simp [init], rfl⟩

theorem inRaw_active {p : Thr} {i : Nat} {r : Req} (h : inRaw p = some (i, r)) : active p = some i := by
  cases p <;> simp_all [inRaw, active]

/-- A step of the owner to another place in its request. -/
theorem m_keep {s s' : St} {t : Nat} {p : Thr} (I : Inv s) (ha : active (s.thr t) ≠ none)
    (hp : active p ≠ none) (hthr : s'.thr = (s.set t p).thr) (hmx : s'.mutex = s.mutex) :
    (∀ u, (active (s'.thr u) ≠ none ↔ s'.mutex = some u)) ∧ cur s = some (s.thr t) ∧ cur s' = some p := by
  have hm := (I.m t).1 ha
  refine ⟨?_, by simp [cur, hm], by simp [cur, hmx, hm, hthr, St.set]⟩
  intro u
  rw [hthr, hmx]
  simp only [St.set]
  by_cases hu : u = t
  · subst hu; simp only [if_true]; exact ⟨fun _ => hm, fun _ => hp⟩
  · simp only [hu, if_false]; exact I.m u

/-- A step of the owner that leaves tokens and callbacks alone. -/
theorem inv_move {s s' : St} {t i : Nat} {p : Thr} (I : Inv s) (ha : active (s.thr t) = some i)
    (hp : active p = some i) (hr : ∀ x, inRaw (s.thr t) = some x → inRaw p = some x)
    (hthr : s'.thr = (s.set t p).thr) (hmx : s'.mutex = s.mutex) (hx : s'.extra = s.extra)
    (hrc : s'.recvCb = s.recvCb) (hsc : s'.sendCb = s.sendCb) (evs : List Ev) (hl : s'.log = s.log ++ evs)
    (he : ∀ e ∈ evs, serialStep (some i) e = some (some i)) : Inv s' := by
  obtain ⟨k1, k2, k3⟩ := m_keep I (by simp [ha]) (by simp [hp]) hthr hmx
  refine ⟨k1, ?_, ?_, ?_, ?_⟩
  · intro j tb e
    rw [hx] at e
    obtain ⟨q, r, hq, hr', ht⟩ := I.ex j tb e
    rw [k2] at hq; cases hq
    exact ⟨p, r, k3, hr _ hr', ht⟩
  · intro j e
    rw [hrc] at e
    obtain ⟨q, r, hq, hr', ht⟩ := I.rc j e
    rw [k2] at hq; cases hq
    exact ⟨p, r, k3, hr _ hr', ht⟩
  · intro j e
    rw [hsc] at e
    obtain ⟨q, r, d, hq, hr', ht⟩ := I.sc j e
    rw [k2] at hq; cases hq
    exact ⟨p, r, d, k3, hr _ hr', ht⟩
  · have h1 := I.ser
    rw [k2] at h1
    simp only [Option.bind_some, ha] at h1
    rw [hl, k3]
    simp only [Option.bind_some, hp]
    exact serial_keep h1 he

theorem active_afterRaw (i : Nat) (d : Option Data) (st : PktStatus) : active (afterRaw i d st) = some i := by
  unfold afterRaw; split <;> rfl

theorem active_afterData (i : Nat) (d : Data) (n : Nat) : active (afterData i d n) = some i := by
  unfold afterData; split <;> rfl

theorem inv_thr {comm : Bool} {t : Nat} {s s' : St} (h : ThrStep comm t s s') (I : Inv s) : Inv s' := by
  have hex := I.ex
  have hrc := I.rc
  have hsc := I.sc
  have hser := I.ser
  cases h with
  | call r h =>
    have hm : s.mutex ≠ some t := by
      intro e; have := (I.m t).2 e; rw [h] at this; exact this rfl
    have hc : cur { s.set t (.waiting s.reqs.length r) with reqs := s.reqs ++ [r] } = cur s := by
      unfold cur St.set
      cases hmx : s.mutex with
      | none => rfl
      | some u => simp only [Option.map_some]; rw [if_neg (by rintro rfl; exact hm hmx)]
    refine ⟨?_, ?_, ?_, ?_, ?_⟩
    · intro u
      simp only [St.set]
      by_cases hu : u = t
      · subst hu; simp only [if_true, active, ne_eq, not_true, false_iff]; exact hm
      · simp only [hu, if_false]; exact I.m u
    all_goals (rw [hc]; simp only [St.set]; assumption)
  | acquire i r h hm =>
    have hc : cur s = none := by unfold cur; rw [hm]; rfl
    have hc' : cur (({ s with mutex := some t }.set t (.install i r)).emit (.start i)) = some (.install i r) := by
      simp [cur, St.set, St.emit]
    rw [hc] at hex hrc hsc hser
    refine ⟨?_, ?_, ?_, ?_, ?_⟩
    · intro u
      simp only [St.set, St.emit]
      by_cases hu : u = t
      · subst hu; simp [active]
      · simp only [hu, if_false]
        rw [I.m u, hm]
        simp only [reduceCtorEq, Option.some.injEq, false_iff]
        exact fun e => hu e.symm
    · intro j tb e; simp only [St.set, St.emit] at e; obtain ⟨p, _, hp, _⟩ := hex j tb e; simp at hp
    · intro j e; simp only [St.set, St.emit] at e; obtain ⟨p, _, hp, _⟩ := hrc j e; simp at hp
    · intro j e; simp only [St.set, St.emit] at e; obtain ⟨p, _, _, hp, _⟩ := hsc j e; simp at hp
    · rw [hc']
      simp only [St.set, St.emit]
      rw [serial_append, hser]; rfl
  | release i st sent h =>
    have ha : active (s.thr t) ≠ none := by rw [h]; simp [active]
    have hm := (I.m t).1 ha
    have hc : cur s = some (.release i st sent) := by simp [cur, hm, h]
    have hc' : cur (({ s with mutex := none }.set t .idle).emit (.ret i st sent)) = none := by
      simp [cur, St.set, St.emit]
    rw [hc] at hex hrc hsc hser
    refine ⟨?_, ?_, ?_, ?_, ?_⟩
    · intro u
      simp only [St.set, St.emit]
      by_cases hu : u = t
      · subst hu; simp [active]
      · simp only [hu, if_false]
        rw [I.m u, hm]
        simp only [reduceCtorEq, Option.some.injEq, iff_false]
        exact fun e => hu e.symm
    · intro j tb e
      simp only [St.set, St.emit] at e
      obtain ⟨p, _, hp, hr, _⟩ := hex j tb e
      simp only [Option.some.injEq] at hp; subst hp; simp [inRaw] at hr
    · intro j e
      simp only [St.set, St.emit] at e
      obtain ⟨p, _, hp, hr, _⟩ := hrc j e
      simp only [Option.some.injEq] at hp; subst hp; simp [inRaw] at hr
    · intro j e
      simp only [St.set, St.emit] at e
      obtain ⟨p, _, _, hp, hr, _⟩ := hsc j e
      simp only [Option.some.injEq] at hp; subst hp; simp [inRaw] at hr
    · rw [hc']
      simp only [St.set, St.emit]
      rw [serial_append, hser]
      simp [active, serialStep]
  | install i r h =>
    obtain ⟨k1, k2, k3⟩ := m_keep (s' := { s with
        extra := r.kind.installExtra i s.extra, recvCb := r.kind.installRecv i s.recvCb,
        sendCb := r.kind.installSend i s.sendCb }.set t (.raw0 i r)) (p := .raw0 i r) I
        (by rw [h]; simp [active]) (by simp [active]) rfl rfl
    rw [h] at k2
    rw [k2] at hex hrc hsc hser
    refine ⟨k1, ?_, ?_, ?_, ?_⟩
    · rw [k3]
      intro j tb e
      simp only [St.set, Kind.installExtra] at e
      refine ⟨_, r, rfl, ?_⟩
      cases hk : r.kind.table with
      | some tb' =>
        rw [hk] at e
        simp only [Option.some.injEq, Prod.mk.injEq] at e
        exact ⟨by simp [inRaw, e.1], by rw [e.2]⟩
      | none =>
        rw [hk] at e
        obtain ⟨p, _, hp, hr, _⟩ := hex j tb e
        simp only [Option.some.injEq] at hp; subst hp; simp [inRaw] at hr
    · rw [k3]
      intro j e
      simp only [St.set, Kind.installRecv] at e
      refine ⟨_, r, rfl, ?_⟩
      have hno : s.recvCb ≠ some j := by
        intro e; obtain ⟨p, _, hp, hr, _⟩ := hrc j e
        simp only [Option.some.injEq] at hp; subst hp; simp [inRaw] at hr
      cases hk : r.kind <;> rw [hk] at e <;> simp only at e
      case dataRecv b =>
        cases b <;> simp at e
        exact ⟨by simp [inRaw, e], rfl⟩
      all_goals exact absurd e hno
    · rw [k3]
      intro j e
      simp only [St.set, Kind.installSend] at e
      have hno : s.sendCb ≠ some j := by
        intro e; obtain ⟨p, _, _, hp, hr, _⟩ := hsc j e
        simp only [Option.some.injEq] at hp; subst hp; simp [inRaw] at hr
      cases hk : r.kind <;> rw [hk] at e <;> simp only at e
      case dataSend d b =>
        cases b <;> simp at e
        exact ⟨_, r, d, rfl, by simp [inRaw, e], hk⟩
      all_goals exact absurd e hno
    · rw [k3]; exact hser
  | uninstall i r st h =>
    obtain ⟨k1, k2, k3⟩ := m_keep (s' := { s with
        extra := r.kind.removeExtra s.extra, recvCb := r.kind.removeRecv s.recvCb,
        sendCb := r.kind.removeSend s.sendCb }.set t (afterRaw i r.kind.data st)) (p := afterRaw i r.kind.data st) I
        (by rw [h]; simp [active]) (by simp [active_afterRaw]) rfl rfl
    rw [h] at k2
    rw [k2] at hex hrc hsc hser
    refine ⟨k1, ?_, ?_, ?_, ?_⟩
    · intro j tb e
      simp only [St.set, Kind.removeExtra] at e
      cases hk : r.kind.table with
      | some tb' => rw [hk] at e; simp at e
      | none =>
        rw [hk] at e
        obtain ⟨p, r', hp, hr, ht⟩ := hex j tb e
        simp only [Option.some.injEq] at hp; subst hp
        simp only [inRaw, Option.some.injEq, Prod.mk.injEq] at hr
        rw [← hr.2, hk] at ht; simp at ht
    · intro j e
      simp only [St.set, Kind.removeRecv] at e
      have hno : r.kind ≠ .dataRecv true → s.recvCb ≠ some j := by
        intro hk e; obtain ⟨p, r', hp, hr, ht⟩ := hrc j e
        simp only [Option.some.injEq] at hp; subst hp
        simp only [inRaw, Option.some.injEq, Prod.mk.injEq] at hr
        rw [← hr.2] at ht; exact hk ht
      cases hk : r.kind <;> rw [hk] at e <;> simp only at e
      case dataRecv b => simp at e
      all_goals exact absurd e (hno (by simp [hk]))
    · intro j e
      simp only [St.set, Kind.removeSend] at e
      have hno : (∀ d, r.kind ≠ .dataSend d true) → s.sendCb ≠ some j := by
        intro hk e; obtain ⟨p, r', d, hp, hr, ht⟩ := hsc j e
        simp only [Option.some.injEq] at hp; subst hp
        simp only [inRaw, Option.some.injEq, Prod.mk.injEq] at hr
        rw [← hr.2] at ht; exact hk d ht
      cases hk : r.kind <;> rw [hk] at e <;> simp only at e
      case dataSend b => simp at e
      all_goals exact absurd e (hno (by simp [hk]))
    · rw [k3]
      simp only [Option.bind_some, active_afterRaw]
      exact hser
  | raw0null i r h _ | raw0 i r _ h _ | raw1fail i r _ _ h _ _ | raw1 i r _ _ h _ _ | raw4 i r _ h | data0null i _ h _
  | data0 i _ _ h _ _ | data4 i _ _ h =>
    exact inv_move I (by rw [h]; rfl) rfl (by rw [h]; intro x hx; simpa [inRaw] using hx) rfl rfl rfl rfl rfl []
      (List.append_nil _).symm (by simp)
  | raw2 i r _ h _ | raw3got i r _ h _ | raw3timeout i r h _ | data2 i _ _ _ _ h _
  | data3got i _ _ h _ | data3timeout i _ h _ =>
    exact inv_move I (by rw [h]; rfl) rfl (by rw [h]; intro x hx; simpa [inRaw] using hx) rfl rfl rfl rfl rfl [_]
      rfl (by simp [serialStep])
  | data1 i d b n h hn =>
    exact inv_move I (by rw [h]; rfl) (active_afterData i d n) (by rw [h]; simp [inRaw]) rfl rfl rfl rfl rfl [_]
      rfl (by simp [serialStep])
  | data1short i d b n h hn =>
    exact inv_move I (by rw [h]; rfl) rfl (by rw [h]; intro x hx; simpa [inRaw] using hx) rfl rfl rfl rfl rfl
      [.data i b n, .sendError i] (by simp [St.set, St.emit]) (by simp [serialStep])
  | data2short i d n e m h hm =>
    exact inv_move I (by rw [h]; rfl) rfl (by rw [h]; intro x hx; simpa [inRaw] using hx) rfl rfl rfl rfl rfl
      [.pattern i e m, .sendError i] (by simp [St.set, St.emit]) (by simp [serialStep])

/-- A step of the receive task. -/
theorem inv_rx_move {s s' : St} (I : Inv s) (hthr : s'.thr = s.thr) (hmx : s'.mutex = s.mutex)
    (hx : s'.extra = s.extra) (hrc : s'.recvCb = s.recvCb) (hsc : s'.sendCb = s.sendCb) (evs : List Ev)
    (hl : s'.log = s.log ++ evs)
    (he : ∀ e ∈ evs, serialStep ((cur s).bind active) e = some ((cur s).bind active)) : Inv s' := by
  have hc : cur s' = cur s := by unfold cur; rw [hthr, hmx]
  refine ⟨by rw [hthr, hmx]; exact I.m, by rw [hx, hc]; exact I.ex, by rw [hrc, hc]; exact I.rc,
    by rw [hsc, hc]; exact I.sc, ?_⟩
  rw [hl, hc]
  exact serial_keep I.ser he

theorem consult_serial {s : St} (I : Inv s) (n : Nat) :
    ∀ e ∈ consult s n, serialStep ((cur s).bind active) e = some ((cur s).bind active) := by
  unfold consult
  cases h : s.extra with
  | none => simp
  | some x =>
    obtain ⟨i, tb⟩ := x
    obtain ⟨p, r, hp, hr, _⟩ := I.ex i tb h
    simp [hp, inRaw_active hr, serialStep]

theorem fetched_recv {s : St} (I : Inv s) :
    ∀ e ∈ fetchedBy s.recvCb, serialStep ((cur s).bind active) e = some ((cur s).bind active) := by
  cases h : s.recvCb with
  | none => simp [fetchedBy]
  | some i =>
    obtain ⟨p, r, hp, hr, _⟩ := I.rc i h
    simp [fetchedBy, hp, inRaw_active hr, serialStep]

theorem fetched_send {s : St} (I : Inv s) :
    ∀ e ∈ fetchedBy s.sendCb, serialStep ((cur s).bind active) e = some ((cur s).bind active) := by
  cases h : s.sendCb with
  | none => simp [fetchedBy]
  | some i =>
    obtain ⟨p, r, _, hp, hr, _⟩ := I.sc i h
    simp [fetchedBy, hp, inRaw_active hr, serialStep]

theorem inv_rx {cfg : Cfg} {s s' : St} (h : RxStep cfg s s') (I : Inv s) : Inv s' := by
  cases h with
  | fetch n h =>
    refine inv_rx_move I rfl rfl rfl rfl rfl (fetchedBy s.recvCb ++ fetchedBy s.sendCb)
      (by simp [List.append_assoc]) ?_
    intro e he
    rcases List.mem_append.1 he with he | he
    · exact fetched_recv I e he
    · exact fetched_send I e he
  | procDone n t r h hp =>
    refine inv_rx_move I rfl rfl rfl rfl rfl (consult s n ++ [.final r.status n]) (by simp [List.append_assoc]) ?_
    intro e he
    rcases List.mem_append.1 he with he | he
    · exact consult_serial I n e he
    · simp only [List.mem_singleton] at he; subst he; simp [serialStep]
  | procPending n t st r h hp hs =>
    exact inv_rx_move I rfl rfl rfl rfl rfl (consult s n) rfl (consult_serial I n)
  | procUndef n t st r h hp hs =>
    exact inv_rx_move I rfl rfl rfl rfl rfl (consult s n) rfl (consult_serial I n)
  | receive | preSend | preRecv | callNull | callback =>
    exact inv_rx_move I rfl rfl rfl rfl rfl [_] rfl (by simp [serialStep])
  | _ =>
    exact inv_rx_move I rfl rfl rfl rfl rfl [] (List.append_nil _).symm (by simp)

theorem inv_reachable {cfg : Cfg} {comm : Bool} {s : St} (h : Reachable cfg comm s) : Inv s := by
  induction h with
  | init => exact inv_init
  | step _ hs ih =>
    cases hs with
    | thr t h => exact inv_thr h ih
    | rx h => exact inv_rx h ih

end Cellular.ConcLemmas
