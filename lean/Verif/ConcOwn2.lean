import Verif.ConcOwn
/-!
# Requests: the invariant of `ConcOwn` is kept by every step
-/

namespace Cellular.ConcLemmas
open Cellular Spec Conc
open Cellular.Pktio (CmdType MsgType Item Resp Cfg getMsgType processLine writeMax)

theorem cur_owner {s : St} (I : Inv s) {t : Nat} {p : Thr} (h : s.thr t = p) (ha : active p ≠ none) :
    s.mutex = some t ∧ cur s = some p := by
  have hm := (I.m t).1 (by rw [h]; exact ha)
  exact ⟨hm, by simp [cur, hm, h]⟩

/-- A callback can be installed only in the zone. -/
theorem no_cb {tol strict : Bool} {s : St} {m : Own} {q : Thr} (J : Inv2 tol strict s m) (hq : cur s = some q)
    (hz : cbZone q = false) (j : Nat) : s.cb ≠ some j := by
  intro h; have := (J.cb j h).1; rw [hq] at this; simp [hz] at this

theorem in_cb {tol strict : Bool} {s : St} {m : Own} {q : Thr} (J : Inv2 tol strict s m) (hq : cur s = some q)
    {j : Nat} (h : s.cb = some j) : active q = some j := by
  have := (J.cb j h).2; rw [J.req, hq] at this; exact this

theorem waits_afterRaw (i : Nat) (d : Option Data) (st : PktStatus) : waits (afterRaw i d st) = false := by
  unfold afterRaw; split <;> rfl

theorem early_afterRaw (i : Nat) (d : Option Data) (st : PktStatus) : early (afterRaw i d st) = false := by
  unfold afterRaw; split <;> rfl

theorem waits_afterData (i : Nat) (d : Data) (n : Nat) : waits (afterData i d n) = true := by
  unfold afterData; split <;> rfl

theorem sending_afterData (i : Nat) (d : Data) (n : Nat) : sendingB (afterData i d n) = false := by
  unfold afterData; split <;> rfl

theorem zone_afterData (i : Nat) (d : Data) (n : Nat) : cbZone (afterData i d n) = false := by
  unfold afterData; split <;> rfl

theorem own_keep {strict : Bool} {l l' : List Ev} {m : Own} (h : own strict l = some m)
    (h' : ∀ e ∈ l', ownStep strict m e = some m) : own strict (l ++ l') = some m := by
  rw [own_append, h]
  clear h
  induction l' with
  | nil => rfl
  | cons e l' ih =>
    rw [List.foldl_cons]
    simp only [Option.bind_some]
    rw [h' e List.mem_cons_self]
    exact ih (fun e he => h' e (List.mem_cons_of_mem _ he))

theorem phase_passive {tol : Bool} {s : St} {m : Own} (J : Phase tol s m) (hp : passive s.rx = true) :
    (s.cmd = .noCommand ∧ s.queue = none ∧ m.answer = .none ∧ Clean s) ∨
    (cw s = true ∧ s.queue = none ∧ m.answer = .none ∧ (Clean s ∨ ∀ r, s.resp = some r → itemsOk m r) ∧
      (s.cb ≠ none → m.called = false)) ∨
    (∃ st, cw s = true ∧ s.cmd = .noCommand ∧ s.queue = some st ∧ m.answer.status = some st ∧ Clean s) ∨
    (tol = true ∧ cend s = true ∧ s.queue = none ∧ m.answer = .none ∧ Clean s) := by
  cases J with
  | p0 hc hq ha hx hr => exact .inl ⟨hc, hq, ha, hr⟩
  | pa hw hq' ha hx hr hcb' => exact .inr (.inl ⟨hw, hq', ha, hr, hcb'⟩)
  | pd r hw hq' ha hx hi hcb' => rw [hx] at hp; simp [passive] at hp
  | ph r hw hc' hq' ha hx hi hcb' => rw [hx] at hp; simp [passive] at hp
  | pl r hw hc' hq' ha hx hi hn hcb' => rw [hx] at hp; simp [passive] at hp
  | pi i r hw hc' hq' ha hx hi hn hcb' => rw [hx] at hp; simp [passive] at hp
  | ps st hw hc' hq' ha hx => rw [hx] at hp; simp [passive] at hp
  | pc st hw hc' hq' ha hx hr => exact .inr (.inr (.inl ⟨st, hw, hc', hq', ha, hr⟩))
  | pt h1 hw hq' ha hx hr => exact .inr (.inr (.inr ⟨h1, hw, hq', ha, hr⟩))

/-- The owner gives up waiting. -/
theorem inv2_giveUp {tol strict : Bool} {s s' : St} {m : Own} {p q : Thr} (J : Inv2 tol strict s m)
    (hq : cur s = some q) (hp : cur s' = some p) (wp : Ending p = true)
    (hact : active p = active q) (hno : tol = false → False) (hcl : tol = true → Unanswered s')
    (hqu : s'.queue = s.queue) (hrx : s'.rx = s.rx) (hcb : s'.cb = s.cb) (hresp : s'.resp = s.resp)
    (hrec : s'.received = s.received) (hz : cbZone p = cbZone q) (hea : early p = early q) : Inv2 tol strict s' m := by
  have ht : tol = true := by cases tol <;> simp_all
  obtain ⟨u1, u2, u3⟩ := hcl ht
  rw [← passive_eq] at u3
  have hwp : waits p = false := by revert wp; cases p <;> simp [waits, Ending]
  have hcw : cw s' = false := by simp [cw, hp, hwp]
  have hs : csend s' = false := by
    simp only [csend, hp, Option.any_some]; revert wp; cases p <;> simp [Ending, sendingB]
  refine ⟨by rw [hrec]; exact J.lines, by rw [hp, J.req, hq]; simp [hact], J.sinceLe, J.loose, ?_, ?_, ?_, ?_, ?_, ?_⟩
  · intro n h; rw [hrx] at h; exact ⟨(J.held n h).1, by simp [hcw]⟩
  · simp [hs]
  · simp [hcw]
  · intro j h
    rw [hcb] at h
    have := J.cb j h
    rw [hq] at this
    exact ⟨by rw [hp]; simpa [hz] using this.1, this.2⟩
  · intro h; apply J.fresh; rw [hq]; rw [hp] at h; simpa [hea] using h
  · refine .pt ht (by simp [cend, hp, wp]) u1 ?_ u3 u2
    rw [hqu] at u1
    rw [hrx] at u3
    rcases phase_passive J.ph u3 with ⟨-, -, h, -⟩ | ⟨-, -, h, -⟩ | ⟨st, -, -, h, -⟩ | ⟨-, -, -, h, -⟩
    · exact h
    · exact h
    · rw [u1] at h; cases h
    · exact h

theorem own_thr {comm tol strict : Bool} {t : Nat} {s s' : St} {m : Own} (h : ThrStep comm t s s') (I : Inv s)
    (J : Inv2 tol strict s m) (hm : own strict s.log = some m) (hn : Forgive tol s')
    (hq : strict = true → Quiet s s') : ∃ m', own strict s'.log = some m' ∧ Inv2 tol strict s' m' := by
  cases h with
  | call r h =>
    refine ⟨m, hm, ?_⟩
    have hmx : s.mutex ≠ some t := by
      intro e; have := (I.m t).2 e; rw [h] at this; exact this rfl
    have hc : cur { s.set t (.waiting s.reqs.length r) with reqs := s.reqs ++ [r] } = cur s := by
      unfold cur St.set
      cases hmx' : s.mutex with
      | none => rfl
      | some u => simp only [Option.map_some]; rw [if_neg (by rintro rfl; exact hmx hmx')]
    refine ⟨J.lines, by rw [hc]; exact J.req, J.sinceLe, J.loose, by unfold cw; rw [hc]; exact J.held,
      by unfold csend; rw [hc]; exact J.sending, by unfold cw csend; rw [hc]; exact J.sent,
      by rw [hc]; exact J.cb, by rw [hc]; exact J.fresh, ?_⟩
    cases J.ph with
    | p0 hc' hq' ha hx hr => exact .p0 hc' hq' ha hx hr
    | pa hw hq' ha hx hr hcb' => exact .pa (by unfold cw; rw [hc]; exact hw) hq' ha hx hr hcb'
    | pd r hw hq' ha hx hi hcb' => exact .pd r (by unfold cw; rw [hc]; exact hw) hq' ha hx hi hcb'
    | ph r hw hc' hq' ha hx hi hcb' => exact .ph r (by unfold cw; rw [hc]; exact hw) hc' hq' ha hx hi hcb'
    | pl r hw hc' hq' ha hx hi hn hcb' => exact .pl r (by unfold cw; rw [hc]; exact hw) hc' hq' ha hx hi hn hcb'
    | pi i r hw hc' hq' ha hx hi hn hcb' => exact .pi i r (by unfold cw; rw [hc]; exact hw) hc' hq' ha hx hi hn hcb'
    | ps st hw hc' hq' ha hx => exact .ps st (by unfold cw; rw [hc]; exact hw) hc' hq' ha hx
    | pc st hw hc' hq' ha hx hr => exact .pc st (by unfold cw; rw [hc]; exact hw) hc' hq' ha hx hr
    | pt h1 hw hq' ha hx hr => exact .pt h1 (by unfold cend; rw [hc]; exact hw) hq' ha hx hr
  | acquire i r h hmx =>
    have hc : cur s = none := by simp [cur, hmx]
    have hc' : cur (({ s with mutex := some t }.set t (.install i r)).emit (.start i)) = some (.install i r) := by
      simp [cur, St.set, St.emit]
    obtain ⟨k1, k2, k3, k4, k5⟩ := phase0 J.ph (by simp [cw, hc]) (by simp [cend, hc])
    have hr : m.req = none := by rw [J.req, hc]; rfl
    refine ⟨{ m with req := some i, since := m.lines - 1, sent := false, answer := .none, called := false }, ?_, ?_⟩
    · simp only [St.set, St.emit, own_append, hm, List.foldl_cons, List.foldl_nil, Option.bind_some, ownStep, hr,
        if_true]
    · refine ⟨J.lines, by rw [hc']; rfl, by simp only; omega, fun _ _ => Nat.le_refl _, ?_, ?_, ?_, ?_, fun _ => rfl, ?_⟩
      · intro n h'; exact ⟨(J.held n h').1, by simp [cw, hc', waits]⟩
      · simp [csend, hc', sendingB]
      · simp [cw, hc', waits]
      · intro j h'
        have := (J.cb j h').1; rw [hc] at this; simp at this
      · exact .p0 k1 k2 rfl k4 k5
  | release i st sent h =>
    obtain ⟨hmx, hc⟩ := cur_owner I h (by simp [active])
    have hc' : cur (({ s with mutex := none }.set t .idle).emit (.ret i st sent)) = none := by
      simp [cur, St.set, St.emit]
    obtain ⟨k1, k2, k3, k4, k5⟩ := phase0 J.ph (by simp [cw, hc, waits]) (by simp [cend, hc, Ending])
    have hr : m.req = some i := by rw [J.req, hc]; rfl
    refine ⟨{ m with req := none }, ?_, ?_⟩
    · simp only [St.set, St.emit, own_append, hm, List.foldl_cons, List.foldl_nil, Option.bind_some, ownStep, hr,
        if_true]
    · refine ⟨J.lines, by rw [hc']; rfl, J.sinceLe, fun _ h => absurd rfl h, ?_, ?_, ?_, ?_, ?_, ?_⟩
      · intro n h'; exact ⟨(J.held n h').1, by simp [cw, hc']⟩
      · simp [csend, hc']
      · simp [cw, hc']
      · intro j h'
        exact absurd h' (no_cb J hc rfl j)
      · simp [hc']
      · exact .p0 k1 k2 k3 k4 k5
  | install i r h =>
    obtain ⟨hmx, hc⟩ := cur_owner I h (by simp [active])
    refine ⟨m, hm, inv2_move (p := .raw0 i r) J hc (by simp [cur, St.set, hmx]) rfl rfl rfl
      (phase0 J.ph (by simp [cw, hc, waits]) (by simp [cend, hc, Ending])).1 rfl rfl rfl rfl ?_ (fun _ => rfl)⟩
    intro j h'; exact absurd h' (no_cb J hc rfl j)
  | raw0null i r h _ =>
    obtain ⟨hmx, hc⟩ := cur_owner I h (by simp [active])
    refine ⟨m, hm, inv2_move (p := .uninstall i r .badRequest) J hc (by simp [cur, St.set, hmx]) rfl rfl rfl
      (phase0 J.ph (by simp [cw, hc, waits]) (by simp [cend, hc, Ending])).1 rfl rfl rfl rfl ?_ (by simp [early])⟩
    intro j h'; exact absurd h' (no_cb J hc rfl j)
  | raw0 i r text h _ =>
    obtain ⟨hmx, hc⟩ := cur_owner I h (by simp [active])
    refine ⟨m, hm, inv2_move (p := .raw1 i r) J hc (by simp [cur, St.set, hmx]) rfl rfl rfl
      (phase0 J.ph (by simp [cw, hc, waits]) (by simp [cend, hc, Ending])).1 rfl rfl rfl rfl ?_ (by simp [early])⟩
    intro j h'
    simp only [St.set] at h'
    split at h'
    · exact ⟨rfl, h'⟩
    · cases h'
  | raw1fail i r text e h _ _ =>
    obtain ⟨hmx, hc⟩ := cur_owner I h (by simp [active])
    refine ⟨m, hm, inv2_move (p := .raw4 i r e) J hc (by simp [cur, St.set, hmx]) rfl rfl rfl
      (phase0 J.ph (by simp [cw, hc, waits]) (by simp [cend, hc, Ending])).1 rfl rfl rfl rfl ?_ (by simp [early])⟩
    intro j h'; exact ⟨rfl, in_cb J hc h'⟩
  | raw4 i r st h =>
    obtain ⟨hmx, hc⟩ := cur_owner I h (by simp [active])
    exact ⟨m, hm, inv2_move (p := .uninstall i r st) J hc (by simp [cur, St.set, hmx]) rfl rfl rfl
      rfl rfl rfl rfl rfl (by simp [St.set]) (by simp [early])⟩
  | uninstall i r st h =>
    obtain ⟨hmx, hc⟩ := cur_owner I h (by simp [active])
    refine ⟨m, hm, inv2_move (p := afterRaw i r.kind.data st) J hc (by simp [cur, St.set, hmx]) rfl
      (waits_afterRaw _ _ _) (by rw [active_afterRaw]; rfl)
      (phase0 J.ph (by simp [cw, hc, waits]) (by simp [cend, hc, Ending])).1 rfl rfl rfl rfl ?_ (by simp [early_afterRaw])⟩
    intro j h'; exact absurd h' (no_cb J hc rfl j)
  | data0null i d h _ =>
    obtain ⟨hmx, hc⟩ := cur_owner I h (by simp [active])
    refine ⟨m, hm, inv2_move (p := .release i .badRequest none) J hc (by simp [cur, St.set, hmx]) rfl rfl rfl
      (phase0 J.ph (by simp [cw, hc, waits]) (by simp [cend, hc, Ending])).1 rfl rfl rfl rfl ?_ (by simp [early])⟩
    intro j h'; exact absurd h' (no_cb J hc rfl j)
  | data4 i n st h =>
    obtain ⟨hmx, hc⟩ := cur_owner I h (by simp [active])
    refine ⟨m, hm, inv2_move (p := .release i st (some n)) J hc (by simp [cur, St.set, hmx]) rfl rfl rfl
      rfl rfl rfl rfl rfl ?_ (by simp [early])⟩
    intro j h'; exact absurd h' (no_cb J hc rfl j)
  | raw1 i r text p h _ _ =>
    obtain ⟨hmx, hc⟩ := cur_owner I h (by simp [active])
    refine ⟨m, hm, inv2_arm (p := .raw2 i r) J hc (by simp [cur, St.set, hmx]) rfl rfl rfl rfl rfl rfl rfl rfl ?_ ?_
      (by simp [active])⟩
    · intro j h'; exact ⟨rfl, in_cb J hc h', rfl⟩
    · intro hs
      exact (hq hs).1 t (by rw [h]; simp [Sending]) (by simp [St.set, Sending])
  | data0 i d b h _ _ =>
    obtain ⟨hmx, hc⟩ := cur_owner I h (by simp [active])
    refine ⟨m, hm, inv2_arm (p := .data1 i d b) J hc (by simp [cur, St.set, hmx]) rfl rfl rfl rfl rfl rfl rfl rfl ?_ ?_
      (by simp [active])⟩
    · intro j h'; exact absurd h' (no_cb J hc rfl j)
    · intro hs
      exact (hq hs).1 t (by rw [h]; simp [Sending]) (by simp [St.set, Sending])
  | raw2 i r text h _ =>
    obtain ⟨hmx, hc⟩ := cur_owner I h (by simp [active])
    have hr : m.req = some i := by rw [J.req, hc]; rfl
    refine ⟨_, ?_, inv2_wait (p := .raw3 i r) J hc (by simp [cur, St.set, St.emit, hmx]) rfl rfl rfl rfl rfl rfl rfl rfl
      rfl rfl rfl (.inl ⟨rfl, rfl⟩)⟩
    simp only [St.set, St.emit, own_append, hm, List.foldl_cons, List.foldl_nil, Option.bind_some, ownStep, hr,
        if_true]
  | data1 i d b n h _ =>
    obtain ⟨hmx, hc⟩ := cur_owner I h (by simp [active])
    have hr : m.req = some i := by rw [J.req, hc]; rfl
    refine ⟨_, ?_, inv2_wait (p := afterData i d n) J hc (by simp [cur, St.set, St.emit, hmx]) rfl
      (waits_afterData _ _ _) (sending_afterData _ _ _) (active_afterData _ _ _) (zone_afterData _ _ _) rfl rfl rfl
      rfl rfl rfl (.inl ⟨rfl, rfl⟩)⟩
    simp only [St.set, St.emit, own_append, hm, List.foldl_cons, List.foldl_nil, Option.bind_some, ownStep, hr,
        if_true]
  | data2 i d n e k h _ =>
    obtain ⟨hmx, hc⟩ := cur_owner I h (by simp [active])
    refine ⟨m, ?_, inv2_wait (p := .data3 i n) J hc (by simp [cur, St.set, St.emit, hmx]) rfl rfl rfl rfl rfl rfl rfl rfl
      rfl rfl rfl (.inr ⟨rfl, rfl⟩)⟩
    simp only [St.set, St.emit, own_append, hm, List.foldl_cons, List.foldl_nil, Option.bind_some, ownStep]
  | raw3got i r st h hqu =>
    obtain ⟨hmx, hc⟩ := cur_owner I h (by simp [active])
    obtain ⟨g1, g2⟩ := inv2_got (s' := ({ s with queue := none }.set t (.raw4 i r st)).emit (.got i st))
      (p := .raw4 i r st) J hc (by simp [cur, St.set, St.emit, hmx]) rfl hqu rfl rfl rfl rfl rfl rfl rfl rfl rfl rfl
    refine ⟨_, ?_, g2⟩
    simp only [St.set, St.emit, own_append, hm, List.foldl_cons, List.foldl_nil, Option.bind_some]
    exact g1
  | data3got i n st h hqu =>
    obtain ⟨hmx, hc⟩ := cur_owner I h (by simp [active])
    obtain ⟨g1, g2⟩ := inv2_got (s' := ({ s with queue := none }.set t (.data4 i n st)).emit (.got i st))
      (p := .data4 i n st) J hc (by simp [cur, St.set, St.emit, hmx]) rfl hqu rfl rfl rfl rfl rfl rfl rfl rfl rfl rfl
    refine ⟨_, ?_, g2⟩
    simp only [St.set, St.emit, own_append, hm, List.foldl_cons, List.foldl_nil, Option.bind_some]
    exact g1
  | raw3timeout i r h hqu =>
    obtain ⟨hmx, hc⟩ := cur_owner I h (by simp [active])
    refine ⟨m, own_keep hm (by simp [ownStep]), ?_⟩
    exact inv2_giveUp (p := .raw4 i r .timedOut) J hc (by simp [cur, St.set, St.emit, hmx]) rfl rfl
      (fun h0 => hn.none h0 i (by simp [St.emit])) (fun h0 => hn.clean h0 t (by simp [St.set, St.emit, Ending]))
      rfl rfl rfl rfl rfl rfl rfl
  | data3timeout i n h hqu =>
    obtain ⟨hmx, hc⟩ := cur_owner I h (by simp [active])
    refine ⟨m, own_keep hm (by simp [ownStep]), ?_⟩
    exact inv2_giveUp (p := .data4 i n .timedOut) J hc (by simp [cur, St.set, St.emit, hmx]) rfl rfl
      (fun h0 => hn.none h0 i (by simp [St.emit])) (fun h0 => hn.clean h0 t (by simp [St.set, St.emit, Ending]))
      rfl rfl rfl rfl rfl rfl rfl
  | data1short i d b n h _ => exact absurd (by simp [St.emit]) (hn.sent i)
  | data2short i d n e k h _ => exact absurd (by simp [St.emit]) (hn.sent i)


theorem consult_own {strict : Bool} {m : Own} {s : St} {n : Nat} :
    ∀ e ∈ consult s n, ownStep strict m e = some m := by
  unfold consult; split <;> simp [ownStep]

theorem fetched_own {strict : Bool} {m : Own} {o : Option Nat} :
    ∀ e ∈ fetchedBy o, ownStep strict m e = some m := by
  cases o <;> simp [fetchedBy, ownStep]

/-- A step of the receive task that receives nothing. -/
theorem inv2_rx {tol strict : Bool} {s s' : St} {m m' : Own} (J : Inv2 tol strict s m) (hthr : s'.thr = s.thr)
    (hmx : s'.mutex = s.mutex) (hcb : s'.cb = s.cb) (hrec : s'.received = s.received)
    (hl : m'.lines = m.lines) (hr : m'.req = m.req) (hsi : m'.since = m.since) (hse : m'.sent = m.sent)
    (hrx : s.rx ≠ .idle) (hh : ∀ n, held s'.rx = some n → held s.rx = some n)
    (hf : m'.called = m.called ∨ cw s = true) (hph : Phase tol s' m') : Inv2 tol strict s' m' := by
  have hc : cur s' = cur s := by unfold cur; rw [hthr, hmx]
  have hns : strict = true → csend s = false := by
    intro h
    cases hs : csend s with
    | false => rfl
    | true => exact absurd (J.sending h hs).1 hrx
  refine ⟨by rw [hl, hrec]; exact J.lines, by rw [hr, hc]; exact J.req, by rw [hl, hsi]; exact J.sinceLe,
    by rw [hl, hsi, hr]; exact J.loose, ?_, ?_, ?_, ?_, ?_, hph⟩
  · intro n h; unfold cw; rw [hc, hl, hsi, hse]; exact J.held n (hh n h)
  · intro h; unfold csend; rw [hc]; intro h'; unfold csend at hns; rw [hns h] at h'; cases h'
  · unfold cw csend; rw [hc, hse]; exact J.sent
  · rw [hcb, hc, hr]; exact J.cb
  · rw [hc]
    intro h
    rcases hf with h' | h'
    · rw [h']; exact J.fresh h
    · exfalso
      unfold cw at h'
      revert h h'
      cases cur s with
      | none => simp
      | some p => simp only [Option.any_some]; cases p <;> simp [waits, early]

theorem phase_procish {tol : Bool} {s : St} {m : Own} (J : Phase tol s m) (hp : procish s.rx = true) :
    cw s = true ∧ s.queue = none ∧ m.answer = .none ∧ (Clean s ∨ ∀ r, s.resp = some r → itemsOk m r) ∧
      (s.cb ≠ none → m.called = false) := by
  have hx' : passive s.rx = false := by revert hp; cases s.rx <;> simp [procish, passive]
  cases J with
  | p0 hc hq ha hx hr => rw [hx'] at hx; cases hx
  | pa hw hq' ha hx hr hcb' => exact ⟨hw, hq', ha, hr, hcb'⟩
  | pd r hw hq' ha hx hi hcb' => rw [hx] at hp; simp [procish] at hp
  | ph r hw hc' hq' ha hx hi hcb' => rw [hx] at hp; simp [procish] at hp
  | pl r hw hc' hq' ha hx hi hn hcb' => rw [hx] at hp; simp [procish] at hp
  | pi i r hw hc' hq' ha hx hi hn hcb' => rw [hx] at hp; simp [procish] at hp
  | ps st hw hc' hq' ha hx => rw [hx] at hp; simp [procish] at hp
  | pc st hw hc' hq' ha hx hr => rw [hx'] at hx; cases hx
  | pt _ hw hq' ha hx hr => rw [hx'] at hx; cases hx

/-- From passive to passive. -/
theorem phase_stay {tol : Bool} {s s' : St} {m : Own} (J : Phase tol s m) (hp : passive s.rx = true) (hp' : passive s'.rx = true)
    (hcl : Clean s → Clean s') (hresp : s'.resp = s.resp)
    (hthr : s'.thr = s.thr) (hmx : s'.mutex = s.mutex) (hcb : s'.cb = s.cb) (hcmd : s'.cmd = s.cmd)
    (hqu : s'.queue = s.queue) : Phase tol s' m := by
  have hcw : cw s' = cw s := by unfold cw cur; rw [hthr, hmx]
  have hce : cend s' = cend s := by unfold cend cur; rw [hthr, hmx]
  rcases phase_passive J hp with ⟨h1, h2, h3, h4⟩ | ⟨h1, h2, h3, h4, h5⟩ | ⟨st, h1, h2, h3, h4, h5⟩ | ⟨h1, h2, h3, h4, h5⟩
  · exact .p0 (by rw [hcmd]; exact h1) (by rw [hqu]; exact h2) h3 hp' (hcl h4)
  · refine .pa (by rw [hcw]; exact h1) (by rw [hqu]; exact h2) h3 (.inl hp') ?_ (by rw [hcb]; exact h5)
    rcases h4 with h4 | h4
    · exact .inl (hcl h4)
    · right; rw [hresp]; exact h4
  · exact .pc st (by rw [hcw]; exact h1) (by rw [hcmd]; exact h2) (by rw [hqu]; exact h3) h4 hp' (hcl h5)
  · exact .pt h1 (by rw [hce]; exact h2) (by rw [hqu]; exact h3) h4 hp' (hcl h5)

theorem fits_lines {m : Own} {it : Item} (k : Nat) (h : m.fits it) (m' : Own) (hs : m'.since = m.since)
    (hl : m'.lines = m.lines + k) : m'.fits it := by
  obtain ⟨n, e, h1, h2⟩ := h
  exact ⟨n, e, by omega, by omega⟩

theorem getMsgType_noCommand (cfg : Cfg) (pfx : Option Str) (line : Str) :
    getMsgType cfg .noCommand pfx line ≠ .solicited := by
  unfold getMsgType
  simp only [ne_eq, not_true, false_and, if_false]
  repeat (first | split | simp)

end Cellular.ConcLemmas
