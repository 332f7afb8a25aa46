import Verif.ConcProps
/-!
# Requests: every request returns (C62)
-/

namespace Cellular.Conc
open Cellular

/-- An execution from `s` to `s'` with `k` steps of thread `t`, any number of steps of others. -/
inductive Path (cfg : Pktio.Cfg) (comm : Bool) (t : Nat) : Nat → St → St → Prop
  | refl (s : St) : Path cfg comm t 0 s s
  | own {k : Nat} {s s' s'' : St} (h : Path cfg comm t k s s') (hs : ThrStep comm t s' s'') : Path cfg comm t (k + 1) s s''
  | other {k : Nat} {s s' s'' : St} {u : Nat} (h : Path cfg comm t k s s') (hu : u ≠ t) (hs : ThrStep comm u s' s'') :
      Path cfg comm t k s s''
  | rx {k : Nat} {s s' s'' : St} (h : Path cfg comm t k s s') (hs : RxStep cfg s' s'') : Path cfg comm t k s s''

/-- An execution of thread `t` alone. -/
inductive Alone (comm : Bool) (t : Nat) : St → St → Prop
  | refl (s : St) : Alone comm t s s
  | step {s s' s'' : St} (hs : ThrStep comm t s s') (h : Alone comm t s' s'') : Alone comm t s s''

end Cellular.Conc

namespace Cellular.ConcLemmas
open Cellular Spec Conc
open Cellular.Pktio (CmdType MsgType Item Resp Cfg getMsgType processLine writeMax)

/-- Steps a thread has to go until it returned, at most. -/
def todo : Thr → Nat
  | .idle => 0
  | .waiting _ _ => 14
  | .install _ _ => 13
  | .raw0 _ _ => 12
  | .raw1 _ _ => 11
  | .raw2 _ _ => 10
  | .raw3 _ _ => 9
  | .raw4 _ _ _ => 8
  | .uninstall _ _ _ => 7
  | .data0 _ _ => 6
  | .data1 _ _ _ => 5
  | .data2 _ _ _ _ => 4
  | .data3 _ _ => 3
  | .data4 _ _ _ => 2
  | .release _ _ _ => 1

theorem todo_active {p : Thr} {i : Nat} (h : active p = some i) : 1 ≤ todo p ∧ todo p ≤ 13 := by
  cases p <;> simp_all [active, todo]

theorem todo_afterRaw (i : Nat) (d : Option Data) (st : PktStatus) : todo (afterRaw i d st) ≤ 6 := by
  unfold afterRaw; split <;> simp [todo]

theorem todo_afterData (i : Nat) (d : Data) (n : Nat) : todo (afterData i d n) ≤ 4 := by
  unfold afterData; split <;> simp [todo]

/-- The commands that are sent have a text. -/
def Texted : Thr → Prop
  | .raw1 _ r => r.cmd ≠ none
  | .raw2 _ r => r.cmd ≠ none
  | _ => True

theorem thr_other {comm : Bool} {t u : Nat} {s s' : St} (h : ThrStep comm u s s') (hu : t ≠ u) : s'.thr t = s.thr t := by
  cases h <;> simp [St.set, St.emit, hu]

theorem thr_rx {cfg : Cfg} {s s' : St} (h : RxStep cfg s s') : s'.thr = s.thr := by
  cases h <;> rfl

theorem texted_own {comm : Bool} {t : Nat} {s s' : St} (h : ThrStep comm t s s') (hT : Texted (s.thr t)) :
    Texted (s'.thr t) := by
  cases h with
  | raw0 i r text h hc => simp [St.set, Texted, hc]
  | raw1 i r text p h hc he => simp [St.set, Texted, hc]
  | uninstall i r st h => simp only [St.set, if_true]; unfold afterRaw; split <;> trivial
  | data1 i d b n h hn => simp only [St.set, St.emit, if_true]; unfold afterData; split <;> trivial
  | _ => simp [St.set, St.emit, Texted]

theorem texted_reachable {cfg : Cfg} {comm : Bool} {s : St} (h : Reachable cfg comm s) : ∀ t, Texted (s.thr t) := by
  induction h with
  | init => intro t; trivial
  | step hr hs ih =>
    intro t
    cases hs with
    | thr u hs =>
      by_cases hu : t = u
      · subst hu; exact texted_own hs (ih t)
      · rw [thr_other hs hu]; exact ih t
    | rx hs => rw [thr_rx hs]; exact ih t

/-- The log only grows. -/
theorem log_thr {comm : Bool} {t : Nat} {s s' : St} (h : ThrStep comm t s s') : ∃ l, s'.log = s.log ++ l := by
  cases h with
  | acquire | raw2 | raw3got | raw3timeout | data1 | data2 | data3got | data3timeout | release => exact ⟨_, rfl⟩
  | data1short i d b n h hn => exact ⟨[.data i b n, .sendError i], by simp [St.emit, St.set]⟩
  | data2short i d n e k h hn => exact ⟨[.pattern i e k, .sendError i], by simp [St.emit, St.set]⟩
  | _ => exact ⟨[], (List.append_nil _).symm⟩

theorem log_rx {cfg : Cfg} {s s' : St} (h : RxStep cfg s s') : ∃ l, s'.log = s.log ++ l := by
  cases h with
  | fetch n h => exact ⟨_, List.append_assoc ..⟩
  | procDone n t r h hp => exact ⟨_, List.append_assoc ..⟩
  | receive | procPending | procUndef | preSend | preRecv | callNull | callback => exact ⟨_, rfl⟩
  | _ => exact ⟨[], (List.append_nil _).symm⟩

/-- An own step of a thread in a request: it returns, or gets nearer to that. -/
theorem own_progress {comm : Bool} {t i : Nat} {s s' : St} (h : ThrStep comm t s s') (ha : active (s.thr t) = some i) :
    (∃ st sent, s'.log = s.log ++ [.ret i st sent] ∧ s'.thr t = .idle) ∨
    (active (s'.thr t) = some i ∧ todo (s'.thr t) + 1 ≤ todo (s.thr t)) := by
  cases h with
  | call r h => rw [h] at ha; cases ha
  | acquire j r h hm => rw [h] at ha; cases ha
  | release j st sent h => 
    rw [h] at ha; cases ha
    exact .inl ⟨st, sent, rfl, by simp [St.set, St.emit]⟩
  | uninstall j r st h =>
    rw [h] at ha; cases ha
    right
    rw [h]
    have := todo_afterRaw i r.kind.data st
    simp only [St.set, if_true, active_afterRaw]
    exact ⟨trivial, by simp only [todo.eq_9]; omega⟩
  | data1 j d b n h hn =>
    rw [h] at ha; cases ha
    right
    rw [h]
    have := todo_afterData i d n
    simp only [St.set, St.emit, if_true, active_afterData]
    exact ⟨trivial, by simp only [todo.eq_11]; omega⟩
  | install j r h | raw0null j r h | raw0 j r _ h | raw1fail j r _ _ h | raw1 j r _ _ h | raw2 j r _ h | raw3got j r _ h
  | raw3timeout j r h | raw4 j r _ h | data0null j _ h | data0 j _ _ h | data1short j _ _ _ h | data2 j _ _ _ _ h
  | data2short j _ _ _ _ h | data3got j _ _ h | data3timeout j _ h | data4 j _ _ h =>
    rw [h] at ha; cases ha
    right
    rw [h]
    simp [St.set, St.emit, active, todo]

/-- A thread in a request can always go on. -/
theorem own_enabled {comm : Bool} {t i : Nat} {s : St} (hT : Texted (s.thr t)) (ha : active (s.thr t) = some i) :
    ∃ s', ThrStep comm t s s' := by
  cases hp : s.thr t with
  | idle => rw [hp] at ha; cases ha
  | waiting j r => rw [hp] at ha; cases ha
  | install j r => exact ⟨_, .install s j r hp⟩
  | raw0 j r =>
    cases hc : r.cmd with
    | none => exact ⟨_, .raw0null s j r hp hc⟩
    | some text => exact ⟨_, .raw0 s j r text hp hc⟩
  | raw1 j r =>
    rw [hp] at hT
    cases hc : r.cmd with
    | none => exact absurd hc hT
    | some text =>
      cases he : sendCheck comm text r with
      | error e => exact ⟨_, .raw1fail s j r text e hp hc he⟩
      | ok p => exact ⟨_, .raw1 s j r text p hp hc he⟩
  | raw2 j r =>
    rw [hp] at hT
    cases hc : r.cmd with
    | none => exact absurd hc hT
    | some text => exact ⟨_, .raw2 s j r text hp hc⟩
  | raw3 j r =>
    cases hq : s.queue with
    | none => exact ⟨_, .raw3timeout s j r hp hq⟩
    | some st => exact ⟨_, .raw3got s j r st hp hq⟩
  | raw4 j r st => exact ⟨_, .raw4 s j r st hp⟩
  | uninstall j r st => exact ⟨_, .uninstall s j r st hp⟩
  | data0 j d =>
    cases hd : d.data with
    | none => exact ⟨_, .data0null s j d hp (.inl hd)⟩
    | some b =>
      cases hs : d.sentPtr with
      | false => exact ⟨_, .data0null s j d hp (.inr hs)⟩
      | true => exact ⟨_, .data0 s j d b hp hd hs⟩
  | data1 j d b => exact ⟨_, .data1 s j d b _ hp rfl⟩
  | data2 j d n e => exact ⟨_, .data2 s j d n e _ hp rfl⟩
  | data3 j n =>
    cases hq : s.queue with
    | none => exact ⟨_, .data3timeout s j n hp hq⟩
    | some st => exact ⟨_, .data3got s j n st hp hq⟩
  | data4 j n st => exact ⟨_, .data4 s j n st hp⟩
  | release j st sent => exact ⟨_, .release s j st sent hp⟩

theorem alone_returns {cfg : Cfg} {comm : Bool} {t i : Nat} (n : Nat) : ∀ {s : St}, Reachable cfg comm s →
    active (s.thr t) = some i → todo (s.thr t) ≤ n →
    ∃ s', Alone comm t s s' ∧ ∃ st sent, Ev.ret i st sent ∈ s'.log := by
  induction n with
  | zero => intro s hr ha hn; have := todo_active ha; omega
  | succ n ih =>
    intro s hr ha hn
    obtain ⟨s1, hs1⟩ := own_enabled (comm := comm) (texted_reachable hr t) ha
    rcases own_progress hs1 ha with ⟨st, sent, hl, _⟩ | ⟨ha', ht⟩
    · exact ⟨s1, .step hs1 (.refl _), st, sent, by rw [hl]; simp⟩
    · obtain ⟨s2, h2, h3⟩ := ih (hr.step (.thr t hs1)) ha' (by omega)
      exact ⟨s2, .step hs1 h2, h3⟩

theorem path_log {cfg : Cfg} {comm : Bool} {t k : Nat} {s s' : St} (h : Path cfg comm t k s s') :
    ∃ l, s'.log = s.log ++ l := by
  induction h with
  | refl => exact ⟨[], (List.append_nil _).symm⟩
  | own _ hs ih => 
    obtain ⟨l, hl⟩ := ih; obtain ⟨l', hl'⟩ := log_thr hs
    exact ⟨l ++ l', by rw [hl', hl, List.append_assoc]⟩
  | other _ _ hs ih => 
    obtain ⟨l, hl⟩ := ih; obtain ⟨l', hl'⟩ := log_thr hs
    exact ⟨l ++ l', by rw [hl', hl, List.append_assoc]⟩
  | rx _ hs ih => 
    obtain ⟨l, hl⟩ := ih; obtain ⟨l', hl'⟩ := log_rx hs
    exact ⟨l ++ l', by rw [hl', hl, List.append_assoc]⟩

theorem path_progress {cfg : Cfg} {comm : Bool} {t k i : Nat} {s s' : St} (h : Path cfg comm t k s s')
    (ha : active (s.thr t) = some i) :
    (∃ l st sent, s'.log = s.log ++ l ∧ Ev.ret i st sent ∈ l) ∨
    (active (s'.thr t) = some i ∧ todo (s'.thr t) + k ≤ todo (s.thr t)) := by
  have grow : ∀ {a b c : St}, (∃ l st sent, b.log = a.log ++ l ∧ Ev.ret i st sent ∈ l) → (∃ l, c.log = b.log ++ l) →
      (∃ l st sent, c.log = a.log ++ l ∧ Ev.ret i st sent ∈ l) := by
    rintro a b c ⟨l, st, sent, h1, h2⟩ ⟨l', h3⟩
    exact ⟨l ++ l', st, sent, by rw [h3, h1, List.append_assoc], List.mem_append_left _ h2⟩
  induction h with
  | refl => exact .inr ⟨ha, Nat.le_refl _⟩
  | own hp hs ih =>
    rcases ih ha with h | ⟨h1, h2⟩
    · exact .inl (grow h (log_thr hs))
    · rcases own_progress hs h1 with ⟨st, sent, hl, _⟩ | ⟨h3, h4⟩
      · obtain ⟨l, hl'⟩ := path_log hp
        exact .inl ⟨l ++ [.ret i st sent], st, sent, by rw [hl, hl', List.append_assoc], by simp⟩
      · exact .inr ⟨h3, by omega⟩
  | other hp hu hs ih =>
    rcases ih ha with h | ⟨h1, h2⟩
    · exact .inl (grow h (log_thr hs))
    · rw [← thr_other hs hu.symm] at h1 h2; exact .inr ⟨h1, h2⟩
  | rx hp hs ih =>
    rcases ih ha with h | ⟨h1, h2⟩
    · exact .inl (grow h (log_rx hs))
    · rw [← thr_rx hs] at h1 h2; exact .inr ⟨h1, h2⟩

end Cellular.ConcLemmas

namespace Cellular.Props
open Cellular Spec Conc ConcLemmas
open Cellular.Pktio (CmdType MsgType Item Resp Cfg getMsgType processLine writeMax)

/-! ## C62 -/

/-- A request in progress returns after at most thirteen steps of its own thread, whatever the modem, the transport, the
receive task and other threads do meanwhile. -/
theorem C62_returns_within {cfg : Cfg} {comm : Bool} {t i k : Nat} {s s' : St} (hp : Path cfg comm t k s s')
    (ha : active (s.thr t) = some i) (hk : 13 ≤ k) :
    ∃ l st sent, s'.log = s.log ++ l ∧ Ev.ret i st sent ∈ l := by
  rcases path_progress hp ha with h | ⟨h1, h2⟩
  · exact h
  · have := todo_active h1
    have := todo_active ha
    omega

/-- Its thread can always make its next step: it waits for nobody. -/
theorem C62_never_blocked {cfg : Cfg} {comm : Bool} {t i : Nat} {s : St} (h : Reachable cfg comm s)
    (ha : active (s.thr t) = some i) : ∃ s', ThrStep comm t s s' :=
  own_enabled (texted_reachable h t) ha

/-- In particular it can return without any step of another thread, of the receive task or of the modem. -/
theorem C62_can_return_alone {cfg : Cfg} {comm : Bool} {t i : Nat} {s : St} (h : Reachable cfg comm s)
    (ha : active (s.thr t) = some i) : ∃ s', Alone comm t s s' ∧ ∃ st sent, Ev.ret i st sent ∈ s'.log :=
  alone_returns _ h ha (Nat.le_refl _)

/-- A waiting thread can start, or waits for a thread that is executing a request (and which returns, by the above). -/
theorem C62_waits_for_active {cfg : Cfg} {comm : Bool} {t i : Nat} {r : Req} {s : St} (h : Reachable cfg comm s)
    (hw : s.thr t = .waiting i r) :
    (∃ s', ThrStep comm t s s' ∧ s'.log = s.log ++ [.start i]) ∨ ∃ u j, u ≠ t ∧ active (s.thr u) = some j := by
  cases hm : s.mutex with
  | none => exact .inl ⟨_, .acquire s i r hw hm, rfl⟩
  | some u =>
    right
    have hu := ((inv_reachable h).m u).2 hm
    cases hj : active (s.thr u) with
    | none => exact absurd hj hu
    | some j =>
      refine ⟨u, j, ?_, hj⟩
      rintro rfl
      rw [hw] at hj; cases hj

/-- The receive task can always go on, unless it called through a NULL pointer (which happens only after a timeout or a
refused data send, `C25_no_null_call_partial`). -/
theorem C62_receive_task_goes_on {cfg : Cfg} {s : St} (h : s.rx ≠ .crashed) : ∃ s', RxStep cfg s s' := by
  cases hp : s.rx with
  | idle => exact ⟨_, .receive s [] hp⟩
  | got n => exact ⟨_, .fetch s n hp⟩
  | pre n a b =>
    cases b with
    | some i => exact ⟨_, .preSend s n a i true hp⟩
    | none =>
      cases a with
      | some i => exact ⟨_, .preRecv s n i true hp⟩
      | none => exact ⟨_, .preNone s n hp⟩
  | classify n => exact ⟨_, .readPrefix s n hp⟩
  | classify2 n on => exact ⟨_, .classify s n on hp⟩
  | proc n => exact ⟨_, .readType s n hp⟩
  | proc2 n t =>
    cases hq : procResult cfg s n t with
    | mk st r =>
      by_cases h1 : st = .ok
      · subst h1; exact ⟨_, .procDone s n t r hp hq⟩
      · by_cases h2 : st = .pendingBuffer ∨ st = .pendingData
        · exact ⟨_, .procPending s n t st r hp hq h2⟩
        · exact ⟨_, .procUndef s n t st r hp hq ⟨h1, fun e => h2 (.inl e), fun e => h2 (.inr e)⟩⟩
  | done r => exact ⟨_, .done s r hp⟩
  | handle r => exact ⟨_, .handle s r hp⟩
  | call r =>
    cases hc : s.cb with
    | none => exact ⟨_, .callNull s r hp hc⟩
    | some i => exact ⟨_, .call s r i hp hc⟩
  | inCb i r => exact ⟨_, .callback s r i .ok hp⟩
  | send st => exact ⟨_, .send s st hp⟩
  | free => exact ⟨_, .free s hp⟩
  | undef n =>
    by_cases hu : cfg.undefCb (s.line n) = .ok
    · exact ⟨_, .undefOk s n hp hu⟩
    · exact ⟨_, .undefRefused s n hp hu⟩
  | undefFail => exact ⟨_, .undefFail s hp⟩
  | crashed => exact absurd hp h

/-- A two-step request needs all thirteen steps; another thread waits. -/
example : ∃ s, Reachable exCfg true s ∧ (s.log, (s.thr 1 matches .waiting ..)) =
    ([.start 0, .command 0 [65, 84], .recv 0, .final true 0, .got 0 .ok, .data 0 [1, 2] 2, .pattern 0 [26] 1,
      .timeout 0, .ret 0 .timedOut (some 2)], true) :=
  exec_reach (begins 0 exReqData ++ .call 1 exReq :: .recv [79, 75] :: rxs 10 ++ gos 0 4 ++ .go 0 2 :: .go 0 1 ::
    .expire 0 :: gos 0 2) (fun s => (s.log, (s.thr 1 matches .waiting ..))) _ (by decide +kernel)

end Cellular.Props
