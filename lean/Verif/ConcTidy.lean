import Verif.ConcWhole
import Verif.ConcUsr
/-!
# Requests: recovery from time-outs

A request that times out does no harm to the requests after it - results, lines, callbacks, user data are their own - provided nothing of its
answer came.  If a part of it came, it does harm: C23_late_result_witness, C24_leftover_witness, C25_late_callback_witness, C25_null_call_witness,
C75_witness_foreign_buffer.
-/

namespace Cellular.Spec
open Cellular Conc

/-- No request that timed out had been sent a line since its (last) step was sent, and none was sent one until it returned. -/
def SilentTimeouts (log : List Ev) : Prop :=
  ∀ a i b, log = a ++ .timeout i :: b →
    (∃ x e y, a = x ++ e :: y ∧ Sends i e ∧ ∀ n, Ev.recv n ∉ y) ∧
    (∀ c n d, b = c ++ .recv n :: d → ∃ st sent, Ev.ret i st sent ∈ c)

/-- The modem is silent while a step is about to be sent, and requests time out unanswered. -/
def Unharmed (s s' : Conc.St) : Prop := Quiet s s' ∧ Harmless s'

end Cellular.Spec

namespace Cellular.ConcLemmas
open Cellular Spec Conc
open Cellular.Pktio (CmdType MsgType Item Resp Cfg)

theorem silent_prefix {l l' : List Ev} (h : SilentTimeouts (l ++ l')) : SilentTimeouts l := by
  intro a i b hl
  obtain ⟨h1, h2⟩ := h a i (b ++ l') (by rw [hl]; simp)
  exact ⟨h1, fun c n d hb => h2 c n (d ++ l') (by rw [hb]; simp)⟩

theorem silent_noLoss {log : List Ev} (h : NoLoss log) : SilentTimeouts log := by
  intro a i b hl
  exact absurd (by rw [hl]; simp) (h i).1

/-- A step of `i` was sent, and nothing was received since. -/
def Hush (log : List Ev) (i : Nat) : Prop := ∃ x e y, log = x ++ e :: y ∧ Sends i e ∧ ∀ n, Ev.recv n ∉ y

/-- Request `i` timed out and has not returned. -/
def Gone (log : List Ev) : Prop := ∃ a i c, log = a ++ .timeout i :: c ∧ ∀ st sent, Ev.ret i st sent ∉ c

theorem hush_snoc {log l : List Ev} {i : Nat} (h : Hush (log ++ l) i) (hl : ∀ e ∈ l, ¬ Sends i e) :
    Hush log i ∧ ∀ n, Ev.recv n ∉ l := by
  obtain ⟨x, e, y, h1, h2, h3⟩ := h
  rcases List.append_eq_append_iff.mp h1 with ⟨c, hc1, hc2⟩ | ⟨c, hc1, hc2⟩
  · exact absurd h2 (hl e (by rw [hc2]; simp))
  · cases c with
    | nil => simp only [List.nil_append] at hc2; exact absurd h2 (hl e (by rw [← hc2]; simp))
    | cons f c =>
      simp only [List.cons_append, List.cons.injEq] at hc2
      obtain ⟨rfl, rfl⟩ := hc2
      exact ⟨⟨x, e, c, hc1, h2, fun n hn => h3 n (List.mem_append_left _ hn)⟩, fun n hn => h3 n (List.mem_append_right _ hn)⟩

/-- While nothing came, the receive task rests and nothing is kept. -/
structure Still (s : St) : Prop where
  armed : csend s = true → s.cmd ≠ .noCommand
  waits : ∀ p i, cur s = some p → active p = some i → waits p = true → sendingB p = false → Hush s.log i →
    s.rx = .idle ∧ s.resp = none ∧ s.queue = none
  ends : cend s = true → s.cmd ≠ .noCommand → s.rx = .idle ∧ s.resp = none ∧ s.queue = none ∧ Gone s.log

theorem still_init : Still init :=
  ⟨by simp [csend, cur, init], fun _ _ h => by simp [cur, init] at h, by simp [cend, cur, init]⟩

/-- The owner neither waits nor ends. -/
theorem still_other {s : St} {q : Option Thr} (hc : cur s = q) (h : ∀ p, q = some p → ConcLemmas.waits p = false ∧ Ending p = false) : Still s := by
  refine ⟨fun h' => ?_, fun p i hp _ hw => ?_, fun h' => ?_⟩
  · unfold csend at h'
    rw [hc] at h'
    cases q with
    | none => cases h'
    | some p => have := (h p rfl).1; revert this h'; cases p <;> simp [ConcLemmas.waits, sendingB]
  · rw [hc] at hp; rw [(h p hp).1] at hw; cases hw
  · unfold cend at h'
    rw [hc] at h'
    cases q with
    | none => cases h'
    | some p => simp [(h p rfl).2] at h'

/-- The owner has closed its command or got its status. -/
theorem still_closed {s : St} {p : Thr} (hc : cur s = some p) (hw : ConcLemmas.waits p = false) (hcmd : s.cmd = .noCommand) : Still s := by
  refine ⟨fun h' => ?_, fun p' i hp _ hw' => ?_, fun _ h' => absurd hcmd h'⟩
  · unfold csend at h'
    rw [hc] at h'
    revert hw h'; cases p <;> simp [ConcLemmas.waits, sendingB]
  · rw [hc] at hp; cases hp; rw [hw] at hw'; cases hw'

theorem still_thr {comm tol : Bool} {t : Nat} {s s' : St} {m : Own} (h : ThrStep comm t s s') (I : Inv s) (J : Inv2 tol true s m)
    (hse : ∀ i, Ev.sendError i ∉ s'.log) (hs : SilentTimeouts s'.log) (S : Still s) : Still s' := by
  have arm : ∀ (s' : St) (p : Thr), cur s' = some p → sendingB p = true → s'.cmd ≠ .noCommand → Still s' := by
    intro s' p hc hp hcmd
    refine ⟨fun _ => hcmd, fun p' i hp' _ _ hs => ?_, fun h => ?_⟩
    · rw [hc] at hp'; cases hp'; rw [hp] at hs; cases hs
    · unfold cend at h; rw [hc] at h; revert hp h; cases p <;> simp [sendingB, Ending]
  have queue : csend s = true → s.queue = none := by
    intro hc
    have ha := S.armed hc
    cases J.ph with
    | pc st hw hc' hq' ha' hx hr => exact absurd hc' ha
    | _ => assumption
  cases h with
  | call r h =>
    have hmx : s.mutex ≠ some t := by
      intro e; have := (I.m t).2 e; rw [h] at this; exact this rfl
    have hc : cur { s.set t (.waiting s.reqs.length r) with reqs := s.reqs ++ [r] } = cur s := by
      unfold cur St.set
      cases hmx' : s.mutex with
      | none => rfl
      | some u => simp only [Option.map_some]; rw [if_neg (by rintro rfl; exact hmx hmx')]
    exact ⟨fun h' => S.armed (by unfold csend at h' ⊢; rw [← hc]; exact h'), fun p i hp => S.waits p i (by rw [← hc]; exact hp),
      fun h' => S.ends (by unfold cend at h' ⊢; rw [← hc]; exact h')⟩
  | acquire i r h hmx =>
    exact still_other (q := some (.install i r)) (by simp [cur, St.set, St.emit]) (by rintro p ⟨⟩; exact ⟨rfl, rfl⟩)
  | release i st sent h => exact still_other (q := none) (by simp [cur, St.set, St.emit]) (by rintro p ⟨⟩)
  | install i r h =>
    obtain ⟨hmx, hc⟩ := cur_owner I h (by simp [active])
    exact still_other (q := some (.raw0 i r)) (by simp [cur, St.set, hmx]) (by rintro p ⟨⟩; exact ⟨rfl, rfl⟩)
  | raw0null i r h _ =>
    obtain ⟨hmx, hc⟩ := cur_owner I h (by simp [active])
    exact still_other (q := some (.uninstall i r .badRequest)) (by simp [cur, St.set, hmx]) (by rintro p ⟨⟩; exact ⟨rfl, rfl⟩)
  | raw0 i r text h _ =>
    obtain ⟨hmx, hc⟩ := cur_owner I h (by simp [active])
    exact still_other (q := some (.raw1 i r)) (by simp [cur, St.set, hmx]) (by rintro p ⟨⟩; exact ⟨rfl, rfl⟩)
  | raw1fail i r text e h _ _ =>
    obtain ⟨hmx, hc⟩ := cur_owner I h (by simp [active])
    exact still_closed (p := .raw4 i r e) (by simp [cur, St.set, hmx]) rfl (phase0 J.ph (by simp [cw, hc, ConcLemmas.waits]) (by simp [cend, hc, Ending])).1
  | raw4 i r st h =>
    obtain ⟨hmx, hc⟩ := cur_owner I h (by simp [active])
    exact still_other (q := some (.uninstall i r st)) (by simp [cur, St.set, hmx]) (by rintro p ⟨⟩; exact ⟨rfl, rfl⟩)
  | uninstall i r st h =>
    obtain ⟨hmx, hc⟩ := cur_owner I h (by simp [active])
    exact still_other (q := some (afterRaw i r.kind.data st)) (by simp [cur, St.set, hmx])
      (by rintro p ⟨⟩; exact ⟨waits_afterRaw _ _ _, by unfold afterRaw; split <;> rfl⟩)
  | data0null i d h _ =>
    obtain ⟨hmx, hc⟩ := cur_owner I h (by simp [active])
    exact still_other (q := some (.release i .badRequest none)) (by simp [cur, St.set, hmx]) (by rintro p ⟨⟩; exact ⟨rfl, rfl⟩)
  | data4 i n st h =>
    obtain ⟨hmx, hc⟩ := cur_owner I h (by simp [active])
    exact still_other (q := some (.release i st (some n))) (by simp [cur, St.set, hmx]) (by rintro p ⟨⟩; exact ⟨rfl, rfl⟩)
  | raw1 i r text p h _ he =>
    obtain ⟨hmx, hc⟩ := cur_owner I h (by simp [active])
    exact arm _ (.raw2 i r) (by simp [cur, St.set, hmx]) rfl (prefixFor_command he).1
  | data0 i d b h _ _ =>
    obtain ⟨hmx, hc⟩ := cur_owner I h (by simp [active])
    exact arm _ (.data1 i d b) (by simp [cur, St.set, hmx]) rfl nofun
  | raw2 i r text h _ =>
    obtain ⟨hmx, hc⟩ := cur_owner I h (by simp [active])
    have hcs : csend s = true := by simp [csend, hc, sendingB]
    obtain ⟨hidle, hresp⟩ := J.sending rfl hcs
    have hc' : cur ((s.set t (.raw3 i r)).emit (.command i text)) = some (.raw3 i r) := by simp [cur, St.set, St.emit, hmx]
    exact ⟨fun h => by simp [csend, hc', sendingB] at h, fun _ _ _ _ _ _ _ => ⟨hidle, hresp, queue hcs⟩, fun h => by simp [cend, hc', Ending] at h⟩
  | data1 i d b n h _ =>
    obtain ⟨hmx, hc⟩ := cur_owner I h (by simp [active])
    have hcs : csend s = true := by simp [csend, hc, sendingB]
    obtain ⟨hidle, hresp⟩ := J.sending rfl hcs
    have hc' : cur ((s.set t (afterData i d n)).emit (.data i b n)) = some (afterData i d n) := by simp [cur, St.set, St.emit, hmx]
    refine ⟨fun h => by simp [csend, hc', sending_afterData] at h, fun _ _ _ _ _ _ _ => ⟨hidle, hresp, queue hcs⟩, fun h => ?_⟩
    simp only [cend, hc', Option.any_some] at h
    unfold afterData at h
    split at h <;> cases h
  | data2 i d n e k h _ =>
    obtain ⟨hmx, hc⟩ := cur_owner I h (by simp [active])
    have hc' : cur ((s.set t (.data3 i n)).emit (.pattern i e k)) = some (.data3 i n) := by simp [cur, St.set, St.emit, hmx]
    refine ⟨fun h => by simp [csend, hc', sendingB] at h, fun p j hp hj _ _ hh => ?_, fun h => by simp [cend, hc', Ending] at h⟩
    rw [hc'] at hp
    cases hp
    cases hj
    exact S.waits _ _ hc rfl rfl rfl (hush_snoc hh (by simp [Sends])).1
  | raw3got i r st h hqu =>
    obtain ⟨hmx, hc⟩ := cur_owner I h (by simp [active])
    exact still_closed (p := .raw4 i r st) (by simp [cur, St.set, St.emit, hmx]) rfl (phase_queue (s := s) J.ph hqu :)
  | data3got i n st h hqu =>
    obtain ⟨hmx, hc⟩ := cur_owner I h (by simp [active])
    exact still_closed (p := .data4 i n st) (by simp [cur, St.set, St.emit, hmx]) rfl (phase_queue (s := s) J.ph hqu :)
  | raw3timeout i r h hqu =>
    obtain ⟨hmx, hc⟩ := cur_owner I h (by simp [active])
    have hc' : cur ((s.set t (.raw4 i r .timedOut)).emit (.timeout i)) = some (.raw4 i r .timedOut) := by simp [cur, St.set, St.emit, hmx]
    obtain ⟨hh, -⟩ := hs s.log i [] rfl
    obtain ⟨h1, h2, h3⟩ := S.waits _ i hc rfl rfl rfl hh
    refine ⟨fun h => by simp [csend, hc', sendingB] at h, fun p j hp _ hw => ?_, fun _ _ => ⟨h1, h2, h3, s.log, i, [], rfl, by simp⟩⟩
    rw [hc'] at hp; cases hp; cases hw
  | data3timeout i n h hqu =>
    obtain ⟨hmx, hc⟩ := cur_owner I h (by simp [active])
    have hc' : cur ((s.set t (.data4 i n .timedOut)).emit (.timeout i)) = some (.data4 i n .timedOut) := by simp [cur, St.set, St.emit, hmx]
    obtain ⟨hh, -⟩ := hs s.log i [] rfl
    obtain ⟨h1, h2, h3⟩ := S.waits _ i hc rfl rfl rfl hh
    refine ⟨fun h => by simp [csend, hc', sendingB] at h, fun p j hp _ hw => ?_, fun _ _ => ⟨h1, h2, h3, s.log, i, [], rfl, by simp⟩⟩
    rw [hc'] at hp; cases hp; cases hw
  | data1short i d b n h _ => exact absurd (by simp [St.emit]) (hse i)
  | data2short i d n e k h _ => exact absurd (by simp [St.emit]) (hse i)

theorem rx_emits {cfg : Cfg} {s s' : St} (h : RxStep cfg s s') : ∃ l, s'.log = s.log ++ l ∧ ∀ i, ∀ e ∈ l, ¬ Sends i e := by
  have hcon : ∀ n i, ∀ f ∈ consult s n, ¬ Sends i f := by
    intro n i f hf
    unfold consult at hf
    split at hf
    · rw [List.mem_singleton.mp hf]; simp [Sends]
    · cases hf
  have hfe : ∀ o i, ∀ f ∈ fetchedBy o, ¬ Sends i f := by
    intro o i f hf; cases o <;> simp_all [fetchedBy, Sends]
  cases h with
  | receive l h => exact ⟨_, rfl, by simp [Sends]⟩
  | fetch n h =>
    refine ⟨fetchedBy s.recvCb ++ fetchedBy s.sendCb, by simp, fun i f hf => ?_⟩
    rcases List.mem_append.mp hf with hf | hf
    · exact hfe _ i f hf
    · exact hfe _ i f hf
  | preSend n d i keep h => exact ⟨_, rfl, by simp [Sends]⟩
  | preRecv n i keep h => exact ⟨_, rfl, by simp [Sends]⟩
  | procDone n t r h hp =>
    refine ⟨consult s n ++ [.final r.status n], by simp, fun i f hf => ?_⟩
    rcases List.mem_append.mp hf with hf | hf
    · exact hcon n i f hf
    · rw [List.mem_singleton.mp hf]; simp [Sends]
  | procPending n t st r h hp hs => exact ⟨_, rfl, hcon n⟩
  | procUndef n t st r h hp hs => exact ⟨_, rfl, hcon n⟩
  | callNull r h hc => exact ⟨_, rfl, by simp [Sends]⟩
  | callback r i st h => exact ⟨_, rfl, by simp [Sends]⟩
  | _ => exact ⟨[], by simp, nofun⟩

theorem rx_idle {cfg : Cfg} {s s' : St} (h : RxStep cfg s s') (hi : s.rx = .idle) :
    s'.log = s.log ++ [.recv s.received.length] ∧ s'.cmd = s.cmd ∧ s'.received ≠ s.received := by
  cases h with
  | receive l _ => exact ⟨rfl, rfl, by simp⟩
  | _ => simp_all

theorem still_rx {cfg : Cfg} {tol : Bool} {s s' : St} {m : Own} (h : RxStep cfg s s') (I : Inv s) (J : Inv2 tol true s m)
    (hq : Quiet s s') (hs : SilentTimeouts s'.log) (S : Still s) : Still s' := by
  obtain ⟨-, e2, -⟩ := rx_same h
  obtain ⟨l, hl, hno⟩ := rx_emits h
  refine ⟨fun hc => ?_, fun p i hp hi hw hns hh => ?_, fun hc hcmd => ?_⟩
  · have hc0 : csend s = true := by unfold csend at hc ⊢; rw [← e2]; exact hc
    obtain ⟨hidle, -⟩ := J.sending rfl hc0
    rw [(rx_idle h hidle).2.1]
    exact S.armed hc0
  · rw [e2] at hp
    rw [hl] at hh
    obtain ⟨hh0, hnr⟩ := hush_snoc hh (hno i)
    obtain ⟨h1, h2, h3⟩ := S.waits p i hp hi hw hns hh0
    have := (rx_idle h h1).1
    rw [hl] at this
    have := List.append_cancel_left this
    exact absurd (by rw [this]; simp) (hnr s.received.length)
  · have hc0 : cend s = true := by unfold cend at hc ⊢; rw [← e2]; exact hc
    have hcmd0 : s.cmd ≠ .noCommand := by
      intro h0
      apply hcmd
      cases h <;> first | exact h0 | rfl
    obtain ⟨h1, h2, h3, a, i, c, ha, hnr⟩ := S.ends hc0 hcmd0
    have hlog := (rx_idle h h1).1
    obtain ⟨-, hsl⟩ := hs a i (c ++ [.recv s.received.length]) (by rw [hlog, ha]; simp)
    obtain ⟨st, sent, hr⟩ := hsl c _ [] rfl
    exact absurd hr (hnr st sent)

theorem phase_got {tol : Bool} {s : St} {m : Own} {st : PktStatus} (h : Phase tol s m) (hq : s.queue = some st) : passive s.rx = true ∧ Clean s := by
  cases h with
  | pc _ _ _ _ _ hx hr => exact ⟨hx, hr⟩
  | _ => simp_all

/-- The owner does not wait for an answer: what it left. -/
theorem endsClean_inv {tol strict : Bool} {s : St} {m : Own} (I : Inv s) (J : Inv2 tol strict s m) : EndsClean s := by
  intro t ht
  have ha : active (s.thr t) ≠ none := by revert ht; cases s.thr t <;> simp [Ending, active]
  obtain ⟨-, hc⟩ := cur_owner I rfl ha
  obtain ⟨h1, -, h3, h4⟩ := phase0' J.ph (by
    simp only [cw, hc, Option.any_some]; revert ht; cases s.thr t <;> simp [Ending, waits])
  exact ⟨h1, h4, by rw [← passive_eq]; exact h3⟩

theorem endsClean_other {s : St} (I : Inv s) {q : Option Thr} (hc : cur s = q) (h : ∀ p, q = some p → Ending p = false) : EndsClean s := by
  intro t ht
  obtain ⟨-, hc'⟩ := cur_owner I (t := t) rfl (by revert ht; cases s.thr t <;> simp [Ending, active])
  rw [hc] at hc'
  rw [h _ hc'] at ht
  cases ht

theorem endsClean_thr {comm tol : Bool} {t : Nat} {s s' : St} {m : Own} (h : ThrStep comm t s s') (I : Inv s) (I' : Inv s') (J : Inv2 tol true s m)
    (hse : ∀ i, Ev.sendError i ∉ s'.log) (hs : SilentTimeouts s'.log) (S : Still s) : EndsClean s' := by
  cases h with
  | call r h =>
    intro u hu
    have hne : u ≠ t := by rintro rfl; simp [St.set, Ending] at hu
    have := endsClean_inv I J u (by simpa [St.set, hne] using hu)
    exact this
  | raw1fail i r text e h _ _ =>
    obtain ⟨hmx, hc⟩ := cur_owner I h (by simp [active])
    obtain ⟨-, h2, -, h4, h5⟩ := phase0 J.ph (by simp [cw, hc, waits]) (by simp [cend, hc, Ending])
    exact fun _ _ => ⟨h2, h5, by rw [← passive_eq]; exact h4⟩
  | raw3got i r st h hqu =>
    obtain ⟨h4, h5⟩ := phase_got J.ph hqu
    exact fun _ _ => ⟨rfl, h5, by rw [← passive_eq]; exact h4⟩
  | data3got i n st h hqu =>
    obtain ⟨h4, h5⟩ := phase_got J.ph hqu
    exact fun _ _ => ⟨rfl, h5, by rw [← passive_eq]; exact h4⟩
  | raw3timeout i r h hqu =>
    obtain ⟨hmx, hc⟩ := cur_owner I h (by simp [active])
    obtain ⟨hh, -⟩ := hs s.log i [] rfl
    obtain ⟨h1, h2, h3⟩ := S.waits _ i hc rfl rfl rfl hh
    exact fun _ _ => ⟨h3, .inl h2, by simp [St.set, St.emit, h1, NotAnswering]⟩
  | data3timeout i n h hqu =>
    obtain ⟨hmx, hc⟩ := cur_owner I h (by simp [active])
    obtain ⟨hh, -⟩ := hs s.log i [] rfl
    obtain ⟨h1, h2, h3⟩ := S.waits _ i hc rfl rfl rfl hh
    exact fun _ _ => ⟨h3, .inl h2, by simp [St.set, St.emit, h1, NotAnswering]⟩
  | data1short i d b n h _ => exact absurd (by simp [St.emit]) (hse i)
  | data2short i d n e k h _ => exact absurd (by simp [St.emit]) (hse i)
  | acquire i r h hmx => exact endsClean_other I' (q := some (.install i r)) (by simp [cur, St.set, St.emit]) (by rintro p ⟨⟩; rfl)
  | release i st sent h => exact endsClean_other I' (q := none) (by simp [cur, St.set, St.emit]) (by rintro p ⟨⟩)
  | install i r h =>
    obtain ⟨hmx, hc⟩ := cur_owner I h (by simp [active])
    exact endsClean_other I' (q := some (.raw0 i r)) (by simp [cur, St.set, hmx]) (by rintro p ⟨⟩; rfl)
  | raw0null i r h _ =>
    obtain ⟨hmx, hc⟩ := cur_owner I h (by simp [active])
    exact endsClean_other I' (q := some (.uninstall i r .badRequest)) (by simp [cur, St.set, hmx]) (by rintro p ⟨⟩; rfl)
  | raw0 i r text h _ =>
    obtain ⟨hmx, hc⟩ := cur_owner I h (by simp [active])
    exact endsClean_other I' (q := some (.raw1 i r)) (by simp [cur, St.set, hmx]) (by rintro p ⟨⟩; rfl)
  | raw4 i r st h =>
    obtain ⟨hmx, hc⟩ := cur_owner I h (by simp [active])
    exact endsClean_other I' (q := some (.uninstall i r st)) (by simp [cur, St.set, hmx]) (by rintro p ⟨⟩; rfl)
  | uninstall i r st h =>
    obtain ⟨hmx, hc⟩ := cur_owner I h (by simp [active])
    exact endsClean_other I' (q := some (afterRaw i r.kind.data st)) (by simp [cur, St.set, hmx])
      (by rintro p ⟨⟩; unfold afterRaw; split <;> rfl)
  | data0null i d h _ =>
    obtain ⟨hmx, hc⟩ := cur_owner I h (by simp [active])
    exact endsClean_other I' (q := some (.release i .badRequest none)) (by simp [cur, St.set, hmx]) (by rintro p ⟨⟩; rfl)
  | data4 i n st h =>
    obtain ⟨hmx, hc⟩ := cur_owner I h (by simp [active])
    exact endsClean_other I' (q := some (.release i st (some n))) (by simp [cur, St.set, hmx]) (by rintro p ⟨⟩; rfl)
  | raw1 i r text p h _ he =>
    obtain ⟨hmx, hc⟩ := cur_owner I h (by simp [active])
    exact endsClean_other I' (q := some (.raw2 i r)) (by simp [cur, St.set, hmx]) (by rintro p ⟨⟩; rfl)
  | data0 i d b h _ _ =>
    obtain ⟨hmx, hc⟩ := cur_owner I h (by simp [active])
    exact endsClean_other I' (q := some (.data1 i d b)) (by simp [cur, St.set, hmx]) (by rintro p ⟨⟩; rfl)
  | raw2 i r text h _ =>
    obtain ⟨hmx, hc⟩ := cur_owner I h (by simp [active])
    exact endsClean_other I' (q := some (.raw3 i r)) (by simp [cur, St.set, St.emit, hmx]) (by rintro p ⟨⟩; rfl)
  | data1 i d b n h _ =>
    obtain ⟨hmx, hc⟩ := cur_owner I h (by simp [active])
    exact endsClean_other I' (q := some (afterData i d n)) (by simp [cur, St.set, St.emit, hmx])
      (by rintro p ⟨⟩; unfold afterData; split <;> rfl)
  | data2 i d n e k h _ =>
    obtain ⟨hmx, hc⟩ := cur_owner I h (by simp [active])
    exact endsClean_other I' (q := some (.data3 i n)) (by simp [cur, St.set, St.emit, hmx]) (by rintro p ⟨⟩; rfl)

/-- The receive task while the command is closed. -/
theorem unanswered_rx {cfg : Cfg} {s s' : St} (h : RxStep cfg s s') (U : Unanswered s) (hc : s.cmd = .noCommand) : Unanswered s' := by
  obtain ⟨u1, u2, u3⟩ := U
  have hne : s.rx ≠ .free → s.resp = none := fun hx => u2.resolve_right hx
  cases h with
  | receive l h => exact ⟨u1, .inl (hne (by rw [h]; nofun)), rfl⟩
  | fetch n h => exact ⟨u1, .inl (hne (by rw [h]; nofun)), rfl⟩
  | preNone n h => exact ⟨u1, .inl (hne (by rw [h]; nofun)), rfl⟩
  | preSend n d i keep h => exact ⟨u1, .inl (hne (by rw [h]; nofun)), by cases keep <;> rfl⟩
  | preRecv n i keep h => exact ⟨u1, .inl (hne (by rw [h]; nofun)), by cases keep <;> rfl⟩
  | readPrefix n h => exact ⟨u1, .inl (hne (by rw [h]; nofun)), rfl⟩
  | classify n on h => exact ⟨u1, .inl (hne (by rw [h]; nofun)), by rw [← passive_eq]; exact classified_noCommand hc⟩
  | undefOk n h hu => exact ⟨u1, .inl (hne (by rw [h]; nofun)), rfl⟩
  | undefRefused n h hu => exact ⟨u1, .inl (hne (by rw [h]; nofun)), rfl⟩
  | undefFail h => exact ⟨u1, .inl rfl, rfl⟩
  | free h => exact ⟨u1, .inl rfl, rfl⟩
  | readType n h => rw [h] at u3; cases u3
  | procDone n t r h => rw [h] at u3; cases u3
  | procPending n t st r h => rw [h] at u3; cases u3
  | procUndef n t st r h => rw [h] at u3; cases u3
  | done r h => rw [h] at u3; cases u3
  | handle r h => rw [h] at u3; cases u3
  | callNull r h => rw [h] at u3; cases u3
  | call r i h => rw [h] at u3; cases u3
  | callback r i st h => rw [h] at u3; cases u3
  | send st h => rw [h] at u3; cases u3

theorem inv2_alive {tol strict : Bool} {s : St} {m : Own} (J : Inv2 tol strict s m) (h : s.rx = .crashed) : False := by
  cases J.ph with
  | p0 a b c d e => rw [h] at d; cases d
  | pa a b c d e f => rw [h] at d; rcases d with d | d <;> cases d
  | pd r a b c d e f => rw [h] at d; cases d
  | ph r a b c d e f g => rw [h] at e; cases e
  | pl r a b c d e f g h' => rw [h] at e; cases e
  | pi i r a b c d e f g h' => rw [h] at e; cases e
  | ps st a b c d e => rw [h] at e; cases e
  | pc st a b c d e f => rw [h] at e; cases e
  | pt h' a b c d e => rw [h] at d; cases d

/-- If requests time out in silence, they time out unanswered. -/
theorem silent_inv {cfg : Cfg} {comm : Bool} {s : St} (h : Run cfg comm Quiet s) (hs : SilentTimeouts s.log) (he : ∀ i, Ev.sendError i ∉ s.log) :
    Run cfg comm Unharmed s ∧ Still s ∧ ∃ m, own true s.log = some m ∧ Inv2 true true s m := by
  induction h with
  | init => exact ⟨.init, still_init, own0, rfl, inv2_init true true⟩
  | @step s s' hr hst hq ih =>
    obtain ⟨l, hl⟩ := step_log hst
    obtain ⟨hR, S, m, hm, J⟩ := ih (by rw [hl] at hs; exact silent_prefix hs)
      (fun i hi => he i (by rw [hl]; exact List.mem_append_left _ hi))
    have I := inv_reachable hr.reachable
    have I' := inv_reachable (hr.reachable.step hst)
    suffices h : Still s' ∧ ∃ m, own true s'.log = some m ∧ Inv2 true true s' m by
      obtain ⟨S', m', hm', J'⟩ := h
      exact ⟨.step hR hst ⟨hq, he, endsClean_inv I' J'⟩, S', m', hm', J'⟩
    cases hst with
    | thr t h =>
      have S' := still_thr h I J he hs S
      exact ⟨S', own_thr h I J hm ⟨he, nofun, fun _ => endsClean_thr h I I' J he hs S⟩ (fun _ => hq)⟩
    | rx h =>
      have S' := still_rx h I J hq hs S
      refine ⟨S', own_rx h J hm (fun _ => ?_) (fun _ => hq)⟩
      intro u hu
      have hthr : s'.thr = s.thr := by cases h <;> rfl
      rw [hthr] at hu
      by_cases hcmd : s.cmd = .noCommand
      · exact unanswered_rx h (endsClean_inv I J u hu) hcmd
      · obtain ⟨-, hc⟩ := cur_owner I (t := u) rfl (by revert hu; cases s.thr u <;> simp [Ending, active])
        obtain ⟨h1, -, -, a, i, c, ha, hnr⟩ := S.ends (by simp [cend, hc, hu]) hcmd
        obtain ⟨-, hsl⟩ := hs a i (c ++ [.recv s.received.length]) (by rw [(rx_idle h h1).1, ha]; simp)
        obtain ⟨st, sent, hr⟩ := hsl c _ [] rfl
        exact absurd hr (hnr st sent)

end Cellular.ConcLemmas

namespace Cellular.Conc
open Cellular Spec
open Cellular.Pktio (Cfg)

/-- A check for `Harmless`. -/
def harmlessB (s : St) : Bool :=
  (match s.mutex with
   | none => true
   | some t => !Ending (s.thr t) ||
      (s.queue.isNone && (s.resp.isNone || (match s.rx with | .free => true | _ => false)) && NotAnswering s.rx)) &&
  s.log.all (fun e => match e with | .sendError _ => false | _ => true)

theorem harmlessB_sound {s : St} (I : ConcLemmas.Inv s) (h : harmlessB s = true) : Harmless s := by
  unfold harmlessB at h
  rw [Bool.and_eq_true] at h
  refine ⟨fun i hi => ?_, fun t ht => ?_⟩
  · have := List.all_eq_true.mp h.2 _ hi
    cases this
  · have hm := (I.m t).1 (by revert ht; cases s.thr t <;> simp [Ending, active])
    have h1 := h.1
    rw [hm] at h1
    simp only [ht, Bool.not_true, Bool.false_or, Bool.and_eq_true, Bool.or_eq_true, Option.isNone_iff_eq_none] at h1
    refine ⟨h1.1.1, h1.1.2.imp id (fun h => ?_), h1.2⟩
    split at h
    · assumption
    · cases h

/-- A schedule all of whose steps are tidy. -/
def execTidy (cfg : Cfg) (comm : Bool) : List Act → St → Option St
  | [], s => some s
  | a :: as, s => (next cfg comm a s).bind (fun s' => if quietB s s' && harmlessB s' then execTidy cfg comm as s' else none)

theorem execTidy_sound {cfg : Cfg} {comm : Bool} {as : List Act} {s s' : St} (hr : Run cfg comm Unharmed s)
    (h : execTidy cfg comm as s = some s') : Run cfg comm Unharmed s' := by
  induction as generalizing s with
  | nil => cases h; exact hr
  | cons a as ih =>
    unfold execTidy at h
    cases hn : next cfg comm a s with
    | none => rw [hn] at h; cases h
    | some s1 =>
      rw [hn] at h
      simp only [Option.bind_some] at h
      split at h
      · rename_i hp
        rw [Bool.and_eq_true] at hp
        have hs := next_sound hn
        have I := ConcLemmas.inv_reachable hr.reachable
        have I' := ConcLemmas.inv_reachable (hr.reachable.step hs)
        exact ih (hr.step hs ⟨quietB_sound I I' hp.1, harmlessB_sound I' hp.2⟩) h
      · cases h

theorem execTidy_reach {cfg : Cfg} {comm : Bool} (as : List Act) {α : Type} (f : St → α) (v : α)
    (h : (execTidy cfg comm as init).map f = some v) : ∃ s, Run cfg comm Unharmed s ∧ f s = v := by
  cases hs : execTidy cfg comm as init with
  | none => rw [hs] at h; cases h
  | some s => rw [hs] at h; exact ⟨s, execTidy_sound .init hs, by simpa using h⟩

end Cellular.Conc

namespace Cellular.Props
open Cellular Spec Conc ConcLemmas
open Cellular.Pktio (CmdType MsgType Item Resp Cfg)

theorem run_weaken {cfg : Cfg} {comm : Bool} {P Q : St → St → Prop} {s : St} (h : Run cfg comm P s) (hPQ : ∀ a b, P a b → Q a b) :
    Run cfg comm Q s := by
  induction h with
  | init => exact .init
  | step _ hs hp ih => exact .step ih hs (hPQ _ _ hp)

theorem tidy_monitor {cfg : Cfg} {comm : Bool} {s : St} (h : Run cfg comm Unharmed s) : ∃ m, own true s.log = some m ∧ Inv2 true true s m :=
  own_run' h (fun _ _ _ h => h.1) (.inr ⟨rfl, fun _ _ h => h.2⟩)

theorem harmless_monitor {cfg : Cfg} {comm : Bool} {s : St} (h : Run cfg comm (fun _ b => Harmless b) s) :
    ∃ m, own false s.log = some m ∧ Inv2 true false s m :=
  own_run' h nofun (.inr ⟨rfl, fun _ _ h => h⟩)

/-- C85.  If the modem sends no line at all to the requests that time out (and is silent while a step is about to be sent, and the transport
accepts all data), the execution is tidy, so all of the following holds of it. -/
theorem C85_silence {cfg : Cfg} {comm : Bool} {s : St} (h : Run cfg comm Quiet s) (hs : SilentTimeouts s.log) (he : ∀ i, Ev.sendError i ∉ s.log) :
    Run cfg comm Unharmed s := (silent_inv h hs he).1

/-- C85.  Executions without time-outs are a special case. -/
theorem C85_no_timeout {cfg : Cfg} {comm : Bool} {s : St} (h : Run cfg comm Quiet s) (hn : NoLoss s.log) : Run cfg comm Unharmed s :=
  C85_silence h (silent_noLoss hn) (fun i => (hn i).2)

/-- C85.  The status a request takes was received after its own step was sent, also after other requests timed out. -/
theorem C85_own_result {cfg : Cfg} {comm : Bool} {s : St} (h : Run cfg comm Unharmed s) {a b : List Ev} {i : Nat} {st : PktStatus}
    (hl : s.log = a ++ .got i st :: b) : OwnResult a i st := by
  obtain ⟨m, hm, _⟩ := tidy_monitor h
  exact monitor_own_result hm hl

/-- C85.  The lines a callback is given were received after its request's own command was sent. -/
theorem C85_own_lines {cfg : Cfg} {comm : Bool} {s : St} (h : Run cfg comm Unharmed s) {a b : List Ev} {i : Nat} {items : List Item} {st : PktStatus}
    (hl : s.log = a ++ .callback i items st :: b) :
    ∃ x e y, a = x ++ e :: y ∧ Sends i e ∧ (∀ f ∈ y, ¬ Boundary f) ∧ ∀ it ∈ items, ∃ n, it = .line n ∧ Ev.recv n ∈ y := by
  obtain ⟨m, hm, _⟩ := tidy_monitor h
  exact monitor_own_lines hm hl

/-- C85.  They are all the lines of the answer, in order. -/
theorem C85_answer {cfg : Cfg} {comm : Bool} {s : St} (h : Run cfg comm Unharmed s) {a b : List Ev} {i : Nat} {items : List Item} {st : PktStatus}
    (hl : s.log = a ++ .callback i items st :: b) {r : Req} (hr : s.reqs[i]? = some r) (hp : NoPrefixCb r) :
    GivenWhole cfg s.received r a i items := by
  obtain ⟨r', h1, h2⟩ := (whole_hist h (fun _ _ h => h.1) (.inr ⟨rfl, fun _ _ h => h.2⟩)).1 a b i items st hl
  rw [hr] at h1
  cases h1
  exact h2 hp

/-- C85.  The status is that of the first line that can end the answer. -/
theorem C85_result {cfg : Cfg} {comm : Bool} {s : St} (h : Run cfg comm Unharmed s) {a b : List Ev} {i : Nat} {st : PktStatus}
    (hl : s.log = a ++ .got i st :: b) {r : Req} (hr : s.reqs[i]? = some r) (hp : NoPrefixCb r) : ResultWhole cfg s.received r a i st := by
  obtain ⟨r', h1, h2⟩ := (whole_hist h (fun _ _ h => h.1) (.inr ⟨rfl, fun _ _ h => h.2⟩)).2 a b i st hl
  rw [hr] at h1
  cases h1
  exact h2 hp

/-- C85.  Without the assumption on the modem while a step is being sent: results are recent. -/
theorem C85_recent_result {cfg : Cfg} {comm : Bool} {s : St} (h : Run cfg comm (fun _ b => Harmless b) s) {a b : List Ev} {i : Nat} {st : PktStatus}
    (hl : s.log = a ++ .got i st :: b) : RecentResult a i st := by
  obtain ⟨m, hm, _⟩ := harmless_monitor h
  exact monitor_recent_result hm hl

/-- C85.  A callback runs at most once, and only while its request is in progress. -/
theorem C85_once {cfg : Cfg} {comm : Bool} {s : St} (h : Run cfg comm (fun _ b => Harmless b) s) {a b : List Ev} {i : Nat} {items : List Item}
    {st : PktStatus} (hl : s.log = a ++ .callback i items st :: b) : InProgress a i ∧ ∀ items' st', Ev.callback i items' st' ∉ a := by
  obtain ⟨m, hm, _⟩ := harmless_monitor h
  exact monitor_once hm (fun _ _ => C22_start_once h.reachable) hl

/-- C85.  The receive task never calls through a NULL callback pointer. -/
theorem C85_no_null_call {cfg : Cfg} {comm : Bool} {s : St} (h : Run cfg comm (fun _ b => Harmless b) s) : Ev.nullCall ∉ s.log := by
  obtain ⟨m, hm, _⟩ := harmless_monitor h
  exact monitor_no_null hm

/-- C85.  Between requests no command is open and nothing of an answer is kept, also after a time-out. -/
theorem C85_at_rest {cfg : Cfg} {comm : Bool} {s : St} (h : Run cfg comm (fun _ b => Harmless b) s) (hr : ∀ t, active (s.thr t) = none) :
    s.cmd = .noCommand ∧ Unanswered s := by
  obtain ⟨m, _, J⟩ := harmless_monitor h
  have I := inv_reachable h.reachable
  have hmx : s.mutex = none := by
    cases hm : s.mutex with
    | none => rfl
    | some t => exact absurd (hr t) ((I.m t).2 hm)
  obtain ⟨h1, h2, -, h4, h5⟩ := phase0 J.ph (by simp [cw, cur, hmx]) (by simp [cend, cur, hmx])
  exact ⟨h1, h2, h5, by rw [← passive_eq]; exact h4⟩

/-- C85.  A callback is given the user data of its own request. -/
theorem C85_own_data {cfg : Cfg} {comm : Bool} {s : USt} (h : URun cfg comm (fun _ b => Harmless b.base) s) :
    ∀ g ∈ s.calls, g.data = some g.cb ∧ g.len = some g.cb :=
  (uinv_run (tol := true) h (.inr ⟨rfl, fun _ _ h => h⟩)).law

/-- A request times out in silence; its late answer "OK" comes after it returned and is nobody's; the next request gets its own. -/
example : ∃ s, Run exCfg true Quiet s ∧ s.log =
    [.start 0, .command 0 [65, 84], .timeout 0, .ret 0 .timedOut none, .recv 0,
     .start 1, .command 1 [65, 84], .recv 1, .final true 1, .callback 1 [] .ok, .got 1 .ok, .ret 1 .ok none] :=
  execQuiet_reach (begins 0 exReqCb ++ .expire 0 :: gos 0 3 ++ .recv [79, 75] :: rxs 6 ++ begins 1 exReqCb ++
    .recv [79, 75] :: rxs 12 ++ gos 1 4) St.log _ (by decide +kernel)

/-- That history meets the hypotheses of C85_silence. -/
example : SilentTimeouts [.start 0, .command 0 [65, 84], .timeout 0, .ret 0 .timedOut none, .recv 0,
     .start 1, .command 1 [65, 84], .recv 1, .final true 1, .callback 1 [] .ok, .got 1 .ok, .ret 1 .ok none] := by
  intro a i b h
  have key : a = [.start 0, .command 0 [65, 84]] ∧ i = 0 ∧ b = [.ret 0 .timedOut none, .recv 0,
     .start 1, .command 1 [65, 84], .recv 1, .final true 1, .callback 1 [] .ok, .got 1 .ok, .ret 1 .ok none] := by
    rcases a with _ | ⟨a0, _ | ⟨a1, _ | ⟨a2, _ | ⟨a3, _ | ⟨a4, _ | ⟨a5, _ | ⟨a6, _ | ⟨a7, _ | ⟨a8, _ | ⟨a9, _ | ⟨a10, _ | ⟨a11, a⟩⟩⟩⟩⟩⟩⟩⟩⟩⟩⟩⟩ <;> simp at h
    obtain ⟨rfl, rfl, rfl, rfl⟩ := h
    exact ⟨rfl, rfl, rfl⟩
  obtain ⟨rfl, rfl, rfl⟩ := key
  refine ⟨⟨[.start 0], _, [], rfl, rfl, by simp⟩, fun c n d hc => ⟨.timedOut, none, ?_⟩⟩
  cases c with
  | nil => simp at hc
  | cons e c => simp only [List.cons_append, List.cons.injEq] at hc; simp [← hc.1]

/-- An unsolicited code arrives while the request that will time out waits, and the receive task is handling another one when it does; the next
request is answered by "+A:1", "OK" and its callback is given its own line. -/
example : ∃ s, Run exCfg true Unharmed s ∧ s.log =
    [.start 0, .command 0 [65, 84], .recv 0, .recv 1, .timeout 0, .ret 0 .timedOut none,
     .start 1, .command 1 [65, 84], .recv 2, .recv 3, .final true 3, .callback 1 [.line 2] .ok, .got 1 .ok, .ret 1 .ok none] :=
  execTidy_reach (begins 0 exReqPfx ++ .recv (str "+U:2") :: rxs 4 ++ .recv (str "+U:3") :: rxs 2 ++ .expire 0 :: rxs 1 ++ gos 0 3 ++ rxs 1 ++
    begins 1 exReqPfx ++ .recv (str "+A:1") :: rxs 6 ++ .recv (str "OK") :: rxs 12 ++ gos 1 4) St.log _ (by decide +kernel)

/-- A schedule of the model with user data that stays harmless. -/
def uexecTidy (cfg : Cfg) (comm : Bool) : List UAct → USt → Option USt
  | [], s => some s
  | a :: as, s => (unext cfg comm a s).bind (fun s' => if harmlessB s'.base then uexecTidy cfg comm as s' else none)

theorem uexecTidy_sound {cfg : Cfg} {comm : Bool} {as : List UAct} {s s' : USt} (hr : URun cfg comm (fun _ b => Harmless b.base) s)
    (h : uexecTidy cfg comm as s = some s') : URun cfg comm (fun _ b => Harmless b.base) s' := by
  induction as generalizing s with
  | nil => cases h; exact hr
  | cons a as ih =>
    unfold uexecTidy at h
    cases hn : unext cfg comm a s with
    | none => rw [hn] at h; cases h
    | some s1 =>
      rw [hn] at h
      simp only [Option.bind_some] at h
      split at h
      · rename_i hp
        have hs := unext_sound hn
        exact ih (hr.step hs (harmlessB_sound (inv_reachable (ureach_base (hr.reachable.step hs))) hp)) h
      · cases h

/-- Request 0 times out; the callback of request 1 gets the data of request 1. -/
example : ∃ s, URun exCfg true (fun _ b => Harmless b.base) s ∧ (s.calls, s.base.log.contains (.timeout 0)) = ([⟨1, some 1, some 1⟩], true) := by
  have h : (uexecTidy exCfg true (uacts (begins 0 exReqCb ++ .expire 0 :: gos 0 3 ++ begins 1 exReqCb ++ .recv [79, 75] :: rxs 8) ++
    [.readLen, .act (.rx .ok), .readUsr] ++ uacts (rxs 3)) uinit).map (fun s => (s.calls, s.base.log.contains (.timeout 0))) =
    some ([⟨1, some 1, some 1⟩], true) := by decide +kernel
  cases hs : uexecTidy exCfg true (uacts (begins 0 exReqCb ++ .expire 0 :: gos 0 3 ++ begins 1 exReqCb ++ .recv [79, 75] :: rxs 8) ++
    [.readLen, .act (.rx .ok), .readUsr] ++ uacts (rxs 3)) uinit with
  | none => rw [hs] at h; cases h
  | some s => rw [hs] at h; exact ⟨s, uexecTidy_sound .init hs, by simpa using h⟩

end Cellular.Props
