import Verif.BytesProps
import Verif.ConcProps
/-!
# Concurrent requests over the byte stream: what the receive task cannot disturb (C82)

The invariants of the threads (`Verif.ConcInv`, `Verif.ConcHist`, `Verif.ConcPend`) hold over the byte stream in all executions, whatever the callbacks
of the port and the modem do.
-/

namespace Cellular.Props
open Cellular Cellular.Spec Cellular.ConcLemmas
open Cellular.Pktio (Cur CmdType MsgType Item Resp Cfg getMsgType processLine cleanBuf readPos room skipEol preprocessInput
  preprocessLine findLine handleData getNextLine itemContents put)
open Cellular.Bytes (Pc Fns)
open Cellular.Conc (Ev)

/-- Events of the receive task that say nothing about the installed tokens and callbacks. -/
def PlainEv : Ev → Prop
  | .recv _ => True
  | .final _ _ => True
  | .prefixCb _ => True
  | .callback _ _ _ => True
  | .nullCall => True
  | _ => False

/-- What a step of the receive task does to the shared members. -/
structure RxMove (s s' : Conc.St) : Prop where
  thr : s'.thr = s.thr
  mutex : s'.mutex = s.mutex
  extra : s'.extra = s.extra
  recvCb : s'.recvCb = s.recvCb
  sendCb : s'.sendCb = s.sendCb
  reqs : s'.reqs = s.reqs
  cb : s'.cb = s.cb
  pfxBuf : s'.pfxBuf = s.pfxBuf
  cmd : (s'.cmd = s.cmd ∧ s'.pfxOn = s.pfxOn) ∨ s'.cmd = .noCommand
  log : ∃ evs, s'.log = s.log ++ evs ∧
    ∀ e ∈ evs, e ∈ Conc.fetchedBy s.recvCb ∨ e ∈ Conc.fetchedBy s.sendCb ∨ (∃ n, e ∈ Conc.consult s n) ∨ PlainEv e

theorem RxMove.same (s : Conc.St) : RxMove s s :=
  ⟨rfl, rfl, rfl, rfl, rfl, rfl, rfl, rfl, .inl ⟨rfl, rfl⟩, [], (List.append_nil _).symm, nofun⟩

theorem calledBy_plain (r d : Option Nat) : ∀ e ∈ Bytes.calledBy r d, PlainEv e := by
  intro e he
  cases d with
  | some i => simp only [Bytes.calledBy, List.mem_singleton] at he; subst he; trivial
  | none =>
    cases r with
    | some i => simp only [Bytes.calledBy, List.mem_singleton] at he; subst he; trivial
    | none => cases he

theorem consult_bytes (s : Bytes.St) : Bytes.consult s = Conc.consult s.sh s.cur := rfl

theorem next_move (cfg : Cfg) (fn : Fns) (chunk : Str) (v : PktStatus) (s : Bytes.St) : RxMove s.sh (Bytes.next cfg fn chunk v s).sh := by
  have one : ∀ (e : Ev), PlainEv e → ∀ x ∈ [e], x ∈ Conc.fetchedBy s.sh.recvCb ∨ x ∈ Conc.fetchedBy s.sh.sendCb ∨ (∃ n, x ∈ Conc.consult s.sh n) ∨
      PlainEv x := by
    intro e he x hx
    simp only [List.mem_singleton] at hx
    subst hx
    exact .inr (.inr (.inr he))
  have fet : ∀ e ∈ Conc.fetchedBy s.sh.recvCb ++ Conc.fetchedBy s.sh.sendCb, e ∈ Conc.fetchedBy s.sh.recvCb ∨ e ∈ Conc.fetchedBy s.sh.sendCb ∨
      (∃ n, e ∈ Conc.consult s.sh n) ∨ PlainEv e := by
    intro e he
    rcases List.mem_append.mp he with h | h
    · exact .inl h
    · exact .inr (.inl h)
  have called : ∀ r d, ∀ e ∈ Bytes.calledBy r d, e ∈ Conc.fetchedBy s.sh.recvCb ∨ e ∈ Conc.fetchedBy s.sh.sendCb ∨
      (∃ n, e ∈ Conc.consult s.sh n) ∨ PlainEv e := fun r d e he => .inr (.inr (.inr (calledBy_plain r d e he)))
  have con : ∀ e ∈ Conc.consult s.sh s.cur, e ∈ Conc.fetchedBy s.sh.recvCb ∨ e ∈ Conc.fetchedBy s.sh.sendCb ∨
      (∃ n, e ∈ Conc.consult s.sh n) ∨ PlainEv e := fun e he => .inr (.inr (.inl ⟨_, he⟩))
  have app : ∀ {l l' : List Ev} {P : Ev → Prop}, (∀ e ∈ l, P e) → (∀ e ∈ l', P e) → ∀ e ∈ l ++ l', P e := by
    intro l l' P h h' e he
    rcases List.mem_append.mp he with he | he
    · exact h e he
    · exact h' e he
  unfold Bytes.next
  cases s.pc with
  | wait =>
    simp only [Bytes.enter]
    split <;> exact .same _
  | top c =>
    simp only [Bytes.top]
    split
    · exact .same _
    · split
      · exact .same _
      · exact .same _
      · split
        · exact ⟨rfl, rfl, rfl, rfl, rfl, rfl, rfl, rfl, .inl ⟨rfl, rfl⟩, _, List.append_assoc _ _ _, fet⟩
        · exact ⟨rfl, rfl, rfl, rfl, rfl, rfl, rfl, rfl, .inl ⟨rfl, rfl⟩, _, List.append_assoc _ _ _, fet⟩
  | pre c r d =>
    simp only [Bytes.pre]
    split
    · exact ⟨rfl, rfl, rfl, rfl, rfl, rfl, rfl, rfl, .inl ⟨rfl, rfl⟩, _, rfl, called r d⟩
    · exact ⟨rfl, rfl, rfl, rfl, rfl, rfl, rfl, rfl, .inl ⟨rfl, rfl⟩, _, rfl, called r d⟩
    · split
      · exact ⟨rfl, rfl, rfl, rfl, rfl, rfl, rfl, rfl, .inl ⟨rfl, rfl⟩, _, rfl, called r d⟩
      · exact ⟨rfl, rfl, rfl, rfl, rfl, rfl, rfl, rfl, .inl ⟨rfl, rfl⟩, _, rfl, called r d⟩
      · split
        · exact ⟨rfl, rfl, rfl, rfl, rfl, rfl, rfl, rfl, .inl ⟨rfl, rfl⟩, _, rfl, called r d⟩
        · exact ⟨rfl, rfl, rfl, rfl, rfl, rfl, rfl, rfl, .inl ⟨rfl, rfl⟩, _, List.append_assoc _ _ _, app (called r d) (one _ trivial)⟩
  | classify c len => exact .same _
  | classify2 c len on =>
    simp only [Bytes.classify]
    split
    · exact .same _
    · split
      · split <;> exact .same _
      · exact .same _
      · exact .same _
  | proc c len => exact .same _
  | proc2 c len t =>
    simp only [Bytes.proc]
    split
    · exact .same _
    · split
      · exact ⟨rfl, rfl, rfl, rfl, rfl, rfl, rfl, rfl, .inl ⟨rfl, rfl⟩, _, List.append_assoc _ _ _, app con (one _ trivial)⟩
      · exact ⟨rfl, rfl, rfl, rfl, rfl, rfl, rfl, rfl, .inl ⟨rfl, rfl⟩, _, rfl, con⟩
      · exact ⟨rfl, rfl, rfl, rfl, rfl, rfl, rfl, rfl, .inl ⟨rfl, rfl⟩, _, rfl, con⟩
      · exact ⟨rfl, rfl, rfl, rfl, rfl, rfl, rfl, rfl, .inl ⟨rfl, rfl⟩, _, rfl, con⟩
  | done c len => exact ⟨rfl, rfl, rfl, rfl, rfl, rfl, rfl, rfl, .inr rfl, [], (List.append_nil _).symm, nofun⟩
  | handle c len => exact .same _
  | call c len =>
    simp only []
    split
    · exact ⟨rfl, rfl, rfl, rfl, rfl, rfl, rfl, rfl, .inl ⟨rfl, rfl⟩, _, rfl, one _ trivial⟩
    · exact .same _
  | inCb c len i =>
    simp only [Bytes.callback]
    split
    · exact .same _
    · exact ⟨rfl, rfl, rfl, rfl, rfl, rfl, rfl, rfl, .inl ⟨rfl, rfl⟩, _, rfl, one _ trivial⟩
  | send c len st => exact ⟨rfl, rfl, rfl, rfl, rfl, rfl, rfl, rfl, .inl ⟨rfl, rfl⟩, [], (List.append_nil _).symm, nofun⟩
  | free c len => exact .same _
  | undef c len =>
    simp only [Bytes.undef]
    split
    · exact .same _
    · split <;> exact .same _
  | undefFail c len => exact ⟨rfl, rfl, rfl, rfl, rfl, rfl, rfl, rfl, .inr rfl, [], (List.append_nil _).symm, nofun⟩
  | after c len st t =>
    simp only [Bytes.after]
    split
    · split
      · exact .same _
      · split <;> exact .same _
    · split <;> exact .same _
  | crashed => exact .same _
  | bad => exact .same _

theorem plain_serial {e : Ev} (h : PlainEv e) (c : Option Nat) : serialStep c e = some c := by
  cases e <;> first | exact h.elim | (cases c <;> rfl)

theorem plain_law {e : Ev} (h : PlainEv e) (comm : Bool) (reqs : List Conc.Req) (a : List Ev) : EvLaw comm reqs a e := by
  cases e <;> first | trivial | exact h.elim

theorem RxMove.inv {s s' : Conc.St} (m : RxMove s s') (I : ConcLemmas.Inv s) : ConcLemmas.Inv s' := by
  obtain ⟨evs, hl, he⟩ := m.log
  refine inv_rx_move I m.thr m.mutex m.extra m.recvCb m.sendCb evs hl (fun e h => ?_)
  rcases he e h with h | h | ⟨n, h⟩ | h
  · exact fetched_recv I e h
  · exact fetched_send I e h
  · exact consult_serial I n e h
  · exact plain_serial h _

theorem RxMove.inv3 {comm : Bool} {s s' : Conc.St} (m : RxMove s s') (K : Inv3 comm s) : Inv3 comm s' := by
  obtain ⟨evs, hl, he⟩ := m.log
  refine inv3_rx_move K m.reqs m.thr evs hl (fun e h a => ?_) (fun i h => ?_)
  · rcases he e h with h | h | ⟨n, h⟩ | h
    · exact fetched_law.1 e h a
    · exact fetched_law.1 e h a
    · exact consult_law.1 e h a
    · exact plain_law h _ _ _
  · rcases he _ h with h | h | ⟨n, h⟩ | h
    · exact (fetched_law (comm := comm) (reqs := s.reqs)).2 i h
    · exact (fetched_law (comm := comm) (reqs := s.reqs)).2 i h
    · exact (consult_law (comm := comm) (reqs := s.reqs)).2 i h
    · exact h

theorem RxMove.inv4 {s s' : Conc.St} (m : RxMove s s') (I4 : Inv4 s) : Inv4 s' := by
  obtain ⟨evs, hl, he⟩ := m.log
  refine inv4_rx_move I4 m.thr m.mutex (m.cmd.imp And.left id) evs hl (fun j text h => ?_)
  rcases he _ h with h | h | ⟨n, h⟩ | h
  · exact fetched_nocmd j text h
  · exact fetched_nocmd j text h
  · exact consult_nocmd j text h
  · exact h

theorem bytes_inv {cfg : Cfg} {fn : Fns} {comm : Bool} {s : Bytes.St} (h : Bytes.Reachable cfg fn comm s) :
    ConcLemmas.Inv s.sh ∧ Inv3 comm s.sh ∧ Inv4 s.sh := by
  induction h with
  | init => exact ⟨inv_init, inv3_init comm, by simp [Bytes.init, Conc.init], by simp [cur, Bytes.init, Conc.init]⟩
  | step hr hs ih =>
    cases hs with
    | thr t h => exact ⟨inv_thr h ih.1, inv3_thr h ih.2.1, inv4_thr h ih.1 ih.2.2⟩
    | rx _ chunk v _ =>
      have m := next_move cfg fn chunk v
      exact ⟨(m _).inv ih.1, (m _).inv3 ih.2.1, (m _).inv4 ih.2.2⟩

/-! ## The theorems: all executions, any callbacks, any modem, overflow or not -/

/-- C82: at any time at most one thread executes a request. -/
theorem C82_one_at_a_time {cfg : Cfg} {fn : Fns} {comm : Bool} {s : Bytes.St} (h : Bytes.Reachable cfg fn comm s) {t u : Nat}
    (ht : active (s.sh.thr t) ≠ none) (hu : active (s.sh.thr u) ≠ none) : t = u := by
  have I := (bytes_inv h).1
  have h1 := (I.m t).1 ht
  have h2 := (I.m u).1 hu
  rw [h1] at h2
  exact Option.some.inj h2

/-- C82: one request at a time, over the byte stream: everything done for a request - sending, waiting, returning, comparing a line with its
success tokens, fetching its prefix callbacks - is done while that request is the one in progress. -/
theorem C82_exclusive {cfg : Cfg} {fn : Fns} {comm : Bool} {s : Bytes.St} (h : Bytes.Reachable cfg fn comm s)
    {a b : List Ev} {e : Ev} {i : Nat} (hl : s.sh.log = a ++ e :: b) (he : doneFor e = some i) : InProgress a i := by
  have hs := (bytes_inv h).1.ser
  rw [hl] at hs
  obtain ⟨m, m', hm, hst⟩ := serial_prefix hs
  have := serialStep_doneFor hst he
  subst this
  exact serial_open hm

/-- C82: a request that returns follows the law of its kind. -/
theorem C82_return_law {cfg : Cfg} {fn : Fns} {comm : Bool} {s : Bytes.St} (h : Bytes.Reachable cfg fn comm s)
    {a b : List Ev} {i : Nat} {st : PktStatus} {sent : Option Nat} (hl : s.sh.log = a ++ .ret i st sent :: b) :
    ∃ r, s.sh.reqs[i]? = some r ∧ ReturnLaw comm r a i st sent := (bytes_inv h).2.1.law a _ b hl

/-- C82: what is handed to the transport for a request: its command text; its data, after the command step succeeded; its end pattern, after
all data were accepted. -/
theorem C82_sent {cfg : Cfg} {fn : Fns} {comm : Bool} {s : Bytes.St} (h : Bytes.Reachable cfg fn comm s) {a b : List Ev} {i : Nat} :
    (∀ text, s.sh.log = a ++ .command i text :: b → ∃ r, s.sh.reqs[i]? = some r ∧ r.cmd = some text) ∧
    (∀ bytes n, s.sh.log = a ++ .data i bytes n :: b →
      ∃ r d, s.sh.reqs[i]? = some r ∧ SendsData r.kind d ∧ d.data = some bytes ∧ Ev.got i .ok ∈ a) ∧
    (∀ bytes n, s.sh.log = a ++ .pattern i bytes n :: b →
      ∃ r d data, s.sh.reqs[i]? = some r ∧ SendsData r.kind d ∧ d.data = some data ∧ d.pattern = some bytes ∧
        Ev.data i data data.length ∈ a) := by
  have law := (bytes_inv h).2.1.law
  refine ⟨fun text hl => ?_, fun bytes n hl => law a _ b hl, fun bytes n hl => law a _ b hl⟩
  obtain ⟨r, h1, h2, _⟩ := law a _ b hl
  exact ⟨r, h1, h2⟩

/-- C82: success tokens and prefix callbacks in effect are those of a request that a thread is executing. -/
theorem C82_scoped {cfg : Cfg} {fn : Fns} {comm : Bool} {s : Bytes.St} (h : Bytes.Reachable cfg fn comm s) {i : Nat} :
    (∀ tb, s.sh.extra = some (i, tb) → ∃ t r, inRaw (s.sh.thr t) = some (i, r) ∧ r.kind.table = some tb) ∧
    (s.sh.recvCb = some i → ∃ t r, inRaw (s.sh.thr t) = some (i, r) ∧ r.kind = .dataRecv true) ∧
    (s.sh.sendCb = some i → ∃ t r d, inRaw (s.sh.thr t) = some (i, r) ∧ r.kind = .dataSend d true) := by
  have I := (bytes_inv h).1
  have own : ∀ p, cur s.sh = some p → ∃ t, s.sh.thr t = p := by
    intro p hc
    unfold cur at hc
    cases hm : s.sh.mutex with
    | none => rw [hm] at hc; cases hc
    | some t => rw [hm] at hc; cases hc; exact ⟨t, rfl⟩
  refine ⟨fun tb he => ?_, fun he => ?_, fun he => ?_⟩
  · obtain ⟨p, r, hc, h1, h2⟩ := I.ex i tb he
    obtain ⟨t, rfl⟩ := own p hc
    exact ⟨t, r, h1, h2⟩
  · obtain ⟨p, r, hc, h1, h2⟩ := I.rc i he
    obtain ⟨t, rfl⟩ := own p hc
    exact ⟨t, r, h1, h2⟩
  · obtain ⟨p, r, d, hc, h1, h2⟩ := I.sc i he
    obtain ⟨t, rfl⟩ := own p hc
    exact ⟨t, r, d, h1, h2⟩

/-- C82: when no request is in progress, no command is left pending, unless the last thing sent was data which the transport did not accept. -/
theorem C82_nothing_pending {cfg : Cfg} {fn : Fns} {comm : Bool} {s : Bytes.St} (h : Bytes.Reachable cfg fn comm s)
    (hq : ∀ t, active (s.sh.thr t) = none) :
    s.sh.cmd = .noCommand ∨ (s.sh.cmd = .noResult ∧
      ∃ x i y, s.sh.log = x ++ .sendError i :: y ∧ ∀ j text, Ev.command j text ∉ y) := by
  by_cases hc : s.sh.cmd = .noCommand
  · exact .inl hc
  · right
    rcases (bytes_inv h).2.2.pend hc with h' | h'
    · exfalso
      unfold cur at h'
      cases hm : s.sh.mutex with
      | none => rw [hm] at h'; cases h'
      | some t => exact ((bytes_inv h).1.m t).2 hm (hq t)
    · exact h'

end Cellular.Props
