import Verif.ConcExplain
/-!
# Requests: when a command is pending
-/

namespace Cellular.ConcLemmas
open Cellular Spec Conc
open Cellular.Pktio (CmdType MsgType Item Resp Cfg getMsgType processLine writeMax)

/-- The command type set by the thread has not been taken back by it. -/
def armed : Thr → Bool
  | .raw2 _ _ => true
  | .raw3 _ _ => true
  | .raw4 _ _ _ => true
  | .data1 _ _ _ => true
  | .data2 _ _ _ _ => true
  | .data3 _ _ => true
  | .data4 _ _ _ => true
  | _ => false

def dataZone : Thr → Bool
  | .data1 _ _ _ => true
  | .data2 _ _ _ _ => true
  | _ => false

/-- The last thing sent was data that the transport did not accept. -/
def Residual (l : List Ev) : Prop := ∃ x i y, l = x ++ .sendError i :: y ∧ ∀ j text, Ev.command j text ∉ y

theorem Residual.append {l l' : List Ev} (h : Residual l) (h' : ∀ j text, Ev.command j text ∉ l') :
    Residual (l ++ l') := by
  obtain ⟨x, i, y, rfl, hy⟩ := h
  refine ⟨x, i, y ++ l', by simp, ?_⟩
  intro j text hm
  rcases List.mem_append.1 hm with hm | hm
  · exact hy j text hm
  · exact h' j text hm

structure Inv4 (s : St) : Prop where
  pend : s.cmd ≠ .noCommand → (cur s).any armed = true ∨ (s.cmd = .noResult ∧ Residual s.log)
  dat : (cur s).any dataZone = true → s.cmd = .noResult ∨ s.cmd = .noCommand

theorem inv4_move {s s' : St} {p : Thr} (I4 : Inv4 s) (hp : cur s' = some p) (evs : List Ev)
    (hl : s'.log = s.log ++ evs)
    (h : armed p = true ∨ s'.cmd = .noCommand ∨ (s'.cmd = s.cmd ∧ (cur s).any armed = false ∧
      ∀ j text, Ev.command j text ∉ evs) ∨ (s'.cmd = .noResult ∧ Residual s'.log))
    (hd : dataZone p = true → s'.cmd = .noResult ∨ s'.cmd = .noCommand) : Inv4 s' := by
  refine ⟨?_, by rw [hp]; exact hd⟩
  intro hc
  rcases h with h | h | ⟨h1, h2, h3⟩ | h
  · exact .inl (by rw [hp]; exact h)
  · exact absurd h hc
  · rw [h1] at hc
    rcases I4.pend hc with h' | ⟨h', h''⟩
    · rw [h2] at h'; cases h'
    · exact .inr ⟨by rw [h1]; exact h', by rw [hl]; exact h''.append h3⟩
  · exact .inr h

theorem inv4_thr {comm : Bool} {t : Nat} {s s' : St} (h : ThrStep comm t s s') (I : Inv s) (I4 : Inv4 s) : Inv4 s' := by
  cases h with
  | call r h =>
    have hmx : s.mutex ≠ some t := by
      intro e; have := (I.m t).2 e; rw [h] at this; exact this rfl
    have hc : cur { s.set t (.waiting s.reqs.length r) with reqs := s.reqs ++ [r] } = cur s := by
      unfold cur St.set
      cases hmx' : s.mutex with
      | none => rfl
      | some u => simp only [Option.map_some]; rw [if_neg (by rintro rfl; exact hmx hmx')]
    exact ⟨by rw [hc]; exact I4.pend, by rw [hc]; exact I4.dat⟩
  | acquire i r h hmx =>
    exact inv4_move (p := .install i r) I4 (by simp [cur, St.set, St.emit]) [.start i] rfl
      (.inr (.inr (.inl ⟨rfl, by simp [cur, hmx], by simp⟩))) (by simp [dataZone])
  | release i st sent h =>
    obtain ⟨hmx, hc⟩ := cur_owner I h (by simp [active])
    have hc' : cur (({ s with mutex := none }.set t .idle).emit (.ret i st sent)) = none := by
      simp [cur, St.set, St.emit]
    refine ⟨?_, by rw [hc']; simp⟩
    intro hne
    rcases I4.pend hne with h' | ⟨h', h''⟩
    · rw [hc] at h'; simp [armed] at h'
    · exact .inr ⟨h', h''.append (by simp)⟩
  | install i r h =>
    obtain ⟨hmx, hc⟩ := cur_owner I h (by simp [active])
    exact inv4_move (p := .raw0 i r) I4 (by simp [cur, St.set, hmx]) [] (List.append_nil _).symm
      (.inr (.inr (.inl ⟨rfl, by simp [hc, armed], by simp⟩))) (by simp [dataZone])
  | raw0null i r h _ =>
    obtain ⟨hmx, hc⟩ := cur_owner I h (by simp [active])
    exact inv4_move (p := .uninstall i r .badRequest) I4 (by simp [cur, St.set, hmx]) [] (List.append_nil _).symm
      (.inr (.inr (.inl ⟨rfl, by simp [hc, armed], by simp⟩))) (by simp [dataZone])
  | raw0 i r text h _ =>
    obtain ⟨hmx, hc⟩ := cur_owner I h (by simp [active])
    exact inv4_move (p := .raw1 i r) I4 (by simp [cur, St.set, hmx]) [] (List.append_nil _).symm
      (.inr (.inr (.inl ⟨rfl, by simp [hc, armed], by simp⟩))) (by simp [dataZone])
  | raw1fail i r text e h _ _ =>
    obtain ⟨hmx, hc⟩ := cur_owner I h (by simp [active])
    exact inv4_move (p := .raw4 i r e) I4 (by simp [cur, St.set, hmx]) [] (List.append_nil _).symm
      (.inl rfl) (by simp [dataZone])
  | raw1 i r text p h _ _ =>
    obtain ⟨hmx, hc⟩ := cur_owner I h (by simp [active])
    exact inv4_move (p := .raw2 i r) I4 (by simp [cur, St.set, hmx]) [] (List.append_nil _).symm
      (.inl rfl) (by simp [dataZone])
  | raw2 i r text h _ =>
    obtain ⟨hmx, hc⟩ := cur_owner I h (by simp [active])
    exact inv4_move (p := .raw3 i r) I4 (by simp [cur, St.set, St.emit, hmx]) [_] rfl
      (.inl rfl) (by simp [dataZone])
  | raw3got i r st h hqu =>
    obtain ⟨hmx, hc⟩ := cur_owner I h (by simp [active])
    exact inv4_move (p := .raw4 i r st) I4 (by simp [cur, St.set, St.emit, hmx]) [_] rfl
      (.inl rfl) (by simp [dataZone])
  | raw3timeout i r h hqu =>
    obtain ⟨hmx, hc⟩ := cur_owner I h (by simp [active])
    exact inv4_move (p := .raw4 i r .timedOut) I4 (by simp [cur, St.set, St.emit, hmx]) [_] rfl
      (.inl rfl) (by simp [dataZone])
  | raw4 i r st h =>
    obtain ⟨hmx, hc⟩ := cur_owner I h (by simp [active])
    exact inv4_move (p := .uninstall i r st) I4 (by simp [cur, St.set, hmx]) [] (List.append_nil _).symm
      (.inr (.inl rfl)) (by simp [dataZone])
  | uninstall i r st h =>
    obtain ⟨hmx, hc⟩ := cur_owner I h (by simp [active])
    exact inv4_move (p := afterRaw i r.kind.data st) I4 (by simp [cur, St.set, hmx]) [] (List.append_nil _).symm
      (.inr (.inr (.inl ⟨rfl, by simp [hc, armed], by simp⟩)))
      (by unfold afterRaw; split <;> simp [dataZone])
  | data0null i d h _ =>
    obtain ⟨hmx, hc⟩ := cur_owner I h (by simp [active])
    exact inv4_move (p := .release i .badRequest none) I4 (by simp [cur, St.set, hmx]) [] (List.append_nil _).symm
      (.inr (.inr (.inl ⟨rfl, by simp [hc, armed], by simp⟩))) (by simp [dataZone])
  | data0 i d b h _ _ =>
    obtain ⟨hmx, hc⟩ := cur_owner I h (by simp [active])
    exact inv4_move (p := .data1 i d b) I4 (by simp [cur, St.set, hmx]) [] (List.append_nil _).symm
      (.inl rfl) (fun _ => .inl rfl)
  | data1 i d b n h _ =>
    obtain ⟨hmx, hc⟩ := cur_owner I h (by simp [active])
    have hd := I4.dat (by simp [hc, dataZone])
    exact inv4_move (p := afterData i d n) I4 (by simp [cur, St.set, St.emit, hmx]) [_] rfl
      (.inl (by unfold afterData; split <;> rfl)) (fun _ => hd)
  | data1short i d b n h _ =>
    obtain ⟨hmx, hc⟩ := cur_owner I h (by simp [active])
    have hd := I4.dat (by simp [hc, dataZone])
    refine inv4_move (p := .release i .sendError (some n)) I4 (by simp [cur, St.set, St.emit, hmx])
      [.data i b n, .sendError i] (by simp [St.set, St.emit]) ?_ (by simp [dataZone])
    rcases hd with hd | hd
    · exact .inr (.inr (.inr ⟨hd, _, i, [], rfl, by simp⟩))
    · exact .inr (.inl hd)
  | data2 i d n e k h _ =>
    obtain ⟨hmx, hc⟩ := cur_owner I h (by simp [active])
    exact inv4_move (p := .data3 i n) I4 (by simp [cur, St.set, St.emit, hmx]) [_] rfl
      (.inl rfl) (by simp [dataZone])
  | data2short i d n e k h _ =>
    obtain ⟨hmx, hc⟩ := cur_owner I h (by simp [active])
    have hd := I4.dat (by simp [hc, dataZone])
    refine inv4_move (p := .release i .sendError (some n)) I4 (by simp [cur, St.set, St.emit, hmx])
      [.pattern i e k, .sendError i] (by simp [St.set, St.emit]) ?_ (by simp [dataZone])
    rcases hd with hd | hd
    · exact .inr (.inr (.inr ⟨hd, _, i, [], rfl, by simp⟩))
    · exact .inr (.inl hd)
  | data3got i n st h hqu =>
    obtain ⟨hmx, hc⟩ := cur_owner I h (by simp [active])
    exact inv4_move (p := .data4 i n st) I4 (by simp [cur, St.set, St.emit, hmx]) [_] rfl
      (.inl rfl) (by simp [dataZone])
  | data3timeout i n h hqu =>
    obtain ⟨hmx, hc⟩ := cur_owner I h (by simp [active])
    exact inv4_move (p := .data4 i n .timedOut) I4 (by simp [cur, St.set, St.emit, hmx]) [_] rfl
      (.inl rfl) (by simp [dataZone])
  | data4 i n st h =>
    obtain ⟨hmx, hc⟩ := cur_owner I h (by simp [active])
    exact inv4_move (p := .release i st (some n)) I4 (by simp [cur, St.set, hmx]) [] (List.append_nil _).symm
      (.inr (.inl rfl)) (by simp [dataZone])

theorem inv4_rx_move {s s' : St} (I4 : Inv4 s) (hthr : s'.thr = s.thr) (hmx : s'.mutex = s.mutex)
    (hc : s'.cmd = s.cmd ∨ s'.cmd = .noCommand) (evs : List Ev) (hl : s'.log = s.log ++ evs)
    (he : ∀ j text, Ev.command j text ∉ evs) : Inv4 s' := by
  have hcur : cur s' = cur s := by unfold cur; rw [hthr, hmx]
  rcases hc with hc | hc
  · refine ⟨?_, by rw [hcur, hc]; exact I4.dat⟩
    rw [hcur, hc, hl]
    intro h
    rcases I4.pend h with h' | ⟨h', h''⟩
    · exact .inl h'
    · exact .inr ⟨h', h''.append he⟩
  · exact ⟨fun h => absurd hc h, fun _ => .inr hc⟩

theorem consult_nocmd {s : St} {n : Nat} : ∀ j text, Ev.command j text ∉ consult s n := by
  unfold consult; split <;> simp

theorem fetched_nocmd {o : Option Nat} : ∀ j text, Ev.command j text ∉ fetchedBy o := by
  cases o <;> simp [fetchedBy]

theorem inv4_rx {cfg : Cfg} {s s' : St} (h : RxStep cfg s s') (I4 : Inv4 s) : Inv4 s' := by
  cases h with
  | fetch n h =>
    refine inv4_rx_move I4 rfl rfl (.inl rfl) (fetchedBy s.recvCb ++ fetchedBy s.sendCb) (by simp [List.append_assoc]) ?_
    intro j text he
    rcases List.mem_append.1 he with he | he
    · exact fetched_nocmd j text he
    · exact fetched_nocmd j text he
  | procDone n t r h hp =>
    refine inv4_rx_move I4 rfl rfl (.inl rfl) (consult s n ++ [.final r.status n]) (by simp [List.append_assoc]) ?_
    intro j text he
    rcases List.mem_append.1 he with he | he
    · exact consult_nocmd j text he
    · simp at he
  | procPending n t st r h hp hs => exact inv4_rx_move I4 rfl rfl (.inl rfl) (consult s n) rfl consult_nocmd
  | procUndef n t st r h hp hs => exact inv4_rx_move I4 rfl rfl (.inl rfl) (consult s n) rfl consult_nocmd
  | receive | preSend | preRecv | callNull | callback =>
    exact inv4_rx_move I4 rfl rfl (.inl rfl) [_] rfl (by simp)
  | done | undefFail =>
    exact inv4_rx_move I4 rfl rfl (.inr rfl) [] (List.append_nil _).symm (by simp)
  | _ =>
    exact inv4_rx_move I4 rfl rfl (.inl rfl) [] (List.append_nil _).symm (by simp)

theorem inv4_reachable {cfg : Cfg} {comm : Bool} {s : St} (h : Reachable cfg comm s) : Inv4 s := by
  induction h with
  | init => exact ⟨by simp [init], by simp [cur, init]⟩
  | step hr hs ih =>
    cases hs with
    | thr t h => exact inv4_thr h (inv_reachable hr) ih
    | rx h => exact inv4_rx h ih

end Cellular.ConcLemmas
