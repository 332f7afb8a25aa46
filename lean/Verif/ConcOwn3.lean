import Verif.ConcOwn2
/-!
# Requests: the receive task keeps the invariant
-/

namespace Cellular.ConcLemmas
open Cellular Spec Conc
open Cellular.Pktio (CmdType MsgType Item Resp Cfg getMsgType processLine writeMax processIntermediate)

theorem processIntermediate_items (it : Item) (r : Resp) (t : CmdType) :
    ∀ x ∈ (processIntermediate it r t).2.items, x ∈ r.items ∨ x = it := by
  intro x hx
  unfold processIntermediate at hx
  simp only at hx
  split at hx <;> (try split at hx) <;> simp_all

theorem processLine_items (cfg : Cfg) (line : Str) (it : Item) (r : Resp) (t : CmdType) :
    ∀ x ∈ (processLine cfg line it r t).2.items, x ∈ r.items ∨ x = it := by
  intro x hx
  unfold processLine at hx
  split at hx
  · split at hx
    · exact .inl hx
    · split at hx
      · exact .inl hx
      · exact processIntermediate_items it r t x hx
  · exact .inl hx

/-- The items of the response after a line. -/
theorem procResult_items {cfg : Cfg} {s : St} {m : Own} {n : Nat} {t : CmdType} {st : PktStatus} {r : Resp}
    (hp : procResult cfg s n t = (st, r)) (hx : s.rx = .proc2 n t)
    (h : Clean s ∨ ∀ r, s.resp = some r → itemsOk m r) (hn : m.since ≤ n ∧ n < m.lines) : itemsOk m r := by
  have h0 : ∀ x ∈ (s.resp.getD ⟨false, []⟩).items, m.fits x := by
    rcases h with h | h
    · rcases h with h | h
      · simp [h]
      · rw [hx] at h; cases h
    · cases hr : s.resp with
      | none => simp
      | some r => exact h r hr
  intro x hxi
  have := processLine_items { cfg with extra := s.extra.map (·.2) } (s.line n) (.line n)
    (s.resp.getD ⟨false, []⟩) t x (by unfold procResult at hp; rw [hp]; exact hxi)
  rcases this with h' | h'
  · exact h0 x h'
  · exact ⟨n, h', hn.1, hn.2⟩

theorem own_rx {cfg : Cfg} {tol strict : Bool} {s s' : St} {m : Own} (h : RxStep cfg s s')
    (J : Inv2 tol strict s m) (hm : own strict s.log = some m) (hE : tol = true → EndsClean s')
    (hq : strict = true → Quiet s s') : ∃ m', own strict s'.log = some m' ∧ Inv2 tol strict s' m' := by
  cases h with
  | receive l h =>
    refine ⟨{ m with lines := m.lines + 1 }, ?_, ?_⟩
    · simp only [own_append, hm, List.foldl_cons, List.foldl_nil, Option.bind_some, ownStep, J.lines, if_true]
    · have hf : ∀ it, m.fits it → Own.fits { m with lines := m.lines + 1 } it :=
        fun it h => fits_lines 1 h _ rfl rfl
      have hns : strict = true → csend s = false := by
        intro hs
        cases hc : csend s with
        | false => rfl
        | true =>
          exfalso
          unfold csend cur at hc
          cases hmx : s.mutex with
          | none => simp [hmx] at hc
          | some t =>
            simp only [hmx, Option.map_some, Option.any_some] at hc
            have := (hq hs).2 t ((sendingB_iff _).1 hc)
            simp at this
      refine ⟨by simp [J.lines], J.req, by have := J.sinceLe; simp only; omega,
        fun h1 h2 => by have := J.loose h1 h2; simp only; omega, ?_, ?_, ?_, J.cb, J.fresh, ?_⟩
      · intro n hn
        simp only [held, Option.some.injEq] at hn
        refine ⟨by simp only; rw [← hn, J.lines], ?_⟩
        intro hw
        refine ⟨by have := J.sinceLe; have := J.lines; simp only; omega, ?_⟩
        intro hs
        exact J.sent hs hw (hns hs)
      · intro hs hc; exfalso; have := hns hs; unfold csend cur at this hc; simp only at hc; rw [this] at hc; cases hc
      · intro hs hw _; exact J.sent hs hw (hns hs)
      · rcases phase_passive J.ph (by rw [h]; rfl) with ⟨h1, h2, h3, h4⟩ | ⟨h1, h2, h3, h4, h5⟩ | ⟨st, h1, h2, h3, h4, h5⟩ | ⟨h1, h2, h3, h4, h5⟩
        · refine .p0 h1 h2 h3 rfl (.inl ?_)
          rcases h4 with h4 | h4
          · exact h4
          · rw [h] at h4; cases h4
        · refine .pa h1 h2 h3 (.inl rfl) ?_ h5
          rcases h4 with h4 | h4
          · rcases h4 with h4 | h4
            · exact .inl (.inl h4)
            · rw [h] at h4; cases h4
          · exact .inr (fun r hr it hit => hf it (h4 r hr it hit))
        · refine .pc st h1 h2 h3 h4 rfl (.inl ?_)
          rcases h5 with h5 | h5
          · exact h5
          · rw [h] at h5; cases h5
        · refine .pt h1 h2 h3 h4 rfl (.inl ?_)
          rcases h5 with h5 | h5
          · exact h5
          · rw [h] at h5; cases h5
  | fetch n h =>
    refine ⟨m, ?_, ?_⟩
    · refine own_keep (own_keep hm fetched_own) fetched_own
    · exact inv2_rx J rfl rfl rfl rfl rfl rfl rfl rfl (by rw [h]; simp) (by rw [h]; intro k hk; exact hk) (.inl rfl)
        (phase_stay J.ph (by rw [h]; rfl) rfl
          (by unfold Clean; rw [h]; simp) rfl rfl rfl rfl rfl rfl)
  | preNone n h =>
    refine ⟨m, hm, ?_⟩
    exact inv2_rx J rfl rfl rfl rfl rfl rfl rfl rfl (by rw [h]; simp) (by rw [h]; intro k hk; exact hk) (.inl rfl)
        (phase_stay J.ph (by rw [h]; rfl) rfl
          (by unfold Clean; rw [h]; simp) rfl rfl rfl rfl rfl rfl)
  | preSend n d i keep h =>
    refine ⟨m, own_keep hm (by simp [ownStep]), ?_⟩
    exact inv2_rx J rfl rfl rfl rfl rfl rfl rfl rfl (by rw [h]; simp)
        (by rw [h]; intro k hk; cases keep <;> simp_all [held, St.emit]) (.inl rfl)
        (phase_stay J.ph (by rw [h]; rfl) (by cases keep <;> rfl)
          (by unfold Clean; rw [h]; simp [St.emit]; exact fun h => .inl h) rfl rfl rfl rfl rfl rfl)
  | preRecv n i keep h =>
    refine ⟨m, own_keep hm (by simp [ownStep]), ?_⟩
    exact inv2_rx J rfl rfl rfl rfl rfl rfl rfl rfl (by rw [h]; simp)
        (by rw [h]; intro k hk; cases keep <;> simp_all [held, St.emit]) (.inl rfl)
        (phase_stay J.ph (by rw [h]; rfl) (by cases keep <;> rfl)
          (by unfold Clean; rw [h]; simp [St.emit]; exact fun h => .inl h) rfl rfl rfl rfl rfl rfl)
  | readPrefix n h =>
    refine ⟨m, hm, ?_⟩
    exact inv2_rx J rfl rfl rfl rfl rfl rfl rfl rfl (by rw [h]; simp) (by rw [h]; intro k hk; exact hk) (.inl rfl)
        (phase_stay J.ph (by rw [h]; rfl) rfl
          (by unfold Clean; rw [h]; simp) rfl rfl rfl rfl rfl rfl)
  | classify n on h =>
    refine ⟨m, hm, ?_⟩
    refine inv2_rx J rfl rfl rfl rfl rfl rfl rfl rfl (by rw [h]; simp) ?_ (.inl rfl) ?_
    · rw [h]; unfold classified; intro k hk; split at hk <;> simp_all [held]
    · by_cases hsol : classified cfg s n on = .proc n
      · have hcmd : s.cmd ≠ .noCommand := by
          intro e
          unfold classified at hsol
          rw [e] at hsol
          have := getMsgType_noCommand cfg (if on then some s.pfxBuf else none) (s.line n)
          split at hsol <;> simp_all
        rcases phase_passive J.ph (by rw [h]; rfl) with ⟨h1, h2, h3, h4⟩ | ⟨h1, h2, h3, h4, h5⟩ | ⟨st, h1, h2, h3, h4, h5⟩ | ⟨h1, h2, h3, h4, h5⟩
        · exact absurd h1 hcmd
        · refine .pa h1 h2 h3 (.inr (by simp [hsol, procish])) ?_ h5
          rcases h4 with h4 | h4
          · rcases h4 with h4 | h4
            · exact .inl (.inl h4)
            · rw [h] at h4; cases h4
          · exact .inr h4
        · exact absurd h2 hcmd
        · exfalso
          unfold cend cur at h2
          cases hmx : s.mutex with
          | none => rw [hmx] at h2; simp at h2
          | some u =>
            rw [hmx] at h2
            have := (hE h1 u (by simpa using h2)).2.2
            simp only [hsol] at this
            cases this
      · refine phase_stay J.ph (by rw [h]; rfl) ?_ (by unfold Clean; rw [h]; simp; exact fun h => .inl h)
          rfl rfl rfl rfl rfl rfl
        revert hsol; unfold classified; split <;> simp [passive]
  | readType n h =>
    refine ⟨m, hm, ?_⟩
    refine inv2_rx J rfl rfl rfl rfl rfl rfl rfl rfl (by rw [h]; simp) (by rw [h]; intro k hk; exact hk) (.inl rfl) ?_
    obtain ⟨h1, h2, h3, h4, h5⟩ := phase_procish J.ph (by rw [h]; rfl)
    refine .pa h1 h2 h3 (.inr rfl) ?_ h5
    rcases h4 with h4 | h4
    · rcases h4 with h4 | h4
      · exact .inl (.inl h4)
      · rw [h] at h4; cases h4
    · exact .inr h4
  | procDone n t r h hp =>
    obtain ⟨h1, h2, h3, h4, h5⟩ := phase_procish J.ph (by rw [h]; rfl)
    have hh := J.held n (by rw [h]; rfl)
    have hh2 := hh.2 h1
    have hi : itemsOk m r := procResult_items hp h h4 ⟨hh2.1, by omega⟩
    have hreq : m.req ≠ none := by
      rw [J.req]
      unfold cw at h1
      revert h1
      cases cur s with
      | none => simp
      | some p => simp only [Option.any_some, Option.bind_some]; cases p <;> simp [waits, active]
    refine ⟨{ m with answer := .final r.status }, ?_, ?_⟩
    · rw [own_append, own_keep hm consult_own]
      simp only [List.foldl_cons, List.foldl_nil, Option.bind_some, ownStep]
      rw [if_pos ⟨hreq, h3, hh2.1, by omega, hh2.2⟩]
    · refine inv2_rx J rfl rfl rfl rfl rfl rfl rfl rfl (by rw [h]; simp) (by simp [held]) (.inl rfl) ?_
      exact .pd r h1 h2 rfl rfl hi h5
  | procPending n t st r h hp hs =>
    obtain ⟨h1, h2, h3, h4, h5⟩ := phase_procish J.ph (by rw [h]; rfl)
    have hh := J.held n (by rw [h]; rfl)
    have hh2 := hh.2 h1
    have hi : itemsOk m r := procResult_items hp h h4 ⟨hh2.1, by omega⟩
    refine ⟨m, own_keep hm consult_own, ?_⟩
    refine inv2_rx J rfl rfl rfl rfl rfl rfl rfl rfl (by rw [h]; simp) (by simp [held]) (.inl rfl) ?_
    exact .pa h1 h2 h3 (.inl rfl) (.inr (by rintro r' e; cases e; exact hi)) h5
  | procUndef n t st r h hp hs =>
    obtain ⟨h1, h2, h3, h4, h5⟩ := phase_procish J.ph (by rw [h]; rfl)
    have hh := J.held n (by rw [h]; rfl)
    have hh2 := hh.2 h1
    have hi : itemsOk m r := procResult_items hp h h4 ⟨hh2.1, by omega⟩
    refine ⟨m, own_keep hm consult_own, ?_⟩
    refine inv2_rx J rfl rfl rfl rfl rfl rfl rfl rfl (by rw [h]; simp) (by simp [held]) (.inl rfl) ?_
    exact .pa h1 h2 h3 (.inl rfl) (.inr (by rintro r' e; cases e; exact hi)) h5
  | done r h =>
    refine ⟨m, hm, ?_⟩
    refine inv2_rx J rfl rfl rfl rfl rfl rfl rfl rfl (by rw [h]; simp) (by simp [held]) (.inl rfl) ?_
    cases J.ph with
    | pd r' hw hq' ha hx hi hcb' => rw [h] at hx; cases hx; exact .ph r hw rfl hq' ha rfl hi hcb'
    | p0 hc' hq' ha hx hr => rw [h] at hx; simp [passive] at hx
    | pa hw hq' ha hx hr hcb' => rw [h] at hx; simp [passive, procish] at hx
    | ph r' hw hc' hq' ha hx hi hcb' => rw [h] at hx; cases hx
    | pl r' hw hc' hq' ha hx hi hn hcb' => rw [h] at hx; cases hx
    | pi i r' hw hc' hq' ha hx hi hn hcb' => rw [h] at hx; cases hx
    | ps st hw hc' hq' ha hx => rw [h] at hx; cases hx
    | pc st hw hc' hq' ha hx hr => rw [h] at hx; simp [passive] at hx
    | pt _ hw hq' ha hx hr => rw [h] at hx; simp [passive] at hx
  | handle r h =>
    refine ⟨m, hm, ?_⟩
    refine inv2_rx J rfl rfl rfl rfl rfl rfl rfl rfl (by rw [h]; simp)
      (by unfold handled; intro k hk; split at hk
          · simp [held] at hk
          · split at hk <;> simp [held] at hk) (.inl rfl) ?_
    cases J.ph with
    | ph r' hw hc' hq' ha hx hi hcb' =>
      rw [h] at hx; cases hx
      cases hst : r.status with
      | false =>
        exact .ps .failure hw hc' hq' (by rw [ha, hst]; rfl) (by simp [handled, hst])
      | true =>
        cases hcb : s.cb with
        | none => exact .ps .ok hw hc' hq' (by rw [ha, hst]; rfl) (by simp [handled, hst])
        | some j =>
          exact .pl r hw hc' hq' (by rw [ha, hst]) (by simp [handled, hst]) hi (by simp)
            (hcb' (by simp [hcb]))
    | p0 hc' hq' ha hx hr => rw [h] at hx; simp [passive] at hx
    | pa hw hq' ha hx hr hcb' => rw [h] at hx; simp [passive, procish] at hx
    | pd r' hw hq' ha hx hi hcb' => rw [h] at hx; cases hx
    | pl r' hw hc' hq' ha hx hi hn hcb' => rw [h] at hx; cases hx
    | pi i r' hw hc' hq' ha hx hi hn hcb' => rw [h] at hx; cases hx
    | ps st hw hc' hq' ha hx => rw [h] at hx; cases hx
    | pc st hw hc' hq' ha hx hr => rw [h] at hx; simp [passive] at hx
    | pt _ hw hq' ha hx hr => rw [h] at hx; simp [passive] at hx
  | callNull r h hc =>
    cases J.ph with
    | pl r' hw hc' hq' ha hx hi hn hcb' => exact absurd hc hn
    | p0 hc' hq' ha hx hr => rw [h] at hx; simp [passive] at hx
    | pa hw hq' ha hx hr hcb' => rw [h] at hx; simp [passive, procish] at hx
    | pd r' hw hq' ha hx hi hcb' => rw [h] at hx; cases hx
    | ph r' hw hc' hq' ha hx hi hcb' => rw [h] at hx; cases hx
    | pi i r' hw hc' hq' ha hx hi hn hcb' => rw [h] at hx; cases hx
    | ps st hw hc' hq' ha hx => rw [h] at hx; cases hx
    | pc st hw hc' hq' ha hx hr => rw [h] at hx; simp [passive] at hx
    | pt _ hw hq' ha hx hr => rw [h] at hx; simp [passive] at hx
  | call r i h hc =>
    refine ⟨m, hm, ?_⟩
    refine inv2_rx J rfl rfl rfl rfl rfl rfl rfl rfl (by rw [h]; simp) (by simp [held]) (.inl rfl) ?_
    cases J.ph with
    | pl r' hw hc' hq' ha hx hi hn hcb' =>
      rw [h] at hx; cases hx
      exact .pi i r hw hc' hq' ha rfl hi (J.cb i hc).2 hcb'
    | p0 hc' hq' ha hx hr => rw [h] at hx; simp [passive] at hx
    | pa hw hq' ha hx hr hcb' => rw [h] at hx; simp [passive, procish] at hx
    | pd r' hw hq' ha hx hi hcb' => rw [h] at hx; cases hx
    | ph r' hw hc' hq' ha hx hi hcb' => rw [h] at hx; cases hx
    | pi i r' hw hc' hq' ha hx hi hn hcb' => rw [h] at hx; cases hx
    | ps st hw hc' hq' ha hx => rw [h] at hx; cases hx
    | pc st hw hc' hq' ha hx hr => rw [h] at hx; simp [passive] at hx
    | pt _ hw hq' ha hx hr => rw [h] at hx; simp [passive] at hx
  | callback r i st h =>
    cases J.ph with
    | pi i' r' hw hc' hq' ha hx hi hn hcb' =>
      rw [h] at hx; cases hx
      refine ⟨{ m with answer := .judged st, called := true }, ?_, ?_⟩
      · simp only [St.emit, own_append, hm, List.foldl_cons, List.foldl_nil, Option.bind_some, ownStep]
        rw [if_pos ⟨hn, ha, hcb', hi⟩]
      · refine inv2_rx J rfl rfl rfl rfl rfl rfl rfl rfl (by rw [h]; simp) (by simp [held, St.emit]) (.inr hw) ?_
        exact .ps st hw hc' hq' rfl rfl
    | p0 hc' hq' ha hx hr => rw [h] at hx; simp [passive] at hx
    | pa hw hq' ha hx hr hcb' => rw [h] at hx; simp [passive, procish] at hx
    | pd r' hw hq' ha hx hi hcb' => rw [h] at hx; cases hx
    | ph r' hw hc' hq' ha hx hi hcb' => rw [h] at hx; cases hx
    | pl r' hw hc' hq' ha hx hi hn hcb' => rw [h] at hx; cases hx
    | ps st hw hc' hq' ha hx => rw [h] at hx; cases hx
    | pc st hw hc' hq' ha hx hr => rw [h] at hx; simp [passive] at hx
    | pt _ hw hq' ha hx hr => rw [h] at hx; simp [passive] at hx
  | send st h =>
    refine ⟨m, hm, ?_⟩
    refine inv2_rx J rfl rfl rfl rfl rfl rfl rfl rfl (by rw [h]; simp) (by simp [held]) (.inl rfl) ?_
    cases J.ph with
    | ps st' hw hc' hq' ha hx =>
      rw [h] at hx; cases hx
      exact .pc st hw hc' (by simp [hq']) ha rfl (.inr rfl)
    | p0 hc' hq' ha hx hr => rw [h] at hx; simp [passive] at hx
    | pa hw hq' ha hx hr hcb' => rw [h] at hx; simp [passive, procish] at hx
    | pd r' hw hq' ha hx hi hcb' => rw [h] at hx; cases hx
    | ph r' hw hc' hq' ha hx hi hcb' => rw [h] at hx; cases hx
    | pl r' hw hc' hq' ha hx hi hn hcb' => rw [h] at hx; cases hx
    | pi i r' hw hc' hq' ha hx hi hn hcb' => rw [h] at hx; cases hx
    | pc st hw hc' hq' ha hx hr => rw [h] at hx; simp [passive] at hx
    | pt _ hw hq' ha hx hr => rw [h] at hx; simp [passive] at hx
  | free h =>
    refine ⟨m, hm, ?_⟩
    refine inv2_rx J rfl rfl rfl rfl rfl rfl rfl rfl (by rw [h]; simp) (by simp [held]) (.inl rfl) ?_
    rcases phase_passive J.ph (by rw [h]; rfl) with ⟨h1, h2, h3, h4⟩ | ⟨h1, h2, h3, h4, h5⟩ | ⟨st, h1, h2, h3, h4, h5⟩ | ⟨h1, h2, h3, h4, h5⟩
    · exact .p0 h1 h2 h3 rfl (.inl rfl)
    · exact .pa h1 h2 h3 (.inl rfl) (.inl (.inl rfl)) h5
    · exact .pc st h1 h2 h3 h4 rfl (.inl rfl)
    · exact .pt h1 h2 h3 h4 rfl (.inl rfl)
  | undefOk n h hu =>
    refine ⟨m, hm, ?_⟩
    exact inv2_rx J rfl rfl rfl rfl rfl rfl rfl rfl (by rw [h]; simp) (by simp [held]) (.inl rfl)
        (phase_stay J.ph (by rw [h]; rfl) rfl
          (by unfold Clean; rw [h]; simp) rfl rfl rfl rfl rfl rfl)
  | undefRefused n h hu =>
    refine ⟨m, hm, ?_⟩
    exact inv2_rx J rfl rfl rfl rfl rfl rfl rfl rfl (by rw [h]; simp) (by simp [held]) (.inl rfl)
        (phase_stay J.ph (by rw [h]; rfl) rfl
          (by unfold Clean; rw [h]; simp) rfl rfl rfl rfl rfl rfl)
  | undefFail h =>
    refine ⟨m, hm, ?_⟩
    refine inv2_rx J rfl rfl rfl rfl rfl rfl rfl rfl (by rw [h]; simp) (by simp [held]) (.inl rfl) ?_
    rcases phase_passive J.ph (by rw [h]; rfl) with ⟨h1, h2, h3, h4⟩ | ⟨h1, h2, h3, h4, h5⟩ | ⟨st, h1, h2, h3, h4, h5⟩ | ⟨h1, h2, h3, h4, h5⟩
    · exact .p0 rfl h2 h3 rfl (.inl rfl)
    · exact .p0 rfl h2 h3 rfl (.inl rfl)
    · exact .pc st h1 rfl h3 h4 rfl (.inl rfl)
    · exact .p0 rfl h3 h4 rfl (.inl rfl)

theorem step_log {cfg : Cfg} {comm : Bool} {s s' : St} (h : Step cfg comm s s') : ∃ l, s'.log = s.log ++ l := by
  cases h with
  | thr t h =>
    cases h
    case data1short i d b n h hn => exact ⟨[.data i b n, .sendError i], by simp [St.set, St.emit]⟩
    case data2short i d n e m h hn => exact ⟨[.pattern i e m, .sendError i], by simp [St.set, St.emit]⟩
    all_goals first
      | exact ⟨[], (List.append_nil _).symm⟩
      | exact ⟨[_], rfl⟩
  | rx h =>
    cases h
    case fetch => exact ⟨_, by simp only [List.append_assoc]; rfl⟩
    case procDone => exact ⟨_, by simp only [List.append_assoc]; rfl⟩
    all_goals first
      | exact ⟨[], (List.append_nil _).symm⟩
      | exact ⟨[_], rfl⟩
      | exact ⟨_, rfl⟩

/-- The invariant along an execution: `hn` - nothing was lost, or every state was harmless. -/
theorem own_run' {cfg : Cfg} {comm tol strict : Bool} {P : St → St → Prop} {s : St} (h : Run cfg comm P s)
    (hP : strict = true → ∀ a b, P a b → Quiet a b)
    (hn : (tol = false ∧ NoLoss s.log) ∨ (tol = true ∧ ∀ a b, P a b → Harmless b)) :
    ∃ m, own strict s.log = some m ∧ Inv2 tol strict s m := by
  induction h with
  | init => exact ⟨own0, rfl, inv2_init tol strict⟩
  | @step s0 s1 hr hs hp ih =>
    obtain ⟨l, hl⟩ := step_log hs
    obtain ⟨m, hm, J⟩ := ih (by
      rcases hn with ⟨ht, hn⟩ | hn
      · refine .inl ⟨ht, fun i => ?_⟩
        have := hn i; rw [hl] at this
        exact ⟨fun h => this.1 (List.mem_append_left _ h), fun h => this.2 (List.mem_append_left _ h)⟩
      · exact .inr hn)
    have hF : Forgive tol s1 := by
      rcases hn with ⟨rfl, hn⟩ | ⟨rfl, hn⟩
      · exact forgive_noLoss hn
      · exact forgive_harmless (hn _ _ hp)
    cases hs with
    | thr t h => exact own_thr h (inv_reachable hr.reachable) J hm hF (fun e => hP e _ _ hp)
    | rx h => exact own_rx h J hm hF.clean (fun e => hP e _ _ hp)

theorem own_run {cfg : Cfg} {comm strict : Bool} {P : St → St → Prop} {s : St} (h : Run cfg comm P s)
    (hP : strict = true → ∀ a b, P a b → Quiet a b) (hn : NoLoss s.log) :
    ∃ m, own strict s.log = some m ∧ Inv2 false strict s m := own_run' h hP (.inl ⟨rfl, hn⟩)

end Cellular.ConcLemmas
