import Verif.ConcOwn3
/-!
# Requests: what a request sent, why it returned what it returned
-/

namespace Cellular.Spec
open Cellular Conc
open Cellular.Pktio (CmdType writeMax)

/-- `f` happened after `e`. -/
def After (a : List Ev) (e f : Ev) : Prop := ∃ x y, a = x ++ e :: y ∧ f ∈ y

/-- The command cannot be sent: no transport, text too long, no prefix given for a command type that needs
one, or no command type. -/
def Refused (comm : Bool) (r : Req) (text : Str) (st : PktStatus) : Prop :=
  (comm = false ∧ st = .invalidHandle) ∨
  (comm = true ∧ st = .badParam ∧ (text.length > writeMax ∨ r.type = .noCommand ∨
    (r.pfx = none ∧ (r.type = .withPrefix ∨ r.type = .multiWithPrefix ∨ r.type = .withPrefixNoResultCode))))

/-- All data of request `i`, then all of its end pattern, were handed to the transport and accepted. -/
def AllSent (a : List Ev) (i : Nat) (d : Data) (b : Str) : Prop :=
  d.data = some b ∧ Ev.data i b b.length ∈ a ∧
  ∀ e, d.pattern = some e → After a (.data i b b.length) (.pattern i e e.length)

/-- `d` is what a request of kind `k` sends after its command: the data of a data send, without or with its own success tokens. -/
def SendsData (k : Kind) (d : Data) : Prop := (∃ p, k = .dataSend d p) ∨ ∃ table, k = .dataSendTokens d table

/-- Why request `i`, which is `r`, returns status `st` and writes `sent` through `pSentDataLength`. -/
inductive ReturnLaw (comm : Bool) (r : Req) (a : List Ev) (i : Nat) : PktStatus → Option Nat → Prop
  | noText (h : r.cmd = none) : ReturnLaw comm r a i .badRequest none
  | refused (text : Str) (st : PktStatus) (h : r.cmd = some text) (hr : Refused comm r text st) :
      ReturnLaw comm r a i st none
  /-- nothing came in time -/
  | timeout (h : Ev.timeout i ∈ a) : ReturnLaw comm r a i .timedOut none
  /-- a status was delivered; for a two-step request, not success -/
  | answered (st : PktStatus) (h : Ev.got i st ∈ a) (hd : (∀ d, ¬ SendsData r.kind d) ∨ st ≠ .ok) :
      ReturnLaw comm r a i st none
  /-- the command step succeeded, but there is no data -/
  | noData (d : Data) (h : Ev.got i .ok ∈ a) (hd : SendsData r.kind d) (hn : d.data = none ∨ d.sentPtr = false) :
      ReturnLaw comm r a i .badRequest none
  /-- not all data was accepted -/
  | dataShort (d : Data) (b : Str) (n : Nat) (hd : SendsData r.kind d) (hb : d.data = some b)
      (h : Ev.got i .ok ∈ a) (hs : Ev.data i b n ∈ a) (hn : n ≠ b.length) (he : Ev.sendError i ∈ a) :
      ReturnLaw comm r a i .sendError (some n)
  /-- all data, but not all of the end pattern was accepted -/
  | patternShort (d : Data) (b e : Str) (n : Nat) (hd : SendsData r.kind d) (hb : d.data = some b)
      (hp : d.pattern = some e)
      (h : Ev.got i .ok ∈ a) (hs : After a (.data i b b.length) (.pattern i e n)) (hn : n ≠ e.length)
      (he : Ev.sendError i ∈ a) : ReturnLaw comm r a i .sendError (some b.length)
  /-- everything was sent and nothing came in time -/
  | dataTimeout (d : Data) (b : Str) (hd : SendsData r.kind d) (h : Ev.got i .ok ∈ a) (hs : AllSent a i d b)
      (ht : After a (.data i b b.length) (.timeout i)) : ReturnLaw comm r a i .timedOut (some b.length)
  /-- everything was sent and a status was delivered afterwards -/
  | dataAnswered (d : Data) (b : Str) (st : PktStatus) (hd : SendsData r.kind d) (h : Ev.got i .ok ∈ a)
      (hs : AllSent a i d b) (hg : After a (.data i b b.length) (.got i st)) :
      ReturnLaw comm r a i st (some b.length)

/-- What an event of request `i` tells, given the history `a` before it and all requests. -/
def EvLaw (comm : Bool) (reqs : List Req) (a : List Ev) : Ev → Prop
  | .start i => Ev.start i ∉ a ∧ i < reqs.length
  -- the bytes sent are the request's text
  | .command i text => ∃ r, reqs[i]? = some r ∧ r.cmd = some text ∧ ∀ st, ¬ Refused comm r text st
  -- data is the request's data, after the command step succeeded
  | .data i b _ => ∃ r d, reqs[i]? = some r ∧ SendsData r.kind d ∧ d.data = some b ∧ Ev.got i .ok ∈ a
  -- the end pattern is the request's, after all data was accepted
  | .pattern i e _ => ∃ r d b, reqs[i]? = some r ∧ SendsData r.kind d ∧ d.data = some b ∧ d.pattern = some e ∧
      Ev.data i b b.length ∈ a
  | .ret i st sent => ∃ r, reqs[i]? = some r ∧ ReturnLaw comm r a i st sent
  | _ => True

theorem sendsData_iff (k : Kind) (d : Data) : SendsData k d ↔ k.data = some d := by
  constructor
  · rintro (⟨p, rfl⟩ | ⟨t, rfl⟩) <;> rfl
  · intro h
    cases k with
    | dataSend d' p => cases h; exact .inl ⟨p, rfl⟩
    | dataSendTokens d' t => cases h; exact .inr ⟨t, rfl⟩
    | _ => cases h

end Cellular.Spec

namespace Cellular.ConcLemmas
open Cellular Spec Conc
open Cellular.Pktio (CmdType MsgType Item Resp Cfg getMsgType processLine writeMax)

theorem _root_.Cellular.Spec.After.mono {a : List Ev} {e f : Ev} (h : After a e f) (l : List Ev) : After (a ++ l) e f := by
  obtain ⟨x, y, rfl, hf⟩ := h
  exact ⟨x, y ++ l, by simp, List.mem_append_left _ hf⟩

theorem _root_.Cellular.Spec.After.snoc {a : List Ev} {e f : Ev} (h : e ∈ a) : After (a ++ [f]) e f := by
  obtain ⟨x, y, rfl⟩ := List.append_of_mem h
  exact ⟨x, y ++ [f], by simp, by simp⟩

theorem _root_.Cellular.Spec.AllSent.mono {a : List Ev} {i : Nat} {d : Data} {b : Str} (h : AllSent a i d b) (l : List Ev) :
    AllSent (a ++ l) i d b :=
  ⟨h.1, List.mem_append_left _ h.2.1, fun e he => After.mono (h.2.2 e he) l⟩

theorem _root_.Cellular.Spec.ReturnLaw.mono {comm : Bool} {r : Req} {a : List Ev} {i : Nat} {st : PktStatus} {sent : Option Nat}
    (h : ReturnLaw comm r a i st sent) (l : List Ev) : ReturnLaw comm r (a ++ l) i st sent := by
  have mm : ∀ e, e ∈ a → e ∈ a ++ l := fun e he => List.mem_append_left _ he
  cases h with
  | noText h => exact .noText h
  | refused text st h hr => exact .refused text st h hr
  | timeout h => exact .timeout (mm _ h)
  | answered st h hd => exact .answered st (mm _ h) hd
  | noData d h hd hn => exact .noData d (mm _ h) hd hn
  | dataShort d b n hd hb h hs hn he => exact .dataShort d b n hd hb (mm _ h) (mm _ hs) hn (mm _ he)
  | patternShort d b e n hd hb hp h hs hn he =>
    exact .patternShort d b e n hd hb hp (mm _ h) (hs.mono l) hn (mm _ he)
  | dataTimeout d b hd h hs ht => exact .dataTimeout d b hd (mm _ h) (hs.mono l) (ht.mono l)
  | dataAnswered d b st hd h hs hg => exact .dataAnswered d b st hd (mm _ h) (hs.mono l) (hg.mono l)

/-- What is known of a thread at its place. -/
def Local (comm : Bool) (reqs : List Req) (log : List Ev) : Thr → Prop
  | .idle => True
  | .waiting i r => reqs[i]? = some r ∧ Ev.start i ∉ log
  | .install i r => reqs[i]? = some r
  | .raw0 i r => reqs[i]? = some r
  | .raw1 i r => reqs[i]? = some r
  | .raw2 i r => reqs[i]? = some r ∧ ∀ text, r.cmd = some text → ∀ st, ¬ Refused comm r text st
  | .raw3 i r => reqs[i]? = some r
  | .raw4 i r st => reqs[i]? = some r ∧
      ((∃ text, r.cmd = some text ∧ Refused comm r text st) ∨ (st = .timedOut ∧ Ev.timeout i ∈ log) ∨ Ev.got i st ∈ log)
  | .uninstall i r st => reqs[i]? = some r ∧
      ((r.cmd = none ∧ st = .badRequest) ∨
      (∃ text, r.cmd = some text ∧ Refused comm r text st) ∨ (st = .timedOut ∧ Ev.timeout i ∈ log) ∨ Ev.got i st ∈ log)
  | .data0 i d => ∃ r, reqs[i]? = some r ∧ r.kind.data = some d ∧ Ev.got i .ok ∈ log
  | .data1 i d b => ∃ r, reqs[i]? = some r ∧ r.kind.data = some d ∧ Ev.got i .ok ∈ log ∧ d.data = some b
  | .data2 i d n e => ∃ r b, reqs[i]? = some r ∧ r.kind.data = some d ∧ Ev.got i .ok ∈ log ∧ d.data = some b ∧
      d.pattern = some e ∧ n = b.length ∧ Ev.data i b b.length ∈ log
  | .data3 i n => ∃ r d b, reqs[i]? = some r ∧ r.kind.data = some d ∧ Ev.got i .ok ∈ log ∧ AllSent log i d b ∧
      n = b.length
  | .data4 i n st => ∃ r d b, reqs[i]? = some r ∧ r.kind.data = some d ∧ Ev.got i .ok ∈ log ∧ AllSent log i d b ∧
      n = b.length ∧ ((st = .timedOut ∧ After log (.data i b b.length) (.timeout i)) ∨
        After log (.data i b b.length) (.got i st))
  | .release i st sent => ∃ r, reqs[i]? = some r ∧ ReturnLaw comm r log i st sent

theorem getElem?_mono {α : Type} {l : List α} {i : Nat} {x : α} (h : l[i]? = some x) (l' : List α) :
    (l ++ l')[i]? = some x := by
  have hi : i < l.length := by
    rcases Nat.lt_or_ge i l.length with h' | h'
    · exact h'
    · rw [List.getElem?_eq_none h'] at h; cases h
  rw [List.getElem?_append_left hi]; exact h

theorem Local.mono {comm : Bool} {reqs : List Req} {log : List Ev} {p : Thr} (h : Local comm reqs log p)
    (l : List Req) (l' : List Ev) (hw : ∀ i r, p = .waiting i r → Ev.start i ∉ l') :
    Local comm (reqs ++ l) (log ++ l') p := by
  have mm : ∀ e, e ∈ log → e ∈ log ++ l' := fun e he => List.mem_append_left _ he
  cases p with
  | idle => trivial
  | waiting i r =>
    refine ⟨getElem?_mono h.1 l, ?_⟩
    intro h'
    rcases List.mem_append.1 h' with h' | h'
    · exact h.2 h'
    · exact hw i r rfl h'
  | install i r => exact getElem?_mono h l
  | raw0 i r => exact getElem?_mono h l
  | raw1 i r => exact getElem?_mono h l
  | raw2 i r => exact ⟨getElem?_mono h.1 l, h.2⟩
  | raw3 i r => exact getElem?_mono h l
  | raw4 i r st =>
    refine ⟨getElem?_mono h.1 l, ?_⟩
    rcases h.2 with h' | h' | h'
    · exact .inl h'
    · exact .inr (.inl ⟨h'.1, mm _ h'.2⟩)
    · exact .inr (.inr (mm _ h'))
  | uninstall i r st =>
    refine ⟨getElem?_mono h.1 l, ?_⟩
    rcases h.2 with h' | h' | h' | h'
    · exact .inl h'
    · exact .inr (.inl h')
    · exact .inr (.inr (.inl ⟨h'.1, mm _ h'.2⟩))
    · exact .inr (.inr (.inr (mm _ h')))
  | data0 i d =>
    obtain ⟨r, h1, h2, h3⟩ := h
    exact ⟨r, getElem?_mono h1 l, h2, mm _ h3⟩
  | data1 i d b =>
    obtain ⟨r, h1, h2, h3, h4⟩ := h
    exact ⟨r, getElem?_mono h1 l, h2, mm _ h3, h4⟩
  | data2 i d n e =>
    obtain ⟨r, b, h1, h2, h3, h4, h5, h6, h7⟩ := h
    exact ⟨r, b, getElem?_mono h1 l, h2, mm _ h3, h4, h5, h6, mm _ h7⟩
  | data3 i n =>
    obtain ⟨r, d, b, h1, h2, h3, h4, h5⟩ := h
    exact ⟨r, d, b, getElem?_mono h1 l, h2, mm _ h3, h4.mono l', h5⟩
  | data4 i n st =>
    obtain ⟨r, d, b, h1, h2, h3, h4, h5, h6⟩ := h
    refine ⟨r, d, b, getElem?_mono h1 l, h2, mm _ h3, h4.mono l', h5, ?_⟩
    rcases h6 with h6 | h6
    · exact .inl ⟨h6.1, h6.2.mono l'⟩
    · exact .inr (h6.mono l')
  | release i st sent =>
    obtain ⟨r, h1, h2⟩ := h
    exact ⟨r, getElem?_mono h1 l, h2.mono l'⟩

/-- Every event of the history is lawful. -/
def Lawful (comm : Bool) (reqs : List Req) (log : List Ev) : Prop :=
  ∀ a e c, log = a ++ e :: c → EvLaw comm reqs a e

theorem _root_.Cellular.Spec.EvLaw.mono {comm : Bool} {reqs : List Req} {a : List Ev} {e : Ev} (h : EvLaw comm reqs a e)
    (l : List Req) : EvLaw comm (reqs ++ l) a e := by
  cases e with
  | start i => exact ⟨h.1, by have := h.2; simp only [List.length_append]; omega⟩
  | command i text => obtain ⟨r, h1, h2⟩ := h; exact ⟨r, getElem?_mono h1 l, h2⟩
  | data i b n => obtain ⟨r, d, h1, h2⟩ := h; exact ⟨r, d, getElem?_mono h1 l, h2⟩
  | pattern i e n => obtain ⟨r, d, b, h1, h2⟩ := h; exact ⟨r, d, b, getElem?_mono h1 l, h2⟩
  | ret i st sent => obtain ⟨r, h1, h2⟩ := h; exact ⟨r, getElem?_mono h1 l, h2⟩
  | _ => trivial

theorem Lawful.snoc {comm : Bool} {reqs : List Req} {log : List Ev} {e : Ev} (h : Lawful comm reqs log)
    (he : EvLaw comm reqs log e) : Lawful comm reqs (log ++ [e]) := by
  intro a f c hd
  rcases List.eq_nil_or_concat c with rfl | ⟨c', x, rfl⟩
  · have := List.append_inj' hd rfl
    obtain ⟨rfl, h2⟩ := this
    cases h2; exact he
  · rw [List.concat_eq_append, ← List.cons_append, ← List.append_assoc] at hd
    have := (List.append_inj' hd rfl).1
    exact h a f c' this

theorem Lawful.append {comm : Bool} {reqs : List Req} {log l : List Ev} (h : Lawful comm reqs log)
    (he : ∀ e ∈ l, ∀ a, EvLaw comm reqs a e) : Lawful comm reqs (log ++ l) := by
  induction l generalizing log with
  | nil => simpa using h
  | cons e l ih =>
    have : log ++ e :: l = (log ++ [e]) ++ l := by simp
    rw [this]
    exact ih (h.snoc (he e (by simp) _)) (fun f hf => he f (List.mem_cons_of_mem _ hf))

structure Inv3 (comm : Bool) (s : St) : Prop where
  loc : ∀ t, Local comm s.reqs s.log (s.thr t)
  /-- waiting requests have distinct ids -/
  ids : ∀ t u i r r', s.thr t = .waiting i r → s.thr u = .waiting i r' → t = u
  law : Lawful comm s.reqs s.log

theorem inv3_init (comm : Bool) : Inv3 comm init :=
  ⟨fun _ => trivial, by simp [init], by intro a e c h; simp [init] at h⟩

/-- A thread step that is not the start of a request. -/
theorem inv3_move {comm : Bool} {s s' : St} {t : Nat} {p : Thr} (K : Inv3 comm s) (hreqs : s'.reqs = s.reqs)
    (hthr : s'.thr = (s.set t p).thr) (evs : List Ev) (hl : s'.log = s.log ++ evs)
    (hns : ∀ i, Ev.start i ∉ evs) (hnw : ∀ i r, p ≠ .waiting i r) (hp : Local comm s.reqs s'.log p)
    (hlaw : Lawful comm s.reqs s'.log) : Inv3 comm s' := by
  refine ⟨?_, ?_, by rw [hreqs]; exact hlaw⟩
  · intro u
    rw [hthr, hreqs]
    simp only [St.set]
    by_cases hu : u = t
    · simp only [hu, if_true]; exact hp
    · simp only [hu, if_false]; rw [hl]
      have := (K.loc u).mono [] evs (fun i _ _ => hns i)
      simpa using this
  · intro u v i r r'
    rw [hthr]
    simp only [St.set]
    by_cases hu : u = t
    · simp only [hu, if_true]; intro h; exact absurd h (hnw i r)
    · by_cases hv : v = t
      · simp only [hv, if_true]; intro _ h; exact absurd h (hnw i r')
      · simp only [hu, hv, if_false]; exact K.ids u v i r r'

theorem sendCheck_refused {comm : Bool} {text : Str} {r : Req} {e : PktStatus} (h : sendCheck comm text r = .error e) :
    Refused comm r text e := by
  unfold sendCheck at h
  split at h
  · rename_i hc; cases h; exact .inl ⟨hc, rfl⟩
  · rename_i hc
    have hc : comm = true := by simpa using hc
    split at h
    · rename_i hl; cases h; exact .inr ⟨hc, rfl, .inl hl⟩
    · split at h
      · cases h
      · rename_i hp
        cases h
        refine .inr ⟨hc, rfl, .inr ?_⟩
        unfold prefixFor at hp
        split at hp <;> simp_all

theorem sendCheck_ok {comm : Bool} {text : Str} {r : Req} {p : Option Str} (h : sendCheck comm text r = .ok p) :
    ∀ st, ¬ Refused comm r text st := by
  unfold sendCheck at h
  split at h
  · cases h
  · rename_i hc
    split at h
    · cases h
    · rename_i hl
      split at h
      · rename_i hp
        rintro st (⟨h1, _⟩ | ⟨_, _, h3⟩)
        · exact hc h1
        · rcases h3 with h3 | h3 | ⟨h3, h4 | h4 | h4⟩
          · exact hl h3
          · rw [h3] at hp; simp [prefixFor] at hp
          · rw [h3, h4] at hp; simp [prefixFor] at hp
          · rw [h3, h4] at hp; simp [prefixFor] at hp
          · rw [h3, h4] at hp; simp [prefixFor] at hp
      · cases h

theorem inv3_thr {comm : Bool} {t : Nat} {s s' : St} (h : ThrStep comm t s s') (K : Inv3 comm s) : Inv3 comm s' := by
  have hloc := K.loc t
  have mm : ∀ (e f : Ev), e ∈ s.log → e ∈ s.log ++ [f] := fun e f he => List.mem_append_left _ he
  cases h with
  | call r h =>
    refine ⟨?_, ?_, fun a e c h => (K.law a e c h).mono [r]⟩
    · intro u
      simp only [St.set]
      by_cases hu : u = t
      · simp only [hu, if_true]
        refine ⟨by simp, ?_⟩
        intro hm
        obtain ⟨a, c, hd⟩ := List.append_of_mem hm
        have := (K.law a _ c hd).2
        exact Nat.lt_irrefl _ this
      · simp only [hu, if_false]
        have := (K.loc u).mono [r] [] (by simp)
        simpa using this
    · have hlt : ∀ u i r, s.thr u = .waiting i r → i < s.reqs.length := by
        intro u i r' hu
        have := K.loc u
        rw [hu] at this
        rcases Nat.lt_or_ge i s.reqs.length with h' | h'
        · exact h'
        · have h1 := this.1
          rw [List.getElem?_eq_none h'] at h1; cases h1
      intro u v i r1 r2
      simp only [St.set]
      by_cases hu : u = t
      · by_cases hv : v = t
        · intro _ _; rw [hu, hv]
        · simp only [hu, hv, if_true, if_false]
          intro h1 h2
          cases h1
          exact absurd (hlt v _ r2 h2) (Nat.lt_irrefl _)
      · by_cases hv : v = t
        · simp only [hu, hv, if_true, if_false]
          intro h1 h2
          cases h2
          exact absurd (hlt u _ r1 h1) (Nat.lt_irrefl _)
        · simp only [hu, hv, if_false]; exact K.ids u v i r1 r2
  | acquire i r h hm =>
    rw [h] at hloc
    refine ⟨?_, ?_, ?_⟩
    · intro u
      simp only [St.set, St.emit]
      by_cases hu : u = t
      · simp only [hu, if_true]; exact hloc.1
      · simp only [hu, if_false]
        have := (K.loc u).mono [] [.start i] (by
          intro j r' hj hmem
          simp only [List.mem_singleton, Ev.start.injEq] at hmem
          rw [hmem] at hj
          exact hu (K.ids u t i r' r hj h))
        simpa using this
    · intro u v j r1 r2
      simp only [St.set, St.emit]
      by_cases hu : u = t
      · simp [hu]
      · by_cases hv : v = t
        · simp [hv]
        · simp only [hu, hv, if_false]; exact K.ids u v j r1 r2
    · refine K.law.snoc ⟨hloc.2, ?_⟩
      rcases Nat.lt_or_ge i s.reqs.length with h' | h'
      · exact h'
      · have h1 := hloc.1
        rw [List.getElem?_eq_none h'] at h1; cases h1
  | install i r h =>
    rw [h] at hloc
    exact inv3_move (p := .raw0 i r) K rfl rfl [] (List.append_nil _).symm (by simp) (by simp) hloc K.law
  | raw0null i r h hc =>
    rw [h] at hloc
    exact inv3_move (p := .uninstall i r .badRequest) K rfl rfl [] (List.append_nil _).symm (by simp) (by simp)
      ⟨hloc, .inl ⟨hc, rfl⟩⟩ K.law
  | raw0 i r text h hc =>
    rw [h] at hloc
    exact inv3_move (p := .raw1 i r) K rfl rfl [] (List.append_nil _).symm (by simp) (by simp) hloc K.law
  | raw1fail i r text e h hc he =>
    rw [h] at hloc
    exact inv3_move (p := .raw4 i r e) K rfl rfl [] (List.append_nil _).symm (by simp) (by simp)
      ⟨hloc, .inl ⟨text, hc, sendCheck_refused he⟩⟩ K.law
  | raw1 i r text p h hc he =>
    rw [h] at hloc
    refine inv3_move (p := .raw2 i r) K rfl rfl [] (List.append_nil _).symm (by simp) (by simp)
      ⟨hloc, ?_⟩ K.law
    intro text' ht; rw [hc] at ht; cases ht; exact sendCheck_ok he
  | raw2 i r text h hc =>
    rw [h] at hloc
    exact inv3_move (p := .raw3 i r) K rfl rfl [.command i text] rfl (by simp) (by simp) hloc.1
      (K.law.snoc ⟨r, hloc.1, hc, hloc.2 text hc⟩)
  | raw3got i r st h hq =>
    rw [h] at hloc
    exact inv3_move (p := .raw4 i r st) K rfl rfl [.got i st] rfl (by simp) (by simp)
      ⟨hloc, .inr (.inr (by simp [St.emit]))⟩ (K.law.snoc trivial)
  | raw3timeout i r h hq =>
    rw [h] at hloc
    exact inv3_move (p := .raw4 i r .timedOut) K rfl rfl [.timeout i] rfl (by simp) (by simp)
      ⟨hloc, .inr (.inl ⟨rfl, by simp [St.emit]⟩)⟩ (K.law.snoc trivial)
  | raw4 i r st h =>
    rw [h] at hloc
    exact inv3_move (p := .uninstall i r st) K rfl rfl [] (List.append_nil _).symm (by simp) (by simp)
      ⟨hloc.1, .inr hloc.2⟩ K.law
  | uninstall i r st h =>
    rw [h] at hloc
    refine inv3_move (p := afterRaw i r.kind.data st) K rfl rfl [] (List.append_nil _).symm (by simp) ?_ ?_ K.law
    · unfold afterRaw; split <;> simp
    · show Local comm s.reqs s.log _
      unfold afterRaw
      split
      · rename_i d hd
        refine ⟨r, hloc.1, hd, ?_⟩
        rcases hloc.2 with ⟨_, h'⟩ | ⟨text, hc, h'⟩ | ⟨h', _⟩ | h'
        · cases h'
        · rcases h' with ⟨_, h'⟩ | ⟨_, h', _⟩ <;> cases h'
        · cases h'
        · exact h'
      · rename_i hd
        refine ⟨r, hloc.1, ?_⟩
        rcases hloc.2 with ⟨hc, rfl⟩ | ⟨text, hc, h'⟩ | ⟨rfl, h'⟩ | h'
        · exact .noText hc
        · exact .refused text _ hc h'
        · exact .timeout h'
        · refine .answered _ h' ?_
          cases hk : r.kind.data with
          | none => exact .inl fun d hd => by rw [sendsData_iff, hk] at hd; cases hd
          | some d => right; intro e; exact hd d hk e
  | data0null i d h hd =>
    rw [h] at hloc
    obtain ⟨r, h1, h2, h3⟩ := hloc
    exact inv3_move (p := .release i .badRequest none) K rfl rfl [] (List.append_nil _).symm (by simp) (by simp)
      ⟨r, h1, .noData d h3 ((sendsData_iff _ _).2 h2) hd⟩ K.law
  | data0 i d b h hd hp =>
    rw [h] at hloc
    obtain ⟨r, h1, h2, h3⟩ := hloc
    exact inv3_move (p := .data1 i d b) K rfl rfl [] (List.append_nil _).symm (by simp) (by simp)
      ⟨r, h1, h2, h3, hd⟩ K.law
  | data1 i d b n h hn =>
    rw [h] at hloc
    obtain ⟨r, h1, h2, h3, h4⟩ := hloc
    subst hn
    refine inv3_move (p := afterData i d b.length) K rfl rfl [.data i b b.length] rfl (by simp) ?_ ?_
      (K.law.snoc ⟨r, d, h1, (sendsData_iff _ _).2 h2, h4, h3⟩)
    · unfold afterData; split <;> simp
    · unfold afterData
      split
      · rename_i e hp
        exact ⟨r, b, h1, h2, mm _ _ h3, h4, hp, rfl, by simp [St.emit]⟩
      · rename_i hp
        exact ⟨r, d, b, h1, h2, mm _ _ h3, ⟨h4, by simp [St.emit], by simp [hp]⟩, rfl⟩
  | data1short i d b n h hn =>
    rw [h] at hloc
    obtain ⟨r, h1, h2, h3, h4⟩ := hloc
    refine inv3_move (p := .release i .sendError (some n)) K rfl rfl [.data i b n, .sendError i]
      (by simp [St.set, St.emit]) (by simp) (by simp) ?_
      ((K.law.snoc (e := .data i b n) ⟨r, d, h1, (sendsData_iff _ _).2 h2, h4, h3⟩).snoc trivial)
    refine ⟨r, h1, .dataShort d b n ((sendsData_iff _ _).2 h2) h4 ?_ ?_ hn ?_⟩
    · simp only [St.emit, St.set]; simp [h3]
    · simp [St.emit]
    · simp [St.emit]
  | data2 i d n e k h hk =>
    rw [h] at hloc
    obtain ⟨r, b, h1, h2, h3, h4, h5, h6, h7⟩ := hloc
    subst hk
    refine inv3_move (p := .data3 i n) K rfl rfl [.pattern i e e.length] rfl (by simp) (by simp) ?_
      (K.law.snoc ⟨r, d, b, h1, (sendsData_iff _ _).2 h2, h4, h5, h7⟩)
    refine ⟨r, d, b, h1, h2, mm _ _ h3, ⟨h4, mm _ _ h7, ?_⟩, h6⟩
    intro e' he'
    rw [h5] at he'; cases he'
    exact After.snoc h7
  | data2short i d n e k h hk =>
    rw [h] at hloc
    obtain ⟨r, b, h1, h2, h3, h4, h5, h6, h7⟩ := hloc
    refine inv3_move (p := .release i .sendError (some n)) K rfl rfl [.pattern i e k, .sendError i]
      (by simp [St.set, St.emit]) (by simp) (by simp) ?_
      ((K.law.snoc (e := .pattern i e k) ⟨r, d, b, h1, (sendsData_iff _ _).2 h2, h4, h5, h7⟩).snoc trivial)
    refine ⟨r, h1, ?_⟩
    rw [h6]
    refine .patternShort d b e k ((sendsData_iff _ _).2 h2) h4 h5 ?_ ?_ hk ?_
    · simp only [St.emit, St.set]; simp [h3]
    · exact (After.snoc (f := .pattern i e k) h7).mono [.sendError i]
    · simp [St.emit]
  | data3got i n st h hq =>
    rw [h] at hloc
    obtain ⟨r, d, b, h1, h2, h3, h4, h5⟩ := hloc
    exact inv3_move (p := .data4 i n st) K rfl rfl [.got i st] rfl (by simp) (by simp)
      ⟨r, d, b, h1, h2, mm _ _ h3, h4.mono _, h5, .inr (After.snoc h4.2.1)⟩ (K.law.snoc trivial)
  | data3timeout i n h hq =>
    rw [h] at hloc
    obtain ⟨r, d, b, h1, h2, h3, h4, h5⟩ := hloc
    exact inv3_move (p := .data4 i n .timedOut) K rfl rfl [.timeout i] rfl (by simp) (by simp)
      ⟨r, d, b, h1, h2, mm _ _ h3, h4.mono _, h5, .inl ⟨rfl, After.snoc h4.2.1⟩⟩ (K.law.snoc trivial)
  | data4 i n st h =>
    rw [h] at hloc
    obtain ⟨r, d, b, h1, h2, h3, h4, h5, h6⟩ := hloc
    refine inv3_move (p := .release i st (some n)) K rfl rfl [] (List.append_nil _).symm (by simp) (by simp)
      ⟨r, h1, ?_⟩ K.law
    rw [h5]
    rcases h6 with ⟨rfl, h6⟩ | h6
    · exact .dataTimeout d b ((sendsData_iff _ _).2 h2) h3 h4 h6
    · exact .dataAnswered d b st ((sendsData_iff _ _).2 h2) h3 h4 h6
  | release i st sent h =>
    rw [h] at hloc
    obtain ⟨r, h1, h2⟩ := hloc
    exact inv3_move (p := .idle) K rfl rfl [.ret i st sent] rfl (by simp) (by simp) trivial
      (K.law.snoc ⟨r, h1, h2⟩)

/-- Events that are no business of `EvLaw`. -/
theorem inv3_rx_move {comm : Bool} {s s' : St} (K : Inv3 comm s) (hreqs : s'.reqs = s.reqs)
    (hthr : s'.thr = s.thr) (evs : List Ev) (hl : s'.log = s.log ++ evs)
    (he : ∀ e ∈ evs, ∀ a, EvLaw comm s.reqs a e) (hns : ∀ i, Ev.start i ∉ evs) : Inv3 comm s' := by
  refine ⟨?_, by rw [hthr]; exact K.ids, by rw [hreqs, hl]; exact K.law.append he⟩
  intro u
  rw [hthr, hreqs, hl]
  have := (K.loc u).mono [] evs (fun i _ _ => hns i)
  simpa using this

theorem consult_law {comm : Bool} {reqs : List Req} {s : St} {n : Nat} :
    (∀ e ∈ consult s n, ∀ a, EvLaw comm reqs a e) ∧ ∀ i, Ev.start i ∉ consult s n := by
  unfold consult; split <;> simp [EvLaw]

theorem fetched_law {comm : Bool} {reqs : List Req} {o : Option Nat} :
    (∀ e ∈ fetchedBy o, ∀ a, EvLaw comm reqs a e) ∧ ∀ i, Ev.start i ∉ fetchedBy o := by
  cases o <;> simp [fetchedBy, EvLaw]

theorem inv3_rx {cfg : Cfg} {comm : Bool} {s s' : St} (h : RxStep cfg s s') (K : Inv3 comm s) : Inv3 comm s' := by
  cases h with
  | fetch n h =>
    refine inv3_rx_move K rfl rfl (fetchedBy s.recvCb ++ fetchedBy s.sendCb) (by simp [List.append_assoc]) ?_ ?_
    · intro e he
      rcases List.mem_append.1 he with he | he
      · exact fetched_law.1 e he
      · exact fetched_law.1 e he
    · intro i he
      rcases List.mem_append.1 he with he | he
      · exact (fetched_law (comm := comm) (reqs := s.reqs)).2 i he
      · exact (fetched_law (comm := comm) (reqs := s.reqs)).2 i he
  | procDone n t r h hp =>
    refine inv3_rx_move K rfl rfl (consult s n ++ [.final r.status n]) (by simp [List.append_assoc]) ?_ ?_
    · intro e he
      rcases List.mem_append.1 he with he | he
      · exact consult_law.1 e he
      · simp only [List.mem_singleton] at he; subst he; intro a; trivial
    · intro i he
      rcases List.mem_append.1 he with he | he
      · exact (consult_law (comm := comm) (reqs := s.reqs)).2 i he
      · simp at he
  | procPending n t st r h hp hs =>
    exact inv3_rx_move K rfl rfl (consult s n) rfl consult_law.1 (consult_law (comm := comm) (reqs := s.reqs)).2
  | procUndef n t st r h hp hs =>
    exact inv3_rx_move K rfl rfl (consult s n) rfl consult_law.1 (consult_law (comm := comm) (reqs := s.reqs)).2
  | receive | preSend | preRecv | callNull | callback =>
    exact inv3_rx_move K rfl rfl [_] rfl (by simp [EvLaw]) (by simp)
  | _ =>
    exact inv3_rx_move K rfl rfl [] (List.append_nil _).symm (by simp) (by simp)

theorem inv3_reachable {cfg : Cfg} {comm : Bool} {s : St} (h : Reachable cfg comm s) : Inv3 comm s := by
  induction h with
  | init => exact inv3_init comm
  | step _ hs ih =>
    cases hs with
    | thr t h => exact inv3_thr h ih
    | rx h => exact inv3_rx h ih

end Cellular.ConcLemmas
