import Verif.PktioRecv
import Verif.UrcTight
/-!
# From bytes to the port's callbacks: `_Cellular_HandlePacket` (C72)

The packet handler registered by the library (`_Cellular_PktioInit( pContext, _Cellular_HandlePacket )`,
cellular_common.c:196) receives every message found in the stream.  `Verif.Pktio` records these calls as events;
here they are followed to the functions the modem port and the application have registered.
-/

namespace Cellular.Dispatch
open Cellular Cellular.Pktio Cellular.Urc

/-- What the packet handler uses of the port: the table of unsolicited result codes, the callback of undefined
messages if one is registered, and the C library's `strtok_r` (see `Urc.strtokR`). -/
structure Port where
  table : List Entry
  undef : Option (Str → PktStatus)
  endNull : Bool

/-- `_Cellular_HandlePacket`, cellular_pkthandler.c:519-558: status and calls.  The heap is not exhausted; a
response goes to the queue of the waiting task (see `Verif.Conc`) and calls nothing. -/
def handlePacket (P : Port) : Event → Option (PktStatus × List Call)
  | .urc l => processUrcPacket P.endNull true P.table l
  | .undefined l => some (handleUndefinedMessage P.undef l)
  | .response _ _ => some (.ok, [])

/-- The calls made for a sequence of messages. -/
def callsOf (P : Port) : List Event → Option (List Call)
  | [] => some []
  | e :: es =>
    match handlePacket P e, callsOf P es with
    | some r, some cs => some (r.2 ++ cs)
    | _, _ => none

/-- The receiver uses this packet handler: what it is told about undefined messages is what
`_Cellular_HandlePacket` returns for them. -/
def Uses (cfg : Cfg) (P : Port) : Prop := ∀ l, (handlePacket P (.undefined l)).map (·.1) = some (cfg.undefCb l)

end Cellular.Dispatch

namespace Cellular.Spec
open Cellular Cellular.Pktio Cellular.Urc Cellular.Dispatch Cellular.Props

/-- What the registered functions must be called with for one line nobody waits for. -/
inductive Delivered (cfg : Cfg) (P : Port) : Str → List Call → Prop
  /-- `+NAME:payload` with a function registered for NAME: it gets the payload. -/
  | named {name payload h} : (∀ b ∈ name, PrefixChar b) → ⟨name, some h⟩ ∈ P.table →
      Delivered cfg P (43 :: name ++ 58 :: payload) [.handler h payload]
  /-- `+NAME:payload` with NAME registered without a function. -/
  | ignored {name payload} : (∀ b ∈ name, PrefixChar b) → ⟨name, none⟩ ∈ P.table →
      Delivered cfg P (43 :: name ++ 58 :: payload) []
  /-- `+NAME:payload` and NAME is not registered: the generic callback gets the line. -/
  | unnamed {name payload} : (∀ b ∈ name, PrefixChar b) → (∀ e ∈ P.table, e.name ≠ name) →
      Delivered cfg P (43 :: name ++ 58 :: payload) [.generic (43 :: name ++ 58 :: payload)]
  /-- A listed code without prefix, with a function registered for it. -/
  | listed {l h} : ¬ Prefixed l → Listed cfg l → ⟨l, some h⟩ ∈ P.table → Delivered cfg P l [.handler h l]
  | listedIgnored {l} : ¬ Prefixed l → Listed cfg l → ⟨l, none⟩ ∈ P.table → Delivered cfg P l []
  | listedUnnamed {l} : ¬ Prefixed l → Listed cfg l → (∀ e ∈ P.table, e.name ≠ l) →
      Delivered cfg P l [.generic l]
  /-- Anything else goes to the callback of undefined messages. -/
  | undefined {l} : ¬ Prefixed l → ¬ Listed cfg l → Delivered cfg P l [.undefinedMsg l]

end Cellular.Spec

namespace Cellular.Props
open Cellular Cellular.Spec Cellular.Pktio Cellular.Urc Cellular.Dispatch

/-- A line the theorems below cover: of at most 256 characters, and not beginning with `+:` (see the witnesses
of C21). -/
def Tame (l : Str) : Prop := NoNul l ∧ l ≠ [] ∧ l.length ≤ 256 ∧ ¬ ∃ r, l = 43 :: 58 :: r

theorem expected_cases (t : List Entry) (name arg line : Str) :
    (∃ h, ⟨name, some h⟩ ∈ t ∧ (expectedDelivery t name arg line).2 = [.handler h arg]) ∨
    (⟨name, none⟩ ∈ t ∧ (expectedDelivery t name arg line).2 = []) ∨
    ((∀ e ∈ t, e.name ≠ name) ∧ (expectedDelivery t name arg line).2 = [.generic line]) := by
  unfold expectedDelivery
  cases hf : t.find? (fun e => e.name == name) with
  | none =>
    refine Or.inr (Or.inr ⟨fun e he hn => ?_, rfl⟩)
    have := List.find?_eq_none.mp hf e he
    simp [hn] at this
  | some e =>
    have h1 := List.mem_of_find?_eq_some hf
    have h2 : e.name = name := by
      have := List.find?_some hf
      simpa using this
    obtain ⟨n, h⟩ := e
    simp only [] at h2
    subst h2
    cases h with
    | none => exact Or.inr (Or.inl ⟨h1, rfl⟩)
    | some h => exact Or.inl ⟨h, h1, rfl⟩

/-- One message about a line nobody waits for reaches exactly the function it is meant for. -/
theorem handlePacket_delivered {cfg : Cfg} {P : Port} (hok : atParseInit (some P.table) = .ok) {l : Str} {e : Event}
    (ht : Tame l) (hcb : ¬ UrcLike cfg l → P.undef ≠ none) (he : HandedOver cfg l e) :
    ∃ st cs, handlePacket P e = some (st, cs) ∧ Delivered cfg P l cs := by
  obtain ⟨hnul, hne, hlen, hcol⟩ := ht
  rcases he with ⟨rfl, hu⟩ | ⟨rfl, hu⟩
  · by_cases hp : Prefixed l
    · obtain ⟨name, rest, rfl, hch⟩ := hp
      have hn0 : name ≠ [] := by
        rintro rfl
        exact hcol ⟨rest, rfl⟩
      have hrest : NoNul rest := fun b hb => hnul b (by simp [hb])
      have := C21_prefixed_urc_delivery_partial P.endNull P.table hok name rest hch hn0 hrest hlen
      refine ⟨(expectedDelivery P.table name rest (43 :: name ++ 58 :: rest)).1,
        (expectedDelivery P.table name rest (43 :: name ++ 58 :: rest)).2, this, ?_⟩
      rcases expected_cases P.table name rest (43 :: name ++ 58 :: rest) with ⟨h, h1, h2⟩ | ⟨h1, h2⟩ | ⟨h1, h2⟩
      · rw [h2]; exact .named hch h1
      · rw [h2]; exact .ignored hch h1
      · rw [h2]; exact .unnamed hch h1
    · have hli : Listed cfg l := by
        rcases hu with h | h
        · exact h
        · exact absurd h.1 hp
      have h1 : 1 ≤ l.length := by
        cases l with
        | nil => exact absurd rfl hne
        | cons _ _ => simp
      have := C21_plain_urc_delivery P.endNull P.table hok l hnul h1 hlen hp
      refine ⟨(expectedDelivery P.table l l l).1, (expectedDelivery P.table l l l).2, this, ?_⟩
      rcases expected_cases P.table l l l with ⟨h, h1, h2⟩ | ⟨h1, h2⟩ | ⟨h1, h2⟩
      · rw [h2]; exact .listed hp hli h1
      · rw [h2]; exact .listedIgnored hp hli h1
      · rw [h2]; exact .listedUnnamed hp hli h1
  · have hp : ¬ Prefixed l := fun h => hu (Or.inr ⟨h, hlen⟩)
    have hli : ¬ Listed cfg l := fun h => hu (Or.inl h)
    have hc := hcb hu
    cases hd : P.undef with
    | none => exact absurd hd hc
    | some f => exact ⟨(if f l = .ok then .ok else .invalidData), _,
        by simp only [handlePacket, hd, handleUndefinedMessage], .undefined hp hli⟩

theorem callsOf_delivered {cfg : Cfg} {P : Port} (hok : atParseInit (some P.table) = .ok) : ∀ {ls : List Str}
    {evs : List Event}, List.Forall₂ (HandedOver cfg) ls evs →
    (∀ l ∈ ls, Tame l ∧ (¬ UrcLike cfg l → P.undef ≠ none)) →
    ∃ css, callsOf P evs = some css.flatten ∧ List.Forall₂ (Delivered cfg P) ls css := by
  intro ls evs h
  induction h with
  | nil => intro _; exact ⟨[], rfl, .nil⟩
  | @cons l e ls es hd _ ih =>
    intro hl
    obtain ⟨h1, h2⟩ := hl l (by simp)
    obtain ⟨st, cs, e1, d1⟩ := handlePacket_delivered hok h1 h2 hd
    obtain ⟨css, e2, d2⟩ := ih (fun x hx => hl x (by simp [hx]))
    refine ⟨cs :: css, ?_, .cons d1 d2⟩
    simp [callsOf, e1, e2]

theorem linesFrom_noNul : ∀ (t cur : Str), NoNul cur → ∀ l ∈ (linesFrom cur t).1, NoNul l := by
  intro t
  induction t with
  | nil => intro cur _ l hl; simp [linesFrom] at hl
  | cons b t ih =>
    intro cur hc l hl
    have h0 : NoNul ([] : Str) := by intro b hb; cases hb
    simp only [linesFrom] at hl
    split at hl
    · split at hl
      · exact ih _ h0 l hl
      · rcases List.mem_cons.mp hl with rfl | hl
        · exact hc
        · exact ih _ h0 l hl
    · rename_i hb
      refine ih _ ?_ l hl
      intro x hx
      rcases List.mem_append.mp hx with hx | hx
      · exact hc x hx
      · simp only [List.mem_cons, List.not_mem_nil, or_false] at hx
        subst hx
        intro h
        exact hb (Or.inr (Or.inr h))

theorem uses_ok {cfg : Cfg} {P : Port} (hu : Uses cfg P) (l : Str) :
    cfg.undefCb l = .ok ↔ ∃ f, P.undef = some f ∧ f l = .ok := by
  have h := hu l
  simp only [handlePacket, Option.map_some, Option.some.injEq] at h
  rw [← h]
  unfold handleUndefinedMessage
  cases P.undef with
  | none => simp
  | some f =>
    simp only [Option.some.injEq, exists_eq_left']
    split
    · simp [*]
    · simp [*]

/-- While no command is pending, whatever bytes the modem sends and however they are cut into reads, of any total
length: for every complete line, in order, exactly the function meant for it is called, exactly once, with
the right text - the function registered for the name of a result code (with what follows the colon), the
generic callback (with the whole line), or the callback of undefined messages (with the whole line) - and
nothing else is called.
Missing: lines longer than 256 characters or than the buffer, lines beginning with `+:`, exhausted heap
(witnesses of C10 and C21), and undefined lines the port refuses (`C72_refused` below). -/
theorem C72_callbacks_partial (cfg : Cfg) (P : Port) (s s' : St) (chunks : List Str)
    (hok : atParseInit (some P.table) = .ok) (hu : Uses cfg P)
    (hi : RxInv cfg s) (hpl : Plain cfg s) (hq : Quiet s) (hc : s.cmd = .noCommand) (hp : s.pfx = none)
    (hR : Reads cfg s chunks s')
    (hlines : ∀ l ∈ linesOf chunks.flatten, l.length < cfg.size ∧ l.length ≤ 256 ∧ (¬ ∃ r, l = 43 :: 58 :: r) ∧
      (¬ UrcLike cfg l → ∃ f, P.undef = some f ∧ f l = .ok))
    (hlast : (unfinished chunks.flatten).length < cfg.size) :
    ∃ evs css, s'.events = s.events ++ evs ∧ callsOf P evs = some css.flatten ∧
      List.Forall₂ (Delivered cfg P) (linesOf chunks.flatten) css := by
  obtain ⟨evs, h1, h2, _⟩ := C10_lines_delivered_partial cfg s s' chunks hi hpl hq hc hp hR
    (fun l hl => by
      obtain ⟨a1, _, _, a4⟩ := hlines l hl
      refine ⟨a1, ?_⟩
      by_cases hul : UrcLike cfg l
      · exact Or.inl hul
      · exact Or.inr ((uses_ok hu l).mpr (a4 hul))) hlast
  obtain ⟨css, h3, h4⟩ := callsOf_delivered hok h2 (fun l hl => by
    obtain ⟨_, a2, a3, a4⟩ := hlines l hl
    refine ⟨⟨linesFrom_noNul _ _ (by intro b hb; cases hb) l hl, linesFrom_ne_nil _ _ l hl, a2, a3⟩, ?_⟩
    intro hul
    obtain ⟨f, hf, _⟩ := a4 hul
    simp [hf])
  exact ⟨evs, css, h1, h3, h4⟩

theorem feed_refused {cfg : Cfg} : ∀ {pre : List Str} {a a1 : Rx} {l : Str} {post : List Str} {cur : Str},
    Rx.run cfg a pre = some a1 → a1.line cfg l = none →
    Rx.feed cfg a (pre ++ l :: post) cur = (a1.dropped l, []) := by
  intro pre
  induction pre with
  | nil =>
    intro a a1 l post cur h1 h2
    cases h1
    simp [Rx.feed, h2]
  | cons x pre ih =>
    intro a a1 l post cur h1 h2
    simp only [Rx.run] at h1
    simp only [List.cons_append, Rx.feed]
    cases hx : a.line cfg x with
    | none => rw [hx] at h1; cases h1
    | some b =>
      rw [hx] at h1
      exact ih h1 h2

theorem callsOf_append {P : Port} : ∀ (a b : List Event) (x y : List Call), callsOf P a = some x →
    callsOf P b = some y → callsOf P (a ++ b) = some (x ++ y) := by
  intro a
  induction a with
  | nil => intro b x y h1 h2; cases h1; simpa using h2
  | cons e a ih =>
    intro b x y h1 h2
    simp only [callsOf, List.cons_append] at h1 ⊢
    cases hh : handlePacket P e with
    | none => rw [hh] at h1; simp at h1
    | some r =>
      rw [hh] at h1
      cases hcs : callsOf P a with
      | none => rw [hcs] at h1; simp at h1
      | some cs =>
        rw [hcs] at h1
        cases h1
        rw [ih b cs y hcs h2]
        simp

/-- While a command is pending: for every unsolicited result code that comes between the lines of its response, in
order, exactly the function meant for it is called, exactly once; the lines of the response and its final
line - which go to the waiting task - call nothing.
Missing: as in `C15_response_partial` and `C72_callbacks_partial`. -/
theorem C72_pending_partial (cfg : Cfg) (P : Port) (s s' : St) (chunks : List Str) (body : List (Bool × Str))
    (final : Str) (hok : atParseInit (some P.table) = .ok) (hi : RxInv cfg s) (hpl : Plain cfg s) (hq : Quiet s)
    (hc : s.cmd ≠ .noCommand) (hp : ∀ k, s.pfx = some k → k ≠ [] ∧ k.length ≤ 256)
    (he : cfg.err ≠ none) (hsu : cfg.succ ≠ none)
    (hR : ReadsOk cfg s chunks s')
    (hlines : linesOf chunks.flatten = body.map (·.2) ++ [final])
    (hm : Mixed cfg s.cmd s.pfx body)
    (hf : final.length ≤ 256 ∧ Final cfg s.cmd s.pfx final)
    (ht : Multi s.cmd ∨ (Single s.cmd ∧ (mine body).length ≤ 1) ∨
      (s.cmd = .noResult ∧ mine body = []))
    (hcol : ∀ l ∈ others body, ¬ ∃ r, l = 43 :: 58 :: r) :
    ∃ evs css st, s'.events = s.events ++ evs ∧ evs.getLast? = some (.response st (mine body)) ∧
      (st = true ↔ Success cfg final) ∧ callsOf P evs = some css.flatten ∧
      List.Forall₂ (Delivered cfg P) (others body) css := by
  obtain ⟨st, h1, h2, _, _⟩ := C15_response_partial cfg s s' chunks body final hi hpl hq hc hp he hsu hR hlines hm hf ht
  have hoth : ∀ l ∈ others body, l ∈ linesOf chunks.flatten ∧ l.length ≤ 256 ∧ ForOthers cfg s.cmd s.pfx l := by
    intro l hl
    unfold others at hl
    obtain ⟨x, hx, rfl⟩ := List.mem_map.mp hl
    obtain ⟨hx, hb⟩ := List.mem_filter.mp hx
    obtain ⟨b, l⟩ := x
    cases b with
    | true => simp at hb
    | false =>
      obtain ⟨_, g2, _, g4⟩ := hm (false, l) hx
      refine ⟨?_, g2 rfl, g4 rfl⟩
      rw [hlines]
      exact List.mem_append_left _ (List.mem_map.mpr ⟨_, hx, rfl⟩)
  have hall : ∀ ls : List Str, (∀ l ∈ ls, l.length ≤ 256 ∧ ForOthers cfg s.cmd s.pfx l) →
      List.Forall₂ (HandedOver cfg) ls (ls.map .urc) := by
    intro ls
    induction ls with
    | nil => intro _; exact .nil
    | cons l ls ih =>
      intro h
      obtain ⟨g1, g2⟩ := h l (by simp)
      refine .cons (Or.inl ⟨rfl, ?_⟩) (ih fun x hx => h x (by simp [hx]))
      rcases g2 with g | ⟨g, _⟩
      · exact Or.inl g
      · exact Or.inr ⟨g, g1⟩
  obtain ⟨css, h3, h4⟩ := callsOf_delivered hok (hall _ fun l hl => (hoth l hl).2) (fun l hl => by
    obtain ⟨g0, g1, g2⟩ := hoth l hl
    refine ⟨⟨linesFrom_noNul _ _ (by intro b hb; cases hb) l g0, linesFrom_ne_nil _ _ l g0, g1, hcol l hl⟩, ?_⟩
    intro hno
    refine absurd ?_ hno
    rcases g2 with g | ⟨g, _⟩
    · exact Or.inl g
    · exact Or.inr ⟨g, g1⟩)
  refine ⟨(others body).map .urc ++ [.response st (mine body)], css, st, by simp [h1], by simp, h2, ?_, h4⟩
  have := callsOf_append _ [.response st (mine body)] _ [] h3 rfl
  simpa using this

/-- A line that is no result code and that the port's callback refuses - or for which there is none: if there is a
callback it has been called exactly once with the line; the lines before it have been delivered; and everything
behind it in the same read is lost without any call. -/
theorem C72_refused (cfg : Cfg) (P : Port) (s s' : St) (chunk : Str) (pre post : List Str) (l : Str) (k : Nat)
    (hok : atParseInit (some P.table) = .ok) (hu : Uses cfg P)
    (hi : RxInv cfg s) (hpl : Plain cfg s) (hq : Quiet s) (hc : s.cmd = .noCommand) (hp : s.pfx = none)
    (hroom : chunk.length ≤ room cfg s) (he : rxEvent cfg s chunk = some (k, s'))
    (hl : linesOf chunk = pre ++ l :: post)
    (hpre : ∀ x ∈ pre, x.length ≤ 256 ∧ (¬ ∃ r, x = 43 :: 58 :: r) ∧
      (¬ UrcLike cfg x → ∃ f, P.undef = some f ∧ f x = .ok))
    (hno : ¬ UrcLike cfg l) (href : ∀ f, P.undef = some f → f l ≠ .ok) :
    ∃ evs css, s'.events = s.events ++ evs ∧
      callsOf P evs = some (css.flatten ++ if P.undef = none then [] else [.undefinedMsg l]) ∧
      List.Forall₂ (Delivered cfg P) pre css ∧ unread s' = [] ∧ s'.cmd = .noCommand := by
  have hov : ¬ Overflow cfg s ⟨s.cmd, s.pfx, [], s.events⟩ [] := by rintro ⟨_, h | h⟩ <;> exact h rfl
  obtain ⟨k', s1, e1, _, _, hb, _⟩ := rxEvent_refines hi hpl.noCb hq.between hroom hov
  rw [he] at e1
  cases e1
  have hmem : ∀ x ∈ pre ++ l :: post, NoNul x ∧ x ≠ [] := fun x hx => by
    rw [← hl] at hx
    exact ⟨linesFrom_noNul _ _ (by intro b hb; cases hb) x hx, linesFrom_ne_nil _ _ x hx⟩
  obtain ⟨evs, hr, hf⟩ := run_idle (cfg := cfg) (ls := pre) (a := ⟨s.cmd, s.pfx, [], s.events⟩) hc hp (fun x hx => by
    refine ⟨(hmem x (by simp [hx])).2, ?_⟩
    by_cases hul : UrcLike cfg x
    · exact Or.inl hul
    · exact Or.inr ((uses_ok hu x).mpr ((hpre x hx).2.2 hul)))
  have hnot : cfg.undefCb l ≠ .ok := by
    intro h
    obtain ⟨f, h1, h2⟩ := (uses_ok hu l).mp h
    exact href f h1 h2
  have hline : Rx.line cfg ⟨s.cmd, s.pfx, [], s.events ++ evs⟩ l = none := by
    have hm : getMsgType cfg s.cmd s.pfx l = .undefined := by
      rw [hc, hp]
      have hnl := (hmem l (by simp)).2
      by_cases hlen : l.length ≤ 256
      · exact (C14_classification_partial cfg .noCommand none l hnl hlen (by simp)).2.2.mpr
          ⟨fun hx => hno (Or.inl hx), fun hx => hno (Or.inr ⟨hx, hlen⟩), rfl⟩
      · have := C14_witness_long_lines cfg .noCommand none l (by omega) (fun hx => hno (Or.inl hx))
        simpa using this
    simp [Rx.line, hm, Rx.undefinedLine, hnot]
  have hread : Rx.read cfg (⟨s.cmd, s.pfx, [], s.events⟩, []) chunk =
      (Rx.dropped ⟨s.cmd, s.pfx, [], s.events ++ evs⟩ l, []) := by
    simp only [Rx.read]
    rw [show (linesFrom [] chunk).1 = _ from hl]
    exact feed_refused hr hline
  rw [hread] at hb
  obtain ⟨css, h3, h4⟩ := callsOf_delivered hok hf (fun x hx => by
    obtain ⟨a2, a3, a4⟩ := hpre x hx
    refine ⟨⟨(hmem x (by simp [hx])).1, (hmem x (by simp [hx])).2, a2, a3⟩, ?_⟩
    intro hul
    obtain ⟨f, hf, _⟩ := a4 hul
    simp [hf])
  refine ⟨evs ++ [.undefined l], css, by simpa [Rx.dropped] using hb.rep.events, ?_, h4, hb.text, hb.rep.cmd⟩
  refine callsOf_append _ _ _ _ h3 ?_
  cases hd : P.undef with
  | none => simp [callsOf, handlePacket, hd, handleUndefinedMessage]
  | some f => simp [callsOf, handlePacket, hd, handleUndefinedMessage]

/-- A port for the example: `+CREG:` and `RING` have functions, `+NUL:` is registered without one, and undefined
lines beginning with `>` are accepted. -/
def demoPort : Port :=
  { table := [⟨str "CREG", some 7⟩, ⟨str "NUL", none⟩, ⟨str "RING", some 9⟩],
    undef := some (fun l => if l.head? = some 62 then .ok else .failure), endNull := true }

/-- The receiver with this port. -/
def portCfg (size : Nat) : Cfg :=
  { demoCfg size with undefCb := fun l => (handleUndefinedMessage demoPort.undef l).1 }

example : atParseInit (some demoPort.table) = .ok ∧ Uses (portCfg 64) demoPort ∧ RxInv (portCfg 64) (init 64) ∧
    Plain (portCfg 64) (init 64) ∧ Quiet (init 64) ∧
    ((rxRun (portCfg 64) (init 64) [.recv (str "RING\r\n+CREG: 1\r"), .recv (str "\n> x\r\n+X: 2\r\n+NUL: 3\r\n"),
      .recv (str "POWERED DOWN\r\n")]).bind (fun s => callsOf demoPort s.events)) =
      some [.handler 9 (str "RING"), .handler 7 (str " 1"), .undefinedMsg (str "> x"), .generic (str "+X: 2"),
        .generic (str "POWERED DOWN")] ∧
    ((rxRun (portCfg 64) (demoPending 64 .multiWithPrefix (some (str "+CREG")))
        [.recv (str "RING\r\n+CREG: 1\r"), .recv (str "\n+X: 2\r\n+CREG: 3\r\nOK\r\n")]).bind
        (fun s => (callsOf demoPort s.events).map (fun c => (c, s.events.getLast?)))) =
      some ([.handler 9 (str "RING"), .generic (str "+X: 2")],
        some (.response true [str "+CREG: 1", str "+CREG: 3"])) ∧
    ((rxRun (portCfg 64) (init 64) [.recv (str "RING\r\nbad\r\nRING\r\n")]).bind (fun s => callsOf demoPort s.events)) =
      some [.handler 9 (str "RING"), .undefinedMsg (str "bad")] :=
  ⟨by decide +kernel, fun _ => rfl, ⟨⟨by decide, by decide, by simp [init], rfl⟩, by simp [PosIn, init]⟩,
    ⟨rfl, rfl, rfl, fun _ => Nat.le_refl _⟩, ⟨rfl, rfl⟩, by decide +kernel, by decide +kernel, by decide +kernel⟩

end Cellular.Props
