import Verif.WireData
import Verif.Robust
/-!
# C78: data sends over the byte stream
-/

namespace Cellular.Spec
open Cellular Cellular.Pktio Cellular.Wire Cellular.Props
open Cellular.Api (Req Reply)

/-- While the data are pending only a result code is expected. -/
def dataReq : Req := ⟨[], .noResult, none⟩

/-- The modem accepts the command `r` by the prompt `P`, of which the callback makes the line `L`: the lines of the
stream are lines of the response and unsolicited codes, then comes the prompt, without a line end. It does
not occur before. -/
def Prompted (cfg : Cfg) (r : Req) (P : Str) (stream : Str) (ls : List Str) : Prop :=
  ∃ body text, stream = text ++ P ∧ EndsLine text ∧ linesOf text = body.map (·.2) ∧
    Mixed cfg (typeOf r.type) (respPrefix r) body ∧ LineCount r.type (mine body).length ∧
    ¬ P <:+: stream.dropLast ∧ ls = mine body

/-- What the stream read while the command is pending tells the library: the response to the command. -/
def Told (cfg : Cfg) (t : Transfer) (stream : Str) (rep : Reply) : Prop :=
  match t.way with
  | .prompt none => (Answered cfg t.req stream rep ∨ (Silent cfg t.req stream ∧ rep = .timeout)) ∧ EndsLine stream
  | .tokens table => (Answered { cfg with extra := some table } t.req stream rep ∨
      (Silent { cfg with extra := some table } t.req stream ∧ rep = .timeout)) ∧ EndsLine stream
  | .prompt (some f) => ∃ P L, Prompts f P L ∧ L.length ≤ 256 ∧
      Final cfg (typeOf t.req.type) (respPrefix t.req) L ∧ Success cfg L ∧
      ((∃ ls, Prompted cfg t.req P stream ls ∧ rep = .lines ls) ∨
        (¬ P <:+: stream ∧ EndsLine stream ∧
          (Answered cfg t.req stream rep ∨ (Silent cfg t.req stream ∧ rep = .timeout))))

/-- What it tells about the data. -/
def ToldData (cfg : Cfg) (stream : Str) (rep : Reply) : Prop :=
  (Answered cfg dataReq stream rep ∨ (Silent cfg dataReq stream ∧ rep = .timeout)) ∧ EndsLine stream

/-- One transfer of a script: the calls, what is read afterwards, and what the modem means by its bytes. -/
structure Scripted where
  transfer : Transfer
  io : Io
  rest : List Str
  consent : Reply
  result : Reply

/-- The command was accepted: a success result code, and the caller's callback accepts the response. -/
def Scripted.Accepted (x : Scripted) : Prop := ∃ l, x.consent = .lines l ∧ x.transfer.verdict l = .ok

/-- The status reported for a reply. -/
def Means (verdict : List Str → PktStatus) (rep : Reply) (st : PktStatus) : Prop :=
  match rep with
  | .lines l => st = verdict l
  | .error => st = .failure
  | .timeout => st = .timedOut
  | .sendFailed => st = .badParam

/-- What a scripted transfer reports - the status and the number of bytes sent - and what it writes. -/
structure Scripted.Outcome (x : Scripted) (st : PktStatus) (n : Option Nat) (wire : List Str) : Prop where
  accepted : x.Accepted → Means (fun _ => .ok) x.result st ∧ n = x.transfer.data.map (·.length) ∧
    wire = (x.transfer.req.cmd ++ [13]) :: (x.transfer.data.toList ++ x.transfer.pattern.toList)
  refused : ¬ x.Accepted → Means x.transfer.verdict x.consent st ∧ st ≠ .ok ∧ n = none ∧
    wire = [x.transfer.req.cmd ++ [13]]

/-- The modem answers the transfer as the script says, the transport takes all bytes of the data, and what is received fits into the receive
buffer after `n` bytes. -/
structure Scripted.Ok (cfg : Cfg) (n : Nat) (x : Scripted) : Prop where
  req : ValidReq x.transfer.req
  told : Told cfg x.transfer x.io.during.flatten x.consent
  between : EndsLine x.io.between.flatten
  rest : EndsLine x.rest.flatten
  data : ∃ d, x.transfer.data = some d ∧ d.length ≤ x.io.taken
  pattern : ∀ p, x.transfer.pattern = some p → p.length ≤ x.io.takenPattern
  toldData : x.Accepted → ToldData cfg x.io.after.flatten x.result
  fits : n + x.io.during.flatten.length + x.io.between.flatten.length + x.io.after.flatten.length +
    x.rest.flatten.length < cfg.size

/-- The outcomes of a script: reports and the parts of the wire, in order. -/
inductive Outcomes : List Scripted → List (PktStatus × Option Nat) → List Str → Prop
  | nil : Outcomes [] [] []
  | cons {x l st n w os ws} : x.Outcome st n w → Outcomes l os ws → Outcomes (x :: l) ((st, n) :: os) (w ++ ws)

/-- The unread bytes, counted from the last data that were reported about, after a transfer. -/
def Scripted.Next (n : Nat) (x : Scripted) (m : Nat) : Prop :=
  (x.Accepted → m = (if x.result = .timeout then n + x.io.during.flatten.length + x.io.between.flatten.length else 0) +
    x.io.after.flatten.length + x.rest.flatten.length) ∧
  (¬ x.Accepted → m = n + x.io.during.flatten.length + x.rest.flatten.length)

/-- A script of transfers, each of which the modem and the transport serve. -/
inductive Served (cfg : Cfg) : Nat → List Scripted → Prop
  | nil {n} : Served cfg n []
  | cons {n m x l} : x.Ok cfg n → x.Next n m → Served cfg m l → Served cfg n (x :: l)

/-- The transport keeps its contract during a transfer: it never delivers more than it is asked for.  Nothing
else is known about the bytes. -/
structure IoContract (cfg : Cfg) (k : Stack) (t : Transfer) (io : Io) : Prop where
  during : match t.way with
    | .prompt cb => Delivers cfg { waitingFor k.rx t.req with sendCb := cb } io.during
    | .tokens table => Delivers { cfg with extra := some table } (waitingFor k.rx t.req) io.during
  between : ∀ k1, commandStep cfg k t io.during = some (.ok, k1) → Delivers cfg k1.rx io.between
  after : ∀ k1 s, commandStep cfg k t io.during = some (.ok, k1) → reads cfg k1.rx io.between = some s →
    Delivers cfg { s with cmd := .noResult } io.after

end Cellular.Spec

namespace Cellular.Props
open Cellular Cellular.Spec Cellular.Pktio Cellular.Wire
open Cellular.Api (Req Reply)

/-! ## Reads with a prompt callback -/

theorem reads_prompt {cfg : Cfg} {f : SendCb} (hi : cfg.inputCb = none) (hu : ∀ l, (cfg.urcEdit l).length ≤ l.length)
    (hc : ∀ t, (f t).2.2 = t.length) (hf : ∀ t, (f t).2.1.length ≤ t.length) : ∀ (chunks : List Str) (s : St),
    RxInv (asPort cfg f) s → s.sendCb = none → s.dataCb = none →
    s.readPtr.getD 0 + s.partialLen + chunks.flatten.length < cfg.size →
    ∃ s', ReadsOk (asPort cfg f) s chunks s' ∧ reads cfg (sc (some f) s) chunks = some (sc (some f) s') ∧
      PosIn (s.readPtr.getD 0 + s.partialLen + chunks.flatten.length) s' := by
  intro chunks
  induction chunks with
  | nil => intro s _ _ _ _; exact ⟨s, .nil s, rfl, by simp [PosIn]⟩
  | cons c t ih =>
    intro s h hs hd hfit
    have hrf := room_fits h
    have hsz : (asPort cfg f).size = cfg.size := rfl
    simp only [List.flatten_cons, List.length_append] at hfit ⊢
    have hroom : c.length ≤ room (asPort cfg f) s := by omega
    have hn := asPort_inText (cfg := cfg) hu hf hs hd
    obtain ⟨k, s1, e, h1, sm, p1, _⟩ := rxEvent_inv h hn.inText hroom
    unfold PosIn at p1
    obtain ⟨s', r, e', p⟩ := ih s1 h1 (sm.1.trans hs) (sm.2.trans hd) (by omega)
    refine ⟨s', .cons (fun ho => by have := ho.1; omega) hroom e r, ?_, ?_⟩
    · have := rxEvent_prompt hi hu hc hf h hs hd hroom
      rw [e] at this
      simp only [reads, this, Option.map_some, e']
    · unfold PosIn at p ⊢
      omega

theorem prompts_shrink {f : SendCb} {P L : Str} (hf : Prompts f P L) (t : Str) : (f t).2.1.length ≤ t.length := by
  by_cases h : t = P
  · obtain ⟨_, e, _, h2⟩ := hf.prompt
    rw [h, h2, hf.place]
    simp
  · rw [(hf.other t h).2]

/-- Reads, while a request is pending, with the callback installed. -/
theorem pending_cb {cfg : Cfg} (hp : PlainPort cfg) {k : Stack} {N : Nat} (hk : Rest cfg k N) {r : Req} {f : SendCb}
    {P L : Str} (hf : Prompts f P L) {chunks : List Str} (hfit : N + chunks.flatten.length < cfg.size) {x : Rx × Str}
    (hx : Rx.readsCb (asPort cfg f) (asInput f) (⟨typeOf r.type, respPrefix r, [], k.rx.events⟩, []) chunks = some x) :
    ∃ s, reads cfg { k.rx with sendCb := some f, cmd := typeOf r.type, pfx := respPrefix r } chunks =
        some { s with sendCb := some f } ∧ RxInv cfg s ∧ NoCb cfg s ∧ Holds s x.1 x.2 ∧
      PosIn (N + chunks.flatten.length) s ∧ Kept { k.rx with cmd := typeOf r.type, pfx := respPrefix r } s := by
  have hpos := hk.pos
  unfold PosIn at hpos
  obtain ⟨p0, hkb, -⟩ := hk.between
  let s0 : St := { k.rx with cmd := typeOf r.type, pfx := respPrefix r }
  have hi0 : RxInv (asPort cfg f) s0 := ⟨⟨hk.inv.1.len, hk.inv.1.last, hk.inv.1.items, hk.inv.1.data⟩, hk.inv.2⟩
  have hb0 : Holds s0 ⟨typeOf r.type, respPrefix r, [], k.rx.events⟩ [] :=
    ⟨⟨rfl, rfl, rfl, hkb.rep.items, fun h => absurd h (typeOf_ne _)⟩, hkb.text⟩
  obtain ⟨s1, hR, hr, hpos1⟩ := reads_prompt hp.input hp.urc hf.count (prompts_shrink hf) chunks s0 hi0 hk.noCb.send hk.noCb.data
    (show k.rx.readPtr.getD 0 + k.rx.partialLen + _ < _ by omega)
  obtain ⟨hi1, hn1, hb1⟩ := readsOk_scan hR hi0 (asPort_inText hp.urc (prompts_shrink hf) hk.noCb.send hk.noCb.data) hb0 hx
  refine ⟨s1, hr, ⟨⟨hi1.1.len, hi1.1.last, hi1.1.items, hi1.1.data⟩, hi1.2⟩, ⟨hp.input, hn1.send, hn1.data, hp.urc⟩, hb1, ?_,
    readsOk_kept hR⟩
  have : s0.readPtr = k.rx.readPtr ∧ s0.partialLen = k.rx.partialLen := ⟨rfl, rfl⟩
  unfold PosIn at hpos1 ⊢
  simp only [this.1, this.2] at hpos1
  omega

theorem Rx.line_input (cfg : Cfg) (g : Option InputCb) (a : Rx) (l : Str) :
    Rx.line { cfg with inputCb := g } a l = Rx.line cfg a l := rfl

theorem Rx.run_input (cfg : Cfg) (g : Option InputCb) : ∀ (ls : List Str) (a : Rx),
    Rx.run { cfg with inputCb := g } a ls = Rx.run cfg a ls := by
  intro ls
  induction ls with
  | nil => intro a; rfl
  | cons l ls ih =>
    intro a
    simp only [Rx.run, Rx.line_input]
    split
    · rfl
    · exact ih _

theorem linesFrom_text {text P : Str} (he : EndsLine text) (hP : ∀ b ∈ P, ¬ LineEnd b) :
    linesFrom [] (text ++ P) = (linesOf text, P) := by
  rw [linesFrom_append]
  have h2 : (linesFrom [] text).2 = [] := by
    by_cases h : text = []
    · subst h; rfl
    · exact linesFrom_ends text [] h he
  rw [h2, linesFrom_noEol' (fun b hb => hP b hb)]
  simp [linesOf]

/-- The command is accepted by the prompt. -/
theorem pending_prompted {cfg : Cfg} (hp : PlainPort cfg) {k : Stack} {N : Nat} (hk : Rest cfg k N) {r : Req}
    (hvp : ∀ q, respPrefix r = some q → q ≠ [] ∧ q.length ≤ 256) {f : SendCb}
    {P L : Str} (hf : Prompts f P L) {chunks : List Str} (hfit : N + chunks.flatten.length < cfg.size)
    (hL1 : L.length ≤ 256) (hL2 : Final cfg (typeOf r.type) (respPrefix r) L) (hL3 : Success cfg L) {ls : List Str}
    (hP : Prompted cfg r P chunks.flatten ls) :
    ∃ s, reads cfg { k.rx with sendCb := some f, cmd := typeOf r.type, pfx := respPrefix r } chunks = some s ∧
      answer (s.events.drop k.rx.events.length) = .lines ls ∧ s.pfx = none ∧
      ∀ tx, TxWf tx → Rest cfg ⟨{ s with cmd := .noCommand, sendCb := none }, tx⟩ (N + chunks.flatten.length) := by
  obtain ⟨body, text, hst, hend, hlines, hm, hcount, hno, rfl⟩ := hP
  have hs := forCommand_solicited (typeOf_ne _) hf.line.1 hvp hL2.1
  obtain ⟨st, hfin, hst'⟩ := line_final
    (a := ⟨typeOf r.type, respPrefix r, mine body, k.rx.events ++ (others body).map .urc⟩)
    hs hp.err hp.succ hf.line.1 hL1 hL2.2
  have hPne : P ≠ [] := by
    intro h
    have := hf.place
    rw [h] at this
    simp at this
  have hx := readsCb_prompt (cfg := asPort cfg f) hf chunks ⟨typeOf r.type, respPrefix r, [], k.rx.events⟩ _ _ []
    (linesOf text) (by intro b hb; cases hb) (by rw [hst]; simp [hPne]) (by rw [hst]; exact linesFrom_text hend hf.noEnd)
    (by simpa using hno)
    (by rw [asPort, Rx.run_input, hlines]; exact run_body hp.err hp.succ r body _ hvp hm hcount)
    (by rw [asPort, Rx.line_input]; exact hfin)
  obtain ⟨s1, hr, hi1, hn1, hb1, hpos1, -⟩ := pending_cb hp hk hf hfit hx
  have hevents : s1.events = k.rx.events ++ ((others body).map .urc ++ [.response st (mine body)]) := by
    have := hb1.rep.events
    simpa [Rx.complete] using this
  refine ⟨_, hr, ?_, hb1.rep.pfx, ?_⟩
  · simp only [hevents, List.drop_left]
    rw [answer_urcs, if_pos (hst'.mpr hL3)]
  · intro tx hwf
    refine ⟨⟨⟨hi1.1.len, hi1.1.last, hi1.1.items, hi1.1.data⟩, hi1.2⟩, ⟨hp.input, rfl, hn1.data, hp.urc⟩, hwf, ?_, hpos1⟩
    exact ⟨none, ⟨⟨rfl, hb1.rep.pfx, rfl, hb1.rep.items, fun _ _ => hb1.rep.idle rfl rfl⟩, hb1.text, by intro b hb; cases hb⟩,
      by simp⟩

/-- The command is answered by a result code while the callback is installed. -/
theorem pending_answered_cb {cfg : Cfg} (hp : PlainPort cfg) {k : Stack} {N : Nat} (hk : Rest cfg k N) {r : Req}
    (hvp : ∀ q, respPrefix r = some q → q ≠ [] ∧ q.length ≤ 256) {f : SendCb}
    {P L : Str} (hf : Prompts f P L) {chunks : List Str} (hfit : N + chunks.flatten.length < cfg.size)
    (hno : ¬ P <:+: chunks.flatten) (hend : EndsLine chunks.flatten) {rep : Reply}
    (hA : Answered cfg r chunks.flatten rep) :
    ∃ s, reads cfg { k.rx with sendCb := some f, cmd := typeOf r.type, pfx := respPrefix r } chunks = some s ∧
      answer (s.events.drop k.rx.events.length) = rep ∧ s.pfx = none ∧
      ∀ tx, TxWf tx → Rest cfg ⟨{ s with cmd := .noCommand, sendCb := none }, tx⟩ (N + chunks.flatten.length) := by
  obtain ⟨body, final, tail, hlines, hm, hcount, hf1, hf2, hrep1, hrep2⟩ := hA
  have hx := readsCb_noPrompt (cfg := asPort cfg f) hf chunks
    (⟨typeOf r.type, respPrefix r, [], k.rx.events⟩, []) (by intro b hb; cases hb) (by simpa using hno)
  have hne : final ≠ [] :=
    linesFrom_ne_nil chunks.flatten [] final (by
      have : final ∈ linesOf chunks.flatten := by rw [hlines]; simp
      exact this)
  have hs := forCommand_solicited (typeOf_ne _) hne hvp hf2.1
  obtain ⟨st, hfin, hst⟩ := line_final
    (a := ⟨typeOf r.type, respPrefix r, mine body, k.rx.events ++ (others body).map .urc⟩)
    hs hp.err hp.succ hne hf1 hf2.2
  have hrun : Rx.run cfg ⟨typeOf r.type, respPrefix r, [], k.rx.events⟩ (body.map (·.2) ++ [final]) =
      some ⟨.noCommand, none, [], k.rx.events ++ (others body).map .urc ++ [.response st (mine body)]⟩ := by
    rw [Rx.run_append, run_body hp.err hp.succ r body _ hvp hm hcount]
    simp only [Option.bind_some, Rx.run, hfin]
    rfl
  obtain ⟨ev, p1, hev, hnr, hv1⟩ := reads_split (cfg := cfg) chunks _ _ [] (body.map (·.2) ++ [final]) tail
    (by rw [List.append_assoc]; exact hlines) hrun ⟨rfl, rfl⟩
  have hcur := reads_ends (cfg := cfg) chunks
    ((⟨typeOf r.type, respPrefix r, [], k.rx.events⟩ : Rx), ([] : Str)) (Or.inl rfl) hend
  rw [asPort, Rx.reads_input] at hx
  obtain ⟨s1, hr, hi1, hn1, hb1, hpos1, -⟩ := pending_cb hp hk hf hfit hx
  rw [hev, hcur] at hb1
  have hp1 : p1 = none := by
    rcases hv1 with rfl | rfl <;> rfl
  have hevents : s1.events = k.rx.events ++ ((others body).map .urc ++ .response st (mine body) :: ev) := by
    have := hb1.rep.events
    simpa using this
  refine ⟨_, hr, ?_, ?_, ?_⟩
  · simp only [hevents, List.drop_left]
    rw [answer_urcs]
    by_cases hS : Success cfg final
    · rw [if_pos (hst.mpr hS), hrep1 hS]
    · rw [if_neg (fun h => hS (hst.mp h)), hrep2 hS]
  · exact hb1.rep.pfx.trans hp1
  · intro tx hwf
    refine ⟨⟨⟨hi1.1.len, hi1.1.last, hi1.1.items, hi1.1.data⟩, hi1.2⟩, ⟨hp.input, rfl, hn1.data, hp.urc⟩, hwf, ?_, hpos1⟩
    exact ⟨p1, ⟨⟨rfl, hb1.rep.pfx, rfl, hb1.rep.items, fun _ _ => hb1.rep.idle rfl rfl⟩, hb1.text, by intro b hb; cases hb⟩,
      by rw [hp1]; simp⟩

/-- The command is not answered while the callback is installed. -/
theorem pending_silent_cb {cfg : Cfg} (hp : PlainPort cfg) {k : Stack} {N : Nat} (hk : Rest cfg k N) {r : Req}
    (hvp : ∀ q, respPrefix r = some q → q ≠ [] ∧ q.length ≤ 256) {f : SendCb}
    {P L : Str} (hf : Prompts f P L) {chunks : List Str} (hfit : N + chunks.flatten.length < cfg.size)
    (hno : ¬ P <:+: chunks.flatten) (hend : EndsLine chunks.flatten) (hS : Silent cfg r chunks.flatten) :
    ∃ s, reads cfg { k.rx with sendCb := some f, cmd := typeOf r.type, pfx := respPrefix r } chunks = some s ∧
      answer (s.events.drop k.rx.events.length) = .timeout ∧
      ∀ tx, TxWf tx → Rest cfg ⟨{ s with cmd := .noCommand, sendCb := none }, tx⟩ (N + chunks.flatten.length) := by
  have hx := readsCb_noPrompt (cfg := asPort cfg f) hf chunks
    (⟨typeOf r.type, respPrefix r, [], k.rx.events⟩, []) (by intro b hb; cases hb) (by simpa using hno)
  have hrun := run_silent hvp (linesOf chunks.flatten) k.rx.events (fun l hl =>
    ⟨linesFrom_ne_nil chunks.flatten [] l hl, hS l hl⟩)
  have hcur := reads_ends (cfg := cfg) chunks
    ((⟨typeOf r.type, respPrefix r, [], k.rx.events⟩ : Rx), ([] : Str)) (Or.inl rfl) hend
  have hrd := reads_run (cfg := cfg) (chunks := chunks) hrun
  rw [hrd] at hcur
  rw [asPort, Rx.reads_input, hrd, hcur] at hx
  obtain ⟨s1, hr, hi1, hn1, hb1, hpos1, hkept⟩ := pending_cb hp hk hf hfit hx
  have hevents : s1.events = k.rx.events ++ (linesOf chunks.flatten).map .urc := hb1.rep.events
  obtain ⟨p0, hkb, -⟩ := hk.between
  have hresp : s1.resp = none := by
    obtain ⟨-, ev, he, hc⟩ := hkept
    have hev : ev = (linesOf chunks.flatten).map .urc := by
      have : k.rx.events ++ ev = k.rx.events ++ (linesOf chunks.flatten).map .urc := by rw [← hevents]; exact he.symm
      exact List.append_cancel_left this
    rcases hc with ⟨e, hm, hne⟩ | hc | hc
    · rw [hev, List.mem_map] at hm
      obtain ⟨l, -, rfl⟩ := hm
      exact absurd rfl (hne l)
    · rw [hc]; exact hkb.rep.idle rfl rfl
    · exfalso
      have hit := hb1.rep.items.2
      have : nItems s1 = 0 := by
        unfold nItems
        exact hit.length_eq
      omega
  refine ⟨_, hr, ?_, ?_⟩
  · simp only [hevents, List.drop_left, answer_none]
  · intro tx hwf
    refine ⟨⟨⟨hi1.1.len, hi1.1.last, hi1.1.items, hi1.1.data⟩, hi1.2⟩, ⟨hp.input, rfl, hn1.data, hp.urc⟩, hwf, ?_, hpos1⟩
    exact ⟨respPrefix r, ⟨⟨rfl, hb1.rep.pfx, rfl, hb1.rep.items, fun _ _ => hresp⟩, hb1.text, by intro b hb; cases hb⟩, hvp⟩

/-! ## The two steps -/

theorem Rest.extra {cfg : Cfg} {e : Option (List Str)} {k : Stack} {N : Nat} (h : Rest cfg k N) :
    Rest { cfg with extra := e } k N :=
  ⟨⟨⟨h.inv.1.len, h.inv.1.last, h.inv.1.items, h.inv.1.data⟩, h.inv.2⟩,
    ⟨h.noCb.input, h.noCb.send, h.noCb.data, h.noCb.urc⟩, h.tx, h.between, h.pos⟩

theorem Rest.weaken {cfg : Cfg} {k : Stack} {N M : Nat} (h : Rest cfg k N) (hle : N ≤ M) : Rest cfg k M :=
  ⟨h.inv, h.noCb, h.tx, h.between, by have := h.pos; unfold PosIn at this ⊢; omega⟩

/-- The exchange of a request from the reads. -/
theorem exchange_of {cfg : Cfg} {k : Stack} {r : Req} (hw : TxWf k.tx) (hv : ValidReq r) {chunks : List Str} {s : St}
    (hr : reads cfg { k.rx with cmd := typeOf r.type, pfx := respPrefix r } chunks = some s) :
    ∃ tx, exchange cfg k r chunks = some (answer (s.events.drop k.rx.events.length), ⟨{ s with cmd := .noCommand }, tx⟩) ∧
      TxWf tx ∧ tx.wire = k.tx.wire ++ [r.cmd ++ [13]] := by
  obtain ⟨tx, hsend, hwf, hwire, hcmd, hpfx⟩ := send_ok hw hv
  refine ⟨{ tx with cmd := .noCommand }, ?_, hwf, hwire⟩
  unfold exchange
  rw [hsend]
  simp only [hpfx, hcmd]
  rw [hr]

/-- The command step: its status is what the modem's answer means, and the command, and nothing else, is on the wire. -/
theorem command_told {cfg : Cfg} (hp : PlainPort cfg) {k : Stack} {N : Nat} (hk : Rest cfg k N) {t : Transfer}
    (hv : ValidReq t.req) {chunks : List Str} (hfit : N + chunks.flatten.length < cfg.size) {rep : Reply}
    (hT : Told cfg t chunks.flatten rep) :
    ∃ k', commandStep cfg k t chunks = some (statusOf t.verdict rep, k') ∧ Rest cfg k' (N + chunks.flatten.length) ∧
      k'.tx.wire = k.tx.wire ++ [t.req.cmd ++ [13]] ∧ ((∃ l, rep = .lines l) → k'.rx.pfx = none) := by
  have hvp := respPrefix_valid hv
  unfold Told at hT
  unfold commandStep
  cases hway : t.way with
  | tokens table =>
    rw [hway] at hT
    simp only at hT ⊢
    have hp' : PlainPort { cfg with extra := some table } := ⟨hp.err, hp.succ, hp.input, hp.urc⟩
    obtain ⟨hA | ⟨hS, rfl⟩, hend⟩ := hT
    · obtain ⟨k', e, hr, hw, hpn⟩ := exchange_answered' hp' hk.extra hv hfit hend hA
      exact ⟨k', by rw [e]; rfl, (hr.extra (e := cfg.extra)).weaken (by omega), hw, fun _ => hpn⟩
    · obtain ⟨k', e, hr, hw⟩ := exchange_silent (hk.extra (e := some table)) hv hfit hend hS
      exact ⟨k', by rw [e]; rfl, hr.extra (e := cfg.extra), hw, by rintro ⟨l, h⟩; cases h⟩
  | prompt cb =>
    rw [hway] at hT
    simp only at hT ⊢
    cases cb with
    | none =>
      simp only at hT
      have hk0 : { k with rx := { k.rx with sendCb := none } } = k := by
        obtain ⟨rx, tx⟩ := k
        have : rx.sendCb = none := hk.noCb.send
        obtain ⟨⟩ := rx
        simp only at this
        rw [this]
      rw [hk0]
      have post : ∀ k' : Stack, Rest cfg k' (N + chunks.flatten.length) →
          { k' with rx := { k'.rx with sendCb := none } } = k' := by
        intro k' hr
        obtain ⟨rx, tx⟩ := k'
        have : rx.sendCb = none := hr.noCb.send
        obtain ⟨⟩ := rx
        simp only at this
        rw [this]
      obtain ⟨hA | ⟨hS, rfl⟩, hend⟩ := hT
      · obtain ⟨k', e, hr, hw, hpn⟩ := exchange_answered' hp hk hv hfit hend hA
        have hr' := hr.weaken (M := N + chunks.flatten.length) (by omega)
        exact ⟨k', by rw [e]; simp only [Option.map_some, post k' hr'], hr', hw, fun _ => hpn⟩
      · obtain ⟨k', e, hr, hw⟩ := exchange_silent hk hv hfit hend hS
        exact ⟨k', by rw [e]; simp only [Option.map_some, post k' hr], hr, hw, by rintro ⟨l, h⟩; cases h⟩
    | some f =>
      simp only at hT
      obtain ⟨P, L, hf, hL1, hL2, hL3, hT⟩ := hT
      have fin : ∀ (s : St) (rep' : Reply),
          reads cfg { k.rx with sendCb := some f, cmd := typeOf t.req.type, pfx := respPrefix t.req } chunks = some s →
          answer (s.events.drop k.rx.events.length) = rep' →
          (∀ tx, TxWf tx → Rest cfg ⟨{ s with cmd := .noCommand, sendCb := none }, tx⟩ (N + chunks.flatten.length)) →
          ((∃ l, rep' = .lines l) → s.pfx = none) →
          ∃ k', Option.map (fun x : Reply × Stack => (statusOf t.verdict x.1,
              ({ x.2 with rx := { x.2.rx with sendCb := none } } : Stack)))
              (exchange cfg { k with rx := { k.rx with sendCb := some f } } t.req chunks) =
              some (statusOf t.verdict rep', k') ∧ Rest cfg k' (N + chunks.flatten.length) ∧
            k'.tx.wire = k.tx.wire ++ [t.req.cmd ++ [13]] ∧ ((∃ l, rep' = .lines l) → k'.rx.pfx = none) := by
        intro s rep' hr ha hrest hpn
        obtain ⟨tx, e, hwf, hw⟩ := exchange_of (k := { k with rx := { k.rx with sendCb := some f } }) hk.tx hv hr
        rw [e]
        simp only [Option.map_some, ha]
        exact ⟨_, rfl, hrest tx hwf, hw, hpn⟩
      rcases hT with ⟨ls, hP, rfl⟩ | ⟨hno, hend, hA | ⟨hS, rfl⟩⟩
      · obtain ⟨s, hr, ha, hpn, hrest⟩ := pending_prompted hp hk hvp hf hfit hL1 hL2 hL3 hP
        exact fin s _ hr ha hrest (fun _ => hpn)
      · obtain ⟨s, hr, ha, hpn, hrest⟩ := pending_answered_cb hp hk hvp hf hfit hno hend hA
        exact fin s _ hr ha hrest (fun _ => hpn)
      · obtain ⟨s, hr, ha, hrest⟩ := pending_silent_cb hp hk hvp hf hfit hno hend hS
        exact fin s _ hr ha hrest (by rintro ⟨l, h⟩; cases h)

/-- What a transfer puts on the wire after the command. -/
def dataBytes (t : Transfer) : List Str := t.data.toList ++ t.pattern.toList

/-- Where reading goes on: after an answer, at the start of the buffer. -/
def leftover (rep : Reply) (n : Nat) : Nat :=
  match rep with
  | .timeout => n
  | _ => 0

/-- The data step, when the transport takes everything. -/
theorem data_told {cfg : Cfg} (hp : PlainPort cfg) {k : Stack} {N : Nat} (hk : Rest cfg k N) (hpfx : k.rx.pfx = none)
    {t : Transfer} {d : Str} (hd : t.data = some d) {io : Io} (ht : d.length ≤ io.taken)
    (htp : ∀ p, t.pattern = some p → p.length ≤ io.takenPattern) (hfit : N + io.after.flatten.length < cfg.size)
    {rep : Reply} (hT : ToldData cfg io.after.flatten rep) :
    ∃ k', dataStep cfg k t io = some (statusOf (fun _ => .ok) rep, some d.length, k') ∧
      Rest cfg k' (leftover rep N + io.after.flatten.length) ∧
      k'.tx.wire = k.tx.wire ++ dataBytes t ∧ k'.rx.pfx = none := by
  have hrp : respPrefix dataReq = none := rfl
  have hs0 : ({ k.rx with cmd := .noResult } : St) = { k.rx with cmd := typeOf dataReq.type, pfx := respPrefix dataReq } := by
    show _ = { k.rx with cmd := .noResult, pfx := none }
    rw [← hpfx]
  have hvp : ∀ q, respPrefix dataReq = some q → q ≠ [] ∧ q.length ≤ 256 := by rw [hrp]; simp
  have key : ∃ s, reads cfg { k.rx with cmd := .noResult } io.after = some s ∧
      answer (s.events.drop k.rx.events.length) = rep ∧ s.pfx = none ∧
      ∀ tx, TxWf tx → Rest cfg ⟨{ s with cmd := .noCommand }, tx⟩
        (leftover rep N + io.after.flatten.length) := by
    rw [hs0]
    obtain ⟨hA | ⟨hS, rfl⟩, hend⟩ := hT
    · obtain ⟨s, h1, h2, h3, h4⟩ := pending_answered hp hk hvp hfit hend hA
      refine ⟨s, h1, h2, h3, ?_⟩
      have hne := answered_not_timeout hA
      have h0 : leftover rep N = 0 := by
        unfold leftover
        split
        · exact absurd rfl hne
        · rfl
      rw [h0, Nat.zero_add]
      exact h4
    · obtain ⟨s, h1, h2, h3, h4⟩ := pending_silent hk hvp hfit hend hS
      exact ⟨s, h1, h2, h3, h4⟩
  obtain ⟨s, h1, h2, h3, h4⟩ := key
  have htake : d.take io.taken = d := List.take_of_length_le ht
  unfold dataStep
  rw [hd]
  simp only [sendData, htake, ne_eq, not_true_eq_false, if_false]
  cases hpat : t.pattern with
  | none =>
    simp only [h1]
    simp only [Bool.true_eq_false, if_false, h2]
    exact ⟨_, rfl, h4 _ ⟨hk.tx.1, hk.tx.2⟩, by simp [dataBytes, hd, hpat], h3⟩
  | some p =>
    have hptake : p.take io.takenPattern = p := List.take_of_length_le (htp p hpat)
    simp only [hptake, beq_self_eq_true, Bool.true_eq_false, if_false, h1, h2]
    exact ⟨_, rfl, h4 _ ⟨hk.tx.1, hk.tx.2⟩, by simp [dataBytes, hd, hpat], h3⟩

/-! ## C78 -/

theorem status_ok {v : List Str → PktStatus} {rep : Reply} : statusOf v rep = .ok ↔ ∃ l, rep = .lines l ∧ v l = .ok := by
  cases rep <;> simp [statusOf]

/-- An accepted transfer: the command, the data and the end pattern are written, in this order and
unchanged, the status is what the modem reports about the data, and the whole length is reported as sent; the library is
then ready for the next request. -/
theorem C78_transfer {cfg : Cfg} (hp : PlainPort cfg) {k : Stack} {N : Nat} (hk : Rest cfg k N) {x : Scripted}
    (hx : x.Ok cfg N) (ha : x.Accepted) :
    ∃ d k', x.transfer.data = some d ∧
      dataSend cfg k x.transfer x.io = some (statusOf (fun _ => .ok) x.result, some d.length, k') ∧
      Rest cfg k' (leftover x.result (N + x.io.during.flatten.length + x.io.between.flatten.length) +
        x.io.after.flatten.length) ∧
      k'.tx.wire = k.tx.wire ++ (x.transfer.req.cmd ++ [13]) :: d :: x.transfer.pattern.toList := by
  have hfit := hx.fits
  obtain ⟨d, hd, hdt⟩ := hx.data
  obtain ⟨k1, e1, hr1, hw1, hpn⟩ := command_told hp hk hx.req (by omega) hx.told
  obtain ⟨l, hl, hvl⟩ := ha
  have hst : statusOf x.transfer.verdict x.consent = .ok := status_ok.mpr ⟨l, hl, hvl⟩
  obtain ⟨s2, e2, hr2, hpn2⟩ := idle_reads' hr1 (chunks := x.io.between) (by omega) hx.between
  obtain ⟨k3, e3, hr3, hw3, -⟩ := data_told hp hr2 (hpn2 (hpn ⟨l, hl⟩)) hd hdt hx.pattern (by omega)
    (hx.toldData ⟨l, hl, hvl⟩)
  refine ⟨d, k3, hd, ?_, hr3, ?_⟩
  · unfold dataSend
    rw [e1, hst]
    simp only [e2]
    exact e3
  · rw [hw3]
    simp [hw1, dataBytes, hd]

/-- A transfer that the modem does not accept - an error, no answer in time, or a response that the caller's
callback rejects: the failure is reported, and no byte of the data is written. -/
theorem C78_not_accepted {cfg : Cfg} (hp : PlainPort cfg) {k : Stack} {N : Nat} (hk : Rest cfg k N) {x : Scripted}
    (hx : x.Ok cfg N) (ha : ¬ x.Accepted) :
    ∃ k', dataSend cfg k x.transfer x.io = some (statusOf x.transfer.verdict x.consent, none, k') ∧
      statusOf x.transfer.verdict x.consent ≠ .ok ∧
      Rest cfg k' (N + x.io.during.flatten.length) ∧
      k'.tx.wire = k.tx.wire ++ [x.transfer.req.cmd ++ [13]] := by
  have hfit := hx.fits
  obtain ⟨k1, e1, hr1, hw1, -⟩ := command_told hp hk hx.req (by omega) hx.told
  have hst : statusOf x.transfer.verdict x.consent ≠ .ok := fun h => ha (status_ok.mp h)
  refine ⟨k1, ?_, hst, hr1, hw1⟩
  unfold dataSend
  rw [e1]
  split
  · rename_i h; cases h
  · rename_i h
    simp only [Option.some.injEq, Prod.mk.injEq] at h
    exact absurd h.1 hst
  · rename_i h; cases h; rfl

theorem means_status (v : List Str → PktStatus) (rep : Reply) : Means v rep (statusOf v rep) := by
  cases rep <;> rfl

/-- Any sequence of transfers, accepted or not: each reports what the modem means, and what is written is, transfer by transfer, the
command and, exactly if it was accepted, the data and the end pattern. -/
theorem C78_transfers {cfg : Cfg} (hp : PlainPort cfg) : ∀ {n : Nat} {l : List Scripted}, Served cfg n l →
    ∀ {k : Stack}, Rest cfg k n →
    ∃ os w k', dataSends cfg k (l.map (fun x => (x.transfer, x.io, x.rest))) = some (os, k') ∧ Outcomes l os w ∧
      k'.tx.wire = k.tx.wire ++ w := by
  intro n l h
  induction h with
  | nil => intro k _; exact ⟨[], [], k, rfl, .nil, by simp⟩
  | @cons n m x l hx hn _ ih =>
    intro k hk
    have hfit := hx.fits
    by_cases ha : x.Accepted
    · obtain ⟨d, k1, hd, e1, hr1, hw1⟩ := C78_transfer hp hk hx ha
      have hm := hn.1 ha
      have hlo : leftover x.result (n + x.io.during.flatten.length + x.io.between.flatten.length) =
          if x.result = .timeout then n + x.io.during.flatten.length + x.io.between.flatten.length else 0 := by
        cases x.result <;> simp [leftover]
      rw [hlo] at hr1
      obtain ⟨s2, e2, hr2⟩ := idle_reads hr1 (chunks := x.rest) (by split <;> omega) hx.rest
      rw [← hm] at hr2
      obtain ⟨os, w, k', e3, ho, hw⟩ := ih hr2
      refine ⟨(statusOf (fun _ => .ok) x.result, some d.length) :: os,
        ((x.transfer.req.cmd ++ [13]) :: d :: x.transfer.pattern.toList) ++ w, k', ?_,
        .cons ⟨?_, fun h => absurd ha h⟩ ho, ?_⟩
      · simp only [List.map_cons, dataSends, e1, e2, e3, Option.map_some]
      · intro _
        exact ⟨means_status _ _, by rw [hd]; rfl, by rw [hd]; rfl⟩
      · rw [hw]; simp only [hw1, List.append_assoc]
    · obtain ⟨k1, e1, hst, hr1, hw1⟩ := C78_not_accepted hp hk hx ha
      have hm := hn.2 ha
      obtain ⟨s2, e2, hr2⟩ := idle_reads hr1 (chunks := x.rest) (by omega) hx.rest
      rw [← hm] at hr2
      obtain ⟨os, w, k', e3, ho, hw⟩ := ih hr2
      refine ⟨(statusOf x.transfer.verdict x.consent, none) :: os, [x.transfer.req.cmd ++ [13]] ++ w, k', ?_,
        .cons ⟨fun h => absurd h ha, ?_⟩ ho, ?_⟩
      · simp only [List.map_cons, dataSends, e1, e2, e3, Option.map_some]
      · intro _
        exact ⟨means_status _ _, hst, rfl, rfl⟩
      · rw [hw]; simp only [hw1, List.append_assoc]

/-! ## Whatever the modem sends -/

theorem reads_kept {cfg : Cfg} : ∀ {cs : List Str} {s s' : St}, reads cfg s cs = some s' → Kept s s'
  | [], s, s', h => by cases h; exact .same ⟨rfl, rfl⟩ rfl rfl
  | c :: cs, s, s', h => by
    simp only [reads] at h
    cases he : rxEvent cfg s c with
    | none => rw [he] at h; cases h
    | some r =>
      obtain ⟨n, s1⟩ := r
      rw [he] at h
      exact (rxEvent_kept he).trans (reads_kept h)

theorem answer_lines : ∀ {ev : List Event} {l : List Str}, answer ev = .lines l → Event.response true l ∈ ev
  | [], l, h => by cases h
  | .response true l' :: ev, l, h => by
    simp only [answer, Reply.lines.injEq] at h
    simp [h]
  | .response false l' :: ev, l, h => by cases h
  | .urc l' :: ev, l, h => by
    simp only [answer] at h
    exact List.mem_cons_of_mem _ (answer_lines h)
  | .undefined l' :: ev, l, h => by
    simp only [answer] at h
    exact List.mem_cons_of_mem _ (answer_lines h)

/-- An exchange, whatever is read: nothing is written, or the command is; a response was handed over
meanwhile, if one is reported. -/
theorem exchange_any {cfg : Cfg} {k k' : Stack} {r : Req} {cs : List Str} {rep : Reply} (hw : TxWf k.tx)
    (h : exchange cfg k r cs = some (rep, k')) :
    TxWf k'.tx ∧ ∃ ev, k'.rx.events = k.rx.events ++ ev ∧ (∀ l, rep = .lines l → Event.response true l ∈ ev) ∧
      (k'.tx.wire = k.tx.wire ∧ (∀ l, rep ≠ .lines l) ∨ k'.tx.wire = k.tx.wire ++ [r.cmd ++ [13]]) := by
  unfold exchange at h
  split at h
  · cases h
  · rename_i tx hs
    simp only at h
    split at h
    · cases h
    · split at h
      · cases h
      · rename_i pfx _ s hr
        cases h
        obtain ⟨-, ev, he, -⟩ := reads_kept hr
        have he' : s.events = k.rx.events ++ ev := he
        have hwire : TxWf tx ∧ tx.wire = k.tx.wire ++ [r.cmd ++ [13]] := by
          have hc := C17_sent_exactly k.tx hw r.cmd (typeOf r.type) r.pfx
          by_cases hok : r.cmd.length ≤ 200 ∧ typeOf r.type ≠ .noCommand ∧ (NeedsPrefix (typeOf r.type) → r.pfx ≠ none)
          · obtain ⟨t', e, h1, -, h3⟩ := hc.1 hok
            rw [hs] at e
            cases e
            exact ⟨h3, h1⟩
          · have := hc.2.1 hok
            rw [hs] at this
            cases this
        refine ⟨hwire.1, ev, he', ?_, Or.inr hwire.2⟩
        intro l hl
        simp only [he', List.drop_left] at hl
        exact answer_lines hl
  · rename_i hst hs
    cases h
    have hc := C17_sent_exactly k.tx hw r.cmd (typeOf r.type) r.pfx
    by_cases hok : r.cmd.length ≤ 200 ∧ typeOf r.type ≠ .noCommand ∧ (NeedsPrefix (typeOf r.type) → r.pfx ≠ none)
    · obtain ⟨t', e, -⟩ := hc.1 hok
      rw [hs] at e
      cases e
      exact (hst rfl).elim
    · have := hc.2.1 hok
      rw [hs] at this
      cases this
      exact ⟨hw, [], by simp, by simp, Or.inl ⟨rfl, by simp⟩⟩

theorem command_any {cfg : Cfg} {k k' : Stack} {t : Transfer} {cs : List Str} {st : PktStatus} (hw : TxWf k.tx)
    (h : commandStep cfg k t cs = some (st, k')) :
    TxWf k'.tx ∧ ∃ ev, k'.rx.events = k.rx.events ++ ev ∧
      (st = .ok → ∃ l, Event.response true l ∈ ev ∧ t.verdict l = .ok) ∧
      (k'.tx.wire = k.tx.wire ∧ st ≠ .ok ∨ k'.tx.wire = k.tx.wire ++ [t.req.cmd ++ [13]]) := by
  have fin : ∀ {cfg' : Cfg} {k0 k1 : Stack} {rep : Reply}, TxWf k0.tx → k0.tx = k.tx → k0.rx.events = k.rx.events →
      exchange cfg' k0 t.req cs = some (rep, k1) → st = statusOf t.verdict rep → k'.tx = k1.tx → k'.rx.events = k1.rx.events →
      TxWf k'.tx ∧ ∃ ev, k'.rx.events = k.rx.events ++ ev ∧
      (st = .ok → ∃ l, Event.response true l ∈ ev ∧ t.verdict l = .ok) ∧
      (k'.tx.wire = k.tx.wire ∧ st ≠ .ok ∨ k'.tx.wire = k.tx.wire ++ [t.req.cmd ++ [13]]) := by
    intro cfg' k0 k1 rep h0 h1 h2 h3 h4 h5 h6
    obtain ⟨g1, ev, g2, g3, g4⟩ := exchange_any h0 h3
    rw [h5, h6, ← h2, ← h1]
    refine ⟨g1, ev, g2, ?_, ?_⟩
    · intro hok
      rw [hok] at h4
      obtain ⟨l, hl, hv⟩ := status_ok.mp h4.symm
      exact ⟨l, g3 l hl, hv⟩
    · rcases g4 with ⟨a, b⟩ | a
      · left
        refine ⟨a, ?_⟩
        rintro hok
        rw [hok] at h4
        obtain ⟨l, hl, -⟩ := status_ok.mp h4.symm
        exact b l hl
      · exact Or.inr a
  unfold commandStep at h
  split at h
  · rename_i cb _
    rw [Option.map_eq_some_iff] at h
    obtain ⟨⟨rep, k1⟩, e, h⟩ := h
    cases h
    exact fin (k0 := ⟨{ k.rx with sendCb := cb }, k.tx⟩) (k1 := k1) hw rfl rfl e rfl rfl rfl
  · rw [Option.map_eq_some_iff] at h
    obtain ⟨⟨rep, k1⟩, e, h⟩ := h
    cases h
    exact fin hw rfl rfl e rfl rfl rfl

theorem data_any {cfg : Cfg} {k k' : Stack} {t : Transfer} {io : Io} {st : PktStatus} {n : Option Nat}
    (h : dataStep cfg k t io = some (st, n, k')) :
    ∃ ev w, k'.rx.events = k.rx.events ++ ev ∧ k'.tx.wire = k.tx.wire ++ w ∧
      (w = [] ∧ t.data = none ∧ st = .badRequest ∧ n = none ∨
       ∃ d, t.data = some d ∧ n = some (d.take io.taken).length ∧
        ((w = [d.take io.taken] ∧ io.taken < d.length ∧ st = .sendError) ∨
         (w = [d] ∧ d.length ≤ io.taken ∧ t.pattern = none ∧ (st = .ok → ∃ l, Event.response true l ∈ ev)) ∨
         ∃ p, t.pattern = some p ∧ d.length ≤ io.taken ∧ w = [d, p.take io.takenPattern] ∧
          (st = .ok → p.length ≤ io.takenPattern ∧ ∃ l, Event.response true l ∈ ev))) := by
  unfold dataStep at h
  split at h
  · cases h
    rename_i hd
    exact ⟨[], [], by simp, by simp, Or.inl ⟨rfl, hd, rfl, rfl⟩⟩
  · rename_i d hd
    simp only [sendData] at h
    by_cases heq : d.length ≤ io.taken
    rotate_left
    · have hne : (d.take io.taken).length ≠ d.length := by simp only [List.length_take]; omega
      simp only [hne, ne_eq, not_false_eq_true, if_true] at h
      cases h
      refine ⟨[], [d.take io.taken], by simp, rfl, Or.inr ⟨d, hd, rfl, Or.inl ⟨rfl, ?_, rfl⟩⟩⟩
      simp only [List.length_take] at hne
      omega
    · have hle := heq
      have hlen : (d.take io.taken).length = d.length := by simp only [List.length_take]; omega
      simp only [hlen, ne_eq, not_true_eq_false, if_false] at h
      have hfull : d.take io.taken = d := List.take_of_length_le hle
      have fin : ∀ {s : St} {ev : List Event}, s.events = k.rx.events ++ ev →
          statusOf (fun _ => .ok) (answer (s.events.drop k.rx.events.length)) = .ok → ∃ l, Event.response true l ∈ ev := by
        intro s ev he hst
        obtain ⟨l, hl, -⟩ := status_ok.mp hst
        rw [he, List.drop_left] at hl
        exact ⟨l, answer_lines hl⟩
      cases hpat : t.pattern with
      | none =>
        simp only [hpat, Bool.true_eq_false, if_false] at h
        split at h
        · cases h
        · rename_i s hr
          cases h
          obtain ⟨-, ev, he, -⟩ := reads_kept hr
          refine ⟨ev, [d], he, by simp [hfull], Or.inr ⟨d, hd, by rw [hlen], Or.inr (Or.inl ⟨rfl, hle, rfl, ?_⟩)⟩⟩
          exact fin he
      | some p =>
        simp only [hpat] at h
        split at h
        · rename_i hb
          cases h
          refine ⟨[], [d, p.take io.takenPattern], by simp, by simp [hfull], Or.inr ⟨d, hd, by rw [hlen], Or.inr (Or.inr ⟨p, rfl, hle, rfl, by simp⟩)⟩⟩
        · rename_i hb
          split at h
          · cases h
          · rename_i s hr
            cases h
            obtain ⟨-, ev, he, -⟩ := reads_kept hr
            refine ⟨ev, [d, p.take io.takenPattern], he, by simp [hfull],
              Or.inr ⟨d, hd, by rw [hlen], Or.inr (Or.inr ⟨p, rfl, hle, rfl, fun hst => ⟨?_, fin he hst⟩⟩)⟩⟩
            simp only [Bool.not_eq_false, beq_iff_eq, List.length_take] at hb
            omega

/-- Whatever is read from the modem, and whatever the transport takes: data are written only after the modem has accepted
the command - a success response was handed over since the command was started, and the caller's callback did not object -, and what
is written is the command, then the data from their start, then, if all data were taken, the end pattern from its
start. -/
theorem C78_consent {cfg : Cfg} {k k' : Stack} {t : Transfer} {io : Io} {st : PktStatus} {n : Option Nat} (hw : TxWf k.tx)
    (h : dataSend cfg k t io = some (st, n, k')) :
    ((k'.tx.wire = k.tx.wire ∨ k'.tx.wire = k.tx.wire ++ [t.req.cmd ++ [13]]) ∧ st ≠ .ok ∧ n = none) ∨
    ∃ d w, t.data = some d ∧ n = some (min io.taken d.length) ∧
      k'.tx.wire = k.tx.wire ++ (t.req.cmd ++ [13]) :: d.take io.taken :: w ∧
      (w = [] ∨ d.length ≤ io.taken ∧ ∃ p, t.pattern = some p ∧ w = [p.take io.takenPattern]) ∧
      ∃ e1 e2 l, k'.rx.events = k.rx.events ++ e1 ++ e2 ∧ Event.response true l ∈ e1 ∧ t.verdict l = .ok ∧
        (st = .ok → (∃ l', Event.response true l' ∈ e2) ∧ d.length ≤ io.taken ∧
          (∀ p, t.pattern = some p → w = [p])) := by
  unfold dataSend at h
  split at h
  · cases h
  · rename_i k1 hc
    obtain ⟨-, e1, he1, hok, hw1⟩ := command_any hw hc
    obtain ⟨l, hl, hv⟩ := hok rfl
    have hwire : k1.tx.wire = k.tx.wire ++ [t.req.cmd ++ [13]] := by
      rcases hw1 with ⟨-, h⟩ | h
      · exact absurd rfl h
      · exact h
    split at h
    · cases h
    · rename_i s hr
      obtain ⟨-, e2, he2, -⟩ := reads_kept hr
      obtain ⟨e3, w, he3, hw3, hcase⟩ := data_any h
      simp only at he3 hw3
      have hev : k'.rx.events = k.rx.events ++ (e1 ++ e2) ++ e3 := by rw [he3, he2, he1]; simp
      have hle1 : Event.response true l ∈ e1 ++ e2 := by simp [hl]
      rcases hcase with ⟨rfl, hd, rfl, rfl⟩ | ⟨d, hd, rfl, hcase⟩
      · left
        exact ⟨Or.inr (by rw [hw3, hwire, List.append_nil]), by decide, rfl⟩
      · right
        rcases hcase with ⟨rfl, hlt, rfl⟩ | ⟨rfl, hle, hp, hst⟩ | ⟨p, hp, hle, rfl, hst⟩
        · refine ⟨d, [], hd, by simp, by rw [hw3, hwire]; simp, Or.inl rfl, e1 ++ e2, e3, l, hev, hle1, hv, ?_⟩
          intro h; cases h
        · have hfull : d.take io.taken = d := List.take_of_length_le hle
          refine ⟨d, [], hd, by simp, by rw [hw3, hwire, hfull]; simp, Or.inl rfl, e1 ++ e2, e3, l, hev, hle1, hv, ?_⟩
          intro h
          exact ⟨hst h, hle, by simp [hp]⟩
        · have hfull : d.take io.taken = d := List.take_of_length_le hle
          refine ⟨d, [p.take io.takenPattern], hd, by simp, by rw [hw3, hwire, hfull]; simp, Or.inr ⟨hle, p, hp, rfl⟩,
            e1 ++ e2, e3, l, hev, hle1, hv, ?_⟩
          intro h
          refine ⟨(hst h).2, hle, fun q hq => ?_⟩
          rw [hp] at hq
          cases hq
          rw [List.take_of_length_le (hst h).1]
  · rename_i hne hc
    cases h
    obtain ⟨-, e1, he1, hok, hw1⟩ := command_any hw hc
    left
    refine ⟨?_, fun hs => hne hs, rfl⟩
    rcases hw1 with ⟨h, -⟩ | h
    · exact Or.inl h
    · exact Or.inr h

/-- Whatever is read from the modem: the transfer is executed without any access outside the buffers, as long
as the transport never delivers more than it is asked for and the callback edits within its text. -/
theorem C78_defined {cfg : Cfg} {k : Stack} (hk : InOrder cfg k) {t : Transfer} (hr : ValidReq t.req)
    (hcb : ∀ f, t.way = .prompt (some f) → ∀ x, (f x).2.1.length ≤ x.length ∧ (f x).2.2 ≤ x.length) {io : Io}
    (hio : IoContract cfg k t io) :
    ∃ st n k', dataSend cfg k t io = some (st, n, k') := by
  have hcmd : ∃ st k1, commandStep cfg k t io.during = some (st, k1) ∧ RxInv cfg k1.rx ∧ CallbacksInText cfg k1.rx := by
    have hd := hio.during
    unfold commandStep
    cases hway : t.way with
    | tokens table =>
      rw [hway] at hd
      have hk' : InOrder { cfg with extra := some table } k :=
        ⟨⟨⟨hk.rx.1.len, hk.rx.1.last, hk.rx.1.items, hk.rx.1.data⟩, hk.rx.2⟩,
          ⟨hk.cb.urc, hk.cb.input, hk.cb.send, hk.cb.data⟩, hk.tx, hk.texts⟩
      obtain ⟨a, k1, e, h1, -⟩ := exchange_total hk' hr hd
      exact ⟨statusOf t.verdict a, k1, by simp only [e, Option.map_some],
        ⟨⟨h1.rx.1.len, h1.rx.1.last, h1.rx.1.items, h1.rx.1.data⟩, h1.rx.2⟩,
        ⟨h1.cb.urc, h1.cb.input, h1.cb.send, h1.cb.data⟩⟩
    | prompt cb =>
      rw [hway] at hd
      have hk' : InOrder cfg ⟨{ k.rx with sendCb := cb }, k.tx⟩ :=
        ⟨⟨⟨hk.rx.1.len, hk.rx.1.last, hk.rx.1.items, hk.rx.1.data⟩, hk.rx.2⟩,
          ⟨hk.cb.urc, hk.cb.input, fun f hf => hcb f (by rw [hway]; exact congrArg _ hf), hk.cb.data⟩, hk.tx, hk.texts⟩
      obtain ⟨a, k1, e, h1, -⟩ := exchange_total hk' hr hd
      exact ⟨statusOf t.verdict a, ⟨{ k1.rx with sendCb := none }, k1.tx⟩, by simp only [e, Option.map_some],
        ⟨⟨h1.rx.1.len, h1.rx.1.last, h1.rx.1.items, h1.rx.1.data⟩, h1.rx.2⟩,
        ⟨h1.cb.urc, h1.cb.input, fun f hf => by simp at hf, h1.cb.data⟩⟩
  obtain ⟨st, k1, e1, hi1, hc1⟩ := hcmd
  unfold dataSend
  rw [e1]
  split
  · rename_i h; cases h
  · rename_i k2 h
    cases h
    obtain ⟨s, e2, hi2, sc2⟩ := reads_total io.between hi1 hc1 (hio.between _ e1)
    simp only [e2]
    unfold dataStep
    split
    · exact ⟨_, _, _, rfl⟩
    · simp only
      split
      · exact ⟨_, _, _, rfl⟩
      · have hi3 : RxInv cfg { s with cmd := .noResult } := ⟨⟨hi2.1.len, hi2.1.last, hi2.1.items, hi2.1.data⟩, hi2.2⟩
        have hc3 := (hc1.of_same sc2).of_same (show SameCb s { s with cmd := .noResult } from ⟨rfl, rfl⟩)
        obtain ⟨s3, e3, -⟩ := reads_total io.after hi3 hc3 (hio.after _ _ e1 e2)
        cases hpat : t.pattern with
        | none => simp only [Bool.true_eq_false, if_false, e3]; exact ⟨_, _, _, rfl⟩
        | some p =>
          simp only [e3]
          split
          · exact ⟨_, _, _, rfl⟩
          · exact ⟨_, _, _, rfl⟩
  · exact ⟨_, _, _, rfl⟩

/-! ## The theorems apply -/

/-- A port that accepts data after the prompt `"> "` (of which the callback makes the line `">"`, as the callbacks of
the ports in modules/ do). -/
def promptCfg : Cfg := { demoCfg 200 with succ := some [str "OK", str ">"] }

def promptCb : SendCb := fun t => if t = str "> " then (.ok, str ">" ++ [10], 2) else (.ok, t, t.length)

theorem promptCb_prompts : Prompts promptCb (str "> ") (str ">") where
  count := by
    intro t
    unfold promptCb
    split
    · rename_i h; subst h; rfl
    · rfl
  other := by
    intro t h
    unfold promptCb
    rw [if_neg h]
    exact ⟨Or.inl rfl, rfl⟩
  prompt := by
    unfold promptCb
    rw [if_pos rfl]
    exact ⟨Or.inl rfl, 10, by unfold LineEnd; decide, rfl⟩
  place := by decide
  line := ⟨by decide, by unfold LineEnd; decide⟩
  noEnd := by unfold LineEnd; decide

theorem promptCfg_port : PlainPort promptCfg := ⟨by decide, by decide, rfl, fun l => Nat.le_refl _⟩

theorem promptCfg_final (t : Pktio.CmdType) (p : Option Str) (tok : Str) (h : tok = str "OK" ∨ tok = str ">") :
    Final promptCfg t p tok ∧ Success promptCfg tok := by
  rcases h with rfl | rfl
  · refine ⟨⟨⟨?_, ?_⟩, Or.inl (Or.inr ⟨_, rfl, str "OK", by decide, by decide, by decide, [], by decide⟩)⟩,
      Or.inr ⟨_, rfl, str "OK", by decide, by decide, by decide, [], by decide⟩⟩
    · rw [← isUrcToken_iff]; decide +kernel
    · intro hp
      rw [← isPrefixPresent_iff (by decide) (by decide)] at hp
      exact absurd hp (by decide +kernel)
  · refine ⟨⟨⟨?_, ?_⟩, Or.inl (Or.inr ⟨_, rfl, str ">", by decide, by decide, by decide, [], by decide⟩)⟩,
      Or.inr ⟨_, rfl, str ">", by decide, by decide, by decide, [], by decide⟩⟩
    · rw [← isUrcToken_iff]; decide +kernel
    · intro hp
      rw [← isPrefixPresent_iff (by decide) (by decide)] at hp
      exact absurd hp (by decide +kernel)

/-- Data sent after a prompt that arrives in two pieces, with an unsolicited code before it. -/
def promptDemo : Scripted :=
  { transfer := ⟨.prompt (some promptCb), ⟨str "AT+QISEND=0,5", .noResult, none⟩, fun _ => .ok, some (str "he\rOK"), some [26]⟩
    io := ⟨[str "RING\r\n\r\n>", str " "], [], [str "\r\nO", str "K\r\n"], 5, 1⟩
    rest := [str "+CREG: 5\r\n"]
    consent := .lines []
    result := .lines [] }

/-- Data that the modem does not accept. -/
def refusedDemo : Scripted :=
  { promptDemo with io := ⟨[str "\r\nERR", str "OR\r\n"], [], [], 5, 1⟩, consent := .error }

theorem endsLine_of {t : Str} (h : t.getLast? = some 10) : EndsLine t := by
  intro b hb
  rw [h] at hb
  cases hb
  unfold LineEnd
  decide

theorem promptDemo_ok (n : Nat) (hn : n ≤ 100) : promptDemo.Ok promptCfg n ∧ promptDemo.Accepted := by
  refine ⟨⟨⟨by decide, by decide, fun k hk => nomatch hk⟩, ?_, ?_, ?_, ⟨_, rfl, by decide⟩, ?_, fun _ => ⟨Or.inl ?_, ?_⟩, ?_⟩,
    [], rfl, rfl⟩
  · refine ⟨str "> ", str ">", promptCb_prompts, by decide, (promptCfg_final _ _ _ (Or.inr rfl)).1,
      (promptCfg_final .noResult none _ (Or.inr rfl)).2,
      Or.inl ⟨[], ⟨[(false, str "RING")], str "RING\r\n\r\n", ?_, ?_, ?_, ?_, ?_, ?_, rfl⟩, rfl⟩⟩
    · decide +kernel
    · exact endsLine_of (by decide +kernel)
    · decide +kernel
    · intro x hx
      simp only [List.mem_cons, List.not_mem_nil, or_false] at hx
      subst hx
      exact ⟨by decide, by decide, nofun, fun _ => Or.inl ⟨_, rfl, by decide⟩⟩
    · rfl
    · decide +kernel
  · intro b hb; cases hb
  · exact endsLine_of (by decide +kernel)
  · intro p hp; cases hp; decide
  · refine ⟨[], str "OK", [], by decide +kernel, (by intro x hx; cases hx), rfl, by decide, (promptCfg_final _ _ _ (Or.inl rfl)).1,
      fun _ => rfl, fun h => absurd (promptCfg_final .noResult none _ (Or.inl rfl)).2 h⟩
  · exact endsLine_of (by decide +kernel)
  · have h1 : promptDemo.io.during.flatten.length = 10 := by decide +kernel
    have h2 : promptDemo.io.between.flatten.length = 0 := by decide +kernel
    have h3 : promptDemo.io.after.flatten.length = 6 := by decide +kernel
    have h4 : promptDemo.rest.flatten.length = 10 := by decide +kernel
    show _ < 200
    omega

theorem refusedDemo_ok (n : Nat) (hn : n ≤ 100) : refusedDemo.Ok promptCfg n ∧ ¬ refusedDemo.Accepted := by
  have hna : ¬ refusedDemo.Accepted := by rintro ⟨l, h, -⟩; cases h
  refine ⟨⟨(promptDemo_ok 0 (by omega)).1.req, ?_, ?_, (promptDemo_ok 0 (by omega)).1.rest, ⟨_, rfl, by decide⟩,
    (promptDemo_ok 0 (by omega)).1.pattern, fun h => absurd h hna, ?_⟩, hna⟩
  · refine ⟨str "> ", str ">", promptCb_prompts, by decide, (promptCfg_final _ _ _ (Or.inr rfl)).1,
      (promptCfg_final .noResult none _ (Or.inr rfl)).2, Or.inr ⟨by decide +kernel, endsLine_of (by decide +kernel),
        Or.inl ⟨[], str "ERROR", [], by decide +kernel, (by intro x hx; cases hx), rfl, by decide, ?_, ?_, fun _ => rfl⟩⟩⟩
    · refine ⟨⟨?_, ?_⟩, Or.inr ⟨_, rfl, str "ERROR", by decide, by decide, by decide, [], by decide⟩⟩
      · rw [← isUrcToken_iff]; decide +kernel
      · intro hp
        rw [← isPrefixPresent_iff (by decide) (by decide)] at hp
        exact absurd hp (by decide +kernel)
    · unfold Success
      rw [← isToken_iff (by decide +kernel) (by decide +kernel), ← isToken_iff (by decide +kernel) (by decide +kernel)]
      decide +kernel
  · intro b hb; cases hb
  · have h1 : refusedDemo.io.during.flatten.length = 9 := by decide +kernel
    have h2 : refusedDemo.io.between.flatten.length = 0 := by decide +kernel
    have h3 : refusedDemo.io.after.flatten.length = 0 := by decide +kernel
    have h4 : refusedDemo.rest.flatten.length = 10 := by decide +kernel
    show _ < 200
    omega

/-- A script of an accepted transfer, a refused one and another accepted one. -/
theorem script_served : Served promptCfg 0 [promptDemo, refusedDemo, promptDemo] := by
  refine .cons (promptDemo_ok 0 (by omega)).1 (m := 16) ⟨fun _ => ?_, fun h => absurd (promptDemo_ok 0 (by omega)).2 h⟩ ?_
  · decide +kernel
  refine .cons (refusedDemo_ok 16 (by omega)).1 (m := 35) ⟨fun h => absurd h (refusedDemo_ok 0 (by omega)).2, fun _ => ?_⟩ ?_
  · decide +kernel
  refine .cons (promptDemo_ok 35 (by omega)).1 (m := 16) ⟨fun _ => ?_, fun h => absurd (promptDemo_ok 0 (by omega)).2 h⟩ .nil
  decide +kernel

/-- ... and what the library does with it: the data, which contain a carriage return and `OK`, are on the
wire unchanged. -/
example : (dataSends promptCfg (start promptCfg)
      ([promptDemo, refusedDemo, promptDemo].map (fun x => (x.transfer, x.io, x.rest)))).map
      (fun r => (r.1, r.2.tx.wire, r.2.rx.events)) =
    some ([(.ok, some 5), (.failure, none), (.ok, some 5)],
      [str "AT+QISEND=0,5\r", str "he\rOK", [26], str "AT+QISEND=0,5\r", str "AT+QISEND=0,5\r", str "he\rOK", [26]],
      [.urc (str "RING"), .response true [], .response true [], .urc (str "+CREG: 5"), .response false [],
       .urc (str "+CREG: 5"), .urc (str "RING"), .response true [], .response true [], .urc (str "+CREG: 5")]) := by
  decide +kernel

/-- Does the transport keep its contract in these reads? -/
def deliversB (cfg : Cfg) : St → List Str → Bool
  | _, [] => true
  | s, c :: cs => decide (c.length ≤ room cfg s) && (match rxEvent cfg s c with
    | none => true
    | some r => deliversB cfg r.2 cs)

theorem delivers_of {cfg : Cfg} : ∀ {cs : List Str} {s : St}, deliversB cfg s cs = true → Delivers cfg s cs
  | [], _, _ => trivial
  | c :: cs, s, h => by
    simp only [deliversB, Bool.and_eq_true, decide_eq_true_eq] at h
    refine ⟨h.1, fun n s' e => ?_⟩
    rw [e] at h
    exact delivers_of h.2

/-- `C78_defined` applies: a transport that delivers byte soup in place of the prompt. -/
example : IoContract promptCfg (start promptCfg) promptDemo.transfer ⟨[str ">>\r", [0, 255, 13], str "> "], [[10, 43, 58]], [[0]], 5, 1⟩ where
  during := delivers_of (by decide +kernel)
  between := by
    intro k1 h
    have : (commandStep promptCfg (start promptCfg) promptDemo.transfer [str ">>\r", [0, 255, 13], str "> "]).all
        (fun r => deliversB promptCfg r.2.rx [[10, 43, 58]]) = true := by decide +kernel
    rw [h] at this
    exact delivers_of this
  after := by
    intro k1 s h h2
    have : (commandStep promptCfg (start promptCfg) promptDemo.transfer [str ">>\r", [0, 255, 13], str "> "]).all
        (fun r => (reads promptCfg r.2.rx [[10, 43, 58]]).all
          (fun s => deliversB promptCfg { s with cmd := .noResult } [[0]])) = true := by decide +kernel
    rw [h] at this
    simp only [Option.all_some, h2] at this
    exact delivers_of this

/-- If the transport does not take all data the library goes on waiting for a result nobody will fetch: the next line is
kept for it instead of being reported as what it is, a code nobody knows. -/
theorem C78_witness_send_error :
    (dataSend promptCfg (start promptCfg) promptDemo.transfer { promptDemo.io with taken := 3 }).map
      (fun r => (r.1, r.2.1, r.2.2.tx.wire, r.2.2.rx.cmd)) =
    some (.sendError, some 3, [str "AT+QISEND=0,5\r", str "he\r"], .noResult) := by
  decide +kernel

end Cellular.Props
