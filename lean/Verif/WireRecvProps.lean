import Verif.WireRecv
/-!
# Receiving data over the byte stream: C80
-/

namespace Cellular.Spec
open Cellular Cellular.Pktio Cellular.Wire Cellular.Props
open Cellular.Api (Req Reply)

/-- A part of the response to a command that fetches data, and the items it adds to the response: text without headers,
of which only the lines that are no unsolicited codes count; or a header line and, after its line end, as many bytes as it
announces, whatever they are. -/
inductive Talk (cfg : Cfg) (R : Recogniser) (pfx : Option Str) : Str → List Str → Prop
  | done : Talk cfg R pfx [] []
  | text {t body rest own} : NoHeader R t → unfinished t = [] → linesOf t = body.map (·.2) →
      Mixed cfg .multiDataWoPrefix pfx body → Talk cfg R pfx rest own → Talk cfg R pfx (t ++ rest) (mine body ++ own)
  | block {hdr eol data rest own} : R.hdr (hdr ++ eol) = .block hdr.length eol.length data.length →
      Intermediate cfg .multiDataWoPrefix pfx hdr → Talk cfg R pfx rest own →
      Talk cfg R pfx (hdr ++ eol ++ data ++ rest) (hdr :: data :: own)

/-- What a stream, read while a command fetching data is pending, tells the caller: lines and blocks, then a final
result code, then unsolicited codes only. -/
def Fetched (cfg : Cfg) (R : Recogniser) (pfx : Option Str) (stream : Str) (rep : Reply) : Prop :=
  ∃ s1 s2 own final later, stream = s1 ++ s2 ∧ Talk cfg R pfx s1 own ∧ NoHeader R s2 ∧ linesOf s2 = final :: later ∧
    final.length ≤ 256 ∧ Final cfg .multiDataWoPrefix pfx final ∧
    (∀ l ∈ later, l.length ≤ 256 ∧ ForOthers cfg .noCommand none l) ∧
    (Success cfg final → rep = .lines own) ∧ (¬ Success cfg final → rep = .error)

/-- Only unsolicited codes arrive. -/
def FetchSilent (cfg : Cfg) (R : Recogniser) (pfx : Option Str) (stream : Str) : Prop :=
  NoHeader R stream ∧ ∀ l ∈ linesOf stream, l.length ≤ 256 ∧ ForOthers cfg .multiDataWoPrefix pfx l

/-- A data receive that the library can make. -/
structure ValidFetch (R : Recogniser) (q : Fetch) : Prop where
  cb : Implements R q.cb
  type : q.type = .multiDataWoPrefix
  cmd : q.cmd.length ≤ 200
  pfx : ∀ p, q.pfx = some p → p ≠ [] ∧ p.length < 32 ∧ NoNul p

/-- One job of a script, what is read after it, and what the modem means. -/
inductive Entry2
  | ask (r : Req) (during rest : List Str) (rep : Reply)
  | send (x : Scripted)
  | fetch (R : Recogniser) (q : Fetch) (during rest : List Str) (rep : Reply)

/-- The job and the reads after it. -/
def Entry2.job : Entry2 → Job × List Str
  | .ask r during rest _ => (.ask r during, rest)
  | .send x => (.send x.transfer x.io, x.rest)
  | .fetch _ q during rest _ => (.fetch q during, rest)

/-- The modem answers as the script says, and what it sends fits into the receive buffer after `n` bytes. -/
def Entry2.Ok (cfg : Cfg) (n : Nat) : Entry2 → Prop
  | .ask r during rest rep => ValidReq r ∧
      (Answered cfg r during.flatten rep ∨ (Silent cfg r during.flatten ∧ rep = .timeout)) ∧
      EndsLine during.flatten ∧ EndsLine rest.flatten ∧ n + during.flatten.length + rest.flatten.length < cfg.size
  | .send x => x.Ok cfg n
  | .fetch R q during rest rep => ValidFetch R q ∧
      (Fetched cfg R q.pfx during.flatten rep ∨ (FetchSilent cfg R q.pfx during.flatten ∧ rep = .timeout)) ∧
      EndsLine during.flatten ∧ EndsLine rest.flatten ∧ n + during.flatten.length + rest.flatten.length < cfg.size

/-- What it reports and what it writes. -/
def Entry2.Outcome : Entry2 → Report → List Str → Prop
  | .ask r _ _ rep, o, w => o = .reply rep ∧ w = [r.cmd ++ [13]]
  | .send x, o, w => ∃ st n, o = .sent st n ∧ x.Outcome st n w
  | .fetch _ q _ _ rep, o, w => o = .reply rep ∧ w = [q.cmd ++ [13]]

/-- The unread bytes, counted from the last answer, after a job. -/
def Entry2.Next (n m : Nat) : Entry2 → Prop
  | .ask _ during rest rep => m = (if rep = .timeout then n else 0) + during.flatten.length + rest.flatten.length
  | .send x => x.Next n m
  | .fetch _ _ during rest rep => m = (if rep = .timeout then n else 0) + during.flatten.length + rest.flatten.length

/-- A script of jobs that the modem serves. -/
inductive Session (cfg : Cfg) : Nat → List Entry2 → Prop
  | nil {n} : Session cfg n []
  | cons {n m x l} : x.Ok cfg n → x.Next n m → Session cfg m l → Session cfg n (x :: l)

/-- The reports and the parts of the wire, in order. -/
inductive SessionReports : List Entry2 → List Report → List Str → Prop
  | nil : SessionReports [] [] []
  | cons {x l o w os ws} : x.Outcome o w → SessionReports l os ws → SessionReports (x :: l) (o :: os) (w ++ ws)

end Cellular.Spec

namespace Cellular.Props
open Cellular Cellular.Spec Cellular.Pktio Cellular.Wire
open Cellular.Api (Req Reply)

/-- `exchange` is the request of these types. -/
theorem request_exchange (cfg : Cfg) (k : Stack) (r : Req) (chunks : List Str) :
    request cfg k r.cmd (typeOf r.type) r.pfx chunks = exchange cfg k r chunks := rfl

/-- Sending, for any type of command. -/
theorem send_any {tx : Tx} (hw : TxWf tx) {cmd : Str} {type : Pktio.CmdType} {pfx : Option Str} (hc : cmd.length ≤ 200)
    (ht : type ≠ .noCommand) (hn : NeedsPrefix type → pfx ≠ none) (hp : ∀ p, pfx = some p → p ≠ [] ∧ p.length < 32 ∧ NoNul p) :
    ∃ tx', sendAtCmd tx (some cmd) type pfx = some (.ok, tx') ∧ TxWf tx' ∧ tx'.wire = tx.wire ++ [cmd ++ [13]] ∧
      tx'.cmd = type ∧ (if tx'.hasPrefix then (readStr tx'.prefixBuf 0).map some else some none) =
        some (if UsesPrefix type then pfx else none) := by
  obtain ⟨tx', h, hwire, hcmd, hwf⟩ := (C17_sent_exactly tx hw cmd type pfx).1 ⟨hc, ht, hn⟩
  refine ⟨tx', h, hwf, hwire, hcmd, ?_⟩
  have hns := C18_no_stale_prefix tx tx' hw cmd type pfx h
  by_cases hu : UsesPrefix type
  · cases hpf : pfx with
    | none =>
      rw [if_neg (by rw [hns, hpf]; simp)]
      simp
    | some q =>
      rw [hpf] at h
      obtain ⟨h1, h2, _⟩ := C18_prefix_stored_partial tx tx' hw cmd q type (hp q hpf).2.2 hu h
      rw [if_pos h1, h2 (hp q hpf).2.1, if_pos hu]
      rfl
  · rw [if_neg (by rw [hns]; simp [hu]), if_neg hu]

/-! ## The elements of the response -/

/-- Lines and blocks before `u`. -/
theorem talk_elems {cfg : Cfg} {R : Recogniser} {pfx : Option Str} (he : cfg.err ≠ none) (hsu : cfg.succ ≠ none)
    (hp : ∀ k, pfx = some k → k ≠ [] ∧ k.length ≤ 256) {s : Str} {own : List Str} (h : Talk cfg R pfx s own) :
    ∃ (es : List Elem) (urcs : List Str), (∀ u, parse R (s ++ u) = (es ++ (parse R u).1, (parse R u).2)) ∧
      ∀ lines ev, Rx.elems cfg ⟨.multiDataWoPrefix, pfx, lines, ev⟩ es =
        some ⟨.multiDataWoPrefix, pfx, lines ++ own, ev ++ urcs.map .urc⟩ := by
  induction h with
  | done => exact ⟨[], [], fun u => rfl, fun lines ev => by simp [Rx.elems]⟩
  | @text t body rest own h1 h2 h3 h4 _ ih =>
    obtain ⟨es, urcs, hpar, hel⟩ := ih
    refine ⟨(linesOf t).map .line ++ es, others body ++ urcs, ?_, ?_⟩
    · intro u
      rw [List.append_assoc, parse_lines R _ t _ (Nat.le_refl _) h1 (Or.inl h2), if_pos h2, if_pos h2, hpar u]
      simp
    · intro lines ev
      have hr := run_mixed he hsu body ⟨.multiDataWoPrefix, pfx, lines, ev⟩ (by simp) hp h4 (Or.inl (Or.inr (Or.inr rfl)))
      rw [Rx.elems_append, elems_lines, h3, hr]
      simp only [Option.bind_some]
      rw [hel]
      simp
  | @block hdr eol data rest own hh hi _ ih =>
    obtain ⟨es, urcs, hpar, hel⟩ := ih
    obtain ⟨sh1, sh2, sh3, sh4, sh5, sh6⟩ := R.shape _ _ _ _ hh
    have hne : hdr ≠ [] := by intro h0; rw [h0] at sh1; simp at sh1
    have hdr_no : NoEol hdr := by
      intro b hb
      exact sh5 b (by simpa using hb)
    obtain ⟨b, hr', hbr⟩ := List.exists_cons_of_ne_nil hne
    have hb : ¬ LineEnd b := hdr_no b (by rw [hbr]; simp)
    refine ⟨.header hdr :: .data data :: es, urcs, ?_, ?_⟩
    · intro u
      have hext : R.hdr (hdr ++ eol ++ data ++ rest ++ u) = .block hdr.length eol.length data.length := by
        rw [List.append_assoc, List.append_assoc (hdr ++ eol)]
        exact R.block_ext _ _ _ _ _ hh
      rw [parse_block R (b := b) (r := hr' ++ eol ++ data ++ rest ++ u) (by rw [hbr]; simp) hb hext]
      have d1 : (hdr ++ eol ++ data ++ rest ++ u).drop (hdr.length + eol.length) = data ++ (rest ++ u) := by
        rw [List.append_assoc, List.append_assoc (hdr ++ eol)]
        exact List.drop_left' (by simp)
      have d2 : (hdr ++ eol ++ data ++ rest ++ u).drop (hdr.length + eol.length + data.length) = rest ++ u := by
        rw [List.append_assoc]
        exact List.drop_left' (by simp; omega)
      have d3 : (hdr ++ eol ++ data ++ rest ++ u).take hdr.length = hdr := by simp
      rw [d1, d2, d3, if_pos (by simp), hpar u]
      simp
    · intro lines ev
      have hS : ¬ (isToken hdr cfg.extra = true ∨ isToken hdr cfg.succ = true) := by
        rintro (h | h)
        · exact hi.2.1 (Or.inl (isToken_sound hne h))
        · exact hi.2.1 (Or.inr (isToken_sound hne h))
      have hE : ¬ isToken hdr cfg.err = true := fun h => hi.2.2 (isToken_sound hne h)
      have hhead : Rx.header cfg ⟨.multiDataWoPrefix, pfx, lines, ev⟩ hdr =
          some ⟨.multiDataWoPrefix, pfx, lines ++ [hdr], ev⟩ := by
        unfold Rx.header
        rw [if_pos ⟨rfl, forCommand_solicited (by simp) hne hp hi.1, he, hsu, by simpa using (not_or.mp hS).1,
          by simpa using (not_or.mp hS).2, by simpa using hE⟩]
      simp only [Rx.elems, Rx.elem, hhead]
      rw [hel]
      simp

/-- The whole response. -/
theorem fetched_elems {cfg : Cfg} (hpp : PlainPort cfg) {R : Recogniser} {pfx : Option Str}
    (hp : ∀ k, pfx = some k → k ≠ [] ∧ k.length ≤ 256) {stream : Str} {rep : Reply} (h : Fetched cfg R pfx stream rep)
    (hend : EndsLine stream) (ev : List Event) :
    ∃ (urcs later : List Str) (st : Bool) (own : List Str), (if st then Reply.lines own else Reply.error) = rep ∧
      (parse R stream).2 = .text [] ∧
      Rx.elems cfg ⟨.multiDataWoPrefix, pfx, [], ev⟩ (parse R stream).1 =
        some ⟨.noCommand, none, [], ev ++ (urcs.map .urc ++ .response st own :: later.map .urc)⟩ := by
  obtain ⟨s1, s2, own, final, later, rfl, ht, hnh, hl, hf1, hf2, hlat, hs, hns⟩ := h
  obtain ⟨es, urcs, hpar, hel⟩ := talk_elems hpp.err hpp.succ hp ht
  have hmem : ∀ l, l ∈ final :: later → l ≠ [] := by
    intro l hm
    exact linesFrom_ne_nil s2 [] l (by have : l ∈ linesOf s2 := by rw [hl]; exact hm
                                       exact this)
  have hne2 : s2 ≠ [] := by
    rintro rfl
    simp [linesOf, linesFrom] at hl
  have hun : unfinished s2 = [] := by
    apply linesFrom_ends s2 [] hne2
    intro b hb
    apply hend b
    rw [List.getLast?_append, hb]
    rfl
  have h2 := parse_lines R _ s2 [] (Nat.le_refl _) hnh (Or.inr rfl)
  rw [List.append_nil, if_pos hun, if_pos hun] at h2
  have h0 : parse R [] = ([], .text []) := by simp [parse]
  rw [h0] at h2
  have hsol := forCommand_solicited (by simp) (hmem final (by simp)) hp hf2.1
  obtain ⟨st, hfin, hst⟩ := line_final (a := ⟨.multiDataWoPrefix, pfx, own, ev ++ urcs.map .urc⟩) hsol hpp.err hpp.succ
    (hmem final (by simp)) hf1 hf2.2
  refine ⟨urcs, later, st, own, ?_, ?_, ?_⟩
  · by_cases hS : Success cfg final
    · rw [if_pos (hst.mpr hS), hs hS]
    · rw [if_neg (fun h => hS (hst.mp h)), hns hS]
  · rw [hpar, h2]
  · rw [hpar, h2]
    simp only [List.append_nil]
    rw [Rx.elems_append, hel]
    simp only [Option.bind_some, elems_lines, hl, Rx.run, List.nil_append]
    rw [hfin]
    simp only [Rx.complete]
    rw [run_silent (by simp) later _ (fun l hm => ⟨hmem l (by simp [hm]), hlat l hm⟩)]
    simp

/-! ## One data receive -/

/-- The receive side while the data are fetched. -/
def fetching (s : St) (q : Fetch) : St := { s with dataCb := some q.cb, cmd := .multiDataWoPrefix, pfx := q.pfx }

theorem fetch_start {cfg : Cfg} {k : Stack} {N : Nat} (hk : Rest cfg k N) {R : Recogniser} {q : Fetch}
    (hq : ValidFetch R q) :
    RxRest cfg (fetching k.rx q) ∧ DataPort cfg R (fetching k.rx q) ∧
      BetweenD cfg (fetching k.rx q) ⟨.multiDataWoPrefix, q.pfx, [], k.rx.events⟩ (.text []) cfg.size ∧
      (fetching k.rx q).partialLen = 0 ∧ k.rx.resp = none := by
  obtain ⟨p0, hkb, hkp⟩ := hk.between
  have hl := between_len hk.inv hkb
  have hres : k.rx.resp = none := hkb.rep.idle rfl rfl
  refine ⟨RxInvD.rest ⟨hk.inv.1.len, hk.inv.1.last, hk.inv.1.items, hk.inv.1.data⟩,
    ⟨hk.noCb.input, hk.noCb.send, ⟨q.cb, rfl, hq.cb⟩, hk.noCb.urc⟩, ?_, hl, hres⟩
  exact quiet_data (s := fetching k.rx q) hk.inv.1.len (by have := hk.inv.2; unfold PosIn at this; simp only [fetching]; omega) hk.inv.1.data ⟨hl, hres⟩

theorem rest_of_data {cfg : Cfg} {s s0 : St} {a : Rx} {k : Stack} {N M : Nat} (hk : Rest cfg k N) {tx : Tx} (hw : TxWf tx)
    (hr : RxRest cfg s) (hb : BetweenD cfg s a (.text []) cfg.size) (sc : SameCb s0 s) (h0 : s0.sendCb = none)
    (ha : a.lines = []) (hres : s.resp = none) (hp : ∀ q, a.pfx = some q → q ≠ [] ∧ q.length ≤ 256) (hpos : PosIn M s) :
    Rest cfg ⟨{ s with cmd := .noCommand, dataCb := none }, tx⟩ M := by
  obtain ⟨d, hi, _⟩ := hr
  have hd : s.dataLen = 0 := hb.rest.2
  have hd0 : d = 0 := hi.data.symm.trans hd
  subst hd0
  refine ⟨⟨⟨hi.len, hi.last, hi.items, hi.data⟩, hb.pos⟩, ⟨hk.noCb.input, sc.1.trans h0, rfl, hk.noCb.urc⟩, hw, ?_, hpos⟩
  refine ⟨a.pfx, ⟨⟨rfl, hb.rep.pfx, rfl, ?_, fun _ _ => hres⟩, hb.rest.1, by simp [NoEol]⟩, hp⟩
  have := hb.rep.items
  rw [ha] at this
  exact this

/-- The shape of a data receive. -/
theorem dataRecv_of {cfg : Cfg} {k : Stack} (hw : TxWf k.tx) {R : Recogniser} {q : Fetch} (hq : ValidFetch R q)
    {chunks : List Str} {s : St} (hr : reads cfg (fetching k.rx q) chunks = some s) :
    ∃ tx, TxWf tx ∧ tx.wire = k.tx.wire ++ [q.cmd ++ [13]] ∧
      dataRecv cfg k q chunks = some (answer (s.events.drop k.rx.events.length),
        ⟨{ s with cmd := .noCommand, dataCb := none }, tx⟩) := by
  obtain ⟨tx, h1, h2, h3, h4, h5⟩ := send_any hw (cmd := q.cmd) (type := .multiDataWoPrefix) (pfx := q.pfx) hq.cmd
    (by simp) (by simp [NeedsPrefix]) hq.pfx
  rw [if_pos (show UsesPrefix .multiDataWoPrefix by simp [UsesPrefix])] at h5
  refine ⟨{ tx with cmd := .noCommand }, h2, h3, ?_⟩
  unfold dataRecv request
  simp only [hq.type, h1, h4, h5]
  unfold fetching at hr
  rw [hr]
  rfl

theorem fetch_pfx {R : Recogniser} {q : Fetch} (hq : ValidFetch R q) : ∀ p, q.pfx = some p → p ≠ [] ∧ p.length ≤ 256 := by
  intro p h
  have := hq.pfx p h
  exact ⟨this.1, by omega⟩

/-- Data are received exactly: if the bytes read while the command is pending are, in any pieces, the response of the
modem - lines, unsolicited codes and blocks of arbitrary bytes, then a final result code - then the caller gets the lines and
blocks in order and unchanged (or the error that the modem reports), the command was written, and the library is ready for the
next request. -/
theorem C80_fetched {cfg : Cfg} (hp : PlainPort cfg) {k : Stack} {N : Nat} (hk : Rest cfg k N) {R : Recogniser} {q : Fetch}
    (hq : ValidFetch R q) {chunks : List Str} (hfit : N + chunks.flatten.length < cfg.size)
    (hend : EndsLine chunks.flatten) {rep : Reply} (hA : Fetched cfg R q.pfx chunks.flatten rep) :
    ∃ k', dataRecv cfg k q chunks = some (rep, k') ∧ Rest cfg k' chunks.flatten.length ∧
      k'.tx.wire = k.tx.wire ++ [q.cmd ++ [13]] := by
  obtain ⟨g1, g2, g3, g4, g5⟩ := fetch_start hk hq
  obtain ⟨urcs, later, st, own, hrep, hrest, hel⟩ := fetched_elems hp (fetch_pfx hq) hA hend k.rx.events
  rw [← resumes_start] at hel hrest
  have hpos := hk.pos
  unfold PosIn at hpos
  obtain ⟨s, e, sc, hr, hb, hpo, hn⟩ := reads_all chunks g1 g2 g3 (by simp [resume, parse]) hel
    (show k.rx.readPtr.getD 0 + k.rx.partialLen + _ < _ by omega)
  rw [hrest] at hb
  obtain ⟨tx, hw, hwire, hd⟩ := dataRecv_of hk.tx hq e
  have hev : s.events = k.rx.events ++ (urcs.map .urc ++ .response st own :: later.map .urc) := hb.rep.events
  refine ⟨_, hd.trans ?_, rest_of_data hk hw hr hb sc hk.noCb.send rfl (hb.rep.idle rfl rfl) (by simp) ?_, hwire⟩
  · rw [hev, List.drop_left, answer_urcs, hrep]
  · rcases hn with g | g
    · exfalso
      unfold nresp at g
      have e0 : (fetching k.rx q).events = k.rx.events := rfl
      rw [e0, hev, List.countP_append, List.countP_append, List.countP_cons] at g
      simp only [isResp, if_true] at g
      omega
    · rw [g4] at g
      simpa using g

/-- If the modem sends only unsolicited codes the receive times out, and the library is ready for the next
request. -/
theorem C80_silent {cfg : Cfg} {k : Stack} {N : Nat} (hk : Rest cfg k N) {R : Recogniser} {q : Fetch}
    (hq : ValidFetch R q) {chunks : List Str} (hfit : N + chunks.flatten.length < cfg.size)
    (hend : EndsLine chunks.flatten) (hS : FetchSilent cfg R q.pfx chunks.flatten) :
    ∃ k', dataRecv cfg k q chunks = some (.timeout, k') ∧ Rest cfg k' (N + chunks.flatten.length) ∧
      k'.tx.wire = k.tx.wire ++ [q.cmd ++ [13]] := by
  obtain ⟨g1, g2, g3, g4, g5⟩ := fetch_start hk hq
  have hun : unfinished chunks.flatten = [] := by
    by_cases h0 : chunks.flatten = []
    · rw [h0]; rfl
    · exact linesFrom_ends _ [] h0 hend
  have h2 := parse_lines R _ chunks.flatten [] (Nat.le_refl _) hS.1 (Or.inr rfl)
  have h0 : parse R [] = ([], .text []) := by simp [parse]
  rw [List.append_nil, if_pos hun, if_pos hun, h0] at h2
  simp only [List.append_nil] at h2
  have hel := run_silent (fetch_pfx hq) (linesOf chunks.flatten) k.rx.events (fun l hl =>
    ⟨linesFrom_ne_nil chunks.flatten [] l hl, hS.2 l hl⟩)
  rw [← elems_lines, show (linesOf chunks.flatten).map Elem.line = (parse R chunks.flatten).1 by rw [h2],
    ← resumes_start] at hel
  have hpos := hk.pos
  unfold PosIn at hpos
  obtain ⟨s, e, sc, hr, hb, hpo, hn⟩ := reads_all chunks g1 g2 g3 (by simp [resume, parse]) hel
    (show k.rx.readPtr.getD 0 + k.rx.partialLen + _ < _ by omega)
  rw [resumes_start, h2] at hb
  obtain ⟨tx, hw, hwire, hd⟩ := dataRecv_of hk.tx hq e
  have hev : s.events = k.rx.events ++ (linesOf chunks.flatten).map .urc := hb.rep.events
  have hresp : s.resp = none := by
    obtain ⟨-, ev, he, hc⟩ := reads_kept e
    have hev' : ev = (linesOf chunks.flatten).map .urc := by
      have : k.rx.events ++ ev = k.rx.events ++ (linesOf chunks.flatten).map .urc := by rw [← hev]; exact he.symm
      exact List.append_cancel_left this
    rcases hc with ⟨x, hm, hne⟩ | hc | hc
    · rw [hev', List.mem_map] at hm
      obtain ⟨l, -, rfl⟩ := hm
      exact absurd rfl (hne l)
    · rw [hc]; exact g5
    · exfalso
      have hit := hb.rep.items.2
      have : nItems s = 0 := by
        unfold nItems
        exact hit.length_eq
      omega
  refine ⟨_, hd.trans ?_, rest_of_data hk hw hr hb sc hk.noCb.send rfl hresp (fetch_pfx hq) ?_, hwire⟩
  · rw [hev, List.drop_left, answer_none]
  · have : PosIn (k.rx.readPtr.getD 0 + k.rx.partialLen + chunks.flatten.length) s := hpo
    unfold PosIn at this ⊢
    omega

/-! ## Sessions -/

/-- Any sequence of requests, data sends and data receives, as a socket user makes them: each reports what the modem
means, and what is written is, job by job, the command and, for an accepted data send, the data and the end pattern. -/
theorem C80_session {cfg : Cfg} (hp : PlainPort cfg) : ∀ {n : Nat} {l : List Entry2}, Session cfg n l →
    ∀ {k : Stack}, Rest cfg k n →
    ∃ os w k', runJobs cfg k (l.map Entry2.job) = some (os, k') ∧ SessionReports l os w ∧ k'.tx.wire = k.tx.wire ++ w := by
  intro n l h
  induction h with
  | nil => intro k _; exact ⟨[], [], k, rfl, .nil, by simp⟩
  | @cons n m x l hx hn _ ih =>
    intro k hk
    -- one job, the reads after it, and the rest
    have step : ∀ (o : Report) (w1 : List Str) (k1 : Stack) (M : Nat), runJob cfg k x.job.1 = some (o, k1) → x.Outcome o w1 →
        Rest cfg k1 M → M + x.job.2.flatten.length = m → m < cfg.size → EndsLine x.job.2.flatten →
        k1.tx.wire = k.tx.wire ++ w1 →
        ∃ os w k', runJobs cfg k ((x :: l).map Entry2.job) = some (os, k') ∧ SessionReports (x :: l) os w ∧
          k'.tx.wire = k.tx.wire ++ w := by
      intro o w1 k1 M e1 ho hr1 hM hlt hre hw1
      obtain ⟨s2, e2, hr2⟩ := idle_reads hr1 (chunks := x.job.2) (by omega) hre
      rw [hM] at hr2
      obtain ⟨os, w, k', e3, hos, hw⟩ := ih hr2
      refine ⟨o :: os, w1 ++ w, k', ?_, .cons ho hos, ?_⟩
      · simp only [List.map_cons, runJobs, e1, e2, e3, Option.map_some]
      · rw [hw]; simp only [hw1, List.append_assoc]
    cases x with
    | ask r during rest rep =>
      obtain ⟨hv, hans, hend, hre, hfit⟩ := hx
      have hm : m = (if rep = .timeout then n else 0) + during.flatten.length + rest.flatten.length := hn
      rcases hans with hA | ⟨hS, rfl⟩
      · obtain ⟨k1, e1, hr1, hw1, -⟩ := exchange_answered' hp hk hv (by omega) hend hA
        have hne := answered_not_timeout hA
        rw [if_neg hne] at hm
        exact step (.reply rep) _ k1 _ (by simp only [Entry2.job, runJob, e1, Option.map_some]) ⟨rfl, rfl⟩ hr1
          (by simp only [Entry2.job]; omega) (by omega) hre hw1
      · obtain ⟨k1, e1, hr1, hw1⟩ := exchange_silent hk hv (by omega) hend hS
        rw [if_pos rfl] at hm
        exact step (.reply .timeout) _ k1 _ (by simp only [Entry2.job, runJob, e1, Option.map_some]) ⟨rfl, rfl⟩ hr1
          (by simp only [Entry2.job]; omega) (by omega) hre hw1
    | send x =>
      have hx : x.Ok cfg n := hx
      have hn : x.Next n m := hn
      have hfit := hx.fits
      by_cases ha : x.Accepted
      · obtain ⟨d, k1, hd, e1, hr1, hw1⟩ := C78_transfer hp hk hx ha
        have hm := hn.1 ha
        have hlo : leftover x.result (n + x.io.during.flatten.length + x.io.between.flatten.length) =
            if x.result = .timeout then n + x.io.during.flatten.length + x.io.between.flatten.length else 0 := by
          cases x.result <;> simp [leftover]
        rw [hlo] at hr1
        refine step (.sent _ _) _ k1 _ (show Option.map _ (dataSend cfg k x.transfer x.io) = _ by rw [e1]; rfl) ⟨_, _, rfl, ?_, ?_⟩ hr1
          (by simp only [Entry2.job]; exact hm.symm) (by rw [hm]; split <;> omega) hx.rest hw1
        · intro _
          exact ⟨means_status _ _, by rw [hd]; rfl, by rw [hd]; rfl⟩
        · exact fun h => absurd ha h
      · obtain ⟨k1, e1, hst, hr1, hw1⟩ := C78_not_accepted hp hk hx ha
        have hm := hn.2 ha
        refine step (.sent _ _) _ k1 _ (show Option.map _ (dataSend cfg k x.transfer x.io) = _ by rw [e1]; rfl) ⟨_, _, rfl, ?_, ?_⟩ hr1
          (by simp only [Entry2.job]; exact hm.symm) (by omega) hx.rest hw1
        · exact fun h => absurd h ha
        · intro _
          exact ⟨means_status _ _, hst, rfl, rfl⟩
    | fetch R q during rest rep =>
      obtain ⟨hv, hans, hend, hre, hfit⟩ := hx
      have hm : m = (if rep = .timeout then n else 0) + during.flatten.length + rest.flatten.length := hn
      rcases hans with hA | ⟨hS, rfl⟩
      · obtain ⟨k1, e1, hr1, hw1⟩ := C80_fetched hp hk hv (by omega) hend hA
        have hne : rep ≠ .timeout := by
          obtain ⟨_, _, own, final, _, _, _, _, _, _, _, _, hs, hns⟩ := hA
          by_cases hS : Success cfg final
          · rw [hs hS]; simp
          · rw [hns hS]; simp
        rw [if_neg hne] at hm
        exact step (.reply rep) _ k1 _ (by simp only [Entry2.job, runJob, e1, Option.map_some]) ⟨rfl, rfl⟩ hr1
          (by simp only [Entry2.job]; omega) (by omega) hre hw1
      · obtain ⟨k1, e1, hr1, hw1⟩ := C80_silent hk hv (by omega) hend hS
        rw [if_pos rfl] at hm
        exact step (.reply .timeout) _ k1 _ (by simp only [Entry2.job, runJob, e1, Option.map_some]) ⟨rfl, rfl⟩ hr1
          (by simp only [Entry2.job]; omega) (by omega) hre hw1

/-! ## The theorems apply -/

theorem demo_noHeader {t : Str} (h : ∀ k, k < t.length → demoHdr (t.drop k) = .no) : NoHeader demoRecogniser t := by
  intro y hy hs
  obtain ⟨x, rfl⟩ := hs
  have := h x.length (by
    have := List.length_pos_iff.mpr hy
    simp; omega)
  simpa [demoRecogniser] using this

/-- Fetching data in the example port. -/
def demoFetch : Fetch := ⟨demoDataCb, str "AT+QIRD=0", .multiDataWoPrefix, some (str "+D")⟩

theorem demoFetch_valid : ValidFetch demoRecogniser demoFetch :=
  ⟨demo_implements, rfl, by decide, by intro p h; cases h; decide⟩

/-- An unsolicited code, two blocks, which contain CR, LF, NUL, `OK`, an unsolicited code and a header, the result and another
unsolicited code, in five pieces. -/
def demoFetched : List Str :=
  [str "RING\r\n+D:7\r", [10, 13, 10], str "OK\r\n", [0] ++ str "\r\n+D:9\r\nRING\r\n+D:", str "\r\nOK\r\nRING\r\n"]

def demoItems : List Str := [str "+D:7", [13, 10] ++ str "OK\r\n" ++ [0], str "+D:9", str "RING\r\n+D:"]

theorem demo_header (h : Str) (hh : h = str "+D:7" ∨ h = str "+D:9") :
    Intermediate promptCfg .multiDataWoPrefix (some (str "+D")) h := by
  rcases hh with rfl | rfl
  all_goals
    refine ⟨⟨?_, fun _ => ⟨by decide, _, rfl, _, rfl⟩⟩, ?_, ?_⟩
    · rw [← isUrcToken_iff]; decide +kernel
    · unfold Success
      rw [← isToken_iff (by decide +kernel) (by decide +kernel), ← isToken_iff (by decide +kernel) (by decide +kernel)]
      decide +kernel
    · rw [← isToken_iff (by decide +kernel) (by decide +kernel)]
      decide +kernel

theorem demo_urc {type : Pktio.CmdType} {pfx : Option Str} : ForOthers promptCfg type pfx (str "RING") := Or.inl ⟨_, rfl, by decide⟩

theorem demoFetched_ok : Fetched promptCfg demoRecogniser demoFetch.pfx demoFetched.flatten (.lines demoItems) := by
  refine ⟨str "RING\r\n" ++ (str "+D:7" ++ [13, 10] ++ ([13, 10] ++ str "OK\r\n" ++ [0]) ++ (str "\r\n" ++ (str "+D:9" ++ [13, 10] ++ str "RING\r\n+D:" ++ []))),
    str "\r\nOK\r\nRING\r\n", _, str "OK", [str "RING"], ?_,
    .text (body := [(false, str "RING")]) ?_ ?_ ?_ ?_ (.block ?_ (demo_header _ (Or.inl rfl)) (.text (body := []) ?_ ?_ ?_ ?_ (.block ?_ (demo_header _ (Or.inr rfl)) .done))),
    ?_, ?_, by decide, (promptCfg_final _ _ _ (Or.inl rfl)).1, ?_, fun _ => rfl,
    fun h => absurd (promptCfg_final .noResult none _ (Or.inl rfl)).2 h⟩
  · decide +kernel
  · exact demo_noHeader (by decide +kernel)
  · decide +kernel
  · decide +kernel
  · intro x hx
    simp only [List.mem_cons, List.not_mem_nil, or_false] at hx
    subst hx
    exact ⟨by decide, by decide, nofun, fun _ => demo_urc⟩
  · decide +kernel
  · exact demo_noHeader (by decide +kernel)
  · decide +kernel
  · decide +kernel
  · intro x hx; cases hx
  · decide +kernel
  · exact demo_noHeader (by decide +kernel)
  · decide +kernel
  · intro l hl
    simp only [List.mem_cons, List.not_mem_nil, or_false] at hl
    subst hl
    exact ⟨by decide, demo_urc⟩

/-- A socket's life: a command, data sent, data received, a receive to which the modem does not answer, and another one. -/
def demoSession : List Entry2 :=
  [.ask ⟨str "AT+QIOPEN=1", .noResult, none⟩ [str "\r\nOK\r\n"] [] (.lines []),
   .send promptDemo,
   .fetch demoRecogniser demoFetch demoFetched [str "RING\r\n"] (.lines demoItems),
   .fetch demoRecogniser demoFetch [str "RING\r\n"] [] .timeout,
   .fetch demoRecogniser demoFetch demoFetched [] (.lines demoItems)]

theorem demoSession_ok : Session promptCfg 0 demoSession := by
  have hask : Answered promptCfg ⟨str "AT+QIOPEN=1", .noResult, none⟩ [str "\r\nOK\r\n"].flatten (.lines []) :=
    ⟨[], str "OK", [], by decide +kernel, (by intro x hx; cases hx), rfl, by decide, (promptCfg_final _ _ _ (Or.inl rfl)).1,
      fun _ => rfl, fun h => absurd (promptCfg_final .noResult none _ (Or.inl rfl)).2 h⟩
  have hsil : FetchSilent promptCfg demoRecogniser demoFetch.pfx [str "RING\r\n"].flatten := by
    refine ⟨demo_noHeader (by decide +kernel), ?_⟩
    rw [show linesOf [str "RING\r\n"].flatten = [str "RING"] by decide +kernel]
    intro l hl
    simp only [List.mem_cons, List.not_mem_nil, or_false] at hl
    subst hl
    exact ⟨by decide, demo_urc⟩
  have el : ∀ t : List Str, t.flatten.getLast? = some 10 → EndsLine t.flatten := fun _ h => endsLine_of h
  have en : EndsLine ([] : List Str).flatten := by intro b hb; cases hb
  refine .cons (m := 6) ⟨⟨by decide, by decide, fun k hk => nomatch hk⟩, Or.inl hask, el _ (by decide +kernel), en, by decide +kernel⟩
    (by unfold Entry2.Next; decide +kernel) ?_
  refine .cons (m := 16) (promptDemo_ok 6 (by omega)).1 ⟨fun _ => by decide +kernel, fun h => absurd (promptDemo_ok 0 (by omega)).2 h⟩ ?_
  refine .cons (m := 54) ⟨demoFetch_valid, Or.inl demoFetched_ok, el _ (by decide +kernel), el _ (by decide +kernel), by decide +kernel⟩
    (by unfold Entry2.Next; decide +kernel) ?_
  refine .cons (m := 60) ⟨demoFetch_valid, Or.inr ⟨hsil, rfl⟩, el _ (by decide +kernel), en, by decide +kernel⟩ (by unfold Entry2.Next; decide +kernel) ?_
  exact .cons (m := 48) ⟨demoFetch_valid, Or.inl demoFetched_ok, el _ (by decide +kernel), en, by decide +kernel⟩ (by unfold Entry2.Next; decide +kernel) .nil

/-- ... and what the library reports. -/
example : (runJobs promptCfg (start promptCfg) (demoSession.map Entry2.job)).map (fun r => (r.1, r.2.tx.wire)) =
    some ([.reply (.lines []), .sent .ok (some 5), .reply (.lines demoItems), .reply .timeout, .reply (.lines demoItems)],
      [str "AT+QIOPEN=1\r", str "AT+QISEND=0,5\r", str "he\rOK", [26], str "AT+QIRD=0\r", str "AT+QIRD=0\r", str "AT+QIRD=0\r"]) := by
  decide +kernel

/-! ## What the code does not do -/

/-- If a modem stops in the middle of a block, the receive times out.  The bytes it announced are still awaited; the answer
to the next command is taken for them, and that command times out too. -/
theorem C80_witness_timeout_in_block :
    (runJobs promptCfg (start promptCfg)
      [(.fetch demoFetch [str "+D:9\r\nabc"], []), (.ask ⟨str "AT", .noResult, none⟩ [str "\r\nOK\r\n"], [])]).map (·.1) =
      some [.reply .timeout, .reply .timeout] := by decide +kernel

/-- If a modem sends another header in the same read as the result, its data, when they arrive, are handled with no response to put them
into: undefined behaviour. -/
theorem C80_witness_late_header :
    runJobs promptCfg (start promptCfg) [(.fetch demoFetch [str "+D:3\r\nabc\r\nOK\r\n+D:3\r\n", str "abc\r\n"], [])] = none := by
  apply Option.isNone_iff_eq_none.mp
  decide +kernel

end Cellular.Props
