import Verif.Wire
import Verif.WirePos
/-!
# From bytes to replies: C70
-/

namespace Cellular.Props
open Cellular Cellular.Spec Cellular.Pktio Cellular.Wire
open Cellular.Api (Req Reply)

/-! ## Specification -/

/-- A request the library can make: a command of at most 200 characters, with a response prefix (shorter than 32
characters) if its type needs one. -/
structure ValidReq (r : Req) : Prop where
  cmd : r.cmd.length ≤ 200
  needs : NeedsPrefix (typeOf r.type) → r.pfx ≠ none
  pfx : ∀ k, r.pfx = some k → k ≠ [] ∧ k.length < 32 ∧ NoNul k

/-- The prefix that lines of the response carry. -/
def respPrefix (r : Req) : Option Str := if UsesPrefix (typeOf r.type) then r.pfx else none

/-- The lines a response may have, by command type. -/
def LineCount (t : Api.CmdType) (n : Nat) : Prop :=
  match t with
  | .noResult => n = 0
  | .woPrefix => n ≤ 1
  | .withPrefix => n ≤ 1
  | .multiWithPrefix => True

/-- What a stream of bytes, read while the request `r` is pending, tells the caller: its lines are
`body` - lines of the response and unsolicited codes in any order -, then a final result code, then anything. The answer is
the lines of the response, or an error. -/
def Answered (cfg : Cfg) (r : Req) (stream : Str) (rep : Reply) : Prop :=
  ∃ body final tail, linesOf stream = body.map (·.2) ++ final :: tail ∧
    Mixed cfg (typeOf r.type) (respPrefix r) body ∧ LineCount r.type (mine body).length ∧
    final.length ≤ 256 ∧ Final cfg (typeOf r.type) (respPrefix r) final ∧
    (Success cfg final → rep = .lines (mine body)) ∧ (¬ Success cfg final → rep = .error)

/-- The stream does not stop in the middle of a line. -/
def EndsLine (s : Str) : Prop := ∀ b, s.getLast? = some b → LineEnd b

/-- The port: result code tables, no input callback, unsolicited codes handled in place. -/
structure PlainPort (cfg : Cfg) : Prop where
  err : cfg.err ≠ none
  succ : cfg.succ ≠ none
  input : cfg.inputCb = none
  urc : ∀ l, (cfg.urcEdit l).length ≤ l.length

/-- While the request `r` is pending only unsolicited codes arrive. -/
def Silent (cfg : Cfg) (r : Req) (stream : Str) : Prop :=
  ∀ l ∈ linesOf stream, l.length ≤ 256 ∧ ForOthers cfg (typeOf r.type) (respPrefix r) l

/-- Bytes received since the last request that was answered, when the requests `rs` are made after `done`, with `n` such
bytes then. -/
def backlog (m : Modem) (ans : List Req → Req → Reply) (n : Nat) (done : List Req) : List Req → Nat
  | [] => n
  | r :: rs => backlog m ans ((match ans done r with | .timeout => n | _ => 0) +
      (m.during done r).flatten.length + (m.after done r).flatten.length) (done ++ [r]) rs

/-- The modem `m` answers every request as `ans` says: it sends the bytes of the answer, cut into reads in any way and
mixed with unsolicited codes, or (`timeout`) only unsolicited codes.  What it sends between requests is arbitrary.  What
is received from one answer to the next fits in the receive buffer of the library. -/
structure Speaks (cfg : Cfg) (m : Modem) (ans : List Req → Req → Reply) : Prop where
  answers : ∀ h r, (∀ x ∈ h, ValidReq x) → ValidReq r → Answered cfg r (m.during h r).flatten (ans h r) ∨
    (Silent cfg r (m.during h r).flatten ∧ ans h r = .timeout)
  ends : ∀ h r, EndsLine (m.during h r).flatten ∧ EndsLine (m.after h r).flatten
  fits : ∀ h r, (∀ x ∈ h, ValidReq x) → backlog m ans 0 [] h + (m.during h r).flatten.length < cfg.size

/-! ## Reads -/

theorem reads_of_ok {cfg : Cfg} {s s' : St} {chunks : List Str} (h : ReadsOk cfg s chunks s') :
    reads cfg s chunks = some s' := by
  induction h with
  | nil s => rfl
  | cons _ _ he _ ih => simp only [reads, he, ih]

/-- Reads that fit after the unread text are possible. -/
theorem readsOk_exists {cfg : Cfg} : ∀ (chunks : List Str) (s : St), RxInv cfg s → NoCb cfg s →
    s.readPtr.getD 0 + s.partialLen + chunks.flatten.length < cfg.size →
    ∃ s', ReadsOk cfg s chunks s' ∧ PosIn (s.readPtr.getD 0 + s.partialLen + chunks.flatten.length) s' := by
  intro chunks
  induction chunks with
  | nil => intro s _ _ _; exact ⟨s, .nil s, by simp [PosIn]⟩
  | cons c t ih =>
    intro s h hn hfit
    have hrf := room_fits h
    simp only [List.flatten_cons, List.length_append] at hfit ⊢
    have hroom : c.length ≤ room cfg s := by omega
    obtain ⟨k, s1, e, h1, sc, p1, _⟩ := rxEvent_inv h hn.inText hroom
    unfold PosIn at p1
    obtain ⟨s', r, p⟩ := ih s1 h1 (hn.of_same sc) (by omega)
    refine ⟨s', .cons (fun ho => by have := ho.1; omega) hroom e r, ?_⟩
    unfold PosIn at p ⊢
    omega

theorem linesFrom_short : ∀ (t cur : Str), (linesFrom cur t).2.length ≤ cur.length + t.length := by
  intro t
  induction t with
  | nil => intro cur; simp [linesFrom]
  | cons b t ih =>
    intro cur
    simp only [linesFrom]
    split
    · split
      · have := ih []; simp at this ⊢; omega
      · have := ih []; simp at this ⊢; omega
    · have := ih (cur ++ [b]); simp at this ⊢; omega

theorem feed_short {cfg : Cfg} : ∀ (ls : List Str) (a : Rx) (cur : Str), (Rx.feed cfg a ls cur).2.length ≤ cur.length := by
  intro ls
  induction ls with
  | nil => intro a cur; simp [Rx.feed]
  | cons l t ih =>
    intro a cur
    simp only [Rx.feed]
    split
    · simp
    · exact ih _ _

theorem read_short (cfg : Cfg) (x : Rx × Str) (c : Str) : (Rx.read cfg x c).2.length ≤ x.2.length + c.length :=
  Nat.le_trans (feed_short _ _ _) (linesFrom_short _ _)

theorem between_len {cfg : Cfg} {s : St} {a : Rx} {cur : Str} (h : RxInv cfg s) (hb : Between s a cur) :
    s.partialLen = cur.length := by
  have hl := h.1.len
  have hp := h.2
  unfold PosIn at hp
  have := hb.text
  rw [← this, txt_length (by omega)]

/-- If a response was handed over during reads, the unread text is near the start of the buffer. -/
theorem readsOk_pos {cfg : Cfg} {s s' : St} {chunks : List Str} (hR : ReadsOk cfg s chunks s') :
    ∀ {a : Rx} {cur : Str}, RxInv cfg s → NoCb cfg s → Between s a cur →
    nresp s' = nresp s ∨ PosIn (cur.length + chunks.flatten.length) s' := by
  induction hR with
  | nil s => intro a cur _ _ _; exact Or.inl rfl
  | @cons s s1 s2 chunk chunks k hov hroom he hR ih =>
    intro a cur h hn hb
    obtain ⟨k', s1', e, h1, n1, b1, p1⟩ := rxEvent_refines h hn hb hroom (fun ho => hov (hb.overflow ho))
    rw [he] at e
    cases e
    have hs := read_short cfg (a, cur) chunk
    simp only at hs
    simp only [List.flatten_cons, List.length_append]
    rcases ih h1 n1 b1 with g | g
    · rcases rxEvent_pos h hn hroom he with g' | g'
      · exact Or.inl (g.trans g')
      · -- the position can only grow by what is read afterwards
        right
        have hlen := between_len h hb
        have grow : ∀ {s s' : St} {cs : List Str}, ReadsOk cfg s cs s' → RxInv cfg s → NoCb cfg s →
            PosIn (s.readPtr.getD 0 + s.partialLen + cs.flatten.length) s' := by
          intro s s' cs hR
          induction hR with
          | nil s => intro _ _; simp [PosIn]
          | cons _ hroom he _ ih =>
            intro h hn
            obtain ⟨_, _, e, h1, sc, p1, _⟩ := rxEvent_inv h hn.inText hroom
            rw [he] at e
            cases e
            have := ih h1 (hn.of_same sc)
            simp only [PosIn, List.flatten_cons, List.length_append] at this p1 ⊢
            omega
        have := grow hR h1 n1
        unfold PosIn at this g' ⊢
        omega
    · right
      unfold PosIn at g ⊢
      omega

theorem feed_append {cfg : Cfg} : ∀ (ls1 ls2 : List Str) (a a1 : Rx) (cur : Str), Rx.run cfg a ls1 = some a1 →
    Rx.feed cfg a (ls1 ++ ls2) cur = Rx.feed cfg a1 ls2 cur := by
  intro ls1
  induction ls1 with
  | nil => intro ls2 a a1 cur h; simp only [Rx.run, Option.some.injEq] at h; rw [h]; rfl
  | cons l t ih =>
    intro ls2 a a1 cur h
    simp only [Rx.run] at h
    simp only [List.cons_append, Rx.feed]
    cases hl : a.line cfg l with
    | none => rw [hl] at h; cases h
    | some b => rw [hl] at h; exact ih ls2 b a1 cur h

/-- An idle receiver: nothing is pending. -/
def Rx.Idle (a : Rx) : Prop := a.cmd = .noCommand ∧ a.lines = []

/-- These events contain no response. -/
def NoResp (ev : List Event) : Prop := ∀ st r, Event.response st r ∉ ev

theorem line_stays {cfg : Cfg} {a b : Rx} {l : Str} (ha : Rx.Idle a) (h : a.line cfg l = some b) :
    ∃ ev, b = { a with events := a.events ++ ev } ∧ NoResp ev := by
  unfold Rx.line at h
  split at h
  · cases h; exact ⟨_, rfl, by simp [NoResp]⟩
  · unfold Rx.undefinedLine at h
    split at h
    · cases h; exact ⟨_, rfl, by simp [NoResp]⟩
    · cases h
  · rename_i hm
    exact absurd ha.1 (getMsgType_solicited hm)

theorem NoResp.append {e1 e2 : List Event} (h1 : NoResp e1) (h2 : NoResp e2) : NoResp (e1 ++ e2) := by
  intro st r hr
  rcases List.mem_append.mp hr with h | h
  · exact h1 st r h
  · exact h2 st r h

theorem feed_stays {cfg : Cfg} : ∀ (ls : List Str) (a : Rx) (cur : Str), Rx.Idle a →
    ∃ ev p, (Rx.feed cfg a ls cur).1 = { a with events := a.events ++ ev, pfx := p } ∧ NoResp ev ∧ (p = a.pfx ∨ p = none) := by
  intro ls
  induction ls with
  | nil => intro a cur _; exact ⟨[], a.pfx, by simp [Rx.feed], by simp [NoResp], Or.inl rfl⟩
  | cons l t ih =>
    intro a cur ha
    simp only [Rx.feed]
    cases hl : a.line cfg l with
    | none =>
      refine ⟨[.undefined l], none, ?_, by simp [NoResp], Or.inr rfl⟩
      obtain ⟨c, p, ls, ev⟩ := a
      obtain ⟨h1, h2⟩ := ha
      simp only at h1 h2
      subst h1 h2
      rfl
    | some b =>
      obtain ⟨e1, rfl, n1⟩ := line_stays ha hl
      obtain ⟨e2, p2, h2, n2, v2⟩ := ih _ cur (show Rx.Idle { a with events := a.events ++ e1 } from ha)
      exact ⟨e1 ++ e2, p2, by simp only [h2, List.append_assoc], n1.append n2, v2⟩

theorem reads_stays {cfg : Cfg} : ∀ (chunks : List Str) (x : Rx × Str), Rx.Idle x.1 →
    ∃ ev p, (Rx.reads cfg x chunks).1 = { x.1 with events := x.1.events ++ ev, pfx := p } ∧ NoResp ev ∧
      (p = x.1.pfx ∨ p = none) := by
  intro chunks
  induction chunks with
  | nil => intro x _; exact ⟨[], x.1.pfx, by simp [Rx.reads], by simp [NoResp], Or.inl rfl⟩
  | cons c t ih =>
    intro x hx
    obtain ⟨e1, p1, h1, n1, v1⟩ := feed_stays (cfg := cfg) (linesFrom x.2 c).1 x.1 (linesFrom x.2 c).2 hx
    have h1' : (Rx.read cfg x c).1 = { x.1 with events := x.1.events ++ e1, pfx := p1 } := h1
    obtain ⟨e2, p2, h2, n2, v2⟩ := ih (Rx.read cfg x c) (by rw [h1']; exact hx)
    refine ⟨e1 ++ e2, p2, ?_, n1.append n2, ?_⟩
    rotate_left
    · rw [h1'] at v2
      rcases v2 with v2 | v2
      · exact v1.imp (fun e => v2.trans e) (fun e => v2.trans e)
      · exact Or.inr v2
    simp only [Rx.reads, List.foldl_cons] at h2 ⊢
    rw [h2, h1']
    simp

/-- Once the receiver is idle it stays so, whatever follows. -/
theorem reads_split {cfg : Cfg} : ∀ (chunks : List Str) (a a1 : Rx) (cur : Str) (ls1 ls2 : List Str),
    (linesFrom cur chunks.flatten).1 = ls1 ++ ls2 → Rx.run cfg a ls1 = some a1 → Rx.Idle a1 →
    ∃ ev p, (Rx.reads cfg (a, cur) chunks).1 = { a1 with events := a1.events ++ ev, pfx := p } ∧ NoResp ev ∧
      (p = a1.pfx ∨ p = none) := by
  intro chunks
  induction chunks with
  | nil =>
    intro a a1 cur ls1 ls2 hl hr _
    simp only [List.flatten_nil, linesFrom] at hl
    have : ls1 = [] := by
      cases ls1 with
      | nil => rfl
      | cons _ _ => cases hl
    subst this
    simp only [Rx.run, Option.some.injEq] at hr
    subst hr
    exact ⟨[], a.pfx, by simp [Rx.reads], by simp [NoResp], Or.inl rfl⟩
  | cons c t ih =>
    intro a a1 cur ls1 ls2 hl hr ha
    rw [List.flatten_cons, linesFrom_append] at hl
    simp only at hl
    rw [List.append_eq_append_iff] at hl
    rcases hl with ⟨m, h1, h2⟩ | ⟨m, h1, h2⟩
    · -- the command completes in a later read
      rw [h1, Rx.run_append] at hr
      cases h3 : Rx.run cfg a (linesFrom cur c).1 with
      | none => rw [h3] at hr; cases hr
      | some a' =>
        rw [h3] at hr
        have hrd : Rx.read cfg (a, cur) c = (a', (linesFrom cur c).2) := feed_run h3
        obtain ⟨ev, q, e, n, v⟩ := ih a' a1 (linesFrom cur c).2 m ls2 h2 hr ha
        refine ⟨ev, q, ?_, n, v⟩
        simp only [Rx.reads, List.foldl_cons, hrd] at e ⊢
        exact e
    · -- in this one
      have hrd : (Rx.read cfg (a, cur) c) = Rx.feed cfg a1 m (linesFrom cur c).2 := by
        unfold Rx.read
        simp only
        rw [h1]
        exact feed_append ls1 m a a1 _ hr
      obtain ⟨e1, q1, f1, n1, v1⟩ := feed_stays (cfg := cfg) m a1 (linesFrom cur c).2 ha
      obtain ⟨e2, q2, f2, n2, v2⟩ := reads_stays (cfg := cfg) t (Rx.read cfg (a, cur) c) (by rw [hrd, f1]; exact ha)
      refine ⟨e1 ++ e2, q2, ?_, n1.append n2, ?_⟩
      rotate_left
      · rw [hrd, f1] at v2
        rcases v2 with v2 | v2
        · exact v1.imp (fun e => v2.trans e) (fun e => v2.trans e)
        · exact Or.inr v2
      simp only [Rx.reads, List.foldl_cons] at f2 ⊢
      rw [f2, hrd, f1]
      simp

theorem linesFrom_ends : ∀ (t cur : Str), t ≠ [] → EndsLine t → (linesFrom cur t).2 = [] := by
  intro t
  induction t with
  | nil => intro cur h; exact absurd rfl h
  | cons b t ih =>
    intro cur _ he
    by_cases ht : t = []
    · subst ht
      have : LineEnd b := he b (by simp)
      simp only [linesFrom, if_pos this]
      split <;> rfl
    · have he' : EndsLine t := by
        intro x hx
        apply he x
        rw [List.getLast?_cons, hx]
        rfl
      simp only [linesFrom]
      split
      · split <;> exact ih _ ht he'
      · exact ih _ ht he'

theorem feed_cur {cfg : Cfg} : ∀ (ls : List Str) (a : Rx) (cur : Str), cur = [] → (Rx.feed cfg a ls cur).2 = [] := by
  intro ls a cur h
  have := feed_short (cfg := cfg) ls a cur
  rw [h] at this ⊢
  simpa using this

theorem reads_ends {cfg : Cfg} : ∀ (chunks : List Str) (x : Rx × Str), x.2 = [] ∨ chunks.flatten ≠ [] →
    EndsLine chunks.flatten → (Rx.reads cfg x chunks).2 = [] := by
  intro chunks
  induction chunks with
  | nil =>
    intro x h _
    rcases h with h | h
    · exact h
    · exact absurd rfl h
  | cons c t ih =>
    intro x h he
    simp only [Rx.reads, List.foldl_cons] at ih ⊢
    by_cases ht : t.flatten = []
    · simp only [List.flatten_cons, ht, List.append_nil] at h he
      refine ih _ (Or.inl ?_) (by rw [ht]; intro b hb; cases hb)
      unfold Rx.read
      apply feed_cur
      by_cases hc : c = []
      · subst hc
        rcases h with h | h
        · simpa [linesFrom] using h
        · exact absurd rfl h
      · exact linesFrom_ends c x.2 hc he
    · refine ih _ (Or.inr ht) ?_
      intro b hb
      apply he b
      rw [List.flatten_cons, List.getLast?_append, hb]
      rfl

/-! ## One exchange -/

/-- The packet layer between requests, at the end of a line, with the read position at most `P`. -/
structure Rest (cfg : Cfg) (k : Stack) (P : Nat) : Prop where
  inv : RxInv cfg k.rx
  noCb : NoCb cfg k.rx
  tx : TxWf k.tx
  between : ∃ p, Between k.rx ⟨.noCommand, p, [], k.rx.events⟩ [] ∧ ∀ q, p = some q → q ≠ [] ∧ q.length ≤ 256
  pos : PosIn P k.rx

theorem rest_start {cfg : Cfg} (hp : PlainPort cfg) : Rest cfg (start cfg) 0 := by
  refine ⟨rxInv_init cfg, ⟨hp.input, rfl, rfl, hp.urc⟩, ⟨rfl, rfl⟩, ?_, by simp [PosIn, start, Pktio.init]⟩
  exact ⟨none, Quiet.between (s := Pktio.init cfg.size) ⟨rfl, rfl⟩, by simp⟩

theorem answer_urcs : ∀ (l : List Str) (st : Bool) (ls : List Str) (ev : List Event),
    answer (l.map Event.urc ++ .response st ls :: ev) = if st then .lines ls else .error := by
  intro l
  induction l with
  | nil => intro st ls ev; cases st <;> rfl
  | cons x t ih => intro st ls ev; simp only [List.map_cons, List.cons_append, answer, ih]

theorem run_body {cfg : Cfg} (he : cfg.err ≠ none) (hsu : cfg.succ ≠ none) (r : Req)
    (body : List (Bool × Str)) (ev : List Event)
    (hp : ∀ k, respPrefix r = some k → k ≠ [] ∧ k.length ≤ 256)
    (hm : Mixed cfg (typeOf r.type) (respPrefix r) body) (hc : LineCount r.type (mine body).length) :
    Rx.run cfg ⟨typeOf r.type, respPrefix r, [], ev⟩ (body.map (·.2)) =
      some ⟨typeOf r.type, respPrefix r, mine body, ev ++ (others body).map .urc⟩ := by
  cases ht : r.type with
  | noResult =>
    rw [ht] at hc hm
    have hmine : mine body = [] := List.length_eq_zero_iff.mp hc
    have gen : ∀ (bd : List (Bool × Str)) (ev : List Event), Mixed cfg .noResult (respPrefix r) bd → mine bd = [] →
        Rx.run cfg ⟨.noResult, respPrefix r, [], ev⟩ (bd.map (·.2)) =
          some ⟨.noResult, respPrefix r, mine bd, ev ++ (others bd).map .urc⟩ := by
      intro bd
      induction bd with
      | nil => intro ev _ _; simp [Rx.run, mine, others]
      | cons x t ih =>
        intro ev hmx hmi
        obtain ⟨b, l⟩ := x
        obtain ⟨h1, h2, h3, h4⟩ := hmx (b, l) (by simp)
        cases b with
        | true => simp [mine] at hmi
        | false =>
          have hu : getMsgType cfg .noResult (respPrefix r) l = .unsolicited :=
            (C14_classification_partial cfg _ _ l h1 (h2 rfl) hp).1.mpr (h4 rfl)
          have hline : Rx.line cfg ⟨.noResult, respPrefix r, [], ev⟩ l =
              some ⟨.noResult, respPrefix r, [], ev ++ [.urc l]⟩ := by simp [Rx.line, hu]
          simp only [List.map_cons, Rx.run]
          rw [hline]
          simp only []
          rw [ih (ev ++ [Event.urc l]) (fun y hy => hmx y (by simp [hy])) (by simpa [mine] using hmi)]
          simp [mine, others]
    exact gen body ev hm hmine
  | woPrefix =>
    rw [ht] at hc hm
    have := run_mixed he hsu body ⟨.woPrefix, respPrefix r, [], ev⟩ (by simp) hp hm
      (Or.inr ⟨Or.inl rfl, by simpa [LineCount] using hc⟩)
    simpa [typeOf] using this
  | withPrefix =>
    rw [ht] at hc hm
    have := run_mixed he hsu body ⟨.withPrefix, respPrefix r, [], ev⟩ (by simp) hp hm
      (Or.inr ⟨Or.inr rfl, by simpa [LineCount] using hc⟩)
    simpa [typeOf] using this
  | multiWithPrefix =>
    rw [ht] at hm
    have := run_mixed he hsu body ⟨.multiWithPrefix, respPrefix r, [], ev⟩ (by simp) hp hm (Or.inl (Or.inl rfl))
    simpa [typeOf] using this

theorem typeOf_ne (t : Api.CmdType) : typeOf t ≠ .noCommand := by cases t <;> simp [typeOf]

/-- Sending: the command and a carriage return go to the modem, the receive task gets type and prefix. -/
theorem send_ok {k : Stack} {r : Req} (hw : TxWf k.tx) (hv : ValidReq r) :
    ∃ tx, sendAtCmd k.tx (some r.cmd) (typeOf r.type) r.pfx = some (.ok, tx) ∧ TxWf tx ∧
      tx.wire = k.tx.wire ++ [r.cmd ++ [13]] ∧ tx.cmd = typeOf r.type ∧
      (if tx.hasPrefix then (readStr tx.prefixBuf 0).map some else some none) = some (respPrefix r) := by
  obtain ⟨tx, h, hwire, hcmd, hwf⟩ := (C17_sent_exactly k.tx hw r.cmd (typeOf r.type) r.pfx).1
    ⟨hv.cmd, typeOf_ne _, hv.needs⟩
  refine ⟨tx, h, hwf, hwire, hcmd, ?_⟩
  have hns := C18_no_stale_prefix k.tx tx hw r.cmd (typeOf r.type) r.pfx h
  unfold respPrefix
  by_cases hu : UsesPrefix (typeOf r.type)
  · cases hp : r.pfx with
    | none =>
      rw [if_neg (by rw [hns, hp]; simp)]
      simp
    | some q =>
      rw [hp] at h
      obtain ⟨h1, h2, _⟩ := C18_prefix_stored_partial k.tx tx hw r.cmd q (typeOf r.type) (hv.pfx q hp).2.2 hu h
      rw [if_pos h1, h2 (hv.pfx q hp).2.1, if_pos hu]
      rfl
  · rw [if_neg (by rw [hns]; simp [hu]), if_neg hu]

theorem respPrefix_valid {r : Req} (hv : ValidReq r) (k : Str) (h : respPrefix r = some k) :
    k ≠ [] ∧ k.length ≤ 256 := by
  unfold respPrefix at h
  split at h
  · have := hv.pfx k h; exact ⟨this.1, by omega⟩
  · cases h

/-- Reads while the request `r` is pending that answer it. -/
theorem pending_answered {cfg : Cfg} (hp : PlainPort cfg) {k : Stack} {P : Nat} (hk : Rest cfg k P) {r : Req}
    (hvp : ∀ q, respPrefix r = some q → q ≠ [] ∧ q.length ≤ 256) {chunks : List Str}
    (hfit : P + chunks.flatten.length < cfg.size)
    (hend : EndsLine chunks.flatten) {rep : Reply} (hA : Answered cfg r chunks.flatten rep) :
    ∃ s, reads cfg { k.rx with cmd := typeOf r.type, pfx := respPrefix r } chunks = some s ∧
      answer (s.events.drop k.rx.events.length) = rep ∧ s.pfx = none ∧
      ∀ tx, TxWf tx → Rest cfg ⟨{ s with cmd := .noCommand }, tx⟩ chunks.flatten.length := by
  obtain ⟨body, final, tail, hlines, hm, hcount, hf1, hf2, hrep1, hrep2⟩ := hA
  have hpos := hk.pos
  unfold PosIn at hpos
  obtain ⟨p0, hkb, hkp⟩ := hk.between
  -- the state in which the command is pending
  let s0 : St := { k.rx with cmd := typeOf r.type, pfx := respPrefix r }
  have hi0 : RxInv cfg s0 := ⟨⟨hk.inv.1.len, hk.inv.1.last, hk.inv.1.items, hk.inv.1.data⟩, hk.inv.2⟩
  have hn0 : NoCb cfg s0 := ⟨hk.noCb.input, hk.noCb.send, hk.noCb.data, hk.noCb.urc⟩
  have hb0 : Between s0 ⟨typeOf r.type, respPrefix r, [], k.rx.events⟩ [] :=
    ⟨⟨rfl, rfl, rfl, hkb.rep.items, fun h => absurd h (typeOf_ne _)⟩, hkb.text, hkb.noEol⟩
  obtain ⟨s1, hR, hpos1⟩ := readsOk_exists chunks s0 hi0 hn0 (show k.rx.readPtr.getD 0 + k.rx.partialLen + _ < _ by omega)
  obtain ⟨hi1, hn1, hb1⟩ := readsOk_refine hR hi0 hn0 hb0
  have hne : final ≠ [] :=
    linesFrom_ne_nil chunks.flatten [] final (by
      have : final ∈ linesOf chunks.flatten := by rw [hlines]; simp
      exact this)
  have hs := forCommand_solicited (typeOf_ne _) hne hvp hf2.1
  obtain ⟨st, hfin, hst⟩ := line_final
    (a := ⟨typeOf r.type, respPrefix r, mine body, k.rx.events ++ (others body).map .urc⟩)
    hs hp.err hp.succ hne hf1 hf2.2
  have hrun : Rx.run cfg ⟨typeOf r.type, respPrefix r, [], k.rx.events⟩ (body.map (·.2) ++ [final]) =
      some ⟨.noCommand, none, [], k.rx.events ++ (others body).map .urc ++ [.response st (mine body)]⟩ := by
    rw [Rx.run_append, run_body hp.err hp.succ r body _ hvp hm hcount]
    simp only [Option.bind_some, Rx.run, hfin]
    rfl
  obtain ⟨ev, p1, hev, hnr, hv1⟩ := reads_split (cfg := cfg) chunks _ _ [] (body.map (·.2) ++ [final]) tail
    (by rw [List.append_assoc]; exact hlines) hrun ⟨rfl, rfl⟩
  have hcur := reads_ends (cfg := cfg) chunks
    ((⟨typeOf r.type, respPrefix r, [], k.rx.events⟩ : Rx), ([] : Str)) (Or.inl rfl) hend
  rw [hev, hcur] at hb1
  have hevents : s1.events = k.rx.events ++ ((others body).map .urc ++ .response st (mine body) :: ev) := by
    have := hb1.rep.events
    simpa using this
  have hans : answer (s1.events.drop k.rx.events.length) = rep := by
    rw [hevents, List.drop_left, answer_urcs]
    by_cases hS : Success cfg final
    · rw [if_pos (hst.mpr hS), hrep1 hS]
    · rw [if_neg (fun h => hS (hst.mp h)), hrep2 hS]
  have hpos2 : PosIn chunks.flatten.length s1 := by
    rcases readsOk_pos hR hi0 hn0 hb0 with g | g
    · exfalso
      unfold nresp at g
      rw [hevents, List.countP_append, List.countP_append, List.countP_cons] at g
      simp only [isResp, if_true] at g
      have : s0.events.countP isResp = k.rx.events.countP isResp := rfl
      omega
    · simpa using g
  have hp1 : p1 = none := by
    rcases hv1 with rfl | rfl <;> rfl
  refine ⟨s1, reads_of_ok hR, hans, ?_, ?_⟩
  · have := hb1.rep.pfx
    rw [this, hp1]
  intro tx hwf
  refine ⟨⟨⟨hi1.1.len, hi1.1.last, hi1.1.items, hi1.1.data⟩, hi1.2⟩, ⟨hn1.input, hn1.send, hn1.data, hn1.urc⟩, hwf, ?_, hpos2⟩
  refine ⟨p1, ⟨⟨rfl, hb1.rep.pfx, rfl, hb1.rep.items, fun _ _ => hb1.rep.idle rfl rfl⟩, hb1.text, hb1.noEol⟩, ?_⟩
  rw [hp1]
  simp

theorem exchange_answered' {cfg : Cfg} (hp : PlainPort cfg) {k : Stack} {P : Nat} (hk : Rest cfg k P) {r : Req}
    (hv : ValidReq r) {chunks : List Str} (hfit : P + chunks.flatten.length < cfg.size)
    (hend : EndsLine chunks.flatten) {rep : Reply} (hA : Answered cfg r chunks.flatten rep) :
    ∃ k', exchange cfg k r chunks = some (rep, k') ∧ Rest cfg k' chunks.flatten.length ∧
      k'.tx.wire = k.tx.wire ++ [r.cmd ++ [13]] ∧ k'.rx.pfx = none := by
  obtain ⟨tx, hsend, hwf, hwire, hcmd, hpfx⟩ := send_ok hk.tx hv
  obtain ⟨s1, hr, hans, hpn, hrest⟩ := pending_answered hp hk (respPrefix_valid hv) hfit hend hA
  refine ⟨⟨{ s1 with cmd := .noCommand }, { tx with cmd := .noCommand }⟩, ?_, hrest _ hwf, hwire, hpn⟩
  unfold exchange
  rw [hsend]
  simp only [hpfx, hcmd]
  rw [hr]
  simp only [hans]

theorem exchange_answered {cfg : Cfg} (hp : PlainPort cfg) {k : Stack} {P : Nat} (hk : Rest cfg k P) {r : Req}
    (hv : ValidReq r) {chunks : List Str} (hfit : P + chunks.flatten.length < cfg.size)
    (hend : EndsLine chunks.flatten) {rep : Reply} (hA : Answered cfg r chunks.flatten rep) :
    ∃ k', exchange cfg k r chunks = some (rep, k') ∧ Rest cfg k' chunks.flatten.length ∧
      k'.tx.wire = k.tx.wire ++ [r.cmd ++ [13]] := by
  obtain ⟨k', e, hr, hw, _⟩ := exchange_answered' hp hk hv hfit hend hA
  exact ⟨k', e, hr, hw⟩

theorem answer_none : ∀ (l : List Str), answer (l.map Event.urc) = .timeout := by
  intro l
  induction l with
  | nil => rfl
  | cons x t ih => simpa [answer] using ih

theorem run_silent {cfg : Cfg} {t : Pktio.CmdType} {pfx : Option Str}
    (hp : ∀ k, pfx = some k → k ≠ [] ∧ k.length ≤ 256) : ∀ (ls : List Str) (ev : List Event),
    (∀ l ∈ ls, l ≠ [] ∧ l.length ≤ 256 ∧ ForOthers cfg t pfx l) →
    Rx.run cfg ⟨t, pfx, [], ev⟩ ls = some ⟨t, pfx, [], ev ++ ls.map .urc⟩ := by
  intro ls
  induction ls with
  | nil => intro ev _; simp [Rx.run]
  | cons l ls ih =>
    intro ev h
    obtain ⟨h1, h2, h3⟩ := h l (by simp)
    have hu : getMsgType cfg t pfx l = .unsolicited := (C14_classification_partial cfg _ _ l h1 h2 hp).1.mpr h3
    have hline : Rx.line cfg ⟨t, pfx, [], ev⟩ l = some ⟨t, pfx, [], ev ++ [.urc l]⟩ := by simp [Rx.line, hu]
    simp only [Rx.run, hline]
    rw [ih _ (fun x hx => h x (by simp [hx]))]
    simp

theorem pending_silent {cfg : Cfg} {k : Stack} {P : Nat} (hk : Rest cfg k P) {r : Req}
    (hvp : ∀ q, respPrefix r = some q → q ≠ [] ∧ q.length ≤ 256) {chunks : List Str}
    (hfit : P + chunks.flatten.length < cfg.size)
    (hend : EndsLine chunks.flatten) (hS : Silent cfg r chunks.flatten) :
    ∃ s, reads cfg { k.rx with cmd := typeOf r.type, pfx := respPrefix r } chunks = some s ∧
      answer (s.events.drop k.rx.events.length) = .timeout ∧ s.pfx = respPrefix r ∧
      ∀ tx, TxWf tx → Rest cfg ⟨{ s with cmd := .noCommand }, tx⟩ (P + chunks.flatten.length) := by
  have hpos := hk.pos
  unfold PosIn at hpos
  obtain ⟨p0, hkb, hkp⟩ := hk.between
  let s0 : St := { k.rx with cmd := typeOf r.type, pfx := respPrefix r }
  have hi0 : RxInv cfg s0 := ⟨⟨hk.inv.1.len, hk.inv.1.last, hk.inv.1.items, hk.inv.1.data⟩, hk.inv.2⟩
  have hn0 : NoCb cfg s0 := ⟨hk.noCb.input, hk.noCb.send, hk.noCb.data, hk.noCb.urc⟩
  have hb0 : Between s0 ⟨typeOf r.type, respPrefix r, [], k.rx.events⟩ [] :=
    ⟨⟨rfl, rfl, rfl, hkb.rep.items, fun h => absurd h (typeOf_ne _)⟩, hkb.text, hkb.noEol⟩
  obtain ⟨s1, hR, hpos1⟩ := readsOk_exists chunks s0 hi0 hn0 (show k.rx.readPtr.getD 0 + k.rx.partialLen + _ < _ by omega)
  obtain ⟨hi1, hn1, hb1⟩ := readsOk_refine hR hi0 hn0 hb0
  have hrun := run_silent hvp (linesOf chunks.flatten) k.rx.events (fun l hl =>
    ⟨linesFrom_ne_nil chunks.flatten [] l hl, hS l hl⟩)
  have hcur := reads_ends (cfg := cfg) chunks
    ((⟨typeOf r.type, respPrefix r, [], k.rx.events⟩ : Rx), ([] : Str)) (Or.inl rfl) hend
  have hrd := reads_run (cfg := cfg) (chunks := chunks) hrun
  rw [hrd] at hcur
  rw [hrd, hcur] at hb1
  have hevents : s1.events = k.rx.events ++ (linesOf chunks.flatten).map .urc := hb1.rep.events
  have hresp : s1.resp = none := by
    obtain ⟨-, ev, he, hc⟩ := readsOk_kept hR
    have hev : ev = (linesOf chunks.flatten).map .urc := by
      have : k.rx.events ++ ev = k.rx.events ++ (linesOf chunks.flatten).map .urc := by rw [← hevents]; exact he.symm
      exact List.append_cancel_left this
    rcases hc with ⟨e, hm, hne⟩ | hc | hc
    · rw [hev, List.mem_map] at hm
      obtain ⟨l, -, rfl⟩ := hm
      exact absurd rfl (hne l)
    · rw [hc]; exact hkb.rep.idle rfl rfl
    · exfalso
      have hit := hb1.rep.items.2
      have : nItems s1 = 0 := by
        unfold nItems
        exact hit.length_eq
      omega
  refine ⟨s1, reads_of_ok hR, by rw [hevents, List.drop_left, answer_none], hb1.rep.pfx, ?_⟩
  intro tx hwf
  refine ⟨⟨⟨hi1.1.len, hi1.1.last, hi1.1.items, hi1.1.data⟩, hi1.2⟩, ⟨hn1.input, hn1.send, hn1.data, hn1.urc⟩, hwf, ?_, ?_⟩
  · exact ⟨respPrefix r, ⟨⟨rfl, hb1.rep.pfx, rfl, hb1.rep.items, fun _ _ => hresp⟩, hb1.text, hb1.noEol⟩, hvp⟩
  · unfold PosIn at hpos1 ⊢
    have : s0.readPtr = k.rx.readPtr ∧ s0.partialLen = k.rx.partialLen := ⟨rfl, rfl⟩
    simp only [this.1, this.2] at hpos1
    simp only
    omega

theorem exchange_silent {cfg : Cfg} {k : Stack} {P : Nat} (hk : Rest cfg k P) {r : Req}
    (hv : ValidReq r) {chunks : List Str} (hfit : P + chunks.flatten.length < cfg.size)
    (hend : EndsLine chunks.flatten) (hS : Silent cfg r chunks.flatten) :
    ∃ k', exchange cfg k r chunks = some (.timeout, k') ∧ Rest cfg k' (P + chunks.flatten.length) ∧
      k'.tx.wire = k.tx.wire ++ [r.cmd ++ [13]] := by
  obtain ⟨tx, hsend, hwf, hwire, hcmd, hpfx⟩ := send_ok hk.tx hv
  obtain ⟨s1, hr, hans, hpn, hrest⟩ := pending_silent hk (respPrefix_valid hv) hfit hend hS
  refine ⟨⟨{ s1 with cmd := .noCommand }, { tx with cmd := .noCommand }⟩, ?_, hrest _ hwf, hwire⟩
  unfold exchange
  rw [hsend]
  simp only [hpfx, hcmd]
  rw [hr]
  simp only [hans]

theorem idle_reads' {cfg : Cfg} {k : Stack} {P : Nat} (hk : Rest cfg k P) {chunks : List Str}
    (hfit : P + chunks.flatten.length < cfg.size) (hend : EndsLine chunks.flatten) :
    ∃ s, reads cfg k.rx chunks = some s ∧ Rest cfg { k with rx := s } (P + chunks.flatten.length) ∧
      (k.rx.pfx = none → s.pfx = none) := by
  have hpos := hk.pos
  unfold PosIn at hpos
  obtain ⟨s1, hR, hpos1⟩ := readsOk_exists chunks k.rx hk.inv hk.noCb (by omega)
  obtain ⟨p0, hkb, hkp⟩ := hk.between
  obtain ⟨hi1, hn1, hb1⟩ := readsOk_refine hR hk.inv hk.noCb hkb
  obtain ⟨ev, p1, hev, -, hv1⟩ := reads_stays (cfg := cfg) chunks
    ((⟨.noCommand, p0, [], k.rx.events⟩ : Rx), ([] : Str)) ⟨rfl, rfl⟩
  have hcur := reads_ends (cfg := cfg) chunks
    ((⟨.noCommand, p0, [], k.rx.events⟩ : Rx), ([] : Str)) (Or.inl rfl) hend
  rw [hev, hcur] at hb1
  refine ⟨s1, reads_of_ok hR, ⟨hi1, hn1, hk.tx, ?_, ?_⟩, ?_⟩
  · refine ⟨p1, ⟨⟨hb1.rep.cmd, hb1.rep.pfx, rfl, hb1.rep.items, hb1.rep.idle⟩, hb1.text, hb1.noEol⟩, ?_⟩
    rcases hv1 with rfl | rfl
    · exact hkp
    · simp
  · unfold PosIn at hpos1 ⊢
    simp only
    omega
  · intro hnone
    have h0 : p0 = none := hkb.rep.pfx.symm.trans hnone
    have : s1.pfx = p1 := hb1.rep.pfx
    rw [this]
    rcases hv1 with rfl | rfl
    · exact h0
    · rfl

theorem idle_reads {cfg : Cfg} {k : Stack} {P : Nat} (hk : Rest cfg k P) {chunks : List Str}
    (hfit : P + chunks.flatten.length < cfg.size) (hend : EndsLine chunks.flatten) :
    ∃ s, reads cfg k.rx chunks = some s ∧ Rest cfg { k with rx := s } (P + chunks.flatten.length) := by
  obtain ⟨s, h1, h2, _⟩ := idle_reads' hk hfit hend
  exact ⟨s, h1, h2⟩

/-! ## C70 -/

theorem backlog_append (m : Modem) (ans : List Req → Req → Reply) : ∀ (a b : List Req) (n : Nat) (done : List Req),
    backlog m ans n done (a ++ b) = backlog m ans (backlog m ans n done a) (done ++ a) b := by
  intro a
  induction a with
  | nil => intro b n done; simp [backlog]
  | cons r a ih => intro b n done; simp only [List.cons_append, backlog]; rw [ih]; simp

theorem backlog_step (m : Modem) (ans : List Req → Req → Reply) (done : List Req) (r : Req) :
    backlog m ans 0 [] (done ++ [r]) = (match ans done r with | .timeout => backlog m ans 0 [] done | _ => 0) +
      (m.during done r).flatten.length + (m.after done r).flatten.length := by
  rw [backlog_append]
  simp only [backlog, List.nil_append]

theorem answered_not_timeout {cfg : Cfg} {r : Req} {s : Str} {rep : Reply} (h : Answered cfg r s rep) : rep ≠ .timeout := by
  obtain ⟨body, final, tail, -, -, -, -, -, h1, h2⟩ := h
  by_cases hs : Success cfg final
  · rw [h1 hs]; simp
  · rw [h2 hs]; simp

/-- One request: the answer is the one the modem means, and the library is ready for the next one. -/
theorem exchange_speaks {cfg : Cfg} {m : Modem} {ans : List Req → Req → Reply} (hp : PlainPort cfg)
    (hm : Speaks cfg m ans) {k : Stack} {done : List Req} (hk : Rest cfg k (backlog m ans 0 [] done))
    (hd : ∀ x ∈ done, ValidReq x) {r : Req} (hv : ValidReq r) :
    ∃ k', exchange cfg k r (m.during done r) = some (ans done r, k') ∧
      Rest cfg k' ((match ans done r with | .timeout => backlog m ans 0 [] done | _ => 0) +
        (m.during done r).flatten.length) ∧
      k'.tx.wire = k.tx.wire ++ [r.cmd ++ [13]] := by
  have hfit := hm.fits done r hd
  rcases hm.answers done r hd hv with hA | ⟨hS, ht⟩
  · obtain ⟨k', e, hk', hw⟩ := exchange_answered hp hk hv hfit (hm.ends done r).1 hA
    refine ⟨k', e, ?_, hw⟩
    have hne := answered_not_timeout hA
    split
    · rename_i h; exact absurd h hne
    · rw [Nat.zero_add]; exact hk'
  · obtain ⟨k', e, hk', hw⟩ := exchange_silent hk hv hfit (hm.ends done r).1 hS
    rw [ht]
    exact ⟨k', e, hk', hw⟩

theorem replay_speaks {cfg : Cfg} {m : Modem} {ans : List Req → Req → Reply} (hp : PlainPort cfg)
    (hm : Speaks cfg m ans) : ∀ (rs done : List Req) (k : Stack), Rest cfg k (backlog m ans 0 [] done) →
    (∀ x ∈ done, ValidReq x) → (∀ x ∈ rs, ValidReq x) →
    ∃ k', replay cfg m k done rs = some k' ∧ Rest cfg k' (backlog m ans 0 [] (done ++ rs)) ∧
      k'.tx.wire = k.tx.wire ++ rs.map (fun r => r.cmd ++ [13]) := by
  intro rs
  induction rs with
  | nil => intro done k hk _ _; exact ⟨k, rfl, by simpa using hk, by simp⟩
  | cons r rs ih =>
    intro done k hk hd hr
    have hv := hr r (by simp)
    obtain ⟨k1, e1, hk1, hw1⟩ := exchange_speaks hp hm hk hd hv
    have hd' : ∀ x ∈ done ++ [r], ValidReq x := by
      intro x hx
      rcases List.mem_append.mp hx with h | h
      · exact hd x h
      · rw [List.mem_singleton.mp h]; exact hv
    have hback := backlog_step m ans done r
    have hfit := hm.fits (done ++ [r]) r hd'
    obtain ⟨s2, e2, hk2⟩ := idle_reads hk1 (chunks := m.after done r) (by omega) (hm.ends done r).2
    rw [← hback] at hk2
    obtain ⟨k', e3, hk3, hw3⟩ := ih (done ++ [r]) { k1 with rx := s2 } hk2 hd' (fun x hx => hr x (by simp [hx]))
    refine ⟨k', ?_, by simpa using hk3, ?_⟩
    · simp only [replay, e1, e2, e3]
    · rw [hw3]
      simp only [hw1, List.map_cons, List.append_assoc, List.singleton_append]

/-- C70: the bytes of the modem's answers, cut into reads in any way, mixed with unsolicited codes and followed by
anything, are turned into exactly the answers the modem meant, and a request that is not answered times out: for every
sequence of earlier requests, answered or not, without undefined behaviour. -/
theorem C70_bytes_to_reply (cfg : Cfg) (m : Modem) (ans : List Req → Req → Reply) (hp : PlainPort cfg)
    (hm : Speaks cfg m ans) (sent : List Req) (hs : ∀ x ∈ sent, ValidReq x) (r : Req) (hr : ValidReq r) :
    Wire.reply cfg m sent r = some (ans sent r) := by
  obtain ⟨k, e, hk, _⟩ := replay_speaks hp hm sent [] (start cfg) (rest_start hp) (by simp) hs
  obtain ⟨k', e', _⟩ := exchange_speaks hp hm (by simpa using hk) hs hr
  unfold Wire.reply
  rw [e]
  simp only [e', Option.map_some]

/-- C70: and what the modem is sent is the commands, each followed by a carriage return, in order, nothing else. -/
theorem C70_bytes_sent (cfg : Cfg) (m : Modem) (ans : List Req → Req → Reply) (hp : PlainPort cfg)
    (hm : Speaks cfg m ans) (sent : List Req) (hs : ∀ x ∈ sent, ValidReq x) :
    ∃ k, replay cfg m (start cfg) [] sent = some k ∧ k.tx.wire = sent.map (fun r => r.cmd ++ [13]) := by
  obtain ⟨k, e, _, hw⟩ := replay_speaks hp hm sent [] (start cfg) (rest_start hp) (by simp) hs
  exact ⟨k, e, by simpa [start] using hw⟩

end Cellular.Props
