import Verif.Dispatch
import Verif.WireProps
/-!
# The exact law of the idle receiver: C10, C12

What the library does with *any* bytes while no command is pending - in any pieces, with lines of any length, lines the
port refuses, and a buffer that fills up.
-/

namespace Cellular.Spec
open Cellular Cellular.Pktio Cellular.Props

open Classical in
/-- The messages for the lines of one read: one for each, in order, up to and including the first one that is no
unsolicited code and that the port refuses; was there one? -/
noncomputable def idleLines (cfg : Cfg) : List Str → List Event × Bool
  | [] => ([], false)
  | l :: ls =>
    if UrcLike cfg l then (.urc l :: (idleLines cfg ls).1, (idleLines cfg ls).2)
    else if cfg.undefCb l = .ok then (.undefined l :: (idleLines cfg ls).1, (idleLines cfg ls).2)
    else ([.undefined l], true)

open Classical in
/-- One read of an idle library, in terms of the messages so far and the unfinished line: if the unfinished line fills the
buffer it is thrown away and nothing is read; otherwise the complete lines are handed over, and if one is refused the
rest of the read is thrown away with the unfinished line. -/
noncomputable def idleRead (cfg : Cfg) (x : List Event × Str) (chunk : Str) : List Event × Str :=
  if x.2.length = cfg.size then (x.1, [])
  else
    let p := linesFrom x.2 chunk
    let r := idleLines cfg p.1
    (x.1 ++ r.1, if r.2 then [] else p.2)

end Cellular.Spec

namespace Cellular.Props
open Cellular Cellular.Spec Cellular.Pktio

/-- Classification while no command is pending, for lines of any length. -/
theorem idle_class {cfg : Cfg} {pfx : Option Str} {l : Str} (hne : l ≠ [])
    (hp : ∀ k, pfx = some k → k ≠ [] ∧ k.length ≤ 256) :
    (UrcLike cfg l → getMsgType cfg .noCommand pfx l = .unsolicited) ∧
    (¬ UrcLike cfg l → getMsgType cfg .noCommand pfx l = .undefined) := by
  by_cases hlen : l.length ≤ 256
  · have hcl := C14_classification_partial cfg .noCommand pfx l hne hlen hp
    refine ⟨fun hu => hcl.1.mpr ?_, fun hu => hcl.2.2.mpr ⟨fun hx => hu (Or.inl hx), fun hx => hu (Or.inr ⟨hx, hlen⟩), rfl⟩⟩
    rcases hu with hu | hu
    · exact Or.inl hu
    · exact Or.inr ⟨hu.1, fun hw => hw.1 rfl⟩
  · constructor
    · rintro (hu | hu)
      · unfold getMsgType
        rw [if_pos ((isUrcToken_iff cfg l).mpr hu)]
      · exact absurd hu.2 hlen
    · intro hu
      have := C14_witness_long_lines cfg .noCommand pfx l (by omega) (fun hx => hu (Or.inl hx))
      simpa using this

open Classical in
theorem feed_idle {cfg : Cfg} : ∀ (ls : List Str) (a : Rx) (cur : Str), Rx.Idle a →
    (∀ k, a.pfx = some k → k ≠ [] ∧ k.length ≤ 256) → (∀ l ∈ ls, l ≠ []) →
    ∃ p, Rx.feed cfg a ls cur = (⟨.noCommand, p, [], a.events ++ (idleLines cfg ls).1⟩,
      if (idleLines cfg ls).2 then [] else cur) ∧ (p = a.pfx ∨ p = none) := by
  intro ls
  induction ls with
  | nil =>
    intro a cur ha _ _
    obtain ⟨c, p, li, ev⟩ := a
    obtain ⟨h1, h2⟩ := ha
    simp only at h1 h2
    subst h1 h2
    exact ⟨p, by simp [Rx.feed, idleLines], Or.inl rfl⟩
  | cons l t ih =>
    intro a cur ha hp hl
    have hcl := idle_class (cfg := cfg) (hl l (by simp)) hp
    obtain ⟨c, p, li, ev⟩ := a
    obtain ⟨h1, h2⟩ := ha
    simp only at h1 h2 hp hcl
    subst h1 h2
    by_cases hu : UrcLike cfg l
    · obtain ⟨q, hq, hv⟩ := ih ⟨.noCommand, p, [], ev ++ [.urc l]⟩ cur ⟨rfl, rfl⟩ hp (fun x hx => hl x (by simp [hx]))
      refine ⟨q, ?_, hv⟩
      simp only [Rx.feed, Rx.line, hcl.1 hu, hq, idleLines, if_pos hu]
      simp
    · by_cases hok : cfg.undefCb l = .ok
      · obtain ⟨q, hq, hv⟩ := ih ⟨.noCommand, p, [], ev ++ [.undefined l]⟩ cur ⟨rfl, rfl⟩ hp
          (fun x hx => hl x (by simp [hx]))
        refine ⟨q, ?_, hv⟩
        simp only [Rx.feed, Rx.line, hcl.2 hu, Rx.undefinedLine, if_pos hok, hq, idleLines, if_neg hu]
        simp
      · refine ⟨none, ?_, Or.inr rfl⟩
        simp only [Rx.feed, Rx.line, hcl.2 hu, Rx.undefinedLine, if_neg hok, idleLines, if_neg hu, Rx.dropped]
        simp

/-- An idle library: nothing pending, no lines collected; `cur` is the unfinished line. -/
structure IdleAt (cfg : Cfg) (s : St) (cur : Str) : Prop where
  inv : RxInv cfg s
  noCb : NoCb cfg s
  between : ∃ p, Between s ⟨.noCommand, p, [], s.events⟩ cur ∧ ∀ q, p = some q → q ≠ [] ∧ q.length ≤ 256

theorem IdleAt.full {cfg : Cfg} {s : St} {cur : Str} (h : IdleAt cfg s cur) :
    (room cfg s = 0 ∧ cur ≠ [] ↔ cur.length = cfg.size ∧ cur ≠ []) := by
  obtain ⟨p, hb, -⟩ := h.between
  have hresp : s.resp = none := hb.rep.idle rfl rfl
  have hl := h.inv.1.len
  have hpos := h.inv.2
  unfold PosIn at hpos
  have hlen : s.partialLen = cur.length := by
    have := hb.text
    rw [← this, txt_length (by omega)]
  constructor
  · rintro ⟨h0, hc⟩
    refine ⟨?_, hc⟩
    have hc' : 0 < cur.length := List.length_pos_iff.mpr hc
    unfold room readPos at h0
    cases hq : s.readPtr with
    | none =>
      rw [hq] at h0 hpos
      simp only [Option.getD_none] at hpos h0
      omega
    | some q =>
      rw [hq] at h0 hpos
      simp only [Option.getD_some] at hpos h0
      by_cases hq0 : q = 0
      · subst hq0
        simp only [ne_eq, not_true_eq_false, false_and, if_false] at h0
        omega
      · rw [if_pos ⟨hq0, by omega, hresp⟩] at h0
        have hsl : slice s.buf q s.partialLen = some (txt s.buf q s.partialLen) := slice_some (by omega)
        rw [hsl] at h0
        simp only at h0
        obtain ⟨m, em, h1, h2⟩ := put_some (m := s.buf) (p := 0) (t := txt s.buf q s.partialLen) (by
          rw [txt_length (by omega)]; omega)
        rw [em] at h0
        simp only at h0
        rw [wr_some (by omega)] at h0
        simp only [Option.map_some] at h0
        omega
  · rintro ⟨hc, hne⟩
    refine ⟨?_, hne⟩
    obtain ⟨s', p, pr, e, er, _, _, _, hpr, hpe, _⟩ := readPos_inv h.inv
    rw [room_eq er]
    omega

open Classical in
/-- One read. -/
theorem idleAt_read {cfg : Cfg} {s s' : St} {cur chunk : Str} {k : Nat} (h : IdleAt cfg s cur)
    (hroom : chunk.length ≤ room cfg s) (he : rxEvent cfg s chunk = some (k, s')) :
    s'.events = (idleRead cfg (s.events, cur) chunk).1 ∧ IdleAt cfg s' (idleRead cfg (s.events, cur) chunk).2 := by
  obtain ⟨p, hb, hp⟩ := h.between
  by_cases hov : room cfg s = 0 ∧ cur ≠ []
  · -- the unfinished line fills the buffer
    obtain ⟨hsz, -⟩ := h.full.mp hov
    have hch : chunk = [] := List.length_eq_zero_iff.mp (by omega)
    subst hch
    obtain ⟨k', s1, e1, i1, sc1, _⟩ := rxEvent_inv h.inv h.noCb.inText hroom
    rw [he] at e1
    cases e1
    obtain ⟨s2, q, pr, em, er, h2, sc2, hpl, hpr, hpe, _⟩ := readPos_inv h.inv
    obtain ⟨s2', q', pr', em', er', hb2, _⟩ := readPos_refines h.inv hb
    rw [er] at er'
    cases er'
    have h0 := hov.1
    rw [room_eq er] at h0
    unfold rxEvent at he
    rw [er] at he
    simp only at he
    rw [if_neg (by omega)] at he
    simp only [Option.some.injEq, Prod.mk.injEq] at he
    obtain ⟨-, rfl⟩ := he
    have hev : s2.events = s.events := hb2.rep.events
    simp only [idleRead, if_pos hsz]
    refine ⟨hev, i1, h.noCb.of_same sc1, p, ?_, hp⟩
    exact ⟨⟨hb2.rep.cmd, hb2.rep.pfx, rfl, itemsAt_nil hb2.rep.items, fun _ _ => hb2.rep.idle rfl rfl⟩, by simp [txt],
      by intro b hb; cases hb⟩
  · obtain ⟨k', s1, e1, i1, n1, b1, _⟩ := rxEvent_refines h.inv h.noCb hb hroom (by
      rintro ⟨h0, hc | hc⟩
      · exact hov ⟨h0, hc⟩
      · exact hc rfl)
    rw [he] at e1
    cases e1
    obtain ⟨q, hq, hv⟩ := feed_idle (cfg := cfg) (linesFrom cur chunk).1 ⟨.noCommand, p, [], s.events⟩
      (linesFrom cur chunk).2 ⟨rfl, rfl⟩ hp (fun l hl => linesFrom_ne_nil _ _ l hl)
    have hread : Rx.read cfg (⟨.noCommand, p, [], s.events⟩, cur) chunk = _ := hq
    rw [hread] at b1
    have hv' : ∀ x, q = some x → x ≠ [] ∧ x.length ≤ 256 := by
      rcases hv with rfl | rfl
      · exact hp
      · simp
    by_cases hfull : cur.length = cfg.size
    · -- nothing unfinished and no room at all: an empty buffer
      have hcur : cur = [] := by
        by_contra hne
        exact hov (h.full.mpr ⟨hfull, hne⟩)
      subst hcur
      have hs0 : cfg.size = 0 := by simpa using hfull.symm
      have hch : chunk = [] := by
        obtain ⟨s', p, pr, e, er, _, _, _, hpr, hpe, _⟩ := readPos_inv h.inv
        rw [room_eq er] at hroom
        exact List.length_eq_zero_iff.mp (by omega)
      subst hch
      simp only [linesFrom, idleLines, List.append_nil, Bool.false_eq_true, if_false] at b1
      simp only [idleRead, List.length_nil, hs0, if_true]
      refine ⟨b1.rep.events, i1, n1, q, ?_, hv'⟩
      exact ⟨⟨b1.rep.cmd, b1.rep.pfx, rfl, b1.rep.items, b1.rep.idle⟩, b1.text, b1.noEol⟩
    · simp only [idleRead, if_neg hfull]
      refine ⟨b1.rep.events, i1, n1, q, ?_, hv'⟩
      exact ⟨⟨b1.rep.cmd, b1.rep.pfx, rfl, b1.rep.items, b1.rep.idle⟩, b1.text, b1.noEol⟩

theorem idleAt_reads {cfg : Cfg} {s s' : St} {chunks : List Str} (hR : Reads cfg s chunks s') : ∀ {cur : Str},
    IdleAt cfg s cur →
    s'.events = (chunks.foldl (idleRead cfg) (s.events, cur)).1 ∧
    IdleAt cfg s' (chunks.foldl (idleRead cfg) (s.events, cur)).2 := by
  induction hR with
  | nil s => intro cur h; exact ⟨rfl, h⟩
  | @cons s s1 s2 chunk chunks k hroom he _ ih =>
    intro cur h
    obtain ⟨h1, h2⟩ := idleAt_read h hroom he
    have := ih h2
    rw [h1] at this
    exact this

/-- C10, the exact law: while no command is pending, for *every* sequence of reads, the messages handed over and the
unfinished line are exactly those of `idleRead`. So a line is lost only behind a refused line of the same read or if it
fills the buffer. -/
theorem C10_exact (cfg : Cfg) (s s' : St) (chunks : List Str) (hi : RxInv cfg s) (hpl : Plain cfg s) (hq : Quiet s)
    (hc : s.cmd = .noCommand) (hp : s.pfx = none) (hR : Reads cfg s chunks s') :
    (s'.events, unread s') = chunks.foldl (idleRead cfg) (s.events, []) ∧ s'.cmd = .noCommand ∧ s'.resp = none := by
  have h : IdleAt cfg s [] := ⟨hi, hpl.noCb, none, by have := hq.between; rw [hc, hp] at this; exact this, by simp⟩
  obtain ⟨h1, h2⟩ := idleAt_reads hR h
  obtain ⟨p, hb, -⟩ := h2.between
  refine ⟨?_, hb.rep.cmd, hb.rep.idle rfl rfl⟩
  rw [h1]
  exact congrArg (Prod.mk _) hb.text

/-- C12, the exact law: handling one notification ends, and it ends with everything the transport holds read, except if
a read left the buffer without a free byte. -/
theorem C12_exact (cfg : Cfg) : ∀ (k : Nat) (s : St) (pending : Str), RxInv cfg s → CallbacksInText cfg s →
    pending.length < k → ∃ r s' s1 chunks, drain cfg k s pending = some (r, s') ∧ pending = chunks.flatten ++ r ∧
      Reads cfg s chunks s1 ∧ rxEvent cfg s1 [] = some (0, s') ∧ (r = [] ∨ room cfg s1 = 0) := by
  intro k
  induction k with
  | zero => intro s pending _ _ h; omega
  | succ k ih =>
    intro s pending h hc hk
    unfold drain
    have hr : (pending.take (room cfg s)).length ≤ room cfg s := by simp; omega
    obtain ⟨n, s1, e, h1, sc, -, hk0⟩ := rxEvent_inv h hc hr
    rw [e]
    simp only
    by_cases hn : n = 0
    · have ht := hk0.mp hn
      rw [if_pos hn]
      rw [ht] at e
      subst hn
      refine ⟨pending, s1, s, [], rfl, by simp, .nil s, e, ?_⟩
      by_cases hp : pending = []
      · exact Or.inl hp
      · right
        rcases List.take_eq_nil_iff.mp ht with h0 | h0
        · exact h0
        · exact absurd h0 hp
    · rw [if_neg hn]
      have hne : pending.take (room cfg s) ≠ [] := fun hx => hn (hk0.mpr hx)
      have hpos : 0 < (pending.take (room cfg s)).length := List.length_pos_iff.mpr hne
      have hlen : (pending.drop (room cfg s)).length < k := by
        simp only [List.length_take, List.length_drop] at hpos ⊢
        omega
      obtain ⟨r, s', s2, chunks, e1, e2, e3, e4, e5⟩ := ih s1 (pending.drop (room cfg s)) h1 (hc.of_same sc) hlen
      refine ⟨r, s', s2, pending.take (room cfg s) :: chunks, e1, ?_, .cons hr e e3, e4, e5⟩
      rw [List.flatten_cons, List.append_assoc, ← e2, List.take_append_drop]

/-- A refused line in the middle of a read, and a line that fills the buffer of 8 bytes. -/
example : RxInv (demoCfg 8) (init 8) ∧ Plain (demoCfg 8) (init 8) ∧ Quiet (init 8) ∧
    ((rxRun (demoCfg 8) (init 8) [.recv (str "a\r\nRING\r"), .recv (str "\n+CRE"), .recv (str "G: 1"), .recv [],
      .recv (str ",2\r\nRI"), .recv (str "RING\r\n")]).map (fun s => (s.events, unread s))) =
      some ([.undefined (str "a"), .undefined (str ",2"), .urc (str "RING")], []) ∧
    ((drain (demoCfg 6) 20 (init 6) (str "RING\r\nRING\r\n")).map (·.1)) = some (str "RING\r\n") :=
  ⟨rxInv_init (demoCfg 8), ⟨rfl, rfl, rfl, fun _ => Nat.le_refl _⟩, ⟨rfl, rfl⟩, by decide +kernel, by decide +kernel⟩

end Cellular.Props
