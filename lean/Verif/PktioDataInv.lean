import Verif.PktioData
import Verif.PktioSafeData
import Verif.WireProps
/-!
# Invariants and positions when data are received

The refinement of `Verif.PktioData` and the memory invariant of `Verif.PktioSafeData`, together: a stream whose headers
belong to the pending command never leads to a late header.
-/

namespace Cellular.Props
open Cellular Cellular.Spec Cellular.Pktio

/-- A callback that works as a recogniser says keeps to the text. -/
theorem implements_sane {cfg : Cfg} {R : Recogniser} {s : St} (hn : DataPort cfg R s) : CallbacksSane cfg s := by
  obtain ⟨f, hf, himp⟩ := hn.data
  refine ⟨hn.urc, ?_, ?_, ?_⟩
  · intro g hg; rw [hn.input] at hg; cases hg
  · intro g hg; rw [hn.send] at hg; cases hg
  · intro g hg t ht
    rw [hf] at hg
    cases hg
    have h := himp t ht
    cases hh : R.hdr t with
    | no =>
      rw [hh] at h
      simp only at h
      rcases h with h | h <;> rw [h] <;> simp
    | incomplete =>
      rw [hh] at h
      simp only at h
      rw [h]; simp
    | block l e n =>
      rw [hh] at h
      simp only at h
      obtain ⟨t', h1, h2, h3, ⟨b, h4, h5⟩, h6⟩ := h
      have hsh := R.shape _ _ _ _ hh
      rw [h1]
      refine ⟨by simp only; omega, ?_⟩
      intro start len ho
      simp only [Option.some.injEq, Prod.mk.injEq] at ho
      exact ⟨by omega, fun _ => ⟨rfl, b, List.mem_of_getElem? h4, (isEol_iff b).mpr h5⟩⟩

/-- What the receive task's line loop meets: text from a position on that a stream of elements can be made of. -/
structure Walk (cfg : Cfg) (R : Recogniser) (s : St) (c : Cur) (a a' : Rx) (E : Nat) : Prop where
  len : s.buf.length = cfg.size + 1
  port : DataPort cfg R s
  size : E ≤ cfg.size
  pos : c.p + c.n ≤ E
  rep : Rep s a c.p
  data : s.dataLen = 0
  elems : Rx.elems cfg a (parse R (txt s.buf c.p c.n)).1 = some a'

theorem iter_notLate {cfg : Cfg} {R : Recogniser} {s : St} {a a' : Rx} {c : Cur} {E : Nat}
    (w : Walk cfg R s c a a' E) : ¬ LateHeader cfg s c := by
  obtain ⟨hl, hn, hE, hp, hr, hd, hok⟩ := w
  obtain ⟨f, hf, himp⟩ := hn.data
  rintro ⟨p0, n0, s1, p, n, s2, n', sd, s3, len, line, e0, e1, e2, hdl, e3, e4, hx⟩
  generalize ht : txt s.buf c.p c.n = t at hok
  have htl : t.length = c.n := by rw [← ht]; exact txt_length (by omega)
  generalize hj : (t.takeWhile isEol).length = j
  have hskip : skipEol s.buf c.p c.n = some (c.p + j, c.n - j) := by
    rw [skipEol_eq s.buf c.n c.p (by omega), ht, hj]
  have ht1 : t.dropWhile isEol = txt s.buf (c.p + j) (c.n - j) := by
    rw [dropWhile_eq_drop, hj, ← ht, txt_drop]
  have hjn : j ≤ c.n := by
    rw [← hj, ← htl]; exact (List.takeWhile_sublist _).length_le
  rw [hskip] at e0
  cases e0
  have hin : preprocessInput cfg s (c.p + j) (c.n - j) = some (true, s, c.p + j, c.n - j) := by
    simp [preprocessInput, hn.input]
  rw [hin] at e1
  cases e1
  rw [← parse_skip R t, ht1] at hok
  generalize hP : c.p + j = P at *
  generalize hN : c.n - j = N at *
  have hTl : (txt s.buf P N).length = N := txt_length (by omega)
  have hrP : Rep s a P := hr.mono (by omega)
  unfold preprocessLine at e2
  by_cases hN0 : N = 0
  · rw [if_pos hN0] at e2; cases e2
  rw [if_neg hN0] at e2
  have hsl : slice s.buf P N = some (txt s.buf P N) := slice_some (by omega)
  have hTne : txt s.buf P N ≠ [] := by
    intro h0; rw [h0] at hTl; simp at hTl; omega
  obtain ⟨b, r, hbr⟩ := List.exists_cons_of_ne_nil hTne
  have hb : ¬ LineEnd b := by
    intro hb
    have h2 := List.head?_dropWhile_not isEol t
    rw [ht1, hbr] at h2
    simp [(isEol_iff b).mpr hb] at h2
  have hcb := himp _ hTne
  simp only [hn.send, hf, hsl] at e2
  cases hh : R.hdr (txt s.buf P N) with
  | incomplete =>
    rw [hh] at hcb
    simp only [] at hcb
    rw [hcb] at e2
    simp only [put_txt (show P + N ≤ s.buf.length by omega), handleCallbackResult] at e2
    cases e2
  | no =>
    rw [hh] at hcb
    simp only [] at hcb
    rcases hcb with hcb | hcb <;> rw [hcb] at e2 <;>
      simp only [put_txt (show P + N ≤ s.buf.length by omega), handleCallbackResult] at e2 <;>
      (cases e2; exact hdl hd)
  | block l e n =>
    rw [hh] at hcb
    simp only [] at hcb
    obtain ⟨t', hft, ht'l, ht'k, ⟨b', hb'1, hb'2⟩, ht'd⟩ := hcb
    obtain ⟨hs1, hs2, hs3, hs4, hs5, hs6⟩ := R.shape _ l e n hh
    rw [hTl] at ht'l hs4
    obtain ⟨m0, em0, hm01, hm02⟩ := put_some (m := s.buf) (p := P) (t := t') (by omega)
    rw [hft] at e2
    simp only [em0, handleCallbackResult, Option.some.injEq, Prod.mk.injEq] at e2
    obtain ⟨-, e2a, e2b, -⟩ := e2
    subst e2a
    subst e2b
    have htm0 : txt m0 P N = t' := by rw [← ht'l]; exact txt_put em0
    unfold findLine at e3
    have hsl0 : slice m0 P N = some (txt m0 P N) := slice_some (by omega)
    simp only [hsl0] at e3
    have hfi : (txt m0 P N).findIdx? isEol = some l := by
      rw [htm0, List.findIdx?_eq_some_iff_getElem]
      refine ⟨by omega, ?_, ?_⟩
      · rw [List.getElem?_eq_getElem (by omega)] at hb'1
        simp only [Option.some.injEq] at hb'1
        rw [hb'1]; exact (isEol_iff b').mpr hb'2
      · intro k hk
        have h1 : t'[k]'(by omega) ∈ t'.take l := by
          rw [List.mem_iff_getElem]
          exact ⟨k, by simp; omega, by simp⟩
        rw [ht'k] at h1
        have := hs5 _ h1
        rw [← isEol_iff] at this
        exact this
    have hwr : wr m0 (P + l) 0 = some (m0.set (P + l) 0) := wr_some (by omega)
    simp only [hfi, hwr, Option.map_some, Option.some.injEq, Prod.mk.injEq] at e3
    obtain ⟨e3a, e3b⟩ := e3
    subst e3a
    clear e3b
    generalize hline' : (txt s.buf P N).take l = line' at *
    have hll : line'.length = l := by rw [← hline']; simp [hTl]; omega
    generalize hm : m0.set (P + l) 0 = m at *
    have hmo : ∀ k, k ≠ P + l → m[k]? = m0[k]? := by
      intro k hk
      rw [← hm, List.getElem?_set_ne (by omega)]
    have hLine : LineAt m P line' := by
      refine ⟨NoEol.noNul hs5, ?_, ?_⟩
      · rw [txt_congr (m := m0) (fun k h1 h2 => hmo k (by omega)), hll, ← txt_take m0 P N l (by omega), htm0, ht'k]
      · rw [hll, ← hm]; exact List.getElem?_set_self (by omega)
    simp only [] at e4
    rw [hLine.readStr] at e4
    simp only [Option.some.injEq] at e4
    rw [← e4] at hx
    rw [parse_block R hbr hb hh, hline'] at hok
    have hha : ∃ a1, a.header cfg line' = some a1 := by
      cases hx' : a.header cfg line' with
      | none =>
        exfalso
        split at hok <;> simp [Rx.elems, Rx.elem, hx'] at hok
      | some a1 => exact ⟨a1, rfl⟩
    obtain ⟨a1, hha⟩ := hha
    unfold Rx.header at hha
    split at hha
    · rename_i hc
      apply hx
      unfold ExpectsData
      simp only [hrP.cmd, hrP.pfx]
      exact hc
    · cases hha

theorem walk_next {cfg : Cfg} {R : Recogniser} {s s1 : St} {a a' : Rx} {c c1 : Cur} {E : Nat}
    (w : Walk cfg R s c a a' E) (h : iter cfg s c = some (some c1, s1)) :
    ∃ a1, Walk cfg R s1 c1 a1 a' E ∧ c1.n < c.n := by
  rcases iter_data w.len w.port w.size w.pos w.rep w.data (by rw [w.elems]; simp) with
    ⟨s', a1, e, sc, h1, hb⟩ | ⟨c', s', a1, es, e, sc, h1, hpa, hr', hcn, hcp, hl', hd'⟩
  · rw [h] at e; cases e
  · rw [h] at e
    cases e
    refine ⟨a1, ⟨hl', w.port.of_same sc, w.size, hcp, hr', hd', ?_⟩, hcn⟩
    have h2 := w.elems
    rw [hpa] at h2
    simp only [] at h2
    rw [Rx.elems_append, h1] at h2
    exact h2

theorem visits_notLate {cfg : Cfg} {R : Recogniser} {s s' : St} {c c' : Cur} (h : LoopVisits cfg s c s' c') :
    ∀ {a a' : Rx} {E : Nat}, Walk cfg R s c a a' E → ¬ LateHeader cfg s' c' := by
  induction h with
  | head s c => intro a a' E w; exact iter_notLate w
  | next h _ ih =>
    intro a a' E w
    obtain ⟨a1, w1, _⟩ := walk_next w h
    exact ih w1

/-! ## Positions -/

theorem preprocessLine_nresp {cfg : Cfg} {s s' : St} {p n n' : Nat} {b : Bool} {sd sd' : Option Nat} (hs : s.sendCb = none)
    (h : preprocessLine cfg s p n sd = some (b, s', n', sd')) : nresp s' = nresp s ∧ n' = n := by
  unfold preprocessLine at h
  have hcr : ∀ (s : St) st p n, nresp (handleCallbackResult cfg s st p n).2 = nresp s := by
    intro s st p n
    unfold handleCallbackResult cleanBuf nresp
    cases st <;> rfl
  split at h
  · cases h; exact ⟨rfl, rfl⟩
  · rw [hs] at h
    simp only at h
    split at h
    · split at h
      · cases h
      · rename_i f _ _ text _
        split at h
        · cases h
        · simp only [Option.some.injEq, Prod.mk.injEq] at h
          obtain ⟨-, h2, h3, -⟩ := h
          refine ⟨?_, h3.symm⟩
          rw [← h2, hcr]
          cases (f text).2.2 <;> rfl
    · cases h; exact ⟨rfl, rfl⟩

theorem iter_posD {cfg : Cfg} {s s' : St} {c : Cur} {oc : Option Cur} (hi : cfg.inputCb = none) (hs : s.sendCb = none)
    (hl : c.p + c.n ≤ s.buf.length) (h : iter cfg s c = some (oc, s')) :
    nresp s' = nresp s ∨ ∃ c', oc = some c' ∧ c'.p + c'.n ≤ c.n := by
  obtain ⟨p1, n1, e1, a1, a2⟩ := skipEol_some s.buf c.n c.p hl
  unfold iter at h
  rw [e1] at h
  simp only [preprocessInput, hi] at h
  split at h
  · cases h
  · rename_i e2
    cases h
    exact Or.inl (preprocessLine_nresp hs e2).1
  · rename_i s2 n2 sd2 e2
    obtain ⟨g1, g2⟩ := preprocessLine_nresp hs e2
    split at h
    · cases h
    · rename_i s3 hf
      cases h
      left
      rw [← g1]
      unfold findLine at hf
      split at hf
      · cases hf
      · split at hf
        · rw [Option.map_eq_some_iff] at hf; obtain ⟨_, _, hf⟩ := hf; cases hf
        · cases hf; rfl
    · rename_i s3 len hf
      have e3 : nresp s3 = nresp s2 := by
        unfold findLine at hf
        split at hf
        · cases hf
        · split at hf
          · rw [Option.map_eq_some_iff] at hf; obtain ⟨_, _, hf⟩ := hf; cases hf; rfl
          · cases hf
      rcases handleLine_pos h with g | ⟨c', g3, g4⟩
      · left; rw [g, e3, g1]
      · right; exact ⟨c', g3, by simp only at g4; omega⟩

theorem loop_posD {cfg : Cfg} {R : Recogniser} : ∀ (k : Nat) {s s' : St} {c : Cur} {a a' : Rx} {E : Nat}, RxInv0 cfg s →
    CallbacksSane cfg s → Walk cfg R s c a a' E → c.n < k → loop cfg k s c = some s' →
    nresp s' = nresp s ∨ PosIn c.n s' := by
  intro k
  induction k with
  | zero => intro s s' c a a' E _ _ _ h; omega
  | succ k ih =>
    intro s s' c a a' E h hc w hk hL
    obtain ⟨oc, s1, e, sc, x, y⟩ := iter_invD h hc w.size w.pos (iter_notLate w)
    unfold loop at hL
    rw [e] at hL
    have hpos := iter_posD w.port.input w.port.send (by have := h.len; have := w.pos; have := w.size; omega) e
    cases oc with
    | none =>
      simp only at hL
      cases hL
      rcases hpos with g | ⟨c', g, _⟩
      · exact Or.inl g
      · cases g
    | some c1 =>
      simp only at hL
      obtain ⟨i1, y1, y2⟩ := y c1 rfl
      obtain ⟨a1, w1, _⟩ := walk_next w e
      rcases hpos with g | ⟨c', g1, g2⟩
      · rcases ih i1 (hc.of_same sc) w1 (by omega) hL with g' | g'
        · exact Or.inl (g'.trans g)
        · right; unfold PosIn at g' ⊢; omega
      · cases g1
        right
        have := w.pos
        have := w.size
        obtain ⟨s2, e2, _, q, _⟩ := loop_invD (E := c.n) k i1 (hc.of_same sc) (by omega) g2 (by omega)
          (fun s' c' hv => visits_notLate hv w1)
        rw [hL] at e2
        cases e2
        exact q

/-! ## One read -/

theorem readPos_nresp {cfg : Cfg} {s s1 : St} {p pr : Nat} {e : Int} (er : readPos cfg s = some (s1, p, pr, e)) :
    nresp s1 = nresp s := by
  unfold readPos at er
  split at er
  · cases er; rfl
  · split at er
    · split at er
      · cases er
      · split at er
        · cases er
        · rw [Option.map_eq_some_iff] at er; obtain ⟨_, _, er⟩ := er; cases er; rfl
    · cases er; rfl

/-- Where the line loop of a read starts. -/
theorem enter_walk {cfg : Cfg} {R : Recogniser} {s s2 : St} {a a' : Rx} {q : Spec.Rest} {chunk : Str} {k : Nat} {c : Cur}
    (h : RxRest cfg s) (hpos : PosIn cfg.size s) (hn : DataPort cfg R s) (hb : BetweenD cfg s a q cfg.size)
    (hroom : chunk.length ≤ room cfg s) (hrun : Rx.elems cfg a (resume R q chunk).1 = some a')
    (he : rxEnter cfg s chunk = some (k, s2, some c)) :
    RxInv0 cfg s2 ∧ SameCb s s2 ∧ nresp s2 = nresp s ∧ c.n ≤ s.partialLen + chunk.length ∧
      ∃ a1, Walk cfg R s2 c a1 a' cfg.size := by
  obtain ⟨d, h, hresp⟩ := h
  obtain ⟨s1, p, pr, em, er, h1, _, hpl, hpr, hpe, hpp, hpq⟩ := readPos_inv ⟨h, hpos⟩
  obtain ⟨s1', p', pr', em', er', hb1, hrp, _, _, _, sc1, _⟩ := readPos_data (Nat.le_refl _) hb
  rw [er] at er'
  simp only [Option.some.injEq, Prod.mk.injEq] at er'
  obtain ⟨rfl, rfl, rfl, rfl⟩ := er'
  rw [room_eq er] at hroom
  have hnr := readPos_nresp er
  unfold rxEnter at he
  rw [er] at he
  simp only [] at he
  by_cases hem : em > 0
  · rw [if_pos hem] at he
    by_cases hch : chunk = []
    · rw [if_pos hch] at he; cases he
    · rw [if_neg hch] at he
      have hlen0 : 0 < chunk.length := List.length_pos_iff.mpr hch
      have hl1 := hb1.len
      obtain ⟨m, emm, hm1, hm2⟩ := put_some (m := s1.buf) (p := pr) (t := chunk ++ [0]) (by simp; omega)
      rw [emm] at he
      simp only [] at he
      have hlast : m[cfg.size]? = some 0 := by
        by_cases hbb : pr + chunk.length = cfg.size
        · have em' := emm
          unfold Pktio.put at em'
          rw [if_pos (by simp; omega)] at em'
          cases em'
          rw [List.append_assoc, List.getElem?_append_right (by simp; omega)]
          rw [List.append_assoc, List.getElem?_append_right (by simp; omega)]
          simp only [List.length_take, List.singleton_append]
          rw [show cfg.size - min pr s1.buf.length - chunk.length = 0 from by omega]
          rfl
        · rw [hm2 _ (Or.inr (by simp; omega))]; exact h1.1.last
      have hi : RxInvD cfg d { s1 with buf := m, partialLen := 0 } :=
        ⟨hm1.trans h1.1.len, hlast, h1.1.items, h1.1.data⟩
      have hmtxt : txt m pr chunk.length = chunk := by
        have h5 := txt_take m pr (chunk ++ [0]).length chunk.length (by simp)
        rw [txt_put emm] at h5
        rw [← h5]; simp
      have hfull : txt m p (chunk.length + s1.partialLen) = restBytes q ++ chunk := by
        rw [Nat.add_comm, txt_append, show p + s1.partialLen = pr by omega, hmtxt]
        congr 1
        rw [rest_txt hb1, hrp]
        exact txt_congr (fun x h1 h2 => hm2 x (Or.inl (by omega)))
      have hrepm : ∀ st : St, st.cmd = s1.cmd → st.pfx = s1.pfx → st.events = s1.events → st.resp = s1.resp →
          (∀ x, x < p → st.buf[x]? = m[x]?) → Rep st a p := by
        intro st h1 h2 h3 h4 h5
        have h0 := hb1.rep
        rw [hrp] at h0
        refine ⟨h1.trans h0.cmd, h2.trans h0.pfx, h3.trans h0.events, ?_, fun x y => h4.trans (h0.idle x y)⟩
        rw [h4]
        exact h0.items.congr (Nat.le_refl _) (fun x hx => (h5 x hx).trans (hm2 x (Or.inl (by omega))))
      generalize hTot : chunk.length + s1.partialLen = tot at *
      have htot : p + tot ≤ cfg.size := by omega
      cases q with
      | text cur =>
        have hd0 : s1.dataLen = 0 := hb1.rest.2
        have hdz : d = 0 := h1.1.data.symm.trans hd0
        subst hdz
        rw [if_neg (by simp [hd0])] at he
        simp only [] at he
        rw [if_pos (by omega)] at he
        obtain ⟨m', em', hm'⟩ := hi.wr0 (i := p + tot) htot
        simp only [] at em' hm'
        have hwr : wr m (p + tot) 0 = some (m.set (p + tot) 0) := wr_some (by omega)
        have hmm : m' = m.set (p + tot) 0 := by rw [hwr] at em'; exact (Option.some.inj em').symm
        rw [em'] at he
        simp only [Option.some.injEq, Prod.mk.injEq] at he
        obtain ⟨-, rfl, rfl⟩ := he
        simp only [restBytes] at hfull
        have htx : txt m' p tot = cur ++ chunk := by
          rw [hmm, ← hfull]; exact txt_congr (fun x h1 h2 => List.getElem?_set_ne (by omega))
        refine ⟨hm', sc1.trans ⟨rfl, rfl⟩, hnr, by simp only; omega, a, ?_⟩
        refine ⟨hm'.len, hn.of_same (sc1.trans ⟨rfl, rfl⟩), Nat.le_refl _, htot,
          hrepm _ rfl rfl rfl rfl (fun x hx => by simp only [hmm]; exact List.getElem?_set_ne (by omega)), hd0, ?_⟩
        simp only []
        rw [htx]
        exact hrun
      | data got n =>
        have h3 := hb1.rest
        simp only [restBytes] at h3 hfull
        have hdn : d = n := h1.1.data.symm.trans h3.2.1
        rw [if_pos (by omega)] at he
        have hgl : (got ++ chunk).length = tot := by rw [← hfull]; exact txt_length (by omega)
        obtain ⟨rr, hrr⟩ := Option.ne_none_iff_exists'.mp h3.2.2.2
        obtain ⟨left, pp, sH, eH, gc, _, gL, _⟩ := handleData_inv hi (by omega) (r := rr) (by simpa using hrr)
          (Nat.le_refl p) (Nat.le_add_right _ _) (Nat.le_refl _) htot
        rw [eH] at he
        simp only [] at he
        have eH' := eH
        unfold handleData at eH'
        rw [if_neg (by omega)] at eH'
        simp only [Nat.sub_self, Nat.sub_zero] at eH'
        simp only [resume, hgl] at hrun
        rw [h3.2.1] at eH'
        by_cases hle : n ≤ tot
        · rw [if_pos hle] at hrun
          rw [if_pos hle] at eH'
          rw [hrr] at eH'
          simp only [Option.some.injEq, Prod.mk.injEq] at eH'
          obtain ⟨e1, e2, e3⟩ := eH'
          generalize hD : (got ++ chunk).take n = D at *
          have hDl : D.length = n := by rw [← hD]; simp [hgl]; omega
          have hDt : txt m p n = D := by rw [← txt_take m p tot n hle, hfull, hD]
          have hrestt : txt m (p + n) (tot - n) = (got ++ chunk).drop n := by rw [← hfull, txt_drop]
          simp only [Rx.elems, Rx.elem] at hrun
          have hrep0 := hrepm { s1 with buf := m, partialLen := 0 } rfl rfl rfl rfl (fun _ _ => rfl)
          have hit := (hrep0.mono (show p ≤ p + n by omega)).items
          have hrep2 : ∀ st : St, st.cmd = s1.cmd → st.pfx = s1.pfx → st.events = s1.events →
              st.resp = some ⟨rr.status, rr.items ++ [.data p n]⟩ → (∀ x, x < p + n → st.buf[x]? = m[x]?) →
              st.buf.length = m.length →
              Rep st { a with lines := a.lines ++ [D] } (p + n) := by
            intro st h1 h2 h4 h5 h6 h7
            refine ⟨h1.trans hrep0.cmd, h2.trans hrep0.pfx, h4.trans hrep0.events, ?_, by simp⟩
            rw [h5]
            have hit2 := hit.congr (m' := st.buf) (Nat.le_refl _) h6
            simp only [ItemsAt, hrr, Option.getD_some] at hit2 ⊢
            refine ⟨hit2.1, forall₂_append_one hit2.2 (Or.inr ⟨p, by rw [hDl], ?_, by omega, by omega⟩)⟩
            rw [hDl]
            exact (txt_congr (fun x hx1 hx2 => h6 x (by omega))).trans hDt
          by_cases h0 : tot - n = 0
          · rw [if_neg (by omega)] at he
            cases he
          · rw [if_pos (by omega)] at he
            obtain ⟨k1, k2, _⟩ := gL (by omega)
            obtain ⟨m', em', hm'⟩ := k1.wr0 (i := pp + left) k2
            have hsb : sH.buf = m := by rw [← e3]
            have hwr : wr sH.buf (pp + left) 0 = some (m.set (pp + left) 0) := by rw [hsb]; exact wr_some (by omega)
            have hmm : m' = m.set (pp + left) 0 := by rw [hwr] at em'; exact (Option.some.inj em').symm
            rw [em'] at he
            simp only [Option.some.injEq, Prod.mk.injEq] at he
            obtain ⟨-, rfl, rfl⟩ := he
            have htx : txt m' pp left = (got ++ chunk).drop n := by
              rw [hmm, ← hrestt, ← e1, ← e2]; exact txt_congr (fun x h1 h2 => List.getElem?_set_ne (by omega))
            have hnH : nresp sH = nresp s := by
              rw [← e3]; exact hnr
            refine ⟨hm', (sc1.trans gc).trans ⟨rfl, rfl⟩, hnH, by simp only; omega, { a with lines := a.lines ++ [D] }, ?_⟩
            refine ⟨hm'.len, hn.of_same ((sc1.trans gc).trans ⟨rfl, rfl⟩), Nat.le_refl _, k2, ?_, hm'.data, ?_⟩
            · simp only []
              rw [← e2]
              refine hrep2 _ ?_ ?_ ?_ ?_ (fun x hx => ?_) ?_
              · simp only [← e3]
              · simp only [← e3]
              · simp only [← e3]
              · simp only [← e3]
              · simp only [hmm]; exact List.getElem?_set_ne (by omega)
              · simp only [hmm]; simp
            · simp only []
              rw [htx]
              exact hrun
        · rw [if_neg hle] at eH'
          cases eH'
          rw [if_neg (by omega)] at he
          cases he
  · rw [if_neg hem] at he
    cases he

/-- A read of a stream whose headers belong to the pending command: what it does, the invariant, and the position. -/
theorem rxEvent_all {cfg : Cfg} {R : Recogniser} {s : St} {a a' : Rx} {q : Spec.Rest} {chunk : Str}
    (h : RxRest cfg s) (hn : DataPort cfg R s) (hb : BetweenD cfg s a q cfg.size) (hov : ¬ BufferOverflow cfg s)
    (hroom : chunk.length ≤ room cfg s) (hrun : Rx.elems cfg a (resume R q chunk).1 = some a')
    (hq : resume R q [] = ([], q)) :
    ∃ k s', rxEvent cfg s chunk = some (k, s') ∧ SameCb s s' ∧ RxRest cfg s' ∧
      BetweenD cfg s' a' (resume R q chunk).2 (min cfg.size (s.readPtr.getD 0 + s.partialLen + chunk.length)) ∧
      (nresp s' = nresp s ∨ PosIn (s.partialLen + chunk.length) s') := by
  have hc := implements_sane hn
  obtain ⟨k, s', e, sc, hb'⟩ := rxEvent_data hn hb hov hroom hrun hq
  obtain ⟨k2, s2, e2, hr2, _, _⟩ := rxEvent_invD h hb.pos hc hroom (fun n s2 c2 s3 c3 hE hv => by
    obtain ⟨_, _, _, _, a1, w⟩ := enter_walk h hb.pos hn hb hroom hrun hE
    exact visits_notLate hv w)
  rw [e] at e2
  cases e2
  refine ⟨k, s', e, sc, hr2, hb', ?_⟩
  rw [rxEvent_enter] at e
  cases hE : rxEnter cfg s chunk with
  | none => rw [hE] at e; cases e
  | some x =>
    obtain ⟨n, s2, oc⟩ := x
    rw [hE] at e
    cases oc with
    | none =>
      simp only [Option.some.injEq, Prod.mk.injEq] at e
      obtain ⟨-, rfl⟩ := e
      left
      unfold rxEnter at hE
      cases hp : readPos cfg s with
      | none => rw [hp] at hE; cases hE
      | some y =>
        obtain ⟨s1, p, pr, em⟩ := y
        have hnr := readPos_nresp hp
        rw [hp] at hE
        simp only [] at hE
        split at hE
        · split at hE
          · cases hE; exact hnr
          · split at hE
            · cases hE
            · rename_i m _
              split at hE
              · cases hE
              · rename_i left p' s' hd
                split at hE
                · split at hE <;> cases hE
                · cases hE
                  split at hd
                  · have := handleData_nresp hd
                    rw [this]; exact hnr
                  · cases hd; exact hnr
        · cases hE; exact hnr
    | some c =>
      obtain ⟨i2, sc2, hnr, hcn, a1, w⟩ := enter_walk h hb.pos hn hb hroom hrun hE
      simp only [Option.map_eq_some_iff, Prod.mk.injEq] at e
      obtain ⟨s3, hL, -, rfl⟩ := e
      rcases loop_posD (c.n + 1) i2 (hc.of_same sc2) w (by omega) hL with g | g
      · left; exact g.trans hnr
      · right; unfold PosIn at g ⊢; omega

/-! ## Several reads -/

theorem parse_short (R : Recogniser) : ∀ (k : Nat) (t : Str), t.length ≤ k → (restBytes (parse R t).2).length ≤ t.length := by
  intro k
  induction k with
  | zero =>
    intro t h
    have : t = [] := List.length_eq_zero_iff.mp (by omega)
    subst this
    simp [parse, restBytes]
  | succ k ih =>
    intro t hk
    match t with
    | [] => simp [parse, restBytes]
    | b :: r =>
      simp only [List.length_cons] at hk
      rw [parse]
      split
      · have := ih r (by omega); simp only [List.length_cons]; omega
      · split
        · simp [restBytes]
        · split
          · rename_i l e n _ _
            have := ih (r.drop (l + e + n - 1)) (by simp; omega)
            simp only [List.length_drop, List.length_cons] at this ⊢
            omega
          · simp only [restBytes, List.length_drop, List.length_cons]; omega
        · split
          · simp [restBytes]
          · rename_i i _
            have := ih (r.drop i) (by simp; omega)
            simp only [List.length_drop, List.length_cons] at this ⊢
            omega

theorem resume_short (R : Recogniser) (q : Spec.Rest) (c : Str) :
    (restBytes (resume R q c).2).length ≤ (restBytes q).length + c.length := by
  cases q with
  | text cur =>
    have := parse_short R _ (cur ++ c) (Nat.le_refl _)
    simpa [resume, restBytes] using this
  | data got n =>
    simp only [resume]
    split
    · have := parse_short R _ ((got ++ c).drop n) (Nat.le_refl _)
      simp only [List.length_drop, List.length_append] at this
      have h2 : (restBytes (.data got n)).length = got.length := rfl
      show (restBytes (parse R ((got ++ c).drop n)).2).length ≤ _
      omega
    · simp [restBytes]

/-- The unread bytes are the rest of the stream. -/
theorem betweenD_len {cfg : Cfg} {s : St} {a : Rx} {q : Spec.Rest} (hb : BetweenD cfg s a q cfg.size) :
    s.partialLen = (restBytes q).length := by
  have h1 := hb.pos
  have h2 := hb.len
  rw [rest_txt hb, txt_length (by omega)]

/-- Reads of a stream, cut in any way, that fit after the unread text. -/
theorem reads_all {cfg : Cfg} {R : Recogniser} : ∀ (chunks : List Str) {s : St} {a a' : Rx} {q : Spec.Rest},
    RxRest cfg s → DataPort cfg R s → BetweenD cfg s a q cfg.size → resume R q [] = ([], q) →
    Rx.elems cfg a (resumes R q chunks).1 = some a' →
    s.readPtr.getD 0 + s.partialLen + chunks.flatten.length < cfg.size →
    ∃ s', Wire.reads cfg s chunks = some s' ∧ SameCb s s' ∧ RxRest cfg s' ∧
      BetweenD cfg s' a' (resumes R q chunks).2 cfg.size ∧
      PosIn (s.readPtr.getD 0 + s.partialLen + chunks.flatten.length) s' ∧
      (nresp s' = nresp s ∨ PosIn (s.partialLen + chunks.flatten.length) s') := by
  intro chunks
  induction chunks with
  | nil =>
    intro s a a' q h hn hb hq hrun hfit
    simp only [resumes, Rx.elems, Option.some.injEq] at hrun
    subst hrun
    exact ⟨s, rfl, .refl _, h, hb, by simp [PosIn], Or.inl rfl⟩
  | cons c t ih =>
    intro s a a' q h hn hb hq hrun hfit
    simp only [List.flatten_cons, List.length_append] at hfit ⊢
    have hrm := room_data (Nat.le_refl _) hb
    have hov : ¬ BufferOverflow cfg s := fun ho => by have := ho.1; omega
    simp only [resumes, Rx.elems_append] at hrun ⊢
    cases h1 : Rx.elems cfg a (resume R q c).1 with
    | none => rw [h1] at hrun; cases hrun
    | some a1 =>
      rw [h1] at hrun
      obtain ⟨k, s1, e1, sc1, hr1, hb1, hp1⟩ := rxEvent_all h hn hb hov (by omega) h1 hq
      have hpos1 := hb1.pos
      have hl0 := betweenD_len hb
      have hl1 := betweenD_len hb1.size
      have hsh := resume_short R q c
      obtain ⟨s', e', sc', hr', hb', hp', hn'⟩ := ih hr1 (hn.of_same sc1) hb1.size (resume_nil R q c) hrun (by omega)
      refine ⟨s', by simp only [Wire.reads, e1]; exact e', sc1.trans sc', hr', hb', ?_, ?_⟩
      · unfold PosIn at hp' ⊢; omega
      · rcases hn' with g | g
        · rcases hp1 with g' | g'
          · exact Or.inl (g.trans g')
          · right; unfold PosIn at g' hp' ⊢; omega
        · right; unfold PosIn at g ⊢; omega

end Cellular.Props
