import Verif.PktioRecv
/-!
# Position of the unread text after a response

A completed response moves the rest of the text to the start of the buffer, so between requests the library
needs only the space of what was received since.
-/

namespace Cellular.Props
open Cellular Cellular.Spec Cellular.Pktio

/-- Is it a response? -/
def isResp : Event → Bool
  | .response _ _ => true
  | _ => false

/-- Number of responses handed over so far. -/
def nresp (s : St) : Nat := s.events.countP isResp

theorem handleUndefined_nresp (cfg : Cfg) (s : St) (l : Str) : nresp (handleUndefined cfg s l).2 = nresp s := by
  unfold handleUndefined nresp
  simp only
  split <;> simp [cleanBuf, List.countP_append, isResp]

theorem handleMsgType_nresp {cfg : Cfg} {s s' : St} {p : Nat} {line : Str} {st : PktStatus} {t : MsgType}
    (h : handleMsgType cfg s p line = some (st, t, s')) :
    nresp s' = nresp s ∨ (st = .ok ∧ t = .solicited) := by
  unfold handleMsgType at h
  split at h
  · split at h
    · cases h
    · cases h; left; simp [nresp, List.countP_append, isResp]
  · simp only at h
    split at h
    · split at h
      · cases h
      · cases h; right; exact ⟨rfl, rfl⟩
    · cases h; left; rfl
    · cases h; left; rfl
    · cases h; left; rw [handleUndefined_nresp]; rfl
  · cases h; left; exact handleUndefined_nresp cfg s line

theorem getNextLine_pos {s s' : St} {p n len p' n' : Nat} {st : PktStatus} {t : MsgType}
    (h : getNextLine s p n len st t = some (p', n', s')) :
    nresp s' = nresp s ∧ (st = .ok → t = .solicited → p' + n' ≤ n) := by
  unfold getNextLine at h
  simp only at h
  split at h
  · split at h
    · cases h
    · rw [Option.map_eq_some_iff] at h
      obtain ⟨m, _, h⟩ := h
      cases h
      exact ⟨rfl, fun _ _ => by omega⟩
  · rename_i hn
    cases h
    exact ⟨rfl, fun a b => absurd ⟨a, b⟩ hn⟩

theorem handleData_nresp {s s' : St} {a p n x y : Nat} (h : handleData s a p n = some (x, y, s')) :
    nresp s' = nresp s := by
  unfold handleData at h
  split at h
  · cases h
  · simp only at h
    split at h
    · split at h
      · cases h
      · cases h; rfl
    · cases h; rfl

theorem handleLine_pos {cfg : Cfg} {s s' : St} {c : Cur} {len : Nat} {oc : Option Cur}
    (h : handleLine cfg s c len = some (oc, s')) :
    nresp s' = nresp s ∨ ∃ c', oc = some c' ∧ c'.p + c'.n ≤ c.n := by
  unfold handleLine at h
  split at h
  · cases h
  · split at h
    · cases h
    · rename_i st t s1 hm
      have h1 := handleMsgType_nresp hm
      have next : ∀ st', st' = st → (getNextLine s1 c.p c.n len st' t).map
          (fun r => ((some { c with p := r.1, n := r.2.1 } : Option Cur), r.2.2)) = some (oc, s') →
          nresp s' = nresp s ∨ ∃ c', oc = some c' ∧ c'.p + c'.n ≤ c.n := by
        intro st' hst h
        rw [Option.map_eq_some_iff] at h
        obtain ⟨⟨p', n', s2⟩, e, h⟩ := h
        cases h
        obtain ⟨g1, g2⟩ := getNextLine_pos e
        rcases h1 with h1 | ⟨a, b⟩
        · left; simp only; rw [g1, h1]
        · right; exact ⟨_, rfl, g2 (hst.trans a) b⟩
      split at h
      · split at h
        · split at h
          · cases h
          · rw [Option.map_eq_some_iff] at h
            obtain ⟨⟨x, y, s2⟩, e, h⟩ := h
            cases h
            left
            rcases h1 with h1 | ⟨a, _⟩
            · simp only; rw [handleData_nresp e, h1]
            · cases a
        · exact next _ rfl h
      · exact next _ rfl h
      · exact next _ rfl h
      · rename_i hne _ _
        cases h
        rcases h1 with h1 | ⟨a, _⟩
        · left; exact h1
        · simp_all

theorem iter_pos {cfg : Cfg} {s s' : St} {c : Cur} {oc : Option Cur} (hn : NoCb cfg s)
    (hl : c.p + c.n ≤ s.buf.length) (h : iter cfg s c = some (oc, s')) :
    nresp s' = nresp s ∨ ∃ c', oc = some c' ∧ c'.p + c'.n ≤ c.n := by
  obtain ⟨p1, n1, e1, a1, a2⟩ := skipEol_some s.buf c.n c.p hl
  unfold iter at h
  rw [e1] at h
  simp only [preprocessInput, hn.input] at h
  unfold preprocessLine at h
  by_cases h0 : n1 = 0
  · rw [if_pos h0] at h
    cases h
    left; rfl
  · rw [if_neg h0] at h
    simp only [hn.send, hn.data] at h
    split at h
    · cases h
    · rename_i s2 hf
      cases h
      left
      unfold findLine at hf
      split at hf
      · cases hf
      · split at hf
        · rw [Option.map_eq_some_iff] at hf; obtain ⟨_, _, hf⟩ := hf; cases hf
        · cases hf; rfl
    · rename_i s2 len hf
      have e2 : nresp s2 = nresp s := by
        unfold findLine at hf
        split at hf
        · cases hf
        · split at hf
          · rw [Option.map_eq_some_iff] at hf; obtain ⟨_, _, hf⟩ := hf; cases hf; rfl
          · cases hf
      rcases handleLine_pos h with g | ⟨c', g1, g2⟩
      · left; rw [g, e2]
      · right; exact ⟨c', g1, by simp only at g2; omega⟩

theorem loop_pos {cfg : Cfg} : ∀ (k : Nat) {s s' : St} {c : Cur}, RxInv0 cfg s → NoCb cfg s →
    c.p + c.n ≤ cfg.size → c.n < k → loop cfg k s c = some s' → nresp s' = nresp s ∨ PosIn c.n s' := by
  intro k
  induction k with
  | zero => intro s s' c _ _ _ h; omega
  | succ k ih =>
    intro s s' c h hn hp hk hL
    obtain ⟨oc, s1, e, i, sc, x, y⟩ := iter_inv h hn.inText (Nat.le_refl _) hp
    unfold loop at hL
    rw [e] at hL
    have hpos := iter_pos hn (by have := h.len; omega) e
    cases oc with
    | none =>
      simp only at hL
      cases hL
      rcases hpos with g | ⟨c', g, _⟩
      · exact Or.inl g
      · cases g
    | some c1 =>
      simp only at hL
      have hy := y c1 rfl
      rcases hpos with g | ⟨c', g1, g2⟩
      · rcases ih i (hn.of_same sc) hy.1 (by omega) hL with g' | g'
        · exact Or.inl (g'.trans g)
        · right; unfold PosIn at g' ⊢; omega
      · cases g1
        right
        obtain ⟨s2, e2, _, q, _⟩ := loop_inv (E := c1.p + c1.n) k i (hn.inText.of_same sc) (by omega)
          (Nat.le_refl _) (by omega)
        rw [hL] at e2
        cases e2
        unfold PosIn at q ⊢
        omega

/-- A read in which a response is handed over leaves the unread text within the first bytes of the buffer: as many as there
were unread and new ones. -/
theorem rxEvent_pos {cfg : Cfg} {s s' : St} {chunk : Str} {k : Nat} (h : RxInv cfg s) (hn : NoCb cfg s)
    (hroom : chunk.length ≤ room cfg s) (he : rxEvent cfg s chunk = some (k, s')) :
    nresp s' = nresp s ∨ PosIn (s.partialLen + chunk.length) s' := by
  obtain ⟨s1, p, pr, e, er, h1, c1, hpl, hpr, hpe, hpp, hpq⟩ := readPos_inv h
  have hev : nresp s1 = nresp s := by
    unfold readPos at er
    split at er
    · cases er; rfl
    · split at er
      · split at er
        · cases er
        · split at er
          · cases er
          · rw [Option.map_eq_some_iff] at er; obtain ⟨_, _, er⟩ := er; cases er; rfl
      · cases er; rfl
  rw [room_eq er] at hroom
  unfold rxEvent at he
  rw [er] at he
  simp only at he
  split at he
  · rename_i hem
    split at he
    · cases he; exact Or.inl hev
    · rename_i hne
      have hl := h1.1.len
      obtain ⟨m, em, hm1, hm2⟩ := put_some (m := s1.buf) (p := pr) (t := chunk ++ [0]) (by simp; omega)
      rw [em] at he
      simp only [] at he
      rw [if_neg (by simp [h1.1.data])] at he
      simp only [] at he
      have hlast : m[cfg.size]? = some 0 := by
        by_cases hb : pr + chunk.length = cfg.size
        · have em' := em
          unfold Pktio.put at em'
          rw [if_pos (by simp; omega)] at em'
          cases em'
          rw [List.append_assoc, List.getElem?_append_right (by simp; omega)]
          rw [List.append_assoc, List.getElem?_append_right (by simp; omega)]
          simp only [List.length_take, List.singleton_append]
          rw [show cfg.size - min pr s1.buf.length - chunk.length = 0 from by omega]
          rfl
        · rw [hm2 _ (Or.inr (by simp; omega))]; exact h1.1.last
      have hi : RxInv0 cfg { s1 with buf := m, partialLen := 0 } :=
        ⟨hm1.trans h1.1.len, hlast, h1.1.items, h1.1.data⟩
      have hlpos : p + (chunk.length + s1.partialLen) ≤ cfg.size := by omega
      have hlen0 : 0 < chunk.length := List.length_pos_iff.mpr hne
      rw [if_pos (by omega)] at he
      obtain ⟨m', em', hm'⟩ := hi.wr0 (i := p + (chunk.length + s1.partialLen)) hlpos
      simp only [] at em' hm'
      rw [em'] at he
      simp only [handleAllReceived, Option.map_eq_some_iff] at he
      obtain ⟨s2, hL, he⟩ := he
      cases he
      rcases loop_pos _ (c := ⟨p, chunk.length + s1.partialLen, none⟩) hm'
        (hn.of_same (SameCb.trans c1 (.refl _))) hlpos (by simp) hL with g | g
      · left; rw [← hev]; exact g
      · right; simp only [PosIn] at g ⊢; omega
  · cases he; exact Or.inl hev

/-! ## Reads that only bring unsolicited codes leave the collected response alone -/

/-- Lines collected so far. -/
def nItems (s : St) : Nat := (s.resp.getD ⟨false, []⟩).items.length

/-- From `s` to `s'` the collected response stays as it is, or grows, or something other than an unsolicited code was
handed over. -/
def Kept (s s' : St) : Prop :=
  SameCb s s' ∧ ∃ ev, s'.events = s.events ++ ev ∧
    ((∃ e ∈ ev, ∀ l, e ≠ Event.urc l) ∨ s'.resp = s.resp ∨ nItems s < nItems s')

theorem Kept.same {s s' : St} (h0 : SameCb s s') (h1 : s'.events = s.events) (h2 : s'.resp = s.resp) : Kept s s' :=
  ⟨h0, [], by rw [h1, List.append_nil], Or.inr (Or.inl h2)⟩

theorem Kept.trans {s s1 s2 : St} (h1 : Kept s s1) (h2 : Kept s1 s2) : Kept s s2 := by
  obtain ⟨b1, e1, a1, c1⟩ := h1
  obtain ⟨b2, e2, a2, c2⟩ := h2
  refine ⟨b1.trans b2, e1 ++ e2, by rw [a2, a1, List.append_assoc], ?_⟩
  rcases c1 with ⟨e, he, hn⟩ | c1 | c1
  · exact Or.inl ⟨e, by simp [he], hn⟩
  · rcases c2 with ⟨e, he, hn⟩ | c2 | c2
    · exact Or.inl ⟨e, by simp [he], hn⟩
    · exact Or.inr (Or.inl (c2.trans c1))
    · right; right; have : nItems s1 = nItems s := by unfold nItems; rw [c1]
      omega
  · rcases c2 with ⟨e, he, hn⟩ | c2 | c2
    · exact Or.inl ⟨e, by simp [he], hn⟩
    · right; right; have : nItems s2 = nItems s1 := by unfold nItems; rw [c2]
      omega
    · right; right; omega

theorem handleUndefined_kept (cfg : Cfg) (s : St) (r : Option Resp) (l : Str) :
    Kept s (handleUndefined cfg { s with resp := r } l).2 := by
  refine ⟨?_, [.undefined l], ?_, Or.inl ⟨_, List.mem_singleton.mpr rfl, by simp⟩⟩
  all_goals unfold handleUndefined
  all_goals simp only
  · split <;> exact ⟨rfl, rfl⟩
  · split <;> simp [cleanBuf]

theorem processLine_grows {cfg : Cfg} {line : Str} {it : Item} {r r' : Resp} {t : CmdType} {st : PktStatus}
    (h : processLine cfg line it r t = (st, r')) (hs : st = .pendingData ∨ st = .pendingBuffer) :
    r.items.length < r'.items.length := by
  unfold processLine at h
  split at h
  · split at h
    · cases h; simp at hs
    · split at h
      · cases h; simp at hs
      · unfold processIntermediate at h
        simp only at h
        split at h
        · split at h
          · cases h; simp
          · cases h; simp at hs
        · split at h
          · cases h; simp
          · cases h; simp at hs
        all_goals (cases h; first | (simp at hs; done) | simp)
  · cases h; simp at hs

theorem handleMsgType_kept {cfg : Cfg} {s s' : St} {p : Nat} {line : Str} {st : PktStatus} {t : MsgType}
    (h : handleMsgType cfg s p line = some (st, t, s')) : Kept s s' := by
  unfold handleMsgType at h
  split at h
  · split at h
    · cases h
    · cases h; exact ⟨⟨rfl, rfl⟩, [.urc line], rfl, Or.inr (Or.inl rfl)⟩
  · simp only at h
    split at h
    · split at h
      · cases h
      · cases h
        exact ⟨⟨rfl, rfl⟩, _, rfl, Or.inl ⟨_, List.mem_singleton.mpr rfl, by simp⟩⟩
    · rename_i r hp
      cases h
      exact ⟨⟨rfl, rfl⟩, [], by simp, Or.inr (Or.inr (processLine_grows hp (Or.inr rfl)))⟩
    · rename_i r hp
      cases h
      exact ⟨⟨rfl, rfl⟩, [], by simp, Or.inr (Or.inr (processLine_grows hp (Or.inl rfl)))⟩
    · cases h
      exact handleUndefined_kept cfg s _ line
  · cases h
    exact handleUndefined_kept cfg s s.resp line

theorem getNextLine_kept {s s' : St} {p n len p' n' : Nat} {st : PktStatus} {t : MsgType}
    (h : getNextLine s p n len st t = some (p', n', s')) : Kept s s' := by
  unfold getNextLine at h
  simp only at h
  split at h
  · split at h
    · cases h
    · rw [Option.map_eq_some_iff] at h
      obtain ⟨m, _, h⟩ := h
      cases h
      exact .same ⟨rfl, rfl⟩ rfl rfl
  · cases h
    exact .same ⟨rfl, rfl⟩ rfl rfl

theorem handleData_kept {s s' : St} {a p n x y : Nat} (h : handleData s a p n = some (x, y, s')) : Kept s s' := by
  unfold handleData at h
  split at h
  · cases h
  · simp only at h
    split at h
    · split at h
      · cases h
      · rename_i r hr
        cases h
        exact ⟨⟨rfl, rfl⟩, [], by simp, Or.inr (Or.inr (by simp [nItems, hr]))⟩
    · cases h; exact .same ⟨rfl, rfl⟩ rfl rfl

theorem handleLine_kept {cfg : Cfg} {s s' : St} {c : Cur} {len : Nat} {oc : Option Cur}
    (h : handleLine cfg s c len = some (oc, s')) : Kept s s' := by
  unfold handleLine at h
  split at h
  · cases h
  · split at h
    · cases h
    · rename_i st t s1 hm
      have h1 := handleMsgType_kept hm
      have next : ∀ st', (getNextLine s1 c.p c.n len st' t).map
          (fun r => ((some { c with p := r.1, n := r.2.1 } : Option Cur), r.2.2)) = some (oc, s') → Kept s s' := by
        intro st' h
        rw [Option.map_eq_some_iff] at h
        obtain ⟨⟨p', n', s2⟩, e, h⟩ := h
        cases h
        exact h1.trans (getNextLine_kept e)
      split at h
      · split at h
        · split at h
          · cases h
          · rw [Option.map_eq_some_iff] at h
            obtain ⟨⟨x, y, s2⟩, e, h⟩ := h
            cases h
            exact h1.trans (handleData_kept e)
        · exact next _ h
      · exact next _ h
      · exact next _ h
      · cases h
        exact h1

theorem findLine_kept {s s' : St} {p n : Nat} {o : Option Nat} (h : findLine s p n = some (s', o)) : Kept s s' := by
  unfold findLine at h
  split at h
  · cases h
  · split at h
    · rw [Option.map_eq_some_iff] at h; obtain ⟨_, _, h⟩ := h; cases h; exact .same ⟨rfl, rfl⟩ rfl rfl
    · cases h; exact .same ⟨rfl, rfl⟩ rfl rfl

theorem handleCallbackResult_kept (cfg : Cfg) (s : St) (st : PktStatus) (p n : Nat) :
    Kept s (handleCallbackResult cfg s st p n).2 := by
  unfold handleCallbackResult
  split <;> exact .same ⟨rfl, rfl⟩ rfl rfl

theorem preprocessInput_kept {cfg : Cfg} {s : St} {p n : Nat} {r : Bool × St × Nat × Nat}
    (h : preprocessInput cfg s p n = some r) : Kept s r.2.1 := by
  unfold preprocessInput at h
  split at h
  · cases h; exact .same ⟨rfl, rfl⟩ rfl rfl
  · split at h
    · cases h
    · split at h
      simp only [] at h
      split at h
      · cases h
      · rename_i m _
        split at h
        · split at h <;> cases h <;> exact .same ⟨rfl, rfl⟩ rfl rfl
        · cases h
          exact Kept.trans (s1 := { s with buf := m }) (.same ⟨rfl, rfl⟩ rfl rfl) (handleCallbackResult_kept cfg _ _ p n)

theorem preprocessLine_kept {cfg : Cfg} {s : St} {p n : Nat} {sd : Option Nat}
    {r : Bool × St × Nat × Option Nat} (h : preprocessLine cfg s p n sd = some r) : Kept s r.2.1 := by
  unfold preprocessLine at h
  split at h
  · cases h; exact .same ⟨rfl, rfl⟩ rfl rfl
  · split at h
    · split at h
      · cases h
      · split at h
        simp only [] at h
        split at h
        · cases h
        · rename_i m _
          cases h
          exact Kept.trans (s1 := { s with buf := m }) (.same ⟨rfl, rfl⟩ rfl rfl) (handleCallbackResult_kept cfg _ _ p _)
    · split at h
      · split at h
        · cases h
        · split at h
          simp only [] at h
          split at h
          · cases h
          · rename_i m _
            cases h
            refine Kept.trans ?_ (handleCallbackResult_kept cfg _ _ p _)
            split <;> exact .same ⟨rfl, rfl⟩ rfl rfl
      · cases h; exact .same ⟨rfl, rfl⟩ rfl rfl

theorem iter_kept {cfg : Cfg} {s s' : St} {c : Cur} {oc : Option Cur}
    (h : iter cfg s c = some (oc, s')) : Kept s s' := by
  unfold iter at h
  split at h
  · cases h
  · split at h
    · cases h
    · rename_i hq
      cases h
      exact preprocessInput_kept hq
    · rename_i hq
      have h1 := preprocessInput_kept hq
      split at h
      · cases h
      · rename_i hq2
        cases h
        exact h1.trans (preprocessLine_kept hq2)
      · rename_i hq2
        have h2 := h1.trans (preprocessLine_kept hq2)
        split at h
        · cases h
        · rename_i hf
          cases h
          exact h2.trans (findLine_kept hf)
        · rename_i hf
          exact h2.trans ((findLine_kept hf).trans (handleLine_kept h))

theorem loop_kept {cfg : Cfg} : ∀ (k : Nat) {s s' : St} {c : Cur}, loop cfg k s c = some s' → Kept s s' := by
  intro k
  induction k with
  | zero => intro s s' c h; cases h
  | succ k ih =>
    intro s s' c hL
    unfold loop at hL
    split at hL
    · cases hL
    · rename_i e
      cases hL
      exact iter_kept e
    · rename_i e
      exact (iter_kept e).trans (ih hL)

theorem readPos_kept {cfg : Cfg} {s s1 : St} {p pr : Nat} {e : Int} (er : readPos cfg s = some (s1, p, pr, e)) :
    Kept s s1 := by
  unfold readPos at er
  split at er
  · cases er; exact .same ⟨rfl, rfl⟩ rfl rfl
  · split at er
    · split at er
      · cases er
      · split at er
        · cases er
        · rw [Option.map_eq_some_iff] at er; obtain ⟨_, _, er⟩ := er; cases er; exact .same ⟨rfl, rfl⟩ rfl rfl
    · cases er; exact .same ⟨rfl, rfl⟩ rfl rfl

theorem rxEvent_kept {cfg : Cfg} {s s' : St} {chunk : Str} {k : Nat}
    (he : rxEvent cfg s chunk = some (k, s')) : Kept s s' := by
  unfold rxEvent at he
  split at he
  · cases he
  · rename_i s1 p pr e er
    have h0 := readPos_kept er
    split at he
    · split at he
      · cases he; exact h0
      · split at he
        · cases he
        · rename_i m hm
          simp only at he
          have h1 : Kept s { s1 with buf := m, partialLen := 0 } := h0.trans (.same ⟨rfl, rfl⟩ rfl rfl)
          split at he
          · cases he
          · rename_i left p' s2 hr
            have h2 : Kept s s2 := by
              split at hr
              · exact h1.trans (handleData_kept hr)
              · cases hr; exact h1
            split at he
            · split at he
              · cases he
              · rename_i m2 _
                simp only [handleAllReceived, Option.map_eq_some_iff] at he
                obtain ⟨s3, hL, he⟩ := he
                cases he
                have h3 : Kept s { s2 with buf := m2 } := h2.trans (.same ⟨rfl, rfl⟩ rfl rfl)
                exact h3.trans (loop_kept _ hL)
            · cases he; exact h2
    · cases he
      exact h0.trans (.same ⟨rfl, rfl⟩ rfl rfl)

theorem readsOk_kept {cfg : Cfg} {s s' : St} {chunks : List Str} (hR : ReadsOk cfg s chunks s') :
    Kept s s' := by
  induction hR with
  | nil s => exact .same ⟨rfl, rfl⟩ rfl rfl
  | cons _ _ he _ ih =>
    exact (rxEvent_kept he).trans ih

end Cellular.Props
