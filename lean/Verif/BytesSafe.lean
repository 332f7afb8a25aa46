import Verif.BytesData
/-!
# Concurrent requests over the byte stream: when announced data are safe (C82)

`C82_only_late_data` says where undefined behaviour comes from.  Here, for ports whose headers are lines of the data response: if no
request timed out, it comes only from a modem that sends a header when no request waits for it.
-/

namespace Cellular.Props
open Cellular Cellular.Spec
open Cellular.Pktio (Cur CmdType MsgType Item Resp Cfg getMsgType processLine cleanBuf readPos room skipEol preprocessInput
  preprocessLine findLine handleData getNextLine itemContents put isEol slice isToken processIntermediate)
open Cellular.Bytes (Pc Fns)
open Cellular.Conc (Ev Req Thr ThrStep prefixFor)

/-! ## Specification -/

/-- The text up to its first line end. -/
def firstLine (t : Str) : Str := t.takeWhile (fun b => !isEol b)

/-- **The headers fit the commands**: a data receive with prefix callback is of the type that collects data; the header line its
callback announces data with belongs to its response and is no result code. -/
structure HeadersFit (cfg : Cfg) (fn : Fns) (reqs : List Conc.Req) : Prop where
  tables : cfg.succ.isSome ∧ cfg.err.isSome
  type : ∀ (i : Nat) (r : Conc.Req), reqs[i]? = some r → r.kind = .dataRecv true → r.type = .multiDataWoPrefix
  pfx : ∀ (i : Nat) (r : Conc.Req), reqs[i]? = some r → r.kind = .dataRecv true → ∀ k, r.pfx = some k → k ≠ [] ∧ k.length ≤ 256
  header : ∀ (i : Nat) (r : Conc.Req), reqs[i]? = some r → r.kind = .dataRecv true → ∀ text start len, text ≠ [] → (fn.data i text).2.2 = some (start, len) →
    len ≠ 0 → firstLine (fn.data i text).2.1 ≠ [] ∧ ForCommand cfg .multiDataWoPrefix r.pfx (firstLine (fn.data i text).2.1) ∧
      ¬ IsResult cfg.succ (firstLine (fn.data i text).2.1) ∧ ¬ IsResult cfg.err (firstLine (fn.data i text).2.1)

/-- Request `i` waits for its response: its command is being sent or was sent, it is the pending command and has no status yet. -/
def Awaits (s : Conc.St) (i : Nat) : Prop :=
  ∃ t r, (s.thr t = .raw2 i r ∨ s.thr t = .raw3 i r) ∧ s.cmd ≠ .noCommand ∧ s.queue = none

/-- **A stray header**: the prefix callback of a request announces data on the text received, and the request does not wait for its
response (any more). -/
def Stray (fn : Fns) (s : Bytes.St) : Prop :=
  ∃ c i text start len, s.pc = .pre c (some i) none ∧ slice s.rx.buf c.p c.n = some text ∧
    (fn.data i text).2.2 = some (start, len) ∧ len ≠ 0 ∧ ¬ Awaits s.sh i

/-! ## The header line -/

theorem firstLine_take {t : Str} {i : Nat} (h : t.findIdx? isEol = some i) : firstLine t = t.take i := by
  obtain ⟨e, h1, h2, h3, _⟩ := findIdx_split h
  unfold firstLine
  rw [h1, List.takeWhile_append_of_pos, List.takeWhile_cons_of_neg, List.append_nil, ← h1]
  · simp [(isEol_iff e).mpr h2]
  · intro b hb
    have := h3 b hb
    simp only [Bool.not_eq_true']
    cases hbe : isEol b with
    | false => rfl
    | true => exact absurd ((isEol_iff b).mp hbe) this

theorem firstLine_append {t u : Str} (h : ∃ b ∈ t, isEol b = true) : firstLine (t ++ u) = firstLine t := by
  unfold firstLine
  induction t with
  | nil => obtain ⟨b, hb, _⟩ := h; cases hb
  | cons x t ih =>
    simp only [List.cons_append]
    by_cases hx : isEol x = true
    · rw [List.takeWhile_cons_of_neg (by simp [hx]), List.takeWhile_cons_of_neg (by simp [hx])]
    · rw [List.takeWhile_cons_of_pos (by simp [hx]), List.takeWhile_cons_of_pos (by simp [hx]), ih]
      obtain ⟨b, hb, hbe⟩ := h
      rcases List.mem_cons.mp hb with rfl | hb
      · exact absurd hbe hx
      · exact ⟨b, hb, hbe⟩

theorem findLine_text {s s' : Pktio.St} {p n len : Nat} (hl : p + n ≤ s.buf.length) (e : findLine s p n = some (s', some len)) :
    readStr s'.buf p = some (firstLine (txt s.buf p n)) ∧ s'.dataLen = s.dataLen := by
  unfold findLine at e
  rw [slice_some hl] at e
  simp only [] at e
  cases hf : ((s.buf.drop p).take n).findIdx? isEol with
  | none => rw [hf] at e; simp at e
  | some i =>
    rw [hf] at e
    simp only [] at e
    have ht : ((s.buf.drop p).take n).length = n := by simp; omega
    obtain ⟨b, h1, h2, h3, h4⟩ := findIdx_split hf
    rw [wr_some (by omega)] at e
    simp only [Option.map_some, Option.some.injEq, Prod.mk.injEq] at e
    obtain ⟨rfl, rfl⟩ := e
    refine ⟨?_, rfl⟩
    apply LineAt.readStr
    have hfl : firstLine (txt s.buf p n) = txt s.buf p i := by
      rw [← txt_take s.buf p n i (by omega)]
      exact firstLine_take hf
    have htl : (txt s.buf p i).length = i := by simp [txt]; omega
    rw [hfl]
    refine ⟨?_, ?_, ?_⟩
    · rintro x hx rfl
      rw [← txt_take s.buf p n i (by omega)] at hx
      exact h3 0 hx (by unfold LineEnd; decide)
    · rw [htl]
      apply txt_congr
      intro j h5 h6
      exact List.getElem?_set_ne (by omega)
    · rw [htl]
      exact List.getElem?_set_self (by omega)

/-- What happened if data are announced when a line is found. -/
theorem pre_announced {cfg : Cfg} {fn : Fns} (hf : FnsSane cfg fn) {s : Bytes.St} (h : RxInv0 cfg s.rx) {c : Cur} {r d : Option Nat}
    (hp : c.p + c.n ≤ cfg.size) {c' : Cur} {len : Nat} (hpc : (Bytes.pre cfg fn c r d s).pc = .classify c' len)
    (hd : (Bytes.pre cfg fn c r d s).rx.dataLen ≠ 0) :
    d = none ∧ c'.p = c.p ∧ ∃ i text start l, r = some i ∧ slice s.rx.buf c.p c.n = some text ∧ text ≠ [] ∧
      (fn.data i text).2.2 = some (start, l) ∧ l ≠ 0 ∧
      readStr (Bytes.pre cfg fn c r d s).rx.buf c'.p = some (firstLine (fn.data i text).2.1) := by
  have hlen := h.len
  unfold Bytes.pre at hpc hd ⊢
  simp only [] at hpc hd ⊢
  cases hq : preprocessLine cfg { s.rx with sendCb := d.map fn.send, dataCb := r.map fn.data } c.p c.n c.sd with
  | none => rw [hq] at hpc; cases hpc
  | some q =>
    obtain ⟨b, rx, n, sd⟩ := q
    rw [hq] at hpc hd
    cases b with
    | false => cases hpc
    | true =>
      simp only [] at hpc hd ⊢
      cases hfl : findLine rx c.p n with
      | none => rw [hfl] at hpc; cases hpc
      | some q =>
        obtain ⟨rx2, o⟩ := q
        rw [hfl] at hpc hd
        cases o with
        | none => cases hpc
        | some len' =>
          simp only [] at hpc hd ⊢
          cases hrd : readStr rx2.buf c.p with
          | none => rw [hrd] at hpc; cases hpc
          | some line =>
            rw [hrd] at hpc hd
            simp only [] at hpc hd ⊢
            cases hpc
            unfold preprocessLine at hq
            split at hq
            · cases hq
            rename_i hn0
            have fin : rx.dataLen ≠ 0 ∧ (c.p + n ≤ rx.buf.length → readStr rx2.buf c.p = some (firstLine (txt rx.buf c.p n))) := by
              constructor
              · intro h0
                apply hd
                obtain ⟨text, hsl⟩ : ∃ text, slice rx.buf c.p n = some text := by
                  cases hsl : slice rx.buf c.p n with
                  | none => unfold findLine at hfl; rw [hsl] at hfl; cases hfl
                  | some t => exact ⟨t, rfl⟩
                rw [(findLine_text (slice_len hsl).2 hfl).2, h0]
              · intro hl; exact (findLine_text hl hfl).1
            cases d with
            | some j =>
              exfalso
              simp only [Option.map_some] at hq
              rw [slice_some (by omega)] at hq
              simp only [] at hq
              split at hq
              · cases hq
              · simp only [Option.some.injEq, Prod.mk.injEq] at hq
                obtain ⟨h1, h2, _⟩ := hq
                apply fin.1
                rw [← h2]
                unfold Pktio.handleCallbackResult
                split <;> exact h.data
            | none =>
              simp only [Option.map_none] at hq
              cases r with
              | none =>
                exfalso
                simp only [Option.map_none, Option.some.injEq, Prod.mk.injEq] at hq
                apply fin.1
                rw [← hq.2.1]
                exact h.data
              | some i =>
                simp only [Option.map_some] at hq
                have hsl : slice s.rx.buf c.p c.n = some ((s.rx.buf.drop c.p).take c.n) := slice_some (by omega)
                rw [hsl] at hq
                simp only [] at hq
                have htl := (slice_len hsl).1
                have hne : (s.rx.buf.drop c.p).take c.n ≠ [] := by
                  intro h0; rw [h0] at htl; simp at htl; omega
                generalize (s.rx.buf.drop c.p).take c.n = text at *
                obtain ⟨g1, g2⟩ := hf.data i text hne
                cases hfd : fn.data i text with
                | mk st q =>
                obtain ⟨text', out⟩ := q
                rw [hfd] at hq g1 g2
                simp only [] at hq g1 g2
                obtain ⟨m, em, hm1, hm2⟩ := put_some (m := s.rx.buf) (p := c.p) (t := text') (by omega)
                rw [em] at hq
                simp only [Option.some.injEq, Prod.mk.injEq] at hq
                obtain ⟨h1, h2, h3, h4⟩ := hq
                cases out with
                | none =>
                  exfalso
                  apply fin.1
                  rw [← h2]
                  unfold Pktio.handleCallbackResult
                  split <;> exact h.data
                | some sl =>
                  obtain ⟨start, l⟩ := sl
                  simp only [] at h2
                  have hdl : rx.dataLen = l := by
                    rw [← h2]; unfold Pktio.handleCallbackResult; split <;> rfl
                  have hl0 : l ≠ 0 := by rw [← hdl]; exact fin.1
                  obtain ⟨hok, heol⟩ := (g2 start l rfl).2 hl0
                  subst hok
                  refine ⟨rfl, rfl, i, text, start, l, rfl, hsl, hne, by rw [hfd], hl0, ?_⟩
                  have hbuf : rx.buf = m := by rw [← h2]; rfl
                  subst h3
                  refine (fin.2 (by rw [hbuf, hm1]; omega)).trans ?_
                  rw [hfd]
                  simp only []
                  congr 1
                  rw [hbuf]
                  have : txt m c.p c.n = txt m c.p text'.length ++ (txt m c.p c.n).drop text'.length := by
                    rw [← txt_take m c.p c.n text'.length (by omega)]
                    exact (List.take_append_drop _ _).symm
                  rw [this, txt_put em]
                  exact firstLine_append heol

/-! ## The request that waits -/

/-- The prefix in effect. -/
def prefixNow (s : Conc.St) : Option Str := if s.pfxOn then some s.pfxBuf else none

/-- While a request is between sending its command and its status, the pending command and the prefix are its own, or the response is complete. -/
def Pending (s : Conc.St) : Prop :=
  ∀ t i r, (s.thr t = .raw2 i r ∨ s.thr t = .raw3 i r) → s.cmd = .noCommand ∨ (s.cmd = r.type ∧ prefixFor r.type r.pfx = some (prefixNow s))

/-- Another thread can only make a call. -/
theorem others_call {comm : Bool} {t u : Nat} {s s' : Conc.St} (h : ThrStep comm t s s') (I : ConcLemmas.Inv s) (hu : active (s.thr u) ≠ none)
    (hne : u ≠ t) : ∃ r, s' = { s.set t (.waiting s.reqs.length r) with reqs := s.reqs ++ [r] } := by
  have hm := (I.m u).1 hu
  have act : active (s.thr t) ≠ none → False := by
    intro ha
    have := (I.m t).1 ha
    rw [hm] at this
    exact hne (Option.some.inj this)
  cases h with
  | call r h => exact ⟨r, rfl⟩
  | acquire i r h hm' => rw [hm] at hm'; cases hm'
  | _ => exact absurd (by rw [‹s.thr t = _›]; nofun) act

theorem raw_active {p : Thr} {i : Nat} {r : Conc.Req} (h : p = .raw2 i r ∨ p = .raw3 i r) : active p ≠ none := by
  rcases h with rfl | rfl <;> nofun

theorem pending_thr {comm : Bool} {t : Nat} {s s' : Conc.St} (h : ThrStep comm t s s') (I : ConcLemmas.Inv s) (P : Pending s) : Pending s' := by
  intro u i r hu
  by_cases hut : u = t
  · subst hut
    cases h <;> simp only [Conc.St.set, Conc.St.emit, if_true] at hu
    case call => rcases hu with hu | hu <;> cases hu
    case acquire => rcases hu with hu | hu <;> cases hu
    case install => rcases hu with hu | hu <;> cases hu
    case raw0null => rcases hu with hu | hu <;> cases hu
    case raw0 => rcases hu with hu | hu <;> cases hu
    case raw1fail => rcases hu with hu | hu <;> cases hu
    case raw1 i' r' text p h hc he =>
      rcases hu with hu | hu
      · cases hu
        right
        refine ⟨rfl, ?_⟩
        unfold Conc.sendCheck at he
        split at he
        · cases he
        · split at he
          · cases he
          · split at he
            · cases he
              rename_i hp
              rw [hp]
              simp only [prefixNow, Conc.St.set]
              cases p <;> rfl
            · cases he
      · cases hu
    case raw2 i' r' text h hc =>
      rcases hu with hu | hu
      · cases hu
      · cases hu; exact P u i r (.inl h)
    case raw3got => rcases hu with hu | hu <;> cases hu
    case raw3timeout => rcases hu with hu | hu <;> cases hu
    case raw4 => rcases hu with hu | hu <;> cases hu
    case uninstall i' r' st h =>
      unfold Conc.afterRaw at hu
      split at hu <;> rcases hu with hu | hu <;> cases hu
    case data0null => rcases hu with hu | hu <;> cases hu
    case data0 => rcases hu with hu | hu <;> cases hu
    case data1 => unfold Conc.afterData at hu; split at hu <;> rcases hu with hu | hu <;> cases hu
    case data1short => rcases hu with hu | hu <;> cases hu
    case data2 => rcases hu with hu | hu <;> cases hu
    case data2short => rcases hu with hu | hu <;> cases hu
    case data3got => rcases hu with hu | hu <;> cases hu
    case data3timeout => rcases hu with hu | hu <;> cases hu
    case data4 => rcases hu with hu | hu <;> cases hu
    case release => rcases hu with hu | hu <;> cases hu
  · by_cases ha : active (s.thr u) = none
    · exfalso
      have : s'.thr u = s.thr u := by
        cases h <;> simp [Conc.St.set, Conc.St.emit, hut]
      rw [this] at hu
      exact raw_active hu ha
    · obtain ⟨q, rfl⟩ := others_call h I ha hut
      simp only [Conc.St.set, if_neg hut] at hu
      exact P u i r hu

theorem pending_rx {s s' : Conc.St} (m : RxMove s s') (P : Pending s) : Pending s' := by
  intro t i r h
  rw [m.thr] at h
  rcases m.cmd with ⟨h1, h2⟩ | h1
  · unfold prefixNow
    rw [h1, h2, m.pfxBuf]
    exact P t i r h
  · exact .inl h1

/-- The line is the header of data announced for a request that waits for it. -/
def Hot (fn : Fns) (s : Conc.St) (line : Str) : Prop :=
  ∃ t i r text start l, (s.thr t = .raw2 i r ∨ s.thr t = .raw3 i r) ∧ s.cmd ≠ .noCommand ∧ s.queue = none ∧ s.reqs[i]? = some r ∧
    r.kind = .dataRecv true ∧ text ≠ [] ∧ (fn.data i text).2.2 = some (start, l) ∧ l ≠ 0 ∧ line = firstLine (fn.data i text).2.1

/-- No step of a thread disturbs it, except a time-out. -/
theorem Hot.thr {fn : Fns} {comm : Bool} {t : Nat} {s s' : Conc.St} {line : Str} (h : ThrStep comm t s s') (I : ConcLemmas.Inv s)
    (hn : NoLoss s'.log) (hh : Hot fn s line) : Hot fn s' line ∧ s'.pfxOn = s.pfxOn ∧ s'.cmd = s.cmd := by
  obtain ⟨u, i, r, text, start, l, h1, h2, h3, h4, h5⟩ := hh
  by_cases hut : u = t
  · subst hut
    rcases h1 with h1 | h1
    · cases h
      case raw2 i' r' text' ht hc =>
        rw [h1] at ht
        cases ht
        exact ⟨⟨u, i, r, text, start, l, .inr (by simp [Conc.St.set, Conc.St.emit]), h2, h3, h4, h5⟩, rfl, rfl⟩
      all_goals rename_i hx; simp_all
    · cases h
      case raw3timeout i' r' ht hq =>
        exfalso
        exact (hn i').1 (by simp [Conc.St.set, Conc.St.emit])
      all_goals simp_all
  · obtain ⟨q, rfl⟩ := others_call h I (raw_active h1) hut
    refine ⟨⟨u, i, r, text, start, l, ?_, h2, h3, ConcLemmas.getElem?_mono h4 _, h5⟩, rfl, rfl⟩
    simpa only [Conc.St.set, if_neg hut] using h1

/-- What holds at each place of the receive task if no header was stray. -/
def PcH (fn : Fns) (s : Bytes.St) : Pc → Prop
  | .pre _ (some i) _ => ∃ r, s.sh.reqs[i]? = some r ∧ r.kind = .dataRecv true
  | .classify c _ => s.rx.dataLen ≠ 0 → ∃ line, readStr s.rx.buf c.p = some line ∧ Hot fn s.sh line
  | .classify2 c _ on => s.rx.dataLen ≠ 0 → ∃ line, readStr s.rx.buf c.p = some line ∧ Hot fn s.sh line ∧ on = s.sh.pfxOn
  | .proc c _ => s.rx.dataLen ≠ 0 → ∃ line, readStr s.rx.buf c.p = some line ∧ Hot fn s.sh line
  | .proc2 c _ t => s.rx.dataLen ≠ 0 → ∃ line, readStr s.rx.buf c.p = some line ∧ Hot fn s.sh line ∧ t = s.sh.cmd
  | _ => True

theorem pcH_thr {fn : Fns} {comm : Bool} {t : Nat} {s : Bytes.St} {sh : Conc.St} (h : ThrStep comm t s.sh sh) (I : ConcLemmas.Inv s.sh)
    (hn : NoLoss sh.log) (H : PcH fn s s.pc) : PcH fn { s with sh := sh } s.pc := by
  have hreq : ∀ (i : Nat) (r : Conc.Req), s.sh.reqs[i]? = some r → sh.reqs[i]? = some r := by
    intro i r e
    cases h <;> first | exact e | exact ConcLemmas.getElem?_mono e _
  cases hc : s.pc with
  | pre c r d =>
    rw [hc] at H
    cases r with
    | none => trivial
    | some i => obtain ⟨r, h1, h2⟩ := H; exact ⟨r, hreq i r h1, h2⟩
  | classify c len =>
    rw [hc] at H
    intro hd
    obtain ⟨line, h1, h2⟩ := H hd
    exact ⟨line, h1, (h2.thr h I hn).1⟩
  | classify2 c len on =>
    rw [hc] at H
    intro hd
    obtain ⟨line, h1, h2, h3⟩ := H hd
    obtain ⟨g1, g2, g3⟩ := h2.thr h I hn
    exact ⟨line, h1, g1, h3.trans g2.symm⟩
  | proc c len =>
    rw [hc] at H
    intro hd
    obtain ⟨line, h1, h2⟩ := H hd
    exact ⟨line, h1, (h2.thr h I hn).1⟩
  | proc2 c len t' =>
    rw [hc] at H
    intro hd
    obtain ⟨line, h1, h2, h3⟩ := H hd
    obtain ⟨g1, g2, g3⟩ := h2.thr h I hn
    exact ⟨line, h1, g1, h3.trans g3.symm⟩
  | _ => trivial

/-- The header is classed as a line of the response, and collected as a line with data. -/
theorem Hot.collected {cfg : Cfg} {fn : Fns} {comm : Bool} {s : Conc.St} {line : Str} (hh : Hot fn s line) (I : ConcLemmas.Inv s) (P : Pending s)
    (hf : HeadersFit cfg fn s.reqs) : getMsgType cfg s.cmd (prefixNow s) line = .solicited ∧
      ∀ it r, (processLine { cfg with extra := s.extra.map (·.2) } line it r s.cmd).1 = .pendingBuffer := by
  obtain ⟨t, i, r, text, start, l, h1, h2, h3, h4, h5, h6, h7, h8, rfl⟩ := hh
  have ht := hf.type i r h4 h5
  obtain ⟨g1, g2, g3, g4⟩ := hf.header i r h4 h5 text start l h6 h7 h8
  rcases P t i r h1 with h | ⟨h, hp⟩
  · exact absurd h h2
  · rw [ht] at h hp
    have hp' : r.pfx = prefixNow s := by simpa [prefixFor] using hp
    have hx : s.extra = none := by
      cases he : s.extra with
      | none => rfl
      | some x =>
        exfalso
        obtain ⟨p, r', hc, hr, htb⟩ := I.ex x.1 x.2 he
        have hm := (I.m t).1 (raw_active h1)
        simp only [ConcLemmas.cur, hm, Option.map_some, Option.some.injEq] at hc
        subst hc
        have : r' = r := by
          rcases h1 with h1 | h1 <;> rw [h1] at hr <;> simp only [inRaw, Option.some.injEq, Prod.mk.injEq] at hr <;> exact hr.2.symm
        subst this
        rw [h5] at htb
        cases htb
    rw [h]
    refine ⟨forCommand_solicited nofun g1 (by rw [← hp']; exact hf.pfx i r h4 h5) (by rw [← hp']; exact g2), ?_⟩
    intro it r'
    rw [hx]
    unfold processLine
    rw [if_pos ⟨hf.tables.2, hf.tables.1⟩, if_neg, if_neg]
    · rfl
    · exact fun e => g4 (isToken_sound g1 e)
    · rintro (e | e)
      · obtain ⟨_, h, _⟩ := isToken_sound g1 e
        cases h
      · exact g3 (isToken_sound g1 e)

theorem loc_inRaw {comm : Bool} {reqs : List Conc.Req} {log : List Ev} {p : Thr} (h : ConcLemmas.Local comm reqs log p) {i : Nat} {r : Conc.Req}
    (hr : inRaw p = some (i, r)) : reqs[i]? = some r := by
  cases p <;> simp only [inRaw, Option.some.injEq, Prod.mk.injEq, reduceCtorEq] at hr
  all_goals
    obtain ⟨rfl, rfl⟩ := hr
    first | exact h | exact h.1

/-- A step of the receive task. -/
theorem pcH_rx {cfg : Cfg} {fn : Fns} (hfs : FnsSane cfg fn) {comm : Bool} {s : Bytes.St} (D : PcD cfg s.rx s.pc) (I : ConcLemmas.Inv s.sh)
    (K : ConcLemmas.Inv3 comm s.sh) (P : Pending s.sh) (hf : HeadersFit cfg fn s.sh.reqs) (hs : ¬ Stray fn s) (H : PcH fn s s.pc)
    (chunk : Str) (v : PktStatus) : PcH fn (Bytes.next cfg fn chunk v s) (Bytes.next cfg fn chunk v s).pc := by
  cases hc : s.pc with
  | wait =>
    unfold Bytes.next
    rw [hc]
    simp only [Bytes.enter]
    split
    · trivial
    · rw [hc]; trivial
    · trivial
  | top c =>
    unfold Bytes.next
    rw [hc]
    simp only [Bytes.top]
    split
    · trivial
    · split
      · trivial
      · trivial
      · split
        · trivial
        · simp only []
          cases hr : s.sh.recvCb with
          | none => trivial
          | some i =>
            obtain ⟨p, r, h1, h2, h3⟩ := I.rc i hr
            cases hm : s.sh.mutex with
            | none => simp [ConcLemmas.cur, hm] at h1
            | some t =>
              simp only [ConcLemmas.cur, hm, Option.map_some, Option.some.injEq] at h1
              subst h1
              exact ⟨r, loc_inRaw (K.loc t) h2, h3⟩
  | pre c r d =>
    rw [hc] at D H
    have e : Bytes.next cfg fn chunk v s = Bytes.pre cfg fn c r d s := by unfold Bytes.next; rw [hc]
    rw [e]
    have m := next_move cfg fn chunk v s
    have hpcs : (∃ c' len, (Bytes.pre cfg fn c r d s).pc = .classify c' len) ∨ (Bytes.pre cfg fn c r d s).pc = .wait ∨
        (Bytes.pre cfg fn c r d s).pc = .bad := by
      simp only [Bytes.pre]
      split
      · exact .inr (.inr rfl)
      · exact .inr (.inl rfl)
      · split
        · exact .inr (.inr rfl)
        · exact .inr (.inl rfl)
        · split
          · exact .inr (.inr rfl)
          · exact .inl ⟨_, _, rfl⟩
    rcases hpcs with ⟨c', len, h1⟩ | h1 | h1
    · rw [h1]
      intro hd
      obtain ⟨rfl, hp, i, text, start, l, rfl, hsl, hne, hann, hl0, hrd⟩ := pre_announced hfs D.1 D.2 h1 hd
      refine ⟨_, hrd, ?_⟩
      obtain ⟨rq, k1, k2⟩ := H
      have haw : Awaits s.sh i := by
        by_contra hna
        exact hs ⟨c, i, text, start, l, hc, hsl, hann, hl0, hna⟩
      obtain ⟨t, r, h2, h3, h4⟩ := haw
      have hrr : s.sh.reqs[i]? = some r := by
        rcases h2 with h2 | h2 <;> exact loc_inRaw (K.loc t) (by rw [h2]; rfl)
      have : r = rq := by rw [k1] at hrr; exact (Option.some.inj hrr).symm
      subst this
      have q : ∀ s' : Conc.St, s' = (Bytes.pre cfg fn c (some i) none s).sh → s'.cmd = s.sh.cmd ∧ s'.queue = s.sh.queue := by
        rintro _ rfl
        simp only [Bytes.pre]
        split
        · exact ⟨rfl, rfl⟩
        · exact ⟨rfl, rfl⟩
        · split
          · exact ⟨rfl, rfl⟩
          · exact ⟨rfl, rfl⟩
          · split <;> exact ⟨rfl, rfl⟩
      rw [e] at m
      refine ⟨t, i, r, text, start, l, ?_, ?_, ?_, ?_, k2, hne, hann, hl0, rfl⟩
      · rw [m.thr]; exact h2
      · rw [(q _ rfl).1]; exact h3
      · rw [(q _ rfl).2]; exact h4
      · rw [m.reqs]; exact hrr
    · rw [h1]; trivial
    · rw [h1]; trivial
  | classify c len =>
    unfold Bytes.next
    rw [hc] at H ⊢
    intro hd
    obtain ⟨line, h1, h2⟩ := H hd
    exact ⟨line, h1, h2, rfl⟩
  | classify2 c len on =>
    unfold Bytes.next
    rw [hc] at H ⊢
    simp only [Bytes.classify]
    split
    · trivial
    · split
      · split <;> trivial
      · intro hd
        obtain ⟨line, h1, h2, h3⟩ := H hd
        exact ⟨line, h1, h2⟩
      · trivial
  | proc c len =>
    unfold Bytes.next
    rw [hc] at H ⊢
    intro hd
    obtain ⟨line, h1, h2⟩ := H hd
    exact ⟨line, h1, h2, rfl⟩
  | proc2 c len t =>
    unfold Bytes.next
    rw [hc]
    simp only [Bytes.proc]
    split
    · trivial
    · split <;> trivial
  | done c len => unfold Bytes.next; rw [hc]; trivial
  | handle c len =>
    unfold Bytes.next
    rw [hc]
    simp only [Bytes.handled]
    split
    · trivial
    · split
      · trivial
      · split <;> trivial
  | call c len =>
    unfold Bytes.next
    rw [hc]
    simp only []
    split <;> trivial
  | inCb c len i =>
    unfold Bytes.next
    rw [hc]
    simp only [Bytes.callback]
    split <;> trivial
  | send c len st => unfold Bytes.next; rw [hc]; trivial
  | free c len => unfold Bytes.next; rw [hc]; trivial
  | undef c len =>
    unfold Bytes.next
    rw [hc]
    simp only [Bytes.undef]
    split
    · trivial
    · split <;> trivial
  | undefFail c len => unfold Bytes.next; rw [hc]; trivial
  | after c len st t =>
    unfold Bytes.next
    rw [hc]
    simp only [Bytes.after]
    split
    · split
      · trivial
      · split
        · trivial
        · simp only []
          split <;> trivial
    · split <;> trivial
  | crashed => unfold Bytes.next; rw [hc]; simp only []; rw [hc]; trivial
  | bad => unfold Bytes.next; rw [hc]; simp only []; rw [hc]; trivial

/-- No line comes too late. -/
theorem not_late {cfg : Cfg} {fn : Fns} {comm : Bool} {s : Bytes.St} (I : ConcLemmas.Inv s.sh) (P : Pending s.sh)
    (hf : HeadersFit cfg fn s.sh.reqs) (H : PcH fn s s.pc) (chunk : Str) (v : PktStatus)
    (hpc : (∃ c len on, s.pc = .classify2 c len on) ∨ ∃ c len t, s.pc = .proc2 c len t) : ¬ Late (Bytes.next cfg fn chunk v s) := by
  rcases hpc with ⟨c, len, on, hc⟩ | ⟨c, len, t, hc⟩
  · unfold Bytes.next
    rw [hc] at H ⊢
    simp only [Bytes.classify]
    intro hl
    by_cases hd : s.rx.dataLen = 0
    · revert hl
      split
      · exact fun hl => hl.2
      · split
        · split
          · exact fun hl => hl.2
          · exact fun hl => hl.1 hd
        · exact fun hl => hl.2
        · exact fun hl => hl.1 hd
    · obtain ⟨line, h1, h2, rfl⟩ := H hd
      have hg := (h2.collected (comm := comm) I P hf).1
      unfold prefixNow at hg
      rw [h1] at hl
      simp only [hg] at hl
      exact hl.2
  · unfold Bytes.next
    rw [hc] at H ⊢
    simp only [Bytes.proc]
    intro hl
    by_cases hd : s.rx.dataLen = 0
    · revert hl
      split
      · exact fun hl => hl.2
      · split
        · exact fun hl => hl.1 hd
        · exact fun hl => hl.1 hd
        · exact fun hl => hl.1 hd
        · exact fun hl => hl.1 hd
    · obtain ⟨line, h1, h2, rfl⟩ := H hd
      have hg := (h2.collected (comm := comm) I P hf).2 (.line c.p) (s.rx.resp.getD ⟨false, []⟩)
      rw [h1] at hl
      simp only [hg] at hl
      exact hl.2 rfl

theorem noLoss_prefix {l l' : List Ev} (h : NoLoss (l ++ l')) : NoLoss l :=
  fun i => ⟨fun e => (h i).1 (List.mem_append_left _ e), fun e => (h i).2 (List.mem_append_left _ e)⟩

theorem HeadersFit.prefix {cfg : Cfg} {fn : Fns} {l l' : List Conc.Req} (h : HeadersFit cfg fn (l ++ l')) : HeadersFit cfg fn l :=
  ⟨h.tables, fun i r e => h.type i r (ConcLemmas.getElem?_mono e _), fun i r e => h.pfx i r (ConcLemmas.getElem?_mono e _),
    fun i r e => h.header i r (ConcLemmas.getElem?_mono e _)⟩

/-- Requests and events are only added. -/
theorem step_grows {cfg : Cfg} {fn : Fns} {comm : Bool} {s s' : Bytes.St} (h : Bytes.Step cfg fn comm s s') :
    (∃ l, s'.sh.log = s.sh.log ++ l) ∧ ∃ q, s'.sh.reqs = s.sh.reqs ++ q := by
  cases h with
  | thr t h =>
    cases h <;> simp only [Conc.St.set, Conc.St.emit, List.append_assoc] <;>
      first
      | exact ⟨⟨_, rfl⟩, ⟨_, rfl⟩⟩
      | exact ⟨⟨[], (List.append_nil _).symm⟩, ⟨_, rfl⟩⟩
      | exact ⟨⟨_, rfl⟩, ⟨[], (List.append_nil _).symm⟩⟩
      | exact ⟨⟨[], (List.append_nil _).symm⟩, ⟨[], (List.append_nil _).symm⟩⟩
  | rx _ chunk v hroom =>
    have m := next_move cfg fn chunk v s
    obtain ⟨evs, hl, _⟩ := m.log
    exact ⟨⟨evs, hl⟩, ⟨[], by rw [m.reqs, List.append_nil]⟩⟩

theorem stray_reachable {cfg : Cfg} {fn : Fns} (hfs : FnsSane cfg fn) {comm : Bool} {s : Bytes.St} (h : Bytes.Reachable cfg fn comm s)
    (hf : HeadersFit cfg fn s.sh.reqs) (hn : NoLoss s.sh.log) :
    (PcD cfg s.rx s.pc ∧ PcH fn s s.pc ∧ Pending s.sh) ∨ ∃ s1, Bytes.Reachable cfg fn comm s1 ∧ Stray fn s1 ∧ GoesTo cfg fn comm s1 s := by
  induction h with
  | init =>
    have h := rxInv_init cfg
    refine .inl ⟨⟨h.1.rest, h.2⟩, trivial, ?_⟩
    intro t i r h
    rcases h with h | h <;> cases h
  | @step s0 s' hr hs ih =>
    obtain ⟨⟨l, hl⟩, q, hq⟩ := step_grows hs
    rw [hq] at hf
    have hn' := hn
    rw [hl] at hn
    obtain ⟨I, K, _⟩ := bytes_inv hr
    rcases ih hf.prefix (noLoss_prefix hn) with ⟨D, H, P⟩ | ⟨s1, h1, h2, h3⟩
    · have hs' := hs
      cases hs with
      | thr t ht => exact .inl ⟨D, pcH_thr ht I hn' H, pending_thr ht I P⟩
      | rx _ chunk v hroom =>
        by_cases hst : Stray fn s0
        · exact .inr ⟨s0, hr, hst, .step .refl hs'⟩
        · left
          have m := next_move cfg fn chunk v s0
          rcases next_pcD hfs D v hroom with h | ⟨h, hp⟩
          · exact ⟨h, pcH_rx hfs D I K P hf.prefix hst H chunk v, pending_rx m P⟩
          · exact absurd h (not_late (comm := comm) I P hf.prefix H chunk v hp)
    · exact .inr ⟨s1, h1, h2, .step h3 hs⟩

/-- Missing: not if a request timed out (`C82_data_timeout_witness`).  **Binary data are received safely** - in all executions, with any threads, requests, divisions into reads and interleavings - as long as
no request timed out and the modem sends a header only while the request waits for its response: undefined behaviour comes only after a header that the prefix
callback recognised although its request did not wait for the response. -/
theorem C82_only_stray_data_partial {cfg : Cfg} {fn : Fns} (hfs : FnsSane cfg fn) {comm : Bool} {s : Bytes.St} (h : Bytes.Reachable cfg fn comm s)
    (hf : HeadersFit cfg fn s.sh.reqs) (hn : NoLoss s.sh.log) (hb : s.pc = .bad) :
    ∃ s1, Bytes.Reachable cfg fn comm s1 ∧ Stray fn s1 ∧ GoesTo cfg fn comm s1 s := by
  rcases stray_reachable hfs h hf hn with ⟨D, _⟩ | h
  · rw [hb] at D; exact D.elim
  · exact h

/-! ## Executions -/

theorem demoHdr_firstLine {t : Str} {l e n : Nat} (h : demoHdr t = .block l e n) :
    firstLine (demoDataCb t).2.1 = t.take l ∧ l = 4 ∧ ∃ d : Byte, t.take 4 = [43, 68, 58, d] := by
  have hs := demoRecogniser.shape t l e n h
  obtain ⟨h1, h2, h3, h4, h5, h6⟩ := hs
  refine ⟨?_, ?_⟩
  · simp only [demoDataCb, h]
    have hset : t.set l 0 = t.take l ++ 0 :: t.drop (l + 1) := List.set_eq_take_append_cons_drop.trans (by rw [if_pos (by omega)])
    rw [hset]
    unfold firstLine
    rw [List.takeWhile_append_of_pos, List.takeWhile_cons_of_neg (by decide), List.append_nil]
    intro b hb
    simp only [Bool.not_eq_true']
    cases hbe : isEol b with
    | false => rfl
    | true => exact absurd ((isEol_iff b).mp hbe) (h5 b hb)
  · unfold demoHdr at h
    split at h
    · split at h
      · cases h; exact ⟨rfl, _, rfl⟩
      · cases h
    · split at h <;> cases h
    · cases h

/-- A data receive for the header "+D". -/
def fitsB (r : Conc.Req) : Bool := decide (r.type = .multiDataWoPrefix) && decide (r.pfx = some (str "+D"))

/-- The requests of the examples fit. -/
theorem ex_headersFit {reqs : List Conc.Req} (h : reqs.all fitsB = true) : HeadersFit (demoCfg 40) exFns reqs := by
  have hr : ∀ (i : Nat) (r : Conc.Req), reqs[i]? = some r → r.type = .multiDataWoPrefix ∧ r.pfx = some (str "+D") := by
    intro i r e
    have := List.all_eq_true.mp h r (List.mem_of_getElem? e)
    simpa [fitsB] using this
  refine ⟨⟨rfl, rfl⟩, ?_, ?_, ?_⟩
  · intro i r e _; exact (hr i r e).1
  · intro i r e _ k hk
    rw [(hr i r e).2] at hk
    cases hk
    exact ⟨by decide, by decide⟩
  · intro i r e _ text start len ht hann hl
    rw [(hr i r e).2]
    simp only [exFns] at hann ⊢
    cases hh : demoHdr text with
    | no => simp [demoDataCb, hh] at hann
    | incomplete => simp [demoDataCb, hh] at hann
    | block l e' n =>
      obtain ⟨h1, rfl, d, h2⟩ := demoHdr_firstLine hh
      rw [h1, h2]
      refine ⟨nofun, ⟨?_, ?_⟩, ?_, ?_⟩
      · rintro ⟨t, ht, hm⟩
        cases ht
        simp only [List.mem_cons, List.not_mem_nil, or_false] at hm
        rcases hm with hm | hm <;> exact absurd (Option.some.inj (congrArg List.head? hm)) (by decide)
      · exact fun _ => ⟨nofun, str "+D", rfl, [58, d], rfl⟩
      · rintro ⟨t, ht, k, hk, _, _, rest, he⟩
        cases ht
        simp only [List.mem_cons, List.not_mem_nil, or_false] at hk
        rcases hk with rfl | rfl <;> exact absurd (Option.some.inj (congrArg List.head? he)) (by decide)
      · rintro ⟨t, ht, k, hk, _, _, rest, he⟩
        cases ht
        simp only [List.mem_cons, List.not_mem_nil, or_false] at hk
        rcases hk with rfl | rfl
        · exact absurd (Option.some.inj (congrArg List.head? he)) (by decide)
        · exact absurd (Option.some.inj (congrArg (fun x => x[1]?) he)) (by decide)

/-- No time-out, everything accepted. -/
def noLossB (log : List Ev) : Bool :=
  log.all (fun e => match e with
    | .timeout _ => false
    | .sendError _ => false
    | _ => true)

theorem noLossB_sound {log : List Ev} (h : noLossB log = true) : NoLoss log := by
  intro i
  refine ⟨fun e => ?_, fun e => ?_⟩
  · exact absurd (List.all_eq_true.mp h _ e) (by simp)
  · exact absurd (List.all_eq_true.mp h _ e) (by simp)

/-- The hypotheses are met by an execution in which data are received, ... -/
example : FnsSane (demoCfg 40) exFns ∧ ∃ s, Bytes.Reachable (demoCfg 40) exFns true s ∧ HeadersFit (demoCfg 40) exFns s.sh.reqs ∧ NoLoss s.sh.log ∧
    s.given = [(0, [str "+D:7", str "abcdefg"])] := by
  refine ⟨exFns_sane, ?_⟩
  obtain ⟨s, hr, he⟩ := Bytes.exec_reach (cfg := demoCfg 40) (fn := exFns) (comm := true)
    ((begins 0 exReqBlock).map .thr ++ [.rx (str "+D:7\r\n") .ok] ++ rxk 7 ++ [.rx (str "abcdefg") .ok, .rx (str "\r\nOK\r\n") .ok] ++ rxk 20)
    (fun s => (s.given, noLossB s.sh.log, s.sh.reqs.all fitsB)) ([(0, [str "+D:7", str "abcdefg"])], true, true) (by decide +kernel)
  simp only [Prod.mk.injEq] at he
  exact ⟨s, hr, ex_headersFit he.2.2, noLossB_sound he.2.1, he.1⟩

/-- ... and by one that ends in undefined behaviour: the modem sends a header right after the final result code, before the request has
returned and its callback is removed.  Nothing timed out.  (`stream` is what was read before the read that fails, of seven bytes.) -/
theorem C82_stray_witness : ∃ s, Bytes.Reachable (demoCfg 40) exFns true s ∧ HeadersFit (demoCfg 40) exFns s.sh.reqs ∧ NoLoss s.sh.log ∧
    s.stream = str "OK\r\n+D:7\r\n" ∧ s.pc = .bad := by
  obtain ⟨s, hr, he⟩ := Bytes.exec_reach (cfg := demoCfg 40) (fn := exFns) (comm := true)
    ((begins 0 exReqBlock).map .thr ++ [.rx (str "OK\r\n+D:7\r\n") .ok] ++ rxk 19 ++ [.rx (str "abcdefg") .ok])
    (fun s => (s.stream, noLossB s.sh.log, s.sh.reqs.all fitsB, isBad s.pc)) (str "OK\r\n+D:7\r\n", true, true, true) (by decide +kernel)
  simp only [Prod.mk.injEq] at he
  exact ⟨s, hr, ex_headersFit he.2.2.1, noLossB_sound he.2.1, he.1, isBad_iff he.2.2.2⟩

end Cellular.Props
