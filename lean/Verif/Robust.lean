import Verif.WireSession
import Verif.Dispatch
/-!
# Whatever the modem sends (C77)

No assumption is made about the bytes of the modem: garbage, endless lines, wrong answers, answers at the wrong time.
What the library does with them - receiving, collecting responses, decoding them for the API functions, calling the
functions of the port - stays inside its own objects and those of the caller, with the exceptions stated.
-/

namespace Cellular.Spec
open Cellular Cellular.Pktio Cellular.Wire Cellular.Props
open Cellular.Api (Req)

/-- The transport keeps its contract: asked for at most so many bytes, it delivers no more. -/
def Delivers (cfg : Cfg) : St → List Str → Prop
  | _, [] => True
  | s, c :: cs => c.length ≤ room cfg s ∧ ∀ n s', rxEvent cfg s c = some (n, s') → Delivers cfg s' cs

/-- The receive side at the moment the request `r` has been sent. -/
def waitingFor (s : St) (r : Req) : St := { s with cmd := typeOf r.type, pfx := respPrefix r }

/-- The transport keeps its contract in every history of requests, while a request is pending and between requests.
Nothing else is known about the bytes. -/
def Contract (cfg : Cfg) (m : Wire.Modem) : Prop :=
  ∀ (done : List Req) (r : Req) (k : Stack), (∀ x ∈ done, ValidReq x) → ValidReq r →
    replay cfg m (start cfg) [] done = some k →
      Delivers cfg (waitingFor k.rx r) (m.during done r) ∧
      ∀ a k', exchange cfg k r (m.during done r) = some (a, k') → Delivers cfg k'.rx (m.after done r)

/-- The transport as a filter of an arbitrary supply of pieces: each is cut at what it is asked for. -/
def clip (cfg : Cfg) : St → List Str → List Str
  | _, [] => []
  | s, c :: cs => c.take (room cfg s) ::
      match rxEvent cfg s (c.take (room cfg s)) with
      | none => []
      | some (_, s') => clip cfg s' cs

/-- The query of the eDRX settings. -/
def edrxQuery : Req := ⟨str "AT+CEDRXS?", .multiWithPrefix, some (str "+CEDRXS")⟩

/-- The caller's objects are what the API documents: an address buffer has the length it is said to have. -/
def ObjectsOk : Wire.Call → Prop
  | .getIp _ (some b) n => n ≤ b.length
  | _ => True

/-- The text of a message about a line has no NUL character in it. -/
def NulFree : Event → Prop
  | .urc l => NoNul l
  | .undefined l => NoNul l
  | .response _ _ => True

/-- A line `+:`, more colons, and then a text without a colon. -/
def ColonName (l : Str) : Prop := ∃ k name, l = 43 :: 58 :: (List.replicate k 58 ++ name) ∧ name ≠ [] ∧ (58 : Byte) ∉ name

end Cellular.Spec

namespace Cellular.Props
open Cellular Cellular.Spec Cellular.Pktio Cellular.Wire
open Cellular.Urc (Entry processUrcPacket atParseInit)
open Cellular.Dispatch (Port handlePacket callsOf)
open Cellular.Api (Req Reply World)

/-! ## Bytes to answers -/

/-- Reads within the contract are free of undefined behaviour. -/
theorem reads_total {cfg : Cfg} : ∀ (cs : List Str) {s : St}, RxInv cfg s → CallbacksInText cfg s → Delivers cfg s cs →
    ∃ s', reads cfg s cs = some s' ∧ RxInv cfg s' ∧ SameCb s s'
  | [], s, h, _, _ => ⟨s, rfl, h, .refl s⟩
  | c :: cs, s, h, hc, hd => by
    obtain ⟨k, s1, e, i, sc, -, -⟩ := rxEvent_inv h hc hd.1
    obtain ⟨s2, e2, i2, sc2⟩ := reads_total cs i (hc.of_same sc) (hd.2 k s1 e)
    exact ⟨s2, by simp only [reads, e, e2], i2, sc.trans sc2⟩

/-! ## Every message is a text -/

theorem handleCallbackResult_events (cfg : Cfg) (s : St) (st : PktStatus) (p n : Nat) :
    ((handleCallbackResult cfg s st p n).2).events = s.events := by
  unfold handleCallbackResult
  split <;> rfl

theorem preprocessInput_events {cfg : Cfg} {s : St} {p n : Nat} {r : Bool × St × Nat × Nat}
    (h : preprocessInput cfg s p n = some r) : (r.2.1).events = s.events := by
  unfold preprocessInput at h
  split at h
  · cases h; rfl
  · split at h
    · cases h
    · split at h
      simp only [] at h
      split at h
      · cases h
      · split at h
        · split at h <;> cases h <;> rfl
        · cases h
          exact handleCallbackResult_events cfg _ _ p n

theorem preprocessLine_events {cfg : Cfg} {s : St} {p n : Nat} {sd : Option Nat}
    {r : Bool × St × Nat × Option Nat} (h : preprocessLine cfg s p n sd = some r) : (r.2.1).events = s.events := by
  unfold preprocessLine at h
  split at h
  · cases h; rfl
  · split at h
    · split at h
      · cases h
      · split at h
        simp only [] at h
        split at h
        · cases h
        · cases h
          exact handleCallbackResult_events cfg _ _ p _
    · split at h
      · split at h
        · cases h
        · split at h
          simp only [] at h
          split at h
          · cases h
          · cases h
            rw [handleCallbackResult_events]
            split <;> rfl
      · cases h; rfl

theorem findLine_events {s : St} {p n : Nat} {r : St × Option Nat} (h : findLine s p n = some r) :
    (r.1).events = s.events := by
  unfold findLine at h
  split at h
  · cases h
  · split at h
    · simp only [Option.map_eq_some_iff] at h
      obtain ⟨m, _, rfl⟩ := h
      rfl
    · cases h; rfl

theorem handleData_events {s : St} {start p n : Nat} {r : Nat × Nat × St} (h : handleData s start p n = some r) :
    (r.2.2).events = s.events := by
  unfold handleData at h
  split at h
  · cases h
  · simp only [] at h
    split at h
    · split at h
      · cases h
      · cases h; rfl
    · cases h; rfl

theorem getNextLine_events {s : St} {p n len : Nat} {st : PktStatus} {t : MsgType} {r : Nat × Nat × St}
    (h : getNextLine s p n len st t = some r) : (r.2.2).events = s.events := by
  unfold getNextLine at h
  simp only [] at h
  split at h
  · split at h
    · cases h
    · simp only [Option.map_eq_some_iff] at h
      obtain ⟨m, _, rfl⟩ := h
      rfl
  · cases h; rfl

theorem readPos_events {cfg : Cfg} {s : St} {r : St × Nat × Nat × Int} (h : readPos cfg s = some r) :
    r.1.events = s.events := by
  unfold readPos at h
  split at h
  · cases h; rfl
  · split at h
    · split at h
      · cases h
      · split at h
        · cases h
        · simp only [Option.map_eq_some_iff] at h
          obtain ⟨m, _, rfl⟩ := h
          rfl
    · cases h; rfl


def Texts (s : St) : Prop := ∀ e ∈ s.events, NulFree e

theorem texts_add {s : St} {e : Event} (h : Texts s) (he : NulFree e) : ∀ x ∈ s.events ++ [e], NulFree x := by
  intro x hx
  rcases List.mem_append.mp hx with hx | hx
  · exact h x hx
  · rw [List.mem_singleton.mp hx]; exact he

theorem handleUndefined_texts {cfg : Cfg} {s : St} {line : Str} (h : Texts s) (hl : NoNul line) :
    Texts (handleUndefined cfg s line).2 := by
  unfold handleUndefined
  simp only []
  split <;> exact texts_add h hl

theorem handleMsgType_texts {cfg : Cfg} {s : St} {p : Nat} {line : Str} {r : PktStatus × MsgType × St}
    (h : handleMsgType cfg s p line = some r) (ht : Texts s) (hl : NoNul line) : Texts r.2.2 := by
  unfold handleMsgType at h
  split at h
  · split at h
    · cases h
    · cases h; exact texts_add (e := .urc line) ht hl
  · simp only [] at h
    split at h
    · split at h
      · cases h
      · cases h; exact texts_add (e := .response _ _) ht trivial
    · cases h; exact ht
    · cases h; exact ht
    · cases h; exact handleUndefined_texts (s := { s with resp := _ }) ht hl
  · cases h; exact handleUndefined_texts ht hl

theorem readStr_noNul {m : Mem} {p : Nat} {l : Str} (h : readStr m p = some l) : NoNul l := by
  unfold readStr at h
  have gen : ∀ (m : List Byte) (l : Str), readStrL m = some l → NoNul l := by
    intro m
    induction m with
    | nil => intro l h; simp [readStrL] at h
    | cons b t ih =>
      intro l h
      simp only [readStrL] at h
      split at h
      · cases h; intro x hx; cases hx
      · rename_i hb
        simp only [Option.map_eq_some_iff] at h
        obtain ⟨l', e, rfl⟩ := h
        intro x hx
        rcases List.mem_cons.mp hx with rfl | hx
        · simpa using hb
        · exact ih l' e x hx
  exact gen _ l h

theorem handleLine_texts {cfg : Cfg} {s : St} {c : Cur} {len : Nat} {r : Option Cur × St}
    (h : handleLine cfg s c len = some r) (ht : Texts s) : Texts r.2 := by
  unfold handleLine at h
  split at h
  · cases h
  · rename_i hrd
    split at h
    · cases h
    · rename_i hm
      have h1 := handleMsgType_texts hm ht (readStr_noNul hrd)
      simp only [] at h1 h
      have next : ∀ {st t q}, Option.map (fun r : Nat × Nat × St =>
          (some ({ c with p := r.1, n := r.2.1 } : Cur), r.2.2)) (getNextLine q c.p c.n len st t) = some r →
          Texts q → Texts r.2 := by
        intro st t q hq hT
        simp only [Option.map_eq_some_iff] at hq
        obtain ⟨x, hx, rfl⟩ := hq
        unfold Texts
        rw [getNextLine_events hx]
        exact hT
      split at h
      · split at h
        · split at h
          · cases h
          · simp only [Option.map_eq_some_iff] at h
            obtain ⟨x, hx, rfl⟩ := h
            unfold Texts
            simp only []
            rw [handleData_events hx]; exact h1
        · exact next h h1
      · exact next h h1
      · exact next h h1
      · cases h; exact h1

theorem iter_texts {cfg : Cfg} {s : St} {c : Cur} {r : Option Cur × St} (h : iter cfg s c = some r) (ht : Texts s) :
    Texts r.2 := by
  have same : ∀ {a b : St}, b.events = a.events → Texts a → Texts b := by
    intro a b e hT; unfold Texts; rw [e]; exact hT
  unfold iter at h
  split at h
  · cases h
  · split at h
    · cases h
    · rename_i h1
      cases h
      exact same (preprocessInput_events h1) ht
    · rename_i h1
      have e1 := same (preprocessInput_events h1) ht
      split at h
      · cases h
      · rename_i h2
        cases h
        exact same (preprocessLine_events h2) e1
      · rename_i h2
        have e2 := same (preprocessLine_events h2) e1
        split at h
        · cases h
        · rename_i h3
          cases h
          exact same (findLine_events h3) e2
        · rename_i h3
          exact handleLine_texts h (same (findLine_events h3) e2)

theorem loop_texts {cfg : Cfg} : ∀ {k : Nat} {s s' : St} {c : Cur}, loop cfg k s c = some s' → Texts s → Texts s' := by
  intro k
  induction k with
  | zero => intro s s' c h; cases h
  | succ k ih =>
    intro s s' c h ht
    unfold loop at h
    split at h
    · cases h
    · rename_i h1; cases h; exact iter_texts h1 ht
    · rename_i h1; exact ih h (iter_texts h1 ht)

theorem rxEvent_texts {cfg : Cfg} {s : St} {chunk : Str} {r : Nat × St} (h : rxEvent cfg s chunk = some r)
    (ht : Texts s) : Texts r.2 := by
  have same : ∀ {a b : St}, b.events = a.events → Texts a → Texts b := by
    intro a b e hT; unfold Texts; rw [e]; exact hT
  unfold rxEvent at h
  split at h
  · cases h
  · rename_i h0
    have e0 := same (readPos_events h0) ht
    simp only [] at e0
    split at h
    · split at h
      · cases h; exact e0
      · split at h
        · cases h
        · simp only [] at h
          split at h
          · cases h
          · rename_i h2
            have e2 : ∀ {x : Nat × Nat × St} {q : St} {c : Prop} [Decidable c] {y : Option (Nat × Nat × St)}
                {a b : Nat}, (if c then y else some (a, b, q)) = some x → (∀ z, y = some z → z.2.2.events = q.events) →
                x.2.2.events = q.events := by
              intro x q c _ y a b hx hy
              split at hx
              · exact hy _ hx
              · cases hx; rfl
            have e3 := e2 h2 (fun z hz => handleData_events hz)
            simp only [] at e3
            split at h
            · split at h
              · cases h
              · simp only [Option.map_eq_some_iff] at h
                obtain ⟨s3, h3, rfl⟩ := h
                exact loop_texts h3 (same (a := { (_ : St) with partialLen := 0 }) e3 e0)
            · cases h
              exact same e3 e0
    · cases h
      exact e0

theorem reads_texts {cfg : Cfg} : ∀ (cs : List Str) {s s' : St}, reads cfg s cs = some s' → Texts s → Texts s'
  | [], s, s', h, ht => by cases h; exact ht
  | c :: cs, s, s', h, ht => by
    simp only [reads] at h
    split at h
    · cases h
    · rename_i h1
      exact reads_texts cs h (rxEvent_texts h1 ht)

/-! ## Which unsolicited codes are handled at all -/

theorem colons_split : ∀ (r : Str), ∃ k t, r = List.replicate k 58 ++ t ∧ t.head? ≠ some 58
  | [] => ⟨0, [], rfl, by simp⟩
  | b :: r => by
    by_cases hb : b = 58
    · obtain ⟨k, t, e, h⟩ := colons_split r
      exact ⟨k + 1, t, by rw [hb, e, List.replicate_succ]; rfl, h⟩
    · exact ⟨0, b :: r, rfl, by simp [hb]⟩

theorem colon_in : ∀ (t : Str), (58 : Byte) ∈ t → ∃ a b, t = a ++ 58 :: b ∧ (58 : Byte) ∉ a
  | [], h => by cases h
  | c :: t, h => by
    by_cases hc : c = 58
    · exact ⟨[], t, by rw [hc]; rfl, by simp⟩
    · have : (58 : Byte) ∈ t := by
        rcases List.mem_cons.mp h with h | h
        · exact absurd h.symm hc
        · exact h
      obtain ⟨a, b, e, ha⟩ := colon_in t this
      refine ⟨c :: a, b, by rw [e]; rfl, ?_⟩
      intro hm
      rcases List.mem_cons.mp hm with hm | hm
      · exact hc hm.symm
      · exact ha hm

/-- A line reported as an unsolicited code, whatever it is, is handled without undefined behaviour, with one exception: with a
C library whose `strtok_r` leaves a null pointer at the end of the text, a line `+:` followed by a name and no further
colon (and colons before the name). -/
theorem C21_defined_iff (endNull alloc : Bool) (t : List Entry) (hok : atParseInit (some t) = .ok) (line : Str)
    (hl : NoNul line) :
    processUrcPacket endNull alloc t line = none ↔ endNull = true ∧ alloc = true ∧ ColonName line ∧ line.length ≤ 256 := by
  by_cases hlen : 256 < line.length
  · rw [C21_witness_long_line_dropped endNull alloc t line hlen]
    simp; intros; omega
  cases alloc with
  | false => rw [C21_heap_exhausted]; simp
  | true =>
    have hle : line.length ≤ 256 := by omega
    by_cases h0 : line = []
    · subst h0
      have : processUrcPacket endNull true t [] = some (.failure, []) := by
        have hv : AtStr.valid [] = false := by decide
        simp [processUrcPacket, hv]
      rw [this]
      simp [ColonName]
    by_cases hpre : ∃ name rest, line = 43 :: name ++ 58 :: rest ∧ ∀ b ∈ name, PrefixChar b
    · obtain ⟨name, rest, rfl, hch⟩ := hpre
      by_cases hn : name = []
      · subst hn
        obtain ⟨k, q, hq, hh⟩ := colons_split rest
        subst hq
        simp only [List.cons_append, List.nil_append] at *
        have hq0 : NoNul q := fun b hb => hl b (by simp [hb])
        by_cases hqe : q = []
        · subst hqe
          simp only [List.append_nil] at *
          rw [C21_only_colons endNull t k (by simpa using hle)]
          constructor
          · intro h; cases h
          · rintro ⟨_, _, ⟨k', name, e, hne, h58⟩, _⟩
            exfalso
            obtain ⟨c, hc⟩ := List.exists_mem_of_ne_nil name hne
            have : c ∈ List.replicate k (58 : Byte) := by
              have e' := (List.cons.inj (List.cons.inj e).2).2
              rw [e']
              simp [hc]
            rw [(List.mem_replicate.mp this).2] at hc
            exact h58 hc
        · by_cases h58 : (58 : Byte) ∈ q
          · obtain ⟨a, b, rfl, ha⟩ := colon_in q h58
            have hane : a ≠ [] := by rintro rfl; simp at hh
            rw [← List.append_assoc] at *
            rw [C21_colons_before_name endNull t hok k a b (fun x hx => hq0 x (by simp [hx])) ha hane
              (fun x hx => hq0 x (by simp [hx])) hle]
            constructor
            · intro h; cases h
            · rintro ⟨_, _, ⟨k', name, e, hne, hn58⟩, _⟩
              exfalso
              have e' := (List.cons.inj (List.cons.inj e).2).2
              -- the first character that is not a colon starts `a` and `name`
              have strip : ∀ (i j : Nat) (x y : Str), x.head? ≠ some 58 → y.head? ≠ some 58 →
                  List.replicate i (58 : Byte) ++ x = List.replicate j 58 ++ y → x = y := by
                intro i
                induction i with
                | zero =>
                  intro j x y hx hy h
                  cases j with
                  | zero => simpa using h
                  | succ j => simp only [List.replicate_zero, List.nil_append, List.replicate_succ] at h; rw [h] at hx; simp at hx
                | succ i ih =>
                  intro j x y hx hy h
                  cases j with
                  | zero =>
                    simp only [List.replicate_zero, List.nil_append, List.replicate_succ] at h; rw [← h] at hy; simp at hy
                  | succ j =>
                    simp only [List.replicate_succ, List.cons_append] at h
                    exact ih j x y hx hy (List.cons.inj h).2
              have hnh : name.head? ≠ some 58 := by
                intro hx
                exact hn58 (List.mem_of_mem_head? (by rw [hx]; rfl))
              rw [List.append_assoc] at e'
              have := strip k k' (a ++ 58 :: b) name hh hnh e'
              rw [← this] at hn58
              exact hn58 (by simp)
          · have hw := C21_witness_name_at_end t hok k q hq0 h58 hqe hle
            cases endNull with
            | false => rw [hw.1]; simp
            | true =>
              rw [hw.2]
              simp only [true_and]
              exact ⟨fun _ => ⟨⟨k, q, rfl, hqe, h58⟩, hle⟩, fun _ => trivial⟩
      · rw [C21_prefixed_urc_delivery_partial endNull t hok name rest hch hn (fun b hb => hl b (by simp [hb])) hle]
        constructor
        · intro h; cases h
        · rintro ⟨_, _, ⟨k', q, e, _, _⟩, _⟩
          exfalso
          obtain ⟨c, n', rfl⟩ := List.exists_cons_of_ne_nil hn
          simp only [List.cons_append, List.cons.injEq] at e
          have := hch c (by simp)
          rw [e.2.1] at this
          revert this; unfold PrefixChar; decide
    · rw [C21_plain_urc_delivery endNull t hok line hl (by cases line with | nil => exact absurd rfl h0 | cons _ _ => simp) hle hpre]
      constructor
      · intro h; cases h
      · rintro ⟨_, _, ⟨k', q, e, _, _⟩, _⟩
        exact absurd ⟨[], List.replicate k' 58 ++ q, by rw [e]; rfl, nofun⟩ hpre

example : processUrcPacket true true demoTable (str "+::CREG") = none ∧ NoNul (str "+::CREG") ∧
    ColonName (str "+::CREG") ∧ (str "+::CREG").length ≤ 256 ∧ atParseInit (some demoTable) = .ok :=
  ⟨by decide +kernel, by unfold NoNul; decide, ⟨1, str "CREG", rfl, by decide, by decide⟩, by decide, by decide +kernel⟩

/-- The calls of the port for a sequence of messages. -/
theorem callsOf_defined {P : Port} (hok : atParseInit (some P.table) = .ok) (hend : P.endNull = false) :
    ∀ (es : List Event), (∀ e ∈ es, NulFree e) → ∃ cs, callsOf P es = some cs
  | [], _ => ⟨[], rfl⟩
  | e :: es, h => by
    obtain ⟨cs, h2⟩ := callsOf_defined hok hend es (fun x hx => h x (by simp [hx]))
    have h1 : ∃ r, handlePacket P e = some r := by
      cases e with
      | response _ _ => exact ⟨_, rfl⟩
      | undefined l => exact ⟨_, rfl⟩
      | urc l =>
        cases hc : processUrcPacket P.endNull true P.table l with
        | some r => exact ⟨r, hc⟩
        | none =>
          have := (C21_defined_iff _ _ _ hok l (h (.urc l) (by simp))).mp hc
          rw [hend] at this
          exact absurd this.1 (by simp)
    obtain ⟨r, h1⟩ := h1
    exact ⟨r.2 ++ cs, by simp only [callsOf, h1, h2]⟩

/-! ## Requests -/

/-- The packet layer is in order. -/
structure InOrder (cfg : Cfg) (k : Stack) : Prop where
  rx : RxInv cfg k.rx
  cb : CallbacksInText cfg k.rx
  tx : TxWf k.tx
  texts : Texts k.rx

theorem inOrder_start {cfg : Cfg} (hc : CallbacksInText cfg (start cfg).rx) : InOrder cfg (start cfg) :=
  ⟨rxInv_init cfg, hc, ⟨rfl, rfl⟩, by intro e he; cases he⟩

theorem exchange_total {cfg : Cfg} {k : Stack} (hk : InOrder cfg k) {r : Req} (hr : ValidReq r) {cs : List Str}
    (hd : Delivers cfg (waitingFor k.rx r) cs) : ∃ a k', exchange cfg k r cs = some (a, k') ∧ InOrder cfg k' ∧
      k'.tx.wire = k.tx.wire ++ [r.cmd ++ [13]] := by
  obtain ⟨tx, hs, hw, hwire, hcmd, hp⟩ := send_ok hk.tx hr
  have hi : RxInv cfg (waitingFor k.rx r) :=
    ⟨⟨hk.rx.1.len, hk.rx.1.last, hk.rx.1.items, hk.rx.1.data⟩, hk.rx.2⟩
  have sc : SameCb k.rx (waitingFor k.rx r) := ⟨rfl, rfl⟩
  obtain ⟨s, e, i, sc'⟩ := reads_total cs hi (hk.cb.of_same sc) hd
  have ht := reads_texts cs e (show Texts (waitingFor k.rx r) from hk.texts)
  have hc' := (hk.cb.of_same sc).of_same sc'
  refine ⟨answer (s.events.drop k.rx.events.length), { rx := { s with cmd := .noCommand }, tx := { tx with cmd := .noCommand } }, ?_,
    ⟨⟨⟨i.1.len, i.1.last, i.1.items, i.1.data⟩, i.2⟩, hc'.of_same (show SameCb s { s with cmd := .noCommand } from ⟨rfl, rfl⟩), hw, ht⟩, hwire⟩
  unfold exchange
  rw [hs]
  simp only [hp, hcmd]
  unfold waitingFor at e
  rw [e]

theorem replay_append (cfg : Cfg) (m : Wire.Modem) : ∀ (rs rs2 : List Req) (k : Stack) (done : List Req),
    replay cfg m k done (rs ++ rs2) = (replay cfg m k done rs).bind (fun k => replay cfg m k (done ++ rs) rs2)
  | [], rs2, k, done => by simp [replay]
  | r :: rs, rs2, k, done => by
    simp only [List.cons_append, replay]
    split
    · rfl
    · split
      · rfl
      · rename_i k' _ s _
        rw [replay_append cfg m rs rs2 _ (done ++ [r])]
        simp

theorem replay_total {cfg : Cfg} {m : Wire.Modem} (hc : CallbacksInText cfg (start cfg).rx) (hm : Contract cfg m) :
    ∀ (rs done : List Req) (k : Stack), (∀ x ∈ done, ValidReq x) → (∀ x ∈ rs, ValidReq x) → InOrder cfg k →
      replay cfg m (start cfg) [] done = some k →
      ∃ k', replay cfg m k done rs = some k' ∧ InOrder cfg k' ∧ k'.tx.wire = k.tx.wire ++ rs.map (fun r => r.cmd ++ [13])
  | [], done, k, _, _, hk, _ => ⟨k, rfl, hk, by simp⟩
  | r :: rs, done, k, hd, hr, hk, he => by
    have hvr := hr r (by simp)
    obtain ⟨d1, d2⟩ := hm done r k hd hvr he
    obtain ⟨a, k1, e1, o1, w1⟩ := exchange_total hk hvr d1
    obtain ⟨s, e2, i2, sc⟩ := reads_total _ o1.rx o1.cb (d2 a k1 e1)
    have o2 : InOrder cfg { k1 with rx := s } := ⟨i2, o1.cb.of_same sc, o1.tx, reads_texts _ e2 o1.texts⟩
    have hd' : ∀ x ∈ done ++ [r], ValidReq x := by
      intro x hx
      rcases List.mem_append.mp hx with hx | hx
      · exact hd x hx
      · rw [List.mem_singleton.mp hx]; exact hvr
    have he' : replay cfg m (start cfg) [] (done ++ [r]) = some { k1 with rx := s } := by
      rw [replay_append, he]
      simp only [Option.bind_some, List.nil_append, replay, e1, e2]
    obtain ⟨k', e3, o3, w3⟩ := replay_total hc hm rs (done ++ [r]) _ hd' (fun x hx => hr x (by simp [hx])) o2 he'
    refine ⟨k', by simp only [replay, e1, e2, e3], o3, ?_⟩
    rw [w3, w1]
    simp

/-- C77, requests: whatever the modem sends - before, during and after any requests the library can make -, every
request has an outcome, the bytes read stay inside the receive buffer, and the modem is sent the commands and nothing else.
The port's callbacks edit the text they are given in place. -/
theorem C77_requests_defined {cfg : Cfg} {m : Wire.Modem} (hc : CallbacksInText cfg (start cfg).rx)
    (hm : Contract cfg m) (h : List Req) (hh : ∀ x ∈ h, ValidReq x) :
    (∀ r, ValidReq r → ∃ a, reply cfg m h r = some a) ∧
    ∃ k, replay cfg m (start cfg) [] h = some k ∧ RxInv cfg k.rx ∧ k.tx.wire = h.map (fun r => r.cmd ++ [13]) := by
  obtain ⟨k, e, o, hw⟩ := replay_total hc hm h [] (start cfg) nofun hh (inOrder_start hc) rfl
  refine ⟨fun r hr => ?_, k, e, o.rx, by simpa [start] using hw⟩
  obtain ⟨a, k', e', -, -⟩ := exchange_total o hr (hm h r k hh hr e).1
  exact ⟨a, by simp only [reply, e, e', Option.map_some]⟩

/-- C77, unsolicited codes: what the port's functions are called with is a text, and finding the function is defined,
with a C library whose `strtok_r` leaves a pointer to the end of the text. -/
theorem C77_urc_calls_defined {cfg : Cfg} {m : Wire.Modem} {P : Port} (hc : CallbacksInText cfg (start cfg).rx)
    (hm : Contract cfg m) (hok : atParseInit (some P.table) = .ok) (hend : P.endNull = false)
    (h : List Req) (hh : ∀ x ∈ h, ValidReq x) :
    ∃ k cs, replay cfg m (start cfg) [] h = some k ∧ (∀ e ∈ k.rx.events, NulFree e) ∧ callsOf P k.rx.events = some cs := by
  obtain ⟨k, e, o, -⟩ := replay_total hc hm h [] (start cfg) nofun hh (inOrder_start hc) rfl
  obtain ⟨cs, hcs⟩ := callsOf_defined hok hend k.rx.events o.texts
  exact ⟨k, cs, e, o.texts, hcs⟩

/-! ## API functions -/

/-- One call, against any modem at all. -/
theorem call_total (lm : Nat) (w : World) (c : Wire.Call) (ho : ObjectsOk c)
    (he : ∀ h l, w.modem h edrxQuery = .lines l → l.length ≤ 4) : ∃ r, c.run lm w = some r := by
  by_cases hl : LibraryOpen w
  · cases c with
    | getEidrx p =>
      cases p with
      | none => exact ⟨_, by simp only [Wire.Call.run, (C38_null_argument_no_effect lm w hl).1]; rfl⟩
      | some p =>
        obtain ⟨r, l, h, -⟩ := C48_edrx_safe_partial lm w hl p (he w.sent)
        exact ⟨pack .eidrx r, by simp only [Wire.Call.run, h]; rfl⟩
    | getModemInfo p =>
      cases p with
      | none => exact ⟨_, by simp only [Wire.Call.run, (C38_null_argument_no_effect lm w hl).2.2.2.2.2.1]; rfl⟩
      | some p =>
        obtain ⟨r, l, h, -⟩ := C58_modem_info_safe w hl p
        exact ⟨pack .modem r, by simp only [Wire.Call.run, h]; rfl⟩
    | getSimInfo p =>
      cases p with
      | none => exact ⟨_, by simp only [Wire.Call.run, (C38_null_argument_no_effect lm w hl).2.2.2.2.2.2.2.2.2.2.1]; rfl⟩
      | some p =>
        obtain ⟨r, l, h, -⟩ := C58_sim_info_safe w hl p
        exact ⟨pack .sim r, by simp only [Wire.Call.run, h]; rfl⟩
    | getIp id b n =>
      simp only [Wire.Call.run, Api.getIPAddress]
      split
      · split
        · exact ⟨_, rfl⟩
        · split
          · exact ⟨_, rfl⟩
          · split
            · rename_i b _ _ _
              have hn : n % 65536 ≤ b.length := Nat.le_trans (Nat.mod_le _ _) ho
              obtain ⟨s, w', a, h, -⟩ := requestCb_keeps (fun _ => True) w
                ⟨Api.snprintf 32 (str "AT+CGPADDR=" ++ Api.fmtD id), .withPrefix, some (str "+CGPADDR")⟩
                (fun l m => Api.recvIp l (n % 65536) m) b trivial
                (fun l => by obtain ⟨r, h, -⟩ := recvIp_safe l (n % 65536) b hn; exact ⟨r, h, trivial⟩)
              rw [h]
              exact ⟨_, rfl⟩
            · exact ⟨_, rfl⟩
      · exact ⟨_, rfl⟩
    | _ => exact ⟨_, rfl⟩
  · obtain ⟨c1, -, -, -, -, -, c7, c8, -, -, c11, -, -⟩ := C38_closed_library_no_effect lm w hl
    cases c with
    | getEidrx p => obtain ⟨e, -, h⟩ := c1 p; exact ⟨_, by simp only [Wire.Call.run, h]; rfl⟩
    | getModemInfo p => obtain ⟨e, -, h⟩ := c7 p; exact ⟨_, by simp only [Wire.Call.run, h]; rfl⟩
    | getSimInfo p => obtain ⟨e, -, h⟩ := c11 p; exact ⟨_, by simp only [Wire.Call.run, h]; rfl⟩
    | getIp id b n => obtain ⟨e, -, h⟩ := c8 id b n; exact ⟨_, by simp only [Wire.Call.run, h]; rfl⟩
    | _ => exact ⟨_, rfl⟩

/-- C77, API functions: whatever answers requests - lines of any number, length and contents, errors, silence -, every
sequence of calls of the API functions, with any arguments, runs without undefined behaviour and makes only requests the
packet layer accepts.  Missing: an answer of more than four lines to the query of the eDRX settings (the
list of the caller has four entries; `C48_witness_overrun`). -/
theorem C77_calls_defined_partial (lm : Nat) (md : List Req → Req → Reply)
    (he : ∀ h l, md h edrxQuery = .lines l → l.length ≤ 4) :
    ∀ (as : List Action) (w : World), Linked w md → (∀ c, Action.call c ∈ as → ObjectsOk c) →
    ∃ res w', session lm w as = some (res, w') ∧ Linked w' md
  | [], w, hw, _ => ⟨[], w, rfl, hw⟩
  | .registration d ev :: as, w, hw, ho =>
    C77_calls_defined_partial lm md he as { w with atData := d, events := w.events ++ ev } ⟨hw.modem, hw.sent⟩
      (fun c hc => ho c (by simp [hc]))
  | .call c :: as, w, hw, ho => by
    obtain ⟨⟨e, o, w1⟩, h1⟩ := call_total lm w c (ho c (by simp)) (fun h l => by rw [hw.modem]; exact he h l)
    have hw1 : Linked w1 md := (call_ideal (ans := md) (fun _ _ _ _ => rfl) lm hw c).2 _ h1
    obtain ⟨res, w', h2, hw'⟩ := C77_calls_defined_partial lm md he as w1 hw1 (fun c hc => ho c (by simp [hc]))
    exact ⟨(e, o) :: res, w', by simp only [session, h1, h2, Option.map_some], hw'⟩

/-- C77: any sequence of API calls over a transport with a modem that sends any bytes at any time: every call
returns, reading and writing only the buffers of the library and the objects of the caller; every byte received is
handled; the functions of the port are called with texts; and the modem is sent the commands of the library and nothing else.
Missing: more than four lines in answer to the query of the eDRX settings; C libraries whose `strtok_r` leaves a
null pointer (`C77_witness_newlib`); callbacks of the port that enlarge the text. -/
theorem C77_any_modem_partial {cfg : Cfg} {m : Wire.Modem} {P : Port} (hc : CallbacksInText cfg (start cfg).rx)
    (hm : Contract cfg m) (hok : atParseInit (some P.table) = .ok) (hend : P.endNull = false)
    (he : ∀ h l, reply cfg m h edrxQuery = some (.lines l) → l.length ≤ 4)
    (lm : Nat) (as : List Action) (ho : ∀ c, Action.call c ∈ as → ObjectsOk c) (w : World) (hw : OnWire w cfg m) :
    ∃ res w' k cs, session lm w as = some (res, w') ∧ replay cfg m (start cfg) [] w'.sent = some k ∧
      callsOf P k.rx.events = some cs ∧ k.tx.wire = w'.sent.map (fun r => r.cmd ++ [13]) := by
  obtain ⟨res, w', h1, h2⟩ := C77_calls_defined_partial lm (overWire cfg m) (fun h l hl => by
    refine he h l ?_
    unfold overWire at hl
    cases hq : reply cfg m h edrxQuery with
    | none => rw [hq] at hl; cases hl
    | some a => rw [hq] at hl; exact congrArg some hl) as w (onWire_linked hw) ho
  obtain ⟨k, cs, e, -, e2⟩ := C77_urc_calls_defined (P := P) hc hm hok hend w'.sent h2.sent
  obtain ⟨k', e', -, e3⟩ := (C77_requests_defined hc hm w'.sent h2.sent).2
  rw [e] at e'
  cases e'
  exact ⟨res, w', k, cs, h1, e, e2, e3⟩

/-! ## Modems of this kind: any supply of bytes, cut by the transport -/

theorem clip_delivers {cfg : Cfg} : ∀ (cs : List Str) (s : St), Delivers cfg s (clip cfg s cs)
  | [], _ => trivial
  | c :: cs, s => by
    unfold clip
    refine ⟨by rw [List.length_take]; exact Nat.min_le_left _ _, fun n s' h => ?_⟩
    rw [h]
    exact clip_delivers cs s'

/-- The packet layer after requests (the last one first) to a modem that is ready to send anything. -/
def clippedAt (cfg : Cfg) (raw : Wire.Modem) : List Req → Option Stack
  | [] => some (start cfg)
  | r :: past =>
    match clippedAt cfg raw past with
    | none => none
    | some k =>
      match exchange cfg k r (clip cfg (waitingFor k.rx r) (raw.during past.reverse r)) with
      | none => none
      | some (_, k1) =>
        match reads cfg k1.rx (clip cfg k1.rx (raw.after past.reverse r)) with
        | none => none
        | some s => some { k1 with rx := s }

/-- That modem behind a transport that hands over what it is asked for. -/
def clipped (cfg : Cfg) (raw : Wire.Modem) : Wire.Modem :=
  { during := fun h r =>
      match clippedAt cfg raw h.reverse with
      | none => []
      | some k => clip cfg (waitingFor k.rx r) (raw.during h r)
    after := fun h r =>
      match clippedAt cfg raw h.reverse with
      | none => []
      | some k =>
        match exchange cfg k r (clip cfg (waitingFor k.rx r) (raw.during h r)) with
        | none => []
        | some (_, k1) => clip cfg k1.rx (raw.after h r) }

theorem replay_clipped (cfg : Cfg) (raw : Wire.Modem) : ∀ (past : List Req),
    replay cfg (clipped cfg raw) (start cfg) [] past.reverse = clippedAt cfg raw past
  | [] => rfl
  | r :: past => by
    rw [List.reverse_cons, replay_append, replay_clipped cfg raw past]
    cases hk : clippedAt cfg raw past with
    | none => simp only [clippedAt, hk]; rfl
    | some k =>
      simp only [clippedAt, hk]
      have e1 : (clipped cfg raw).during past.reverse r = clip cfg (waitingFor k.rx r) (raw.during past.reverse r) := by
        simp only [clipped, List.reverse_reverse, hk]
      simp only [Option.bind_some, List.nil_append, replay, e1]
      cases he : exchange cfg k r (clip cfg (waitingFor k.rx r) (raw.during past.reverse r)) with
      | none => rfl
      | some q =>
        obtain ⟨a, k1⟩ := q
        have e2 : (clipped cfg raw).after past.reverse r = clip cfg k1.rx (raw.after past.reverse r) := by
          simp only [clipped, List.reverse_reverse, hk, he]
        simp only [e2]
        cases reads cfg k1.rx (clip cfg k1.rx (raw.after past.reverse r)) <;> rfl

/-- Any supply of bytes becomes a modem the theorems above speak about. -/
theorem contract_clipped (cfg : Cfg) (raw : Wire.Modem) : Contract cfg (clipped cfg raw) := by
  intro done r k _ _ hk
  have h := replay_clipped cfg raw done.reverse
  rw [List.reverse_reverse, hk] at h
  refine ⟨?_, fun a k' he => ?_⟩
  · have : (clipped cfg raw).during done r = clip cfg (waitingFor k.rx r) (raw.during done r) := by
      simp only [clipped, ← h]
    rw [this]
    exact clip_delivers _ _
  · have e1 : (clipped cfg raw).during done r = clip cfg (waitingFor k.rx r) (raw.during done r) := by
      simp only [clipped, ← h]
    rw [e1] at he
    have : (clipped cfg raw).after done r = clip cfg k'.rx (raw.after done r) := by
      simp only [clipped, ← h, he]
    rw [this]
    exact clip_delivers _ _

/-- C77 without assumptions about the transport: any supply of bytes, of which it hands over what it is asked for. -/
theorem C77_any_bytes {cfg : Cfg} (raw : Wire.Modem) (hc : CallbacksInText cfg (start cfg).rx) (h : List Req)
    (hh : ∀ x ∈ h, ValidReq x) (r : Req) (hr : ValidReq r) : ∃ a, reply cfg (clipped cfg raw) h r = some a :=
  (C77_requests_defined hc (contract_clipped cfg raw) h hh).1 r hr

/-- A modem that never makes sense: an endless line, control characters, a result code nobody asked for, lines that
almost are unsolicited codes.  It is silent when asked for the eDRX settings. -/
def nonsense : Wire.Modem :=
  { during := fun h r => if r = edrxQuery then [] else
      [List.replicate (300 + h.length) 65, [0, 7, 13, 255], str "OK\r\n+:::\r\nOK\r\n+CREG", [0, 0], str ": 99999999999\r\nERROR"]
    after := fun _ _ => [str "\r\n+CGPADDR: ,,,,\r\nOK\r\nRING", str "\r\n+::X:\r\n"] }

theorem nonsense_edrx (cfg : Cfg) (h : List Req) (l : List Str) :
    reply cfg (clipped cfg nonsense) h edrxQuery ≠ some (.lines l) := by
  have hd : (clipped cfg nonsense).during h edrxQuery = [] := by
    simp only [clipped]
    split
    · rfl
    · rfl
  unfold reply
  rw [hd]
  split
  · simp
  · rename_i k _
    unfold exchange
    split
    · simp
    · simp only
      split
      · simp
      · simp [reads, answer]
    · simp

theorem demo_inText (n : Nat) : CallbacksInText (demoCfg n) (start (demoCfg n)).rx :=
  ⟨fun _ => Nat.le_refl _, nofun, nofun, nofun⟩

/-- The theorems apply to it, for every session and buffers of any size. -/
example (n lm : Nat) (as : List Action) (ho : ∀ c, Action.call c ∈ as → ObjectsOk c) (w : World)
    (hw : OnWire w (demoCfg n) (clipped (demoCfg n) nonsense)) :
    ∃ res w' k cs, session lm w as = some (res, w') ∧
      replay (demoCfg n) (clipped (demoCfg n) nonsense) (start (demoCfg n)) [] w'.sent = some k ∧
      callsOf ⟨demoTable, none, false⟩ k.rx.events = some cs ∧ k.tx.wire = w'.sent.map (fun r => r.cmd ++ [13]) :=
  C77_any_modem_partial (demo_inText n) (contract_clipped _ _) (by decide +kernel) rfl
    (fun h l hl => absurd hl (nonsense_edrx _ h l)) lm as ho w hw

/-- What is missing, from the bytes: with a C library whose `strtok_r` leaves a null pointer, eight bytes received
while no request is pending make the library use it. -/
theorem C77_witness_newlib :
    (reads (demoCfg 200) (start (demoCfg 200)).rx [str "+:CREG\r\n"]).map
      (fun s => (s.events, (callsOf ⟨demoTable, none, true⟩ s.events).isSome)) = some ([.urc (str "+:CREG")], false) := by
  decide +kernel

end Cellular.Props
