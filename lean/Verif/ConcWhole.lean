import Verif.ConcProps
/-!
# Requests: an answer is complete and in order

Whatever the other tasks do: the lines a response callback is given are *all* the lines of the answer that arrived since the
command was sent, in the order of arrival, and the line that ends the answer is the first one that can end it.
-/

namespace Cellular.Spec
open Cellular Conc
open Cellular.Props (codeStatus)
open Cellular.Pktio (CmdType MsgType Item Resp Cfg getMsgType isToken)

/-- The numbers of the lines received in a piece of history, in order. -/
def recvs : List Ev → List Nat
  | [] => []
  | .recv n :: t => n :: recvs t
  | _ :: t => recvs t

/-- What a step of a request waits for: type and prefix of the answer (C14), additional success codes. -/
structure Want where
  type : CmdType
  pfx : Option Str
  tokens : Option (List Str)

/-- The command step. -/
def commandWant (r : Req) : Want := ⟨r.type, (prefixFor r.type r.pfx).getD none, r.kind.table⟩

/-- The data step: only a result code. -/
def dataWant : Want := ⟨.noResult, none, none⟩

/-- The line belongs to the answer (and is not an unsolicited code). -/
def Want.mine (cfg : Cfg) (w : Want) (l : Str) : Prop := getMsgType cfg w.type w.pfx l = .solicited

/-- The line is a success code: one of the request's own or one of the port's. -/
def Want.okCode (cfg : Cfg) (w : Want) (l : Str) : Prop := isToken l w.tokens = true ∨ isToken l cfg.succ = true

/-- The line is a result code. -/
def Want.code (cfg : Cfg) (w : Want) (l : Str) : Prop := w.okCode cfg l ∨ isToken l cfg.err = true

/-- The line is a line of contents of the answer. -/
def Want.part (cfg : Cfg) (w : Want) (l : Str) : Prop := w.mine cfg l ∧ ¬ w.code cfg l

/-- Answers of this type consist of one line and no result code. -/
def Uncoded (t : CmdType) : Prop := t = .woPrefixNoResultCode ∨ t = .withPrefixNoResultCode

/-- The line ends the answer, with success (`ok`) or failure. -/
def Want.ends (cfg : Cfg) (w : Want) (l : Str) (ok : Bool) : Prop :=
  w.mine cfg l ∧ (w.okCode cfg l ∧ ok = true ∨ ¬ w.okCode cfg l ∧ isToken l cfg.err = true ∧ ok = false ∨
    ¬ w.code cfg l ∧ Uncoded w.type ∧ ok = true)

/-- Which of the lines of contents an answer of this type keeps. -/
def keeps {α : Type} (t : CmdType) (ns : List α) : List α :=
  match t with
  | .multiWithPrefix => ns
  | .multiWoPrefix => ns
  | .multiDataWoPrefix => ns
  | .noResult => []
  | .noCommand => []
  | _ => ns.take 1

open Classical in
/-- The numbers of the lines of contents. -/
noncomputable def Want.parts (cfg : Cfg) (w : Want) (line : Nat → Str) (ns : List Nat) : List Nat :=
  ns.filter (fun k => decide (w.part cfg (line k)))

/-- `items` is the answer contained in the lines `ns`: the last of them, `n`, ends it with status `ok`, none before does, and
`items` are all the lines of contents among them (only the first if the type has just one). -/
def Answered (cfg : Cfg) (w : Want) (line : Nat → Str) (ns : List Nat) (ok : Bool) (n : Nat) (items : List Item) : Prop :=
  ∃ ms, ns = ms ++ [n] ∧ w.ends cfg (line n) ok ∧ (∀ k ∈ ms, ∀ b, ¬ w.ends cfg (line k) b) ∧
    items = (keeps w.type (w.parts cfg line ns)).map .line

/-- Line `k`, that came after the lines `ms`, has no place in the answer: it is neither for it nor an unsolicited code, or it is a line of contents too many
(if the port has tables of result codes; else nothing has a place). -/
def Misplaced (cfg : Cfg) (w : Want) (line : Nat → Str) (ms : List Nat) (k : Nat) : Prop :=
  cfg.err.isSome = true → cfg.succ.isSome = true →
    getMsgType cfg w.type w.pfx (line k) = .undefined ∨
    w.part cfg (line k) ∧ keeps w.type (w.parts cfg line (ms ++ [k])) = keeps w.type (w.parts cfg line ms)

/-- One of the lines has no place in the answer, and the port's handler for such lines refuses it. -/
def RefusedLine (cfg : Cfg) (w : Want) (line : Nat → Str) (ns : List Nat) : Prop :=
  ∃ ms k rest, ns = ms ++ k :: rest ∧ cfg.undefCb (line k) ≠ .ok ∧ Misplaced cfg w line ms k

/-- The request has no data prefix callback. -/
def NoPrefixCb (r : Req) : Prop := r.kind ≠ .dataRecv true ∧ ∀ d, r.kind ≠ .dataSend d true

/-- History `a` explains that the callback of request `i` (`r`) is given `items`. -/
def GivenWhole (cfg : Cfg) (received : List Str) (r : Req) (a : List Ev) (i : Nat) (items : List Item) : Prop :=
  ∃ x text y n z, a = x ++ .command i text :: (y ++ .final true n :: z) ∧ (∀ f ∈ y ++ z, ¬ Boundary f ∧ ¬ isGot f) ∧
    recvs z = [] ∧ Answered cfg (commandWant r) (fun k => received.getD k []) (recvs y) true n items

/-- History `a` explains that a step of request `i` (`r`) takes a result: it was sent (`e`), then an answer arrived. -/
def ResultWhole (cfg : Cfg) (received : List Str) (r : Req) (a : List Ev) (i : Nat) (st : PktStatus) : Prop :=
  ∃ w x e y ok n z, a = x ++ e :: (y ++ .final ok n :: z) ∧
    (w = commandWant r ∧ (∃ text, e = .command i text) ∨ w = dataWant ∧ ∃ b k, e = .data i b k) ∧
    (∀ f ∈ y ++ z, ¬ Boundary f ∧ ¬ isGot f) ∧ (∀ f ∈ y ++ z, ¬ isFinal f) ∧
    (∃ items, Answered cfg w (fun k => received.getD k []) (recvs y) ok n items) ∧
    ((st = codeStatus ok ∧ ∀ f ∈ z, ¬ isCallback f) ∨ (ok = true ∧ ∃ items, Ev.callback i items st ∈ z))

end Cellular.Spec

namespace Cellular.ConcLemmas
open Cellular Spec Conc
open Cellular.Pktio (CmdType MsgType Item Resp Cfg getMsgType processLine processIntermediate isToken)

theorem recvs_append (a b : List Ev) : recvs (a ++ b) = recvs a ++ recvs b := by
  induction a with
  | nil => rfl
  | cons e a ih => cases e <;> simp [recvs, ih]

theorem mem_recvs {n : Nat} {l : List Ev} : n ∈ recvs l ↔ Ev.recv n ∈ l := by
  induction l with
  | nil => simp [recvs]
  | cons e l ih => cases e <;> simp [recvs, ih]

theorem recvs_none {l : List Ev} (h : ∀ n, Ev.recv n ∉ l) : recvs l = [] := by
  rw [List.eq_nil_iff_forall_not_mem]
  intro n hn
  exact h n (mem_recvs.mp hn)

theorem parts_congr {cfg : Cfg} {w : Want} {f g : Nat → Str} {ns : List Nat} (h : ∀ k ∈ ns, f k = g k) :
    w.parts cfg f ns = w.parts cfg g ns := by
  unfold Want.parts
  refine List.filter_congr (fun k hk => ?_)
  rw [h k hk]

theorem answered_congr {cfg : Cfg} {w : Want} {f g : Nat → Str} {ns : List Nat} {ok : Bool} {n : Nat} {items : List Item}
    (h : ∀ k ∈ ns, f k = g k) (H : Answered cfg w f ns ok n items) : Answered cfg w g ns ok n items := by
  obtain ⟨ms, h1, h2, h3, h4⟩ := H
  refine ⟨ms, h1, by rw [← h n (by simp [h1])]; exact h2, fun k hk => ?_, ?_⟩
  · rw [← h k (by simp [h1, hk])]; exact h3 k hk
  · rw [← parts_congr h]; exact h4

/-- The lines `ns` have been handled and the answer goes on. -/
def Gathered (cfg : Cfg) (w : Want) (line : Nat → Str) (ns : List Nat) (resp : Option Resp) : Prop :=
  cfg.err.isSome = true → cfg.succ.isSome = true →
    (resp.getD ⟨false, []⟩).items = (keeps w.type (w.parts cfg line ns)).map .line ∧ ∀ k ∈ ns, ∀ b, ¬ w.ends cfg (line k) b

theorem gathered_congr {cfg : Cfg} {w : Want} {f g : Nat → Str} {ns : List Nat} {resp : Option Resp}
    (h : ∀ k ∈ ns, f k = g k) (H : Gathered cfg w f ns resp) : Gathered cfg w g ns resp := by
  intro e1 e2
  obtain ⟨h1, h2⟩ := H e1 e2
  exact ⟨by rw [← parts_congr h]; exact h1, fun k hk => by rw [← h k hk]; exact h2 k hk⟩

theorem parts_snoc {cfg : Cfg} {w : Want} {line : Nat → Str} {ns : List Nat} {n : Nat} :
    (w.part cfg (line n) → w.parts cfg line (ns ++ [n]) = w.parts cfg line ns ++ [n]) ∧
    (¬ w.part cfg (line n) → w.parts cfg line (ns ++ [n]) = w.parts cfg line ns) := by
  unfold Want.parts
  constructor
  · intro h; rw [List.filter_append]; simp [h]
  · intro h; rw [List.filter_append]; simp [h]

/-- A line that is not for the answer. -/
theorem gathered_skip {cfg : Cfg} {w : Want} {line : Nat → Str} {ns : List Nat} {n : Nat} {resp : Option Resp}
    (H : Gathered cfg w line ns resp) (hn : ¬ w.mine cfg (line n)) : Gathered cfg w line (ns ++ [n]) resp := by
  intro e1 e2
  obtain ⟨h1, h2⟩ := H e1 e2
  refine ⟨by rw [parts_snoc.2 (fun h => hn h.1)]; exact h1, fun k hk b => ?_⟩
  rcases List.mem_append.mp hk with hk | hk
  · exact h2 k hk b
  · rw [List.mem_singleton.mp hk]; exact fun h => hn h.1

/-- A line that is for the answer. -/
theorem process_gathered {cfg : Cfg} {w : Want} {line : Nat → Str} {ns : List Nat} {n : Nat} {resp : Option Resp} {st : PktStatus}
    {r : Resp} (H : Gathered cfg w line ns resp) (hm : w.mine cfg (line n))
    (hp : processLine { cfg with extra := w.tokens } (line n) (.line n) (resp.getD ⟨false, []⟩) w.type = (st, r)) :
    (st = .ok → Answered cfg w line (ns ++ [n]) r.status n r.items) ∧ (st ≠ .ok → Gathered cfg w line (ns ++ [n]) (some r)) ∧
    (st ≠ .ok ∧ st ≠ .pendingBuffer ∧ st ≠ .pendingData → Misplaced cfg w line ns n) := by
  unfold processLine at hp
  split at hp
  case isFalse h =>
    cases hp
    exact ⟨nofun, fun _ e1 e2 => absurd ⟨e1, e2⟩ h, fun _ e1 e2 => absurd ⟨e1, e2⟩ h⟩
  case isTrue h0 =>
    obtain ⟨h1, h2⟩ := H h0.1 h0.2
    have hns : ∀ {ok : Bool} {items : List Item}, w.ends cfg (line n) ok →
        items = (keeps w.type (w.parts cfg line (ns ++ [n]))).map .line → Answered cfg w line (ns ++ [n]) ok n items :=
      fun he hi => ⟨ns, rfl, he, h2, hi⟩
    split at hp
    case isTrue h3 =>
      cases hp
      have hc : w.okCode cfg (line n) := h3
      refine ⟨fun _ => hns ⟨hm, .inl ⟨hc, rfl⟩⟩ ?_, fun h => absurd rfl h, fun h => absurd rfl h.1⟩
      rw [parts_snoc.2 (fun h => h.2 (.inl hc))]; exact h1
    case isFalse h3 =>
      have h3' : ¬ w.okCode cfg (line n) := h3
      split at hp
      case isTrue h4 =>
        cases hp
        refine ⟨fun _ => hns ⟨hm, .inr (.inl ⟨h3', h4, rfl⟩)⟩ ?_, fun h => absurd rfl h, fun h => absurd rfl h.1⟩
        rw [(parts_snoc (cfg := cfg)).2 (fun h => h.2 (.inr h4))]; exact h1
      case isFalse h4 =>
        have hnc : ¬ w.code cfg (line n) := fun h => h.elim h3' h4
        have hpart := (parts_snoc (line := line) (ns := ns)).1 ⟨hm, hnc⟩
        have hgo : ∀ {q : Resp}, ¬ Uncoded w.type → q.items = (keeps w.type (w.parts cfg line (ns ++ [n]))).map .line →
            Gathered cfg w line (ns ++ [n]) (some q) := by
          intro q hu hq _ _
          refine ⟨hq, fun k hk b => ?_⟩
          rcases List.mem_append.mp hk with hk | hk
          · exact h2 k hk b
          · rw [List.mem_singleton.mp hk]
            rintro ⟨-, ⟨h, -⟩ | ⟨-, h, -⟩ | ⟨-, h, -⟩⟩
            · exact h3' h
            · exact h4 h
            · exact hu h
        have hun : Uncoded w.type → w.parts cfg line ns = [] := by
          intro hu
          rw [List.eq_nil_iff_forall_not_mem]
          intro k hk
          simp only [Want.parts, List.mem_filter, decide_eq_true_eq] at hk
          exact h2 k hk.1 true ⟨hk.2.1, .inr (.inr ⟨hk.2.2, hu, rfl⟩)⟩
        have hend : Uncoded w.type → w.ends cfg (line n) true := fun hu => ⟨hm, .inr (.inr ⟨hnc, hu, rfl⟩)⟩
        have hmis : keeps w.type (w.parts cfg line (ns ++ [n])) = keeps w.type (w.parts cfg line ns) → Misplaced cfg w line ns n :=
          fun h _ _ => .inr ⟨⟨hm, hnc⟩, h⟩
        rw [hpart] at hns hgo hmis
        generalize w.parts cfg line ns = ps at *
        unfold processIntermediate at hp
        generalize ht : w.type = t at *
        cases t with
        | woPrefix =>
          simp only at hp
          split at hp
          case isTrue h5 =>
            cases hp
            refine ⟨nofun, fun _ => hgo (by simp [Uncoded]) ?_, fun h => by simp at h⟩
            rw [h5] at h1 ⊢
            cases ps with
            | nil => rfl
            | cons a b => simp [keeps] at h1
          case isFalse h5 =>
            cases hp
            cases ps with
            | nil => exact absurd h1 h5
            | cons a b => exact ⟨nofun, fun _ => hgo (by simp [Uncoded]) h1, fun _ => hmis rfl⟩
        | withPrefix =>
          simp only at hp
          split at hp
          case isTrue h5 =>
            cases hp
            refine ⟨nofun, fun _ => hgo (by simp [Uncoded]) ?_, fun h => by simp at h⟩
            rw [h5] at h1 ⊢
            cases ps with
            | nil => rfl
            | cons a b => simp [keeps] at h1
          case isFalse h5 =>
            cases hp
            cases ps with
            | nil => exact absurd h1 h5
            | cons a b => exact ⟨nofun, fun _ => hgo (by simp [Uncoded]) h1, fun _ => hmis rfl⟩
        | multiWithPrefix =>
          cases hp
          refine ⟨nofun, fun _ => hgo (by simp [Uncoded]) ?_, fun h => by simp at h⟩
          simp only [keeps] at h1 ⊢
          rw [h1]; simp
        | multiWoPrefix =>
          cases hp
          refine ⟨nofun, fun _ => hgo (by simp [Uncoded]) ?_, fun h => by simp at h⟩
          simp only [keeps] at h1 ⊢
          rw [h1]; simp
        | multiDataWoPrefix =>
          cases hp
          refine ⟨nofun, fun _ => hgo (by simp [Uncoded]) ?_, fun h => by simp at h⟩
          simp only [keeps] at h1 ⊢
          rw [h1]; simp
        | woPrefixNoResultCode =>
          cases hp
          have hu : Uncoded w.type := by rw [ht]; simp [Uncoded]
          rw [ht] at hu
          refine ⟨fun _ => hns (hend hu) ?_, fun h => absurd rfl h, fun h => absurd rfl h.1⟩
          rw [hun hu] at h1 ⊢
          simp only [h1, keeps]
          rfl
        | withPrefixNoResultCode =>
          cases hp
          have hu : Uncoded w.type := by rw [ht]; simp [Uncoded]
          rw [ht] at hu
          refine ⟨fun _ => hns (hend hu) ?_, fun h => absurd rfl h, fun h => absurd rfl h.1⟩
          rw [hun hu] at h1 ⊢
          simp only [h1, keeps]
          rfl
        | noResult =>
          cases hp
          exact ⟨nofun, fun _ => hgo (by simp [Uncoded]) h1, fun _ => hmis rfl⟩
        | noCommand =>
          cases hp
          exact ⟨nofun, fun _ => hgo (by simp [Uncoded]) h1, fun _ => hmis rfl⟩

/-- The step a waiting thread is in. -/
def stepOf : Thr → Option (Nat × Want)
  | .raw2 i r => some (i, commandWant r)
  | .raw3 i r => some (i, commandWant r)
  | .data1 i _ _ => some (i, dataWant)
  | .data2 i _ _ _ => some (i, dataWant)
  | .data3 i _ => some (i, dataWant)
  | _ => none

/-- It has no prefix callback. -/
def tidy : Thr → Prop
  | .raw2 _ r => NoPrefixCb r
  | .raw3 _ r => NoPrefixCb r
  | _ => True

/-- The event that sent its bytes. -/
def openedBy (e : Ev) : Thr → Prop
  | .raw3 i _ => ∃ text, e = .command i text
  | .data2 i _ _ _ => ∃ b k, e = .data i b k
  | .data3 i _ => ∃ b k, e = .data i b k
  | _ => False

/-- The receiver waits for the answer to `w`. -/
structure Armed (s : St) (w : Want) : Prop where
  on : w.type ≠ .noCommand
  cmd : s.cmd = w.type
  pfx : (if s.pfxOn then some s.pfxBuf else none) = w.pfx

/-- The answer is not complete: what the receiver has done with the lines `ns`. -/
def Pend (cfg : Cfg) (s : St) (w : Want) (ns : List Nat) : Prop :=
  match s.rx with
  | .idle => Gathered cfg w s.line ns s.resp
  | .got n => ∃ ms, ns = ms ++ [n] ∧ Gathered cfg w s.line ms s.resp
  | .pre n d e => d = none ∧ e = none ∧ ∃ ms, ns = ms ++ [n] ∧ Gathered cfg w s.line ms s.resp
  | .classify n => ∃ ms, ns = ms ++ [n] ∧ Gathered cfg w s.line ms s.resp
  | .classify2 n on => on = s.pfxOn ∧ ∃ ms, ns = ms ++ [n] ∧ Gathered cfg w s.line ms s.resp
  | .proc n => w.mine cfg (s.line n) ∧ ∃ ms, ns = ms ++ [n] ∧ Gathered cfg w s.line ms s.resp
  | .proc2 n t => t = w.type ∧ w.mine cfg (s.line n) ∧ ∃ ms, ns = ms ++ [n] ∧ Gathered cfg w s.line ms s.resp
  | .undef n => (∃ ms, ns = ms ++ [n] ∧ Misplaced cfg w s.line ms n) ∧ Gathered cfg w s.line ns s.resp
  | .undefFail => RefusedLine cfg w s.line ns
  | _ => False

/-- What has happened since the bytes of the step were sent. -/
inductive Track (cfg : Cfg) (s : St) (w : Want) (i : Nat) (raw : Prop) (y : List Ev) : Prop
  | pend (hq : s.queue = none) (hf : ∀ f ∈ y, ¬ isFinal f) (ha : Armed s w) (hp : Pend cfg s w (recvs y))
  | lost (hq : s.queue = none) (hf : ∀ f ∈ y, ¬ isFinal f) (hc : s.cmd = .noCommand) (hx : passive s.rx = true)
      (hu : RefusedLine cfg w s.line (recvs y))
  | fin (y1 z : List Ev) (ok : Bool) (n : Nat) (r : Resp) (hq : s.queue = none) (hy : y = y1 ++ .final ok n :: z)
      (hf : ∀ f ∈ y1 ++ z, ¬ isFinal f) (hz : recvs z = []) (hA : Answered cfg w s.line (recvs y1) ok n r.items)
      (hs : r.status = ok)
      (hx : s.rx = .done r ∨ s.cmd = .noCommand ∧ (s.rx = .handle r ∨ ok = true ∧ (s.rx = .call r ∨ s.rx = .inCb i r ∧ raw)))
  | past (y1 z : List Ev) (ok : Bool) (n : Nat) (items : List Item) (hy : y = y1 ++ .final ok n :: z)
      (hf : ∀ f ∈ y1 ++ z, ¬ isFinal f) (hA : Answered cfg w s.line (recvs y1) ok n items) (hc : s.cmd = .noCommand)
      (hx : passive s.rx = true ∧ s.queue ≠ none ∨ (∃ st, s.rx = .send st) ∧ recvs z = [])

theorem noFinal_append {y l : List Ev} (h : ∀ f ∈ y, ¬ isFinal f) (hl : ∀ f ∈ l, ¬ isFinal f) : ∀ f ∈ y ++ l, ¬ isFinal f := by
  intro f hf
  rcases List.mem_append.mp hf with hf | hf
  · exact h f hf
  · exact hl f hf

/-- Events that change nothing for the step under way. -/
def Dull (l : List Ev) : Prop := ∀ f ∈ l, ¬ isFinal f ∧ ¬ Boundary f ∧ ¬ isGot f ∧ ∀ n, f ≠ .recv n

theorem Dull.recvs {l : List Ev} (h : Dull l) : recvs l = [] := recvs_none (fun n hn => (h _ hn).2.2.2 n rfl)
theorem Dull.noFinal {l : List Ev} (h : Dull l) : ∀ f ∈ l, ¬ isFinal f := fun f hf => (h f hf).1

theorem dull_nil : Dull [] := nofun
theorem dull_fetched (o : Option Nat) : Dull (fetchedBy o) := by
  intro f hf; cases o <;> simp_all [fetchedBy, isFinal, Boundary, isGot]
theorem dull_consult (s : St) (n : Nat) : Dull (consult s n) := by
  intro f hf
  unfold consult at hf
  split at hf
  · rw [List.mem_singleton.mp hf]; simp [isFinal, Boundary, isGot]
  · cases hf
theorem Dull.append {l l' : List Ev} (h : Dull l) (h' : Dull l') : Dull (l ++ l') := by
  intro f hf
  rcases List.mem_append.mp hf with hf | hf
  · exact h f hf
  · exact h' f hf

/-- The receive task (a step that does not end the answer and receives nothing) after the answer. -/
theorem track_past {cfg : Cfg} {s s' : St} {w : Want} {i : Nat} {raw : Prop} {y y1 z l : List Ev} {ok : Bool} {n : Nat} {items : List Item}
    (hy : y = y1 ++ .final ok n :: z) (hf : ∀ f ∈ y1 ++ z, ¬ isFinal f) (hA : Answered cfg w s.line (recvs y1) ok n items)
    (hrec : s'.received = s.received) (hc : s'.cmd = .noCommand) (hx : passive s'.rx = true ∧ s'.queue ≠ none ∨ (∃ st, s'.rx = .send st) ∧ recvs (z ++ l) = [])
    (hl : ∀ f ∈ l, ¬ isFinal f) : Track cfg s' w i raw (y ++ l) := by
  refine .past y1 (z ++ l) ok n items (by rw [hy]; simp) ?_ ?_ hc hx
  · rw [← List.append_assoc]; exact noFinal_append hf hl
  · unfold St.line; rw [hrec]; exact hA

theorem past_passive {s : St} {z : List Ev} (hx : passive s.rx = true ∧ s.queue ≠ none ∨ (∃ st, s.rx = .send st) ∧ recvs z = [])
    (h : ∀ st, s.rx ≠ .send st) : s.queue ≠ none :=
  hx.elim (·.2) (fun h' => h'.1.elim (fun st e => absurd e (h st)))

theorem misplaced_congr {cfg : Cfg} {w : Want} {f g : Nat → Str} {ms : List Nat} {k : Nat} (h : ∀ j ∈ ms ++ [k], f j = g j)
    (H : Misplaced cfg w f ms k) : Misplaced cfg w g ms k := by
  intro e1 e2
  have hk := h k (by simp)
  rcases H e1 e2 with H | ⟨H1, H2⟩
  · exact .inl (by rw [← hk]; exact H)
  · refine .inr ⟨by rw [← hk]; exact H1, ?_⟩
    rw [← parts_congr h, ← parts_congr (fun j hj => h j (List.mem_append_left _ hj))]
    exact H2

theorem refused_more {cfg : Cfg} {s s' : St} {w : Want} {y l : List Ev} (hu : RefusedLine cfg w s.line (recvs y))
    (hl : ∀ k ∈ recvs y, s'.line k = s.line k) : RefusedLine cfg w s'.line (recvs (y ++ l)) := by
  obtain ⟨ms, k, rest, h1, h2, h3⟩ := hu
  have hk : ∀ j ∈ ms ++ [k], s'.line j = s.line j := fun j hj => hl j (by
    rw [h1]
    rcases List.mem_append.mp hj with hj | hj
    · exact List.mem_append_left _ hj
    · rw [List.mem_singleton.mp hj]; simp)
  refine ⟨ms, k, rest ++ recvs l, by rw [recvs_append, h1]; simp, by rw [hk k (by simp)]; exact h2, misplaced_congr (fun j hj => (hk j hj).symm) h3⟩

theorem classified_noCommand {cfg : Cfg} {s : St} {n : Nat} {on : Bool} (h : s.cmd = .noCommand) :
    passive (classified cfg s n on) = true := by
  unfold classified
  rw [h]
  have := getMsgType_noCommand cfg (if on then some s.pfxBuf else none) (s.line n)
  split <;> simp_all [passive]

theorem procResult_want {cfg : Cfg} {s : St} {w : Want} (he : s.extra.map (·.2) = w.tokens) (n : Nat) :
    procResult cfg s n w.type = processLine { cfg with extra := w.tokens } (s.line n) (.line n) (s.resp.getD ⟨false, []⟩) w.type := by
  unfold procResult; rw [he]

/-- The receive task keeps track. -/
theorem track_rx {cfg : Cfg} {s s' : St} {w : Want} {i : Nat} {raw : Prop} {y : List Ev} (h : RxStep cfg s s') (T : Track cfg s w i raw y)
    (he : s.extra.map (·.2) = w.tokens) (h1 : s.recvCb = none) (h2 : s.sendCb = none)
    (hcb : ∀ j, s.cb = some j → j = i ∧ raw) (hb : ∀ k ∈ recvs y, k < s.received.length) (hcr : ∀ r, s.rx = .call r → s.cb ≠ none) :
    ∃ l, s'.log = s.log ++ l ∧ (∀ f ∈ l, ¬ Boundary f ∧ ¬ isGot f) ∧ Track cfg s' w i raw (y ++ l) := by
  cases h with
  | receive l h =>
    refine ⟨[.recv s.received.length], rfl, by simp [Boundary, isGot], ?_⟩
    have hl : ∀ k < s.received.length, s.line k = (s.received ++ [l]).getD k [] := by
      intro k hk; unfold St.line; simp [List.getD, List.getElem?_append_left hk]
    cases T with
    | pend hq hf ha hp =>
      unfold Pend at hp
      rw [h] at hp
      refine .pend hq (noFinal_append hf (by simp [isFinal])) ⟨ha.on, ha.cmd, ha.pfx⟩ ⟨recvs y, ?_, ?_⟩
      · rw [recvs_append]; rfl
      · exact gathered_congr (fun k hk => hl k (hb k hk)) hp
    | lost hq hf hc hx hu => exact .lost hq (noFinal_append hf (by simp [isFinal])) hc rfl (refused_more hu (fun k hk => (hl k (hb k hk)).symm))
    | fin y1 z ok n r hq hy hf hz hA hs hx => rw [h] at hx; simp at hx
    | past y1 z ok n items hy hf hA hc hx =>
      refine .past y1 (z ++ [.recv s.received.length]) ok n items (by rw [hy]; simp) ?_ ?_ hc (.inl ⟨rfl, past_passive (s := s) hx (by rw [h]; nofun)⟩)
      · rw [← List.append_assoc]; exact noFinal_append hf (by simp [isFinal])
      · refine answered_congr (fun k hk => hl k (hb k ?_)) hA
        rw [hy, recvs_append]; exact List.mem_append_left _ hk
  | fetch n h =>
    refine ⟨fetchedBy s.recvCb ++ fetchedBy s.sendCb, by simp, ?_, ?_⟩
    · rw [h1, h2]; simp [fetchedBy]
    rw [h1, h2]
    simp only [fetchedBy, List.append_nil]
    cases T with
    | pend hq hf ha hp =>
      unfold Pend at hp
      rw [h] at hp
      exact .pend hq hf ⟨ha.on, ha.cmd, ha.pfx⟩ ⟨rfl, rfl, hp⟩
    | lost hq hf hc hx hu => exact .lost hq hf hc rfl hu
    | fin y1 z ok n r hq hy hf hz hA hs hx => rw [h] at hx; simp at hx
    | past y1 z ok n items hy hf hA hc hx => exact .past y1 z ok n items hy hf hA hc (.inl ⟨rfl, past_passive (s := s) hx (by rw [h]; nofun)⟩)
  | preNone n h =>
    refine ⟨[], by simp, nofun, ?_⟩
    rw [List.append_nil]
    cases T with
    | pend hq hf ha hp =>
      unfold Pend at hp
      rw [h] at hp
      exact .pend hq hf ⟨ha.on, ha.cmd, ha.pfx⟩ hp.2.2
    | lost hq hf hc hx hu => exact .lost hq hf hc rfl hu
    | fin y1 z ok n r hq hy hf hz hA hs hx => rw [h] at hx; simp at hx
    | past y1 z ok n items hy hf hA hc hx => exact .past y1 z ok n items hy hf hA hc (.inl ⟨rfl, past_passive (s := s) hx (by rw [h]; nofun)⟩)
  | preSend n d j keep h =>
    refine ⟨[.prefixCb j], rfl, by simp [Boundary, isGot], ?_⟩
    have hp' : passive (if keep then .classify n else .idle : Rx) = true := by cases keep <;> rfl
    cases T with
    | pend hq hf ha hp =>
      unfold Pend at hp
      rw [h] at hp
      exact nomatch hp.2.1
    | lost hq hf hc hx hu => exact .lost hq (noFinal_append hf (by simp [isFinal])) hc hp' (refused_more hu (fun _ _ => rfl))
    | fin y1 z ok n r hq hy hf hz hA hs hx => rw [h] at hx; simp at hx
    | past y1 z ok n items hy hf hA hc hx => exact track_past hy hf hA rfl hc (.inl ⟨hp', past_passive (s := s) hx (by rw [h]; nofun)⟩) (by simp [isFinal])
  | preRecv n j keep h =>
    refine ⟨[.prefixCb j], rfl, by simp [Boundary, isGot], ?_⟩
    have hp' : passive (if keep then .classify n else .idle : Rx) = true := by cases keep <;> rfl
    cases T with
    | pend hq hf ha hp =>
      unfold Pend at hp
      rw [h] at hp
      exact nomatch hp.1
    | lost hq hf hc hx hu => exact .lost hq (noFinal_append hf (by simp [isFinal])) hc hp' (refused_more hu (fun _ _ => rfl))
    | fin y1 z ok n r hq hy hf hz hA hs hx => rw [h] at hx; simp at hx
    | past y1 z ok n items hy hf hA hc hx => exact track_past hy hf hA rfl hc (.inl ⟨hp', past_passive (s := s) hx (by rw [h]; nofun)⟩) (by simp [isFinal])
  | readPrefix n h =>
    refine ⟨[], by simp, nofun, ?_⟩
    rw [List.append_nil]
    cases T with
    | pend hq hf ha hp =>
      unfold Pend at hp
      rw [h] at hp
      exact .pend hq hf ⟨ha.on, ha.cmd, ha.pfx⟩ ⟨rfl, hp⟩
    | lost hq hf hc hx hu => exact .lost hq hf hc rfl hu
    | fin y1 z ok n r hq hy hf hz hA hs hx => rw [h] at hx; simp at hx
    | past y1 z ok n items hy hf hA hc hx => exact .past y1 z ok n items hy hf hA hc (.inl ⟨rfl, past_passive (s := s) hx (by rw [h]; nofun)⟩)
  | classify n on h =>
    refine ⟨[], by simp, nofun, ?_⟩
    rw [List.append_nil]
    cases T with
    | pend hq hf ha hp =>
      unfold Pend at hp
      rw [h] at hp
      obtain ⟨rfl, ms, e, hg⟩ := hp
      refine .pend hq hf ⟨ha.on, ha.cmd, ha.pfx⟩ ?_
      have hcl : getMsgType cfg s.cmd (if s.pfxOn then some s.pfxBuf else none) (s.line n) = getMsgType cfg w.type w.pfx (s.line n) := by
        rw [ha.cmd, ha.pfx]
      unfold Pend classified
      simp only
      rw [hcl, e]
      generalize hm : getMsgType cfg w.type w.pfx (s.line n) = mt
      cases mt with
      | unsolicited => exact gathered_skip hg (by unfold Want.mine; exact fun h => nomatch hm.symm.trans h)
      | solicited => exact ⟨hm, ms, rfl, hg⟩
      | undefined => exact ⟨⟨ms, rfl, fun _ _ => .inl hm⟩, gathered_skip hg (by unfold Want.mine; exact fun h => nomatch hm.symm.trans h)⟩
    | lost hq hf hc hx hu => exact .lost hq hf hc (classified_noCommand hc) hu
    | fin y1 z ok n r hq hy hf hz hA hs hx => rw [h] at hx; simp at hx
    | past y1 z ok n items hy hf hA hc hx => exact .past y1 z ok n items hy hf hA hc (.inl ⟨classified_noCommand hc, past_passive (s := s) hx (by rw [h]; nofun)⟩)
  | readType n h =>
    refine ⟨[], by simp, nofun, ?_⟩
    rw [List.append_nil]
    cases T with
    | pend hq hf ha hp =>
      unfold Pend at hp
      rw [h] at hp
      exact .pend hq hf ⟨ha.on, ha.cmd, ha.pfx⟩ ⟨ha.cmd, hp⟩
    | lost hq hf hc hx => rw [h] at hx; cases hx
    | fin y1 z ok n r hq hy hf hz hA hs hx => rw [h] at hx; simp at hx
    | past y1 z ok n items hy hf hA hc hx => rw [h] at hx; simp [passive] at hx
  | procDone n t r h hpr =>
    refine ⟨consult s n ++ [.final r.status n], by simp, ?_, ?_⟩
    · intro f hf
      rcases List.mem_append.mp hf with hf | hf
      · exact ⟨(dull_consult s n f hf).2.1, (dull_consult s n f hf).2.2.1⟩
      · rw [List.mem_singleton.mp hf]; simp [Boundary, isGot]
    cases T with
    | pend hq hf ha hp =>
      unfold Pend at hp
      rw [h] at hp
      obtain ⟨rfl, hm, ms, e, hg⟩ := hp
      rw [procResult_want he] at hpr
      refine .fin (y ++ consult s n) [] r.status n r hq (by simp) ?_ rfl ?_ rfl (.inl rfl)
      · rw [List.append_nil]; exact noFinal_append hf (dull_consult s n).noFinal
      · rw [recvs_append, (dull_consult s n).recvs, List.append_nil, e]
        exact (process_gathered hg hm hpr).1 rfl
    | lost hq hf hc hx => rw [h] at hx; cases hx
    | fin y1 z ok n r hq hy hf hz hA hs hx => rw [h] at hx; simp at hx
    | past y1 z ok n items hy hf hA hc hx => rw [h] at hx; simp [passive] at hx
  | procPending n t st r h hpr hst =>
    refine ⟨consult s n, rfl, fun f hf => ⟨(dull_consult s n f hf).2.1, (dull_consult s n f hf).2.2.1⟩, ?_⟩
    cases T with
    | pend hq hf ha hp =>
      unfold Pend at hp
      rw [h] at hp
      obtain ⟨rfl, hm, ms, e, hg⟩ := hp
      rw [procResult_want he] at hpr
      refine .pend hq (noFinal_append hf (dull_consult s n).noFinal) ⟨ha.on, ha.cmd, ha.pfx⟩ ?_
      rw [recvs_append, (dull_consult s n).recvs, List.append_nil, e]
      exact (process_gathered hg hm hpr).2.1 (by rcases hst with rfl | rfl <;> nofun)
    | lost hq hf hc hx => rw [h] at hx; cases hx
    | fin y1 z ok n r hq hy hf hz hA hs hx => rw [h] at hx; simp at hx
    | past y1 z ok n items hy hf hA hc hx => rw [h] at hx; simp [passive] at hx
  | procUndef n t st r h hpr hst =>
    refine ⟨consult s n, rfl, fun f hf => ⟨(dull_consult s n f hf).2.1, (dull_consult s n f hf).2.2.1⟩, ?_⟩
    cases T with
    | pend hq hf ha hp =>
      unfold Pend at hp
      rw [h] at hp
      obtain ⟨rfl, hm, ms, e, hg⟩ := hp
      rw [procResult_want he] at hpr
      refine .pend hq (noFinal_append hf (dull_consult s n).noFinal) ⟨ha.on, ha.cmd, ha.pfx⟩ ?_
      rw [recvs_append, (dull_consult s n).recvs, List.append_nil, e]
      exact ⟨⟨ms, rfl, (process_gathered hg hm hpr).2.2 hst⟩, (process_gathered hg hm hpr).2.1 hst.1⟩
    | lost hq hf hc hx => rw [h] at hx; cases hx
    | fin y1 z ok n r hq hy hf hz hA hs hx => rw [h] at hx; simp at hx
    | past y1 z ok n items hy hf hA hc hx => rw [h] at hx; simp [passive] at hx
  | done r h =>
    refine ⟨[], by simp, nofun, ?_⟩
    rw [List.append_nil]
    cases T with
    | pend hq hf ha hp => unfold Pend at hp; rw [h] at hp; exact hp.elim
    | lost hq hf hc hx => rw [h] at hx; cases hx
    | fin y1 z ok n r' hq hy hf hz hA hs hx =>
      rw [h] at hx
      simp only [Rx.done.injEq, reduceCtorEq, false_or, false_and, and_false, or_false] at hx
      subst hx
      exact .fin y1 z ok n r hq hy hf hz hA hs (.inr ⟨rfl, .inl rfl⟩)
    | past y1 z ok n items hy hf hA hc hx => rw [h] at hx; simp [passive] at hx
  | handle r h =>
    refine ⟨[], by simp, nofun, ?_⟩
    rw [List.append_nil]
    cases T with
    | pend hq hf ha hp => unfold Pend at hp; rw [h] at hp; exact hp.elim
    | lost hq hf hc hx => rw [h] at hx; cases hx
    | fin y1 z ok n r' hq hy hf hz hA hs hx =>
      rw [h] at hx
      simp only [Rx.handle.injEq, reduceCtorEq, false_or, false_and, and_false, or_false] at hx
      obtain ⟨hc, rfl⟩ := hx
      by_cases hst : r.status = false
      · exact .past y1 z ok n r.items hy hf hA hc (.inr ⟨⟨.failure, by simp [handled, hst]⟩, hz⟩)
      · cases hcb' : s.cb with
        | none => exact .past y1 z ok n r.items hy hf hA hc (.inr ⟨⟨.ok, by simp [handled, hst, hcb']⟩, hz⟩)
        | some j =>
          exact .fin y1 z ok n r hq hy hf hz hA hs (.inr ⟨hc, .inr ⟨by rw [← hs]; simpa using hst, .inl (by simp [handled, hst, hcb'])⟩⟩)
    | past y1 z ok n items hy hf hA hc hx => rw [h] at hx; simp [passive] at hx
  | callNull r h hc => exact absurd hc (hcr r h)
  | call r j h hc =>
    refine ⟨[], by simp, nofun, ?_⟩
    rw [List.append_nil]
    obtain ⟨rfl, hraw⟩ := hcb j hc
    cases T with
    | pend hq hf ha hp => unfold Pend at hp; rw [h] at hp; exact hp.elim
    | lost hq hf hc hx => rw [h] at hx; cases hx
    | fin y1 z ok n r' hq hy hf hz hA hs hx =>
      rw [h] at hx
      simp only [Rx.call.injEq, reduceCtorEq, false_or, false_and, and_false, or_false] at hx
      obtain ⟨hc, hok, rfl⟩ := hx
      exact .fin y1 z ok n r hq hy hf hz hA hs (.inr ⟨hc, .inr ⟨hok, .inr ⟨rfl, hraw⟩⟩⟩)
    | past y1 z ok n items hy hf hA hc hx => rw [h] at hx; simp [passive] at hx
  | callback r j st h =>
    refine ⟨[.callback j r.items st], rfl, by simp [Boundary, isGot], ?_⟩
    cases T with
    | pend hq hf ha hp => unfold Pend at hp; rw [h] at hp; exact hp.elim
    | lost hq hf hc hx => rw [h] at hx; cases hx
    | fin y1 z ok n r' hq hy hf hz hA hs hx =>
      rw [h] at hx
      simp only [Rx.inCb.injEq, reduceCtorEq, false_or, false_and] at hx
      exact track_past hy hf hA rfl hx.1 (.inr ⟨⟨st, rfl⟩, by rw [recvs_append, hz]; rfl⟩) (by simp [isFinal])
    | past y1 z ok n items hy hf hA hc hx => rw [h] at hx; simp [passive] at hx
  | send st h =>
    refine ⟨[], by simp, nofun, ?_⟩
    rw [List.append_nil]
    cases T with
    | pend hq hf ha hp => unfold Pend at hp; rw [h] at hp; exact hp.elim
    | lost hq hf hc hx => rw [h] at hx; cases hx
    | fin y1 z ok n r' hq hy hf hz hA hs hx => rw [h] at hx; simp at hx
    | past y1 z ok n items hy hf hA hc hx => exact .past y1 z ok n items hy hf hA hc (.inl ⟨rfl, nofun⟩)
  | free h =>
    refine ⟨[], by simp, nofun, ?_⟩
    rw [List.append_nil]
    cases T with
    | pend hq hf ha hp => unfold Pend at hp; rw [h] at hp; exact hp.elim
    | lost hq hf hc hx hu => exact .lost hq hf hc rfl hu
    | fin y1 z ok n r' hq hy hf hz hA hs hx => rw [h] at hx; simp at hx
    | past y1 z ok n items hy hf hA hc hx => exact .past y1 z ok n items hy hf hA hc (.inl ⟨rfl, past_passive (s := s) hx (by rw [h]; nofun)⟩)
  | undefOk n h hu =>
    refine ⟨[], by simp, nofun, ?_⟩
    rw [List.append_nil]
    cases T with
    | pend hq hf ha hp =>
      unfold Pend at hp
      rw [h] at hp
      exact .pend hq hf ⟨ha.on, ha.cmd, ha.pfx⟩ hp.2
    | lost hq hf hc hx hu => exact .lost hq hf hc rfl hu
    | fin y1 z ok n r' hq hy hf hz hA hs hx => rw [h] at hx; simp at hx
    | past y1 z ok n items hy hf hA hc hx => exact .past y1 z ok n items hy hf hA hc (.inl ⟨rfl, past_passive (s := s) hx (by rw [h]; nofun)⟩)
  | undefRefused n h hu =>
    refine ⟨[], by simp, nofun, ?_⟩
    rw [List.append_nil]
    cases T with
    | pend hq hf ha hp =>
      unfold Pend at hp
      rw [h] at hp
      exact .pend hq hf ⟨ha.on, ha.cmd, ha.pfx⟩ ⟨hp.1.choose, n, [], hp.1.choose_spec.1, hu, hp.1.choose_spec.2⟩
    | lost hq hf hc hx hu => exact .lost hq hf hc rfl hu
    | fin y1 z ok n r' hq hy hf hz hA hs hx => rw [h] at hx; simp at hx
    | past y1 z ok n items hy hf hA hc hx => exact .past y1 z ok n items hy hf hA hc (.inl ⟨rfl, past_passive (s := s) hx (by rw [h]; nofun)⟩)
  | undefFail h =>
    refine ⟨[], by simp, nofun, ?_⟩
    rw [List.append_nil]
    cases T with
    | pend hq hf ha hp =>
      unfold Pend at hp
      rw [h] at hp
      exact .lost hq hf rfl rfl hp
    | lost hq hf hc hx hu => exact .lost hq hf rfl rfl hu
    | fin y1 z ok n r' hq hy hf hz hA hs hx => rw [h] at hx; simp at hx
    | past y1 z ok n items hy hf hA hc hx => exact .past y1 z ok n items hy hf hA rfl (.inl ⟨rfl, past_passive (s := s) hx (by rw [h]; nofun)⟩)

/-- The command was answered with success, and the data step (if any) has not begun. -/
def passed : Thr → Bool
  | .raw4 _ _ st => st == .ok
  | .uninstall _ _ st => st == .ok
  | .data0 _ _ => true
  | _ => false

/-- No prefix is left over where one would do harm. -/
def Off (s : St) (p : Thr) : Prop :=
  (waits p = true → s.cmd = .noCommand → s.pfxOn = false) ∧ (passed p = true → s.pfxOn = false)

theorem off_other {s : St} {p : Thr} (h : waits p = false) (h' : passed p = false) : Off s p := ⟨by simp [h], by simp [h']⟩

theorem off_arm {s : St} {p : Thr} (h : s.cmd ≠ .noCommand) (h' : passed p = false) : Off s p := ⟨fun _ h0 => absurd h0 h, by simp [h']⟩

/-- The invariant. -/
structure Whole (cfg : Cfg) (s : St) : Prop where
  bound : ∀ k, Ev.recv k ∈ s.log → k < s.received.length
  inst : ∀ p i r, cur s = some p → inRaw p = some (i, r) → s.extra.map (·.2) = r.kind.table
  off : ∀ p, cur s = some p → Off s p
  send : ∀ p i w, cur s = some p → stepOf p = some (i, w) → sendingB p = true → Armed s w
  wait : ∀ p i w, cur s = some p → stepOf p = some (i, w) → sendingB p = false → tidy p →
    ∃ x e y, s.log = x ++ e :: y ∧ openedBy e p ∧ (∀ f ∈ y, ¬ Boundary f ∧ ¬ isGot f) ∧ Track cfg s w i (cbZone p = true) y

theorem stepOf_active {p : Thr} {i : Nat} {w : Want} (h : stepOf p = some (i, w)) : active p = some i := by
  cases p <;> simp_all [stepOf, active]

theorem stepOf_waits {p : Thr} : (stepOf p = none ↔ waits p = false) := by
  cases p <;> simp [stepOf, waits]

/-- The tokens in effect. -/
theorem step_extra {cfg : Cfg} {s : St} {p : Thr} {i : Nat} {w : Want} (W : Whole cfg s) (I : Inv s) (hc : cur s = some p)
    (h : stepOf p = some (i, w)) : s.extra.map (·.2) = w.tokens := by
  have hraw : ∀ j r, inRaw p = some (j, r) → w.tokens = r.kind.table → s.extra.map (·.2) = w.tokens :=
    fun j r h1 h2 => by rw [h2]; exact W.inst p j r hc h1
  have hdata : inRaw p = none → w.tokens = none → s.extra.map (·.2) = w.tokens := by
    intro h1 h2
    rw [h2]
    cases hx : s.extra with
    | none => rfl
    | some v =>
      obtain ⟨j, tb⟩ := v
      obtain ⟨q, r, e1, e2, -⟩ := I.ex j tb hx
      rw [hc] at e1; cases e1
      rw [h1] at e2; cases e2
  cases p with
  | raw2 j r => simp only [stepOf, Option.some.injEq, Prod.mk.injEq] at h; exact hraw j r rfl (by rw [← h.2]; rfl)
  | raw3 j r => simp only [stepOf, Option.some.injEq, Prod.mk.injEq] at h; exact hraw j r rfl (by rw [← h.2]; rfl)
  | data1 j d b => simp only [stepOf, Option.some.injEq, Prod.mk.injEq] at h; exact hdata rfl (by rw [← h.2]; rfl)
  | data2 j d n e => simp only [stepOf, Option.some.injEq, Prod.mk.injEq] at h; exact hdata rfl (by rw [← h.2]; rfl)
  | data3 j n => simp only [stepOf, Option.some.injEq, Prod.mk.injEq] at h; exact hdata rfl (by rw [← h.2]; rfl)
  | _ => cases h

/-- No prefix callback in effect. -/
theorem step_noPrefix {s : St} {p : Thr} {i : Nat} {w : Want} (I : Inv s) (hc : cur s = some p)
    (h : stepOf p = some (i, w)) (ht : tidy p) : s.recvCb = none ∧ s.sendCb = none := by
  have key : ∀ j r, inRaw p = some (j, r) → NoPrefixCb r := by
    intro j r hr
    cases p <;> simp_all [inRaw, stepOf, tidy]
  constructor
  · cases hx : s.recvCb with
    | none => rfl
    | some j =>
      obtain ⟨q, r, e1, e2, e3⟩ := I.rc j hx
      rw [hc] at e1; cases e1
      exact absurd e3 (key j r e2).1
  · cases hx : s.sendCb with
    | none => rfl
    | some j =>
      obtain ⟨q, r, d, e1, e2, e3⟩ := I.sc j hx
      rw [hc] at e1; cases e1
      exact absurd e3 ((key j r e2).2 d)

theorem whole_init (cfg : Cfg) : Whole cfg init :=
  ⟨nofun, fun _ _ _ h => by simp [cur, init] at h, fun _ h => by simp [cur, init] at h, fun _ _ _ h => by simp [cur, init] at h, fun _ _ _ h => by simp [cur, init] at h⟩

theorem rx_same {cfg : Cfg} {s s' : St} (h : RxStep cfg s s') : s'.extra = s.extra ∧ cur s' = cur s ∧
    (s'.received = s.received ∧ (∀ k, Ev.recv k ∈ s'.log → Ev.recv k ∈ s.log) ∨
      s.rx = .idle ∧ (∃ l, s'.received = s.received ++ [l]) ∧ s'.log = s.log ++ [.recv s.received.length]) := by
  have hcon : ∀ k n, Ev.recv k ∉ consult s n := fun k n hk => (dull_consult s n _ hk).2.2.2 k rfl
  have hf : ∀ k o, Ev.recv k ∉ fetchedBy o := fun k o hk => (dull_fetched o _ hk).2.2.2 k rfl
  cases h with
  | receive l h => exact ⟨rfl, rfl, .inr ⟨h, ⟨l, rfl⟩, rfl⟩⟩
  | fetch n h =>
    refine ⟨rfl, rfl, .inl ⟨rfl, fun k hk => ?_⟩⟩
    simp only [List.mem_append] at hk
    rcases hk with (hk | hk) | hk
    · exact hk
    · exact absurd hk (hf _ _)
    · exact absurd hk (hf _ _)
  | procDone n t r h hp =>
    refine ⟨rfl, rfl, .inl ⟨rfl, fun k hk => ?_⟩⟩
    simp only [List.mem_append] at hk
    rcases hk with (hk | hk) | hk
    · exact hk
    · exact absurd hk (hcon _ _)
    · simp at hk
  | procPending n t st r h hp hs =>
    refine ⟨rfl, rfl, .inl ⟨rfl, fun k hk => ?_⟩⟩
    simp only [List.mem_append] at hk
    rcases hk with hk | hk
    · exact hk
    · exact absurd hk (hcon _ _)
  | procUndef n t st r h hp hs =>
    refine ⟨rfl, rfl, .inl ⟨rfl, fun k hk => ?_⟩⟩
    simp only [List.mem_append] at hk
    rcases hk with hk | hk
    · exact hk
    · exact absurd hk (hcon _ _)
  | _ => exact ⟨rfl, rfl, .inl ⟨rfl, fun k hk => by simpa [St.emit] using hk⟩⟩

theorem rx_off {cfg : Cfg} {s s' : St} {p : Thr} (h : RxStep cfg s s') (ho : Off s p) : Off s' p := by
  cases h with
  | done r h => exact ⟨fun _ _ => rfl, fun _ => rfl⟩
  | undefFail h => exact ⟨fun _ _ => rfl, fun _ => rfl⟩
  | _ => exact ho

theorem whole_rx {cfg : Cfg} {tol : Bool} {s s' : St} {m : Own} (h : RxStep cfg s s') (I : Inv s) (J : Inv2 tol true s m) (hq : Quiet s s')
    (W : Whole cfg s) : Whole cfg s' := by
  obtain ⟨e1, e2, e3⟩ := rx_same h
  have hns : ∀ p, cur s = some p → sendingB p = false := by
    intro p hp
    cases hs : sendingB p with
    | false => rfl
    | true =>
      exfalso
      have hidle := (J.sending rfl (by simp [csend, hp, hs])).1
      cases hmx : s.mutex with
      | none => simp [cur, hmx] at hp
      | some t =>
        simp only [cur, hmx, Option.map_some, Option.some.injEq] at hp
        have := hq.2 t ((sendingB_iff _).1 (by rw [hp]; exact hs))
        rcases e3 with ⟨e, -⟩ | ⟨-, ⟨l, e⟩, -⟩
        · cases h <;> simp_all
        · rw [this] at e; simp at e
  refine ⟨?_, ?_, fun p hp => rx_off h (W.off p (by rw [← e2]; exact hp)), ?_, ?_⟩
  · rcases e3 with ⟨e, e'⟩ | ⟨-, ⟨l, e⟩, e'⟩
    · intro k hk; rw [e]; exact W.bound k (e' k hk)
    · intro k hk
      rw [e'] at hk
      rw [e, List.length_append]
      rcases List.mem_append.mp hk with hk | hk
      · exact Nat.lt_of_lt_of_le (W.bound k hk) (Nat.le_add_right _ _)
      · simp only [List.mem_singleton, Ev.recv.injEq] at hk; rw [hk]; simp
  · intro p i r hp hr
    rw [e1]; exact W.inst p i r (by rw [← e2]; exact hp) hr
  · intro p i w hp _ hs
    rw [hns p (by rw [← e2]; exact hp)] at hs; cases hs
  · intro p i w hp hw hs ht
    rw [e2] at hp
    obtain ⟨x, e, y, hl, ho, hb, T⟩ := W.wait p i w hp hw hs ht
    obtain ⟨n1, n2⟩ := step_noPrefix I hp hw ht
    obtain ⟨l, hl', hd, T'⟩ := track_rx h T (step_extra W I hp hw) n1 n2 (fun j hj => by
        obtain ⟨h1, h2⟩ := J.cb j hj
        rw [hp] at h1
        rw [J.req, hp] at h2
        simp only [Option.bind_some, stepOf_active hw, Option.some.injEq] at h2
        exact ⟨h2.symm, h1⟩)
      (fun k hk => W.bound k (by rw [hl]; simp [mem_recvs.mp hk]))
      (fun r hr => by
        cases J.ph with
        | pl r' hw hc hq ha hx hi hn hcb => exact hn
        | p0 hc hq ha hx hr' => rw [hr] at hx; cases hx
        | pa hw hq ha hx hr' hcb => rw [hr] at hx; simp [passive, procish] at hx
        | pd r hw hq ha hx hi hcb => rw [hr] at hx; cases hx
        | ph r hw hc hq ha hx hi hcb => rw [hr] at hx; cases hx
        | pi i r hw hc hq ha hx hi hn hcb => rw [hr] at hx; cases hx
        | ps st hw hc hq ha hx => rw [hr] at hx; cases hx
        | pc st hw hc hq ha hx hr' => rw [hr] at hx; cases hx
        | pt _ hw hq ha hx hr' => rw [hr] at hx; cases hx)
    refine ⟨x, e, y ++ l, by rw [hl', hl]; simp, ho, ?_, T'⟩
    intro f hf
    rcases List.mem_append.mp hf with hf | hf
    · exact hb f hf
    · exact hd f hf

theorem track_dull {cfg : Cfg} {s s' : St} {w : Want} {i : Nat} {raw raw' : Prop} {y l : List Ev} (T : Track cfg s w i raw y) (hl : Dull l)
    (h1 : s'.rx = s.rx) (h2 : s'.cmd = s.cmd) (h3 : s'.pfxOn = s.pfxOn) (h4 : s'.pfxBuf = s.pfxBuf) (h5 : s'.resp = s.resp)
    (h6 : s'.queue = s.queue) (h7 : s'.received = s.received) (h8 : raw → raw') : Track cfg s' w i raw' (y ++ l) := by
  have hline : s'.line = s.line := by funext k; unfold St.line; rw [h7]
  cases T with
  | pend hq hf ha hp =>
    refine .pend (by rw [h6]; exact hq) (noFinal_append hf hl.noFinal) ⟨ha.on, by rw [h2]; exact ha.cmd, by rw [h3, h4]; exact ha.pfx⟩ ?_
    rw [recvs_append, hl.recvs, List.append_nil]
    unfold Pend
    rw [h1, hline, h5, h3]
    exact hp
  | lost hq hf hc hx hu =>
    exact .lost (by rw [h6]; exact hq) (noFinal_append hf hl.noFinal) (by rw [h2]; exact hc) (by rw [h1]; exact hx) (refused_more hu (fun k _ => by rw [hline]))
  | fin y1 z ok n r hq hy hf hz hA hs hx =>
    refine .fin y1 (z ++ l) ok n r (by rw [h6]; exact hq) (by rw [hy]; simp) ?_ ?_ (by rw [hline]; exact hA) hs ?_
    · rw [← List.append_assoc]; exact noFinal_append hf hl.noFinal
    · rw [recvs_append, hz, hl.recvs]; rfl
    · rw [h1, h2]
      rcases hx with hx | ⟨hc, hx | ⟨ho, hx | ⟨hx, hr⟩⟩⟩
      · exact .inl hx
      · exact .inr ⟨hc, .inl hx⟩
      · exact .inr ⟨hc, .inr ⟨ho, .inl hx⟩⟩
      · exact .inr ⟨hc, .inr ⟨ho, .inr ⟨hx, h8 hr⟩⟩⟩
  | past y1 z ok n items hy hf hA hc hx =>
    refine .past y1 (z ++ l) ok n items (by rw [hy]; simp) ?_ (by rw [hline]; exact hA) (by rw [h2]; exact hc) (by rw [h1, h6, recvs_append, hl.recvs, List.append_nil]; exact hx)
    rw [← List.append_assoc]; exact noFinal_append hf hl.noFinal

/-- A step of the owner to a place where it does not wait. -/
theorem whole_move {cfg : Cfg} {s s' : St} {q : Option Thr} (W : Whole cfg s) (hc : cur s' = q) (hq : ∀ p, q = some p → stepOf p = none)
    (hrec : s'.received = s.received) (hlog : ∀ k, Ev.recv k ∈ s'.log → Ev.recv k ∈ s.log)
    (hi : ∀ p i r, q = some p → inRaw p = some (i, r) → s'.extra.map (·.2) = r.kind.table)
    (ho : ∀ p, q = some p → Off s' p) : Whole cfg s' :=
  ⟨fun k hk => by rw [hrec]; exact W.bound k (hlog k hk), fun p i r hp => hi p i r (by rw [← hc]; exact hp),
    fun p hp => ho p (by rw [← hc]; exact hp),
    fun p _ _ hp hw => (Option.some_ne_none _ (hw.symm.trans (hq p (hc.symm.trans hp)))).elim,
    fun p _ _ hp hw => (Option.some_ne_none _ (hw.symm.trans (hq p (hc.symm.trans hp)))).elim⟩

theorem prefixFor_command {comm : Bool} {text : Str} {r : Req} {p : Option Str} (h : sendCheck comm text r = .ok p) :
    r.type ≠ .noCommand ∧ (commandWant r).pfx = p := by
  unfold sendCheck at h
  split at h
  · cases h
  split at h
  · cases h
  split at h
  · rename_i q hq
    cases h
    refine ⟨?_, by simp only [commandWant, hq, Option.getD_some]⟩
    intro e
    rw [e] at hq
    cases hq
  · cases h

theorem sendCheck_error {comm : Bool} {text : Str} {r : Req} {e : PktStatus} (h : sendCheck comm text r = .error e) : e ≠ .ok := by
  unfold sendCheck at h
  split at h
  · cases h; nofun
  split at h
  · cases h; nofun
  split at h
  · cases h
  · cases h; nofun

/-- A status is queued: the command is closed. -/
theorem phase_queue {tol : Bool} {s : St} {m : Own} {st : PktStatus} (h : Phase tol s m) (hq : s.queue = some st) : s.cmd = .noCommand := by
  cases h with
  | p0 hc => exact hc
  | pc _ _ hc => exact hc
  | _ => simp_all

theorem whole_thr {cfg : Cfg} {comm tol : Bool} {t : Nat} {s s' : St} {m : Own} (h : ThrStep comm t s s') (I : Inv s) (J : Inv2 tol true s m)
    (hn : Forgive tol s') (hq : Quiet s s') (W : Whole cfg s) : Whole cfg s' := by
  cases h with
  | call r h =>
    have hmx : s.mutex ≠ some t := by
      intro e; have := (I.m t).2 e; rw [h] at this; exact this rfl
    have hc : cur { s.set t (.waiting s.reqs.length r) with reqs := s.reqs ++ [r] } = cur s := by
      unfold cur St.set
      cases hmx' : s.mutex with
      | none => rfl
      | some u => simp only [Option.map_some]; rw [if_neg (by rintro rfl; exact hmx hmx')]
    refine ⟨W.bound, by rw [hc]; exact W.inst, by rw [hc]; exact W.off, ?_, ?_⟩
    · intro p i w hp hw hs
      rw [hc] at hp
      have := W.send p i w hp hw hs
      exact ⟨this.on, this.cmd, this.pfx⟩
    · intro p i w hp hw hs ht
      rw [hc] at hp
      obtain ⟨x, e, y, hl, ho, hb, T⟩ := W.wait p i w hp hw hs ht
      refine ⟨x, e, y, hl, ho, hb, ?_⟩
      have := track_dull (s' := { s.set t (.waiting s.reqs.length r) with reqs := s.reqs ++ [r] }) T dull_nil rfl rfl rfl rfl rfl rfl rfl id
      rwa [List.append_nil] at this
  | acquire i r h hmx =>
    refine whole_move W (q := some (.install i r)) (by simp [cur, St.set, St.emit]) (by rintro p ⟨⟩; rfl) rfl (by simp [St.set, St.emit])
      (by rintro p j r' ⟨⟩ hr; cases hr) (by rintro p ⟨⟩; exact off_other rfl rfl)
  | release i st sent h =>
    exact whole_move W (q := none) (by simp [cur, St.set, St.emit]) (by rintro p ⟨⟩) rfl (by simp [St.set, St.emit]) (by rintro p j r' ⟨⟩) (by rintro p ⟨⟩)
  | install i r h =>
    obtain ⟨hmx, hc⟩ := cur_owner I h (by simp [active])
    refine whole_move W (q := some (.raw0 i r)) (by simp [cur, St.set, hmx]) (by rintro p ⟨⟩; rfl) rfl (by simp [St.set]) ?_ (by rintro p ⟨⟩; exact off_other rfl rfl)
    rintro p j r' ⟨⟩ hr
    cases hr
    simp only [St.set, Kind.installExtra]
    cases htb : r.kind.table with
    | some tb => rfl
    | none =>
      cases hx : s.extra with
      | none => rfl
      | some v =>
        obtain ⟨q, r', e1, e2, -⟩ := I.ex v.1 v.2 hx
        rw [hc] at e1; cases e1; cases e2
  | raw0null i r h _ =>
    obtain ⟨hmx, hc⟩ := cur_owner I h (by simp [active])
    refine whole_move W (q := some (.uninstall i r .badRequest)) (by simp [cur, St.set, hmx]) (by rintro p ⟨⟩; rfl) rfl (by simp [St.set]) ?_ (by rintro p ⟨⟩; exact off_other rfl rfl)
    rintro p j r' ⟨⟩ hr
    exact W.inst _ j r' hc hr
  | raw0 i r text h _ =>
    obtain ⟨hmx, hc⟩ := cur_owner I h (by simp [active])
    refine whole_move W (q := some (.raw1 i r)) (by simp [cur, St.set, hmx]) (by rintro p ⟨⟩; rfl) rfl (by simp [St.set]) ?_ (by rintro p ⟨⟩; exact off_other rfl rfl)
    rintro p j r' ⟨⟩ hr
    exact W.inst _ j r' hc hr
  | raw1fail i r text e h _ he =>
    obtain ⟨hmx, hc⟩ := cur_owner I h (by simp [active])
    refine whole_move W (q := some (.raw4 i r e)) (by simp [cur, St.set, hmx]) (by rintro p ⟨⟩; rfl) rfl (by simp [St.set]) ?_
      (by rintro p ⟨⟩; exact off_other rfl (by simp [passed, sendCheck_error he]))
    rintro p j r' ⟨⟩ hr
    exact W.inst _ j r' hc hr
  | raw4 i r st h =>
    obtain ⟨hmx, hc⟩ := cur_owner I h (by simp [active])
    refine whole_move W (q := some (.uninstall i r st)) (by simp [cur, St.set, hmx]) (by rintro p ⟨⟩; rfl) rfl (by simp [St.set]) ?_
      (by rintro p ⟨⟩; exact ⟨nofun, (W.off _ hc).2⟩)
    rintro p j r' ⟨⟩ hr
    exact W.inst _ j r' hc hr
  | uninstall i r st h =>
    obtain ⟨hmx, hc⟩ := cur_owner I h (by simp [active])
    refine whole_move W (q := some (afterRaw i r.kind.data st)) (by simp [cur, St.set, hmx]) ?_ rfl (by simp [St.set]) ?_ ?_
    · rintro p ⟨⟩; exact stepOf_waits.2 (waits_afterRaw _ _ _)
    · rintro p j r' ⟨⟩ hr
      unfold afterRaw at hr
      split at hr <;> cases hr
    · rintro p ⟨⟩
      refine ⟨by simp [waits_afterRaw], fun hp => (W.off _ hc).2 ?_⟩
      unfold afterRaw at hp
      split at hp
      · rfl
      · cases hp
  | data0null i d h _ =>
    obtain ⟨hmx, hc⟩ := cur_owner I h (by simp [active])
    exact whole_move W (q := some (.release i .badRequest none)) (by simp [cur, St.set, hmx]) (by rintro p ⟨⟩; rfl) rfl (by simp [St.set])
      (by rintro p j r' ⟨⟩ hr; cases hr) (by rintro p ⟨⟩; exact off_other rfl rfl)
  | data4 i n st h =>
    obtain ⟨hmx, hc⟩ := cur_owner I h (by simp [active])
    exact whole_move W (q := some (.release i st (some n))) (by simp [cur, St.set, hmx]) (by rintro p ⟨⟩; rfl) rfl (by simp [St.set])
      (by rintro p j r' ⟨⟩ hr; cases hr) (by rintro p ⟨⟩; exact off_other rfl rfl)
  | raw1 i r text p h _ he =>
    obtain ⟨hmx, hc⟩ := cur_owner I h (by simp [active])
    obtain ⟨k1, k2⟩ := prefixFor_command he
    have hc' : cur ({ s with cmd := r.type, pfxOn := p.isSome, pfxBuf := p.getD s.pfxBuf }.set t (.raw2 i r)) = some (.raw2 i r) := by
      simp [cur, St.set, hmx]
    refine ⟨W.bound, ?_, fun p hp => by rw [hc'] at hp; cases hp; exact off_arm k1 rfl, ?_, ?_⟩
    · intro q j r' hq' hr; rw [hc'] at hq'; cases hq'; exact W.inst _ j r' hc hr
    · intro q j w hq' hw _
      rw [hc'] at hq'
      cases hq'
      cases hw
      exact ⟨k1, rfl, by rw [k2]; cases p <;> rfl⟩
    · intro q j w hq' hw hs; rw [hc'] at hq'; cases hq'; cases hs
  | data0 i d b h _ _ =>
    obtain ⟨hmx, hc⟩ := cur_owner I h (by simp [active])
    have hoff := (W.off _ hc).2 rfl
    have hc' : cur ({ s with cmd := .noResult }.set t (.data1 i d b)) = some (.data1 i d b) := by simp [cur, St.set, hmx]
    refine ⟨W.bound, ?_, fun p hp => by rw [hc'] at hp; cases hp; exact off_arm nofun rfl, ?_, ?_⟩
    · intro q j r' hq' hr; rw [hc'] at hq'; cases hq'; cases hr
    · intro q j w hq' hw _
      rw [hc'] at hq'
      cases hq'
      cases hw
      exact ⟨nofun, rfl, by simp [St.set, hoff, dataWant]⟩
    · intro q j w hq' hw hs; rw [hc'] at hq'; cases hq'; cases hs
  | raw2 i r text h _ =>
    obtain ⟨hmx, hc⟩ := cur_owner I h (by simp [active])
    have hA := W.send _ i _ hc rfl rfl
    obtain ⟨hidle, hresp⟩ := J.sending rfl (by simp [csend, hc, sendingB])
    have hqu : s.queue = none := by
      cases J.ph with
      | pc st hw hc' hq' ha hx hr => exact absurd (hA.cmd.symm.trans hc') hA.on
      | _ => assumption
    have hc' : cur ((s.set t (.raw3 i r)).emit (.command i text)) = some (.raw3 i r) := by simp [cur, St.set, St.emit, hmx]
    refine ⟨by simpa [St.set, St.emit] using W.bound, ?_, fun p hp => by rw [hc'] at hp; cases hp; exact off_arm (by simpa [St.set, St.emit, hA.cmd] using hA.on) rfl, ?_, ?_⟩
    · intro q j r' hq' hr; rw [hc'] at hq'; cases hq'; exact W.inst _ j r' hc hr
    · intro q j w hq' hw hs; rw [hc'] at hq'; cases hq'; cases hs
    · intro q j w hq' hw hs ht
      rw [hc'] at hq'
      cases hq'
      cases hw
      refine ⟨s.log, .command i text, [], rfl, ⟨text, rfl⟩, nofun, .pend hqu nofun ⟨hA.on, hA.cmd, hA.pfx⟩ ?_⟩
      unfold Pend
      simp only [St.set, St.emit, hidle, hresp]
      intro _ _
      exact ⟨by simp [recvs, Want.parts]; cases (commandWant r).type <;> rfl, nofun⟩
  | data1 i d b n h _ =>
    obtain ⟨hmx, hc⟩ := cur_owner I h (by simp [active])
    have hA := W.send _ i _ hc rfl rfl
    obtain ⟨hidle, hresp⟩ := J.sending rfl (by simp [csend, hc, sendingB])
    have hqu : s.queue = none := by
      cases J.ph with
      | pc st hw hc' hq' ha hx hr => have := hA.cmd; rw [hc'] at this; cases this
      | _ => assumption
    have hc' : cur ((s.set t (afterData i d n)).emit (.data i b n)) = some (afterData i d n) := by simp [cur, St.set, St.emit, hmx]
    have hst : stepOf (afterData i d n) = some (i, dataWant) ∧ openedBy (.data i b n) (afterData i d n) ∧ inRaw (afterData i d n) = none := by
      unfold afterData; split <;> exact ⟨rfl, ⟨b, n, rfl⟩, rfl⟩
    refine ⟨by simpa [St.set, St.emit] using W.bound, ?_, fun p hp => by rw [hc'] at hp; cases hp; exact off_arm (by simp [St.set, St.emit, hA.cmd, dataWant]) (by unfold afterData; split <;> rfl), ?_, ?_⟩
    · intro q j r' hq' hr; rw [hc'] at hq'; cases hq'; rw [hst.2.2] at hr; cases hr
    · intro q j w hq' hw hs; rw [hc'] at hq'; cases hq'; rw [sending_afterData] at hs; cases hs
    · intro q j w hq' hw hs ht
      rw [hc'] at hq'
      cases hq'
      rw [hst.1] at hw
      cases hw
      refine ⟨s.log, .data i b n, [], rfl, hst.2.1, nofun, .pend hqu nofun ⟨hA.on, hA.cmd, hA.pfx⟩ ?_⟩
      unfold Pend
      simp only [St.set, St.emit, hidle, hresp]
      intro _ _
      exact ⟨rfl, nofun⟩
  | data2 i d n e k h _ =>
    obtain ⟨hmx, hc⟩ := cur_owner I h (by simp [active])
    have hc' : cur ((s.set t (.data3 i n)).emit (.pattern i e k)) = some (.data3 i n) := by simp [cur, St.set, St.emit, hmx]
    refine ⟨by simpa [St.set, St.emit] using W.bound, ?_, fun p hp => by rw [hc'] at hp; cases hp; exact ⟨fun _ => (W.off _ hc).1 rfl, nofun⟩, ?_, ?_⟩
    · intro q j r' hq' hr; rw [hc'] at hq'; cases hq'; cases hr
    · intro q j w hq' hw hs; rw [hc'] at hq'; cases hq'; cases hs
    · intro q j w hq' hw hs ht
      rw [hc'] at hq'
      cases hq'
      cases hw
      obtain ⟨x, e', y, hl, ho, hb, T⟩ := W.wait _ i dataWant hc rfl rfl trivial
      refine ⟨x, e', y ++ [.pattern i e k], by simp [St.set, St.emit, hl], ho, ?_, ?_⟩
      · intro f hf
        rcases List.mem_append.mp hf with hf | hf
        · exact hb f hf
        · rw [List.mem_singleton.mp hf]; simp [Boundary, isGot]
      · exact track_dull T (by intro f hf; rw [List.mem_singleton.mp hf]; simp [isFinal, Boundary, isGot]) rfl rfl rfl rfl rfl rfl rfl id
  | raw3got i r st h hqu =>
    obtain ⟨hmx, hc⟩ := cur_owner I h (by simp [active])
    refine whole_move W (q := some (.raw4 i r st)) (by simp [cur, St.set, St.emit, hmx]) (by rintro p ⟨⟩; rfl) rfl (by simp [St.set, St.emit]) ?_
      (by rintro p ⟨⟩; exact ⟨nofun, fun _ => (W.off _ hc).1 rfl (phase_queue J.ph hqu)⟩)
    rintro p j r' ⟨⟩ hr
    exact W.inst _ j r' hc hr
  | data3got i n st h hqu =>
    obtain ⟨hmx, hc⟩ := cur_owner I h (by simp [active])
    exact whole_move W (q := some (.data4 i n st)) (by simp [cur, St.set, St.emit, hmx]) (by rintro p ⟨⟩; rfl) rfl (by simp [St.set, St.emit])
      (by rintro p j r' ⟨⟩ hr; cases hr) (by rintro p ⟨⟩; exact off_other rfl rfl)
  | raw3timeout i r h hqu =>
    obtain ⟨hmx, hc⟩ := cur_owner I h (by simp [active])
    refine whole_move W (q := some (.raw4 i r .timedOut)) (by simp [cur, St.set, St.emit, hmx]) (by rintro p ⟨⟩; rfl) rfl
      (by simp [St.set, St.emit]) ?_ (by rintro p ⟨⟩; exact off_other rfl rfl)
    rintro p j r' ⟨⟩ hr
    exact W.inst _ j r' hc hr
  | data3timeout i n h hqu =>
    obtain ⟨hmx, hc⟩ := cur_owner I h (by simp [active])
    exact whole_move W (q := some (.data4 i n .timedOut)) (by simp [cur, St.set, St.emit, hmx]) (by rintro p ⟨⟩; rfl) rfl
      (by simp [St.set, St.emit]) (by rintro p j r' ⟨⟩ hr; cases hr) (by rintro p ⟨⟩; exact off_other rfl rfl)
  | data1short i d b n h _ => exact absurd (by simp [St.emit]) (hn.sent i)
  | data2short i d n e k h _ => exact absurd (by simp [St.emit]) (hn.sent i)

end Cellular.ConcLemmas

namespace Cellular.Props
open Cellular Spec Conc ConcLemmas
open Cellular.Pktio (CmdType MsgType Item Resp Cfg getMsgType processLine isToken)

theorem whole_run {cfg : Cfg} {comm tol : Bool} {P : St → St → Prop} {s : St} (h : Run cfg comm P s)
    (hP : ∀ a b, P a b → Quiet a b) (hn : (tol = false ∧ NoLoss s.log) ∨ (tol = true ∧ ∀ a b, P a b → Harmless b)) :
    Whole cfg s ∧ ∃ m, own true s.log = some m ∧ Inv2 tol true s m := by
  refine ⟨?_, own_run' h (fun _ => hP) hn⟩
  induction h with
  | init => exact whole_init cfg
  | @step s0 s1 hr hs hp ih =>
    have hn0 : (tol = false ∧ NoLoss s0.log) ∨ (tol = true ∧ ∀ a b, P a b → Harmless b) := by
      obtain ⟨l, hl⟩ := step_log hs
      rcases hn with ⟨e, hn⟩ | hn
      · refine .inl ⟨e, fun i => ?_⟩
        have := hn i; rw [hl] at this
        exact ⟨fun h => this.1 (List.mem_append_left _ h), fun h => this.2 (List.mem_append_left _ h)⟩
      · exact .inr hn
    have W := ih hn0
    obtain ⟨m, hm, J⟩ := own_run' hr (fun _ => hP) hn0
    have I := inv_reachable hr.reachable
    cases hs with
    | thr t h =>
      refine whole_thr h I J ?_ (hP _ _ hp) W
      rcases hn with ⟨rfl, hn⟩ | ⟨rfl, hn⟩
      · exact forgive_noLoss hn
      · exact forgive_harmless (hn _ _ hp)
    | rx h => exact whole_rx h I J (hP _ _ hp) W

theorem last_final {p p' z z' : List Ev} {ok ok' : Bool} {n n' : Nat} (h : p ++ .final ok n :: z = p' ++ .final ok' n' :: z')
    (hz : ∀ f ∈ z, ¬ isFinal f) (hz' : ∀ f ∈ z', ¬ isFinal f) : p = p' ∧ ok = ok' ∧ n = n' ∧ z = z' := by
  rcases List.append_eq_append_iff.mp h with ⟨c, h1, h2⟩ | ⟨c, h1, h2⟩
  · cases c with
    | nil => simp at h1 h2; exact ⟨h1.symm, h2.1.1, h2.1.2, h2.2⟩
    | cons f c =>
      simp only [List.cons_append, List.cons.injEq] at h2
      exact absurd trivial (hz (.final ok' n') (by rw [h2.2]; simp))
  · cases c with
    | nil => simp at h1 h2; exact ⟨h1, h2.1.1.symm, h2.1.2.symm, h2.2.symm⟩
    | cons f c =>
      simp only [List.cons_append, List.cons.injEq] at h2
      exact absurd trivial (hz' (.final ok n) (by rw [h2.2]; simp))

theorem given_mono {cfg : Cfg} {rec rec' : List Str} {r : Req} {a : List Ev} {i : Nat} {items : List Item}
    (h : ∀ k, Ev.recv k ∈ a → rec'.getD k [] = rec.getD k []) (H : GivenWhole cfg rec r a i items) : GivenWhole cfg rec' r a i items := by
  obtain ⟨x, text, y, n, z, ha, hb, hz, hA⟩ := H
  refine ⟨x, text, y, n, z, ha, hb, hz, answered_congr (fun k hk => (h k ?_).symm) hA⟩
  rw [ha]; simp [mem_recvs.mp hk]

theorem result_mono {cfg : Cfg} {rec rec' : List Str} {r : Req} {a : List Ev} {i : Nat} {st : PktStatus}
    (h : ∀ k, Ev.recv k ∈ a → rec'.getD k [] = rec.getD k []) (H : ResultWhole cfg rec r a i st) : ResultWhole cfg rec' r a i st := by
  obtain ⟨w, x, e, y, ok, n, z, ha, he, hb, hf, ⟨items, hA⟩, hst⟩ := H
  refine ⟨w, x, e, y, ok, n, z, ha, he, hb, hf, ⟨items, answered_congr (fun k hk => (h k ?_).symm) hA⟩, hst⟩
  rw [ha]; simp [mem_recvs.mp hk]

/-- The callback of the request in progress is about to run: the history so far. -/
theorem callback_whole {cfg : Cfg} {comm tol : Bool} {s : St} {m : Own} {i : Nat} {q : Resp} (W : Whole cfg s) (J : Inv2 tol true s m) (K : Inv3 comm s)
    (hx : s.rx = .inCb i q) : ∃ r, s.reqs[i]? = some r ∧ (NoPrefixCb r → GivenWhole cfg s.received r s.log i q.items) := by
  obtain ⟨hw, hreq⟩ : cw s = true ∧ m.req = some i := by
    cases J.ph with
    | pi j r hw hc hq ha hx' hi hn hcb => rw [hx] at hx'; cases hx'; exact ⟨hw, hn⟩
    | p0 hc hq ha hx' hr' => rw [hx] at hx'; cases hx'
    | pa hw hq ha hx' hr' hcb => rw [hx] at hx'; simp [passive, procish] at hx'
    | pd r hw hq ha hx' hi hcb => rw [hx] at hx'; cases hx'
    | ph r hw hc hq ha hx' hi hcb => rw [hx] at hx'; cases hx'
    | pl r hw hc hq ha hx' hi hn hcb => rw [hx] at hx'; cases hx'
    | ps st hw hc hq ha hx' => rw [hx] at hx'; cases hx'
    | pc st hw hc hq ha hx' hr' => rw [hx] at hx'; cases hx'
    | pt _ hw hq ha hx' hr' => rw [hx] at hx'; cases hx'
  cases hmx : s.mutex with
  | none => simp [cw, cur, hmx] at hw
  | some t =>
    generalize hp : s.thr t = p
    have hc : cur s = some p := by simp [cur, hmx, hp]
    have hloc := K.loc t
    rw [hp] at hloc
    rw [J.req, hc] at hreq
    have hns : sendingB p = false := by
      cases hs : sendingB p with
      | false => rfl
      | true =>
        have := (J.sending rfl (by simp [csend, hc, hs])).1
        rw [hx] at this; cases this
    have hwp : waits p = true := by simpa [cw, hc] using hw
    have fin : ∀ j w, stepOf p = some (j, w) → tidy p → ∃ x e y n z, s.log = x ++ e :: (y ++ .final true n :: z) ∧ openedBy e p ∧
        (∀ f ∈ y ++ z, ¬ Boundary f ∧ ¬ isGot f) ∧ recvs z = [] ∧ Answered cfg w s.line (recvs y) true n q.items ∧ cbZone p = true := by
      intro j w hw ht
      obtain ⟨x, e, y, hl, ho, hb, T⟩ := W.wait p j w hc hw hns ht
      cases T with
      | pend hq hf ha hp => unfold Pend at hp; rw [hx] at hp; exact hp.elim
      | lost hq hf hc hx' => rw [hx] at hx'; cases hx'
      | fin y1 z ok n r' hq hy hf hz hA hs hx' =>
        rw [hx] at hx'
        simp only [reduceCtorEq, false_or, Rx.inCb.injEq] at hx'
        obtain ⟨-, rfl, ⟨-, rfl⟩, hraw⟩ := hx'
        refine ⟨x, e, y1, n, z, by rw [hl, hy], ho, fun f hf => hb f ?_, hz, hA, hraw⟩
        rw [hy]
        rcases List.mem_append.mp hf with hf | hf <;> simp [hf]
      | past y1 z ok n items hy hf hA hc hx' => rw [hx] at hx'; simp [passive] at hx'
    cases p with
    | raw3 j r =>
      simp only [Option.bind_some, active, Option.some.injEq] at hreq
      subst hreq
      refine ⟨r, hloc, fun hnp => ?_⟩
      obtain ⟨x, e, y, n, z, hl, ⟨text, rfl⟩, hb, hz, hA, -⟩ := fin j _ rfl hnp
      exact ⟨x, text, y, n, z, hl, hb, hz, hA⟩
    | data2 j d n e => obtain ⟨_, _, _, _, _, _, _, _, _, _, h⟩ := fin j _ rfl trivial; cases h
    | data3 j n => obtain ⟨_, _, _, _, _, _, _, _, _, _, h⟩ := fin j _ rfl trivial; cases h
    | raw2 j r => cases hns
    | data1 j d b => cases hns
    | _ => cases hwp

/-- A step takes its result: the history so far. -/
theorem got_whole {cfg : Cfg} {s : St} {p : Thr} {i : Nat} {w : Want} {st : PktStatus} (W : Whole cfg s)
    (hc : cur s = some p) (hw : stepOf p = some (i, w)) (hns : sendingB p = false) (ht : tidy p) (hqu : s.queue = some st)
    (hO : OwnResult s.log i st) :
    ∃ x e y ok n z, s.log = x ++ e :: (y ++ .final ok n :: z) ∧ openedBy e p ∧ (∀ f ∈ y ++ z, ¬ Boundary f ∧ ¬ isGot f) ∧
      (∀ f ∈ y ++ z, ¬ isFinal f) ∧ (∃ items, Answered cfg w s.line (recvs y) ok n items) ∧
      ((st = codeStatus ok ∧ ∀ f ∈ z, ¬ isCallback f) ∨ (ok = true ∧ ∃ items, Ev.callback i items st ∈ z)) := by
  obtain ⟨x, e, y, hl, ho, hb, T⟩ := W.wait p i w hc hw hns ht
  cases T with
  | pend hq hf ha hp => rw [hq] at hqu; cases hqu
  | lost hq hf hc hx' => rw [hq] at hqu; cases hqu
  | fin y1 z ok n r' hq hy hf hz hA hs hx' => rw [hq] at hqu; cases hqu
  | past y1 z ok n items hy hf hA hc hx' =>
    obtain ⟨x', e', y', ok', n', z', h1, h2, h3, h4, h5, h6⟩ := hO
    have heq : (x ++ e :: y1) ++ .final ok n :: z = (x' ++ e' :: y') ++ .final ok' n' :: z' := by
      rw [← h1, hl, hy]; simp
    obtain ⟨-, rfl, rfl, rfl⟩ := last_final heq (fun f hf' => hf f (List.mem_append_right _ hf')) (fun f hf' => (h5 f hf').2)
    refine ⟨x, e, y1, ok, n, z, by rw [hl, hy], ho, fun f hf' => hb f ?_, hf, ⟨items, hA⟩, h6⟩
    rw [hy]
    rcases List.mem_append.mp hf' with hf' | hf' <;> simp [hf']

theorem thr_reqs {comm : Bool} {t : Nat} {s s' : St} (h : ThrStep comm t s s') :
    (∃ l, s'.reqs = s.reqs ++ l) ∧ s'.received = s.received := by
  cases h with
  | call r h => exact ⟨⟨[r], rfl⟩, rfl⟩
  | _ => exact ⟨⟨[], by simp [St.set, St.emit]⟩, rfl⟩

theorem rx_reqs {cfg : Cfg} {s s' : St} (h : RxStep cfg s s') : s'.reqs = s.reqs := by
  cases h <;> rfl

/-- The last event of a step. -/
theorem thr_last {comm : Bool} {t : Nat} {s s' : St} (h : ThrStep comm t s s') (hn : ∀ i, Ev.sendError i ∉ s'.log) : s'.log = s.log ∨
    ∃ e, s'.log = s.log ++ [e] ∧ (∀ i items st, e ≠ .callback i items st) ∧
      (∀ i st, e = .got i st → s.queue = some st ∧ (∃ r, s.thr t = .raw3 i r) ∨ s.queue = some st ∧ (∃ n, s.thr t = .data3 i n)) := by
  cases h with
  | acquire i r h hm => exact .inr ⟨_, rfl, nofun, nofun⟩
  | raw2 i r text h hc => exact .inr ⟨_, rfl, nofun, nofun⟩
  | raw3got i r st h hq => exact .inr ⟨_, rfl, nofun, fun j st' e => by cases e; exact .inl ⟨hq, r, h⟩⟩
  | raw3timeout i r h hq => exact .inr ⟨_, rfl, nofun, nofun⟩
  | data1 i d b n h hb => exact .inr ⟨_, rfl, nofun, nofun⟩
  | data2 i d n e m h hm => exact .inr ⟨_, rfl, nofun, nofun⟩
  | data3got i n st h hq => exact .inr ⟨_, rfl, nofun, fun j st' e => by cases e; exact .inr ⟨hq, n, h⟩⟩
  | data3timeout i n h hq => exact .inr ⟨_, rfl, nofun, nofun⟩
  | release i st sent h => exact .inr ⟨_, rfl, nofun, nofun⟩
  | data1short i d b n h _ => exact absurd (by simp [St.emit]) (hn i)
  | data2short i d n e k h _ => exact absurd (by simp [St.emit]) (hn i)
  | _ => exact .inl rfl

theorem rx_last {cfg : Cfg} {s s' : St} (h : RxStep cfg s s') : ∃ l, s'.log = s.log ++ l ∧
    ((∀ f ∈ l, ¬ isCallback f ∧ ¬ isGot f) ∨ ∃ i q st, s.rx = .inCb i q ∧ l = [.callback i q.items st]) := by
  have hcon : ∀ n, ∀ f ∈ consult s n, ¬ isCallback f ∧ ¬ isGot f := by
    intro n f hf
    unfold consult at hf
    split at hf
    · rw [List.mem_singleton.mp hf]; simp [isCallback, isGot]
    · cases hf
  have hfe : ∀ o, ∀ f ∈ fetchedBy o, ¬ isCallback f ∧ ¬ isGot f := by
    intro o f hf; cases o <;> simp_all [fetchedBy, isCallback, isGot]
  cases h with
  | receive l h => exact ⟨_, rfl, .inl (by simp [isCallback, isGot])⟩
  | fetch n h =>
    refine ⟨fetchedBy s.recvCb ++ fetchedBy s.sendCb, by simp, .inl fun f hf => ?_⟩
    rcases List.mem_append.mp hf with hf | hf
    · exact hfe _ f hf
    · exact hfe _ f hf
  | preSend n d i keep h => exact ⟨_, rfl, .inl (by simp [isCallback, isGot])⟩
  | preRecv n i keep h => exact ⟨_, rfl, .inl (by simp [isCallback, isGot])⟩
  | procDone n t r h hp =>
    refine ⟨consult s n ++ [.final r.status n], by simp, .inl fun f hf => ?_⟩
    rcases List.mem_append.mp hf with hf | hf
    · exact hcon n f hf
    · rw [List.mem_singleton.mp hf]; simp [isCallback, isGot]
  | procPending n t st r h hp hs => exact ⟨_, rfl, .inl (hcon n)⟩
  | procUndef n t st r h hp hs => exact ⟨_, rfl, .inl (hcon n)⟩
  | callNull r h hc => exact ⟨_, rfl, .inl (by simp [isCallback, isGot])⟩
  | callback r i st h => exact ⟨_, rfl, .inr ⟨i, r, st, h, rfl⟩⟩
  | _ => exact ⟨[], by simp, .inl nofun⟩

theorem split_log {log l a b : List Ev} {e : Ev} (h : log ++ l = a ++ e :: b) :
    (∃ b', log = a ++ e :: b') ∨ ∃ c, a = log ++ c ∧ l = c ++ e :: b := by
  rcases List.append_eq_append_iff.mp h with ⟨c, h1, h2⟩ | ⟨c, h1, h2⟩
  · exact .inr ⟨c, h1, h2⟩
  · cases c with
    | nil => simp at h1 h2; exact .inr ⟨[], by simp [h1], by simp [h2]⟩
    | cons f c =>
      simp only [List.cons_append, List.cons.injEq] at h2
      exact .inl ⟨c, by rw [h1, h2.1]⟩

theorem whole_hist {cfg : Cfg} {comm tol : Bool} {P : St → St → Prop} {s : St} (h : Run cfg comm P s)
    (hP : ∀ a b, P a b → Quiet a b) (hn : (tol = false ∧ NoLoss s.log) ∨ (tol = true ∧ ∀ a b, P a b → Harmless b)) :
    (∀ a b i items st, s.log = a ++ .callback i items st :: b →
      ∃ r, s.reqs[i]? = some r ∧ (NoPrefixCb r → GivenWhole cfg s.received r a i items)) ∧
    (∀ a b i st, s.log = a ++ .got i st :: b →
      ∃ r, s.reqs[i]? = some r ∧ (NoPrefixCb r → ResultWhole cfg s.received r a i st)) := by
  induction h with
  | init => exact ⟨fun a b i items st h => by simp [init] at h, fun a b i st h => by simp [init] at h⟩
  | @step s s' hr hs hp ih =>
    have hR : Run cfg comm P s' := .step hr hs hp
    obtain ⟨l0, hl0⟩ := step_log hs
    have hn0 : (tol = false ∧ NoLoss s.log) ∨ (tol = true ∧ ∀ a b, P a b → Harmless b) := by
      rcases hn with ⟨e, hn⟩ | hn
      · refine .inl ⟨e, fun i => ?_⟩
        have := hn i; rw [hl0] at this
        exact ⟨fun h => this.1 (List.mem_append_left _ h), fun h => this.2 (List.mem_append_left _ h)⟩
      · exact .inr hn
    have hse : ∀ i, Ev.sendError i ∉ s'.log := by
      rcases hn with ⟨e, hn⟩ | ⟨-, hn⟩
      · exact fun i => (hn i).2
      · exact (hn _ _ hp).1
    obtain ⟨ih1, ih2⟩ := ih hn0
    obtain ⟨W, m, hm, J⟩ := whole_run hr hP hn0
    obtain ⟨m', hm', -⟩ := own_run' hR (fun _ => hP) hn
    have K := inv3_reachable hr.reachable
    have hrec : ∀ k, Ev.recv k ∈ s.log → s'.received.getD k [] = s.received.getD k [] := by
      intro k hk
      have hb := W.bound k hk
      cases hs with
      | thr t h => rw [(thr_reqs h).2]
      | rx h =>
        rcases (rx_same h).2.2 with ⟨e, -⟩ | ⟨-, ⟨l, e⟩, -⟩
        · rw [e]
        · rw [e]; simp [List.getD, List.getElem?_append_left hb]
    have hreq : ∀ (i : Nat) (r : Req), s.reqs[i]? = some r → s'.reqs[i]? = some r := by
      intro i r hi
      cases hs with
      | thr t h => obtain ⟨⟨l, e⟩, -⟩ := thr_reqs h; rw [e]; exact getElem?_mono hi l
      | rx h => rw [rx_reqs h]; exact hi
    have old1 : ∀ a b i items st, s.log = a ++ .callback i items st :: b →
        ∃ r, s'.reqs[i]? = some r ∧ (NoPrefixCb r → GivenWhole cfg s'.received r a i items) := by
      intro a b i items st hl
      obtain ⟨r, e, H⟩ := ih1 a b i items st hl
      exact ⟨r, hreq i r e, fun hnp => given_mono (fun k hk => hrec k (by rw [hl]; exact List.mem_append_left _ hk)) (H hnp)⟩
    have old2 : ∀ a b i st, s.log = a ++ .got i st :: b →
        ∃ r, s'.reqs[i]? = some r ∧ (NoPrefixCb r → ResultWhole cfg s'.received r a i st) := by
      intro a b i st hl
      obtain ⟨r, e, H⟩ := ih2 a b i st hl
      exact ⟨r, hreq i r e, fun hnp => result_mono (fun k hk => hrec k (by rw [hl]; exact List.mem_append_left _ hk)) (H hnp)⟩
    cases hs with
    | thr t h =>
      rcases thr_last h hse with e | ⟨ev, e, hcb, hgot⟩
      · rw [e]; exact ⟨old1, old2⟩
      · refine ⟨fun a b i items st hl => ?_, fun a b i st hl => ?_⟩
        · rw [e] at hl
          rcases split_log hl with ⟨b', h'⟩ | ⟨c, -, h'⟩
          · exact old1 a b' i items st h'
          · cases c with
            | nil => simp at h'; exact absurd h'.1 (hcb _ _ _)
            | cons f c => simp at h'
        · have hO : OwnResult a i st := monitor_own_result hm' hl
          rw [e] at hl
          rcases split_log hl with ⟨b', h'⟩ | ⟨c, ha, h'⟩
          · exact old2 a b' i st h'
          · cases c with
            | cons f c => simp at h'
            | nil =>
              simp only [List.append_nil] at ha
              subst ha
              simp only [List.nil_append, List.cons.injEq] at h'
              have hrr := (thr_reqs h).2
              have hloc := K.loc t
              rcases hgot i st h'.1 with ⟨hq, r, ht⟩ | ⟨hq, n, ht⟩
              · obtain ⟨hmx, hc⟩ := cur_owner (inv_reachable hr.reachable) ht (by simp [active])
                rw [ht] at hloc
                refine ⟨r, hreq i r hloc, fun hnp => ?_⟩
                obtain ⟨x, e, y, ok, n, z, h1, ⟨text, h2⟩, h3, h4, h5, h6⟩ := got_whole W hc rfl rfl hnp hq hO
                rw [hrr]
                exact ⟨_, x, e, y, ok, n, z, h1, .inl ⟨rfl, text, h2⟩, h3, h4, h5, h6⟩
              · obtain ⟨hmx, hc⟩ := cur_owner (inv_reachable hr.reachable) ht (by simp [active])
                rw [ht] at hloc
                obtain ⟨r, d, b', hr', -⟩ := hloc
                refine ⟨r, hreq i r hr', fun hnp => ?_⟩
                obtain ⟨x, e, y, ok, n, z, h1, ⟨b1, k, h2⟩, h3, h4, h5, h6⟩ := got_whole W hc rfl rfl trivial hq hO
                rw [hrr]
                exact ⟨_, x, e, y, ok, n, z, h1, .inr ⟨rfl, b1, k, h2⟩, h3, h4, h5, h6⟩
    | rx h =>
      obtain ⟨l, e, hl'⟩ := rx_last h
      refine ⟨fun a b i items st hl => ?_, fun a b i st hl => ?_⟩
      · rw [e] at hl
        rcases split_log hl with ⟨b', h'⟩ | ⟨c, ha, h'⟩
        · exact old1 a b' i items st h'
        · rcases hl' with hl' | ⟨j, q, st', hx, rfl⟩
          · exact absurd trivial (hl' (.callback i items st) (by rw [h']; simp)).1
          · cases c with
            | cons f c => simp at h'
            | nil =>
              simp only [List.append_nil] at ha
              subst ha
              simp only [List.nil_append, List.cons.injEq, Ev.callback.injEq] at h'
              obtain ⟨⟨rfl, rfl, -⟩, -⟩ := h'
              obtain ⟨r, e1, H⟩ := callback_whole W J K hx
              exact ⟨r, hreq _ r e1, fun hnp => given_mono hrec (H hnp)⟩
      · rw [e] at hl
        rcases split_log hl with ⟨b', h'⟩ | ⟨c, ha, h'⟩
        · exact old2 a b' i st h'
        · rcases hl' with hl' | ⟨j, q, st', hx, rfl⟩
          · exact absurd trivial (hl' (.got i st) (by rw [h']; simp)).2
          · cases c <;> simp at h'

/-- C83.  Whatever the other tasks do: the items the response callback of a request is given are all the lines of contents of the
answer that arrived after its command was sent, in the order of arrival, up to the first line that ends the answer; that line
reports success.  Missing: histories in which a request timed out or a data send failed, commands for which the modem is not silent
while they are being sent (false then: C71, C24), requests with a data prefix callback (C82_pieces). -/
theorem C83_answer_partial {cfg : Cfg} {comm : Bool} {s : St} (h : Run cfg comm Quiet s) (hn : NoLoss s.log) {a b : List Ev} {i : Nat}
    {items : List Item} {st : PktStatus} (hl : s.log = a ++ .callback i items st :: b) {r : Req} (hr : s.reqs[i]? = some r)
    (hp : NoPrefixCb r) : GivenWhole cfg s.received r a i items := by
  obtain ⟨r', h1, h2⟩ := (whole_hist h (fun _ _ => id) (.inl ⟨rfl, hn⟩)).1 a b i items st hl
  rw [hr] at h1
  cases h1
  exact h2 hp

/-- C83.  The result a step of a request takes is that of the first line that can end its answer and that arrived after the bytes of
the step were sent (or the verdict of the request's callback after a success).  Missing: as above. -/
theorem C83_result_partial {cfg : Cfg} {comm : Bool} {s : St} (h : Run cfg comm Quiet s) (hn : NoLoss s.log) {a b : List Ev} {i : Nat}
    {st : PktStatus} (hl : s.log = a ++ .got i st :: b) {r : Req} (hr : s.reqs[i]? = some r)
    (hp : NoPrefixCb r) : ResultWhole cfg s.received r a i st := by
  obtain ⟨r', h1, h2⟩ := (whole_hist h (fun _ _ => id) (.inl ⟨rfl, hn⟩)).2 a b i st hl
  rw [hr] at h1
  cases h1
  exact h2 hp

/-- A command answered by lines with the prefix "+A". -/
def exReqPfx : Req := { cmd := some [65, 84], type := .multiWithPrefix, pfx := some (str "+A"), hasCb := true, kind := .plain }

/-- The answer "+A:1", "+A:3", "OK", with the unsolicited code "+U:2" in between: the callback is given lines 0 and 2. -/
example : ∃ s, Run exCfg true Quiet s ∧ s.log =
    [.start 0, .command 0 [65, 84], .recv 0, .recv 1, .recv 2, .recv 3, .final true 3,
     .callback 0 [.line 0, .line 2] .ok, .got 0 .ok, .ret 0 .ok none] :=
  execQuiet_reach (begins 0 exReqPfx ++ .recv (str "+A:1") :: rxs 6 ++ .recv (str "+U:2") :: rxs 4 ++ .recv (str "+A:3") :: rxs 6 ++
    .recv (str "OK") :: rxs 12 ++ gos 0 4) St.log _ (by decide +kernel)

deriving instance DecidableEq for Conc.Data, Conc.Kind, Conc.Req

/-- The history meets the hypotheses of C83. -/
example : ∃ s, Run exCfg true Quiet s ∧ NoLoss s.log ∧ NoPrefixCb exReqPfx ∧ s.reqs[0]? = some exReqPfx ∧
    ∃ a b, s.log = a ++ .callback 0 [.line 0, .line 2] .ok :: b := by
  obtain ⟨s, h, e⟩ := execQuiet_reach (cfg := exCfg) (comm := true) (begins 0 exReqPfx ++ .recv (str "+A:1") :: rxs 6 ++
    .recv (str "+U:2") :: rxs 4 ++ .recv (str "+A:3") :: rxs 6 ++ .recv (str "OK") :: rxs 12 ++ gos 0 4)
    (fun s => (s.log, s.reqs))
    ([.start 0, .command 0 [65, 84], .recv 0, .recv 1, .recv 2, .recv 3, .final true 3,
     .callback 0 [.line 0, .line 2] .ok, .got 0 .ok, .ret 0 .ok none], [exReqPfx]) (by decide +kernel)
  have e1 := congrArg Prod.fst e
  have e2 := congrArg Prod.snd e
  simp only at e1 e2
  refine ⟨s, h, ?_, ?_, by rw [e2]; rfl, [.start 0, .command 0 [65, 84], .recv 0, .recv 1, .recv 2, .recv 3, .final true 3],
    [.got 0 .ok, .ret 0 .ok none], e1⟩
  · rw [e1]; simp [NoLoss]
  · simp [NoPrefixCb, exReqPfx]

end Cellular.Props
