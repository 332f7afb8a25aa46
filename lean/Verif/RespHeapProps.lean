import Verif.RespHeap
/-!
# Heap memory of the receive path (C74)
-/

namespace Cellular.Spec
open Cellular Cellular.Pktio Cellular.RespHeap

/-- A block the receive path has allocated. -/
def Ours : Option Block → Prop
  | some (.node _ _) => True
  | some (.resp _ _) => True
  | some (.copy _) => True
  | _ => False

/-- The allocator returns only blocks that are not in use, and the functions of the port and the application use the
heap as they like but leave the blocks of the receive path alone. -/
structure HeapRules (env : Env) : Prop where
  fresh : ∀ h a, env.malloc h = some a → h a = none
  keeps : ∀ e h a, Ours (h a) → env.user e h a = h a
  makes : ∀ e h a, Ours (env.user e h a) → env.user e h a = h a

/-- The receive path holds exactly `n` blocks. -/
def Holding (h : Heap) (n : Nat) : Prop := ∃ l : List Nat, l.Nodup ∧ l.length = n ∧ ∀ a, Ours (h a) ↔ a ∈ l

/-- The blocks of the response being collected: its record and one per line; none if there is none. -/
def blocksOf : Option Resp → Nat
  | none => 0
  | some r => 1 + r.items.length

end Cellular.Spec

namespace Cellular.Props
open Cellular Cellular.Spec Cellular.Pktio

section
open Cellular.RespHeap (Block Heap Env HSt Out)

/-- The linked list from `p`: its blocks and their contents. -/
inductive Chain (h : Heap) : Option Nat → List Nat → List Item → Prop
  | nil : Chain h none [] []
  | cons {a nx it ns its} : h a = some (.node it nx) → Chain h nx ns its → Chain h (some a) (a :: ns) (it :: its)

/-- The record at `p` is the response `r`, and there are no other blocks of the receive path. -/
def Owns (h : Heap) : Option Nat → Option Resp → Prop
  | none, none => ∀ a, ¬ Ours (h a)
  | some a, some r => ∃ hd ns, h a = some (.resp r.status hd) ∧ Chain h hd ns r.items ∧ ns.Nodup ∧
      ∀ b, Ours (h b) ↔ b = a ∨ b ∈ ns
  | _, _ => False

/-- The state with the list on the heap represents the state with the list as a value. -/
def Rel (s : St) (x : HSt) : Prop := ∃ r, s = { x.base with resp := r } ∧ Owns x.heap x.ptr r

theorem chain_frame {h h' : Heap} {p : Option Nat} {ns : List Nat} {its : List Item} (c : Chain h p ns its)
    (e : ∀ b ∈ ns, h' b = h b) : Chain h' p ns its := by
  induction c with
  | nil => exact .nil
  | cons h1 _ ih => exact .cons (by rw [e _ (by simp)]; exact h1) (ih fun b hb => e b (by simp [hb]))

theorem chain_ours {h : Heap} {p : Option Nat} {ns : List Nat} {its : List Item} (c : Chain h p ns its) :
    ∀ b ∈ ns, ∃ it nx, h b = some (.node it nx) := by
  induction c with
  | nil => intro b hb; cases hb
  | cons h1 _ ih =>
    intro b hb
    rcases List.mem_cons.mp hb with rfl | hb
    · exact ⟨_, _, h1⟩
    · exact ih b hb

theorem chain_length {h : Heap} {p : Option Nat} {ns : List Nat} {its : List Item} (c : Chain h p ns its) :
    ns.length = its.length := by
  induction c with
  | nil => rfl
  | cons _ _ ih => simp [ih]

theorem readItems_chain {h : Heap} {p : Option Nat} {ns : List Nat} {its : List Item} (c : Chain h p ns its) :
    RespHeap.readItems h p = some its := by
  induction c with
  | nil => rw [RespHeap.readItems.eq_def]
  | cons h1 _ ih => rw [RespHeap.readItems.eq_def]; simp [h1, ih]

theorem lastNode_chain {h : Heap} {ns : List Nat} {its : List Item} : ∀ {a : Nat}, Chain h (some a) ns its →
    ∃ z i ns0, RespHeap.lastNode h a = some z ∧ ns = ns0 ++ [z] ∧ h z = some (.node i none) ∧
      ∀ (n : Nat) (it : Item), n ∉ ns → ns.Nodup →
        Chain (RespHeap.set (RespHeap.set h n (.node it none)) z (.node i (some n))) (some a) (ns ++ [n])
          (its ++ [it]) := by
  intro a c
  generalize hp : some a = p at c
  induction c generalizing a with
  | nil => cases hp
  | @cons b nx it0 ns its h1 c ih =>
    cases hp
    cases nx with
    | none =>
      cases c
      refine ⟨b, it0, [], ?_, rfl, h1, ?_⟩
      · rw [RespHeap.lastNode.eq_def]; simp [h1]
      · intro n it hn _
        have hna : n ≠ b := by simpa using hn
        refine .cons (by simp [RespHeap.set]) (.cons (nx := none) ?_ .nil)
        simp [RespHeap.set, hna]
    | some nx =>
      obtain ⟨z, i, ns0, e1, e2, e3, e4⟩ := ih rfl
      refine ⟨z, i, b :: ns0, ?_, by simp [e2], e3, ?_⟩
      · rw [RespHeap.lastNode.eq_def]; simp [h1, e1]
      · intro n it hn hnd
        simp only [List.nodup_cons] at hnd
        simp only [List.mem_cons, not_or] at hn
        refine .cons ?_ (e4 n it hn.2 hnd.2)
        have hza : b ≠ z := by
          rintro rfl
          exact hnd.1 (by rw [e2]; simp)
        have hna : b ≠ n := fun e => hn.1 e.symm
        simp [RespHeap.set, hza, hna, h1]

theorem saveData_owns {env : Env} (hE : HeapRules env) {h : Heap} {a : Nat} {r : Resp} (o : Owns h (some a) (some r))
    (it : Item) : (RespHeap.saveData env h a it = some .halted ∧ ∃ h, env.malloc h = none) ∨
      ∃ h', RespHeap.saveData env h a it = some (.done h') ∧
        Owns h' (some a) (some { r with items := r.items ++ [it] }) := by
  obtain ⟨hd, ns, h1, c, hnd, hall⟩ := o
  unfold RespHeap.saveData
  cases hm : env.malloc h with
  | none => exact Or.inl ⟨rfl, h, hm⟩
  | some n =>
    right
    have hfree := hE.fresh h n hm
    have hna : n ≠ a := by rintro rfl; rw [h1] at hfree; cases hfree
    have hnns : n ∉ ns := by
      intro hmem
      obtain ⟨_, _, e⟩ := chain_ours c n hmem
      rw [e] at hfree
      cases hfree
    have hans : a ∉ ns := by
      intro hmem
      obtain ⟨_, _, e⟩ := chain_ours c a hmem
      rw [e] at h1
      cases h1
    have hseta : RespHeap.set h n (.node it none) a = some (.resp r.status hd) := by
      simp [RespHeap.set, Ne.symm hna, h1]
    simp only [hseta]
    cases hd with
    | none =>
      cases hitems : r.items with
      | cons x y => rw [hitems] at c; cases c
      | nil =>
        rw [hitems] at c
        cases c
        refine ⟨_, rfl, some n, [n], by simp [RespHeap.set], ?_, by simp, ?_⟩
        · refine .cons (nx := none) ?_ .nil
          simp [RespHeap.set, hna]
        · intro b
          have := hall b
          simp only [List.not_mem_nil, or_false] at this
          by_cases hb : b = a
          · subst hb; simp [RespHeap.set, Ours]
          · by_cases hbn : b = n
            · subst hbn; simp [RespHeap.set, Ours, hb]
            · simp [RespHeap.set, hb, hbn, this]
    | some f =>
      have c' : Chain (RespHeap.set h n (.node it none)) (some f) ns r.items :=
        chain_frame c fun b hb => by
          have : b ≠ n := by rintro rfl; exact hnns hb
          simp [RespHeap.set, this]
      obtain ⟨z, i, ns0, e1, e2, e3, _⟩ := lastNode_chain c'
      obtain ⟨z', i', ns0', _, e2', e3', e4'⟩ := lastNode_chain c
      have hzz : z' = z := by
        have := e2.symm.trans e2'
        have := List.append_inj' this rfl
        simpa using this.2.symm
      subst hzz
      have hz : z' ∈ ns := by rw [e2]; simp
      have hzn : z' ≠ n := by rintro rfl; exact hnns hz
      have hza : z' ≠ a := by rintro rfl; exact hans hz
      have hii : i = i' := by
        simp only [RespHeap.set, hzn, if_false] at e3
        rw [e3'] at e3
        cases e3
        rfl
      subst hii
      simp only [e1, e3]
      refine ⟨_, rfl, some f, ns ++ [n], ?_, e4' n it hnns hnd, ?_, ?_⟩
      · simp [RespHeap.set, Ne.symm hza, Ne.symm hna, h1]
      · rw [List.nodup_append]
        refine ⟨hnd, by simp, ?_⟩
        intro x hx y hy
        simp only [List.mem_cons, List.not_mem_nil, or_false] at hy
        subst hy
        rintro rfl
        exact hnns hx
      · intro b
        have := hall b
        by_cases hb : b = z'
        · subst hb; simp [RespHeap.set, Ours, hz]
        · by_cases hbn : b = n
          · subst hbn; simp [RespHeap.set, Ours, hb]
          · simp [RespHeap.set, hb, hbn, this]

theorem freeNodes_chain {h : Heap} {p : Option Nat} {ns : List Nat} {its : List Item} (c : Chain h p ns its)
    (hnd : ns.Nodup) : RespHeap.freeNodes h p = some (fun b => if b ∈ ns then none else h b) := by
  induction ns generalizing h p its with
  | nil => cases c; rw [RespHeap.freeNodes.eq_def]; simp
  | cons a ns ih =>
    cases c with
    | @cons _ nx it _ its h1 c =>
    simp only [List.nodup_cons] at hnd
    rw [RespHeap.freeNodes.eq_def]
    simp only [h1]
    rw [ih (h := RespHeap.del h a) (chain_frame c fun b hb => by
      have : b ≠ a := by rintro rfl; exact hnd.1 hb
      simp [RespHeap.del, this]) hnd.2]
    congr 1
    funext b
    by_cases hb : b = a
    · subst hb; simp [RespHeap.del]
    · simp [RespHeap.del, hb]

theorem respFree_owns {h : Heap} {p : Option Nat} {r : Option Resp} (o : Owns h p r) :
    ∃ h', RespHeap.respFree h p = some h' ∧ Owns h' none none := by
  cases p with
  | none =>
    cases r with
    | none => exact ⟨h, rfl, o⟩
    | some r => exact o.elim
  | some a =>
    cases r with
    | none => exact o.elim
    | some r =>
      obtain ⟨hd, ns, h1, c, hnd, hall⟩ := o
      have hans : a ∉ ns := by
        intro hmem
        obtain ⟨_, _, e⟩ := chain_ours c a hmem
        rw [e] at h1
        cases h1
      refine ⟨RespHeap.del (fun b => if b ∈ ns then none else h b) a, ?_, ?_⟩
      · unfold RespHeap.respFree
        simp only [h1, freeNodes_chain c hnd, hans, if_false]
      · intro b
        by_cases hb : b = a
        · subst hb; simp [RespHeap.del, Ours]
        · simp only [RespHeap.del, hb, if_false]
          by_cases hbn : b ∈ ns
          · simp [hbn, Ours]
          · simp only [hbn, if_false]
            intro ho
            rcases (hall b).mp ho with h | h <;> contradiction

theorem user_owns {env : Env} (hE : HeapRules env) (e : Event) {h : Heap} {p : Option Nat} {r : Option Resp}
    (o : Owns h p r) : Owns (env.user e h) p r := by
  have hours : ∀ b, Ours (env.user e h b) ↔ Ours (h b) := by
    intro b
    constructor
    · intro ho; rw [← hE.makes e h b ho]; exact ho
    · intro ho; rw [hE.keeps e h b ho]; exact ho
  cases p with
  | none =>
    cases r with
    | none => intro a; rw [hours]; exact o a
    | some r => exact o.elim
  | some a =>
    cases r with
    | none => exact o.elim
    | some r =>
      obtain ⟨hd, ns, h1, c, hnd, hall⟩ := o
      refine ⟨hd, ns, ?_, chain_frame c fun b hb => ?_, hnd, fun b => (hours b).trans (hall b)⟩
      · rw [hE.keeps e h a (by rw [h1]; trivial), h1]
      · exact hE.keeps e h b ((hall b).mpr (Or.inr hb))

/-- Adding and removing a block of another kind. -/
theorem owns_congr {h h' : Heap} {p : Option Nat} {r : Option Resp} (o : Owns h p r)
    (e : ∀ b, h' b = h b ∨ (¬ Ours (h' b) ∧ ¬ Ours (h b))) : Owns h' p r := by
  have hours : ∀ b, Ours (h' b) ↔ Ours (h b) := by
    intro b
    rcases e b with h | ⟨h1, h2⟩
    · rw [h]
    · exact ⟨fun h => absurd h h1, fun h => absurd h h2⟩
  have heq : ∀ b, Ours (h b) → h' b = h b := by
    intro b hb
    rcases e b with h | ⟨_, h2⟩
    · exact h
    · exact absurd hb h2
  cases p with
  | none =>
    cases r with
    | none => intro a; rw [hours]; exact o a
    | some r => exact o.elim
  | some a =>
    cases r with
    | none => exact o.elim
    | some r =>
      obtain ⟨hd, ns, h1, c, hnd, hall⟩ := o
      refine ⟨hd, ns, ?_, chain_frame c fun b hb => heq b ((hall b).mpr (Or.inr hb)), hnd,
        fun b => (hours b).trans (hall b)⟩
      rw [heq a (by rw [h1]; trivial), h1]

theorem urcPacket_owns {env : Env} (hE : HeapRules env) {h : Heap} {p : Option Nat} {r : Option Resp}
    (o : Owns h p r) (line : Str) : ∃ h', RespHeap.urcPacket env h line = some h' ∧ Owns h' p r := by
  unfold RespHeap.urcPacket
  split
  · cases hm : env.malloc h with
    | none => exact ⟨h, rfl, o⟩
    | some c =>
      simp only []
      have hfree := hE.fresh h c hm
      have hcopy : env.user (.urc line) (RespHeap.set h c (.copy line)) c = some (.copy line) := by
        rw [hE.keeps _ _ c (by simp [RespHeap.set, Ours])]
        simp [RespHeap.set]
      rw [hcopy]
      refine ⟨_, rfl, ?_⟩
      refine owns_congr o fun b => ?_
      by_cases hb : b = c
      · subst hb; left; simp [RespHeap.del, hfree]
      · simp only [RespHeap.del, hb, if_false]
        have hset : RespHeap.set h c (.copy line) b = h b := by simp [RespHeap.set, hb]
        by_cases h1 : Ours (h b)
        · left
          rw [hE.keeps _ _ b (by rw [hset]; exact h1), hset]
        · by_cases h2 : Ours (env.user (.urc line) (RespHeap.set h c (.copy line)) b)
          · left
            rw [hE.makes _ _ b h2, hset]
          · exact Or.inr ⟨h2, h1⟩
  · exact ⟨h, rfl, o⟩

/-! ## The refinement -/

/-- Either an allocation failed and the program stopped, or the call returned a related value. -/
def StopsOr {α : Type} (env : Env) (y : Option (Out α)) (P : α → Prop) : Prop :=
  (y = some .halted ∧ ∃ h, env.malloc h = none) ∨ ∃ b, y = some (.done b) ∧ P b

theorem StopsOr.bind {α β : Type} {env : Env} {y : Option (Out α)} {P : α → Prop} {f : α → Option (Out β)}
    {Q : β → Prop} (h : StopsOr env y P) (hf : ∀ b, P b → StopsOr env (f b) Q) :
    StopsOr env (RespHeap.andThen y f) Q := by
  rcases h with ⟨h, hm⟩ | ⟨b, h, hp⟩
  · rw [h]; exact Or.inl ⟨rfl, hm⟩
  · rw [h]; exact hf b hp

theorem StopsOr.pure {α : Type} {env : Env} {P : α → Prop} {b : α} (h : P b) : StopsOr env (some (.done b)) P :=
  Or.inr ⟨b, rfl, h⟩

theorem StopsOr.mono {α : Type} {env : Env} {y : Option (Out α)} {P Q : α → Prop} (h : StopsOr env y P)
    (hpq : ∀ b, P b → Q b) : StopsOr env y Q := by
  rcases h with h | ⟨b, h, hp⟩
  · exact Or.inl h
  · exact Or.inr ⟨b, h, hpq b hp⟩

theorem setStatus_owns {h : Heap} {a : Nat} {r : Resp} (o : Owns h (some a) (some r)) (v : Bool) :
    ∃ h', RespHeap.setStatus h a v = some h' ∧ Owns h' (some a) (some { r with status := v }) := by
  obtain ⟨hd, ns, h1, c, hnd, hall⟩ := o
  refine ⟨RespHeap.set h a (.resp v hd), by simp [RespHeap.setStatus, h1], hd, ns, by simp [RespHeap.set],
    chain_frame c fun b hb => ?_, hnd, fun b => ?_⟩
  · have : b ≠ a := by
      rintro rfl
      obtain ⟨_, _, e⟩ := chain_ours c b hb
      rw [e] at h1
      cases h1
    simp [RespHeap.set, this]
  · by_cases hb : b = a
    · subst hb; simp [RespHeap.set, Ours]
    · simp [RespHeap.set, hb, hall b]

theorem owns_head {h : Heap} {a : Nat} {r : Resp} (o : Owns h (some a) (some r)) :
    ∃ hd, h a = some (.resp r.status hd) ∧ (hd = none ↔ r.items = []) := by
  obtain ⟨hd, ns, h1, c, _, _⟩ := o
  refine ⟨hd, h1, ?_⟩
  generalize r.items = its at c
  cases c <;> simp

theorem processIntermediate_owns {env : Env} (hE : HeapRules env) {h : Heap} {a : Nat} {r : Resp}
    (o : Owns h (some a) (some r)) (it : Item) (t : CmdType) :
    StopsOr env (RespHeap.processIntermediate env it h a t) fun q =>
      q.1 = (Pktio.processIntermediate it r t).1 ∧ Owns q.2 (some a) (some (Pktio.processIntermediate it r t).2) := by
  have hsave : StopsOr env (RespHeap.saveData env h a it) fun h' =>
      Owns h' (some a) (some { r with items := r.items ++ [it] }) := by
    rcases saveData_owns hE o it with h | ⟨h', h1, h2⟩
    · exact Or.inl h
    · exact Or.inr ⟨h', h1, h2⟩
  have hone : StopsOr env (match h a with
      | some (.resp _ none) => RespHeap.andThen (RespHeap.saveData env h a it) fun h => some (.done (PktStatus.pendingData, h))
      | some (.resp _ (some _)) => some (.done (PktStatus.invalidData, h))
      | _ => none) fun q => q.1 = (if r.items = [] then PktStatus.pendingData else .invalidData) ∧
        Owns q.2 (some a) (some (if r.items = [] then { r with items := r.items ++ [it] } else r)) := by
    obtain ⟨hd, e1, e2⟩ := owns_head o
    rw [e1]
    cases hd with
    | none =>
      have hn := e2.mp rfl
      simp only [hn, if_true]
      refine hsave.bind fun h' ho => StopsOr.pure ⟨rfl, ?_⟩
      simpa [hn] using ho
    | some f =>
      have hn : r.items ≠ [] := fun e => by have := e2.mpr e; cases this
      simp only [hn, if_false]
      exact StopsOr.pure ⟨rfl, o⟩
  have hlast : StopsOr env (RespHeap.andThen (RespHeap.saveData env h a it) fun h =>
      (RespHeap.setStatus h a true).map fun h => Out.done (PktStatus.ok, h)) fun q => q.1 = PktStatus.ok ∧
        Owns q.2 (some a) (some { status := true, items := r.items ++ [it] }) := by
    refine hsave.bind fun h' ho => ?_
    obtain ⟨h2, e, o2⟩ := setStatus_owns ho true
    rw [e]
    exact StopsOr.pure ⟨rfl, o2⟩
  unfold RespHeap.processIntermediate Pktio.processIntermediate
  cases t with
  | woPrefix => refine hone.mono ?_; intro q hq; by_cases hi : r.items = [] <;> simpa [hi] using hq
  | withPrefix => refine hone.mono ?_; intro q hq; by_cases hi : r.items = [] <;> simpa [hi] using hq
  | multiWithPrefix => exact hsave.bind fun h' ho => StopsOr.pure ⟨rfl, ho⟩
  | multiWoPrefix => exact hsave.bind fun h' ho => StopsOr.pure ⟨rfl, ho⟩
  | multiDataWoPrefix => exact hsave.bind fun h' ho => StopsOr.pure ⟨rfl, ho⟩
  | woPrefixNoResultCode => exact hlast
  | withPrefixNoResultCode => exact hlast
  | noResult => exact StopsOr.pure ⟨rfl, o⟩
  | noCommand => exact StopsOr.pure ⟨rfl, o⟩

theorem processLine_owns {env : Env} (hE : HeapRules env) {cfg : Cfg} {h : Heap} {a : Nat} {r : Resp}
    (o : Owns h (some a) (some r)) (line : Str) (it : Item) (t : CmdType) :
    StopsOr env (RespHeap.processLine cfg env line it h a t) fun q =>
      q.1 = (Pktio.processLine cfg line it r t).1 ∧ Owns q.2 (some a) (some (Pktio.processLine cfg line it r t).2) := by
  unfold RespHeap.processLine Pktio.processLine
  split
  · split
    · obtain ⟨h', e, o'⟩ := setStatus_owns o true
      rw [e]
      exact StopsOr.pure ⟨rfl, o'⟩
    · split
      · obtain ⟨h', e, o'⟩ := setStatus_owns o false
        rw [e]
        exact StopsOr.pure ⟨rfl, o'⟩
      · exact processIntermediate_owns hE o it t
  · exact StopsOr.pure ⟨rfl, o⟩

theorem handleUndefined_rel {env : Env} (hE : HeapRules env) {cfg : Cfg} {s : St} {x : HSt} (hr : Rel s x) (line : Str) :
    ∃ x', RespHeap.handleUndefined cfg env x line = some ((Pktio.handleUndefined cfg s line).1, x') ∧
      Rel (Pktio.handleUndefined cfg s line).2 x' := by
  obtain ⟨r, rfl, o⟩ := hr
  have o2 := user_owns hE (.undefined line) o
  unfold RespHeap.handleUndefined Pktio.handleUndefined
  cases hc : cfg.undefCb line with
  | ok => exact ⟨_, rfl, r, rfl, o2⟩
  | _ =>
    obtain ⟨h', e, o'⟩ := respFree_owns o2
    simp only [e]
    exact ⟨_, rfl, none, rfl, o'⟩

theorem complete_rel {env : Env} (hE : HeapRules env) {s : St} {a : Nat} {h : Heap} {r : Resp}
    (o : Owns h (some a) (some r)) {c : List Str} (hc : r.items.mapM (itemContents s.buf) = some c) (base : St)
    (hb : base.buf = s.buf) :
    ∃ x', RespHeap.complete env base a h = some x' ∧
      Rel { base with cmd := .noCommand, pfx := none, resp := none, events := base.events ++ [.response r.status c] } x' := by
  have o' := o
  obtain ⟨hd, ns, h1, ch, hnd, hall⟩ := o'
  obtain ⟨h', e, o2⟩ := respFree_owns (user_owns hE (.response r.status c) o)
  unfold RespHeap.complete
  simp only [h1, readItems_chain ch, hb, hc, e]
  exact ⟨_, rfl, none, rfl, o2⟩

theorem handleMsgType_rel {env : Env} (hE : HeapRules env) {cfg : Cfg} {s s' : St} {x : HSt} (hr : Rel s x)
    {p : Nat} {line : Str} {st : PktStatus} {t : MsgType} (he : Pktio.handleMsgType cfg s p line = some (st, t, s')) :
    StopsOr env (RespHeap.handleMsgType cfg env x p line) fun q => q.1 = st ∧ q.2.1 = t ∧ Rel s' q.2.2 := by
  obtain ⟨r, rfl, o⟩ := hr
  unfold Pktio.handleMsgType at he
  unfold RespHeap.handleMsgType
  simp only [] at he
  cases hm : getMsgType cfg x.base.cmd x.base.pfx line with
  | unsolicited =>
    rw [hm] at he
    simp only [] at he ⊢
    cases hp : put x.base.buf p (cfg.urcEdit line) with
    | none => rw [hp] at he; cases he
    | some m =>
      rw [hp] at he
      cases he
      obtain ⟨h', e, o'⟩ := urcPacket_owns hE o line
      simp only [e, Option.map_some]
      exact StopsOr.pure ⟨rfl, rfl, r, rfl, o'⟩
  | undefined =>
    rw [hm] at he
    simp only [] at he ⊢
    obtain ⟨x', e, hr'⟩ := handleUndefined_rel hE (cfg := cfg) (x := x) ⟨r, rfl, o⟩ line
    cases he
    rw [e]
    exact StopsOr.pure ⟨rfl, rfl, hr'⟩
  | solicited =>
    rw [hm] at he
    simp only [] at he ⊢
    have hnew : StopsOr env (match x.ptr with
        | some a => some (Out.done (a, x.heap))
        | none => some (RespHeap.respNew env x.heap)) fun q =>
          Owns q.2 (some q.1) (some (r.getD ⟨false, []⟩)) := by
      cases hptr : x.ptr with
      | some a =>
        rw [hptr] at o
        cases r with
        | none => exact o.elim
        | some r => exact StopsOr.pure o
      | none =>
        rw [hptr] at o
        cases r with
        | some r => exact o.elim
        | none =>
          simp only [RespHeap.respNew]
          cases hma : env.malloc x.heap with
          | none => exact Or.inl ⟨rfl, _, hma⟩
          | some a =>
            refine StopsOr.pure ⟨none, [], by simp [RespHeap.set], .nil, by simp, fun b => ?_⟩
            by_cases hb : b = a
            · subst hb; simp [RespHeap.set, Ours]
            · simpa [RespHeap.set, hb] using o b
    refine hnew.bind fun q oq => ?_
    refine (processLine_owns hE oq line (.line p) x.base.cmd).bind fun w hw => ?_
    obtain ⟨ws, wh⟩ := w
    obtain ⟨hw1, hw2⟩ := hw
    simp only [] at hw1 hw2 ⊢
    subst hw1
    cases hpl : Pktio.processLine cfg line (.line p) (r.getD ⟨false, []⟩) x.base.cmd with
    | mk st0 r0 =>
      rw [hpl] at he hw2
      simp only [] at hw2
      have hund : StopsOr env ((RespHeap.handleUndefined cfg env { x with ptr := some q.1, heap := wh } line).map
          fun r => Out.done (r.1, MsgType.undefined, r.2)) fun q =>
          q.1 = (Pktio.handleUndefined cfg { x.base with resp := some r0 } line).1 ∧ q.2.1 = .undefined ∧
          Rel (Pktio.handleUndefined cfg { x.base with resp := some r0 } line).2 q.2.2 := by
        obtain ⟨x', e, hr'⟩ := handleUndefined_rel hE (cfg := cfg)
          (x := { x with ptr := some q.1, heap := wh }) ⟨some r0, rfl, hw2⟩ line
        rw [e]
        exact StopsOr.pure ⟨rfl, rfl, hr'⟩
      cases st0 with
      | ok =>
        simp only [] at he ⊢
        cases hmm : r0.items.mapM (itemContents x.base.buf) with
        | none => rw [hmm] at he; cases he
        | some c =>
          rw [hmm] at he
          cases he
          obtain ⟨x', e, hr'⟩ := complete_rel hE (s := x.base) hw2 hmm x.base rfl
          rw [e]
          exact StopsOr.pure ⟨rfl, rfl, hr'⟩
      | pendingBuffer => cases he; exact StopsOr.pure ⟨rfl, rfl, some r0, rfl, hw2⟩
      | pendingData => cases he; exact StopsOr.pure ⟨rfl, rfl, some r0, rfl, hw2⟩
      | _ => cases he; exact hund

theorem handleData_rel {env : Env} (hE : HeapRules env) {s s' : St} {x : HSt} (hr : Rel s x)
    {start p n left p' : Nat} (he : Pktio.handleData s start p n = some (left, p', s')) :
    StopsOr env (RespHeap.handleData env x start p n) fun q => q.1 = left ∧ q.2.1 = p' ∧ Rel s' q.2.2 := by
  obtain ⟨r, rfl, o⟩ := hr
  unfold Pktio.handleData at he
  unfold RespHeap.handleData
  simp only [] at he ⊢
  split at he
  · cases he
  · rename_i h1
    rw [if_neg h1]
    split at he
    · rename_i h2
      rw [if_pos h2]
      cases r with
      | none => cases he
      | some r =>
        cases hptr : x.ptr with
        | none => rw [hptr] at o; exact o.elim
        | some a =>
          rw [hptr] at o
          cases he
          simp only []
          have hsave : StopsOr env (RespHeap.saveData env x.heap a (.data start x.base.dataLen)) fun h' =>
              Owns h' (some a) (some { r with items := r.items ++ [.data start x.base.dataLen] }) := by
            rcases saveData_owns hE o (.data start x.base.dataLen) with h | ⟨h', h1, h2⟩
            · exact Or.inl h
            · exact Or.inr ⟨h', h1, h2⟩
          exact hsave.bind fun h' ho => StopsOr.pure ⟨rfl, rfl, _, rfl, by simp only [hptr]; exact ho⟩
    · rename_i h2
      rw [if_neg h2]
      cases he
      exact StopsOr.pure ⟨rfl, rfl, r, rfl, o⟩

theorem getNextLine_resp (s : St) (r : Option Resp) (p n len : Nat) (st : PktStatus) (t : MsgType) :
    Pktio.getNextLine { s with resp := r } p n len st t =
      (Pktio.getNextLine s p n len st t).map fun q => (q.1, q.2.1, { q.2.2 with resp := r }) := by
  unfold Pktio.getNextLine
  simp only []
  split
  · cases slice s.buf (p + (len + 1)) (n - (len + 1)) with
    | none => rfl
    | some rest => simp [Option.map_map, Function.comp_def]
  · rfl

theorem preprocessInput_resp (cfg : Cfg) (s : St) (r : Option Resp) (p n : Nat) :
    preprocessInput cfg { s with resp := r } p n =
      (preprocessInput cfg s p n).map fun q => (q.1, { q.2.1 with resp := r }, q.2.2.1, q.2.2.2) := by
  unfold preprocessInput
  cases cfg.inputCb with
  | none => rfl
  | some f =>
    simp only []
    cases slice s.buf p n with
    | none => rfl
    | some text =>
      simp only []
      cases f text with
      | mk st q =>
        obtain ⟨t', len⟩ := q
        simp only []
        cases put s.buf p t' with
        | none => rfl
        | some m =>
          cases st <;> simp [handleCallbackResult, cleanBuf]
          split <;> simp

theorem handleCallbackResult_resp (cfg : Cfg) (s : St) (r : Option Resp) (st : PktStatus) (p n : Nat) :
    handleCallbackResult cfg { s with resp := r } st p n =
      ((handleCallbackResult cfg s st p n).1, { (handleCallbackResult cfg s st p n).2 with resp := r }) := by
  cases st <;> rfl

theorem preprocessLine_resp (cfg : Cfg) (s : St) (r : Option Resp) (p n : Nat) (sd : Option Nat) :
    preprocessLine cfg { s with resp := r } p n sd =
      (preprocessLine cfg s p n sd).map fun q => (q.1, { q.2.1 with resp := r }, q.2.2.1, q.2.2.2) := by
  obtain ⟨buf, rp, pl, dl, r0, cmd, pfx, sendCb, dataCb, ev⟩ := s
  unfold preprocessLine
  split
  · rfl
  · simp only []
    cases sendCb with
    | some f =>
      simp only []
      cases slice buf p n with
      | none => rfl
      | some text =>
        simp only []
        cases f text with
        | mk st q =>
          obtain ⟨t', n'⟩ := q
          simp only []
          cases put buf p t' with
          | none => rfl
          | some m =>
            cases st <;> rfl
    | none =>
      simp only []
      cases dataCb with
      | none => rfl
      | some f =>
        simp only []
        cases slice buf p n with
        | none => rfl
        | some text =>
          simp only []
          cases f text with
          | mk st q =>
            obtain ⟨t', out⟩ := q
            simp only []
            cases put buf p t' with
            | none => rfl
            | some m =>
              cases out with
              | none =>
                cases st <;> rfl
              | some q =>
                obtain ⟨a, l⟩ := q
                cases st <;> rfl

theorem findLine_resp (s : St) (r : Option Resp) (p n : Nat) :
    findLine { s with resp := r } p n = (findLine s p n).map fun q => ({ q.1 with resp := r }, q.2) := by
  unfold findLine
  simp only []
  cases slice s.buf p n with
  | none => rfl
  | some text =>
    simp only []
    cases text.findIdx? isEol with
    | none => rfl
    | some i => simp [Option.map_map, Function.comp_def]

theorem getNextLine_rel {s s' : St} {x : HSt} (hr : Rel s x) {p n len p' n' : Nat} {st : PktStatus} {t : MsgType}
    (he : Pktio.getNextLine s p n len st t = some (p', n', s')) :
    ∃ x', RespHeap.getNextLine x p n len st t = some (p', n', x') ∧ Rel s' x' := by
  obtain ⟨r, rfl, o⟩ := hr
  rw [getNextLine_resp] at he
  unfold RespHeap.getNextLine
  cases hg : Pktio.getNextLine x.base p n len st t with
  | none => rw [hg] at he; cases he
  | some q =>
    rw [hg] at he
    cases he
    exact ⟨_, rfl, r, rfl, o⟩

theorem handleLine_rel {env : Env} (hE : HeapRules env) {cfg : Cfg} {s s' : St} {x : HSt} (hr : Rel s x)
    {c : Cur} {len : Nat} {oc : Option Cur} (he : Pktio.handleLine cfg s c len = some (oc, s')) :
    StopsOr env (RespHeap.handleLine cfg env x c len) fun q => q.1 = oc ∧ Rel s' q.2 := by
  have hbuf : s.buf = x.base.buf := by obtain ⟨r, rfl, _⟩ := hr; rfl
  unfold Pktio.handleLine at he
  unfold RespHeap.handleLine
  rw [hbuf] at he
  cases hl : readStr x.base.buf c.p with
  | none => rw [hl] at he; cases he
  | some line =>
    rw [hl] at he
    simp only [] at he ⊢
    cases hm : Pktio.handleMsgType cfg s c.p line with
    | none => rw [hm] at he; cases he
    | some w =>
      obtain ⟨st, t, s1⟩ := w
      rw [hm] at he
      simp only [] at he
      refine (handleMsgType_rel hE hr hm).bind fun q hq => ?_
      obtain ⟨qst, qt, qx⟩ := q
      obtain ⟨h1, h2, h3⟩ := hq
      simp only [] at h1 h2 h3 ⊢
      subst h1 h2
      have hnext : ∀ {oc : Option Cur} {s' : St}, (Pktio.getNextLine s1 c.p c.n len qst qt).map
          (fun r => (some { c with p := r.1, n := r.2.1 }, r.2.2)) = some (oc, s') →
          StopsOr env ((RespHeap.getNextLine qx c.p c.n len qst qt).map fun d =>
            Out.done (some { c with p := d.1, n := d.2.1 }, d.2.2)) fun q => q.1 = oc ∧ Rel s' q.2 := by
        intro oc s' h
        cases hg : Pktio.getNextLine s1 c.p c.n len qst qt with
        | none => rw [hg] at h; cases h
        | some w =>
          rw [hg] at h
          cases h
          obtain ⟨x', e, hr'⟩ := getNextLine_rel h3 hg
          rw [e]
          exact StopsOr.pure ⟨rfl, hr'⟩
      have hdl : s1.dataLen = qx.base.dataLen := by obtain ⟨r, rfl, _⟩ := h3; rfl
      cases qst with
      | pendingBuffer =>
        simp only [] at he ⊢
        rw [hdl] at he
        split at he
        · rename_i hd
          rw [if_pos hd]
          cases hsd : c.sd with
          | none => rw [hsd] at he; cases he
          | some start =>
            rw [hsd] at he
            simp only [] at he ⊢
            cases hda : Pktio.handleData s1 start c.p c.n with
            | none => rw [hda] at he; cases he
            | some w =>
              obtain ⟨lf, p', s2⟩ := w
              rw [hda] at he
              cases he
              refine (handleData_rel hE h3 hda).bind fun d hd => ?_
              obtain ⟨d1, d2, d3⟩ := d
              obtain ⟨g1, g2, g3⟩ := hd
              simp only [] at g1 g2 g3
              subst g1 g2
              exact StopsOr.pure ⟨rfl, g3⟩
        · rename_i hd
          rw [if_neg hd]
          exact hnext he
      | ok => exact hnext he
      | pendingData => exact hnext he
      | _ => cases he; exact StopsOr.pure ⟨rfl, h3⟩

theorem iter_rel {env : Env} (hE : HeapRules env) {cfg : Cfg} {s s' : St} {x : HSt} (hr : Rel s x)
    {c : Cur} {oc : Option Cur} (he : Pktio.iter cfg s c = some (oc, s')) :
    StopsOr env (RespHeap.iter cfg env x c) fun q => q.1 = oc ∧ Rel s' q.2 := by
  obtain ⟨r, rfl, o⟩ := hr
  unfold Pktio.iter at he
  unfold RespHeap.iter
  simp only [] at he
  cases hsk : skipEol x.base.buf c.p c.n with
  | none => rw [hsk] at he; cases he
  | some pn =>
    obtain ⟨p, n⟩ := pn
    rw [hsk] at he
    simp only [] at he ⊢
    rw [preprocessInput_resp] at he
    cases hpi : preprocessInput cfg x.base p n with
    | none => rw [hpi] at he; cases he
    | some w =>
      obtain ⟨b, s1, p1, n1⟩ := w
      rw [hpi] at he
      simp only [Option.map_some] at he
      cases b with
      | false => cases he; exact StopsOr.pure ⟨rfl, r, rfl, o⟩
      | true =>
        simp only [] at he ⊢
        rw [preprocessLine_resp] at he
        cases hpl : preprocessLine cfg s1 p1 n1 c.sd with
        | none => rw [hpl] at he; cases he
        | some w =>
          obtain ⟨b, s2, n2, sd⟩ := w
          rw [hpl] at he
          simp only [Option.map_some] at he
          cases b with
          | false => cases he; exact StopsOr.pure ⟨rfl, r, rfl, o⟩
          | true =>
            simp only [] at he ⊢
            rw [findLine_resp] at he
            cases hf : findLine s2 p1 n2 with
            | none => rw [hf] at he; cases he
            | some w =>
              obtain ⟨s3, ol⟩ := w
              rw [hf] at he
              simp only [Option.map_some] at he
              cases ol with
              | none => cases he; exact StopsOr.pure ⟨rfl, r, rfl, o⟩
              | some len => exact handleLine_rel hE (x := { x with base := s3 }) ⟨r, rfl, o⟩ he

theorem loop_rel {env : Env} (hE : HeapRules env) {cfg : Cfg} : ∀ {k : Nat} {s s' : St} {x : HSt} {c : Cur}, Rel s x →
    Pktio.loop cfg k s c = some s' → StopsOr env (RespHeap.loop cfg env k x c) fun x' => Rel s' x' := by
  intro k
  induction k with
  | zero => intro s s' x c _ he; cases he
  | succ k ih =>
    intro s s' x c hr he
    simp only [Pktio.loop] at he
    simp only [RespHeap.loop]
    cases hi : Pktio.iter cfg s c with
    | none => rw [hi] at he; cases he
    | some w =>
      obtain ⟨oc, s1⟩ := w
      rw [hi] at he
      refine (iter_rel hE hr hi).bind fun q hq => ?_
      obtain ⟨q1, q2⟩ := q
      obtain ⟨h1, h2⟩ := hq
      simp only [] at h1 h2 ⊢
      subst h1
      cases q1 with
      | none => cases he; exact StopsOr.pure h2
      | some c => exact ih h2 he

theorem readPos_rel {cfg : Cfg} {x : HSt} {r : Option Resp} (o : Owns x.heap x.ptr r) :
    Pktio.readPos cfg { x.base with resp := r } =
      (RespHeap.readPos cfg x).map fun q => ({ q.1 with resp := r }, q.2.1, q.2.2.1, q.2.2.2) := by
  have hiff : r = none ↔ x.ptr = none := by
    cases r with
    | none =>
      cases hp : x.ptr with
      | none => simp
      | some a => rw [hp] at o; exact o.elim
    | some r =>
      cases hp : x.ptr with
      | some a => simp
      | none => rw [hp] at o; exact o.elim
  unfold Pktio.readPos RespHeap.readPos
  simp only [hiff]
  obtain ⟨⟨buf, rp, pl, dl, r0, cmd, pfx, sendCb, dataCb, ev⟩, ptr, heap⟩ := x
  cases rp with
  | none => rfl
  | some q =>
    simp only []
    split
    · cases slice buf q pl with
      | none => rfl
      | some rest =>
        simp only []
        cases put buf 0 rest with
        | none => rfl
        | some m => simp [Option.map_map, Function.comp_def]
    · rfl

theorem room_rel {cfg : Cfg} {s : St} {x : HSt} (hr : Rel s x) : RespHeap.room cfg x = Pktio.room cfg s := by
  obtain ⟨r, rfl, o⟩ := hr
  unfold RespHeap.room Pktio.room
  rw [readPos_rel o]
  cases RespHeap.readPos cfg x with
  | none => rfl
  | some q => rfl

theorem rxEvent_rel {env : Env} (hE : HeapRules env) {cfg : Cfg} {s s' : St} {x : HSt} (hr : Rel s x) {chunk : Str}
    {k : Nat} (he : Pktio.rxEvent cfg s chunk = some (k, s')) :
    StopsOr env (RespHeap.rxEvent cfg env x chunk) fun q => q.1 = k ∧ Rel s' q.2 := by
  obtain ⟨r, rfl, o⟩ := hr
  unfold Pktio.rxEvent at he
  unfold RespHeap.rxEvent
  rw [readPos_rel o] at he
  cases hrp : RespHeap.readPos cfg x with
  | none => rw [hrp] at he; cases he
  | some w =>
    obtain ⟨s1, p, pRead, empty⟩ := w
    rw [hrp] at he
    simp only [Option.map_some] at he ⊢
    split at he
    · rename_i h0
      rw [if_pos h0]
      split at he
      · rename_i h1
        rw [if_pos h1]
        cases he
        exact StopsOr.pure ⟨rfl, r, rfl, o⟩
      · rename_i h1
        rw [if_neg h1]
        cases hp : put s1.buf pRead (chunk ++ [0]) with
        | none => rw [hp] at he; cases he
        | some m =>
          rw [hp] at he
          simp only [] at he ⊢
          have hfirst : ∀ {left p' : Nat} {s2 : St}, (if s1.dataLen ≠ 0 then
              Pktio.handleData { s1 with buf := m, partialLen := 0, resp := r } p p (chunk.length + s1.partialLen)
              else some (chunk.length + s1.partialLen, p, { s1 with buf := m, partialLen := 0, resp := r })) =
                some (left, p', s2) →
              StopsOr env (if s1.dataLen ≠ 0 then
                RespHeap.handleData env { x with base := { s1 with buf := m, partialLen := 0 } } p p
                  (chunk.length + s1.partialLen)
                else some (.done (chunk.length + s1.partialLen, p,
                  { x with base := { s1 with buf := m, partialLen := 0 } })))
                fun q => q.1 = left ∧ q.2.1 = p' ∧ Rel s2 q.2.2 := by
            intro left p' s2 h
            split at h
            · rename_i hd
              rw [if_pos hd]
              exact handleData_rel hE (x := { x with base := { s1 with buf := m, partialLen := 0 } }) ⟨r, rfl, o⟩ h
            · rename_i hd
              rw [if_neg hd]
              cases h
              exact StopsOr.pure ⟨rfl, rfl, r, rfl, o⟩
          split at he
          · cases he
          · rename_i left p' s2 hd
            refine (hfirst hd).bind fun q hq => ?_
            obtain ⟨q1, q2, q3⟩ := q
            obtain ⟨g1, g2, g3⟩ := hq
            simp only [] at g1 g2 g3 ⊢
            subst g1 g2
            split at he
            · rename_i hl
              rw [if_pos hl]
              obtain ⟨r2, rfl, o2⟩ := g3
              simp only [] at he
              cases hw : wr q3.base.buf (q2 + q1) 0 with
              | none => rw [hw] at he; cases he
              | some m2 =>
                rw [hw] at he
                simp only [handleAllReceived] at he ⊢
                cases hlo : Pktio.loop cfg (q1 + 1) { q3.base with buf := m2, resp := r2 } ⟨q2, q1, none⟩ with
                | none => rw [hlo] at he; cases he
                | some s3 =>
                  rw [hlo] at he
                  cases he
                  exact (loop_rel hE (x := { q3 with base := { q3.base with buf := m2 } }) ⟨r2, rfl, o2⟩ hlo).bind
                    fun x' hx => StopsOr.pure ⟨rfl, hx⟩
            · rename_i hl
              rw [if_neg hl]
              cases he
              exact StopsOr.pure ⟨rfl, g3⟩
    · rename_i h0
      rw [if_neg h0]
      cases he
      exact StopsOr.pure ⟨rfl, r, rfl, o⟩

theorem run_rel {env : Env} (hE : HeapRules env) {cfg : Cfg} : ∀ {acts : List RxAct} {s s' : St} {x : HSt}, Rel s x →
    rxRun cfg s acts = some s' → StopsOr env (RespHeap.run cfg env x acts) fun x' => Rel s' x' := by
  intro acts
  induction acts with
  | nil => intro s s' x hr he; cases he; exact StopsOr.pure hr
  | cons a acts ih =>
    intro s s' x hr he
    simp only [rxRun] at he
    simp only [RespHeap.run]
    cases ha : rxAct cfg s a with
    | none => rw [ha] at he; cases he
    | some s1 =>
      rw [ha] at he
      have hact : StopsOr env (RespHeap.act cfg env x a) fun x' => Rel s1 x' := by
        cases a with
        | recv bytes =>
          simp only [rxAct] at ha
          simp only [RespHeap.act, room_rel hr]
          cases hx : Pktio.rxEvent cfg s (bytes.take (Pktio.room cfg s)) with
          | none => rw [hx] at ha; cases ha
          | some w =>
            obtain ⟨k, s2⟩ := w
            rw [hx] at ha
            cases ha
            exact (rxEvent_rel hE hr hx).bind fun q hq => StopsOr.pure hq.2
        | control cmd pfx sc dc =>
          obtain ⟨r, rfl, o⟩ := hr
          cases ha
          exact StopsOr.pure ⟨r, rfl, o⟩
      exact hact.bind fun x' hx => ih hx he

theorem owns_holding {h : Heap} {p : Option Nat} {r : Option Resp} (o : Owns h p r) :
    Holding h (blocksOf r) := by
  cases p with
  | none =>
    cases r with
    | none => exact ⟨[], by simp, rfl, fun a => by simpa using o a⟩
    | some r => exact o.elim
  | some a =>
    cases r with
    | none => exact o.elim
    | some r =>
      obtain ⟨hd, ns, h1, c, hnd, hall⟩ := o
      refine ⟨a :: ns, ?_, ?_, fun b => by rw [hall b]; simp⟩
      · rw [List.nodup_cons]
        refine ⟨fun hmem => ?_, hnd⟩
        obtain ⟨_, _, e⟩ := chain_ours c a hmem
        rw [e] at h1
        cases h1
      · simp [chain_length c, Nat.add_comm, blocksOf]

/-- The packet layer with linked lists on the heap behaves like the one with lists as values (`Verif.Pktio`), for
every history of reads and commands of any length, every allocator and whatever the called functions allocate for
themselves: no dead or foreign block is ever read, written or released, every walk ends, and the events - hence
everything proved about them - are the same; unless an allocation for a response record fails, which stops the program at
an assertion. -/
theorem C74_refines (cfg : Cfg) (env : Env) (hE : HeapRules env) (h0 : Heap) (hfree : Holding h0 0)
    (acts : List RxAct) (s' : St) (hrun : rxRun cfg (init cfg.size) acts = some s') :
    (RespHeap.run cfg env (RespHeap.start cfg h0) acts = some .halted ∧ ∃ h, env.malloc h = none) ∨
    ∃ x', RespHeap.run cfg env (RespHeap.start cfg h0) acts = some (.done x') ∧
      x'.base.events = s'.events ∧ x'.base.buf = s'.buf ∧ x'.base.cmd = s'.cmd := by
  have hrel : Rel (init cfg.size) (RespHeap.start cfg h0) := by
    refine ⟨none, rfl, ?_⟩
    obtain ⟨l, _, h2, h3⟩ := hfree
    intro a ha
    have := (h3 a).mp ha
    rw [List.length_eq_zero_iff.mp h2] at this
    cases this
  rcases run_rel hE hrel hrun with h | ⟨x', h, r, rfl, _⟩
  · exact Or.inl h
  · exact Or.inr ⟨x', h, rfl, rfl, rfl⟩

/-- The blocks the receive path holds are, after any history, exactly the record and the lines of the response being
collected - none if none is being collected - so nothing is ever lost; and when the receive task ends it releases all
of them, each once. -/
theorem C74_no_leak (cfg : Cfg) (env : Env) (hE : HeapRules env) (h0 : Heap) (hfree : Holding h0 0)
    (acts : List RxAct) (s' : St) (hrun : rxRun cfg (init cfg.size) acts = some s') (x' : HSt)
    (hx : RespHeap.run cfg env (RespHeap.start cfg h0) acts = some (.done x')) :
    Holding x'.heap (blocksOf s'.resp) ∧
    ∃ x'', RespHeap.abort x' = some x'' ∧ Holding x''.heap 0 ∧ x''.ptr = none := by
  have hrel : Rel (init cfg.size) (RespHeap.start cfg h0) := by
    refine ⟨none, rfl, ?_⟩
    obtain ⟨l, _, h2, h3⟩ := hfree
    intro a ha
    have := (h3 a).mp ha
    rw [List.length_eq_zero_iff.mp h2] at this
    cases this
  rcases run_rel hE hrel hrun with h | ⟨x1, h, r, rfl, o⟩
  · rw [hx] at h; cases h.1
  · rw [hx] at h
    cases h
    refine ⟨owns_holding o, ?_⟩
    obtain ⟨h', e, o'⟩ := respFree_owns o
    refine ⟨{ x' with ptr := none, heap := h' }, by simp [RespHeap.abort, e], owns_holding o', rfl⟩

/-- An unsolicited line that is not empty and at most 256 bytes long is handled on a copy of its own, which the functions called find on the heap and which is
released afterwards; for any other line, and if there is no memory for the copy, nothing is called and the heap is as before. -/
theorem C74_urc_copy (env : Env) (hE : HeapRules env) (h : Heap) (line : Str) :
    RespHeap.urcPacket env h line =
      if line = [] ∨ AtCore.maxStringSize < line.length then some h
      else match env.malloc h with
        | none => some h
        | some c => some (RespHeap.del (env.user (.urc line) (RespHeap.set h c (.copy line))) c) := by
  unfold RespHeap.urcPacket
  by_cases hv : line = [] ∨ AtCore.maxStringSize < line.length
  · rw [if_pos hv, if_neg]
    rcases hv with rfl | hv
    · decide
    · simp only [AtStr.valid, Bool.and_eq_true, decide_eq_true_eq]
      omega
  · rw [if_neg hv, if_pos]
    · cases hm : env.malloc h with
      | none => rfl
      | some c =>
        have : env.user (.urc line) (RespHeap.set h c (.copy line)) c = some (.copy line) := by
          rw [hE.keeps (.urc line) (RespHeap.set h c (.copy line)) c]
          · simp [RespHeap.set]
          · simp [RespHeap.set, Ours]
        simp only [this]
    · rw [not_or] at hv
      simp only [AtStr.valid, Bool.and_eq_true, decide_eq_true_eq, bne_iff_ne]
      exact ⟨hv.1, by omega⟩

/-- An allocator that takes the lowest of 64 addresses, and functions that keep a block of their own. -/
def demoEnv : Env :=
  { malloc := fun h => (List.range 64).find? fun a => (h a).isNone
    user := fun _ h a => if a = 1000 ∧ h a = none then some (.foreign 0) else h a }

example : HeapRules demoEnv ∧ Holding (fun a => if a = 3 then some (.foreign 0) else none) 0 ∧
    ((rxRun (demoCfg 64) (init 64) [.control .multiWithPrefix (some (str "+CREG")) none none,
      .recv (str "+CREG: 1\r\nRING\r\n+CREG: 2\r\n+CR")]).map fun s => (blocksOf s.resp, s.events)) =
      some (3, [.urc (str "RING")]) ∧
    ((rxRun (demoCfg 64) (init 64) [.control .multiWithPrefix (some (str "+CREG")) none none,
      .recv (str "+CREG: 1\r\nRING\r\n+CREG: 2\r\n+CR"), .recv (str "EG: 3\r\nOK\r\n")]).map
        fun s => blocksOf s.resp) = some 0 := by
  refine ⟨⟨?_, ?_, ?_⟩, ⟨[], by simp, rfl, ?_⟩, by decide +kernel, by decide +kernel⟩
  · intro h a e
    simpa using List.find?_some e
  · intro e h a ha
    simp only [demoEnv]
    by_cases e1 : a = 1000 ∧ h a = none
    · rw [e1.2] at ha; cases ha
    · rw [if_neg e1]
  · intro e h a
    simp only [demoEnv]
    by_cases e1 : a = 1000 ∧ h a = none
    · rw [if_pos e1]; intro hx; cases hx
    · rw [if_neg e1]; intro _; rfl
  · intro a
    by_cases e1 : a = 3 <;> simp [e1, Ours]

end
end Cellular.Props
