import Verif.RegProps
/-!
# The registration record shared between threads

Model of the accesses to `libAtData` under `libAtDataMutex`: the receive task (URCs, answers to queries) and any number of
calling threads, interleaved arbitrarily.

Simplification, to the safe side: what a writer does to the record inside its critical section before it is done is
not modelled but arbitrary (any number of arbitrary changes of the whole record), so that the result does not depend on the
order or granularity of the parser's assignments.  Readers copy one member per step.
-/

namespace Cellular.RegConc
open Cellular Reg

/-- The members that are read under the lock. -/
inductive Field | rat | cs | ps | csRejCause | csRejType | psRejCause | psRejType
  deriving DecidableEq, Repr

def Field.get (d : AtData) : Field → Nat
  | .rat => d.rat
  | .cs => d.cs
  | .ps => d.ps
  | .csRejCause => d.csRejCause
  | .csRejType => d.csRejType
  | .psRejCause => d.psRejCause
  | .psRejType => d.psRejType

/-- `atcmdQueryRegStatus`, cellular_3gpp_api.c:1486-1494: the members copied to the caller, in order. -/
def serviceStatus : List Field := [.rat, .cs, .ps, .csRejCause, .csRejType, .psRejCause, .psRejType]
/-- `atcmdQueryRegStatus`, cellular_3gpp_api.c:1468-1470. -/
def psStatus : List Field := [.ps]
/-- `_Cellular_GetCurrentRat`, cellular_common.c:824-826. -/
def currentRat : List Field := [.rat]

/-- What a writer does: `_Cellular_InitAtData( pContext, 0 )` (cellular_common.c:188-190) or
`_Cellular_ParseRegStatus` on a text (cellular_3gpp_urc_handler.c:854-862, 881-889, 908-916 for URCs,
cellular_3gpp_api.c:826-844 for lines of an answer). -/
inductive Write
  | init
  | text (payload : Option Str) (isUrc : Bool) (t : RegType)
  deriving DecidableEq

/-- Its effect on the record. -/
def Write.apply (lm : Nat) (cb : Bool) : Write → AtData → AtData
  | .init, _ => initAtData
  | .text payload isUrc t, d => (parseRegStatus lm cb payload isUrc t d).data

/-- Where a thread is. -/
inductive Thr
  | idle
  | writeWait (w : Write)
  /-- in the critical section; `old` is the record it found -/
  | writing (w : Write) (old : AtData)
  | readWait (fs : List Field)
  /-- in the critical section: members still to copy, values copied so far -/
  | reading (fs rest : List Field) (vs : List Nat)
  /-- about to unlock -/
  | unlocking

inductive Ev
  /-- a writer is done with the record -/
  | wrote (w : Write)
  /-- a reader has copied all members -/
  | read (fs : List Field) (vs : List Nat)
  deriving DecidableEq

structure St where
  lock : Option Nat
  data : AtData
  thr : Nat → Thr
  log : List Ev

def St.set (s : St) (t : Nat) (p : Thr) : St := { s with thr := fun u => if u = t then p else s.thr u }

/-- After `_Cellular_CreateAtDataMutex`, with arbitrary contents of the record. -/
def start (d : AtData) : St := ⟨none, d, fun _ => .idle, []⟩

/-- One step of thread `t`. -/
inductive Step (lm : Nat) (cb : Bool) (t : Nat) : St → St → Prop
  | wantWrite (s : St) (w : Write) (h : s.thr t = .idle) : Step lm cb t s (s.set t (.writeWait w))
  | wantRead (s : St) (fs : List Field) (h : s.thr t = .idle) : Step lm cb t s (s.set t (.readWait fs))
  | lockWrite (s : St) (w : Write) (h : s.thr t = .writeWait w) (hl : s.lock = none) :
      Step lm cb t s ({ s with lock := some t }.set t (.writing w s.data))
  | lockRead (s : St) (fs : List Field) (h : s.thr t = .readWait fs) (hl : s.lock = none) :
      Step lm cb t s ({ s with lock := some t }.set t (.reading fs fs []))
  /-- anything, in the middle of an update -/
  | scribble (s : St) (w : Write) (old d : AtData) (h : s.thr t = .writing w old) :
      Step lm cb t s { s with data := d }
  | finish (s : St) (w : Write) (old : AtData) (h : s.thr t = .writing w old) :
      Step lm cb t s ({ s with data := w.apply lm cb old, log := s.log ++ [Ev.wrote w] }.set t .unlocking)
  | copy (s : St) (fs : List Field) (f : Field) (rest : List Field) (vs : List Nat)
      (h : s.thr t = .reading fs (f :: rest) vs) :
      Step lm cb t s (s.set t (.reading fs rest (vs ++ [f.get s.data])))
  | copied (s : St) (fs : List Field) (vs : List Nat) (h : s.thr t = .reading fs [] vs) :
      Step lm cb t s ({ s with log := s.log ++ [Ev.read fs vs] }.set t .unlocking)
  | unlock (s : St) (h : s.thr t = .unlocking) : Step lm cb t s ({ s with lock := none }.set t .idle)

inductive Reachable (lm : Nat) (cb : Bool) (d : AtData) : St → Prop
  | start : Reachable lm cb d (start d)
  | step {s s' : St} {t : Nat} (h : Reachable lm cb d s) (hs : Step lm cb t s s') : Reachable lm cb d s'

end Cellular.RegConc

namespace Cellular.Spec
open Cellular Reg RegConc

/-- The record after the updates in a history, one complete update after the other, in their order. -/
def recordAfter (lm : Nat) (cb : Bool) (d : AtData) (log : List RegConc.Ev) : AtData :=
  log.foldl (fun d e => match e with
    | .wrote .init => initAtData
    | .wrote (.text payload isUrc t) => (parseRegStatus lm cb payload isUrc t d).data
    | .read _ _ => d) d

end Cellular.Spec

namespace Cellular.RegConcLemmas
open Cellular Reg RegConc Spec

def inside : Thr → Bool
  | .writing _ _ => true
  | .reading _ _ _ => true
  | .unlocking => true
  | _ => false

theorem recordAfter_snoc (lm : Nat) (cb : Bool) (d : AtData) (l : List Ev) (e : Ev) :
    recordAfter lm cb d (l ++ [e]) = (match e with
      | .wrote w => w.apply lm cb (recordAfter lm cb d l)
      | .read _ _ => recordAfter lm cb d l) := by
  unfold recordAfter
  rw [List.foldl_append]
  cases e with
  | wrote w => cases w <;> rfl
  | read => rfl

/-- What is known of the owner of the lock. -/
def Good (lm : Nat) (cb : Bool) (d0 : AtData) (s : St) : Thr → Prop
  | .writing _ old => old = recordAfter lm cb d0 s.log
  | .reading fs rest vs => s.data = recordAfter lm cb d0 s.log ∧
      fs.map (Field.get (recordAfter lm cb d0 s.log)) = vs ++ rest.map (Field.get (recordAfter lm cb d0 s.log))
  | .unlocking => s.data = recordAfter lm cb d0 s.log
  | _ => True

structure Inv (lm : Nat) (cb : Bool) (d0 : AtData) (s : St) : Prop where
  m : ∀ t, inside (s.thr t) = true ↔ s.lock = some t
  free : s.lock = none → s.data = recordAfter lm cb d0 s.log
  own : ∀ t, s.lock = some t → Good lm cb d0 s (s.thr t)
  law : ∀ a fs vs b, s.log = a ++ .read fs vs :: b → vs = fs.map (Field.get (recordAfter lm cb d0 a))

theorem inv_start (lm : Nat) (cb : Bool) (d : AtData) : Inv lm cb d (start d) :=
  ⟨by simp [start, inside], fun _ => rfl, by simp [start], by simp [start]⟩

theorem snoc_split {l a b : List Ev} {e f : Ev} (h : l ++ [e] = a ++ f :: b) :
    (∃ b', l = a ++ f :: b') ∨ (l = a ∧ e = f) := by
  rcases List.eq_nil_or_concat b with rfl | ⟨b', x, rfl⟩
  · have := List.append_inj' h rfl
    obtain ⟨h1, h2⟩ := this
    cases h2; exact .inr ⟨h1, rfl⟩
  · rw [List.concat_eq_append, ← List.cons_append, ← List.append_assoc] at h
    exact .inl ⟨b', (List.append_inj' h rfl).1⟩

theorem inv_step {lm : Nat} {cb : Bool} {d : AtData} {t : Nat} {s s' : St} (I : Inv lm cb d s)
    (h : Step lm cb t s s') : Inv lm cb d s' := by
  have inNot : inside (s.thr t) = false → s.lock ≠ some t := by
    intro hi hl; rw [(I.m t).2 hl] at hi; cases hi
  cases h with
  | wantWrite w h =>
    have hn := inNot (by rw [h]; rfl)
    refine ⟨?_, I.free, ?_, I.law⟩
    · intro u; simp only [St.set]; split
      · rename_i e; subst e; simp [inside, hn]
      · exact I.m u
    · intro u hu
      simp only [St.set] at hu ⊢
      rw [if_neg (by rintro rfl; exact hn hu)]; 
      have := I.own u hu
      cases hp : s.thr u <;> simp_all [Good]
  | wantRead fs h =>
    have hn := inNot (by rw [h]; rfl)
    refine ⟨?_, I.free, ?_, I.law⟩
    · intro u; simp only [St.set]; split
      · rename_i e; subst e; simp [inside, hn]
      · exact I.m u
    · intro u hu
      simp only [St.set] at hu ⊢
      rw [if_neg (by rintro rfl; exact hn hu)]
      have := I.own u hu
      cases hp : s.thr u <;> simp_all [Good]
  | lockWrite w h hl =>
    refine ⟨?_, by simp [St.set], ?_, I.law⟩
    · intro u; simp only [St.set]; split
      · rename_i e; subst e; simp [inside]
      · rename_i e
        have := I.m u
        rw [hl] at this
        simp only [Option.some.injEq]
        exact ⟨fun h => (nomatch (this.1 h)), fun h => absurd h.symm e⟩
    · intro u hu
      simp only [St.set, Option.some.injEq] at hu ⊢
      subst hu
      simp only [if_true]
      exact I.free hl
  | lockRead fs h hl =>
    refine ⟨?_, by simp [St.set], ?_, I.law⟩
    · intro u; simp only [St.set]; split
      · rename_i e; subst e; simp [inside]
      · rename_i e
        have := I.m u
        rw [hl] at this
        simp only [Option.some.injEq]
        exact ⟨fun h => (nomatch (this.1 h)), fun h => absurd h.symm e⟩
    · intro u hu
      simp only [St.set, Option.some.injEq] at hu ⊢
      subst hu
      simp only [if_true]
      exact ⟨I.free hl, rfl⟩
  | scribble w old d' h =>
    have hl := (I.m t).1 (by rw [h]; rfl)
    refine ⟨I.m, by simp [hl], ?_, I.law⟩
    intro u hu
    have hut : t = u := by simpa [hl] using hu
    subst hut
    have := I.own t hl
    rw [h] at this
    simp only [h]; exact this
  | finish w old h =>
    have hl := (I.m t).1 (by rw [h]; rfl)
    have hg := I.own t hl
    rw [h] at hg
    simp only [Good] at hg
    refine ⟨?_, by simp [St.set, hl], ?_, ?_⟩
    · intro u; simp only [St.set]; split
      · rename_i e; subst e; simp [inside, hl]
      · exact I.m u
    · intro u hu
      have hut : t = u := by simpa [hl, St.set] using hu
      subst hut
      simp only [St.set, if_true, Good, recordAfter_snoc, hg]
    · intro a fs vs b hab
      rcases snoc_split hab with ⟨b', hb'⟩ | ⟨_, h'⟩
      · exact I.law a fs vs b' hb'
      · cases h'
  | copy fs f rest vs h =>
    have hl := (I.m t).1 (by rw [h]; rfl)
    have hg := I.own t hl
    rw [h] at hg
    simp only [Good] at hg
    refine ⟨?_, by simp [St.set, hl], ?_, I.law⟩
    · intro u; simp only [St.set]; split
      · rename_i e; subst e; simp [inside, hl]
      · exact I.m u
    · intro u hu
      have hut : t = u := by simpa [hl, St.set] using hu
      subst hut
      simp only [St.set, if_true, Good]
      refine ⟨hg.1, ?_⟩
      rw [hg.2, hg.1]; simp
  | copied fs vs h =>
    have hl := (I.m t).1 (by rw [h]; rfl)
    have hg := I.own t hl
    rw [h] at hg
    simp only [Good] at hg
    refine ⟨?_, by simp [St.set, hl], ?_, ?_⟩
    · intro u; simp only [St.set]; split
      · rename_i e; subst e; simp [inside, hl]
      · exact I.m u
    · intro u hu
      have hut : t = u := by simpa [hl, St.set] using hu
      subst hut
      simp only [St.set, if_true, Good, recordAfter_snoc]
      exact hg.1
    · intro a fs' vs' b hab
      rcases snoc_split hab with ⟨b', hb'⟩ | ⟨h1, h'⟩
      · exact I.law a fs' vs' b' hb'
      · cases h'
        rw [← h1, hg.2]; simp
  | unlock h =>
    have hl := (I.m t).1 (by rw [h]; rfl)
    have hg := I.own t hl
    rw [h] at hg
    refine ⟨?_, fun _ => hg, by simp [St.set], I.law⟩
    intro u; simp only [St.set]; split
    · simp [inside]
    · rename_i e
      have := I.m u
      rw [hl] at this
      simp only [Option.some.injEq] at this
      constructor
      · intro h'; exact absurd (this.1 h').symm e
      · intro h'; cases h'

theorem inv_reachable {lm : Nat} {cb : Bool} {d : AtData} {s : St} (h : Reachable lm cb d s) : Inv lm cb d s := by
  induction h with
  | start => exact inv_start lm cb d
  | step _ hs ih => exact inv_step ih hs

end Cellular.RegConcLemmas

namespace Cellular.Props
open Cellular Reg RegConc Spec RegConcLemmas RegLemmas

/-- What a thread reads is the record as the complete updates before left it: never a mixture of two records, never the
middle of an update, never an old record. -/
theorem C63_consistent_read {lm : Nat} {cb : Bool} {d : AtData} {s : St} (h : RegConc.Reachable lm cb d s)
    {a b : List RegConc.Ev} {fs : List Field} {vs : List Nat} (hl : s.log = a ++ .read fs vs :: b) :
    vs = fs.map (Field.get (recordAfter lm cb d a)) :=
  (inv_reachable h).law a fs vs b hl

/-- The service status reported to a caller. -/
theorem C63_service_status {lm : Nat} {cb : Bool} {d : AtData} {s : St} (h : RegConc.Reachable lm cb d s)
    {a b : List RegConc.Ev} {vs : List Nat} (hl : s.log = a ++ .read serviceStatus vs :: b) :
    let r := recordAfter lm cb d a
    vs = [r.rat, r.cs, r.ps, r.csRejCause, r.csRejType, r.psRejCause, r.psRejType] :=
  C63_consistent_read h hl

/-- Nobody else is inside the critical section of the record. -/
theorem C63_exclusive {lm : Nat} {cb : Bool} {d : AtData} {s : St} (h : RegConc.Reachable lm cb d s) {t u : Nat}
    (ht : inside (s.thr t) = true) (hu : inside (s.thr u) = true) : t = u := by
  have h1 := ((inv_reachable h).m t).1 ht
  have h2 := ((inv_reachable h).m u).1 hu
  rw [h1] at h2; exact Option.some.inj h2

/-- Starting from an initialised record every value ever read is in its range, in every schedule. -/
theorem C63_read_in_range {lm : Nat} {cb : Bool} {s : St} (h : RegConc.Reachable lm cb initAtData s)
    {a b : List RegConc.Ev} {fs : List Field} {vs : List Nat} (hl : s.log = a ++ .read fs vs :: b) :
    ∃ r, InRange r ∧ vs = fs.map (Field.get r) := by
  refine ⟨_, ?_, C63_consistent_read h hl⟩
  have h0 : InRange initAtData := by constructor <;> decide
  clear hl h
  have : ∀ (l : List RegConc.Ev) (d : AtData), InRange d → InRange (recordAfter lm cb d l) := by
    intro l
    induction l with
    | nil => intro d hd; exact hd
    | cons e l ih =>
      intro d hd
      refine ih _ ?_
      cases e with
      | read => exact hd
      | wrote w =>
        cases w with
        | init => exact h0
        | text p u t => exact parse_ind lm cb p u t InRange (fun i tok d h => parseField_inRange lm t i tok d h) d hd
  exact this a _ h0

/-- A URC is being parsed by thread 0 (the record is garbage in the middle) while thread 1 asks for the status. -/
example : ∃ s, RegConc.Reachable (2 ^ 63 - 1) true initAtData s ∧ s.log =
    [.wrote (.text (some (str " 1,\"00C3\",\"1A2D\",8")) true .creg), .read serviceStatus [8, 1, 2, 0, 0, 0, 0]] := by
  have h := RegConc.Reachable.start (lm := 2 ^ 63 - 1) (cb := true) (d := initAtData)
  replace h := h.step (t := 0) (.wantWrite _ (.text (some (str " 1,\"00C3\",\"1A2D\",8")) true .creg) rfl)
  replace h := h.step (t := 1) (.wantRead _ serviceStatus rfl)
  replace h := h.step (t := 0) (.lockWrite _ _ rfl rfl)
  replace h := h.step (t := 0) (.scribble _ _ _ ⟨77, 77, 0, 0, 0, 0, 0, 0, 0, 0, 0⟩ rfl)
  replace h := h.step (t := 0) (.finish _ _ _ rfl)
  replace h := h.step (t := 0) (.unlock _ rfl)
  replace h := h.step (t := 1) (.lockRead _ _ rfl rfl)
  replace h := h.step (t := 1) (.copy _ _ _ _ _ rfl)
  replace h := h.step (t := 1) (.copy _ _ _ _ _ rfl)
  replace h := h.step (t := 1) (.copy _ _ _ _ _ rfl)
  replace h := h.step (t := 1) (.copy _ _ _ _ _ rfl)
  replace h := h.step (t := 1) (.copy _ _ _ _ _ rfl)
  replace h := h.step (t := 1) (.copy _ _ _ _ _ rfl)
  replace h := h.step (t := 1) (.copy _ _ _ _ _ rfl)
  replace h := h.step (t := 1) (.copied _ _ _ rfl)
  refine ⟨_, h, ?_⟩
  decide +kernel

end Cellular.Props
