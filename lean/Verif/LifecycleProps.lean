import Verif.Lifecycle
import Verif.UrcProps
/-! # Properties C20, C34, C35, C36, C37 -/
namespace Cellular.Props
open Cellular Signal Lifecycle

/-- All creation steps succeed. -/
def AllOk (env : Env) : Prop :=
  env.alloc ≠ none ∧ env.libMutex = true ∧ env.atMutex = true ∧ env.reqMutex = true ∧
  env.respMutex = true ∧ env.queue = true ∧ env.event = true ∧ env.thread = true ∧ env.commOpen = true

/-- All arguments are given. -/
def ArgsOk (a : Args) : Prop :=
  a.handle = true ∧ a.comm = true ∧ a.commFuncs = true ∧ a.tokens = true ∧ a.tables = true

/-- One object of each kind more than in `n` (the library's own objects). -/
def OneMore (n : Counts) : Counts :=
  { n with contexts := n.contexts + 1, libMutex := n.libMutex + 1, atMutex := n.atMutex + 1
           reqMutex := n.reqMutex + 1, respMutex := n.respMutex + 1, queue := n.queue + 1
           event := n.event + 1, thread := n.thread + 1 }

/-- A context with everything present, open and usable. -/
def FullCtx : Ctx :=
  { libMutex := true, atMutex := true, reqMutex := true, respMutex := true, queue := true
    event := true, pktioUp := true, opened := true, shutdown := false, closing := false }

/-- Memory given by the allocator is not in use. -/
def EnvOk (static : Bool) (env : Env) (w : World) : Prop :=
  static = false → ∀ p, env.alloc = some p → w.mem p = none

theorem setMem_same (m : Lifecycle.Ptr → Option Ctx) (p : Lifecycle.Ptr) (v : Option Ctx) :
    setMem m p v p = v := by simp [setMem]

theorem setMem_set (m : Lifecycle.Ptr → Option Ctx) (p : Lifecycle.Ptr) (u v : Option Ctx) :
    setMem (setMem m p u) p v = setMem m p v := by
  funext q; simp only [setMem]; split <;> rfl

theorem setMem_self (m : Lifecycle.Ptr → Option Ctx) (p : Lifecycle.Ptr) (h : m p = v) :
    setMem m p v = m := by
  funext q; simp only [setMem]; split
  · rename_i e; rw [e, h]
  · rfl

theorem libOpen_cases (env : Env) (u : List Urc.Entry) (c : Ctx) (n : Counts) :
    (env.queue = true ∧ env.event = true ∧ env.thread = true ∧ env.commOpen = true →
      libOpen env u c n = (.success,
        { c with queue := true, event := true, pktioUp := true, opened := true, shutdown := false },
        { n with queue := n.queue + 1, event := n.event + 1, thread := n.thread + 1 })) ∧
    (¬ (env.queue = true ∧ env.event = true ∧ env.thread = true ∧ env.commOpen = true) →
      ∃ e c', libOpen env u c n = (e, c', n) ∧ e ≠ .success) := by
  obtain ⟨al, e1, e2, e3, e4, e5, e6, e7, e8⟩ := env
  cases e5 <;> cases e6 <;> cases e7 <;> cases e8 <;>
    simp [libOpen, pktHandlerInit, pktioInit, pktioShutdown, pktHandlerCleanup, translatePkt]

theorem libInit_ok (static : Bool) (env : Env) (a : Args) (w : World) (p : Lifecycle.Ptr)
    (ha : checkInitParameter a = .success) (hw : w.table = none) (hal : env.alloc = some p)
    (hok : AllOk env) : libInit static env a w =
      (.success, some p, { table := some p, mem := setMem w.mem p (some FullCtx), count := OneMore w.count }) := by
  obtain ⟨_, h1, h2, h3, h4, h5, h6, h7, h8⟩ := hok
  have hL := fun c n => (libOpen_cases env a.urc c n).1 ⟨h5, h6, h7, h8⟩
  simp only [libInit, ha, allocContext, hw, hal, h1, h2, h3, h4, hL]
  simp [setMem_set, FullCtx, OneMore]

theorem libInit_fail (static : Bool) (env : Env) (a : Args) (w : World) (p : Lifecycle.Ptr)
    (ha : checkInitParameter a = .success) (hw : w.table = none) (hal : env.alloc = some p)
    (hok : ¬ AllOk env) : ∃ e c, e ≠ CellErr.success ∧ libInit static env a w =
      (e, none, { table := none, mem := if static then setMem w.mem p (some c) else setMem w.mem p none,
                  count := w.count }) := by
  have key : ∀ (b1 b2 b3 b4 : Bool), env.libMutex = b1 → (b1 && env.atMutex) = b2 →
      (b2 && env.reqMutex) = b3 → (b3 && env.respMutex) = b4 →
      ∃ e c, e ≠ CellErr.success ∧ libInit static env a w =
      (e, none, { table := none, mem := if static then setMem w.mem p (some c) else setMem w.mem p none,
                  count := w.count }) := by
    intro b1 b2 b3 b4 h1 h2 h3 h4
    cases b4 with
    | false =>
      refine ⟨.resourceCreationFail, { libMutex := b1, atMutex := b2, reqMutex := b3 }, by simp, ?_⟩
      simp only [libInit, ha, allocContext, hw, hal, h1, h2, h3, h4]
      simp [freeContext, setMem_set]
    | true =>
      have hb3 : b3 = true := by cases b3 <;> simp_all
      have hb2 : b2 = true := by cases b2 <;> simp_all
      have hb1 : b1 = true := by cases b1 <;> simp_all
      subst hb1 hb2 hb3
      have hn : ¬ (env.queue = true ∧ env.event = true ∧ env.thread = true ∧ env.commOpen = true) := by
        rintro ⟨g1, g2, g3, g4⟩
        simp at h2 h3 h4
        exact hok ⟨by rw [hal]; simp, h1, h2, h3, h4, g1, g2, g3, g4⟩
      obtain ⟨e, c', hL, he⟩ := (libOpen_cases env a.urc
        { libMutex := true, atMutex := true, reqMutex := true, respMutex := true }
        { w.count with contexts := w.count.contexts + 1, libMutex := w.count.libMutex + 1
                       atMutex := w.count.atMutex + 1, reqMutex := w.count.reqMutex + 1
                       respMutex := w.count.respMutex + 1 }).2 hn
      refine ⟨e, c', he, ?_⟩
      simp only [libInit, ha, allocContext, hw, hal, h1, h2, h3, h4, Bool.toNat_true, if_true, hL]
      simp [he, freeContext, setMem_set]
  exact key _ _ _ _ rfl rfl rfl rfl

/-- All-or-nothing.  Whichever creation step fails (or the arguments are bad, or a context exists
already), initialisation reports an error, stores no handle, and every context, mutex, queue, event group
and task it created is gone again.  It succeeds exactly when the arguments are complete, no other instance
exists and all steps succeed; then all of them are present and the library is open. -/
theorem C34_libInit_all_or_nothing (static : Bool) (env : Env) (a : Args) (w : World)
    (henv : EnvOk static env w) :
    (∀ e h w', libInit static env a w = (e, h, w') → e ≠ .success →
      h = none ∧ w'.count = w.count ∧ w'.table = w.table ∧ (static = false → w'.mem = w.mem)) ∧
    (∀ h w', libInit static env a w = (.success, h, w') →
      ∃ p, h = some p ∧ w'.table = some p ∧ w'.mem p = some FullCtx ∧ w'.count = OneMore w.count ∧
        ∀ q, q ≠ p → w'.mem q = w.mem q) ∧
    ((libInit static env a w).1 = .success ↔ ArgsOk a ∧ w.table = none ∧ AllOk env) := by
  obtain ⟨ha, hc, hf, ht, htb, hu⟩ := a
  by_cases hargs : ha = true ∧ hc = true ∧ hf = true ∧ ht = true ∧ htb = true
  · obtain ⟨rfl, rfl, rfl, rfl, rfl⟩ := hargs
    cases hw : w.table with
    | some q =>
      refine ⟨?_, ?_, ?_⟩
      · intro e h w' hh _
        simp [libInit, checkInitParameter, allocContext, hw] at hh
        obtain ⟨_, rfl, rfl⟩ := hh
        exact ⟨rfl, rfl, hw, fun _ => rfl⟩
      · intro h w' hh
        simp [libInit, checkInitParameter, allocContext, hw] at hh
      · simp [libInit, checkInitParameter, allocContext, hw]
    | none =>
      have hck : checkInitParameter ⟨true, true, true, true, true, hu⟩ = .success := by
        simp [checkInitParameter]
      cases hal : env.alloc with
      | none =>
        refine ⟨?_, ?_, ?_⟩
        · intro e h w' hh _
          simp [libInit, checkInitParameter, allocContext, hw, hal] at hh
          obtain ⟨_, rfl, rfl⟩ := hh
          exact ⟨rfl, rfl, hw, fun _ => rfl⟩
        · intro h w' hh
          simp [libInit, checkInitParameter, allocContext, hw, hal] at hh
        · simp [libInit, checkInitParameter, allocContext, hw, AllOk, hal]
      | some p =>
        by_cases hok : AllOk env
        · rw [libInit_ok static env _ w p hck hw hal hok]
          refine ⟨?_, ?_, ?_⟩
          · intro e h w' hh he; cases hh; exact absurd rfl he
          · intro h w' hh
            cases hh
            exact ⟨p, rfl, rfl, setMem_same _ _ _, rfl, fun q hq => by simp [setMem, hq]⟩
          · simp [ArgsOk, hok]
        · obtain ⟨e0, c, he0, hl⟩ := libInit_fail static env _ w p hck hw hal hok
          rw [hl]
          refine ⟨?_, ?_, ?_⟩
          · intro e h w' hh he
            cases hh
            refine ⟨rfl, rfl, rfl, ?_⟩
            rintro rfl
            exact setMem_self w.mem p (henv rfl p hal)
          · intro h w' hh
            cases hh; exact absurd rfl he0
          · simp [he0, hok]
  · have he : (checkInitParameter ⟨ha, hc, hf, ht, htb, hu⟩) ≠ .success := by
      unfold checkInitParameter
      revert hargs
      cases ha <;> cases hc <;> cases hf <;> cases ht <;> cases htb <;> simp
    have hl : libInit static env ⟨ha, hc, hf, ht, htb, hu⟩ w =
        (checkInitParameter ⟨ha, hc, hf, ht, htb, hu⟩, none, w) := by
      simp only [libInit, ne_eq, he, not_false_eq_true, if_true]
    rw [hl]
    refine ⟨?_, ?_, ?_⟩
    · intro e h w' hh _
      simp at hh
      obtain ⟨_, rfl, rfl⟩ := hh
      exact ⟨rfl, rfl, rfl, fun _ => rfl⟩
    · intro h w' hh
      simp at hh
      exact absurd hh.1 he
    · simp only [he, false_iff]
      rintro ⟨h, _, _⟩
      exact hargs h

/-- A failing initialisation can be followed by a successful one. -/
theorem C34_retry_possible (static : Bool) (env env' : Env) (a a' : Args) (w w' : World) (e : CellErr)
    (h : Option Lifecycle.Ptr) (henv : EnvOk static env w) (htab : w.table = none)
    (hf : libInit static env a w = (e, h, w')) (he : e ≠ .success)
    (henv' : EnvOk static env' w) (hok : AllOk env') (ha : ArgsOk a') :
    (libInit static env' a' w').1 = .success := by
  obtain ⟨_, _, ht, hm⟩ := (C34_libInit_all_or_nothing static env a w henv).1 e h w' hf he
  have henv2 : EnvOk static env' w' := by
    intro hs p hp
    rw [hm hs]; exact henv' hs p hp
  exact (C34_libInit_all_or_nothing static env' a' w' henv2).2.2.2 ⟨ha, by rw [ht, htab], hok⟩

theorem libCleanup_full (static : Bool) (p : Lifecycle.Ptr) (w : World) (n : Counts)
    (ht : w.table = some p) (hm : w.mem p = some FullCtx) (hc : w.count = OneMore n) :
    ∃ c, libCleanup static (some p) w = some (.success,
      { table := none, mem := if static then setMem w.mem p (some c) else setMem w.mem p none, count := n }) := by
  obtain ⟨t, m, k⟩ := w
  simp only at ht hm hc
  subst ht hc
  refine ⟨{}, ?_⟩
  simp only [libCleanup, hm]
  simp [FullCtx, OneMore, libClose, pktioShutdown, pktHandlerCleanup, freeContext, setMem_set]

/-- The same at the level of `Cellular_CommonInit`: no step is undefined; on failure - of the library or
of any modem module step - nothing is left behind (the module has been cleaned up too); on success
everything is there. -/
theorem C34_commonInit_all_or_nothing (static : Bool) (env : Env) (mod : Mod) (a : Args)
    (old : Option Lifecycle.Ptr) (w : World) (henv : EnvOk static env w) :
    ∃ e h w', commonInit static env mod a old w = some (e, h, w') ∧
      (e ≠ .success → w'.count = w.count ∧ w'.table = w.table ∧ (static = false → w'.mem = w.mem)) ∧
      (e = .success → ∃ p, h = some p ∧ w'.table = some p ∧ w'.mem p = some FullCtx ∧
        w'.count = { OneMore w.count with modules := w.count.modules + 1 }) ∧
      (e = .success ↔ ArgsOk a ∧ w.table = none ∧ AllOk env ∧ mod.init = .success ∧
        mod.enableUE = .success ∧ mod.enableUrc = .success) := by
  obtain ⟨A, B, C⟩ := C34_libInit_all_or_nothing static env a w henv
  by_cases h0 : a.handle = false
  · exact ⟨.invalidHandle, old, w, by simp [commonInit, h0], fun _ => ⟨rfl, rfl, fun _ => rfl⟩, by simp,
      by simp [ArgsOk, h0]⟩
  by_cases h1 : a.comm = false
  · exact ⟨.badParameter, old, w, by simp [commonInit, h0, h1], fun _ => ⟨rfl, rfl, fun _ => rfl⟩, by simp,
      by simp [ArgsOk, h1]⟩
  by_cases h2 : a.tokens = false
  · exact ⟨.badParameter, old, w, by simp [commonInit, h0, h1, h2], fun _ => ⟨rfl, rfl, fun _ => rfl⟩, by simp,
      by simp [ArgsOk, h2]⟩
  rcases hl : libInit static env a w with ⟨e, h, w'⟩
  by_cases he : e = .success
  · subst he
    obtain ⟨p, rfl, ht, hm, hc, hq⟩ := B h w' hl
    have hC := C.1 (by rw [hl])
    have hmem : static = false → setMem w'.mem p none = w.mem := by
      intro hs
      funext q
      by_cases e : q = p
      · subst e
        simp only [setMem, if_true]
        cases hal : env.alloc with
        | none => exact absurd hal hC.2.2.1
        | some q' =>
          have : libInit static env a w = _ := libInit_ok static env a w q' ?_ hC.2.1 hal hC.2.2
          · rw [hl] at this; cases this
            exact (henv hs _ hal).symm
          · obtain ⟨g1, g2, g3, g4, g5⟩ := hC.1
            simp [checkInitParameter, g1, g2, g3, g4, g5]
      · simp [setMem, e, hq q e]
    by_cases m1 : mod.init = .success
    · by_cases m2 : (if mod.enableUE = .success then mod.enableUrc else mod.enableUE) = .success
      · have m3 : mod.enableUE = .success ∧ mod.enableUrc = .success := by
          split at m2
          · rename_i g; exact ⟨g, m2⟩
          · rename_i g; exact absurd m2 g
        refine ⟨.success, some p, { w' with count := { w'.count with modules := w'.count.modules + 1 } },
          ?_, by simp, ?_, ?_⟩
        · simp [commonInit, h0, h1, h2, hl, m1, m3]
        · intro _; exact ⟨p, rfl, ht, hm, by simp [hc, OneMore]⟩
        · simp [hC.1, hC.2.1, hC.2.2, m1, m3]
      · obtain ⟨c, hcl⟩ := libCleanup_full static p w' w.count ht hm hc
        have hmod : ({ w'.count with modules := w'.count.modules + 1 - 1 } : Counts) = w'.count := by
          simp
        refine ⟨if mod.enableUE = .success then mod.enableUrc else mod.enableUE, some p,
          { table := none, mem := if static then setMem w'.mem p (some c) else setMem w'.mem p none, count := w.count }, ?_, ?_, ?_, ?_⟩
        · simp only [commonInit, h0, h1, h2, hl, m1, if_true, if_false, ne_eq, m2, not_false_eq_true, hcl,
            Nat.add_sub_cancel, Option.map_some]
          rfl
        · intro _
          refine ⟨rfl, hC.2.1.symm, ?_⟩
          rintro rfl; exact hmem rfl
        · intro hh; exact absurd hh m2
        · constructor
          · intro hh; exact absurd hh m2
          · rintro ⟨_, _, _, _, g1, g2⟩; exact absurd (by rw [if_pos g1]; exact g2) m2
    · obtain ⟨c, hcl⟩ := libCleanup_full static p w' w.count ht hm hc
      refine ⟨mod.init, some p,
        { table := none, mem := if static then setMem w'.mem p (some c) else setMem w'.mem p none, count := w.count }, ?_, ?_, ?_, ?_⟩
      · simp only [commonInit, h0, h1, h2, hl, m1, if_false, hcl, Option.map_some]
        rfl
      · intro _
        refine ⟨rfl, hC.2.1.symm, ?_⟩
        rintro rfl; exact hmem rfl
      · intro hh; exact absurd hh m1
      · constructor
        · intro hh; exact absurd hh m1
        · rintro ⟨_, _, _, g, _⟩; exact absurd g m1
  · obtain ⟨rfl, hc, ht, hm⟩ := A e h w' hl he
    refine ⟨e, old, w', by simp [commonInit, h0, h1, h2, hl], fun _ => ⟨hc, ht, hm⟩, fun h => absurd h he, ?_⟩
    have : ¬ (ArgsOk a ∧ w.table = none ∧ AllOk env) := by
      rw [← C, hl]; exact he
    constructor
    · intro h; exact absurd h he
    · rintro ⟨g1, g2, g3, _⟩; exact absurd ⟨g1, g2, g3⟩ this

/-! ## C35 -/

/-- What a program can do: initialise (with any outcome of every step) and clean up the open instance. -/
inductive LReach (static : Bool) : World → Prop
  | start (m) : (static = false → ∀ p, m p = none) → LReach static { mem := m }
  | init (w env mod a old r) : LReach static w → EnvOk static env w →
      commonInit static env mod a old w = some r → LReach static r.2.2
  | cleanup (w p r) : LReach static w → w.table = some p → commonCleanup static (some p) w = some r →
      LReach static r.2

theorem cleanup_full (static : Bool) (w : World) (p : Lifecycle.Ptr) (n : Counts) (ht : w.table = some p)
    (hm : w.mem p = some FullCtx) (hc : w.count = { OneMore n with modules := n.modules + 1 }) :
    ∃ c, commonCleanup static (some p) w = some (.success,
      { table := none, mem := if static then setMem w.mem p (some c) else setMem w.mem p none, count := n }) := by
  have := libCleanup_full static p { w with count := { w.count with modules := w.count.modules - 1 } } n
    ht hm (by rw [hc]; simp [OneMore])
  obtain ⟨c, h⟩ := this
  exact ⟨c, by simp only [commonCleanup, hm]; exact h⟩

theorem lreach_inv {static : Bool} {w : World} (hr : LReach static w) :
    (w.table = none ∧ w.count = {} ∧ (static = false → ∀ p, w.mem p = none)) ∨
    (∃ p, w.table = some p ∧ w.mem p = some FullCtx ∧
      w.count = { OneMore {} with modules := 1 } ∧ (static = false → ∀ q, q ≠ p → w.mem q = none)) := by
  induction hr with
  | start m hm => exact Or.inl ⟨rfl, rfl, hm⟩
  | init w env mod a old r _ henv hi ih =>
    obtain ⟨e, h, w', hc, h1, h2, h3⟩ := C34_commonInit_all_or_nothing static env mod a old w henv
    rw [hc] at hi; cases hi
    by_cases he : e = .success
    · subst he
      obtain ⟨p, rfl, ht, hm, hcnt⟩ := h2 rfl
      have hw := (h3.1 rfl)
      rcases ih with ⟨_, ic, im⟩ | ⟨q, iq, _⟩
      · refine Or.inr ⟨p, ht, hm, by rw [hcnt, ic], ?_⟩
        rintro rfl q hq
        have hal : env.alloc ≠ none := hw.2.2.1.1
        cases ha : env.alloc with
        | none => exact absurd ha hal
        | some p' =>
          have hck : checkInitParameter a = .success := by
            obtain ⟨g1, g2, g3, g4, g5⟩ := hw.1
            simp [checkInitParameter, g1, g2, g3, g4, g5]
          have hl := libInit_ok false env a w p' hck hw.2.1 ha hw.2.2.1
          obtain ⟨g1, g2, g3, g4, g5⟩ := hw.1
          simp [commonInit, g1, g2, g4, hl, hw.2.2.2] at hc
          obtain ⟨rfl, rfl⟩ := hc
          simp [setMem, hq, im rfl q]
      · rw [hw.2.1] at iq; cases iq
    · obtain ⟨g1, g2, g3⟩ := h1 he
      dsimp only
      rw [g1, g2]
      cases static with
      | true =>
        rcases ih with ⟨i1, i2, i3⟩ | ⟨p, i1, i2, i3, i4⟩
        · exact Or.inl ⟨i1, i2, by simp⟩
        · -- a live instance: initialisation stopped before touching memory
          refine Or.inr ⟨p, i1, ?_, i3, by simp⟩
          have hsame : ∀ r, commonInit true env mod a old w = some r → r.2.2 = w := by
            intro r hr
            unfold commonInit at hr
            split at hr
            · cases hr; rfl
            · split at hr
              · cases hr; rfl
              · split at hr
                · cases hr; rfl
                · have hl : ∃ e, libInit true env a w = (e, none, w) := by
                    unfold libInit
                    dsimp only
                    split
                    · exact ⟨_, rfl⟩
                    · simp [allocContext, i1]
                  obtain ⟨e, hl⟩ := hl
                  rw [hl] at hr; cases hr; rfl
          have := hsame _ hc
          simp only at this
          rw [this]; exact i2
      | false =>
        rw [g3 rfl]; exact ih
  | cleanup w p r _ hp hcl ih =>
    rcases ih with ⟨i1, _⟩ | ⟨q, i1, i2, i3, i4⟩
    · rw [i1] at hp; cases hp
    · rw [hp] at i1; cases i1
      obtain ⟨c, h⟩ := cleanup_full static w p {} hp i2 i3
      rw [h] at hcl; cases hcl
      refine Or.inl ⟨rfl, rfl, ?_⟩
      rintro rfl q
      by_cases e : q = p
      · simp [setMem, e]
      · simp [setMem, e, i4 rfl q e]

/-- In every history at most one context exists, and exactly the objects belonging to it. -/
theorem C35_at_most_one {static : Bool} {w : World} (hr : LReach static w) :
    w.count.contexts ≤ 1 ∧
    (w.count.contexts = 0 → w.table = none ∧ w.count = {}) ∧
    (w.count.contexts = 1 → ∃ p, w.table = some p ∧ w.mem p = some FullCtx ∧
      w.count = ⟨1, 1, 1, 1, 1, 1, 1, 1, 1⟩) := by
  rcases lreach_inv hr with ⟨h1, h2, _⟩ | ⟨p, h1, h2, h3, _⟩
  · rw [h2]; exact ⟨by decide, fun _ => ⟨h1, rfl⟩, by simp⟩
  · rw [h3]; exact ⟨by decide, by simp [OneMore], fun _ => ⟨p, h1, h2, rfl⟩⟩

/-- While an instance is open a second initialisation fails, writes no handle and changes nothing. -/
theorem C35_second_init_refused {static : Bool} {w : World} (hr : LReach static w) (env : Env) (mod : Mod)
    (a : Args) (old : Option Lifecycle.Ptr) (p : Lifecycle.Ptr) (hp : w.table = some p) :
    ∃ e, e ≠ CellErr.success ∧ commonInit static env mod a old w = some (e, old, w) := by
  unfold commonInit
  split
  · exact ⟨_, by simp, rfl⟩
  · split
    · exact ⟨_, by simp, rfl⟩
    · split
      · exact ⟨_, by simp, rfl⟩
      · have hl : ∃ e, e ≠ CellErr.success ∧ libInit static env a w = (e, none, w) := by
          unfold libInit
          dsimp only
          split
          · rename_i h; exact ⟨_, h, rfl⟩
          · exact ⟨.noMemory, by simp, by simp [allocContext, hp]⟩
        obtain ⟨e, he, hl⟩ := hl
        exact ⟨e, he, by rw [hl]⟩

/-- Cleaning up the open instance succeeds, releases everything, and makes initialisation possible
again. -/
theorem C35_cleanup_then_init {static : Bool} {w : World} (hr : LReach static w) (p : Lifecycle.Ptr)
    (hp : w.table = some p) :
    ∃ w', commonCleanup static (some p) w = some (.success, w') ∧ w'.count = {} ∧ w'.table = none ∧
      (static = false → w'.mem p = none) ∧
      ∀ env a, EnvOk static env w' → AllOk env → ArgsOk a → ∀ old,
        ∃ q w'', commonInit static env {} a old w' = some (.success, some q, w'') := by
  rcases lreach_inv hr with ⟨h1, _⟩ | ⟨q, h1, h2, h3, _⟩
  · rw [h1] at hp; cases hp
  · rw [hp] at h1; cases h1
    obtain ⟨c, h⟩ := cleanup_full static w p {} hp h2 h3
    refine ⟨_, h, rfl, rfl, ?_, ?_⟩
    · rintro rfl; simp [setMem]
    · intro env a henv hok ha old
      obtain ⟨e, hh, w', hc, _, g2, g3⟩ := C34_commonInit_all_or_nothing static env {} a old _ henv
      have he := g3.2 ⟨ha, rfl, hok, rfl, rfl, rfl⟩
      subst he
      obtain ⟨q, rfl, _⟩ := g2 rfl
      exact ⟨q, w', hc⟩

/-- A NULL handle is refused with no effect. -/
theorem C35_cleanup_null (static : Bool) (w : World) :
    commonCleanup static none w = some (.invalidHandle, w) := rfl

example : LReach false {} ∧ AllOk { alloc := some 5 } ∧ ArgsOk {} ∧
    EnvOk false { alloc := some 5 } {} ∧
    ((commonInit false { alloc := some 5 } {} {} none {}).map fun r => (r.1, r.2.1, r.2.2.table, r.2.2.count))
      = some (.success, some 5, some 5, ⟨1, 1, 1, 1, 1, 1, 1, 1, 1⟩) ∧
    ((commonInit false { alloc := some 5, event := false } {} {} none {}).map fun r => (r.1, r.2.1, r.2.2.table, r.2.2.count))
      = some (.internalFailure, none, none, {}) := by
  refine ⟨LReach.start _ (fun _ _ => rfl), ?_, ?_, ?_, by decide, by decide⟩
  · simp [AllOk]
  · simp [ArgsOk]
  · intro _ p _; rfl

/-! ## C36 -/

/-- C36 is false of the code: when a modem module step fails, the caller's handle is left pointing to the
context that was just freed. -/
theorem C36_witness_dangling_handle (env : Env) (a : Args) (ha : ArgsOk a) (hok : AllOk env)
    (henv : EnvOk false env {}) (mod : Mod) (hm : mod.init ≠ .success) :
    ∃ p w', commonInit false env mod a none {} = some (mod.init, some p, w') ∧ w'.mem p = none := by
  cases hal : env.alloc with
  | none => exact absurd hal hok.1
  | some p =>
    obtain ⟨g1, g2, g3, g4, g5⟩ := ha
    have hck : checkInitParameter a = .success := by simp [checkInitParameter, g1, g2, g3, g4, g5]
    have hl := libInit_ok false env a {} p hck rfl hal hok
    obtain ⟨c, hcl⟩ := libCleanup_full false p
      { table := some p, mem := setMem (fun _ => none) p (some FullCtx), count := OneMore {} } {} rfl
      (by simp [setMem]) rfl
    refine ⟨p, { table := none, mem := setMem (setMem (fun _ => none) p (some FullCtx)) p none }, ?_, setMem_same _ _ _⟩
    simp [commonInit, g1, g2, g4, hl, hm, hcl]

/-- What holds of C36: when the library itself (arguments, memory, mutexes, queue, event group, task,
transport) cannot be initialised, the caller's handle is not written; and on success it designates the
live context.  MISSING: failure of a modem module step (witness above). -/
theorem C36_handle_partial (static : Bool) (env : Env) (mod : Mod) (a : Args) (old : Option Lifecycle.Ptr)
    (w : World) (henv : EnvOk static env w) (e : CellErr) (h : Option Lifecycle.Ptr) (w' : World)
    (hr : commonInit static env mod a old w = some (e, h, w')) :
    (¬ (ArgsOk a ∧ w.table = none ∧ AllOk env) → e ≠ .success ∧ h = old) ∧
    (e = .success → ∃ p, h = some p ∧ w'.mem p = some FullCtx) := by
  obtain ⟨A, B, C⟩ := C34_libInit_all_or_nothing static env a w henv
  obtain ⟨e', h', w'', hc, _, c2, c3⟩ := C34_commonInit_all_or_nothing static env mod a old w henv
  rw [hc] at hr; cases hr
  refine ⟨?_, ?_⟩
  · intro hn
    refine ⟨fun he => hn ⟨(c3.1 he).1, (c3.1 he).2.1, (c3.1 he).2.2.1⟩, ?_⟩
    rcases hl : libInit static env a w with ⟨x, y, z⟩
    have hx : x ≠ .success := by rw [← C, hl] at hn; exact hn
    obtain ⟨rfl, _⟩ := A x y z hl hx
    unfold commonInit at hc
    rw [hl] at hc
    split at hc
    · cases hc; rfl
    · split at hc
      · cases hc; rfl
      · split at hc
        · cases hc; rfl
        · cases hc; rfl
  · intro he
    obtain ⟨p, hp, _, hm, _⟩ := c2 he
    exact ⟨p, hp, hm⟩

/-! ## C20 -/

/-- C20 is false at the level of the library: initialisation succeeds with a URC table that is not
sorted, because the result of the check is ignored. -/
theorem C20_witness_init_accepts_unsorted :
    ∃ (t : List Urc.Entry) (w' : World), Urc.atParseInit (some t) ≠ .ok ∧
      libInit false { alloc := some 5 } { urc := t } {} = (.success, some 5, w') := by
  refine ⟨[⟨str "CREG", some 0⟩, ⟨str "CEREG", some 1⟩], _, by decide, libInit_ok _ _ _ _ 5 ?_ rfl rfl ?_⟩
  · rfl
  · simp [AllOk]

/-! ## C37 -/

/-- C37 is false of the code: there is a schedule in which cleanup has returned and the context is
freed, and the receive task then still reads the shutdown callback from it. -/
theorem C37_witness_use_after_free : ∃ l, (hsRun l).main = .returned ∧ .context .callback2 ∈ (hsRun l).bad :=
  ⟨[.thr true, .thr true, .main, .main, .main, .thr true, .thr true, .thr true, .thr true, .main, .main,
    .main, .thr true], by decide, by decide⟩

/-- ... and the same when the transport cannot be opened during initialisation. -/
theorem C37_witness_failed_open : ∃ l, (hsRun l).main = .returned ∧ .context .callback2 ∈ (hsRun l).bad :=
  ⟨[.thr false, .thr false, .main, .main, .main, .thr true], by decide, by decide⟩

/-- The control states that can occur together. -/
def HsInv (s : Hs) : Prop :=
  (s.evLive = false ↔ s.main = .freeCtx ∨ s.main = .returned) ∧
  (s.ctxLive = false ↔ s.main = .returned) ∧
  (s.main = .deleteEvent ∨ s.main = .freeCtx ∨ s.main = .returned ∨ s.aborted = true →
    s.thr = .callback2 ∨ s.thr = .ended) ∧
  (s.commOpen = true → s.thr = .setStarted ∨ s.thr = .waitEvent ∨ s.thr = .handleRx ∨ s.thr = .close) ∧
  (∀ b ∈ s.bad, b = .context .callback2)

theorem hsInv_step (s : Hs) (a : Act) (h : HsInv s) : HsInv (hsStep s a) := by
  obtain ⟨mn, th, cl, el, st, ab, abd, rx, co, bad⟩ := s
  obtain ⟨h1, h2, h3, h4, h5⟩ := h
  simp only at h1 h2 h3 h4 h5
  cases a with
  | main =>
    cases mn <;> simp only [hsStep] <;> (repeat' split) <;> simp_all [HsInv] <;> (try assumption)
  | thr ok =>
    cases th <;> simp only [hsStep, Hs.useCtx, Hs.useEv] <;> (repeat' split) <;> simp_all [HsInv] <;> (try assumption)
  | isr =>
    simp only [hsStep]
    (repeat' split) <;> simp_all [HsInv] <;> (try assumption)
    rcases h3 with e | e <;> simp [e] at h4

theorem hsInv_run (l : List Act) : HsInv (hsRun l) := by
  have : ∀ (l : List Act) (s : Hs), HsInv s → HsInv (l.foldl hsStep s) := by
    intro l
    induction l with
    | nil => exact fun s h => h
    | cons a t ih => exact fun s h => ih _ (hsInv_step s a h)
  exact this l {} (by simp [HsInv])

/-- What holds of C37 in every schedule: the event group is never used after it was deleted, the receive
interrupt never finds a freed context, all receiving and the transport are finished before cleanup (or
failed initialisation) deletes anything, and the only access to the freed context is the second read of
the shutdown callback.  MISSING: that last access (witnesses above). -/
theorem C37_shutdown_partial (l : List Act) :
    (∀ b ∈ (hsRun l).bad, b = .context .callback2) ∧
    ((hsRun l).main = .returned →
      ((hsRun l).thr = .callback2 ∨ (hsRun l).thr = .ended) ∧ (hsRun l).commOpen = false) := by
  obtain ⟨_, _, h3, h4, h5⟩ := hsInv_run l
  refine ⟨h5, fun hm => ?_⟩
  have ht := h3 (Or.inr (Or.inr (Or.inl hm)))
  refine ⟨ht, ?_⟩
  cases hc : (hsRun l).commOpen with
  | false => rfl
  | true =>
    rcases ht with ht | ht <;> simp [hc, ht] at h4

/-- C37, the same said of the objects: wherever the receive task is about to use the event group (setting STARTED, waiting
for events, setting ABORTED) the event group and the context exist; wherever it is about to use the context (opening and
closing the transport, receiving, the first shutdown callback) the context exists; and as long as the transport is open -
the receive interrupt can come - both exist.  MISSING: the second read of the shutdown callback. -/
theorem C37_objects_live_partial (l : List Act) :
    ((hsRun l).thr = .setStarted ∨ (hsRun l).thr = .waitEvent ∨ (hsRun l).thr = .setAborted →
      (hsRun l).evLive = true ∧ (hsRun l).ctxLive = true) ∧
    ((hsRun l).thr ≠ .callback2 ∧ (hsRun l).thr ≠ .ended → (hsRun l).ctxLive = true) ∧
    ((hsRun l).commOpen = true → (hsRun l).evLive = true ∧ (hsRun l).ctxLive = true) ∧
    ((hsRun l).main = .deleteEvent → (hsRun l).evLive = true) := by
  have h := hsInv_run l
  generalize hsRun l = s at h
  obtain ⟨mn, th, cl, el, st, ab, abd, rx, co, bad⟩ := s
  obtain ⟨h1, h2, h3, h4, _⟩ := h
  simp only at h1 h2 h3 h4 ⊢
  cases mn <;> cases th <;> simp_all

/-- The model notices every use of a freed object: each step of a task that needs the event group or the context records a
violation if it is gone. -/
theorem uses_recorded (s : Hs) :
    (s.main = .deleteEvent → s.evLive = false → .mainEvent ∈ (hsStep s .main).bad) ∧
    (s.ctxLive = false → s.thr ≠ .ended → ∀ ok, ∃ b, .context b ∈ (hsStep s (.thr ok)).bad) ∧
    (s.evLive = false → s.thr = .setStarted ∨ s.thr = .waitEvent ∨ s.thr = .setAborted → ∀ ok, ∃ b, .eventGroup b ∈ (hsStep s (.thr ok)).bad) ∧
    (s.ctxLive = false → s.commOpen = true → .isr ∈ (hsStep s .isr).bad) := by
  refine ⟨fun h1 h2 => by simp [hsStep, h1, h2], ?_, ?_, fun h1 h2 => by simp [hsStep, h1, h2]⟩
  · intro h1 h2 ok
    refine ⟨s.thr, ?_⟩
    cases h : s.thr <;> simp_all [hsStep, Hs.useCtx, Hs.useEv] <;> (repeat' split) <;> simp
  · intro h1 h2 ok
    refine ⟨s.thr, ?_⟩
    rcases h2 with h | h | h <;> simp [hsStep, Hs.useCtx, Hs.useEv, h, h1] <;> (repeat' split) <;> simp_all

/-- All the states occur: e.g. the receive task waits for events while the library is in use. -/
example : (hsRun [.thr true, .thr true, .main]).thr = .waitEvent ∧ (hsRun [.thr true, .thr true, .main]).main = .inUse := by
  decide

/-- Schedules in which the receive task's end is awaited before the context is freed (what a join would
guarantee). -/
def Joined : List Act → Hs → Prop
  | [], _ => True
  | .main :: t, s => (s.main = .freeCtx → s.thr = .ended) ∧ Joined t (hsStep s .main)
  | a :: t, s => Joined t (hsStep s a)

/-- With such a join shutdown is safe in every schedule. -/
theorem C37_joined_safe (l : List Act) (h : Joined l {}) : (hsRun l).bad = [] := by
  have key : ∀ (l : List Act) (s : Hs), HsInv s → (s.ctxLive = false → s.thr = .ended) → s.bad = [] →
      Joined l s → (l.foldl hsStep s).bad = [] := by
    intro l
    induction l with
    | nil => exact fun s _ _ hb _ => hb
    | cons a t ih =>
      intro s hi he hb hj
      refine ih _ (hsInv_step s a hi) ?_ ?_ ?_
      · obtain ⟨mn, th, cl, el, st, ab, abd, rx, co, bad⟩ := s
        simp only at he hb
        cases a with
        | main =>
          simp only [Joined] at hj
          cases mn <;> simp only [hsStep] <;> (repeat' split) <;> simp_all
        | thr ok =>
          cases th <;> simp only [hsStep, Hs.useCtx, Hs.useEv] <;> (repeat' split) <;> simp_all
        | isr => simp only [hsStep]; (repeat' split) <;> simp_all
      · obtain ⟨h1, h2, h3, h4, h5⟩ := hi
        obtain ⟨mn, th, cl, el, st, ab, abd, rx, co, bad⟩ := s
        simp only at he hb h1 h2 h3 h4 h5
        cases a with
        | main => cases mn <;> simp only [hsStep] <;> (repeat' split) <;> simp_all
        | thr ok =>
          cases th <;> simp only [hsStep, Hs.useCtx, Hs.useEv] <;> (repeat' split) <;> simp_all
        | isr => simp only [hsStep]; (repeat' split) <;> simp_all
      · cases a <;> simp only [Joined] at hj
        · exact hj.2
        · exact hj
        · exact hj
  exact key l {} (by simp [HsInv]) (by simp) rfl h

example : Joined [.thr true, .thr true, .main, .main, .main, .thr true, .thr true, .thr true, .thr true,
    .thr true, .main, .main, .main] {} ∧
    (hsRun [.thr true, .thr true, .main, .main, .main, .thr true, .thr true, .thr true, .thr true,
      .thr true, .main, .main, .main]).main = .returned := by
  refine ⟨?_, by decide⟩
  simp [Joined, hsStep, Hs.useCtx, Hs.useEv]

end Cellular.Props
