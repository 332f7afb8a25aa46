import Verif.ApiTime
import Verif.ApiPsmExact
/-!
# The exact law of network times (C56)

What `Cellular_GetNetworkTime` makes of every answer: which fields are taken, what is stored, when it succeeds.
-/

namespace Cellular.Spec
open Cellular Api

/-- A text cut at the given separators in turn; where the text has ended there are no more fields. -/
def cutAt : List Byte → Str → List Str
  | [], _ => []
  | _ :: _, [] => []
  | c :: cs, s => s.takeWhile (· ≠ c) :: cutAt cs ((s.dropWhile (· ≠ c)).drop 1)

/-- The text between outermost quotes (of a text of more than two characters; either quote may be missing). -/
def unquoted (s : Str) : Str :=
  if s.length ≤ 2 then s
  else
    let s := if s.head? = some 34 then s.drop 1 else s
    if s.getLast? = some 34 then s.dropLast else s

/-- The zone: the text from the first plus sign on, or, without one, from the first minus sign on. -/
def zoneText (x : Str) : Str := x.dropWhile (· ≠ (if 43 ∈ x then 43 else 45))

/-- year/month/day,hour:minute:second, then the sign of the zone. -/
def clockSeps (x : Str) : List Byte := [47, 47, 44, 58, 58, if 43 ∈ x ∨ 45 ∉ x then 43 else 45]

/-- The value of field number `i` (year, month, day, hour, minute, second) that starts with the number `z`; `none`: not legal. -/
def clockValue (lm i : Nat) (z : Option Int) : Option Nat :=
  z.bind (fun z => if 0 ≤ asInt32 lm z ∧ asInt32 lm z ≤ (if i = 0 then 65535 else 255) then some (asInt32 lm z).toNat else none)

/-- The values of the fields from the left. -/
def clockValues (lm : Nat) (zs : List (Option Int)) : List (Option Nat) := zs.zipIdx.map (fun z => clockValue lm z.2 z.1)

/-- What is stored for field `i`: its value if it and all fields before it are there and legal, otherwise 0. -/
def clockStored (vs : List (Option Nat)) (i : Nat) : Nat :=
  if (vs.take i).all Option.isSome then (vs[i]?).join.getD 0 else 0

/-- The time stored: without a zone nothing. -/
def clockTime (lm : Nat) (zone : Option Int) (vs : List (Option Nat)) : Time :=
  match zone with
  | none => ⟨0, 0, 0, 0, 0, 0, 0⟩
  | some z =>
    { year := clockStored vs 0, month := clockStored vs 1, day := clockStored vs 2
      hour := clockStored vs 3, minute := clockStored vs 4, second := clockStored vs 5, timeZone := asInt32 lm z }

/-- When the time is accepted: the zone is a number, all fields there are legal, and there are a date or a date and a clock. -/
def clockAccepted (zone : Option Int) (vs : List (Option Nat)) : Prop :=
  zone ≠ none ∧ (∀ v ∈ vs, v ≠ none) ∧ (vs.length = 3 ∨ vs.length = 6)

end Cellular.Spec

namespace Cellular.Props
open Cellular Spec Api Signal Tok
open Cellular.AtCore (strtoi AtErr)
open Cellular.AtStr

theorem unquoted_eq (s : Str) (h : valid s) : removeOutermostDoubleQuote s = (.success, unquoted s) := by
  unfold removeOutermostDoubleQuote unquoted
  rw [if_pos h]
  by_cases hl : s.length ≤ 2
  · rw [if_pos hl, if_neg (by omega)]
  · rw [if_neg hl, if_pos (by omega)]

theorem numTok_exact (lm : Nat) (tok : Str) (z : Option Int) (hz : TextNumber 10 tok z) (i : Nat) (max : Int)
    (hm : max = if i = 0 then 65535 else 255) (store : Nat → Time → Time) (t : Time) :
    numTok lm tok max store t = match clockValue lm i z with
      | some v => (.success, store v t)
      | none => (.error, t) := by
  unfold numTok
  rw [C08_exact lm 10 (by omega) hz]
  subst hm
  cases z with
  | none => rfl
  | some z =>
    simp only [clockValue, Option.map_some, Option.bind_some, reduceCtorEq, if_false]
    by_cases h : 0 ≤ asInt32 lm z ∧ asInt32 lm z ≤ (if i = 0 then 65535 else 255)
    · rw [if_pos h, if_pos h]
    · rw [if_neg h, if_neg h]

theorem bne_fun (c : Byte) : (fun b : Byte => b != c) = (fun b => decide (b ≠ c)) := by
  funext b; by_cases h : b = c <;> simp [h]

theorem getTok_cut {c : Byte} {s : Str} (hne : s ≠ []) (hl : s.length ≤ 256) :
    getTok c s = (.success, (s.dropWhile (· ≠ c)).drop 1, some (s.takeWhile (· ≠ c))) := by
  unfold getTok
  rw [if_pos (valid_of hne hl), bne_fun]

theorem rest_len (c : Byte) {s : Str} (hl : s.length ≤ 256) : ((s.dropWhile (· ≠ c)).drop 1).length ≤ 256 := by
  have := List.length_dropWhile_le (fun b : Byte => decide (b ≠ c)) s
  simp only [List.length_drop]
  omega

theorem cutAt_cons (c : Byte) (cs : List Byte) {s : Str} (h : s ≠ []) :
    cutAt (c :: cs) s = s.takeWhile (· ≠ c) :: cutAt cs ((s.dropWhile (· ≠ c)).drop 1) := by
  cases s with
  | nil => exact absurd rfl h
  | cons a s => rfl

/-- The legal fields from the left, stored in turn. -/
def stores : List (Nat → Time → Time) → List (Option Nat) → Time → Time
  | st :: sts, some v :: vs, t => stores sts vs (st v t)
  | _, _, t => t

def setYear (v : Nat) (t : Time) : Time := { t with year := v }
def setMonth (v : Nat) (t : Time) : Time := { t with month := v }
def setDay (v : Nat) (t : Time) : Time := { t with day := v }
def setHour (v : Nat) (t : Time) : Time := { t with hour := v }
def setMinute (v : Nat) (t : Time) : Time := { t with minute := v }
def setSecond (v : Nat) (t : Time) : Time := { t with second := v }

/-- One field of a text. -/
theorem step_exact (lm : Nat) (c : Byte) (cs : List Byte) {s : Str} (hne : s ≠ []) (hl : s.length ≤ 256) {zs : List (Option Int)}
    (hz : List.Forall₂ (TextNumber 10) (cutAt (c :: cs) s) zs) :
    ∃ tok rest z zs', getTok c s = (.success, rest, some tok) ∧ rest.length ≤ 256 ∧ zs = z :: zs' ∧ TextNumber 10 tok z ∧
      List.Forall₂ (TextNumber 10) (cutAt cs rest) zs' := by
  rw [cutAt_cons c cs hne] at hz
  cases hz with
  | @cons _ z _ zs' h1 h2 => exact ⟨_, _, z, zs', getTok_cut hne hl, rest_len c hl, rfl, h1, h2⟩

theorem clock_exact (lm : Nat) (neg : Bool) {s : Str} (hne : s ≠ []) (hl : s.length ≤ 256) {zs : List (Option Int)}
    (hz : List.Forall₂ (TextNumber 10) (cutAt [58, 58, if neg then 45 else 43] s) zs) (t : Time) :
    ∃ tok rest, getTok 58 s = (.success, rest, some tok) ∧
      let vs := (zs.zipIdx 3).map (fun z => clockValue lm z.2 z.1)
      (parseClock lm tok neg rest t).2 = stores [setHour, setMinute, setSecond] vs t ∧
      ((parseClock lm tok neg rest t).1 = .success ↔ vs.all Option.isSome ∧ vs.length = 3) := by
  obtain ⟨tok, rest, z, zs', hg, hl', rfl, hz1, hz2⟩ := step_exact lm _ _ hne hl hz
  refine ⟨tok, rest, hg, ?_⟩
  unfold parseClock
  have e1 := numTok_exact lm tok z hz1 3 255 rfl (fun v t => { t with hour := v }) t
  simp only [List.zipIdx_cons, List.map_cons, Nat.reduceAdd]
  generalize clockValue lm 3 z = v1 at e1 ⊢
  cases v1 with
  | none => rw [e1]; simp [stores]
  | some v1 =>
    simp only at e1
    rw [e1]
    simp only
    by_cases hr : rest = []
    · subst hr
      cases hz2
      rw [getTok_nil]
      simp [stores, setHour]
    · obtain ⟨tok2, rest2, z2, zs2, hg2, hl2, rfl, hz3, hz4⟩ := step_exact lm _ _ hr hl' hz2
      rw [hg2]
      simp only [List.zipIdx_cons, List.map_cons, Nat.reduceAdd]
      have e2 := numTok_exact lm tok2 z2 hz3 4 255 rfl (fun v t => { t with minute := v }) (setHour v1 t)
      generalize clockValue lm 4 z2 = v2 at e2 ⊢
      cases v2 with
      | none =>
        simp only [setHour] at e2
        rw [e2]; simp [stores, setHour]
      | some v2 =>
        simp only [setHour] at e2
        rw [e2]
        simp only
        by_cases hr2 : rest2 = []
        · subst hr2
          cases hz4
          rw [getTok_nil]
          simp [stores, setHour, setMinute]
        · obtain ⟨tok3, rest3, z3, zs3, hg3, hl3, rfl, hz5, hz6⟩ := step_exact lm _ _ hr2 hl2 hz4
          rw [hg3]
          simp only [cutAt] at hz6
          cases hz6
          simp only [List.zipIdx_cons, List.map_cons, Nat.reduceAdd]
          have e3 := numTok_exact lm tok3 z3 hz5 5 255 rfl (fun v t => { t with second := v }) (setMinute v2 (setHour v1 t))
          generalize clockValue lm 5 z3 = v3 at e3 ⊢
          simp only [setHour, setMinute] at e3
          rw [e3]
          cases v3 <;> simp [stores, setHour, setMinute, setSecond]

theorem date_exact (lm : Nat) {s : Str} (hne : s ≠ []) (hl : s.length ≤ 256) (cs : List Byte) {zs : List (Option Int)}
    (hz : List.Forall₂ (TextNumber 10) (cutAt (47 :: 47 :: 44 :: cs) s) zs) (t : Time) :
    ∃ tok rest, getTok 47 s = (.success, rest, some tok) ∧
      let vs := ((zs.take 3).zipIdx 0).map (fun z => clockValue lm z.2 z.1)
      (parseDate lm tok rest t).2.2 = stores [setYear, setMonth, setDay] vs t ∧
      ((parseDate lm tok rest t).1 = .success ↔ vs.all Option.isSome ∧ vs.length = 3) ∧
      (vs.length = 3 → vs.all Option.isSome → (parseDate lm tok rest t).2.1.length ≤ 256 ∧
        List.Forall₂ (TextNumber 10) (cutAt cs (parseDate lm tok rest t).2.1) (zs.drop 3)) := by
  obtain ⟨tok, rest, z, zs', hg, hl', rfl, hz1, hz2⟩ := step_exact lm _ _ hne hl hz
  refine ⟨tok, rest, hg, ?_⟩
  unfold parseDate
  have e1 := numTok_exact lm tok z hz1 0 65535 rfl (fun v t => { t with year := v }) t
  simp only [List.take_succ_cons, List.zipIdx_cons, List.map_cons, Nat.reduceAdd]
  generalize clockValue lm 0 z = v1 at e1 ⊢
  cases v1 with
  | none => rw [e1]; simp [stores]
  | some v1 =>
    simp only at e1
    rw [e1]
    simp only
    by_cases hr : rest = []
    · subst hr
      cases hz2
      rw [getTok_nil]
      simp [stores, setYear]
    · obtain ⟨tok2, rest2, z2, zs2, hg2, hl2, rfl, hz3, hz4⟩ := step_exact lm _ _ hr hl' hz2
      rw [hg2]
      simp only [List.take_succ_cons, List.zipIdx_cons, List.map_cons, Nat.reduceAdd]
      have e2 := numTok_exact lm tok2 z2 hz3 1 255 rfl (fun v t => { t with month := v }) (setYear v1 t)
      generalize clockValue lm 1 z2 = v2 at e2 ⊢
      cases v2 with
      | none =>
        simp only [setYear] at e2
        rw [e2]; simp [stores, setYear]
      | some v2 =>
        simp only [setYear] at e2
        rw [e2]
        simp only
        by_cases hr2 : rest2 = []
        · subst hr2
          cases hz4
          rw [getTok_nil]
          simp [stores, setYear, setMonth]
        · obtain ⟨tok3, rest3, z3, zs3, hg3, hl3, rfl, hz5, hz6⟩ := step_exact lm _ _ hr2 hl2 hz4
          rw [hg3]
          simp only [List.take_succ_cons, List.take_zero, List.zipIdx_cons, List.zipIdx_nil, List.map_cons, List.map_nil, Nat.reduceAdd]
          have e3 := numTok_exact lm tok3 z3 hz5 2 255 rfl (fun v t => { t with day := v }) (setMonth v2 (setYear v1 t))
          generalize clockValue lm 2 z3 = v3 at e3 ⊢
          simp only [setYear, setMonth] at e3
          rw [e3]
          cases v3 <;> simp [stores, setYear, setMonth, setDay, hl3, hz6]

theorem zone_exact (lm : Nat) (x : Str) (z : Option Int) (hz : TextNumber 10 (zoneText x) z) (t : Time) :
    (z = none → (parseTimeZone lm x t).1 = .error ∧ (parseTimeZone lm x t).2.2 = t) ∧
    (∀ v, z = some v → parseTimeZone lm x t = (.success, decide (43 ∉ x ∧ 45 ∈ x), { t with timeZone := asInt32 lm v })) := by
  have hs := C08_exact lm 10 (by omega) hz
  unfold parseTimeZone strstr1
  unfold zoneText at hs
  by_cases hp : (43 : Byte) ∈ x
  · rw [if_pos hp] at hs
    have hc : x.contains (43 : Byte) = true := by simpa using hp
    simp only [hc, if_true, bne_fun, hs]
    cases z with
    | none => simp
    | some v => simp [hp]
  · rw [if_neg hp] at hs
    have hc : x.contains (43 : Byte) = false := by simpa using hp
    by_cases hm : (45 : Byte) ∈ x
    · have hc2 : x.contains (45 : Byte) = true := by simpa using hm
      simp only [hc, hc2, if_true, bne_fun, hs, Bool.false_eq_true, if_false]
      cases z with
      | none => simp
      | some v => simp [hp, hm]
    · have hc2 : x.contains (45 : Byte) = false := by simpa using hm
      have hd : x.dropWhile (fun b => decide (b ≠ (45 : Byte))) = [] := by
        rw [List.dropWhile_eq_nil_iff]
        intro b hb
        have : b ≠ 45 := fun e => hm (e ▸ hb)
        simpa using this
      rw [hd] at hs
      have h0 : strtoi lm (some []) 10 = (.error, none) := rfl
      rw [h0] at hs
      cases z with
      | none => simp only [hc, hc2, Bool.false_eq_true, if_false]; simp
      | some v => simp at hs

theorem unquoted_ne {s : Str} (h : s ≠ []) (hl : s.length ≤ 256) : unquoted s ≠ [] ∧ (unquoted s).length ≤ 256 := by
  unfold unquoted
  by_cases h2 : s.length ≤ 2
  · rw [if_pos h2]; exact ⟨h, hl⟩
  · rw [if_neg h2]
    have l1 : 2 ≤ (if s.head? = some 34 then s.drop 1 else s).length ∧ (if s.head? = some 34 then s.drop 1 else s).length ≤ 256 := by
      split
      · simp only [List.length_drop]; omega
      · omega
    generalize (if s.head? = some 34 then s.drop 1 else s) = u at l1
    simp only
    split
    · have : u.dropLast.length = u.length - 1 := List.length_dropLast
      constructor
      · intro e; rw [e] at this; simp at this; omega
      · omega
    · constructor
      · rintro rfl; simp at l1
      · exact l1.2

/-- Storing the legal fields in turn gives the values of the specification. -/
theorem stores_time (lm : Nat) (z : Int) (vs : List (Option Nat)) (h : vs.length ≤ 6) :
    stores [setYear, setMonth, setDay, setHour, setMinute, setSecond] vs { Time.zero with timeZone := asInt32 lm z } =
      clockTime lm (some z) vs := by
  match vs, h with
  | [], _ => rfl
  | none :: vs, _ => simp [stores, clockTime, clockStored, Time.zero]
  | [some a], _ => simp [stores, clockTime, clockStored, Time.zero, setYear]
  | some a :: none :: vs, _ => simp [stores, clockTime, clockStored, Time.zero, setYear]
  | [some a, some b], _ => simp [stores, clockTime, clockStored, Time.zero, setYear, setMonth]
  | some a :: some b :: none :: vs, _ => simp [stores, clockTime, clockStored, Time.zero, setYear, setMonth]
  | [some a, some b, some c], _ => simp [stores, clockTime, clockStored, Time.zero, setYear, setMonth, setDay]
  | some a :: some b :: some c :: none :: vs, _ =>
    simp [stores, clockTime, clockStored, Time.zero, setYear, setMonth, setDay]
  | [some a, some b, some c, some d], _ =>
    simp [stores, clockTime, clockStored, Time.zero, setYear, setMonth, setDay, setHour]
  | some a :: some b :: some c :: some d :: none :: vs, _ =>
    simp [stores, clockTime, clockStored, Time.zero, setYear, setMonth, setDay, setHour]
  | [some a, some b, some c, some d, some e], _ =>
    simp [stores, clockTime, clockStored, Time.zero, setYear, setMonth, setDay, setHour, setMinute]
  | some a :: some b :: some c :: some d :: some e :: none :: vs, _ =>
    simp [stores, clockTime, clockStored, Time.zero, setYear, setMonth, setDay, setHour, setMinute]
  | [some a, some b, some c, some d, some e, some f], _ =>
    simp [stores, clockTime, clockStored, Time.zero, setYear, setMonth, setDay, setHour, setMinute, setSecond]
  | _ :: _ :: _ :: _ :: _ :: _ :: _ :: _, h => simp at h

theorem cutAt_len (cs : List Byte) (s : Str) : (cutAt cs s).length ≤ cs.length := by
  induction cs generalizing s with
  | nil => simp [cutAt]
  | cons c cs ih =>
    cases s with
    | nil => simp [cutAt]
    | cons a s => simp only [cutAt, List.length_cons]; have := ih (((a :: s).dropWhile (· ≠ c)).drop 1); omega

theorem stores_append (f g : List (Nat → Time → Time)) (vs ws : List (Option Nat)) (t : Time) (hl : vs.length = f.length)
    (hv : vs.all Option.isSome) : stores (f ++ g) (vs ++ ws) t = stores g ws (stores f vs t) := by
  induction f generalizing vs t with
  | nil => cases vs with
    | nil => rfl
    | cons => simp at hl
  | cons st f ih =>
    cases vs with
    | nil => simp at hl
    | cons v vs =>
      cases v with
      | none => simp at hv
      | some v => exact ih vs _ (by simpa using hl) (by simpa using hv)

theorem stores_stop (f g : List (Nat → Time → Time)) (vs ws : List (Option Nat)) (t : Time)
    (h : vs.length ≤ f.length) (hb : ¬ vs.all Option.isSome) : stores (f ++ g) (vs ++ ws) t = stores f vs t := by
  induction f generalizing vs t with
  | nil => cases vs with
    | nil => simp at hb
    | cons => simp at h
  | cons st f ih =>
    cases vs with
    | nil => simp at hb
    | cons v vs =>
      cases v with
      | none => rfl
      | some v => exact ih vs _ (by simpa using h) (by simpa using hb)

theorem stores_short (f g : List (Nat → Time → Time)) (vs : List (Option Nat)) (t : Time) (h : vs.length ≤ f.length) :
    stores (f ++ g) vs t = stores f vs t := by
  induction f generalizing vs t with
  | nil => cases vs with
    | nil => cases g <;> rfl
    | cons => simp at h
  | cons st f ih =>
    cases vs with
    | nil => rfl
    | cons v vs =>
      cases v with
      | none => rfl
      | some v => exact ih vs _ (by simpa using h)

theorem timeInfo_exact (lm : Nat) (s : Str) (hne : s ≠ []) (hl : s.length ≤ 256) (zone : Option Int)
    (hzone : TextNumber 10 (zoneText (unquoted s)) zone) (zs : List (Option Int))
    (hz : List.Forall₂ (TextNumber 10) (cutAt (clockSeps (unquoted s)) (unquoted s)) zs) :
    (parseTimeInfo lm s).2 = clockTime lm zone (clockValues lm zs) ∧
    ((parseTimeInfo lm s).1 = .ok ↔ clockAccepted zone (clockValues lm zs)) := by
  obtain ⟨xne, xl⟩ := unquoted_ne hne hl
  have hcl : zs.length ≤ 6 := by
    rw [← hz.length_eq]; exact cutAt_len _ _
  unfold parseTimeInfo
  rw [unquoted_eq s (valid_of hne hl)]
  generalize unquoted s = x at *
  simp only
  obtain ⟨hz0, hz1⟩ := zone_exact lm x zone hzone Time.zero
  cases zone with
  | none =>
    obtain ⟨e1, e2⟩ := hz0 rfl
    generalize parseTimeZone lm x Time.zero = r at e1 e2
    obtain ⟨a, b, c⟩ := r
    simp only at e1 e2
    subst e1 e2
    exact ⟨rfl, by simp [translateAt, clockAccepted]⟩
  | some z =>
    rw [hz1 z rfl]
    simp only
    unfold clockSeps at hz
    obtain ⟨tok, rest, hg, hd1, hd2, hd3⟩ := date_exact lm xne xl _ hz { Time.zero with timeZone := asInt32 lm z }
    rw [hg]
    simp only
    -- all values: those of the date and those of the clock
    have hvs : clockValues lm zs = ((zs.take 3).zipIdx 0).map (fun z => clockValue lm z.2 z.1) ++
        ((zs.drop 3).zipIdx (0 + (zs.take 3).length)).map (fun z => clockValue lm z.2 z.1) := by
      rw [← List.map_append, ← List.zipIdx_append, List.take_append_drop]; rfl
    have hlen : (clockValues lm zs).length = zs.length := by simp [clockValues]
    have hacc : clockAccepted (some z) (clockValues lm zs) ↔ (clockValues lm zs).all Option.isSome ∧
        ((clockValues lm zs).length = 3 ∨ (clockValues lm zs).length = 6) := by
      unfold clockAccepted
      rw [List.all_eq_true]
      simp [Option.isSome_iff_ne_none]
    rw [← stores_time lm z _ (by omega), hacc]
    have hd0 : (((zs.take 3).zipIdx 0).map (fun z => clockValue lm z.2 z.1)).length = (zs.take 3).length := by simp
    generalize hvd : ((zs.take 3).zipIdx 0).map (fun z => clockValue lm z.2 z.1) = vd at hd1 hd2 hd3 hvs hd0
    generalize hr : parseDate lm tok rest { Time.zero with timeZone := asInt32 lm z } = r at hd1 hd2 hd3
    obtain ⟨e, rest', t'⟩ := r
    simp only at hd1 hd2 hd3 ⊢
    have hvdl : vd.length ≤ 3 := by rw [hd0, List.length_take]; omega
    by_cases hok : vd.all Option.isSome ∧ vd.length = 3
    · have he : e = .success := hd2.mpr hok
      subst he
      rw [show translateAt AtErr.success = .ok from rfl]
      simp only
      obtain ⟨hrl, hz'⟩ := hd3 hok.2 hok.1
      have h3 : (zs.take 3).length = 3 := by omega
      rw [h3, Nat.zero_add] at hvs
      have hst : ∀ w, stores [setYear, setMonth, setDay, setHour, setMinute, setSecond] (vd ++ w)
          { Time.zero with timeZone := asInt32 lm z } = stores [setHour, setMinute, setSecond] w t' := by
        intro w
        rw [show [setYear, setMonth, setDay, setHour, setMinute, setSecond] =
          [setYear, setMonth, setDay] ++ [setHour, setMinute, setSecond] from rfl,
          stores_append _ _ _ _ _ hok.2 hok.1, hd1]
      rw [hvs, hst]
      by_cases hrn : rest' = []
      · subst hrn
        simp only [cutAt] at hz'
        have hz'' : zs.drop 3 = [] := by
          have := hz'.length_eq
          exact List.length_eq_zero_iff.mp this.symm
        rw [hz'', getTok_nil]
        simp only [List.zipIdx_nil, List.map_nil, List.append_nil]
        refine ⟨rfl, ?_⟩
        simp [hok.1, hok.2]
      · have hsg : (if 43 ∈ x ∨ 45 ∉ x then (43 : Byte) else 45) = (if decide (43 ∉ x ∧ 45 ∈ x) = true then 45 else 43) := by
          by_cases h1 : (43 : Byte) ∈ x <;> by_cases h2 : (45 : Byte) ∈ x <;> simp [h1, h2]
        rw [hsg] at hz'
        obtain ⟨tok2, rest2, hg2, hc1, hc2⟩ := clock_exact lm (decide (43 ∉ x ∧ 45 ∈ x)) hrn hrl hz' t'
        rw [hg2]
        simp only
        have hvc : 0 < (((zs.drop 3).zipIdx 3).map (fun z => clockValue lm z.2 z.1)).length := by
          have := hz'.length_eq
          rw [cutAt_cons _ _ hrn] at this
          simp only [List.length_map, List.length_zipIdx]
          rw [← this]; simp
        generalize ((zs.drop 3).zipIdx 3).map (fun z => clockValue lm z.2 z.1) = vc at hc1 hc2 hvc
        generalize parseClock lm tok2 (decide (43 ∉ x ∧ 45 ∈ x)) rest2 t' = q at hc1 hc2
        obtain ⟨e2, t2⟩ := q
        simp only at hc1 hc2 ⊢
        refine ⟨hc1, ?_⟩
        have tr : translateAt e2 = .ok ↔ e2 = .success := by cases e2 <;> simp [translateAt]
        rw [tr, hc2, List.all_append, hok.1, List.length_append, hok.2]
        constructor
        · rintro ⟨h1, h2⟩; exact ⟨by simpa using h1, Or.inr (by omega)⟩
        · rintro ⟨h1, h2⟩
          exact ⟨by simpa using h1, by omega⟩
    · have he : e ≠ .success := fun h => hok (hd2.mp h)
      have hp : translateAt e ≠ .ok := by cases e <;> simp_all [translateAt]
      have hres : stores [setYear, setMonth, setDay, setHour, setMinute, setSecond] (clockValues lm zs)
          { Time.zero with timeZone := asInt32 lm z } = t' := by
        rw [hvs, hd1, show [setYear, setMonth, setDay, setHour, setMinute, setSecond] =
          [setYear, setMonth, setDay] ++ [setHour, setMinute, setSecond] from rfl]
        by_cases ha : vd.all Option.isSome
        · have : vd.length ≠ 3 := fun h => hok ⟨ha, h⟩
          have hz0 : zs.drop 3 = [] := by
            rw [hd0, List.length_take] at this
            exact List.drop_eq_nil_iff.mpr (by omega)
          rw [hz0]
          simp only [List.zipIdx_nil, List.map_nil, List.append_nil]
          exact stores_short _ _ _ _ hvdl
        · exact stores_stop _ _ _ _ _ hvdl ha
      have hna : ¬ ((clockValues lm zs).all Option.isSome ∧ ((clockValues lm zs).length = 3 ∨ (clockValues lm zs).length = 6)) := by
        rintro ⟨h1, h2⟩
        rw [hvs, List.all_append, Bool.and_eq_true] at h1
        refine hok ⟨h1.1, ?_⟩
        rw [hd0, List.length_take]
        omega
      rw [hres]
      generalize translateAt e = q at hp
      cases q <;> simp_all

/-- C56, the exact law: for every answer line of at most 256 characters with something else than white space after its first
colon.  White space and outermost quotes are removed, the text is cut into fields, and the fields, as long as they are legal, and the
zone are stored, the others are 0; the result is success exactly if the zone is a number, all fields there are legal, and there are
a date or a date and a clock. -/
theorem C56_exact (lm : Nat) (pre body : Str) (more : List Str) (old : Time) (hpre : (58 : Byte) ∉ pre)
    (hl : (pre ++ 58 :: body).length ≤ 256) (hne : ∃ b ∈ body, ¬ White b) (x : Str)
    (hx : x = unquoted (body.filter (fun b => decide (¬ White b))))
    (zone : Option Int) (hzone : TextNumber 10 (zoneText x) zone)
    (zs : List (Option Int)) (hz : List.Forall₂ (TextNumber 10) (cutAt (clockSeps x) x) zs) :
    (recvNetworkTime lm ((pre ++ 58 :: body) :: more) old).2 = clockTime lm zone (clockValues lm zs) ∧
    ((recvNetworkTime lm ((pre ++ 58 :: body) :: more) old).1 = .ok ↔ clockAccepted zone (clockValues lm zs)) := by
  have hbl : body.length ≤ 256 := by
    simp only [List.length_append, List.length_cons] at hl; omega
  have hbne : body ≠ [] := by obtain ⟨b, hb, _⟩ := hne; rintro rfl; simp at hb
  have hf : (fun b => !isSpace b) = (fun b => decide (¬ White b)) := by
    funext b
    have := isSpace_iff b
    by_cases hw : White b <;> simp_all
  subst hx
  unfold recvNetworkTime
  simp only
  rw [removePrefix_eq hpre hl]
  simp only
  unfold removeAllWhiteSpaces
  rw [if_pos (valid_of hbne hbl), hf]
  simp only
  refine timeInfo_exact lm _ ?_ ?_ zone hzone zs hz
  · obtain ⟨b, hb, hw⟩ := hne
    intro e
    have : b ∈ body.filter (fun b => decide (¬ White b)) := List.mem_filter.mpr ⟨hb, by simpa using hw⟩
    rw [e] at this
    simp at this
  · exact Nat.le_trans (List.length_filter_le _ _) hbl

/-- All other answers are refused: without a line, with a line that is too long or without colon or with nothing after it, the
caller's record is unchanged; with a blank text it is set to 0. -/
theorem C56_refused (lm : Nat) (old : Time) :
    recvNetworkTime lm [] old = (.badParam, old) ∧
    (∀ line more, (256 < line.length ∨ (58 : Byte) ∉ line) → recvNetworkTime lm (line :: more) old = (.badParam, old)) ∧
    (∀ pre more, recvNetworkTime lm ((pre ++ [58]) :: more) old = (.badParam, old) ∨ (58 : Byte) ∈ pre) ∧
    (∀ pre body more, (58 : Byte) ∉ pre → body ≠ [] → (∀ b ∈ body, White b) → (pre ++ 58 :: body).length ≤ 256 →
      recvNetworkTime lm ((pre ++ 58 :: body) :: more) old = (.failure, Time.zero)) := by
  refine ⟨rfl, ?_, ?_, ?_⟩
  · intro line more h
    have : ∃ o, removePrefix line = (.badParameter, o) := by
      unfold removePrefix
      split
      · rename_i hv
        have := valid_len hv
        rw [if_neg]
        · exact ⟨_, rfl⟩
        · rcases h with h | h
          · omega
          · simpa using h
      · exact ⟨_, rfl⟩
    obtain ⟨o, ho⟩ := this
    unfold recvNetworkTime
    simp only
    rw [ho]
    rfl
  · intro pre more
    by_cases hp : (58 : Byte) ∈ pre
    · exact Or.inr hp
    · left
      by_cases hl : (pre ++ [58]).length ≤ 256
      · unfold recvNetworkTime
        simp only
        rw [removePrefix_eq hp hl]
        rfl
      · unfold recvNetworkTime removePrefix
        simp only
        rw [if_neg (by intro hv; have := valid_len hv; omega)]
        rfl
  · intro pre body more hp hb hw hl
    have hbl : body.length ≤ 256 := by
      simp only [List.length_append, List.length_cons] at hl; omega
    unfold recvNetworkTime
    simp only
    rw [removePrefix_eq hp hl]
    simp only
    unfold removeAllWhiteSpaces
    rw [if_pos (valid_of hb hbl)]
    have : body.filter (fun b => !isSpace b) = [] := by
      rw [List.filter_eq_nil_iff]
      intro b hb
      have := (isSpace_iff b).mpr (hw b hb)
      simp [this]
    rw [this]
    rfl

/-- Every answer line has such numbers, and only one list of them. -/
theorem C56_numbers (x : Str) : (∃ z, TextNumber 10 (zoneText x) z ∧ ∀ z', TextNumber 10 (zoneText x) z' → z' = z) ∧
    ∃ zs, List.Forall₂ (TextNumber 10) (cutAt (clockSeps x) x) zs ∧
      ∀ zs', List.Forall₂ (TextNumber 10) (cutAt (clockSeps x) x) zs' → zs' = zs := by
  constructor
  · obtain ⟨z, hz⟩ := C08_every_text 10 (zoneText x)
    exact ⟨z, hz, fun z' h => C08_one_number 10 (by omega) h hz⟩
  · generalize cutAt (clockSeps x) x = fs
    induction fs with
    | nil => exact ⟨[], .nil, fun zs' h => by cases h; rfl⟩
    | cons f fs ih =>
      obtain ⟨zs, h, hu⟩ := ih
      obtain ⟨z, hz⟩ := C08_every_text 10 f
      refine ⟨z :: zs, .cons hz h, fun zs' h' => ?_⟩
      cases h' with
      | @cons _ z' _ zs' h1 h2 => rw [hu _ h2, C08_one_number 10 (by omega) h1 hz]

/-- C56 for the API: the caller's record after any such answer to `AT+CCLK?`, and whether the query succeeds. -/
theorem C56_query_exact (lm : Nat) (w : World) (ho : LibraryOpen w) (old : Time) (pre body : Str) (more : List Str)
    (hpre : (58 : Byte) ∉ pre) (hl : (pre ++ 58 :: body).length ≤ 256) (hne : ∃ b ∈ body, ¬ White b)
    (ha : w.modem w.sent ⟨str "AT+CCLK?", .withPrefix, some (str "+CCLK")⟩ = .lines ((pre ++ 58 :: body) :: more))
    (x : Str) (hx : x = unquoted (body.filter (fun b => decide (¬ White b))))
    (zone : Option Int) (hzone : TextNumber 10 (zoneText x) zone)
    (zs : List (Option Int)) (hz : List.Forall₂ (TextNumber 10) (cutAt (clockSeps x) x) zs) :
    (getNetworkTime lm w (some old)).out = some (clockTime lm zone (clockValues lm zs)) ∧
    ((getNetworkTime lm w (some old)).err = .success ↔ clockAccepted zone (clockValues lm zs)) := by
  obtain ⟨h1, h2⟩ := C56_exact lm pre body more old hpre hl hne x hx zone hzone zs hz
  unfold getNetworkTime
  rw [checkLib_open ho]
  simp only [request_answer (r := ⟨str "AT+CCLK?", .withPrefix, some (str "+CCLK")⟩) (by decide) ha, h1, true_and]
  rw [← h2]
  have tr : ∀ e : PktStatus, translatePkt e = .success ↔ e = .ok := by intro e; cases e <;> simp [translatePkt]
  exact tr _

/-- The law applied: an illegal minute; year to hour are stored, minute and second are not, the result is failure. -/
example : let x := unquoted ((str " \"24/01/02,03:-4:05+06\"").filter (fun b => decide (¬ White b)))
    cutAt (clockSeps x) x = [str "24", str "01", str "02", str "03", str "-4", str "05"] ∧ zoneText x = str "+06" ∧
    clockTime (2 ^ 31 - 1) (some 6) (clockValues (2 ^ 31 - 1) [some 24, some 1, some 2, some 3, some (-4), some 5]) =
      ⟨1, 2, 3, 0, 0, 24, 6⟩ ∧
    ¬ clockAccepted (some 6) (clockValues (2 ^ 31 - 1) [some 24, some 1, some 2, some 3, some (-4), some 5]) ∧
    recvNetworkTime (2 ^ 31 - 1) [str "+CCLK: \"24/01/02,03:-4:05+06\""] Time.zero = (.failure, ⟨1, 2, 3, 0, 0, 24, 6⟩) := by
  refine ⟨by decide +kernel, by decide +kernel, by decide +kernel, ?_, by decide +kernel⟩
  rintro ⟨_, h, _⟩
  exact h none (by decide +kernel) rfl

end Cellular.Props
