import Verif.UrcProps
/-!
# The remaining unsolicited lines (C21): empty names and heap exhaustion

With `C21_prefixed_urc_delivery_partial`, `C21_plain_urc_delivery` and `C21_witness_long_line_dropped` these
theorems give what happens to every line.
-/

namespace Cellular.Props
open Cellular Cellular.Spec Cellular.Urc Cellular.AtCore

theorem noNul_append {a b : Str} (ha : NoNul a) (hb : NoNul b) : NoNul (a ++ b) := by
  intro x hx
  rcases List.mem_append.mp hx with h | h
  · exact ha x h
  · exact hb x h

theorem noNul_colons (k : Nat) : NoNul (List.replicate k (58 : Byte)) := by
  intro x hx
  rw [(List.mem_replicate.mp hx).2]; decide

theorem takeWhile_colons (k : Nat) (r : Str) (hr : ∀ b ∈ r.head?, b ≠ 58) :
    List.takeWhile (fun b => List.contains [(58 : Byte)] b) (List.replicate k 58 ++ r) = List.replicate k 58 := by
  rw [List.takeWhile_append_of_pos (by intro b hb; simp [(List.mem_replicate.mp hb).2])]
  cases r with
  | nil => simp
  | cons c t =>
    have : c ≠ 58 := hr c (by simp)
    simp [this]

theorem takeWhile_name (name r : Str) (h58 : (58 : Byte) ∉ name) (hr : r = [] ∨ ∃ t, r = 58 :: t) :
    List.takeWhile (fun b => !List.contains [(58 : Byte)] b) (name ++ r) = name := by
  rw [List.takeWhile_append_of_pos]
  · rcases hr with rfl | ⟨t, rfl⟩ <;> simp
  · intro b hb
    have : b ≠ 58 := fun e => h58 (e ▸ hb)
    simpa using this

/-- The line starts with the prefix character and a colon: it counts as prefixed. -/
theorem prefix_present_colon (r : Str) (hr : NoNul r) (hlen : (43 :: 58 :: r).length ≤ 256) :
    (AtStr.isPrefixPresent (43 :: 58 :: r)).2 = some true := by
  have hline : NoNul (43 :: 58 :: r) := by
    intro x hx
    rcases List.mem_cons.mp hx with h | h
    · subst h; decide
    · rcases List.mem_cons.mp h with h | h
      · subst h; decide
      · exact hr x h
  have hcs : CStrAt ((43 :: 58 :: r) ++ [0]) 0 (43 :: 58 :: r) := ⟨hline, [], [], by simp, rfl⟩
  obtain ⟨b, h1, h2⟩ := C05_prefix_present_iff _ 0 _ hcs (by simp) hlen
  rw [isPrefixPresent_refines hcs] at h1
  injection h1 with h1
  rw [h1, h2.mpr ⟨[], r, rfl, by simp⟩]

/-- A line with colons before the name, `+:NAME:payload` or more colons, of at most 256 characters, is
delivered exactly once: the handler registered for NAME gets the payload, or the generic callback the
unchanged line. -/
theorem C21_colons_before_name (endNull : Bool) (t : List Entry) (hok : atParseInit (some t) = .ok)
    (k : Nat) (name payload : Str) (hn : NoNul name) (h58 : (58 : Byte) ∉ name) (hne : name ≠ [])
    (hp : NoNul payload)
    (hlen : (43 :: 58 :: (List.replicate k 58 ++ name ++ 58 :: payload)).length ≤ 256) :
    processUrcPacket endNull true t (43 :: 58 :: (List.replicate k 58 ++ name ++ 58 :: payload)) =
      some (expectedDelivery t name payload (43 :: 58 :: (List.replicate k 58 ++ name ++ 58 :: payload))) := by
  have h58p : NoNul (58 :: payload) := noNul_append (a := [58]) (by intro x hx; simp at hx; subst hx; decide) hp
  have hrest : NoNul (List.replicate k 58 ++ name ++ 58 :: payload) :=
    noNul_append (noNul_append (noNul_colons k) hn) h58p
  have hpre := prefix_present_colon _ hrest hlen
  generalize hL : (43 :: 58 :: (List.replicate k 58 ++ name ++ 58 :: payload) : Str) = line at *
  have hlineN : NoNul line := by
    rw [← hL]
    exact noNul_append (a := [43, 58]) (by intro x hx; simp at hx; rcases hx with rfl | rfl <;> decide) hrest
  have hv : AtStr.valid line = true := (valid_iff _).mpr ⟨by rw [← hL]; simp, hlen⟩
  have hL1 : line = [43] ++ (List.replicate (k + 1) 58 ++ (name ++ 58 :: payload)) := by
    rw [← hL, List.replicate_succ]; simp
  have hhead : ∀ b ∈ (name ++ 58 :: payload).head?, b ≠ 58 := by
    obtain ⟨c, s, rfl⟩ := List.exists_cons_of_ne_nil hne
    intro b hb e
    simp at hb
    exact h58 (by simp [hb, e])
  -- the tokenizer
  have d1 : (line ++ [0]).drop 1 = (List.replicate (k + 1) 58 ++ (name ++ 58 :: payload)) ++ 0 :: [] := by
    rw [hL1]; simp
  have d2 : (line ++ [0]).drop (1 + (k + 1)) = (name ++ 58 :: payload) ++ 0 :: [] := by
    rw [← List.drop_drop, d1, List.append_assoc, List.drop_left' (by simp)]
  have n1 : NoNul (List.replicate (k + 1) 58 ++ (name ++ 58 :: payload)) :=
    noNul_append (noNul_colons _) (noNul_append hn h58p)
  have hm : line ++ [0] = (43 :: List.replicate (k + 1) 58) ++ (name ++ (58 :: (payload ++ [0]))) := by
    rw [hL1]; simp
  obtain ⟨c, s, rfl⟩ := List.exists_cons_of_ne_nil hne
  have hc0 : c ≠ 0 := hn c (by simp)
  have hr0 : rd (line ++ [0]) (1 + (k + 1)) = some c := by
    rw [hm]
    exact rd_append' (43 :: List.replicate (k + 1) 58) (s ++ (58 :: (payload ++ [0]))) c (1 + (k + 1)) (by simp; omega)
  have hm2 : line ++ [0] = (43 :: List.replicate (k + 1) 58 ++ (c :: s)) ++ 58 :: (payload ++ [0]) := by
    rw [hm]; simp
  have hrE : rd (line ++ [0]) (1 + (k + 1) + (c :: s).length) = some 58 := by
    rw [hm2]
    exact rd_append' _ (payload ++ [0]) 58 _ (by simp; omega)
  have hw : wr (line ++ [0]) (1 + (k + 1) + (c :: s).length) 0 =
      some ((43 :: List.replicate (k + 1) 58 ++ (c :: s)) ++ 0 :: (payload ++ [0])) := by
    rw [hm2]
    exact wr_append' _ (payload ++ [0]) 58 0 _ (by simp; omega)
  have hst : strtokR endNull (line ++ [0]) 1 [58] = some (some (1 + (k + 1)),
      (43 :: List.replicate (k + 1) 58 ++ (c :: s)) ++ 0 :: (payload ++ [0]),
      some (1 + (k + 1) + (c :: s).length + 1)) := by
    simp only [strtokR, d1, spanL_str _ _ _ n1, takeWhile_colons _ _ hhead, Option.bind_eq_bind, Option.bind_some,
      List.length_replicate, hr0, if_neg hc0, d2, spanL_str _ _ _ (noNul_append hn h58p),
      takeWhile_name _ _ h58 (Or.inr ⟨_, rfl⟩), hrE, hw]
    rw [if_neg (by decide)]
    rfl
  have hr1 : readStr ((43 :: List.replicate (k + 1) 58 ++ (c :: s)) ++ 0 :: (payload ++ [0])) (1 + (k + 1))
      = some (c :: s) := by
    apply readStr_cstr
    exact ⟨hn, 43 :: List.replicate (k + 1) 58, payload ++ [0], by simp, by simp; omega⟩
  have hr2 : readStr ((43 :: List.replicate (k + 1) 58 ++ (c :: s)) ++ 0 :: (payload ++ [0]))
      (1 + (k + 1) + (c :: s).length + 1) = some payload := by
    apply readStr_cstr
    exact ⟨hp, (43 :: List.replicate (k + 1) 58 ++ (c :: s)) ++ [0], [], by simp, by simp; omega⟩
  have hw2 : wr ((43 :: List.replicate (k + 1) 58 ++ (c :: s)) ++ 0 :: (payload ++ [0]))
      (1 + (k + 1) + (c :: s).length + 1 - 1) 58 = some (line ++ [0]) := by
    rw [hm2]
    exact wr_append' _ (payload ++ [0]) 0 58 _ (by simp; omega)
  have hr3 : readStr (line ++ [0]) 0 = some line := readStr_cstr ⟨hlineN, [], [], by simp, rfl⟩
  have hdel := delivery_of_lookup t hok (c :: s) payload line
  unfold processUrcPacket
  simp only [hv, hpre, Bool.not_true, Bool.or_self, Bool.false_eq_true, if_false, if_true, hst,
    Option.bind_eq_bind, Option.bind_some, hr1, hr2, hw2, hr3]
  rw [← hdel]
  split
  · rw [if_neg (by omega)]; rfl
  · rfl

/-- A line of a `+` and colons only is refused and nobody is called. -/
theorem C21_only_colons (endNull : Bool) (t : List Entry) (k : Nat) (hlen : k + 2 ≤ 256) :
    processUrcPacket endNull true t (43 :: 58 :: List.replicate k 58) = some (.badRequest, []) := by
  have hpre := prefix_present_colon (List.replicate k 58) (noNul_colons k) (by simpa using hlen)
  have hv : AtStr.valid (43 :: 58 :: List.replicate k 58) = true :=
    (valid_iff _).mpr ⟨by simp, by simp only [List.length_cons, List.length_replicate, maxStringSize]; omega⟩
  have hm : (43 :: 58 :: List.replicate k (58 : Byte)) ++ [0] = (43 :: List.replicate (k + 1) 58) ++ 0 :: [] := by
    rw [List.replicate_succ]
  have d1 : ((43 :: 58 :: List.replicate k (58 : Byte)) ++ [0]).drop 1 =
      (List.replicate (k + 1) 58 ++ []) ++ 0 :: [] := by rw [hm]; simp
  have hr0 : rd ((43 :: 58 :: List.replicate k (58 : Byte)) ++ [0]) (1 + (k + 1)) = some 0 := by
    rw [hm]; exact rd_append' _ [] 0 _ (by simp; omega)
  have n1 : NoNul (List.replicate (k + 1) (58 : Byte) ++ []) := by simpa using noNul_colons (k + 1)
  have hst : strtokR endNull ((43 :: 58 :: List.replicate k 58) ++ [0]) 1 [58] =
      some (none, (43 :: 58 :: List.replicate k 58) ++ [0], if endNull then none else some (1 + (k + 1))) := by
    simp only [strtokR, d1, spanL_str _ _ _ n1, takeWhile_colons _ [] (by simp), Option.bind_eq_bind, Option.bind_some,
      List.length_replicate, hr0, if_true]
    rfl
  unfold processUrcPacket
  simp only [hv, hpre, Bool.not_true, Bool.or_self, Bool.false_eq_true, if_false, if_true, hst,
    Option.bind_eq_bind, Option.bind_some]
  rfl

/-- A line with colons before the name and none after it, `+:NAME`: where `strtok_r` leaves its saved pointer at
the end of the text (glibc) the name's handler gets an empty text, and the generic callback a line whose
last character was replaced by a colon; where it stores NULL (newlib, musl) NULL is dereferenced. -/
theorem C21_witness_name_at_end (t : List Entry) (hok : atParseInit (some t) = .ok) (k : Nat) (name : Str)
    (hn : NoNul name) (h58 : (58 : Byte) ∉ name) (hne : name ≠ [])
    (hlen : (43 :: 58 :: (List.replicate k 58 ++ name)).length ≤ 256) :
    processUrcPacket false true t (43 :: 58 :: (List.replicate k 58 ++ name)) =
      some (expectedDelivery t name [] (43 :: 58 :: (List.replicate k 58 ++ name.dropLast ++ [58]))) ∧
    processUrcPacket true true t (43 :: 58 :: (List.replicate k 58 ++ name)) = none := by
  have hrest : NoNul (List.replicate k 58 ++ name) := noNul_append (noNul_colons k) hn
  have hpre := prefix_present_colon _ hrest hlen
  generalize hL : (43 :: 58 :: (List.replicate k 58 ++ name) : Str) = line at *
  have hv : AtStr.valid line = true := (valid_iff _).mpr ⟨by rw [← hL]; simp, hlen⟩
  have hL1 : line = [43] ++ (List.replicate (k + 1) 58 ++ name) := by
    rw [← hL, List.replicate_succ]; simp
  have hhead : ∀ b ∈ name.head?, b ≠ 58 := by
    obtain ⟨c, s, rfl⟩ := List.exists_cons_of_ne_nil hne
    intro b hb e
    simp at hb
    exact h58 (by simp [hb, e])
  have d1 : (line ++ [0]).drop 1 = (List.replicate (k + 1) 58 ++ name) ++ 0 :: [] := by rw [hL1]; simp
  have d2 : (line ++ [0]).drop (1 + (k + 1)) = name ++ 0 :: [] := by
    rw [← List.drop_drop, d1, List.append_assoc, List.drop_left' (by simp)]
  have n1 : NoNul (List.replicate (k + 1) 58 ++ name) := noNul_append (noNul_colons _) hn
  have hm : line ++ [0] = (43 :: List.replicate (k + 1) 58 ++ name) ++ 0 :: [] := by rw [hL1]; simp
  have hrE : rd (line ++ [0]) (1 + (k + 1) + name.length) = some 0 := by
    rw [hm]; exact rd_append' _ [] 0 _ (by simp; omega)
  obtain ⟨i, e, rfl⟩ : ∃ i e, name = i ++ [e] := ⟨name.dropLast, name.getLast hne, (List.dropLast_append_getLast hne).symm⟩
  have hr0 : ∃ c, rd (line ++ [0]) (1 + (k + 1)) = some c ∧ c ≠ 0 := by
    obtain ⟨c, s, hcs⟩ := List.exists_cons_of_ne_nil hne
    refine ⟨c, ?_, hn c (by simp [hcs])⟩
    rw [hm, hcs]
    have := rd_append' (43 :: List.replicate (k + 1) 58) (s ++ 0 :: []) c (1 + (k + 1)) (by simp; omega)
    simpa using this
  obtain ⟨c, hr0, hc0⟩ := hr0
  have tw2 := takeWhile_name (i ++ [e]) [] h58 (Or.inl rfl)
  rw [List.append_nil] at tw2
  have hst : ∀ endNull : Bool, strtokR endNull (line ++ [0]) 1 [58] = some (some (1 + (k + 1)), line ++ [0],
      if endNull then none else some (1 + (k + 1) + (i ++ [e]).length)) := by
    intro endNull
    simp only [strtokR, d1, spanL_str _ _ _ n1, takeWhile_colons _ _ hhead, Option.bind_eq_bind, Option.bind_some,
      List.length_replicate, hr0, if_neg hc0, d2, spanL_str _ _ _ hn, tw2, hrE, if_true]
    rfl
  have hr1 : readStr (line ++ [0]) (1 + (k + 1)) = some (i ++ [e]) := by
    apply readStr_cstr
    exact ⟨hn, 43 :: List.replicate (k + 1) 58, [], by rw [hm]; simp, by simp; omega⟩
  have hr2 : readStr (line ++ [0]) (1 + (k + 1) + (i ++ [e]).length) = some [] := by
    apply readStr_cstr
    exact ⟨by intro x hx; simp at hx, 43 :: List.replicate (k + 1) 58 ++ (i ++ [e]), [], by rw [hm]; simp, by simp; omega⟩
  have hm3 : line ++ [0] = (43 :: List.replicate (k + 1) 58 ++ i) ++ e :: [0] := by rw [hm]; simp
  have hw : wr (line ++ [0]) (1 + (k + 1) + (i ++ [e]).length - 1) 58 =
      some ((43 :: List.replicate (k + 1) 58 ++ i) ++ 58 :: [0]) := by
    rw [hm3]
    exact wr_append' _ [0] e 58 _ (by simp; omega)
  have hni : NoNul i := fun x hx => hn x (by simp [hx])
  have hout : (43 :: 58 :: (List.replicate k 58 ++ i ++ [58]) : Str) = 43 :: List.replicate (k + 1) 58 ++ i ++ [58] := by
    rw [List.replicate_succ]; simp
  have hr3 : readStr ((43 :: List.replicate (k + 1) 58 ++ i) ++ 58 :: [0]) 0 =
      some (43 :: 58 :: (List.replicate k 58 ++ i ++ [58])) := by
    apply readStr_cstr
    rw [hout]
    refine ⟨?_, [], [], by simp, rfl⟩
    refine noNul_append (noNul_append (a := 43 :: List.replicate (k + 1) 58) ?_ hni) (noNul_colons 1)
    exact noNul_append (a := [43]) (by intro x hx; simp at hx; subst hx; decide) (noNul_colons (k + 1))
  have hdl : (i ++ [e]).dropLast = i := by simp
  rw [hdl]
  constructor
  · have hdel := delivery_of_lookup t hok (i ++ [e]) [] (43 :: 58 :: (List.replicate k 58 ++ i ++ [58]))
    unfold processUrcPacket
    simp only [hv, hpre, Bool.not_true, Bool.or_self, Bool.false_eq_true, if_false, if_true, hst false,
      Option.bind_eq_bind, Option.bind_some, hr1, hr2, hw, hr3]
    rw [← hdel]
    split
    · rw [if_neg (by omega)]; rfl
    · rfl
  · unfold processUrcPacket
    simp only [hv, hpre, Bool.not_true, Bool.or_self, Bool.false_eq_true, if_false, if_true, hst true,
      Option.bind_eq_bind, Option.bind_some, hr1]

/-- Without memory for the copy of the line it is refused and nobody is called. -/
theorem C21_heap_exhausted (endNull : Bool) (t : List Entry) (line : Str) :
    processUrcPacket endNull false t line = some (.failure, []) := by
  simp [processUrcPacket]

example : atParseInit (some demoTable) = .ok ∧
    processUrcPacket true true demoTable (str "+::CREG: 1") = some (.ok, [.handler 3 (str " 1")]) ∧
    processUrcPacket true true demoTable (str "+:::") = some (.badRequest, []) ∧
    processUrcPacket false true demoTable (str "+:CREG") = some (.ok, [.handler 3 []]) := by
  decide +kernel

end Cellular.Props
