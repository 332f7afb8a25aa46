import Verif.Urc
import Verif.UrcSpec
import Verif.AtCoreProps
/-!
# Properties C19-C21: URC table and URC delivery
-/

namespace Cellular.Props
open Cellular AtCore Spec Urc

/-! ### Helper facts about the comparison -/

theorem lexLt_trans : ∀ {a b c : Str}, LexLt a b → LexLt b c → LexLt a c
  | _, _, [], _, h2 => by simp [LexLt] at h2
  | _, [], _ :: _, h1, _ => by simp [LexLt] at h1
  | [], _ :: _, _ :: _, _, _ => by simp [LexLt]
  | x :: s, y :: t, z :: u, h1, h2 => by
    simp only [LexLt] at *
    rcases h1 with h1 | ⟨rfl, h1⟩
    · rcases h2 with h2 | ⟨rfl, h2⟩
      · exact Or.inl (UInt8.lt_trans h1 h2)
      · exact Or.inl h1
    · rcases h2 with h2 | ⟨rfl, h2⟩
      · exact Or.inl h2
      · exact Or.inr ⟨rfl, lexLt_trans h1 h2⟩

theorem lexLt_irrefl : ∀ (a : Str), ¬ LexLt a a
  | [] => by simp [LexLt]
  | x :: s => by
    simp only [LexLt]
    rintro (h | ⟨_, h⟩)
    · exact UInt8.lt_irrefl _ h
    · exact lexLt_irrefl s h

theorem cmp_cons (x : Byte) (s : Str) (y : Byte) (t : Str) :
    cmpTok (x :: s) (y :: t) = if x = y then cmpTok s t else if x < y then -1 else 1 := by
  unfold cmpTok
  by_cases h : x = y
  · subst h
    simp [strncmpS]
  · have hm : min (x :: s).length (y :: t).length = min s.length t.length + 1 := by
      simp only [List.length_cons]; omega
    simp only [hm, List.take_succ_cons, strncmpS, if_neg h]
    split <;> simp

theorem cmp_spec : ∀ (a b : Str), (cmpTok a b < 0 ↔ LexLt a b) ∧ (cmpTok a b = 0 ↔ a = b) ∧
    (cmpTok a b > 0 ↔ LexLt b a)
  | [], [] => by decide
  | [], y :: t => by simp [cmpTok, strncmpS, LexLt]
  | x :: s, [] => by simp [cmpTok, strncmpS, LexLt]
  | x :: s, y :: t => by
    rw [cmp_cons]
    simp only [LexLt, List.cons.injEq]
    obtain ⟨h1, h2, h3⟩ := cmp_spec s t
    by_cases h : x = y
    · subst h
      simp [h1, h2, h3]
    · have h' : ¬ y = x := fun e => h e.symm
      by_cases hl : x < y
      · have : ¬ y < x := fun e => UInt8.lt_irrefl _ (UInt8.lt_trans hl e)
        simp [h, h', hl, this]
      · have : y < x := by
          rcases UInt8.lt_or_lt_of_ne h with e | e
          · exact absurd e hl
          · exact e
        simp [h, h', hl, this]

theorem sortedLoop_iff (t : List Entry) (ok : Bool) :
    sortedLoop t ok = true ↔ ok = true ∧ List.IsChain (fun a b => LexLt a.name b.name) t := by
  induction t generalizing ok with
  | nil => simp [sortedLoop]
  | cons a t ih =>
    cases t with
    | nil => simp [sortedLoop]
    | cons b t =>
      rw [sortedLoop, ih, List.isChain_cons_cons]
      obtain ⟨h1, h2, h3⟩ := cmp_spec a.name b.name
      by_cases h : cmpTok a.name b.name ≥ 0
      · simp only [h, if_true]
        have : ¬ LexLt a.name b.name := by rw [← h1]; omega
        simp [this]
      · simp only [h, if_false]
        have : LexLt a.name b.name := by rw [← h1]; omega
        simp [this]

/-! ## C19 -/

/-- The initial check accepts exactly the non-empty, strictly sorted tables. -/
theorem C19_check_accepts_iff_sorted (t : List Entry) :
    (atParseInit (some t) = .ok ↔ t ≠ [] ∧ t.Pairwise (fun a b => LexLt a.name b.name)) ∧
    (atParseInit none ≠ .ok) := by
  refine ⟨?_, by simp [atParseInit]⟩
  have hp : List.IsChain (fun a b : Entry => LexLt a.name b.name) t ↔
      t.Pairwise (fun a b => LexLt a.name b.name) := by
    have : IsTrans Entry (fun a b => LexLt a.name b.name) := ⟨fun _ _ _ => lexLt_trans⟩
    exact List.isChain_iff_pairwise
  have hs := sortedLoop_iff t true
  rw [hp] at hs
  simp only [true_and] at hs
  cases t with
  | nil => simp [atParseInit]
  | cons e t =>
    simp only [atParseInit, List.length_cons, Nat.zero_lt_succ, if_true, ne_eq, reduceCtorEq,
      not_false_eq_true, true_and]
    rw [← hs]
    cases hh : sortedLoop (e :: t) true <;> simp

theorem bsearch_spec (key : Str) (t : List Entry)
    (hs : t.Pairwise (fun a b => LexLt a.name b.name)) :
    ∀ (n lo hi : Nat), hi - lo = n → hi ≤ t.length →
      (∀ i e, t[i]? = some e → i < lo → LexLt e.name key) →
      (∀ i e, t[i]? = some e → hi ≤ i → LexLt key e.name) →
      match bsearch key t lo hi with
      | some i => ∃ e, t[i]? = some e ∧ e.name = key
      | none => ∀ e ∈ t, e.name ≠ key := by
  have hpw : ∀ (i j : Nat) (a b : Entry), i < j → t[i]? = some a → t[j]? = some b → LexLt a.name b.name := by
    intro i j a b hij ha hb
    obtain ⟨hi, rfl⟩ := List.getElem?_eq_some_iff.mp ha
    obtain ⟨hj, rfl⟩ := List.getElem?_eq_some_iff.mp hb
    exact List.pairwise_iff_getElem.mp hs i j hi hj hij
  intro n
  induction n using Nat.strongRecOn with
  | _ n ih =>
    intro lo hi hn hle hlo hhi
    rw [bsearch]
    by_cases h : lo < hi
    · simp only [h, dif_pos]
      have hmid : (lo + hi) / 2 < t.length := by omega
      rw [List.getElem?_eq_getElem hmid]
      simp only []
      have hm := List.getElem?_eq_getElem hmid
      obtain ⟨c1, c2, c3⟩ := cmp_spec key (t[(lo + hi) / 2]'hmid).name
      by_cases hlt : cmpTok key (t[(lo + hi) / 2]'hmid).name < 0
      · rw [if_pos hlt]
        apply ih ((lo + hi) / 2 - lo) (by omega) lo _ rfl (by omega) hlo
        intro i e hie hge
        rcases Nat.eq_or_lt_of_le hge with e1 | e1
        · subst e1; rw [hm] at hie; injection hie with hie; subst hie; exact c1.mp hlt
        · exact lexLt_trans (c1.mp hlt) (hpw _ i _ e e1 hm hie)
      · rw [if_neg hlt]
        by_cases hgt : cmpTok key (t[(lo + hi) / 2]'hmid).name > 0
        · rw [if_pos hgt]
          apply ih (hi - ((lo + hi) / 2 + 1)) (by omega) _ hi rfl hle _ hhi
          intro i e hie hlt'
          rcases Nat.eq_or_lt_of_le (Nat.lt_succ_iff.mp hlt') with e1 | e1
          · subst e1; rw [hm] at hie; injection hie with hie; subst hie; exact c3.mp hgt
          · exact lexLt_trans (hpw i _ e _ e1 hie hm) (c3.mp hgt)
        · rw [if_neg hgt]
          exact ⟨_, hm, (c2.mp (by omega)).symm⟩
    · simp only [h, dif_neg, not_false_eq_true]
      intro e he heq
      obtain ⟨i, hi', hie⟩ := List.mem_iff_getElem.mp he
      have hie' : t[i]? = some e := by rw [List.getElem?_eq_getElem hi', hie]
      rcases Nat.lt_or_ge i lo with h1 | h1
      · exact lexLt_irrefl _ (heq ▸ hlo i e hie' h1)
      · exact lexLt_irrefl _ (heq ▸ hhi i e hie' (by omega))

/-- Looking up a token in an accepted table calls the handler registered for exactly that token,
once, with the text given; a token that is not in the table calls nothing and is reported as
a mismatch. -/
theorem C19_lookup (t : List Entry) (hok : atParseInit (some t) = .ok) (tok arg : Str) :
    (∀ e ∈ t, e.name = tok → atParseGetHandler t tok arg =
      match e.handler with
      | some h => (.ok, [.handler h arg])
      | none => (.failure, [])) ∧
    ((∀ e ∈ t, e.name ≠ tok) → atParseGetHandler t tok arg = (.prefixMismatch, [])) := by
  have hs := ((C19_check_accepts_iff_sorted t).1.mp hok).2
  have hb := bsearch_spec tok t hs t.length 0 t.length (by omega) (Nat.le_refl _)
    (by intro i e _ h; omega)
    (by intro i e h1 h2; rw [List.getElem?_eq_none h2] at h1; simp at h1)
  have hinj : ∀ a ∈ t, ∀ b ∈ t, a.name = b.name → a = b := by
    intro a ha b hb hab
    obtain ⟨i, hi, rfl⟩ := List.mem_iff_getElem.mp ha
    obtain ⟨j, hj, rfl⟩ := List.mem_iff_getElem.mp hb
    rcases Nat.lt_trichotomy i j with h | h | h
    · exact absurd (hab ▸ List.pairwise_iff_getElem.mp hs i j hi hj h) (lexLt_irrefl _)
    · subst h; rfl
    · exact absurd (hab ▸ List.pairwise_iff_getElem.mp hs j i hj hi h) (lexLt_irrefl _)
  unfold atParseGetHandler
  cases hc : bsearch tok t 0 t.length with
  | none =>
    rw [hc] at hb
    refine ⟨fun e he h => absurd h (hb e he), fun _ => ?_⟩
    simp
  | some i =>
    rw [hc] at hb
    obtain ⟨e', h1, h2⟩ := hb
    have hmem : e' ∈ t := List.mem_of_getElem? h1
    refine ⟨fun e he h => ?_, fun h => absurd h2 (h e' hmem)⟩
    have : e' = e := hinj _ hmem _ he (h2.trans h.symm)
    subst this
    simp only [Option.bind_some, atParseGetHandler.t, h1]
    cases e'.handler <;> rfl

/-- A sample table. -/
def demoTable : List Entry :=
  [⟨str "CEREG", some 1⟩, ⟨str "CGREG", some 2⟩, ⟨str "CREG", some 3⟩, ⟨str "RING", none⟩]

example : atParseInit (some demoTable) = .ok ∧ (⟨str "CREG", some 3⟩ : Entry) ∈ demoTable ∧
    (∀ e ∈ demoTable, e.name ≠ str "CREGX") := by decide

/-- An unsorted table would make the lookup miss entries that are present. -/
theorem C19_witness_unsorted_misses :
    (⟨str "A", some 1⟩ : Entry) ∈ [⟨str "C", some 3⟩, ⟨str "B", some 2⟩, ⟨str "A", some 1⟩] ∧
    atParseGetHandler [⟨str "C", some 3⟩, ⟨str "B", some 2⟩, ⟨str "A", some 1⟩] (str "A") []
      = (.prefixMismatch, []) := by decide +kernel

/-! ## C20 (table check; the library-level statement is in LifecycleProps) -/

/-- The table check itself refuses every table that is not strictly sorted (duplicates included). -/
theorem C20_check_refuses_unsorted (t : List Entry) (hne : t ≠ [])
    (h : ¬ t.Pairwise (fun a b => LexLt a.name b.name)) : atParseInit (some t) = .badParam := by
  have h1 := (C19_check_accepts_iff_sorted t).1
  have h2 : atParseInit (some t) ≠ .ok := fun e => h (h1.mp e).2
  have hl : t.length > 0 := by
    cases t with
    | nil => exact absurd rfl hne
    | cons _ _ => simp
  simp only [atParseInit, hl, if_true] at h2 ⊢
  split
  · rename_i hh; rw [hh] at h2; simp at h2
  · rfl

example : ¬ ([⟨str "B", some 1⟩, ⟨str "B", some 2⟩] : List Entry).Pairwise
    (fun a b => LexLt a.name b.name) := by decide

/-! ## C21 -/

theorem readStrL_str (s post : Str) (h : NoNul s) : readStrL (s ++ 0 :: post) = some s := by
  induction s with
  | nil => simp [readStrL]
  | cons b t ih => obtain ⟨hb, ht⟩ := h.cons; simp [readStrL, hb, ih ht]

theorem readStr_cstr {m : Mem} {p : Nat} {s : Str} (h : CStrAt m p s) : readStr m p = some s := by
  obtain ⟨post, hd⟩ := h.drop
  rw [readStr, hd, readStrL_str _ _ h.noNul]

/-- What the delivery of one URC must be: the handler registered for the name gets the payload; with
no registered name the generic callback gets the whole line; a name registered without a function
gets nothing. -/
def expectedDelivery (t : List Entry) (name arg line : Str) : PktStatus × List Call :=
  match t.find? (fun e => e.name == name) with
  | some ⟨_, some h⟩ => (.ok, [.handler h arg])
  | some ⟨_, none⟩ => (.failure, [])
  | none => (.ok, [.generic line])

theorem delivery_of_lookup (t : List Entry) (hok : atParseInit (some t) = .ok)
    (name arg line : Str) :
    (if (atParseGetHandler t name arg).1 = .prefixMismatch
      then (PktStatus.ok, (atParseGetHandler t name arg).2 ++ [.generic line])
      else atParseGetHandler t name arg) = expectedDelivery t name arg line := by
  obtain ⟨h1, h2⟩ := C19_lookup t hok name arg
  unfold expectedDelivery
  cases hf : t.find? (fun e => e.name == name) with
  | none =>
    have hno : ∀ e ∈ t, e.name ≠ name := by
      intro e he
      have := List.find?_eq_none.mp hf e he
      simpa using this
    rw [h2 hno]; simp
  | some e =>
    have he := List.mem_of_find?_eq_some hf
    have hn : e.name = name := by have := List.find?_some hf; simpa using this
    rw [h1 e he hn]
    rcases e with ⟨n, h⟩
    cases h <;> simp

theorem strtokR_urc (endNull : Bool) (name payload : Str) (hn : NoNul name) (hp : NoNul payload)
    (hne : name ≠ []) (h58 : 58 ∉ name) :
    strtokR endNull ((43 :: name ++ 58 :: payload) ++ [0]) 1 [58] =
      some (some 1, (43 :: name ++ 0 :: payload) ++ [0], some (name.length + 2)) := by
  obtain ⟨c, t, rfl⟩ := List.exists_cons_of_ne_nil hne
  have hc : c ≠ 58 := fun e => h58 (by simp [e])
  have hc0 : c ≠ 0 := hn c (by simp)
  have hall : NoNul ((c :: t) ++ 58 :: payload) := by
    intro x hx
    rcases List.mem_append.mp hx with h | h
    · exact hn x h
    · rcases List.mem_cons.mp h with h | h
      · subst h; decide
      · exact hp x h
  have hdrop : ((43 :: (c :: t) ++ 58 :: payload) ++ [0]).drop 1
      = ((c :: t) ++ 58 :: payload) ++ 0 :: [] := by simp
  have e1 : List.takeWhile (fun b => List.contains [(58 : Byte)] b) ((c :: t) ++ 58 :: payload) = [] := by
    simp [hc]
  have e2 : List.takeWhile (fun b => !List.contains [(58 : Byte)] b) ((c :: t) ++ 58 :: payload)
      = c :: t := by
    rw [List.takeWhile_append_of_pos]
    · simp
    · intro b hb
      have : b ≠ 58 := fun e => h58 (e ▸ hb)
      simpa using this
  have hr0 : rd ((43 :: (c :: t) ++ 58 :: payload) ++ [0]) 1 = some c := by
    simp [rd]
  have hrE : rd ((43 :: (c :: t) ++ 58 :: payload) ++ [0]) (1 + (c :: t).length) = some 58 := by
    have := rd_append' (43 :: c :: t) (payload ++ [0]) 58 (1 + (c :: t).length) (by simp; omega)
    simpa using this
  have hw : wr ((43 :: (c :: t) ++ 58 :: payload) ++ [0]) (1 + (c :: t).length) 0
      = some ((43 :: (c :: t) ++ 0 :: payload) ++ [0]) := by
    have := wr_append' (43 :: c :: t) (payload ++ [0]) 58 0 (1 + (c :: t).length) (by simp; omega)
    simpa using this
  simp only [strtokR, hdrop, spanL_str _ _ _ hall, e1, e2, Option.bind_eq_bind, Option.bind_some,
    List.length_nil, Nat.add_zero, hr0, hrE, hw, if_neg hc0]
  rw [if_neg (by decide)]
  simp; omega

/-- A URC `+NAME:payload` (NAME non-empty) of at most 256 characters is delivered exactly once: its
handler gets exactly `payload`, or, unregistered, the generic callback gets the unchanged line.
This holds for both behaviours of `strtok_r` found in C libraries.  MISSING for the full C21: lines
of more than 256 characters and the degenerate `+:...` (witnesses below), and heap exhaustion. -/
theorem C21_prefixed_urc_delivery_partial (endNull : Bool) (t : List Entry)
    (hok : atParseInit (some t) = .ok) (name payload : Str)
    (hn : ∀ b ∈ name, PrefixChar b) (hne : name ≠ []) (hp : NoNul payload)
    (hlen : (43 :: name ++ 58 :: payload).length ≤ 256) :
    processUrcPacket endNull true t (43 :: name ++ 58 :: payload) =
      some (expectedDelivery t name payload (43 :: name ++ 58 :: payload)) := by
  have h58 : ∀ b ∈ name, b ≠ 58 ∧ b ≠ 0 := by
    intro b hb
    have := hn b hb
    constructor
    · rintro rfl; revert this; unfold PrefixChar; decide
    · rintro rfl; revert this; unfold PrefixChar; decide
  have hnn : NoNul name := fun b hb => (h58 b hb).2
  have hn58 : (58 : Byte) ∉ name := fun h => (h58 _ h).1 rfl
  have hv : AtStr.valid (43 :: name ++ 58 :: payload) = true := (valid_iff _).mpr ⟨by simp, hlen⟩
  have hline : NoNul (43 :: name ++ 58 :: payload) := by
    intro x hx
    rcases List.mem_append.mp hx with h | h
    · rcases List.mem_cons.mp h with h | h
      · subst h; decide
      · exact hnn x h
    · rcases List.mem_cons.mp h with h | h
      · subst h; decide
      · exact hp x h
  have hpre : (AtStr.isPrefixPresent (43 :: name ++ 58 :: payload)).2 = some true := by
    have hcs : CStrAt ((43 :: name ++ 58 :: payload) ++ [0]) 0 (43 :: name ++ 58 :: payload) :=
      ⟨hline, [], [], by simp, rfl⟩
    obtain ⟨r, h1, h2⟩ := C05_prefix_present_iff _ 0 _ hcs (by simp) hlen
    rw [isPrefixPresent_refines hcs] at h1
    injection h1 with h1
    rw [h1, h2.mpr ⟨name, payload, rfl, hn⟩]
  have hst := strtokR_urc endNull name payload hnn hp hne hn58
  have hr1 : readStr ((43 :: name ++ 0 :: payload) ++ [0]) 1 = some name := by
    apply readStr_cstr
    exact ⟨hnn, [43], payload ++ [0], by simp, rfl⟩
  have hr2 : readStr ((43 :: name ++ 0 :: payload) ++ [0]) (name.length + 2) = some payload := by
    apply readStr_cstr
    exact ⟨hp, 43 :: name ++ [0], [], by simp, by simp⟩
  have hw : wr ((43 :: name ++ 0 :: payload) ++ [0]) (name.length + 2 - 1) 58
      = some ((43 :: name ++ 58 :: payload) ++ [0]) := by
    have := wr_append' (43 :: name) (payload ++ [0]) 0 58 (name.length + 2 - 1) (by simp)
    simpa using this
  have hr3 : readStr ((43 :: name ++ 58 :: payload) ++ [0]) 0
      = some (43 :: name ++ 58 :: payload) := by
    apply readStr_cstr
    exact ⟨hline, [], [], by simp, rfl⟩
  have hdel := delivery_of_lookup t hok name payload (43 :: name ++ 58 :: payload)
  unfold processUrcPacket
  simp only [hv, hpre, Bool.not_true, Bool.or_self, Bool.false_eq_true, if_false, if_true, hst,
    Option.bind_eq_bind, Option.bind_some, hr1, hr2, hw, hr3]
  rw [← hdel]
  split
  · rw [if_neg (by omega)]; rfl
  · rfl

/-- A line that carries no prefix (for example a listed token such as `RING`) reaches the handler
registered for the whole line, with the line as its text, or the generic callback, exactly once. -/
theorem C21_plain_urc_delivery (endNull : Bool) (t : List Entry)
    (hok : atParseInit (some t) = .ok) (line : Str) (hl : NoNul line)
    (h1 : 1 ≤ line.length) (hlen : line.length ≤ 256)
    (hpre : ¬ ∃ name rest, line = 43 :: name ++ 58 :: rest ∧ ∀ b ∈ name, PrefixChar b) :
    processUrcPacket endNull true t line = some (expectedDelivery t line line line) := by
  have hv : AtStr.valid line = true := (valid_iff _).mpr ⟨by intro e; simp [e] at h1, hlen⟩
  have hpf : (AtStr.isPrefixPresent line).2 ≠ some true := by
    have hcs : CStrAt (line ++ [0]) 0 line := ⟨hl, [], [], by simp, rfl⟩
    obtain ⟨r, g1, g2⟩ := C05_prefix_present_iff _ 0 _ hcs h1 hlen
    rw [isPrefixPresent_refines hcs] at g1
    injection g1 with g1
    rw [g1]
    intro h
    simp only [Option.some.injEq] at h
    exact hpre (g2.mp h)
  have hdel := delivery_of_lookup t hok line line line
  unfold processUrcPacket
  simp only [hv, Bool.not_true, Bool.or_self, Bool.false_eq_true, if_false, if_neg hpf]
  rw [← hdel]
  split <;> rfl

example : (∀ b ∈ str "CREG", PrefixChar b) ∧ atParseInit (some demoTable) = .ok ∧
    expectedDelivery demoTable (str "CREG") (str " 1,\"00\"") (str "+CREG: 1,\"00\"")
      = (.ok, [.handler 3 (str " 1,\"00\"")]) ∧
    processUrcPacket true true demoTable (str "+CREG: 1,\"00\"")
      = some (.ok, [.handler 3 (str " 1,\"00\"")]) ∧
    processUrcPacket true true demoTable (str "+NEW: 1") = some (.ok, [.generic (str "+NEW: 1")]) ∧
    processUrcPacket true true demoTable (str "NO CARRIER")
      = some (.ok, [.generic (str "NO CARRIER")]) := by
  refine ⟨by unfold PrefixChar; decide, by decide, by decide, ?_, ?_, ?_⟩ <;> decide +kernel

/-- Lines of more than 256 characters are dropped: nobody is called. -/
theorem C21_witness_long_line_dropped (endNull alloc : Bool) (t : List Entry) (line : Str)
    (h : 256 < line.length) : processUrcPacket endNull alloc t line = some (.failure, []) := by
  have hv : AtStr.valid line = false := by
    cases hh : AtStr.valid line
    · rfl
    · have := ((valid_iff line).mp hh).2; simp only [maxStringSize] at this; omega
  simp [processUrcPacket, hv]

/-- `+:abc` (empty name): with glibc the generic callback gets a corrupted line ... -/
theorem C21_witness_empty_name_corrupted :
    processUrcPacket false true demoTable (str "+:abc") = some (.ok, [.generic (str "+:ab:")]) := by
  decide +kernel

/-- ... and with newlib or musl a null pointer is used. -/
theorem C21_witness_empty_name_null :
    processUrcPacket true true demoTable (str "+:abc") = none := by decide +kernel

end Cellular.Props
