import Verif.Sockets
/-! # Properties C31, C32, C33, C59, C60 -/
namespace Cellular.Props
open Cellular Signal Sockets

/-! ## Histories -/

/-- What the allocator may give for table entry `i` (`static`: the i-th object of the static table;
otherwise NULL or memory that is not in use). -/
def AllocOk (static : Bool) (s : St) (a : Nat → Option Ptr) : Prop :=
  if static then ∀ i, a i = some i else ∀ i p, a i = some p → s.heap p = none

/-- The states a program can reach: socket creation, removal of a socket it holds memory for, socket
options, socket callbacks, and the modem port changing any field of a socket except its id. -/
inductive Reach (static : Bool) : St → Prop
  | init (h : Ptr → Option Sock) (ev : Events) (hh : static = false → ∀ p, h p = none) :
      Reach static { heap := h, ev := ev }
  | create (s a pdn d t pr out) : Reach static s → AllocOk static s a →
      Reach static (commonCreateSocket a pdn d t pr out s).2.2
  | remove (s h r) : Reach static s → removeSocketData static h s = some r → Reach static r.2
  | setOpt (s ld h l o v r) : Reach static s → setSockOpt ld h l o v s = some r → Reach static r.2
  | regData (s h f c r) : Reach static s → registerDataReady h f c s = some r → Reach static r.2
  | regOpen (s h f c r) : Reach static s → registerOpen h f c s = some r → Reach static r.2
  | regClosed (s h f c r) : Reach static s → registerClosed h f c s = some r → Reach static r.2
  | port (s h k k') : Reach static s → s.heap h = some k → k'.socketId = k.socketId →
      Reach static { s with heap := setHeap s.heap h (some k') }
  | close (s) : Reach static s → Reach static (freeAll static s)

/-- Table and objects agree. -/
structure SockInv (static : Bool) (s : St) : Prop where
  len : s.slots.length = maxSockets
  own : ∀ (i : Nat) (p : Ptr), s.slots[i]? = some (some p) → ∃ k, s.heap p = some k ∧ k.socketId = i
  st : static = true → ∀ (i : Nat) (p : Ptr), s.slots[i]? = some (some p) → p = i

theorem firstFree_le : ∀ (l : List (Option Ptr)), firstFree l ≤ l.length
  | [] => by simp [firstFree]
  | none :: _ => by simp [firstFree]
  | some _ :: t => by have := firstFree_le t; simp [firstFree]; omega

theorem firstFree_spec : ∀ (l : List (Option Ptr)),
    (firstFree l < l.length → l[firstFree l]? = some none) ∧
    (∀ j, j < firstFree l → ∃ p, l[j]? = some (some p))
  | [] => by simp [firstFree]
  | none :: _ => by simp [firstFree]
  | some q :: t => by
    obtain ⟨h1, h2⟩ := firstFree_spec t
    constructor
    · intro h; simp [firstFree] at h ⊢; exact h1 h
    · intro j hj
      cases j with
      | zero => exact ⟨q, rfl⟩
      | succ j => simp only [firstFree] at hj; simpa using h2 j (by omega)

theorem findSlot_spec (h : Ptr) : ∀ (l : List (Option Ptr)), findSlot h l ≤ l.length ∧
    (findSlot h l < l.length → l[findSlot h l]? = some (some h)) ∧
    (∀ j, j < findSlot h l → l[j]? ≠ some (some h))
  | [] => by simp [findSlot]
  | e :: t => by
    obtain ⟨h0, h1, h2⟩ := findSlot_spec h t
    by_cases he : e = some h
    · subst he; simp [findSlot]
    · refine ⟨by simp [findSlot, he]; omega, ?_, ?_⟩
      · intro hl; simp [findSlot, he] at hl ⊢; exact h1 hl
      · intro j hj
        cases j with
        | zero => simpa using he
        | succ j => simp [findSlot, he] at hj; simpa using h2 j (by omega)

theorem inv_heap_upd {static : Bool} {s : St} (hI : SockInv static s) (h : Ptr) (k k' : Sock)
    (hk : s.heap h = some k) (hid : k'.socketId = k.socketId) :
    SockInv static { s with heap := setHeap s.heap h (some k') } := by
  refine ⟨hI.len, ?_, hI.st⟩
  intro i p hp
  obtain ⟨q, hq, hqi⟩ := hI.own i p hp
  by_cases e : p = h
  · subst e
    rw [hk] at hq; cases hq
    exact ⟨k', by simp [setHeap], by rw [hid, hqi]⟩
  · exact ⟨q, by simp [setHeap, e, hq], hqi⟩

theorem inv_register {static : Bool} {s : St} (hI : SockInv static s) (f : Sock → Sock)
    (hf : ∀ k, (f k).socketId = k.socketId) (h : Option Ptr) (r : CellErr × St)
    (hr : socketRegister f h s = some r) : SockInv static r.2 := by
  unfold socketRegister at hr
  dsimp only at hr
  split at hr
  · cases hr; exact hI
  · cases h with
    | none => cases hr; exact hI
    | some h =>
      dsimp only at hr
      cases hk : s.heap h with
      | none => rw [hk] at hr; cases hr
      | some k => rw [hk] at hr; cases hr; exact inv_heap_upd hI h k _ hk (hf k)

theorem setSockOptTransport_id (ld : List Byte → Nat) (o : Opt) (v : List Byte) (k : Sock) :
    (setSockOptTransport ld o v k).2.socketId = k.socketId := by
  cases o <;> simp only [setSockOptTransport] <;> first | rfl | (split <;> rfl)

theorem inv_create {static : Bool} {s : St} (hI : SockInv static s) (a : Nat → Option Ptr)
    (ha : AllocOk static s a) (pdn d t pr : Nat) : SockInv static (createSocketData a pdn d t pr s).2.2 := by
  unfold createSocketData
  dsimp only
  split
  · rename_i hlt
    cases hp : a (firstFree s.slots) with
    | none => exact hI
    | some p =>
      have hnew : ∀ i q, s.slots[i]? = some (some q) → i ≠ firstFree s.slots → q ≠ p := by
        intro i q hq hne hqp
        subst hqp
        cases static with
        | true =>
          have e1 := hI.st rfl i q hq
          simp only [AllocOk, if_true] at ha
          have := ha (firstFree s.slots)
          rw [hp] at this
          cases this; exact hne e1.symm
        | false =>
          simp only [AllocOk] at ha
          have := ha _ _ hp
          obtain ⟨k, hk, _⟩ := hI.own i q hq
          rw [this] at hk; cases hk
      refine ⟨by simp [hI.len], ?_, ?_⟩
      · intro i q hq
        by_cases hi : i = firstFree s.slots
        · subst hi
          simp only [List.getElem?_set_self (by rw [hI.len]; exact hlt)] at hq
          cases hq
          exact ⟨newSock pdn (firstFree s.slots) d t pr, by simp [setHeap], rfl⟩
        · rw [List.getElem?_set_ne (Ne.symm hi)] at hq
          obtain ⟨k, hk, hki⟩ := hI.own i q hq
          exact ⟨k, by simp [setHeap, hnew i q hq hi, hk], hki⟩
      · intro hs i q hq
        subst hs
        by_cases hi : i = firstFree s.slots
        · subst hi
          simp only [List.getElem?_set_self (by rw [hI.len]; exact hlt)] at hq
          cases hq
          simp only [AllocOk, if_true] at ha
          rw [ha] at hp; cases hp; rfl
        · rw [List.getElem?_set_ne (Ne.symm hi)] at hq
          exact hI.st rfl i q hq
  · exact hI

theorem slots_inj {static : Bool} {s : St} (hI : SockInv static s) {i j : Nat} {p : Ptr}
    (hi : s.slots[i]? = some (some p)) (hj : s.slots[j]? = some (some p)) : i = j := by
  obtain ⟨k, hk, rfl⟩ := hI.own i p hi
  obtain ⟨k', hk', rfl⟩ := hI.own j p hj
  rw [hk] at hk'; cases hk'; rfl

theorem inv_reach {static : Bool} {s : St} (hr : Reach static s) : SockInv static s := by
  induction hr with
  | init h ev hh =>
    refine ⟨by simp, ?_, ?_⟩ <;> intros <;> rename_i h <;> simp [List.getElem?_replicate] at h
  | create s a pdn d t pr out _ ha ih =>
    unfold commonCreateSocket
    dsimp only
    split
    · exact ih
    · split
      · exact ih
      · split
        · exact ih
        · exact inv_create ih a ha pdn d t pr
  | remove s h r _ hr ih =>
    unfold removeSocketData at hr
    cases hk : s.heap h with
    | none => rw [hk] at hr; cases hr
    | some k =>
      rw [hk] at hr
      dsimp only at hr
      split at hr
      · rename_i hlt
        cases hr
        obtain ⟨_, hf, _⟩ := findSlot_spec h s.slots
        have hf := hf (by rw [ih.len]; exact hlt)
        refine ⟨by simp [ih.len], ?_, ?_⟩
        · intro i p hp
          by_cases hi : i = findSlot h s.slots
          · subst hi
            simp only [List.getElem?_set_self (by rw [ih.len]; exact hlt)] at hp
            cases hp
          · rw [List.getElem?_set_ne (Ne.symm hi)] at hp
            obtain ⟨q, hq, hqi⟩ := ih.own i p hp
            have hne : p ≠ h := fun e => hi (by subst e; exact slots_inj ih hp hf)
            refine ⟨q, ?_, hqi⟩
            dsimp only
            split
            · exact hq
            · simp [setHeap, hne, hq]
        · intro hs i p hp
          by_cases hi : i = findSlot h s.slots
          · subst hi
            simp only [List.getElem?_set_self (by rw [ih.len]; exact hlt)] at hp
            cases hp
          · rw [List.getElem?_set_ne (Ne.symm hi)] at hp
            exact ih.st hs i p hp
      · cases hr; exact ih
  | setOpt s ld h l o v r _ hr ih =>
    unfold setSockOpt at hr
    dsimp only at hr
    split at hr
    · cases hr; exact ih
    · cases h with
      | none => cases hr; exact ih
      | some h =>
        cases v with
        | none => cases hr; exact ih
        | some v =>
          dsimp only at hr
          split at hr
          · cases hr; exact ih
          · cases l with
            | ip => cases hr; exact ih
            | transport =>
              dsimp only at hr
              cases hk : s.heap h with
              | none => rw [hk] at hr; cases hr
              | some k =>
                rw [hk] at hr; cases hr
                exact inv_heap_upd ih h k _ hk (setSockOptTransport_id ld o v k)
  | regData s h f c r _ hr ih =>
    exact inv_register ih (fun k => { k with dataReady := { fn := f, ctx := c } }) (fun _ => rfl) h r hr
  | regOpen s h f c r _ hr ih =>
    exact inv_register ih (fun k => { k with opened := { fn := f, ctx := c } }) (fun _ => rfl) h r hr
  | regClosed s h f c r _ hr ih =>
    exact inv_register ih (fun k => { k with closed := { fn := f, ctx := c } }) (fun _ => rfl) h r hr
  | port s h k k' _ hk hid ih => exact inv_heap_upd ih h k k' hk hid
  | close s _ ih =>
    refine ⟨by simp [freeAll, ih.len], ?_, ?_⟩ <;>
    · intros
      rename_i h
      simp [freeAll] at h

/-! ## C31 -/

/-- Socket `p` is live with id `i`. -/
def Live (s : St) (i : Nat) (p : Ptr) : Prop := getSocketData i s = some p

theorem live_iff {static : Bool} {s : St} (hI : SockInv static s) {i : Nat} {p : Ptr} :
    Live s i p ↔ s.slots[i]? = some (some p) := by
  unfold Live getSocketData
  split
  · rename_i h
    rw [List.getElem?_eq_none (by rw [hI.len]; exact h)]; simp
  · rename_i h
    rw [List.getElem?_eq_getElem (by rw [hI.len]; omega)]; simp

/-- In every reachable state: live ids are below the maximum; a handle is live under one id only and one
id designates one handle; the object behind a live handle is allocated and carries its own id. -/
theorem C31_table_invariants {static : Bool} {s : St} (hr : Reach static s) :
    (∀ i p, Live s i p → i < 12 ∧ ∃ k, s.heap p = some k ∧ k.socketId = i) ∧
    (∀ i j p, Live s i p → Live s j p → i = j) ∧
    (∀ i p q, Live s i p → Live s i q → p = q) := by
  have hI := inv_reach hr
  refine ⟨?_, ?_, ?_⟩
  · intro i p h
    have h' := (live_iff hI).1 h
    refine ⟨?_, hI.own i p h'⟩
    have := (List.getElem?_eq_some_iff.1 h').1
    rw [hI.len] at this; exact this
  · intro i j p hi hj
    exact slots_inj hI ((live_iff hI).1 hi) ((live_iff hI).1 hj)
  · intro i p q hp hq
    have : some p = some q := by rw [← hp, ← hq]
    exact Option.some.inj this

/-- An index is that of a live socket exactly if it is reported as valid; all others are refused. -/
theorem C31_valid_socket (i : Nat) (s : St) :
    (isValidSocket i s = .success ↔ ∃ p, Live s i p) ∧ (¬ (∃ p, Live s i p) → isValidSocket i s = .badParameter) := by
  unfold isValidSocket Live getSocketData
  by_cases h : i ≥ maxSockets
  · simp [h]
  · cases hs : (s.slots[i]?).join <;> simp [h]

/-- Creation on an open library with a valid PDN id and memory available: it fails exactly when all
`CELLULAR_NUM_SOCKET_MAX` ids are in use, and then changes nothing; otherwise the new socket gets the
lowest free id, is live, in the initial state with the requested parameters, and every other live
socket (and its object) is as before. -/
theorem C31_create {static : Bool} {s : St} (hr : Reach static s) (a : Nat → Option Ptr)
    (ha : AllocOk static s a) (pdn d t pr : Nat) (hopen : libStatus (some s) = .success)
    (hpdn : 1 ≤ pdn ∧ pdn ≤ 16) (hmem : ∀ i, i < 12 → a i ≠ none) :
    ((∀ i, i < 12 → ∃ p, Live s i p) → commonCreateSocket a pdn d t pr true s = (.noMemory, none, s)) ∧
    (∀ i, i < 12 → (∀ p, ¬ Live s i p) → (∀ j, j < i → ∃ p, Live s j p) →
      ∃ p s', commonCreateSocket a pdn d t pr true s = (.success, some p, s') ∧
        Live s' i p ∧ (∀ j, ¬ Live s j p) ∧
        s'.heap p = some { contextId := pdn, socketId := i, state := .allocated, typ := t, domain := d,
                           protocol := pr } ∧
        ∀ j, j ≠ i → ∀ q, (Live s' j q ↔ Live s j q) ∧ (Live s j q → s'.heap q = s.heap q)) := by
  have hI := inv_reach hr
  obtain ⟨hf1, hf2⟩ := firstFree_spec s.slots
  have hle := firstFree_le s.slots
  rw [hI.len] at hle hf1
  have hpd : isValidPdn pdn = .success := by simp [isValidPdn]; omega
  have hcc : commonCreateSocket a pdn d t pr true s = createSocketData a pdn d t pr s := by
    simp [commonCreateSocket, hopen, hpd]
  rw [hcc]
  constructor
  · intro hfull
    have : ¬ firstFree s.slots < maxSockets := by
      intro hlt
      obtain ⟨p, hp⟩ := hfull _ hlt
      rw [live_iff hI, hf1 hlt] at hp; cases hp
    simp [createSocketData, this]
  · intro i hi hfree hlow
    have hii : firstFree s.slots = i := by
      apply Nat.le_antisymm
      · refine Nat.le_of_not_lt fun hc => ?_
        obtain ⟨p, hp⟩ := hf2 i (by omega)
        exact hfree p ((live_iff hI).2 hp)
      · refine Nat.le_of_not_lt fun hc => ?_
        obtain ⟨p, hp⟩ := hlow (firstFree s.slots) (by omega)
        rw [live_iff hI, hf1 (by simp only [maxSockets]; omega)] at hp; cases hp
    cases hp : a i with
    | none => exact absurd hp (hmem i hi)
    | some p =>
      have hI' : SockInv static (createSocketData a pdn d t pr s).2.2 := inv_create hI a ha pdn d t pr
      have hcr : createSocketData a pdn d t pr s = (.success, some p,
        { s with slots := s.slots.set i (some p)
                 heap := setHeap s.heap p (some (newSock pdn i d t pr)) }) := by
        simp [createSocketData, hii, hp, maxSockets, hi]
      rw [hcr] at hI' ⊢
      have hnl : ∀ j, ¬ Live s j p := by
        intro j hj
        have hj' := (live_iff hI).1 hj
        cases static with
        | true =>
          have := hI.st rfl j p hj'
          simp only [AllocOk, if_true] at ha
          rw [ha] at hp; cases hp
          subst this
          exact hfree _ hj
        | false =>
          simp only [AllocOk] at ha
          obtain ⟨k, hk, _⟩ := hI.own j p hj'
          rw [ha _ _ hp] at hk; cases hk
      refine ⟨p, _, rfl, ?_, hnl, by simp [setHeap, newSock], ?_⟩
      · rw [live_iff hI']
        exact List.getElem?_set_self (by rw [hI.len]; exact hi)
      · intro j hj q
        refine ⟨?_, ?_⟩
        · rw [live_iff hI', live_iff hI]
          simp [List.getElem?_set_ne (Ne.symm hj)]
        · intro hq
          have : q ≠ p := fun e => hnl j (e ▸ hq)
          simp [setHeap, this]

/-- Refused creations (library not usable, NULL result pointer, bad PDN id, no memory) change nothing. -/
theorem C31_create_refused_no_change (s : St) (a : Nat → Option Ptr) (pdn d t pr : Nat) (out : Bool)
    (e : CellErr) (h : Option Ptr) (s' : St) (hc : commonCreateSocket a pdn d t pr out s = (e, h, s'))
    (he : e ≠ .success) : s' = s ∧ h = none := by
  unfold commonCreateSocket createSocketData at hc
  dsimp only at hc
  repeat' split at hc
  all_goals (cases hc; first | exact ⟨rfl, rfl⟩ | exact absurd rfl he)

/-- The caller sees success exactly when it is given a handle: never with a library that is not usable, a NULL result
pointer or a PDN id outside 1..16, which are reported as such. -/
theorem C31_success_iff_handle (s : St) (a : Nat → Option Ptr) (pdn d t pr : Nat) (out : Bool) :
    ((commonCreateSocket a pdn d t pr out s).1 = .success ↔ ∃ p, (commonCreateSocket a pdn d t pr out s).2.1 = some p) ∧
    ((commonCreateSocket a pdn d t pr out s).1 = .success →
      libStatus (some s) = .success ∧ out = true ∧ 1 ≤ pdn ∧ pdn ≤ 16) ∧
    (libStatus (some s) ≠ .success → (commonCreateSocket a pdn d t pr out s).1 = libStatus (some s)) ∧
    (libStatus (some s) = .success → out = false → (commonCreateSocket a pdn d t pr out s).1 = .badParameter) ∧
    (libStatus (some s) = .success → out = true → ¬ (1 ≤ pdn ∧ pdn ≤ 16) →
      (commonCreateSocket a pdn d t pr out s).1 = .invalidHandle) := by
  have hpd : isValidPdn pdn = .success ↔ 1 ≤ pdn ∧ pdn ≤ 16 := by
    unfold isValidPdn; split <;> simp <;> omega
  unfold commonCreateSocket createSocketData
  by_cases h1 : libStatus (some s) = .success
  · cases out
    · simp [h1]
    · by_cases h2 : isValidPdn pdn = .success
      · have := hpd.mp h2
        simp only [h1, h2]
        by_cases hi : firstFree s.slots < maxSockets
        · cases ha : a (firstFree s.slots) <;> simp [hi, ha, this] <;> omega
        · simp [hi]; omega
      · simp [h1, h2]
  · simp [h1]

/-! ## C33 -/

/-- Removing a live socket succeeds, releases exactly that socket (its memory too, unless the sockets
are static), and leaves every other one as it was; its id is free afterwards, so the next creation with
all lower ids in use receives it (`C31_create`). -/
theorem C33_remove_live {static : Bool} {s : St} (hr : Reach static s) (i : Nat) (h : Ptr)
    (hl : Live s i h) :
    ∃ s', removeSocketData static h s = some (.success, s') ∧
      (∀ p, ¬ Live s' i p) ∧ (static = false → s'.heap h = none) ∧
      ∀ j, j ≠ i → ∀ q, (Live s' j q ↔ Live s j q) ∧ (Live s j q → s'.heap q = s.heap q) := by
  have hI := inv_reach hr
  have hl' := (live_iff hI).1 hl
  obtain ⟨k, hk, _⟩ := hI.own i h hl'
  obtain ⟨hle, hf1, hf2⟩ := findSlot_spec h s.slots
  have hi : i < s.slots.length := (List.getElem?_eq_some_iff.1 hl').1
  have hfi : findSlot h s.slots = i := by
    by_cases hlt : findSlot h s.slots < s.slots.length
    · exact slots_inj hI (hf1 hlt) hl'
    · exact absurd hl' (hf2 i (by omega))
  have hI' : ∀ r, removeSocketData static h s = some r → SockInv static r.2 :=
    fun r hr' => inv_reach (Reach.remove s h r hr hr')
  have hrm : removeSocketData static h s = some (.success,
      { s with slots := s.slots.set i none
               heap := if static then s.heap else setHeap s.heap h none }) := by
    unfold removeSocketData
    rw [hk]
    dsimp only
    rw [hfi, if_pos (by rw [← hI.len]; exact hi)]
  have hI' := hI' _ hrm
  refine ⟨_, hrm, ?_, ?_, ?_⟩
  · intro p
    rw [live_iff hI']
    simp [List.getElem?_set_self hi]
  · rintro rfl; simp [setHeap]
  · intro j hj q
    constructor
    · rw [live_iff hI', live_iff hI]
      simp [List.getElem?_set_ne (Ne.symm hj)]
    · intro hq
      have : q ≠ h := by
        rintro rfl
        exact hj (slots_inj hI ((live_iff hI).1 hq) hl')
      dsimp only
      split
      · rfl
      · simp [setHeap, this]

/-- Removing something that is not in the table, as long as its memory may be read, is refused with
BAD_PARAMETER and changes nothing.  With statically allocated sockets this covers every second removal.
MISSING for the full C33: with dynamically allocated sockets the handle of a removed socket no longer
designates readable memory, and it is dereferenced (witness below). -/
theorem C33_remove_unknown_partial {static : Bool} {s : St} (hr : Reach static s) (h : Ptr)
    (hl : ∀ i, ¬ Live s i h) (hmem : s.heap h ≠ none) :
    removeSocketData static h s = some (.badParameter, s) := by
  have hI := inv_reach hr
  cases hk : s.heap h with
  | none => exact absurd hk hmem
  | some k =>
    obtain ⟨hle, hf1, hf2⟩ := findSlot_spec h s.slots
    have : ¬ findSlot h s.slots < maxSockets := by
      intro hlt
      have := hf1 (by rw [hI.len]; exact hlt)
      exact hl _ ((live_iff hI).2 this)
    simp [removeSocketData, hk, this]

/-- Witness: after a successful removal of a dynamically allocated socket, removing the same handle
again reads freed memory, for every socket. -/
theorem C33_witness_double_remove {s : St} (hr : Reach false s) (i : Nat) (h : Ptr) (hl : Live s i h) :
    ∃ s', removeSocketData false h s = some (.success, s') ∧ removeSocketData false h s' = none := by
  obtain ⟨s', h1, _, h3, _⟩ := C33_remove_live hr i h hl
  exact ⟨s', h1, by simp [removeSocketData, h3 rfl]⟩

/-- Closing the library leaves no socket. -/
theorem C33_close_removes_all (static : Bool) (s : St) (i : Nat) (p : Ptr) :
    ¬ Live (freeAll static s) i p ∧ (static = false → Live s i p → (freeAll static s).heap p = none) := by
  constructor
  · simp only [Live, getSocketData, freeAll]
    split
    · simp
    · cases h : s.slots[i]? <;> simp [h]
  · rintro rfl h
    have : some p ∈ s.slots := by
      simp only [Live, getSocketData] at h
      split at h
      · cases h
      · cases h2 : s.slots[i]? with
        | none => rw [h2] at h; cases h
        | some o => rw [h2] at h; simp at h; subst h; exact List.mem_of_getElem? h2
    simp [freeAll, this]

/-- Closing the library touches no other memory: what is not a socket of the table keeps its contents, and statically allocated
sockets are not freed. -/
theorem C33_close_frees_only_sockets (static : Bool) (s : St) (hlen : s.slots.length = maxSockets) (q : Ptr)
    (h : static = true ∨ ∀ i, ¬ Live s i q) : (freeAll static s).heap q = s.heap q := by
  simp only [freeAll]
  split
  · rename_i hc
    rcases h with h | h
    · rw [h] at hc; exact absurd hc.1 (by decide)
    · obtain ⟨i, hi⟩ := List.mem_iff_getElem?.mp hc.2
      refine absurd ?_ (h i)
      have := (List.getElem?_eq_some_iff.mp hi).1
      simp only [Live, getSocketData]
      rw [if_neg (by omega), hi]
      rfl
  · rfl

/-- Two sockets are created, the first is removed and its id given out again. -/
def demo1 : St := (commonCreateSocket (fun _ => some 100) 1 0 0 0 true {}).2.2
def demo2 : St := (commonCreateSocket (fun _ => some 200) 2 0 0 0 true demo1).2.2
example : Reach false demo2 ∧ Live demo2 0 100 ∧ Live demo2 1 200 ∧ libStatus (some demo2) = .success := by
  refine ⟨?_, rfl, rfl, by decide⟩
  refine Reach.create _ _ _ _ _ _ _ (Reach.create _ _ _ _ _ _ _ (Reach.init _ _ (fun _ _ => rfl)) ?_) ?_
  · simp [AllocOk]
  · simp only [AllocOk]
    intro i p hp
    cases hp; rfl
example : ((removeSocketData false 100 demo2).map fun r =>
    (commonCreateSocket (fun _ => some 300) 2 0 0 0 true r.2).2.1) = some (some 300) ∧
    ((removeSocketData false 100 demo2).map fun r =>
      getSocketData 0 (commonCreateSocket (fun _ => some 300) 2 0 0 0 true r.2).2.2) = some (some 300) := by
  decide

/-! ## C32 -/

/-- Thread `t` got the socket `p`. -/
def Got (c : Conc) (t : Nat) (p : Ptr) : Prop := c.pc t = .done (some p)

/-- C32 is false of the code: two threads can both succeed while one of the two sockets is not in the
table (dynamic allocation). -/
theorem C32_witness_lost_socket :
    ∃ c, Run false c ∧ Got c 0 100 ∧ Got c 1 200 ∧ some 100 ∉ c.slots ∧ some 200 ∈ c.slots := by
  have h0 := Run.start (static := false)
  have h1 := Run.step _ _ 0 h0 (Step.scanNull 0 rfl (by decide) rfl)
  have h2 := Run.step _ _ 1 h1 (Step.scanNull 0 rfl (by decide) rfl)
  have h3 := Run.step _ _ 0 h2 (Step.alloc 0 100 rfl rfl rfl)
  have h4 := Run.step _ _ 1 h3 (Step.alloc 0 200 rfl rfl rfl)
  have h5 := Run.step _ _ 0 h4 (Step.store 0 100 rfl)
  have h6 := Run.step _ _ 1 h5 (Step.store 0 200 rfl)
  exact ⟨_, h6, rfl, rfl, by decide, by decide⟩

/-- ... and with static allocation both threads get the same socket. -/
theorem C32_witness_same_socket : ∃ c, Run true c ∧ Got c 0 0 ∧ Got c 1 0 := by
  have h0 := Run.start (static := true)
  have h1 := Run.step _ _ 0 h0 (Step.scanNull 0 rfl (by decide) rfl)
  have h2 := Run.step _ _ 1 h1 (Step.scanNull 0 rfl (by decide) rfl)
  have h3 := Run.step _ _ 0 h2 (Step.allocStatic 0 rfl rfl)
  have h4 := Run.step _ _ 1 h3 (Step.allocStatic 0 rfl rfl)
  have h5 := Run.step _ _ 0 h4 (Step.store 0 0 rfl)
  have h6 := Run.step _ _ 1 h5 (Step.store 0 0 rfl)
  exact ⟨_, h6, rfl, rfl⟩

/-- The object a thread holds, stored already or not. -/
def holds : Pc → Option Ptr
  | .ready _ p => some p
  | .done (some p) => some p
  | _ => none

/-- With dynamic allocation no schedule gives the same socket to two threads. -/
theorem C32_dynamic_distinct_partial {c : Conc} (hr : Run false c) (t u : Nat) (p q : Ptr) (htu : t ≠ u)
    (ht : Got c t p) (hu : Got c u q) : p ≠ q := by
  have key : (∀ t p, holds (c.pc t) = some p → c.used p = true) ∧
      (∀ t u p, t ≠ u → holds (c.pc t) = some p → holds (c.pc u) ≠ some p) := by
    clear ht hu htu
    induction hr with
    | start => constructor <;> intros <;> rename_i h <;> simp [Conc.start, holds] at h
    | step c c' x _ hs ih =>
      obtain ⟨i1, i2⟩ := ih
      have noNew : ∀ (n : Pc), holds n = none ∨ holds n = holds (c.pc x) →
          (∀ t p, holds (if t = x then n else c.pc t) = some p → c.used p = true) ∧
          (∀ t u p, t ≠ u → holds (if t = x then n else c.pc t) = some p →
            holds (if u = x then n else c.pc u) ≠ some p) := by
        intro n hn
        have hmono : ∀ t p, holds (if t = x then n else c.pc t) = some p → holds (c.pc t) = some p := by
          intro t p h
          split at h
          · rename_i e; subst e
            rcases hn with hn | hn
            · rw [hn] at h; cases h
            · rw [← hn]; exact h
          · exact h
        exact ⟨fun t p h => i1 t p (hmono t p h),
          fun t u p hne h h' => i2 t u p hne (hmono t p h) (hmono u p h')⟩
      cases hs with
      | scanFull i h _ => exact noNew _ (Or.inl rfl)
      | scanNull i h _ _ => exact noNew _ (Or.inl rfl)
      | scanUsed i p h _ _ => exact noNew _ (Or.inl rfl)
      | allocFail i h _ => exact noNew _ (Or.inl rfl)
      | allocStatic i h hs => cases hs
      | store i p h => exact noNew _ (Or.inr (by rw [h]; rfl))
      | alloc i p h _ hfr =>
        refine ⟨?_, ?_⟩
        · intro t q hq
          dsimp only at hq ⊢
          by_cases e : t = x
          · subst e; simp [holds] at hq; simp [hq]
          · rw [if_neg e] at hq; simp [i1 t q hq]
        · intro t u q hne h1 h2
          dsimp only at h1 h2
          have fresh : ∀ t, holds (c.pc t) ≠ some p := fun t e => by
            rw [i1 t p e] at hfr; cases hfr
          by_cases e : t = x
          · subst e
            rw [if_pos rfl] at h1; rw [if_neg (Ne.symm hne)] at h2
            simp [holds] at h1; subst h1; exact fresh u h2
          · rw [if_neg e] at h1
            by_cases e' : u = x
            · subst e'; rw [if_pos rfl] at h2; simp [holds] at h2; subst h2; exact fresh t h1
            · rw [if_neg e'] at h2; exact i2 t u q hne h1 h2
  intro e
  subst e
  exact key.2 t u p htu (by rw [ht]; rfl) (by rw [hu]; rfl)

/-- C32: with static allocation a creation fails only if every entry of the table is taken (in any schedule; entries are
not freed meanwhile). -/
theorem C32_static_fails_only_full {c : Conc} (hr : Run true c) (t : Nat) (h : c.pc t = .done none) :
    ∀ i, i < maxSockets → ∃ p, c.slots[i]? = some (some p) := by
  have key : c.slots.length = maxSockets ∧ ∀ t,
      (∀ j, c.pc t = .scan j → ∀ i, i < j → i < maxSockets → ∃ p, c.slots[i]? = some (some p)) ∧
      (c.pc t = .done none → ∀ i, i < maxSockets → ∃ p, c.slots[i]? = some (some p)) := by
    clear h
    induction hr with
    | start =>
      refine ⟨by simp [Conc.start], fun t => ⟨fun j hj => ?_, fun h => by simp [Conc.start] at h⟩⟩
      simp only [Conc.start, Pc.scan.injEq] at hj
      omega
    | step c c' x _ hs ih =>
      obtain ⟨hl, ih⟩ := ih
      have keep : ∀ n : Pc, (∀ j, n = .scan j → ∀ i, i < j → i < maxSockets → ∃ p, c.slots[i]? = some (some p)) →
          (n = .done none → ∀ i, i < maxSockets → ∃ p, c.slots[i]? = some (some p)) → ∀ t,
          (∀ j, (if t = x then n else c.pc t) = .scan j → ∀ i, i < j → i < maxSockets → ∃ p, c.slots[i]? = some (some p)) ∧
          ((if t = x then n else c.pc t) = .done none → ∀ i, i < maxSockets → ∃ p, c.slots[i]? = some (some p)) := by
        intro n h1 h2 t
        by_cases e : t = x
        · simp only [if_pos e]; exact ⟨h1, h2⟩
        · simp only [if_neg e]; exact ih t
      cases hs with
      | scanFull j h hj =>
        exact ⟨hl, keep _ nofun (fun _ i hi => (ih x).1 j h i (by omega) hi)⟩
      | scanNull j h _ _ => exact ⟨hl, keep _ nofun nofun⟩
      | scanUsed j p h hj hp =>
        refine ⟨hl, keep _ (fun k hk i hi hm => ?_) nofun⟩
        simp only [Pc.scan.injEq] at hk
        by_cases e : i = j
        · subst e; exact ⟨p, hp⟩
        · exact (ih x).1 j h i (by omega) hm
      | allocFail j h hst => cases hst
      | alloc j p h hst => cases hst
      | allocStatic j h _ => exact ⟨hl, keep _ nofun nofun⟩
      | store j p h =>
        have mono : ∀ i : Nat, (∃ q, c.slots[i]? = some (some q)) → ∃ q, (c.slots.set j (some p))[i]? = some (some q) := by
          intro i ⟨q, hq⟩
          rw [List.getElem?_set]
          split
          · rename_i e
            subst e
            have : j < c.slots.length := (List.getElem?_eq_some_iff.1 hq).1
            exact ⟨p, by simp [this]⟩
          · exact ⟨q, hq⟩
        refine ⟨by simpa using hl, fun t => ?_⟩
        by_cases e : t = x
        · simp [e]
        · simp only [if_neg e]
          exact ⟨fun k hk i hi hm => mono i ((ih t).1 k hk i hi hm), fun h i hi => mono i ((ih t).2 h i hi)⟩
  exact (key.2 t).2 h

/-- How far a thread still is from the end of its creation. -/
def stepsLeft : Pc → Nat
  | .scan i => 2 * (maxSockets - i) + 4
  | .sawNull _ => 2
  | .ready _ _ => 1
  | .done _ => 0

/-- Every creation comes to an end, in every schedule: a thread that has not finished can always take a step (if a memory
allocation is made, one that may fail), and each of its steps brings it nearer to the end and leaves the others where they are. -/
theorem C32_ends {static : Bool} {c : Conc} (hr : Run static c) (t : Nat) :
    ((∀ h, c.pc t ≠ .done h) → ∃ c', Step static c t c') ∧
    ∀ c', Step static c t c' → stepsLeft (c'.pc t) < stepsLeft (c.pc t) ∧ ∀ u, u ≠ t → c'.pc u = c.pc u := by
  have hlen : c.slots.length = maxSockets := by
    induction hr with
    | start => simp [Conc.start]
    | step c c' t _ hs ih => cases hs <;> simp [ih]
  constructor
  · intro hd
    cases hp : c.pc t with
    | scan i =>
      by_cases hi : maxSockets ≤ i
      · exact ⟨_, .scanFull i hp hi⟩
      · cases hs : c.slots[i]'(by omega) with
        | none => exact ⟨_, .scanNull i hp (by omega) (by rw [List.getElem?_eq_getElem (by omega), hs])⟩
        | some p => exact ⟨_, .scanUsed i p hp (by omega) (by rw [List.getElem?_eq_getElem (by omega), hs])⟩
    | sawNull i =>
      cases static with
      | true => exact ⟨_, .allocStatic i hp rfl⟩
      | false => exact ⟨_, .allocFail i hp rfl⟩
    | ready i p => exact ⟨_, .store i p hp⟩
    | done h => exact absurd hp (hd h)
  · intro c' hs
    cases hs <;> rename_i hp _ <;> (try rename_i hp _) <;> refine ⟨?_, fun u hu => by simp [hu]⟩ <;> simp_all [stepsLeft]
    all_goals omega

/-- With dynamic allocation it can also fail for lack of memory, even if the table is empty. -/
theorem C32_dynamic_may_lack_memory : ∃ c, Run false c ∧ c.pc 0 = .done none ∧ c.slots = List.replicate maxSockets none := by
  have h0 := Run.start (static := false)
  have h1 := Run.step _ _ 0 h0 (Step.scanNull 0 rfl (by decide) rfl)
  have h2 := Run.step _ _ 0 h1 (Step.allocFail 0 rfl rfl)
  exact ⟨_, h2, rfl, rfl⟩

/-- Thread `t` is between its check of a table entry and its store to it. -/
def Busy (c : Conc) (t : Nat) : Prop :=
  (∃ i, c.pc t = .sawNull i) ∨ (∃ i p, c.pc t = .ready i p)

/-- Schedules in which callers never overlap between check and store (for instance because the
application serialises socket creation). -/
inductive RunSerial (static : Bool) : Conc → Prop
  | start : RunSerial static Conc.start
  | step (c c' t) : RunSerial static c → Step static c t c' →
      (∀ u v, Busy c' u → Busy c' v → u = v) → RunSerial static c'

theorem RunSerial.run {static : Bool} {c : Conc} (h : RunSerial static c) : Run static c := by
  induction h with
  | start => exact .start
  | step c c' t _ hs _ ih => exact .step c c' t ih hs

/-- C32 for serialised callers: all sockets handed out are different and all are in the table. MISSING
for the full C32: overlapping callers, for which it is false (witnesses). -/
theorem C32_serialised_partial {static : Bool} {c : Conc} (hr : RunSerial static c) :
    (∀ t p, Got c t p → ∃ i, i < 12 ∧ c.slots[i]? = some (some p)) ∧
    (∀ t u p q, t ≠ u → Got c t p → Got c u q → p ≠ q) := by
  have key : c.slots.length = maxSockets ∧
      (∀ t i, c.pc t = .sawNull i → c.slots[i]? = some none) ∧
      (∀ t i p, c.pc t = .ready i p → c.slots[i]? = some none ∧ (static = true → p = i)) ∧
      (∀ t p, Got c t p → some p ∈ c.slots) ∧
      (static = true → ∀ (i : Nat) (p : Ptr), c.slots[i]? = some (some p) → p = i) ∧
      (static = true → ∀ t u p q, t ≠ u → Got c t p → Got c u q → p ≠ q) := by
    induction hr with
    | start =>
      refine ⟨by simp [Conc.start], ?_, ?_, ?_, ?_, ?_⟩ <;> intros <;> rename_i h <;>
        simp [Conc.start, Got, List.getElem?_replicate] at h
    | step c c' x hrun hs hex ih =>
      obtain ⟨i0, i1, i2, i3, i4, i5⟩ := ih
      have same : ∀ (n : Pc) (us : Ptr → Bool), (∀ i, n = .sawNull i → c.slots[i]? = some none) →
          (∀ i p, n = .ready i p → c.slots[i]? = some none ∧ (static = true → p = i)) →
          (∀ p, n ≠ .done (some p)) → 
          (Conc.slots { c with used := us, pc := fun u => if u = x then n else c.pc u }).length = maxSockets ∧
          (∀ t i, (if t = x then n else c.pc t) = .sawNull i → c.slots[i]? = some none) ∧
          (∀ t i p, (if t = x then n else c.pc t) = .ready i p →
            c.slots[i]? = some none ∧ (static = true → p = i)) ∧
          (∀ t p, (if t = x then n else c.pc t) = .done (some p) → some p ∈ c.slots) ∧
          (static = true → ∀ (i : Nat) (p : Ptr), c.slots[i]? = some (some p) → p = i) ∧
          (static = true → ∀ t u p q, t ≠ u → (if t = x then n else c.pc t) = .done (some p) →
            (if u = x then n else c.pc u) = .done (some q) → p ≠ q) := by
        intro n us h1 h2 h3
        refine ⟨i0, ?_, ?_, ?_, i4, ?_⟩
        · intro t i h; split at h
          · exact h1 i h
          · exact i1 t i h
        · intro t i p h; split at h
          · exact h2 i p h
          · exact i2 t i p h
        · intro t p h; split at h
          · exact absurd h (h3 p)
          · exact i3 t p h
        · intro hst t u p q hne ht hu
          split at ht
          · exact absurd ht (h3 p)
          · split at hu
            · exact absurd hu (h3 q)
            · exact i5 hst t u p q hne ht hu
      cases hs with
      | scanFull i h _ => exact same _ _ (by simp) (by simp) (by simp)
      | scanNull i h _ hn =>
        exact same _ _ (by rintro j ⟨⟩; exact hn) (by simp) (by simp)
      | scanUsed i p h _ _ => exact same _ _ (by simp) (by simp) (by simp)
      | allocFail i h _ => exact same _ _ (by simp) (by simp) (by simp)
      | alloc i p h hst _ =>
        exact same _ _ (by simp) (by rintro j q ⟨⟩; exact ⟨i1 x _ h, by rw [hst]; simp⟩) (by simp)
      | allocStatic i h _ =>
        exact same _ _ (by simp) (by rintro j q ⟨⟩; exact ⟨i1 x _ h, fun _ => rfl⟩) (by simp)
      | store i p h =>
        obtain ⟨hn, hp⟩ := i2 x i p h
        have hil : i < c.slots.length := (List.getElem?_eq_some_iff.1 hn).1
        have notBusy : ∀ u, u ≠ x → ¬ Busy c u := by
          intro u hu hb
          -- the previous state had at most one busy thread
          cases hrun with
          | start => rcases hb with ⟨_, hb⟩ | ⟨_, _, hb⟩ <;> cases hb
          | step c0 _ t0 _ _ hex0 =>
            exact hu (hex0 u x hb (Or.inr ⟨i, p, h⟩))
        refine ⟨by simpa using i0, ?_, ?_, ?_, ?_, ?_⟩
        · intro t j hj
          dsimp only at hj
          split at hj
          · cases hj
          · rename_i e; exact absurd (Or.inl ⟨j, hj⟩) (notBusy t e)
        · intro t j q hj
          dsimp only at hj
          split at hj
          · cases hj
          · rename_i e; exact absurd (Or.inr ⟨j, q, hj⟩) (notBusy t e)
        · intro t q hq
          simp only [Got] at hq
          split at hq
          · cases hq; exact List.mem_set hil _
          · have hm := i3 t q hq
            obtain ⟨j, hj⟩ := List.mem_iff_getElem?.1 hm
            have hji : j ≠ i := by rintro rfl; rw [hn] at hj; cases hj
            exact List.mem_iff_getElem?.2 ⟨j, by rw [List.getElem?_set_ne (Ne.symm hji)]; exact hj⟩
        · intro hst j q hq
          dsimp only at hq
          by_cases hji : j = i
          · subst hji
            rw [List.getElem?_set_self hil] at hq; cases hq; exact hp hst
          · rw [List.getElem?_set_ne (Ne.symm hji)] at hq; exact i4 hst j q hq
        · intro hst t u p' q hne ht hu
          have other : ∀ u q, Got c u q → q ≠ p := by
            intro u q hq e
            subst e
            obtain ⟨j, hj⟩ := List.mem_iff_getElem?.1 (i3 u q hq)
            have e1 := i4 hst j q hj
            have e2 := hp hst
            rw [← e1, e2, hn] at hj; cases hj
          simp only [Got] at ht hu
          split at ht
          · cases ht
            split at hu
            · rename_i e1 e2; exact absurd (e1.trans e2.symm) hne
            · exact (other u q hu).symm
          · split at hu
            · cases hu; exact other t p' ht
            · exact i5 hst t u p' q hne ht hu
  constructor
  · intro t p hg
    obtain ⟨j, hj⟩ := List.mem_iff_getElem?.1 (key.2.2.2.1 t p hg)
    exact ⟨j, by have := (List.getElem?_eq_some_iff.1 hj).1; rw [key.1] at this; exact this, hj⟩
  · cases static with
    | false => exact fun t u p q htu ht hu => C32_dynamic_distinct_partial hr.run t u p q htu ht hu
    | true => exact key.2.2.2.2.2 rfl

/-- Two serialised creations: both sockets are in the table. -/
example : ∃ c, RunSerial true c ∧ Got c 0 0 ∧ Got c 1 1 := by
  have ex : ∀ (c : Conc) (x : Nat), (∀ u, u ≠ x → ¬ Busy c u) → ∀ u v, Busy c u → Busy c v → u = v := by
    intro c x h u v hu hv
    have h1 : u = x := Classical.byContradiction fun e => h u e hu
    have h2 : v = x := Classical.byContradiction fun e => h v e hv
    rw [h1, h2]
  have h0 := RunSerial.start (static := true)
  have h1 := RunSerial.step _ _ 0 h0 (Step.scanNull 0 rfl (by decide) rfl)
    (ex _ 0 (by intro u hu hb; simp [Busy, Conc.start, hu] at hb))
  have h2 := RunSerial.step _ _ 0 h1 (Step.allocStatic 0 rfl rfl)
    (ex _ 0 (by intro u hu hb; simp [Busy, Conc.start, hu] at hb))
  have h3 := RunSerial.step _ _ 0 h2 (Step.store 0 0 rfl)
    (ex _ 0 (by intro u hu hb; simp [Busy, Conc.start, hu] at hb))
  have h4 := RunSerial.step _ _ 1 h3 (Step.scanUsed 0 0 rfl (by decide) rfl)
    (ex _ 1 (by intro u hu hb; simp [Busy, Conc.start, hu] at hb; split at hb <;> simp at hb))
  have h5 := RunSerial.step _ _ 1 h4 (Step.scanNull 1 rfl (by decide) rfl)
    (ex _ 1 (by intro u hu hb; simp [Busy, Conc.start, hu] at hb; split at hb <;> simp at hb))
  have h6 := RunSerial.step _ _ 1 h5 (Step.allocStatic 1 rfl rfl)
    (ex _ 1 (by intro u hu hb; simp [Busy, Conc.start, hu] at hb; split at hb <;> simp at hb))
  have h7 := RunSerial.step _ _ 1 h6 (Step.store 1 1 rfl)
    (ex _ 1 (by intro u hu hb; simp [Busy, Conc.start, hu] at hb; split at hb <;> simp at hb))
  exact ⟨_, h7, rfl, rfl⟩

/-! ## C59 -/

/-- Everything of two states is equal except, possibly, the object at `h`. -/
def SameExcept (h : Ptr) (s s' : St) : Prop :=
  s'.slots = s.slots ∧ s'.ev = s.ev ∧ s'.opened = s.opened ∧ s'.shutdown = s.shutdown ∧
  s'.closing = s.closing ∧ ∀ p, p ≠ h → s'.heap p = s.heap p

/-- Accepted options: send/receive timeout with a 4 byte value in any state; PDN context id (1 byte) and
local port (2 bytes) on a socket that is not connecting or connected yet.  Exactly the addressed field
of exactly the addressed socket gets the value. -/
theorem C59_accepted (ld : List Byte → Nat) (s : St) (hopen : libStatus (some s) = .success) (h : Ptr)
    (k : Sock) (hk : s.heap h = some k) (v : List Byte) :
    (v.length = 4 → ∃ s', setSockOpt ld (some h) .transport .sendTimeout (some v) s = some (.success, s') ∧
      s'.heap h = some { k with sendTimeoutMs := ld v } ∧ SameExcept h s s') ∧
    (v.length = 4 → ∃ s', setSockOpt ld (some h) .transport .recvTimeout (some v) s = some (.success, s') ∧
      s'.heap h = some { k with recvTimeoutMs := ld v } ∧ SameExcept h s s') ∧
    (v.length = 1 → k.state = .allocated →
      ∃ s', setSockOpt ld (some h) .transport .pdnContextId (some v) s = some (.success, s') ∧
      s'.heap h = some { k with contextId := ld v } ∧ SameExcept h s s') ∧
    (v.length = 2 → k.state = .allocated →
      ∃ s', setSockOpt ld (some h) .transport .localPort (some v) s = some (.success, s') ∧
      s'.heap h = some { k with localPort := ld v } ∧ SameExcept h s s') := by
  refine ⟨?_, ?_, ?_, ?_⟩ <;> intro hv
  · exact ⟨{ s with heap := setHeap s.heap h (some { k with sendTimeoutMs := ld v }) }, by simp [setSockOpt, hopen, hk, hv, setSockOptTransport], by simp [setHeap],
      rfl, rfl, rfl, rfl, rfl, fun p hp => by simp [setHeap, hp]⟩
  · exact ⟨{ s with heap := setHeap s.heap h (some { k with recvTimeoutMs := ld v }) }, by simp [setSockOpt, hopen, hk, hv, setSockOptTransport], by simp [setHeap],
      rfl, rfl, rfl, rfl, rfl, fun p hp => by simp [setHeap, hp]⟩
  · intro hst
    exact ⟨{ s with heap := setHeap s.heap h (some { k with contextId := ld v }) }, by simp [setSockOpt, hopen, hk, hv, setSockOptTransport, hst], by simp [setHeap],
      rfl, rfl, rfl, rfl, rfl, fun p hp => by simp [setHeap, hp]⟩
  · intro hst
    exact ⟨{ s with heap := setHeap s.heap h (some { k with localPort := ld v }) }, by simp [setSockOpt, hopen, hk, hv, setSockOptTransport, hst], by simp [setHeap],
      rfl, rfl, rfl, rfl, rfl, fun p hp => by simp [setHeap, hp]⟩

/-- When an option request is acceptable (the rule of the property text). -/
def Acceptable (k : Sock) (l : Level) (o : Opt) (v : Option (List Byte)) : Prop :=
  l = .transport ∧ ∃ b, v = some b ∧
    ((o = .sendTimeout ∧ b.length = 4) ∨ (o = .recvTimeout ∧ b.length = 4) ∨
     (o = .pdnContextId ∧ b.length = 1 ∧ k.state = .allocated) ∨
     (o = .localPort ∧ b.length = 2 ∧ k.state = .allocated))

/-- Every other request - not-open library, NULL socket, missing or empty value, IP level, wrong length,
connected socket, other option - is refused and changes nothing at all. -/
theorem C59_refused (ld : List Byte → Nat) (s : St) (h : Option Ptr) (l : Level) (o : Opt)
    (v : Option (List Byte)) (k : Sock) (hk : ∀ p, h = some p → s.heap p = some k)
    (hbad : libStatus (some s) ≠ .success ∨ h = none ∨ ¬ Acceptable k l o v) :
    ∃ e, e ≠ CellErr.success ∧ setSockOpt ld h l o v s = some (e, s) := by
  by_cases hopen : libStatus (some s) = .success
  · have hbad := hbad.resolve_left (fun e => e hopen)
    cases h with
    | none => exact ⟨.invalidHandle, by simp, by simp [setSockOpt, hopen]⟩
    | some p =>
      have hbad := hbad.resolve_left (by simp)
      have hp := hk p rfl
      have hsame : ({ s with heap := setHeap s.heap p (some k) } : St) = s := by
        have : setHeap s.heap p (some k) = s.heap := by
          funext q; unfold setHeap; split
          · rename_i e; rw [e, hp]
          · rfl
        rw [this]
      cases v with
      | none => exact ⟨.badParameter, by simp, by simp [setSockOpt, hopen]⟩
      | some v =>
        by_cases hv : v.length = 0
        · exact ⟨.badParameter, by simp, by simp [setSockOpt, hopen, hv]⟩
        · cases l with
          | ip => exact ⟨.unsupported, by simp, by simp [setSockOpt, hopen, hv]⟩
          | transport =>
            have step : setSockOpt ld (some p) .transport o (some v) s =
                some ((setSockOptTransport ld o v k).1,
                  { s with heap := setHeap s.heap p (some (setSockOptTransport ld o v k).2) }) := by
              have hv' : v ≠ [] := fun e => hv (by rw [e]; rfl)
              simp [setSockOpt, hopen, hv', hp]
            have hn : ∀ e, setSockOptTransport ld o v k = (e, k) → e ≠ .success →
                ∃ e, e ≠ CellErr.success ∧ setSockOpt ld (some p) .transport o (some v) s = some (e, s) := by
              intro e he hne
              exact ⟨e, hne, by rw [step, he]; simp only [hsame]⟩
            cases o with
            | maxIpPacketSize => exact hn .unsupported rfl (by simp)
            | sendTimeout =>
              refine hn .internalFailure ?_ (by simp)
              have : v.length ≠ 4 := fun e => hbad ⟨rfl, v, rfl, Or.inl ⟨rfl, e⟩⟩
              simp [setSockOptTransport, this]
            | recvTimeout =>
              refine hn .internalFailure ?_ (by simp)
              have : v.length ≠ 4 := fun e => hbad ⟨rfl, v, rfl, Or.inr (Or.inl ⟨rfl, e⟩)⟩
              simp [setSockOptTransport, this]
            | pdnContextId =>
              refine hn .internalFailure ?_ (by simp)
              have : ¬ (k.state = .allocated ∧ v.length = 1) :=
                fun e => hbad ⟨rfl, v, rfl, Or.inr (Or.inr (Or.inl ⟨rfl, e.2, e.1⟩))⟩
              simp only [setSockOptTransport, if_neg this]
            | localPort =>
              refine hn .internalFailure ?_ (by simp)
              have : ¬ (k.state = .allocated ∧ v.length = 2) :=
                fun e => hbad ⟨rfl, v, rfl, Or.inr (Or.inr (Or.inr ⟨rfl, e.2, e.1⟩))⟩
              simp only [setSockOptTransport, if_neg this]
  · exact ⟨libStatus (some s), hopen, by simp [setSockOpt, hopen]⟩

example : libStatus (some demo2) = .success ∧
    demo2.heap 200 = some { contextId := 2, socketId := 1, state := .allocated, typ := 0, domain := 0, protocol := 0 } ∧
    Acceptable { contextId := 2, socketId := 1, state := .allocated, typ := 0, domain := 0, protocol := 0 }
      .transport .localPort (some [0x50, 0]) ∧
    ¬ Acceptable { contextId := 2, socketId := 1, state := .connected, typ := 0, domain := 0, protocol := 0 }
      .transport .localPort (some [0x50, 0]) := by
  refine ⟨by decide, by decide, ⟨rfl, _, rfl, by decide⟩, ?_⟩
  rintro ⟨_, b, hb, h⟩
  cases hb
  simp at h

/-! ## C60 -/

/-- The kinds of events. -/
inductive EvKind
  | networkRegistration | pdnEvent | signalStrength | generic | modemEvent | undefinedResp | inputBuffer
  deriving DecidableEq, Repr

/-- The registration API function of each kind. -/
def register : EvKind → Option Nat → Nat → St → CellErr × St
  | .networkRegistration => registerNetworkRegistration
  | .pdnEvent => registerPdnEvent
  | .signalStrength => registerSignalStrength
  | .generic => registerGeneric
  | .modemEvent => registerModemEvent
  | .undefinedResp => registerUndefinedResp
  | .inputBuffer => registerInputBuffer

/-- The callback invocations an event of each kind causes. -/
def fire : EvKind → St → List (Nat × Nat)
  | .networkRegistration => fireNetworkRegistration
  | .pdnEvent => firePdnEvent
  | .signalStrength => fireSignalStrength
  | .generic => fireGeneric
  | .modemEvent => fireModemEvent
  | .undefinedResp => fireUndefinedResp
  | .inputBuffer => fireInputBuffer

/-- A registration request: kind, function (NULL to unregister), context. -/
structure RegReq where
  kind : EvKind
  fn : Option Nat
  ctx : Nat

/-- A history of registrations on an initialised library. -/
def runRegs : List RegReq → St → St
  | [], s => s
  | r :: t, s => runRegs t (register r.kind r.fn r.ctx s).2

/-- What an event of kind `k` must do: call the function of the last registration of that kind with its
context; nothing if there was none or it was NULL. -/
def expectedCalls (k : EvKind) (h : List RegReq) : List (Nat × Nat) :=
  match (h.filter (fun r => r.kind = k)).getLast? with
  | some ⟨_, some f, c⟩ => [(f, c)]
  | _ => []

theorem register_step (r : RegReq) (s : St) (hopen : libStatus (some s) = .success) (k : EvKind) :
    libStatus (some (register r.kind r.fn r.ctx s).2) = .success ∧
    fire k (register r.kind r.fn r.ctx s).2 =
      if r.kind = k then (match r.fn with | none => [] | some f => [(f, r.ctx)]) else fire k s := by
  obtain ⟨rk, rf, rc⟩ := r
  cases rk <;>
    simp only [register, registerNetworkRegistration, registerPdnEvent, registerSignalStrength,
      registerGeneric, registerModemEvent, registerUndefinedResp, registerInputBuffer, eventRegister,
      hopen, ne_eq, not_true_eq_false, if_false] <;>
    refine ⟨hopen, ?_⟩ <;>
    cases k <;> cases rf <;> rfl

/-- After any history of registrations, an event of a kind is delivered to exactly the callback and
context registered last for that kind, and to no other. -/
theorem C60_events_reach_last_registration (h : List RegReq) (k : EvKind) :
    fire k (runRegs h {}) = expectedCalls k h := by
  have key : ∀ (h : List RegReq) (s : St), libStatus (some s) = .success →
      fire k (runRegs h s) = match (h.filter (fun r => r.kind = k)).getLast? with
        | some ⟨_, some f, c⟩ => [(f, c)]
        | some ⟨_, none, _⟩ => []
        | none => fire k s := by
    intro h
    induction h with
    | nil => intro s _; rfl
    | cons r t ih =>
      intro s hs
      obtain ⟨h1, h2⟩ := register_step r s hs k
      rw [runRegs, ih _ h1]
      by_cases e : r.kind = k
      · rw [List.filter_cons_of_pos (by simp [e]), List.getLast?_cons]
        cases hl : (t.filter (fun r => r.kind = k)).getLast? with
        | none =>
          rw [h2, if_pos e]
          obtain ⟨rk, rf, rc⟩ := r
          cases rf <;> rfl
        | some q => obtain ⟨_, qf, _⟩ := q; cases qf <;> rfl
      · rw [List.filter_cons_of_neg (by simp [e]), h2, if_neg e]
  rw [key h {} (by decide), expectedCalls]
  split <;> rename_i heq
  · rw [heq]
  · rw [heq]
  · rw [heq]; cases k <;> rfl

/-- The three kinds of socket callbacks. -/
inductive SockEv
  | dataReady | opened | closed
  deriving DecidableEq, Repr

/-- Registration function per kind. -/
def registerSock : SockEv → Option Ptr → Option Nat → Nat → St → Option (CellErr × St)
  | .dataReady => registerDataReady
  | .opened => registerOpen
  | .closed => registerClosed

/-- The callback a modem port finds in the socket object. -/
def sockCb : SockEv → Sock → Cb
  | .dataReady, k => k.dataReady
  | .opened, k => k.opened
  | .closed, k => k.closed

/-- Registering a socket callback stores exactly that callback and context for that kind on that socket,
and leaves the other kinds, the rest of the socket and all other sockets alone; a NULL handle or a
not-open library is refused with no change. -/
theorem C60_socket_callbacks (e : SockEv) (s : St) (h : Ptr) (k : Sock) (fn : Option Nat) (ctx : Nat)
    (hk : s.heap h = some k) :
    (libStatus (some s) = .success →
      ∃ s' k', registerSock e (some h) fn ctx s = some (.success, s') ∧ s'.heap h = some k' ∧
        SameExcept h s s' ∧ sockCb e k' = ⟨fn, ctx⟩ ∧ (∀ e', e' ≠ e → sockCb e' k' = sockCb e' k) ∧
        { k' with dataReady := {}, opened := {}, closed := {} } =
          { k with dataReady := {}, opened := {}, closed := {} }) ∧
    (libStatus (some s) = .success → registerSock e none fn ctx s = some (.invalidHandle, s)) ∧
    (libStatus (some s) ≠ .success →
      registerSock e (some h) fn ctx s = some (libStatus (some s), s)) := by
  refine ⟨?_, ?_, ?_⟩ <;> intro hopen
  · cases e
    · refine ⟨{ s with heap := setHeap s.heap h (some { k with dataReady := ⟨fn, ctx⟩ }) },
        { k with dataReady := ⟨fn, ctx⟩ }, by simp [registerSock, registerDataReady, socketRegister, hopen, hk], by simp [setHeap],
        ⟨rfl, rfl, rfl, rfl, rfl, fun p hp => by simp [setHeap, hp]⟩, rfl, ?_, rfl⟩
      intro e' he; cases e' <;> first | rfl | exact absurd rfl he
    · refine ⟨{ s with heap := setHeap s.heap h (some { k with opened := ⟨fn, ctx⟩ }) },
        { k with opened := ⟨fn, ctx⟩ }, by simp [registerSock, registerOpen, socketRegister, hopen, hk], by simp [setHeap],
        ⟨rfl, rfl, rfl, rfl, rfl, fun p hp => by simp [setHeap, hp]⟩, rfl, ?_, rfl⟩
      intro e' he; cases e' <;> first | rfl | exact absurd rfl he
    · refine ⟨{ s with heap := setHeap s.heap h (some { k with closed := ⟨fn, ctx⟩ }) },
        { k with closed := ⟨fn, ctx⟩ }, by simp [registerSock, registerClosed, socketRegister, hopen, hk], by simp [setHeap],
        ⟨rfl, rfl, rfl, rfl, rfl, fun p hp => by simp [setHeap, hp]⟩, rfl, ?_, rfl⟩
      intro e' he; cases e' <;> first | rfl | exact absurd rfl he
  · cases e <;> simp [registerSock, registerDataReady, registerOpen, registerClosed, socketRegister, hopen]
  · cases e <;> simp [registerSock, registerDataReady, registerOpen, registerClosed, socketRegister, hopen]

example : fire .pdnEvent (runRegs [⟨.pdnEvent, some 1, 10⟩, ⟨.generic, some 2, 20⟩, ⟨.pdnEvent, some 3, 30⟩,
    ⟨.modemEvent, none, 5⟩] {}) = [(3, 30)] := by decide

end Cellular.Props
