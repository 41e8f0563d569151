/-
C108: which pairs the synchroniser makes of two topics that may have gaps, and what the mapping
program makes of them.
-/
import Mathlib.Tactic.Linarith
import Verif.Model.Sync
import Verif.Model.Apps
import Verif.Props.C58
import Verif.Props.C107

set_option autoImplicit false

namespace Verif.Sync

variable {A B : Type}

/-! ### Specification, by the history of messages only -/

/-- The stamps of the first topic. -/
def leftStamps (evs : List (Event A B)) : List ℤ :=
  evs.filterMap fun | .left t _ => some t | .right _ _ => none

/-- The stamps of the second topic. -/
def rightStamps (evs : List (Event A B)) : List ℤ :=
  evs.filterMap fun | .left _ _ => none | .right t _ => some t

/-- The message of the first topic with stamp `t`. -/
def leftAt (t : ℤ) (evs : List (Event A B)) : Option A :=
  evs.findSome? fun | .left t' a => if t' = t then some a else none | .right _ _ => none

/-- The message of the second topic with stamp `t`. -/
def rightAt (t : ℤ) (evs : List (Event A B)) : Option B :=
  evs.findSome? fun | .left _ _ => none | .right t' b => if t' = t then some b else none

/-- How many messages later than `t` the topic with these stamps has delivered. -/
def ahead (t : ℤ) (stamps : List ℤ) : ℕ := stamps.countP fun t' => decide (t < t')

/-- Room in a queue of `q` (`0`: without limit) for a message with `n` later ones. -/
def Room (q n : ℕ) : Prop := q = 0 ∨ n < q

instance (q n : ℕ) : Decidable (Room q n) := by unfold Room; infer_instance

/-- The pairs to be made: when a message arrives after the other topic's message of the same stamp,
and the other topic is fewer than `q` messages past that stamp, the two are a pair. -/
def expected (q : ℕ) : List (Event A B) → List (Event A B) → List (ℤ × A × B)
  | _, [] => []
  | past, .left t a :: rest =>
    (match rightAt t past with
      | some b => if Room q (ahead t (rightStamps past)) then [(t, a, b)] else []
      | none => []) ++ expected q (past ++ [.left t a]) rest
  | past, .right t b :: rest =>
    (match leftAt t past with
      | some a => if Room q (ahead t (leftStamps past)) then [(t, a, b)] else []
      | none => []) ++ expected q (past ++ [.right t b]) rest

/-! ### The order of the entries -/

/-- Entries before `t`, perhaps one at `t`, entries after `t`. -/
def Split (t : ℤ) (U lower mid upper : Pending A B) : Prop :=
  U = lower ++ mid ++ upper ∧ (∀ e ∈ lower, e.1 < t) ∧ (∀ e ∈ mid, e.1 = t) ∧ (∀ e ∈ upper, t < e.1)

/-- Strictly increasing stamps. -/
def Ordered (U : Pending A B) : Prop := U.Pairwise fun a b => a.1 < b.1

theorem upsert_before {t : ℤ} {f : Option A × Option B → Option A × Option B} {upper : Pending A B}
    (h : ∀ e ∈ upper, t < e.1) : upsert t f upper = (t, f (none, none)) :: upper := by
  cases upper with
  | nil => rfl
  | cons y ys => simp only [upsert, h y List.mem_cons_self, if_true]

theorem upsert_skip {t : ℤ} {f : Option A × Option B → Option A × Option B} {lower s : Pending A B}
    (h : ∀ e ∈ lower, e.1 < t) : upsert t f (lower ++ s) = lower ++ upsert t f s := by
  induction lower with
  | nil => rfl
  | cons y ys ih =>
    have hy := h y List.mem_cons_self
    simp only [List.cons_append, upsert, not_lt.2 hy.le, hy, if_true, if_false]
    rw [ih fun e he => h e (List.mem_cons_of_mem _ he)]

theorem upsert_at {t : ℤ} {f : Option A × Option B → Option A × Option B}
    {x : Option A × Option B} {s : Pending A B} :
    upsert t f ((t, x) :: s) = (t, f x) :: s := by
  simp only [upsert, lt_irrefl, if_false]

theorem lookup_skip {t : ℤ} {x : Option A × Option B} {lower s : Pending A B}
    (h : ∀ e ∈ lower, e.1 < t) : lookup t (lower ++ (t, x) :: s) = some x := by
  have h0 : lower.find? (fun e => decide (e.1 = t)) = none := by
    rw [List.find?_eq_none]
    intro e he
    have := h e he
    simp only [decide_eq_true_eq]
    omega
  simp [lookup, List.find?_append, h0]

theorem filter_upper {t : ℤ} {lower mid upper : Pending A B} (h1 : ∀ e ∈ lower, e.1 < t)
    (h2 : ∀ e ∈ mid, e.1 = t) (h3 : ∀ e ∈ upper, t < e.1) :
    (lower ++ mid ++ upper).filter (fun e => decide (t < e.1)) = upper := by
  rw [List.filter_append, List.filter_append]
  have e1 : lower.filter (fun e => decide (t < e.1)) = [] := by
    rw [List.filter_eq_nil_iff]; intro e he; have := h1 e he; simp; omega
  have e2 : mid.filter (fun e => decide (t < e.1)) = [] := by
    rw [List.filter_eq_nil_iff]; intro e he; have := h2 e he; simp; omega
  have e3 : upper.filter (fun e => decide (t < e.1)) = upper := by
    rw [List.filter_eq_self]; intro e he; simpa using h3 e he
  rw [e1, e2, e3]; rfl

/-- Ordered entries split at every stamp, with at most one entry at it. -/
theorem exists_split (t : ℤ) {U : Pending A B} (h : Ordered U) :
    ∃ lower upper, Split t U lower [] upper ∨ ∃ x, Split t U lower [(t, x)] upper := by
  induction U with
  | nil => exact ⟨[], [], Or.inl ⟨rfl, by simp, by simp, by simp⟩⟩
  | cons y ys ih =>
    obtain ⟨hy, hys⟩ := List.pairwise_cons.1 h
    rcases lt_trichotomy y.1 t with hlt | heq | hgt
    · obtain ⟨lower, upper, hs | ⟨x, hs⟩⟩ := ih hys
      · refine ⟨y :: lower, upper, Or.inl ⟨by rw [hs.1]; rfl, ?_, hs.2.2.1, hs.2.2.2⟩⟩
        intro e he
        rcases List.mem_cons.1 he with rfl | he
        · exact hlt
        · exact hs.2.1 e he
      · refine ⟨y :: lower, upper, Or.inr ⟨x, by rw [hs.1]; rfl, ?_, hs.2.2.1, hs.2.2.2⟩⟩
        intro e he
        rcases List.mem_cons.1 he with rfl | he
        · exact hlt
        · exact hs.2.1 e he
    · refine ⟨[], ys, Or.inr ⟨y.2, by rw [← heq]; rfl, by simp, by simp, ?_⟩⟩
      intro e he
      have := hy e he
      omega
    · refine ⟨[], y :: ys, Or.inl ⟨rfl, by simp, by simp, ?_⟩⟩
      intro e he
      rcases List.mem_cons.1 he with rfl | he
      · exact hgt
      · have := hy e he
        omega

/-! ### One message, with and without a limit -/

theorem trim_zero (s : Pending A B) : trim 0 s = s := rfl

theorem trim_pos {q : ℕ} (hq : q ≠ 0) (s : Pending A B) : trim q s = s.drop (s.length - q) := by
  simp [trim, hq]

/-- The limit leaves of the entries up to `t` what the later ones leave room for. -/
theorem trim_room {q : ℕ} {low upper : Pending A B} (hr : Room q upper.length) :
    ∃ low', trim q (low ++ upper) = low' ++ upper ∧ (∀ e ∈ low', e ∈ low) := by
  rcases hr with rfl | hr
  · exact ⟨low, rfl, fun e he => he⟩
  · refine ⟨low.drop (low.length + upper.length - q), ?_, fun e he => List.mem_of_mem_drop he⟩
    rw [trim_pos (by omega), List.length_append, List.drop_append_of_le_length (by omega)]

theorem trim_full {q : ℕ} {low upper : Pending A B} (hr : ¬ Room q upper.length) :
    trim q (low ++ upper) = trim q upper := by
  unfold Room at hr
  rw [not_or] at hr
  rw [trim_pos hr.1, trim_pos hr.1, List.length_append, List.drop_append,
    List.drop_of_length_le (show low.length ≤ low.length + upper.length - q by omega),
    List.nil_append]
  congr 1
  omega

theorem trim_mem {q : ℕ} {s : Pending A B} {p : ℤ × Option A × Option B → Prop}
    (h : ∀ e ∈ s, p e) : ∀ e ∈ trim q s, p e := fun e he => h e (mem_trim he)

/-- A message that completes an entry: a pair if the entry is still there. -/
theorem check_complete {q : ℕ} {t : ℤ} {f : Option A × Option B → Option A × Option B}
    {x : Option A × Option B} {a : A} {b : B} {U lower upper : Pending A B}
    (hs : Split t U lower [(t, x)] upper) (hf : f x = (some a, some b))
    (hf0 : ∀ a b, f (none, none) ≠ (some a, some b)) :
    checkTuple q t (upsert t f (trim q U)) =
      ((if Room q upper.length then [(t, a, b)] else []), trim q upper) := by
  obtain ⟨rfl, h1, _, h3⟩ := hs
  by_cases hr : Room q upper.length
  · have hlow : ∃ low', trim q (lower ++ [(t, x)] ++ upper) = low' ++ (t, x) :: upper ∧
        ∀ e ∈ low', e ∈ lower := by
      rcases hr with rfl | hr
      · exact ⟨lower, by rw [trim_zero]; simp, fun e he => he⟩
      · refine ⟨lower.drop (lower.length + 1 + upper.length - q), ?_,
          fun e he => List.mem_of_mem_drop he⟩
        rw [trim_pos (by omega), List.append_assoc, List.length_append]
        simp only [List.singleton_append, List.length_cons]
        rw [List.drop_append_of_le_length (by omega)]
        congr 2
        omega
    obtain ⟨low', hlow, hsub⟩ := hlow
    have h1' : ∀ e ∈ low', e.1 < t := fun e he => h1 e (hsub e he)
    rw [hlow, upsert_skip h1', upsert_at, if_pos hr]
    simp only [checkTuple, lookup_skip h1', hf]
    have := filter_upper (t := t) (mid := [(t, some a, some b)]) h1' (by simp) h3
    rw [show low' ++ (t, some a, some b) :: upper = low' ++ [(t, some a, some b)] ++ upper by simp,
      this]
  · rw [trim_full hr, upsert_before (trim_mem h3), if_neg hr]
    have hl : lookup t ((t, f (none, none)) :: trim q upper) = some (f (none, none)) := by
      simp [lookup]
    simp only [checkTuple, hl]
    split
    · rename_i a' b' heq
      exact absurd (Option.some.inj heq) (hf0 a' b')
    · congr 1
      unfold Room at hr
      rw [not_or] at hr
      rw [trim_pos hr.1 upper, trim_pos hr.1]
      have : (upper.drop (upper.length - q)).length = q := by rw [List.length_drop]; omega
      rw [List.length_cons, this]
      simp

/-- A message that completes nothing. -/
theorem check_new {q : ℕ} {t : ℤ} {f : Option A × Option B → Option A × Option B}
    {U lower upper : Pending A B} (hs : Split t U lower [] upper)
    (hf0 : ∀ a b, f (none, none) ≠ (some a, some b)) :
    checkTuple q t (upsert t f (trim q U)) =
      ([], trim q (lower ++ [(t, f (none, none))] ++ upper)) := by
  obtain ⟨rfl, h1, _, h3⟩ := hs
  rw [List.append_nil]
  have hinc : ∀ low' s' : Pending A B, (∀ e ∈ low', e.1 < t) →
      checkTuple q t (low' ++ (t, f (none, none)) :: s') =
        ([], trim q (low' ++ (t, f (none, none)) :: s')) := by
    intro low' s' h
    simp only [checkTuple, lookup_skip h]
    split
    · rename_i a' b' heq
      exact absurd (Option.some.inj heq) (hf0 a' b')
    · rfl
  by_cases hr : Room q upper.length
  · rcases hr with rfl | hr
    · rw [trim_zero, upsert_skip h1, upsert_before h3, hinc _ _ h1]
      simp
    · rw [trim_pos (by omega), List.length_append, List.drop_append_of_le_length (by omega)]
      have h1' : ∀ e ∈ lower.drop (lower.length + upper.length - q), e.1 < t :=
        fun e he => h1 e (List.mem_of_mem_drop he)
      rw [upsert_skip h1', upsert_before h3, hinc _ _ h1']
      congr 1
      rw [trim_pos (by omega), trim_pos (by omega)]
      rw [List.append_assoc, List.singleton_append]
      simp only [List.length_append, List.length_cons, List.length_drop]
      rw [List.drop_append_of_le_length (by rw [List.length_drop]; omega),
        List.drop_append_of_le_length (by omega), List.drop_drop]
      congr 2
      omega
  · rw [trim_full hr, upsert_before (trim_mem h3)]
    have := hinc [] (trim q upper) (by simp)
    rw [List.nil_append] at this
    rw [this]
    congr 1
    rw [trim_full hr]
    unfold Room at hr
    rw [not_or] at hr
    rw [trim_pos hr.1 upper, trim_pos hr.1]
    have : (upper.drop (upper.length - q)).length = q := by rw [List.length_drop]; omega
    rw [List.length_cons, this]
    simp

/-! ### The entries that would wait without a limit -/

/-- What is known about them after the messages `past`. -/
structure Waits (past : List (Event A B)) (U : Pending A B) : Prop where
  ordered : Ordered U
  /-- entries are incomplete and made of received messages -/
  left_only : ∀ e ∈ U, ∀ t, (∀ t' ∈ rightStamps past, t' < t) → e.1 = t → e.2 = (leftAt t past, none)
  right_only : ∀ e ∈ U, ∀ t, (∀ t' ∈ leftStamps past, t' < t) → e.1 = t → e.2 = (none, rightAt t past)
  /-- messages of a topic later than all of the other are there -/
  left_waits : ∀ t ∈ leftStamps past, (∀ t' ∈ rightStamps past, t' < t) → ∃ x, (t, x) ∈ U
  right_waits : ∀ t ∈ rightStamps past, (∀ t' ∈ leftStamps past, t' < t) → ∃ x, (t, x) ∈ U
  known : ∀ e ∈ U, e.1 ∈ leftStamps past ∨ e.1 ∈ rightStamps past
  left_ahead : ∀ t, (∀ t' ∈ rightStamps past, t' ≤ t) →
    (U.filter fun e => decide (t < e.1)).length = ahead t (leftStamps past)
  right_ahead : ∀ t, (∀ t' ∈ leftStamps past, t' ≤ t) →
    (U.filter fun e => decide (t < e.1)).length = ahead t (rightStamps past)

theorem leftStamps_append (p q : List (Event A B)) :
    leftStamps (p ++ q) = leftStamps p ++ leftStamps q := List.filterMap_append

theorem rightStamps_append (p q : List (Event A B)) :
    rightStamps (p ++ q) = rightStamps p ++ rightStamps q := List.filterMap_append

theorem ahead_append (t : ℤ) (p q : List ℤ) : ahead t (p ++ q) = ahead t p + ahead t q :=
  List.countP_append

theorem leftAt_append (t : ℤ) (p q : List (Event A B)) :
    leftAt t (p ++ q) = (leftAt t p).or (leftAt t q) := List.findSome?_append

theorem rightAt_append (t : ℤ) (p q : List (Event A B)) :
    rightAt t (p ++ q) = (rightAt t p).or (rightAt t q) := List.findSome?_append

theorem leftAt_isSome (t : ℤ) (p : List (Event A B)) :
    (leftAt t p).isSome = true ↔ t ∈ leftStamps p := by
  induction p with
  | nil => simp [leftAt, leftStamps]
  | cons e p ih =>
    rw [← List.singleton_append, leftAt_append, leftStamps_append, Option.isSome_or,
      Bool.or_eq_true, List.mem_append, ih]
    apply or_congr _ Iff.rfl
    cases e with
    | left t' a =>
      by_cases h : t' = t
      · simp [leftAt, leftStamps, h]
      · simp [leftAt, leftStamps, h, Ne.symm h]
    | right t' b => simp [leftAt, leftStamps]

theorem rightAt_isSome (t : ℤ) (p : List (Event A B)) :
    (rightAt t p).isSome = true ↔ t ∈ rightStamps p := by
  induction p with
  | nil => simp [rightAt, rightStamps]
  | cons e p ih =>
    rw [← List.singleton_append, rightAt_append, rightStamps_append, Option.isSome_or,
      Bool.or_eq_true, List.mem_append, ih]
    apply or_congr _ Iff.rfl
    cases e with
    | left t' a => simp [rightAt, rightStamps]
    | right t' b =>
      by_cases h : t' = t
      · simp [rightAt, rightStamps, h]
      · simp [rightAt, rightStamps, h, Ne.symm h]

/-- Entries of a split list, apart from those at the stamp itself. -/
theorem Split.mem {t : ℤ} {U lower mid upper : Pending A B} (h : Split t U lower mid upper)
    {e : ℤ × Option A × Option B} (he : e ∈ U) :
    (e ∈ lower ∧ e.1 < t) ∨ (e ∈ mid ∧ e.1 = t) ∨ (e ∈ upper ∧ t < e.1) := by
  rw [h.1, List.mem_append, List.mem_append] at he
  rcases he with (he | he) | he
  · exact Or.inl ⟨he, h.2.1 e he⟩
  · exact Or.inr (Or.inl ⟨he, h.2.2.1 e he⟩)
  · exact Or.inr (Or.inr ⟨he, h.2.2.2 e he⟩)

theorem Split.filter_ge {t t0 : ℤ} {U lower mid upper : Pending A B} (h : Split t U lower mid upper)
    (ht : t ≤ t0) :
    U.filter (fun e => decide (t0 < e.1)) = upper.filter (fun e => decide (t0 < e.1)) := by
  rw [h.1, List.filter_append, List.filter_append]
  have e1 : lower.filter (fun e => decide (t0 < e.1)) = [] := by
    rw [List.filter_eq_nil_iff]; intro e he; have := h.2.1 e he; simp; omega
  have e2 : mid.filter (fun e => decide (t0 < e.1)) = [] := by
    rw [List.filter_eq_nil_iff]; intro e he; have := h.2.2.1 e he; simp; omega
  rw [e1, e2]; rfl

theorem Split.upper_length {t : ℤ} {U lower mid upper : Pending A B}
    (h : Split t U lower mid upper) :
    upper.length = (U.filter fun e => decide (t < e.1)).length := by
  rw [h.1, filter_upper h.2.1 h.2.2.1 h.2.2.2]

theorem Split.ordered_upper {t : ℤ} {U lower mid upper : Pending A B}
    (h : Split t U lower mid upper) (ho : Ordered U) : Ordered upper := by
  unfold Ordered at *
  rw [h.1] at ho
  exact (List.pairwise_append.1 ho).2.1

theorem Split.ordered_new {t : ℤ} {x : Option A × Option B} {U lower upper : Pending A B}
    (h : Split t U lower [] upper) (ho : Ordered U) : Ordered (lower ++ [(t, x)] ++ upper) := by
  unfold Ordered at *
  rw [h.1, List.append_nil] at ho
  obtain ⟨h1, h2, h3⟩ := List.pairwise_append.1 ho
  rw [List.append_assoc]
  refine List.pairwise_append.2 ⟨h1, ?_, ?_⟩
  · rw [List.singleton_append]
    exact List.pairwise_cons.2 ⟨fun e he => h.2.2.2 e he, h2⟩
  · intro e he e' he'
    rw [List.singleton_append] at he'
    rcases List.mem_cons.1 he' with rfl | he'
    · exact h.2.1 e he
    · exact h3 e he e' he'

theorem filter_new_length {t t0 : ℤ} {x : Option A × Option B} {lower upper : Pending A B} :
    ((lower ++ [(t, x)] ++ upper).filter fun e => decide (t0 < e.1)).length =
      ((lower ++ ([] : Pending A B) ++ upper).filter fun e => decide (t0 < e.1)).length +
        ahead t0 [t] := by
  simp only [List.filter_append, List.length_append, List.filter_nil, List.length_nil, ahead]
  by_cases h : t0 < t
  · simp [h]; omega
  · simp [h]

/-- A message of the first topic. -/
theorem Waits.left {past : List (Event A B)} {U : Pending A B} (h : Waits past U) (q : ℕ) (t : ℤ)
    (a : A) (ht : ∀ t' ∈ leftStamps past, t' < t) :
    ∃ U', Waits (past ++ [.left t a]) U' ∧
      add q (trim q U) (.left t a) =
        ((match rightAt t past with
          | some b => if Room q (ahead t (rightStamps past)) then [(t, a, b)] else []
          | none => []), trim q U') := by
  have hnl : t ∉ leftStamps past := fun hm => lt_irrefl _ (ht t hm)
  have hla : leftAt t past = none := by
    rw [← Option.not_isSome_iff_eq_none, leftAt_isSome]; exact hnl
  have hL : leftStamps (past ++ [.left t a]) = leftStamps past ++ [t] := by
    rw [leftStamps_append]; rfl
  have hR : rightStamps (past ++ [.left t a]) = rightStamps past := by
    rw [rightStamps_append]; simp [rightStamps]
  have hRA : ∀ t0, rightAt t0 (past ++ [.left t a]) = rightAt t0 past := by
    intro t0; rw [rightAt_append]; simp [rightAt]
  have hLA : ∀ t0, t0 ≠ t → leftAt t0 (past ++ [.left t a]) = leftAt t0 past := by
    intro t0 h0; rw [leftAt_append]; simp [leftAt, Ne.symm h0]
  have hLAt : leftAt t (past ++ [.left t a]) = some a := by
    rw [leftAt_append, hla]; simp [leftAt]
  obtain ⟨lower, upper, hs | ⟨x, hs⟩⟩ := exists_split t h.ordered
  · have hnone : rightAt t past = none := by
      rw [← Option.not_isSome_iff_eq_none, rightAt_isSome]
      intro hm
      obtain ⟨x, hx⟩ := h.right_waits t hm ht
      rcases hs.mem hx with ⟨_, h1⟩ | ⟨h1, _⟩ | ⟨_, h1⟩
      · exact lt_irrefl _ h1
      · simp at h1
      · exact lt_irrefl _ h1
    refine ⟨lower ++ [(t, some a, none)] ++ upper, ?_, ?_⟩
    · have hmem : ∀ e ∈ lower ++ [(t, some a, none)] ++ upper,
          e = (t, some a, none) ∨ (e ∈ U ∧ e.1 ≠ t) := by
        intro e he
        rw [List.mem_append, List.mem_append, List.mem_singleton] at he
        rcases he with (he | he) | he
        · refine Or.inr ⟨by rw [hs.1]; simp [he], (hs.2.1 e he).ne⟩
        · exact Or.inl he
        · refine Or.inr ⟨by rw [hs.1]; simp [he], (hs.2.2.2 e he).ne'⟩
      have hsub : ∀ e ∈ U, e ∈ lower ++ [(t, some a, none)] ++ upper := by
        intro e he
        rcases hs.mem he with ⟨h1, _⟩ | ⟨h1, _⟩ | ⟨h1, _⟩
        · simp [h1]
        · simp at h1
        · simp [h1]
      constructor
      · exact hs.ordered_new h.ordered
      · intro e he t0 h0 het
        rw [hR] at h0
        rcases hmem e he with rfl | ⟨he, hne⟩
        · rw [← het]; simp only [hLAt]
        · rw [hLA t0 (het ▸ hne)]
          exact h.left_only e he t0 h0 het
      · intro e he t0 h0 het
        rw [hL] at h0
        have h0t : t < t0 := h0 t (by simp)
        rw [hRA]
        rcases hmem e he with rfl | ⟨he, hne⟩
        · exact absurd het (by simp only; omega)
        · exact h.right_only e he t0 (fun t' ht' => h0 t' (by simp [ht'])) het
      · intro t0 h0 h1
        rw [hR] at h1
        rw [hL, List.mem_append, List.mem_singleton] at h0
        rcases h0 with h0 | rfl
        · obtain ⟨x, hx⟩ := h.left_waits t0 h0 h1
          exact ⟨x, hsub _ hx⟩
        · exact ⟨(some a, none), by simp⟩
      · intro t0 h0 h1
        rw [hR] at h0
        rw [hL] at h1
        obtain ⟨x, hx⟩ := h.right_waits t0 h0 fun t' ht' => h1 t' (by simp [ht'])
        exact ⟨x, hsub _ hx⟩
      · intro e he
        rw [hL, hR]
        rcases hmem e he with rfl | ⟨he, _⟩
        · left; simp
        · rcases h.known e he with h1 | h1
          · left; simp [h1]
          · right; exact h1
      · intro t0 h0
        rw [hR] at h0
        rw [filter_new_length, ← hs.1, h.left_ahead t0 h0, hL, ahead_append]
      · intro t0 h0
        rw [hL] at h0
        have h0t : t ≤ t0 := h0 t (by simp)
        rw [filter_new_length, ← hs.1, h.right_ahead t0 fun t' ht' => h0 t' (by simp [ht']), hR]
        simp [ahead, h0t]
    · have := check_new (q := q) (f := fun x => (some a, x.2)) hs (by simp)
      simp only [add, this, hnone]
  · have hx : (t, x) ∈ U := by rw [hs.1]; simp
    have htr : t ∈ rightStamps past := by
      rcases h.known _ hx with h1 | h1
      · exact absurd h1 hnl
      · exact h1
    have hx2 : x = (none, rightAt t past) := h.right_only _ hx t ht rfl
    obtain ⟨b, hb⟩ := Option.isSome_iff_exists.1 ((rightAt_isSome t past).2 htr)
    have hmem : ∀ e ∈ upper, e ∈ U := by intro e he; rw [hs.1]; simp [he]
    refine ⟨upper, ?_, ?_⟩
    · constructor
      · exact hs.ordered_upper h.ordered
      · intro e he t0 h0 het
        rw [hR] at h0
        have h1 := hs.2.2.2 e he
        rw [hLA t0 (by omega)]
        exact h.left_only e (hmem e he) t0 h0 het
      · intro e he t0 h0 het
        rw [hL] at h0
        rw [hRA]
        exact h.right_only e (hmem e he) t0 (fun t' ht' => h0 t' (by simp [ht'])) het
      · intro t0 h0 h1
        rw [hR] at h1
        have h2 := h1 t htr
        rw [hL, List.mem_append, List.mem_singleton] at h0
        rcases h0 with h0 | rfl
        · exact absurd (ht t0 h0) (by omega)
        · exact absurd h2 (lt_irrefl _)
      · intro t0 h0 h1
        rw [hR] at h0
        rw [hL] at h1
        have h2 : t < t0 := h1 t (by simp)
        obtain ⟨y, hy⟩ := h.right_waits t0 h0 fun t' ht' => h1 t' (by simp [ht'])
        rcases hs.mem hy with ⟨_, h3⟩ | ⟨_, h3⟩ | ⟨h3, _⟩
        · exact absurd h3 (by simp only; omega)
        · exact absurd h3 (by simp only; omega)
        · exact ⟨y, h3⟩
      · intro e he
        rw [hL, hR]
        rcases h.known e (hmem e he) with h1 | h1
        · left; simp [h1]
        · right; exact h1
      · intro t0 h0
        rw [hR] at h0
        have h2 := h0 t htr
        rw [← hs.filter_ge h2, h.left_ahead t0 h0, hL, ahead_append]
        simp [ahead, h2]
      · intro t0 h0
        rw [hL] at h0
        have h2 : t ≤ t0 := h0 t (by simp)
        rw [← hs.filter_ge h2, h.right_ahead t0 fun t' ht' => h0 t' (by simp [ht']), hR]
    · have := check_complete (q := q) (f := fun x => (some a, x.2)) (a := a) (b := b) hs
        (by rw [hx2, hb]) (by simp)
      have hlen : upper.length = ahead t (rightStamps past) := by
        rw [hs.upper_length, h.right_ahead t fun t' ht' => (ht t' ht').le]
      simp only [add, this, hb, hlen]

/-- A message of the second topic. -/
theorem Waits.right {past : List (Event A B)} {U : Pending A B} (h : Waits past U) (q : ℕ) (t : ℤ)
    (b : B) (ht : ∀ t' ∈ rightStamps past, t' < t) :
    ∃ U', Waits (past ++ [.right t b]) U' ∧
      add q (trim q U) (.right t b) =
        ((match leftAt t past with
          | some a => if Room q (ahead t (leftStamps past)) then [(t, a, b)] else []
          | none => []), trim q U') := by
  have hnr : t ∉ rightStamps past := fun hm => lt_irrefl _ (ht t hm)
  have hra : rightAt t past = none := by
    rw [← Option.not_isSome_iff_eq_none, rightAt_isSome]; exact hnr
  have hR : rightStamps (past ++ [.right t b]) = rightStamps past ++ [t] := by
    rw [rightStamps_append]; rfl
  have hL : leftStamps (past ++ [.right t b]) = leftStamps past := by
    rw [leftStamps_append]; simp [leftStamps]
  have hLA : ∀ t0, leftAt t0 (past ++ [.right t b]) = leftAt t0 past := by
    intro t0; rw [leftAt_append]; simp [leftAt]
  have hRA : ∀ t0, t0 ≠ t → rightAt t0 (past ++ [.right t b]) = rightAt t0 past := by
    intro t0 h0; rw [rightAt_append]; simp [rightAt, Ne.symm h0]
  have hRAt : rightAt t (past ++ [.right t b]) = some b := by
    rw [rightAt_append, hra]; simp [rightAt]
  obtain ⟨lower, upper, hs | ⟨x, hs⟩⟩ := exists_split t h.ordered
  · have hnone : leftAt t past = none := by
      rw [← Option.not_isSome_iff_eq_none, leftAt_isSome]
      intro hm
      obtain ⟨x, hx⟩ := h.left_waits t hm ht
      rcases hs.mem hx with ⟨_, h1⟩ | ⟨h1, _⟩ | ⟨_, h1⟩
      · exact lt_irrefl _ h1
      · simp at h1
      · exact lt_irrefl _ h1
    refine ⟨lower ++ [(t, none, some b)] ++ upper, ?_, ?_⟩
    · have hmem : ∀ e ∈ lower ++ [(t, none, some b)] ++ upper,
          e = (t, none, some b) ∨ (e ∈ U ∧ e.1 ≠ t) := by
        intro e he
        rw [List.mem_append, List.mem_append, List.mem_singleton] at he
        rcases he with (he | he) | he
        · refine Or.inr ⟨by rw [hs.1]; simp [he], (hs.2.1 e he).ne⟩
        · exact Or.inl he
        · refine Or.inr ⟨by rw [hs.1]; simp [he], (hs.2.2.2 e he).ne'⟩
      have hsub : ∀ e ∈ U, e ∈ lower ++ [(t, none, some b)] ++ upper := by
        intro e he
        rcases hs.mem he with ⟨h1, _⟩ | ⟨h1, _⟩ | ⟨h1, _⟩
        · simp [h1]
        · simp at h1
        · simp [h1]
      constructor
      · exact hs.ordered_new h.ordered
      · intro e he t0 h0 het
        rw [hR] at h0
        have h0t : t < t0 := h0 t (by simp)
        rw [hLA]
        rcases hmem e he with rfl | ⟨he, hne⟩
        · exact absurd het (by simp only; omega)
        · exact h.left_only e he t0 (fun t' ht' => h0 t' (by simp [ht'])) het
      · intro e he t0 h0 het
        rw [hL] at h0
        rcases hmem e he with rfl | ⟨he, hne⟩
        · rw [← het]; simp only [hRAt]
        · rw [hRA t0 (het ▸ hne)]
          exact h.right_only e he t0 h0 het
      · intro t0 h0 h1
        rw [hL] at h0
        rw [hR] at h1
        obtain ⟨x, hx⟩ := h.left_waits t0 h0 fun t' ht' => h1 t' (by simp [ht'])
        exact ⟨x, hsub _ hx⟩
      · intro t0 h0 h1
        rw [hL] at h1
        rw [hR, List.mem_append, List.mem_singleton] at h0
        rcases h0 with h0 | rfl
        · obtain ⟨x, hx⟩ := h.right_waits t0 h0 h1
          exact ⟨x, hsub _ hx⟩
        · exact ⟨(none, some b), by simp⟩
      · intro e he
        rw [hL, hR]
        rcases hmem e he with rfl | ⟨he, _⟩
        · right; simp
        · rcases h.known e he with h1 | h1
          · left; exact h1
          · right; simp [h1]
      · intro t0 h0
        rw [hR] at h0
        have h0t : t ≤ t0 := h0 t (by simp)
        rw [filter_new_length, ← hs.1, h.left_ahead t0 fun t' ht' => h0 t' (by simp [ht']), hL]
        simp [ahead, h0t]
      · intro t0 h0
        rw [hL] at h0
        rw [filter_new_length, ← hs.1, h.right_ahead t0 h0, hR, ahead_append]
    · have := check_new (q := q) (f := fun x => (x.1, some b)) hs (by simp)
      simp only [add, this, hnone]
  · have hx : (t, x) ∈ U := by rw [hs.1]; simp
    have htl : t ∈ leftStamps past := by
      rcases h.known _ hx with h1 | h1
      · exact h1
      · exact absurd h1 hnr
    have hx2 : x = (leftAt t past, none) := h.left_only _ hx t ht rfl
    obtain ⟨a, ha⟩ := Option.isSome_iff_exists.1 ((leftAt_isSome t past).2 htl)
    have hmem : ∀ e ∈ upper, e ∈ U := by intro e he; rw [hs.1]; simp [he]
    refine ⟨upper, ?_, ?_⟩
    · constructor
      · exact hs.ordered_upper h.ordered
      · intro e he t0 h0 het
        rw [hR] at h0
        rw [hLA]
        exact h.left_only e (hmem e he) t0 (fun t' ht' => h0 t' (by simp [ht'])) het
      · intro e he t0 h0 het
        rw [hL] at h0
        have h1 := hs.2.2.2 e he
        rw [hRA t0 (by omega)]
        exact h.right_only e (hmem e he) t0 h0 het
      · intro t0 h0 h1
        rw [hL] at h0
        rw [hR] at h1
        have h2 : t < t0 := h1 t (by simp)
        obtain ⟨y, hy⟩ := h.left_waits t0 h0 fun t' ht' => h1 t' (by simp [ht'])
        rcases hs.mem hy with ⟨_, h3⟩ | ⟨_, h3⟩ | ⟨h3, _⟩
        · exact absurd h3 (by simp only; omega)
        · exact absurd h3 (by simp only; omega)
        · exact ⟨y, h3⟩
      · intro t0 h0 h1
        rw [hL] at h1
        have h2 := h1 t htl
        rw [hR, List.mem_append, List.mem_singleton] at h0
        rcases h0 with h0 | rfl
        · exact absurd (ht t0 h0) (by omega)
        · exact absurd h2 (lt_irrefl _)
      · intro e he
        rw [hL, hR]
        rcases h.known e (hmem e he) with h1 | h1
        · left; exact h1
        · right; simp [h1]
      · intro t0 h0
        rw [hR] at h0
        have h2 : t ≤ t0 := h0 t (by simp)
        rw [← hs.filter_ge h2, h.left_ahead t0 fun t' ht' => h0 t' (by simp [ht']), hL]
      · intro t0 h0
        rw [hL] at h0
        have h2 := h0 t htl
        rw [← hs.filter_ge h2, h.right_ahead t0 h0, hR, ahead_append]
        simp [ahead, h2]
    · have := check_complete (q := q) (f := fun x => (x.1, some b)) (a := a) (b := b) hs
        (by rw [hx2, ha]) (by simp)
      have hlen : upper.length = ahead t (leftStamps past) := by
        rw [hs.upper_length, h.left_ahead t fun t' ht' => (ht t' ht').le]
      simp only [add, this, ha, hlen]

theorem waits_nil : Waits ([] : List (Event A B)) [] := by
  constructor <;> simp [Ordered, leftStamps, rightStamps, ahead]

/-- C108: if the stamps of each topic increase, then - whatever messages are missing on either topic,
and however the two are interleaved - the callback is given exactly the pairs demanded by the
history, in that order. -/
theorem C108_exact_pairs (q : ℕ) (evs : List (Event A B))
    (hl : (leftStamps evs).Pairwise (· < ·)) (hr : (rightStamps evs).Pairwise (· < ·)) :
    calls q [] evs = expected q [] evs := by
  have key : ∀ (rest past : List (Event A B)) (U : Pending A B), Waits past U →
      (leftStamps (past ++ rest)).Pairwise (· < ·) → (rightStamps (past ++ rest)).Pairwise (· < ·) →
      calls q (trim q U) rest = expected q past rest := by
    intro rest
    induction rest with
    | nil => intro past U _ _ _; rfl
    | cons e rest ih =>
      intro past U hU hl hr
      have hassoc : past ++ e :: rest = past ++ [e] ++ rest := by simp
      cases e with
      | left t a =>
        have ht : ∀ t' ∈ leftStamps past, t' < t := by
          intro t' ht'
          rw [leftStamps_append] at hl
          exact (List.pairwise_append.1 hl).2.2 t' ht' t (by simp [leftStamps])
        obtain ⟨U', hU', hadd⟩ := hU.left q t a ht
        rw [hassoc] at hl hr
        simp only [calls, hadd, expected]
        rw [ih _ _ hU' hl hr]
      | right t b =>
        have ht : ∀ t' ∈ rightStamps past, t' < t := by
          intro t' ht'
          rw [rightStamps_append] at hr
          exact (List.pairwise_append.1 hr).2.2 t' ht' t (by simp [rightStamps])
        obtain ⟨U', hU', hadd⟩ := hU.right q t b ht
        rw [hassoc] at hl hr
        simp only [calls, hadd, expected]
        rw [ih _ _ hU' hl hr]
  have := key evs [] [] waits_nil (by simpa using hl) (by simpa using hr)
  rwa [show trim q ([] : Pending A B) = [] by unfold trim; split_ifs <;> simp] at this

/-! ### Consequences -/

theorem mem_leftStamps {t : ℤ} {evs : List (Event A B)} :
    t ∈ leftStamps evs ↔ ∃ a, Event.left t a ∈ evs := by
  simp only [leftStamps, List.mem_filterMap]
  constructor
  · rintro ⟨e, he, h⟩
    cases e with
    | left t' a => cases h; exact ⟨a, he⟩
    | right t' b => cases h
  · rintro ⟨a, ha⟩
    exact ⟨_, ha, rfl⟩

theorem mem_rightStamps {t : ℤ} {evs : List (Event A B)} :
    t ∈ rightStamps evs ↔ ∃ b, Event.right t b ∈ evs := by
  simp only [rightStamps, List.mem_filterMap]
  constructor
  · rintro ⟨e, he, h⟩
    cases e with
    | left t' a => cases h
    | right t' b => cases h; exact ⟨b, he⟩
  · rintro ⟨b, hb⟩
    exact ⟨_, hb, rfl⟩

theorem leftAt_mem {t : ℤ} {a : A} {evs : List (Event A B)} (h : leftAt t evs = some a) :
    Event.left t a ∈ evs := by
  obtain ⟨e, he, h⟩ := List.exists_of_findSome?_eq_some h
  cases e with
  | left t' a' =>
    simp only at h
    split_ifs at h with ht
    cases h
    exact ht ▸ he
  | right t' b => cases h

theorem rightAt_mem {t : ℤ} {b : B} {evs : List (Event A B)} (h : rightAt t evs = some b) :
    Event.right t b ∈ evs := by
  obtain ⟨e, he, h⟩ := List.exists_of_findSome?_eq_some h
  cases e with
  | left t' a => cases h
  | right t' b' =>
    simp only at h
    split_ifs at h with ht
    cases h
    exact ht ▸ he

/-- One message for a stamp. -/
theorem left_unique {t : ℤ} {a a' : A} {evs : List (Event A B)}
    (h : (leftStamps evs).Pairwise (· < ·)) (ha : Event.left t a ∈ evs)
    (ha' : Event.left t a' ∈ evs) : a = a' := by
  induction evs with
  | nil => simp at ha
  | cons e evs ih =>
    rw [← List.singleton_append, leftStamps_append] at h
    obtain ⟨_, h2, h3⟩ := List.pairwise_append.1 h
    rcases List.mem_cons.1 ha with rfl | ha1
    · rcases List.mem_cons.1 ha' with h' | ha1'
      · cases h'; rfl
      · exact absurd (h3 t (by simp [leftStamps]) t (mem_leftStamps.2 ⟨_, ha1'⟩)) (lt_irrefl _)
    · rcases List.mem_cons.1 ha' with rfl | ha1'
      · exact absurd (h3 t (by simp [leftStamps]) t (mem_leftStamps.2 ⟨_, ha1⟩)) (lt_irrefl _)
      · exact ih h2 ha1 ha1'

theorem right_unique {t : ℤ} {b b' : B} {evs : List (Event A B)}
    (h : (rightStamps evs).Pairwise (· < ·)) (hb : Event.right t b ∈ evs)
    (hb' : Event.right t b' ∈ evs) : b = b' := by
  induction evs with
  | nil => simp at hb
  | cons e evs ih =>
    rw [← List.singleton_append, rightStamps_append] at h
    obtain ⟨_, h2, h3⟩ := List.pairwise_append.1 h
    rcases List.mem_cons.1 hb with rfl | hb1
    · rcases List.mem_cons.1 hb' with h' | hb1'
      · cases h'; rfl
      · exact absurd (h3 t (by simp [rightStamps]) t (mem_rightStamps.2 ⟨_, hb1'⟩)) (lt_irrefl _)
    · rcases List.mem_cons.1 hb' with rfl | hb1'
      · exact absurd (h3 t (by simp [rightStamps]) t (mem_rightStamps.2 ⟨_, hb1⟩)) (lt_irrefl _)
      · exact ih h2 hb1 hb1'

/-- What makes a pair, message by message. -/
theorem mem_expected {q : ℕ} {t : ℤ} {a : A} {b : B} (rest past : List (Event A B)) :
    (t, a, b) ∈ expected q past rest ↔ ∃ pre e post, rest = pre ++ e :: post ∧
      ((e = .left t a ∧ rightAt t (past ++ pre) = some b ∧
          Room q (ahead t (rightStamps (past ++ pre)))) ∨
        (e = .right t b ∧ leftAt t (past ++ pre) = some a ∧
          Room q (ahead t (leftStamps (past ++ pre))))) := by
  induction rest generalizing past with
  | nil => simp [expected]
  | cons e rest ih =>
    have hsplit : (∃ pre e' post, e :: rest = pre ++ e' :: post ∧
        ((e' = .left t a ∧ rightAt t (past ++ pre) = some b ∧
            Room q (ahead t (rightStamps (past ++ pre)))) ∨
          (e' = .right t b ∧ leftAt t (past ++ pre) = some a ∧
            Room q (ahead t (leftStamps (past ++ pre)))))) ↔
        ((e = .left t a ∧ rightAt t past = some b ∧ Room q (ahead t (rightStamps past))) ∨
          (e = .right t b ∧ leftAt t past = some a ∧ Room q (ahead t (leftStamps past)))) ∨
        (t, a, b) ∈ expected q (past ++ [e]) rest := by
      rw [ih]
      constructor
      · rintro ⟨pre, e', post, heq, h⟩
        cases pre with
        | nil =>
          simp only [List.nil_append, List.cons.injEq] at heq
          rw [List.append_nil, ← heq.1] at h
          exact Or.inl h
        | cons y pre =>
          simp only [List.cons_append, List.cons.injEq] at heq
          refine Or.inr ⟨pre, e', post, heq.2, ?_⟩
          rw [heq.1]
          simpa using h
      · rintro (h | ⟨pre, e', post, heq, h⟩)
        · exact ⟨[], e, rest, rfl, by simpa using h⟩
        · exact ⟨e :: pre, e', post, by rw [heq]; rfl, by simpa using h⟩
    rw [hsplit]
    cases e with
    | left t' a' =>
      simp only [expected, List.mem_append, reduceCtorEq, false_and, or_false]
      apply or_congr _ Iff.rfl
      cases hb : rightAt t' past with
      | none =>
        simp only [List.not_mem_nil, false_iff]
        rintro ⟨h1, h2, _⟩
        cases h1
        rw [hb] at h2
        cases h2
      | some b' =>
        simp only
        split_ifs with hr
        · simp only [List.mem_singleton, Prod.mk.injEq]
          constructor
          · rintro ⟨rfl, rfl, rfl⟩; exact ⟨rfl, hb, hr⟩
          · rintro ⟨h1, h2, _⟩
            cases h1
            rw [hb] at h2
            cases h2
            exact ⟨rfl, rfl, rfl⟩
        · simp only [List.not_mem_nil, false_iff]
          rintro ⟨h1, _, h3⟩
          cases h1
          exact hr h3
    | right t' b' =>
      simp only [expected, List.mem_append, reduceCtorEq, false_and, false_or]
      apply or_congr _ Iff.rfl
      cases ha : leftAt t' past with
      | none =>
        simp only [List.not_mem_nil, false_iff]
        rintro ⟨h1, h2, _⟩
        cases h1
        rw [ha] at h2
        cases h2
      | some a' =>
        simp only
        split_ifs with hr
        · simp only [List.mem_singleton, Prod.mk.injEq]
          constructor
          · rintro ⟨rfl, rfl, rfl⟩; exact ⟨rfl, ha, hr⟩
          · rintro ⟨h1, h2, _⟩
            cases h1
            rw [ha] at h2
            cases h2
            exact ⟨rfl, rfl, rfl⟩
        · simp only [List.not_mem_nil, false_iff]
          rintro ⟨h1, _, h3⟩
          cases h1
          exact hr h3

theorem expected_increasing {q : ℕ} (rest past : List (Event A B))
    (hl : (leftStamps (past ++ rest)).Pairwise (· < ·))
    (hr : (rightStamps (past ++ rest)).Pairwise (· < ·)) :
    (expected q past rest).Pairwise (fun c d => c.1 < d.1) ∧
      ∀ c ∈ expected q past rest, ∀ t ∈ leftStamps past, t ∈ rightStamps past → t < c.1 := by
  induction rest generalizing past with
  | nil => simp [expected]
  | cons e rest ih =>
    have hassoc : past ++ e :: rest = past ++ [e] ++ rest := by simp
    obtain ⟨ih1, ih2⟩ := ih (past ++ [e]) (hassoc ▸ hl) (hassoc ▸ hr)
    cases e with
    | left t a =>
      have ht : ∀ t' ∈ leftStamps past, t' < t := by
        intro t' ht'
        rw [leftStamps_append] at hl
        exact (List.pairwise_append.1 hl).2.2 t' ht' t (by simp [leftStamps])
      have hin : t ∈ leftStamps (past ++ [Event.left t a]) := by
        rw [leftStamps_append]; simp [leftStamps]
      have hold : ∀ c ∈ expected q (past ++ [Event.left t a]) rest, ∀ t' ∈ leftStamps past,
          t' ∈ rightStamps past → t' < c.1 := by
        intro c hc t' h1 h2
        refine ih2 c hc t' ?_ ?_
        · rw [leftStamps_append]; simp [h1]
        · rw [rightStamps_append]; simp [h2]
      simp only [expected]
      cases hb : rightAt t past with
      | none => exact ⟨ih1, hold⟩
      | some b =>
        simp only
        split_ifs
        · have hbs : t ∈ rightStamps (past ++ [Event.left t a]) := by
            rw [rightStamps_append, List.mem_append, ← rightAt_isSome, hb]; simp
          refine ⟨List.pairwise_append.2 ⟨by simp, ih1, ?_⟩, ?_⟩
          · intro c hc d hd
            rw [List.mem_singleton] at hc
            subst hc
            exact ih2 d hd t hin hbs
          · intro c hc t' h1 h2
            rcases List.mem_append.1 hc with hc | hc
            · rw [List.mem_singleton] at hc
              subst hc
              exact ht t' h1
            · exact hold c hc t' h1 h2
        · exact ⟨ih1, hold⟩
    | right t b =>
      have ht : ∀ t' ∈ rightStamps past, t' < t := by
        intro t' ht'
        rw [rightStamps_append] at hr
        exact (List.pairwise_append.1 hr).2.2 t' ht' t (by simp [rightStamps])
      have hin : t ∈ rightStamps (past ++ [Event.right t b]) := by
        rw [rightStamps_append]; simp [rightStamps]
      have hold : ∀ c ∈ expected q (past ++ [Event.right t b]) rest, ∀ t' ∈ leftStamps past,
          t' ∈ rightStamps past → t' < c.1 := by
        intro c hc t' h1 h2
        refine ih2 c hc t' ?_ ?_
        · rw [leftStamps_append]; simp [h1]
        · rw [rightStamps_append]; simp [h2]
      simp only [expected]
      cases ha : leftAt t past with
      | none => exact ⟨ih1, hold⟩
      | some a =>
        simp only
        split_ifs
        · have hbs : t ∈ leftStamps (past ++ [Event.right t b]) := by
            rw [leftStamps_append, List.mem_append, ← leftAt_isSome, ha]; simp
          refine ⟨List.pairwise_append.2 ⟨by simp, ih1, ?_⟩, ?_⟩
          · intro c hc d hd
            rw [List.mem_singleton] at hc
            subst hc
            exact ih2 d hd t hbs hin
          · intro c hc t' h1 h2
            rcases List.mem_append.1 hc with hc | hc
            · rw [List.mem_singleton] at hc
              subst hc
              exact ht t' h2
            · exact hold c hc t' h1 h2
        · exact ⟨ih1, hold⟩

/-- C108: the pairs come in the order of their stamps, no stamp twice. -/
theorem C108_increasing (q : ℕ) (evs : List (Event A B))
    (hl : (leftStamps evs).Pairwise (· < ·)) (hr : (rightStamps evs).Pairwise (· < ·)) :
    (calls q [] evs).Pairwise fun c d => c.1 < d.1 := by
  rw [C108_exact_pairs q evs hl hr]
  exact (expected_increasing evs [] (by simpa using hl) (by simpa using hr)).1

/-- Whenever the second message of a stamp arrives, the other topic is fewer than `q` messages past
it. -/
def Prompt (q : ℕ) (evs : List (Event A B)) : Prop :=
  ∀ pre e post, evs = pre ++ e :: post →
    (∀ t a, e = .left t a → t ∈ rightStamps pre → Room q (ahead t (rightStamps pre))) ∧
    (∀ t b, e = .right t b → t ∈ leftStamps pre → Room q (ahead t (leftStamps pre)))

/-- C108: in that case the pairs are those of all stamps that occur on both topics. -/
theorem C108_all_common (q : ℕ) (evs : List (Event A B))
    (hl : (leftStamps evs).Pairwise (· < ·)) (hr : (rightStamps evs).Pairwise (· < ·))
    (hp : Prompt q evs) (t : ℤ) (a : A) (b : B) :
    (t, a, b) ∈ calls q [] evs ↔ Event.left t a ∈ evs ∧ Event.right t b ∈ evs := by
  refine ⟨fun h => C107_pairs_share_stamp q evs _ h, ?_⟩
  rintro ⟨ha, hb⟩
  rw [C108_exact_pairs q evs hl hr, mem_expected]
  obtain ⟨p1, p2, rfl⟩ := List.append_of_mem ha
  rw [List.mem_append, List.mem_cons] at hb
  rcases hb with hb | hb | hb
  · have hm : t ∈ rightStamps p1 := mem_rightStamps.2 ⟨b, hb⟩
    obtain ⟨b', hb'⟩ := Option.isSome_iff_exists.1 ((rightAt_isSome t p1).2 hm)
    have : b' = b := right_unique hr (List.mem_append_left _ (rightAt_mem hb'))
      (List.mem_append_left _ hb)
    subst this
    exact ⟨p1, _, p2, rfl, Or.inl ⟨rfl, hb', (hp p1 _ p2 rfl).1 t a rfl hm⟩⟩
  · cases hb
  · obtain ⟨p3, p4, rfl⟩ := List.append_of_mem hb
    have heq : p1 ++ Event.left t a :: (p3 ++ Event.right t b :: p4) =
        (p1 ++ Event.left t a :: p3) ++ Event.right t b :: p4 := by simp
    have hmem : Event.left t a ∈ p1 ++ Event.left t a :: p3 := by simp
    have hm : t ∈ leftStamps (p1 ++ Event.left t a :: p3) := mem_leftStamps.2 ⟨a, hmem⟩
    obtain ⟨a', ha'⟩ := Option.isSome_iff_exists.1 ((leftAt_isSome t _).2 hm)
    rw [heq] at hl
    have : a' = a := left_unique hl (List.mem_append_left _ (leftAt_mem ha'))
      (List.mem_append_left _ hmem)
    subst this
    exact ⟨_, _, p4, heq, Or.inr ⟨rfl, ha', (hp _ _ p4 heq).2 t b rfl hm⟩⟩

/-- C108: the order in which the two topics are interleaved does not matter, as long as neither is
too far behind. -/
theorem C108_interleaving (q q' : ℕ) (evs evs' : List (Event A B))
    (hl : (leftStamps evs).Pairwise (· < ·)) (hr : (rightStamps evs).Pairwise (· < ·))
    (hl' : (leftStamps evs').Pairwise (· < ·)) (hr' : (rightStamps evs').Pairwise (· < ·))
    (hp : Prompt q evs) (hp' : Prompt q' evs') (hsame : ∀ e, e ∈ evs ↔ e ∈ evs') :
    calls q [] evs = calls q' [] evs' := by
  have h1 := C108_increasing q evs hl hr
  have h2 := C108_increasing q' evs' hl' hr'
  have hnd : ∀ l : List (ℤ × A × B), (l.Pairwise fun c d => c.1 < d.1) → l.Nodup := fun l hl =>
    hl.imp fun hab heq => absurd (congrArg Prod.fst heq) (ne_of_lt hab)
  have hperm : (calls q [] evs).Perm (calls q' [] evs') := by
    rw [List.perm_ext_iff_of_nodup (hnd _ h1) (hnd _ h2)]
    rintro ⟨t, a, b⟩
    rw [C108_all_common q evs hl hr hp, C108_all_common q' evs' hl' hr' hp', hsame, hsame]
  exact hperm.eq_of_pairwise (fun a b _ _ hab hba => absurd hab (lt_asymm hba)) h1 h2

open Verif.Rot Verif.Mapping Verif.Apps in
/-- C108 for the mapping program: with its queue of 1000, the map it saves is made of the key frames
among the pairs demanded by the history of the two topics; no other file is touched, and no file is
written if all those clouds are empty. -/
theorem C108_mapping {P : Type} (garbage : Rot.Pose) (fs : Fs P)
    (evs : List (Event (Cloud P) Rot.Pose))
    (hl : (leftStamps evs).Pairwise (· < ·)) (hr : (rightStamps evs).Pairwise (· < ·))
    (hrigid : ∀ t p, Event.right t p ∈ evs → IsRotation p.linear) :
    let msgs := (expected 1000 [] evs).map fun c => (c.2.1, c.2.2)
    let fs' := mappingMain garbage ((calls mappingQueue [] evs).map fun c => (c.2.1, c.2.2)) fs
    ∃ ks, Keyframes msgs ks ∧
      (∀ name, name ≠ "maps/edge.pcd" → fs' name = fs name) ∧
      ((∃ c ∈ expected 1000 [] evs, c.2.1 ≠ []) →
        fs' "maps/edge.pcd" = some (.pcd (placed (ks.map fun k => (k.2, k.1))).flatten)) ∧
      ((∀ c ∈ expected 1000 [] evs, c.2.1 = []) → fs' = fs) := by
  have hcalls : calls mappingQueue [] evs = expected 1000 [] evs :=
    C108_exact_pairs 1000 evs hl hr
  intro msgs fs'
  have hmr : ∀ e ∈ msgs, IsRotation e.2.linear := by
    intro e he
    obtain ⟨c, hc, rfl⟩ := List.mem_map.1 he
    rw [← hcalls] at hc
    exact hrigid _ _ (C107_pairs_share_stamp _ evs c hc).2
  obtain ⟨ks, hk, hmap⟩ := C59_map garbage msgs hmr
  obtain ⟨_, hsave, hfile⟩ := C59_empty garbage msgs (MapBuilder.new garbage) garbage "maps/edge.pcd"
  have hfs : fs' = match (builderAfter garbage msgs).saveMap "maps/edge.pcd" with
      | some (name, cloud) => save fs name cloud
      | none => fs := by
    show mappingMain garbage _ fs = _
    rw [hcalls]
    rfl
  refine ⟨ks, hk, ?_, ?_, ?_⟩
  · intro name hname
    rw [hfs]
    split
    · rename_i n c heq
      have := (hfile _ heq).1
      simp only [Prod.mk.injEq] at this
      rw [this.1]
      simp [save, hname]
    · rfl
  · rintro ⟨c, hc, hne⟩
    rw [hfs]
    split
    · rename_i n cl heq
      have := (hfile _ heq).1
      simp only [Prod.mk.injEq] at this
      rw [this.1, this.2, hmap]
      simp [save]
    · rename_i heq
      exact absurd (hsave.1 heq _ (List.mem_map.2 ⟨c, hc, rfl⟩)) hne
  · intro hall
    rw [hfs, hsave.2]
    intro e he
    obtain ⟨c, hc, rfl⟩ := List.mem_map.1 he
    exact hall c hc

/-- Non-vacuity: a topic of scans 1, 2, 3, 5 and a topic of poses 2, 3, 4, 5; the pose of 2 comes
after three scans, which a queue of one does not survive and a queue of two does. -/
def exEvents : List (Event ℕ ℕ) :=
  [.left 1 10, .left 2 20, .left 3 30, .right 2 200, .right 3 300, .right 4 400, .right 5 500,
    .left 5 50]

example : (leftStamps exEvents).Pairwise (· < ·) ∧ (rightStamps exEvents).Pairwise (· < ·) ∧
    calls 1 [] exEvents = [(3, 30, 300), (5, 50, 500)] ∧
    calls 2 [] exEvents = [(2, 20, 200), (3, 30, 300), (5, 50, 500)] ∧
    expected 1 [] exEvents = [(3, 30, 300), (5, 50, 500)] ∧
    expected 2 [] exEvents = calls 0 [] exEvents := by decide

/-- Few messages are prompt. -/
theorem prompt_of_short {q : ℕ} {evs : List (Event A B)} (hl : (leftStamps evs).length ≤ q)
    (hr : (rightStamps evs).length ≤ q) : Prompt q evs := by
  have hlt : ∀ (t : ℤ) (l : List ℤ), t ∈ l → ahead t l < l.length := by
    intro t l ht
    refine lt_of_le_of_ne List.countP_le_length fun heq => ?_
    have := List.countP_eq_length.1 heq t ht
    simp at this
  intro pre e post heq
  subst heq
  refine ⟨fun t a _ ht => Or.inr ?_, fun t b _ ht => Or.inr ?_⟩
  · have h1 := hlt t _ ht
    rw [rightStamps_append, List.length_append] at hr
    omega
  · have h1 := hlt t _ ht
    rw [leftStamps_append, List.length_append] at hl
    omega

example : Prompt 4 exEvents := prompt_of_short (by decide) (by decide)

end Verif.Sync
