/-
C121: the texts of the exceptions of the extraction are true, and the numbers in them are the numbers
that were given.
-/
import Verif.Lemmas.Message
import Mathlib.Tactic.IntervalCases

set_option autoImplicit false

namespace Verif.Extraction

/-! ### Specification: reading a text -/

/-- The value of a string of decimal digits. -/
def readNat (cs : List Char) : Option ℕ :=
  if cs ≠ [] ∧ ∀ c ∈ cs, c.isDigit = true then
    some (cs.foldl (fun v c => 10 * v + (c.toNat - '0'.toNat)) 0)
  else none

/-- The value of a string of digits with or without a minus sign. -/
def readInt : List Char → Option ℤ
  | '-' :: cs => (readNat cs).map fun n : ℕ => -(n : ℤ)
  | cs => (readNat cs).map fun n : ℕ => (n : ℤ)

/-- The relations the texts speak of. -/
inductive Relation where
  | lt
  | gt
  | ge
  deriving DecidableEq

/-- How a relation is written. -/
def Relation.symbol : Relation → String
  | .lt => "<"
  | .gt => ">"
  | .ge => ">="

/-- When a relation holds. -/
def Relation.Holds : Relation → ℤ → ℤ → Prop
  | .lt, a, b => a < b
  | .gt, a, b => a > b
  | .ge, a, b => a ≥ b

/-- The text says that the number called `x`, which is `a`, stands in the given relation to the number
called `y`, which is `b`. -/
def Says (s : List Char) (x : String) (a : ℤ) (r : Relation) (y : String) (b : ℤ) : Prop :=
  ∃ ta tb, readInt ta = some a ∧ readInt tb = some b ∧
    s = x.toList ++ " (which is ".toList ++ ta ++ ") ".toList ++ r.symbol.toList ++ " ".toList ++
      y.toList ++ " (which is ".toList ++ tb ++ ")".toList

/-- An exception that says truly how `a`, called `x`, stands to `b`, called `y`. -/
def SaysTruly (t : Thrown) (x : String) (a : ℤ) (y : String) (b : ℤ) : Prop :=
  ∃ s r, t.what = some s ∧ Says s x a r y b ∧ r.Holds a b

/-! ### Numbers -/

theorem digitChar_isDigit {d : ℕ} (h : d < 10) : (Nat.digitChar d).isDigit = true := by
  interval_cases d <;> decide

theorem digitChar_value {d : ℕ} (h : d < 10) : (Nat.digitChar d).toNat - '0'.toNat = d := by
  interval_cases d <;> decide

theorem decimalNat_spec (n : ℕ) : decimalNat n ≠ [] ∧ (∀ c ∈ decimalNat n, c.isDigit = true) ∧
    (decimalNat n).foldl (fun v c => 10 * v + (c.toNat - '0'.toNat)) 0 = n := by
  induction n using Nat.strong_induction_on with
  | _ n ih =>
    rw [decimalNat]
    by_cases h : n < 10
    · rw [if_pos h]
      refine ⟨by simp, ?_, ?_⟩
      · intro c hc
        rw [List.mem_singleton.1 hc]
        exact digitChar_isDigit h
      · rw [List.foldl_cons, List.foldl_nil, digitChar_value h]; omega
    · rw [if_neg h]
      obtain ⟨_, h2, h3⟩ := ih (n / 10) (by omega)
      refine ⟨by simp, ?_, ?_⟩
      · intro c hc
        rcases List.mem_append.1 hc with hc | hc
        · exact h2 c hc
        · rw [List.mem_singleton.1 hc]
          exact digitChar_isDigit (by omega)
      · rw [List.foldl_append, h3, List.foldl_cons, List.foldl_nil, digitChar_value (by omega)]
        omega

theorem readNat_decimalNat (n : ℕ) : readNat (decimalNat n) = some n := by
  obtain ⟨h1, h2, h3⟩ := decimalNat_spec n
  rw [readNat, if_pos ⟨h1, h2⟩, h3]

/-- C121, numbers: what is written for a number reads as that number. -/
theorem C121_numbers (n : ℤ) : readInt (decimal n) = some n := by
  unfold decimal
  split_ifs with h
  · simp only [readInt, readNat_decimalNat, Option.map_some]
    congr 1; omega
  · have hd := (decimalNat_spec n.natAbs).2.1
    have hr := readNat_decimalNat n.natAbs
    unfold readInt
    split
    · rename_i cs heq
      have := hd '-' (by rw [heq]; simp)
      simp at this
    · rw [hr, Option.map_some]
      congr 1; omega

theorem says_rangeMessage (r : Relation) (x y : String) (a b : ℤ) :
    Says (rangeMessage r.symbol.toList x.toList y.toList a b) x a r y b :=
  ⟨decimal a, decimal b, C121_numbers a, C121_numbers b, rfl⟩

theorem told_error {α : Type} {e : Err} {s : List Char} {t : Thrown}
    (h : (told e s : TRes α) = .error t) : t.err = e ∧ t.what = some s := by
  simp only [told, Except.error.injEq] at h
  subst h
  exact ⟨rfl, rfl⟩

/-! ### The exceptions -/

/-- C121, block numbers: asking for the begin or the end of a block fails exactly if there is no such
block, and the exception says truly how the number asked for stands to the number of blocks or to
zero. -/
theorem C121_block_number (rnd : ℚ → ℚ) (r : IndexRange) (j : ℤ) (x : TRes ℤ)
    (hx : x = r.beginT rnd j ∨ x = r.endT rnd j) :
    ((∃ v, x = .ok v) ↔ 0 ≤ j ∧ j < r.nBlocks) ∧
    ∀ t, x = .error t → t.err = .outOfRange ∧
      (SaysTruly t "j" j "n_blocks" r.nBlocks ∨ SaysTruly t "j" j "0" 0) := by
  have key : ((∃ u, r.checkT j = .ok u) ↔ 0 ≤ j ∧ j < r.nBlocks) ∧
      ∀ t, r.checkT j = .error t → t.err = .outOfRange ∧
        (SaysTruly t "j" j "n_blocks" r.nBlocks ∨ SaysTruly t "j" j "0" 0) := by
    unfold IndexRange.checkT
    split_ifs with h1 h2
    · refine ⟨⟨fun ⟨_, h⟩ => by simp [told] at h, fun h => by omega⟩, fun t ht => ?_⟩
      obtain ⟨h3, h4⟩ := told_error ht
      exact ⟨h3, Or.inl ⟨_, .ge, h4, says_rangeMessage .ge "j" "n_blocks" j r.nBlocks, h1⟩⟩
    · refine ⟨⟨fun ⟨_, h⟩ => by simp [told] at h, fun h => by omega⟩, fun t ht => ?_⟩
      obtain ⟨h3, h4⟩ := told_error ht
      exact ⟨h3, Or.inr ⟨_, .lt, h4, says_rangeMessage .lt "j" "0" j 0, h2⟩⟩
    · exact ⟨⟨fun _ => by omega, fun _ => ⟨(), rfl⟩⟩, fun t ht => by simp at ht⟩
  have hbind : ∀ v : ℤ, ((∃ w, (r.checkT j >>= fun _ => pure v) = (.ok w : TRes ℤ)) ↔
      0 ≤ j ∧ j < r.nBlocks) ∧ ∀ t, (r.checkT j >>= fun _ => pure v) = (.error t : TRes ℤ) →
        t.err = .outOfRange ∧
          (SaysTruly t "j" j "n_blocks" r.nBlocks ∨ SaysTruly t "j" j "0" 0) := by
    intro v
    cases hc : r.checkT j with
    | ok u =>
      rw [hc] at key
      refine ⟨⟨fun _ => key.1.1 ⟨u, rfl⟩, fun _ => ⟨v, rfl⟩⟩, fun t ht => ?_⟩
      simp [bind, Except.bind, pure, Except.pure] at ht
    | error e =>
      rw [hc] at key
      refine ⟨⟨fun ⟨w, hw⟩ => by simp [bind, Except.bind] at hw, fun h => ?_⟩, fun t ht => ?_⟩
      · obtain ⟨u, hu⟩ := key.1.2 h
        simp at hu
      · have : e = t := by simpa [bind, Except.bind] using ht
        exact key.2 t (by rw [this])
  rcases hx with rfl | rfl
  · exact hbind _
  · exact hbind _

/-- C121, neighbour test: an index that is no position makes the test throw, and the exception says truly
how that index stands to zero or to the number of points. -/
theorem C121_neighbor {P : Type} (n : NeighborCheckXYT P) (i j : ℤ)
    (h : ¬ (0 ≤ i ∧ i < n.ref.size ∧ 0 ≤ j ∧ j < n.ref.size)) :
    ∃ t, n.call i j = .error t ∧ t.err = .outOfRange ∧
      (SaysTruly t "index1" i "0" 0 ∨ SaysTruly t "index1" i "this->size()" n.ref.size ∨
        SaysTruly t "index2" j "0" 0 ∨ SaysTruly t "index2" j "this->size()" n.ref.size) := by
  have key : ∀ (name : String) (k : ℤ), ¬ (0 ≤ k ∧ k < n.ref.size) →
      ∃ t, n.checkIndex name.toList k = .error t ∧ t.err = .outOfRange ∧
        (SaysTruly t name k "0" 0 ∨ SaysTruly t name k "this->size()" n.ref.size) := by
    intro name k hk
    unfold NeighborCheckXYT.checkIndex
    by_cases h1 : k < 0
    · rw [if_pos h1]
      exact ⟨_, rfl, rfl, Or.inl ⟨_, .lt, rfl, says_rangeMessage .lt name "0" k 0, h1⟩⟩
    · have h2 : k ≥ n.size := by unfold NeighborCheckXYT.size; omega
      rw [if_neg h1, if_pos h2]
      exact ⟨_, rfl, rfl, Or.inr ⟨_, .ge, rfl, says_rangeMessage .ge name "this->size()" k _, h2⟩⟩
  have hgood : ∀ (name : List Char) (k : ℤ), 0 ≤ k ∧ k < n.ref.size →
      n.checkIndex name k = .ok () := by
    intro name k hk
    unfold NeighborCheckXYT.checkIndex NeighborCheckXYT.size
    rw [if_neg (by omega), if_neg (by omega)]
  unfold NeighborCheckXYT.call
  by_cases hi : 0 ≤ i ∧ i < n.ref.size
  · obtain ⟨t, h1, h2, h3⟩ := key "index2" j (by omega)
    refine ⟨t, ?_, h2, ?_⟩
    · rw [hgood _ i hi]
      simp only [bind, Except.bind]
      rw [h1]
    · exact Or.inr (Or.inr h3)
  · obtain ⟨t, h1, h2, h3⟩ := key "index1" i hi
    refine ⟨t, ?_, h2, ?_⟩
    · rw [h1]; rfl
    · rcases h3 with h3 | h3
      · exact Or.inl h3
      · exact Or.inr (Or.inl h3)

/-- C121, filling: bounds outside of the labels make the fill functions throw, and the exception says
truly which bound is wrong and why. -/
theorem C121_fill (labels : List PointLabel) (nb : NeighborCheckT) (b e : ℤ) (label : PointLabel)
    (hs : nb.size = labels.length) :
    (¬ (0 ≤ b ∧ e ≤ labels.length) → ∃ t, fillFromLeftT labels nb b e label = .error t ∧
      t.err = .invalidArgument ∧ (SaysTruly t "end_index" e "labels.size()" labels.length ∨
        SaysTruly t "begin_index" b "0" 0)) ∧
    (¬ (-1 ≤ b ∧ e < labels.length) → ∃ t, fillFromRightT labels nb b e label = .error t ∧
      t.err = .invalidArgument ∧ (SaysTruly t "end_index" e "labels.size()" labels.length ∨
        SaysTruly t "begin_index" b "-1" (-1))) := by
  constructor
  · intro h
    unfold fillFromLeftT
    rw [if_neg (by simp [hs])]
    by_cases h1 : e > labels.length
    · rw [if_pos h1]
      exact ⟨_, rfl, rfl, Or.inl ⟨_, .gt, rfl, says_rangeMessage .gt "end_index" "labels.size()" e _,
        h1⟩⟩
    · rw [if_neg h1, if_pos (by omega)]
      exact ⟨_, rfl, rfl, Or.inr ⟨_, .lt, rfl, says_rangeMessage .lt "begin_index" "0" b 0,
        show b < 0 by omega⟩⟩
  · intro h
    unfold fillFromRightT
    rw [if_neg (by simp [hs])]
    by_cases h1 : e ≥ labels.length
    · rw [if_pos h1]
      exact ⟨_, rfl, rfl, Or.inl ⟨_, .ge, rfl, says_rangeMessage .ge "end_index" "labels.size()" e _,
        h1⟩⟩
    · rw [if_neg h1, if_pos (by omega)]
      exact ⟨_, rfl, rfl, Or.inr ⟨_, .lt, rfl, says_rangeMessage .lt "begin_index" "-1" b (-1),
        show b < -1 by omega⟩⟩

/-- C121, spans: an index that is no position makes the access throw, and the exception says truly
whether it is below zero or not below the size. -/
theorem C121_span (size i : ℤ) (h : ¬ (0 ≤ i ∧ i < size)) :
    ∃ t ti, spanCheckT size i = .error t ∧ t.err = .outOfRange ∧ readInt ti = some i ∧
      (t.what = some ("Index out of range. ".toList ++ ti ++ " < 0".toList) ∧ i < 0 ∨
        t.what = some ("Index out of range. ".toList ++ ti ++ " >= this->size()".toList) ∧
          i ≥ size) := by
  unfold spanCheckT
  by_cases h1 : i < 0
  · rw [if_pos h1]
    exact ⟨_, decimal i, rfl, rfl, C121_numbers i, Or.inl ⟨rfl, h1⟩⟩
  · rw [if_neg h1, if_pos (by omega)]
    exact ⟨_, decimal i, rfl, rfl, C121_numbers i, Or.inr ⟨rfl, by omega⟩⟩

/-- C121, construction: blocks, neighbour tests and convolutions of too few points are refused with a
text that gives the two numbers, the first of which is smaller than the second. -/
theorem C121_too_few {P K : Type} [CommRing K] (start stop nBlocks : ℤ) (ref : MappedPoints P)
    (isNb : P → P → TRes Bool) (input weight : List K) :
    (∀ t, IndexRange.makeT start stop nBlocks = .error t → t.err = .invalidArgument ∧
      stop - start < nBlocks ∧ ∃ ta tb, readInt ta = some (stop - start) ∧ readInt tb = some nBlocks ∧
        t.what = some ("end_index - start_index (which is ".toList ++ ta ++
          ") cannot be smaller than n_blocks (which is ".toList ++ tb)) ∧
    (∀ t, NeighborCheckXYT.make ref isNb = .error t → t.err = .invalidArgument ∧ ref.size < 2 ∧
      ∃ ta, readInt ta = some ref.size ∧ t.what = some ("The input point size (which is ".toList ++
        ta ++ ") cannot be smaller than 2".toList)) ∧
    (∀ t, convolution1DT input weight = .error t → t.err = .invalidArgument →
      input.length < weight.length ∧
      ∃ ta tb, readInt ta = some (input.length : ℤ) ∧ readInt tb = some (weight.length : ℤ) ∧
        t.what = some ("Input array size ".toList ++ ta ++
          " cannot be smaller than weight size ".toList ++ tb)) := by
  refine ⟨fun t ht => ?_, fun t ht => ?_, fun t ht he => ?_⟩
  · unfold IndexRange.makeT at ht
    split_ifs at ht with h
    obtain ⟨h1, h2⟩ := told_error ht
    exact ⟨h1, h, _, _, C121_numbers _, C121_numbers _, h2⟩
  · unfold NeighborCheckXYT.make at ht
    split_ifs at ht with h
    obtain ⟨h1, h2⟩ := told_error ht
    exact ⟨h1, h, _, C121_numbers _, h2⟩
  · unfold convolution1DT at ht
    split_ifs at ht with h
    · obtain ⟨h1, h2⟩ := told_error ht
      exact ⟨h, _, _, C121_numbers _, C121_numbers _, h2⟩
    · exfalso
      have hq := convolution1D_quiet h
      cases hc : convolution1D input weight with
      | ok r => rw [hc] at ht; simp [untold] at ht
      | error e =>
        rw [hc] at ht
        simp only [untold, Except.error.injEq] at ht
        subst ht
        exact hq (by rw [hc]; simp only at he; rw [he])

/-! ### Examples -/

example : decimal (-120) = "-120".toList := by decide +kernel

example : (IndexRange.mk 2 10 4).beginT id 4 =
    told .outOfRange "j (which is 4) >= n_blocks (which is 4)".toList := by
  decide +kernel

example : fillFromLeftT [.default, .default] ⟨2, fun _ _ => .ok true⟩ (-1) 2 .edge =
    told .invalidArgument "begin_index (which is -1) < 0 (which is 0)".toList := by
  decide +kernel

end Verif.Extraction
