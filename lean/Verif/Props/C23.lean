/-
C23: range queries; C24: debug colours.
-/
import Verif.Lemmas.RingLabels
import Verif.Model.Color
import Mathlib.Algebra.Order.Floor.Ring
import Mathlib.Data.Rat.Floor
import Mathlib.Tactic.Linarith
import Mathlib.Tactic.FieldSimp
import Mathlib.Tactic.NormNum
import Mathlib.Tactic.Positivity

set_option autoImplicit false

namespace Verif.Extraction

variable {P K : Type}

/-- Specification: the ranges of the points of `[b, e)` of a ring with points `pts`. -/
def rangesOf (norm : P → K) (pts : List P) (b e : ℕ) : List K :=
  ((pts.drop b).take (e - b)).map norm

theorem interval_eq (norm : P → K) {cloud : List P} {indices : List ℕ}
    (hin : ∀ i ∈ indices, i < cloud.length) {b e : ℕ} (hbe : b ≤ e)
    (he : e - b ≤ indices.length) :
    (⟨⟨cloud, indices⟩, norm⟩ : Range P K).interval b e =
      .ok (rangesOf norm (ringPoints cloud indices) 0 (e - b)) := by
  have hl := (ringPoints_getElem? hin).1
  simp only [Range.interval]
  rw [if_neg (by omega)]
  have hn : ((e : ℤ) - b).toNat = e - b := by omega
  rw [hn]
  have : ∀ n, n ≤ indices.length → (List.range n).mapM
      (fun i : ℕ => (⟨⟨cloud, indices⟩, norm⟩ : Range P K).call i) =
      .ok (((ringPoints cloud indices).take n).map norm) := by
    intro n
    induction n with
    | zero => intro _; rfl
    | succ n ih =>
      intro hn
      rw [List.range_succ, List.mapM_append, ih (by omega), List.mapM_cons, List.mapM_nil]
      have e1 : (ringPoints cloud indices)[n]? = some ((ringPoints cloud indices)[n]'(by omega)) :=
        List.getElem?_eq_getElem _
      simp only [Range.call, ref_at hin (by omega : n < indices.length), bind, Except.bind, pure,
        Except.pure, List.take_succ, List.map_append, e1, Option.toList_some, List.map_cons,
        List.map_nil]
  rw [this _ he, rangesOf, List.drop_zero, Nat.sub_zero]

/-- C23, the case the node uses: for `begin = 0` the query returns the ranges of `[0, end)`. Missing:
`begin ≠ 0`, where it is false (`C23_range_interval_violated`). -/
theorem C23_range_interval_partial (norm : P → K) (cloud : List P) (indices : List ℕ)
    (hin : ∀ i ∈ indices, i < cloud.length) (e : ℕ) (he : e ≤ indices.length) :
    (⟨⟨cloud, indices⟩, norm⟩ : Range P K).interval 0 e =
      .ok (rangesOf norm (ringPoints cloud indices) 0 e) :=
  interval_eq norm hin (Nat.zero_le e) (by omega)

/-- C23, what is returned instead for any interval: the ranges of the first `end - begin` points. -/
theorem C23_range_interval_ignores_begin (norm : P → K) (cloud : List P) (indices : List ℕ)
    (hin : ∀ i ∈ indices, i < cloud.length) (b e : ℕ) (hbe : b ≤ e) (he : e ≤ indices.length) :
    (⟨⟨cloud, indices⟩, norm⟩ : Range P K).interval b e =
      .ok (rangesOf norm (ringPoints cloud indices) 0 (e - b)) :=
  interval_eq norm hin hbe (by omega)

/-- C23, violation: the ranges of `[1, 3)` of a ring with ranges 10, 20, 30 come out as 10, 20. -/
theorem C23_range_interval_violated :
    (⟨⟨[10, 20, 30], [0, 1, 2]⟩, id⟩ : Range ℚ ℚ).interval 1 3 = .ok [10, 20] ∧
    rangesOf id (ringPoints [(10 : ℚ), 20, 30] [0, 1, 2]) 1 3 = [20, 30] := by
  constructor <;> decide +kernel

example : (⟨⟨[10, 20, 30], [2, 0]⟩, id⟩ : Range ℚ ℚ).interval 0 2 = .ok [30, 10] ∧
    ∀ i ∈ [2, 0], i < [(10 : ℚ), 20, 30].length := by decide +kernel

/-! ### C24 -/

/-- C24, colouring never fails: for as many labels as points the result is, for each point, the
point with the colour of its label. -/
theorem C24_color_total (cloud : List P) (indices : List ℕ) (labels : List PointLabel)
    (hin : ∀ i ∈ indices, i < cloud.length) (hl : labels.length = indices.length) :
    colorPointsByLabel ⟨cloud, indices⟩ labels =
      .ok ((ringPoints cloud indices).zip (labels.map labelToColor)) := by
  have hlen := (ringPoints_getElem? hin).1
  simp only [colorPointsByLabel]
  rw [if_neg (by simp only [MappedPoints.size]; omega)]
  have : ∀ n, n ≤ labels.length → (List.range n).mapM (fun (i : ℕ) => do
      let p ← MappedPoints.at ⟨cloud, indices⟩ i
      let l ← atI labels i
      pure (p, labelToColor l)) =
      (.ok (((ringPoints cloud indices).zip (labels.map labelToColor)).take n) :
        Res (List (P × RGB))) := by
    intro n
    induction n with
    | zero => intro _; rfl
    | succ n ih =>
      intro hn
      rw [List.range_succ, List.mapM_append, ih (by omega), List.mapM_cons, List.mapM_nil]
      have e1 : ((ringPoints cloud indices).zip (labels.map labelToColor))[n]? =
          some ((ringPoints cloud indices)[n]'(by omega), labelToColor (labels[n]'(by omega))) := by
        rw [List.getElem?_eq_getElem (by simp; omega)]; simp
      simp only [ref_at hin (by omega : n < indices.length), atI_ok (by omega : n < labels.length),
        bind, Except.bind, pure, Except.pure, List.take_succ, e1, Option.toList_some]
  rw [this _ le_rfl, List.take_of_length_le (by simp)]

/-- C24, violation: edge and surface points get the same colour, and so do their neighbours. -/
theorem C24_edge_surface_colour_violated :
    labelToColor .edge = labelToColor .surface ∧
    labelToColor .edgeNeighbor = labelToColor .surfaceNeighbor := ⟨rfl, rfl⟩

/-- The classes that the colours do tell apart. -/
def colourClass : PointLabel → ℕ
  | .default => 0
  | .edge | .surface => 1
  | .edgeNeighbor | .surfaceNeighbor => 2
  | .outOfRange => 3
  | .occluded => 4
  | .parallelBeam => 5

/-- C24, what does hold: two labels get the same colour exactly when they are equal or are edge and
surface (or their neighbours). -/
theorem C24_colours_partial (a b : PointLabel) :
    labelToColor a = labelToColor b ↔ colourClass a = colourClass b := by
  cases a <;> cases b <;> decide

section
variable [Field K] [LinearOrder K] [IsStrictOrderedRing K] [FloorRing K]

omit [IsStrictOrderedRing K] in
theorem toUint8_ok {x : K} (h0 : 0 ≤ x) (h1 : ⌊x⌋ < 256) (h2 : 0 ≤ ⌊x⌋) :
    ∃ c : Fin 256, toUint8 x = .ok c ∧ (c.val : ℤ) = ⌊x⌋ := by
  refine ⟨⟨⌊x⌋.toNat, by omega⟩, ?_, ?_⟩
  · simp only [toUint8, if_pos h0]
    rw [dif_pos ⟨h2, h1⟩]
  · simp only; omega

theorem toUint8_iff (x : K) (c : Fin 256) :
    toUint8 x = .ok c ↔ (c.val = 0 ∧ -1 < x ∧ x < 0) ∨ ((c.val : K) ≤ x ∧ x < c.val + 1) := by
  have hc := c.isLt
  have key : ∀ t : ℤ, (if h : 0 ≤ t ∧ t < 256 then (.ok ⟨t.toNat, by omega⟩ : Res (Fin 256))
      else .error .undefinedBehaviour) = .ok c ↔ t = c.val := by
    intro t
    constructor
    · intro h
      split at h
      · injection h with h
        rw [← h]
        simp only
        omega
      · cases h
    · intro h
      rw [dif_pos (by omega)]
      congr 1
      apply Fin.ext
      simp only
      omega
  unfold toUint8
  rw [key]
  have hc0 : (0 : K) ≤ c.val := Nat.cast_nonneg _
  by_cases hx : 0 ≤ x
  · rw [if_pos hx, Int.floor_eq_iff]
    constructor
    · rintro ⟨h1, h2⟩
      exact .inr ⟨by exact_mod_cast h1, by exact_mod_cast h2⟩
    · rintro (⟨-, -, h⟩ | ⟨h1, h2⟩)
      · exact absurd hx (not_le.2 h)
      · exact ⟨by exact_mod_cast h1, by exact_mod_cast h2⟩
  · rw [if_neg hx, Int.ceil_eq_iff]
    rw [not_le] at hx
    constructor
    · rintro ⟨h1, h2⟩
      have h1' : (c.val : K) - 1 < x := by exact_mod_cast h1
      have : (c.val : K) < 1 := by linarith
      have h3 : c.val < 1 := by exact_mod_cast this
      have h4 : c.val = 0 := by omega
      refine .inl ⟨h4, ?_, hx⟩
      rw [h4] at h1'
      simpa using h1'
    · rintro (⟨h0, h1, -⟩ | ⟨h1, -⟩)
      · rw [h0]
        simp only [Nat.cast_zero, Int.cast_zero, zero_sub]
        exact ⟨h1, hx.le⟩
      · linarith

/-- Specification: `f` is the shade of grey of each value for the interval from `lo` to `hi`: it grows
with the value, from black at the lower end to white at the upper end. -/
structure Shade (lo hi : K) (f : K → Fin 256) : Prop where
  monotone : Monotone f
  black : ∀ v ≤ lo, f v = 0
  white : ∀ v ≥ hi, f v = 255

theorem valueToColor_iff (v lo hi : K) (c : RGB) :
    valueToColor v lo hi = .ok c ↔ lo < hi ∧ c.g = c.r ∧ c.b = c.r ∧
      toUint8 (255 * (if v < lo then lo else if hi < v then hi else v) / (hi - lo)) = .ok c.r := by
  unfold valueToColor
  obtain ⟨r, g, b⟩ := c
  by_cases h1 : hi < lo
  · rw [if_pos h1]
    exact ⟨fun h => (by cases h), fun h => absurd h.1 (not_lt.2 h1.le)⟩
  rw [if_neg h1]
  by_cases h2 : hi - lo = 0
  · rw [if_pos h2]
    exact ⟨fun h => (by cases h), fun h => absurd (sub_eq_zero.1 h2) h.1.ne'⟩
  rw [if_neg h2]
  have hlt : lo < hi := lt_of_le_of_ne (not_lt.1 h1) fun h => h2 (by rw [h, sub_self])
  cases toUint8 (255 * (if v < lo then lo else if hi < v then hi else v) / (hi - lo)) with
  | error e =>
    exact ⟨fun h => (by cases h), fun h => (by cases h.2.2.2)⟩
  | ok c =>
    simp only [bind, Except.bind, pure, Except.pure, Except.ok.injEq, RGB.mk.injEq]
    constructor
    · rintro ⟨rfl, rfl, rfl⟩
      exact ⟨hlt, rfl, rfl, rfl⟩
    · rintro ⟨-, rfl, rfl, rfl⟩
      exact ⟨rfl, rfl, rfl⟩

/-- C24, colouring by value, exactly: every value gets a shade of grey, from black at the lower to white at
the upper end of the interval, if and only if the interval begins at zero or less than `1/256` of its
upper end above it. Missing: all other intervals (`C24_value_colour_violated`). -/
theorem C24_value_colour_partial (lo hi : K) :
    (∃ f, Shade lo hi f ∧ ∀ v, valueToColor v lo hi = .ok ⟨f v, f v, f v⟩) ↔ 0 ≤ lo ∧ 256 * lo < hi := by
  constructor
  · rintro ⟨f, ⟨-, h2, h3⟩, h1⟩
    have hw := (valueToColor_iff _ _ _ _).1 (h1 hi)
    have hlt := hw.1
    have hd : 0 < hi - lo := sub_pos.2 hlt
    have h4 := hw.2.2.2
    simp only [h3 hi le_rfl, if_neg (not_lt.2 hlt.le), lt_self_iff_false, if_false] at h4
    rw [toUint8_iff] at h4
    have e : ((255 : Fin 256).val : K) = 255 := by
      have : (255 : Fin 256).val = 255 := rfl
      rw [this]
      norm_num
    rcases h4 with ⟨h4, -⟩ | ⟨h4, h5⟩
    · exact absurd h4 (by decide)
    · rw [e, le_div_iff₀ hd] at h4
      rw [e, div_lt_iff₀ hd] at h5
      constructor <;> linarith
  · rintro ⟨h0, h1⟩
    have hlt : lo < hi := by linarith
    have hd : 0 < hi - lo := sub_pos.2 hlt
    have hclamp : ∀ v : K, lo ≤ (if v < lo then lo else if hi < v then hi else v) ∧
        (if v < lo then lo else if hi < v then hi else v) ≤ hi := by
      intro v
      constructor <;> split_ifs <;> linarith
    have hval : ∀ v : K, ∃ c : Fin 256, valueToColor v lo hi = .ok ⟨c, c, c⟩ ∧
        (c.val : K) * (hi - lo) ≤ 255 * (if v < lo then lo else if hi < v then hi else v) ∧
        255 * (if v < lo then lo else if hi < v then hi else v) < (c.val + 1) * (hi - lo) := by
      intro v
      obtain ⟨w0, w1⟩ := hclamp v
      have hx0 : 0 ≤ 255 * (if v < lo then lo else if hi < v then hi else v) / (hi - lo) :=
        div_nonneg (by linarith) hd.le
      have hx1 : 255 * (if v < lo then lo else if hi < v then hi else v) / (hi - lo) < 256 := by
        rw [div_lt_iff₀ hd]
        linarith
      obtain ⟨c, hc, hc'⟩ := toUint8_ok hx0 (Int.floor_lt.2 (by exact_mod_cast hx1))
        (Int.floor_nonneg.2 hx0)
      have h3 := (toUint8_iff _ _).1 hc
      refine ⟨c, (valueToColor_iff _ _ _ _).2 ⟨hlt, rfl, rfl, hc⟩, ?_⟩
      rcases h3 with ⟨-, -, h3⟩ | ⟨h3, h4⟩
      · exact absurd hx0 (not_le.2 h3)
      · rw [le_div_iff₀ hd] at h3
        rw [div_lt_iff₀ hd] at h4
        exact ⟨h3, h4⟩
    choose f hf hlow hup using hval
    have hmono : ∀ {a b : K}, (if a < lo then lo else if hi < a then hi else a) ≤
        (if b < lo then lo else if hi < b then hi else b) → (f a).val ≤ (f b).val := by
      intro a b hab
      by_contra hlt'
      have : (f b).val + 1 ≤ (f a).val := by omega
      have h2 : ((f b).val : K) + 1 ≤ (f a).val := by exact_mod_cast this
      have h3 := mul_le_mul_of_nonneg_right h2 hd.le
      have := hlow a
      have := hup b
      linarith
    refine ⟨f, ⟨?_, ?_, ?_⟩, hf⟩
    · intro a b hab
      refine Fin.le_def.2 (hmono ?_)
      split_ifs <;> linarith
    · intro v hv
      have h := hlow v
      have e : (if v < lo then lo else if hi < v then hi else v) = lo := by
        split_ifs <;> linarith
      rw [e] at h
      have h2 : (f v).val < 1 := by
        by_contra h3
        have : (1 : K) ≤ (f v).val := by exact_mod_cast (not_lt.1 h3)
        have := mul_le_mul_of_nonneg_right this hd.le
        linarith
      apply Fin.ext
      have : (f v).val = 0 := by omega
      rw [this]; rfl
    · intro v hv
      have h := hup v
      have e : (if v < lo then lo else if hi < v then hi else v) = hi := by
        split_ifs <;> linarith
      rw [e] at h
      have h2 : 255 ≤ (f v).val := by
        by_contra h3
        have : (f v).val + 1 ≤ 255 := by omega
        have : ((f v).val : K) + 1 ≤ 255 := by exact_mod_cast this
        have := mul_le_mul_of_nonneg_right this hd.le
        linarith
      apply Fin.ext
      have : (f v).val = 255 := by have := (f v).isLt; omega
      rw [this]; rfl

/-- C24, for which intervals colouring by value is defined at all. -/
theorem C24_value_colour_defined (lo hi : K) :
    (∀ v, ∃ c, valueToColor v lo hi = .ok c) ↔
      lo < hi ∧ -(hi - lo) < 255 * lo ∧ 255 * hi < 256 * (hi - lo) := by
  constructor
  · intro h
    obtain ⟨c, hc⟩ := h lo
    obtain ⟨d, hdd⟩ := h hi
    obtain ⟨hlt, -, -, hc⟩ := (valueToColor_iff _ _ _ _).1 hc
    obtain ⟨-, -, -, hdd⟩ := (valueToColor_iff _ _ _ _).1 hdd
    have hd : 0 < hi - lo := sub_pos.2 hlt
    simp only [lt_self_iff_false, if_false, if_neg (not_lt.2 hlt.le)] at hc hdd
    rw [toUint8_iff] at hc hdd
    refine ⟨hlt, ?_, ?_⟩
    · rcases hc with ⟨-, h1, -⟩ | ⟨h1, -⟩
      · rw [lt_div_iff₀ hd] at h1
        linarith
      · have : (0 : K) ≤ c.r.val := Nat.cast_nonneg _
        have h2 := le_trans this h1
        rw [le_div_iff₀ hd] at h2
        linarith
    · rcases hdd with ⟨-, -, h1⟩ | ⟨-, h1⟩
      · rw [div_lt_iff₀ hd] at h1
        linarith
      · have h2 : d.r.val + 1 ≤ 256 := d.r.isLt
        have h3 : ((d.r.val : ℕ) : K) + 1 ≤ 256 := by exact_mod_cast h2
        have h4 := lt_of_lt_of_le h1 h3
        rwa [div_lt_iff₀ hd] at h4
  · rintro ⟨hlt, h1, h2⟩ v
    have hd : 0 < hi - lo := sub_pos.2 hlt
    have hclamp : lo ≤ (if v < lo then lo else if hi < v then hi else v) ∧
        (if v < lo then lo else if hi < v then hi else v) ≤ hi := by
      constructor <;> split_ifs <;> linarith
    obtain ⟨w0, w1⟩ := hclamp
    have hx1 : 255 * (if v < lo then lo else if hi < v then hi else v) / (hi - lo) < 256 := by
      rw [div_lt_iff₀ hd]
      linarith
    rcases lt_or_ge (255 * (if v < lo then lo else if hi < v then hi else v) / (hi - lo)) 0 with hx0 | hx0
    · refine ⟨⟨0, 0, 0⟩, (valueToColor_iff _ _ _ _).2 ⟨hlt, rfl, rfl, ?_⟩⟩
      rw [toUint8_iff]
      refine .inl ⟨rfl, ?_, hx0⟩
      rw [lt_div_iff₀ hd]
      linarith
    · obtain ⟨c, hc, -⟩ := toUint8_ok hx0 (Int.floor_lt.2 (by exact_mod_cast hx1))
        (Int.floor_nonneg.2 hx0)
      exact ⟨⟨c, c, c⟩, (valueToColor_iff _ _ _ _).2 ⟨hlt, rfl, rfl, hc⟩⟩

/-- C24, colouring a ring by value, for an interval that begins at zero or close to it: each point, in
order, with the shade of its value; and a number of values other than the number of points is refused. -/
theorem C24_points_by_value_partial (lo hi : K) (h0 : 0 ≤ lo) (hhi : 256 * lo < hi) (cloud : List P) (indices : List ℕ)
    (hin : ∀ i ∈ indices, i < cloud.length) :
    ∃ f : K → Fin 256, Shade lo hi f ∧ ∀ values : List K,
      (values.length = indices.length → colorPointsByValue ⟨cloud, indices⟩ values lo hi =
        .ok ((ringPoints cloud indices).zip (values.map fun v => ⟨f v, f v, f v⟩))) ∧
      (values.length ≠ indices.length →
        colorPointsByValue ⟨cloud, indices⟩ values lo hi = .error .assertFail) := by
  obtain ⟨f, h2, h1⟩ := (C24_value_colour_partial lo hi).2 ⟨h0, hhi⟩
  refine ⟨f, h2, fun values => ⟨fun hl => ?_, fun hl => ?_⟩⟩
  · have hlen := (ringPoints_getElem? hin).1
    simp only [colorPointsByValue]
    rw [if_neg (by simp only [MappedPoints.size]; omega)]
    have : ∀ n, n ≤ values.length → (List.range n).mapM (fun (i : ℕ) => do
        let p ← MappedPoints.at ⟨cloud, indices⟩ i
        let v ← atI values i
        let c ← valueToColor v lo hi
        pure (p, c)) =
        (.ok (((ringPoints cloud indices).zip
          (values.map fun v => (⟨f v, f v, f v⟩ : RGB))).take n) : Res (List (P × RGB))) := by
      intro n
      induction n with
      | zero => intro _; rfl
      | succ n ih =>
        intro hn
        rw [List.range_succ, List.mapM_append, ih (by omega), List.mapM_cons, List.mapM_nil]
        have e1 : ((ringPoints cloud indices).zip (values.map fun v => (⟨f v, f v, f v⟩ : RGB)))[n]? =
            some ((ringPoints cloud indices)[n]'(by omega),
              ⟨f (values[n]'(by omega)), f (values[n]'(by omega)), f (values[n]'(by omega))⟩) := by
          rw [List.getElem?_eq_getElem (by simp; omega)]; simp
        simp only [ref_at hin (by omega : n < indices.length), atI_ok (by omega : n < values.length), h1,
          bind, Except.bind, pure, Except.pure, List.take_succ, e1, Option.toList_some]
    rw [this _ le_rfl, List.take_of_length_le (by simp)]
  · simp only [colorPointsByValue]
    rw [if_pos (by simp only [MappedPoints.size]; omega)]

/-- C24, violation for shifted intervals: with `min = 1, max = 2` every value from `256/255` on
is converted out of the byte range (undefined behaviour); even `min` itself is not black. -/
theorem C24_value_colour_violated :
    valueToColor (3 / 2 : ℚ) 1 2 = .error .undefinedBehaviour ∧
    valueToColor (1 : ℚ) 1 2 = .ok ⟨255, 255, 255⟩ ∧
    valueToColor (-1 : ℚ) (-1) 1 = .error .undefinedBehaviour := by
  refine ⟨?_, ?_, ?_⟩ <;> decide +kernel

end

example : (0 : ℚ) ≤ 1 / 100 ∧ 256 * (1 / 100 : ℚ) < 3 := by norm_num
example : valueToColor (1 / 2 : ℚ) 0 1 = .ok ⟨127, 127, 127⟩ := by decide +kernel
example : colorPointsByLabel ⟨[(10 : ℚ), 20], [1, 0]⟩ [.edge, .default] =
    .ok [(20, ⟨255, 0, 0⟩), (10, ⟨255, 255, 255⟩)] := by decide +kernel

end Verif.Extraction
