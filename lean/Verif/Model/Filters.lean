/-
Model of `range.hpp`, `occlusion.hpp`, `out_of_range.hpp` and `parallel_beam.hpp`
(in `extraction/include/lidar_feature_extraction/`).
-/
import Verif.Model.Label
import Mathlib.Algebra.Order.Field.Basic
import Mathlib.Algebra.Order.AbsoluteValue.Basic

set_option autoImplicit false

namespace Verif.Extraction

variable {P K : Type}

/-- `range.hpp` 45-74: the class `Range`; `norm` stands for the horizontal norm `XYNorm(p.x, p.y)`
of a point (`math.hpp` 36-39). -/
structure Range (P K : Type) where
  ref : MappedPoints P
  norm : P → K

/-- `range.hpp` 52-56. -/
def Range.call (r : Range P K) (i : ℤ) : Res K := do
  let p ← r.ref.at i
  pure (r.norm p)

/-- `range.hpp` 67-70. -/
def Range.size (r : Range P K) : ℤ := r.ref.size

/-- `range.hpp` 58-65: `operator()(begin, end)`. The vector has `end - begin` entries (a negative
count becomes a huge `size_t` and throws `length_error`); entry `i` is `(*this)(i)`. -/
def Range.interval (r : Range P K) (b e : ℤ) : Res (List K) :=
  if e < b then .error .lengthError
  else (List.range (e - b).toNat).mapM fun (i : ℕ) => r.call i

/-- `range.hpp` 40-43 `IsInInclusiveRange`. -/
def isInInclusiveRange [LE K] [DecidableLE K] (v min max : K) : Bool :=
  decide (min ≤ v) && decide (v ≤ max)

section
variable [Field K] [LinearOrder K]

/-- `occlusion.hpp` 46-55: one iteration of `FromLeft`. -/
def fromLeftStep (nb : NeighborCheckXY P) (range : Range P K) (padding : ℕ) (threshold : K)
    (labels : List PointLabel) (i : ℕ) : Res (List PointLabel) := do
  let ok ← nb.call i (i + 1)
  if !ok then
    pure labels
  else
    let range0 ← range.call i
    let range1 ← range.call (i + 1)
    if range1 > range0 + threshold then
      fillFromLeft labels nb.base (i + 1) (i + padding + 2) .occluded
    else
      pure labels

/-- The loop bound `labels.size() - padding - 1` of `occlusion.hpp` 45, computed in `size_t`
(64 bits), so that it wraps around when the ring has at most `padding` points. -/
def fromLeftLimit (size padding : ℕ) : ℕ := (((size : ℤ) - padding - 1) % 2 ^ 64).toNat

/-- `occlusion.hpp` 37-57 `FromLeft`. The neighbour test throws `out_of_range` at the latest for
`i = size`, so no more than `size + 1` iterations ever happen; the list of iterations is cut there. -/
def fromLeft (labels : List PointLabel) (nb : NeighborCheckXY P) (range : Range P K) (padding : ℕ)
    (threshold : K) : Res (List PointLabel) :=
  (List.range (min (fromLeftLimit labels.length padding) (labels.length + 1))).foldlM
    (fromLeftStep nb range padding threshold) labels

/-- `occlusion.hpp` 68-77: one iteration of `FromRight`. `i - padding - 2` is computed in
`unsigned int` and converted to `int`; as `i ≥ padding + 1`, the result is the integer
difference, `-1` at the least. -/
def fromRightStep (nb : NeighborCheckXY P) (range : Range P K) (padding : ℕ) (threshold : K)
    (labels : List PointLabel) (i : ℕ) : Res (List PointLabel) := do
  let ok ← nb.call i (i - 1)
  if !ok then
    pure labels
  else
    let range1 ← range.call (i - 1)
    let range0 ← range.call i
    if range1 > range0 + threshold then
      fillFromRight labels nb.base (i - padding - 2) (i - 1) .occluded
    else
      pure labels

/-- `occlusion.hpp` 59-79 `FromRight`: `i` runs from `size - 1` down to `padding + 1`. For an empty
ring `labels.size() - 1` wraps around and the first neighbour test throws `out_of_range`. -/
def fromRight (labels : List PointLabel) (nb : NeighborCheckXY P) (range : Range P K) (padding : ℕ)
    (threshold : K) : Res (List PointLabel) :=
  if labels.length = 0 then .error .outOfRange
  else (List.range (labels.length - 1 - padding)).foldlM
    (fun l k => fromRightStep nb range padding threshold l (labels.length - 1 - k)) labels

/-- `occlusion.hpp` 81-91 `LabelOccludedPoints`. -/
def labelOccludedPoints (labels : List PointLabel) (nb : NeighborCheckXY P) (range : Range P K)
    (padding : ℕ) (threshold : K) : Res (List PointLabel) := do
  let labels ← fromLeft labels nb range padding threshold
  fromRight labels nb range padding threshold

/-- `out_of_range.hpp` 36-48 `LabelOutOfRange`. -/
def labelOutOfRange (labels : List PointLabel) (range : Range P K) (minRange maxRange : K) :
    Res (List PointLabel) :=
  (List.range range.size.toNat).foldlM (fun labels (i : ℕ) => do
    let v ← range.call i
    if !isInInclusiveRange v minRange maxRange then
      setI labels i .outOfRange
    else
      pure labels) labels

/-- The comparison `std::abs(d) / r > threshold` of `parallel_beam.hpp` 44-47 in floating point:
division by zero gives infinity (greater than every finite threshold) when `d ≠ 0` and NaN (not
greater) when `d = 0`. Simplification: the conversion of the ratio to `float` is exact. -/
def ratioGreater (d r threshold : K) : Bool :=
  if r = 0 then decide (d ≠ 0) else decide (|d| / r > threshold)

/-- `parallel_beam.hpp` 36-51 `LabelParallelBeamPoints`. The loop bound `labels.size() - 1` is
computed in `size_t`; for an empty ring it wraps around and the first `ranges.at` throws. -/
def labelParallelBeamPoints (labels : List PointLabel) (range : Range P K) (threshold : K) :
    Res (List PointLabel) := do
  let ranges ← range.interval 0 labels.length
  if labels.length = 0 then .error .outOfRange
  else (List.range (labels.length - 2)).foldlM (fun labels (k : ℕ) => do
    let i : ℤ := k + 1
    let r0 ← atI ranges (i - 1)
    let r1 ← atI ranges i
    let r2 ← atI ranges (i + 1)
    if ratioGreater (r0 - r1) r1 threshold && ratioGreater (r2 - r1) r1 threshold then
      setI labels i .parallelBeam
    else
      pure labels) labels

end

end Verif.Extraction
