/-
The texts of the exceptions of the extraction, and what the node logs. The functions of
`Verif/Model/{IndexRange,Convolution,Neighbor,Fill,Label,Filters,Geometry,Callback}.lean` once more, with
the text of `what()` for the exceptions the repository throws itself:
`extraction/include/lidar_feature_extraction/range_message.hpp`, `extraction/src/index_range.cpp` 34-40 and
68-79, `extraction/src/convolution.cpp` 39-43, `extraction/src/math.cpp` 40-42, `neighbor.hpp` 71-75 and
99-109, `fill.hpp` 50-58 and 80-89, `lib/include/lidar_feature_library/span.hpp` 70-79, and the log of
`extraction/app/feature_extraction.cpp` 92-171. That the texts are all that is added is a theorem
(`Verif/Props/C122.lean`).
-/
import Verif.Model.Geometry
import Verif.Model.Printf

set_option autoImplicit false

namespace Verif.Extraction

/-- A failure with the text of the exception; `none` where the failure is none the repository throws. -/
structure Thrown where
  err : Err
  what : Option (List Char)
  deriving DecidableEq

/-- Outcome of a function whose exceptions have a text. -/
abbrev TRes (α : Type) := Except Thrown α

variable {α P K : Type}

/-- An exception with a text. -/
def told (e : Err) (what : List Char) : TRes α := .error ⟨e, some what⟩

/-- A function that throws no exception with a text of the repository. -/
def untold : Res α → TRes α
  | .ok a => .ok a
  | .error e => .error ⟨e, none⟩

/-- `{}` of a number that is not negative. -/
def decimalNat (n : ℕ) : List Char :=
  if n < 10 then [Nat.digitChar n] else decimalNat (n / 10) ++ [Nat.digitChar (n % 10)]

/-- `fmt::format("{}", n)` of an `int` or a `size_t`. Modelled from the known behaviour of `fmt`. -/
def decimal (n : ℤ) : List Char :=
  if n < 0 then '-' :: decimalNat n.natAbs else decimalNat n.natAbs

/-- The format the four functions of `range_message.hpp` share. -/
def rangeMessage (relation valueName rangeName : List Char) (value rangeMax : ℤ) : List Char :=
  valueName ++ " (which is ".toList ++ decimal value ++ ") ".toList ++ relation ++ " ".toList ++
    rangeName ++ " (which is ".toList ++ decimal rangeMax ++ ")".toList

/-- `range_message.hpp` 37-48. -/
def rangeMessageLargerThanOrEqualTo : List Char → List Char → ℤ → ℤ → List Char :=
  rangeMessage ">=".toList

/-- `range_message.hpp` 50-61. -/
def rangeMessageSmallerThanOrEqualTo : List Char → List Char → ℤ → ℤ → List Char :=
  rangeMessage "<=".toList

/-- `range_message.hpp` 63-72. -/
def rangeMessageLargerThan : List Char → List Char → ℤ → ℤ → List Char :=
  rangeMessage ">".toList

/-- `range_message.hpp` 74-83. -/
def rangeMessageSmallerThan : List Char → List Char → ℤ → ℤ → List Char :=
  rangeMessage "<".toList

/-- `span.hpp` 70-79 `check_index`, for a span of the given size. -/
def spanCheckT (size i : ℤ) : TRes Unit :=
  if i < 0 then told .outOfRange ("Index out of range. ".toList ++ decimal i ++ " < 0".toList)
  else if i ≥ size then
    told .outOfRange ("Index out of range. ".toList ++ decimal i ++ " >= this->size()".toList)
  else .ok ()

/-- `index_range.cpp` 32-41: the closing parenthesis is missing in the source, too. -/
def IndexRange.makeT (start stop nBlocks : ℤ) : TRes IndexRange :=
  if stop - start < nBlocks then
    told .invalidArgument ("end_index - start_index (which is ".toList ++ decimal (stop - start) ++
      ") cannot be smaller than n_blocks (which is ".toList ++ decimal nBlocks)
  else .ok ⟨start, stop, nBlocks⟩

/-- `index_range.hpp` 59-66 `PaddedIndexRange`. -/
def PaddedIndexRange.makeT (size nBlocks padding : ℤ) : TRes IndexRange :=
  IndexRange.makeT padding (size - padding) nBlocks

/-- `index_range.cpp` 68-79 `ThrowExceptionIfOutOfRange`. -/
def IndexRange.checkT (r : IndexRange) (j : ℤ) : TRes Unit :=
  if j ≥ r.nBlocks then
    told .outOfRange (rangeMessageLargerThanOrEqualTo "j".toList "n_blocks".toList j r.nBlocks)
  else if j < 0 then told .outOfRange (rangeMessageSmallerThan "j".toList "0".toList j 0)
  else .ok ()

/-- `index_range.cpp` 48-52 `Begin`. -/
def IndexRange.beginT (rnd : ℚ → ℚ) (r : IndexRange) (j : ℤ) : TRes ℤ := do
  r.checkT j
  pure (r.boundaryWith rnd j)

/-- `index_range.cpp` 54-58 `End`. -/
def IndexRange.endT (rnd : ℚ → ℚ) (r : IndexRange) (j : ℤ) : TRes ℤ := do
  r.checkT j
  pure (r.boundaryWith rnd (j + 1))

/-- `convolution.cpp` 35-66 `Convolution1D`: the first check, then as in `convolution1D`. -/
def convolution1DT [CommRing K] (input weight : List K) : TRes (List K) :=
  if input.length < weight.length then
    told .invalidArgument ("Input array size ".toList ++ decimal input.length ++
      " cannot be smaller than weight size ".toList ++ decimal weight.length)
  else untold (convolution1D input weight)

/-- `curvature.cpp` 44-50 `CalcCurvature`. -/
def calcCurvatureT [CommRing K] (range : List K) (padding : ℤ) : TRes (List K) := do
  let weight ← untold (makeWeight padding)
  let weighted ← convolution1DT range weight
  pure (weighted.map fun v => v * v)

/-- `math.cpp` 34-46 `CalcRadian`. -/
noncomputable def calcRadianT (x1 y1 x2 y2 : ℝ) : TRes (Option ℝ) :=
  if xyNorm x1 y1 = 0 ∧ xyNorm x2 y2 = 0 then
    told .invalidArgument "All input values are zero. Angle cannot be calculated".toList
  else untold (calcRadian x1 y1 x2 y2)

/-- `neighbor.hpp` 44-48 `IsNeighborXY`. -/
noncomputable def isNeighborXYT (threshold : ℝ) (p1 p2 : PointXYZIR ℝ) : TRes Bool := do
  match ← calcRadianT p1.x p1.y p2.x p2.y with
  | none => pure false
  | some a => pure (decide (a < threshold))

/-- `neighbor.hpp` 50-62. -/
structure NeighborCheckT where
  size : ℤ
  test : ℤ → ℤ → TRes Bool

/-- `neighbor.hpp` 64-113. -/
structure NeighborCheckXYT (P : Type) where
  ref : MappedPoints P
  isNb : P → P → TRes Bool

/-- `neighbor.hpp` 68-76: the constructor. -/
def NeighborCheckXYT.make (ref : MappedPoints P) (isNb : P → P → TRes Bool) :
    TRes (NeighborCheckXYT P) :=
  if ref.size < 2 then
    told .invalidArgument ("The input point size (which is ".toList ++ decimal ref.size ++
      ") cannot be smaller than 2".toList)
  else .ok ⟨ref, isNb⟩

/-- `neighbor.hpp` 88-91. -/
def NeighborCheckXYT.size (n : NeighborCheckXYT P) : ℤ := n.ref.size

/-- `neighbor.hpp` 99-109 `CheckIndex`. -/
def NeighborCheckXYT.checkIndex (n : NeighborCheckXYT P) (name : List Char) (i : ℤ) : TRes Unit :=
  if i < 0 then told .outOfRange (rangeMessageSmallerThan name "0".toList i 0)
  else if i ≥ n.size then
    told .outOfRange (rangeMessageLargerThanOrEqualTo name "this->size()".toList i n.size)
  else .ok ()

/-- `neighbor.hpp` 78-86. -/
def NeighborCheckXYT.call (n : NeighborCheckXYT P) (i j : ℤ) : TRes Bool := do
  n.checkIndex "index1".toList i
  n.checkIndex "index2".toList j
  let p1 ← untold (n.ref.at i)
  let p2 ← untold (n.ref.at j)
  n.isNb p1 p2

/-- The object seen as its base class. -/
def NeighborCheckXYT.base (n : NeighborCheckXYT P) : NeighborCheckT := ⟨n.size, n.call⟩

/-- `neighbor.hpp` 93-96. -/
def NeighborCheckXYT.slice (n : NeighborCheckXYT P) (b e : ℤ) : TRes (NeighborCheckXYT P) := do
  let ref ← untold (n.ref.slice b e)
  NeighborCheckXYT.make ref n.isNb

/-- `fill.hpp` 60-67: see `fillLeftLoop`. -/
def fillLeftLoopT (nb : NeighborCheckT) (label : PointLabel) :
    ℕ → ℤ → ℤ → List PointLabel → TRes (List PointLabel)
  | 0, _, e, labels => untold (setI labels (e - 1) label)
  | k + 1, i, e, labels => do
    let labels ← untold (setI labels i label)
    let ok ← nb.test i (i + 1)
    if !ok then
      pure labels
    else
      fillLeftLoopT nb label k (i + 1) e labels

/-- `fill.hpp` 40-68 `FillFromLeft`. -/
def fillFromLeftT (labels : List PointLabel) (nb : NeighborCheckT) (b e : ℤ) (label : PointLabel) :
    TRes (List PointLabel) :=
  if (labels.length : ℤ) ≠ nb.size then .error ⟨.assertFail, none⟩
  else if e > labels.length then
    told .invalidArgument
      (rangeMessageLargerThan "end_index".toList "labels.size()".toList e labels.length)
  else if b < 0 then
    told .invalidArgument (rangeMessageSmallerThan "begin_index".toList "0".toList b 0)
  else fillLeftLoopT nb label (e - 1 - b).toNat b e labels

/-- `fill.hpp` 91-98: see `fillRightLoop`. -/
def fillRightLoopT (nb : NeighborCheckT) (label : PointLabel) :
    ℕ → ℤ → ℤ → List PointLabel → TRes (List PointLabel)
  | 0, _, b, labels => untold (setI labels (b + 1) label)
  | k + 1, i, b, labels => do
    let labels ← untold (setI labels i label)
    let ok ← nb.test i (i - 1)
    if !ok then
      pure labels
    else
      fillRightLoopT nb label k (i - 1) b labels

/-- `fill.hpp` 70-99 `FillFromRight`. -/
def fillFromRightT (labels : List PointLabel) (nb : NeighborCheckT) (b e : ℤ) (label : PointLabel) :
    TRes (List PointLabel) :=
  if (labels.length : ℤ) ≠ nb.size then .error ⟨.assertFail, none⟩
  else if e ≥ labels.length then
    told .invalidArgument
      (rangeMessageLargerThanOrEqualTo "end_index".toList "labels.size()".toList e labels.length)
  else if b < -1 then
    told .invalidArgument (rangeMessageSmallerThan "begin_index".toList "-1".toList b (-1))
  else fillRightLoopT nb label (e - (b + 1)).toNat e b labels

/-- `fill.hpp` 101-117 `FillNeighbors`. -/
def fillNeighborsT (labels : List PointLabel) (nb : NeighborCheckT) (index padding : ℤ)
    (label : PointLabel) : TRes (List PointLabel) :=
  if (labels.length : ℤ) ≠ nb.size then .error ⟨.assertFail, none⟩
  else do
    let labels' ← fillFromRightT labels nb (max (-1) (index - padding - 1)) index label
    fillFromLeftT labels' nb index (min (index + 1 + padding) labels.length) label

section
variable [LE K] [DecidableLE K]

/-- `label.hpp` 88-93; the spans throw with a text (`span.hpp` 70-79), but only `out_of_range`, the text
of which nobody reads. -/
def edgeStepT (padding : ℤ) (threshold : K) (curvature : List K) (nb : NeighborCheckT)
    (labels : List PointLabel) (index : ℕ) : TRes (List PointLabel) := do
  let l ← untold (atI labels index)
  if l ≠ .default then
    pure labels
  else
    let c ← untold (atI curvature index)
    if ¬ (threshold ≤ c) then
      pure labels
    else
      let labels ← fillNeighborsT labels nb index padding .edgeNeighbor
      untold (setI labels index .edge)

/-- `label.hpp` 72-95 `EdgeLabel::Assign`. -/
def edgeAssignT (argsort : List K → List ℕ) (padding : ℤ) (threshold : K)
    (labels : List PointLabel) (curvature : List K) (nb : NeighborCheckT) :
    TRes (List PointLabel) :=
  if curvature.length ≠ labels.length then .error ⟨.assertFail, none⟩
  else if nb.size ≠ (labels.length : ℤ) then .error ⟨.assertFail, none⟩
  else (argsort curvature).reverse.foldlM (edgeStepT padding threshold curvature nb) labels

/-- `label.hpp` 127-132. -/
def surfaceStepT (padding : ℤ) (threshold : K) (curvature : List K) (nb : NeighborCheckT)
    (labels : List PointLabel) (index : ℕ) : TRes (List PointLabel) := do
  let l ← untold (atI labels index)
  if l ≠ .default then
    pure labels
  else
    let c ← untold (atI curvature index)
    if ¬ (c ≤ threshold) then
      pure labels
    else
      let labels ← fillNeighborsT labels nb index padding .surfaceNeighbor
      untold (setI labels index .surface)

/-- `label.hpp` 113-134 `SurfaceLabel::Assign`. -/
def surfaceAssignT (argsort : List K → List ℕ) (padding : ℤ) (threshold : K)
    (labels : List PointLabel) (curvature : List K) (nb : NeighborCheckT) :
    TRes (List PointLabel) :=
  if nb.size = 0 then .error ⟨.assertFail, none⟩
  else (argsort curvature).foldlM (surfaceStepT padding threshold curvature nb) labels

/-- `label.hpp` 154-162: one block of `AssignLabel`. -/
def assignBlockT (argsort : List K → List ℕ) (edgePadding : ℤ) (edgeThreshold : K)
    (surfacePadding : ℤ) (surfaceThreshold : K) (labels : List PointLabel) (curvature : List K)
    (nb : NeighborCheckXYT P) (b e : ℤ) : TRes (List PointLabel) :=
  if 0 ≤ b ∧ b ≤ e ∧ e ≤ labels.length ∧ e ≤ curvature.length then do
    let view := (labels.drop b.toNat).take (e - b).toNat
    let cview := (curvature.drop b.toNat).take (e - b).toNat
    let sliced ← nb.slice b e
    let view ← edgeAssignT argsort edgePadding edgeThreshold view cview sliced.base
    let view ← surfaceAssignT argsort surfacePadding surfaceThreshold view cview sliced.base
    pure (labels.take b.toNat ++ view ++ labels.drop e.toNat)
  else .error ⟨.undefinedBehaviour, none⟩

/-- `label.hpp` 141-164 `AssignLabel`. -/
def assignLabelT (rnd : ℚ → ℚ) (argsort : List K → List ℕ) (edgePadding : ℤ) (edgeThreshold : K)
    (surfacePadding : ℤ) (surfaceThreshold : K) (labels : List PointLabel) (curvature : List K)
    (nb : NeighborCheckXYT P) (range : IndexRange) : TRes (List PointLabel) :=
  if curvature.length ≠ labels.length then .error ⟨.assertFail, none⟩
  else if nb.size ≠ (labels.length : ℤ) then .error ⟨.assertFail, none⟩
  else (List.range range.nBlocks.toNat).foldlM (fun labels (j : ℕ) => do
    let b ← range.beginT rnd j
    let e ← range.endT rnd j
    assignBlockT argsort edgePadding edgeThreshold surfacePadding surfaceThreshold
      labels curvature nb b e) labels

end

section
variable [Field K] [LinearOrder K]

/-- `occlusion.hpp` 46-55: one iteration of `FromLeft`. -/
def fromLeftStepT (nb : NeighborCheckXYT P) (range : Range P K) (padding : ℕ) (threshold : K)
    (labels : List PointLabel) (i : ℕ) : TRes (List PointLabel) := do
  let ok ← nb.call i (i + 1)
  if !ok then
    pure labels
  else
    let range0 ← untold (range.call i)
    let range1 ← untold (range.call (i + 1))
    if range1 > range0 + threshold then
      fillFromLeftT labels nb.base (i + 1) (i + padding + 2) .occluded
    else
      pure labels

/-- `occlusion.hpp` 37-57 `FromLeft`, see `fromLeft`. -/
def fromLeftT (labels : List PointLabel) (nb : NeighborCheckXYT P) (range : Range P K) (padding : ℕ)
    (threshold : K) : TRes (List PointLabel) :=
  (List.range (min (fromLeftLimit labels.length padding) (labels.length + 1))).foldlM
    (fromLeftStepT nb range padding threshold) labels

/-- `occlusion.hpp` 68-77: one iteration of `FromRight`, see `fromRightStep`. -/
def fromRightStepT (nb : NeighborCheckXYT P) (range : Range P K) (padding : ℕ) (threshold : K)
    (labels : List PointLabel) (i : ℕ) : TRes (List PointLabel) := do
  let ok ← nb.call i (i - 1)
  if !ok then
    pure labels
  else
    let range1 ← untold (range.call (i - 1))
    let range0 ← untold (range.call i)
    if range1 > range0 + threshold then
      fillFromRightT labels nb.base (i - padding - 2) (i - 1) .occluded
    else
      pure labels

/-- `occlusion.hpp` 59-79 `FromRight`, see `fromRight`; the text of the `out_of_range` of an empty ring
is left out. -/
def fromRightT (labels : List PointLabel) (nb : NeighborCheckXYT P) (range : Range P K) (padding : ℕ)
    (threshold : K) : TRes (List PointLabel) :=
  if labels.length = 0 then .error ⟨.outOfRange, none⟩
  else (List.range (labels.length - 1 - padding)).foldlM
    (fun l k => fromRightStepT nb range padding threshold l (labels.length - 1 - k)) labels

/-- `occlusion.hpp` 81-91 `LabelOccludedPoints`. -/
def labelOccludedPointsT (labels : List PointLabel) (nb : NeighborCheckXYT P) (range : Range P K)
    (padding : ℕ) (threshold : K) : TRes (List PointLabel) := do
  let labels ← fromLeftT labels nb range padding threshold
  fromRightT labels nb range padding threshold

/-- `feature_extraction.cpp` 127-140. -/
def ringLabelsT (plat : Platform K) (hp : HyperParameters K) (nb : NeighborCheckXYT P)
    (range : Range P K) : TRes (List PointLabel × List K) := do
  let labels := initLabels nb.ref.indices.length
  let ranges ← untold (range.interval 0 range.size)
  let curvature ← calcCurvatureT ranges hp.padding
  let indexRange ← PaddedIndexRange.makeT range.size hp.nBlocks hp.padding
  let labels ← assignLabelT plat.rnd plat.argsort hp.padding hp.edgeThreshold hp.padding
    hp.surfaceThreshold labels curvature nb indexRange
  let labels ← labelOccludedPointsT labels nb range hp.padding.toNat hp.distanceDiffThreshold
  let labels ← untold (labelOutOfRange labels range hp.minRange hp.maxRange)
  let labels ← untold (labelParallelBeamPoints labels range hp.parallelBeamMinRangeRatio)
  if (curvature.length : ℤ) ≠ nb.ref.size then .error ⟨.assertFail, none⟩
  else pure (labels, curvature)

/-- `feature_extraction.cpp` 127-153: the body of the `try` for one ring, see `ringBody`. -/
def ringBodyT (plat : Platform K) (hp : HyperParameters K) (nb : NeighborCheckXYT P)
    (range : Range P K) (out : Clouds P K) : TRes (Clouds P K) := do
  let (labels, curvature) ← ringLabelsT plat hp nb range
  let edgeIndices := getIndicesByValue labels .edge
  let edgePoints ← untold (getByIndices edgeIndices nb.ref.at)
  let edgeCurvature ← untold (getByIndices edgeIndices (atI curvature))
  let surfaceIndices := getIndicesByValue labels .surface
  let surfacePoints ← untold (getByIndices surfaceIndices nb.ref.at)
  let surfaceCurvature ← untold (getByIndices surfaceIndices (atI curvature))
  let edge ← untold (appendXYZIR out.edge edgePoints edgeCurvature)
  let surface ← untold (appendXYZIR out.surface surfacePoints surfaceCurvature)
  let colored ← untold (colorPointsByLabel nb.ref labels)
  pure ⟨edge, surface, out.colored ++ colored⟩

/-- The operations on points with the texts of their exceptions, see `Geometry`. -/
structure GeometryT (P K : Type) where
  norm : P → K
  isNb : P → P → TRes Bool
  less : P → P → Bool
  ringOf : P → ℤ

/-- `feature_extraction.cpp` 120-157: one iteration of the ring loop. The clouds come with the log; an
exception without a text of the repository is not an `invalid_argument`. -/
def processRingLogged (plat : Platform K) (hp : HyperParameters K) (geo : GeometryT P K)
    (cloud : List P) (out : Clouds P K × List (List Char)) (ring : ℤ × List ℕ) :
    TRes (Clouds P K × List (List Char)) := do
  let ref : MappedPoints P := ⟨cloud, ring.2⟩
  let nb ← NeighborCheckXYT.make ref geo.isNb
  match ringBodyT plat hp nb ⟨ref, geo.norm⟩ out.1 with
  | .error ⟨.invalidArgument, some what⟩ => do
    let line ← untold (printf what)
    .ok (out.1, out.2 ++ [line])
  | .error e => .error e
  | .ok clouds => .ok (clouds, out.2)

/-- `feature_extraction.cpp` 92-171 `Callback` with the lines it logs, see `callback`. -/
def callbackLogged (plat : Platform K) (hp : HyperParameters K) (geo : GeometryT P K) (stamp : ℤ)
    (isDense ringAvailable : Bool) (cloud : List P) :
    TRes (CallbackEffect P × List (List Char)) := do
  let log ← if isDense then pure [] else do
    let line ← untold (printf
      "Point cloud is not in dense format, please remove NaN points first!".toList)
    pure [line]
  let log ← if ringAvailable then pure log else do
    let line ← untold (printf "Ring channel could not be found".toList)
    pure (log ++ [line])
  let rings ← untold (extractAngleSortedRings plat.sort geo.less geo.ringOf cloud)
  let rings := removeSparseRings rings (hp.padding + 1)
  let out ← (plat.order rings).foldlM (processRingLogged plat hp geo cloud) (⟨[], [], []⟩, log)
  let frame := "lidar_feature_base_link"
  pure (⟨!isDense || !ringAvailable, ⟨stamp, frame, out.1.colored⟩,
    ⟨stamp, frame, out.1.edge.map Prod.fst⟩, ⟨stamp, frame, out.1.surface.map Prod.fst⟩⟩, out.2)

end

/-- The geometry of the node with the texts of its exceptions, see `nodeGeometry`. -/
noncomputable def nodeGeometryT (degreeThreshold : ℝ) : GeometryT (PointXYZIR ℝ) ℝ where
  norm p := xyNorm p.x p.y
  isNb := isNeighborXYT (degreeToRadian degreeThreshold)
  less := lessAngle
  ringOf p := p.ring

end Verif.Extraction
