/-
The extraction node from message to messages: `extraction/app/feature_extraction.cpp` 92-171 with the
conversions of `Verif/Model/Pcl.lean` on both sides.
-/
import Mathlib.Data.Real.Basic
import Verif.Model.Pcl
import Verif.Model.Callback
import Verif.Model.Geometry
import Verif.Model.NotANumber

set_option autoImplicit false

namespace Verif.Wire

open Verif Verif.Convert Verif.Pcl Verif.Extraction

/-- The header of a message: time stamp in nanoseconds and frame. -/
structure Header where
  stamp : ℤ
  frame : String
  deriving DecidableEq

/-- The number a C++ `float` with the given bits stands for (IEEE 754 binary32: one bit for the sign,
8 bits exponent, 23 bits fraction); `none` is infinity or NaN. -/
noncomputable def float32 (bits : BitVec 32) : Option ℝ :=
  let exponent := bits.toNat / 8388608 % 256
  let fraction : ℝ := (bits.toNat % 8388608 : ℕ)
  let sign : ℝ := if bits.toNat < 2147483648 then 1 else -1
  if exponent = 255 then none
  else if exponent = 0 then some (sign * fraction / 2 ^ 149)
  else some (sign * (8388608 + fraction) * 2 ^ exponent / 2 ^ 150)

/-- A `float` in memory, see `Verif/Model/Pcl.lean` for the order of the bytes. -/
noncomputable def coordinate (q : List Byte) (offset : ℕ) : Option ℝ :=
  float32 (BitVec.ofNat 32 (ofBytes false ((q.drop offset).take 4)))

/-- The members of a `PointXYZIR` (`point_type.hpp` 62-86) that the extraction reads, from the bytes of
its `struct`. Simplification: infinite coordinates and NaN are not modelled, but see `sortNaN`. -/
noncomputable def pointOf (q : List Byte) : Res (PointXYZIR ℝ) :=
  match coordinate q 0, coordinate q 4, coordinate q 8 with
  | some x, some y, some z => .ok ⟨x, y, z, (ofBytes false ((q.drop 20).take 2) : ℕ)⟩
  | _, _, _ => .error .notModelled

/-- IEEE 754 binary32: NaN has the largest exponent and a fraction that is not zero. -/
def isNaN32 (bits : BitVec 32) : Bool :=
  decide (bits.toNat / 8388608 % 256 = 255) && decide (bits.toNat % 8388608 ≠ 0)

/-- A `float` in memory that may be NaN. Simplification: infinity is not modelled. -/
noncomputable def coordinateNaN (q : List Byte) (offset : ℕ) : Res NaN.Number :=
  if isNaN32 (BitVec.ofNat 32 (ofBytes false ((q.drop offset).take 4))) then .ok none
  else match coordinate q offset with
    | some v => .ok (some v)
    | none => .error .notModelled

/-- As `pointOf`, with NaN. -/
noncomputable def pointNaN (q : List Byte) : Res (PointXYZIR NaN.Number) := do
  let x ← coordinateNaN q 0
  let y ← coordinateNaN q 4
  let z ← coordinateNaN q 8
  pure ⟨x, y, z, (ofBytes false ((q.drop 20).take 2) : ℕ)⟩

/-- `feature_extraction.cpp` 114-115 on a cloud with NaN: sorting the rings is the first thing done
with the coordinates. Simplification: what comes after it is not modelled for such a cloud. -/
noncomputable def sortNaN {α : Type} (plat : Platform ℝ) (qs : List (List Byte)) : Res α := do
  let points ← qs.mapM pointNaN
  let _ ← extractAngleSortedRings plat.sort NaN.lessAngle PointXYZIR.ring points
  .error .notModelled

/-- The geometry of the node on points that carry the bytes of their `struct` along. -/
noncomputable def geometry (degreeThreshold : ℝ) : Geometry (List Byte × PointXYZIR ℝ) ℝ where
  norm p := (nodeGeometry degreeThreshold).norm p.2
  isNb p q := (nodeGeometry degreeThreshold).isNb p.2 q.2
  less p q := (nodeGeometry degreeThreshold).less p.2 q.2
  ringOf p := (nodeGeometry degreeThreshold).ringOf p.2

/-- `pcl::PointXYZRGB`: the colour is one field whose bytes are blue, green, red and, by the default
constructor, 255. -/
def pointXYZRGB : PointType where
  size := 32
  fields := [⟨"x", 0, 7, 4⟩, ⟨"y", 4, 7, 4⟩, ⟨"z", 8, 7, 4⟩, ⟨"rgb", 16, 7, 4⟩]
  default := List.replicate 12 0 ++ one ++ [0, 0, 0, 255] ++ List.replicate 12 0

/-- `color_points.hpp` 45-58 `MakeXYZRGB`. -/
def makeXYZRGB (p : List Byte) (c : RGB) : List Byte :=
  memcpy (memcpy pointXYZRGB.default 0 (p.take 12)) 16 [c.b, c.g, c.r]

/-- What the node does on a message: whether it asks for a shutdown, and the messages published on
`colored_scan`, `scan_edge` and `scan_surface`. -/
structure Published where
  shutdown : Bool
  colored : PointCloud2 Header
  edge : PointCloud2 Header
  surface : PointCloud2 Header

/-- `feature_extraction.cpp` 163-166: a feature cloud is cut down to coordinates and sent. The cloud
was filled point by point and is marked dense. Simplification: the points are those of the input; the
curvature `AppendXYZIR` writes into the intensity is not sent. -/
def sendFeatures (m : CloudMsg (List Byte × PointXYZIR ℝ)) : PointCloud2 Header :=
  toRosMsg pointXYZ ⟨m.stamp, m.frame⟩ (toPointXYZ ⟨true, m.points.map Prod.fst⟩)

/-- `feature_extraction.cpp` 153, 161. -/
def sendColored (m : CloudMsg ((List Byte × PointXYZIR ℝ) × RGB)) : PointCloud2 Header :=
  toRosMsg pointXYZRGB ⟨m.stamp, m.frame⟩ ⟨true, m.points.map fun p => makeXYZRGB p.1.1 p.2⟩

/-- `feature_extraction.cpp` 92-171 `Callback`. -/
noncomputable def extractionCallback (plat : Platform ℝ) (hp : HyperParameters ℝ)
    (degreeThreshold : ℝ) (msg : PointCloud2 Header) : Res Published := do
  let cloud ← getPointCloud pointXYZIR msg
  let points ← match cloud.points.mapM fun (q : List Byte) => do
      let p ← pointOf q
      pure (q, p) with
    | .ok points => .ok points
    | .error _ => sortNaN plat cloud.points
  let eff ← Extraction.callback plat hp (geometry degreeThreshold) msg.header.stamp cloud.isDense
    (ringIsAvailable msg.fields) points
  pure ⟨eff.shutdown, sendColored eff.colored, sendFeatures eff.edge, sendFeatures eff.surface⟩

end Verif.Wire
