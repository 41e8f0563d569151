/-
Clouds and their messages: `lib/include/lidar_feature_library/point_type.hpp`, `ros_msg.hpp` 53-79,
`convert_point_cloud_type.hpp` 36-50 and `extraction/src/ring.cpp` 36-44.

The functions `pcl::toROSMsg`, `pcl::fromROSMsg` and `pcl::copyPointCloud` that they call are modelled
from their known definition. A point is the bytes of its `struct` in memory, on a machine that stores
the least significant byte first. Simplification: sizes are small enough for no product of them to wrap.
-/
import Verif.Basic
import Verif.Model.Convert

set_option autoImplicit false

namespace Verif.Pcl

open Verif Verif.Convert

/-- A field of a point type as registered by `POINT_CLOUD_REGISTER_POINT_STRUCT`: name, place in the
`struct`, data type as in `sensor_msgs/PointField`, number of bytes. All fields have one element. -/
structure Registered where
  name : String
  offset : ℕ
  datatype : ℕ
  size : ℕ
  deriving DecidableEq, Repr

/-- A point type: `sizeof`, the registered fields, and the bytes of a point made by the default
constructor. -/
structure PointType where
  size : ℕ
  fields : List Registered
  default : List Byte

/-- The bytes of `1.0f`. -/
def one : List Byte := [0, 0, 128, 63]

/-- `pcl::PointXYZ`: the fourth coordinate, which is not registered, is 1. -/
def pointXYZ : PointType where
  size := 16
  fields := [⟨"x", 0, 7, 4⟩, ⟨"y", 4, 7, 4⟩, ⟨"z", 8, 7, 4⟩]
  default := List.replicate 12 0 ++ one

/-- `PointXYZIR` (`point_type.hpp` 62-86), aligned to 16 bytes. -/
def pointXYZIR : PointType where
  size := 32
  fields := [⟨"x", 0, 7, 4⟩, ⟨"y", 4, 7, 4⟩, ⟨"z", 8, 7, 4⟩, ⟨"intensity", 16, 7, 4⟩, ⟨"ring", 20, 4, 2⟩]
  default := List.replicate 12 0 ++ one ++ List.replicate 16 0

/-- `PointXYZCR` (`point_type.hpp` 36-60). -/
def pointXYZCR : PointType where
  size := 32
  fields := [⟨"x", 0, 7, 4⟩, ⟨"y", 4, 7, 4⟩, ⟨"z", 8, 7, 4⟩, ⟨"curvature", 16, 7, 4⟩, ⟨"ring", 20, 4, 2⟩]
  default := List.replicate 12 0 ++ one ++ List.replicate 16 0

/-- `pcl::FieldMatches` for a field of one element. -/
def fieldMatches (r : Registered) (f : Field) : Bool :=
  decide (f.name = r.name) && decide (f.datatype = r.datatype) &&
    (decide (f.count = 1) || decide (f.count = 0))

/-- `pcl::detail::FieldMapping`: bytes to copy from the message to the `struct`. -/
structure Mapping where
  serialized : ℕ
  struct : ℕ
  size : ℕ
  deriving DecidableEq, Repr

/-- `pcl::detail::FieldMapper`: the first field of the message that matches; a field that is not found
is left out with a warning. -/
def mapField (fields : List Field) (r : Registered) : Option Mapping :=
  (fields.find? (fieldMatches r)).map fun f => ⟨f.offset, r.offset, r.size⟩

/-- The loop of `pcl::createMapping` that joins mappings with the same distance in message and
`struct`, together with what lies between them; `i` is the mapping joined so far. -/
def coalesce (i : Mapping) : List Mapping → List Mapping
  | [] => [i]
  | j :: rest =>
    if (j.serialized : ℤ) - i.serialized = (j.struct : ℤ) - i.struct then
      coalesce { i with size := i.size + (j.struct + j.size) - (i.struct + i.size) } rest
    else i :: coalesce j rest

/-- `pcl::createMapping`. Simplification: of fields at the same place of the message, the order of
which `std::sort` leaves open, the one registered first comes first. -/
def createMapping (T : PointType) (fields : List Field) : List Mapping :=
  match List.insertionSort (fun a b : Mapping => a.serialized ≤ b.serialized)
    (T.fields.filterMap (mapField fields)) with
  | [] => []
  | i :: rest => coalesce i rest

/-- `memcpy (dst + at, src, |src|)`. -/
def memcpy (dst : List Byte) (start : ℕ) (src : List Byte) : List Byte :=
  dst.take start ++ src ++ dst.drop (start + src.length)

/-- One point of `pcl::fromPCLPointCloud2`, from byte `base` of the data on; reading beyond the data is
undefined. The point has been made by the default constructor. -/
def readPoint (T : PointType) (mappings : List Mapping) (data : List Byte) (base : ℕ) :
    Res (List Byte) :=
  mappings.foldlM (fun point (m : Mapping) =>
    if base + m.serialized + m.size ≤ data.length then
      .ok (memcpy point m.struct ((data.drop (base + m.serialized)).take m.size))
    else .error .undefinedBehaviour) T.default

/-- A `pcl::PointCloud`. -/
structure Cloud where
  isDense : Bool
  points : List (List Byte)

/-- `pcl::fromPCLPointCloud2`, that is `GetPointCloud` (`ros_msg.hpp` 73-79). The byte order of the
message is not looked at. Its other branch, which copies whole rows, needs a mapping as large as the
point type; the types of this repository have unregistered bytes at the end. -/
def getPointCloud {H : Type} (T : PointType) (msg : PointCloud2 H) : Res Cloud := do
  let mappings := createMapping T msg.fields
  let rows ← (List.range msg.height).mapM fun (row : ℕ) =>
    (List.range msg.width).mapM fun (col : ℕ) =>
      readPoint T mappings msg.data (row * msg.rowStep + col * msg.pointStep)
  .ok ⟨msg.isDense, rows.flatten⟩

/-- `pcl::toROSMsg`, that is `ToRosMsg` (`ros_msg.hpp` 53-71), for a cloud to which points were
appended one by one or by `+=`: one row. The byte order flag has its default. -/
def toRosMsg {H : Type} (T : PointType) (header : H) (cloud : Cloud) : PointCloud2 H where
  header := header
  height := 1
  width := cloud.points.length
  fields := T.fields.map fun r => ⟨r.name, r.offset, r.datatype, 1⟩
  isBigendian := false
  pointStep := T.size
  rowStep := T.size * cloud.points.length
  data := cloud.points.flatten
  isDense := cloud.isDense

/-- `ToPointXYZ` (`convert_point_cloud_type.hpp` 36-50), that is `pcl::copyPointCloud` to `PointXYZ`:
the fields both types have are copied, here the first twelve bytes. -/
def toPointXYZ (cloud : Cloud) : Cloud :=
  { cloud with points := cloud.points.map fun p => memcpy pointXYZ.default 0 (p.take 12) }

/-- `ring.cpp` 36-44 `RingIsAvailable`. -/
def ringIsAvailable (fields : List Field) : Bool := fields.any fun f => decide (f.name = "ring")

end Verif.Pcl
