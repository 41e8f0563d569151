/-
The point type converter (`point_type_converter/point_type_converter/convert.py`).
-/
import Mathlib.Data.List.Sort
import Mathlib.Data.Int.Notation
import Mathlib.Data.Nat.Notation

set_option autoImplicit false

namespace Verif.Convert

/-- The Python exceptions that the functions raise. -/
inductive PyErr where
  | assertionError
  | structError
  | overflowError
  | indexError
  | valueError
  | zeroDivisionError
  deriving DecidableEq, Repr

abbrev Py (α : Type) := Except PyErr α

abbrev Byte := Fin 256

/-- Python's `float` and how `struct` converts it. `enc32`, `enc64` give the bits written by the
format characters `f` and `d` (`none` is `OverflowError`), `dec32`, `dec64` the value read from bits,
`ofInt` the conversion of an `int` argument of `f` or `d` (`none` is a failure), `isZero x` is
`x == 0.`. Only the laws stated in the theorems are assumed of them. -/
structure Floats where
  F : Type
  enc32 : F → Option (BitVec 32)
  dec32 : BitVec 32 → F
  enc64 : F → Option (BitVec 64)
  dec64 : BitVec 64 → F
  ofInt : ℤ → Option F
  isZero : F → Bool

/-- A Python number, as returned by `struct.unpack`. -/
inductive Val (fl : Floats) where
  | int (z : ℤ)
  | float (x : fl.F)

/-- `datatypes` and `format_characters` (42-54). -/
inductive DataType where
  | int8 | uint8 | int16 | uint16 | int32 | uint32 | float32 | float64
  deriving DecidableEq, Repr

/-- `get_datatype`, `get_format_character` (61-66): Python's `list[i - 1]`, in which `-1` is the last
element. -/
def getDatatype (i : ℕ) : Py DataType :=
  match i with
  | 0 => .ok .float64
  | 1 => .ok .int8
  | 2 => .ok .uint8
  | 3 => .ok .int16
  | 4 => .ok .uint16
  | 5 => .ok .int32
  | 6 => .ok .uint32
  | 7 => .ok .float32
  | 8 => .ok .float64
  | _ => .error .indexError

/-- `data_size` (69-70). -/
def DataType.size : DataType → ℕ
  | .int8 | .uint8 => 1
  | .int16 | .uint16 => 2
  | .int32 | .uint32 => 4
  | .float32 => 4
  | .float64 => 8

/-- `PointField`. -/
structure Field where
  name : String
  offset : ℕ
  datatype : ℕ
  count : ℕ
  deriving DecidableEq, Repr

/-- A character of a format: `x` or the character of a data type. -/
inductive Tok where
  | pad
  | fld (d : DataType)
  deriving DecidableEq, Repr

/-- The loop of `create_point_format` (76-81), from the given `index` on: the characters appended and
the final index. -/
def createLoop : ℕ → List Field → Py (List Tok × ℕ)
  | index, [] => .ok ([], index)
  | index, f :: rest => do
    let pads := if index < f.offset then List.replicate (f.offset - index) Tok.pad else []
    let index := if index < f.offset then f.offset else index
    let d ← getDatatype f.datatype
    let r ← createLoop (index + d.size) rest
    .ok (pads ++ Tok.fld d :: r.1, r.2)

/-- `create_point_format` (73-85). -/
def createPointFormat (fields : List Field) (pointStep : ℕ) : Py (List Tok) := do
  let r ← createLoop 0 fields
  .ok (if r.2 < pointStep then r.1 ++ List.replicate (pointStep - r.2) Tok.pad else r.1)

/-- `create_points_format` (88-91), without the byte order character, which is passed on as
`is_bigendian`. -/
def createPointsFormat (fields : List Field) (nPoints pointStep : ℕ) : Py (List Tok) := do
  let f ← createPointFormat fields pointStep
  .ok (List.replicate nPoints f).flatten

/-! ### The module `struct` with an explicit byte order: no alignment -/

def Tok.size : Tok → ℕ
  | .pad => 1
  | .fld d => d.size

/-- `struct.calcsize`. -/
def calcsize (toks : List Tok) : ℕ := (toks.map Tok.size).sum

/-- Little-endian bytes of a number. -/
def leBytes : ℕ → ℕ → List Byte
  | 0, _ => []
  | w + 1, n => ⟨n % 256, Nat.mod_lt _ (by decide)⟩ :: leBytes w (n / 256)

def leNat : List Byte → ℕ
  | [] => 0
  | b :: rest => b.val + 256 * leNat rest

/-- Bytes in the chosen order. -/
def toBytes (big : Bool) (w n : ℕ) : List Byte :=
  if big then (leBytes w n).reverse else leBytes w n

def ofBytes (big : Bool) (bs : List Byte) : ℕ := leNat (if big then bs.reverse else bs)

/-- The value of two's complement bits. -/
def signed (w n : ℕ) : ℤ := if n < 2 ^ (8 * w - 1) then (n : ℤ) else (n : ℤ) - 2 ^ (8 * w)

variable (fl : Floats)

/-- One item of `struct.unpack`. -/
def decode (big : Bool) (d : DataType) (bs : List Byte) : Val fl :=
  match d with
  | .int8 => .int (signed 1 (ofBytes big bs))
  | .uint8 => .int (ofBytes big bs)
  | .int16 => .int (signed 2 (ofBytes big bs))
  | .uint16 => .int (ofBytes big bs)
  | .int32 => .int (signed 4 (ofBytes big bs))
  | .uint32 => .int (ofBytes big bs)
  | .float32 => .float (fl.dec32 (BitVec.ofNat 32 (ofBytes big bs)))
  | .float64 => .float (fl.dec64 (BitVec.ofNat 64 (ofBytes big bs)))

variable {fl}

/-- Packing an integer of `w` bytes: `struct.error` outside its range and for a `float`. -/
def encodeInt (big isSigned : Bool) (w : ℕ) : Val fl → Py (List Byte)
  | .float _ => .error .structError
  | .int z =>
    if isSigned then
      if -(2 ^ (8 * w - 1) : ℤ) ≤ z ∧ z < 2 ^ (8 * w - 1) then
        .ok (toBytes big w (z % 2 ^ (8 * w)).toNat)
      else .error .structError
    else
      if 0 ≤ z ∧ z < 2 ^ (8 * w) then .ok (toBytes big w z.toNat) else .error .structError

/-- Python's conversion of an argument of `f` or `d` to `float`. -/
def toFloat : Val fl → Py fl.F
  | .float x => .ok x
  | .int z => match fl.ofInt z with
    | some x => .ok x
    | none => .error .structError

/-- One item of `struct.pack`. -/
def encode (big : Bool) (d : DataType) (v : Val fl) : Py (List Byte) :=
  match d with
  | .int8 => encodeInt big true 1 v
  | .uint8 => encodeInt big false 1 v
  | .int16 => encodeInt big true 2 v
  | .uint16 => encodeInt big false 2 v
  | .int32 => encodeInt big true 4 v
  | .uint32 => encodeInt big false 4 v
  | .float32 => do
    let x ← toFloat v
    match fl.enc32 x with
    | some b => .ok (toBytes big 4 b.toNat)
    | none => .error .overflowError
  | .float64 => do
    let x ← toFloat v
    match fl.enc64 x with
    | some b => .ok (toBytes big 8 b.toNat)
    | none => .error .overflowError

variable (fl)

/-- The items of `struct.unpack` once the size has been found to match. -/
def unpackToks (big : Bool) : List Tok → List Byte → List (Val fl)
  | [], _ => []
  | .pad :: rest, bs => unpackToks big rest (bs.drop 1)
  | .fld d :: rest, bs => decode fl big d (bs.take d.size) :: unpackToks big rest (bs.drop d.size)

/-- `struct.unpack`: `struct.error` unless the data has exactly the size of the format. -/
def structUnpack (big : Bool) (toks : List Tok) (bs : List Byte) : Py (List (Val fl)) :=
  if bs.length = calcsize toks then .ok (unpackToks fl big toks bs) else .error .structError

variable {fl}

/-- The bytes of `struct.pack` once the number of arguments has been found to match; padding bytes
are zero. -/
def packToks (big : Bool) : List Tok → List (Val fl) → Py (List Byte)
  | [], _ => .ok []
  | .pad :: rest, vs => do
    let bs ← packToks big rest vs
    .ok (0 :: bs)
  | .fld _ :: _, [] => .error .structError
  | .fld d :: rest, v :: vs => do
    let b ← encode big d v
    let bs ← packToks big rest vs
    .ok (b ++ bs)

/-- Number of items of a format. -/
def nItems (toks : List Tok) : ℕ := (toks.filter (· ≠ Tok.pad)).length

/-- `struct.pack`: `struct.error` unless there is one argument per item. -/
def structPack (big : Bool) (toks : List Tok) (vs : List (Val fl)) : Py (List Byte) :=
  if vs.length = nItems toks then packToks big toks vs else .error .structError

/-! ### The functions of the converter -/

/-- `split` (118-121): `range` with step 0 raises `ValueError`. -/
def splitLoop {α : Type} (m : ℕ) : ℕ → List α → List (List α)
  | 0, _ => []
  | _ + 1, [] => []
  | k + 1, a :: rest => (a :: rest).take m :: splitLoop m k ((a :: rest).drop m)

def split {α : Type} (collection : List α) (m : ℕ) : Py (List (List α)) :=
  if m = 0 then .error .valueError else .ok (splitLoop m collection.length collection)

/-- `flatten` (109-110). -/
def flatten {α : Type} (chunks : List (List α)) : List α := chunks.flatten

variable (fl)

/-- `unpack_point_bytes` (94-100). -/
def unpackPointBytes (data : List Byte) (fields : List Field) (pointStep : ℕ) (big : Bool) :
    Py (List (List (Val fl))) := do
  if pointStep = 0 then .error .zeroDivisionError
  else if data.length % pointStep ≠ 0 then .error .assertionError
  else
    let nPoints := data.length / pointStep
    let format ← createPointsFormat fields nPoints pointStep
    let unpacked ← structUnpack fl big format data
    split unpacked fields.length

variable {fl}

/-- `pack_point_data` (103-106). -/
def packPointData (pointData : List (List (Val fl))) (fields : List Field) (pointStep : ℕ)
    (big : Bool) : Py (List Byte) := do
  let format ← createPointsFormat fields pointData.length pointStep
  structPack big format (flatten pointData)

/-- `find_indices` (124-125). -/
def findIndices (fields : List Field) (retained : List String) : List ℕ :=
  (List.range fields.length).filter fun i =>
    match fields[i]? with
    | some f => decide (f.name ∈ retained)
    | none => false

/-- `tuple(chunk[i] for i in indices)`. -/
def pick {α : Type} (chunk : List α) : List ℕ → Py (List α)
  | [] => .ok []
  | i :: rest =>
    match chunk[i]? with
    | none => .error .indexError
    | some a => do
      let r ← pick chunk rest
      .ok (a :: r)

def mapPy {α β : Type} (f : α → Py β) : List α → Py (List β)
  | [] => .ok []
  | a :: rest => do
    let b ← f a
    let r ← mapPy f rest
    .ok (b :: r)

/-- `filter_point_data` (128-131). -/
def filterPointData {α : Type} (tuples : List (List α)) (inputFields outputFields : List Field) :
    Py (List (List α)) :=
  let indices := findIndices inputFields (outputFields.map Field.name)
  mapPy (fun chunk => pick chunk indices) tuples

/-- `output_point_step` (134). -/
def outputPointStep : ℕ := 32

/-- `make_fields` (137-145); data type 7 is `float32`, 4 is `uint16`. -/
def makeFields : List Field :=
  [⟨"x", 0, 7, 1⟩, ⟨"y", 4, 7, 1⟩, ⟨"z", 8, 7, 1⟩, ⟨"padding", 12, 7, 1⟩, ⟨"intensity", 16, 7, 1⟩,
   ⟨"ring", 20, 4, 1⟩]

/-- `v == 0.`. -/
def Val.isZero : Val fl → Bool
  | .int z => z = 0
  | .float x => fl.isZero x

/-- `nonzero` (162-163): Python's `and` stops at the first component that is not zero. -/
def nonzero (c : List (Val fl)) : Py Bool :=
  match c[0]? with
  | none => .error .indexError
  | some a =>
    if !a.isZero then .ok true
    else match c[1]? with
      | none => .error .indexError
      | some b =>
        if !b.isZero then .ok true
        else match c[2]? with
          | none => .error .indexError
          | some d => .ok (!d.isZero)

/-- `tuple(c for c in unpacked if nonzero(c))` (192). -/
def keepNonzero : List (List (Val fl)) → Py (List (List (Val fl)))
  | [] => .ok []
  | c :: rest => do
    let k ← nonzero c
    let r ← keepNonzero rest
    .ok (if k then c :: r else r)

/-- `PointCloud2` without its header's contents (`H`). -/
structure PointCloud2 (H : Type) where
  header : H
  height : ℕ
  width : ℕ
  fields : List Field
  isBigendian : Bool
  pointStep : ℕ
  rowStep : ℕ
  data : List Byte
  isDense : Bool

/-- The list of input fields with the padding field, sorted by offset (184-186). Python's `sorted` is
stable, and so is insertion sort. -/
def sortedFields (fields : List Field) : List Field :=
  List.insertionSort (fun f g : Field => f.offset ≤ g.offset) (fields ++ [⟨"padding", 12, 7, 1⟩])

variable (fl)

/-- `callback` (183-212): the cloud published. -/
def callback {H : Type} (input : PointCloud2 H) : Py (PointCloud2 H) := do
  let inputFields := sortedFields input.fields
  let unpacked ← unpackPointBytes fl input.data inputFields input.pointStep input.isBigendian
  let outputFields := makeFields
  let unpacked ← keepNonzero unpacked
  let filtered ← filterPointData unpacked inputFields outputFields
  let data ← packPointData filtered outputFields outputPointStep false
  .ok
    { header := input.header
      height := 1
      width := filtered.length
      fields := outputFields
      isBigendian := false
      pointStep := outputPointStep
      rowStep := outputPointStep * filtered.length
      data := data
      isDense := true }

end Verif.Convert
