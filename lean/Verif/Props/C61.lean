/-
C61 Point conversion round-trips.
C62 The converter publishes every valid point once, in order.
-/
import Mathlib.Data.List.Forall2
import Mathlib.Data.List.Flatten
import Mathlib.Tactic.Linarith
import Mathlib.Tactic.Ring
import Mathlib.Algebra.Order.Ring.Nat
import Mathlib.Algebra.Order.Ring.Int
import Verif.Model.Convert

set_option autoImplicit false

namespace Verif.Convert

variable {fl : Floats}

/-! ### Specifications -/

/-- The number of a data type in `sensor_msgs/PointField`. -/
def rosType : DataType → ℕ
  | .int8 => 1 | .uint8 => 2 | .int16 => 3 | .uint16 => 4 | .int32 => 5 | .uint32 => 6
  | .float32 => 7 | .float64 => 8

/-- `ds` are the types of `fields`. -/
def HasTypes (fields : List Field) (ds : List DataType) : Prop :=
  List.Forall₂ (fun f d => f.datatype = rosType d) fields ds

/-- A field list with increasing, non-overlapping fields that fit into `step` bytes. -/
structure Layout (fields : List Field) (ds : List DataType) (step : ℕ) : Prop where
  types : HasTypes fields ds
  ne : fields ≠ []
  apart : (fields.zip ds).Pairwise fun a b => a.1.offset + a.2.size ≤ b.1.offset
  fits : ∀ a ∈ fields.zip ds, a.1.offset + a.2.size ≤ step

/-- The values a data type can hold. -/
def Representable : DataType → Val fl → Prop
  | .int8, v => ∃ z, v = .int z ∧ -128 ≤ z ∧ z ≤ 127
  | .uint8, v => ∃ z, v = .int z ∧ 0 ≤ z ∧ z ≤ 255
  | .int16, v => ∃ z, v = .int z ∧ -32768 ≤ z ∧ z ≤ 32767
  | .uint16, v => ∃ z, v = .int z ∧ 0 ≤ z ∧ z ≤ 65535
  | .int32, v => ∃ z, v = .int z ∧ -2147483648 ≤ z ∧ z ≤ 2147483647
  | .uint32, v => ∃ z, v = .int z ∧ 0 ≤ z ∧ z ≤ 4294967295
  | .float32, v => ∃ x b, v = .float x ∧ fl.enc32 x = some b ∧ fl.dec32 b = x
  | .float64, v => ∃ x b, v = .float x ∧ fl.enc64 x = some b ∧ fl.dec64 b = x

/-- The bytes of a field of a point. -/
def bytesAt (data : List Byte) (step i : ℕ) (offset size : ℕ) : List Byte :=
  (data.drop (i * step + offset)).take size

/-! ### Bytes -/

theorem length_leBytes (w n : ℕ) : (leBytes w n).length = w := by
  induction w generalizing n with
  | zero => rfl
  | succ w ih => simp [leBytes, ih]

theorem leNat_leBytes (w n : ℕ) : leNat (leBytes w n) = n % 256 ^ w := by
  induction w generalizing n with
  | zero => simp [leBytes, leNat, Nat.mod_one]
  | succ w ih =>
    simp only [leBytes, leNat, ih]
    rw [pow_succ', Nat.mod_mul]

theorem length_toBytes (big : Bool) (w n : ℕ) : (toBytes big w n).length = w := by
  cases big <;> simp [toBytes, length_leBytes]

theorem ofBytes_toBytes (big : Bool) (w n : ℕ) (h : n < 256 ^ w) :
    ofBytes big (toBytes big w n) = n := by
  cases big <;> simp [toBytes, ofBytes, leNat_leBytes, Nat.mod_eq_of_lt h]

theorem leNat_lt (bs : List Byte) : leNat bs < 256 ^ bs.length := by
  induction bs with
  | nil => simp [leNat]
  | cons b rest ih =>
    simp only [leNat, List.length_cons, pow_succ]
    have := b.isLt
    omega

theorem ofBytes_lt (big : Bool) (bs : List Byte) : ofBytes big bs < 256 ^ bs.length := by
  cases big
  · simpa [ofBytes] using leNat_lt bs
  · simpa [ofBytes] using leNat_lt bs.reverse

theorem encodeInt_unsigned (big : Bool) (w : ℕ) (z : ℤ) (h0 : 0 ≤ z) (h1 : z < 2 ^ (8 * w)) :
    ∃ bs, encodeInt (fl := fl) big false w (.int z) = .ok bs ∧ bs.length = w ∧
      (ofBytes big bs : ℤ) = z := by
  refine ⟨toBytes big w z.toNat, ?_, length_toBytes _ _ _, ?_⟩
  · simp [encodeInt, h0, h1]
  · have hz : (z.toNat : ℤ) = z := Int.toNat_of_nonneg h0
    rw [ofBytes_toBytes, hz]
    have h2 : ((256 ^ w : ℕ) : ℤ) = 2 ^ (8 * w) := by rw [pow_mul]; norm_num
    have : (z.toNat : ℤ) < ((256 ^ w : ℕ) : ℤ) := by rw [hz, h2]; exact h1
    exact_mod_cast this

theorem encodeInt_signed (big : Bool) (w : ℕ) (hw : 0 < w) (z : ℤ)
    (h0 : -(2 ^ (8 * w - 1) : ℤ) ≤ z) (h1 : z < 2 ^ (8 * w - 1)) :
    ∃ bs, encodeInt (fl := fl) big true w (.int z) = .ok bs ∧ bs.length = w ∧
      signed w (ofBytes big bs) = z := by
  have hM : (2 : ℤ) ^ (8 * w) = 2 * 2 ^ (8 * w - 1) := by
    rw [← pow_succ']; congr 1; omega
  have hpos : (0 : ℤ) < 2 ^ (8 * w - 1) := by positivity
  have h256 : ((256 ^ w : ℕ) : ℤ) = 2 ^ (8 * w) := by rw [pow_mul]; norm_num
  have hm0 : 0 ≤ z % 2 ^ (8 * w) := Int.emod_nonneg _ (by rw [hM]; omega)
  have hm1 : z % 2 ^ (8 * w) < 2 ^ (8 * w) := Int.emod_lt_of_pos _ (by rw [hM]; omega)
  have hn : ((z % 2 ^ (8 * w)).toNat : ℤ) = z % 2 ^ (8 * w) := Int.toNat_of_nonneg hm0
  refine ⟨toBytes big w (z % 2 ^ (8 * w)).toNat, ?_, length_toBytes _ _ _, ?_⟩
  · simp [encodeInt, h0, h1]
  · rw [ofBytes_toBytes]
    · unfold signed
      have hcast : ((z % 2 ^ (8 * w)).toNat < 2 ^ (8 * w - 1)) ↔
          z % 2 ^ (8 * w) < 2 ^ (8 * w - 1) := by
        constructor
        · intro h
          have : (((z % 2 ^ (8 * w)).toNat : ℕ) : ℤ) < ((2 ^ (8 * w - 1) : ℕ) : ℤ) := by
            exact_mod_cast h
          rw [hn] at this
          simpa using this
        · intro h
          have : (((z % 2 ^ (8 * w)).toNat : ℕ) : ℤ) < ((2 ^ (8 * w - 1) : ℕ) : ℤ) := by
            rw [hn]; simpa using h
          exact_mod_cast this
      rw [hn]
      by_cases hz : 0 ≤ z
      · have hmod : z % 2 ^ (8 * w) = z := Int.emod_eq_of_lt hz (by rw [hM]; omega)
        rw [if_pos (hcast.2 (by rw [hmod]; exact h1)), hmod]
      · have hmod : z % 2 ^ (8 * w) = z + 2 ^ (8 * w) := by
          rw [← Int.add_emod_right]
          exact Int.emod_eq_of_lt (by rw [hM]; omega) (by omega)
        rw [if_neg (fun h => by have := hcast.1 h; rw [hmod, hM] at this; omega), hmod]
        ring
    · have : ((z % 2 ^ (8 * w)).toNat : ℤ) < ((256 ^ w : ℕ) : ℤ) := by rw [hn, h256]; exact hm1
      exact_mod_cast this

theorem encode_decode (big : Bool) (d : DataType) (v : Val fl) (h : Representable d v) :
    ∃ bs, encode big d v = .ok bs ∧ bs.length = d.size ∧ decode fl big d bs = v := by
  cases d with
  | int8 =>
    obtain ⟨z, rfl, h0, h1⟩ := h
    obtain ⟨bs, e, l, dd⟩ := encodeInt_signed (fl := fl) big 1 (by omega) z (by norm_num; omega) (by norm_num; omega)
    exact ⟨bs, e, l, by simp [decode, dd]⟩
  | uint8 =>
    obtain ⟨z, rfl, h0, h1⟩ := h
    obtain ⟨bs, e, l, dd⟩ := encodeInt_unsigned (fl := fl) big 1 z h0 (by norm_num; omega)
    exact ⟨bs, e, l, by simp [decode, dd]⟩
  | int16 =>
    obtain ⟨z, rfl, h0, h1⟩ := h
    obtain ⟨bs, e, l, dd⟩ := encodeInt_signed (fl := fl) big 2 (by omega) z (by norm_num; omega) (by norm_num; omega)
    exact ⟨bs, e, l, by simp [decode, dd]⟩
  | uint16 =>
    obtain ⟨z, rfl, h0, h1⟩ := h
    obtain ⟨bs, e, l, dd⟩ := encodeInt_unsigned (fl := fl) big 2 z h0 (by norm_num; omega)
    exact ⟨bs, e, l, by simp [decode, dd]⟩
  | int32 =>
    obtain ⟨z, rfl, h0, h1⟩ := h
    obtain ⟨bs, e, l, dd⟩ := encodeInt_signed (fl := fl) big 4 (by omega) z (by norm_num; omega) (by norm_num; omega)
    exact ⟨bs, e, l, by simp [decode, dd]⟩
  | uint32 =>
    obtain ⟨z, rfl, h0, h1⟩ := h
    obtain ⟨bs, e, l, dd⟩ := encodeInt_unsigned (fl := fl) big 4 z h0 (by norm_num; omega)
    exact ⟨bs, e, l, by simp [decode, dd]⟩
  | float32 =>
    obtain ⟨x, b, rfl, he, hd⟩ := h
    refine ⟨toBytes big 4 b.toNat, by simp [encode, toFloat, bind, Except.bind, he],
      length_toBytes _ _ _, ?_⟩
    have hb : b.toNat < 256 ^ 4 := b.isLt
    simp [decode, ofBytes_toBytes _ _ _ hb, hd]
  | float64 =>
    obtain ⟨x, b, rfl, he, hd⟩ := h
    refine ⟨toBytes big 8 b.toNat, by simp [encode, toFloat, bind, Except.bind, he],
      length_toBytes _ _ _, ?_⟩
    have hb : b.toNat < 256 ^ 8 := b.isLt
    simp [decode, ofBytes_toBytes _ _ _ hb, hd]

/-! ### Formats -/

/-- The types of the items of a format. -/
def items : List Tok → List DataType
  | [] => []
  | .pad :: rest => items rest
  | .fld d :: rest => d :: items rest

theorem items_append (a b : List Tok) : items (a ++ b) = items a ++ items b := by
  induction a with
  | nil => rfl
  | cons t rest ih => cases t <;> simp [items, ih]

theorem items_pads (n : ℕ) : items (List.replicate n Tok.pad) = [] := by
  induction n with
  | zero => rfl
  | succ n ih => simp [List.replicate_succ, items, ih]

theorem nItems_eq (toks : List Tok) : nItems toks = (items toks).length := by
  induction toks with
  | nil => rfl
  | cons t rest ih => cases t <;> simp_all [nItems, items]

theorem calcsize_append (a b : List Tok) : calcsize (a ++ b) = calcsize a + calcsize b := by
  simp [calcsize]

theorem calcsize_pads (n : ℕ) : calcsize (List.replicate n Tok.pad) = n := by
  simp [calcsize, Tok.size]

theorem unpackToks_append (big : Bool) (a b : List Tok) (bs : List Byte) :
    unpackToks fl big (a ++ b) bs =
      unpackToks fl big a bs ++ unpackToks fl big b (bs.drop (calcsize a)) := by
  induction a generalizing bs with
  | nil => simp [unpackToks, calcsize]
  | cons t rest ih =>
    cases t with
    | pad =>
      simp only [List.cons_append, unpackToks, ih, List.drop_drop, calcsize, List.map_cons,
        List.sum_cons, Tok.size]
    | fld d =>
      simp only [List.cons_append, unpackToks, ih, List.drop_drop, calcsize, List.map_cons,
        List.sum_cons, Tok.size]

theorem unpackToks_pads (big : Bool) (n : ℕ) (bs : List Byte) :
    unpackToks fl big (List.replicate n Tok.pad) bs = [] := by
  induction n generalizing bs with
  | zero => rfl
  | succ n ih => simp [List.replicate_succ, unpackToks, ih]

theorem packToks_spec (big : Bool) (toks : List Tok) (vs : List (Val fl))
    (h : List.Forall₂ Representable (items toks) vs) :
    ∃ bs, packToks big toks vs = .ok bs ∧ bs.length = calcsize toks ∧
      unpackToks fl big toks bs = vs := by
  induction toks generalizing vs with
  | nil =>
    cases h
    exact ⟨[], rfl, rfl, rfl⟩
  | cons t rest ih =>
    cases t with
    | pad =>
      obtain ⟨bs, e, l, u⟩ := ih vs h
      refine ⟨0 :: bs, by simp [packToks, e, bind, Except.bind], ?_, ?_⟩
      · simp only [List.length_cons, l, calcsize, List.map_cons, List.sum_cons, Tok.size]; omega
      · simpa [unpackToks] using u
    | fld d =>
      cases h with
      | @cons _ v _ vs hv hvs =>
        obtain ⟨b, e1, l1, d1⟩ := encode_decode big d v hv
        obtain ⟨bs, e, l, u⟩ := ih vs hvs
        refine ⟨b ++ bs, by simp [packToks, e1, e, bind, Except.bind], ?_, ?_⟩
        · simp [l1, l, calcsize, Tok.size]
        · simp only [unpackToks]
          rw [List.take_left' l1, List.drop_left' l1, d1, u]

theorem getDatatype_rosType (d : DataType) : getDatatype (rosType d) = .ok d := by
  cases d <;> rfl

/-- The values of the fields of one point whose bytes start at the beginning of `bs`. -/
def readFields (big : Bool) (fields : List Field) (ds : List DataType) (bs : List Byte) :
    List (Val fl) :=
  List.zipWith (fun f d => decode fl big d ((bs.drop f.offset).take d.size)) fields ds

theorem createLoop_spec (step : ℕ) : ∀ (fields : List Field) (ds : List DataType) (idx : ℕ),
    HasTypes fields ds → (fields.zip ds).Pairwise (fun a b => a.1.offset + a.2.size ≤ b.1.offset) →
    (∀ a ∈ fields.zip ds, a.1.offset + a.2.size ≤ step ∧ idx ≤ a.1.offset) → idx ≤ step →
    ∃ toks e, createLoop idx fields = .ok (toks, e) ∧ e = idx + calcsize toks ∧ e ≤ step ∧
      items toks = ds ∧
      ∀ big bs, unpackToks fl big toks (bs.drop idx) = readFields big fields ds bs
  | [], [], idx, _, _, _, hle => ⟨[], idx, rfl, rfl, hle, rfl, fun _ _ => rfl⟩
  | [], _ :: _, _, h, _, _, _ => by cases h
  | _ :: _, [], _, h, _, _, _ => by cases h
  | f :: fields, d :: ds, idx, ht, ha, hf, hle => by
    have hd : f.datatype = rosType d := by cases ht; assumption
    have ht' : HasTypes fields ds := by cases ht; assumption
    rw [List.zip_cons_cons] at ha hf
    have ha' := List.pairwise_cons.1 ha
    have hf0 := hf (f, d) List.mem_cons_self
    simp only at hf0
    obtain ⟨toks, e, h1, h2, h3, h4, h5⟩ := createLoop_spec step fields ds (f.offset + d.size) ht'
      ha'.2 (fun a h => ⟨(hf a (List.mem_cons_of_mem _ h)).1, ha'.1 a h⟩) hf0.1
    have hidx : (if idx < f.offset then f.offset else idx) = f.offset := by
      split_ifs <;> omega
    have hpads : (if idx < f.offset then List.replicate (f.offset - idx) Tok.pad else []) =
        List.replicate (f.offset - idx) Tok.pad := by
      split_ifs
      · rfl
      · rw [show f.offset - idx = 0 by omega]; rfl
    refine ⟨List.replicate (f.offset - idx) Tok.pad ++ Tok.fld d :: toks, e, ?_, ?_, h3, ?_, ?_⟩
    · simp only [createLoop, hidx, hpads, hd, getDatatype_rosType, bind, Except.bind, h1]
    · rw [calcsize_append, calcsize_pads]
      have : calcsize (Tok.fld d :: toks) = d.size + calcsize toks := by simp [calcsize, Tok.size]
      omega
    · rw [items_append, items_pads]
      simp [items, h4]
    · intro big bs
      rw [unpackToks_append, unpackToks_pads, calcsize_pads, List.drop_drop,
        show idx + (f.offset - idx) = f.offset by omega]
      simp only [List.nil_append, unpackToks, List.drop_drop, readFields, List.zipWith_cons_cons]
      rw [h5 big bs]
      rfl

theorem DataType.size_pos (d : DataType) : 0 < d.size := by cases d <;> decide

theorem Layout.length {fields : List Field} {ds : List DataType} {step : ℕ}
    (L : Layout fields ds step) : fields.length = ds.length := L.types.length_eq

theorem Layout.step_pos {fields : List Field} {ds : List DataType} {step : ℕ}
    (L : Layout fields ds step) : 0 < step := by
  have hl := L.length
  match fields, ds, L.ne, hl, L.fits with
  | f :: fs, d :: ds, _, _, hf =>
    have := hf (f, d) (by simp)
    have := d.size_pos
    simp only at *
    omega
  | f :: fs, [], _, hl, _ => simp at hl
  | [], _, hne, _, _ => exact absurd rfl hne

theorem createPointFormat_spec (fl : Floats) {fields : List Field} {ds : List DataType} {step : ℕ}
    (L : Layout fields ds step) :
    ∃ toks, createPointFormat fields step = .ok toks ∧ calcsize toks = step ∧ items toks = ds ∧
      ∀ big bs, unpackToks fl big toks bs = readFields big fields ds bs := by
  obtain ⟨toks, e, h1, h2, h3, h4, h5⟩ := createLoop_spec (fl := fl) step fields ds 0 L.types
    L.apart (fun a h => ⟨L.fits a h, Nat.zero_le _⟩) (Nat.zero_le _)
  refine ⟨toks ++ List.replicate (step - e) Tok.pad, ?_, ?_, ?_, ?_⟩
  · simp only [createPointFormat, h1, bind, Except.bind]
    split_ifs with hlt
    · rfl
    · rw [show step - e = 0 by omega]; simp
  · rw [calcsize_append, calcsize_pads]; omega
  · rw [items_append, items_pads, h4, List.append_nil]
  · intro big bs
    rw [unpackToks_append, unpackToks_pads, List.append_nil]
    simpa using h5 big bs

theorem calcsize_replicate (n : ℕ) (toks : List Tok) :
    calcsize (List.replicate n toks).flatten = n * calcsize toks := by
  induction n with
  | zero => simp [calcsize]
  | succ n ih =>
    rw [List.replicate_succ, List.flatten_cons, calcsize_append, ih]; ring

theorem unpackToks_replicate (big : Bool) (n : ℕ) (toks : List Tok) (bs : List Byte) :
    unpackToks fl big (List.replicate n toks).flatten bs =
      ((List.range n).map fun i => unpackToks fl big toks (bs.drop (i * calcsize toks))).flatten := by
  induction n generalizing bs with
  | zero => rfl
  | succ n ih =>
    rw [List.replicate_succ, List.flatten_cons, unpackToks_append, ih, List.range_succ_eq_map]
    simp only [List.map_cons, List.flatten_cons, Nat.zero_mul, List.drop_zero, List.map_map,
      List.drop_drop]
    congr 2
    apply List.map_congr_left
    intro i _
    simp only [Function.comp]
    congr 2
    rw [Nat.succ_mul, Nat.add_comm]

theorem items_replicate (n : ℕ) (toks : List Tok) :
    items (List.replicate n toks).flatten = (List.replicate n (items toks)).flatten := by
  induction n with
  | zero => rfl
  | succ n ih => simp [List.replicate_succ, items_append, ih]

theorem splitLoop_flatten {α : Type} (m : ℕ) (hm : 0 < m) :
    ∀ (L : List (List α)) (k : ℕ), (∀ l ∈ L, l.length = m) → L.length ≤ k →
      splitLoop m k L.flatten = L
  | [], 0, _, _ => rfl
  | [], k + 1, _, _ => rfl
  | l :: rest, 0, _, hk => by simp at hk
  | l :: rest, k + 1, hl, hk => by
    have hlm := hl l List.mem_cons_self
    obtain ⟨a, l', rfl⟩ : ∃ a l', l = a :: l' := by
      cases l with
      | nil => simp at hlm; omega
      | cons a l' => exact ⟨a, l', rfl⟩
    have := splitLoop_flatten m hm rest k (fun x hx => hl x (List.mem_cons_of_mem _ hx))
      (by simpa using hk)
    rw [List.flatten_cons, List.cons_append, splitLoop, ← List.cons_append, List.take_left' hlm,
      List.drop_left' hlm, this]

theorem split_flatten {α : Type} (m : ℕ) (hm : 0 < m) (L : List (List α))
    (hl : ∀ l ∈ L, l.length = m) : split L.flatten m = .ok L := by
  unfold split
  rw [if_neg hm.ne', splitLoop_flatten m hm L _ hl]
  have : L.flatten.length = L.length * m := by
    rw [List.length_flatten, List.map_congr_left hl]
    simp
  rw [this]
  exact Nat.le_mul_of_pos_right _ hm

theorem readFields_length (big : Bool) {fields : List Field} {ds : List DataType}
    (h : fields.length = ds.length) (bs : List Byte) :
    (readFields (fl := fl) big fields ds bs).length = fields.length := by
  simp [readFields, h]

/-- The values of point `i`, field by field, each read at its own offset. -/
def pointAt (fl : Floats) (big : Bool) (fields : List Field) (ds : List DataType) (step : ℕ)
    (data : List Byte) (i : ℕ) : List (Val fl) :=
  List.zipWith (fun f d => decode fl big d (bytesAt data step i f.offset d.size)) fields ds

theorem pointAt_eq (big : Bool) (fields : List Field) (ds : List DataType) (step : ℕ)
    (data : List Byte) (i : ℕ) :
    pointAt fl big fields ds step data i = readFields big fields ds (data.drop (i * step)) := by
  simp only [pointAt, readFields, bytesAt, List.drop_drop]

/-! ### C61 -/

/-- Unpacking data made of `n` points reads every field of every point at its own offset. -/
theorem C61_reads (fl : Floats) (big : Bool) {fields : List Field} {ds : List DataType} {step : ℕ}
    (L : Layout fields ds step) (n : ℕ) (data : List Byte) (hlen : data.length = n * step) :
    unpackPointBytes fl data fields step big =
      .ok ((List.range n).map (pointAt fl big fields ds step data)) := by
  obtain ⟨toks, h1, h2, h3, h4⟩ := createPointFormat_spec fl L
  have hpos := L.step_pos
  unfold unpackPointBytes
  rw [if_neg hpos.ne', if_neg (by rw [hlen]; simp)]
  simp only [hlen, Nat.mul_div_cancel _ hpos, createPointsFormat, h1, bind, Except.bind,
    structUnpack, calcsize_replicate, h2, if_true]
  rw [unpackToks_replicate, split_flatten]
  · congr 1
    apply List.map_congr_left
    intro i _
    rw [h4, pointAt_eq, h2]
  · exact List.length_pos_iff.2 L.ne
  · intro l hl
    obtain ⟨i, _, rfl⟩ := List.mem_map.1 hl
    rw [h4, readFields_length _ L.length]

/-- Packing tuples of representable values and unpacking the bytes with the same layout returns the
tuples, for both byte orders, and the data has `points * point_step` bytes. -/
theorem C61_round_trip (fl : Floats) (big : Bool) {fields : List Field} {ds : List DataType}
    {step : ℕ} (L : Layout fields ds step) (points : List (List (Val fl)))
    (hrep : ∀ p ∈ points, List.Forall₂ Representable ds p) :
    ∃ data, packPointData points fields step big = .ok data ∧
      data.length = points.length * step ∧
      unpackPointBytes fl data fields step big = .ok points := by
  obtain ⟨toks, h1, h2, h3, h4⟩ := createPointFormat_spec fl L
  have hall : List.Forall₂ Representable
      (items (List.replicate points.length toks).flatten) points.flatten := by
    rw [items_replicate, h3]
    clear h1 h2 h3 h4
    induction points with
    | nil => exact .nil
    | cons p rest ih =>
      simp only [List.length_cons, List.replicate_succ, List.flatten_cons]
      exact List.rel_append (hrep p List.mem_cons_self)
        (ih fun q hq => hrep q (List.mem_cons_of_mem _ hq))
  obtain ⟨data, e, l, u⟩ := packToks_spec big _ _ hall
  have hl : data.length = points.length * step := by rw [l, calcsize_replicate, h2]
  refine ⟨data, ?_, hl, ?_⟩
  · have hi : (flatten points).length = nItems (List.replicate points.length toks).flatten := by
      rw [nItems_eq, hall.length_eq]; rfl
    simp only [packPointData, createPointsFormat, h1, bind, Except.bind, structPack]
    rw [if_pos hi]
    exact e
  · have hpos := L.step_pos
    unfold unpackPointBytes
    rw [if_neg hpos.ne', if_neg (by rw [hl]; simp)]
    have hn : data.length / step = points.length := by rw [hl, Nat.mul_div_cancel _ hpos]
    simp only [hn, createPointsFormat, h1, bind, Except.bind, structUnpack]
    rw [if_pos l]
    simp only [u]
    apply split_flatten
    · exact List.length_pos_iff.2 L.ne
    · intro p hp
      rw [← (hrep p hp).length_eq, L.length]

theorem encodeInt_ok {big isSigned : Bool} {w : ℕ} {v : Val fl} {bs : List Byte}
    (h : encodeInt big isSigned w v = .ok bs) :
    ∃ z, v = .int z ∧ (isSigned = true → -(2 ^ (8 * w - 1) : ℤ) ≤ z ∧ z < 2 ^ (8 * w - 1)) ∧
      (isSigned = false → 0 ≤ z ∧ z < 2 ^ (8 * w)) := by
  cases v with
  | float x => cases h
  | int z =>
    refine ⟨z, rfl, ?_, ?_⟩
    · intro hs
      subst hs
      simp only [encodeInt, if_true] at h
      split_ifs at h with hz
      exact hz
    · intro hs
      subst hs
      simp only [encodeInt, Bool.false_eq_true, if_false] at h
      split_ifs at h with hz
      exact hz

/-- The type of a field is one of the integer types. -/
def DataType.IsInteger (d : DataType) : Prop := d ≠ .float32 ∧ d ≠ .float64

theorem encode_ok {big : Bool} {d : DataType} {v : Val fl} {bs : List Byte}
    (h : encode big d v = .ok bs) (hd : d.IsInteger) : Representable d v := by
  cases d with
  | float32 => exact absurd rfl hd.1
  | float64 => exact absurd rfl hd.2
  | _ =>
    obtain ⟨z, rfl, h1, h2⟩ := encodeInt_ok h
    refine ⟨z, rfl, ?_⟩
    first
      | (have := h1 rfl; norm_num at this; omega)
      | (have := h2 rfl; norm_num at this; omega)

theorem packToks_ok {big : Bool} : ∀ {toks : List Tok} {vs : List (Val fl)} {bs : List Byte},
    vs.length = (items toks).length → packToks big toks vs = .ok bs →
    List.Forall₂ (fun d v => DataType.IsInteger d → Representable d v) (items toks) vs
  | [], vs, _, hl, _ => by
    have : vs = [] := List.eq_nil_of_length_eq_zero hl
    subst this
    exact .nil
  | .pad :: rest, vs, bs, hl, h => by
    simp only [packToks, bind, Except.bind] at h
    cases hr : packToks big rest vs with
    | error e => rw [hr] at h; cases h
    | ok b => exact packToks_ok (toks := rest) hl hr
  | .fld d :: rest, [], _, hl, _ => by simp [items] at hl
  | .fld d :: rest, v :: vs, bs, hl, h => by
    simp only [packToks, bind, Except.bind] at h
    cases hv : encode big d v with
    | error e => rw [hv] at h; cases h
    | ok b =>
      rw [hv] at h
      simp only at h
      cases hr : packToks big rest vs with
      | error e => rw [hr] at h; cases h
      | ok bs' => exact .cons (encode_ok hv) (packToks_ok (toks := rest) (by simpa [items] using hl) hr)

/-- Packing never cuts off: if it succeeds, every value of an integer field is an integer in the range
of the field's type. -/
theorem C61_never_wraps (fl : Floats) (big : Bool) {fields : List Field} {ds : List DataType}
    {step : ℕ} (L : Layout fields ds step) (points : List (List (Val fl)))
    (hlen : ∀ p ∈ points, p.length = ds.length) {data : List Byte}
    (h : packPointData points fields step big = .ok data) :
    ∀ p ∈ points, List.Forall₂ (fun d v => d.IsInteger → Representable d v) ds p := by
  obtain ⟨toks, h1, h2, h3, h4⟩ := createPointFormat_spec fl L
  simp only [packPointData, createPointsFormat, h1, bind, Except.bind, structPack] at h
  split_ifs at h with hl
  rw [nItems_eq] at hl
  have key := packToks_ok hl h
  rw [items_replicate, h3] at key
  clear h h1 h2 h3 h4 hl
  simp only [flatten] at key
  induction points with
  | nil => intro p hp; cases hp
  | cons q rest ih =>
    simp only [List.length_cons, List.replicate_succ, List.flatten_cons] at key
    have hq := hlen q List.mem_cons_self
    have k1 := List.forall₂_take ds.length key
    have k2 := List.forall₂_drop ds.length key
    rw [List.take_left' rfl, List.take_left' hq] at k1
    rw [List.drop_left' rfl, List.drop_left' hq] at k2
    intro p hp
    rcases List.mem_cons.1 hp with rfl | hp
    · exact k1
    · exact ih (fun p hp => hlen p (List.mem_cons_of_mem _ hp)) k2 p hp

/-- An item is read from its bytes alone, the least significant first in one byte order and last in
the other. -/
theorem C61_byte_order (fl : Floats) (d : DataType) (bs : List Byte) :
    decode fl true d bs = decode fl false d bs.reverse ∧
    (∀ a b : Byte, decode fl false .uint16 [a, b] = .int (a.val + 256 * b.val)) := by
  refine ⟨by cases d <;> simp [decode, ofBytes], ?_⟩
  intro a b
  simp [decode, ofBytes, leNat]

/-- Floats of the examples: the bit patterns themselves. -/
def bits : Floats where
  F := BitVec 32
  enc32 := some
  dec32 := id
  enc64 := fun b => some (b.zeroExtend 64)
  dec64 := fun b => b.truncate 32
  ofInt := fun z => some (BitVec.ofInt 32 z)
  isZero := fun b => b = 0 || b = 0x80000000

/-- A layout with gaps, before, between and after the fields. -/
def gaps : List Field := [⟨"a", 1, 3, 1⟩, ⟨"b", 4, 7, 1⟩, ⟨"c", 8, 2, 1⟩]

theorem gaps_layout : Layout gaps [.int16, .float32, .uint8] 11 where
  types := .cons rfl (.cons rfl (.cons rfl .nil))
  ne := by decide
  apart := by decide
  fits := by decide

example : List.Forall₂ Representable [.int16, .float32, .uint8]
    [(.int (-2) : Val bits), .float 0x3f800000#32, .int 200] :=
  .cons ⟨-2, rfl, by decide, by decide⟩ (.cons ⟨_, _, rfl, rfl, rfl⟩
    (.cons ⟨200, rfl, by decide, by decide⟩ .nil))

example : (packPointData [[(.int (-2) : Val bits), .float 0x3f800000#32, .int 200]] gaps 11
    true).toOption = some [0, 255, 254, 0, 63, 128, 0, 0, 200, 0, 0] := by decide +kernel

example : (packPointData [[(.int (-2) : Val bits), .float 0x3f800000#32, .int 256]] gaps 11
    true).toOption = none := by decide +kernel

/-! ### C62 -/

/-- The names of the fields of the converted cloud. -/
def outputNames : List String := ["x", "y", "z", "padding", "intensity", "ring"]

/-- What the converter accepts: with the padding field at byte 12 inserted, the fields, by increasing
offset, do not overlap and fit into a point, they begin with x, y, z, and intensity and ring come
after the padding. -/
structure Accepted (fields : List Field) (step : ℕ) (ds : List DataType)
    (fx fy fz fi fr : Field) (dr : DataType) : Prop where
  layout : Layout (sortedFields fields) ds step
  first : ((sortedFields fields).zip ds).take 3 = [(fx, .float32), (fy, .float32), (fz, .float32)]
  names : fx.name = "x" ∧ fy.name = "y" ∧ fz.name = "z" ∧ fi.name = "intensity" ∧ fr.name = "ring"
  ring : dr = .uint8 ∨ dr = .uint16
  retained : ((sortedFields fields).zip ds).filter (fun a => decide (a.1.name ∈ outputNames)) =
    [(fx, .float32), (fy, .float32), (fz, .float32), (⟨"padding", 12, 7, 1⟩, .float32),
      (fi, .float32), (fr, dr)]

/-- The value of a field of a point. -/
def fieldValue (fl : Floats) (big : Bool) (data : List Byte) (step i : ℕ) (f : Field)
    (d : DataType) : Val fl :=
  decode fl big d (bytesAt data step i f.offset d.size)

/-- A point is kept if one of its coordinates is not zero. -/
def IsKept {H : Type} (fl : Floats) (input : PointCloud2 H) (fx fy fz : Field) (i : ℕ) : Bool :=
  let v := fun f => fieldValue fl input.isBigendian input.data input.pointStep i f .float32
  !((v fx).isZero && (v fy).isZero && (v fz).isZero)

theorem findIndices_any (fs : List Field) (names : List String) :
    findIndices fs names =
      (List.range fs.length).filter fun i => (fs[i]?).any fun f => decide (f.name ∈ names) := by
  unfold findIndices
  apply List.filter_congr
  intro i _
  cases fs[i]? <;> rfl

theorem findIndices_cons (f : Field) (fs : List Field) (names : List String) :
    findIndices (f :: fs) names =
      (if f.name ∈ names then [0] else []) ++ (findIndices fs names).map Nat.succ := by
  rw [findIndices_any, findIndices_any, List.length_cons, List.range_succ_eq_map, List.filter_cons,
    List.filter_map]
  have h : ((fun i => ((f :: fs)[i]?).any fun f => decide (f.name ∈ names)) ∘ Nat.succ) =
      fun i => (fs[i]?).any fun f => decide (f.name ∈ names) := by
    funext i
    simp
  rw [h]
  by_cases hm : f.name ∈ names <;> simp [hm]

theorem pick_succ {α : Type} (a : α) (chunk : List α) (is : List ℕ) :
    pick (a :: chunk) (is.map Nat.succ) = pick chunk is := by
  induction is with
  | nil => rfl
  | cons i rest ih => simp only [List.map_cons, pick, Nat.succ_eq_add_one, List.getElem?_cons_succ] at *; rw [ih]

theorem pick_findIndices {α : Type} (g : Field → DataType → α) (names : List String) :
    ∀ (fs : List Field) (ds : List DataType), fs.length = ds.length →
      pick (List.zipWith g fs ds) (findIndices fs names) =
        .ok (((fs.zip ds).filter fun a => decide (a.1.name ∈ names)).map fun a => g a.1 a.2)
  | [], [], _ => rfl
  | [], _ :: _, h => by simp at h
  | _ :: _, [], h => by simp at h
  | f :: fs, d :: ds, h => by
    have ih := pick_findIndices g names fs ds (by simpa using h)
    rw [findIndices_cons, List.zipWith_cons_cons, List.zip_cons_cons, List.filter_cons]
    by_cases hm : f.name ∈ names
    · simp only [hm, if_true, List.singleton_append, pick, List.getElem?_cons_zero, pick_succ, ih,
        bind, Except.bind, decide_true, List.map_cons]
    · simp only [hm, if_false, List.nil_append, pick_succ, ih, decide_false]
      simp

theorem mapPy_ok {α β : Type} (f : α → Py β) (g : α → β) (l : List α)
    (h : ∀ a ∈ l, f a = .ok (g a)) : mapPy f l = .ok (l.map g) := by
  induction l with
  | nil => rfl
  | cons a rest ih =>
    simp only [mapPy, h a List.mem_cons_self, bind, Except.bind,
      ih fun b hb => h b (List.mem_cons_of_mem _ hb), List.map_cons]

theorem keepNonzero_map {α : Type} (g : α → List (Val fl)) (p : α → Bool) (l : List α)
    (h : ∀ a ∈ l, nonzero (g a) = .ok (p a)) :
    keepNonzero (l.map g) = .ok ((l.filter p).map g) := by
  induction l with
  | nil => rfl
  | cons a rest ih =>
    simp only [List.map_cons, keepNonzero, h a List.mem_cons_self, bind, Except.bind,
      ih fun b hb => h b (List.mem_cons_of_mem _ hb), List.filter_cons]
    cases p a <;> simp

theorem nonzero_three (a b c : Val fl) (rest : List (Val fl)) :
    nonzero (a :: b :: c :: rest) = .ok (!(a.isZero && b.isZero && c.isZero)) := by
  simp only [nonzero, List.getElem?_cons_zero, List.getElem?_cons_succ]
  cases a.isZero <;> cases b.isZero <;> simp

theorem take_zip_three {fs : List Field} {ds : List DataType} {fx fy fz : Field}
    {dx dy dz : DataType} (h : (fs.zip ds).take 3 = [(fx, dx), (fy, dy), (fz, dz)]) :
    ∃ fs' ds', fs = fx :: fy :: fz :: fs' ∧ ds = dx :: dy :: dz :: ds' := by
  rcases fs with _ | ⟨a, _ | ⟨b, _ | ⟨c, fs'⟩⟩⟩ <;>
    rcases ds with _ | ⟨a', _ | ⟨b', _ | ⟨c', ds'⟩⟩⟩ <;>
    simp only [List.zip_nil_left, List.zip_nil_right, List.zip_cons_cons, List.take_succ_cons,
      List.take_zero, List.take_nil, List.cons.injEq, Prod.mk.injEq, and_true, reduceCtorEq,
      and_false] at h
  obtain ⟨⟨rfl, rfl⟩, ⟨rfl, rfl⟩, rfl, rfl⟩ := h
  exact ⟨fs', ds', rfl, rfl⟩

theorem makeFields_layout : Layout makeFields
    [.float32, .float32, .float32, .float32, .float32, .uint16] 32 where
  types := .cons rfl (.cons rfl (.cons rfl (.cons rfl (.cons rfl (.cons rfl .nil)))))
  ne := by decide
  apart := by decide
  fits := by decide

theorem representable_float (hlaw : ∀ b, (fl.enc32 (fl.dec32 b)).map fl.dec32 = some (fl.dec32 b))
    (big : Bool) (bs : List Byte) :
    Representable .float32 (decode fl big .float32 bs) := by
  simp only [decode, Representable]
  have := hlaw (BitVec.ofNat 32 (ofBytes big bs))
  obtain ⟨b, hb, hd⟩ := Option.map_eq_some_iff.1 this
  exact ⟨_, b, rfl, hb, hd⟩

theorem representable_ring (big : Bool) (dr : DataType) (hr : dr = .uint8 ∨ dr = .uint16)
    (bs : List Byte) (hl : bs.length ≤ dr.size) :
    Representable (fl := fl) .uint16 (decode fl big dr bs) := by
  have h1 := ofBytes_lt big bs
  have h2 : (256 : ℕ) ^ bs.length ≤ 256 ^ dr.size := Nat.pow_le_pow_right (by norm_num) hl
  have h3 : (256 : ℕ) ^ dr.size ≤ 65536 := by
    rcases hr with rfl | rfl <;> norm_num [DataType.size]
  rcases hr with rfl | rfl <;>
  · simp only [decode, Representable]
    exact ⟨_, rfl, by positivity, by omega⟩

/-- For the clouds that the converter accepts, the converted cloud holds x, y, z, intensity and ring
of exactly the points that are not all zero, in input order. The full claim is for all clouds with the
required fields; see the violations below. -/
theorem C62_converted_partial {H : Type} (fl : Floats)
    (hlaw : ∀ b, (fl.enc32 (fl.dec32 b)).map fl.dec32 = some (fl.dec32 b))
    (input : PointCloud2 H) (n : ℕ) (hdata : input.data.length = n * input.pointStep)
    {ds : List DataType} {fx fy fz fi fr : Field} {dr : DataType}
    (A : Accepted input.fields input.pointStep ds fx fy fz fi fr dr) :
    let kept := (List.range n).filter (IsKept fl input fx fy fz)
    let inVal := fun i f d => fieldValue fl input.isBigendian input.data input.pointStep i f d
    ∃ out, callback fl input = .ok out ∧
      out.header = input.header ∧ out.height = 1 ∧ out.width = kept.length ∧
      out.pointStep = 32 ∧ out.rowStep = 32 * out.width ∧ out.isBigendian = false ∧ out.isDense = true ∧
      out.data.length = 32 * out.width ∧
      (out.fields.map fun f => (f.name, f.offset, f.datatype, f.count)) =
        [("x", 0, 7, 1), ("y", 4, 7, 1), ("z", 8, 7, 1), ("padding", 12, 7, 1),
          ("intensity", 16, 7, 1), ("ring", 20, 4, 1)] ∧
      ∀ k i, kept[k]? = some i →
        decode fl false .float32 (bytesAt out.data 32 k 0 4) = inVal i fx .float32 ∧
        decode fl false .float32 (bytesAt out.data 32 k 4 4) = inVal i fy .float32 ∧
        decode fl false .float32 (bytesAt out.data 32 k 8 4) = inVal i fz .float32 ∧
        decode fl false .float32 (bytesAt out.data 32 k 16 4) = inVal i fi .float32 ∧
        decode fl false .uint16 (bytesAt out.data 32 k 20 2) = inVal i fr dr := by
  intro kept inVal
  obtain ⟨fs', ds', hfs, hds⟩ := take_zip_three A.first
  have hunpack := C61_reads fl input.isBigendian A.layout n input.data hdata
  have hkeep : keepNonzero ((List.range n).map
      (pointAt fl input.isBigendian (sortedFields input.fields) ds input.pointStep input.data)) =
      .ok (kept.map
        (pointAt fl input.isBigendian (sortedFields input.fields) ds input.pointStep input.data)) := by
    apply keepNonzero_map
    intro i _
    rw [hfs, hds]
    simp only [pointAt, List.zipWith_cons_cons]
    rw [nonzero_three]
    rfl
  let row : ℕ → List (Val fl) := fun i =>
    [inVal i fx .float32, inVal i fy .float32, inVal i fz .float32,
      inVal i ⟨"padding", 12, 7, 1⟩ .float32, inVal i fi .float32, inVal i fr dr]
  have hfilter : filterPointData (kept.map
      (pointAt fl input.isBigendian (sortedFields input.fields) ds input.pointStep input.data))
      (sortedFields input.fields) makeFields = .ok (kept.map row) := by
    have hn : makeFields.map Field.name = outputNames := rfl
    simp only [filterPointData, hn]
    have : kept.map row = (kept.map (pointAt fl input.isBigendian (sortedFields input.fields) ds
        input.pointStep input.data)).map fun c =>
          match pick c (findIndices (sortedFields input.fields) outputNames) with
          | .ok r => r
          | .error _ => [] := by
      rw [List.map_map]
      apply List.map_congr_left
      intro i _
      simp only [Function.comp, pointAt]
      rw [pick_findIndices _ _ _ _ A.layout.length, A.retained]
      rfl
    rw [this]
    apply mapPy_ok
    intro c hc
    obtain ⟨i, _, rfl⟩ := List.mem_map.1 hc
    simp only [pointAt]
    rw [pick_findIndices _ _ _ _ A.layout.length]
  obtain ⟨data, hpack, hlen, hback⟩ := C61_round_trip fl false makeFields_layout (kept.map row) (by
    intro p hp
    obtain ⟨i, _, rfl⟩ := List.mem_map.1 hp
    have hF := fun f : Field => representable_float hlaw input.isBigendian
      (bytesAt input.data input.pointStep i f.offset 4)
    refine .cons (hF fx) (.cons (hF fy) (.cons (hF fz) (.cons (hF _) (.cons (hF fi) (.cons ?_ .nil)))))
    exact representable_ring _ _ A.ring _ (by simp [bytesAt]))
  rw [List.length_map] at hlen
  refine ⟨⟨input.header, 1, (kept.map row).length, makeFields, false, outputPointStep,
      outputPointStep * (kept.map row).length, data, true⟩, ?_, rfl, rfl, List.length_map .., rfl, rfl, rfl, rfl,
      ?_, rfl, ?_⟩
  · simp only [callback, hunpack, bind, Except.bind, hkeep, hfilter]
    rw [show outputPointStep = 32 from rfl, hpack]
  · simp only [hlen, List.length_map]; omega
  · intro k i hk
    have hreads := C61_reads fl false makeFields_layout kept.length data hlen
    rw [hback] at hreads
    have heq : kept.map row = _ := Except.ok.inj hreads
    have hklt : k < kept.length := (List.getElem?_eq_some_iff.1 hk).1
    have hrow : (kept.map row)[k]? = some (row i) := by rw [List.getElem?_map, hk]; rfl
    rw [heq, List.getElem?_map, List.getElem?_range hklt] at hrow
    have hr := Option.some.inj hrow
    simp only [pointAt, makeFields, List.zipWith_cons_cons, List.zipWith_nil_left, row,
      List.cons.injEq, and_true] at hr
    obtain ⟨h1, h2, h3, _, h5, h6⟩ := hr
    exact ⟨h1, h2, h3, h5, h6⟩

/-- The layout of PCL's point type with ring: four bytes between z and intensity. -/
def aligned : List Field :=
  [⟨"x", 0, 7, 1⟩, ⟨"y", 4, 7, 1⟩, ⟨"z", 8, 7, 1⟩, ⟨"intensity", 16, 7, 1⟩, ⟨"ring", 20, 4, 1⟩,
    ⟨"time", 24, 7, 1⟩]

theorem aligned_accepted : Accepted aligned 32
    [.float32, .float32, .float32, .float32, .float32, .uint16, .float32]
    ⟨"x", 0, 7, 1⟩ ⟨"y", 4, 7, 1⟩ ⟨"z", 8, 7, 1⟩ ⟨"intensity", 16, 7, 1⟩ ⟨"ring", 20, 4, 1⟩
    .uint16 where
  layout :=
    { types := by
        show HasTypes [⟨"x", 0, 7, 1⟩, ⟨"y", 4, 7, 1⟩, ⟨"z", 8, 7, 1⟩, ⟨"padding", 12, 7, 1⟩,
          ⟨"intensity", 16, 7, 1⟩, ⟨"ring", 20, 4, 1⟩, ⟨"time", 24, 7, 1⟩] _
        repeat' constructor
      ne := by decide
      apart := by decide
      fits := by decide }
  first := by decide
  names := by decide
  ring := by decide
  retained := by decide

example (b : BitVec 32) : (bits.enc32 (bits.dec32 b)).map bits.dec32 = some (bits.dec32 b) := rfl

/-- The four fields that the packed layout of Velodyne drivers has before time. -/
def packed : List Field :=
  [⟨"x", 0, 7, 1⟩, ⟨"y", 4, 7, 1⟩, ⟨"z", 8, 7, 1⟩, ⟨"intensity", 12, 7, 1⟩, ⟨"ring", 16, 4, 1⟩,
    ⟨"time", 18, 7, 1⟩]

theorem packed_layout (step : ℕ) (h : 22 ≤ step) :
    Layout packed [.float32, .float32, .float32, .float32, .uint16, .float32] step where
  types := by repeat' constructor
  ne := by decide
  apart := by decide
  fits := by
    have : ∀ a ∈ packed.zip [.float32, .float32, .float32, .float32, .uint16, .float32],
        a.1.offset + DataType.size a.2 ≤ 22 := by decide
    exact fun a ha => (this a ha).trans h

/-- Every non-empty cloud of the packed layout, which has all required fields, makes the callback
raise an exception; nothing is published. -/
theorem C62_packed_violated {H : Type} (fl : Floats) (input : PointCloud2 H) (n : ℕ) (hn : 0 < n)
    (hf : input.fields = packed) (hs : input.pointStep = 22)
    (hdata : input.data.length = n * 22) :
    Layout input.fields [.float32, .float32, .float32, .float32, .uint16, .float32]
      input.pointStep ∧
    callback fl input = .error .structError := by
  refine ⟨by rw [hf, hs]; exact packed_layout 22 le_rfl, ?_⟩
  obtain ⟨toks, ht, hc⟩ : ∃ toks, createPointFormat (sortedFields packed) 22 = .ok toks ∧
      calcsize toks = 26 := ⟨_, rfl, rfl⟩
  simp only [callback, unpackPointBytes, hf, hs, hdata, createPointsFormat, ht, bind, Except.bind,
    structUnpack, calcsize_replicate, hc]
  rw [if_neg (by omega), if_neg (by omega), Nat.mul_div_cancel _ (by omega), if_neg (by omega)]

/-- One point with ten spare bytes: x = y = z = 1, intensity 5, ring 7. -/
def spare : PointCloud2 Unit where
  header := ()
  height := 1
  width := 1
  fields := packed
  isBigendian := false
  pointStep := 32
  rowStep := 32
  data := [0, 0, 128, 63, 0, 0, 128, 63, 0, 0, 128, 63, 0, 0, 160, 64, 7, 0, 0, 0, 0, 0, 0, 0,
    0, 0, 0, 0, 0, 0, 0, 0]
  isDense := true

/-- The same fields in points of 32 bytes: no exception, but the published ring is 0 instead of 7 and
the published intensity is not the input's. -/
theorem C62_silent_violated :
    Layout spare.fields [.float32, .float32, .float32, .float32, .uint16, .float32]
      spare.pointStep ∧
    fieldValue bits false spare.data 32 0 ⟨"ring", 16, 4, 1⟩ .uint16 = .int 7 ∧
    fieldValue bits false spare.data 32 0 ⟨"intensity", 12, 7, 1⟩ .float32 =
      .float 0x40a00000#32 ∧
    ∃ out, callback bits spare = .ok out ∧ out.width = 1 ∧
      decode bits false .uint16 (bytesAt out.data 32 0 20 2) = .int 0 ∧
      decode bits false .float32 (bytesAt out.data 32 0 16 4) = .float 0x00000007#32 := by
  refine ⟨packed_layout 32 (by decide), rfl, rfl, ?_⟩
  exact ⟨_, rfl, rfl, rfl, rfl⟩

end Verif.Convert
