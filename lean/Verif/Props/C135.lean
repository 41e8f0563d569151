/-
C135 What is read from a cloud message is what was sent.
-/
import Verif.Lemmas.Pcl
import Verif.Props.C61

set_option autoImplicit false

namespace Verif.Pcl

open Verif Verif.Convert

variable {H : Type}

/-! ### Specification -/

/-- The bytes of a field of a point. -/
def Registered.of (r : Registered) (point : List Byte) : List Byte := (point.drop r.offset).take r.size

/-- The message has the field, with its name, type and number of elements (0 counts as 1). -/
def Sent (fields : List Field) (r : Registered) (f : Field) : Prop :=
  f ∈ fields ∧ f.name = r.name ∧ f.datatype = r.datatype ∧ (f.count = 1 ∨ f.count = 0)

/-- The bytes the message has for a field in a row and a column. -/
def sentBytes (msg : PointCloud2 H) (row col offset size : ℕ) : List Byte :=
  (msg.data.drop (row * msg.rowStep + col * msg.pointStep + offset)).take size

/-- A point type with its fields by increasing offset, without overlap. -/
structure PointType.Proper (T : PointType) : Prop where
  apart : T.fields.Pairwise fun a b => a.offset + a.size ≤ b.offset
  positive : ∀ r ∈ T.fields, 0 < r.size
  fits : ∀ r ∈ T.fields, r.offset + r.size ≤ T.size
  default : T.default.length = T.size
  names : (T.fields.map Registered.name).Nodup

/-- A message whose data is as long as it says, without two fields of the same name, with the fields
the reader looks for in the order of the point type, without overlap. Fields the reader does not look
for can be anywhere. -/
structure Regular (T : PointType) (msg : PointCloud2 H) : Prop where
  names : (msg.fields.map Field.name).Nodup
  order : ∀ r ∈ T.fields, ∀ s ∈ T.fields, r.offset < s.offset → ∀ f g, Sent msg.fields r f →
    Sent msg.fields s g → f.offset + r.size ≤ g.offset
  fits : ∀ r ∈ T.fields, ∀ f, Sent msg.fields r f → f.offset + r.size ≤ msg.pointStep
  data : 0 < msg.height → 0 < msg.width →
    (msg.height - 1) * msg.rowStep + msg.width * msg.pointStep ≤ msg.data.length

/-! ### Reading -/

theorem find_of_sent {fields : List Field} (hn : (fields.map Field.name).Nodup) {r : Registered}
    {f : Field} (h : Sent fields r f) : fields.find? (fieldMatches r) = some f := by
  obtain ⟨hm, h1, h2, h3⟩ := h
  have hf : fieldMatches r f = true := by
    rcases h3 with h3 | h3 <;> simp [fieldMatches, h1, h2, h3]
  induction fields with
  | nil => simp at hm
  | cons g l ih =>
    rw [List.map_cons, List.nodup_cons] at hn
    rcases List.mem_cons.1 hm with rfl | hm
    · rw [List.find?_cons, hf]
    · have hg : fieldMatches r g = false := by
        have : g.name ≠ f.name := fun he => hn.1 (he ▸ List.mem_map_of_mem hm)
        simp [fieldMatches, ← h1, this]
      rw [List.find?_cons, hg]
      exact ih hn.2 hm

theorem sent_of_find {fields : List Field} {r : Registered} {f : Field}
    (h : fields.find? (fieldMatches r) = some f) : Sent fields r f := by
  have hf := List.find?_some h
  simp only [fieldMatches, Bool.and_eq_true, Bool.or_eq_true, decide_eq_true_eq] at hf
  exact ⟨List.mem_of_find?_eq_some h, hf.1.1, hf.1.2, hf.2⟩

theorem mem_mapped {T : PointType} {fields : List Field} {m : Mapping}
    (h : m ∈ T.fields.filterMap (mapField fields)) :
    ∃ r ∈ T.fields, ∃ f, Sent fields r f ∧ m = ⟨f.offset, r.offset, r.size⟩ := by
  obtain ⟨r, hr, hm⟩ := List.mem_filterMap.1 h
  obtain ⟨f, hf, rfl⟩ := Option.map_eq_some_iff.1 hm
  exact ⟨r, hr, f, sent_of_find hf, rfl⟩

theorem mapped_apart {T : PointType} (hT : T.Proper) {msg : PointCloud2 H} (R : Regular T msg) :
    (T.fields.filterMap (mapField msg.fields)).Pairwise fun a b =>
      a.serialized + a.size ≤ b.serialized ∧ a.struct + a.size ≤ b.struct := by
  have h := hT.apart
  have hR : T.fields.Pairwise fun r s => ∀ f g, Sent msg.fields r f → Sent msg.fields s g →
      f.offset + r.size ≤ g.offset ∧ r.offset + r.size ≤ s.offset := by
    refine List.Pairwise.imp_of_mem ?_ h
    intro r s hr hs hrs f g hf hg
    have := hT.positive r hr
    exact ⟨R.order r hr s hs (by omega) f g hf hg, hrs⟩
  refine List.Pairwise.filterMap (mapField msg.fields) ?_ hR
  intro r s hrs m hm m' hm'
  obtain ⟨f, hf, rfl⟩ := Option.map_eq_some_iff.1 hm
  obtain ⟨g, hg, rfl⟩ := Option.map_eq_some_iff.1 hm'
  exact hrs f g (sent_of_find hf) (sent_of_find hg)

/-- What is copied: chunks in the order of the `struct`, without overlap, that contain the fields sent
and lie between fields sent. -/
theorem mapping_spec {T : PointType} (hT : T.Proper) {msg : PointCloud2 H} (R : Regular T msg) :
    (createMapping T msg.fields).Pairwise (fun a b => a.struct + a.size ≤ b.struct) ∧
    (∀ r ∈ T.fields, ∀ f, Sent msg.fields r f →
      ∃ c ∈ createMapping T msg.fields, c.Covers ⟨f.offset, r.offset, r.size⟩) ∧
    (∀ c ∈ createMapping T msg.fields, ∃ r ∈ T.fields, ∃ f, Sent msg.fields r f ∧
      c.struct + c.size = r.offset + r.size ∧ c.serialized + c.size = f.offset + r.size) := by
  have hp := mapped_apart hT R
  have hs : List.insertionSort (fun a b : Mapping => a.serialized ≤ b.serialized)
      (T.fields.filterMap (mapField msg.fields)) = T.fields.filterMap (mapField msg.fields) :=
    List.Pairwise.insertionSort_eq (hp.imp fun h => by omega)
  unfold createMapping
  rw [hs]
  have hfind : ∀ r ∈ T.fields, ∀ f, Sent msg.fields r f →
      (⟨f.offset, r.offset, r.size⟩ : Mapping) ∈ T.fields.filterMap (mapField msg.fields) := by
    intro r hr f hf
    refine List.mem_filterMap.2 ⟨r, hr, ?_⟩
    rw [mapField, find_of_sent R.names hf, Option.map_some]
  have hmem : ∀ m ∈ T.fields.filterMap (mapField msg.fields), ∃ r ∈ T.fields, ∃ f,
      Sent msg.fields r f ∧ m = ⟨f.offset, r.offset, r.size⟩ := fun m hm => mem_mapped hm
  revert hp hfind hmem
  generalize T.fields.filterMap (mapField msg.fields) = l
  intro hp hfind hmem
  cases l with
  | nil => exact ⟨List.Pairwise.nil, fun r hr f hf => absurd (hfind r hr f hf) (by simp), by simp⟩
  | cons i rest =>
    obtain ⟨h1, h2, h3⟩ := coalesce_spec i rest hp
    refine ⟨h1, fun r hr f hf => h2 _ (hfind r hr f hf), fun c hc => ?_⟩
    obtain ⟨-, m, hm, e1, e2⟩ := h3 c hc
    obtain ⟨r, hr, f, hf, rfl⟩ := hmem m hm
    exact ⟨r, hr, f, hf, e1, e2⟩

/-- Bytes that agree one by one. -/
theorem slice_eq {a b : List Byte} {i j n : ℕ} (h : ∀ k < n, a[i + k]? = b[j + k]?) :
    (a.drop i).take n = (b.drop j).take n := by
  apply List.ext_getElem?
  intro k
  rw [List.getElem?_take, List.getElem?_take]
  by_cases hk : k < n
  · rw [if_pos hk, if_pos hk, List.getElem?_drop, List.getElem?_drop, h k hk]
  · rw [if_neg hk, if_neg hk]

theorem place_le {msg : PointCloud2 H} {row col : ℕ} (hr : row < msg.height) (hc : col < msg.width) :
    row * msg.rowStep + col * msg.pointStep + msg.pointStep ≤
      (msg.height - 1) * msg.rowStep + msg.width * msg.pointStep := by
  have h1 : row * msg.rowStep ≤ (msg.height - 1) * msg.rowStep := Nat.mul_le_mul_right _ (by omega)
  have h2 : (col + 1) * msg.pointStep ≤ msg.width * msg.pointStep := Nat.mul_le_mul_right _ (by omega)
  rw [Nat.succ_mul] at h2
  omega

theorem readPoint_spec {T : PointType} (hT : T.Proper) {msg : PointCloud2 H} (R : Regular T msg)
    {row col : ℕ} (hr : row < msg.height) (hc : col < msg.width) :
    ∃ p, readPoint T (createMapping T msg.fields) msg.data
        (row * msg.rowStep + col * msg.pointStep) = .ok p ∧ p.length = T.size ∧
      (∀ r ∈ T.fields, ∀ f, Sent msg.fields r f → r.of p = sentBytes msg row col f.offset r.size) ∧
      (∀ r ∈ T.fields, (∀ s ∈ T.fields, r.offset ≤ s.offset → ¬ ∃ f, Sent msg.fields s f) →
        r.of p = r.of T.default) := by
  obtain ⟨h1, h2, h3⟩ := mapping_spec hT R
  have hd := R.data (by omega) (by omega)
  have hpl := place_le hr hc
  obtain ⟨p, hp, hl, hcp, hrest⟩ := copies msg.data (row * msg.rowStep + col * msg.pointStep)
    (createMapping T msg.fields) T.default h1
    (fun c hcm => by
      obtain ⟨r, hr, f, hf, e1, -⟩ := h3 c hcm
      rw [e1, hT.default]
      exact hT.fits r hr)
    (fun c hcm => by
      obtain ⟨r, hr, f, hf, -, e2⟩ := h3 c hcm
      have := R.fits r hr f hf
      omega)
  refine ⟨p, hp, by rw [hl, hT.default], ?_, ?_⟩
  · intro r hr f hf
    obtain ⟨c, hcm, e1, e2, e3⟩ := h2 r hr f hf
    simp only at e1 e2 e3
    refine slice_eq fun k hk => ?_
    have := hcp c hcm (r.offset - c.struct + k) (by omega)
    have ha : c.struct + (r.offset - c.struct + k) = r.offset + k := by omega
    have hb : row * msg.rowStep + col * msg.pointStep + c.serialized + (r.offset - c.struct + k) =
        row * msg.rowStep + col * msg.pointStep + f.offset + k := by omega
    rw [ha, hb] at this
    exact this
  · intro r hr hno
    refine slice_eq fun k hk => hrest _ ?_
    rintro c hcm ⟨-, hk2⟩
    obtain ⟨s, hs, f, hf, e1, -⟩ := h3 c hcm
    refine hno s hs ?_ ⟨f, hf⟩
    by_contra hlt
    have := List.Pairwise.forall_of_forall_of_flip (R := fun a b : Registered =>
      a.offset < b.offset → a.offset + a.size ≤ b.offset) (l := T.fields)
      (fun a ha h => absurd h (lt_irrefl _))
      (hT.apart.imp (fun h _ => h : ∀ {a b : Registered}, a.offset + a.size ≤ b.offset →
        a.offset < b.offset → a.offset + a.size ≤ b.offset))
      (hT.apart.imp (fun h h' => absurd h (by omega) : ∀ {a b : Registered},
        a.offset + a.size ≤ b.offset → b.offset < a.offset → b.offset + b.size ≤ a.offset))
      hs hr (by omega)
    omega

/-- Reading a message: one point per row and column, in this order; each field that is sent has the
bytes sent, and a field after the last one that is sent has its default. -/
theorem C135_read (T : PointType) (hT : T.Proper) (msg : PointCloud2 H) (R : Regular T msg) :
    ∃ point : ℕ → ℕ → List Byte,
      getPointCloud T msg = .ok ⟨msg.isDense,
        (List.range msg.height).flatMap fun row => (List.range msg.width).map (point row)⟩ ∧
      ∀ row < msg.height, ∀ col < msg.width, (point row col).length = T.size ∧
        (∀ r ∈ T.fields, ∀ f, Sent msg.fields r f →
          r.of (point row col) = sentBytes msg row col f.offset r.size) ∧
        (∀ r ∈ T.fields, (∀ s ∈ T.fields, r.offset ≤ s.offset → ¬ ∃ f, Sent msg.fields s f) →
          r.of (point row col) = r.of T.default) := by
  classical
  refine ⟨fun row col => if h : row < msg.height ∧ col < msg.width then
    (readPoint_spec hT R h.1 h.2).choose else [], ?_, ?_⟩
  · unfold getPointCloud
    simp only
    rw [mapM_ok _ (fun row => (List.range msg.width).map fun col =>
      if h : row < msg.height ∧ col < msg.width then
        (readPoint_spec hT R h.1 h.2).choose else [])]
    · simp only [bind, Except.bind, List.flatMap]
    · intro row hrow
      refine mapM_ok _ _ _ fun col hcol => ?_
      have h : row < msg.height ∧ col < msg.width := ⟨List.mem_range.1 hrow, List.mem_range.1 hcol⟩
      rw [dif_pos h]
      exact (readPoint_spec hT R h.1 h.2).choose_spec.1
  · intro row hrow col hcol
    simp only
    rw [dif_pos ⟨hrow, hcol⟩]
    exact (readPoint_spec hT R hrow hcol).choose_spec.2

/-- The point types of the repository are as supposed. -/
theorem C135_types : pointXYZ.Proper ∧ pointXYZIR.Proper ∧ pointXYZCR.Proper := by
  refine ⟨⟨?_, ?_, ?_, ?_, ?_⟩, ⟨?_, ?_, ?_, ?_, ?_⟩, ⟨?_, ?_, ?_, ?_, ?_⟩⟩ <;> decide

/-! ### From program to program -/

/-- Two point types that agree on the size and the order of the fields they have in common. -/
structure Agree (W T : PointType) : Prop where
  size : ∀ w ∈ W.fields, ∀ r ∈ T.fields, w.name = r.name → w.datatype = r.datatype → w.size = r.size
  order : ∀ w ∈ W.fields, ∀ v ∈ W.fields, ∀ r ∈ T.fields, ∀ s ∈ T.fields, w.name = r.name →
    v.name = s.name → r.offset < s.offset → w.offset < v.offset

theorem sent_toRosMsg {W : PointType} {header : H} {cloud : Cloud} {r : Registered} {f : Field}
    (h : Sent (toRosMsg W header cloud).fields r f) :
    ∃ w ∈ W.fields, w.name = r.name ∧ w.datatype = r.datatype ∧ f = ⟨w.name, w.offset, w.datatype, 1⟩ := by
  obtain ⟨hm, h1, h2, -⟩ := h
  obtain ⟨w, hw, rfl⟩ := List.mem_map.1 hm
  exact ⟨w, hw, h1, h2, rfl⟩

theorem regular_toRosMsg {W T : PointType} (hW : W.Proper) (A : Agree W T) (header : H)
    {cloud : Cloud} (hc : ∀ p ∈ cloud.points, p.length = W.size) :
    Regular T (toRosMsg W header cloud) where
  names := by
    simpa [toRosMsg, Function.comp_def] using hW.names
  order := by
    intro r hr s hs hrs f g hf hg
    obtain ⟨w, hw, h1, h2, rfl⟩ := sent_toRosMsg hf
    obtain ⟨v, hv, h3, h4, rfl⟩ := sent_toRosMsg hg
    have := A.order w hw v hv r hr s hs h1 h3 hrs
    rw [← A.size w hw r hr h1 h2]
    exact List.Pairwise.forall_of_forall_of_flip (R := fun a b : Registered =>
      a.offset < b.offset → a.offset + a.size ≤ b.offset) (l := W.fields)
      (fun a ha h => absurd h (lt_irrefl _))
      (hW.apart.imp (fun h _ => h : ∀ {a b : Registered}, a.offset + a.size ≤ b.offset →
        a.offset < b.offset → a.offset + a.size ≤ b.offset))
      (hW.apart.imp (fun h h' => absurd h (by omega) : ∀ {a b : Registered},
        a.offset + a.size ≤ b.offset → b.offset < a.offset → b.offset + b.size ≤ a.offset))
      hw hv this
  fits := by
    intro r hr f hf
    obtain ⟨w, hw, h1, h2, rfl⟩ := sent_toRosMsg hf
    rw [← A.size w hw r hr h1 h2]
    exact hW.fits w hw
  data := by
    intro _ _
    show (1 - 1) * _ + cloud.points.length * W.size ≤ cloud.points.flatten.length
    rw [length_flatten _ hc, Nat.sub_self, Nat.zero_mul, Nat.zero_add, Nat.mul_comm]

/-- What one program sends and another reads: as many points, in the same order; the fields both point
types have are kept, and the fields of the reader after these have their default. -/
theorem C135_sent (W T : PointType) (hW : W.Proper) (hT : T.Proper) (A : Agree W T) (header : H)
    (cloud : Cloud) (hc : ∀ p ∈ cloud.points, p.length = W.size) :
    ∃ got : Cloud, getPointCloud T (toRosMsg W header cloud) = .ok got ∧ got.isDense = cloud.isDense ∧
      got.points.length = cloud.points.length ∧
      ∀ (k : ℕ) (p q : List Byte), cloud.points[k]? = some p → got.points[k]? = some q → q.length = T.size ∧
        (∀ w ∈ W.fields, ∀ r ∈ T.fields, w.name = r.name → w.datatype = r.datatype → r.of q = w.of p) ∧
        (∀ r ∈ T.fields, (∀ s ∈ T.fields, r.offset ≤ s.offset →
          ∀ w ∈ W.fields, ¬ (w.name = s.name ∧ w.datatype = s.datatype)) → r.of q = r.of T.default) := by
  obtain ⟨point, h1, h2⟩ := C135_read T hT _ (regular_toRosMsg (H := H) hW A header hc)
  refine ⟨_, h1, rfl, ?_, ?_⟩
  · simp [toRosMsg]
  · intro k p q hp hq
    have hk : k < cloud.points.length := (List.getElem?_eq_some_iff.1 hp).1
    have hq' : q = point 0 k := by
      have : (List.range (toRosMsg W header cloud).height).flatMap
          (fun row => (List.range (toRosMsg W header cloud).width).map (point row)) =
          (List.range cloud.points.length).map (point 0) := by
        simp [toRosMsg]
      simp only [this] at hq
      rw [List.getElem?_map, List.getElem?_range hk] at hq
      simpa using hq.symm
    obtain ⟨h3, h4, h5⟩ := h2 0 (show 0 < 1 by omega) k hk
    subst hq'
    refine ⟨h3, ?_, ?_⟩
    · intro w hw r hr hn hd
      rw [h4 r hr ⟨w.name, w.offset, w.datatype, 1⟩ ⟨List.mem_map.2 ⟨w, hw, rfl⟩, hn, hd, Or.inl rfl⟩]
      unfold sentBytes Registered.of
      have hz : (0 : ℕ) * (toRosMsg W header cloud).rowStep + k * (toRosMsg W header cloud).pointStep +
          w.offset = k * W.size + w.offset := by
        rw [Nat.zero_mul, Nat.zero_add]
        rfl
      rw [hz, A.size w hw r hr hn hd]
      exact drop_flatten _ hc k hp _ _ (by
        have := hW.fits w hw
        rw [A.size w hw r hr hn hd] at this
        exact this)
    · intro r hr hno
      refine h5 r hr fun s hs hrs => ?_
      rintro ⟨f, hf⟩
      obtain ⟨w, hw, e1, e2, -⟩ := sent_toRosMsg hf
      exact hno s hs hrs w hw ⟨e1, e2⟩

/-- A cloud that is sent and read with the same point type keeps all fields of all points. -/
theorem C135_round_trip (T : PointType) (hT : T.Proper) (header : H) (cloud : Cloud)
    (hc : ∀ p ∈ cloud.points, p.length = T.size) :
    ∃ got : Cloud, getPointCloud T (toRosMsg T header cloud) = .ok got ∧ got.isDense = cloud.isDense ∧
      List.Forall₂ (fun p q => ∀ r ∈ T.fields, r.of q = r.of p) cloud.points got.points := by
  have hinj : ∀ w ∈ T.fields, ∀ r ∈ T.fields, w.name = r.name → w = r := fun w hw r hr h =>
    List.inj_on_of_nodup_map hT.names hw hr h
  obtain ⟨got, h1, h2, h3, h4⟩ := C135_sent T T hT hT
    ⟨fun w hw r hr h _ => by rw [hinj w hw r hr h],
      fun w hw v hv r hr s hs h1 h2 h => by rw [hinj w hw r hr h1, hinj v hv s hs h2]; exact h⟩ header cloud hc
  refine ⟨got, h1, h2, List.forall₂_iff_get.2 ⟨h3.symm, fun k hk hk' r hr => ?_⟩⟩
  exact (h4 k _ _ (List.getElem?_eq_getElem hk) (List.getElem?_eq_getElem hk')).2.1 r hr r hr rfl rfl

theorem take_twelve (l : List Byte) :
    l.take 12 = (l.drop 0).take 4 ++ (l.drop 4).take 4 ++ (l.drop 8).take 4 := by
  have h1 : l.take 12 = l.take 8 ++ (l.drop 8).take 4 := List.take_add (i := 8) (j := 4)
  have h2 : l.take 8 = l.take 4 ++ (l.drop 4).take 4 := List.take_add (i := 4) (j := 4)
  rw [h1, h2, List.drop_zero]

theorem toPointXYZ_length {cloud : Cloud} (hc : ∀ p ∈ cloud.points, p.length = 32) :
    ∀ p ∈ (toPointXYZ cloud).points, p.length = pointXYZ.size := by
  intro p hp
  obtain ⟨q, hq, rfl⟩ := List.mem_map.1 hp
  rw [length_memcpy]
  · rfl
  · rw [List.length_take, hc q hq]
    decide

theorem agree_features {T : PointType} (h : T = pointXYZ ∨ T = pointXYZCR) : Agree pointXYZ T := by
  rcases h with rfl | rfl <;> exact ⟨by decide, by decide⟩

/-- The features the extraction found, read by the localizer (`PointXYZ`) and by the map builder
(`PointXYZCR`): the coordinates, which are the first twelve bytes, of every point arrive. -/
theorem C135_features (header : H) (cloud : Cloud) (hc : ∀ p ∈ cloud.points, p.length = 32)
    (T : PointType) (h : T = pointXYZ ∨ T = pointXYZCR) :
    ∃ got : Cloud, getPointCloud T (toRosMsg pointXYZ header (toPointXYZ cloud)) = .ok got ∧
      got.isDense = cloud.isDense ∧
      List.Forall₂ (fun p q => q.take 12 = p.take 12) cloud.points got.points := by
  have hT : T.Proper := by
    rcases h with rfl | rfl
    · exact C135_types.1
    · exact C135_types.2.2
  obtain ⟨got, h1, h2, h3, h4⟩ := C135_sent pointXYZ T C135_types.1 hT (agree_features h) header
    (toPointXYZ cloud) (toPointXYZ_length hc)
  have hlen : (toPointXYZ cloud).points.length = cloud.points.length := by simp [toPointXYZ]
  refine ⟨got, h1, h2, List.forall₂_iff_get.2 ⟨by rw [h3, hlen], fun k hk hk' => ?_⟩⟩
  have hp : (toPointXYZ cloud).points[k]? =
      some (memcpy pointXYZ.default 0 ((cloud.points[k]).take 12)) := by
    simp [toPointXYZ, hk]
  have h5 := (h4 k _ _ hp (List.getElem?_eq_getElem hk')).2.1
  have hx : (⟨"x", 0, 7, 4⟩ : Registered) ∈ T.fields ∧ (⟨"y", 4, 7, 4⟩ : Registered) ∈ T.fields ∧
      (⟨"z", 8, 7, 4⟩ : Registered) ∈ T.fields := by
    rcases h with rfl | rfl <;> decide
  have e1 := h5 ⟨"x", 0, 7, 4⟩ (by decide) _ hx.1 rfl rfl
  have e2 := h5 ⟨"y", 4, 7, 4⟩ (by decide) _ hx.2.1 rfl rfl
  have e3 := h5 ⟨"z", 8, 7, 4⟩ (by decide) _ hx.2.2 rfl rfl
  simp only [Registered.of] at e1 e2 e3
  have hm : (memcpy pointXYZ.default 0 ((cloud.points[k]).take 12)).take 12 = (cloud.points[k]).take 12 := by
    unfold memcpy
    rw [List.take_zero, List.nil_append, List.take_append_of_le_length
      (by rw [List.length_take, hc _ (List.getElem_mem hk)]; decide), List.take_take]
    rfl
  show (got.points[k]).take 12 = (cloud.points[k]).take 12
  rw [← hm, take_twelve, e1, e2, e3, ← take_twelve]

/-- Violated: the points of the map have a curvature and a ring, but whatever the extraction found, both
are 0 for every point the map builder reads, as the extraction does not send them. -/
theorem C135_curvature_violated (header : H) (cloud : Cloud) (hc : ∀ p ∈ cloud.points, p.length = 32) :
    ∃ got : Cloud, getPointCloud pointXYZCR (toRosMsg pointXYZ header (toPointXYZ cloud)) = .ok got ∧
      got.points.length = cloud.points.length ∧
      ∀ q ∈ got.points, (⟨"curvature", 16, 7, 4⟩ : Registered).of q = [0, 0, 0, 0] ∧
        (⟨"ring", 20, 4, 2⟩ : Registered).of q = [0, 0] := by
  obtain ⟨got, h1, h2, h3, h4⟩ := C135_sent pointXYZ pointXYZCR C135_types.1 C135_types.2.2
    (agree_features (Or.inr rfl)) header (toPointXYZ cloud) (toPointXYZ_length hc)
  have hlen : (toPointXYZ cloud).points.length = cloud.points.length := by simp [toPointXYZ]
  refine ⟨got, h1, by rw [h3, hlen], fun q hq => ?_⟩
  obtain ⟨k, hk, rfl⟩ := List.getElem_of_mem hq
  have hk2 : k < (toPointXYZ cloud).points.length := by omega
  have h5 := (h4 k _ _ (List.getElem?_eq_getElem hk2) (List.getElem?_eq_getElem hk)).2.2
  refine ⟨?_, ?_⟩
  · rw [h5 ⟨"curvature", 16, 7, 4⟩ (by decide) (by decide)]
    decide
  · rw [h5 ⟨"ring", 20, 4, 2⟩ (by decide) (by decide)]
    decide

/-- Two features with curvatures 2 and 1 on the rings 3 and 5. -/
def features : Cloud :=
  ⟨true, [one ++ one ++ one ++ one ++ [0, 0, 0, 64] ++ [3, 0] ++ List.replicate 10 0,
    one ++ one ++ [0, 0, 0, 64] ++ one ++ one ++ [5, 0] ++ List.replicate 10 0]⟩

example : ∀ p ∈ features.points, p.length = 32 := by decide

example : (features.points.map (⟨"intensity", 16, 7, 4⟩ : Registered).of,
    features.points.map (⟨"ring", 20, 4, 2⟩ : Registered).of) =
    ([[0, 0, 0, 64], [0, 0, 128, 63]], [[3, 0], [5, 0]]) := by decide

/-! ### From the sensor -/

/-- A message that has only fields at the place they have in the point type is regular. -/
theorem regular_in_place {T : PointType} (hT : T.Proper) {msg : PointCloud2 H}
    (names : (msg.fields.map Field.name).Nodup)
    (place : ∀ f ∈ msg.fields, ∀ r ∈ T.fields, f.name = r.name → f.offset = r.offset)
    (step : msg.pointStep = T.size)
    (data : 0 < msg.height → 0 < msg.width →
      (msg.height - 1) * msg.rowStep + msg.width * msg.pointStep ≤ msg.data.length) :
    Regular T msg where
  names := names
  order := by
    intro r hr s hs hrs f g hf hg
    rw [place f hf.1 r hr hf.2.1, place g hg.1 s hs hg.2.1]
    exact List.Pairwise.forall_of_forall_of_flip (R := fun a b : Registered =>
      a.offset < b.offset → a.offset + a.size ≤ b.offset) (l := T.fields)
      (fun a ha h => absurd h (lt_irrefl _))
      (hT.apart.imp (fun h _ => h : ∀ {a b : Registered}, a.offset + a.size ≤ b.offset →
        a.offset < b.offset → a.offset + a.size ≤ b.offset))
      (hT.apart.imp (fun h h' => absurd h (by omega) : ∀ {a b : Registered},
        a.offset + a.size ≤ b.offset → b.offset < a.offset → b.offset + b.size ≤ a.offset))
      hr hs hrs
  fits := by
    intro r hr f hf
    rw [place f hf.1 r hr hf.2.1, step]
    exact hT.fits r hr
  data := data

/-- What the extraction reads from the converted cloud: coordinates, intensity and ring of exactly the
points of the sensor's cloud that are not all zero, in their order, whatever the byte order of the
sensor's cloud is. The clouds are those the converter accepts, see C62. -/
theorem C135_converted_partial (fl : Floats)
    (hlaw : ∀ b, (fl.enc32 (fl.dec32 b)).map fl.dec32 = some (fl.dec32 b))
    (input : PointCloud2 H) (n : ℕ) (hdata : input.data.length = n * input.pointStep)
    {ds : List DataType} {fx fy fz fi fr : Field} {dr : DataType}
    (A : Accepted input.fields input.pointStep ds fx fy fz fi fr dr) :
    let kept := (List.range n).filter (IsKept fl input fx fy fz)
    let inVal := fun i f d => fieldValue fl input.isBigendian input.data input.pointStep i f d
    ∃ out got, callback fl input = .ok out ∧ out.header = input.header ∧
      getPointCloud pointXYZIR out = .ok got ∧
      got.isDense = true ∧ ringIsAvailable out.fields = true ∧
      List.Forall₂ (fun i q => q.length = pointXYZIR.size ∧
        decode fl false .float32 ((⟨"x", 0, 7, 4⟩ : Registered).of q) = inVal i fx .float32 ∧
        decode fl false .float32 ((⟨"y", 4, 7, 4⟩ : Registered).of q) = inVal i fy .float32 ∧
        decode fl false .float32 ((⟨"z", 8, 7, 4⟩ : Registered).of q) = inVal i fz .float32 ∧
        decode fl false .float32 ((⟨"intensity", 16, 7, 4⟩ : Registered).of q) = inVal i fi .float32 ∧
        decode fl false .uint16 ((⟨"ring", 20, 4, 2⟩ : Registered).of q) = inVal i fr dr)
        kept got.points := by
  intro kept inVal
  obtain ⟨out, h1, hhead, hh, hw, hs, hrs, -, hdense, hl, hf, hv⟩ := C62_converted_partial fl hlaw input n hdata A
  have hfields : out.fields = makeFields := by
    have hinj : Function.Injective fun f : Field => (f.name, f.offset, f.datatype, f.count) := by
      rintro ⟨a, b, c, d⟩ ⟨a', b', c', d'⟩ h
      simp only [Prod.mk.injEq] at h
      obtain ⟨rfl, rfl, rfl, rfl⟩ := h
      rfl
    exact List.map_injective_iff.2 hinj hf
  have hR : Regular pointXYZIR out := by
    refine regular_in_place C135_types.2.1 (by rw [hfields]; decide) (by rw [hfields]; decide) hs ?_
    intro _ _
    rw [hh, hl, hs, Nat.sub_self, Nat.zero_mul, Nat.zero_add, Nat.mul_comm]
  obtain ⟨point, h2, h3⟩ := C135_read pointXYZIR C135_types.2.1 out hR
  have hpts : (List.range out.height).flatMap (fun row => (List.range out.width).map (point row)) =
      (List.range kept.length).map (point 0) := by
    rw [hh, hw]
    simp [kept]
  rw [hpts] at h2
  refine ⟨out, _, h1, hhead, h2, hdense, by rw [hfields]; decide, ?_⟩
  refine List.forall₂_iff_get.2 ⟨by simp, fun k hk hk' => ?_⟩
  have hkw : k < out.width := by rw [hw]; exact hk
  have hq : ((List.range kept.length).map (point 0)).get ⟨k, hk'⟩ = point 0 k := by simp
  rw [hq]
  obtain ⟨hsize, h4, -⟩ := h3 0 (by omega) k hkw
  have hb : ∀ off size, sentBytes out 0 k off size = bytesAt out.data 32 k off size := by
    intro off size
    simp [sentBytes, bytesAt, hs]
  obtain ⟨v1, v2, v3, v4, v5⟩ := hv k _ (List.getElem?_eq_getElem hk)
  have g1 := h4 ⟨"x", 0, 7, 4⟩ (by decide) ⟨"x", 0, 7, 1⟩
    ⟨by rw [hfields]; decide, rfl, rfl, Or.inl rfl⟩
  have g2 := h4 ⟨"y", 4, 7, 4⟩ (by decide) ⟨"y", 4, 7, 1⟩
    ⟨by rw [hfields]; decide, rfl, rfl, Or.inl rfl⟩
  have g3 := h4 ⟨"z", 8, 7, 4⟩ (by decide) ⟨"z", 8, 7, 1⟩
    ⟨by rw [hfields]; decide, rfl, rfl, Or.inl rfl⟩
  have g4 := h4 ⟨"intensity", 16, 7, 4⟩ (by decide) ⟨"intensity", 16, 7, 1⟩
    ⟨by rw [hfields]; decide, rfl, rfl, Or.inl rfl⟩
  have g5 := h4 ⟨"ring", 20, 4, 2⟩ (by decide) ⟨"ring", 20, 4, 1⟩
    ⟨by rw [hfields]; decide, rfl, rfl, Or.inl rfl⟩
  rw [hb] at g1 g2 g3 g4 g5
  rw [g1, g2, g3, g4, g5]
  exact ⟨hsize, v1, v2, v3, v4, v5⟩

example : Accepted aligned 32 [.float32, .float32, .float32, .float32, .float32, .uint16, .float32]
    ⟨"x", 0, 7, 1⟩ ⟨"y", 4, 7, 1⟩ ⟨"z", 8, 7, 1⟩ ⟨"intensity", 16, 7, 1⟩ ⟨"ring", 20, 4, 1⟩ .uint16 :=
  aligned_accepted

/-- Violated: a ring field of another type than 16 bit passes the test for a ring field, but is not
read; all points are then on ring 0. -/
theorem C135_ring_type_violated (msg : PointCloud2 H) (R : Regular pointXYZIR msg) (f : Field)
    (hf : f ∈ msg.fields) (hn : f.name = "ring") (ht : f.datatype ≠ 4) :
    ringIsAvailable msg.fields = true ∧ ∃ got, getPointCloud pointXYZIR msg = .ok got ∧
      ∀ q ∈ got.points, (⟨"ring", 20, 4, 2⟩ : Registered).of q = [0, 0] := by
  refine ⟨List.any_eq_true.2 ⟨f, hf, by simp [hn]⟩, ?_⟩
  obtain ⟨point, h1, h2⟩ := C135_read pointXYZIR C135_types.2.1 msg R
  refine ⟨_, h1, fun q hq => ?_⟩
  simp only [List.mem_flatMap, List.mem_map, List.mem_range] at hq
  obtain ⟨row, hrow, col, hcol, rfl⟩ := hq
  rw [(h2 row hrow col hcol).2.2 ⟨"ring", 20, 4, 2⟩ (by decide) ?_]
  · decide
  · intro s hs hle
    have : s = ⟨"ring", 20, 4, 2⟩ := by
      revert hle
      revert s
      decide
    subst this
    rintro ⟨g, hg, hgn, hgt, -⟩
    have : g = f := List.inj_on_of_nodup_map R.names hg hf (by rw [hgn, hn])
    subst this
    exact ht hgt

/-- A cloud with rings of one byte, as some drivers send: a point on ring 3 and one on ring 5. -/
def byteRings : PointCloud2 Unit where
  header := ()
  height := 1
  width := 2
  fields := [⟨"x", 0, 7, 1⟩, ⟨"y", 4, 7, 1⟩, ⟨"z", 8, 7, 1⟩, ⟨"intensity", 16, 7, 1⟩, ⟨"ring", 20, 2, 1⟩]
  isBigendian := false
  pointStep := 32
  rowStep := 64
  data := one ++ one ++ one ++ one ++ one ++ [3] ++ List.replicate 11 0 ++
    one ++ one ++ one ++ one ++ one ++ [5] ++ List.replicate 11 0
  isDense := true

example : Regular pointXYZIR byteRings :=
  regular_in_place C135_types.2.1 (by decide) (by decide) rfl (by decide)

/-- Violated: the byte order of a message is not looked at. The x coordinate sent is 1, the one read is
another number. -/
theorem C135_byte_order_violated : ∃ msg : PointCloud2 Unit, Regular pointXYZ msg ∧
    msg.isBigendian = true ∧
    decode bits msg.isBigendian .float32 (sentBytes msg 0 0 0 4) = .float 0x3f800000#32 ∧
    ∃ q, getPointCloud pointXYZ msg = .ok ⟨true, [q]⟩ ∧
      decode bits false .float32 ((⟨"x", 0, 7, 4⟩ : Registered).of q) = .float 0x0000803f#32 := by
  refine ⟨⟨(), 1, 1, [⟨"x", 0, 7, 1⟩, ⟨"y", 4, 7, 1⟩, ⟨"z", 8, 7, 1⟩], true, 16, 16,
    [63, 128, 0, 0, 0, 0, 0, 0, 0, 0, 0, 0, 0, 0, 0, 0], true⟩,
    regular_in_place C135_types.1 (by decide) (by decide) rfl (by decide), rfl, by rfl,
    [63, 128, 0, 0, 0, 0, 0, 0, 0, 0, 0, 0, 0, 0, 128, 63], by rfl, by rfl⟩

/-- Violated: a field that is not sent does not always have its default. Between two fields at the same
distance as in the point type everything is copied: here the two bytes of another field become part of
the intensity. -/
theorem C135_between_violated : ∃ msg : PointCloud2 Unit, Regular pointXYZIR msg ∧
    (∀ f, ¬ Sent msg.fields ⟨"intensity", 16, 7, 4⟩ f) ∧
    ∃ q, getPointCloud pointXYZIR msg = .ok ⟨true, [q]⟩ ∧
      (⟨"intensity", 16, 7, 4⟩ : Registered).of q = [7, 9, 0, 0] ∧
      (⟨"intensity", 16, 7, 4⟩ : Registered).of pointXYZIR.default = [0, 0, 0, 0] := by
  refine ⟨⟨(), 1, 1, [⟨"x", 0, 7, 1⟩, ⟨"y", 4, 7, 1⟩, ⟨"z", 8, 7, 1⟩, ⟨"noise", 16, 4, 1⟩,
    ⟨"ring", 20, 4, 1⟩], false, 32, 32,
    one ++ one ++ one ++ one ++ [7, 9, 0, 0] ++ [3, 0] ++ List.replicate 10 0, true⟩,
    regular_in_place C135_types.2.1 (by decide) (by decide) rfl (by decide), ?_,
    one ++ one ++ one ++ one ++ [7, 9, 0, 0] ++ [3, 0] ++ List.replicate 10 0, by rfl, by decide, by decide⟩
  rintro f ⟨hf, hn, -⟩
  revert hn
  revert f
  decide

/-- Violated: the sizes of a message are not compared with its data. One with less data than it says is
read beyond its end. -/
theorem C135_short_violated : ∃ msg : PointCloud2 Unit,
    msg.data.length < msg.width * msg.pointStep ∧
    getPointCloud pointXYZIR msg = .error .undefinedBehaviour := by
  refine ⟨{ byteRings with data := one ++ one ++ one }, by decide, by rfl⟩

end Verif.Pcl
