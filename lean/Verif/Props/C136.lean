/-
C136: from the bytes of the sensor to the bytes the localizer and the map builder read.
-/
import Verif.Model.Wire
import Verif.Props.C106
import Verif.Props.C135

set_option autoImplicit false

namespace Verif.Wire

open Verif Verif.Convert Verif.Pcl Verif.Extraction

/-! ### Specification -/

/-- Point `i` of the sensor's cloud, read in the byte order of the cloud, is `p`. -/
structure SensorPoint (input : PointCloud2 Header) (fx fy fz fr : Field) (dr : DataType) (i : ℕ)
    (p : PointXYZIR ℝ) : Prop where
  x : float32 (BitVec.ofNat 32 (ofBytes input.isBigendian
    (bytesAt input.data input.pointStep i fx.offset 4))) = some p.x
  y : float32 (BitVec.ofNat 32 (ofBytes input.isBigendian
    (bytesAt input.data input.pointStep i fy.offset 4))) = some p.y
  z : float32 (BitVec.ofNat 32 (ofBytes input.isBigendian
    (bytesAt input.data input.pointStep i fz.offset 4))) = some p.z
  ring : ((ofBytes input.isBigendian (bytesAt input.data input.pointStep i fr.offset dr.size) : ℕ) : ℤ) =
    p.ring

/-- The coordinates in a point that was read are those of `p`. -/
structure Shows (q : List Byte) (p : PointXYZIR ℝ) : Prop where
  x : coordinate q 0 = some p.x
  y : coordinate q 4 = some p.y
  z : coordinate q 8 = some p.z

/-- A program that reads the message with the given point type gets the given points. -/
def Delivers (T : PointType) (msg : PointCloud2 Header) (points : List (PointXYZIR ℝ)) : Prop :=
  ∃ got, getPointCloud T msg = .ok got ∧ List.Forall₂ Shows got.points points

/-- A viewer that reads the message gets the given points in the given colours. -/
def DeliversColored (msg : PointCloud2 Header) (points : List (PointXYZIR ℝ × RGB)) : Prop :=
  ∃ got, getPointCloud pointXYZRGB msg = .ok got ∧ List.Forall₂ (fun q p => Shows q p.1 ∧
    (q.drop 16).take 3 = [p.2.b, p.2.g, p.2.r]) got.points points

/-! ### Bytes -/

theorem shows_of_pointOf {q : List Byte} {p : PointXYZIR ℝ} (h : pointOf q = .ok p) : Shows q p := by
  unfold pointOf at h
  cases hx : coordinate q 0 with
  | none => simp [hx] at h
  | some x =>
    cases hy : coordinate q 4 with
    | none => simp [hx, hy] at h
    | some y =>
      cases hz : coordinate q 8 with
      | none => simp [hx, hy, hz] at h
      | some z =>
        simp only [hx, hy, hz] at h
        injection h with h
        subst h
        exact ⟨hx, hy, hz⟩

theorem coordinate_take {q r : List Byte} (h : q.take 12 = r.take 12) {off : ℕ} (ho : off + 4 ≤ 12) :
    coordinate q off = coordinate r off := by
  have key : ∀ l : List Byte, (l.drop off).take 4 = ((l.take 12).drop off).take 4 := by
    intro l
    rw [List.drop_take, List.take_take, Nat.min_eq_left (by omega)]
  unfold coordinate
  rw [key q, key r, h]

theorem Shows.take {q r : List Byte} {p : PointXYZIR ℝ} (h : q.take 12 = r.take 12) (hr : Shows r p) :
    Shows q p :=
  ⟨(coordinate_take h (by omega)).trans hr.x, (coordinate_take h (by omega)).trans hr.y,
    (coordinate_take h (by omega)).trans hr.z⟩

/-- A point of the input: bytes of the right number that stand for the point. -/
def Good (t : List Byte × PointXYZIR ℝ) : Prop := t.1.length = 32 ∧ pointOf t.1 = .ok t.2

theorem sendFeatures_delivers {m : CloudMsg (List Byte × PointXYZIR ℝ)} (hm : ∀ t ∈ m.points, Good t)
    {T : PointType} (hT : T = pointXYZ ∨ T = pointXYZCR) :
    Delivers T (sendFeatures m) (m.points.map Prod.snd) := by
  obtain ⟨got, h1, -, h2⟩ := C135_features (⟨m.stamp, m.frame⟩ : Header) ⟨true, m.points.map Prod.fst⟩
    (by
      intro p hp
      obtain ⟨t, ht, rfl⟩ := List.mem_map.1 hp
      exact (hm t ht).1) T hT
  refine ⟨got, h1, ?_⟩
  obtain ⟨hl, h3⟩ := List.forall₂_iff_get.1 h2
  simp only [List.length_map] at hl
  refine List.forall₂_iff_get.2 ⟨by simp [hl], fun k hk hk' => ?_⟩
  have h4 := h3 k (by simpa [hl] using hk) hk
  simp only [List.get_eq_getElem, List.getElem_map] at h4 ⊢
  exact (shows_of_pointOf (hm _ (List.getElem_mem _)).2).take h4

theorem xyzrgb_proper : pointXYZRGB.Proper := by
  refine ⟨?_, ?_, ?_, ?_, ?_⟩ <;> decide

theorem makeXYZRGB_bytes {p : List Byte} (hp : p.length = 32) (c : RGB) :
    (makeXYZRGB p c).length = 32 ∧ (makeXYZRGB p c).take 12 = p.take 12 ∧
      ((makeXYZRGB p c).drop 16).take 3 = [c.b, c.g, c.r] := by
  have hl : (p.take 12).length = 12 := by simp [hp]
  unfold makeXYZRGB
  generalize p.take 12 = u at hl
  match u, hl with
  | [a0, a1, a2, a3, a4, a5, a6, a7, a8, a9, a10, a11], _ => exact ⟨rfl, rfl, rfl⟩

theorem sendColored_delivers {m : CloudMsg ((List Byte × PointXYZIR ℝ) × RGB)}
    (hm : ∀ t ∈ m.points, Good t.1) :
    DeliversColored (sendColored m) (m.points.map fun t => (t.1.2, t.2)) := by
  have hA : Agree pointXYZRGB pointXYZRGB := ⟨by decide, by decide⟩
  obtain ⟨got, h1, -, hl, h2⟩ := C135_sent pointXYZRGB pointXYZRGB xyzrgb_proper xyzrgb_proper hA
    (⟨m.stamp, m.frame⟩ : Header) ⟨true, m.points.map fun p => makeXYZRGB p.1.1 p.2⟩
    (by
      intro p hp
      obtain ⟨t, ht, rfl⟩ := List.mem_map.1 hp
      exact (makeXYZRGB_bytes (hm t ht).1 t.2).1)
  simp only [List.length_map] at hl
  refine ⟨got, h1, List.forall₂_iff_get.2 ⟨by simp [hl], fun k hk hk' => ?_⟩⟩
  have hk2 : k < m.points.length := by omega
  obtain ⟨-, h3, -⟩ := h2 k (makeXYZRGB (m.points[k]).1.1 (m.points[k]).2) (got.points[k]) (by simp [hk2])
    (List.getElem?_eq_getElem hk)
  have e1 := h3 ⟨"x", 0, 7, 4⟩ (by decide) _ (by decide) rfl rfl
  have e2 := h3 ⟨"y", 4, 7, 4⟩ (by decide) ⟨"y", 4, 7, 4⟩ (by decide) rfl rfl
  have e3 := h3 ⟨"z", 8, 7, 4⟩ (by decide) ⟨"z", 8, 7, 4⟩ (by decide) rfl rfl
  have e4 := h3 ⟨"rgb", 16, 7, 4⟩ (by decide) ⟨"rgb", 16, 7, 4⟩ (by decide) rfl rfl
  simp only [Registered.of] at e1 e2 e3 e4
  obtain ⟨hgood, hpt⟩ := hm _ (List.getElem_mem hk2)
  obtain ⟨-, b1, b2⟩ := makeXYZRGB_bytes hgood (m.points[k]).2
  simp only [List.get_eq_getElem, List.getElem_map]
  refine ⟨(shows_of_pointOf hpt).take ?_, ?_⟩
  · rw [← b1, take_twelve, e1, e2, e3, ← take_twelve]
  · have e5 : ∀ l : List Byte, (l.drop 16).take 3 = ((l.drop 16).take 4).take 3 := by
      intro l
      rw [List.take_take]
      rfl
    rw [e5, e4, ← e5, b2]

/-! ### From the converter to the extraction -/

theorem pointOf_read {fl : Floats} (hval : ∀ a b : BitVec 32, fl.dec32 a = fl.dec32 b → float32 a = float32 b)
    {input : PointCloud2 Header} {fx fy fz fr : Field} {dr : DataType} (hdr : dr = .uint8 ∨ dr = .uint16)
    {i : ℕ} {p : PointXYZIR ℝ} (hp : SensorPoint input fx fy fz fr dr i p) {q : List Byte}
    (hx : decode fl false .float32 ((⟨"x", 0, 7, 4⟩ : Registered).of q) =
      fieldValue fl input.isBigendian input.data input.pointStep i fx .float32)
    (hy : decode fl false .float32 ((⟨"y", 4, 7, 4⟩ : Registered).of q) =
      fieldValue fl input.isBigendian input.data input.pointStep i fy .float32)
    (hz : decode fl false .float32 ((⟨"z", 8, 7, 4⟩ : Registered).of q) =
      fieldValue fl input.isBigendian input.data input.pointStep i fz .float32)
    (hr : decode fl false .uint16 ((⟨"ring", 20, 4, 2⟩ : Registered).of q) =
      fieldValue fl input.isBigendian input.data input.pointStep i fr dr) :
    pointOf q = .ok p := by
  have cx : coordinate q 0 = some p.x := by
    injection hx with hx
    exact (hval _ _ hx).trans hp.x
  have cy : coordinate q 4 = some p.y := by
    injection hy with hy
    exact (hval _ _ hy).trans hp.y
  have cz : coordinate q 8 = some p.z := by
    injection hz with hz
    exact (hval _ _ hz).trans hp.z
  have cr : ((ofBytes false ((q.drop 20).take 2) : ℕ) : ℤ) = p.ring := by
    rw [← hp.ring]
    rcases hdr with rfl | rfl
    · injection hr
    · injection hr
  simp only [pointOf, cx, cy, cz, cr]

/-- The points read, with their meaning. -/
theorem exists_good {α : Type} {R : α → List Byte → Prop} (points : α → PointXYZIR ℝ) :
    ∀ {l : List α} {qs : List (List Byte)}, List.Forall₂ R l qs →
      (∀ i ∈ l, ∀ q, R i q → Good (q, points i)) →
      ∃ g : List {t : List Byte × PointXYZIR ℝ // Good t}, g.map (fun t => t.1.1) = qs ∧
        g.map (fun t => t.1.2) = l.map points
  | _, _, .nil, _ => ⟨[], rfl, rfl⟩
  | a :: l, q :: qs, .cons h t, hg => by
    obtain ⟨g, h1, h2⟩ := exists_good points t fun i hi => hg i (List.mem_cons_of_mem _ hi)
    exact ⟨⟨(q, points a), hg a List.mem_cons_self q h⟩ :: g, by simp [h1], by simp [h2]⟩

/-- C136, coordinates: of the 32 bits the highest is the sign `s`, the next eight the exponent `e` and the
rest the fraction `f`. With `e = 255` there is no number; with `e = 0` the number is `± 0.f · 2^-126`,
otherwise `± 1.f · 2^(e - 127)`. -/
theorem C136_float32 {s e f : ℕ} (hs : s < 2) (he : e < 256) (hf : f < 2 ^ 23) :
    float32 (BitVec.ofNat 32 (s * 2 ^ 31 + e * 2 ^ 23 + f)) =
      if e = 255 then none
      else if e = 0 then some ((-1) ^ s * ((f : ℝ) / 2 ^ 23) * (2 : ℝ) ^ (-126 : ℤ))
      else some ((-1) ^ s * (1 + (f : ℝ) / 2 ^ 23) * (2 : ℝ) ^ ((e : ℤ) - 127)) := by
  norm_num at hf
  have hb : (BitVec.ofNat 32 (s * 2 ^ 31 + e * 2 ^ 23 + f)).toNat = s * 2147483648 + e * 8388608 + f := by
    rw [BitVec.toNat_ofNat, Nat.mod_eq_of_lt] <;> norm_num
    omega
  have h1 : (s * 2147483648 + e * 8388608 + f) / 8388608 % 256 = e := by omega
  have h2 : (s * 2147483648 + e * 8388608 + f) % 8388608 = f := by omega
  have h3 : (if s * 2147483648 + e * 8388608 + f < 2147483648 then (1 : ℝ) else -1) = (-1) ^ s := by
    rcases (by omega : s = 0 ∨ s = 1) with rfl | rfl
    · rw [if_pos (by omega), pow_zero]
    · rw [if_neg (by omega), pow_one]
  simp only [float32, hb, h1, h2, h3]
  split_ifs
  · rfl
  · congr 1
    rw [zpow_neg]
    norm_num
    ring
  · congr 1
    rw [zpow_sub₀ two_ne_zero, zpow_natCast, show (2 : ℝ) ^ 150 = 8388608 * 2 ^ (127 : ℤ) by norm_num]
    field_simp
    norm_num
    ring

/-- C136, as a refinement: let the converter accept the layout of the sensor's cloud (C62), and let the
coordinates of its points that are not all zero be finite. Then converter and extraction node together
do on bytes what the extraction does on these points in exact terms: they fail in the same way, or they
ask for no shutdown and send messages with the stamp of the sensor from which the localizer and the map
builder read the edge and the surface points, and a viewer all points in their colours. -/
theorem C136_refines (fl : Floats)
    (hlaw : ∀ b, (fl.enc32 (fl.dec32 b)).map fl.dec32 = some (fl.dec32 b))
    (hval : ∀ a b : BitVec 32, fl.dec32 a = fl.dec32 b → float32 a = float32 b)
    (input : PointCloud2 Header) (n : ℕ) (hdata : input.data.length = n * input.pointStep)
    {ds : List DataType} {fx fy fz fi fr : Field} {dr : DataType}
    (A : Accepted input.fields input.pointStep ds fx fy fz fi fr dr) (points : ℕ → PointXYZIR ℝ)
    (hpts : ∀ i < n, IsKept fl input fx fy fz i = true → SensorPoint input fx fy fz fr dr i (points i))
    (plat : Platform ℝ) (hp : HyperParameters ℝ) (degreeThreshold : ℝ) :
    let kept := (List.range n).filter (IsKept fl input fx fy fz)
    let run := Extraction.callback plat hp (nodeGeometry degreeThreshold) input.header.stamp true true
      (kept.map points)
    ∃ out, Convert.callback fl input = .ok out ∧
      (∀ e, run = .error e → extractionCallback plat hp degreeThreshold out = .error e) ∧
      ∀ eff, run = .ok eff → ∃ pub, extractionCallback plat hp degreeThreshold out = .ok pub ∧
        pub.shutdown = false ∧
        (∀ msg ∈ [pub.colored, pub.edge, pub.surface],
          msg.header = ⟨input.header.stamp, "lidar_feature_base_link"⟩) ∧
        (∀ T, T = pointXYZ ∨ T = pointXYZCR →
          Delivers T pub.edge eff.edge.points ∧ Delivers T pub.surface eff.surface.points) ∧
        DeliversColored pub.colored eff.colored.points := by
  intro kept run
  obtain ⟨out, got, h1, h2, h3, h4, h5, h6⟩ := C135_converted_partial fl hlaw input n hdata A
  refine ⟨out, h1, ?_⟩
  obtain ⟨g, hg1, hg2⟩ := exists_good points h6 (by
    rintro i hi q ⟨hq, hx, hy, hz, -, hr⟩
    obtain ⟨hi1, hi2⟩ := List.mem_filter.1 hi
    exact ⟨hq, pointOf_read hval A.ring (hpts i (List.mem_range.1 hi1) hi2) hx hy hz hr⟩)
  have hmap : got.points.mapM (fun (q : List Byte) => do
      let p ← pointOf q
      pure (q, p)) = (.ok (g.map Subtype.val) : Res _) := by
    rw [← hg1]
    clear hg1 hg2
    induction g with
    | nil => rfl
    | cons t g ih =>
      rw [List.map_cons, List.mapM_cons, ih, t.2.2]
      rfl
  have hcall : extractionCallback plat hp degreeThreshold out =
      (Extraction.callback plat hp (geometry degreeThreshold) input.header.stamp true true
        (g.map Subtype.val)).map fun eff =>
          ⟨eff.shutdown, sendColored eff.colored, sendFeatures eff.edge, sendFeatures eff.surface⟩ := by
    unfold extractionCallback
    rw [h3]
    simp only [bind, Except.bind] at hmap ⊢
    rw [hmap, h2, h4, h5]
    simp only
    generalize Extraction.callback plat hp (geometry degreeThreshold) input.header.stamp true true
      (g.map Subtype.val) = r
    cases r <;> rfl
  have hrun : run = Except.map (CallbackEffect.mapP fun t : {t // Good t} => t.1.2)
      (Extraction.callback plat hp ((nodeGeometry degreeThreshold).comap fun t : {t // Good t} => t.1.2)
        input.header.stamp true true g) := by
    show Extraction.callback plat hp (nodeGeometry degreeThreshold) input.header.stamp true true
      (kept.map points) = _
    rw [← hg2, callback_map]
  have hcall' : Extraction.callback plat hp (geometry degreeThreshold) input.header.stamp true true
        (g.map Subtype.val) = Except.map (CallbackEffect.mapP Subtype.val)
      (Extraction.callback plat hp ((nodeGeometry degreeThreshold).comap fun t : {t // Good t} => t.1.2)
        input.header.stamp true true g) := callback_map plat hp Subtype.val _ _ _ _ g
  rw [hcall, hcall', hrun]
  cases hr : Extraction.callback plat hp
    ((nodeGeometry degreeThreshold).comap fun t : {t // Good t} => t.1.2) input.header.stamp true true g with
  | error e => 
    exact ⟨fun e' h => by
      simp only [Except.map, Except.error.injEq] at h ⊢
      exact h, fun eff h => by simp [Except.map] at h⟩
  | ok r =>
    refine ⟨fun e h => by simp [Except.map] at h, fun eff h => ?_⟩
    obtain ⟨hs, hc, he, hf⟩ : r.shutdown = false ∧
        (r.colored.stamp = input.header.stamp ∧ r.colored.frame = "lidar_feature_base_link") ∧
        (r.edge.stamp = input.header.stamp ∧ r.edge.frame = "lidar_feature_base_link") ∧
        (r.surface.stamp = input.header.stamp ∧ r.surface.frame = "lidar_feature_base_link") := by
      simp only [Extraction.callback, bind, Except.bind] at hr
      split at hr
      · simp at hr
      · simp only [pure, Except.pure, Except.ok.injEq] at hr
        subst hr
        exact ⟨rfl, ⟨rfl, rfl⟩, ⟨rfl, rfl⟩, rfl, rfl⟩
    simp only [Except.map, Except.ok.injEq] at h
    subst h
    refine ⟨_, rfl, hs, ?_, ?_, ?_⟩
    · intro msg hmsg
      simp only [List.mem_cons, List.not_mem_nil, or_false] at hmsg
      rcases hmsg with rfl | rfl | rfl
      · exact (by rw [← hc.1, ← hc.2]; rfl)
      · exact (by rw [← he.1, ← he.2]; rfl)
      · exact (by rw [← hf.1, ← hf.2]; rfl)
    · intro T hT
      have key : ∀ m : CloudMsg {t : List Byte × PointXYZIR ℝ // Good t},
          Delivers T (sendFeatures (m.mapP Subtype.val)) (m.points.map fun t => t.1.2) := by
        intro m
        have := sendFeatures_delivers (m := m.mapP Subtype.val) (by
          intro t ht
          obtain ⟨s, -, rfl⟩ := List.mem_map.1 ht
          exact s.2) hT
        simpa [CloudMsg.mapP, Function.comp_def] using this
      exact ⟨key r.edge, key r.surface⟩
    · have := sendColored_delivers (m := r.colored.mapP fun q => (q.1.1, q.2)) (by
        intro t ht
        obtain ⟨s, -, rfl⟩ := List.mem_map.1 ht
        exact s.1.2)
      simpa [CloudMsg.mapP, Function.comp_def, CallbackEffect.mapP] using this

/-- C136, from end to end: let moreover the parameters be valid and no two different points of a ring
lie on the positive x axis. Then converter and node succeed, and the messages deliver to the localizer
and the map builder two lists of points of the sensor's cloud, none of them twice or in both lists, none
with all coordinates zero, each from a ring of more than `padding` such points; a viewer gets only points of
the sensor. Missing: clouds with such points (C20), layouts that the converter rejects (C62),
coordinates that are not finite (`C136_dense_violated`). -/
theorem C136_end_to_end_partial (fl : Floats)
    (hlaw : ∀ b, (fl.enc32 (fl.dec32 b)).map fl.dec32 = some (fl.dec32 b))
    (hval : ∀ a b : BitVec 32, fl.dec32 a = fl.dec32 b → float32 a = float32 b)
    (input : PointCloud2 Header) (n : ℕ) (hdata : input.data.length = n * input.pointStep)
    {ds : List DataType} {fx fy fz fi fr : Field} {dr : DataType}
    (A : Accepted input.fields input.pointStep ds fx fy fz fi fr dr) (points : ℕ → PointXYZIR ℝ)
    (hpts : ∀ i < n, IsKept fl input fx fy fz i = true → SensorPoint input fx fy fz fr dr i (points i))
    (plat : Platform ℝ) (hp : HyperParameters ℝ) (degreeThreshold : ℝ) (hv : hp.Valid)
    (hplat : PlatformOK plat hp.nBlocks
      ((List.range n).filter (IsKept fl input fx fy fz)).length)
    (haxis : ∀ i < n, ∀ j < n, IsKept fl input fx fy fz i = true → IsKept fl input fx fy fz j = true →
      (points i).ring = (points j).ring → ¬ SamePositiveAxis (points i) (points j)) :
    ∃ out pub, Convert.callback fl input = .ok out ∧
      extractionCallback plat hp degreeThreshold out = .ok pub ∧ pub.shutdown = false ∧
      (∀ msg ∈ [pub.colored, pub.edge, pub.surface],
        msg.header = ⟨input.header.stamp, "lidar_feature_base_link"⟩) ∧
      ∃ E S C : List ℕ, (E ++ S).Nodup ∧
        (∀ i ∈ E ++ S, i < n ∧ IsKept fl input fx fy fz i = true ∧
          hp.padding < (((List.range n).filter (IsKept fl input fx fy fz)).filter
            fun j => (points j).ring = (points i).ring).length) ∧
        (∀ i ∈ C, i < n ∧ IsKept fl input fx fy fz i = true) ∧
        (∀ T, T = pointXYZ ∨ T = pointXYZCR →
          Delivers T pub.edge (E.map points) ∧ Delivers T pub.surface (S.map points)) ∧
        ∃ colors : List RGB, colors.length = C.length ∧
          DeliversColored pub.colored ((C.map points).zip colors) := by
  obtain ⟨out, h1, -, h2⟩ := C136_refines fl hlaw hval input n hdata A points hpts plat hp degreeThreshold
  obtain ⟨eff, h3, -⟩ := C19_callback_returns_partial (plat := plat) (hp := hp) degreeThreshold
    (cloud := ((List.range n).filter (IsKept fl input fx fy fz)).map points) hv
    (by rw [List.length_map]; exact hplat)
    (by
      intro a ha b hb
      obtain ⟨i, hi, rfl⟩ := List.mem_map.1 ha
      obtain ⟨j, hj, rfl⟩ := List.mem_map.1 hb
      simp only [List.mem_filter, List.mem_range] at hi hj
      exact haxis i hi.1 j hj.1 hi.2 hj.2) input.header.stamp true true
  obtain ⟨pub, h4, h5, h6, h7, h8⟩ := h2 eff h3
  refine ⟨out, pub, h1, h4, h5, h6, ?_⟩
  set kept := (List.range n).filter (IsKept fl input fx fy fz) with hkept
  have hmem : ∀ i ∈ kept, i < n ∧ IsKept fl input fx fy fz i = true := by
    intro i hi
    simpa [hkept] using hi
  have hnodup : kept.Nodup := List.nodup_range.filter _
  rw [callback_map] at h3
  cases hr : Extraction.callback plat hp ((nodeGeometry degreeThreshold).comap points)
    input.header.stamp true true kept with
  | error e => rw [hr] at h3; simp [Except.map] at h3
  | ok r =>
    rw [hr] at h3
    simp only [Except.map, Except.ok.injEq] at h3
    subst h3
    have hgeo : GeometryOK ((nodeGeometry degreeThreshold).comap points) := by
      have := nodeGeometry_ok degreeThreshold
      exact ⟨fun _ => this.norm_nonneg _, fun _ _ => this.nb_symm _ _, fun _ _ => this.nb_err _ _⟩
    obtain ⟨E, S, hE, hS, hES, hring⟩ := C18_published_once hgeo hv hplat hr
    have hlt : ∀ k ∈ E ++ S, k < kept.length := by
      intro k hk
      obtain ⟨p, hp', -⟩ := hring k hk
      exact (List.getElem?_eq_some_iff.1 hp').1
    have hall : (r.edge.points ++ r.surface.points).map some = (E ++ S).map fun k => kept[k]? := by
      rw [List.map_append, List.map_append, hE, hS]
    have hback : ∀ i ∈ r.edge.points ++ r.surface.points, ∃ k ∈ E ++ S, kept[k]? = some i := by
      intro i hi
      have : some i ∈ (E ++ S).map fun k => kept[k]? := by
        rw [← hall]
        exact List.mem_map_of_mem hi
      obtain ⟨k, hk, h⟩ := List.mem_map.1 this
      exact ⟨k, hk, h⟩
    have hcol : ∀ i ∈ r.colored.points.map Prod.fst, i ∈ kept := by
      have hr' := hr
      rw [← List.attach_map_subtype_val kept, callback_map] at hr'
      cases hq : Extraction.callback plat hp
        (((nodeGeometry degreeThreshold).comap points).comap (Subtype.val : {i // i ∈ kept} → ℕ))
        input.header.stamp true true kept.attach with
      | error e => rw [hq] at hr'; simp [Except.map] at hr'
      | ok q =>
        rw [hq] at hr'
        simp only [Except.map, Except.ok.injEq] at hr'
        subst hr'
        intro i hi
        simp only [CallbackEffect.mapP, CloudMsg.mapP, List.map_map, List.mem_map] at hi
        obtain ⟨t, -, rfl⟩ := hi
        exact t.1.2
    refine ⟨r.edge.points, r.surface.points, r.colored.points.map Prod.fst, ?_, ?_, ?_, ?_,
      r.colored.points.map Prod.snd, by simp, ?_⟩
    · have : ((r.edge.points ++ r.surface.points).map some).Nodup := by
        rw [hall]
        refine List.Nodup.map_on ?_ hES
        intro a ha b hb hab
        exact (List.getElem?_inj (hlt a ha) hnodup).1 hab
      exact List.Nodup.of_map _ this
    · intro i hi
      obtain ⟨k, hk, hki⟩ := hback i hi
      obtain ⟨p, hp1, hp2⟩ := hring k hk
      rw [hki] at hp1
      injection hp1 with hp1
      subst hp1
      obtain ⟨a, b⟩ := hmem i (List.mem_of_getElem? hki)
      exact ⟨a, b, hp2⟩
    · intro i hi
      exact hmem i (hcol i hi)
    · exact h7
    · have : ((r.colored.points.map Prod.fst).map points).zip (r.colored.points.map Prod.snd) =
          r.colored.points.map fun q => (points q.1, q.2) := by
        rw [List.map_map, List.zip_map']
        rfl
      rw [this]
      exact h8

/-! ### Clouds with points that are not finite -/

/-- Violated: the extraction wants clouds without NaN and asks for a shutdown when a cloud is not marked
dense. But the converter marks every cloud dense, also one that the sensor marked not dense, and keeps
points with a NaN coordinate; the extraction takes them for points of a dense cloud. -/
theorem C136_dense_violated (fl : Floats)
    (hlaw : ∀ b, (fl.enc32 (fl.dec32 b)).map fl.dec32 = some (fl.dec32 b))
    (hval : ∀ a b : BitVec 32, fl.dec32 a = fl.dec32 b → float32 a = float32 b)
    (input : PointCloud2 Header) (n : ℕ) (hdata : input.data.length = n * input.pointStep)
    {ds : List DataType} {fx fy fz fi fr : Field} {dr : DataType}
    (A : Accepted input.fields input.pointStep ds fx fy fz fi fr dr) (i : ℕ) (hi : i < n)
    (hkept : IsKept fl input fx fy fz i = true)
    (hnan : float32 (BitVec.ofNat 32 (ofBytes input.isBigendian
      (bytesAt input.data input.pointStep i fx.offset 4))) = none) :
    ∃ out got, Convert.callback fl input = .ok out ∧ getPointCloud pointXYZIR out = .ok got ∧
      got.isDense = true ∧ ∃ q ∈ got.points, coordinate q 0 = none := by
  obtain ⟨out, got, h1, -, h3, h4, -, h6⟩ := C135_converted_partial fl hlaw input n hdata A
  refine ⟨out, got, h1, h3, h4, ?_⟩
  have hm : i ∈ (List.range n).filter (IsKept fl input fx fy fz) :=
    List.mem_filter.2 ⟨List.mem_range.2 hi, hkept⟩
  obtain ⟨k, hk, hki⟩ := List.getElem_of_mem hm
  obtain ⟨hl, h7⟩ := List.forall₂_iff_get.1 h6
  have hk' : k < got.points.length := by omega
  obtain ⟨-, hx, -⟩ := h7 k hk hk'
  refine ⟨got.points[k], List.getElem_mem hk', ?_⟩
  simp only [List.get_eq_getElem, hki] at hx
  injection hx with hx
  exact (hval _ _ hx).trans hnan

/-! ### Examples -/

/-- Two points of ring 3 in the order of a big-endian sensor, and one with a NaN coordinate, marked not
dense. -/
def sensorCloud (nan : Bool) : PointCloud2 Header where
  header := ⟨42, "velodyne"⟩
  height := 1
  width := 2
  fields := aligned
  isBigendian := true
  pointStep := 32
  rowStep := 64
  data := [63, 128, 0, 0] ++ [63, 128, 0, 0] ++ [0, 0, 0, 0] ++ List.replicate 8 0 ++ [0, 3] ++
    List.replicate 10 0 ++ (if nan then [127, 192, 0, 0] else [64, 0, 0, 0]) ++ [63, 128, 0, 0] ++
    [0, 0, 0, 0] ++ List.replicate 8 0 ++ [0, 3] ++ List.replicate 10 0
  isDense := !nan

theorem float32_zero : float32 0#32 = some 0 := by
  simp [float32]

theorem float32_one : float32 1065353216#32 = some 1 := by
  simp only [float32, BitVec.toNat_ofNat]
  norm_num

theorem float32_two : float32 1073741824#32 = some 2 := by
  simp only [float32, BitVec.toNat_ofNat]
  norm_num

theorem float32_nan : float32 2143289344#32 = none := by
  simp only [float32, BitVec.toNat_ofNat]
  norm_num

example : ∀ i < 2, SensorPoint (sensorCloud false) ⟨"x", 0, 7, 1⟩ ⟨"y", 4, 7, 1⟩ ⟨"z", 8, 7, 1⟩
    ⟨"ring", 20, 4, 1⟩ .uint16 i (if i = 0 then ⟨1, 1, 0, 3⟩ else ⟨2, 1, 0, 3⟩) := by
  intro i hi
  interval_cases i
  · exact ⟨float32_one, float32_one, float32_zero, rfl⟩
  · exact ⟨float32_two, float32_one, float32_zero, rfl⟩

example : (sensorCloud false).data.length = 2 * 32 ∧ (sensorCloud true).data.length = 2 * 32 ∧
    IsKept bits (sensorCloud false) ⟨"x", 0, 7, 1⟩ ⟨"y", 4, 7, 1⟩ ⟨"z", 8, 7, 1⟩ 0 = true ∧
    IsKept bits (sensorCloud false) ⟨"x", 0, 7, 1⟩ ⟨"y", 4, 7, 1⟩ ⟨"z", 8, 7, 1⟩ 1 = true ∧
    IsKept bits (sensorCloud true) ⟨"x", 0, 7, 1⟩ ⟨"y", 4, 7, 1⟩ ⟨"z", 8, 7, 1⟩ 1 = true ∧
    (sensorCloud true).isDense = false := by decide

example : float32 (BitVec.ofNat 32 (ofBytes (sensorCloud true).isBigendian
    (bytesAt (sensorCloud true).data (sensorCloud true).pointStep 1 0 4))) = none := float32_nan

example : ¬ SamePositiveAxis (⟨1, 1, 0, 3⟩ : PointXYZIR ℝ) ⟨2, 1, 0, 3⟩ := by
  simp [SamePositiveAxis]

example (a b : BitVec 32) (h : bits.dec32 a = bits.dec32 b) : float32 a = float32 b :=
  congrArg float32 h

end Verif.Wire
