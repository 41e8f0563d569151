/-
C122: a ring is published or reported, and the report is true.
-/
import Verif.Lemmas.Printf
import Verif.Lemmas.RingExact
import Verif.Props.C19
import Verif.Props.C121

set_option autoImplicit false

namespace Verif.Extraction

/-- Specification: a text that is a true reason for leaving out the ring with the given points, in the
order of their angles. -/
inductive Reason (plat : Platform ℝ) (hp : HyperParameters ℝ) (pts : List (PointXYZIR ℝ)) :
    List Char → Prop
  /-- There are fewer points than the curvature takes into account. -/
  | few (tn tw : List Char) (hn : readInt tn = some (pts.length : ℤ))
      (hw : readInt tw = some (2 * hp.padding + 1)) (h : (pts.length : ℤ) < 2 * hp.padding + 1) :
      Reason plat hp pts ("Input array size ".toList ++ tn ++
        " cannot be smaller than weight size ".toList ++ tw)
  /-- Without the padding there are fewer points than blocks. -/
  | blocks (tn tb : List Char) (hn : readInt tn = some (pts.length - 2 * hp.padding))
      (hb : readInt tb = some hp.nBlocks) (h : pts.length - 2 * hp.padding < hp.nBlocks) :
      Reason plat hp pts ("end_index - start_index (which is ".toList ++ tn ++
        ") cannot be smaller than n_blocks (which is ".toList ++ tb)
  /-- A block has fewer than two points. -/
  | block (tn : List Char) (j b e : ℤ)
      (hb : (IndexRange.mk hp.padding (pts.length - hp.padding) hp.nBlocks).beginWith plat.rnd j = .ok b)
      (he : (IndexRange.mk hp.padding (pts.length - hp.padding) hp.nBlocks).endWith plat.rnd j = .ok e)
      (hn : readInt tn = some (e - b)) (h : e - b < 2) :
      Reason plat hp pts ("The input point size (which is ".toList ++ tn ++
        ") cannot be smaller than 2".toList)
  /-- Two points next to each other lie above, below or in the sensor. -/
  | zero (k : ℕ) (p q : PointXYZIR ℝ) (hp' : pts[k]? = some p) (hq : pts[k + 1]? = some q)
      (hx : p.x = 0 ∧ p.y = 0 ∧ q.x = 0 ∧ q.y = 0) :
      Reason plat hp pts "All input values are zero. Angle cannot be calculated".toList

/-- Specification: some block of a ring with `n` points has fewer than two points. -/
def HasShortBlock (plat : Platform ℝ) (hp : HyperParameters ℝ) (n : ℕ) : Prop :=
  ∃ j b e : ℤ, (IndexRange.mk hp.padding (n - hp.padding) hp.nBlocks).beginWith plat.rnd j = .ok b ∧
    (IndexRange.mk hp.padding (n - hp.padding) hp.nBlocks).endWith plat.rnd j = .ok e ∧ e - b < 2

/-! ### Texts without conversions -/

theorem plain_decimal (n : ℤ) : Plain (decimal n) := by
  have h : '%' ∉ decimalNat n.natAbs := by
    intro hm
    have := (decimalNat_spec n.natAbs).2.1 _ hm
    simp at this
  unfold decimal Plain
  split_ifs
  · simpa using h
  · exact h

/-! ### One ring -/

theorem calcRadianT_tells (x1 y1 x2 y2 : ℝ) {Q : List Char → Prop}
    (hQ : xyNorm x1 y1 = 0 ∧ xyNorm x2 y2 = 0 →
      Q "All input values are zero. Angle cannot be calculated".toList) :
    Tells (calcRadianT x1 y1 x2 y2) (calcRadian x1 y1 x2 y2) Q := by
  unfold calcRadianT
  by_cases h : xyNorm x1 y1 = 0 ∧ xyNorm x2 y2 = 0
  · rw [if_pos h, calcRadian, if_pos h]
    exact Tells.told fun _ => hQ h
  · rw [if_neg h]
    refine Tells.untold ?_ Q
    rw [calcRadian, if_neg h]
    split_ifs <;> simp

theorem isNeighborXYT_tells (threshold : ℝ) (p q : PointXYZIR ℝ) {Q : List Char → Prop}
    (hQ : p.x = 0 ∧ p.y = 0 ∧ q.x = 0 ∧ q.y = 0 →
      Q "All input values are zero. Angle cannot be calculated".toList) :
    Tells (isNeighborXYT threshold p q) (isNeighborXY threshold p q) Q := by
  refine (calcRadianT_tells p.x p.y q.x q.y fun h => hQ ?_).bind fun a _ => ?_
  · have hz : ∀ x y : ℝ, xyNorm x y = 0 → x = 0 ∧ y = 0 := by
      intro x y h
      unfold xyNorm at h
      rw [Real.sqrt_eq_zero (add_nonneg (mul_self_nonneg _) (mul_self_nonneg _))] at h
      have hx := mul_self_nonneg x
      have hy := mul_self_nonneg y
      exact ⟨mul_self_eq_zero.1 (by linarith), mul_self_eq_zero.1 (by linarith)⟩
    obtain ⟨h1, h2⟩ := hz _ _ h.1
    obtain ⟨h3, h4⟩ := hz _ _ h.2
    exact ⟨h1, h2, h3, h4⟩
  · cases a with
    | none => exact Tells.ok _ _
    | some a => exact Tells.ok _ _

/-- A reason, in words the macro prints as they are. -/
def GoodText (plat : Platform ℝ) (hp : HyperParameters ℝ) (pts : List (PointXYZIR ℝ))
    (s : List Char) : Prop := Reason plat hp pts s ∧ Plain s

theorem ringTexts (plat : Platform ℝ) (hp : HyperParameters ℝ) (pts : List (PointXYZIR ℝ)) {n : ℕ}
    (hn : pts.length = n) (hpad : 0 < hp.padding) :
    RingTexts plat hp n (GoodText plat hp pts) := by
  subst hn
  refine ⟨fun w hw h => ?_, fun h => ?_, fun j b e hb he h => ?_⟩
  · have hw' : (w : ℤ) = 2 * hp.padding + 1 := by omega
    refine ⟨Reason.few _ _ (C121_numbers _) (by rw [C121_numbers, hw']) (by omega), ?_⟩
    exact (((show Plain _ by simp [Plain]).append (plain_decimal _)).append
      (by simp [Plain])).append (plain_decimal _)
  · have e1 : (pts.length : ℤ) - hp.padding - hp.padding = pts.length - 2 * hp.padding := by ring
    rw [e1] at h ⊢
    refine ⟨Reason.blocks _ _ (C121_numbers _) (C121_numbers _) h, ?_⟩
    exact (((show Plain _ by simp [Plain]).append (plain_decimal _)).append
      (by simp [Plain])).append (plain_decimal _)
  · refine ⟨Reason.block _ j b e hb he (C121_numbers _) h, ?_⟩
    exact ((show Plain _ by simp [Plain]).append (plain_decimal _)).append (by simp [Plain])

theorem ring_xyTells (plat : Platform ℝ) (hp : HyperParameters ℝ) (degree : ℝ)
    {cloud : List (PointXYZIR ℝ)} {idx : List ℕ} (hin : ∀ i ∈ idx, i < cloud.length) :
    XYTells ⟨⟨cloud, idx⟩, (nodeGeometryT degree).isNb⟩ ⟨⟨cloud, idx⟩, (nodeGeometry degree).isNb⟩
      (GoodText plat hp (ringPoints cloud idx)) := by
  have key : ∀ p q, Consecutive (⟨cloud, idx⟩ : MappedPoints (PointXYZIR ℝ)) p q →
      p.x = 0 ∧ p.y = 0 ∧ q.x = 0 ∧ q.y = 0 → GoodText plat hp (ringPoints cloud idx)
        "All input values are zero. Angle cannot be calculated".toList := by
    rintro p q ⟨k, i, j, h1, h2, h3, h4⟩ hz
    refine ⟨Reason.zero k p q ?_ ?_ hz, by simp [Plain]⟩
    · rw [(ringPoints_getElem? hin).2]
      simp only at h1 h3
      rw [h1]; exact h3
    · rw [(ringPoints_getElem? hin).2]
      simp only at h2 h4
      rw [h2]; exact h4
  exact ⟨rfl, fun p q h => isNeighborXYT_tells _ _ _ (key p q h),
    fun p q h => isNeighborXYT_tells _ _ _ fun hz => key p q h ⟨hz.2.2.1, hz.2.2.2, hz.1, hz.2.1⟩⟩

/-- The lines a ring adds to the log. -/
noncomputable def ringReport (plat : Platform ℝ) (hp : HyperParameters ℝ) (degree : ℝ)
    (cloud : List (PointXYZIR ℝ)) (idx : List ℕ) : Option (List Char) :=
  match ringLabelsT plat hp ⟨⟨cloud, idx⟩, (nodeGeometryT degree).isNb⟩
      ⟨⟨cloud, idx⟩, (nodeGeometryT degree).norm⟩ with
  | .error ⟨.invalidArgument, some s⟩ => some s
  | _ => none

theorem plainTexts (plat : Platform ℝ) (hp : HyperParameters ℝ) (n : ℕ) :
    RingTexts plat hp n Plain := by
  refine ⟨fun w hw h => ?_, fun h => ?_, fun j b e hb he h => ?_⟩
  · exact (((show Plain _ by simp [Plain]).append (plain_decimal _)).append
      (by simp [Plain])).append (plain_decimal _)
  · exact (((show Plain _ by simp [Plain]).append (plain_decimal _)).append
      (by simp [Plain])).append (plain_decimal _)
  · exact ((show Plain _ by simp [Plain]).append (plain_decimal _)).append (by simp [Plain])

theorem plain_xyTells (degree : ℝ) (ref : MappedPoints (PointXYZIR ℝ)) :
    XYTells ⟨ref, (nodeGeometryT degree).isNb⟩ ⟨ref, (nodeGeometry degree).isNb⟩ Plain :=
  ⟨rfl, fun _ _ _ => isNeighborXYT_tells _ _ _ fun _ => by simp [Plain],
    fun _ _ _ => isNeighborXYT_tells _ _ _ fun _ => by simp [Plain]⟩

/-- One iteration of the ring loop, without the log. -/
theorem processRingLogged_forget (plat : Platform ℝ) (hp : HyperParameters ℝ) (degree : ℝ)
    (cloud : List (PointXYZIR ℝ)) (out : Clouds (PointXYZIR ℝ) ℝ × List (List Char))
    (ring : ℤ × List ℕ) :
    (forget (processRingLogged plat hp (nodeGeometryT degree) cloud out ring)).map Prod.fst =
      processRing plat hp (nodeGeometry degree) cloud out.1 ring := by
  unfold processRingLogged processRing NeighborCheckXYT.make NeighborCheckXY.make
  by_cases h : (MappedPoints.mk cloud ring.2).size < 2
  · simp only [if_pos h]
    rfl
  · simp only [if_neg h, bind, Except.bind]
    have ht := ringBodyT_tells (plain_xyTells degree ⟨cloud, ring.2⟩) plat hp
      ⟨⟨cloud, ring.2⟩, (nodeGeometry degree).norm⟩ rfl (plainTexts plat hp _) out.1
    change Tells (ringBodyT plat hp ⟨⟨cloud, ring.2⟩, (nodeGeometryT degree).isNb⟩
      ⟨⟨cloud, ring.2⟩, (nodeGeometryT degree).norm⟩ out.1) _ _ at ht
    obtain ⟨h1, h2⟩ := ht
    rw [← h1]
    cases hb : ringBodyT plat hp ⟨⟨cloud, ring.2⟩, (nodeGeometryT degree).isNb⟩
      ⟨⟨cloud, ring.2⟩, (nodeGeometryT degree).norm⟩ out.1 with
    | ok c => rfl
    | error t =>
      obtain ⟨e, w⟩ := t
      cases e with
      | invalidArgument =>
        obtain ⟨s, hs, hpl⟩ := h2 _ hb rfl
        simp only at hs
        subst hs
        simp only [printf_plain hpl, untold]
        rfl
      | _ => cases w <;> rfl

theorem ringLoop_forget (plat : Platform ℝ) (hp : HyperParameters ℝ) (degree : ℝ)
    (cloud : List (PointXYZIR ℝ)) : ∀ (rings : Rings)
    (out : Clouds (PointXYZIR ℝ) ℝ × List (List Char)),
    (forget (rings.foldlM (processRingLogged plat hp (nodeGeometryT degree) cloud) out)).map Prod.fst =
      rings.foldlM (processRing plat hp (nodeGeometry degree) cloud) out.1
  | [], _ => rfl
  | ring :: rings, out => by
    rw [List.foldlM_cons, List.foldlM_cons, ← processRingLogged_forget]
    cases h : processRingLogged plat hp (nodeGeometryT degree) cloud out ring with
    | error t => rfl
    | ok o => exact ringLoop_forget plat hp degree cloud rings o

/-- The lines about the cloud as a whole. -/
def headLines (isDense ringAvailable : Bool) : List (List Char) :=
  (if isDense then [] else
    ["Point cloud is not in dense format, please remove NaN points first!".toList]) ++
  (if ringAvailable then [] else ["Ring channel could not be found".toList])

theorem callbackLogged_eq (plat : Platform ℝ) (hp : HyperParameters ℝ)
    (geo : GeometryT (PointXYZIR ℝ) ℝ) (stamp : ℤ) (isDense ringAvailable : Bool)
    (cloud : List (PointXYZIR ℝ)) :
    callbackLogged plat hp geo stamp isDense ringAvailable cloud = (do
      let rings ← untold (extractAngleSortedRings plat.sort geo.less geo.ringOf cloud)
      let out ← (plat.order (removeSparseRings rings (hp.padding + 1))).foldlM
        (processRingLogged plat hp geo cloud) (⟨[], [], []⟩, headLines isDense ringAvailable)
      pure (⟨!isDense || !ringAvailable, ⟨stamp, "lidar_feature_base_link", out.1.colored⟩,
        ⟨stamp, "lidar_feature_base_link", out.1.edge.map Prod.fst⟩,
        ⟨stamp, "lidar_feature_base_link", out.1.surface.map Prod.fst⟩⟩, out.2)) := by
  have h1 := printf_plain
    (s := "Point cloud is not in dense format, please remove NaN points first!".toList)
    (by simp [Plain])
  have h2 := printf_plain (s := "Ring channel could not be found".toList) (by simp [Plain])
  unfold callbackLogged headLines
  rw [h1, h2]
  cases isDense <;> cases ringAvailable <;> rfl

/-- C122, logging does no harm: without its log the callback is the callback modelled before, failures
included, for every cloud, platform and parameters. -/
theorem C122_forget (plat : Platform ℝ) (hp : HyperParameters ℝ) (degree : ℝ) (stamp : ℤ)
    (isDense ringAvailable : Bool) (cloud : List (PointXYZIR ℝ)) :
    (forget (callbackLogged plat hp (nodeGeometryT degree) stamp isDense ringAvailable cloud)).map
        Prod.fst =
      callback plat hp (nodeGeometry degree) stamp isDense ringAvailable cloud := by
  rw [callbackLogged_eq]
  unfold callback extractClouds
  change _ = ((extractAngleSortedRings plat.sort (nodeGeometryT degree).less
    (nodeGeometryT degree).ringOf cloud >>= _) >>= _)
  cases extractAngleSortedRings plat.sort (nodeGeometryT degree).less
    (nodeGeometryT degree).ringOf cloud with
  | error e => rfl
  | ok rings =>
    simp only [untold, bind, Except.bind]
    have h := ringLoop_forget plat hp degree cloud
      (plat.order (removeSparseRings rings (hp.padding + 1)))
      (⟨[], [], []⟩, headLines isDense ringAvailable)
    simp only at h
    rw [← h]
    cases (plat.order (removeSparseRings rings (hp.padding + 1))).foldlM
      (processRingLogged plat hp (nodeGeometryT degree) cloud)
      (⟨[], [], []⟩, headLines isDense ringAvailable) with
    | error t => rfl
    | ok o => rfl

/-! ### All rings -/

theorem processRingLogged_eq {plat : Platform ℝ} {hp : HyperParameters ℝ} {degree : ℝ}
    {cloud : List (PointXYZIR ℝ)} {ring : ℤ × List ℕ} (hv : hp.Valid)
    (harg : IsArgsort plat.argsort) (harith : ArithOK plat.rnd ring.2.length hp.nBlocks)
    (hin : ∀ i ∈ ring.2, i < cloud.length) (h64 : ring.2.length < 2 ^ 64)
    (hsize : hp.padding + 1 ≤ ring.2.length)
    (out : Clouds (PointXYZIR ℝ) ℝ × List (List Char)) :
    processRingLogged plat hp (nodeGeometryT degree) cloud out ring =
      .ok (⟨out.1.edge ++ (contribution plat hp (nodeGeometry degree) cloud ring.2).edge,
        out.1.surface ++ (contribution plat hp (nodeGeometry degree) cloud ring.2).surface,
        out.1.colored ++ (contribution plat hp (nodeGeometry degree) cloud ring.2).colored⟩,
        out.2 ++ (ringReport plat hp degree cloud ring.2).toList) := by
  have h1 := processRingLogged_forget plat hp degree cloud out ring
  rw [processRing_eq (nodeGeometry_ok degree) hv harg harith hin h64 hsize] at h1
  cases hr : processRingLogged plat hp (nodeGeometryT degree) cloud out ring with
  | error t => rw [hr] at h1; simp [forget, Except.map] at h1
  | ok o =>
    rw [hr] at h1
    simp only [forget, Except.map, Except.ok.injEq] at h1
    congr 1
    refine Prod.ext h1 ?_
    simp only
    unfold processRingLogged NeighborCheckXYT.make at hr
    have hpos := hv.1
    have hsz : ¬ (⟨cloud, ring.2⟩ : MappedPoints (PointXYZIR ℝ)).size < 2 := by
      simp only [MappedPoints.size]; omega
    simp only [bind, Except.bind, if_neg hsz] at hr
    have ht := ringLabelsT_tells (plain_xyTells degree ⟨cloud, ring.2⟩) plat hp
      ⟨⟨cloud, ring.2⟩, (nodeGeometryT degree).norm⟩ rfl (plainTexts plat hp _)
    unfold ringReport
    cases hl : ringLabelsT plat hp ⟨⟨cloud, ring.2⟩, (nodeGeometryT degree).isNb⟩
        ⟨⟨cloud, ring.2⟩, (nodeGeometryT degree).norm⟩ with
    | error t =>
      have hb : ringBodyT plat hp ⟨⟨cloud, ring.2⟩, (nodeGeometryT degree).isNb⟩
          ⟨⟨cloud, ring.2⟩, (nodeGeometryT degree).norm⟩ out.1 = .error t := by
        unfold ringBodyT
        rw [hl]
        rfl
      rw [hb] at hr
      obtain ⟨e, w⟩ := t
      cases e with
      | invalidArgument =>
        obtain ⟨s, hs, hpl⟩ := ht.2 _ hl rfl
        simp only at hs
        subst hs
        simp only [printf_plain hpl, untold, Except.ok.injEq] at hr
        rw [← hr]
        rfl
      | _ => cases w <;> simp at hr
    | ok lc =>
      cases hb : ringBodyT plat hp ⟨⟨cloud, ring.2⟩, (nodeGeometryT degree).isNb⟩
          ⟨⟨cloud, ring.2⟩, (nodeGeometryT degree).norm⟩ out.1 with
      | error t =>
        have hne := ringBodyT_after hl out.1 hb
        rw [hb] at hr
        obtain ⟨e, w⟩ := t
        cases e with
        | invalidArgument => exact absurd rfl hne
        | _ => cases w <;> simp at hr
      | ok c =>
        rw [hb] at hr
        simp only [Except.ok.injEq] at hr
        rw [← hr]
        simp

theorem ringLoopLogged_eq {plat : Platform ℝ} {hp : HyperParameters ℝ} {degree : ℝ}
    {cloud : List (PointXYZIR ℝ)} (hv : hp.Valid) (harg : IsArgsort plat.argsort) :
    ∀ {rings : Rings} (out : Clouds (PointXYZIR ℝ) ℝ × List (List Char)),
    (∀ ring ∈ rings, ArithOK plat.rnd ring.2.length hp.nBlocks ∧
      (∀ i ∈ ring.2, i < cloud.length) ∧ ring.2.length < 2 ^ 64 ∧
      hp.padding + 1 ≤ ring.2.length) →
    ∃ o, rings.foldlM (processRingLogged plat hp (nodeGeometryT degree) cloud) out = .ok o ∧
      o.1.colored = out.1.colored ++
        rings.flatMap (fun r => (contribution plat hp (nodeGeometry degree) cloud r.2).colored) ∧
      o.2 = out.2 ++ rings.filterMap (fun r => ringReport plat hp degree cloud r.2)
  | [], out, _ => ⟨out, rfl, by simp, by simp⟩
  | ring :: rings, out, h => by
    obtain ⟨h1, h2, h3, h4⟩ := h ring List.mem_cons_self
    rw [List.foldlM_cons, processRingLogged_eq hv harg h1 h2 h3 h4]
    simp only [bind, Except.bind]
    obtain ⟨o, e1, e2, e3⟩ := ringLoopLogged_eq hv harg
      (⟨out.1.edge ++ (contribution plat hp (nodeGeometry degree) cloud ring.2).edge,
        out.1.surface ++ (contribution plat hp (nodeGeometry degree) cloud ring.2).surface,
        out.1.colored ++ (contribution plat hp (nodeGeometry degree) cloud ring.2).colored⟩,
        out.2 ++ (ringReport plat hp degree cloud ring.2).toList)
      (fun r hr => h r (List.mem_cons_of_mem _ hr))
    refine ⟨o, e1, ?_, ?_⟩
    · rw [e2]; simp [List.flatMap_cons, List.append_assoc]
    · rw [e3, List.filterMap_cons]
      cases ringReport plat hp degree cloud ring.2 <;> simp

theorem colorPoints_fst {pts : List (PointXYZIR ℝ)} {labels : List PointLabel}
    (hlen : labels.length = pts.length) : (colorPoints pts labels).map Prod.fst = pts := by
  simp only [colorPoints, hlen]
  have : ∀ n, n ≤ pts.length →
      ((List.range n).filterMap fun k => (pts[k]?).bind fun p =>
        (labels[k]?).map fun l => (p, labelToColor l)).map Prod.fst = pts.take n := by
    intro n
    induction n with
    | zero => intro _; simp
    | succ n ih =>
      intro hn
      rw [List.range_succ, List.filterMap_append, List.map_append, ih (by omega), List.take_add_one]
      congr 1
      have e1 : pts[n]? = some (pts[n]'(by omega)) := List.getElem?_eq_getElem _
      have e2 : labels[n]? = some (labels[n]'(by omega)) := List.getElem?_eq_getElem _
      simp [e1, e2]
  rw [this _ le_rfl, List.take_length]

/-- If the blocks are labelled, each has two points. -/
theorem no_short_block {plat : Platform ℝ} {hp : HyperParameters ℝ} (hv : hp.Valid) {cloud : List (PointXYZIR ℝ)}
    {idx : List ℕ} {isNb : PointXYZIR ℝ → PointXYZIR ℝ → Res Bool}
    (harith : ArithOK plat.rnd idx.length hp.nBlocks) {p : ℕ} (hpp : hp.padding = p) {ir : IndexRange}
    (hmk : PaddedIndexRange.make (idx.length : ℤ) hp.nBlocks p = .ok ir) {te ts : ℝ} {curv : List ℝ}
    {l : List PointLabel}
    (hA : assignLabel plat.rnd plat.argsort p te p ts (initLabels idx.length) curv ⟨⟨cloud, idx⟩, isNb⟩ ir = .ok l) :
    ¬ HasShortBlock plat hp idx.length := by
  rintro ⟨j, b, e, hb, he, hlt⟩
  have hn := hv.2.2.2.2.2.2.2
  obtain ⟨hB, h1, h2, h3⟩ := padded_blocksOK (by omega) hn harith hmk
  have hir : (IndexRange.mk hp.padding (idx.length - hp.padding) hp.nBlocks) = ir := by
    rw [hpp]
    cases ir
    simp_all
  rw [hir] at hb he
  have hj : 0 ≤ j ∧ j < ir.nBlocks := by
    by_contra hc
    rw [((C03_block_number_checked plat.rnd ir j .outOfRange).1).2 ⟨rfl, hc⟩] at hb
    cases hb
  rw [begin_ok hj.1 hj.2] at hb
  rw [end_ok hj.1 hj.2] at he
  injection hb with hb
  injection he with he
  obtain ⟨j, rfl⟩ := Int.eq_ofNat_of_zero_le hj.1
  have hlen : (initLabels idx.length).length = idx.length := by simp [initLabels]
  obtain ⟨-, -, -, -, hblock⟩ := assignLabel_blocks hB (by rw [hlen]; omega) hA
  have hr := hblock j (by omega)
  have e1 := hB.bnd_eq j (by omega)
  have e2 := hB.bnd_eq (j + 1) (by push_cast; omega)
  push_cast at e2
  have hm := hB.bnd_mono (i := j) (j := j + 1) (by omega) (by push_cast; omega)
  have hs : (NeighborCheckXY.mk ⟨cloud, idx⟩ isNb).slice (ir.bnd plat.rnd j) (ir.bnd plat.rnd (j + 1)) =
      .error .invalidArgument ∨ (NeighborCheckXY.mk ⟨cloud, idx⟩ isNb).slice (ir.bnd plat.rnd j)
        (ir.bnd plat.rnd (j + 1)) = .error .undefinedBehaviour := by
    simp only [NeighborCheckXY.slice, MappedPoints.slice]
    split_ifs with hc
    · left
      simp only [bind, Except.bind, NeighborCheckXY.make]
      rw [if_pos]
      simp only [MappedPoints.size, List.length_take]
      omega
    · right
      rfl
  rcases hs with hs | hs <;> (rw [hs] at hr; simp [blockResult, bind, Except.bind] at hr)

/-- What is known of the report of a dense ring. -/
theorem ringReport_spec {plat : Platform ℝ} {hp : HyperParameters ℝ} {degree : ℝ}
    {cloud : List (PointXYZIR ℝ)} {idx : List ℕ} (hv : hp.Valid) (harg : IsArgsort plat.argsort)
    (harith : ArithOK plat.rnd idx.length hp.nBlocks) (hin : ∀ i ∈ idx, i < cloud.length)
    (h64 : idx.length < 2 ^ 64) :
    match ringReport plat hp degree cloud idx with
    | some s => Reason plat hp (ringPoints cloud idx) s ∧
        (contribution plat hp (nodeGeometry degree) cloud idx) = ⟨[], [], []⟩
    | none => (contribution plat hp (nodeGeometry degree) cloud idx).colored.map Prod.fst =
        ringPoints cloud idx ∧ 2 * hp.padding + 1 ≤ idx.length ∧
        hp.nBlocks ≤ idx.length - 2 * hp.padding ∧ ¬ HasShortBlock plat hp idx.length := by
  have hspec := ringLabels_spec (nodeGeometry_ok degree) hv harg harith hin h64
  have ht := ringLabelsT_tells (ring_xyTells plat hp degree hin) plat hp
    ⟨⟨cloud, idx⟩, (nodeGeometry degree).norm⟩ rfl
    (ringTexts plat hp (ringPoints cloud idx) (ringPoints_getElem? hin).1 hv.1)
  change Tells (ringLabelsT plat hp ⟨⟨cloud, idx⟩, (nodeGeometryT degree).isNb⟩
      ⟨⟨cloud, idx⟩, (nodeGeometryT degree).norm⟩) _ _ at ht
  unfold ringReport contribution
  obtain ⟨h1, h2⟩ := ht
  cases hl : ringLabelsT plat hp ⟨⟨cloud, idx⟩, (nodeGeometryT degree).isNb⟩
      ⟨⟨cloud, idx⟩, (nodeGeometryT degree).norm⟩ with
  | error t =>
    rw [hl] at h1
    rw [← h1] at hspec ⊢
    obtain ⟨e, w⟩ := t
    change e = _ at hspec
    subst hspec
    obtain ⟨s, hs, hg⟩ := h2 _ hl rfl
    simp only at hs
    subst hs
    exact ⟨hg.1, rfl⟩
  | ok lc =>
    rw [hl] at h1
    have hlab := h1.symm
    rw [← h1] at hspec ⊢
    simp only [forget] at hspec hlab ⊢
    obtain ⟨p, ir, l₁, hp1, -, hp2, hmk, -, -, hA, -⟩ :=
      ringLabels_defined (nodeGeometry_ok degree) hv harg harith hin h64 hlab
    refine ⟨?_, by omega, ?_, no_short_block hv harith hp1 hmk hA⟩
    · rw [colorPoints_fst]
      rw [hspec.1, (ringPoints_getElem? hin).1]
    · unfold PaddedIndexRange.make IndexRange.make at hmk
      split_ifs at hmk
      omega

/-- C122, published or reported: a callback that returns has gone through the rings with more than
`padding` points; each is either published, all its points coloured, or reported with exactly one line
that is a true reason, and then none of its points is published. Beside these lines there are only those
about the whole cloud. Rings too small for the curvature or for the blocks, and rings one of whose blocks has
fewer than two points, are always reported. -/
theorem C122_reported {plat : Platform ℝ} {hp : HyperParameters ℝ} (degree : ℝ)
    {cloud : List (PointXYZIR ℝ)} (hv : hp.Valid) (hplat : PlatformOK plat hp.nBlocks cloud.length)
    {stamp : ℤ} {isDense ringAvailable : Bool} {eff : CallbackEffect (PointXYZIR ℝ)}
    {log : List (List Char)}
    (h : callbackLogged plat hp (nodeGeometryT degree) stamp isDense ringAvailable cloud =
      .ok (eff, log)) :
    ∃ rings : List (ℤ × List ℕ × Option (List Char)),
      (rings.map Prod.fst).Nodup ∧
      (∀ r idx line, (r, idx, line) ∈ rings →
        IsDenseRing hp (nodeGeometry degree) cloud r idx ∧
        (∀ s, line = some s → Reason plat hp (ringPoints cloud idx) s) ∧
        (idx.length < 2 * hp.padding + 1 ∨ idx.length - 2 * hp.padding < hp.nBlocks ∨
          HasShortBlock plat hp idx.length → line.isSome)) ∧
      (∀ p ∈ cloud, hp.padding < (cloud.filter fun q => q.ring = p.ring).length →
        p.ring ∈ rings.map Prod.fst) ∧
      log = headLines isDense ringAvailable ++ rings.filterMap (fun r => r.2.2) ∧
      eff.colored.points.map Prod.fst =
        rings.flatMap (fun r => if r.2.2.isNone then ringPoints cloud r.2.1 else []) ∧
      ∀ q, q ∈ eff.edge.points ∨ q ∈ eff.surface.points →
        ∃ r idx, (r, idx, none) ∈ rings ∧ q ∈ ringPoints cloud idx := by
  have hf := C122_forget plat hp degree stamp isDense ringAvailable cloud
  rw [h] at hf
  have hcb := hf.symm
  simp only [forget, Except.map] at hcb
  obtain ⟨rings₀, out, h1, h2, h3, h4, h5⟩ := callback_clouds hcb
  rw [extractClouds_eq (nodeGeometry_ok degree) hv hplat h1] at h2
  injection h2 with h2
  obtain ⟨hdense, hkeys⟩ := denseRings (hp := hp) hplat.sort hplat.order h1
  have hpart := (C20_rings_sorted hplat.sort _ _ cloud rings₀ h1).1
  have hcov : ∀ p ∈ cloud, hp.padding < (cloud.filter fun q => q.ring = p.ring).length →
      p.ring ∈ (plat.order (removeSparseRings rings₀ (hp.padding + 1))).map Prod.fst := by
    intro p hp' hlen
    obtain ⟨i, hi⟩ := List.mem_iff_getElem?.1 hp'
    obtain ⟨idx, hidx⟩ := hpart.cover i p hi
    refine List.mem_map.2 ⟨_, (hplat.order _).mem_iff.2
      (((C20_remove_sparse rings₀ (hp.padding + 1)).2 _ _).2 ⟨hidx, ?_⟩), rfl⟩
    have hperm : idx.Perm (ringIndices (nodeGeometry degree).ringOf cloud
        ((nodeGeometry degree).ringOf p)) := by
      refine (List.perm_ext_iff_of_nodup (hpart.nodup _ _ hidx) (List.nodup_range.filter _)).2 ?_
      intro j
      exact (hpart.mem _ _ hidx j).trans mem_ringIndices.symm
    rw [hperm.length_eq, ringIndices_length]
    change hp.padding < (cloud.filter fun q =>
      (nodeGeometry degree).ringOf q = (nodeGeometry degree).ringOf p).length at hlen
    omega
  rw [callbackLogged_eq] at h
  have hgeo : extractAngleSortedRings plat.sort (nodeGeometryT degree).less
      (nodeGeometryT degree).ringOf cloud = .ok rings₀ := h1
  rw [hgeo] at h
  simp only [untold, bind, Except.bind] at h
  generalize plat.order (removeSparseRings rings₀ (hp.padding + 1)) = rs at *
  have hfacts : ∀ ring ∈ rs, ArithOK plat.rnd ring.2.length hp.nBlocks ∧
      (∀ i ∈ ring.2, i < cloud.length) ∧ ring.2.length < 2 ^ 64 ∧
      hp.padding + 1 ≤ ring.2.length := by
    intro ring hring
    have hd := hdense ring hring
    have hle := nodup_length_le hd.nodup hd.bounds
    have := hplat.size
    exact ⟨hplat.arith.mono hv.2.2.2.2.2.2.2.le (by omega), hd.bounds, by omega, by
      have := hd.dense; omega⟩
  have hspec : ∀ ring ∈ rs, _ := fun ring hring =>
    ringReport_spec (degree := degree) hv hplat.argsort (hfacts ring hring).1 (hfacts ring hring).2.1
      (hfacts ring hring).2.2.1
  obtain ⟨o, e1, e2, e3⟩ := ringLoopLogged_eq (degree := degree) (cloud := cloud) hv hplat.argsort
    (⟨[], [], []⟩, headLines isDense ringAvailable) hfacts
  rw [e1] at h
  simp only [pure, Except.pure, Except.ok.injEq, Prod.mk.injEq] at h
  obtain ⟨-, hlog⟩ := h
  have hpts : ∀ ring ∈ rs, ∀ q, (q ∈ (contribution plat hp (nodeGeometry degree) cloud
        ring.2).edge.map Prod.fst ∨ q ∈ (contribution plat hp (nodeGeometry degree) cloud
        ring.2).surface.map Prod.fst) →
      ringReport plat hp degree cloud ring.2 = none ∧ q ∈ ringPoints cloud ring.2 := by
    intro ring hring q hq
    have hs := hspec ring hring
    constructor
    · cases hr : ringReport plat hp degree cloud ring.2 with
      | none => rfl
      | some s =>
        rw [hr] at hs
        rw [hs.2] at hq
        simp at hq
    · unfold contribution at hq
      split at hq
      · rcases hq with hq | hq <;>
        · obtain ⟨q', hq', rfl⟩ := List.mem_map.1 hq
          obtain ⟨k, -, hk, -⟩ := mem_select hq'
          exact List.mem_of_getElem? hk
      · simp at hq
  refine ⟨rs.map fun r => (r.1, r.2, ringReport plat hp degree cloud r.2), ?_, ?_, ?_, ?_, ?_, ?_⟩
  · rw [List.map_map]
    exact hkeys
  · intro r idx line hm
    obtain ⟨ring, hring, he⟩ := List.mem_map.1 hm
    simp only [Prod.mk.injEq] at he
    obtain ⟨rfl, rfl, rfl⟩ := he
    have hs := hspec ring hring
    refine ⟨hdense ring hring, ?_, ?_⟩
    · intro s hr
      rw [hr] at hs
      exact hs.1
    · intro hsmall
      cases hr : ringReport plat hp degree cloud ring.2 with
      | some s => rfl
      | none =>
        rw [hr] at hs
        obtain ⟨-, ha, hb, hc⟩ := hs
        rcases hsmall with hs' | hs' | hs'
        · omega
        · omega
        · exact absurd hs' hc
  · intro p hp' hlen
    rw [List.map_map]
    exact hcov p hp' hlen
  · rw [← hlog, e3, List.filterMap_map]
    rfl
  · rw [h5, ← h2, List.map_flatMap, List.flatMap_map]
    simp only [List.flatMap_def]
    congr 1
    refine List.map_congr_left fun ring hring => ?_
    have hs := hspec ring hring
    cases hr : ringReport plat hp degree cloud ring.2 with
    | none => rw [hr] at hs; simpa using hs.1
    | some s => rw [hr] at hs; simp [hs.2]
  · intro q hq
    rw [h3, h4, ← h2] at hq
    simp only [List.map_flatMap, List.mem_flatMap] at hq
    rcases hq with ⟨ring, hring, hq⟩ | ⟨ring, hring, hq⟩
    · obtain ⟨ha, hb⟩ := hpts ring hring q (Or.inl hq)
      exact ⟨ring.1, ring.2, List.mem_map.2 ⟨ring, hring, by rw [ha]⟩, hb⟩
    · obtain ⟨ha, hb⟩ := hpts ring hring q (Or.inr hq)
      exact ⟨ring.1, ring.2, List.mem_map.2 ⟨ring, hring, by rw [ha]⟩, hb⟩

/-! Non-vacuity: the callback returns, publishes one ring and reports the other (over ℚ, where it can be
evaluated); the line is a true reason. -/

/-- `exGeo19` with texts. -/
def exGeo122 : GeometryT (PointXYZIR ℚ) ℚ where
  norm p := |p.x| + |p.y|
  isNb _ _ := .ok true
  less := lessAngle
  ringOf p := p.ring

example : (callbackLogged exPlat19 exHp19 exGeo122 42 true true exCloud19).toOption.map
    (fun e => (e.1.edge.points, e.1.colored.points.length, e.2)) =
    some ([⟨0, 9, 0, 1⟩], 9,
      ["Input array size 2 cannot be smaller than weight size 3".toList]) := by decide +kernel

example (plat : Platform ℝ) (hp : HyperParameters ℝ) (h : hp.padding = 1) (p q : PointXYZIR ℝ) :
    Reason plat hp [p, q] "Input array size 2 cannot be smaller than weight size 3".toList :=
  Reason.few ['2'] ['3'] (by simp only [List.length_cons, List.length_nil]; decide)
    (by rw [h]; decide) (by rw [h]; simp)

/-- The callbacks over ℝ that return are those of C19. -/
example {plat : Platform ℝ} {hp : HyperParameters ℝ} (degree : ℝ) {cloud : List (PointXYZIR ℝ)}
    (hv : hp.Valid) (hplat : PlatformOK plat hp.nBlocks cloud.length)
    (haxis : ∀ a ∈ cloud, ∀ b ∈ cloud, a.ring = b.ring → ¬ SamePositiveAxis a b)
    (stamp : ℤ) (isDense ringAvailable : Bool) :
    ∃ eff log, callbackLogged plat hp (nodeGeometryT degree) stamp isDense ringAvailable cloud =
      .ok (eff, log) := by
  obtain ⟨eff, h, -⟩ := C19_callback_returns_partial degree hv hplat haxis stamp isDense ringAvailable
  rw [← C122_forget] at h
  cases hr : callbackLogged plat hp (nodeGeometryT degree) stamp isDense ringAvailable cloud with
  | error t => rw [hr] at h; simp [forget, Except.map] at h
  | ok o => exact ⟨o.1, o.2, rfl⟩

end Verif.Extraction
