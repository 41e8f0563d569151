/-
The labels of one ring after all passes.
-/
import Verif.Lemmas.Safe
import Verif.Props.C02
import Verif.Model.Callback

set_option autoImplicit false

namespace Verif.Extraction

section Marks
variable {P K : Type} [LinearOrder K]

/-- Every index of the labelled part lies in a block. -/
theorem exists_block {rnd : ℚ → ℚ} {range : IndexRange} (hb : BlocksOK rnd range) {k : ℕ}
    (h1 : range.start ≤ k) (h2 : (k : ℤ) < range.stop) (hn : 0 ≤ range.nBlocks) :
    ∃ j : ℕ, (j : ℤ) < range.nBlocks ∧ range.bnd rnd j ≤ k ∧ k < range.bnd rnd (j + 1) := by
  have key : ∀ m : ℕ, (m : ℤ) ≤ range.nBlocks → k < range.bnd rnd m →
      ∃ j : ℕ, j < m ∧ range.bnd rnd j ≤ k ∧ k < range.bnd rnd (j + 1) := by
    intro m
    induction m with
    | zero =>
      intro _ hk
      have := hb.bnd_eq 0 (by simpa using hn)
      have h0 := hb.first
      push_cast at this
      omega
    | succ m ih =>
      intro hm hk
      by_cases hc : k < range.bnd rnd m
      · obtain ⟨j, h3, h4⟩ := ih (by push_cast at hm; omega) hc
        exact ⟨j, by omega, h4⟩
      · exact ⟨m, by omega, by omega, hk⟩
  have hl := hb.bnd_eq range.nBlocks.toNat (by omega)
  rw [Int.toNat_of_nonneg hn, hb.last] at hl
  obtain ⟨j, h3, h4, h5⟩ := key range.nBlocks.toNat (by omega) (by omega)
  exact ⟨j, by omega, h4, h5⟩

/-- What a successful labelling of a fresh ring marks. -/
theorem assignLabel_marks {rnd : ℚ → ℚ} {argsort : List K → List ℕ} (ha : IsArgsort argsort)
    {p : ℕ} {te ts : K} {n : ℕ} {r : List PointLabel} {curvature : List K}
    {nb : NeighborCheckXY P} {range : IndexRange} {adj : ℕ → Bool} (hb : BlocksOK rnd range)
    (hn : 0 ≤ range.nBlocks) (hstop : range.stop ≤ n)
    (hadj : ∀ m : ℕ, m + 1 < n →
      nb.call m (m + 1) = .ok (adj m) ∧ nb.call ((m : ℤ) + 1) m = .ok (adj m))
    (h : assignLabel rnd argsort p te p ts (initLabels n) curvature nb range = .ok r) (k : ℕ) :
    (r[k]? = some .edge → range.start ≤ k ∧ (k : ℤ) < range.stop ∧
      ∃ c, curvature[k]? = some c ∧ te ≤ c) ∧
    (r[k]? = some .surface → range.start ≤ k ∧ (k : ℤ) < range.stop ∧
      ∃ c, curvature[k]? = some c ∧ c ≤ ts) := by
  have hlen : (initLabels n).length = n := by simp [initLabels]
  obtain ⟨hcl, hns, hl, hout, hblk⟩ := assignLabel_blocks hb (by rw [hlen]; exact hstop) h
  rw [hlen] at hcl hns hl
  have hinit : ∀ k : ℕ, (initLabels n)[k]? ≠ some .edge ∧ (initLabels n)[k]? ≠ some .surface := by
    intro k
    simp only [initLabels, List.getElem?_replicate]
    split_ifs <;> simp
  by_cases hin : range.start ≤ k ∧ (k : ℤ) < range.stop
  swap
  · have : r[k]? = (initLabels n)[k]? := hout k (by omega)
    rw [this]
    exact ⟨fun hc => absurd hc (hinit k).1, fun hc => absurd hc (hinit k).2⟩
  obtain ⟨j, hj, hjk, hkj⟩ := exists_block hb hin.1 hin.2 hn
  have hres := hblk j hj
  generalize hbb : range.bnd rnd j = b at *
  generalize hee : range.bnd rnd (j + 1) = e at *
  have hen : e ≤ n := by
    have h1 := hb.bnd_mono (i := j + 1) (j := range.nBlocks.toNat) (by omega) (by omega)
    have h2 := hb.bnd_eq range.nBlocks.toNat (by omega)
    rw [Int.toNat_of_nonneg hn, hb.last] at h2
    omega
  have hll := slice_length (initLabels n) b e (by omega)
  have hlc := slice_length curvature b e (by omega)
  have hlr := slice_length r b e (by omega)
  cases hsl : nb.slice b e with
  | error x => rw [hsl] at hres; cases hres
  | ok s =>
    rw [hsl] at hres
    have hin1 : PassInput (slice (initLabels n) b e) (slice curvature b e) s.base
        (fun m => adj (b + m)) := by
      refine ⟨by omega, by rw [hll]; exact slice_size hsl, fun m hm => ?_⟩
      have h1 := slice_call hsl m (m + 1) (by omega) (by omega)
      have h2 := slice_call hsl (m + 1) m (by omega) (by omega)
      have h3 := hadj (b + m) (by omega)
      push_cast at h1 h2 h3 ⊢
      simp only [NeighborCheckXY.base]
      rw [h1, h2, ← add_assoc]
      exact h3
    have hne : slice (initLabels n) b e ≠ [] := by
      intro hc; rw [hc] at hll; simp at hll; omega
    have h0 : ∀ k : ℕ, (slice (initLabels n) b e)[k]? ≠ some .edge ∧
        (slice (initLabels n) b e)[k]? ≠ some .surface := by
      intro k
      rw [slice_getElem?]
      split_ifs
      · exact hinit _
      · simp
    obtain ⟨r₁, r₂, h1, h2, h3⟩ := C12_surface_keeps_edges ha p te ts _ _ _ _ hin1 hne h0
    obtain ⟨r₁', h1', hl1, he1, -⟩ := C09_edges_strong_and_separated ha p te _ _ _ _ hin1
      (fun k => (h0 k).1)
    rw [h1] at h1'; injection h1' with h1'; subst h1'
    simp only [blockResult, bind, Except.bind, h1, h2] at hres
    injection hres with hres
    have hs1 : ∀ k : ℕ, r₁[k]? ≠ some .surface := by
      intro k hk
      obtain ⟨r₁', h1'', -, -, hfr⟩ := C10_suppression_justified ha p te _ _ _ _ hin1
        (fun k => (h0 k).1)
      rw [h1] at h1''; injection h1'' with h1''; subst h1''
      have := hfr k (by rw [hk]; simp) (by rw [hk]; simp)
      rw [hk] at this
      exact (h0 k).2 this.symm
    have hin2 : PassInput r₁ (slice curvature b e) s.base (fun m => adj (b + m)) :=
      ⟨by rw [hl1]; exact hin1.1, by rw [hl1]; exact hin1.2, by rw [hl1]; exact hin1.3⟩
    obtain ⟨r₂', h2', -, hsf, -⟩ := C11_surfaces_flat_separated_complete ha p ts r₁ _ _ _ hin2
      (by intro hc; rw [hc] at hl1; simp at hl1; omega) hs1
    rw [h2] at h2'; injection h2' with h2'; subst h2'
    have hrk : r₂[k - b]? = r[k]? := by
      rw [hres, slice_getElem?, if_pos (by omega)]
      congr 1; omega
    have hck : (slice curvature b e)[k - b]? = curvature[k]? := by
      rw [slice_getElem?, if_pos (by omega)]
      congr 1; omega
    rw [← hrk, ← hck]
    refine ⟨fun hk => ⟨hin.1, hin.2, ?_⟩, fun hk => ⟨hin.1, hin.2, ?_⟩⟩
    · exact (he1 _ ((h3 _).1 hk)).2
    · exact (hsf _ hk).2

end Marks

section
variable {P K : Type} [Field K] [LinearOrder K]

/-- Specification: the points of a ring in order. -/
def ringPoints (cloud : List P) (indices : List ℕ) : List P := indices.filterMap fun i => cloud[i]?

/-- Specification: the range of the `k`-th point of a ring. -/
def rangeAt (norm : P → K) (pts : List P) (k : ℕ) : K :=
  match pts[k]? with
  | some p => norm p
  | none => 0

/-- Specification: the `k`-th and the next point of a ring are neighbours. -/
def adjacentAt (isNb : P → P → Res Bool) (pts : List P) (k : ℕ) : Bool :=
  match pts[k]?, pts[k + 1]? with
  | some p, some q => match isNb p q with
    | .ok b => b
    | .error _ => false
  | _, _ => false

/-- Specification: the `k`-th point of the ring `pts` passes every filter. -/
structure PassesFilters (hp : HyperParameters K) (geo : Geometry P K) (pts : List P) (k : ℕ) :
    Prop where
  interior : hp.padding ≤ k ∧ (k : ℤ) + hp.padding < pts.length
  in_range : hp.minRange ≤ rangeAt geo.norm pts k ∧ rangeAt geo.norm pts k ≤ hp.maxRange
  not_occluded : ∀ near far, near < pts.length → far < pts.length →
    Jump (adjacentAt geo.isNb pts) (rangeAt geo.norm pts) hp.distanceDiffThreshold near far →
    ¬ InShadow (adjacentAt geo.isNb pts) hp.padding.toNat near far k
  not_parallel : ¬ (hp.parallelBeamMinRangeRatio * rangeAt geo.norm pts k <
      |rangeAt geo.norm pts (k - 1) - rangeAt geo.norm pts k| ∧
    hp.parallelBeamMinRangeRatio * rangeAt geo.norm pts k <
      |rangeAt geo.norm pts (k + 1) - rangeAt geo.norm pts k|)

/-- What the theorems need of the operations on points; proved for the real geometry. -/
structure GeometryOK (geo : Geometry P K) : Prop where
  norm_nonneg : ∀ p, 0 ≤ geo.norm p
  nb_symm : ∀ p q, geo.isNb p q = geo.isNb q p
  nb_err : ∀ p q e, geo.isNb p q = .error e → e = .invalidArgument

omit [Field K] [LinearOrder K] in
theorem ringPoints_getElem? {cloud : List P} : ∀ {indices : List ℕ},
    (∀ i ∈ indices, i < cloud.length) →
    (ringPoints cloud indices).length = indices.length ∧
    ∀ k : ℕ, (ringPoints cloud indices)[k]? = indices[k]?.bind (cloud[·]?)
  | [], _ => by simp [ringPoints]
  | i :: is, h => by
    obtain ⟨h1, h2⟩ := ringPoints_getElem? (fun j hj => h j (List.mem_cons_of_mem _ hj))
    have hi : cloud[i]? = some (cloud[i]'(h i List.mem_cons_self)) := by simp
    have : ringPoints cloud (i :: is) = cloud[i]'(h i List.mem_cons_self) :: ringPoints cloud is := by
      simp only [ringPoints, List.filterMap_cons, hi]
    refine ⟨by rw [this]; simp [h1], fun k => ?_⟩
    rw [this]
    cases k with
    | zero => simp
    | succ k => simpa using h2 k

omit [Field K] [LinearOrder K] in
theorem ref_at {cloud : List P} {indices : List ℕ} (h : ∀ i ∈ indices, i < cloud.length) {k : ℕ}
    (hk : k < indices.length) :
    MappedPoints.at ⟨cloud, indices⟩ (k : ℤ) =
      .ok ((ringPoints cloud indices)[k]'(by rw [(ringPoints_getElem? h).1]; exact hk)) := by
  have hi : indices[k] < cloud.length := h _ (List.getElem_mem hk)
  have := (ringPoints_getElem? h).2 k
  rw [List.getElem?_eq_getElem (by rw [(ringPoints_getElem? h).1]; exact hk),
    List.getElem?_eq_getElem hk] at this
  simp only [Option.bind_some, List.getElem?_eq_getElem hi, Option.some.injEq] at this
  simp only [MappedPoints.at, atI_ok hk, bind, Except.bind, atI_ok hi, this]

omit [LinearOrder K] in
theorem rangeAt_eq (norm : P → K) {pts : List P} {k : ℕ} (h : k < pts.length) :
    rangeAt norm pts k = norm pts[k] := by simp [rangeAt, h]

theorem ArithOK.mono {rnd : ℚ → ℚ} {size size' nBlocks : ℤ} (h : ArithOK rnd size nBlocks)
    (hn : 0 ≤ nBlocks) (hle : size' ≤ size) : ArithOK rnd size' nBlocks := by
  rcases h with h | ⟨h1, h2, h3⟩
  · exact Or.inl h
  · exact Or.inr ⟨h1, by omega, le_trans (mul_le_mul_of_nonneg_right hle hn) h3⟩

set_option maxHeartbeats 1000000 in
/-- The labels of one ring: the only failure is `invalid_argument`; on success every `Edge` and
`Surface` point passes the filters and has the right smoothness. -/
theorem ringLabels_spec [IsStrictOrderedRing K] {plat : Platform K} {hp : HyperParameters K}
    {geo : Geometry P K} {cloud : List P} {indices : List ℕ} (hgeo : GeometryOK geo)
    (hv : hp.Valid) (harg : IsArgsort plat.argsort)
    (harith : ArithOK plat.rnd indices.length hp.nBlocks)
    (hin : ∀ i ∈ indices, i < cloud.length) (h64 : indices.length < 2 ^ 64) :
    Safe (ringLabels plat hp ⟨⟨cloud, indices⟩, geo.isNb⟩ ⟨⟨cloud, indices⟩, geo.norm⟩) fun lc =>
      lc.1.length = indices.length ∧ lc.2.length = indices.length ∧
      ∀ k : ℕ, (lc.1[k]? = some .edge → PassesFilters hp geo (ringPoints cloud indices) k ∧
          ∃ c, lc.2[k]? = some c ∧ hp.edgeThreshold ≤ c ∧
            c = smoothness (rangeAt geo.norm (ringPoints cloud indices)) hp.padding.toNat k) ∧
        (lc.1[k]? = some .surface → PassesFilters hp geo (ringPoints cloud indices) k ∧
          ∃ c, lc.2[k]? = some c ∧ c ≤ hp.surfaceThreshold ∧
            c = smoothness (rangeAt geo.norm (ringPoints cloud indices)) hp.padding.toNat k) := by
  obtain ⟨hp0, -, -, -, -, -, -, hnb0⟩ := hv
  obtain ⟨p, hpp⟩ := Int.eq_ofNat_of_zero_le hp0.le
  obtain ⟨hlp, hpts⟩ := ringPoints_getElem? hin
  set pts := ringPoints cloud indices with hptsdef
  set n := indices.length with hn
  set nb : NeighborCheckXY P := ⟨⟨cloud, indices⟩, geo.isNb⟩ with hnbdef
  set range : Range P K := ⟨⟨cloud, indices⟩, geo.norm⟩ with hrdef
  set rg := rangeAt geo.norm pts with hrg
  set adj := adjacentAt geo.isNb pts with hadj
  have hnbs : nb.size = n := rfl
  have hrs : range.size = n := rfl
  have hcall : ∀ i j : ℕ, (hi : i < n) → (hj : j < n) →
      nb.call i j = geo.isNb (pts[i]'(by omega)) (pts[j]'(by omega)) := by
    intro i j hi hj
    rw [call_eq hi hj]
    simp only [hnbdef, ref_at hin hi, ref_at hin hj, bind, Except.bind, hptsdef]
  have hsafe : SafeNb nb.base n := by
    intro i j hi hj
    refine Safe.of_err (fun e he => ?_) (fun _ _ => trivial)
    change nb.call i j = _ at he
    rw [hcall i j hi hj] at he
    exact hgeo.nb_err _ _ e he
  have hrange : ∀ m : ℕ, m < n → range.call m = .ok (rg m) := by
    intro m hm
    simp only [Range.call, hrdef, ref_at hin hm, bind, Except.bind, pure, Except.pure, hrg]
    rw [rangeAt_eq _ (by omega)]
  have hnn : ∀ k, k < n → 0 ≤ rg k := by
    intro k hk; rw [hrg, rangeAt_eq _ (by omega)]; exact hgeo.norm_nonneg _
  have hint : range.interval 0 n = .ok ((List.range n).map rg) := by
    simp only [Range.interval]
    rw [if_neg (by omega)]
    have : ((n : ℤ) - 0).toNat = n := by omega
    rw [this]
    exact mapM_range_ok n (fun i hi => hrange i hi)
  simp only [ringLabels, hrs]
  rw [hint]
  simp only [bind, Except.bind, hpp]
  have hp' : 0 < p := by omega
  rw [calcCurvature_eq rg n p hp']
  by_cases hsz : n < 2 * p + 1
  · rw [if_pos hsz]; exact rfl
  rw [if_neg hsz]
  simp only []
  set curv : List K := (List.range n).map fun i =>
    if p ≤ i ∧ i + p < n then smoothness rg p i else 0 with hcurv
  have hcl : curv.length = n := by simp [hcurv]
  cases hmk : PaddedIndexRange.make (n : ℤ) hp.nBlocks p with
  | error e =>
    simp only [PaddedIndexRange.make, IndexRange.make] at hmk
    split_ifs at hmk
    injection hmk with hmk
    exact hmk.symm
  | ok ir =>
    simp only []
    have hil : (initLabels n).length = n := by simp [initLabels]
    obtain ⟨hblk, hst, hsp, hnbk⟩ := padded_blocksOK (by omega) hnb0 harith hmk
    have hbaseidx : nb.ref.indices.length = n := rfl
    rw [hbaseidx]
    have h1 := assignLabel_safe harg (pe := p) (ps := p) (te := hp.edgeThreshold)
      (ts := hp.surfaceThreshold) (labels := initLabels n) (curvature := curv) (nb := nb) hblk
      (by rw [hil]; omega) (by rw [hil]; exact hcl) (by rw [hil]) (by rw [hil]; exact hsafe)
    cases hA : assignLabel plat.rnd plat.argsort p hp.edgeThreshold p hp.surfaceThreshold
        (initLabels n) curv nb ir with
    | error e => rw [hA] at h1; exact h1
    | ok l₁ =>
      rw [hA] at h1
      have hl₁ : l₁.length = n := by simpa [Safe, hil] using h1
      simp only [Int.toNat_natCast]
      have h2 := labelOccludedPoints_safe (nb := nb) (range := range) (labels := l₁) (padding := p)
        (t := hp.distanceDiffThreshold) (rg := rg) (by rw [hl₁]; exact hnbs)
        (by rw [hl₁]; exact hsafe) (by rw [hl₁]; exact hrange) (by omega) (by omega)
      cases hO : labelOccludedPoints l₁ nb range p hp.distanceDiffThreshold with
      | error e => rw [hO] at h2; exact h2
      | ok l₂ =>
        have htests := labelOccludedPoints_tests (by omega) (by omega) hO
        rw [hl₁] at htests
        have hadjok : ∀ m : ℕ, m + 1 < n →
            nb.call m (m + 1) = .ok (adj m) ∧ nb.call ((m : ℤ) + 1) m = .ok (adj m) := by
          intro m hm
          have c1 := hcall m (m + 1) (by omega) hm
          have c2 := hcall (m + 1) m hm (by omega)
          push_cast at c1 c2
          have hok : ∃ a, geo.isNb (pts[m]'(by omega)) (pts[m + 1]'(by omega)) = .ok a := by
            rcases htests m hm with ⟨a, ha⟩ | ⟨a, ha⟩
            · exact ⟨a, c1.symm.trans ha⟩
            · rw [c2, hgeo.nb_symm] at ha; exact ⟨a, ha⟩
          obtain ⟨a, ha⟩ := hok
          have hadja : adj m = a := by
            have e1 : pts[m]? = some (pts[m]'(by omega)) := by
              rw [List.getElem?_eq_getElem]
            have e2 : pts[m + 1]? = some (pts[m + 1]'(by omega)) := by
              rw [List.getElem?_eq_getElem]
            simp only [hadj, adjacentAt, e1, e2, ha]
          rw [c1, c2, hgeo.nb_symm (pts[m + 1]'(by omega)), ha, hadja]
          exact ⟨rfl, rfl⟩
        have hri : RingInput nb range n adj rg := ⟨hnbs, hrs, hadjok, hrange⟩
        obtain ⟨l₂', hO', ho₂⟩ := C14_occlusion_exact l₁ nb range p hp.distanceDiffThreshold adj rg
          (by rw [hl₁]; exact hri) (by omega) (by omega)
        rw [hO] at hO'; injection hO' with hO'; subst hO'
        have hl₂ : l₂.length = n := by rw [ho₂.1, hl₁]
        obtain ⟨l₃, hR, ho₃⟩ := C15_out_of_range_exact l₂ nb range hp.minRange hp.maxRange adj rg
          (by rw [hl₂]; exact hri)
        have hl₃ : l₃.length = n := by rw [ho₃.1, hl₂]
        obtain ⟨l₄, hB, ho₄⟩ := C16_parallel_beam_exact l₃ nb range hp.parallelBeamMinRangeRatio
          adj rg (by rw [hl₃]; exact hri) (by intro hc; rw [hc] at hl₃; simp at hl₃; omega)
          (by rw [hl₃]; exact hnn)
        have hl₄ : l₄.length = n := by rw [ho₄.1, hl₃]
        simp only [hR, hB]
        rw [if_neg (by rw [hcl]; simp [MappedPoints.size, hnbdef, hn])]
        refine ⟨hl₄, hcl, fun k => ?_⟩
        -- a label that is neither of the three filter labels comes from the labelling
        have hback : ∀ L : PointLabel, L ≠ .occluded → L ≠ .outOfRange → L ≠ .parallelBeam →
            l₄[k]? = some L → l₁[k]? = some L ∧ (p ≤ k → k + p < n →
              PassesFilters hp geo pts k) := by
          intro L n1 n2 n3 hk
          have hkn : k < n := by
            by_contra hge
            rw [List.getElem?_eq_none (by omega)] at hk; cases hk
          have s4 := ho₄.2 k (by omega)
          have s3 := ho₃.2 k (by omega)
          have s2 := ho₂.2 k (by omega)
          rw [hl₃] at s4
          have q4 : ¬ (1 ≤ k ∧ k + 1 < n ∧
              hp.parallelBeamMinRangeRatio * rg k < |rg (k - 1) - rg k| ∧
              hp.parallelBeamMinRangeRatio * rg k < |rg (k + 1) - rg k|) := by
            intro hc
            have := s4.1 hc
            rw [hk] at this; injection this with this; exact n3 this
          have k3 : l₃[k]? = some L := by rw [← s4.2 q4]; exact hk
          have q3 : ¬ (rg k < hp.minRange ∨ hp.maxRange < rg k) := by
            intro hc
            have := s3.1 hc
            rw [k3] at this; injection this with this; exact n2 this
          have k2 : l₂[k]? = some L := by rw [← s3.2 q3]; exact k3
          have q2 : ¬ ∃ near far, Jump adj rg hp.distanceDiffThreshold near far ∧
              WindowFits l₁.length p near far ∧ InShadow adj p near far k := by
            intro hc
            have := s2.1 hc
            rw [k2] at this; injection this with this; exact n1 this
          have k1 : l₁[k]? = some L := by rw [← s2.2 q2]; exact k2
          refine ⟨k1, fun hk1 hk2 => ?_⟩
          push Not at q3
          constructor
          · rw [hlp]; omega
          · exact q3
          · intro near far hnear hfar hj hs
            rw [hpp] at hs
            simp only [Int.toNat_natCast] at hs
            refine q2 ⟨near, far, hj, ?_, hs⟩
            rw [hlp] at hnear hfar
            rcases hs.1 with h3 | h3
            · exact Or.inl ⟨h3.1, by omega⟩
            · exact Or.inr ⟨h3.1, by omega, by omega⟩
          · rintro ⟨h3, h4⟩
            exact q4 ⟨by omega, by omega, h3, h4⟩
        have hmarks := assignLabel_marks harg hblk (by omega) (by omega) hadjok hA k
        rw [hst, hsp] at hmarks
        have hck : p ≤ k → k + p < n → curv[k]? = some (smoothness rg p k) := by
          intro h3 h4
          have : k < n := by omega
          simp [hcurv, this, h3, h4]
        constructor
        · intro hk
          obtain ⟨k1, hf⟩ := hback .edge (by simp) (by simp) (by simp) hk
          obtain ⟨m1, m2, c, hc, hct⟩ := hmarks.1 k1
          refine ⟨hf (by omega) (by omega), c, hc, hct, ?_⟩
          exact Option.some.inj (hc.symm.trans (hck (by omega) (by omega)))
        · intro hk
          obtain ⟨k1, hf⟩ := hback .surface (by simp) (by simp) (by simp) hk
          obtain ⟨m1, m2, c, hc, hct⟩ := hmarks.2 k1
          refine ⟨hf (by omega) (by omega), c, hc, hct, ?_⟩
          exact Option.some.inj (hc.symm.trans (hck (by omega) (by omega)))

end

end Verif.Extraction
