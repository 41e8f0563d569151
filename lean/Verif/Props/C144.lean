/-
C144: how many points a ring needs for features to be taken from it.
-/
import Verif.Props.C03R
import Verif.Props.C110
import Verif.Props.C122
import Verif.Props.C130

set_option autoImplicit false

namespace Verif.Extraction

/-- Specification: the number of points of a ring. -/
def ringCount (cloud : List (PointXYZIR ℝ)) (r : ℤ) : ℕ := (cloud.filter fun q => q.ring = r).length

/-- Specification: no point of the ring lies above, below or in the sensor. -/
def RingOffAxis (cloud : List (PointXYZIR ℝ)) (r : ℤ) : Prop := ∀ q ∈ cloud, q.ring = r → ¬ (q.x = 0 ∧ q.y = 0)

/-- Specification: all points of the ring are published in the coloured cloud. -/
def Used (cloud : List (PointXYZIR ℝ)) (r : ℤ) (eff : CallbackEffect (PointXYZIR ℝ)) : Prop :=
  ((eff.colored.points.map Prod.fst).filter fun q => q.ring = r).Perm (cloud.filter fun q => q.ring = r)

/-- Specification: no point of the ring is published in any cloud. -/
def Unused (r : ℤ) (eff : CallbackEffect (PointXYZIR ℝ)) : Prop :=
  (∀ q ∈ eff.colored.points, q.1.ring ≠ r) ∧ (∀ q ∈ eff.edge.points, q.ring ≠ r) ∧ ∀ q ∈ eff.surface.points, q.ring ≠ r

/-! ### Blocks -/

/-- With fewer than two points per block some block is short. -/
theorem short_of_few {plat : Platform ℝ} {hp : HyperParameters ℝ} (hv : hp.Valid) {n : ℕ}
    (harith : ArithOK plat.rnd n hp.nBlocks) (hlt : (n : ℤ) < 2 * hp.padding + 2 * hp.nBlocks) :
    (n : ℤ) - 2 * hp.padding < hp.nBlocks ∨ HasShortBlock plat hp n := by
  by_contra hc
  push Not at hc
  obtain ⟨h1, h2⟩ := hc
  have hp0 := hv.1
  have hn0 := hv.2.2.2.2.2.2.2
  have hmk : PaddedIndexRange.make (n : ℤ) hp.nBlocks hp.padding =
      .ok ⟨hp.padding, n - hp.padding, hp.nBlocks⟩ := by
    simp only [PaddedIndexRange.make, IndexRange.make]
    rw [if_neg (by omega)]
  obtain ⟨hB, -⟩ := padded_blocksOK hp0.le hn0 harith hmk
  have key : ∀ j : ℕ, (j : ℤ) ≤ hp.nBlocks →
      hp.padding + 2 * j ≤ IndexRange.boundaryWith plat.rnd ⟨hp.padding, n - hp.padding, hp.nBlocks⟩ j := by
    intro j
    induction j with
    | zero =>
      intro _
      have := hB.first
      simp only at this
      push_cast
      omega
    | succ j ih =>
      intro hj
      push_cast at hj
      have hj' := ih (by omega)
      by_contra hlt'
      refine h2 ⟨j, _, _, begin_ok (by omega) (by simp only; omega), end_ok (by omega) (by simp only; omega), ?_⟩
      push_cast at hlt'
      omega
  have := key hp.nBlocks.toNat (by omega)
  rw [Int.toNat_of_nonneg hn0.le] at this
  have hl := hB.last
  simp only at hl
  omega

/-- In exact arithmetic two points per block are enough. -/
theorem no_short_exact {plat : Platform ℝ} {hp : HyperParameters ℝ} (hv : hp.Valid) {n : ℕ} (hr : plat.rnd = id)
    (hle : 2 * hp.padding + 2 * hp.nBlocks ≤ n) : ¬ HasShortBlock plat hp n := by
  rintro ⟨j, b, e, hb, he, hlt⟩
  have hp0 := hv.1
  have hn0 := hv.2.2.2.2.2.2.2
  rw [hr] at hb he
  have hj : 0 ≤ j ∧ j < hp.nBlocks := by
    by_contra hc
    rw [((C03_block_number_checked id ⟨hp.padding, n - hp.padding, hp.nBlocks⟩ j .outOfRange).1).2 ⟨rfl, hc⟩] at hb
    cases hb
  rw [begin_ok hj.1 hj.2, boundary_exact _ _ hp0.le (by simp only; omega) hn0 hj.1] at hb
  rw [end_ok hj.1 hj.2, boundary_exact _ _ hp0.le (by simp only; omega) hn0 (by omega)] at he
  simp only at hb he
  injection hb with hb
  injection he with he
  generalize hL : (n : ℤ) - hp.padding - hp.padding = L at *
  have h1 : L * j / hp.nBlocks + 2 ≤ L * (j + 1) / hp.nBlocks := by
    rw [← Int.add_mul_ediv_right _ _ hn0.ne']
    refine Int.ediv_le_ediv hn0 ?_
    have : 2 * hp.nBlocks ≤ L := by omega
    linarith
  omega

/-- With the rounding of `double` one point more is enough. -/
theorem no_short_rounded {plat : Platform ℝ} {hp : HyperParameters ℝ} (hv : hp.Valid) {n : ℕ}
    (hr : IsDoubleRounding plat.rnd) (hn : (n : ℤ) ≤ 2 ^ 31) (hnb : n * hp.nBlocks ≤ 2 ^ 49)
    (hlt : 2 * hp.padding + 2 * hp.nBlocks < n) : ¬ HasShortBlock plat hp n := by
  rintro ⟨j, b, e, hb, he, hlt'⟩
  have hp0 := hv.1
  have hn0 := hv.2.2.2.2.2.2.2
  have hj : 0 ≤ j ∧ j < hp.nBlocks := by
    by_contra hc
    rw [((C03_block_number_checked plat.rnd ⟨hp.padding, n - hp.padding, hp.nBlocks⟩ j .outOfRange).1).2 ⟨rfl, hc⟩] at hb
    cases hb
  rw [begin_ok hj.1 hj.2] at hb
  rw [end_ok hj.1 hj.2] at he
  injection hb with hb
  injection he with he
  have hen : ((n : ℤ) - hp.padding) * hp.nBlocks ≤ 2 ^ 49 := by nlinarith
  obtain ⟨a, b'⟩ := block_length_rounded hr hp.padding (n - hp.padding) hp.nBlocks j hp0.le hn0 (by omega) (by omega)
    hen hj.1 hj.2
  generalize hL : (n : ℤ) - hp.padding - hp.padding = L at *
  by_cases hd : hp.nBlocks ∣ L
  · obtain ⟨k, hk⟩ := hd
    have hk2 : 3 ≤ k := by
      by_contra hc
      have : k ≤ 2 := by omega
      nlinarith
    have hq : L / hp.nBlocks = k := by rw [hk, Int.mul_ediv_cancel_left _ hn0.ne']
    have := (b' ⟨k, hk⟩).1
    omega
  · have := (a hd).1
    have hq : 2 ≤ L / hp.nBlocks := by
      rw [Int.le_ediv_iff_mul_le hn0]
      omega
    omega

/-! ### The callback -/

/-- A ring with points off the axis is used if all its blocks have two points, and not otherwise. -/
theorem used_iff {plat : Platform ℝ} {hp : HyperParameters ℝ} (degree : ℝ) {cloud : List (PointXYZIR ℝ)}
    (hv : hp.Valid) (hplat : PlatformOK plat hp.nBlocks cloud.length) {stamp : ℤ} {isDense ringAvailable : Bool}
    {eff : CallbackEffect (PointXYZIR ℝ)}
    (h : callback plat hp (nodeGeometry degree) stamp isDense ringAvailable cloud = .ok eff) (r : ℤ) :
    (RingOffAxis cloud r → 2 * hp.padding + 2 * hp.nBlocks ≤ ringCount cloud r →
      ¬ HasShortBlock plat hp (ringCount cloud r) → Used cloud r eff) ∧
    (ringCount cloud r - 2 * hp.padding < hp.nBlocks ∨ HasShortBlock plat hp (ringCount cloud r) → Unused r eff) := by
  have hp0 := hv.1
  have hn0 := hv.2.2.2.2.2.2.2
  rw [← C122_forget] at h
  cases hl : callbackLogged plat hp (nodeGeometryT degree) stamp isDense ringAvailable cloud with
  | error t => rw [hl] at h; simp [forget, Except.map] at h
  | ok o =>
    obtain ⟨eff', log⟩ := o
    rw [hl] at h
    simp only [forget, Except.map, Except.ok.injEq] at h
    subst h
    obtain ⟨rings, hnd, hrings, hcov, -, hcol, hother⟩ := C122_reported degree hv hplat hl
    have hpiece : ∀ ri ∈ rings, ∀ q ∈ (if ri.2.2.isNone then ringPoints cloud ri.2.1 else []), q.ring = ri.1 := by
      intro ri hri q hq
      split_ifs at hq
      · have := (hrings ri.1 ri.2.1 ri.2.2 hri).1.perm.mem_iff.1 hq
        exact of_decide_eq_true (List.mem_filter.1 this).2
      · cases hq
    have hlen : ∀ ri ∈ rings, ri.2.1.length = ringCount cloud ri.1 := by
      intro ri hri
      have hd := (hrings ri.1 ri.2.1 ri.2.2 hri).1
      rw [← (ringPoints_getElem? hd.bounds).1, hd.perm.length_eq]
      rfl
    constructor
    · intro hoff hcount hshort
      have hpos : 0 < ringCount cloud r := by omega
      obtain ⟨q, hq⟩ := List.exists_mem_of_length_pos hpos
      obtain ⟨hq1, hq2⟩ := List.mem_filter.1 hq
      simp only [decide_eq_true_eq] at hq2
      have hin := hcov q hq1 (by rw [hq2]; change hp.padding < ringCount cloud r; omega)
      rw [hq2] at hin
      obtain ⟨ri, hri, hri1⟩ := List.mem_map.1 hin
      obtain ⟨hd, hreason, -⟩ := hrings ri.1 ri.2.1 ri.2.2 hri
      have hlr := hlen ri hri
      rw [hri1] at hd hlr
      have hpl := (ringPoints_getElem? hd.bounds).1
      have hnone : ri.2.2 = none := by
        rcases hline : ri.2.2 with _ | s
        · rfl
        exfalso
        have hz := hreason s hline
        generalize hpts : ringPoints cloud ri.2.1 = pts at *
        cases hz with
        | few _ _ _ _ hc => omega
        | blocks _ _ _ _ hc => omega
        | block _ j b e hb he _ hc =>
          rw [hpl, hlr] at hb he
          exact hshort ⟨j, b, e, hb, he, hc⟩
        | zero k a b ha _ hc =>
          have hm := hd.perm.mem_iff.1 (by rw [hpts]; exact List.mem_of_getElem? ha)
          obtain ⟨hm1, hm2⟩ := List.mem_filter.1 hm
          exact hoff a hm1 (of_decide_eq_true hm2) ⟨hc.1, hc.2.1⟩
      have hfil := filter_flatMap_piece (ringOf := fun q : PointXYZIR ℝ => q.ring) hnd hpiece hri
      rw [← hcol, hri1] at hfil
      unfold Used
      rw [hfil, hnone]
      exact hd.perm
    · intro hshort
      have hno : ∀ ri ∈ rings, ri.1 = r → ri.2.2 ≠ none := by
        intro ri hri hri1 hnone
        have := (hrings ri.1 ri.2.1 ri.2.2 hri).2.2 (by
          right
          rw [hlen ri hri, hri1]
          exact hshort)
        rw [hnone] at this
        cases this
      refine ⟨?_, ?_, ?_⟩
      · intro q hq hqr
        have : q.1 ∈ eff'.colored.points.map Prod.fst := List.mem_map_of_mem hq
        rw [hcol] at this
        obtain ⟨ri, hri, hqi⟩ := List.mem_flatMap.1 this
        have hr1 := hpiece ri hri _ hqi
        split_ifs at hqi with hnone
        · exact hno ri hri (by omega) (by simpa using hnone)
        · cases hqi
      · intro q hq hqr
        obtain ⟨r', idx, hri, hqi⟩ := hother q (.inl hq)
        have hr1 := hpiece _ hri q (by simpa using hqi)
        exact hno _ hri (by simp only at hr1 ⊢; omega) rfl
      · intro q hq hqr
        obtain ⟨r', idx, hri, hqi⟩ := hother q (.inr hq)
        have hr1 := hpiece _ hri q (by simpa using hqi)
        exact hno _ hri (by simp only at hr1 ⊢; omega) rfl

/-- C144, too few: of a ring with fewer than `2 * padding + 2 * n_blocks` points nothing is published. -/
theorem C144_too_few {plat : Platform ℝ} {hp : HyperParameters ℝ} (degree : ℝ) {cloud : List (PointXYZIR ℝ)}
    (hv : hp.Valid) (hplat : PlatformOK plat hp.nBlocks cloud.length) {stamp : ℤ} {isDense ringAvailable : Bool}
    {eff : CallbackEffect (PointXYZIR ℝ)}
    (h : callback plat hp (nodeGeometry degree) stamp isDense ringAvailable cloud = .ok eff) (r : ℤ)
    (hfew : (ringCount cloud r : ℤ) < 2 * hp.padding + 2 * hp.nBlocks) : Unused r eff := by
  have hle : ringCount cloud r ≤ cloud.length := List.length_filter_le _ _
  exact (used_iff degree hv hplat h r).2 (short_of_few hv
    (hplat.arith.mono hv.2.2.2.2.2.2.2.le (by exact_mod_cast hle)) hfew)

/-- C144 in exact arithmetic: all points of a ring off the axis with as many points or more are published. -/
theorem C144_enough {plat : Platform ℝ} {hp : HyperParameters ℝ} (degree : ℝ) {cloud : List (PointXYZIR ℝ)}
    (hv : hp.Valid) (hplat : PlatformOK plat hp.nBlocks cloud.length) (hr : plat.rnd = id) {stamp : ℤ}
    {isDense ringAvailable : Bool} {eff : CallbackEffect (PointXYZIR ℝ)}
    (h : callback plat hp (nodeGeometry degree) stamp isDense ringAvailable cloud = .ok eff) (r : ℤ)
    (hoff : RingOffAxis cloud r) (hmany : 2 * hp.padding + 2 * hp.nBlocks ≤ ringCount cloud r) : Used cloud r eff :=
  (used_iff degree hv hplat h r).1 hoff hmany (no_short_exact hv hr hmany)

/-- C144 with the rounding of `double`: one point more is enough. Missing: the ring with exactly
`2 * padding + 2 * n_blocks` points, which may be left out (`C144_rounded_violated`). -/
theorem C144_rounded_partial {plat : Platform ℝ} {hp : HyperParameters ℝ} (degree : ℝ) {cloud : List (PointXYZIR ℝ)}
    (hv : hp.Valid) (hplat : PlatformOK plat hp.nBlocks cloud.length) (hr : IsDoubleRounding plat.rnd)
    (hn : (cloud.length : ℤ) ≤ 2 ^ 31) (hnb : cloud.length * hp.nBlocks ≤ 2 ^ 49) {stamp : ℤ}
    {isDense ringAvailable : Bool} {eff : CallbackEffect (PointXYZIR ℝ)}
    (h : callback plat hp (nodeGeometry degree) stamp isDense ringAvailable cloud = .ok eff) (r : ℤ)
    (hoff : RingOffAxis cloud r) (hmany : 2 * hp.padding + 2 * hp.nBlocks < ringCount cloud r) : Used cloud r eff := by
  have hle : (ringCount cloud r : ℤ) ≤ cloud.length := by exact_mod_cast List.length_filter_le _ _
  have hn0 := hv.2.2.2.2.2.2.2
  exact (used_iff degree hv hplat h r).1 hoff hmany.le (no_short_rounded hv hr (by omega)
    (le_trans (mul_le_mul_of_nonneg_right hle hn0.le) hnb) hmany)

/-! ### Exactly two points per block -/

theorem boundary_18_3 {rnd : ℚ → ℚ} (h : IsDouble rnd) : IndexRange.boundaryWith rnd ⟨18, 28, 5⟩ 3 = 24 := by
  have a : rnd (3 / 5) = (5404319552844595 * 2 ^ (-53 : ℤ) : ℚ) := by
    simpa using h.eq_of (x := 3 / 5) 5404319552844595 (-53) (by norm_num) (by norm_num) (by norm_num [abs_lt])
  have b : rnd (1 - (5404319552844595 * 2 ^ (-53 : ℤ) : ℚ)) = (7205759403792794 * 2 ^ (-54 : ℤ) : ℚ) := by
    simpa using h.eq_of (x := 1 - (5404319552844595 * 2 ^ (-53 : ℤ) : ℚ)) 7205759403792794 (-54) (by norm_num) (by norm_num) (by norm_num [abs_lt])
  have c : rnd (18 * (7205759403792794 * 2 ^ (-54 : ℤ) : ℚ)) = (8106479329266893 * 2 ^ (-50 : ℤ) : ℚ) := by
    simpa using h.eq_of (x := 18 * (7205759403792794 * 2 ^ (-54 : ℤ) : ℚ)) 8106479329266893 (-50) (by norm_num) (by norm_num) (by norm_num [abs_lt])
  have g : rnd (28 * 3) = 84 := by
    have := h.isDoubleRounding.int 84 (by norm_num)
    norm_num at this ⊢
    exact this
  have f : rnd (84 / 5) = (4728779608739021 * 2 ^ (-48 : ℤ) : ℚ) := by
    simpa using h.eq_of (x := 84 / 5) 4728779608739021 (-48) (by norm_num) (by norm_num) (by norm_num [abs_lt])
  have v : rnd ((8106479329266893 * 2 ^ (-50 : ℤ) : ℚ) + (4728779608739021 * 2 ^ (-48 : ℤ) : ℚ)) = (6755399441055744 * 2 ^ (-48 : ℤ) : ℚ) := by
    simpa using h.eq_of (x := (8106479329266893 * 2 ^ (-50 : ℤ) : ℚ) + (4728779608739021 * 2 ^ (-48 : ℤ) : ℚ)) 6755399441055744 (-48) (by norm_num) (by norm_num) (by norm_num [abs_lt])
  simp only [IndexRange.boundaryWith]
  push_cast
  rw [a, b, c, g, f, v]
  unfold truncToInt
  rw [if_pos (by positivity), Int.floor_eq_iff]
  norm_num

theorem boundary_18_4 {rnd : ℚ → ℚ} (h : IsDouble rnd) : IndexRange.boundaryWith rnd ⟨18, 28, 5⟩ 4 = 25 := by
  have a : rnd (4 / 5) = (7205759403792794 * 2 ^ (-53 : ℤ) : ℚ) := by
    simpa using h.eq_of (x := 4 / 5) 7205759403792794 (-53) (by norm_num) (by norm_num) (by norm_num [abs_lt])
  have b : rnd (1 - (7205759403792794 * 2 ^ (-53 : ℤ) : ℚ)) = (7205759403792792 * 2 ^ (-55 : ℤ) : ℚ) := by
    simpa using h.eq_of (x := 1 - (7205759403792794 * 2 ^ (-53 : ℤ) : ℚ)) 7205759403792792 (-55) (by norm_num) (by norm_num) (by norm_num [abs_lt])
  have c : rnd (18 * (7205759403792792 * 2 ^ (-55 : ℤ) : ℚ)) = (8106479329266891 * 2 ^ (-51 : ℤ) : ℚ) := by
    simpa using h.eq_of (x := 18 * (7205759403792792 * 2 ^ (-55 : ℤ) : ℚ)) 8106479329266891 (-51) (by norm_num) (by norm_num) (by norm_num [abs_lt])
  have g : rnd (28 * 4) = 112 := by
    have := h.isDoubleRounding.int 112 (by norm_num)
    norm_num at this ⊢
    exact this
  have f : rnd (112 / 5) = (6305039478318694 * 2 ^ (-48 : ℤ) : ℚ) := by
    simpa using h.eq_of (x := 112 / 5) 6305039478318694 (-48) (by norm_num) (by norm_num) (by norm_num [abs_lt])
  have v : rnd ((8106479329266891 * 2 ^ (-51 : ℤ) : ℚ) + (6305039478318694 * 2 ^ (-48 : ℤ) : ℚ)) = (7318349394477055 * 2 ^ (-48 : ℤ) : ℚ) := by
    simpa using h.eq_of (x := (8106479329266891 * 2 ^ (-51 : ℤ) : ℚ) + (6305039478318694 * 2 ^ (-48 : ℤ) : ℚ)) 7318349394477055 (-48) (by norm_num) (by norm_num) (by norm_num [abs_lt])
  simp only [IndexRange.boundaryWith]
  push_cast
  rw [a, b, c, g, f, v]
  unfold truncToInt
  rw [if_pos (by positivity), Int.floor_eq_iff]
  norm_num

/-- C144 is false with the rounding of the code for exactly two points per block: with five blocks and padding
18, nothing of a ring of 46 points is published. -/
theorem C144_rounded_violated {plat : Platform ℝ} {hp : HyperParameters ℝ} (degree : ℝ) {cloud : List (PointXYZIR ℝ)}
    (hv : hp.Valid) (hplat : PlatformOK plat hp.nBlocks cloud.length) (hr : IsDouble plat.rnd)
    (hpad : hp.padding = 18) (hblocks : hp.nBlocks = 5) {stamp : ℤ}
    {isDense ringAvailable : Bool} {eff : CallbackEffect (PointXYZIR ℝ)}
    (h : callback plat hp (nodeGeometry degree) stamp isDense ringAvailable cloud = .ok eff) (r : ℤ)
    (hcount : ringCount cloud r = 46) : 2 * hp.padding + 2 * hp.nBlocks ≤ ringCount cloud r ∧ Unused r eff := by
  refine ⟨by rw [hpad, hblocks, hcount]; norm_num, (used_iff degree hv hplat h r).2 (.inr ⟨3, 24, 25, ?_, ?_, by norm_num⟩)⟩
  · rw [hpad, hblocks, hcount]
    norm_num
    rw [begin_ok (by norm_num) (by norm_num), boundary_18_3 hr]
  · rw [hpad, hblocks, hcount]
    norm_num
    rw [end_ok (by norm_num) (by norm_num)]
    norm_num
    rw [boundary_18_4 hr]

/-! ### The shipped parameters -/

/-- What a rounded result cannot be below. -/
theorem IsDouble.le_rnd {rnd : ℚ → ℚ} (h : IsDouble rnd) {x : ℚ} (m e : ℤ) (hm : |m| ≤ 2 ^ 53)
    (hx : m * 2 ^ e ≤ x) : m * 2 ^ e ≤ rnd x := by
  obtain ⟨f, hf, hq⟩ := h
  have ec : ((m : ℝ) * 2 ^ e) = ((m * 2 ^ e : ℚ) : ℝ) := by push_cast; rfl
  have hx' : ((m : ℝ) * 2 ^ e) ≤ x := by
    rw [ec]
    exact Rat.cast_le.2 hx
  have := (hf x).2 (m * 2 ^ e) ⟨m, e, hm, rfl⟩
  rw [hq, abs_sub_comm ((m : ℝ) * 2 ^ e), abs_of_nonneg (sub_nonneg.2 hx')] at this
  have h2 := (abs_le.1 this).1
  have h3 : (m : ℝ) * 2 ^ e ≤ (rnd x : ℝ) := by linarith
  rw [ec] at h3
  exact Rat.cast_le.1 h3

theorem boundary_2_3 {rnd : ℚ → ℚ} (h : IsDouble rnd) : IndexRange.boundaryWith rnd ⟨2, 14, 6⟩ 3 = 8 := by
  have a : rnd (3 / 6) = (9007199254740992 * 2 ^ (-54 : ℤ) : ℚ) := by
    simpa using h.eq_of (x := 3 / 6) 9007199254740992 (-54) (by norm_num) (by norm_num) (by norm_num [abs_lt])
  have b : rnd (1 - (9007199254740992 * 2 ^ (-54 : ℤ) : ℚ)) = (9007199254740992 * 2 ^ (-54 : ℤ) : ℚ) := by
    simpa using h.eq_of (x := 1 - (9007199254740992 * 2 ^ (-54 : ℤ) : ℚ)) 9007199254740992 (-54) (by norm_num) (by norm_num) (by norm_num [abs_lt])
  have c : rnd (2 * (9007199254740992 * 2 ^ (-54 : ℤ) : ℚ)) = (9007199254740992 * 2 ^ (-53 : ℤ) : ℚ) := by
    simpa using h.eq_of (x := 2 * (9007199254740992 * 2 ^ (-54 : ℤ) : ℚ)) 9007199254740992 (-53) (by norm_num) (by norm_num) (by norm_num [abs_lt])
  have g : rnd (14 * 3) = 42 := by
    have := h.isDoubleRounding.int 42 (by norm_num)
    norm_num at this ⊢
    exact this
  have f : rnd (42 / 6) = (7881299347898368 * 2 ^ (-50 : ℤ) : ℚ) := by
    simpa using h.eq_of (x := 42 / 6) 7881299347898368 (-50) (by norm_num) (by norm_num) (by norm_num [abs_lt])
  have v : rnd ((9007199254740992 * 2 ^ (-53 : ℤ) : ℚ) + (7881299347898368 * 2 ^ (-50 : ℤ) : ℚ)) = (9007199254740992 * 2 ^ (-50 : ℤ) : ℚ) := by
    simpa using h.eq_of (x := (9007199254740992 * 2 ^ (-53 : ℤ) : ℚ) + (7881299347898368 * 2 ^ (-50 : ℤ) : ℚ)) 9007199254740992 (-50) (by norm_num) (by norm_num) (by norm_num [abs_lt])
  simp only [IndexRange.boundaryWith]
  push_cast
  rw [a, b, c, g, f, v]
  unfold truncToInt
  rw [if_pos (by positivity), Int.floor_eq_iff]
  norm_num

theorem boundary_2_4 {rnd : ℚ → ℚ} (h : IsDouble rnd) : IndexRange.boundaryWith rnd ⟨2, 14, 6⟩ 4 = 10 := by
  have a : rnd (4 / 6) = (6004799503160661 * 2 ^ (-53 : ℤ) : ℚ) := by
    simpa using h.eq_of (x := 4 / 6) 6004799503160661 (-53) (by norm_num) (by norm_num) (by norm_num [abs_lt])
  have b : rnd (1 - (6004799503160661 * 2 ^ (-53 : ℤ) : ℚ)) = (6004799503160662 * 2 ^ (-54 : ℤ) : ℚ) := by
    simpa using h.eq_of (x := 1 - (6004799503160661 * 2 ^ (-53 : ℤ) : ℚ)) 6004799503160662 (-54) (by norm_num) (by norm_num) (by norm_num [abs_lt])
  have c : rnd (2 * (6004799503160662 * 2 ^ (-54 : ℤ) : ℚ)) = (6004799503160662 * 2 ^ (-53 : ℤ) : ℚ) := by
    simpa using h.eq_of (x := 2 * (6004799503160662 * 2 ^ (-54 : ℤ) : ℚ)) 6004799503160662 (-53) (by norm_num) (by norm_num) (by norm_num [abs_lt])
  have g : rnd (14 * 4) = 56 := by
    have := h.isDoubleRounding.int 56 (by norm_num)
    norm_num at this ⊢
    exact this
  have f : rnd (56 / 6) = (5254199565265579 * 2 ^ (-49 : ℤ) : ℚ) := by
    simpa using h.eq_of (x := 56 / 6) 5254199565265579 (-49) (by norm_num) (by norm_num) (by norm_num [abs_lt])
  have v : rnd ((6004799503160662 * 2 ^ (-53 : ℤ) : ℚ) + (5254199565265579 * 2 ^ (-49 : ℤ) : ℚ)) = (5629499534213120 * 2 ^ (-49 : ℤ) : ℚ) := by
    simpa using h.eq_of (x := (6004799503160662 * 2 ^ (-53 : ℤ) : ℚ) + (5254199565265579 * 2 ^ (-49 : ℤ) : ℚ)) 5629499534213120 (-49) (by norm_num) (by norm_num) (by norm_num [abs_lt])
  simp only [IndexRange.boundaryWith]
  push_cast
  rw [a, b, c, g, f, v]
  unfold truncToInt
  rw [if_pos (by positivity), Int.floor_eq_iff]
  norm_num

theorem boundary_2_5 {rnd : ℚ → ℚ} (h : IsDouble rnd) : IndexRange.boundaryWith rnd ⟨2, 14, 6⟩ 5 = 12 := by
  have a : rnd (5 / 6) = (7505999378950827 * 2 ^ (-53 : ℤ) : ℚ) := by
    simpa using h.eq_of (x := 5 / 6) 7505999378950827 (-53) (by norm_num) (by norm_num) (by norm_num [abs_lt])
  have b : rnd (1 - (7505999378950827 * 2 ^ (-53 : ℤ) : ℚ)) = (6004799503160660 * 2 ^ (-55 : ℤ) : ℚ) := by
    simpa using h.eq_of (x := 1 - (7505999378950827 * 2 ^ (-53 : ℤ) : ℚ)) 6004799503160660 (-55) (by norm_num) (by norm_num) (by norm_num [abs_lt])
  have c : rnd (2 * (6004799503160660 * 2 ^ (-55 : ℤ) : ℚ)) = (6004799503160660 * 2 ^ (-54 : ℤ) : ℚ) := by
    simpa using h.eq_of (x := 2 * (6004799503160660 * 2 ^ (-55 : ℤ) : ℚ)) 6004799503160660 (-54) (by norm_num) (by norm_num) (by norm_num [abs_lt])
  have g : rnd (14 * 5) = 70 := by
    have := h.isDoubleRounding.int 70 (by norm_num)
    norm_num at this ⊢
    exact this
  have f : rnd (70 / 6) = (6567749456581973 * 2 ^ (-49 : ℤ) : ℚ) := by
    simpa using h.eq_of (x := 70 / 6) 6567749456581973 (-49) (by norm_num) (by norm_num) (by norm_num [abs_lt])
  have v : rnd ((6004799503160660 * 2 ^ (-54 : ℤ) : ℚ) + (6567749456581973 * 2 ^ (-49 : ℤ) : ℚ)) = (6755399441055744 * 2 ^ (-49 : ℤ) : ℚ) := by
    simpa using h.eq_of (x := (6004799503160660 * 2 ^ (-54 : ℤ) : ℚ) + (6567749456581973 * 2 ^ (-49 : ℤ) : ℚ)) 6755399441055744 (-49) (by norm_num) (by norm_num) (by norm_num [abs_lt])
  simp only [IndexRange.boundaryWith]
  push_cast
  rw [a, b, c, g, f, v]
  unfold truncToInt
  rw [if_pos (by positivity), Int.floor_eq_iff]
  norm_num

theorem boundary_2_1 {rnd : ℚ → ℚ} (h : IsDouble rnd) : 4 ≤ IndexRange.boundaryWith rnd ⟨2, 14, 6⟩ 1 := by
  have a : rnd (1 / 6) = (6004799503160661 * 2 ^ (-55 : ℤ) : ℚ) := by
    simpa using h.eq_of (x := 1 / 6) 6004799503160661 (-55) (by norm_num) (by norm_num) (by norm_num [abs_lt])
  have b := h.le_rnd (x := 1 - (6004799503160661 * 2 ^ (-55 : ℤ) : ℚ)) 7505999378950826 (-53) (by norm_num) (by norm_num)
  have c := h.le_rnd (x := 2 * rnd (1 - (6004799503160661 * 2 ^ (-55 : ℤ) : ℚ))) 7505999378950826 (-52) (by norm_num) (by
    norm_num at b ⊢
    linarith)
  have g : rnd (14 * 1) = 14 := by
    have := h.isDoubleRounding.int 14 (by norm_num)
    norm_num at this ⊢
    exact this
  have f : rnd (14 / 6) = (5254199565265579 * 2 ^ (-51 : ℤ) : ℚ) := by
    simpa using h.eq_of (x := 14 / 6) 5254199565265579 (-51) (by norm_num) (by norm_num) (by norm_num [abs_lt])
  have v := h.le_rnd (x := rnd (2 * rnd (1 - (6004799503160661 * 2 ^ (-55 : ℤ) : ℚ))) + (5254199565265579 * 2 ^ (-51 : ℤ) : ℚ)) 4 0 (by norm_num) (by
    norm_num at c ⊢
    linarith)
  simp only [IndexRange.boundaryWith]
  push_cast
  rw [a, g, f]
  norm_num at v
  unfold truncToInt
  norm_num at v ⊢
  rw [if_pos (by linarith), Int.le_floor]
  exact_mod_cast v

theorem boundary_2_2 {rnd : ℚ → ℚ} (h : IsDouble rnd) : 6 ≤ IndexRange.boundaryWith rnd ⟨2, 14, 6⟩ 2 := by
  have a : rnd (2 / 6) = (6004799503160661 * 2 ^ (-54 : ℤ) : ℚ) := by
    simpa using h.eq_of (x := 2 / 6) 6004799503160661 (-54) (by norm_num) (by norm_num) (by norm_num [abs_lt])
  have b := h.le_rnd (x := 1 - (6004799503160661 * 2 ^ (-54 : ℤ) : ℚ)) 6004799503160661 (-53) (by norm_num) (by norm_num)
  have c := h.le_rnd (x := 2 * rnd (1 - (6004799503160661 * 2 ^ (-54 : ℤ) : ℚ))) 6004799503160661 (-52) (by norm_num) (by
    norm_num at b ⊢
    linarith)
  have g : rnd (14 * 2) = 28 := by
    have := h.isDoubleRounding.int 28 (by norm_num)
    norm_num at this ⊢
    exact this
  have f : rnd (28 / 6) = (5254199565265579 * 2 ^ (-50 : ℤ) : ℚ) := by
    simpa using h.eq_of (x := 28 / 6) 5254199565265579 (-50) (by norm_num) (by norm_num) (by norm_num [abs_lt])
  have v := h.le_rnd (x := rnd (2 * rnd (1 - (6004799503160661 * 2 ^ (-54 : ℤ) : ℚ))) + (5254199565265579 * 2 ^ (-50 : ℤ) : ℚ)) 6 0 (by norm_num) (by
    norm_num at c ⊢
    linarith)
  simp only [IndexRange.boundaryWith]
  push_cast
  rw [a, g, f]
  norm_num at v
  unfold truncToInt
  norm_num at v ⊢
  rw [if_pos (by linarith), Int.le_floor]
  exact_mod_cast v

/-- C144 with the padding and the number of blocks of the shipped parameter file and the rounding of `double`:
a ring off the axis is used if it has at least 16 points, and not otherwise. -/
theorem C144_shipped {plat : Platform ℝ} {hp : HyperParameters ℝ} (degree : ℝ) {cloud : List (PointXYZIR ℝ)}
    (hv : hp.Valid) (hplat : PlatformOK plat hp.nBlocks cloud.length) (hr : IsDouble plat.rnd)
    (hn : (cloud.length : ℤ) ≤ 2 ^ 31) (hpad : hp.padding = 2) (hblocks : hp.nBlocks = 6) {stamp : ℤ}
    {isDense ringAvailable : Bool} {eff : CallbackEffect (PointXYZIR ℝ)}
    (h : callback plat hp (nodeGeometry degree) stamp isDense ringAvailable cloud = .ok eff) (r : ℤ)
    (hoff : RingOffAxis cloud r) :
    (16 ≤ ringCount cloud r → Used cloud r eff) ∧ (ringCount cloud r < 16 → Unused r eff) := by
  refine ⟨fun hmany => ?_, fun hfew => C144_too_few degree hv hplat h r (by rw [hpad, hblocks]; omega)⟩
  rcases Nat.eq_or_lt_of_le hmany with he | hlt
  · refine (used_iff degree hv hplat h r).1 hoff (by rw [hpad, hblocks]; omega) ?_
    rintro ⟨j, b, e, hb, he', hlt⟩
    rw [hpad, hblocks, ← he] at hb he'
    norm_num at hb he'
    have hj : 0 ≤ j ∧ j < 6 := by
      by_contra hc
      rw [((C03_block_number_checked plat.rnd ⟨2, 14, 6⟩ j .outOfRange).1).2 ⟨rfl, hc⟩] at hb
      cases hb
    rw [begin_ok hj.1 hj.2] at hb
    rw [end_ok hj.1 hj.2] at he'
    injection hb with hb
    injection he' with he'
    have hb1 := boundary_rounded hr.isDoubleRounding 2 14 6 1 (by norm_num) (by norm_num) (by norm_num) (by norm_num)
      (by norm_num) (by norm_num) (by norm_num)
    have hb2 := boundary_rounded hr.isDoubleRounding 2 14 6 2 (by norm_num) (by norm_num) (by norm_num) (by norm_num)
      (by norm_num) (by norm_num) (by norm_num)
    have g1 := boundary_2_1 hr
    have g2 := boundary_2_2 hr
    have g3 := boundary_2_3 hr
    have g4 := boundary_2_4 hr
    have g5 := boundary_2_5 hr
    have hB : BlocksOK plat.rnd ⟨2, 14, 6⟩ := blocksOK_rounded hr.isDoubleRounding (by norm_num) (by norm_num)
      (by norm_num) (by norm_num) (by norm_num)
    have g0 := hB.first
    have g6 := hB.last
    simp only at g0 g6
    norm_num at hb1 hb2
    obtain ⟨h0, h6⟩ := hj
    interval_cases j <;> norm_num at hb he' <;> omega
  · exact C144_rounded_partial degree hv hplat hr.isDoubleRounding hn (by rw [hblocks]; omega) h r hoff
      (by rw [hpad, hblocks]; omega)

/-! Concrete cases: a straight wall seen in one ring. -/

/-- `n` points of ring 7 on the line y = 1. -/
def exWall (n : ℕ) : List (PointXYZIR ℝ) := (List.range n).map fun i : ℕ => ⟨(i : ℝ), 1, 0, 7⟩

theorem exWall_count (n : ℕ) : ringCount (exWall n) 7 = n := by
  have : (exWall n).filter (fun q => q.ring = 7) = exWall n := by
    rw [List.filter_eq_self]
    intro q hq
    obtain ⟨i, -, rfl⟩ := List.mem_map.1 hq
    rfl
  rw [ringCount, this, exWall, List.length_map, List.length_range]

theorem exWall_offAxis (n : ℕ) : RingOffAxis (exWall n) 7 := by
  intro q hq _ h
  obtain ⟨i, -, rfl⟩ := List.mem_map.1 hq
  exact one_ne_zero h.2

theorem exWall_axis (n : ℕ) : ∀ a ∈ exWall n, ∀ b ∈ exWall n, a.ring = b.ring → ¬ SamePositiveAxis a b := by
  intro a ha b _ _ h
  obtain ⟨i, -, rfl⟩ := List.mem_map.1 ha
  exact one_ne_zero h.1

/-- Padding and blocks as in the shipped file: 16 points are used, 15 are not. -/
example (degree : ℝ) (stamp : ℤ) : ∃ plat : Platform ℝ, ∃ hp : HyperParameters ℝ, IsDouble plat.rnd ∧ hp.padding = 2 ∧
    hp.nBlocks = 6 ∧
    (∃ eff, callback plat hp (nodeGeometry degree) stamp true true (exWall 16) = .ok eff ∧ Used (exWall 16) 7 eff) ∧
    ∃ eff, callback plat hp (nodeGeometry degree) stamp true true (exWall 15) = .ok eff ∧ Unused 7 eff := by
  obtain ⟨rnd, hr⟩ := exists_isDouble
  have hv : (⟨2, 1, 1 / 50, 1, 1 / 10, 1, 100, 6⟩ : HyperParameters ℝ).Valid := by
    simp [HyperParameters.Valid]
  have hplat : ∀ n ≤ 16, PlatformOK (⟨rnd, cmpSort, exSort, id⟩ : Platform ℝ) 6 (exWall n).length := by
    intro n hn
    rw [exWall, List.length_map, List.length_range]
    refine ⟨cmpSort_isArgsort, exSort_isSort, fun _ => List.Perm.refl _, .inr ⟨hr.isDoubleRounding, ?_, ?_⟩, ?_⟩ <;>
      norm_num <;> omega
  have hlen : ∀ n ≤ 16, ((exWall n).length : ℤ) ≤ 2 ^ 31 := by
    intro n hn
    rw [exWall, List.length_map, List.length_range]
    norm_num
    omega
  obtain ⟨eff, h, -⟩ := C19_callback_returns_partial degree hv (hplat 16 le_rfl) (exWall_axis 16) stamp true true
  obtain ⟨eff', h', -⟩ := C19_callback_returns_partial degree hv (hplat 15 (by norm_num)) (exWall_axis 15) stamp true true
  refine ⟨⟨rnd, cmpSort, exSort, id⟩, ⟨2, 1, 1 / 50, 1, 1 / 10, 1, 100, 6⟩, hr, rfl, rfl, ⟨eff, h, ?_⟩, ⟨eff', h', ?_⟩⟩
  · exact (C144_shipped degree hv (hplat 16 le_rfl) hr (hlen 16 le_rfl) rfl rfl h 7 (exWall_offAxis 16)).1
      (by rw [exWall_count])
  · exact (C144_shipped degree hv (hplat 15 (by norm_num)) hr (hlen 15 (by norm_num)) rfl rfl h' 7
      (exWall_offAxis 15)).2 (by rw [exWall_count]; norm_num)

/-- Five blocks and padding 18: 46 points are not used. -/
example (degree : ℝ) (stamp : ℤ) : ∃ plat : Platform ℝ, ∃ hp : HyperParameters ℝ, IsDouble plat.rnd ∧
    ∃ eff, callback plat hp (nodeGeometry degree) stamp true true (exWall 46) = .ok eff ∧ Unused 7 eff := by
  obtain ⟨rnd, hr⟩ := exists_isDouble
  have hv : (⟨18, 1, 1 / 50, 1, 1 / 10, 1, 100, 5⟩ : HyperParameters ℝ).Valid := by
    simp [HyperParameters.Valid]
  have hplat : PlatformOK (⟨rnd, cmpSort, exSort, id⟩ : Platform ℝ) 5 (exWall 46).length := by
    rw [exWall, List.length_map, List.length_range]
    refine ⟨cmpSort_isArgsort, exSort_isSort, fun _ => List.Perm.refl _, .inr ⟨hr.isDoubleRounding, ?_, ?_⟩, ?_⟩ <;>
      norm_num
  obtain ⟨eff, h, -⟩ := C19_callback_returns_partial degree hv hplat (exWall_axis 46) stamp true true
  exact ⟨_, _, hr, eff, h, (C144_rounded_violated degree hv hplat hr rfl rfl h 7 (exWall_count 46)).2⟩

end Verif.Extraction
