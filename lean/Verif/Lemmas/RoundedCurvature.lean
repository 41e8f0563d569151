/-
The error of the curvature in floating-point arithmetic.
-/
import Verif.Lemmas.RoundedDecide
import Verif.Props.C02

set_option autoImplicit false

namespace Verif.Extraction

/-- Specification: the sum of the differences of the surrounding ranges to the range of point `i`;
its square is the smoothness. -/
def deviation (r : ℕ → ℝ) (p i : ℕ) : ℝ := ∑ j ∈ Finset.Icc (i - p) (i + p), (r j - r i)

theorem smoothness_eq (r : ℕ → ℝ) (p i : ℕ) : smoothness r p i = deviation r p i ^ 2 := rfl

/-- A bound on the error of the deviation, for ranges up to `R`. -/
noncomputable def deviationError (p : ℕ) (R : ℝ) : ℝ :=
  ((1 + 1 / 2 ^ 51) ^ (2 * p + 3) - 1) * (4 * p * R)

/-- A bound on the error of the smoothness of a point with deviation `s`, for ranges up to `R`. -/
noncomputable def smoothnessError (p : ℕ) (R s : ℝ) : ℝ :=
  deviationError p R * (2 * |s| + deviationError p R) +
    1 / 2 ^ 53 * (|s| + deviationError p R) ^ 2

theorem innerProductLoop_near {A : Arith} (hA : A.Correct) {R : ℝ} :
    ∀ (xs xs' ws : List ℝ) (s s' T : ℝ) (m : ℕ), 2 ≤ m → xs.length = ws.length →
      List.Forall₂ (fun x x' => |x| ≤ R ∧ |x' - x| ≤ 1 / 2 ^ 51 * |x|) xs xs' →
      |s| ≤ T → |s' - s| ≤ ((1 + 1 / 2 ^ 51) ^ m - 1) * T →
      ∃ r r', innerProductLoop s xs ws = .ok r ∧ Rounded.innerProductLoop A s' xs' ws = .ok r' ∧
        |r' - r| ≤ ((1 + 1 / 2 ^ 51) ^ (m + xs.length) - 1) * (T + R * (ws.map (|·|)).sum) := by
  obtain ⟨v, hv⟩ : ∃ v : ℝ, v = 1 / 2 ^ 51 := ⟨_, rfl⟩
  have hv0 : 0 ≤ v := by rw [hv]; norm_num
  have hfl : ∀ x, |A.dbl x - x| ≤ v * |x| := by
    intro x
    refine (hA.dbl.error x).trans (mul_le_mul_of_nonneg_right ?_ (abs_nonneg _))
    rw [hv]; norm_num
  rw [← hv]
  have hg1 : 1 ≤ 1 + v := by linarith
  intro xs
  induction xs with
  | nil =>
    intro xs' ws s s' T m _ hlen hrel hs hd
    cases hrel
    have : ws = [] := List.eq_nil_of_length_eq_zero (by simpa using hlen.symm)
    subst this
    exact ⟨s, s', rfl, rfl, by simpa using hd⟩
  | cons x xs ih =>
    intro xs' ws s s' T m hm hlen hrel hs hd
    cases hrel with
    | cons hx hrel =>
      rename_i x' xs'
      cases ws with
      | nil => simp at hlen
      | cons w ws =>
        obtain ⟨hxR, hxe⟩ := hx
        have hT : 0 ≤ T := (abs_nonneg _).trans hs
        set g := (1 + v) ^ m with hg
        have hg2 : (1 + v) ^ 2 ≤ g := pow_le_pow_right₀ hg1 hm
        have hgge : 1 ≤ g := one_le_pow₀ hg1
        set B := |x * w| with hB
        have hB0 : 0 ≤ B := abs_nonneg _
        have h1 : |x' * w - x * w| ≤ v * B := by
          rw [← sub_mul, abs_mul, hB, abs_mul, ← mul_assoc]
          exact mul_le_mul_of_nonneg_right hxe (abs_nonneg _)
        have h2 : |x' * w| ≤ (1 + v) * B := by
          have := abs_sub_abs_le_abs_sub (x' * w) (x * w)
          linarith
        have h3 : |A.dbl (x' * w) - x * w| ≤ ((1 + v) ^ 2 - 1) * B := by
          have h4 := hfl (x' * w)
          have h5 := mul_le_mul_of_nonneg_left h2 hv0
          have h6 := abs_sub_le (A.dbl (x' * w)) (x' * w) (x * w)
          nlinarith
        have h3' : |A.dbl (x' * w) - x * w| ≤ (g - 1) * B :=
          h3.trans (mul_le_mul_of_nonneg_right (by linarith) hB0)
        set y := s' + A.dbl (x' * w) with hy
        have h7 : |y - (s + x * w)| ≤ (g - 1) * (T + B) := by
          have e : y - (s + x * w) = (s' - s) + (A.dbl (x' * w) - x * w) := by rw [hy]; ring
          rw [e]
          refine (abs_add_le _ _).trans ?_
          linarith
        have h8 : |s + x * w| ≤ T + B := (abs_add_le _ _).trans (by linarith)
        have h9 : |A.dbl y - (s + x * w)| ≤ ((1 + v) ^ (m + 1) - 1) * (T + B) := by
          have h10 := hfl y
          have h11 : |y| ≤ g * (T + B) := by
            have := abs_sub_abs_le_abs_sub y (s + x * w)
            linarith
          have h12 := mul_le_mul_of_nonneg_left h11 hv0
          have h13 := abs_sub_le (A.dbl y) y (s + x * w)
          have e : ((1 + v) ^ (m + 1) - 1) * (T + B) = v * (g * (T + B)) + (g - 1) * (T + B) := by
            rw [pow_succ, ← hg]; ring
          rw [e]
          linarith
        obtain ⟨r, r', e1, e2, e3⟩ := ih xs' ws (s + x * w) (A.dbl y) (T + B) (m + 1) (by omega)
          (by simpa using hlen) hrel h8 h9
        refine ⟨r, r', e1, e2, e3.trans ?_⟩
        have hlen' : m + 1 + xs.length = m + (x :: xs).length := by simp; omega
        rw [hlen', List.map_cons, List.sum_cons]
        refine mul_le_mul_of_nonneg_left ?_ ?_
        · have : B ≤ R * |w| := by
            rw [hB, abs_mul]; exact mul_le_mul_of_nonneg_right hxR (abs_nonneg _)
          linarith
        · have : 1 ≤ (1 + v) ^ (m + (x :: xs).length) := one_le_pow₀ hg1
          linarith

theorem weight_sum (p : ℕ) :
    (((List.replicate (2 * p + 1) (1 : ℝ)).set p (-2 * (p : ℝ))).map (|·|)).sum = 4 * p := by
  have h1 : (List.replicate (2 * p + 1) (1 : ℝ)).set p (-2 * (p : ℝ)) =
      List.replicate p 1 ++ (-2 * (p : ℝ)) :: List.replicate p 1 := by
    have : List.replicate (2 * p + 1) (1 : ℝ) = List.replicate p 1 ++ 1 :: List.replicate p 1 := by
      rw [← List.replicate_succ, List.replicate_append_replicate]
      congr 1; omega
    rw [this, List.set_append_right _ _ (by simp)]
    simp
  rw [h1]
  simp [abs_mul]
  ring

/-- The curvature of a ring in floating-point arithmetic. -/
theorem calcCurvature_near {A : Arith} (hA : A.Correct) {R : ℝ} (r r' : ℕ → ℝ) (n p : ℕ)
    (hp : 0 < p) (hn : 2 * p + 1 ≤ n) (hr : ∀ i, i < n → 0 ≤ r i ∧ r i ≤ R)
    (hr' : ∀ i, i < n → Near (r i) (r' i)) :
    ∃ out, Rounded.calcCurvature A ((List.range n).map r') (p : ℤ) = .ok out ∧ out.length = n ∧
      ∀ i, p ≤ i → i + p < n → ∃ c, out[i]? = some c ∧
        |c - smoothness r p i| ≤ smoothnessError p R (deviation r p i) := by
  set w : List ℝ := (List.replicate (2 * p + 1) (1 : ℝ)).set p (-2 * (p : ℝ)) with hw
  have hwl : w.length = 2 * p + 1 := by simp [hw]
  set input := (List.range n).map r with hin
  set input' := (List.range n).map r' with hin'
  have hil : input.length = n := by simp [hin]
  have hil' : input'.length = n := by simp [hin']
  have hpp : (w.length - 1) / 2 = p := by omega
  set c := n - p * 2 with hc
  -- each window
  have hwin : ∀ i, i < c → ∃ x, Rounded.innerProduct A ((input'.drop i).take w.length) w = .ok x ∧
      |x - deviation r p (p + i)| ≤ deviationError p R := by
    intro i hi
    have hrel : List.Forall₂ (fun x x' => |x| ≤ R ∧ |x' - x| ≤ 1 / 2 ^ 51 * |x|)
        ((input.drop i).take w.length) ((input'.drop i).take w.length) := by
      have h0 : List.Forall₂ (fun x x' => |x| ≤ R ∧ |x' - x| ≤ 1 / 2 ^ 51 * |x|) input input' := by
        rw [hin, hin', List.forall₂_map_left_iff, List.forall₂_map_right_iff, List.forall₂_same]
        intro k hk
        have hk' := List.mem_range.1 hk
        obtain ⟨a, b⟩ := hr k hk'
        rw [abs_of_nonneg a]
        exact ⟨b, hr' k hk'⟩
      exact List.forall₂_take _ (List.forall₂_drop _ h0)
    have hlen : ((input.drop i).take w.length).length = w.length := by
      simp only [List.length_take, List.length_drop]; omega
    obtain ⟨x, x', e1, e2, e3⟩ := innerProductLoop_near hA _ _ w 0 0 0 2 le_rfl hlen hrel (by simp)
      (by simp)
    refine ⟨x', e2, ?_⟩
    have hx : x = deviation r p (p + i) := by
      have h1 := innerProduct_window input w i (by omega)
      rw [innerProduct, e1] at h1
      injection h1 with h1
      rw [h1, deviation, ← windowSum_eq r p (p + i) (by omega),
        ← Fin.sum_univ_eq_sum_range (fun k =>
        (if p = k then -2 * (p : ℝ) else 1) * r (p + i - p + k)) (2 * p + 1)]
      refine Fintype.sum_equiv (finCongr hwl) _ _ (fun k => ?_)
      have e : p + i - p = i := by omega
      simp [hw, hin, List.getElem_set, e, mul_comm]
    rw [hx] at e3
    rw [hlen, hwl, zero_add, hw, weight_sum] at e3
    refine e3.trans (le_of_eq ?_)
    rw [deviationError]
    have : 2 + (2 * p + 1) = 2 * p + 3 := by omega
    rw [this]
    ring
  have hch : ∃ win : ℕ → ℝ, ∀ i, i < c →
      Rounded.innerProduct A ((input'.drop i).take w.length) w = .ok (win i) ∧
      |win i - deviation r p (p + i)| ≤ deviationError p R := by
    choose f hf using hwin
    refine ⟨fun i => if h : i < c then f i h else 0, fun i hi => ?_⟩
    simp only [dif_pos hi]
    exact hf i hi
  obtain ⟨win, hwin⟩ := hch
  obtain ⟨r1, e1, l1, g1⟩ := foldlM_setU p 0 (fun _ => (pure 0 : Res ℝ)) (fun _ => 0)
    (List.replicate input'.length (0 : ℝ)) (fun _ _ => rfl) (by simp [hil']; omega)
  obtain ⟨r2, e2, l2, g2⟩ := foldlM_setU c p
    (fun i => Rounded.innerProduct A ((input'.drop i).take w.length) w) win r1
    (fun i hi => (hwin i hi).1) (by rw [l1]; simp [hil']; omega)
  obtain ⟨r3, e3, l3, g3⟩ := foldlM_setU p (c + p) (fun _ => (pure 0 : Res ℝ)) (fun _ => 0) r2
    (fun _ _ => rfl) (by rw [l2, l1]; simp [hil']; omega)
  have hl3 : r3.length = n := by rw [l3, l2, l1]; simp [hil']
  have hconv : Rounded.convolution1D A input' w = .ok r3 := by
    have h1 : ¬ input'.length < w.length := by omega
    have h2 : ¬ w.length % 2 ≠ 1 := by omega
    simp only [Rounded.convolution1D, h1, h2, if_false, hpp]
    have hc' : input'.length - p * 2 = c := by rw [hil']
    rw [hc', e1]
    simp only [bind, Except.bind] at e2 e3 ⊢
    rw [e2]
    exact e3
  refine ⟨r3.map fun v => A.dbl (v * v), ?_, by simpa using hl3, fun i h1 h2 => ?_⟩
  · simp only [Rounded.calcCurvature, makeWeight_ok p hp, bind, Except.bind, ← hw, hconv]
    rfl
  · have key := g3 i
    rw [g2, if_neg (by omega), if_pos (by omega)] at key
    refine ⟨A.dbl (win (i - p) * win (i - p)), by rw [List.getElem?_map, key]; rfl, ?_⟩
    have hd := (hwin (i - p) (by omega)).2
    rw [show p + (i - p) = i by omega] at hd
    rw [smoothness_eq]
    set s := deviation r p i
    set x := win (i - p)
    set e := deviationError p R with he
    have he0 : 0 ≤ e := (abs_nonneg _).trans hd
    have hx : |x| ≤ |s| + e := by
      have := abs_sub_abs_le_abs_sub x s
      linarith
    have h3 : |x * x - s ^ 2| ≤ e * (2 * |s| + e) := by
      have e1 : x * x - s ^ 2 = (x - s) * (x + s) := by ring
      rw [e1, abs_mul]
      refine mul_le_mul hd ?_ (abs_nonneg _) he0
      refine (abs_add_le _ _).trans ?_
      linarith
    have h4 := hA.dbl.error (x * x)
    have h5 : |x * x| ≤ (|s| + e) ^ 2 := by
      rw [abs_mul, ← sq]
      exact pow_le_pow_left₀ (abs_nonneg _) hx 2
    have h6 : (1 : ℝ) / 2 ^ 53 * |x * x| ≤ 1 / 2 ^ 53 * (|s| + e) ^ 2 :=
      mul_le_mul_of_nonneg_left h5 (by norm_num)
    have h7 := abs_sub_le (A.dbl (x * x)) (x * x) (s ^ 2)
    rw [smoothnessError, ← he]
    linarith

/-- A ring too short for the window is refused in floating-point arithmetic, too. -/
theorem calcCurvature_short (A : Arith) (l : List ℝ) (p : ℕ) (hp : 0 < p) (hn : l.length < 2 * p + 1) :
    Rounded.calcCurvature A l (p : ℤ) = .error .invalidArgument := by
  have : l.length < ((List.replicate (2 * p + 1) (1 : ℝ)).set p (-2 * (p : ℝ))).length := by
    simpa using hn
  simp only [Rounded.calcCurvature, makeWeight_ok p hp, bind, Except.bind, Rounded.convolution1D, this,
    if_true]

end Verif.Extraction
