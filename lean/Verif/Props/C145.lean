/-
C145: points whose coordinates are missing (NaN).
-/
import Verif.Model.NotANumber
import Verif.Props.C20
import Verif.Props.C136
import Mathlib.Data.Prod.Lex

set_option autoImplicit false

namespace Verif.Extraction

open NaN (Number)

/-! ### Specification -/

/-- The point `p` has the horizontal coordinates and the ring of the point `r` of numbers. -/
def StandsFor (p : PointXYZIR Number) (r : PointXYZIR ℝ) : Prop :=
  p.x = some r.x ∧ p.y = some r.y ∧ p.ring = r.ring

/-- The sensor got no return: a point without coordinates. Only the second coordinate matters. -/
def Missing (p : PointXYZIR Number) : Prop := p.y = none

/-- A point to the left of the vehicle, straight ahead, or the origin. -/
def LeftOrAhead (r : PointXYZIR ℝ) : Prop := 0 < r.y ∨ (r.y = 0 ∧ 0 ≤ r.x)

/-- Two points in the same direction from the sensor, or both the origin. -/
def SameDirection (a b : PointXYZIR ℝ) : Prop :=
  atan2 a = atan2 b ∧ ((a.x = 0 ∧ a.y = 0) ↔ (b.x = 0 ∧ b.y = 0))

/-! ### The comparator -/

theorem lessAngleNaN_numbers {p q : PointXYZIR Number} {a b : PointXYZIR ℝ} (hp : StandsFor p a)
    (hq : StandsFor q b) : NaN.lessAngle p q = lessAngle a b := by
  obtain ⟨p1, p2, -⟩ := hp
  obtain ⟨q1, q2, -⟩ := hq
  simp only [NaN.lessAngle, lessAngle, p1, p2, q1, q2, NaN.eq, NaN.lt, NaN.ge, NaN.mul, NaN.add,
    NaN.sub, NaN.zero, Bool.and_eq_true, decide_eq_true_eq, gt_iff_lt]

theorem lessAngleNaN_missing_left {p q : PointXYZIR Number} {b : PointXYZIR ℝ} (hp : Missing p)
    (hq : StandsFor q b) :
    NaN.lessAngle p q = true ↔ b.y = 0 ∧ b.x ≠ 0 := by
  obtain ⟨q1, q2, -⟩ := hq
  have hp' : p.y = none := hp
  by_cases hy : b.y = 0
  · by_cases hx : b.x = 0
    · simp [NaN.lessAngle, hp', q1, q2, NaN.eq, NaN.lt, NaN.mul, NaN.add, NaN.zero, hy, hx]
    · simp [NaN.lessAngle, hp', q1, q2, NaN.eq, NaN.ge, NaN.zero, hy, hx, NaN.mul, NaN.add]
  · simp [NaN.lessAngle, hp', q1, q2, NaN.eq, NaN.lt, NaN.mul, NaN.add, NaN.zero, hy]

theorem lessAngleNaN_missing_right {p q : PointXYZIR Number} {a : PointXYZIR ℝ} (hp : StandsFor p a)
    (hq : Missing q) : NaN.lessAngle p q = true ↔ a.y < 0 := by
  obtain ⟨p1, p2, -⟩ := hp
  have hq' : q.y = none := hq
  by_cases h0 : a.x * a.x + a.y * a.y = 0
  · obtain ⟨hx, hy⟩ := sumSq_eq_zero.1 h0
    simp [NaN.lessAngle, hq', p1, p2, NaN.eq, NaN.lt, NaN.mul, NaN.add, NaN.zero, hx, hy]
  · by_cases hy : a.y = 0
    · simp only [hy, mul_zero, add_zero] at h0
      simp [NaN.lessAngle, hq', p1, p2, NaN.eq, NaN.ge, NaN.mul, NaN.add, NaN.zero, h0, hy]
    · simp [NaN.lessAngle, hq', p1, p2, NaN.eq, NaN.lt, NaN.mul, NaN.add, NaN.zero, h0, hy]

theorem lessAngleNaN_missing {p q : PointXYZIR Number} (hp : Missing p) (hq : Missing q) :
    NaN.lessAngle p q = false := by
  have hp' : p.y = none := hp
  have hq' : q.y = none := hq
  have ha : ∀ u : Number, NaN.add u none = none := by
    intro u
    cases u <;> rfl
  simp [NaN.lessAngle, hp', hq', NaN.eq, NaN.lt, NaN.mul, NaN.zero, ha]

/-! ### Sorting -/

/-- A comparator that compares keys is a strict weak order. -/
theorem strictWeakOn_of_key {κ : Type} [LinearOrder κ] {lt : ℕ → ℕ → Bool} {l : List ℕ} (key : ℕ → κ)
    (h : ∀ a ∈ l, ∀ b ∈ l, (lt a b = true ↔ key a < key b)) : StrictWeakOn lt l := by
  have hf : ∀ a ∈ l, ∀ b ∈ l, (lt a b = false ↔ key b ≤ key a) := by
    intro a ha b hb
    rw [← Bool.not_eq_true, h a ha b hb, not_lt]
  refine ⟨fun a ha => (hf a ha a ha).2 le_rfl, fun a ha b hb c hc h1 h2 => ?_,
    fun a ha b hb c hc h1 h2 h3 h4 => ?_⟩
  · exact (h a ha c hc).2 (((h a ha b hb).1 h1).trans ((h b hb c hc).1 h2))
  · exact ⟨(hf a ha c hc).2 (((hf b hb c hc).1 h3).trans ((hf a ha b hb).1 h1)),
      (hf c hc a ha).2 (((hf b hb a ha).1 h2).trans ((hf c hc b hb).1 h4))⟩

theorem sortEach_error {P : Type} {sort : (ℕ → ℕ → Bool) → List ℕ → List ℕ} {less : P → P → Bool}
    {cloud : List P} {e : Err} : ∀ (rings : Rings), (∀ ri ∈ rings, ∀ i ∈ ri.2, i < cloud.length) →
      sortEachRingByAngle sort less cloud rings = .error e → e = .undefinedBehaviour := by
  intro rings
  induction rings with
  | nil => intro _ h; cases h
  | cons ri rings ih =>
    intro hl h
    simp only [sortEachRingByAngle, List.mapM_cons, sortByAtan2,
      if_neg (not_not.2 (hl ri List.mem_cons_self)), bind, Except.bind, pure, Except.pure] at h
    have ih' := ih (fun x hx => hl x (List.mem_cons_of_mem _ hx))
    simp only [sortEachRingByAngle, sortByAtan2, bind, Except.bind, pure, Except.pure] at ih'
    by_cases hsw : StrictWeakOn (lessIndex less cloud) ri.2
    · simp only [if_pos hsw] at h
      split at h
      · rename_i heq; exact ih' (by rw [heq]; exact h)
      · cases h
    · simp only [if_neg hsw] at h
      injection h with h; exact h.symm

theorem atan2_left {r : PointXYZIR ℝ} : LeftOrAhead r ↔ 0 ≤ atan2 r ∧ atan2 r < Real.pi := by
  rw [atan2, Complex.arg_nonneg_iff, Complex.arg_lt_pi_iff]
  constructor
  · rintro (h | ⟨h1, h2⟩)
    · exact ⟨h.le, .inr h.ne'⟩
    · exact ⟨h1.ge, .inl h2⟩
  · rintro ⟨h1, h2⟩
    rcases h1.lt_or_eq with h | h
    · exact .inl h
    · rcases h2 with h3 | h3
      · exact .inr ⟨h.symm, h3⟩
      · exact absurd h.symm h3

theorem atan2_neg {r : PointXYZIR ℝ} : atan2 r < 0 ↔ r.y < 0 :=
  Complex.arg_neg_iff (z := ⟨r.x, r.y⟩)

/-- What `std::sort` needs of a ring with a missing point. -/
def RingSortable (cloud : List (PointXYZIR Number)) (l : List ℕ) : Prop :=
  (∀ i ∈ l, ∀ j ∈ l, ∀ p q a b, cloud[i]? = some p → cloud[j]? = some q → StandsFor p a →
    StandsFor q b → ¬ SamePositiveAxis a b) ∧
  ∀ k ∈ l, ∀ n, cloud[k]? = some n → Missing n → ∀ i ∈ l, ∀ j ∈ l, ∀ p q a b,
    cloud[i]? = some p → cloud[j]? = some q → StandsFor p a → StandsFor q b →
    LeftOrAhead a → LeftOrAhead b → SameDirection a b

theorem strictWeakOn_nan_necessary {cloud : List (PointXYZIR Number)} {l : List ℕ}
    (h : StrictWeakOn (lessIndex NaN.lessAngle cloud) l) : RingSortable cloud l := by
  obtain ⟨h1, h2, h3⟩ := h
  have hax : ∀ i ∈ l, ∀ j ∈ l, ∀ p q a b, cloud[i]? = some p → cloud[j]? = some q → StandsFor p a →
      StandsFor q b → ¬ SamePositiveAxis a b := by
    rintro i hi j hj p q a b hp hq hpa hqb ⟨hay, hby, hax, hbx, hne⟩
    have hab : lessIndex NaN.lessAngle cloud i j = true := by
      simp only [lessIndex, hp, hq, lessAngleNaN_numbers hpa hqb]
      simp [lessAngle, hay, hby, hax.ne', hbx.ne', hax.le, hne]
    have hba : lessIndex NaN.lessAngle cloud j i = true := by
      simp only [lessIndex, hp, hq, lessAngleNaN_numbers hqb hpa]
      simp [lessAngle, hay, hby, hax.ne', hbx.ne', hbx.le, hne.symm]
    have := h2 i hi j hj i hi hab hba
    rw [h1 i hi] at this
    cases this
  refine ⟨hax, ?_⟩
  intro k hk n hn hmiss i hi j hj p q a b hp hq hpa hqb hla hlb
  have num : ∀ {i j p q a b}, i ∈ l → j ∈ l → cloud[i]? = some p → cloud[j]? = some q → StandsFor p a →
      StandsFor q b → (lessIndex NaN.lessAngle cloud i j = true ↔ atan2 a < atan2 b) := by
    intro i j p q a b hi hj hp hq hpa hqb
    simp only [lessIndex, hp, hq, lessAngleNaN_numbers hpa hqb]
    exact C21_comparator_partial a b (hax i hi j hj p q a b hp hq hpa hqb)
  have nl : ∀ {i p a}, cloud[i]? = some p → StandsFor p a →
      (lessIndex NaN.lessAngle cloud k i = true ↔ a.y = 0 ∧ a.x ≠ 0) := by
    intro i p a hp hpa
    simp only [lessIndex, hp, hn]
    exact lessAngleNaN_missing_left hmiss hpa
  have nr : ∀ {i p a}, cloud[i]? = some p → StandsFor p a → LeftOrAhead a →
      lessIndex NaN.lessAngle cloud i k = false := by
    intro i p a hp hpa hl
    rw [← Bool.not_eq_true]
    simp only [lessIndex, hp, hn]
    rw [lessAngleNaN_missing_right hpa hmiss, not_lt]
    rcases hl with hl | hl
    · exact hl.le
    · exact hl.1.ge
  -- a point on the positive axis does not go together with another kind of point
  have mixed : ∀ {i j p q a b}, i ∈ l → j ∈ l → cloud[i]? = some p → cloud[j]? = some q → StandsFor p a →
      StandsFor q b → LeftOrAhead a → LeftOrAhead b → (a.y = 0 ∧ a.x ≠ 0) → (b.y = 0 ∧ b.x ≠ 0) := by
    intro i j p q a b hi hj hp hq hpa hqb hla hlb hpos
    by_contra hb
    have h4 := (nl hp hpa).2 hpos
    have h5 : lessIndex NaN.lessAngle cloud k j = false := by
      rw [← Bool.not_eq_true, nl hq hqb]; exact hb
    have h6 := nr hq hqb hlb
    have ha0 : atan2 a = 0 := by
      rw [atan2, Complex.arg_eq_zero_iff]
      refine ⟨?_, hpos.1⟩
      rcases hla with h | h
      · rw [hpos.1] at h; exact absurd h (lt_irrefl _)
      · exact h.2
    cases h7 : lessIndex NaN.lessAngle cloud i j with
    | true =>
      rw [h2 k hk i hi j hj h4 h7] at h5
      cases h5
    | false =>
      have h8 : lessIndex NaN.lessAngle cloud j i = false := by
        rw [← Bool.not_eq_true, num hj hi hq hp hqb hpa, ha0, not_lt]
        exact (atan2_left.1 hlb).1
      rw [(h3 k hk j hj i hi h5 h6 h8 h7).1] at h4
      cases h4
  by_cases hpos : a.y = 0 ∧ a.x ≠ 0
  · have hpos' := mixed hi hj hp hq hpa hqb hla hlb hpos
    have zero : ∀ {r : PointXYZIR ℝ}, LeftOrAhead r → (r.y = 0 ∧ r.x ≠ 0) → atan2 r = 0 := by
      intro r hl hr
      rw [atan2, Complex.arg_eq_zero_iff]
      refine ⟨?_, hr.1⟩
      rcases hl with h | h
      · rw [hr.1] at h; exact absurd h (lt_irrefl _)
      · exact h.2
    exact ⟨by rw [zero hla hpos, zero hlb hpos'],
      fun h => absurd h.1 hpos.2, fun h => absurd h.1 hpos'.2⟩
  · have hpos' : ¬ (b.y = 0 ∧ b.x ≠ 0) := fun h => hpos (mixed hj hi hq hp hqb hpa hlb hla h)
    have e1 : lessIndex NaN.lessAngle cloud k i = false := by
      rw [← Bool.not_eq_true, nl hp hpa]; exact hpos
    have e2 : lessIndex NaN.lessAngle cloud k j = false := by
      rw [← Bool.not_eq_true, nl hq hqb]; exact hpos'
    obtain ⟨e3, e4⟩ := h3 i hi k hk j hj (nr hp hpa hla) e1 e2 (nr hq hqb hlb)
    rw [← Bool.not_eq_true, num hi hj hp hq hpa hqb, not_lt] at e3
    rw [← Bool.not_eq_true, num hj hi hq hp hqb hpa, not_lt] at e4
    have heq : atan2 a = atan2 b := le_antisymm e4 e3
    have orig : ∀ {r s : PointXYZIR ℝ}, LeftOrAhead s → ¬ (s.y = 0 ∧ s.x ≠ 0) → atan2 r = atan2 s →
        (r.x = 0 ∧ r.y = 0) → (s.x = 0 ∧ s.y = 0) := by
      intro r s hl hs he hr
      have h0 : atan2 r = 0 := by
        rw [atan2, Complex.arg_eq_zero_iff]; exact ⟨hr.1.ge, hr.2⟩
      rw [h0] at he
      have hsy : s.y = 0 := (Complex.arg_eq_zero_iff.1 he.symm).2
      by_contra hc
      exact hs ⟨hsy, fun hx => hc ⟨hx, hsy⟩⟩
    exact ⟨heq, orig hlb hpos' heq, orig hla hpos heq.symm⟩

/-- The place of a point in the order: its angle, points of the positive axis after the others at that
angle; missing points at the angle `θ`. -/
noncomputable def keyNaN (θ : ℝ) (p : PointXYZIR Number) : ℝ ×ₗ ℕ :=
  match p.x, p.y with
  | some x, some y => toLex (Complex.arg ⟨x, y⟩, if y = 0 ∧ 0 < x then 1 else 0)
  | _, _ => toLex (θ, 0)

theorem strictWeakOn_nan_sufficient {cloud : List (PointXYZIR Number)} {l : List ℕ}
    (hin : ∀ i ∈ l, i < cloud.length) (hplain : ∀ p ∈ cloud, Missing p ∨ ∃ r, StandsFor p r)
    (h : RingSortable cloud l) : StrictWeakOn (lessIndex NaN.lessAngle cloud) l := by
  obtain ⟨hax, hdir⟩ := h
  by_cases hmiss : ∃ k ∈ l, ∃ n, cloud[k]? = some n ∧ Missing n
  · obtain ⟨k, hk, n, hn, hmn⟩ := hmiss
    have hdir' := hdir k hk n hn hmn
    obtain ⟨θ, h0, hpi, hθ⟩ : ∃ θ : ℝ, 0 ≤ θ ∧ θ < Real.pi ∧ ∀ i ∈ l, ∀ p a, cloud[i]? = some p →
        StandsFor p a → LeftOrAhead a → atan2 a = θ := by
      by_cases he : ∃ i ∈ l, ∃ p a, cloud[i]? = some p ∧ StandsFor p a ∧ LeftOrAhead a
      · obtain ⟨i, hi, p, a, hp, hpa, hla⟩ := he
        exact ⟨atan2 a, (atan2_left.1 hla).1, (atan2_left.1 hla).2, fun j hj q b hq hqb hlb =>
          (hdir' j hj i hi q p b a hq hp hqb hpa hlb hla).1⟩
      · exact ⟨0, le_rfl, Real.pi_pos, fun i hi p a hp hpa hla => absurd ⟨i, hi, p, a, hp, hpa, hla⟩ he⟩
    have keyM : ∀ {p : PointXYZIR Number}, Missing p → keyNaN θ p = toLex (θ, 0) := by
      intro p hp
      have hp' : p.y = none := hp
      unfold keyNaN
      rw [hp']
      cases p.x <;> rfl
    have keyS : ∀ {p : PointXYZIR Number} {a : PointXYZIR ℝ}, StandsFor p a →
        keyNaN θ p = toLex (atan2 a, if a.y = 0 ∧ 0 < a.x then 1 else 0) := by
      rintro p a ⟨h1, h2, -⟩
      unfold keyNaN
      rw [h1, h2]
      rfl
    refine strictWeakOn_of_key (fun i => (cloud[i]?).elim (toLex (0, 0)) (keyNaN θ)) ?_
    intro i hi j hj
    obtain ⟨p, hp⟩ : ∃ p, cloud[i]? = some p := ⟨_, List.getElem?_eq_getElem (hin i hi)⟩
    obtain ⟨q, hq⟩ : ∃ q, cloud[j]? = some q := ⟨_, List.getElem?_eq_getElem (hin j hj)⟩
    simp only [lessIndex, hp, hq, Option.elim]
    rcases hplain p (List.mem_of_getElem? hp) with mp | ⟨a, hpa⟩ <;>
      rcases hplain q (List.mem_of_getElem? hq) with mq | ⟨b, hqb⟩
    · rw [lessAngleNaN_missing mp mq, keyM mp, keyM mq]
      simp
    · rw [lessAngleNaN_missing_left mp hqb, keyM mp, keyS hqb, Prod.Lex.toLex_lt_toLex]
      by_cases hl : LeftOrAhead b
      · have hb := hθ j hj q b hq hqb hl
        rw [hb]
        constructor
        · rintro ⟨h1, h2⟩
          refine .inr ⟨rfl, ?_⟩
          rcases hl with h3 | h3
          · rw [h1] at h3; exact absurd h3 (lt_irrefl _)
          · rw [if_pos ⟨h1, lt_of_le_of_ne h3.2 h2.symm⟩]; exact Nat.zero_lt_one
        · rintro (h1 | ⟨-, h2⟩)
          · exact absurd h1 (lt_irrefl _)
          · by_contra hc
            rw [if_neg (fun h3 => hc ⟨h3.1, h3.2.ne'⟩)] at h2
            exact absurd h2 (lt_irrefl _)
      · have hl' : b.y < 0 ∨ (b.y = 0 ∧ b.x < 0) := by
          unfold LeftOrAhead at hl
          push Not at hl
          rcases hl.1.lt_or_eq with h3 | h3
          · exact .inl h3
          · exact .inr ⟨h3, hl.2 h3⟩
        rcases hl' with h3 | ⟨h3, h4⟩
        · have : atan2 b < 0 := atan2_neg.2 h3
          constructor
          · rintro ⟨h5, -⟩; exact absurd h5 h3.ne
          · rintro (h5 | ⟨h5, -⟩) <;> dsimp only at h5 <;> linarith
        · have : atan2 b = Real.pi := Complex.arg_eq_pi_iff.2 ⟨h4, h3⟩
          exact ⟨fun _ => .inl (by rw [this]; exact hpi), fun _ => ⟨h3, h4.ne⟩⟩
    · rw [lessAngleNaN_missing_right hpa mq, keyM mq, keyS hpa, Prod.Lex.toLex_lt_toLex]
      by_cases hl : LeftOrAhead a
      · have ha := hθ i hi p a hp hpa hl
        rw [ha]
        constructor
        · intro h1
          rcases hl with h3 | h3
          · exact absurd h1 h3.not_gt
          · exact absurd h3.1 h1.ne
        · rintro (h1 | ⟨-, h2⟩)
          · exact absurd h1 (lt_irrefl _)
          · exact absurd h2 (Nat.not_lt_zero _)
      · have hl' : a.y < 0 ∨ (a.y = 0 ∧ a.x < 0) := by
          unfold LeftOrAhead at hl
          push Not at hl
          rcases hl.1.lt_or_eq with h3 | h3
          · exact .inl h3
          · exact .inr ⟨h3, hl.2 h3⟩
        rcases hl' with h3 | ⟨h3, h4⟩
        · have : atan2 a < 0 := atan2_neg.2 h3
          exact ⟨fun _ => .inl (by dsimp only; linarith), fun _ => h3⟩
        · have : atan2 a = Real.pi := Complex.arg_eq_pi_iff.2 ⟨h4, h3⟩
          constructor
          · intro h5; exact absurd h3 h5.ne
          · rintro (h5 | ⟨h5, -⟩) <;> dsimp only at h5 <;> linarith
    · rw [lessAngleNaN_numbers hpa hqb, keyS hpa, keyS hqb,
        C21_comparator_partial a b (hax i hi j hj p q a b hp hq hpa hqb), Prod.Lex.toLex_lt_toLex]
      constructor
      · exact fun h1 => .inl h1
      · rintro (h1 | ⟨h1, h2⟩)
        · exact h1
        · dsimp only at h1 h2
          by_cases hb : b.y = 0 ∧ 0 < b.x
          · have hb0 : atan2 b = 0 := Complex.arg_eq_zero_iff.2 ⟨hb.2.le, hb.1⟩
            rw [hb0, atan2, Complex.arg_eq_zero_iff] at h1
            have hd := (hdir' i hi j hj p q a b hp hq hpa hqb (.inr ⟨h1.2, h1.1⟩)
              (.inr ⟨hb.1, hb.2.le⟩)).2
            have ha : a.y = 0 ∧ 0 < a.x :=
              ⟨h1.2, lt_of_le_of_ne h1.1 fun hx => hb.2.ne' (hd.1 ⟨hx.symm, h1.2⟩).1⟩
            rw [if_pos ha, if_pos hb] at h2
            exact absurd h2 (lt_irrefl _)
          · rw [if_neg hb] at h2
            exact absurd h2 (Nat.not_lt_zero _)
  · refine strictWeakOn_of_key (fun i => (cloud[i]?).elim 0 fun p => match p.x, p.y with
      | some x, some y => Complex.arg ⟨x, y⟩
      | _, _ => 0) ?_
    intro i hi j hj
    obtain ⟨p, hp⟩ : ∃ p, cloud[i]? = some p := ⟨_, List.getElem?_eq_getElem (hin i hi)⟩
    obtain ⟨q, hq⟩ : ∃ q, cloud[j]? = some q := ⟨_, List.getElem?_eq_getElem (hin j hj)⟩
    obtain ⟨a, hpa⟩ := (hplain p (List.mem_of_getElem? hp)).resolve_left
      fun hm => hmiss ⟨i, hi, p, hp, hm⟩
    obtain ⟨b, hqb⟩ := (hplain q (List.mem_of_getElem? hq)).resolve_left
      fun hm => hmiss ⟨j, hj, q, hq, hm⟩
    simp only [lessIndex, hp, hq, Option.elim, hpa.1, hpa.2.1, hqb.1, hqb.2.1]
    rw [lessAngleNaN_numbers hpa hqb]
    exact C21_comparator_partial a b (hax i hi j hj p q a b hp hq hpa hqb)

/-! ### The property -/

/-- C145, the comparator on a cloud without missing points is that of C21. -/
theorem C145_numbers (p q : PointXYZIR Number) (a b : PointXYZIR ℝ) (hp : StandsFor p a)
    (hq : StandsFor q b) : NaN.lessAngle p q = lessAngle a b :=
  lessAngleNaN_numbers hp hq

/-- C145, exactly: let every point have both coordinates or be missing. Splitting and sorting a cloud
is defined if and only if no ring has two different points on the positive x half-axis (C20), and in a
ring with a missing point all points to the left or ahead lie in one direction. Otherwise the behaviour
is undefined. Missing: points with only the first coordinate NaN, infinite coordinates. -/
theorem C145_defined_partial {sort : (ℕ → ℕ → Bool) → List ℕ → List ℕ}
    (cloud : List (PointXYZIR Number)) (hplain : ∀ p ∈ cloud, Missing p ∨ ∃ r, StandsFor p r) :
    ((∃ rings, extractAngleSortedRings sort NaN.lessAngle PointXYZIR.ring cloud = .ok rings) ↔
      (∀ p ∈ cloud, ∀ q ∈ cloud, p.ring = q.ring → ∀ a b, StandsFor p a → StandsFor q b →
        ¬ SamePositiveAxis a b) ∧
      ∀ n ∈ cloud, Missing n → ∀ p ∈ cloud, ∀ q ∈ cloud, p.ring = n.ring → q.ring = n.ring →
        ∀ a b, StandsFor p a → StandsFor q b → LeftOrAhead a → LeftOrAhead b → SameDirection a b) ∧
    ∀ e, extractAngleSortedRings sort NaN.lessAngle PointXYZIR.ring cloud = .error e →
      e = .undefinedBehaviour := by
  have hp := C20_split_partitions PointXYZIR.ring cloud
  have hlt : ∀ ri ∈ makePointIndices PointXYZIR.ring cloud, ∀ i ∈ ri.2, i < cloud.length := by
    intro ri hri i hi
    obtain ⟨p, h1, -⟩ := (hp.mem ri.1 ri.2 hri i).1 hi
    exact (List.getElem?_eq_some_iff.1 h1).1
  refine ⟨?_, fun e he => sortEach_error _ hlt he⟩
  have hring : ∀ ri ∈ makePointIndices PointXYZIR.ring cloud, ∀ i ∈ ri.2, ∀ p, cloud[i]? = some p →
      p ∈ cloud ∧ p.ring = ri.1 := by
    intro ri hri i hi p hpi
    obtain ⟨p', h1, h2⟩ := (hp.mem ri.1 ri.2 hri i).1 hi
    rw [hpi] at h1; injection h1 with h1; subst h1
    exact ⟨List.mem_of_getElem? hpi, h2⟩
  constructor
  · rintro ⟨rings, h⟩
    have hs : ∀ ri ∈ makePointIndices PointXYZIR.ring cloud, RingSortable cloud ri.2 := fun ri hri =>
      strictWeakOn_nan_necessary ((sortEach_ok h).2 ri hri).1
    constructor
    · intro p hpc q hqc hpq a b hpa hqb
      obtain ⟨i, hi⟩ := List.mem_iff_getElem?.1 hpc
      obtain ⟨j, hj⟩ := List.mem_iff_getElem?.1 hqc
      obtain ⟨idx, hidx⟩ := hp.cover i p hi
      exact (hs _ hidx).1 i ((hp.mem _ _ hidx i).2 ⟨p, hi, rfl⟩) j
        ((hp.mem _ _ hidx j).2 ⟨q, hj, hpq.symm⟩) p q a b hi hj hpa hqb
    · intro n hnc hmn p hpc q hqc hpn hqn a b hpa hqb hla hlb
      obtain ⟨k, hk⟩ := List.mem_iff_getElem?.1 hnc
      obtain ⟨i, hi⟩ := List.mem_iff_getElem?.1 hpc
      obtain ⟨j, hj⟩ := List.mem_iff_getElem?.1 hqc
      obtain ⟨idx, hidx⟩ := hp.cover k n hk
      exact (hs _ hidx).2 k ((hp.mem _ _ hidx k).2 ⟨n, hk, rfl⟩) n hk hmn i
        ((hp.mem _ _ hidx i).2 ⟨p, hi, hpn⟩) j ((hp.mem _ _ hidx j).2 ⟨q, hj, hqn⟩) p q a b hi hj hpa
        hqb hla hlb
  · rintro ⟨h1, h2⟩
    refine sortEach_total fun ri hri => ⟨strictWeakOn_nan_sufficient (hlt ri hri) hplain ⟨?_, ?_⟩,
      hlt ri hri⟩
    · intro i hi j hj p q a b hpi hqj hpa hqb
      obtain ⟨m1, r1⟩ := hring ri hri i hi p hpi
      obtain ⟨m2, r2⟩ := hring ri hri j hj q hqj
      exact h1 p m1 q m2 (r1.trans r2.symm) a b hpa hqb
    · intro k hk n hnk hmn i hi j hj p q a b hpi hqj hpa hqb hla hlb
      obtain ⟨m0, r0⟩ := hring ri hri k hk n hnk
      obtain ⟨m1, r1⟩ := hring ri hri i hi p hpi
      obtain ⟨m2, r2⟩ := hring ri hri j hj q hqj
      exact h2 n m0 hmn p m1 q m2 (r1.trans r0.symm) (r2.trans r0.symm) a b hpa hqb hla hlb

/-- C145, violation: whatever else is in the cloud, one missing point in a ring with two points to the
left in different directions makes sorting undefined behaviour, however `std::sort` works. -/
theorem C145_violated (sort : (ℕ → ℕ → Bool) → List ℕ → List ℕ) (cloud : List (PointXYZIR Number))
    (n p q : PointXYZIR Number) (a b : PointXYZIR ℝ) (hn : n ∈ cloud) (hpc : p ∈ cloud)
    (hqc : q ∈ cloud) (hmn : Missing n) (hpa : StandsFor p a) (hqb : StandsFor q b)
    (hpn : p.ring = n.ring) (hqn : q.ring = n.ring) (hay : 0 < a.y) (hby : 0 < b.y)
    (hdir : atan2 a ≠ atan2 b) :
    extractAngleSortedRings sort NaN.lessAngle PointXYZIR.ring cloud = .error .undefinedBehaviour := by
  have hp := C20_split_partitions PointXYZIR.ring cloud
  cases h : extractAngleSortedRings sort NaN.lessAngle PointXYZIR.ring cloud with
  | ok rings =>
    obtain ⟨k, hk⟩ := List.mem_iff_getElem?.1 hn
    obtain ⟨i, hi⟩ := List.mem_iff_getElem?.1 hpc
    obtain ⟨j, hj⟩ := List.mem_iff_getElem?.1 hqc
    obtain ⟨idx, hidx⟩ := hp.cover k n hk
    have hs := strictWeakOn_nan_necessary ((sortEach_ok h).2 _ hidx).1
    exact absurd (hs.2 k ((hp.mem _ _ hidx k).2 ⟨n, hk, rfl⟩) n hk hmn i
        ((hp.mem _ _ hidx i).2 ⟨p, hi, hpn⟩) j ((hp.mem _ _ hidx j).2 ⟨q, hj, hqn⟩) p q a b hi hj hpa
        hqb (.inl hay) (.inl hby)).1 hdir
  | error e =>
    rw [sortEach_error _ (by
      intro ri hri i hi
      obtain ⟨p, h1, -⟩ := (hp.mem ri.1 ri.2 hri i).1 hi
      exact (List.getElem?_eq_some_iff.1 h1).1) h]

/-- C145, violation in the node: the callback then has undefined behaviour, whatever the code computes
for norms and neighbours of missing points, and whatever the parameters. -/
theorem C145_node_violated (plat : Platform ℝ) (hp : HyperParameters ℝ)
    (geo : Geometry (PointXYZIR Number) ℝ) (hless : geo.less = NaN.lessAngle)
    (hring : geo.ringOf = PointXYZIR.ring) (stamp : ℤ) (isDense ringAvailable : Bool)
    (cloud : List (PointXYZIR Number)) (n p q : PointXYZIR Number) (a b : PointXYZIR ℝ)
    (hn : n ∈ cloud) (hpc : p ∈ cloud) (hqc : q ∈ cloud) (hmn : Missing n) (hpa : StandsFor p a)
    (hqb : StandsFor q b) (hpn : p.ring = n.ring) (hqn : q.ring = n.ring) (hay : 0 < a.y)
    (hby : 0 < b.y) (hdir : atan2 a ≠ atan2 b) :
    callback plat hp geo stamp isDense ringAvailable cloud = .error .undefinedBehaviour := by
  have h := C145_violated plat.sort cloud n p q a b hn hpc hqc hmn hpa hqb hpn hqn hay hby hdir
  simp only [callback, extractClouds, hless, hring, h, bind, Except.bind]

end Verif.Extraction

namespace Verif.Wire

open Verif Verif.Convert Verif.Pcl Verif.Extraction

/-! ### From the bytes of the sensor -/

/-- Specification of NaN among the 32-bit floating-point numbers: without the sign, the bits come after
those of infinity. -/
def BitsOfNaN (bits : BitVec 32) : Prop := 0x7f800000 < bits.toNat % 0x80000000

/-- The bits of a coordinate: a number, or NaN. -/
def IsNumber (bits : BitVec 32) : NaN.Number → Prop
  | some v => float32 bits = some v
  | none => BitsOfNaN bits

/-- Point `i` of the sensor's cloud, read in the byte order of the cloud, is `p`. -/
structure SensorReturn (input : PointCloud2 Header) (fx fy fz fr : Field) (dr : DataType) (i : ℕ)
    (p : PointXYZIR NaN.Number) : Prop where
  x : IsNumber (BitVec.ofNat 32 (ofBytes input.isBigendian
    (bytesAt input.data input.pointStep i fx.offset 4))) p.x
  y : IsNumber (BitVec.ofNat 32 (ofBytes input.isBigendian
    (bytesAt input.data input.pointStep i fy.offset 4))) p.y
  z : IsNumber (BitVec.ofNat 32 (ofBytes input.isBigendian
    (bytesAt input.data input.pointStep i fz.offset 4))) p.z
  ring : ((ofBytes input.isBigendian (bytesAt input.data input.pointStep i fr.offset dr.size) : ℕ) : ℤ) =
    p.ring

theorem isNaN32_iff (bits : BitVec 32) : isNaN32 bits = true ↔ BitsOfNaN bits := by
  simp only [isNaN32, BitsOfNaN, Bool.and_eq_true, decide_eq_true_eq]
  have := bits.isLt
  omega

theorem isNaN32_congr {a b : BitVec 32} (h : BitsOfNaN a ↔ BitsOfNaN b) : isNaN32 a = isNaN32 b := by
  rw [Bool.eq_iff_iff, isNaN32_iff, isNaN32_iff, h]

theorem isNaN32_float32 {bits : BitVec 32} (h : isNaN32 bits = true) : float32 bits = none := by
  simp only [isNaN32, Bool.and_eq_true, decide_eq_true_eq] at h
  simp [float32, h.1]

theorem coordinateNaN_of {q : List Byte} {off : ℕ} {bits : BitVec 32} {v : NaN.Number}
    (hf : coordinate q off = float32 bits)
    (hn : isNaN32 (BitVec.ofNat 32 (ofBytes false ((q.drop off).take 4))) = isNaN32 bits)
    (hv : IsNumber bits v) : coordinateNaN q off = .ok v := by
  unfold coordinateNaN
  rw [hn]
  cases v with
  | none =>
    rw [if_pos ((isNaN32_iff bits).2 hv)]
  | some r =>
    have hv' : float32 bits = some r := hv
    have : ¬ isNaN32 bits = true := fun h => by rw [isNaN32_float32 h] at hv'; cases hv'
    rw [if_neg this, hf, hv']

theorem mapM_ok_exists {α β : Type} {f : α → Res β} : ∀ {l : List α} {out : List β},
    l.mapM f = .ok out → ∀ a ∈ l, ∃ b, f a = .ok b
  | [], _, _, a, ha => by cases ha
  | x :: l, out, h, a, ha => by
    rw [List.mapM_cons] at h
    cases hx : f x with
    | error e => rw [hx] at h; cases h
    | ok b =>
      rcases List.mem_cons.1 ha with rfl | ha
      · exact ⟨b, hx⟩
      · cases hl : l.mapM f with
        | error e => rw [hx] at h; simp only [bind, Except.bind, hl] at h; cases h
        | ok bs => exact mapM_ok_exists hl a ha

theorem mapM_forall₂ {α β γ : Type} {R : α → β → Prop} {f : β → Res γ} {g : α → γ} :
    ∀ {l : List α} {qs : List β}, List.Forall₂ R l qs → (∀ i ∈ l, ∀ q, R i q → f q = .ok (g i)) →
      qs.mapM f = .ok (l.map g)
  | _, _, .nil, _ => rfl
  | a :: l, q :: qs, .cons h t, hg => by
    rw [List.mapM_cons, hg a List.mem_cons_self q h,
      mapM_forall₂ t fun i hi => hg i (List.mem_cons_of_mem _ hi)]
    rfl

/-- C145, violation from end to end: let the converter accept the layout of the sensor's cloud (C62),
the coordinates being numbers or NaN. If a ring has a point without coordinates and two points to the
left of the sensor in different directions, the converter passes the cloud on as dense, and the
extraction node has undefined behaviour. -/
theorem C145_sensor_violated (fl : Floats)
    (hlaw : ∀ b, (fl.enc32 (fl.dec32 b)).map fl.dec32 = some (fl.dec32 b))
    (hval : ∀ a b : BitVec 32, fl.dec32 a = fl.dec32 b → float32 a = float32 b)
    (hnan : ∀ a b : BitVec 32, fl.dec32 a = fl.dec32 b → (BitsOfNaN a ↔ BitsOfNaN b))
    (input : PointCloud2 Header) (n : ℕ) (hdata : input.data.length = n * input.pointStep)
    {ds : List DataType} {fx fy fz fi fr : Field} {dr : DataType}
    (A : Accepted input.fields input.pointStep ds fx fy fz fi fr dr)
    (points : ℕ → PointXYZIR NaN.Number)
    (hpts : ∀ i < n, IsKept fl input fx fy fz i = true → SensorReturn input fx fy fz fr dr i (points i))
    (i j k : ℕ) (hi : i < n) (hj : j < n) (hk : k < n) (ki : IsKept fl input fx fy fz i = true)
    (kj : IsKept fl input fx fy fz j = true) (kk : IsKept fl input fx fy fz k = true)
    (a b : PointXYZIR ℝ) (hmiss : Missing (points k)) (hpa : StandsFor (points i) a)
    (hqb : StandsFor (points j) b) (hik : (points i).ring = (points k).ring)
    (hjk : (points j).ring = (points k).ring) (hay : 0 < a.y) (hby : 0 < b.y)
    (hdir : atan2 a ≠ atan2 b) (plat : Platform ℝ) (hp : HyperParameters ℝ) (degreeThreshold : ℝ) :
    ∃ out, Convert.callback fl input = .ok out ∧
      extractionCallback plat hp degreeThreshold out = .error .undefinedBehaviour := by
  obtain ⟨out, got, h1, h2, h3, h4, h5, h6⟩ := C135_converted_partial fl hlaw input n hdata A
  refine ⟨out, h1, ?_⟩
  have hmapN : got.points.mapM pointNaN =
      .ok (((List.range n).filter (IsKept fl input fx fy fz)).map points) := by
    refine mapM_forall₂ h6 ?_
    rintro i hi q ⟨hq, hx, hy, hz, -, hr⟩
    obtain ⟨hi1, hi2⟩ := List.mem_filter.1 hi
    have hs := hpts i (List.mem_range.1 hi1) hi2
    have cx : coordinateNaN q 0 = .ok (points i).x := by
      injection hx with hx
      exact coordinateNaN_of (hval _ _ hx) (isNaN32_congr (hnan _ _ hx)) hs.x
    have cy : coordinateNaN q 4 = .ok (points i).y := by
      injection hy with hy
      exact coordinateNaN_of (hval _ _ hy) (isNaN32_congr (hnan _ _ hy)) hs.y
    have cz : coordinateNaN q 8 = .ok (points i).z := by
      injection hz with hz
      exact coordinateNaN_of (hval _ _ hz) (isNaN32_congr (hnan _ _ hz)) hs.z
    have cr : ((ofBytes false ((q.drop 20).take 2) : ℕ) : ℤ) = (points i).ring := by
      rw [← hs.ring]
      rcases A.ring with rfl | rfl
      · injection hr
      · injection hr
    unfold pointNaN
    rw [cx, cy, cz, cr]
    rfl
  have mem : ∀ {i}, i < n → IsKept fl input fx fy fz i = true →
      points i ∈ ((List.range n).filter (IsKept fl input fx fy fz)).map points := fun hi ki =>
    List.mem_map.2 ⟨_, List.mem_filter.2 ⟨List.mem_range.2 hi, ki⟩, rfl⟩
  have hsort := C145_violated plat.sort
    (((List.range n).filter (IsKept fl input fx fy fz)).map points) (points k) (points i) (points j) a b
    (mem hk kk) (mem hi ki) (mem hj kj) hmiss hpa hqb hik hjk hay hby hdir
  have hbad : ∃ e, got.points.mapM (fun (q : List Byte) => do
      let p ← pointOf q
      pure (q, p)) = (.error e : Res _) := by
    cases hm : got.points.mapM (fun (q : List Byte) => do
      let p ← pointOf q
      pure (q, p)) with
    | error e => exact ⟨e, rfl⟩
    | ok ps =>
      have hmem : k ∈ (List.range n).filter (IsKept fl input fx fy fz) :=
        List.mem_filter.2 ⟨List.mem_range.2 hk, kk⟩
      obtain ⟨m, hm1, hmk⟩ := List.getElem_of_mem hmem
      obtain ⟨hl, h7⟩ := List.forall₂_iff_get.1 h6
      have hm' : m < got.points.length := by omega
      obtain ⟨-, -, hy, -⟩ := h7 m hm1 hm'
      simp only [List.get_eq_getElem, hmk] at hy
      injection hy with hy
      have hs := (hpts k hk kk).y
      have hmiss' : (points k).y = none := hmiss
      rw [hmiss'] at hs
      have hc : coordinate got.points[m] 4 = none := (hval _ _ hy).trans (isNaN32_float32 ((isNaN32_iff _).2 hs))
      obtain ⟨b, hb⟩ := mapM_ok_exists hm _ (List.getElem_mem hm')
      have : ∃ e, pointOf got.points[m] = .error e := by
        unfold pointOf
        rw [hc]
        cases coordinate got.points[m] 0 <;> exact ⟨_, rfl⟩
      obtain ⟨e, he⟩ := this
      rw [he] at hb
      cases hb
  obtain ⟨e, hbad⟩ := hbad
  unfold extractionCallback
  rw [h3]
  simp only [bind, Except.bind] at hbad ⊢
  rw [hbad]
  simp only [sortNaN, bind, Except.bind, hmapN, hsort]

/-! ### Example -/

/-- Three points of ring 3 of a big-endian sensor: `(1, 1, 0)`, `(2, 1, 0)` and one without
coordinates, marked not dense. -/
def gapCloud : PointCloud2 Header where
  header := ⟨42, "velodyne"⟩
  height := 1
  width := 3
  fields := aligned
  isBigendian := true
  pointStep := 32
  rowStep := 96
  data := [63, 128, 0, 0] ++ [63, 128, 0, 0] ++ [0, 0, 0, 0] ++ List.replicate 8 0 ++ [0, 3] ++
    List.replicate 10 0 ++ [64, 0, 0, 0] ++ [63, 128, 0, 0] ++
    [0, 0, 0, 0] ++ List.replicate 8 0 ++ [0, 3] ++ List.replicate 10 0 ++ [127, 192, 0, 0] ++
    [127, 192, 0, 0] ++ [127, 192, 0, 0] ++ List.replicate 8 0 ++ [0, 3] ++ List.replicate 10 0
  isDense := false

/-- The points of `gapCloud`. -/
def gapPoint (i : ℕ) : PointXYZIR NaN.Number :=
  if i = 0 then ⟨some 1, some 1, some 0, 3⟩
  else if i = 1 then ⟨some 2, some 1, some 0, 3⟩
  else ⟨none, none, none, 3⟩

example : gapCloud.data.length = 3 * 32 ∧
    (∀ i < 3, IsKept bits gapCloud ⟨"x", 0, 7, 1⟩ ⟨"y", 4, 7, 1⟩ ⟨"z", 8, 7, 1⟩ i = true) ∧
    (∀ i < 3, SensorReturn gapCloud ⟨"x", 0, 7, 1⟩ ⟨"y", 4, 7, 1⟩ ⟨"z", 8, 7, 1⟩ ⟨"ring", 20, 4, 1⟩
      .uint16 i (gapPoint i)) ∧
    Missing (gapPoint 2) ∧ StandsFor (gapPoint 0) ⟨1, 1, 0, 3⟩ ∧ StandsFor (gapPoint 1) ⟨2, 1, 0, 3⟩ ∧
    atan2 ⟨1, 1, 0, 3⟩ ≠ atan2 ⟨2, 1, 0, 3⟩ := by
  refine ⟨by decide, by decide, ?_, rfl, ⟨rfl, rfl, rfl⟩, ⟨rfl, rfl, rfl⟩, ?_⟩
  · intro i hi
    interval_cases i
    · exact ⟨float32_one, float32_one, float32_zero, rfl⟩
    · exact ⟨float32_two, float32_one, float32_zero, rfl⟩
    · have h : BitsOfNaN 2143289344#32 := by show (2139095040 : ℕ) < _; decide
      exact ⟨h, h, h, rfl⟩
  · refine ((C21_comparator_partial ⟨2, 1, 0, 3⟩ ⟨1, 1, 0, 3⟩ ?_).1 ?_).ne'
    · rintro ⟨h, -⟩
      norm_num at h
    · norm_num [lessAngle]

example (a b : BitVec 32) (h : bits.dec32 a = bits.dec32 b) : BitsOfNaN a ↔ BitsOfNaN b :=
  iff_of_eq (congrArg BitsOfNaN h)

/-- With the points to the right instead, the same cloud can be sorted. -/
example (sort : (ℕ → ℕ → Bool) → List ℕ → List ℕ) : ∃ rings,
    extractAngleSortedRings sort NaN.lessAngle PointXYZIR.ring
      [(⟨some 1, some (-1), some 0, 3⟩ : PointXYZIR NaN.Number), ⟨some 2, some (-1), some 0, 3⟩,
        ⟨none, none, none, 3⟩] = .ok rings := by
  have right : ∀ p ∈ [(⟨some 1, some (-1), some 0, 3⟩ : PointXYZIR NaN.Number),
      ⟨some 2, some (-1), some 0, 3⟩, ⟨none, none, none, 3⟩], ∀ a, StandsFor p a → a.y = -1 := by
    intro p hp a ⟨_, h, _⟩
    simp only [List.mem_cons, List.not_mem_nil, or_false] at hp
    rcases hp with rfl | rfl | rfl
    · exact (Option.some.inj h).symm
    · exact (Option.some.inj h).symm
    · cases h
  refine ((C145_defined_partial _ ?_).1).2 ⟨?_, ?_⟩
  · intro p hp
    simp only [List.mem_cons, List.not_mem_nil, or_false] at hp
    rcases hp with rfl | rfl | rfl
    · exact .inr ⟨⟨1, -1, 0, 3⟩, rfl, rfl, rfl⟩
    · exact .inr ⟨⟨2, -1, 0, 3⟩, rfl, rfl, rfl⟩
    · exact .inl rfl
  · rintro p hp q hq - a b ha hb ⟨h, -⟩
    rw [right p hp a ha] at h
    norm_num at h
  · intro n hn _ p hp q hq _ _ a b ha hb hla
    exfalso
    have := right p hp a ha
    rcases hla with h | ⟨h, -⟩ <;> rw [this] at h <;> norm_num at h

end Verif.Wire
