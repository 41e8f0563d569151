/-
C104: time stamps kept as doubles.
-/
import Mathlib.Tactic.Linarith
import Mathlib.Tactic.Ring
import Mathlib.Tactic.NormNum
import Mathlib.Tactic.Positivity
import Verif.Model.Double
import Verif.Props.C54

set_option autoImplicit false

namespace Verif.Store

open Verif

/-! ### Rounding -/

theorem spacing_pos (t : ℤ) : 0 < spacing t := by unfold spacing; positivity

/-- Up to the year 2043 neighbouring doubles are at most 256 ns apart, and their distance divides
256. -/
theorem spacing_dvd {t : ℤ} (ht : |t| < 2 ^ 61) : spacing t ∣ 256 := by
  have h1 : t.natAbs < 2 ^ 61 := by
    have := Int.natCast_natAbs t
    zify
    exact ht
  have h2 : Nat.log 2 t.natAbs ≤ 60 := by
    by_cases h0 : t.natAbs = 0
    · rw [h0]; simp
    · have := Nat.log_lt_of_lt_pow h0 h1
      omega
  unfold spacing
  rw [show (256 : ℤ) = 2 ^ 8 by norm_num]
  exact pow_dvd_pow 2 (by omega)

theorem spacing_small {t : ℤ} (ht : |t| < 2 ^ 53) : spacing t = 1 := by
  have h1 : t.natAbs < 2 ^ 53 := by
    have := Int.natCast_natAbs t
    zify
    exact ht
  have h2 : Nat.log 2 t.natAbs ≤ 52 := by
    by_cases h0 : t.natAbs = 0
    · rw [h0]; simp
    · have := Nat.log_lt_of_lt_pow h0 h1
      omega
  unfold spacing
  rw [Nat.sub_eq_zero_of_le h2, pow_zero]

/-- Rounding to the nearest multiple errs by at most half the distance. -/
theorem divNearestEven_error (t u : ℤ) (hu : 0 < u) :
    2 * |u * divNearestEven t u - t| ≤ u := by
  have h1 := Int.emod_add_mul_ediv t u
  have h2 := Int.emod_nonneg t hu.ne'
  have h3 := Int.emod_lt_of_pos t hu
  simp only [divNearestEven]
  set q := t / u
  set r := t % u
  have e1 : u * q - t = -r := by linarith
  have e2 : u * (q + 1) - t = u - r := by rw [mul_add]; linarith
  split_ifs with ha hb hc
  · rw [e1, abs_neg, abs_of_nonneg h2]; linarith
  · rw [e2, abs_of_pos (by linarith)]; linarith
  · rw [e1, abs_neg, abs_of_nonneg h2]; linarith
  · rw [e2, abs_of_pos (by linarith)]; linarith

theorem divNearestEven_mul (q u : ℤ) (hu : 0 < u) : divNearestEven (u * q) u = q := by
  simp only [divNearestEven, Int.mul_emod_right, Int.mul_ediv_cancel_left _ hu.ne']
  rw [if_pos (by linarith)]

theorem divNearestEven_mono {a b u : ℤ} (hu : 0 < u) (hab : a ≤ b) :
    divNearestEven a u ≤ divNearestEven b u := by
  have a1 := Int.emod_add_mul_ediv a u
  have a2 := Int.emod_nonneg a hu.ne'
  have a3 := Int.emod_lt_of_pos a hu
  have b1 := Int.emod_add_mul_ediv b u
  have b2 := Int.emod_nonneg b hu.ne'
  have b3 := Int.emod_lt_of_pos b hu
  have hq : a / u ≤ b / u := Int.ediv_le_ediv hu hab
  simp only [divNearestEven]
  by_cases he : a / u = b / u
  · rw [he] at a1 ⊢
    have hr : a % u ≤ b % u := by linarith
    split_ifs <;> omega
  · have : a / u + 1 ≤ b / u := by omega
    split_ifs <;> omega

/-- Specification of the conversion: up to `2^61` ns (January 2043) it errs by at most 128 ns. -/
theorem C104_conversion_error (t : ℤ) (ht : |t| < 2 ^ 61) : |toDouble t - t| ≤ 128 := by
  have h1 := divNearestEven_error t (spacing t) (spacing_pos t)
  have h2 := Int.le_of_dvd (by norm_num) (spacing_dvd ht)
  unfold toDouble
  linarith

/-- Multiples of the spacing are kept. -/
theorem toDouble_of_dvd {t : ℤ} (h : spacing t ∣ t) : toDouble t = t := by
  unfold toDouble
  obtain ⟨q, hq⟩ := h
  have : divNearestEven t (spacing t) = q := by
    conv_lhs => rw [hq]
    rw [← hq]
    conv_lhs => arg 1; rw [hq]
    exact divNearestEven_mul q _ (spacing_pos t)
  rw [this, ← hq]

/-- Stamps below `2^53` ns (104 days, as in simulated time) are kept exactly. -/
theorem C104_small_exact (t : ℤ) (ht : |t| < 2 ^ 53) : toDouble t = t :=
  toDouble_of_dvd (by rw [spacing_small ht]; exact one_dvd t)

/-- C104, order: a later stamp is never converted to an earlier one. -/
theorem C104_order_kept (a b : ℤ) (ha : 0 ≤ a) (hab : a ≤ b) : toDouble a ≤ toDouble b := by
  by_cases he : Nat.log 2 a.natAbs - 52 = Nat.log 2 b.natAbs - 52
  · have hs : spacing a = spacing b := by unfold spacing; rw [he]
    unfold toDouble
    rw [hs]
    exact mul_le_mul_of_nonneg_left (divNearestEven_mono (spacing_pos b) hab) (spacing_pos b).le
  · have hle : Nat.log 2 a.natAbs ≤ Nat.log 2 b.natAbs := Nat.log_mono_right (by omega)
    obtain ⟨k, hk⟩ : ∃ k, k = Nat.log 2 b.natAbs := ⟨_, rfl⟩
    obtain ⟨j, hj⟩ : ∃ j, j = Nat.log 2 a.natAbs := ⟨_, rfl⟩
    rw [← hk, ← hj] at he hle
    have hkj : j < k := by omega
    have hb0 : b.natAbs ≠ 0 := by
      intro h0; rw [h0] at hk; simp at hk; omega
    have hb1 : (2 : ℤ) ^ k ≤ b := by
      have := Nat.pow_log_le_self 2 hb0
      rw [← hk] at this
      zify at this
      rwa [abs_of_nonneg (by linarith)] at this
    have ha1 : a ≤ (2 : ℤ) ^ k := by
      have := Nat.lt_pow_succ_log_self (b := 2) (by norm_num) a.natAbs
      rw [← hj] at this
      have h2 : (2 : ℕ) ^ (j + 1) ≤ 2 ^ k := Nat.pow_le_pow_right (by norm_num) hkj
      have h3 := lt_of_lt_of_le this h2
      zify at h3
      rw [abs_of_nonneg ha] at h3
      exact h3.le
    have h1 : toDouble a ≤ 2 ^ k := by
      unfold toDouble
      have e : (2 : ℤ) ^ k = spacing a * 2 ^ (k - (j - 52)) := by
        unfold spacing; rw [← hj, ← pow_add]; congr 1; omega
      have hm := divNearestEven_mono (spacing_pos a) ha1
      rw [e, divNearestEven_mul _ _ (spacing_pos a)] at hm
      rw [e]
      exact mul_le_mul_of_nonneg_left hm (spacing_pos a).le
    have h2 : 2 ^ k ≤ toDouble b := by
      unfold toDouble
      have e : (2 : ℤ) ^ k = spacing b * 2 ^ (k - (k - 52)) := by
        unfold spacing; rw [← hk, ← pow_add]; congr 1; omega
      have hm := divNearestEven_mono (spacing_pos b) hb1
      rw [e, divNearestEven_mul _ _ (spacing_pos b)] at hm
      rw [e]
      exact mul_le_mul_of_nonneg_left hm (spacing_pos b).le
    exact h1.trans h2

/-! ### The query -/

variable {V : Type}

/-- The double query is the exact one when the differences formed are representable. -/
theorem getClosestDouble_eq {s : Store ℤ V} {q : ℤ}
    (hd : ∀ e ∈ s, toDouble (q - e.1) = q - e.1 ∧ toDouble (e.1 - q) = e.1 - q) :
    getClosestDouble q s = getClosest q s := by
  unfold getClosestDouble getClosest
  simp only
  by_cases h1 : lowerBound q s = s.length
  · rw [if_pos h1, if_pos h1]
  · rw [if_neg h1, if_neg h1]
    by_cases h2 : lowerBound q s = 0
    · rw [if_pos h2, if_pos h2]
    · rw [if_neg h2, if_neg h2]
      have hlt : lowerBound q s < s.length := lt_of_le_of_ne (lowerBound_le q s) h1
      simp only [prev, h2, if_false, bind, Except.bind, deref]
      rw [List.getElem?_eq_getElem (by omega), List.getElem?_eq_getElem (by omega)]
      simp only
      rw [(hd _ (List.getElem_mem _)).1, (hd _ (List.getElem_mem _)).2]

/-- The store after a history of poses received with exact stamps. -/
def buildDouble (h : List (ℤ × V)) : Store ℤ V := h.foldl (fun s e => insertNanoseconds e.1 e.2 s) []

theorem buildDouble_eq (h : List (ℤ × V)) :
    buildDouble h = build (h.map fun e => (toDouble e.1, e.2)) := by
  simp only [buildDouble, build, insertNanoseconds, List.foldl_map]

/-- The entries are roundings of received poses. -/
theorem mem_buildDouble {h : List (ℤ × V)} {e : ℤ × V} (he : e ∈ buildDouble h) :
    ∃ t, (t, e.2) ∈ h ∧ e.1 = toDouble t := by
  rw [buildDouble_eq] at he
  obtain ⟨pre, post, heq, _⟩ := (C54_contents _ e).1 he
  have : (e.1, e.2) ∈ h.map fun e => (toDouble e.1, e.2) := by rw [heq]; simp
  obtain ⟨⟨t, v⟩, h1, h2⟩ := List.mem_map.1 this
  simp only [Prod.mk.injEq] at h2
  exact ⟨t, by rw [← h2.2]; exact h1, h2.1.symm⟩

/-- Every received stamp has an entry at its rounding. -/
theorem buildDouble_has {h : List (ℤ × V)} {t : ℤ} {v : V} (ht : (t, v) ∈ h) :
    ∃ v', (toDouble t, v') ∈ buildDouble h := by
  rw [buildDouble_eq]
  have h1 : toDouble t ∈ (h.map fun e => (toDouble e.1, e.2)).map Prod.fst := by
    simp only [List.map_map, List.mem_map, Function.comp_apply]
    exact ⟨(t, v), ht, rfl⟩
  generalize (h.map fun e => (toDouble e.1, e.2)) = g at h1 ⊢
  induction g using List.reverseRecOn with
  | nil => simp at h1
  | append_singleton g x ih =>
    rw [build_append]
    by_cases hx : x.1 = toDouble t
    · exact ⟨x.2, (mem_insert (sorted_build g) _ _ _).2 (Or.inl (by rw [hx]))⟩
    · have h2 : toDouble t ∈ g.map Prod.fst := by
        simp only [List.map_append, List.map_cons, List.map_nil, List.mem_append,
          List.mem_singleton] at h1
        exact h1.resolve_right fun hc => hx hc.symm
      obtain ⟨v', hv'⟩ := ih h2
      exact ⟨v', (mem_insert (sorted_build g) _ _ _).2 (Or.inr ⟨hv', fun hc => hx hc.symm⟩)⟩

theorem buildDouble_ne_nil {h : List (ℤ × V)} (hne : h ≠ []) : buildDouble h ≠ [] := by
  obtain ⟨e, l, rfl⟩ := List.exists_cons_of_ne_nil hne
  obtain ⟨v', hv'⟩ := buildDouble_has (h := e :: l) (t := e.1) (v := e.2) (by simp)
  intro hc
  rw [hc] at hv'
  simp at hv'

/-- Between July 2006 and January 2043 a stored stamp is a multiple of 256 ns in the same
interval. -/
theorem toDouble_now {t : ℤ} (h1 : 2 ^ 60 ≤ t) (h2 : t < 2 ^ 61) :
    256 ∣ toDouble t ∧ 2 ^ 60 ≤ toDouble t ∧ toDouble t ≤ 2 ^ 61 := by
  have hpos : 0 ≤ t := le_trans (by positivity) h1
  have hlog : Nat.log 2 t.natAbs = 60 := by
    rw [Nat.log_eq_iff (Or.inl (by norm_num))]
    constructor
    · zify; rwa [abs_of_nonneg hpos]
    · zify; rwa [abs_of_nonneg hpos]
  have hs : spacing t = 256 := by unfold spacing; rw [hlog]; norm_num
  have hlow := divNearestEven_mono (u := 256) (by norm_num) h1
  have hup := divNearestEven_mono (u := 256) (by norm_num) h2.le
  rw [show (2 : ℤ) ^ 60 = 256 * 2 ^ 52 by norm_num, divNearestEven_mul _ _ (by norm_num)] at hlow
  rw [show (2 : ℤ) ^ 61 = 256 * 2 ^ 53 by norm_num, divNearestEven_mul _ _ (by norm_num)] at hup
  unfold toDouble
  rw [hs]
  refine ⟨dvd_mul_right _ _, ?_, ?_⟩
  · linarith
  · linarith

theorem toDouble_difference {a b : ℤ} (ha : 256 ∣ a) (hb : 256 ∣ b) (h : |a - b| < 2 ^ 61) :
    toDouble (a - b) = a - b :=
  toDouble_of_dvd ((spacing_dvd h).trans (dvd_sub ha hb))

/-- C104: for every history of poses and every scan stamped between July 2006 and January 2043,
the pose used is one that was received, and its exact stamp is at most 512 ns farther from the
exact stamp of the scan than that of any pose received. -/
theorem C104_prior_nearly_closest (h : List (ℤ × V)) (hne : h ≠ []) (q : ℤ)
    (hq : 2 ^ 60 ≤ q ∧ q < 2 ^ 61) (hh : ∀ e ∈ h, 2 ^ 60 ≤ e.1 ∧ e.1 < 2 ^ 61) :
    ∃ e t, priorFor q (buildDouble h) = .ok e ∧ (t, e.2) ∈ h ∧ e.1 = toDouble t ∧
      ∀ e' ∈ h, |q - t| ≤ |q - e'.1| + 512 := by
  obtain ⟨hq1, hq2, hq3⟩ := toDouble_now hq.1 hq.2
  have hexact : getClosestDouble (toDouble q) (buildDouble h) =
      getClosest (toDouble q) (buildDouble h) := by
    apply getClosestDouble_eq
    intro e he
    obtain ⟨t, ht, hte⟩ := mem_buildDouble he
    obtain ⟨h1, h2, h3⟩ := toDouble_now (hh _ ht).1 (hh _ ht).2
    rw [hte]
    exact ⟨toDouble_difference hq1 h1 (by rw [abs_lt]; constructor <;> norm_num at * <;> linarith),
      toDouble_difference h1 hq1 (by rw [abs_lt]; constructor <;> norm_num at * <;> linarith)⟩
  have hsort : Sorted (buildDouble h) := by rw [buildDouble_eq]; exact sorted_build _
  obtain ⟨e, hmem, hok, hall⟩ := getClosest_spec hsort (buildDouble_ne_nil hne) (toDouble q)
  obtain ⟨t, ht, hte⟩ := mem_buildDouble hmem
  refine ⟨e, t, by rw [priorFor, hexact, hok], ht, hte, ?_⟩
  intro e' he'
  obtain ⟨v', hv'⟩ := buildDouble_has (v := e'.2) (t := e'.1) he'
  have key := (hall _ hv').1
  have b : ∀ x : ℤ, 2 ^ 60 ≤ x → x < 2 ^ 61 → |toDouble x - x| ≤ 128 := fun x h1 h2 =>
    C104_conversion_error x (by rw [abs_of_nonneg (le_trans (by positivity) h1)]; exact h2)
  have b1 := abs_le.1 (b q hq.1 hq.2)
  have b2 := abs_le.1 (b t (hh _ ht).1 (hh _ ht).2)
  have b3 := abs_le.1 (b e'.1 (hh _ he').1 (hh _ he').2)
  rw [hte] at key
  simp only at key
  have k2 : |q - t| ≤ |toDouble q - toDouble t| + 256 := by
    have := abs_sub_abs_le_abs_sub (q - t) (toDouble q - toDouble t)
    have : |q - t - (toDouble q - toDouble t)| ≤ 256 := by rw [abs_le]; constructor <;> linarith
    linarith
  have k3 : |toDouble q - toDouble e'.1| ≤ |q - e'.1| + 256 := by
    have := abs_sub_abs_le_abs_sub (toDouble q - toDouble e'.1) (q - e'.1)
    have : |toDouble q - toDouble e'.1 - (q - e'.1)| ≤ 256 := by
      rw [abs_le]; constructor <;> linarith
    linarith
  linarith

/-- C104, simulated time: for stamps from 0 up to `2^53` ns nothing is rounded, so the query returns
the closest pose exactly. -/
theorem C104_simulated_time (h : List (ℤ × V)) (hne : h ≠ []) (q : ℤ)
    (hq : 0 ≤ q ∧ q < 2 ^ 53) (hh : ∀ e ∈ h, 0 ≤ e.1 ∧ e.1 < 2 ^ 53) :
    ∃ e, priorFor q (buildDouble h) = .ok e ∧ Closest (fun e => LastFor h e.1 e.2) q e := by
  have ex : ∀ x : ℤ, 0 ≤ x ∧ x < 2 ^ 53 → toDouble x = x := fun x hx =>
    C104_small_exact x (by rw [abs_of_nonneg hx.1]; exact hx.2)
  have hrec : buildDouble h = build h := by
    rw [buildDouble_eq]
    congr 1
    conv_rhs => rw [← List.map_id h]
    apply List.map_congr_left
    intro e he
    rw [ex _ (hh e he)]; rfl
  obtain ⟨e, he, hc⟩ := C54_closest h hne q
  refine ⟨e, ?_, hc⟩
  rw [priorFor, ex q hq, hrec, getClosestDouble_eq, he]
  intro e' he'
  obtain ⟨pre, post, heq, _⟩ := (C54_contents h e').1 he'
  have h' := hh e' (by rw [heq]; simp)
  exact ⟨C104_small_exact _ (by rw [abs_lt]; constructor <;> linarith [hq.1, hq.2, h'.1, h'.2]),
    C104_small_exact _ (by rw [abs_lt]; constructor <;> linarith [hq.1, hq.2, h'.1, h'.2])⟩

/-! ### What the rounding costs -/

theorem toDouble_at (t q : ℤ) (h1 : 2 ^ 60 ≤ t) (h2 : t < 2 ^ 61) (hq : divNearestEven t 256 = q) :
    toDouble t = 256 * q := by
  have hpos : 0 ≤ t := le_trans (by positivity) h1
  have hlog : Nat.log 2 t.natAbs = 60 := by
    rw [Nat.log_eq_iff (Or.inl (by norm_num))]
    constructor
    · zify; rwa [abs_of_nonneg hpos]
    · zify; rwa [abs_of_nonneg hpos]
  have hs : spacing t = 256 := by unfold spacing; rw [hlog]; norm_num
  unfold toDouble
  rw [hs, hq]

/-- The exact claim fails today: of two poses stamped 1 ns and 200 ns after the scan the farther one
is used, because both stamps round to the same double and the second pose overwrites the first. -/
theorem C104_not_exact :
    ∃ (h : List (ℤ × String)) (q : ℤ) (e : ℤ × String), (∀ e ∈ h, 2 ^ 60 ≤ e.1 ∧ e.1 < 2 ^ 61) ∧
      2 ^ 60 ≤ q ∧ q < 2 ^ 61 ∧ priorFor q (buildDouble h) = .ok e ∧
      e.2 = "far" ∧ (q + 1, "near") ∈ h ∧ (q + 200, "far") ∈ h ∧ h.length = 2 := by
  have h0 : toDouble 1790000000000000129 = 1790000000000000256 := by
    rw [toDouble_at _ 6992187500000001 (by norm_num) (by norm_num) (by norm_num [divNearestEven])]
    norm_num
  have h1 : toDouble 1790000000000000130 = 1790000000000000256 := by
    rw [toDouble_at _ 6992187500000001 (by norm_num) (by norm_num) (by norm_num [divNearestEven])]
    norm_num
  have h2 : toDouble 1790000000000000329 = 1790000000000000256 := by
    rw [toDouble_at _ 6992187500000001 (by norm_num) (by norm_num) (by norm_num [divNearestEven])]
    norm_num
  refine ⟨[(1790000000000000130, "near"), (1790000000000000329, "far")], 1790000000000000129,
    (1790000000000000256, "far"), ?_, by norm_num, by norm_num, ?_, rfl, ?_, ?_, rfl⟩
  · intro e he
    simp only [List.mem_cons, List.not_mem_nil, or_false] at he
    rcases he with rfl | rfl <;> constructor <;> norm_num
  · have hs : buildDouble [((1790000000000000130 : ℤ), "near"), (1790000000000000329, "far")] =
        [(1790000000000000256, "far")] := by
      simp only [buildDouble, List.foldl_cons, List.foldl_nil, insertNanoseconds, h1, h2, insert]
      simp
    rw [hs, priorFor, h0]
    simp [getClosestDouble, lowerBound, deref, prev]
  · simp
  · simp

/-! Non-vacuity: a history of this year. -/

example : ∃ e t, priorFor 1790000000100000000
    (buildDouble [((1790000000000000000 : ℤ), "a"), (1790000000110000000, "b")]) = .ok e ∧
    (t, e.2) ∈ [((1790000000000000000 : ℤ), "a"), (1790000000110000000, "b")] ∧ e.1 = toDouble t ∧
    ∀ e' ∈ [((1790000000000000000 : ℤ), "a"), (1790000000110000000, "b")],
      |1790000000100000000 - t| ≤ |1790000000100000000 - e'.1| + 512 :=
  C104_prior_nearly_closest _ (by simp) _ ⟨by norm_num, by norm_num⟩ (by
    intro e he
    simp only [List.mem_cons, List.not_mem_nil, or_false] at he
    rcases he with rfl | rfl <;> constructor <;> norm_num)

end Verif.Store
