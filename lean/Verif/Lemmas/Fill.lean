/-
Helper lemmas about the fill functions.
-/
import Verif.Model.Fill
import Mathlib.Tactic.Linarith
import Mathlib.Tactic.Ring

set_option autoImplicit false

namespace Verif.Extraction

theorem fillLeftLoop_spec (nb : NeighborCheck) (label : PointLabel) (adj : ℕ → Bool) (k : ℕ) :
    ∀ (i : ℕ) (labels : List PointLabel), i + k + 1 ≤ labels.length →
    (∀ m, i ≤ m → m < i + k → nb.test m (m + 1) = .ok (adj m)) →
    ∃ r, fillLeftLoop nb label k i ((i + k + 1 : ℕ) : ℤ) labels = .ok r ∧
      r.length = labels.length ∧
      ∀ n, r[n]? = if i ≤ n ∧ n < i + k + 1 ∧ (∀ m, i ≤ m → m < n → adj m = true) then some label
        else labels[n]? := by
  induction k with
  | zero =>
    intro i labels hlen hnb
    refine ⟨labels.set i label, ?_, by simp, fun n => ?_⟩
    · have : ((i + 0 + 1 : ℕ) : ℤ) - 1 = (i : ℕ) := by push_cast; ring
      simp only [fillLeftLoop, this]
      exact setI_ok (by omega) _
    · rw [List.getElem?_set]
      by_cases h : i = n
      · subst h
        rw [if_pos rfl, if_pos (by omega), if_pos ⟨le_rfl, by omega, fun m h1 h2 => by omega⟩]
      · rw [if_neg h, if_neg]
        rintro ⟨h1, h2, -⟩; omega
  | succ k ih =>
    intro i labels hlen hnb
    have h0 : nb.test (i : ℤ) ((i : ℤ) + 1) = .ok (adj i) := hnb i le_rfl (by omega)
    have hset := setI_ok (l := labels) (i := i) (by omega) label
    simp only [fillLeftLoop, hset, h0, bind, Except.bind]
    by_cases ha : adj i = true
    · obtain ⟨r, hr, hl, hv⟩ := ih (i + 1) (labels.set i label) (by simp; omega)
        (fun m h1 h2 => hnb m (by omega) (by omega))
      refine ⟨r, ?_, by simpa using hl, fun n => ?_⟩
      · rw [ha]
        have e1 : ((i : ℤ) + 1) = ((i + 1 : ℕ) : ℤ) := by push_cast; ring
        have e2 : ((i + (k + 1) + 1 : ℕ) : ℤ) = ((i + 1 + k + 1 : ℕ) : ℤ) := by push_cast; ring
        rw [e1, e2]
        simpa using hr
      · rw [hv n, List.getElem?_set]
        by_cases h1 : i + 1 ≤ n ∧ n < i + 1 + k + 1 ∧ (∀ m, i + 1 ≤ m → m < n → adj m = true)
        · rw [if_pos h1, if_pos]
          refine ⟨by omega, by omega, fun m hm1 hm2 => ?_⟩
          by_cases hmi : m = i
          · rw [hmi]; exact ha
          · exact h1.2.2 m (by omega) hm2
        · rw [if_neg h1]
          by_cases hin : i = n
          · subst hin
            rw [if_pos rfl, if_pos (by omega), if_pos ⟨le_rfl, by omega, fun m h1 h2 => by omega⟩]
          · rw [if_neg hin, if_neg]
            rintro ⟨h2, h3, h4⟩
            exact h1 ⟨by omega, by omega, fun m hm1 hm2 => h4 m (by omega) hm2⟩
    · have ha' : adj i = false := by simpa using ha
      refine ⟨labels.set i label, by simp [ha', pure, Except.pure], by simp, fun n => ?_⟩
      rw [List.getElem?_set]
      by_cases hin : i = n
      · subst hin
        rw [if_pos rfl, if_pos (by omega), if_pos ⟨le_rfl, by omega, fun m h1 h2 => by omega⟩]
      · rw [if_neg hin, if_neg]
        rintro ⟨h2, h3, h4⟩
        exact ha (h4 i le_rfl (by omega))

theorem fillRightLoop_spec (nb : NeighborCheck) (label : PointLabel) (adj : ℕ → Bool) (k : ℕ) :
    ∀ (lo : ℕ) (labels : List PointLabel), lo + k < labels.length →
    (∀ m, lo ≤ m → m < lo + k → nb.test ((m : ℤ) + 1) m = .ok (adj m)) →
    ∃ r, fillRightLoop nb label k ((lo + k : ℕ) : ℤ) ((lo : ℤ) - 1) labels = .ok r ∧
      r.length = labels.length ∧
      ∀ n, r[n]? = if lo ≤ n ∧ n ≤ lo + k ∧ (∀ m, n ≤ m → m < lo + k → adj m = true) then
        some label else labels[n]? := by
  induction k with
  | zero =>
    intro lo labels hlen hnb
    refine ⟨labels.set lo label, ?_, by simp, fun n => ?_⟩
    · have : ((lo : ℤ) - 1) + 1 = (lo : ℕ) := by ring
      simp only [fillRightLoop, this]
      exact setI_ok (by omega) _
    · rw [List.getElem?_set]
      by_cases h : lo = n
      · subst h
        rw [if_pos rfl, if_pos (by omega), if_pos ⟨le_rfl, by omega, fun m h1 h2 => by omega⟩]
      · rw [if_neg h, if_neg]
        rintro ⟨h1, h2, -⟩; omega
  | succ k ih =>
    intro lo labels hlen hnb
    have e1 : ((lo + (k + 1) : ℕ) : ℤ) - 1 = ((lo + k : ℕ) : ℤ) := by push_cast; ring
    have h0 : nb.test ((lo + (k + 1) : ℕ) : ℤ) ((lo + k : ℕ) : ℤ) = .ok (adj (lo + k)) := by
      have := hnb (lo + k) (by omega) (by omega)
      have e : ((lo + k : ℕ) : ℤ) + 1 = ((lo + (k + 1) : ℕ) : ℤ) := by push_cast; ring
      rwa [e] at this
    have hset := setI_ok (l := labels) (i := lo + (k + 1)) (by omega) label
    simp only [fillRightLoop, hset, e1, h0, bind, Except.bind]
    by_cases ha : adj (lo + k) = true
    · obtain ⟨r, hr, hl, hv⟩ := ih lo (labels.set (lo + (k + 1)) label) (by simp; omega)
        (fun m h1 h2 => hnb m (by omega) (by omega))
      refine ⟨r, ?_, by simpa using hl, fun n => ?_⟩
      · rw [ha]
        simpa using hr
      · rw [hv n, List.getElem?_set]
        by_cases h1 : lo ≤ n ∧ n ≤ lo + k ∧ (∀ m, n ≤ m → m < lo + k → adj m = true)
        · rw [if_pos h1, if_pos]
          refine ⟨by omega, by omega, fun m hm1 hm2 => ?_⟩
          by_cases hmi : m = lo + k
          · rw [hmi]; exact ha
          · exact h1.2.2 m (by omega) (by omega)
        · rw [if_neg h1]
          by_cases hin : lo + (k + 1) = n
          · subst hin
            rw [if_pos rfl, if_pos (by omega), if_pos ⟨by omega, by omega, fun m h1 h2 => by omega⟩]
          · rw [if_neg hin, if_neg]
            rintro ⟨h2, h3, h4⟩
            exact h1 ⟨by omega, by omega, fun m hm1 hm2 => h4 m (by omega) (by omega)⟩
    · have ha' : adj (lo + k) = false := by simpa using ha
      refine ⟨labels.set (lo + (k + 1)) label, by simp [ha', pure, Except.pure], by simp,
        fun n => ?_⟩
      rw [List.getElem?_set]
      by_cases hin : lo + (k + 1) = n
      · subst hin
        rw [if_pos rfl, if_pos (by omega), if_pos ⟨by omega, by omega, fun m h1 h2 => by omega⟩]
      · rw [if_neg hin, if_neg]
        rintro ⟨h2, h3, h4⟩
        exact ha (h4 (lo + k) (by omega) (by omega))

/-! Failures: inside the bounds the only failures are those of the neighbour test. -/

theorem fillLeftLoop_err (nb : NeighborCheck) (label : PointLabel) (P : Err → Prop) (k : ℕ) :
    ∀ (i : ℕ) (labels : List PointLabel), i + k + 1 ≤ labels.length →
    (∀ (m : ℕ) e, i ≤ m → m < i + k → nb.test m (m + 1) = .error e → P e) →
    ∀ e, fillLeftLoop nb label k i ((i + k + 1 : ℕ) : ℤ) labels = .error e → P e := by
  induction k with
  | zero =>
    intro i labels hlen _ e h
    have e1 : ((i + 0 + 1 : ℕ) : ℤ) - 1 = (i : ℕ) := by push_cast; ring
    simp only [fillLeftLoop, e1] at h
    rw [setI_ok (by omega)] at h
    cases h
  | succ k ih =>
    intro i labels hlen hnb e h
    have hset := setI_ok (l := labels) (i := i) (by omega) label
    simp only [fillLeftLoop, hset, bind, Except.bind] at h
    cases ht : nb.test (i : ℤ) ((i : ℤ) + 1) with
    | error e' =>
      rw [ht] at h
      injection h with h
      exact h ▸ hnb i e' le_rfl (by omega) ht
    | ok v =>
      rw [ht] at h
      cases v with
      | false => simp [pure, Except.pure] at h
      | true =>
        have e1 : ((i : ℤ) + 1) = ((i + 1 : ℕ) : ℤ) := by push_cast; ring
        have e2 : ((i + (k + 1) + 1 : ℕ) : ℤ) = ((i + 1 + k + 1 : ℕ) : ℤ) := by push_cast; ring
        rw [e1, e2] at h
        exact ih (i + 1) (labels.set i label) (by simp; omega)
          (fun m e' h1 h2 => hnb m e' (by omega) (by omega)) e (by simpa using h)

theorem fillRightLoop_err (nb : NeighborCheck) (label : PointLabel) (P : Err → Prop) (k : ℕ) :
    ∀ (lo : ℕ) (labels : List PointLabel), lo + k < labels.length →
    (∀ (m : ℕ) e, lo ≤ m → m < lo + k → nb.test ((m : ℤ) + 1) m = .error e → P e) →
    ∀ e, fillRightLoop nb label k ((lo + k : ℕ) : ℤ) ((lo : ℤ) - 1) labels = .error e → P e := by
  induction k with
  | zero =>
    intro lo labels hlen _ e h
    have e1 : ((lo : ℤ) - 1) + 1 = (lo : ℕ) := by ring
    simp only [fillRightLoop, e1] at h
    rw [setI_ok (by omega)] at h
    cases h
  | succ k ih =>
    intro lo labels hlen hnb e h
    have e1 : ((lo + (k + 1) : ℕ) : ℤ) - 1 = ((lo + k : ℕ) : ℤ) := by push_cast; ring
    have hset := setI_ok (l := labels) (i := lo + (k + 1)) (by omega) label
    simp only [fillRightLoop, hset, e1, bind, Except.bind] at h
    have e2 : ((lo + k : ℕ) : ℤ) + 1 = ((lo + (k + 1) : ℕ) : ℤ) := by push_cast; ring
    cases ht : nb.test ((lo + (k + 1) : ℕ) : ℤ) ((lo + k : ℕ) : ℤ) with
    | error e' =>
      rw [ht] at h
      injection h with h
      exact h ▸ hnb (lo + k) e' (by omega) (by omega) (by rw [e2]; exact ht)
    | ok v =>
      rw [ht] at h
      cases v with
      | false => simp [pure, Except.pure] at h
      | true =>
        exact ih lo (labels.set (lo + (k + 1)) label) (by simp; omega)
          (fun m e' h1 h2 => hnb m e' (by omega) (by omega)) e (by simpa using h)

end Verif.Extraction
