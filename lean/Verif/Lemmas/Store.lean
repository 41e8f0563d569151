/-
Lemmas on the stamped store: the keys stay strictly increasing, which entries `Insert` and
`RemoveOlderThan` leave, where `lower_bound` and `upper_bound` point.
-/
import Mathlib.Tactic.Linarith
import Mathlib.Algebra.Order.Group.Abs
import Mathlib.Algebra.Order.Ring.Int
import Verif.Model.Store

set_option autoImplicit false

namespace Verif.Store

variable {K V : Type} [LinearOrder K]

/-- Strictly increasing keys. -/
def Sorted (s : Store K V) : Prop := s.Pairwise fun a b => a.1 < b.1

theorem sorted_nil : Sorted ([] : Store K V) := List.Pairwise.nil

theorem mem_insert {s : Store K V} (hs : Sorted s) (t : K) (v : V) (e : K × V) :
    e ∈ insert t v s ↔ e = (t, v) ∨ (e ∈ s ∧ e.1 ≠ t) := by
  induction s with
  | nil => simp [insert]
  | cons a rest ih =>
    have hr : Sorted rest := (List.pairwise_cons.1 hs).2
    have ha := (List.pairwise_cons.1 hs).1
    unfold insert
    split_ifs with h1 h2
    · simp only [List.mem_cons]
      constructor
      · rintro (rfl | rfl | h)
        · exact Or.inl rfl
        · exact Or.inr ⟨Or.inl rfl, ne_of_gt h1⟩
        · exact Or.inr ⟨Or.inr h, ne_of_gt (h1.trans (ha _ h))⟩
      · rintro (rfl | ⟨rfl | h, _⟩)
        · exact Or.inl rfl
        · exact Or.inr (Or.inl rfl)
        · exact Or.inr (Or.inr h)
    · simp only [List.mem_cons, ih hr]
      constructor
      · rintro (rfl | rfl | ⟨h, h'⟩)
        · exact Or.inr ⟨Or.inl rfl, ne_of_lt h2⟩
        · exact Or.inl rfl
        · exact Or.inr ⟨Or.inr h, h'⟩
      · rintro (rfl | ⟨rfl | h, h'⟩)
        · exact Or.inr (Or.inl rfl)
        · exact Or.inl rfl
        · exact Or.inr (Or.inr ⟨h, h'⟩)
    · have hat : a.1 = t := le_antisymm (not_lt.1 h1) (not_lt.1 h2)
      simp only [List.mem_cons, hat]
      constructor
      · rintro (rfl | h)
        · exact Or.inl rfl
        · exact Or.inr ⟨Or.inr h, ne_of_gt (hat ▸ ha _ h)⟩
      · rintro (rfl | ⟨rfl | h, h'⟩)
        · exact Or.inl rfl
        · exact absurd hat h'
        · exact Or.inr h

theorem sorted_insert {s : Store K V} (hs : Sorted s) (t : K) (v : V) : Sorted (insert t v s) := by
  induction s with
  | nil => simp [insert, Sorted]
  | cons a rest ih =>
    have hr : Sorted rest := (List.pairwise_cons.1 hs).2
    have ha := (List.pairwise_cons.1 hs).1
    unfold insert
    split_ifs with h1 h2
    · refine List.pairwise_cons.2 ⟨?_, hs⟩
      intro b hb
      rcases List.mem_cons.1 hb with rfl | hb
      · exact h1
      · exact h1.trans (ha _ hb)
    · refine List.pairwise_cons.2 ⟨?_, ih hr⟩
      intro b hb
      rcases (mem_insert hr t v b).1 hb with rfl | ⟨hb, _⟩
      · exact h2
      · exact ha _ hb
    · exact List.pairwise_cons.2 ⟨fun b hb => ha b hb, hr⟩

theorem insert_ne_nil (t : K) (v : V) (s : Store K V) : insert t v s ≠ [] := by
  cases s with
  | nil => simp [insert]
  | cons a rest => unfold insert; split_ifs <;> simp

theorem Sorted.lt {s : Store K V} (hs : Sorted s) {i j : ℕ} (hij : i < j) (hj : j < s.length) :
    (s[i]'(hij.trans hj)).1 < s[j].1 := List.pairwise_iff_getElem.1 hs i j _ hj hij

theorem Sorted.le {s : Store K V} (hs : Sorted s) {i j : ℕ} (hij : i ≤ j) (hj : j < s.length) :
    (s[i]'(hij.trans_lt hj)).1 ≤ s[j].1 := by
  rcases hij.lt_or_eq with h | h
  · exact (hs.lt h hj).le
  · subst h; exact le_rfl

/-- Keys of a sorted store determine the entry. -/
theorem Sorted.inj {s : Store K V} (hs : Sorted s) {e e' : K × V} (h : e ∈ s) (h' : e' ∈ s)
    (hk : e.1 = e'.1) : e = e' := by
  obtain ⟨i, hi, rfl⟩ := List.getElem_of_mem h
  obtain ⟨j, hj, rfl⟩ := List.getElem_of_mem h'
  rcases lt_trichotomy i j with hij | hij | hij
  · exact absurd hk (hs.lt hij hj).ne
  · subst hij; rfl
  · exact absurd hk (hs.lt hij hi).ne'

theorem lowerBound_le (t : K) (s : Store K V) : lowerBound t s ≤ s.length := List.findIdx_le_length

theorem before_lowerBound {t : K} {s : Store K V} {i : ℕ} (h : i < lowerBound t s) :
    (s[i]'(h.trans_le (lowerBound_le t s))).1 < t := by
  have := List.not_of_lt_findIdx h
  simpa using this

theorem from_lowerBound {t : K} {s : Store K V} (hs : Sorted s) {i : ℕ} (h : lowerBound t s ≤ i)
    (hi : i < s.length) : t ≤ s[i].1 := by
  have hl : lowerBound t s < s.length := h.trans_lt hi
  have h1 : t ≤ (s[lowerBound t s]).1 := by
    have := List.findIdx_getElem (w := hl) (p := fun e : K × V => decide (¬ e.1 < t)) (xs := s)
    exact not_lt.1 (of_decide_eq_true this)
  exact h1.trans (hs.le h hi)

theorem upperBound_le (t : K) (s : Store K V) : upperBound t s ≤ s.length := List.findIdx_le_length

theorem before_upperBound {t : K} {s : Store K V} {i : ℕ} (h : i < upperBound t s) :
    (s[i]'(h.trans_le (upperBound_le t s))).1 ≤ t := by
  have := List.not_of_lt_findIdx h
  simpa using this

theorem from_upperBound {t : K} {s : Store K V} (hs : Sorted s) {i : ℕ} (h : upperBound t s ≤ i)
    (hi : i < s.length) : t < s[i].1 := by
  have hl : upperBound t s < s.length := h.trans_lt hi
  have h1 : t < (s[upperBound t s]).1 := by
    have := List.findIdx_getElem (w := hl) (p := fun e : K × V => decide (t < e.1)) (xs := s)
    exact of_decide_eq_true this
  exact h1.trans_le (hs.le h hi)

/-- The removal loop keeps the entries up to the boundary. -/
theorem removeLoop_eq (boundary : ℕ) : ∀ (curr : ℕ) (s : Store K V), boundary ≤ curr →
    s.length = curr + 1 → removeLoop boundary curr s = .ok (s.take (boundary + 1))
  | 0, s, hb, hl => by
    have : boundary = 0 := by omega
    subst this
    simp [removeLoop, List.take_of_length_le (Nat.le_of_eq hl)]
  | curr + 1, s, hb, hl => by
    unfold removeLoop
    by_cases h : boundary = curr + 1
    · rw [if_pos h, h, List.take_of_length_le (Nat.le_of_eq hl)]
    · rw [if_neg h]
      have hlen : (s.eraseIdx (curr + 1)).length = curr + 1 := by
        rw [List.length_eraseIdx_of_lt (by omega)]; omega
      rw [removeLoop_eq boundary curr _ (by omega) hlen,
        List.take_eraseIdx_eq_take_of_le _ _ _ (by omega)]

/-- The prefix before `upper_bound` is the sublist of entries that are not newer. -/
theorem take_upperBound {s : Store K V} (hs : Sorted s) (t : K) :
    s.take (upperBound t s) = s.filter fun e => decide (e.1 ≤ t) := by
  conv_rhs => rw [← List.take_append_drop (upperBound t s) s]
  rw [List.filter_append, List.filter_eq_self.2, List.filter_eq_nil_iff.2, List.append_nil]
  · intro e he
    obtain ⟨i, hi, rfl⟩ := List.getElem_of_mem he
    rw [List.getElem_drop]
    rw [List.length_drop] at hi
    simpa using from_upperBound hs (Nat.le_add_right _ i) (by omega)
  · intro e he
    obtain ⟨i, hi, rfl⟩ := List.getElem_of_mem he
    rw [List.getElem_take]
    rw [List.length_take] at hi
    simpa using before_upperBound (t := t) (s := s) (i := i) (by omega)

/-- What `RemoveOlderThan` does. -/
theorem removeOlderThan_eq {s : Store K V} (hs : Sorted s) (t : K) :
    removeOlderThan t s =
      if s ≠ [] ∧ ∀ e ∈ s, t < e.1 then .error .undefinedBehaviour
      else .ok (s.filter fun e => decide (e.1 ≤ t)) := by
  unfold removeOlderThan
  simp only
  by_cases hg : upperBound t s = s.length
  · have hall : ∀ e ∈ s, e.1 ≤ t := by
      intro e he
      obtain ⟨i, hi, rfl⟩ := List.getElem_of_mem he
      exact before_upperBound (by omega)
    rw [if_pos hg, if_neg]
    · rw [List.filter_eq_self.2]
      intro e he
      simpa using hall e he
    · rintro ⟨hne, h⟩
      obtain ⟨e, he⟩ := List.exists_mem_of_ne_nil s hne
      exact absurd (hall e he) (not_le.2 (h e he))
  · rw [if_neg hg]
    have hlt : upperBound t s < s.length := lt_of_le_of_ne (upperBound_le t s) hg
    by_cases h0 : upperBound t s = 0
    · rw [if_pos]
      · simp [prev, h0, bind, Except.bind]
      · refine ⟨List.ne_nil_of_length_pos (by omega), ?_⟩
        intro e he
        obtain ⟨i, hi, rfl⟩ := List.getElem_of_mem he
        exact from_upperBound hs (by omega) hi
    · rw [if_neg]
      · have hl : s.length ≠ 0 := by omega
        simp only [prev, h0, hl, if_false, bind, Except.bind]
        rw [removeLoop_eq _ _ _ (by omega) (by omega)]
        rw [show upperBound t s - 1 + 1 = upperBound t s by omega, take_upperBound hs]
      · rintro ⟨_, h⟩
        have h1 := before_upperBound (t := t) (s := s) (i := 0) (by omega)
        exact absurd h1 (not_le.2 (h _ (List.getElem_mem _)))

theorem sorted_removeOlderThan {s s' : Store K V} (hs : Sorted s) {t : K}
    (h : removeOlderThan t s = .ok s') : Sorted s' := by
  rw [removeOlderThan_eq hs] at h
  split_ifs at h with hc
  cases h
  exact List.Pairwise.filter _ hs

theorem removeOlderThan_ne_nil {s s' : Store K V} (hs : Sorted s) {t : K} (hne : s ≠ [])
    (h : removeOlderThan t s = .ok s') : s' ≠ [] := by
  rw [removeOlderThan_eq hs] at h
  split_ifs at h with hc
  cases h
  simp only [not_and, not_forall, not_lt] at hc
  obtain ⟨e, he, hle⟩ := hc hne
  exact List.ne_nil_of_mem (List.mem_filter.2 ⟨he, by simpa using hle⟩)

variable {K V : Type} [CommRing K] [LinearOrder K] [IsStrictOrderedRing K]

/-- What `GetClosest` returns. -/
theorem getClosest_spec {s : Store K V} (hs : Sorted s) (hne : s ≠ []) (q : K) :
    ∃ e ∈ s, getClosest q s = .ok e ∧
      ∀ e' ∈ s, |q - e.1| ≤ |q - e'.1| ∧ (|q - e.1| = |q - e'.1| → e'.1 ≤ e.1) := by
  have hpos : 0 < s.length := List.length_pos_iff.2 hne
  unfold getClosest
  simp only
  by_cases hg : lowerBound q s = s.length
  · refine ⟨s[s.length - 1], List.getElem_mem _, ?_, ?_⟩
    · rw [if_pos hg]
      simp only [prev, hpos.ne', if_false, bind, Except.bind, deref]
      rw [List.getElem?_eq_getElem (by omega)]
    · intro e' he'
      obtain ⟨i, hi, rfl⟩ := List.getElem_of_mem he'
      have h1 := before_lowerBound (t := q) (s := s) (i := s.length - 1) (by omega)
      have h2 := before_lowerBound (t := q) (s := s) (i := i) (by omega)
      have h3 := hs.le (i := i) (j := s.length - 1) (by omega) (by omega)
      rw [abs_of_pos (by linarith), abs_of_pos (by linarith)]
      exact ⟨by linarith, fun _ => h3⟩
  · rw [if_neg hg]
    have hlt : lowerBound q s < s.length := lt_of_le_of_ne (lowerBound_le q s) hg
    by_cases h0 : lowerBound q s = 0
    · refine ⟨s[0], List.getElem_mem _, ?_, ?_⟩
      · rw [if_pos h0]
        simp only [deref]
        rw [List.getElem?_eq_getElem (by omega)]
      · intro e' he'
        obtain ⟨i, hi, rfl⟩ := List.getElem_of_mem he'
        have h1 := from_lowerBound (t := q) hs (i := 0) (by omega) (by omega)
        have h2 := from_lowerBound (t := q) hs (i := i) (by omega) (by omega)
        have h3 := hs.le (i := 0) (j := i) (by omega) (by omega)
        rw [abs_of_nonpos (by linarith), abs_of_nonpos (by linarith)]
        exact ⟨by linarith, fun h => by linarith⟩
    · have hb := before_lowerBound (t := q) (s := s) (i := lowerBound q s - 1) (by omega)
      have ha := from_lowerBound (t := q) hs (i := lowerBound q s) le_rfl hlt
      have heval : (do
          let g0 ← prev (lowerBound q s)
          let e0 ← deref s g0
          let e1 ← deref s (lowerBound q s)
          let d0 := q - e0.1
          let d1 := e1.1 - q
          (.ok (if d0 < d1 then e0 else e1) : Res (K × V))) =
          .ok (if q - (s[lowerBound q s - 1]).1 < (s[lowerBound q s]).1 - q
            then s[lowerBound q s - 1] else s[lowerBound q s]) := by
        simp only [prev, h0, if_false, bind, Except.bind, deref]
        rw [List.getElem?_eq_getElem (by omega), List.getElem?_eq_getElem (by omega)]
      rw [if_neg h0]
      have key : ∀ e' ∈ s, e'.1 ≤ (s[lowerBound q s - 1]).1 ∨ (s[lowerBound q s]).1 ≤ e'.1 := by
        intro e' he'
        obtain ⟨i, hi, rfl⟩ := List.getElem_of_mem he'
        by_cases hi' : i < lowerBound q s
        · exact Or.inl (hs.le (by omega) (by omega))
        · exact Or.inr (hs.le (by omega) (by omega))
      by_cases hd : q - (s[lowerBound q s - 1]).1 < (s[lowerBound q s]).1 - q
      · refine ⟨s[lowerBound q s - 1], List.getElem_mem _, ?_, ?_⟩
        · rw [heval, if_pos hd]
        · intro e' he'
          rcases key e' he' with h | h
          · rw [abs_of_pos (by linarith), abs_of_pos (by linarith)]
            exact ⟨by linarith, fun _ => h⟩
          · rw [abs_of_pos (by linarith), abs_of_nonpos (by linarith)]
            exact ⟨by linarith, fun h => by linarith⟩
      · refine ⟨s[lowerBound q s], List.getElem_mem _, ?_, ?_⟩
        · rw [heval, if_neg hd]
        · intro e' he'
          rcases key e' he' with h | h
          · rw [abs_of_nonpos (by linarith), abs_of_pos (by linarith)]
            exact ⟨by linarith, fun _ => by linarith⟩
          · rw [abs_of_nonpos (by linarith), abs_of_nonpos (by linarith)]
            exact ⟨by linarith, fun h => by linarith⟩

end Verif.Store
