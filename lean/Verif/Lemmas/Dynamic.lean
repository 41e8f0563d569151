/-
Lemmas about the operations of `Model/Dynamic`: what they give when the sizes fit.
-/
import Verif.Model.Dynamic

set_option autoImplicit false

namespace Verif.Dyn

open Matrix Verif.Kalman

variable {K : Type} {a b c : ℕ}

theorem check_true : check true = .ok () := rfl
theorem check_false : check false = .error .assertFail := rfl

theorem assign_vec_fit (v : Fin a → K) (w : Fin b → K) (i : ℕ) (h : i + b ≤ a) :
    (⟨a, v⟩ : Vec K).assign i b ⟨b, w⟩ = .ok ⟨a, fun k =>
      if h : i ≤ k.val ∧ k.val < i + b then w ⟨k.val - i, by omega⟩ else v k⟩ := by
  unfold Vec.assign
  rw [if_pos (by simp only [and_true]; omega)]
  rfl

theorem segment_fit (v : Fin a → K) (i n : ℕ) (h : i + n ≤ a) :
    (⟨a, v⟩ : Vec K).segment i n = .ok ⟨n, fun k => v ⟨i + k.val, by omega⟩⟩ := by
  unfold Vec.segment
  rw [dif_pos (by simp only; omega)]
  rfl

theorem block_fit (M : Matrix (Fin a) (Fin b) K) (i j r s : ℕ) (hi : i + r ≤ a) (hj : j + s ≤ b) :
    (⟨a, b, M⟩ : Mat K).block i j r s = .ok ⟨r, s, Matrix.of fun k l =>
      M ⟨i + k.val, by omega⟩ ⟨j + l.val, by omega⟩⟩ := by
  unfold Mat.block
  rw [dif_pos (by simp only; omega)]
  rfl

theorem assign_fit (M : Matrix (Fin a) (Fin b) K) (i j r s : ℕ) (B : Matrix (Fin r) (Fin s) K)
    (hi : i + r ≤ a) (hj : j + s ≤ b) :
    (⟨a, b, M⟩ : Mat K).assign i j r s ⟨r, s, B⟩ = .ok ⟨a, b, Matrix.of fun k l =>
      if h : (i ≤ k.val ∧ k.val < i + r) ∧ (j ≤ l.val ∧ l.val < j + s) then
        B ⟨k.val - i, by omega⟩ ⟨l.val - j, by omega⟩
      else M k l⟩ := by
  unfold Mat.assign Mat.setBlock
  rw [if_pos ⟨rfl, rfl⟩, if_pos (by simp only; omega)]
  rfl

variable [Field K]

theorem mul_fit (L : Matrix (Fin a) (Fin b) K) (M : Matrix (Fin b) (Fin c) K) :
    (⟨a, b, L⟩ : Mat K).mul ⟨b, c, M⟩ = .ok ⟨a, c, L * M⟩ := by
  unfold Mat.mul
  rw [dif_pos rfl]
  rfl

theorem mulVec_fit (M : Matrix (Fin a) (Fin b) K) (v : Fin b → K) :
    (⟨a, b, M⟩ : Mat K).mulVec ⟨b, v⟩ = .ok ⟨a, M *ᵥ v⟩ := by
  unfold Mat.mulVec
  rw [dif_pos rfl]
  rfl

theorem add_fit (L M : Matrix (Fin a) (Fin b) K) :
    (⟨a, b, L⟩ : Mat K).add ⟨a, b, M⟩ = .ok ⟨a, b, L + M⟩ := by
  unfold Mat.add
  rw [dif_pos ⟨rfl, rfl⟩]
  rfl

theorem sub_fit (L M : Matrix (Fin a) (Fin b) K) :
    (⟨a, b, L⟩ : Mat K).sub ⟨a, b, M⟩ = .ok ⟨a, b, L - M⟩ := by
  unfold Mat.sub
  rw [dif_pos ⟨rfl, rfl⟩]
  rfl

theorem add_vec_fit (v w : Fin a → K) : (⟨a, v⟩ : Vec K).add ⟨a, w⟩ = .ok ⟨a, v + w⟩ := by
  unfold Vec.add
  rw [dif_pos rfl]
  rfl

theorem sub_vec_fit (v w : Fin a → K) : (⟨a, v⟩ : Vec K).sub ⟨a, w⟩ = .ok ⟨a, v - w⟩ := by
  unfold Vec.sub
  rw [dif_pos rfl]
  rfl

theorem mul_ok {L M R : Mat K} (h : L.mul M = .ok R) :
    L.cols = M.rows ∧ R.rows = L.rows ∧ R.cols = M.cols := by
  unfold Mat.mul at h
  split_ifs at h with h1
  injection h with h
  subst h
  exact ⟨h1, rfl, rfl⟩

theorem mulVec_ok {M : Mat K} {v w : Vec K} (h : M.mulVec v = .ok w) :
    M.cols = v.rows ∧ w.rows = M.rows := by
  unfold Mat.mulVec at h
  split_ifs at h with h1
  injection h with h
  subst h
  exact ⟨h1, rfl⟩

theorem add_ok {L M R : Mat K} (h : L.add M = .ok R) :
    L.rows = M.rows ∧ L.cols = M.cols ∧ R.rows = L.rows ∧ R.cols = L.cols := by
  unfold Mat.add at h
  split_ifs at h with h1
  injection h with h
  subst h
  exact ⟨h1.1, h1.2, rfl, rfl⟩

theorem sub_ok {L M R : Mat K} (h : L.sub M = .ok R) :
    L.rows = M.rows ∧ L.cols = M.cols ∧ R.rows = L.rows ∧ R.cols = L.cols := by
  unfold Mat.sub at h
  split_ifs at h with h1
  injection h with h
  subst h
  exact ⟨h1.1, h1.2, rfl, rfl⟩

theorem add_vec_ok {v w r : Vec K} (h : v.add w = .ok r) : v.rows = w.rows ∧ r.rows = v.rows := by
  unfold Vec.add at h
  split_ifs at h with h1
  injection h with h
  subst h
  exact ⟨h1, rfl⟩

theorem sub_vec_ok {v w r : Vec K} (h : v.sub w = .ok r) : v.rows = w.rows ∧ r.rows = v.rows := by
  unfold Vec.sub at h
  split_ifs at h with h1
  injection h with h
  subst h
  exact ⟨h1, rfl⟩

omit [Field K]

theorem check_ok {p : Bool} (h : check p = .ok ()) : p = true := by
  unfold check at h
  split_ifs at h with h1
  exact h1

theorem assign_vec_ok {v w r : Vec K} {i n : ℤ} (h : v.assign i n w = .ok r) :
    0 ≤ i ∧ 0 ≤ n ∧ i + n ≤ v.rows ∧ (w.rows : ℤ) = n ∧ r.rows = v.rows := by
  unfold Vec.assign at h
  split_ifs at h with h1
  injection h with h
  subst h
  exact ⟨h1.1, h1.2.1, h1.2.2.1, h1.2.2.2, rfl⟩

theorem assign_ok {M R B : Mat K} {i j r s : ℤ} (h : M.assign i j r s B = .ok R) :
    0 ≤ i ∧ 0 ≤ j ∧ i + r ≤ M.rows ∧ j + s ≤ M.cols ∧ (B.rows : ℤ) = r ∧ (B.cols : ℤ) = s ∧
      R.rows = M.rows ∧ R.cols = M.cols := by
  unfold Mat.assign at h
  split_ifs at h with h1
  unfold Mat.setBlock at h
  split_ifs at h with h2
  injection h with h
  subst h
  obtain ⟨h3, h4, h5, h6⟩ := h2
  exact ⟨h3, h4, by omega, by omega, h1.1, h1.2, rfl, rfl⟩

/-- A step of a calculation that may fail. -/
theorem bind_ok {α β : Type} {x : Res α} {g : α → Res β} {r : β} (h : x >>= g = .ok r) :
    ∃ v, x = .ok v ∧ g v = .ok r := by
  cases x with
  | error e => exact absurd h (by simp [bind, Except.bind])
  | ok v => exact ⟨v, rfl, h⟩

/-- A calculation that, if it fails, fails an assertion. -/
def OnlyAssert {α : Type} (x : Res α) : Prop := ∀ e, x = .error e → e = .assertFail

theorem onlyAssert_ok {α : Type} (v : α) : OnlyAssert (.ok v : Res α) := by
  intro e h
  simp only [reduceCtorEq] at h

theorem onlyAssert_fail {α : Type} : OnlyAssert (.error .assertFail : Res α) := by
  intro e h
  injection h with h
  exact h.symm

theorem onlyAssert_bind {α β : Type} {x : Res α} {g : α → Res β} (hx : OnlyAssert x)
    (hg : ∀ v, OnlyAssert (g v)) : OnlyAssert (x >>= g) := by
  cases x with
  | error e =>
    intro e' h
    injection h with h
    exact h ▸ hx e rfl
  | ok v => exact hg v

theorem onlyAssert_check (p : Bool) : OnlyAssert (check p) := by
  unfold check
  split_ifs
  · exact onlyAssert_ok _
  · exact onlyAssert_fail

theorem onlyAssert_assign_vec (v w : Vec K) (i n : ℤ) : OnlyAssert (v.assign i n w) := by
  unfold Vec.assign
  split_ifs
  · exact onlyAssert_ok _
  · exact onlyAssert_fail

theorem onlyAssert_segment (v : Vec K) (i n : ℤ) : OnlyAssert (v.segment i n) := by
  unfold Vec.segment
  split_ifs
  · exact onlyAssert_ok _
  · exact onlyAssert_fail

theorem onlyAssert_block (M : Mat K) (i j r s : ℤ) : OnlyAssert (M.block i j r s) := by
  unfold Mat.block
  split_ifs
  · exact onlyAssert_ok _
  · exact onlyAssert_fail

theorem onlyAssert_assign (M B : Mat K) (i j r s : ℤ) : OnlyAssert (M.assign i j r s B) := by
  unfold Mat.assign Mat.setBlock
  split_ifs
  · exact onlyAssert_ok _
  · exact onlyAssert_fail
  · exact onlyAssert_fail

variable [Field K]

theorem onlyAssert_mul (L M : Mat K) : OnlyAssert (L.mul M) := by
  unfold Mat.mul
  split_ifs
  · exact onlyAssert_ok _
  · exact onlyAssert_fail

theorem onlyAssert_mulVec (M : Mat K) (v : Vec K) : OnlyAssert (M.mulVec v) := by
  unfold Mat.mulVec
  split_ifs
  · exact onlyAssert_ok _
  · exact onlyAssert_fail

theorem onlyAssert_add (L M : Mat K) : OnlyAssert (L.add M) := by
  unfold Mat.add
  split_ifs
  · exact onlyAssert_ok _
  · exact onlyAssert_fail

theorem onlyAssert_add_vec (v w : Vec K) : OnlyAssert (v.add w) := by
  unfold Vec.add
  split_ifs
  · exact onlyAssert_ok _
  · exact onlyAssert_fail

end Verif.Dyn
