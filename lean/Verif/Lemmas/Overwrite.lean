/-
Loops whose iterations each overwrite a set of labels.
-/
import Verif.Props.C06

set_option autoImplicit false

namespace Verif.Extraction

theorem Overwritten.refl (l : List PointLabel) (mark : PointLabel) :
    Overwritten l l (fun _ => False) mark := ⟨rfl, fun _ _ => ⟨False.elim, fun _ => rfl⟩⟩

theorem Overwritten.congr {l r : List PointLabel} {S T : ℕ → Prop} {mark : PointLabel}
    (h : Overwritten l r S mark) (hst : ∀ n, n < l.length → (S n ↔ T n)) :
    Overwritten l r T mark :=
  ⟨h.1, fun n hn => ⟨fun ht => (h.2 n hn).1 ((hst n hn).2 ht),
    fun ht => (h.2 n hn).2 (fun hs => ht ((hst n hn).1 hs))⟩⟩

theorem Overwritten.trans {a b c : List PointLabel} {S T : ℕ → Prop} {mark : PointLabel}
    (h1 : Overwritten a b S mark) (h2 : Overwritten b c T mark) :
    Overwritten a c (fun n => S n ∨ T n) mark := by
  refine ⟨h2.1.trans h1.1, fun n hn => ⟨fun h => ?_, fun h => ?_⟩⟩
  · by_cases ht : T n
    · exact (h2.2 n (by rw [h1.1]; exact hn)).1 ht
    · rw [(h2.2 n (by rw [h1.1]; exact hn)).2 ht]
      exact (h1.2 n hn).1 (h.resolve_right ht)
  · push Not at h
    rw [(h2.2 n (by rw [h1.1]; exact hn)).2 h.2, (h1.2 n hn).2 h.1]

theorem fold_overwritten {α : Type} (n : ℕ) (mark : PointLabel)
    (f : List PointLabel → α → Res (List PointLabel)) (S : α → ℕ → Prop) (xs : List α)
    (hf : ∀ x ∈ xs, ∀ l : List PointLabel, l.length = n →
      ∃ r, f l x = .ok r ∧ Overwritten l r (S x) mark) :
    ∀ l : List PointLabel, l.length = n →
      ∃ r, xs.foldlM f l = .ok r ∧ Overwritten l r (fun k => ∃ x ∈ xs, S x k) mark := by
  induction xs with
  | nil =>
    intro l _
    exact ⟨l, rfl, (Overwritten.refl l mark).congr (fun n _ => by simp)⟩
  | cons x xs ih =>
    intro l hl
    obtain ⟨r, hr, ho⟩ := hf x (by simp) l hl
    obtain ⟨r', hr', ho'⟩ := ih (fun y hy => hf y (by simp [hy])) r (by rw [ho.1, hl])
    refine ⟨r', ?_, (ho.trans ho').congr (fun n _ => by simp)⟩
    rw [List.foldlM_cons, hr]
    exact hr'

end Verif.Extraction
