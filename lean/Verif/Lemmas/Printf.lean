/-
`printf` of a text without conversions.
-/
import Verif.Model.Printf

set_option autoImplicit false

namespace Verif

/-- Specification: a text without `%`. -/
def Plain (s : List Char) : Prop := '%' ∉ s

theorem printf_plain {s : List Char} (h : Plain s) : printf s = .ok s := by
  induction s with
  | nil => rfl
  | cons c rest ih =>
    have hc : c ≠ '%' := fun e => h (by simp [e])
    have hr : Plain rest := fun e => h (List.mem_cons_of_mem _ e)
    rw [printf.eq_def]
    simp only [if_neg hc, ih hr, bind, Except.bind]

theorem printf_append_error {a b : List Char} {e : Err} (ha : Plain a) (hb : printf b = .error e) :
    printf (a ++ b) = .error e := by
  induction a with
  | nil => exact hb
  | cons c rest ih =>
    have hc : c ≠ '%' := fun e => ha (by simp [e])
    have hr : Plain rest := fun e => ha (List.mem_cons_of_mem _ e)
    rw [List.cons_append, printf.eq_def]
    simp only [if_neg hc, ih hr, bind, Except.bind]

theorem Plain.append {a b : List Char} (ha : Plain a) (hb : Plain b) : Plain (a ++ b) := by
  intro h
  rcases List.mem_append.1 h with h | h
  · exact ha h
  · exact hb h

end Verif
