/-
C98 line markers, C99 `Filter`, C100 `RandomizedUniqueIndices` and `SampleStandardDeviation`,
C101 stacking of matrices and selection of points.
-/
import Verif.Model.Msg
import Mathlib.Algebra.BigOperators.Group.List.Basic
import Mathlib.Algebra.Order.BigOperators.Group.List
import Mathlib.Algebra.BigOperators.Ring.List
import Mathlib.Tactic.LinearCombination
import Mathlib.Tactic.Positivity
import Mathlib.Tactic.FieldSimp

set_option autoImplicit false

namespace Verif.Msg

open Matrix Verif Verif.Rot

/-! ### C98 -/

/-- A call of the marker interface. -/
inductive MarkerOp where
  | width (w : ℝ)
  | color (r g b a : ℝ)
  | line (start stop : Fin 3 → ℝ)

/-- The call. -/
noncomputable def MarkerOp.apply (m : Marker) : MarkerOp → Res Marker
  | .width w => setWidth m w
  | .color r g b a => setColor m r g b a
  | .line p q => .ok (addLine m p q)

/-- Specification: all numbers lie between 0 and 1. -/
def MarkerOp.Valid : MarkerOp → Prop
  | .width w => w ∈ Set.Icc (0 : ℝ) 1
  | .color r g b a => r ∈ Set.Icc (0 : ℝ) 1 ∧ g ∈ Set.Icc (0 : ℝ) 1 ∧ b ∈ Set.Icc (0 : ℝ) 1 ∧ a ∈ Set.Icc (0 : ℝ) 1
  | .line _ _ => True

/-- Specification: the segments that were drawn. -/
def segments (ops : List MarkerOp) : List ((Fin 3 → ℝ) × (Fin 3 → ℝ)) :=
  ops.filterMap fun o => match o with
    | .line p q => some (p, q)
    | _ => none

/-- Specification: the last width that was set. -/
def lastWidth (ops : List MarkerOp) : Option ℝ :=
  (ops.filterMap fun o => match o with
    | .width w => some w
    | _ => none).getLast?

/-- Specification: the last colour that was set. -/
def lastColor (ops : List MarkerOp) : Option (ℝ × ℝ × ℝ × ℝ) :=
  (ops.filterMap fun o => match o with
    | .color r g b a => some (r, g, b, a)
    | _ => none).getLast?

theorem ops_split (ops : List MarkerOp) : ∀ m m', ops.foldlM MarkerOp.apply m = Except.ok m' →
    m'.header = m.header ∧ m'.type = m.type ∧
    m'.points = m.points ++ (segments ops).flatMap (fun s => [makePoint s.1, makePoint s.2]) ∧
    m'.width = (lastWidth ops).getD m.width ∧ m'.color = (lastColor ops).getD m.color := by
  induction ops with
  | nil =>
    intro m m' h
    cases h
    simp [segments, lastWidth, lastColor]
  | cons o ops ih =>
    intro m m' h
    rw [List.foldlM_cons] at h
    cases ho : MarkerOp.apply m o with
    | error e =>
      rw [ho] at h
      cases h
    | ok m1 =>
      rw [ho] at h
      obtain ⟨h1, h2, h3, h4, h5⟩ := ih m1 m' h
      cases o with
      | width w =>
        simp only [MarkerOp.apply, setWidth] at ho
        split_ifs at ho
        cases ho
        refine ⟨h1, h2, ?_, ?_, ?_⟩
        · simpa [segments] using h3
        · rw [h4]
          simp only [lastWidth, List.filterMap_cons, List.getLast?_cons]
          cases (List.filterMap _ ops).getLast? <;> rfl
        · simpa [lastColor] using h5
      | color r g b a =>
        simp only [MarkerOp.apply, setColor] at ho
        split_ifs at ho
        cases ho
        refine ⟨h1, h2, ?_, ?_, ?_⟩
        · simpa [segments] using h3
        · simpa [lastWidth] using h4
        · rw [h5]
          simp only [lastColor, List.filterMap_cons, List.getLast?_cons]
          cases (List.filterMap _ ops).getLast? <;> rfl
      | line p q =>
        cases ho
        refine ⟨h1, h2, ?_, ?_, ?_⟩
        · rw [h3]
          simp [segments, addLine]
        · simpa [lastWidth, addLine] using h4
        · simpa [lastColor, addLine] using h5

theorem pairs_get {α β : Type} (f g : α → β) : ∀ (l : List α) (k : ℕ) (h : k < l.length),
    (l.flatMap fun s => [f s, g s])[2 * k]? = some (f l[k]) ∧
    (l.flatMap fun s => [f s, g s])[2 * k + 1]? = some (g l[k]) := by
  intro l
  induction l with
  | nil => intro k h; simp at h
  | cons a l ih =>
    intro k h
    cases k with
    | zero => simp
    | succ k =>
      have := ih k (by simpa using h)
      constructor
      · rw [show 2 * (k + 1) = 2 * k + 1 + 1 by ring]
        simpa using this.1
      · rw [show 2 * (k + 1) + 1 = (2 * k + 1) + 1 + 1 by ring]
        simpa using this.2

/-- C98: for every sequence of calls on a new marker: the sequence goes through exactly if every number lies
between 0 and 1; the marker is then a list of lines with the header it was made with, whose `k`-th segment is
the `k`-th line that was added, and width and colour are those set last, or zero (invisible) if none was set. -/
theorem C98_markers (stamp : ℤ) (frame : String) (ops : List MarkerOp) :
    ((∃ m, ops.foldlM MarkerOp.apply (initLines stamp frame) = Except.ok m) ↔ ∀ o ∈ ops, o.Valid) ∧
    ∀ m, ops.foldlM MarkerOp.apply (initLines stamp frame) = Except.ok m →
      m.header = ⟨stamp, frame⟩ ∧ m.type = 5 ∧
      m.points.length = 2 * (segments ops).length ∧
      (∀ (k : ℕ) (h : k < (segments ops).length),
        (∃ p, m.points[2 * k]? = some p ∧ toVector3d p = (segments ops)[k].1) ∧
        ∃ p, m.points[2 * k + 1]? = some p ∧ toVector3d p = (segments ops)[k].2) ∧
      m.width = (lastWidth ops).getD 0 ∧ m.color = (lastColor ops).getD (0, 0, 0, 0) := by
  constructor
  · generalize initLines stamp frame = m0
    induction ops generalizing m0 with
    | nil => simp [pure, Except.pure]
    | cons o ops ih =>
      have hok : (∃ m1, MarkerOp.apply m0 o = Except.ok m1) ↔ o.Valid := by
        cases o with
        | width w =>
          simp only [MarkerOp.apply, setWidth, MarkerOp.Valid, Set.mem_Icc]
          split_ifs with h
          · simp [h]
          · simp [h]
        | color r g b a =>
          simp only [MarkerOp.apply, setColor, MarkerOp.Valid, Set.mem_Icc]
          split_ifs with h1 h2 h3 h4
          · simp [h1, h2, h3, h4]
          · simp [h4]
          · simp [h3]
          · simp [h2]
          · simp [h1]
        | line p q => simp [MarkerOp.apply, MarkerOp.Valid]
      rw [List.foldlM_cons]
      cases ho : MarkerOp.apply m0 o with
      | error e =>
        rw [ho] at hok
        simp only [reduceCtorEq, exists_false, false_iff] at hok
        constructor
        · rintro ⟨m, h⟩
          cases h
        · intro h
          exact absurd (h o List.mem_cons_self) hok
      | ok m1 =>
        rw [ho] at hok
        have hv : o.Valid := hok.1 ⟨m1, rfl⟩
        show (∃ m, List.foldlM MarkerOp.apply m1 ops = Except.ok m) ↔ _
        rw [ih m1]
        simp [hv]
  · intro m h
    obtain ⟨h1, h2, h3, h4, h5⟩ := ops_split ops _ m h
    have hp : m.points = (segments ops).flatMap (fun s => [makePoint s.1, makePoint s.2]) := by
      rw [h3]
      simp [initLines]
    refine ⟨h1, h2, ?_, ?_, ?_, ?_⟩
    · rw [hp]
      generalize segments ops = l
      induction l with
      | nil => rfl
      | cons a l ih =>
        simp only [List.flatMap_cons, List.length_append, List.length_cons, List.length_nil, ih]
        ring
    · intro k hk
      have hg := pairs_get (fun s : (Fin 3 → ℝ) × (Fin 3 → ℝ) => makePoint s.1) (fun s => makePoint s.2) (segments ops) k hk
      rw [hp]
      refine ⟨⟨_, hg.1, ?_⟩, ⟨_, hg.2, ?_⟩⟩
      · funext i
        fin_cases i <;> rfl
      · funext i
        fin_cases i <;> rfl
    · exact h4
    · exact h5

/-- Two lines, a colour between them. -/
example : ∃ m, [MarkerOp.line ![0, 0, 0] ![1, 0, 0], .color 1 0 0 1, .width (1 / 10), .line ![1, 0, 0] ![1, 1, 0]].foldlM
    MarkerOp.apply (initLines 0 "map") = Except.ok m ∧ m.points.length = 4 ∧ m.color = (1, 0, 0, 1) := by
  have h := C98_markers 0 "map"
    [.line ![0, 0, 0] ![1, 0, 0], .color 1 0 0 1, .width (1 / 10), .line ![1, 0, 0] ![1, 1, 0]]
  obtain ⟨m, hm⟩ := h.1.2 (by
    intro o ho
    simp only [List.mem_cons, List.not_mem_nil, or_false] at ho
    rcases ho with rfl | rfl | rfl | rfl <;> simp [MarkerOp.Valid]
    norm_num)
  have := h.2 m hm
  exact ⟨m, hm, by simpa [segments] using this.2.2.1, this.2.2.2.2.2⟩

/-! ### C99 -/

theorem filterLoop_eq {α : Type} (flags : List Bool) (values : List α) (h : flags.length = values.length) :
    ∀ (n : ℕ), n ≤ flags.length → filterLoop flags values (List.range n) [] =
      .ok (((flags.zip values).take n).filterMap fun p => if p.1 then some p.2 else none) := by
  intro n
  induction n with
  | zero => intro _; simp [filterLoop, pure, Except.pure]
  | succ n ih =>
    intro hn
    have ih := ih (by omega)
    unfold filterLoop at ih ⊢
    rw [List.range_succ, List.foldlM_append, ih]
    have hf : flags[n]? = some flags[n] := List.getElem?_eq_getElem (by omega)
    have hv : values[n]? = some values[n] := List.getElem?_eq_getElem (by omega)
    have hz : (flags.zip values)[n]? = some (flags[n], values[n]) := by
      simp [List.getElem?_zip_eq_some, hf, hv]
    simp only [bind, Except.bind, List.foldlM_cons, List.foldlM_nil, pure, Except.pure, hf, hv]
    rw [List.take_add_one, hz]
    cases flags[n] <;> simp [List.filterMap_append]

/-- C99: `Filter` goes through exactly if there are as many flags as values, and then keeps, in order, the
values whose flag is set: the result is what remains of the values after striking out those with an unset
flag. -/
theorem C99_filter {α : Type} (flags : List Bool) (values : List α) :
    ((∃ r, filter flags values = .ok r) ↔ flags.length = values.length) ∧
    ∀ r, filter flags values = .ok r →
      r = ((flags.zip values).filter (fun p => p.1)).map Prod.snd ∧
      r.length = flags.count true ∧ r.Sublist values := by
  have key : ∀ h : flags.length = values.length, filter flags values =
      .ok (((flags.zip values).filter (fun p => p.1)).map Prod.snd) := by
    intro h
    unfold filter
    rw [if_pos h, filterLoop_eq flags values h _ le_rfl, List.take_of_length_le (by simp [h])]
    congr 1
    rw [← List.filterMap_eq_map, ← List.filterMap_eq_filter, List.filterMap_filterMap]
    congr 1
    funext p
    obtain ⟨b, a⟩ := p
    cases b <;> simp [Option.guard]
  constructor
  · constructor
    · rintro ⟨r, hr⟩
      unfold filter at hr
      split_ifs at hr with h
      exact h
    · intro h
      exact ⟨_, key h⟩
  · intro r hr
    have h : flags.length = values.length := by
      unfold filter at hr
      split_ifs at hr with h
      exact h
    rw [key h] at hr
    cases hr
    refine ⟨rfl, ?_, ?_⟩
    · rw [List.length_map, ← List.countP_eq_length_filter]
      have : (flags.zip values).map Prod.fst = flags := List.map_fst_zip (by omega)
      conv_rhs => rw [← this]
      rw [List.count, List.countP_map]
      congr 1
      funext p
      simp
    · have : (flags.zip values).map Prod.snd = values := List.map_snd_zip (by omega)
      conv_rhs => rw [← this]
      exact List.Sublist.map _ List.filter_sublist

/-- Three values. -/
example : filter [true, false, true] [10, 20, 30] = .ok [10, 30] := by decide

/-! ### C100 -/

/-- C100: if the shuffle permutes, the indices are those below the size, each once. -/
theorem C100_indices (shuffle : List ℕ → List ℕ) (hs : ∀ l, (shuffle l).Perm l) (size : ℕ) :
    (randomizedUniqueIndices shuffle size).Nodup ∧ (randomizedUniqueIndices shuffle size).length = size ∧
    ∀ i, i ∈ randomizedUniqueIndices shuffle size ↔ i < size := by
  have hp := hs (List.range size)
  unfold randomizedUniqueIndices
  refine ⟨hp.nodup_iff.2 List.nodup_range, ?_, fun i => ?_⟩
  · rw [hp.length_eq, List.length_range]
  · rw [hp.mem_iff, List.mem_range]

/-- A reversal is a shuffle. -/
example : randomizedUniqueIndices List.reverse 4 = [3, 2, 1, 0] := by decide

/-- Specification: the sum of the squared differences of all pairs; it does not mention a mean. -/
noncomputable def pairSpread (v : List ℝ) : ℝ := (v.map fun x => (v.map fun y => (x - y) ^ 2).sum).sum

theorem sum_sub_sq (v : List ℝ) (c : ℝ) :
    (v.map fun x => (x - c) ^ 2).sum = (v.map fun x => x ^ 2).sum - 2 * c * v.sum + v.length * c ^ 2 := by
  induction v with
  | nil => simp
  | cons a v ih =>
    simp only [List.map_cons, List.sum_cons, ih, List.length_cons]
    push_cast
    ring

theorem pairSpread_eq (v : List ℝ) : pairSpread v = 2 * (v.length * (v.map fun x => x ^ 2).sum - v.sum ^ 2) := by
  have aux : ∀ (w v : List ℝ), (w.map fun x => (v.map fun y => (x - y) ^ 2).sum).sum =
      v.length * (w.map fun x => x ^ 2).sum - 2 * w.sum * v.sum + w.length * (v.map fun x => x ^ 2).sum := by
    intro w v
    induction w with
    | nil => simp
    | cons a w ih =>
      have h : (v.map fun y => (a - y) ^ 2).sum = (v.map fun x => x ^ 2).sum - 2 * a * v.sum + v.length * a ^ 2 := by
        rw [← sum_sub_sq v a]
        congr 1
        refine List.map_congr_left fun x _ => by ring
      simp only [List.map_cons, List.sum_cons, ih, List.length_cons, h]
      push_cast
      ring
  unfold pairSpread
  rw [aux v v]
  ring

/-- C100: for at least two values the result is the non-negative number whose square, times `2 n (n - 1)`, is
the sum of the squared differences of all pairs. A single value has no result (NaN), no values are
rejected. -/
theorem C100_deviation (v : List ℝ) :
    (v.length = 0 → sampleStandardDeviation v = .error .assertFail) ∧
    (v.length = 1 → sampleStandardDeviation v = .ok none) ∧
    (2 ≤ v.length → ∃ s, sampleStandardDeviation v = .ok (some s) ∧ 0 ≤ s ∧
      s ^ 2 * (2 * v.length * (v.length - 1)) = pairSpread v) := by
  refine ⟨fun h => ?_, fun h => ?_, fun h => ?_⟩
  · simp [sampleStandardDeviation, h]
  · simp [sampleStandardDeviation, h]
  · have h0 : v.length ≠ 0 := by omega
    have h2 : (2 : ℝ) ≤ v.length := by exact_mod_cast h
    have h1 : (v.length : ℝ) - 1 ≠ 0 := by linarith
    refine ⟨_, by simp only [sampleStandardDeviation, if_neg h0, if_neg h1]; rfl, Real.sqrt_nonneg _, ?_⟩
    have hn : 0 ≤ (v.map fun x => (x - v.sum / v.length) ^ 2).sum :=
      List.sum_nonneg (by
        intro y hy
        obtain ⟨x, -, rfl⟩ := List.mem_map.1 hy
        exact sq_nonneg _)
    rw [Real.sq_sqrt (div_nonneg hn (by linarith)), pairSpread_eq, sum_sub_sq]
    have : (v.length : ℝ) ≠ 0 := by linarith
    field_simp
    ring

/-- The deviation of 1 and 3 squared is 2. -/
example : ∃ s, sampleStandardDeviation [1, 3] = .ok (some s) ∧ s ^ 2 = 2 := by
  obtain ⟨s, h, -, hs⟩ := (C100_deviation [1, 3]).2.2 (by simp)
  refine ⟨s, h, ?_⟩
  simp [pairSpread] at hs
  linarith

/-- C100: the result does not depend on the order of the values nor on the origin, it scales with the unit, and it
is zero exactly if all values are equal. -/
theorem C100_laws (v : List ℝ) (s : ℝ) (h : sampleStandardDeviation v = .ok (some s)) :
    (∀ w, w.Perm v → sampleStandardDeviation w = .ok (some s)) ∧
    (∀ c, sampleStandardDeviation (v.map (· + c)) = .ok (some s)) ∧
    (∀ k, sampleStandardDeviation (v.map (k * ·)) = .ok (some (|k| * s))) ∧
    (s = 0 ↔ ∀ x ∈ v, ∀ y ∈ v, x = y) := by
  have h2 : 2 ≤ v.length := by
    by_contra h'
    have : v.length = 0 ∨ v.length = 1 := by omega
    rcases this with hl | hl
    · rw [(C100_deviation v).1 hl] at h
      cases h
    · rw [(C100_deviation v).2.1 hl] at h
      cases h
  obtain ⟨s', hs', hs0, hsq⟩ := (C100_deviation v).2.2 h2
  rw [h] at hs'
  cases hs'
  have hn : (2 : ℝ) ≤ v.length := by exact_mod_cast h2
  have hpos : (0 : ℝ) < 2 * v.length * (v.length - 1) := by
    apply mul_pos <;> linarith
  have main : ∀ w : List ℝ, w.length = v.length → ∀ s', 0 ≤ s' → pairSpread w = s' ^ 2 * (2 * v.length * (v.length - 1)) →
      sampleStandardDeviation w = .ok (some s') := by
    intro w hw s' hs' hp
    obtain ⟨t, ht, ht0, htsq⟩ := (C100_deviation w).2.2 (by omega)
    rw [hw, hp] at htsq
    have : t ^ 2 = s' ^ 2 := mul_right_cancel₀ hpos.ne' htsq
    rw [ht, (sq_eq_sq₀ ht0 hs').1 this]
  refine ⟨fun w hw => ?_, fun c => ?_, fun k => ?_, ?_⟩
  · refine main w hw.length_eq s hs0 ?_
    rw [hsq, pairSpread_eq, pairSpread_eq, hw.length_eq, hw.sum_eq, (hw.map _).sum_eq]
  · refine main _ (by simp) s hs0 ?_
    rw [hsq]
    simp [pairSpread, Function.comp_def]
  · refine main _ (by simp) _ (by positivity) ?_
    rw [mul_pow, sq_abs, mul_assoc, hsq]
    simp only [pairSpread, List.map_map, Function.comp_def]
    rw [← List.sum_map_mul_left]
    congr 1
    refine List.map_congr_left fun x _ => ?_
    rw [← List.sum_map_mul_left]
    congr 1
    refine List.map_congr_left fun y _ => ?_
    ring
  · constructor
    · intro hz x hx y hy
      rw [hz] at hsq
      have hps : pairSpread v = 0 := by rw [← hsq]; ring
      unfold pairSpread at hps
      have hnn : ∀ a ∈ v.map (fun x => (v.map fun y => (x - y) ^ 2).sum), (0 : ℝ) ≤ a := by
        intro a ha
        obtain ⟨x, -, rfl⟩ := List.mem_map.1 ha
        refine List.sum_nonneg fun b hb => ?_
        obtain ⟨y, -, rfl⟩ := List.mem_map.1 hb
        exact sq_nonneg _
      have h1 : (v.map fun y => (x - y) ^ 2).sum ≤ 0 := by
        rw [← hps]
        exact List.single_le_sum hnn _ (List.mem_map.2 ⟨x, hx, rfl⟩)
      have h3 : (x - y) ^ 2 ≤ 0 := by
        refine le_trans (List.single_le_sum ?_ _ (List.mem_map.2 ⟨y, hy, rfl⟩)) h1
        intro b hb
        obtain ⟨z, -, rfl⟩ := List.mem_map.1 hb
        exact sq_nonneg _
      have h4 : x - y = 0 := by
        have := le_antisymm h3 (sq_nonneg _)
        simpa using this
      linarith
    · intro hall
      have : pairSpread v = 0 := by
        unfold pairSpread
        apply List.sum_eq_zero
        intro a ha
        obtain ⟨x, hx, rfl⟩ := List.mem_map.1 ha
        apply List.sum_eq_zero
        intro b hb
        obtain ⟨y, hy, rfl⟩ := List.mem_map.1 hb
        rw [hall x hx y hy]
        ring
      rw [this] at hsq
      have := (mul_eq_zero.1 hsq).resolve_right hpos.ne'
      simpa using this

/-- Values with a deviation. -/
example : ∃ s, sampleStandardDeviation [1, 3, 2] = .ok (some s) := by
  obtain ⟨s, h, -⟩ := (C100_deviation [1, 3, 2]).2.2 (by simp)
  exact ⟨s, h⟩

/-! ### C101 -/

theorem stack_get {n m : ℕ} (init : ℕ → ℕ → ℝ) (ms : List (Matrix (Fin n) (Fin m) ℝ)) :
    ∀ (i : ℕ) (hi : i < ms.length) (a : Fin n) (b : Fin m), horizontalStack init ms (i * n + a) b = ms[i] a b := by
  induction ms using List.reverseRecOn with
  | nil => intro i hi; simp at hi
  | append_singleton l x ih =>
    intro i hi a b
    have e : horizontalStack init (l ++ [x]) = fun r c =>
        if h : l.length * n ≤ r ∧ r < l.length * n + n ∧ c < m then
          x ⟨r - l.length * n, by omega⟩ ⟨c, h.2.2⟩ else horizontalStack init l r c := by
      unfold horizontalStack
      rw [List.zipIdx_append, List.foldl_append]
      simp
    rw [e]
    simp only [List.length_append, List.length_cons, List.length_nil] at hi
    rcases Nat.lt_or_ge i l.length with h | h
    · have hlt : i * n + a < l.length * n := by
        have h1 := a.isLt
        have h2 : (i + 1) * n ≤ l.length * n := Nat.mul_le_mul_right n h
        rw [Nat.add_mul] at h2
        omega
      simp only
      rw [dif_neg (by omega), ih i h a b, List.getElem_append_left h]
    · have hil : i = l.length := by omega
      subst hil
      simp only
      rw [dif_pos ⟨by omega, by omega, b.isLt⟩]
      simp

theorem rows_get {n : ℕ} (init : ℕ → ℕ → ℝ) (vs : List (Fin n → ℝ)) :
    ∀ (i : ℕ) (hi : i < vs.length) (b : Fin n), vectorsToEigen init vs i b = vs[i] b := by
  induction vs using List.reverseRecOn with
  | nil => intro i hi; simp at hi
  | append_singleton l x ih =>
    intro i hi b
    have e : vectorsToEigen init (l ++ [x]) = fun r c =>
        if h : r = l.length ∧ c < n then x ⟨c, h.2⟩ else vectorsToEigen init l r c := by
      unfold vectorsToEigen
      rw [List.zipIdx_append, List.foldl_append]
      simp
    rw [e]
    simp only [List.length_append, List.length_cons, List.length_nil] at hi
    rcases Nat.lt_or_ge i l.length with h | h
    · simp only
      rw [dif_neg (by omega), ih i h b, List.getElem_append_left h]
    · have hil : i = l.length := by omega
      subst hil
      simp only
      rw [dif_pos ⟨trivial, b.isLt⟩]
      simp

/-- C101: `HorizontalStack` puts the matrices below each other and `VectorsToEigen` makes the vectors rows;
every entry of the result is written, whatever the memory contained. -/
theorem C101_stack {n m : ℕ} (init : ℕ → ℕ → ℝ) (matrices : List (Matrix (Fin n) (Fin m) ℝ)) (vectors : List (Fin n → ℝ)) :
    (∀ (i : ℕ) (hi : i < matrices.length) (a : Fin n) (b : Fin m),
      horizontalStack init matrices (i * n + a) b = matrices[i] a b) ∧
    (∀ (i : ℕ) (hi : i < vectors.length) (b : Fin n), vectorsToEigen init vectors i b = vectors[i] b) ∧
    ∀ r c, r < n * matrices.length → c < m → ∀ init', horizontalStack init matrices r c = horizontalStack init' matrices r c := by
  refine ⟨stack_get init matrices, rows_get init vectors, fun r c hr hc init' => ?_⟩
  have hn : 0 < n := Nat.pos_of_ne_zero fun h => by subst h; simp at hr
  have hq : r / n < matrices.length := Nat.div_lt_of_lt_mul hr
  have ha : r % n < n := Nat.mod_lt _ hn
  have he : r = r / n * n + r % n := by rw [Nat.mul_comm]; exact (Nat.div_add_mod r n).symm
  have h1 := stack_get init matrices (r / n) hq ⟨r % n, ha⟩ ⟨c, hc⟩
  have h2 := stack_get init' matrices (r / n) hq ⟨r % n, ha⟩ ⟨c, hc⟩
  simp only at h1 h2
  rw [← he] at h1 h2
  rw [h1, h2]

/-- Two matrices. -/
example (init : ℕ → ℕ → ℝ) : horizontalStack init [!![1, 2; 3, 4], !![5, 6; 7, 8]] 3 0 = 7 :=
  (C101_stack (n := 2) (m := 2) init [!![1, 2; 3, 4], !![5, 6; 7, 8]] []).1 1 (by simp) 1 0

/-- C101: `Get` goes through exactly if every index names a point of the cloud, and row `j` is then the point with
index `j` of the list. -/
theorem C101_get (cloud : List (Fin 3 → ℝ)) (indices : List ℤ) :
    ((∃ A, get cloud indices = .ok A) ↔ ∀ i ∈ indices, 0 ≤ i ∧ i < cloud.length) ∧
    ∀ A, get cloud indices = .ok A → A.length = indices.length ∧
      ∀ (j : ℕ) (h : j < indices.length), ∃ k : ℕ, (k : ℤ) = indices[j] ∧ ∃ p, cloud[k]? = some p ∧ A[j]? = some p := by
  have h1 : ∀ (i : ℤ) (p : Fin 3 → ℝ), atI cloud i = .ok p ↔ 0 ≤ i ∧ cloud[i.toNat]? = some p := by
    intro i p
    unfold atI
    split_ifs with h
    · simp
      omega
    · cases hc : cloud[i.toNat]? with
      | none => simp
      | some q => simp; omega
  induction indices with
  | nil => simp [get, pure, Except.pure]
  | cons i rest ih =>
    obtain ⟨ih1, ih2⟩ := ih
    have hget : get cloud (i :: rest) = (atI cloud i >>= fun p => get cloud rest >>= fun A => .ok (p :: A)) := by
      simp [get, List.mapM_cons, pure, Except.pure]
    constructor
    · rw [hget]
      constructor
      · rintro ⟨A, hA⟩
        cases hp : atI cloud i with
        | error e => rw [hp] at hA; cases hA
        | ok p =>
          cases hr : get cloud rest with
          | error e => rw [hp, hr] at hA; cases hA
          | ok B =>
            intro k hk
            rcases List.mem_cons.1 hk with rfl | hk
            · obtain ⟨h0, hc⟩ := (h1 k p).1 hp
              obtain ⟨hlt, -⟩ := List.getElem?_eq_some_iff.1 hc
              omega
            · exact ih1.1 ⟨B, hr⟩ k hk
      · intro h
        obtain ⟨B, hB⟩ := ih1.2 fun k hk => h k (List.mem_cons_of_mem _ hk)
        have hi := h i List.mem_cons_self
        have hp := (h1 i _).2 ⟨hi.1, List.getElem?_eq_getElem (by omega : i.toNat < cloud.length)⟩
        rw [hp, hB]
        exact ⟨_, rfl⟩
    · intro A hA
      rw [hget] at hA
      cases hp : atI cloud i with
      | error e => rw [hp] at hA; cases hA
      | ok p =>
        cases hr : get cloud rest with
        | error e => rw [hp, hr] at hA; cases hA
        | ok B =>
          rw [hp, hr] at hA
          cases hA
          obtain ⟨hl, hrows⟩ := ih2 B hr
          obtain ⟨h0, hc⟩ := (h1 i p).1 hp
          refine ⟨by simp [hl], fun j hj => ?_⟩
          cases j with
          | zero => exact ⟨i.toNat, by simpa using h0, p, hc, rfl⟩
          | succ j => simpa using hrows j (by simpa using hj)

/-- Two points of three. -/
example : ∃ A, get [![0, 0, 0], ![1, 0, 0], ![0, 1, 0]] [2, 0] = .ok A :=
  (C101_get _ _).1.2 (by simp)

/-! ### Emptiness check -/

/-- C101: the check rejects exactly the empty cloud. -/
theorem C101_nonempty {P : Type} (cloud : List P) :
    throwsIfPointCloudIsEmpty cloud = .error .invalidArgument ↔ cloud = [] := by
  unfold throwsIfPointCloudIsEmpty
  split_ifs with h
  · simp [List.eq_nil_of_length_eq_zero h]
  · simp only [reduceCtorEq, false_iff]
    rintro rfl
    simp at h

end Verif.Msg
