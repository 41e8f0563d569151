/-
Lemmas about reading clouds from messages.
-/
import Mathlib.Tactic.Linarith
import Mathlib.Data.List.Sort
import Verif.Model.Pcl

set_option autoImplicit false

namespace Verif.Pcl

open Verif Verif.Convert

theorem length_memcpy {dst src : List Byte} {start : ℕ} (h : start + src.length ≤ dst.length) :
    (memcpy dst start src).length = dst.length := by
  simp only [memcpy, List.length_append, List.length_take, List.length_drop]
  omega

theorem memcpy_get {dst src : List Byte} {start : ℕ} (h : start + src.length ≤ dst.length) (k : ℕ) :
    (memcpy dst start src)[k]? =
      if start ≤ k ∧ k < start + src.length then src[k - start]? else dst[k]? := by
  have hl : (dst.take start).length = start := by rw [List.length_take]; omega
  unfold memcpy
  rw [List.append_assoc]
  by_cases h1 : k < start
  · rw [List.getElem?_append_left (by omega), if_neg (by omega), List.getElem?_take, if_pos h1]
  · rw [List.getElem?_append_right (by omega), hl]
    by_cases h2 : k < start + src.length
    · rw [if_pos ⟨by omega, h2⟩, List.getElem?_append_left (by omega)]
    · rw [if_neg (by omega), List.getElem?_append_right (by omega), List.getElem?_drop]
      congr 1
      omega

/-- The copies of one point, from any bytes on. -/
theorem copies (data : List Byte) (base : ℕ) (ms : List Mapping) (p : List Byte)
    (hd : ms.Pairwise fun a b => a.struct + a.size ≤ b.struct)
    (hin : ∀ m ∈ ms, m.struct + m.size ≤ p.length)
    (hdata : ∀ m ∈ ms, base + m.serialized + m.size ≤ data.length) :
    ∃ q, ms.foldlM (fun point (m : Mapping) =>
        if base + m.serialized + m.size ≤ data.length then
          (.ok (memcpy point m.struct ((data.drop (base + m.serialized)).take m.size)) : Res _)
        else .error .undefinedBehaviour) p = .ok q ∧ q.length = p.length ∧
      (∀ m ∈ ms, ∀ k < m.size, q[m.struct + k]? = data[base + m.serialized + k]?) ∧
      (∀ k, (∀ m ∈ ms, ¬ (m.struct ≤ k ∧ k < m.struct + m.size)) → q[k]? = p[k]?) := by
  induction ms generalizing p with
  | nil => exact ⟨p, rfl, rfl, by simp, by simp⟩
  | cons m ms ih =>
    have hm := hdata m List.mem_cons_self
    have hmp := hin m List.mem_cons_self
    have hsrc : ((data.drop (base + m.serialized)).take m.size).length = m.size := by
      rw [List.length_take, List.length_drop]; omega
    have hfit : m.struct + ((data.drop (base + m.serialized)).take m.size).length ≤ p.length := by
      rw [hsrc]; exact hmp
    obtain ⟨q, hq, hl, hc, hr⟩ := ih (memcpy p m.struct ((data.drop (base + m.serialized)).take m.size))
      (List.pairwise_cons.1 hd).2
      (fun m' h' => by rw [length_memcpy hfit]; exact hin m' (List.mem_cons_of_mem _ h'))
      (fun m' h' => hdata m' (List.mem_cons_of_mem _ h'))
    refine ⟨q, ?_, by rw [hl, length_memcpy hfit], ?_, ?_⟩
    · rw [List.foldlM_cons, if_pos hm]
      exact hq
    · intro m' h' k hk
      rcases List.mem_cons.1 h' with rfl | h'
      · rw [hr]
        · rw [memcpy_get hfit, hsrc, if_pos ⟨by omega, by omega⟩, List.getElem?_take, if_pos (by omega),
            List.getElem?_drop]
          congr 1
          omega
        · intro m2 h2 hk2
          have := (List.pairwise_cons.1 hd).1 m2 h2
          omega
      · exact hc m' h' k hk
    · intro k hk
      rw [hr k (fun m' h' => hk m' (List.mem_cons_of_mem _ h')), memcpy_get hfit, hsrc,
        if_neg (hk m List.mem_cons_self)]

/-- One mapping includes another. -/
def Mapping.Covers (c m : Mapping) : Prop :=
  m.serialized + c.struct = m.struct + c.serialized ∧ c.struct ≤ m.struct ∧
    m.struct + m.size ≤ c.struct + c.size

theorem coalesce_spec (i : Mapping) (l : List Mapping)
    (h : (i :: l).Pairwise fun a b =>
      a.serialized + a.size ≤ b.serialized ∧ a.struct + a.size ≤ b.struct) :
    (coalesce i l).Pairwise (fun a b => a.struct + a.size ≤ b.struct) ∧
    (∀ m ∈ i :: l, ∃ c ∈ coalesce i l, c.Covers m) ∧
    (∀ c ∈ coalesce i l, (∃ m ∈ i :: l, c.struct = m.struct ∧ c.serialized = m.serialized) ∧
      ∃ m ∈ i :: l, c.struct + c.size = m.struct + m.size ∧
        c.serialized + c.size = m.serialized + m.size) := by
  induction l generalizing i with
  | nil =>
    refine ⟨by simp [coalesce], ?_, ?_⟩
    · intro m hm
      rw [List.mem_singleton] at hm
      subst hm
      exact ⟨m, by simp [coalesce], by omega, le_refl _, le_refl _⟩
    · intro c hc
      simp only [coalesce, List.mem_singleton] at hc
      subst hc
      exact ⟨⟨c, by simp, rfl, rfl⟩, c, by simp, rfl, rfl⟩
  | cons j l ih =>
    obtain ⟨hi, hjl⟩ := List.pairwise_cons.1 h
    obtain ⟨hj, hl⟩ := List.pairwise_cons.1 hjl
    have hij := hi j List.mem_cons_self
    by_cases hc : (j.serialized : ℤ) - i.serialized = (j.struct : ℤ) - i.struct
    · have he : coalesce i (j :: l) =
          coalesce { i with size := i.size + (j.struct + j.size) - (i.struct + i.size) } l := by
        rw [coalesce, if_pos hc]
      have hsz : i.size + (j.struct + j.size) - (i.struct + i.size) = j.struct + j.size - i.struct := by
        omega
      rw [he, hsz]
      obtain ⟨h1, h2, h3⟩ := ih { i with size := j.struct + j.size - i.struct } (by
        rw [List.pairwise_cons]
        refine ⟨fun m hm => ?_, hl⟩
        have := hj m hm
        refine ⟨?_, ?_⟩
        · show i.serialized + (j.struct + j.size - i.struct) ≤ m.serialized
          omega
        · show i.struct + (j.struct + j.size - i.struct) ≤ m.struct
          omega)
      refine ⟨h1, ?_, ?_⟩
      · intro m hm
        obtain ⟨c, hcm, e1, e2, e3⟩ := h2 _ List.mem_cons_self
        simp only at e1 e2 e3
        rcases List.mem_cons.1 hm with rfl | hm
        · exact ⟨c, hcm, e1, e2, by omega⟩
        · rcases List.mem_cons.1 hm with rfl | hm
          · exact ⟨c, hcm, by omega, by omega, by omega⟩
          · exact h2 m (List.mem_cons_of_mem _ hm)
      · intro c hcm
        obtain ⟨⟨m, hm, e1, e2⟩, m', hm', e3, e4⟩ := h3 c hcm
        refine ⟨?_, ?_⟩
        · rcases List.mem_cons.1 hm with rfl | hm
          · exact ⟨i, List.mem_cons_self, e1, e2⟩
          · exact ⟨m, by simp [hm], e1, e2⟩
        · rcases List.mem_cons.1 hm' with rfl | hm'
          · simp only at e3 e4
            exact ⟨j, by simp, by omega, by omega⟩
          · exact ⟨m', by simp [hm'], e3, e4⟩
    · have he : coalesce i (j :: l) = i :: coalesce j l := by rw [coalesce, if_neg hc]
      rw [he]
      obtain ⟨h1, h2, h3⟩ := ih j hjl
      refine ⟨?_, ?_, ?_⟩
      · rw [List.pairwise_cons]
        refine ⟨fun c hcm => ?_, h1⟩
        obtain ⟨⟨m, hm, e1, -⟩, -⟩ := h3 c hcm
        rw [e1]
        exact (hi m hm).2
      · intro m hm
        rcases List.mem_cons.1 hm with rfl | hm
        · exact ⟨m, List.mem_cons_self, by omega, le_refl _, le_refl _⟩
        · obtain ⟨c, hcm, e⟩ := h2 m hm
          exact ⟨c, List.mem_cons_of_mem _ hcm, e⟩
      · intro c hcm
        rcases List.mem_cons.1 hcm with rfl | hcm
        · exact ⟨⟨c, List.mem_cons_self, rfl, rfl⟩, c, List.mem_cons_self, rfl, rfl⟩
        · obtain ⟨⟨m, hm, e⟩, m', hm', e'⟩ := h3 c hcm
          exact ⟨⟨m, List.mem_cons_of_mem _ hm, e⟩, m', List.mem_cons_of_mem _ hm', e'⟩

theorem mapM_ok {α β : Type} (f : α → Res β) (g : α → β) (l : List α)
    (h : ∀ a ∈ l, f a = .ok (g a)) : l.mapM f = .ok (l.map g) := by
  induction l with
  | nil => rfl
  | cons a l ih =>
    rw [List.mapM_cons, h a List.mem_cons_self, ih fun b hb => h b (List.mem_cons_of_mem _ hb)]
    rfl

/-- Equal chunks one after the other: the bytes of one of them. -/
theorem drop_flatten {n : ℕ} (chunks : List (List Byte)) (h : ∀ c ∈ chunks, c.length = n) (k : ℕ)
    {c : List Byte} (hk : chunks[k]? = some c) (off size : ℕ) (hs : off + size ≤ n) :
    (chunks.flatten.drop (k * n + off)).take size = (c.drop off).take size := by
  induction chunks generalizing k with
  | nil => simp at hk
  | cons a l ih =>
    have ha := h a List.mem_cons_self
    cases k with
    | zero =>
      simp only [List.getElem?_cons_zero, Option.some.injEq] at hk
      subst hk
      rw [List.flatten_cons, Nat.zero_mul, Nat.zero_add, List.drop_append_of_le_length (by omega),
        List.take_append_of_le_length (by rw [List.length_drop]; omega)]
    | succ k =>
      simp only [List.getElem?_cons_succ] at hk
      rw [← ih (fun c hc => h c (List.mem_cons_of_mem _ hc)) k hk, List.flatten_cons,
        List.drop_append, List.drop_eq_nil_of_le (by rw [ha, Nat.succ_mul]; omega), List.nil_append, ha]
      congr 2
      rw [Nat.succ_mul]
      omega

theorem length_flatten {n : ℕ} (chunks : List (List Byte)) (h : ∀ c ∈ chunks, c.length = n) :
    chunks.flatten.length = n * chunks.length := by
  induction chunks with
  | nil => simp
  | cons a l ih =>
    rw [List.flatten_cons, List.length_append, h a List.mem_cons_self,
      ih fun c hc => h c (List.mem_cons_of_mem _ hc), List.length_cons, Nat.mul_succ]
    omega

end Verif.Pcl
