/-
C103: a ring scanned in the opposite direction is filtered in mirror image.
-/
import Verif.Props.C02
import Verif.Props.C14

set_option autoImplicit false

namespace Verif.Extraction

variable {P K : Type}

/-- Specification: the same points met in the opposite order. -/
def mirrored (m : MappedPoints P) : MappedPoints P := ⟨m.cloud, m.indices.reverse⟩

theorem atI_reverse {α : Type} (l : List α) (k : ℕ) (hk : k < l.length) :
    atI l.reverse (k : ℤ) = atI l ((l.length - 1 - k : ℕ) : ℤ) := by
  rw [atI_ok (by simpa using hk), atI_ok (by omega), List.getElem_reverse]

theorem mirrored_at (m : MappedPoints P) (k : ℕ) (hk : k < m.indices.length) :
    (mirrored m).at (k : ℤ) = m.at ((m.indices.length - 1 - k : ℕ) : ℤ) := by
  simp only [MappedPoints.at, mirrored, atI_reverse _ _ hk]

/-- The mirrored ring has the mirrored ranges and adjacencies. -/
theorem RingInput.mirror [Field K] [LinearOrder K] {ref : MappedPoints P} {isNb : P → P → Res Bool}
    {norm : P → K} {n : ℕ} {adj : ℕ → Bool} {rg : ℕ → K}
    (hin : RingInput ⟨ref, isNb⟩ ⟨ref, norm⟩ n adj rg) :
    RingInput ⟨mirrored ref, isNb⟩ ⟨mirrored ref, norm⟩ n (fun m => adj (n - 2 - m))
      (fun m => rg (n - 1 - m)) := by
  have hlen : ref.indices.length = n := by
    have := hin.nb_size
    simp only [NeighborCheckXY.size, MappedPoints.size] at this
    omega
  have hcall : ∀ i j : ℕ, i < n → j < n →
      NeighborCheckXY.call ⟨mirrored ref, isNb⟩ (i : ℤ) (j : ℤ) =
        NeighborCheckXY.call ⟨ref, isNb⟩ ((n - 1 - i : ℕ) : ℤ) ((n - 1 - j : ℕ) : ℤ) := by
    intro i j hi hj
    have h1 : NeighborCheckXY.size ⟨mirrored ref, isNb⟩ = (n : ℤ) := by
      simp [NeighborCheckXY.size, MappedPoints.size, mirrored, hlen]
    have h2 : NeighborCheckXY.size ⟨ref, isNb⟩ = (n : ℤ) := hin.nb_size
    simp only [NeighborCheckXY.call, NeighborCheckXY.checkIndex, h1, h2]
    rw [if_neg (by omega), if_neg (by omega), if_neg (by omega), if_neg (by omega),
      if_neg (by omega), if_neg (by omega), if_neg (by omega), if_neg (by omega),
      mirrored_at _ _ (by omega), mirrored_at _ _ (by omega), hlen]
  refine ⟨?_, ?_, ?_, ?_⟩
  · simp [NeighborCheckXY.size, MappedPoints.size, mirrored, hlen]
  · simp [Range.size, MappedPoints.size, mirrored, hlen]
  · intro m hm
    obtain ⟨h1, h2⟩ := hin.nb_test (n - 2 - m) (by omega)
    have e1 : ((n - 2 - m : ℕ) : ℤ) + 1 = ((n - 1 - m : ℕ) : ℤ) := by omega
    have e2 : ((n - 2 - m : ℕ) : ℤ) = ((n - 1 - (m + 1) : ℕ) : ℤ) := by omega
    rw [e1, e2] at h1 h2
    have c1 := hcall m (m + 1) (by omega) hm
    have c2 := hcall (m + 1) m hm (by omega)
    push_cast at c1 c2
    exact ⟨c1.trans h2, c2.trans h1⟩
  · intro m hm
    have := hin.range_val (n - 1 - m) (by omega)
    simp only [Range.call] at this ⊢
    rw [mirrored_at _ _ (by omega), hlen]
    exact this

theorem reverse_getElem? {α : Type} (l : List α) (k : ℕ) (hk : k < l.length) :
    l.reverse[k]? = l[l.length - 1 - k]? := List.getElem?_reverse hk

/-- Two writings of one label, the one on the mirror image of the positions of the other. -/
theorem Overwritten.mirror {old new new' : List PointLabel} {S S' : ℕ → Prop} {L : PointLabel}
    (h : Overwritten old new S L) (h' : Overwritten old.reverse new' S' L)
    (hS : ∀ k, k < old.length → (S' k ↔ S (old.length - 1 - k))) : new' = new.reverse := by
  obtain ⟨hl, hv⟩ := h
  obtain ⟨hl', hv'⟩ := h'
  rw [List.length_reverse] at hl' hv'
  apply List.ext_getElem?
  intro k
  by_cases hk : k < old.length
  · rw [reverse_getElem? new k (by omega), hl]
    obtain ⟨a, b⟩ := hv' k hk
    obtain ⟨a', b'⟩ := hv (old.length - 1 - k) (by omega)
    by_cases hs : S' k
    · rw [a hs, a' ((hS k hk).1 hs)]
    · rw [b hs, b' (fun hc => hs ((hS k hk).2 hc)), reverse_getElem? old k hk]
  · rw [List.getElem?_eq_none (by omega), List.getElem?_eq_none (by rw [List.length_reverse]; omega)]

theorem chain_mirror (adj : ℕ → Bool) (n a b : ℕ) (ha : a < n) (hb : b < n) :
    Chain (fun m => adj (n - 2 - m)) a b ↔ Chain adj (n - 1 - a) (n - 1 - b) := by
  constructor
  · intro h m h1 h2
    have := h (n - 2 - m) (by omega) (by omega)
    have e : n - 2 - (n - 2 - m) = m := by omega
    simpa [e] using this
  · intro h m h1 h2
    exact h (n - 2 - m) (by omega) (by omega)

section
variable [Field K] [LinearOrder K]

/-- One direction of the correspondence of shadows. -/
theorem shadow_mirror (adj : ℕ → Bool) (rg : ℕ → K) (t : K) (n p k : ℕ) (hk : k < n) :
    (∃ near far, Jump (fun m => adj (n - 2 - m)) (fun m => rg (n - 1 - m)) t near far ∧
      WindowFits n p near far ∧ InShadow (fun m => adj (n - 2 - m)) p near far k) →
    ∃ near far, Jump adj rg t near far ∧ WindowFits n p near far ∧
      InShadow adj p near far (n - 1 - k) := by
  rintro ⟨near, far, ⟨hj, hr⟩, hw, hs, hc⟩
  have hnear : near < n := by rcases hw with h | h <;> rcases hj with h' | h' <;> omega
  have hfar : far < n := by rcases hw with h | h <;> rcases hj with h' | h' <;> omega
  refine ⟨n - 1 - near, n - 1 - far, ⟨?_, hr⟩, ?_, ?_, (chain_mirror adj n far k hfar hk).1 hc⟩
  · rcases hj with ⟨h1, h2⟩ | ⟨h1, h2⟩
    · right
      refine ⟨by omega, ?_⟩
      have e : n - 1 - far = n - 2 - near := by omega
      rw [e]; exact h2
    · left
      refine ⟨by omega, ?_⟩
      have e : n - 1 - near = n - 2 - far := by omega
      rw [e]; exact h2
  · rcases hw with h | h
    · right; omega
    · left; omega
  · rcases hs with h | h
    · right; omega
    · left; omega

/-- C103, occlusion: the ring met in the opposite order, with the labels in the opposite order,
gets the occlusion labels in the opposite order. -/
theorem C103_occlusion_mirror (labels : List PointLabel) (ref : MappedPoints P)
    (isNb : P → P → Res Bool) (norm : P → K) (padding : ℕ) (threshold : K) (adj : ℕ → Bool)
    (rg : ℕ → K) (hin : RingInput ⟨ref, isNb⟩ ⟨ref, norm⟩ labels.length adj rg)
    (hsize : padding < labels.length) (h64 : labels.length < 2 ^ 64) :
    ∃ r, labelOccludedPoints labels ⟨ref, isNb⟩ ⟨ref, norm⟩ padding threshold = .ok r ∧
      labelOccludedPoints labels.reverse ⟨mirrored ref, isNb⟩ ⟨mirrored ref, norm⟩ padding threshold =
        .ok r.reverse := by
  obtain ⟨r, hr, ho⟩ := C14_occlusion_exact labels _ _ padding threshold adj rg hin hsize h64
  obtain ⟨r', hr', ho'⟩ := C14_occlusion_exact labels.reverse _ _ padding threshold _ _
    (by rw [List.length_reverse]; exact hin.mirror) (by rwa [List.length_reverse])
    (by rwa [List.length_reverse])
  refine ⟨r, hr, ?_⟩
  rw [hr', ho.mirror ho']
  intro k hk
  rw [List.length_reverse]
  refine ⟨shadow_mirror adj rg threshold labels.length padding k hk, fun h => ?_⟩
  have := shadow_mirror (fun m => adj (labels.length - 2 - m)) (fun m => rg (labels.length - 1 - m))
    threshold labels.length padding (labels.length - 1 - k) (by omega)
  have e3 : labels.length - 1 - (labels.length - 1 - k) = k := by omega
  rw [e3] at this
  apply this
  obtain ⟨near, far, ⟨hj, hrg⟩, hw, hs, hc⟩ := h
  have hnear : near < labels.length := by rcases hw with h | h <;> rcases hj with h' | h' <;> omega
  have hfar : far < labels.length := by rcases hw with h | h <;> rcases hj with h' | h' <;> omega
  have hd : ∀ m, m + 1 < labels.length → labels.length - 2 - (labels.length - 2 - m) = m := by
    intro m hm; omega
  have hd' : ∀ m, m < labels.length → labels.length - 1 - (labels.length - 1 - m) = m := by
    intro m hm; omega
  refine ⟨near, far, ⟨?_, ?_⟩, hw, hs, ?_⟩
  · rcases hj with ⟨h1, h2⟩ | ⟨h1, h2⟩
    · exact Or.inl ⟨h1, by simp only [hd near (by omega)]; exact h2⟩
    · exact Or.inr ⟨h1, by simp only [hd far (by omega)]; exact h2⟩
  · simp only [hd' near hnear, hd' far hfar]; exact hrg
  · intro m h1 h2
    simp only [hd m (by omega)]
    exact hc m h1 h2

/-- C103, range limits: out-of-range marking of the mirrored ring is the mirror image. -/
theorem C103_out_of_range_mirror (labels : List PointLabel) (ref : MappedPoints P)
    (isNb : P → P → Res Bool) (norm : P → K) (minRange maxRange : K) (adj : ℕ → Bool) (rg : ℕ → K)
    (hin : RingInput ⟨ref, isNb⟩ ⟨ref, norm⟩ labels.length adj rg) :
    ∃ r, labelOutOfRange labels ⟨ref, norm⟩ minRange maxRange = .ok r ∧
      labelOutOfRange labels.reverse ⟨mirrored ref, norm⟩ minRange maxRange = .ok r.reverse := by
  obtain ⟨r, hr, ho⟩ := C15_out_of_range_exact labels _ _ minRange maxRange adj rg hin
  obtain ⟨r', hr', ho'⟩ := C15_out_of_range_exact labels.reverse _ _ minRange maxRange _ _
    (by rw [List.length_reverse]; exact hin.mirror)
  exact ⟨r, hr, by rw [hr', ho.mirror ho' fun k _ => Iff.rfl]⟩

/-- C103, parallel beams: parallel-beam marking of the mirrored ring is the mirror image. -/
theorem C103_parallel_beam_mirror [IsStrictOrderedRing K] (labels : List PointLabel)
    (ref : MappedPoints P) (isNb : P → P → Res Bool) (norm : P → K) (threshold : K)
    (adj : ℕ → Bool) (rg : ℕ → K)
    (hin : RingInput ⟨ref, isNb⟩ ⟨ref, norm⟩ labels.length adj rg) (hne : labels ≠ [])
    (hrg : ∀ k, k < labels.length → 0 ≤ rg k) :
    ∃ r, labelParallelBeamPoints labels ⟨ref, norm⟩ threshold = .ok r ∧
      labelParallelBeamPoints labels.reverse ⟨mirrored ref, norm⟩ threshold = .ok r.reverse := by
  obtain ⟨r, hr, ho⟩ := C16_parallel_beam_exact labels _ _ threshold adj rg hin hne hrg
  obtain ⟨r', hr', ho'⟩ := C16_parallel_beam_exact labels.reverse _ _ threshold _ _
    (by rw [List.length_reverse]; exact hin.mirror) (by simpa using hne)
    (by rw [List.length_reverse]; intro k hk; exact hrg _ (by omega))
  refine ⟨r, hr, ?_⟩
  rw [hr', ho.mirror ho']
  intro k hk
  rw [List.length_reverse]
  by_cases h1 : 1 ≤ k ∧ k + 1 < labels.length
  · have e1 : labels.length - 1 - (k - 1) = labels.length - 1 - k + 1 := by omega
    have e2 : labels.length - 1 - (k + 1) = labels.length - 1 - k - 1 := by omega
    rw [e1, e2]
    constructor
    · rintro ⟨_, _, h3, h4⟩; exact ⟨by omega, by omega, h4, h3⟩
    · rintro ⟨_, _, h3, h4⟩; exact ⟨by omega, by omega, h4, h3⟩
  · constructor
    · rintro ⟨h2, h3, _⟩; omega
    · rintro ⟨h2, h3, _⟩; omega

end

/-- The mirrored window. -/
theorem smoothness_mirror [CommRing K] (r : ℕ → K) (n p i : ℕ) (h1 : p ≤ i) (h2 : i + p < n) :
    smoothness (fun m => r (n - 1 - m)) p i = smoothness r p (n - 1 - i) := by
  unfold smoothness
  congr 1
  refine Finset.sum_bij' (fun j _ => n - 1 - j) (fun j _ => n - 1 - j) ?_ ?_ ?_ ?_ ?_
  · intro j hj; rw [Finset.mem_Icc] at hj ⊢; omega
  · intro j hj; rw [Finset.mem_Icc] at hj ⊢; omega
  · intro j hj; rw [Finset.mem_Icc] at hj; omega
  · intro j hj; rw [Finset.mem_Icc] at hj; omega
  · intro j hj; rfl

/-- C103, curvature: the curvature of the reversed ranges is the reversed curvature, and the two
fail alike. -/
theorem C103_curvature_mirror [Field K] (l : List K) (p : ℕ) (hp : 0 < p) :
    calcCurvature l.reverse (p : ℤ) =
      match calcCurvature l (p : ℤ) with
      | .ok c => .ok c.reverse
      | .error e => .error e := by
  obtain ⟨r, hr⟩ := list_eq_map_range l
  set n := l.length with hn
  have hrev : l.reverse = (List.range n).map fun m => r (n - 1 - m) := by
    apply List.ext_getElem?
    intro k
    by_cases hk : k < n
    · rw [reverse_getElem? l k (by omega), ← hn]
      conv_lhs => rw [hr]
      simp [hk, show n - 1 - k < n by omega]
    · rw [List.getElem?_eq_none (by simp; omega), List.getElem?_eq_none (by simp; omega)]
  rw [hrev, hr, calcCurvature_eq _ n p hp, calcCurvature_eq _ n p hp]
  by_cases hs : n < 2 * p + 1
  · rw [if_pos hs, if_pos hs]
  · rw [if_neg hs, if_neg hs]
    congr 1
    apply List.ext_getElem?
    intro k
    by_cases hk : k < n
    · rw [reverse_getElem? _ k (by simpa using hk)]
      simp only [List.length_map, List.length_range]
      simp only [List.getElem?_map, List.getElem?_range hk,
        List.getElem?_range (show n - 1 - k < n by omega), Option.map_some, Option.some.injEq]
      by_cases hc : p ≤ k ∧ k + p < n
      · rw [if_pos hc, if_pos (by omega), smoothness_mirror r n p k hc.1 hc.2]
      · rw [if_neg hc, if_neg (by omega)]
    · rw [List.getElem?_eq_none (by simp; omega), List.getElem?_eq_none (by simp; omega)]

/-! Non-vacuity: the ring of C14, with a jump and a gap. -/

example : labelOccludedPoints (initLabels 8) ⟨mirrored exRef, exIsNb2⟩ ⟨mirrored exRef, Prod.snd⟩ 2 1 =
    .ok [.default, .occluded, .occluded, .occluded, .occluded, .default, .default, .default] := by
  decide +kernel
example : labelParallelBeamPoints (initLabels 8) ⟨mirrored exRef, Prod.snd⟩ (1 / 3) =
    .ok [.default, .parallelBeam, .default, .default, .default, .default, .default, .default] := by
  decide +kernel
example : calcCurvature ([1, 2, 4, 9, 9] : List ℚ) 1 = .ok [0, 1, 9, 25, 0] ∧
    calcCurvature ([1, 2, 4, 9, 9] : List ℚ).reverse 1 = .ok [0, 25, 9, 1, 0] := by
  decide +kernel

end Verif.Extraction
