/-
The only failure of labelling a ring is `invalid_argument`.
-/
import Verif.Props.C13
import Verif.Props.C14

set_option autoImplicit false

namespace Verif.Extraction

/-- The outcome is a value with the given property, or `invalid_argument`. -/
def Safe {α : Type} (r : Res α) (post : α → Prop) : Prop :=
  match r with
  | .ok a => post a
  | .error e => e = .invalidArgument

theorem Safe.bind {α β : Type} {r : Res α} {p : α → Prop} {f : α → Res β} {q : β → Prop}
    (h : Safe r p) (hf : ∀ a, p a → Safe (f a) q) : Safe (r >>= f) q := by
  cases r with
  | ok a => exact hf a h
  | error e => exact h

theorem Safe.mono {α : Type} {r : Res α} {p q : α → Prop} (h : Safe r p) (hpq : ∀ a, p a → q a) :
    Safe r q := by
  cases r with
  | ok a => exact hpq a h
  | error e => exact h

theorem Safe.of_err {α : Type} {r : Res α} {p : α → Prop}
    (he : ∀ e, r = .error e → e = .invalidArgument) (hp : ∀ a, r = .ok a → p a) : Safe r p := by
  cases r with
  | ok a => exact hp a rfl
  | error e => exact he e rfl

theorem Safe.foldlM {α β : Type} {f : β → α → Res β} {I : β → Prop} :
    ∀ (xs : List α) (b : β), (∀ x ∈ xs, ∀ b, I b → Safe (f b x) I) → I b → Safe (xs.foldlM f b) I
  | [], _, _, hb => hb
  | x :: xs, b, hf, hb => by
    rw [List.foldlM_cons]
    exact (hf x List.mem_cons_self b hb).bind fun b' hb' =>
      Safe.foldlM xs b' (fun y hy => hf y (List.mem_cons_of_mem _ hy)) hb'

/-- Inside the bounds the neighbour test fails only with `invalid_argument`. -/
def SafeNb (nb : NeighborCheck) (n : ℕ) : Prop :=
  ∀ i j : ℕ, i < n → j < n → Safe (nb.test i j) fun _ => True

theorem SafeNb.err {nb : NeighborCheck} {n : ℕ} (h : SafeNb nb n) {i j : ℕ} (hi : i < n)
    (hj : j < n) {e : Err} (he : nb.test i j = .error e) : e = .invalidArgument := by
  have := h i j hi hj
  rw [he] at this; exact this

theorem fillFromLeft_safe {nb : NeighborCheck} {labels : List PointLabel} {b e : ℕ}
    (label : PointLabel) (hs : nb.size = labels.length) (hnb : SafeNb nb labels.length)
    (hbe : b < e) (he : e ≤ labels.length) :
    Safe (fillFromLeft labels nb b e label) fun r => r.length = labels.length := by
  refine Safe.of_err (fun x hx => ?_) (fun r hr => fillFromLeft_length hr)
  obtain ⟨k, rfl⟩ : ∃ k, e = b + k + 1 := ⟨e - b - 1, by omega⟩
  simp only [fillFromLeft] at hx
  rw [if_neg (by rw [hs]; simp), if_neg (by omega), if_neg (by omega)] at hx
  have : (((b + k + 1 : ℕ) : ℤ) - 1 - b).toNat = k := by push_cast; omega
  rw [this] at hx
  refine fillLeftLoop_err nb label (· = .invalidArgument) k b labels he ?_ x hx
  intro m e' h1 h2 h3
  have h3' : nb.test (m : ℤ) ((m + 1 : ℕ) : ℤ) = .error e' := by push_cast; exact h3
  exact hnb.err (by omega) (by omega) h3'

theorem fillFromRight_safe {nb : NeighborCheck} {labels : List PointLabel} {b : ℤ} {e : ℕ}
    (label : PointLabel) (hs : nb.size = labels.length) (hnb : SafeNb nb labels.length)
    (hb : -1 ≤ b) (hbe : b < e) (he : e < labels.length) :
    Safe (fillFromRight labels nb b e label) fun r => r.length = labels.length := by
  refine Safe.of_err (fun x hx => ?_) (fun r hr => fillFromRight_length hr)
  obtain ⟨lo, hlo⟩ := Int.eq_ofNat_of_zero_le (by omega : 0 ≤ b + 1)
  obtain ⟨k, rfl⟩ : ∃ k, e = lo + k := ⟨e - lo, by omega⟩
  have hb' : b = (lo : ℤ) - 1 := by omega
  subst hb'
  simp only [fillFromRight] at hx
  rw [if_neg (by rw [hs]; simp), if_neg (by omega), if_neg (by omega)] at hx
  have : (((lo + k : ℕ) : ℤ) - ((lo : ℤ) - 1 + 1)).toNat = k := by push_cast; omega
  rw [this] at hx
  refine fillRightLoop_err nb label (· = .invalidArgument) k lo labels he ?_ x hx
  intro m e' h1 h2 h3
  have h3' : nb.test ((m + 1 : ℕ) : ℤ) (m : ℤ) = .error e' := by push_cast; exact h3
  exact hnb.err (by omega) (by omega) h3'

theorem fillNeighbors_safe {nb : NeighborCheck} {labels : List PointLabel} {index padding : ℕ}
    (label : PointLabel) (hs : nb.size = labels.length) (hnb : SafeNb nb labels.length)
    (hi : index < labels.length) :
    Safe (fillNeighbors labels nb index padding label) fun r => r.length = labels.length := by
  simp only [fillNeighbors]
  rw [if_neg (by rw [hs]; simp)]
  refine (fillFromRight_safe label hs hnb (by omega) (by omega) hi).bind fun l hl => ?_
  have he : min ((index : ℤ) + 1 + padding) (labels.length : ℤ) =
      ((min (index + 1 + padding) labels.length : ℕ) : ℤ) := by push_cast; rfl
  rw [he]
  refine (fillFromLeft_safe label (by rw [hl]; exact hs) (by rw [hl]; exact hnb) (by omega)
    (by omega)).mono fun r hr => hr.trans hl

section
variable {K : Type} [LinearOrder K]

theorem edgeStep_safe {nb : NeighborCheck} {labels : List PointLabel} {curvature : List K}
    {index padding : ℕ} {t : K} (hs : nb.size = labels.length) (hnb : SafeNb nb labels.length)
    (hc : curvature.length = labels.length) (hi : index < labels.length) :
    Safe (edgeStep padding t curvature nb labels index) fun r => r.length = labels.length := by
  simp only [edgeStep]
  rw [atI_ok hi, atI_ok (by omega : index < curvature.length)]
  simp only [bind, Except.bind]
  split_ifs
  · exact rfl
  · have := (fillNeighbors_safe (padding := padding) .edgeNeighbor hs hnb hi).bind
      (f := fun l => setI l index .edge) (q := fun r => r.length = labels.length)
      fun l hl => by
        rw [setI_ok (by omega)]; simpa [Safe] using hl
    simpa [bind, Except.bind] using this
  · exact rfl

theorem surfaceStep_safe {nb : NeighborCheck} {labels : List PointLabel} {curvature : List K}
    {index padding : ℕ} {t : K} (hs : nb.size = labels.length) (hnb : SafeNb nb labels.length)
    (hc : curvature.length = labels.length) (hi : index < labels.length) :
    Safe (surfaceStep padding t curvature nb labels index) fun r => r.length = labels.length := by
  simp only [surfaceStep]
  rw [atI_ok hi, atI_ok (by omega : index < curvature.length)]
  simp only [bind, Except.bind]
  split_ifs
  · exact rfl
  · have := (fillNeighbors_safe (padding := padding) .surfaceNeighbor hs hnb hi).bind
      (f := fun l => setI l index .surface) (q := fun r => r.length = labels.length)
      fun l hl => by
        rw [setI_ok (by omega)]; simpa [Safe] using hl
    simpa [bind, Except.bind] using this
  · exact rfl

theorem edgeAssign_safe {argsort : List K → List ℕ} (ha : IsArgsort argsort) {nb : NeighborCheck}
    {labels : List PointLabel} {curvature : List K} {padding : ℕ} {t : K}
    (hs : nb.size = labels.length) (hnb : SafeNb nb labels.length)
    (hc : curvature.length = labels.length) :
    Safe (edgeAssign argsort padding t labels curvature nb)
      fun r => r.length = labels.length := by
  simp only [edgeAssign]
  rw [if_neg (by simpa using hc), if_neg (by simpa using hs)]
  refine Safe.foldlM (I := fun r : List PointLabel => r.length = labels.length) _ _ (fun i hi l hl => ?_) rfl
  rw [List.mem_reverse, (ha curvature).1.mem_iff, List.mem_range] at hi
  refine (edgeStep_safe (by rw [hl]; exact hs) (by rw [hl]; exact hnb) (by omega)
    (by omega)).mono fun r hr => hr.trans hl

theorem surfaceAssign_safe {argsort : List K → List ℕ} (ha : IsArgsort argsort)
    {nb : NeighborCheck} {labels : List PointLabel} {curvature : List K} {padding : ℕ} {t : K}
    (hs : nb.size = labels.length) (hnb : SafeNb nb labels.length)
    (hc : curvature.length = labels.length) (hne : 0 < labels.length) :
    Safe (surfaceAssign argsort padding t labels curvature nb)
      fun r => r.length = labels.length := by
  simp only [surfaceAssign]
  rw [if_neg (by rw [hs]; omega)]
  refine Safe.foldlM (I := fun r : List PointLabel => r.length = labels.length) _ _ (fun i hi l hl => ?_) rfl
  rw [(ha curvature).1.mem_iff, List.mem_range] at hi
  refine (surfaceStep_safe (by rw [hl]; exact hs) (by rw [hl]; exact hnb) (by omega)
    (by omega)).mono fun r hr => hr.trans hl

variable {P : Type}

theorem slice_safeNb {n s : NeighborCheckXY P} {b e : ℕ} (h : n.slice b e = .ok s)
    (hnb : SafeNb n.base n.ref.indices.length) : SafeNb s.base (e - b) := by
  obtain ⟨h1, h2, -⟩ := slice_ok_iff.1 h
  intro i j hi hj
  have := slice_call h i j hi hj
  simp only [NeighborCheckXY.base]
  rw [this]
  exact hnb (b + i) (b + j) (by omega) (by omega)

theorem assignLabel_safe {rnd : ℚ → ℚ} {argsort : List K → List ℕ} (ha : IsArgsort argsort)
    {pe ps : ℕ} {te ts : K} {labels : List PointLabel} {curvature : List K}
    {nb : NeighborCheckXY P} {range : IndexRange} (hb : BlocksOK rnd range)
    (hstop : range.stop ≤ labels.length) (hc : curvature.length = labels.length)
    (hs : nb.ref.indices.length = labels.length) (hnb : SafeNb nb.base labels.length) :
    Safe (assignLabel rnd argsort pe te ps ts labels curvature nb range)
      fun r => r.length = labels.length := by
  simp only [assignLabel]
  have hs' : nb.size = (labels.length : ℤ) := by
    simp only [NeighborCheckXY.size, MappedPoints.size, hs]
  rw [if_neg (by simpa using hc), if_neg (by simpa using hs')]
  refine Safe.foldlM (I := fun r : List PointLabel => r.length = labels.length) _ _ (fun j hj l hl => ?_) rfl
  rw [List.mem_range] at hj
  have hj' : (j : ℤ) < range.nBlocks := by omega
  rw [begin_ok (by omega) hj', end_ok (by omega) hj', hb.bnd_eq j (by omega)]
  have hE := hb.bnd_eq (j + 1) (by push_cast; omega)
  push_cast at hE
  rw [hE]
  simp only [bind, Except.bind]
  have hmono := hb.bnd_mono (Nat.le_succ j) (by push_cast; omega)
  have hlast : range.bnd rnd (j + 1) ≤ labels.length := by
    have h1 := hb.bnd_mono (j := range.nBlocks.toNat) (by omega : j + 1 ≤ range.nBlocks.toNat)
      (by omega)
    have h2 := hb.bnd_eq range.nBlocks.toNat (by omega)
    have h3 : ((range.nBlocks.toNat : ℕ) : ℤ) = range.nBlocks := by omega
    rw [h3, hb.last] at h2
    omega
  simp only [Nat.succ_eq_add_one] at hmono
  rw [assignBlock_eq _ _ _ _ _ _ _ _ _ _ hmono (by omega) (by omega)]
  have hblk : Safe (blockResult argsort pe te ps ts
      (slice l (range.bnd rnd j) (range.bnd rnd (j + 1)))
      (slice curvature (range.bnd rnd j) (range.bnd rnd (j + 1)))
      (nb.slice (range.bnd rnd j) (range.bnd rnd (j + 1))))
      fun v => v.length = range.bnd rnd (j + 1) - range.bnd rnd j := by
    have hll := slice_length l (range.bnd rnd j) (range.bnd rnd (j + 1)) (by omega)
    have hlc := slice_length curvature (range.bnd rnd j) (range.bnd rnd (j + 1)) (by omega)
    cases hsl : nb.slice (range.bnd rnd j) (range.bnd rnd (j + 1)) with
    | error x =>
      exact ((slice_error hmono (by omega) x).1 hsl).1
    | ok s =>
      obtain ⟨h2, -, -⟩ := slice_ok_iff.1 hsl
      have hsz := slice_size hsl
      have hsn := slice_safeNb hsl (by rw [hs]; exact hnb)
      simp only [blockResult, bind, Except.bind]
      refine (edgeAssign_safe ha (by rw [hll]; exact hsz) (by rw [hll]; exact hsn)
        (by omega)).bind fun v hv => ?_
      refine (surfaceAssign_safe ha (by rw [hv, hll]; exact hsz) (by rw [hv, hll]; exact hsn)
        (by omega) (by omega)).mono fun r hr => by omega
  cases hr : blockResult argsort pe te ps ts
      (slice l (range.bnd rnd j) (range.bnd rnd (j + 1)))
      (slice curvature (range.bnd rnd j) (range.bnd rnd (j + 1)))
      (nb.slice (range.bnd rnd j) (range.bnd rnd (j + 1))) with
  | error x => rw [hr] at hblk; exact hblk
  | ok v =>
    rw [hr] at hblk
    simp only [Safe, Except.map, List.length_append, List.length_take, List.length_drop] at hblk ⊢
    omega

end

section
variable {P K : Type} [Field K] [LinearOrder K]

theorem labelOccludedPoints_safe {nb : NeighborCheckXY P} {range : Range P K}
    {labels : List PointLabel} {padding : ℕ} {t : K} {rg : ℕ → K}
    (hs : nb.size = labels.length) (hnb : SafeNb nb.base labels.length)
    (hr : ∀ m : ℕ, m < labels.length → range.call m = .ok (rg m))
    (hp : padding < labels.length) (h64 : labels.length < 2 ^ 64) :
    Safe (labelOccludedPoints labels nb range padding t) fun r => r.length = labels.length := by
  have hlim : min (fromLeftLimit labels.length padding) (labels.length + 1) =
      labels.length - padding - 1 := by
    have : fromLeftLimit labels.length padding = labels.length - padding - 1 := by
      simp only [fromLeftLimit]
      rw [Int.emod_eq_of_lt (by omega) (by omega)]; omega
    omega
  simp only [labelOccludedPoints]
  refine Safe.bind (p := fun r : List PointLabel => r.length = labels.length) ?_ fun l hl => ?_
  · simp only [fromLeft, hlim]
    refine Safe.foldlM (I := fun r : List PointLabel => r.length = labels.length) _ _ (fun i hi l hl => ?_) rfl
    rw [List.mem_range] at hi
    simp only [fromLeftStep]
    have hcall : Safe (nb.call i (i + 1)) fun _ => True := by
      have := hnb i (i + 1) (by omega) (by omega)
      push_cast at this; exact this
    refine hcall.bind fun a _ => ?_
    have hr1 := hr (i + 1) (by omega)
    push_cast at hr1
    rw [hr i (by omega), hr1]
    simp only [bind, Except.bind]
    split_ifs
    · exact hl
    · have := fillFromLeft_safe (nb := nb.base) (labels := l) (b := i + 1) (e := i + padding + 2)
        .occluded (by rw [hl]; exact hs) (by rw [hl]; exact hnb) (by omega) (by omega)
      push_cast at this
      exact this.mono fun r hr => hr.trans hl
    · exact hl
  · simp only [fromRight]
    rw [if_neg (by omega)]
    refine Safe.foldlM (I := fun r : List PointLabel => r.length = labels.length) _ _ (fun k hk l' hl' => ?_) hl
    rw [List.mem_range] at hk
    obtain ⟨m, hm⟩ : ∃ m, l.length - 1 - k = m + 1 := ⟨l.length - 2 - k, by omega⟩
    rw [hm]
    simp only [fromRightStep]
    have e1 : ((m + 1 : ℕ) : ℤ) - 1 = m := by push_cast; ring
    rw [e1]
    refine (hnb (m + 1) m (by omega) (by omega)).bind fun a _ => ?_
    rw [hr m (by omega), hr (m + 1) (by omega)]
    simp only [bind, Except.bind]
    split_ifs
    · exact hl'
    · exact (fillFromRight_safe (nb := nb.base) (labels := l') .occluded (by rw [hl']; exact hs)
        (by rw [hl']; exact hnb) (by omega) (by omega) (by omega)).mono fun r hr => hr.trans hl'
    · exact hl'

theorem foldlM_ok_each {α β : Type} {f : β → α → Res β} :
    ∀ {xs : List α} {b r : β}, xs.foldlM f b = .ok r → ∀ x ∈ xs, ∃ b' r', f b' x = .ok r'
  | [], _, _, _, x, hx => by cases hx
  | y :: xs, b, r, h, x, hx => by
    rw [List.foldlM_cons] at h
    cases hy : f b y with
    | error e => rw [hy] at h; cases h
    | ok b' =>
      rw [hy] at h
      rcases List.mem_cons.1 hx with rfl | hx
      · exact ⟨b, b', hy⟩
      · exact foldlM_ok_each h x hx

/-- If occlusion marking succeeds on a ring with at least `2 padding + 1` points, every pair of
consecutive points has been tested, in one order or the other. -/
theorem labelOccludedPoints_tests {nb : NeighborCheckXY P} {range : Range P K}
    {labels r : List PointLabel} {padding : ℕ} {t : K}
    (hp : 2 * padding + 1 ≤ labels.length) (h64 : labels.length < 2 ^ 64)
    (h : labelOccludedPoints labels nb range padding t = .ok r) (m : ℕ)
    (hm : m + 1 < labels.length) :
    (∃ a, nb.call m (m + 1) = .ok a) ∨ (∃ a, nb.call ((m : ℤ) + 1) m = .ok a) := by
  have hlim : min (fromLeftLimit labels.length padding) (labels.length + 1) =
      labels.length - padding - 1 := by
    have : fromLeftLimit labels.length padding = labels.length - padding - 1 := by
      simp only [fromLeftLimit]
      rw [Int.emod_eq_of_lt (by omega) (by omega)]; omega
    omega
  simp only [labelOccludedPoints, bind, Except.bind] at h
  cases h1 : fromLeft labels nb range padding t with
  | error e => rw [h1] at h; cases h
  | ok l =>
    rw [h1] at h
    have hll : l.length = labels.length := by
      simp only [fromLeft] at h1
      refine foldlM_length (fun l i r hr => ?_) _ _ _ h1
      simp only [fromLeftStep, bind, Except.bind] at hr
      split at hr
      · cases hr
      · split_ifs at hr
        · injection hr with hr; rw [hr]
        · split at hr
          · cases hr
          · split at hr
            · cases hr
            · split_ifs at hr
              · exact fillFromLeft_length hr
              · injection hr with hr; rw [hr]
    by_cases hc : m < labels.length - padding - 1
    · left
      simp only [fromLeft, hlim] at h1
      obtain ⟨b', r', h3⟩ := foldlM_ok_each h1 m (List.mem_range.2 hc)
      simp only [fromLeftStep, bind, Except.bind] at h3
      cases h4 : nb.call m (m + 1) with
      | error e => rw [h4] at h3; cases h3
      | ok a => exact ⟨a, rfl⟩
    · right
      simp only [fromRight] at h
      rw [if_neg (by omega)] at h
      obtain ⟨b', r', h3⟩ := foldlM_ok_each h (l.length - 2 - m) (List.mem_range.2 (by omega))
      have e0 : l.length - 1 - (l.length - 2 - m) = m + 1 := by omega
      have e1 : ((m + 1 : ℕ) : ℤ) - 1 = m := by push_cast; ring
      rw [e0] at h3
      simp only [fromRightStep, e1, bind, Except.bind] at h3
      push_cast at h3
      cases h4 : nb.call ((m : ℤ) + 1) m with
      | error e => rw [h4] at h3; cases h3
      | ok a => exact ⟨a, rfl⟩

end

end Verif.Extraction
