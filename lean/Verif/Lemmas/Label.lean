/-
Loop invariant of the labelling passes.
-/
import Verif.Model.Label
import Verif.Props.C06

set_option autoImplicit false

namespace Verif.Extraction

open PointLabel

/-- One iteration of a labelling pass, for both passes: `mark` the point, `nmark` its neighbours,
if it is unlabelled and selected. -/
def passStep (mark nmark : PointLabel) (sel : ℕ → Bool) (padding : ℤ) (nb : NeighborCheck)
    (labels : List PointLabel) (i : ℕ) : Res (List PointLabel) := do
  let l ← atI labels i
  if l ≠ .default then
    pure labels
  else if ¬ sel i then
    pure labels
  else
    let labels ← fillNeighbors labels nb i padding nmark
    setI labels i mark

/-- The neighbour test is defined on consecutive points and symmetric there. -/
def NbOK (nb : NeighborCheck) (adj : ℕ → Bool) (n : ℕ) : Prop :=
  nb.size = n ∧ ∀ m : ℕ, m + 1 < n →
    nb.test m (m + 1) = .ok (adj m) ∧ nb.test ((m : ℤ) + 1) m = .ok (adj m)

theorem Chain.comm {adj : ℕ → Bool} {i j : ℕ} : Chain adj i j ↔ Chain adj j i := by
  simp only [Chain, min_comm, max_comm]

theorem Linked.comm {adj : ℕ → Bool} {p i j : ℕ} : Linked adj p i j ↔ Linked adj p j i := by
  simp only [Linked, Chain.comm (i := i)]
  constructor <;> rintro ⟨h1, h2, h3⟩ <;> exact ⟨by omega, by omega, h3⟩

theorem Linked.refl (adj : ℕ → Bool) (p i : ℕ) : Linked adj p i i :=
  ⟨by omega, by omega, fun m h1 h2 => by simp at h1 h2; omega⟩

/-- Effect of one iteration. -/
theorem passStep_spec {mark nmark : PointLabel} {sel : ℕ → Bool} {p : ℕ} {nb : NeighborCheck}
    {adj : ℕ → Bool} {labels : List PointLabel} {i : ℕ} (hnb : NbOK nb adj labels.length)
    (hi : i < labels.length) :
    ∃ r, passStep mark nmark sel p nb labels i = .ok r ∧ r.length = labels.length ∧
      ((labels[i]? = some .default ∧ sel i = true) →
        r[i]? = some mark ∧
        ∀ k, k ≠ i → k < labels.length →
          (Linked adj p i k → r[k]? = some nmark) ∧
          (¬ Linked adj p i k → r[k]? = labels[k]?)) ∧
      (¬ (labels[i]? = some .default ∧ sel i = true) → r = labels) := by
  simp only [passStep]
  rw [atI_ok hi]
  have hget : labels[i]? = some labels[i] := List.getElem?_eq_getElem hi
  simp only [bind, Except.bind]
  by_cases h1 : labels[i] = .default
  · by_cases h2 : sel i = true
    · obtain ⟨r, hr, hl, hv⟩ := C08_fill_neighbors labels nb adj i p nmark hnb.1 hi hnb.2
      refine ⟨r.set i mark, ?_, by simp [hl], ?_, ?_⟩
      · rw [if_neg (by simpa using h1), if_neg (by simpa using h2), hr]
        exact setI_ok (by omega) _
      · intro _
        refine ⟨by rw [List.getElem?_set]; simp; omega, fun k hk hlt => ?_⟩
        rw [List.getElem?_set, if_neg (fun h => hk h.symm)]
        exact hv k hlt
      · intro h; exact absurd ⟨by rw [hget, h1], h2⟩ h
    · refine ⟨labels, ?_, rfl, ?_, fun _ => rfl⟩
      · rw [if_neg (by simpa using h1), if_pos (by simpa using h2)]; rfl
      · rintro ⟨-, h⟩; exact absurd h h2
  · refine ⟨labels, ?_, rfl, ?_, fun _ => rfl⟩
    · rw [if_pos (by simpa using h1)]; rfl
    · rintro ⟨h, -⟩
      rw [hget] at h
      injection h with h
      exact absurd h h1

/-- The invariant of a labelling pass after the indices in `done` were processed. -/
structure PassInv (mark nmark : PointLabel) (sel : ℕ → Bool) (adj : ℕ → Bool) (p : ℕ)
    (before : ℕ → ℕ → Prop) (init : List PointLabel) (done : List ℕ) (l : List PointLabel) :
    Prop where
  len : l.length = init.length
  marked : ∀ k : ℕ, l[k]? = some mark → init[k]? = some .default ∧ sel k = true ∧ k ∈ done
  around : ∀ m k : ℕ, l[m]? = some mark → Linked adj p m k → k ≠ m → k < l.length →
    l[k]? = some nmark
  frame : ∀ k : ℕ, l[k]? ≠ some mark → l[k]? ≠ some nmark → l[k]? = init[k]?
  nmarked : ∀ k : ℕ, l[k]? = some nmark → init[k]? = some nmark ∨
    ∃ m, l[m]? = some mark ∧ Linked adj p m k
  complete : ∀ k ∈ done, init[k]? = some .default → sel k = true →
    l[k]? = some mark ∨ ∃ m, l[m]? = some mark ∧ Linked adj p m k ∧ before m k
  far : ∀ k : ℕ, (∀ i : ℕ, init[i]? = some .default → sel i = true → ¬ Linked adj p i k) →
    l[k]? = init[k]?
  rest : ∀ k ∈ done, l[k]? = some .default → sel k = false

/-- The invariant holds at the start. -/
theorem PassInv.start {mark nmark : PointLabel} {sel : ℕ → Bool} {adj : ℕ → Bool} {p : ℕ}
    {before : ℕ → ℕ → Prop} {init : List PointLabel}
    (hm : ∀ k : ℕ, init[k]? ≠ some mark) :
    PassInv mark nmark sel adj p before init [] init where
  len := rfl
  marked k h := absurd h (hm k)
  around m k h := absurd h (hm m)
  frame _ _ _ := rfl
  nmarked k h := Or.inl h
  complete k h := by simp at h
  far _ _ := rfl
  rest k h := by simp at h

/-- One iteration preserves it. -/
theorem PassInv.step {mark nmark : PointLabel} {sel : ℕ → Bool} {nb : NeighborCheck}
    {adj : ℕ → Bool} {p : ℕ} {before : ℕ → ℕ → Prop} {init l : List PointLabel} {done : List ℕ}
    {i : ℕ} (hmd : mark ≠ .default) (hnd : nmark ≠ .default) (hmn : mark ≠ nmark)
    (h : PassInv mark nmark sel adj p before init done l) (hnb : NbOK nb adj init.length)
    (hi : i < init.length) (hb : ∀ m ∈ done, before m i)
    (r : List PointLabel) (hr : passStep mark nmark sel p nb l i = .ok r) :
    PassInv mark nmark sel adj p before init (done ++ [i]) r := by
  have hnb' : NbOK nb adj l.length := by rw [h.len]; exact hnb
  have hil : i < l.length := by rw [h.len]; exact hi
  obtain ⟨r', hr', hl, hyes, hno⟩ := passStep_spec (mark := mark) (nmark := nmark) (sel := sel)
    (p := p) hnb' hil
  rw [hr'] at hr
  injection hr with hr
  subst hr
  by_cases hc : l[i]? = some .default ∧ sel i = true
  · obtain ⟨hri, hk⟩ := hyes hc
    have hdef : init[i]? = some .default := by
      rw [← h.frame i (by rw [hc.1]; simpa using hmd.symm) (by rw [hc.1]; simpa using hnd.symm)]
      exact hc.1
    -- a marked point is not linked to `i`
    have hnl : ∀ m : ℕ, l[m]? = some mark → ¬ Linked adj p i m := by
      intro m hm hlk
      by_cases him : i = m
      · subst him; rw [hc.1] at hm; injection hm with hm; exact hmd hm.symm
      · have := h.around m i hm (Linked.comm.1 hlk) him hil
        rw [hc.1] at this; injection this with this; exact hnd this.symm
    have hkeep : ∀ m : ℕ, l[m]? = some mark → r'[m]? = some mark := by
      intro m hm
      by_cases him : m = i
      · subst him; exact hri
      · have hml : m < l.length := by
          by_contra hge
          rw [List.getElem?_eq_none (by omega)] at hm; cases hm
        rw [(hk m him hml).2 (hnl m hm)]; exact hm
    have hother : ∀ k : ℕ, k ≠ i → r'[k]? ≠ l[k]? → k < l.length ∧ Linked adj p i k ∧
        r'[k]? = some nmark := by
      intro k hki hne
      by_cases hkl : k < l.length
      · by_cases hlk : Linked adj p i k
        · exact ⟨hkl, hlk, (hk k hki hkl).1 hlk⟩
        · exact absurd ((hk k hki hkl).2 hlk) hne
      · rw [List.getElem?_eq_none (by omega), List.getElem?_eq_none (by omega)] at hne
        exact absurd rfl hne
    have hmk : ∀ k : ℕ, k ≠ i → r'[k]? = some mark → l[k]? = some mark := by
      intro k hki hrk
      by_contra hne
      have := hother k hki (by rw [hrk]; exact fun e => hne e.symm)
      rw [this.2.2] at hrk; injection hrk with hrk; exact hmn hrk.symm
    constructor
    · rw [hl, h.len]
    · intro k hrk
      by_cases hki : k = i
      · subst hki; exact ⟨hdef, hc.2, by simp⟩
      · obtain ⟨a, b, c⟩ := h.marked k (hmk k hki hrk)
        exact ⟨a, b, by simp [c]⟩
    · intro m k hrm hlk hkm hkl
      rw [hl] at hkl
      by_cases hmi : m = i
      · subst hmi; exact (hk k hkm hkl).1 hlk
      · have hlm := hmk m hmi hrm
        have hki : k ≠ i := by
          rintro rfl
          exact hnl m hlm (Linked.comm.1 hlk)
        have := h.around m k hlm hlk hkm hkl
        by_cases hlk' : Linked adj p i k
        · exact (hk k hki hkl).1 hlk'
        · rw [(hk k hki hkl).2 hlk']; exact this
    · intro k h1 h2
      by_cases hki : k = i
      · subst hki; exact absurd hri h1
      · by_cases hne : r'[k]? = l[k]?
        · rw [hne] at h1 h2 ⊢; exact h.frame k h1 h2
        · exact absurd (hother k hki hne).2.2 h2
    · intro k hrk
      by_cases hki : k = i
      · subst hki; rw [hri] at hrk; injection hrk with hrk; exact absurd hrk hmn
      · by_cases hne : r'[k]? = l[k]?
        · rw [hne] at hrk
          rcases h.nmarked k hrk with h1 | ⟨m, h1, h2⟩
          · exact Or.inl h1
          · exact Or.inr ⟨m, hkeep m h1, h2⟩
        · exact Or.inr ⟨i, hri, (hother k hki hne).2.1⟩
    · intro k hkd hik hsk
      rcases List.mem_append.1 hkd with hkd | hkd
      · rcases h.complete k hkd hik hsk with h1 | ⟨m, h1, h2, h3⟩
        · exact Or.inl (hkeep k h1)
        · exact Or.inr ⟨m, hkeep m h1, h2, h3⟩
      · have : k = i := by simpa using hkd
        subst this; exact Or.inl hri
    · intro k hfar
      have hki : k ≠ i := by
        rintro rfl; exact hfar k hdef hc.2 (Linked.refl _ _ _)
      by_cases hne : r'[k]? = l[k]?
      · rw [hne]; exact h.far k hfar
      · exact absurd (hother k hki hne).2.1 (hfar i hdef hc.2)
    · intro k hkd hrk
      have hki : k ≠ i := by
        rintro rfl; rw [hri] at hrk; injection hrk with hrk; exact hmd hrk
      have hkd' : k ∈ done := by
        rcases List.mem_append.1 hkd with hkd | hkd
        · exact hkd
        · exact absurd (by simpa using hkd) hki
      by_cases hne : r'[k]? = l[k]?
      · rw [hne] at hrk; exact h.rest k hkd' hrk
      · rw [(hother k hki hne).2.2] at hrk; injection hrk with hrk; exact absurd hrk hnd
  · have := hno hc
    subst this
    refine ⟨h.len, ?_, h.around, h.frame, h.nmarked, ?_, h.far, ?_⟩
    · intro k hk
      obtain ⟨a, b, c⟩ := h.marked k hk
      exact ⟨a, b, by simp [c]⟩
    · intro k hkd hik hsk
      rcases List.mem_append.1 hkd with hkd | hkd
      · exact h.complete k hkd hik hsk
      · have : k = i := by simpa using hkd
        subst this
        have hnd' : r'[k]? ≠ some .default := fun e => hc ⟨e, hsk⟩
        by_cases h1 : r'[k]? = some mark
        · exact Or.inl h1
        · by_cases h2 : r'[k]? = some nmark
          · rcases h.nmarked k h2 with h3 | ⟨m, h3, h4⟩
            · rw [hik] at h3; injection h3 with h3; exact absurd h3.symm hnd
            · exact Or.inr ⟨m, h3, h4, hb m (h.marked m h3).2.2⟩
          · have := h.frame k h1 h2
            rw [hik] at this; exact absurd this hnd'
    · intro k hkd hrk
      rcases List.mem_append.1 hkd with hkd | hkd
      · exact h.rest k hkd hrk
      · have : k = i := by simpa using hkd
        subst this
        by_contra hs
        exact hc ⟨hrk, by simpa using hs⟩

/-- The whole pass. -/
theorem pass_spec {mark nmark : PointLabel} {sel : ℕ → Bool} {nb : NeighborCheck}
    {adj : ℕ → Bool} {p : ℕ} {before : ℕ → ℕ → Prop} {init : List PointLabel} {order : List ℕ}
    (hmd : mark ≠ .default) (hnd : nmark ≠ .default) (hmn : mark ≠ nmark)
    (hm : ∀ k : ℕ, init[k]? ≠ some mark) (hnb : NbOK nb adj init.length)
    (hord : ∀ i ∈ order, i < init.length) (hpw : order.Pairwise before) :
    ∃ r, order.foldlM (passStep mark nmark sel p nb) init = .ok r ∧
      PassInv mark nmark sel adj p before init order r := by
  have gen : ∀ (rest done : List ℕ) (l : List PointLabel),
      PassInv mark nmark sel adj p before init done l →
      (∀ i ∈ rest, i < init.length) → (done ++ rest).Pairwise before →
      ∃ r, rest.foldlM (passStep mark nmark sel p nb) l = .ok r ∧
        PassInv mark nmark sel adj p before init (done ++ rest) r := by
    intro rest
    induction rest with
    | nil => intro done l h _ _; exact ⟨l, rfl, by simpa using h⟩
    | cons i rest ih =>
      intro done l h hlt hp
      have hnb' : NbOK nb adj l.length := by rw [h.len]; exact hnb
      have hi := hlt i (by simp)
      obtain ⟨r, hr, -⟩ := passStep_spec (mark := mark) (nmark := nmark) (sel := sel) (p := p)
        hnb' (by rw [h.len]; exact hi)
      have h' := h.step hmd hnd hmn hnb hi (fun m hm =>
        (List.pairwise_append.1 hp).2.2 m hm i (by simp)) r hr
      obtain ⟨r', hr', hinv⟩ := ih (done ++ [i]) r h' (fun j hj => hlt j (by simp [hj]))
        (by simpa using hp)
      refine ⟨r', ?_, by simpa using hinv⟩
      rw [List.foldlM_cons, hr]
      exact hr'
  simpa using gen order [] init (PassInv.start hm) hord (by simpa using hpw)

end Verif.Extraction
