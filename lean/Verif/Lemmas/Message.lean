/-
The functions of `Verif/Model/Message.lean` are those of the other model files with texts added.
-/
import Verif.Model.Message
import Verif.Lemmas.Assign
import Verif.Lemmas.Convolution

set_option autoImplicit false

namespace Verif.Extraction

variable {α β P K : Type}

/-- The outcome without the text. -/
def forget : TRes α → Res α
  | .ok a => .ok a
  | .error t => .error t.err

/-- `rt` is `r` with texts added; the text of every `invalid_argument` is known and has property `Q`. -/
def Tells (rt : TRes α) (r : Res α) (Q : List Char → Prop) : Prop :=
  forget rt = r ∧ ∀ t, rt = .error t → t.err = .invalidArgument → ∃ s, t.what = some s ∧ Q s

theorem Tells.ok (a : α) (Q : List Char → Prop) : Tells (.ok a) (.ok a) Q :=
  ⟨rfl, by simp⟩

theorem Tells.told {e : Err} {s : List Char} {Q : List Char → Prop}
    (h : e = .invalidArgument → Q s) : Tells (told e s : TRes α) (.error e) Q := by
  refine ⟨rfl, ?_⟩
  rintro t ht he
  simp only [Extraction.told, Except.error.injEq] at ht
  subst ht
  exact ⟨s, rfl, h he⟩

theorem Tells.error {e : Err} (h : e ≠ .invalidArgument) (Q : List Char → Prop) :
    Tells (.error ⟨e, none⟩ : TRes α) (.error e) Q := by
  refine ⟨rfl, ?_⟩
  rintro t ht he
  simp only [Except.error.injEq] at ht
  subst ht
  exact absurd he h

theorem Tells.untold {r : Res α} (h : r ≠ .error .invalidArgument) (Q : List Char → Prop) :
    Tells (untold r) r Q := by
  cases r with
  | ok a => exact Tells.ok a Q
  | error e => exact Tells.error (fun he => h (by rw [he])) Q

theorem Tells.bind {rt : TRes α} {r : Res α} {ft : α → TRes β} {f : α → Res β}
    {Q : List Char → Prop} (h : Tells rt r Q) (hf : ∀ a, r = .ok a → Tells (ft a) (f a) Q) :
    Tells (rt >>= ft) (r >>= f) Q := by
  obtain ⟨h1, h2⟩ := h
  subst h1
  cases rt with
  | ok a => exact hf a rfl
  | error t =>
    refine ⟨rfl, fun t' ht' he => ?_⟩
    have : t = t' := by
      simpa [Bind.bind, Except.bind] using ht'
    subst this
    exact h2 t rfl he

theorem Tells.mono {rt : TRes α} {r : Res α} {Q R : List Char → Prop} (h : Tells rt r Q)
    (hQR : ∀ s, Q s → R s) : Tells rt r R :=
  ⟨h.1, fun t ht he => by
    obtain ⟨s, h1, h2⟩ := h.2 t ht he
    exact ⟨s, h1, hQR s h2⟩⟩

theorem Tells.ite {p : Prop} [Decidable p] {at' bt : TRes α} {a b : Res α} {Q : List Char → Prop}
    (ha : p → Tells at' a Q) (hb : ¬ p → Tells bt b Q) :
    Tells (if p then at' else bt) (if p then a else b) Q := by
  by_cases h : p
  · rw [if_pos h, if_pos h]; exact ha h
  · rw [if_neg h, if_neg h]; exact hb h

theorem Tells.foldlM {ft : β → α → TRes β} {f : β → α → Res β} {Q : List Char → Prop}
    (I : β → Prop) : ∀ (xs : List α) (b : β),
    (∀ x ∈ xs, ∀ b, I b → Tells (ft b x) (f b x) Q ∧ ∀ b', f b x = .ok b' → I b') → I b →
    Tells (xs.foldlM ft b) (xs.foldlM f b) Q
  | [], b, _, _ => Tells.ok b Q
  | x :: xs, b, hf, hb => by
    rw [List.foldlM_cons, List.foldlM_cons]
    refine (hf x List.mem_cons_self b hb).1.bind fun b' hb' => ?_
    exact Tells.foldlM I xs b' (fun y hy => hf y (List.mem_cons_of_mem _ hy))
      ((hf x List.mem_cons_self b hb).2 b' hb')

/-! ### Functions that throw no `invalid_argument` -/

/-- The outcome is not `invalid_argument`. -/
def Quiet (r : Res α) : Prop := r ≠ .error .invalidArgument

theorem Quiet.ok (a : α) : Quiet (.ok a : Res α) := by simp [Quiet]

theorem Quiet.bind {r : Res α} {f : α → Res β} (h : Quiet r) (hf : ∀ a, Quiet (f a)) :
    Quiet (r >>= f) := by
  cases r with
  | ok a => exact hf a
  | error e =>
    intro he
    apply h
    simpa [Bind.bind, Except.bind] using he

theorem Quiet.foldlM {f : β → α → Res β} (hf : ∀ b x, Quiet (f b x)) :
    ∀ (xs : List α) (b : β), Quiet (xs.foldlM f b)
  | [], b => Quiet.ok b
  | x :: xs, b => by
    rw [List.foldlM_cons]
    exact (hf b x).bind fun b' => Quiet.foldlM hf xs b'

theorem Quiet.mapM {f : α → Res β} (hf : ∀ x, Quiet (f x)) :
    ∀ (xs : List α), Quiet (xs.mapM f)
  | [] => by rw [List.mapM_nil]; exact Quiet.ok _
  | x :: xs => by
    rw [List.mapM_cons]
    exact (hf x).bind fun _ => (Quiet.mapM hf xs).bind fun _ => Quiet.ok _

theorem atI_quiet (l : List α) (i : ℤ) : Quiet (atI l i) := by
  unfold atI Quiet
  split_ifs
  · simp
  · split <;> simp

theorem setI_quiet (l : List α) (i : ℤ) (a : α) : Quiet (setI l i a) := by
  unfold setI Quiet
  split_ifs <;> simp

theorem setU_quiet (l : List α) (i : ℕ) (a : α) : Quiet (setU l i a) := by
  unfold setU Quiet
  split_ifs <;> simp

theorem at_quiet (m : MappedPoints P) (i : ℤ) : Quiet (m.at i) :=
  (atI_quiet _ _).bind fun _ => atI_quiet _ _

theorem slice_quiet (m : MappedPoints P) (b e : ℤ) : Quiet (m.slice b e) := by
  unfold MappedPoints.slice Quiet
  split_ifs <;> simp

theorem Range.call_quiet (r : Range P K) (i : ℤ) : Quiet (r.call i) :=
  (at_quiet _ _).bind fun _ => Quiet.ok _

theorem Range.interval_quiet (r : Range P K) (b e : ℤ) : Quiet (r.interval b e) := by
  unfold Range.interval
  split_ifs
  · simp [Quiet]
  · exact Quiet.mapM (fun _ => Range.call_quiet _ _) _

theorem innerProductLoop_quiet [CommRing K] : ∀ (xs ys : List K) (s : K),
    Quiet (innerProductLoop s xs ys)
  | [], _, _ => by unfold innerProductLoop; exact Quiet.ok _
  | _ :: as, _ :: bs, _ => by unfold innerProductLoop; exact innerProductLoop_quiet as bs _
  | _ :: _, [], _ => by unfold innerProductLoop; simp [Quiet]

theorem convolution1D_quiet [CommRing K] {input weight : List K}
    (h : ¬ input.length < weight.length) : Quiet (convolution1D input weight) := by
  unfold convolution1D
  rw [if_neg h]
  split_ifs
  · simp [Quiet]
  · refine (Quiet.foldlM (fun _ _ => setU_quiet _ _ _) _ _).bind fun _ => ?_
    refine (Quiet.foldlM (fun _ _ => (innerProductLoop_quiet _ _ _).bind fun _ => setU_quiet _ _ _)
      _ _).bind fun _ => ?_
    exact Quiet.foldlM (fun _ _ => setU_quiet _ _ _) _ _

theorem makeWeight_quiet [CommRing K] (p : ℤ) : Quiet (makeWeight p : Res (List K)) := by
  unfold makeWeight
  split_ifs
  · exact setI_quiet _ _ _
  · simp [Quiet]

theorem labelOutOfRange_quiet [Field K] [LinearOrder K] (labels : List PointLabel)
    (range : Range P K) (a b : K) : Quiet (labelOutOfRange labels range a b) := by
  refine Quiet.foldlM (fun l i => (Range.call_quiet _ _).bind fun v => ?_) _ _
  split_ifs
  · exact setI_quiet _ _ _
  · exact Quiet.ok _

theorem labelParallelBeamPoints_quiet [Field K] [LinearOrder K] (labels : List PointLabel)
    (range : Range P K) (a : K) : Quiet (labelParallelBeamPoints labels range a) := by
  refine (Range.interval_quiet _ _ _).bind fun rs => ?_
  split_ifs
  · simp [Quiet]
  · refine Quiet.foldlM (fun l i => ?_) _ _
    refine (atI_quiet _ _).bind fun _ => (atI_quiet _ _).bind fun _ => (atI_quiet _ _).bind fun _ => ?_
    split_ifs
    · exact setI_quiet _ _ _
    · exact Quiet.ok _

theorem getByIndices_quiet {f : ℤ → Res α} (hf : ∀ i, Quiet (f i)) (is : List ℕ) :
    Quiet (getByIndices is f) := Quiet.mapM (fun _ => hf _) _

theorem appendXYZIR_quiet (o : List (P × K)) (ps : List P) (c : List K) :
    Quiet (appendXYZIR o ps c) := by
  unfold appendXYZIR Quiet
  split_ifs <;> simp

/-! ### The functions with texts -/

theorem IndexRange.makeT_tells (start stop n : ℤ) {Q : List Char → Prop}
    (hQ : stop - start < n → Q ("end_index - start_index (which is ".toList ++ decimal (stop - start) ++
      ") cannot be smaller than n_blocks (which is ".toList ++ decimal n)) :
    Tells (IndexRange.makeT start stop n) (IndexRange.make start stop n) Q := by
  unfold IndexRange.makeT IndexRange.make
  exact Tells.ite (fun h => Tells.told fun _ => hQ h) fun _ => Tells.ok _ _

theorem IndexRange.checkT_tells (r : IndexRange) (j : ℤ) (Q : List Char → Prop) :
    Tells (r.checkT j) (r.check j) Q := by
  unfold IndexRange.checkT IndexRange.check
  exact Tells.ite (fun _ => Tells.told (by simp)) fun _ =>
    Tells.ite (fun _ => Tells.told (by simp)) fun _ => Tells.ok _ _

theorem IndexRange.beginT_tells (rnd : ℚ → ℚ) (r : IndexRange) (j : ℤ) (Q : List Char → Prop) :
    Tells (r.beginT rnd j) (r.beginWith rnd j) Q :=
  (r.checkT_tells j Q).bind fun _ _ => Tells.ok _ _

theorem IndexRange.endT_tells (rnd : ℚ → ℚ) (r : IndexRange) (j : ℤ) (Q : List Char → Prop) :
    Tells (r.endT rnd j) (r.endWith rnd j) Q :=
  (r.checkT_tells j Q).bind fun _ _ => Tells.ok _ _

/-- The text of `Convolution1D`. -/
def convolutionText (n w : ℤ) : List Char :=
  "Input array size ".toList ++ decimal n ++ " cannot be smaller than weight size ".toList ++ decimal w

theorem calcCurvatureT_tells [CommRing K] (range : List K) (p : ℤ) {Q : List Char → Prop}
    (hQ : ∀ w : ℕ, w = (p * 2 + 1).toNat → range.length < w → Q (convolutionText range.length w)) :
    Tells (calcCurvatureT range p) (calcCurvature range p) Q := by
  refine (Tells.untold (makeWeight_quiet p) Q).bind fun w hw => ?_
  refine Tells.bind ?_ fun _ _ => Tells.ok _ _
  have hlen : w.length = (p * 2 + 1).toNat := by
    unfold makeWeight at hw
    split_ifs at hw
    simpa using setI_length hw
  unfold convolution1DT
  by_cases h : range.length < w.length
  · rw [if_pos h, convolution1D, if_pos h]
    exact Tells.told fun _ => hQ _ hlen h
  · rw [if_neg h]
    exact Tells.untold (convolution1D_quiet h) Q

/-- `nbt` is `nb` with texts added, as far as steps to adjacent positions are concerned. -/
structure NbTells (nbt : NeighborCheckT) (nb : NeighborCheck) (Q : List Char → Prop) : Prop where
  size : nbt.size = nb.size
  right : ∀ i, Tells (nbt.test i (i + 1)) (nb.test i (i + 1)) Q
  left : ∀ i, Tells (nbt.test i (i - 1)) (nb.test i (i - 1)) Q

theorem fillLeftLoopT_tells {nbt : NeighborCheckT} {nb : NeighborCheck} {Q : List Char → Prop}
    (h : NbTells nbt nb Q) (label : PointLabel) : ∀ (k : ℕ) (i e : ℤ) (labels : List PointLabel),
    Tells (fillLeftLoopT nbt label k i e labels) (fillLeftLoop nb label k i e labels) Q
  | 0, _, _, _ => Tells.untold (setI_quiet _ _ _) Q
  | k + 1, i, e, labels => by
    refine (Tells.untold (setI_quiet _ _ _) Q).bind fun l _ => (h.right i).bind fun ok _ => ?_
    exact Tells.ite (fun _ => Tells.ok _ _) fun _ => fillLeftLoopT_tells h label k (i + 1) e l

theorem fillRightLoopT_tells {nbt : NeighborCheckT} {nb : NeighborCheck} {Q : List Char → Prop}
    (h : NbTells nbt nb Q) (label : PointLabel) : ∀ (k : ℕ) (i e : ℤ) (labels : List PointLabel),
    Tells (fillRightLoopT nbt label k i e labels) (fillRightLoop nb label k i e labels) Q
  | 0, _, _, _ => Tells.untold (setI_quiet _ _ _) Q
  | k + 1, i, e, labels => by
    refine (Tells.untold (setI_quiet _ _ _) Q).bind fun l _ => (h.left i).bind fun ok _ => ?_
    exact Tells.ite (fun _ => Tells.ok _ _) fun _ => fillRightLoopT_tells h label k (i - 1) e l

theorem fillFromLeftT_tells {nbt : NeighborCheckT} {nb : NeighborCheck} {Q : List Char → Prop}
    (h : NbTells nbt nb Q) (labels : List PointLabel) (b e : ℤ) (label : PointLabel)
    (he : e ≤ labels.length) (hb : 0 ≤ b) :
    Tells (fillFromLeftT labels nbt b e label) (fillFromLeft labels nb b e label) Q := by
  unfold fillFromLeftT fillFromLeft
  rw [h.size]
  refine Tells.ite (fun _ => Tells.error (by simp) Q) fun _ => ?_
  rw [if_neg (by omega), if_neg (by omega), if_neg (by omega), if_neg (by omega)]
  exact fillLeftLoopT_tells h label _ _ _ _

theorem fillFromRightT_tells {nbt : NeighborCheckT} {nb : NeighborCheck} {Q : List Char → Prop}
    (h : NbTells nbt nb Q) (labels : List PointLabel) (b e : ℤ) (label : PointLabel)
    (he : e < labels.length) (hb : -1 ≤ b) :
    Tells (fillFromRightT labels nbt b e label) (fillFromRight labels nb b e label) Q := by
  unfold fillFromRightT fillFromRight
  rw [h.size]
  refine Tells.ite (fun _ => Tells.error (by simp) Q) fun _ => ?_
  rw [if_neg (by omega), if_neg (by omega), if_neg (by omega), if_neg (by omega)]
  exact fillRightLoopT_tells h label _ _ _ _

theorem fillNeighborsT_tells {nbt : NeighborCheckT} {nb : NeighborCheck} {Q : List Char → Prop}
    (h : NbTells nbt nb Q) (labels : List PointLabel) (i p : ℤ) (label : PointLabel)
    (hi : 0 ≤ i) (hi' : i < labels.length) :
    Tells (fillNeighborsT labels nbt i p label) (fillNeighbors labels nb i p label) Q := by
  unfold fillNeighborsT fillNeighbors
  rw [h.size]
  refine Tells.ite (fun _ => Tells.error (by simp) Q) fun _ => ?_
  refine (fillFromRightT_tells h labels _ _ label hi' (by omega)).bind fun l hl => ?_
  refine fillFromLeftT_tells h l _ _ label ?_ hi
  rw [fillFromRight_length hl]
  omega

/-- Positions `k` and `k + 1` of the points seen through the indices are `p` and `q`. -/
def Consecutive (m : MappedPoints P) (p q : P) : Prop :=
  ∃ (k i j : ℕ), m.indices[k]? = some i ∧ m.indices[k + 1]? = some j ∧ m.cloud[i]? = some p ∧
    m.cloud[j]? = some q

/-- `nbt` is `nb` with texts added, as far as consecutive points are concerned. -/
structure XYTells (nbt : NeighborCheckXYT P) (nb : NeighborCheckXY P) (Q : List Char → Prop) :
    Prop where
  ref : nbt.ref = nb.ref
  right : ∀ p q, Consecutive nb.ref p q → Tells (nbt.isNb p q) (nb.isNb p q) Q
  left : ∀ p q, Consecutive nb.ref p q → Tells (nbt.isNb q p) (nb.isNb q p) Q

theorem atI_ok_iff {l : List α} {i : ℤ} {a : α} (h : atI l i = .ok a) :
    0 ≤ i ∧ l[i.toNat]? = some a := by
  unfold atI at h
  split_ifs at h with h0
  split at h
  · simp only [Except.ok.injEq] at h
    subst h
    exact ⟨by omega, by assumption⟩
  · simp only [reduceCtorEq] at h

theorem at_ok_iff {m : MappedPoints P} {i : ℤ} {p : P} (h : m.at i = .ok p) :
    0 ≤ i ∧ ∃ j, m.indices[i.toNat]? = some j ∧ m.cloud[j]? = some p := by
  unfold MappedPoints.at at h
  cases h1 : atI m.indices i with
  | error e => rw [h1] at h; simp [bind, Except.bind] at h
  | ok j =>
    rw [h1] at h
    obtain ⟨h0, h2⟩ := atI_ok_iff h1
    obtain ⟨_, h3⟩ := atI_ok_iff (show atI m.cloud (j : ℤ) = .ok p from h)
    exact ⟨h0, j, h2, by simpa using h3⟩

theorem NeighborCheckXYT.checkIndex_tells {nbt : NeighborCheckXYT P} {nb : NeighborCheckXY P}
    {Q : List Char → Prop} (h : XYTells nbt nb Q) (name : List Char) (i : ℤ) :
    Tells (nbt.checkIndex name i) (nb.checkIndex i) Q := by
  unfold NeighborCheckXYT.checkIndex NeighborCheckXY.checkIndex NeighborCheckXYT.size
    NeighborCheckXY.size
  rw [h.ref]
  exact Tells.ite (fun _ => Tells.told (by simp)) fun _ =>
    Tells.ite (fun _ => Tells.told (by simp)) fun _ => Tells.ok _ _

theorem XYTells.base {nbt : NeighborCheckXYT P} {nb : NeighborCheckXY P} {Q : List Char → Prop}
    (h : XYTells nbt nb Q) : NbTells nbt.base nb.base Q := by
  refine ⟨?_, fun i => ?_, fun i => ?_⟩
  · simp only [NeighborCheckXYT.base, NeighborCheckXY.base, NeighborCheckXYT.size,
      NeighborCheckXY.size, h.ref]
  all_goals
    simp only [NeighborCheckXYT.base, NeighborCheckXY.base]
    unfold NeighborCheckXYT.call NeighborCheckXY.call
    refine (NeighborCheckXYT.checkIndex_tells h _ _).bind fun _ _ => ?_
    refine (NeighborCheckXYT.checkIndex_tells h _ _).bind fun _ _ => ?_
    rw [h.ref]
    refine (Tells.untold (at_quiet _ _) Q).bind fun p hp => ?_
    refine (Tells.untold (at_quiet _ _) Q).bind fun q hq => ?_
    obtain ⟨h0, j, h1, h2⟩ := at_ok_iff hp
    obtain ⟨h0', j', h1', h2'⟩ := at_ok_iff hq
  · exact h.right p q ⟨i.toNat, j, j', h1, by rw [← h1']; congr 1; omega, h2, h2'⟩
  · exact h.left q p ⟨(i - 1).toNat, j', j, h1', by rw [← h1]; congr 1; omega, h2', h2⟩

/-- The text of the constructor of `NeighborCheckXY`. -/
def tooSmallText (n : ℤ) : List Char :=
  "The input point size (which is ".toList ++ decimal n ++ ") cannot be smaller than 2".toList

theorem XYTells.slice {nbt : NeighborCheckXYT P} {nb : NeighborCheckXY P} {Q : List Char → Prop}
    (h : XYTells nbt nb Q) {b e : ℤ} (hQ : e - b < 2 → Q (tooSmallText (e - b)))
    {ft : NeighborCheckXYT P → TRes α} {f : NeighborCheckXY P → Res α}
    (hf : ∀ st s, XYTells st s Q → Tells (ft st) (f s) Q) :
    Tells (nbt.slice b e >>= ft) (nb.slice b e >>= f) Q := by
  unfold NeighborCheckXYT.slice NeighborCheckXY.slice
  rw [h.ref]
  unfold MappedPoints.slice
  by_cases hb : 0 ≤ b ∧ b ≤ e ∧ e ≤ nb.ref.size
  · rw [if_pos hb]
    simp only [Extraction.untold, bind, Except.bind]
    unfold NeighborCheckXYT.make NeighborCheckXY.make
    have hlen : (MappedPoints.mk nb.ref.cloud ((nb.ref.indices.drop b.toNat).take (e - b).toNat)).size =
        e - b := by
      have := hb.2.2
      simp only [MappedPoints.size, List.length_take, List.length_drop] at this ⊢
      omega
    rw [hlen]
    by_cases h2 : e - b < 2
    · rw [if_pos h2, if_pos h2]
      refine ⟨rfl, ?_⟩
      rintro t ht -
      simp only [Extraction.told, Except.error.injEq] at ht
      subst ht
      exact ⟨_, rfl, hQ h2⟩
    · rw [if_neg h2, if_neg h2]
      refine hf _ _ ⟨rfl, fun p q hpq => h.right p q ?_, fun p q hpq => h.left p q ?_⟩ <;>
      · obtain ⟨k, i, j, h1, h2, h3, h4⟩ := hpq
        refine ⟨b.toNat + k, i, j, ?_, ?_, h3, h4⟩
        · rw [List.getElem?_take] at h1
          split_ifs at h1
          rwa [List.getElem?_drop] at h1
        · rw [List.getElem?_take] at h2
          split_ifs at h2
          rwa [List.getElem?_drop] at h2
  · rw [if_neg hb]
    exact Tells.error (by simp) Q

section
variable [LE K] [DecidableLE K]

theorem edgeStepT_tells {nbt : NeighborCheckT} {nb : NeighborCheck} {Q : List Char → Prop}
    (h : NbTells nbt nb Q) (p : ℤ) (t : K) (c : List K) (labels : List PointLabel) (i : ℕ) :
    Tells (edgeStepT p t c nbt labels i) (edgeStep p t c nb labels i) Q := by
  refine (Tells.untold (atI_quiet _ _) Q).bind fun l hl => ?_
  refine Tells.ite (fun _ => Tells.ok _ _) fun _ => ?_
  refine (Tells.untold (atI_quiet _ _) Q).bind fun x hx => ?_
  refine Tells.ite (fun _ => Tells.ok _ _) fun _ => ?_
  have hi : i < labels.length := by
    have := (List.getElem?_eq_some_iff.1 (atI_ok_iff hl).2).1
    simpa using this
  exact (fillNeighborsT_tells h labels i p _ (by omega) (by omega)).bind fun _ _ =>
    Tells.untold (setI_quiet _ _ _) Q

theorem surfaceStepT_tells {nbt : NeighborCheckT} {nb : NeighborCheck} {Q : List Char → Prop}
    (h : NbTells nbt nb Q) (p : ℤ) (t : K) (c : List K) (labels : List PointLabel) (i : ℕ) :
    Tells (surfaceStepT p t c nbt labels i) (surfaceStep p t c nb labels i) Q := by
  refine (Tells.untold (atI_quiet _ _) Q).bind fun l hl => ?_
  refine Tells.ite (fun _ => Tells.ok _ _) fun _ => ?_
  refine (Tells.untold (atI_quiet _ _) Q).bind fun x hx => ?_
  refine Tells.ite (fun _ => Tells.ok _ _) fun _ => ?_
  have hi : i < labels.length := by
    have := (List.getElem?_eq_some_iff.1 (atI_ok_iff hl).2).1
    simpa using this
  exact (fillNeighborsT_tells h labels i p _ (by omega) (by omega)).bind fun _ _ =>
    Tells.untold (setI_quiet _ _ _) Q

theorem edgeAssignT_tells {nbt : NeighborCheckT} {nb : NeighborCheck} {Q : List Char → Prop}
    (h : NbTells nbt nb Q) (argsort : List K → List ℕ) (p : ℤ) (t : K) (c : List K)
    (labels : List PointLabel) :
    Tells (edgeAssignT argsort p t labels c nbt) (edgeAssign argsort p t labels c nb) Q := by
  unfold edgeAssignT edgeAssign
  rw [h.size]
  refine Tells.ite (fun _ => Tells.error (by simp) Q) fun _ =>
    Tells.ite (fun _ => Tells.error (by simp) Q) fun _ => ?_
  exact Tells.foldlM (fun _ => True) _ _
    (fun x _ b _ => ⟨edgeStepT_tells h p t c b x, fun _ _ => trivial⟩) trivial

theorem surfaceAssignT_tells {nbt : NeighborCheckT} {nb : NeighborCheck} {Q : List Char → Prop}
    (h : NbTells nbt nb Q) (argsort : List K → List ℕ) (p : ℤ) (t : K) (c : List K)
    (labels : List PointLabel) :
    Tells (surfaceAssignT argsort p t labels c nbt) (surfaceAssign argsort p t labels c nb) Q := by
  unfold surfaceAssignT surfaceAssign
  rw [h.size]
  refine Tells.ite (fun _ => Tells.error (by simp) Q) fun _ => ?_
  exact Tells.foldlM (fun _ => True) _ _
    (fun x _ b _ => ⟨surfaceStepT_tells h p t c b x, fun _ _ => trivial⟩) trivial

theorem assignBlockT_tells {nbt : NeighborCheckXYT P} {nb : NeighborCheckXY P}
    {Q : List Char → Prop} (h : XYTells nbt nb Q) (argsort : List K → List ℕ) (pe : ℤ) (te : K)
    (ps : ℤ) (ts : K) (labels : List PointLabel) (c : List K) (b e : ℤ)
    (hQ : e - b < 2 → Q (tooSmallText (e - b))) :
    Tells (assignBlockT argsort pe te ps ts labels c nbt b e)
      (assignBlock argsort pe te ps ts labels c nb b e) Q := by
  unfold assignBlockT assignBlock
  refine Tells.ite (fun _ => ?_) fun _ => Tells.error (by simp) Q
  refine h.slice hQ fun st s hs => ?_
  exact (edgeAssignT_tells hs.base argsort pe te _ _).bind fun v _ =>
    (surfaceAssignT_tells hs.base argsort ps ts _ v).bind fun _ _ => Tells.ok _ _

theorem assignLabelT_tells {nbt : NeighborCheckXYT P} {nb : NeighborCheckXY P}
    {Q : List Char → Prop} (h : XYTells nbt nb Q) (rnd : ℚ → ℚ) (argsort : List K → List ℕ)
    (pe : ℤ) (te : K) (ps : ℤ) (ts : K) (labels : List PointLabel) (c : List K) (r : IndexRange)
    (hQ : ∀ (j : ℕ) (b e : ℤ), r.beginWith rnd j = .ok b → r.endWith rnd j = .ok e → e - b < 2 →
      Q (tooSmallText (e - b))) :
    Tells (assignLabelT rnd argsort pe te ps ts labels c nbt r)
      (assignLabel rnd argsort pe te ps ts labels c nb r) Q := by
  unfold assignLabelT assignLabel
  have hs : nbt.size = nb.size := by
    simp only [NeighborCheckXYT.size, NeighborCheckXY.size, h.ref]
  rw [hs]
  refine Tells.ite (fun _ => Tells.error (by simp) Q) fun _ =>
    Tells.ite (fun _ => Tells.error (by simp) Q) fun _ => ?_
  refine Tells.foldlM (fun _ => True) _ _ (fun j _ l _ => ⟨?_, fun _ _ => trivial⟩) trivial
  exact (r.beginT_tells rnd j Q).bind fun b hb => (r.endT_tells rnd j Q).bind fun e he =>
    assignBlockT_tells h argsort pe te ps ts l c b e (hQ j b e hb he)

end

section
variable [Field K] [LinearOrder K]

theorem XYTells.call_right {nbt : NeighborCheckXYT P} {nb : NeighborCheckXY P}
    {Q : List Char → Prop} (h : XYTells nbt nb Q) (i : ℤ) :
    Tells (nbt.call i (i + 1)) (nb.call i (i + 1)) Q := h.base.right i

theorem XYTells.call_left {nbt : NeighborCheckXYT P} {nb : NeighborCheckXY P}
    {Q : List Char → Prop} (h : XYTells nbt nb Q) (i : ℤ) :
    Tells (nbt.call i (i - 1)) (nb.call i (i - 1)) Q := h.base.left i

theorem fromLeftStep_length {nb : NeighborCheckXY P} {range : Range P K} {p : ℕ} {t : K}
    {l r : List PointLabel} {i : ℕ} (h : fromLeftStep nb range p t l i = .ok r) :
    r.length = l.length := by
  unfold fromLeftStep at h
  simp only [bind, Except.bind] at h
  split at h
  · simp only [reduceCtorEq] at h
  · split_ifs at h
    · simp only [pure, Except.pure, Except.ok.injEq] at h; rw [h]
    · split at h
      · simp only [reduceCtorEq] at h
      · split at h
        · simp only [reduceCtorEq] at h
        · split_ifs at h
          · exact fillFromLeft_length h
          · simp only [pure, Except.pure, Except.ok.injEq] at h; rw [h]

theorem fromRightStep_length {nb : NeighborCheckXY P} {range : Range P K} {p : ℕ} {t : K}
    {l r : List PointLabel} {i : ℕ} (h : fromRightStep nb range p t l i = .ok r) :
    r.length = l.length := by
  unfold fromRightStep at h
  simp only [bind, Except.bind] at h
  split at h
  · simp only [reduceCtorEq] at h
  · split_ifs at h
    · simp only [pure, Except.pure, Except.ok.injEq] at h; rw [h]
    · split at h
      · simp only [reduceCtorEq] at h
      · split at h
        · simp only [reduceCtorEq] at h
        · split_ifs at h
          · exact fillFromRight_length h
          · simp only [pure, Except.pure, Except.ok.injEq] at h; rw [h]

theorem fromLeftT_tells {nbt : NeighborCheckXYT P} {nb : NeighborCheckXY P}
    {Q : List Char → Prop} (h : XYTells nbt nb Q) (range : Range P K) (p : ℕ) (t : K)
    (labels : List PointLabel) (hp : p < labels.length) :
    Tells (fromLeftT labels nbt range p t) (fromLeft labels nb range p t) Q := by
  refine Tells.foldlM (fun l => l.length = labels.length) _ _ (fun i hi l hl =>
    ⟨?_, fun l' h' => (fromLeftStep_length h').trans hl⟩) rfl
  have hi' : (i : ℤ) + p + 2 ≤ labels.length := by
    have h1 := List.mem_range.1 hi
    have h2 : i < fromLeftLimit labels.length p := by omega
    unfold fromLeftLimit at h2
    have h3 : (((labels.length : ℤ) - p - 1) % 2 ^ 64) ≤ (labels.length : ℤ) - p - 1 := by
      have h4 := Int.mul_ediv_add_emod ((labels.length : ℤ) - p - 1) (2 ^ 64)
      have h5 : 0 ≤ ((labels.length : ℤ) - p - 1) / 2 ^ 64 := Int.ediv_nonneg (by omega) (by norm_num)
      have h6 : 0 ≤ (2 : ℤ) ^ 64 * (((labels.length : ℤ) - p - 1) / 2 ^ 64) :=
        mul_nonneg (by norm_num) h5
      omega
    omega
  unfold fromLeftStepT fromLeftStep
  refine (h.call_right i).bind fun ok _ => Tells.ite (fun _ => Tells.ok _ _) fun _ => ?_
  refine (Tells.untold (Range.call_quiet _ _) Q).bind fun _ _ =>
    (Tells.untold (Range.call_quiet _ _) Q).bind fun _ _ => ?_
  refine Tells.ite (fun _ => ?_) fun _ => Tells.ok _ _
  exact fillFromLeftT_tells h.base l _ _ _ (by omega) (by omega)

theorem fromRightT_tells {nbt : NeighborCheckXYT P} {nb : NeighborCheckXY P}
    {Q : List Char → Prop} (h : XYTells nbt nb Q) (range : Range P K) (p : ℕ) (t : K)
    (labels : List PointLabel) :
    Tells (fromRightT labels nbt range p t) (fromRight labels nb range p t) Q := by
  refine Tells.ite (fun _ => Tells.error (by simp) Q) fun _ => ?_
  refine Tells.foldlM (fun l => l.length = labels.length) _ _ (fun i hi l hl =>
    ⟨?_, fun l' h' => (fromRightStep_length h').trans hl⟩) rfl
  have hi' := List.mem_range.1 hi
  unfold fromRightStepT fromRightStep
  refine (h.call_left _).bind fun ok _ => Tells.ite (fun _ => Tells.ok _ _) fun _ => ?_
  refine (Tells.untold (Range.call_quiet _ _) Q).bind fun _ _ =>
    (Tells.untold (Range.call_quiet _ _) Q).bind fun _ _ => ?_
  refine Tells.ite (fun _ => ?_) fun _ => Tells.ok _ _
  exact fillFromRightT_tells h.base l _ _ _ (by omega) (by omega)

/-- What a text about a ring seen through `nb` may say. -/
structure RingTexts (plat : Platform K) (hp : HyperParameters K) (n : ℕ) (Q : List Char → Prop) :
    Prop where
  few : ∀ w : ℕ, w = (hp.padding * 2 + 1).toNat → n < w → Q (convolutionText n w)
  blocks : (n : ℤ) - hp.padding - hp.padding < hp.nBlocks →
    Q ("end_index - start_index (which is ".toList ++ decimal ((n : ℤ) - hp.padding - hp.padding) ++
      ") cannot be smaller than n_blocks (which is ".toList ++ decimal hp.nBlocks)
  block : ∀ (j : ℕ) (b e : ℤ),
    (IndexRange.mk hp.padding (n - hp.padding) hp.nBlocks).beginWith plat.rnd j = .ok b →
    (IndexRange.mk hp.padding (n - hp.padding) hp.nBlocks).endWith plat.rnd j = .ok e → e - b < 2 →
    Q (tooSmallText (e - b))

theorem mapM_length {f : α → Res β} : ∀ {xs : List α} {ys : List β}, xs.mapM f = .ok ys →
    ys.length = xs.length
  | [], ys, h => by
    rw [List.mapM_nil] at h
    simp only [pure, Except.pure, Except.ok.injEq] at h
    subst h; rfl
  | x :: xs, ys, h => by
    rw [List.mapM_cons] at h
    simp only [bind, Except.bind] at h
    split at h
    · simp only [reduceCtorEq] at h
    · split at h
      · simp only [reduceCtorEq] at h
      · rename_i h2
        simp only [pure, Except.pure, Except.ok.injEq] at h
        subst h
        simp [mapM_length h2]

theorem convolution1D_not_short [CommRing α] {input weight r : List α}
    (h : convolution1D input weight = .ok r) : weight.length ≤ input.length := by
  by_contra hc
  rw [convolution1D, if_pos (by omega)] at h
  simp only [reduceCtorEq] at h

theorem makeWeight_length [CommRing α] {p : ℤ} {w : List α} (h : makeWeight p = .ok w) :
    0 < p ∧ w.length = (p * 2 + 1).toNat := by
  unfold makeWeight at h
  split_ifs at h with h0
  exact ⟨h0, by simpa using setI_length h⟩

theorem assignBlock_length {argsort : List K → List ℕ} {pe ps : ℤ} {te ts : K}
    {labels r : List PointLabel} {c : List K} {nb : NeighborCheckXY P} {b e : ℤ}
    (h : assignBlock argsort pe te ps ts labels c nb b e = .ok r) : r.length = labels.length := by
  by_cases hc : 0 ≤ b ∧ b ≤ e ∧ e ≤ labels.length ∧ e ≤ c.length
  · obtain ⟨b, rfl⟩ := Int.eq_ofNat_of_zero_le hc.1
    obtain ⟨e, rfl⟩ := Int.eq_ofNat_of_zero_le (hc.1.trans hc.2.1)
    rw [assignBlock_eq _ _ _ _ _ _ _ _ _ _ (by omega) (by omega) (by omega)] at h
    cases hb : blockResult argsort pe te ps ts (slice labels b e) (slice c b e) (nb.slice b e) with
    | error x => rw [hb] at h; simp [Except.map] at h
    | ok v =>
      rw [hb] at h
      simp only [Except.map, Except.ok.injEq] at h
      subst h
      have h1 := blockResult_length hb
      rw [slice_length _ _ _ (by omega)] at h1
      simp only [List.length_append, List.length_take, List.length_drop, h1]
      omega
  · rw [assignBlock, if_neg hc] at h
    simp only [reduceCtorEq] at h

theorem ringLabelsT_tells {nbt : NeighborCheckXYT P} {nb : NeighborCheckXY P}
    {Q : List Char → Prop} (h : XYTells nbt nb Q) (plat : Platform K) (hp : HyperParameters K)
    (range : Range P K) (hr : range.size = nb.ref.indices.length)
    (hQ : RingTexts plat hp nb.ref.indices.length Q) :
    Tells (ringLabelsT plat hp nbt range) (ringLabels plat hp nb range) Q := by
  unfold ringLabelsT ringLabels
  rw [h.ref]
  refine (Tells.untold (Range.interval_quiet _ _ _) Q).bind fun ranges hranges => ?_
  have hlen : ranges.length = nb.ref.indices.length := by
    unfold Range.interval at hranges
    split_ifs at hranges
    have := mapM_length hranges
    rw [this, List.length_range]
    omega
  refine (calcCurvatureT_tells ranges hp.padding (Q := Q) ?_).bind fun c hc => ?_
  · rw [hlen]; exact hQ.few
  have hpad : 0 < hp.padding ∧ hp.padding * 2 + 1 ≤ nb.ref.indices.length := by
    unfold calcCurvature at hc
    cases h1 : (makeWeight hp.padding : Res (List K)) with
    | error e => rw [h1] at hc; simp [bind, Except.bind] at hc
    | ok w =>
      rw [h1] at hc
      simp only [bind, Except.bind] at hc
      obtain ⟨h2, h3⟩ := makeWeight_length h1
      cases h4 : convolution1D ranges w with
      | error e => rw [h4] at hc; simp at hc
      | ok d =>
        have := convolution1D_not_short h4
        exact ⟨h2, by omega⟩
  refine Tells.bind (r := PaddedIndexRange.make range.size hp.nBlocks hp.padding) ?_
    fun ir hir => ?_
  · unfold PaddedIndexRange.makeT PaddedIndexRange.make
    rw [hr]
    exact IndexRange.makeT_tells _ _ _ hQ.blocks
  have hir' : ir = ⟨hp.padding, nb.ref.indices.length - hp.padding, hp.nBlocks⟩ := by
    unfold PaddedIndexRange.make IndexRange.make at hir
    rw [hr] at hir
    split_ifs at hir
    simp only [Except.ok.injEq] at hir
    exact hir.symm
  refine Tells.bind (assignLabelT_tells h plat.rnd plat.argsort _ _ _ _ _ c ir ?_) fun l hl => ?_
  · rw [hir']; exact hQ.block
  have hll : l.length = nb.ref.indices.length := by
    unfold assignLabel at hl
    split_ifs at hl
    have := foldlM_length ?_ _ _ _ hl
    · rw [this]; simp [initLabels]
    · intro l j r hj
      simp only [bind, Except.bind] at hj
      split at hj
      · simp only [reduceCtorEq] at hj
      · split at hj
        · simp only [reduceCtorEq] at hj
        · exact assignBlock_length hj
  refine Tells.bind (r := labelOccludedPoints l nb range hp.padding.toNat hp.distanceDiffThreshold)
    ?_ fun l2 _ => ?_
  · exact (fromLeftT_tells h range _ _ l (by omega)).bind fun l' _ => fromRightT_tells h range _ _ l'
  refine (Tells.untold (labelOutOfRange_quiet _ _ _ _) Q).bind fun _ _ =>
    (Tells.untold (labelParallelBeamPoints_quiet _ _ _) Q).bind fun _ _ => ?_
  exact Tells.ite (fun _ => Tells.error (by simp) Q) fun _ => Tells.ok _ _

theorem colorPointsByLabel_quiet (ref : MappedPoints P) (labels : List PointLabel) :
    Quiet (colorPointsByLabel ref labels) := by
  unfold colorPointsByLabel
  split_ifs
  · simp [Quiet]
  · exact Quiet.mapM (fun _ => (at_quiet _ _).bind fun _ => (atI_quiet _ _).bind fun _ => Quiet.ok _) _

theorem ringBodyT_tells {nbt : NeighborCheckXYT P} {nb : NeighborCheckXY P}
    {Q : List Char → Prop} (h : XYTells nbt nb Q) (plat : Platform K) (hp : HyperParameters K)
    (range : Range P K) (hr : range.size = nb.ref.indices.length)
    (hQ : RingTexts plat hp nb.ref.indices.length Q) (out : Clouds P K) :
    Tells (ringBodyT plat hp nbt range out) (ringBody plat hp nb range out) Q := by
  unfold ringBodyT ringBody
  refine (ringLabelsT_tells h plat hp range hr hQ).bind fun lc _ => ?_
  rw [h.ref]
  refine (Tells.untold (getByIndices_quiet (at_quiet _) _) Q).bind fun _ _ => ?_
  refine (Tells.untold (getByIndices_quiet (atI_quiet _) _) Q).bind fun _ _ => ?_
  refine (Tells.untold (getByIndices_quiet (at_quiet _) _) Q).bind fun _ _ => ?_
  refine (Tells.untold (getByIndices_quiet (atI_quiet _) _) Q).bind fun _ _ => ?_
  refine (Tells.untold (appendXYZIR_quiet _ _ _) Q).bind fun _ _ => ?_
  refine (Tells.untold (appendXYZIR_quiet _ _ _) Q).bind fun _ _ => ?_
  exact (Tells.untold (colorPointsByLabel_quiet _ _) Q).bind fun _ _ => Tells.ok _ _

/-- After the labels there is no `invalid_argument`. -/
theorem ringBodyT_after {nbt : NeighborCheckXYT P} {plat : Platform K} {hp : HyperParameters K}
    {range : Range P K} {lc : List PointLabel × List K}
    (hl : ringLabelsT plat hp nbt range = .ok lc) (out : Clouds P K) {t : Thrown}
    (h : ringBodyT plat hp nbt range out = .error t) : t.err ≠ .invalidArgument := by
  have key : ∃ r : Res (Clouds P K), Tells (ringBodyT plat hp nbt range out) r fun _ => False := by
    unfold ringBodyT
    rw [hl]
    refine ⟨(do
      let edgePoints ← getByIndices (getIndicesByValue lc.1 .edge) nbt.ref.at
      let edgeCurvature ← getByIndices (getIndicesByValue lc.1 .edge) (atI lc.2)
      let surfacePoints ← getByIndices (getIndicesByValue lc.1 .surface) nbt.ref.at
      let surfaceCurvature ← getByIndices (getIndicesByValue lc.1 .surface) (atI lc.2)
      let edge ← appendXYZIR out.edge edgePoints edgeCurvature
      let surface ← appendXYZIR out.surface surfacePoints surfaceCurvature
      let colored ← colorPointsByLabel nbt.ref lc.1
      pure ⟨edge, surface, out.colored ++ colored⟩), ?_⟩
    refine (Tells.untold (getByIndices_quiet (at_quiet _) _) _).bind fun _ _ => ?_
    refine (Tells.untold (getByIndices_quiet (atI_quiet _) _) _).bind fun _ _ => ?_
    refine (Tells.untold (getByIndices_quiet (at_quiet _) _) _).bind fun _ _ => ?_
    refine (Tells.untold (getByIndices_quiet (atI_quiet _) _) _).bind fun _ _ => ?_
    refine (Tells.untold (appendXYZIR_quiet _ _ _) _).bind fun _ _ => ?_
    refine (Tells.untold (appendXYZIR_quiet _ _ _) _).bind fun _ _ => ?_
    exact (Tells.untold (colorPointsByLabel_quiet _ _) _).bind fun _ _ => Tells.ok _ _
  obtain ⟨r, -, h2⟩ := key
  intro he
  obtain ⟨_, _, hf⟩ := h2 t h he
  exact hf

end

end Verif.Extraction
