/-
C161: what a pose with NaN does to the map.
-/
import Verif.Model.MappingNaN
import Verif.Lemmas.EkfNaNRefines

set_option autoImplicit false

namespace Verif.MappingNaN

open Verif.EkfNaN
open Verif.Extraction.NaN (Number)

variable {P : Type}

/-! ### Specification -/

/-- Specification: one of the seven values of the message is NaN. -/
def PoseMsg.HasNaN (m : PoseMsg) : Prop :=
  m.w = none ∨ m.x = none ∨ m.y = none ∨ m.z = none ∨ ∃ i, m.position i = none

/-- Specification: one of the coordinates of the point is NaN. -/
def Pt.HasNaN (p : Pt P) : Prop := ∃ i, p.xyz i = none

/-- Specification: a message with these values. -/
def message (q : Verif.Rot.Quat) (t : Fin 3 → ℝ) : PoseMsg := ⟨some q.w, some q.x, some q.y, some q.z, ofVec t⟩

/-- Specification: a cloud of numbers. -/
def ofCloud (dense : Bool) (c : Verif.Mapping.Cloud P) : Cloud P := ⟨dense, c.map fun p => ⟨ofVec p.xyz, p.other⟩⟩

/-! ### NaN in the poses -/

/-- A NaN in the orientation is in every row and in every column of the matrix. -/
theorem rotation_nan {w x y z : Number} (h : w = none ∨ x = none ∨ y = none ∨ z = none) :
    (∀ i, ∃ j, toRotationMatrix w x y z i j = none) ∧ ∀ j, ∃ i, toRotationMatrix w x y z i j = none := by
  constructor
  · intro i
    fin_cases i
    · rcases h with rfl | rfl | rfl | rfl
      · exact ⟨1, by cases x <;> cases y <;> cases z <;> rfl⟩
      · exact ⟨1, by cases w <;> cases y <;> cases z <;> rfl⟩
      · exact ⟨1, by cases w <;> cases x <;> cases z <;> rfl⟩
      · exact ⟨1, by cases w <;> cases x <;> cases y <;> rfl⟩
    · rcases h with rfl | rfl | rfl | rfl
      · exact ⟨0, by cases x <;> cases y <;> cases z <;> rfl⟩
      · exact ⟨0, by cases w <;> cases y <;> cases z <;> rfl⟩
      · exact ⟨0, by cases w <;> cases x <;> cases z <;> rfl⟩
      · exact ⟨0, by cases w <;> cases x <;> cases y <;> rfl⟩
    · rcases h with rfl | rfl | rfl | rfl
      · exact ⟨0, by cases x <;> cases y <;> cases z <;> rfl⟩
      · exact ⟨0, by cases w <;> cases y <;> cases z <;> rfl⟩
      · exact ⟨0, by cases w <;> cases x <;> cases z <;> rfl⟩
      · exact ⟨0, by cases w <;> cases x <;> cases y <;> rfl⟩
  · intro j
    fin_cases j
    · rcases h with rfl | rfl | rfl | rfl
      · exact ⟨1, by cases x <;> cases y <;> cases z <;> rfl⟩
      · exact ⟨1, by cases w <;> cases y <;> cases z <;> rfl⟩
      · exact ⟨1, by cases w <;> cases x <;> cases z <;> rfl⟩
      · exact ⟨1, by cases w <;> cases x <;> cases y <;> rfl⟩
    · rcases h with rfl | rfl | rfl | rfl
      · exact ⟨0, by cases x <;> cases y <;> cases z <;> rfl⟩
      · exact ⟨0, by cases w <;> cases y <;> cases z <;> rfl⟩
      · exact ⟨0, by cases w <;> cases x <;> cases z <;> rfl⟩
      · exact ⟨0, by cases w <;> cases x <;> cases y <;> rfl⟩
    · rcases h with rfl | rfl | rfl | rfl
      · exact ⟨0, by cases x <;> cases y <;> cases z <;> rfl⟩
      · exact ⟨0, by cases w <;> cases y <;> cases z <;> rfl⟩
      · exact ⟨0, by cases w <;> cases x <;> cases z <;> rfl⟩
      · exact ⟨0, by cases w <;> cases x <;> cases y <;> rfl⟩

/-- The orientation or the position. -/
theorem PoseMsg.HasNaN.cases {m : PoseMsg} (h : m.HasNaN) :
    (m.w = none ∨ m.x = none ∨ m.y = none ∨ m.z = none) ∨ ∃ i, m.position i = none := by
  rcases h with h | h | h | h | h
  · exact .inl (.inl h)
  · exact .inl (.inr (.inl h))
  · exact .inl (.inr (.inr (.inl h)))
  · exact .inl (.inr (.inr (.inr h)))
  · exact .inr h

theorem normBelow_nan {v : Vec 3} (i : Fin 3) (h : v i = none) (t : ℝ) : normBelow v t = false := by
  have : (sum fun i => mul (v i) (v i)) = none := sum_none i (by simp [h])
  simp [normBelow, this]

/-- A NaN in a column of the matrix gets into the product with any vector. -/
theorem transpose_nan {A : Mat 3 3} (h : ∀ j, ∃ i, A i j = none) (x : Vec 3) (i : Fin 3) :
    mulVec (transpose A) x i = none := by
  obtain ⟨k, hk⟩ := h i
  exact sum_none k (by simp [transpose, hk])

/-- A pose with NaN is not near any other. -/
theorem small_nan (lib : ToQuaternion) (T : Pose) {m : PoseMsg} (h : m.HasNaN) (a b : ℝ) :
    poseDiffIsSufficientlySmall lib T (getIsometry3d m) a b = false := by
  rcases h.cases with h | ⟨l, h⟩
  · have hall : ∀ i j, mulMat (transpose T.linear) (getIsometry3d m).linear i j = none := by
      intro i j
      obtain ⟨k, hk⟩ := (rotation_nan h).2 j
      exact sum_none k (by simp [getIsometry3d, hk])
    simp [poseDiffIsSufficientlySmall, normBelow_nan 0 (lib.nan _ hall 0)]
  · have ht : mulVec (transpose T.linear) (getIsometry3d m).translation 0 = none := mulVec_none (l := l) h 0
    simp only [poseDiffIsSufficientlySmall]
    rw [normBelow_nan 0 (by simp [addVec, ht])]
    rfl

/-- Nothing is near a pose with NaN. -/
theorem nan_small (lib : ToQuaternion) (T : Pose) {m : PoseMsg} (h : m.HasNaN) (a b : ℝ) :
    poseDiffIsSufficientlySmall lib (getIsometry3d m) T a b = false := by
  have ht : mulVec (transpose (getIsometry3d m).linear) (getIsometry3d m).translation 0 = none := by
    rcases h.cases with h | ⟨l, h⟩
    · exact transpose_nan (rotation_nan h).2 _ 0
    · exact mulVec_none (l := l) h 0
  simp only [poseDiffIsSufficientlySmall]
  rw [normBelow_nan 0 (by simp [addVec, ht])]
  rfl

/-- A point transformed by a pose with NaN has NaN. -/
theorem transform_nan {m : PoseMsg} (h : m.HasNaN) (p : Pt P) : (p.transform (getIsometry3d m)).HasNaN := by
  rcases h.cases with h | ⟨l, h⟩
  · obtain ⟨k, hk⟩ := (rotation_nan h).1 0
    have : mulVec (getIsometry3d m).linear p.xyz 0 = none := sum_none k (by simp [getIsometry3d, hk])
    exact ⟨0, by simp [Pt.transform, addVec, this]⟩
  · exact ⟨l, by simp [Pt.transform, addVec, getIsometry3d, h]⟩

/-! ### Theorems -/

/-- C161: on messages without NaN the code does what the model on numbers proper says (so that C59 applies). -/
theorem C161_numbers (lib : ToQuaternion) (d d' : Bool) (b : Verif.Mapping.MapBuilder P)
    (c : Verif.Mapping.Cloud P) (q : Verif.Rot.Quat) (t : Fin 3 → ℝ) :
    ∃ d'' : Bool, MapBuilder.callback lib ⟨ofCloud d b.map, ⟨ofMat b.prev.linear, ofVec b.prev.translation⟩⟩
        (ofCloud d' c) (message q t) =
      ⟨ofCloud d'' (b.callback c (Verif.Mapping.getIsometry3d q t)).map,
        ⟨ofMat (b.callback c (Verif.Mapping.getIsometry3d q t)).prev.linear,
          ofVec (b.callback c (Verif.Mapping.getIsometry3d q t)).prev.translation⟩⟩ := by
  have hiso : getIsometry3d (message q t) = ⟨ofMat q.toRotationMatrix, ofVec t⟩ := by
    simp only [getIsometry3d, message]
    congr 1
    funext i j
    fin_cases i <;> fin_cases j <;> rfl
  have hbelow : ∀ (v : Fin 3 → ℝ) (a : ℝ), normBelow (ofVec v) a = decide (Verif.Rot.norm v < a) := by
    intro v a
    have : (sum fun i => mul (ofVec v i) (ofVec v i)) = some (v ⬝ᵥ v) := sum_some fun i => v i * v i
    simp only [normBelow, this, Verif.Rot.norm]
    exact decide_eq_decide.2 Iff.rfl
  have hsmall : ∀ a e : ℝ, poseDiffIsSufficientlySmall lib ⟨ofMat b.prev.linear, ofVec b.prev.translation⟩
      ⟨ofMat q.toRotationMatrix, ofVec t⟩ a e = true ↔
      Verif.Mapping.poseDiffIsSufficientlySmall b.prev (Verif.Mapping.getIsometry3d q t) a e := by
    intro a e
    have hinv : (fun i => (ofVec (Matrix.mulVec b.prev.linear.transpose b.prev.translation) i).map (- ·)) =
        ofVec (-(Matrix.mulVec b.prev.linear.transpose b.prev.translation)) := rfl
    simp only [poseDiffIsSufficientlySmall, transpose_of, mulVec_of, mulMat_of, hinv, addVec_of, lib.regular, hbelow,
      Bool.and_eq_true, decide_eq_true_eq, Verif.Mapping.poseDiffIsSufficientlySmall, Verif.Mapping.Pose.mul,
      Verif.Mapping.Pose.inverse, Verif.Mapping.getIsometry3d, Verif.Rot.makePose]
  have hpts : transformPointCloud ⟨ofMat q.toRotationMatrix, ofVec t⟩ (ofCloud d' c) =
      ofCloud d' (Verif.Mapping.transformPointCloud (Verif.Mapping.getIsometry3d q t) c) := by
    simp only [transformPointCloud, ofCloud, Verif.Mapping.transformPointCloud, List.map_map]
    congr 1
    refine List.map_congr_left fun p _ => ?_
    have hf : (⟨ofVec p.xyz, p.other⟩ : Pt P).finite = true := by
      simp [Pt.finite, ofVec]
    simp only [Function.comp, hf, Bool.or_true, if_true, Pt.transform, mulVec_of, addVec_of]
    rfl
  by_cases h0 : c.length = 0
  · refine ⟨d, ?_⟩
    simp [MapBuilder.callback, Verif.Mapping.MapBuilder.callback, ofCloud, h0]
  · by_cases hk : b.map.length ≠ 0 ∧ Verif.Mapping.poseDiffIsSufficientlySmall b.prev
        (Verif.Mapping.getIsometry3d q t) Verif.Mapping.translationThreshold Verif.Mapping.rotationThreshold
    · refine ⟨d, ?_⟩
      have hs := (hsmall _ _).2 hk.2
      simp only [MapBuilder.callback, Verif.Mapping.MapBuilder.callback, hiso, hs, if_neg h0, if_pos hk]
      simp [ofCloud, h0, hk.1]
    · refine ⟨d && d', ?_⟩
      have hl : (ofCloud d' c).points.length ≠ 0 := by simpa [ofCloud] using h0
      have hs : (decide ((ofCloud d b.map).points.length ≠ 0) && poseDiffIsSufficientlySmall lib
          ⟨ofMat b.prev.linear, ofVec b.prev.translation⟩ ⟨ofMat q.toRotationMatrix, ofVec t⟩
          Verif.Mapping.translationThreshold Verif.Mapping.rotationThreshold) = false := by
        rw [Bool.eq_false_iff]
        intro h
        rw [Bool.and_eq_true, hsmall, decide_eq_true_eq] at h
        exact hk ⟨by simpa [ofCloud] using h.1, h.2⟩
      simp only [MapBuilder.callback, Verif.Mapping.MapBuilder.callback, hiso, if_neg hl, hs, if_neg h0, if_neg hk,
        hpts, Bool.false_eq_true, if_false]
      simp only [Cloud.append, ofCloud, List.map_append]
      rfl

/-- C161, what holds: if no pose has NaN, every point of the map with NaN comes from a point of a scan with NaN; so
if the scans have none, the map has none, whatever is received. -/
theorem C161_clean_partial (lib : ToQuaternion) (garbage : Pose) (h : List (Cloud P × PoseMsg))
    (hposes : ∀ cm ∈ h, ¬ cm.2.HasNaN) (hclouds : ∀ cm ∈ h, ∀ p ∈ cm.1.points, ¬ p.HasNaN) :
    ∀ p ∈ ((MapBuilder.new garbage).run lib h).map.points, ¬ p.HasNaN := by
  have key : ∀ (h : List (Cloud P × PoseMsg)) (b : MapBuilder P), (∀ p ∈ b.map.points, ¬ p.HasNaN) →
      (∀ cm ∈ h, ¬ cm.2.HasNaN) → (∀ cm ∈ h, ∀ p ∈ cm.1.points, ¬ p.HasNaN) →
      ∀ p ∈ (b.run lib h).map.points, ¬ p.HasNaN := by
    intro h
    induction h with
    | nil => intro b hb _ _; exact hb
    | cons cm h ih =>
      intro b hb hp hc
      refine ih (b.callback lib cm.1 cm.2) ?_ (fun x hx => hp x (List.mem_cons_of_mem _ hx))
        (fun x hx => hc x (List.mem_cons_of_mem _ hx))
      have hm := hp cm List.mem_cons_self
      have hpts := hc cm List.mem_cons_self
      simp only [MapBuilder.callback]
      split
      · exact hb
      · split
        · exact hb
        · intro p hpm
          simp only [Cloud.append, transformPointCloud, List.mem_append, List.mem_map] at hpm
          rcases hpm with hpm | ⟨p0, hp0, rfl⟩
          · exact hb p hpm
          · split
            · rintro ⟨i, hi⟩
              have some_of : ∀ a : Number, a ≠ none → a.isSome := fun a ha => Option.isSome_iff_ne_none.2 ha
              have hw : cm.2.w.isSome := some_of _ fun e => hm (.inl e)
              have hx : cm.2.x.isSome := some_of _ fun e => hm (.inr (.inl e))
              have hy : cm.2.y.isSome := some_of _ fun e => hm (.inr (.inr (.inl e)))
              have hz : cm.2.z.isSome := some_of _ fun e => hm (.inr (.inr (.inr (.inl e))))
              have hL : ∀ i j, ((getIsometry3d cm.2).linear i j).isSome := by
                obtain ⟨w, hw⟩ := Option.isSome_iff_exists.1 hw
                obtain ⟨x, hx⟩ := Option.isSome_iff_exists.1 hx
                obtain ⟨y, hy⟩ := Option.isSome_iff_exists.1 hy
                obtain ⟨z, hz⟩ := Option.isSome_iff_exists.1 hz
                simp only [getIsometry3d, hw, hx, hy, hz]
                intro i j
                fin_cases i <;> fin_cases j <;> rfl
              have hs := add_isSome (mulVec_isSome hL
                (fun k => some_of _ fun e => hpts p0 hp0 ⟨k, e⟩) i)
                (some_of (cm.2.position i) fun e => hm (.inr (.inr (.inr (.inr ⟨i, e⟩)))))
              have hi' : add (mulVec (getIsometry3d cm.2).linear p0.xyz i) (cm.2.position i) = none := hi
              rw [hi'] at hs
              cases hs
            · exact hpts p0 hp0
  exact key h _ (by simp [MapBuilder.new]) hposes hclouds

/-- C161, violated: a scan with any points whose pose has a NaN anywhere is added to the map, whatever the map is and
whether or not the vehicle has moved, and each of the points that are added has NaN. -/
theorem C161_spoiled_violated (lib : ToQuaternion) (b : MapBuilder P) (c : Cloud P) (hc : c.points ≠ [])
    {m : PoseMsg} (hm : m.HasNaN) :
    ∃ added : List (Pt P), (b.callback lib c m).map.points = b.map.points ++ added ∧
      added.length = c.points.length ∧ ∀ p ∈ added, p.HasNaN := by
  have hl : c.points.length ≠ 0 := by simpa using hc
  refine ⟨_, by simp only [MapBuilder.callback, small_nan lib b.prev hm, Bool.and_false, if_neg hl]; rfl, ?_, ?_⟩
  · simp [transformPointCloud]
  · intro p hp
    simp only [transformPointCloud, List.mem_map] at hp
    obtain ⟨p0, -, rfl⟩ := hp
    split
    · exact transform_nan hm p0
    · rename_i hn
      simp only [Bool.or_eq_true, not_or, Pt.finite, decide_eq_true_eq, not_forall, Option.not_isSome_iff_eq_none]
        at hn
      exact hn.2

/-- C161, violated: the next scan after it is added too, even if the vehicle has not moved since the last scan with
a good pose. -/
theorem C161_next_violated (lib : ToQuaternion) (b : MapBuilder P) (c c' : Cloud P) (hc : c.points ≠ [])
    (hc' : c'.points ≠ []) {m : PoseMsg} (hm : m.HasNaN) (m' : PoseMsg) :
    (b.run lib [(c, m), (c', m')]).map.points = (b.callback lib c m).map.points ++
      (transformPointCloud (getIsometry3d m') c').points := by
  have hl : c.points.length ≠ 0 := by simpa using hc
  have hl' : c'.points.length ≠ 0 := by simpa using hc'
  have hprev : (b.callback lib c m).prev = getIsometry3d m := by
    simp [MapBuilder.callback, small_nan lib b.prev hm, hc]
  simp only [MapBuilder.run, List.foldl_cons, List.foldl_nil]
  rw [MapBuilder.callback, hprev, nan_small lib _ hm, if_neg hl']
  simp only [Bool.and_false, Bool.false_eq_true, if_false]
  rfl

/-- C161, what holds: after a scan that was added the decisions depend on its pose only. So when a scan with a good
pose has been added after one with NaN, what is added later is what would be added without it. -/
theorem C161_recovers (lib : ToQuaternion) (b b' : MapBuilder P) (hprev : b.prev = b'.prev)
    (hb : b.map.points ≠ []) (hb' : b'.map.points ≠ []) (h : List (Cloud P × PoseMsg)) :
    ∃ added : List (Pt P), (b.run lib h).map.points = b.map.points ++ added ∧
      (b'.run lib h).map.points = b'.map.points ++ added := by
  induction h generalizing b b' with
  | nil => exact ⟨[], by simp [MapBuilder.run], by simp [MapBuilder.run]⟩
  | cons cm h ih =>
    have hl : b.map.points.length ≠ 0 := by simpa using hb
    have hl' : b'.map.points.length ≠ 0 := by simpa using hb'
    simp only [MapBuilder.run, List.foldl_cons]
    by_cases h0 : cm.1.points.length = 0
    · simp only [MapBuilder.callback, if_pos h0]
      exact ih b b' hprev hb hb'
    · cases hs : poseDiffIsSufficientlySmall lib b'.prev (getIsometry3d cm.2) Verif.Mapping.translationThreshold
          Verif.Mapping.rotationThreshold with
      | true =>
        have e1 : b.callback lib cm.1 cm.2 = b := by
          simp [MapBuilder.callback, hprev, hs, hb]
        have e2 : b'.callback lib cm.1 cm.2 = b' := by
          simp [MapBuilder.callback, hs, hb']
        rw [e1, e2]
        exact ih b b' hprev hb hb'
      | false =>
        have e1 : b.callback lib cm.1 cm.2 =
            ⟨b.map.append (transformPointCloud (getIsometry3d cm.2) cm.1), getIsometry3d cm.2⟩ := by
          simp only [MapBuilder.callback, hprev, hs, Bool.and_false, if_neg h0]
          rfl
        have e2 : b'.callback lib cm.1 cm.2 =
            ⟨b'.map.append (transformPointCloud (getIsometry3d cm.2) cm.1), getIsometry3d cm.2⟩ := by
          simp only [MapBuilder.callback, hs, Bool.and_false, if_neg h0]
          rfl
        rw [e1, e2]
        obtain ⟨added, k1, k2⟩ := ih
          ⟨b.map.append (transformPointCloud (getIsometry3d cm.2) cm.1), getIsometry3d cm.2⟩
          ⟨b'.map.append (transformPointCloud (getIsometry3d cm.2) cm.1), getIsometry3d cm.2⟩ rfl
          (by simp [Cloud.append, hb]) (by simp [Cloud.append, hb'])
        refine ⟨(transformPointCloud (getIsometry3d cm.2) cm.1).points ++ added, ?_, ?_⟩
        · exact k1.trans (by simp [Cloud.append])
        · exact k2.trans (by simp [Cloud.append])

/-- C161, violated: one point with NaN in a map of fewer than `2^32` points is enough for the frame of the map to be
broadcast with NaN in that coordinate. -/
theorem C161_centre_violated (points : List (Vec 3)) (hsize : points.length < 2 ^ 32) {p : Vec 3} (hp : p ∈ points)
    {i : Fin 3} (hi : p i = none) : onPointCloud points i = none := by
  have stays : ∀ (l : List (Vec 3)) (a : Vec 3), a i = none → l.foldl addVec a i = none := by
    intro l
    induction l with
    | nil => intro a ha; exact ha
    | cons x l ih => intro a ha; exact ih _ (by simp [addVec, ha])
  have gets : ∀ (l : List (Vec 3)) (a : Vec 3), p ∈ l → l.foldl addVec a i = none := by
    intro l
    induction l with
    | nil => intro a h; cases h
    | cons x l ih =>
      intro a h
      rcases List.mem_cons.1 h with h | h
      · subst h
        exact stays l _ (by simp [addVec, hi])
      · exact ih _ h
  simp only [onPointCloud, Nat.mod_eq_of_lt hsize, List.take_length, gets points _ hp]
  split <;> rfl

/-! Non-vacuity. -/

/-- A pose with an unknown height. -/
def lost : PoseMsg := ⟨some 1, some 0, some 0, some 0, ![some 0, some 0, none]⟩

example : lost.HasNaN := .inr (.inr (.inr (.inr ⟨2, rfl⟩)))

/-- A conversion that meets the requirements. -/
noncomputable example : ToQuaternion where
  vec M := by
    classical
    exact if h : ∃ A : Matrix (Fin 3) (Fin 3) ℝ, M = ofMat A then ofVec (Verif.Rot.Quat.ofMatrix h.choose).vec
      else fun _ => none
  regular A := by
    have h : ∃ B : Matrix (Fin 3) (Fin 3) ℝ, ofMat A = ofMat B := ⟨A, rfl⟩
    have hA : h.choose = A := by
      have := h.choose_spec
      ext i j
      exact (Option.some.inj (congrFun (congrFun this i) j)).symm
    simp only [dif_pos h, hA]
  nan M h i := by
    have hn : ¬ ∃ A : Matrix (Fin 3) (Fin 3) ℝ, M = ofMat A := by
      rintro ⟨A, rfl⟩
      cases h 0 0
    simp only [dif_neg hn]

/-- A vehicle that stands: with good poses the second scan of one point is not added; with a lost pose in between
the map has three points. -/
example (lib : ToQuaternion) (garbage : Pose) (c : Cloud Unit) (hc : c = ⟨true, [⟨ofVec ![1, 2, 3], ()⟩]⟩) :
    (((MapBuilder.new garbage).run lib
      [(c, message ⟨1, 0, 0, 0⟩ 0), (c, lost), (c, message ⟨1, 0, 0, 0⟩ 0)]).map.points).length = 3 := by
  have hne : c.points ≠ [] := by simp [hc]
  have hlost : lost.HasNaN := .inr (.inr (.inr (.inr ⟨2, rfl⟩)))
  have h1 := C161_next_violated lib ((MapBuilder.new garbage).callback lib c (message ⟨1, 0, 0, 0⟩ 0)) c c hne hne
    hlost (message ⟨1, 0, 0, 0⟩ 0)
  obtain ⟨added, h2, h3, -⟩ := C161_spoiled_violated lib
    ((MapBuilder.new garbage).callback lib c (message ⟨1, 0, 0, 0⟩ 0)) c hne hlost
  have h0 : ((MapBuilder.new garbage).callback lib c (message ⟨1, 0, 0, 0⟩ 0)).map.points.length = 1 := by
    simp [MapBuilder.callback, MapBuilder.new, hc, Cloud.append, transformPointCloud]
  have e : (MapBuilder.new garbage).run lib
      [(c, message ⟨1, 0, 0, 0⟩ 0), (c, lost), (c, message ⟨1, 0, 0, 0⟩ 0)] =
      ((MapBuilder.new garbage).callback lib c (message ⟨1, 0, 0, 0⟩ 0)).run lib
        [(c, lost), (c, message ⟨1, 0, 0, 0⟩ 0)] := rfl
  have h4 : (transformPointCloud (getIsometry3d (message ⟨1, 0, 0, 0⟩ 0)) c).points.length = 1 := by
    simp [transformPointCloud, hc]
  have h5 : c.points.length = 1 := by simp [hc]
  rw [e, h1, h2, List.length_append, List.length_append, h0, h3, h4, h5]

end Verif.MappingNaN
