/-
C80 nearest neighbours in the map.
-/
import Verif.Model.Loam
import Mathlib.Data.List.Sort
import Mathlib.Data.List.Perm.Basic

set_option autoImplicit false

namespace Verif.Loam

/-- Squared Euclidean distance. -/
def sqDist (a b : V3) : ℝ := (a 0 - b 0) ^ 2 + (a 1 - b 1) ^ 2 + (a 2 - b 2) ^ 2

/-- What is assumed about nanoflann's search with `k ≥ 1`: it finds `min k n` different points of the
map, nearest first, and leaves out none that is nearer than one it found. -/
def KnnSpec (knn : Knn) : Prop :=
  ∀ (map : List V3) (query : V3) (k : ℕ), 0 < k →
    (knn map query k).length = min k map.length ∧ (knn map query k).Nodup ∧
    (∀ i ∈ knn map query k, i < map.length) ∧
    (knn map query k).Pairwise (fun i j => ∀ a b, map[i]? = some a → map[j]? = some b →
      sqDist query a ≤ sqDist query b) ∧
    ∀ i ∈ knn map query k, ∀ j < map.length, j ∉ knn map query k → ∀ a b, map[i]? = some a →
      map[j]? = some b → sqDist query a ≤ sqDist query b

/-- `X` are the `k` nearest points of the map, nearest first: the map is, up to order, `X` and further
points none of which is nearer than a point of `X`. -/
def IsNearest (map : List V3) (query : V3) (k : ℕ) (X : List V3) : Prop :=
  X.length = k ∧ X.Pairwise (fun a b => sqDist query a ≤ sqDist query b) ∧
  ∃ rest, (X ++ rest).Perm map ∧ ∀ a ∈ X, ∀ b ∈ rest, sqDist query a ≤ sqDist query b

theorem getRows_ok {α : Type*} (m : List α) (idx : List ℕ) (h : ∀ i ∈ idx, i < m.length) :
    getRows m idx = .ok (idx.filterMap fun i => m[i]?) := by
  induction idx with
  | nil => rfl
  | cons i idx ih =>
    have hi : i < m.length := h i (List.mem_cons_self)
    have := ih (fun j hj => h j (List.mem_cons_of_mem _ hj))
    unfold getRows at this ⊢
    rw [List.mapM_cons, this, List.getElem?_eq_getElem hi]
    simp only [List.filterMap_cons, List.getElem?_eq_getElem hi]
    rfl

theorem filterMap_length {α : Type*} (m : List α) (idx : List ℕ) (h : ∀ i ∈ idx, i < m.length) :
    (idx.filterMap fun i => m[i]?).length = idx.length := by
  induction idx with
  | nil => rfl
  | cons i idx ih =>
    have hi : i < m.length := h i (List.mem_cons_self)
    simp only [List.filterMap_cons, List.getElem?_eq_getElem hi, List.length_cons]
    rw [ih (fun j hj => h j (List.mem_cons_of_mem _ hj))]

theorem filterMap_range {α : Type*} (m : List α) :
    ((List.range m.length).filterMap fun i => m[i]?) = m := by
  induction m using List.reverseRecOn with
  | nil => rfl
  | append_singleton m a ih =>
    rw [List.length_append, List.length_singleton, List.range_succ, List.filterMap_append]
    have : ((List.range m.length).filterMap fun i => (m ++ [a])[i]?) =
        (List.range m.length).filterMap fun i => m[i]? := by
      refine List.filterMap_congr fun i hi => ?_
      rw [List.getElem?_append_left (List.mem_range.1 hi)]
    rw [this, ih]
    simp

theorem nearest_rows {knn : Knn} (hk : KnnSpec knn) (map : List V3) (query : V3) (k : ℕ) (h0 : 0 < k) :
    IsNearest map query (min k map.length) ((knn map query k).filterMap fun i => map[i]?) := by
  obtain ⟨h1, h2, h3, h4, h5⟩ := hk map query k h0
  generalize knn map query k = found at *
  refine ⟨by rw [filterMap_length map found h3, h1], ?_,
    ((List.range map.length).filter fun i => decide (i ∉ found)).filterMap fun i => map[i]?, ?_, ?_⟩
  · rw [List.pairwise_filterMap]
    exact h4.imp fun {i j} hij a ha b hb => hij a b ha hb
  · rw [← List.filterMap_append]
    conv_rhs => rw [← filterMap_range map]
    refine List.Perm.filterMap _ ?_
    rw [List.perm_ext_iff_of_nodup]
    · intro i
      simp only [List.mem_append, List.mem_filter, List.mem_range, decide_eq_true_eq]
      constructor
      · rintro (h | h)
        · exact h3 i h
        · exact h.1
      · intro h
        by_cases hi : i ∈ found
        · exact .inl hi
        · exact .inr ⟨h, hi⟩
    · rw [List.nodup_append]
      refine ⟨h2, List.nodup_range.filter _, fun i hi j hj hij => ?_⟩
      subst hij
      rw [List.mem_filter, decide_eq_true_eq] at hj
      exact hj.2 hi
    · exact List.nodup_range
  · intro a ha b hb
    rw [List.mem_filterMap] at ha hb
    obtain ⟨i, hi, ha⟩ := ha
    obtain ⟨j, hj, hb⟩ := hb
    rw [List.mem_filter, decide_eq_true_eq, List.mem_range] at hj
    exact h5 i hi j hj.1 hj.2 a b ha hb

theorem nearestKSearch_pos {knn : Knn} (hk : KnnSpec knn) (map : List V3) (query : V3) (k : ℕ)
    (h0 : 0 < k) (hm : map ≠ []) :
    ∃ X, IsNearest map query (min k map.length) X ∧
      nearestKSearch knn map query k =
        .ok (X ++ List.replicate (k - map.length) (map.head hm)) := by
  refine ⟨_, nearest_rows hk map query k h0, ?_⟩
  obtain ⟨h1, h2, h3, -, -⟩ := hk map query k h0
  have hpos : 0 < map.length := List.length_pos_iff.2 hm
  unfold nearestKSearch
  rw [if_neg (by omega), if_neg (by omega)]
  simp only [Int.toNat_natCast]
  rw [getRows_ok]
  · rw [List.filterMap_append, List.drop_replicate, h1, show k - min k map.length = k - map.length by omega]
    congr 2
    generalize k - map.length = m
    induction m with
    | zero => rfl
    | succ m ih =>
      rw [List.replicate_succ, List.filterMap_cons, List.getElem?_eq_getElem hpos, ih,
        List.replicate_succ, List.head_eq_getElem]
  · intro i hi
    rw [List.mem_append] at hi
    rcases hi with hi | hi
    · exact h3 i hi
    · have := List.eq_of_mem_replicate (List.mem_of_mem_drop hi)
      omega

/-- C80: in a map with at least `k` points the search returns the `k` nearest ones. -/
theorem C80_nearest_partial {knn : Knn} (hk : KnnSpec knn) (map : List V3) (query : V3) (k : ℕ)
    (h0 : 0 < k) (hm : k ≤ map.length) :
    ∃ X, nearestKSearch knn map query k = .ok X ∧ IsNearest map query k X := by
  obtain ⟨X, h1, h2⟩ := nearestKSearch_pos hk map query k h0
    (fun h => by rw [h, List.length_nil] at hm; omega)
  rw [Nat.min_eq_left hm] at h1
  rw [Nat.sub_eq_zero_of_le hm, List.replicate_zero, List.append_nil] at h2
  exact ⟨X, h2, h1⟩

/-- C80: in a smaller, non-empty map the search returns all its points, nearest first, and then fills up
with copies of the first point of the map. -/
theorem C80_small_map {knn : Knn} (hk : KnnSpec knn) (map : List V3) (query : V3) (k : ℕ)
    (hm : map ≠ []) (hs : map.length < k) :
    ∃ X, IsNearest map query map.length X ∧ X.Perm map ∧
      nearestKSearch knn map query k =
        .ok (X ++ List.replicate (k - map.length) (map.head hm)) := by
  obtain ⟨X, h1, h2⟩ := nearestKSearch_pos hk map query k (by omega) hm
  rw [Nat.min_eq_right hs.le] at h1
  refine ⟨X, h1, ?_, h2⟩
  obtain ⟨hl, -, rest, hp, -⟩ := h1
  have : rest.length = 0 := by
    have := hp.length_eq
    rw [List.length_append] at this
    omega
  rw [List.length_eq_zero_iff] at this
  rwa [this, List.append_nil] at hp

/-- C80: an empty map fails an assertion; zero neighbours are undefined behaviour, fewer an
exception. -/
theorem C80_refused {knn : Knn} (hk : KnnSpec knn) (map : List V3) (query : V3) (k : ℤ) :
    (k < 0 → nearestKSearch knn map query k = .error .lengthError) ∧
    (k = 0 → nearestKSearch knn map query k = .error .undefinedBehaviour) ∧
    (0 < k → map = [] → nearestKSearch knn map query k = .error .assertFail) := by
  refine ⟨fun h => by rw [nearestKSearch, if_pos h],
    fun h => by rw [nearestKSearch, if_neg (by omega), if_pos h], fun h hm => ?_⟩
  subst hm
  obtain ⟨n, rfl⟩ : ∃ n : ℕ, k = (n + 1 : ℕ) := ⟨(k - 1).toNat, by omega⟩
  obtain ⟨h1, -, -, -, -⟩ := hk [] query (n + 1) (by omega)
  have h1 : knn [] query (n + 1) = [] := by
    rw [← List.length_eq_zero_iff, h1]
    simp
  unfold nearestKSearch
  rw [if_neg (by omega), if_neg (by omega)]
  simp only [Int.toNat_natCast, h1]
  rfl

/-- C80 is false for maps with fewer than `k` points: with two points and `k = 4` the first point of the
map is returned three times, although it is the farther one, so that the result is no selection of
points of the map. -/
theorem C80_small_map_violated {knn : Knn} (hk : KnnSpec knn) :
    nearestKSearch knn [![0, 0, 5], ![0, 0, 1]] 0 4 =
      .ok [![0, 0, 1], ![0, 0, 5], ![0, 0, 5], ![0, 0, 5]] := by
  obtain ⟨X, ⟨-, h1, -⟩, h2, h3⟩ := C80_small_map hk [![0, 0, 5], ![0, 0, 1]] 0 4 (by simp) (by simp)
  have hX : X = [![0, 0, 5], ![0, 0, 1]] ∨ X = [![0, 0, 1], ![0, 0, 5]] := by
    obtain ⟨a, b, rfl⟩ := List.length_eq_two.1 h2.length_eq
    rcases List.mem_cons.1 (List.Perm.mem_iff (a := a) h2 |>.1 (by simp)) with h | h
    · left
      subst h
      have := (List.perm_cons _).1 h2
      rw [List.singleton_perm] at this
      simpa using this
    · right
      rw [List.mem_singleton] at h
      subst h
      have := h2.trans (List.Perm.swap _ _ _)
      have := (List.perm_cons _).1 this
      rw [List.singleton_perm] at this
      simpa using this
  rcases hX with rfl | rfl
  · exfalso
    have := List.pairwise_cons.1 h1 |>.1 ![0, 0, 1] (by simp)
    simp [sqDist] at this
  · have : ((4 : ℕ) : ℤ) = 4 := rfl
    rw [this] at h3
    rw [h3]
    rfl

/-! ### The hypotheses can be met -/

open Classical in
/-- A search by sorting. -/
noncomputable def exKnn : Knn := fun map query k =>
  ((List.range map.length).insertionSort
    (fun i j => (map[i]?).elim 0 (sqDist query) ≤ (map[j]?).elim 0 (sqDist query))).take k

theorem exKnn_spec : KnnSpec exKnn := by
  classical
  intro map query k _
  unfold exKnn
  set r : ℕ → ℕ → Prop :=
    fun i j => (map[i]?).elim 0 (sqDist query) ≤ (map[j]?).elim 0 (sqDist query)
  have : Std.Total r := ⟨fun i j => le_total _ _⟩
  have : IsTrans ℕ r := ⟨fun _ _ _ h1 h2 => le_trans h1 h2⟩
  have hs : ((List.range map.length).insertionSort r).Pairwise r := List.pairwise_insertionSort r _
  have hp : ((List.range map.length).insertionSort r).Perm (List.range map.length) :=
    List.perm_insertionSort r _
  generalize (List.range map.length).insertionSort r = s at *
  have hn : s.Nodup := hp.nodup_iff.2 List.nodup_range
  have hr : ∀ i j a b, r i j → map[i]? = some a → map[j]? = some b → sqDist query a ≤ sqDist query b := by
    intro i j a b h ha hb
    simp only [r, ha, hb, Option.elim] at h
    exact h
  refine ⟨?_, hn.sublist (List.take_sublist _ _), ?_, ?_, ?_⟩
  · rw [List.length_take, hp.length_eq, List.length_range]
  · intro i hi
    exact List.mem_range.1 (hp.mem_iff.1 (List.mem_of_mem_take hi))
  · exact (hs.sublist (List.take_sublist _ _)).imp fun {i j} h a b ha hb => hr i j a b h ha hb
  · intro i hi j hj hnot a b ha hb
    have hjs : j ∈ s := hp.mem_iff.2 (List.mem_range.2 hj)
    rw [← List.take_append_drop k s, List.mem_append] at hjs
    have hjd := hjs.resolve_left hnot
    rw [← List.take_append_drop k s, List.pairwise_append] at hs
    exact hr i j a b (hs.2.2 i hi j hjd) ha hb

example : nearestKSearch exKnn [![0, 0, 5], ![0, 0, 1]] 0 4 =
    .ok [![0, 0, 1], ![0, 0, 5], ![0, 0, 5], ![0, 0, 5]] := C80_small_map_violated exKnn_spec

example : ∃ X, nearestKSearch exKnn [![0, 0, 5], ![0, 0, 1], ![0, 2, 0]] 0 (2 : ℕ) = .ok X ∧
    IsNearest [![0, 0, 5], ![0, 0, 1], ![0, 2, 0]] 0 2 X :=
  C80_nearest_partial exKnn_spec _ _ _ (by norm_num) (by simp)

end Verif.Loam
