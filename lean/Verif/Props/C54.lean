/-
C54 Closest prior pose.
C55 Removing old entries removes the old ones.
C56 The localizer never queries an empty store.
C57 The localizer pose is a function of prior and scan only.
C77 The prior used for a scan is the closest one received.
-/
import Mathlib.Data.Finset.Card
import Mathlib.Data.Finset.Dedup
import Verif.Lemmas.Store

set_option autoImplicit false

namespace Verif.Store

open Verif Verif.Rot Verif.Opt

/-! ### Specifications -/

section Spec

variable {K V : Type}

/-- `v` is the object inserted last for time `t` in the history `h`. -/
def LastFor (h : List (K × V)) (t : K) (v : V) : Prop :=
  ∃ pre post, h = pre ++ (t, v) :: post ∧ ∀ e ∈ post, e.1 ≠ t

/-- `e` is closest to the time `q` among the entries that satisfy `stored`; the later one if two are
equally close. -/
def Closest [Lattice K] [AddGroup K] (stored : K × V → Prop) (q : K) (e : K × V) : Prop :=
  stored e ∧ ∀ e', stored e' →
    |q - e.1| ≤ |q - e'.1| ∧ (|q - e.1| = |q - e'.1| → e'.1 ≤ e.1)

/-- Exactly the entries older than `t` are gone. -/
def OldOnesRemoved [LT K] (t : K) (before after : List (K × V)) : Prop :=
  ∀ e, e ∈ after ↔ e ∈ before ∧ ¬ e.1 < t

end Spec

/-- A store after a history of insertions. -/
def build {K V : Type} [LinearOrder K] (h : List (K × V)) : Store K V :=
  h.foldl (fun s e => insert e.1 e.2 s) []

section C54

variable {K V : Type} [LinearOrder K]

theorem build_append (h : List (K × V)) (e : K × V) :
    build (h ++ [e]) = insert e.1 e.2 (build h) := by
  simp [build]

theorem sorted_build (h : List (K × V)) : Sorted (build h) := by
  induction h using List.reverseRecOn with
  | nil => exact sorted_nil
  | append_singleton h e ih => rw [build_append]; exact sorted_insert ih _ _

theorem lastFor_append (h : List (K × V)) (e : K × V) (t : K) (v : V) :
    LastFor (h ++ [e]) t v ↔ (t, v) = e ∨ (LastFor h t v ∧ t ≠ e.1) := by
  constructor
  · rintro ⟨pre, post, heq, hpost⟩
    rcases List.eq_nil_or_concat post with rfl | ⟨post', e', rfl⟩
    · have := List.append_inj' heq rfl
      exact Or.inl (by simpa using this.2.symm)
    · rw [List.concat_eq_append] at heq hpost
      have heq' : h ++ [e] = (pre ++ (t, v) :: post') ++ [e'] := by simpa using heq
      obtain ⟨h1, h2⟩ := List.append_inj' heq' rfl
      have he : e = e' := by simpa using h2
      subst he
      exact Or.inr ⟨⟨pre, post', h1, fun x hx => hpost x (by simp [hx])⟩,
        fun hte => hpost e (by simp) hte.symm⟩
  · rintro (rfl | ⟨⟨pre, post, rfl, hpost⟩, hne⟩)
    · exact ⟨h, [], rfl, by simp⟩
    · refine ⟨pre, post ++ [e], by simp, ?_⟩
      intro x hx
      rcases List.mem_append.1 hx with hx | hx
      · exact hpost x hx
      · rw [List.mem_singleton.1 hx]; exact fun h => hne h.symm

/-- After any history of insertions the store holds, for each time, exactly the object inserted
last. -/
theorem C54_contents (h : List (K × V)) (e : K × V) : e ∈ build h ↔ LastFor h e.1 e.2 := by
  induction h using List.reverseRecOn with
  | nil =>
    simp only [build, List.foldl_nil, List.not_mem_nil, false_iff]
    rintro ⟨pre, post, heq, _⟩
    simp at heq
  | append_singleton h x ih =>
    rw [build_append, mem_insert (sorted_build h), lastFor_append, ih]

/-- Size is the number of distinct times inserted. -/
theorem C54_size (h : List (K × V)) : size (build h) = (h.map Prod.fst).toFinset.card := by
  have hnd : ((build h).map Prod.fst).Nodup := by
    have := sorted_build h
    exact (List.pairwise_map.2 this).imp fun hab => ne_of_lt hab
  have hset : ((build h).map Prod.fst).toFinset = (h.map Prod.fst).toFinset := by
    ext t
    simp only [List.mem_toFinset, List.mem_map]
    constructor
    · rintro ⟨e, he, rfl⟩
      obtain ⟨pre, post, heq, _⟩ := (C54_contents h e).1 he
      exact ⟨e, by rw [heq]; simp, rfl⟩
    · rintro ⟨e, he, rfl⟩
      induction h using List.reverseRecOn with
      | nil => simp at he
      | append_singleton h x ih =>
        by_cases hx : e.1 = x.1
        · exact ⟨x, by rw [build_append, mem_insert (sorted_build h)]; exact Or.inl rfl, hx.symm⟩
        · have he' : e ∈ h := by
            rcases List.mem_append.1 he with h' | h'
            · exact h'
            · rw [List.mem_singleton.1 h'] at hx; exact absurd rfl hx
          have hnd' : ((build h).map Prod.fst).Nodup :=
            (List.pairwise_map.2 (sorted_build h)).imp fun hab => ne_of_lt hab
          obtain ⟨y, hy, hye⟩ := ih hnd' he'
          exact ⟨y, by
            rw [build_append, mem_insert (sorted_build h)]
            exact Or.inr ⟨hy, by rw [hye]; exact hx⟩, hye⟩
  rw [size, ← List.length_map Prod.fst, ← List.toFinset_card_of_nodup hnd, hset]

/-- Two histories with the same last object for each time give the same store: the order in which
different times arrive does not matter. -/
theorem C54_order (h h' : List (K × V)) (hsame : ∀ t v, LastFor h t v ↔ LastFor h' t v) :
    build h = build h' := by
  have hnd : ∀ g : List (K × V), (build g).Nodup := fun g =>
    (sorted_build g).imp fun hab heq => absurd (congrArg Prod.fst heq) (ne_of_lt hab)
  have hperm : (build h).Perm (build h') := by
    rw [List.perm_ext_iff_of_nodup (hnd h) (hnd h')]
    intro e
    rw [C54_contents, C54_contents]
    exact hsame _ _
  have h1 : (build h).Pairwise fun a b => a.1 < b.1 := sorted_build h
  have h2 : (build h').Pairwise fun a b => a.1 < b.1 := sorted_build h'
  exact hperm.eq_of_pairwise (fun a b _ _ hab hba => absurd hab (lt_asymm hba)) h1 h2

end C54

section C54'

variable {K V : Type} [CommRing K] [LinearOrder K] [IsStrictOrderedRing K]

/-- For every non-empty history and every query time the query returns an entry, it is the closest
one, and its object is the one inserted last for its time. -/
theorem C54_closest (h : List (K × V)) (hne : h ≠ []) (q : K) :
    ∃ e, getClosest q (build h) = .ok e ∧ Closest (fun e => LastFor h e.1 e.2) q e := by
  have hb : build h ≠ [] := by
    rcases List.eq_nil_or_concat h with rfl | ⟨g, x, rfl⟩
    · exact absurd rfl hne
    · rw [List.concat_eq_append, build_append]; exact insert_ne_nil _ _ _
  obtain ⟨e, he, heq, hall⟩ := getClosest_spec (sorted_build h) hb q
  refine ⟨e, heq, (C54_contents h e).1 he, ?_⟩
  intro e' he'
  exact hall e' ((C54_contents h e').2 he')

/-- On an empty store the query is undefined behaviour. -/
theorem C54_empty (q : K) : getClosest q ([] : Store K V) = .error .undefinedBehaviour := by
  simp [getClosest, lowerBound, prev, bind, Except.bind]

/-- Three times inserted out of order, one of them twice. -/
example : build [((5 : ℤ), "a"), (1, "b"), (9, "c"), (5, "d")] = [(1, "b"), (5, "d"), (9, "c")] ∧
    getClosest (7 : ℤ) (build [((5 : ℤ), "a"), (1, "b"), (9, "c"), (5, "d")]) = .ok (9, "c") ∧
    getClosest (6 : ℤ) (build [((5 : ℤ), "a"), (1, "b"), (9, "c"), (5, "d")]) = .ok (5, "d") := by
  refine ⟨by decide +kernel, ?_, ?_⟩ <;> rfl

end C54'

/-! ### C55 -/

section C55

variable {K V : Type} [LinearOrder K]

/-- What `RemoveOlderThan` does instead: if some entry is not newer than the given time, exactly the
entries that are newer are removed. The full claim is `OldOnesRemoved` for every history and every
time; it is false (`C55_violated`). -/
theorem C55_removes_newer_partial (h : List (K × V)) (t : K) (hold : ∃ e ∈ h, e.1 ≤ t) :
    ∃ s', removeOlderThan t (build h) = .ok s' ∧
      ∀ e, e ∈ s' ↔ LastFor h e.1 e.2 ∧ e.1 ≤ t := by
  rw [removeOlderThan_eq (sorted_build h), if_neg]
  · refine ⟨_, rfl, ?_⟩
    intro e
    rw [List.mem_filter, C54_contents]
    simp
  · rintro ⟨_, hall⟩
    obtain ⟨e, he, hle⟩ := hold
    have h1 : e.1 ∈ (build h).map Prod.fst := by
      have hcard : ∀ g : List (K × V), e ∈ g → e.1 ∈ (build g).map Prod.fst := by
        intro g
        induction g using List.reverseRecOn with
        | nil => simp
        | append_singleton g x ih =>
          intro heg
          by_cases hx : e.1 = x.1
          · exact List.mem_map.2 ⟨x, by
              rw [build_append, mem_insert (sorted_build g)]; exact Or.inl rfl, hx.symm⟩
          · have heg' : e ∈ g := by
              rcases List.mem_append.1 heg with h' | h'
              · exact h'
              · rw [List.mem_singleton.1 h'] at hx; exact absurd rfl hx
            obtain ⟨y, hy, hye⟩ := List.mem_map.1 (ih heg')
            exact List.mem_map.2 ⟨y, by
              rw [build_append, mem_insert (sorted_build g)]
              exact Or.inr ⟨hy, by rw [hye]; exact hx⟩, hye⟩
      exact hcard h he
    obtain ⟨y, hy, hye⟩ := List.mem_map.1 h1
    exact absurd (hye ▸ hle) (not_le.2 (hall y hy))

/-- If every entry is newer than the given time, the call is undefined behaviour. -/
theorem C55_all_newer_undefined (h : List (K × V)) (hne : h ≠ []) (t : K)
    (hnew : ∀ e ∈ h, t < e.1) :
    removeOlderThan t (build h) = .error .undefinedBehaviour := by
  rw [removeOlderThan_eq (sorted_build h), if_pos]
  refine ⟨?_, ?_⟩
  · rcases List.eq_nil_or_concat h with rfl | ⟨g, x, rfl⟩
    · exact absurd rfl hne
    · rw [List.concat_eq_append, build_append]; exact insert_ne_nil _ _ _
  · intro e he
    obtain ⟨pre, post, heq, _⟩ := (C54_contents h e).1 he
    exact hnew e (by rw [heq]; simp)

/-- No entry older than the given time is ever removed. -/
theorem C55_keeps_old (h : List (K × V)) (t : K) (s' : Store K V)
    (hok : removeOlderThan t (build h) = .ok s') (e : K × V) (he : LastFor h e.1 e.2)
    (hle : e.1 ≤ t) : e ∈ s' := by
  rw [removeOlderThan_eq (sorted_build h)] at hok
  split_ifs at hok
  cases hok
  exact List.mem_filter.2 ⟨(C54_contents h e).2 he, by simpa using hle⟩

/-- The claim fails: with entries at 0 and 10, removing what is older than 5 removes 10 and keeps
0. -/
theorem C55_violated :
    ∃ s', removeOlderThan 5 (build [((0 : ℤ), "old"), (10, "new")]) = .ok s' ∧
      ¬ OldOnesRemoved 5 (build [((0 : ℤ), "old"), (10, "new")]) s' := by
  refine ⟨[(0, "old")], rfl, ?_⟩
  intro h
  have h0 := (h (0, "old")).1 (by simp)
  exact absurd (show ((0 : ℤ), "old").1 < 5 by decide) h0.2

/-- The call is not defined for every time. -/
theorem C55_undefined_violated :
    removeOlderThan 5 (build [((10 : ℤ), "new")]) = .error .undefinedBehaviour := rfl

/-- A store on which the partial theorem's hypothesis holds. -/
example : removeOlderThan 5 (build [((10 : ℤ), "c"), (0, "a"), (5, "b"), (7, "d")]) =
    .ok [(0, "a"), (5, "b")] := rfl

end C55

/-! ### The node -/

section Node

variable {K Scan : Type} [CommRing K] [LinearOrder K] [IsStrictOrderedRing K]
variable (run : Scan → Pose → Res Result) (second : K)

theorem exec_append (n : Node K Scan) (as bs : List (Act K Scan)) :
    exec run second n (as ++ bs) = (exec run second n as).bind fun n => exec run second n bs := by
  induction as generalizing n with
  | nil => rfl
  | cons a rest ih =>
    simp only [List.cons_append, exec, bind]
    cases h : step run second n a with
    | error e => rfl
    | ok n1 => simp only [Except.bind]; rw [ih]; rfl

theorem exec_induction {P : Node K Scan → Prop}
    (hstep : ∀ n a n', P n → step run second n a = .ok n' → P n') :
    ∀ (sched : List (Act K Scan)) (n n' : Node K Scan), P n → exec run second n sched = .ok n' →
      P n'
  | [], n, n', hn, h => by cases h; exact hn
  | a :: rest, n, n', hn, h => by
    simp only [exec, bind] at h
    cases hs : step run second n a with
    | error e => rw [hs] at h; simp [Except.bind] at h
    | ok n1 =>
      rw [hs] at h
      exact exec_induction hstep rest n1 n' (hstep n a n1 hn hs) h

/-- The invariant: keys strictly increase; while the pose-update callback is between its size check
and its last locked call the store is not empty. -/
def Inv (n : Node K Scan) : Prop :=
  Sorted n.store ∧ (n.pc ≠ .idle → n.store ≠ [])

theorem inv_step (n : Node K Scan) (a : Act K Scan) (n' : Node K Scan) (hi : Inv n)
    (h : step run second n a = .ok n') : Inv n' := by
  obtain ⟨hs, hne⟩ := hi
  cases a with
  | insert t p =>
    simp only [step] at h
    cases h
    exact ⟨sorted_insert hs _ _, fun _ => insert_ne_nil _ _ _⟩
  | size m =>
    simp only [step] at h
    split at h
    · split_ifs at h with h0
      · cases h; exact ⟨hs, hne⟩
      · cases h
        exact ⟨hs, fun _ hnil => h0 (by simpa [size] using hnil)⟩
    · cases h; exact ⟨hs, hne⟩
  | closest =>
    simp only [step] at h
    split at h
    · rename_i m hpc
      cases hg : getClosest m.stamp n.store with
      | error e => rw [hg] at h; simp [bind, Except.bind] at h
      | ok prior =>
        rw [hg] at h
        simp only [bind, Except.bind] at h
        cases h
        exact ⟨hs, fun _ => hne (by rw [hpc]; simp)⟩
    · cases h; exact ⟨hs, hne⟩
  | remove =>
    simp only [step] at h
    split at h
    · rename_i m prior hpc
      cases hg : removeOlderThan (m.stamp + second) n.store with
      | error e => rw [hg] at h; simp [bind, Except.bind] at h
      | ok s' =>
        rw [hg] at h
        simp only [bind, Except.bind] at h
        cases h
        exact ⟨sorted_removeOlderThan hs hg,
          fun _ => removeOlderThan_ne_nil hs (hne (by rw [hpc]; simp)) hg⟩
    · cases h; exact ⟨hs, hne⟩
  | publish =>
    simp only [step] at h
    split at h
    · rename_i m prior hpc
      cases hg : (n.localizer.init prior.2).update run m.scan with
      | error e => rw [hg] at h; simp [bind, Except.bind] at h
      | ok r =>
        rw [hg] at h
        simp only [bind, Except.bind] at h
        cases h
        exact ⟨hs, fun hpc' => absurd rfl hpc'⟩
    · cases h; exact ⟨hs, hne⟩

theorem inv_new : Inv (Node.new K Scan) := ⟨sorted_nil, fun h => absurd rfl h⟩

theorem inv_exec (sched : List (Act K Scan)) (n : Node K Scan)
    (h : exec run second (Node.new K Scan) sched = .ok n) : Inv n :=
  exec_induction run second (fun n a n' => inv_step run second n a n') sched _ n inv_new h

/-! ### C56 -/

/-- In every state that any interleaving reaches, if the closest-entry query is next then the store
is not empty, so the query returns an entry of the store. -/
theorem C56_query_nonempty (sched : List (Act K Scan)) (n : Node K Scan)
    (h : exec run second (Node.new K Scan) sched = .ok n) (m : ScanMsg K Scan)
    (hpc : n.pc = .sized m) :
    n.store ≠ [] ∧ ∃ e, getClosest m.stamp n.store = .ok e ∧ Closest (· ∈ n.store) m.stamp e := by
  obtain ⟨hs, hne⟩ := inv_exec run second sched n h
  have hne' := hne (by rw [hpc]; simp)
  obtain ⟨e, he, heq, hall⟩ := getClosest_spec hs hne' m.stamp
  exact ⟨hne', e, heq, he, hall⟩

/-- As long as no prior pose has arrived, nothing happens at all: scans leave the node as it was
constructed and nothing is published, then or later, for them. -/
theorem C56_no_prior (sched : List (Act K Scan))
    (hnone : ∀ a ∈ sched, ∀ t p, a ≠ Act.insert t p) :
    exec run second (Node.new K Scan) sched = .ok (Node.new K Scan) := by
  induction sched with
  | nil => rfl
  | cons a rest ih =>
    have hrest := ih fun b hb => hnone b (List.mem_cons_of_mem _ hb)
    have hstep : step run second (Node.new K Scan) a = .ok (Node.new K Scan) := by
      cases a with
      | insert t p => exact absurd rfl (hnone _ List.mem_cons_self t p)
      | size m => simp [step, Node.new, size]
      | closest => simp [step, Node.new]
      | remove => simp [step, Node.new]
      | publish => simp [step, Node.new]
    simp only [exec, bind, hstep, Except.bind]
    exact hrest

/-- The only locked operation of the node that can go wrong, under any interleaving, is
`RemoveOlderThan` when every stored prior is more than a second newer than the scan; the optimiser
is the only other source of failures. -/
theorem C56_failures (sched : List (Act K Scan)) (n : Node K Scan)
    (h : exec run second (Node.new K Scan) sched = .ok n) (a : Act K Scan) (err : Err)
    (herr : step run second n a = .error err) :
    (a = .remove ∧ err = .undefinedBehaviour ∧ ∃ m prior, n.pc = .got m prior ∧
      ∀ e ∈ n.store, m.stamp + second < e.1) ∨
    (a = .publish ∧ ∃ m prior, n.pc = .removed m prior ∧ run m.scan prior.2 = .error err) := by
  obtain ⟨hs, hne⟩ := inv_exec run second sched n h
  cases a with
  | insert t p => simp [step] at herr
  | size m =>
    simp only [step] at herr
    split at herr
    · split_ifs at herr
    · cases herr
  | closest =>
    simp only [step] at herr
    split at herr
    · rename_i m hpc
      obtain ⟨e, _, heq, _⟩ := getClosest_spec hs (hne (by rw [hpc]; simp)) m.stamp
      rw [heq] at herr
      simp [bind, Except.bind] at herr
    · cases herr
  | remove =>
    simp only [step] at herr
    split at herr
    · rename_i m prior hpc
      left
      rw [removeOlderThan_eq hs] at herr
      split_ifs at herr with hc
      · simp only [bind, Except.bind] at herr
        cases herr
        exact ⟨rfl, rfl, m, prior, hpc, hc.2⟩
      · simp [bind, Except.bind] at herr
    · cases herr
  | publish =>
    simp only [step] at herr
    split at herr
    · rename_i m prior hpc
      right
      refine ⟨rfl, m, prior, hpc, ?_⟩
      simp only [Localizer.update, Localizer.init, bind] at herr
      cases hr : run m.scan prior.2 with
      | error e =>
        rw [hr] at herr
        simp only [Except.bind] at herr
        cases herr
        rfl
      | ok r => rw [hr] at herr; simp [Except.bind] at herr
    · cases herr

/-! ### C57 -/

/-- The two messages published for a scan, given the optimiser's result for it. -/
noncomputable def messages (stamp : K) (pose : Pose) : List (Output K) :=
  [.pose stamp "map" pose [1, 1, 1, 1 / 10, 1 / 10, 1 / 10],
   .transform stamp "map" "lidar_feature_base_link" pose]

/-- In every reachable state, whatever came before, publishing for a scan with its chosen prior
emits the pose the optimiser returns for that scan started at that prior, and nothing else. -/
theorem C57_published (sched : List (Act K Scan)) (n : Node K Scan)
    (_h : exec run second (Node.new K Scan) sched = .ok n) (m : ScanMsg K Scan) (prior : K × Pose)
    (hpc : n.pc = .removed m prior) (r : Result) (hr : run m.scan prior.2 = .ok r) :
    ∃ n', step run second n .publish = .ok n' ∧
      n'.outputs = n.outputs ++ messages m.stamp r.pose ∧
      n'.localizer.isInitialized = true ∧ n'.localizer.get = r.pose ∧
      n'.pc = .idle ∧ n'.store = n.store := by
  simp only [step, hpc, Localizer.update, Localizer.init, bind, hr, Except.bind]
  exact ⟨_, rfl, rfl, rfl, rfl, rfl, rfl⟩

/-- No other action publishes anything. -/
theorem C57_only_publish (n n' : Node K Scan) (a : Act K Scan) (ha : a ≠ .publish)
    (h : step run second n a = .ok n') : n'.outputs = n.outputs := by
  cases a with
  | insert t p => simp only [step] at h; cases h; rfl
  | size m =>
    simp only [step] at h
    split at h
    · split_ifs at h <;> cases h <;> rfl
    · cases h; rfl
  | closest =>
    simp only [step] at h
    split at h
    · rename_i m hpc
      cases hg : getClosest m.stamp n.store with
      | error e => rw [hg] at h; simp [bind, Except.bind] at h
      | ok prior => rw [hg] at h; simp only [bind, Except.bind] at h; cases h; rfl
    · cases h; rfl
  | remove =>
    simp only [step] at h
    split at h
    · rename_i m prior hpc
      cases hg : removeOlderThan (m.stamp + second) n.store with
      | error e => rw [hg] at h; simp [bind, Except.bind] at h
      | ok s' => rw [hg] at h; simp only [bind, Except.bind] at h; cases h; rfl
    · cases h; rfl
  | publish => exact absurd rfl ha

/-- What the pose-update callback publishes, run without interruption: nothing if there is no prior,
otherwise the optimiser's pose for the scan started at the closest prior. -/
theorem poseUpdateCallback_outputs (n n' : Node K Scan) (hidle : n.pc = .idle) (m : ScanMsg K Scan)
    (h : poseUpdateCallback run second n m = .ok n') :
    (n.store = [] ∧ n' = n) ∨
    ∃ prior r, getClosest m.stamp n.store = .ok prior ∧ run m.scan prior.2 = .ok r ∧
      n'.outputs = n.outputs ++ messages m.stamp r.pose ∧
      n'.localizer = ⟨true, r.pose⟩ ∧ n'.pc = .idle := by
  simp only [poseUpdateCallback, exec, bind] at h
  by_cases h0 : n.store = []
  · left
    have h1 : step run second n (.size m) = .ok n := by simp [step, hidle, size, h0]
    have h2 : step run second n .closest = .ok n := by simp [step, hidle]
    have h3 : step run second n .remove = .ok n := by simp [step, hidle]
    have h4 : step run second n .publish = .ok n := by simp [step, hidle]
    rw [h1] at h; simp only [Except.bind] at h
    rw [h2] at h; simp only at h
    rw [h3] at h; simp only at h
    rw [h4] at h; simp only at h
    cases h
    exact ⟨h0, rfl⟩
  · right
    have h1 : step run second n (.size m) = .ok { n with pc := .sized m } := by
      have : ¬ size n.store = 0 := by simpa [size] using h0
      simp [step, hidle, this]
    rw [h1] at h; simp only [Except.bind] at h
    cases hg : getClosest m.stamp n.store with
    | error e => simp [step, hg, bind, Except.bind] at h
    | ok prior =>
      simp only [step, hg, bind, Except.bind] at h
      cases hr : removeOlderThan (m.stamp + second) n.store with
      | error e => simp [hr] at h
      | ok s' =>
        simp only [hr] at h
        cases hrun : run m.scan prior.2 with
        | error e => simp [Localizer.update, Localizer.init, bind, Except.bind, hrun] at h
        | ok r =>
          simp only [Localizer.update, Localizer.init, bind, Except.bind, hrun] at h
          cases h
          exact ⟨prior, r, rfl, hrun, rfl, rfl, rfl⟩

/-- Two runs: whatever two nodes went through before (any stores, any localizer states, any earlier
outputs), if the same prior is closest to the scan then the same messages are published. -/
theorem C57_two_runs (n₁ n₁' n₂ n₂' : Node K Scan) (m : ScanMsg K Scan)
    (h₁ : n₁.pc = .idle) (h₂ : n₂.pc = .idle)
    (hprior : (getClosest m.stamp n₁.store).map Prod.snd = (getClosest m.stamp n₂.store).map Prod.snd)
    (hne₁ : n₁.store ≠ []) (hne₂ : n₂.store ≠ [])
    (hr₁ : poseUpdateCallback run second n₁ m = .ok n₁')
    (hr₂ : poseUpdateCallback run second n₂ m = .ok n₂') :
    ∃ out, n₁'.outputs = n₁.outputs ++ out ∧ n₂'.outputs = n₂.outputs ++ out ∧
      n₁'.localizer = n₂'.localizer := by
  rcases poseUpdateCallback_outputs run second n₁ n₁' h₁ m hr₁ with ⟨h, _⟩ | ⟨p₁, r₁, hp₁, hrun₁, ho₁, hl₁, _⟩
  · exact absurd h hne₁
  rcases poseUpdateCallback_outputs run second n₂ n₂' h₂ m hr₂ with ⟨h, _⟩ | ⟨p₂, r₂, hp₂, hrun₂, ho₂, hl₂, _⟩
  · exact absurd h hne₂
  rw [hp₁, hp₂] at hprior
  simp only [Except.map] at hprior
  have hpp : p₁.2 = p₂.2 := by injection hprior
  rw [hpp, hrun₂] at hrun₁
  cases hrun₁
  exact ⟨_, ho₁, ho₂, by rw [hl₁, hl₂]⟩

/-- After initialisation the pose is the initial one, and each update replaces it by the optimiser's
result started from it; before initialisation it is the identity. -/
theorem C57_localizer (l : Localizer) (p : Pose) (scan : Scan) (r : Result) :
    Localizer.new.get = ⟨1, 0⟩ ∧ Localizer.new.isInitialized = false ∧
    (l.init p).get = p ∧ (l.init p).isInitialized = true ∧
    (run scan l.get = .ok r → ∃ l', l.update run scan = .ok (l', r.success) ∧ l'.get = r.pose ∧
      l'.isInitialized = l.isInitialized) := by
  refine ⟨rfl, rfl, rfl, rfl, ?_⟩
  intro hr
  simp only [Localizer.get] at hr
  simp only [Localizer.update, bind, hr, Except.bind]
  exact ⟨_, rfl, rfl, rfl⟩

/-! ### C77 -/

/-- The prior poses received during a schedule, in order. -/
def received : List (Act K Scan) → List (K × Pose)
  | [] => []
  | .insert t p :: rest => (t, p) :: received rest
  | _ :: rest => received rest

/-- The scans handled during a schedule. -/
def scans : List (Act K Scan) → List (ScanMsg K Scan)
  | [] => []
  | .size m :: rest => m :: scans rest
  | _ :: rest => scans rest

/-- The scan a callback in progress is working on. -/
def Pc.scan? {V : Type} : Pc K V Scan → Option (ScanMsg K Scan)
  | .idle => none
  | .sized m => some m
  | .got m _ => some m
  | .removed m _ => some m

theorem received_append (as bs : List (Act K Scan)) :
    received (as ++ bs) = received as ++ received bs := by
  induction as with
  | nil => rfl
  | cons a rest ih => cases a <;> simp [received, ih]

theorem scans_append (as bs : List (Act K Scan)) : scans (as ++ bs) = scans as ++ scans bs := by
  induction as with
  | nil => rfl
  | cons a rest ih => cases a <;> simp [scans, ih]

/-- If no prior received is more than a second newer than any scan handled, the store holds exactly
the priors received (the last for each time), under every interleaving. -/
theorem store_eq_received (sched : List (Act K Scan)) (n : Node K Scan)
    (h : exec run second (Node.new K Scan) sched = .ok n)
    (hold : ∀ e ∈ received sched, ∀ m ∈ scans sched, e.1 ≤ m.stamp + second) :
    n.store = build (received sched) ∧ ∀ m, n.pc.scan? = some m → m ∈ scans sched := by
  induction sched using List.reverseRecOn generalizing n with
  | nil => cases h; exact ⟨rfl, fun m hm => by simp [Node.new, Pc.scan?] at hm⟩
  | append_singleton as a ih =>
    rw [exec_append] at h
    cases hn : exec run second (Node.new K Scan) as with
    | error e => rw [hn] at h; simp [Except.bind] at h
    | ok n0 =>
      rw [hn] at h
      simp only [Except.bind, exec, bind] at h
      cases hst : step run second n0 a with
      | error e => rw [hst] at h; simp at h
      | ok n1 =>
        rw [hst] at h
        simp only at h
        cases h
        have hold' : ∀ e ∈ received as, ∀ m ∈ scans as, e.1 ≤ m.stamp + second := by
          intro e he m hm
          exact hold e (by rw [received_append]; exact List.mem_append_left _ he) m
            (by rw [scans_append]; exact List.mem_append_left _ hm)
        obtain ⟨hstore, hpc⟩ := ih n0 hn hold'
        have hsc : ∀ m, n0.pc.scan? = some m → m ∈ scans (as ++ [a]) := by
          intro m hm
          rw [scans_append]
          exact List.mem_append_left _ (hpc m hm)
        cases a with
        | insert t p =>
          simp only [step] at hst
          cases hst
          refine ⟨?_, hsc⟩
          simp only [received_append, received]
          rw [build_append, hstore]
        | size m =>
          simp only [step] at hst
          split at hst
          · split_ifs at hst
            · cases hst
              exact ⟨by simpa [received_append, received] using hstore, hsc⟩
            · cases hst
              refine ⟨by simpa [received_append, received] using hstore, ?_⟩
              intro m' hm'
              simp only [Pc.scan?, Option.some.injEq] at hm'
              subst hm'
              rw [scans_append]
              exact List.mem_append_right _ (by simp [scans])
          · cases hst
            exact ⟨by simpa [received_append, received] using hstore, hsc⟩
        | closest =>
          simp only [step] at hst
          split at hst
          · rename_i m hm
            cases hg : getClosest m.stamp n0.store with
            | error e => rw [hg] at hst; simp [bind, Except.bind] at hst
            | ok prior =>
              rw [hg] at hst
              simp only [bind, Except.bind] at hst
              cases hst
              exact ⟨by simpa [received_append, received] using hstore,
                fun m' hm' => hsc m' (by rw [hm]; exact hm')⟩
          · cases hst
            exact ⟨by simpa [received_append, received] using hstore, hsc⟩
        | remove =>
          simp only [step] at hst
          split at hst
          · rename_i m prior hm
            have hs0 : Sorted n0.store := (inv_exec run second as n0 hn).1
            rw [removeOlderThan_eq hs0] at hst
            split_ifs at hst
            · simp [bind, Except.bind] at hst
            · simp only [bind, Except.bind] at hst
              cases hst
              refine ⟨?_, fun m' hm' => hsc m' (by rw [hm]; exact hm')⟩
              simp only [received_append, received, List.append_nil]
              rw [hstore, List.filter_eq_self]
              intro e he
              obtain ⟨pre, post, heq, _⟩ := (C54_contents _ _).1 he
              have hmem : e ∈ received as := by rw [heq]; simp
              have := hold' e hmem m (hpc m (by rw [hm]; rfl))
              simpa using this
          · cases hst
            exact ⟨by simpa [received_append, received] using hstore, hsc⟩
        | publish =>
          simp only [step] at hst
          split at hst
          · rename_i m prior hm
            cases hg : (n0.localizer.init prior.2).update run m.scan with
            | error e => rw [hg] at hst; simp [bind, Except.bind] at hst
            | ok r =>
              rw [hg] at hst
              simp only [bind, Except.bind] at hst
              cases hst
              exact ⟨by simpa [received_append, received] using hstore,
                fun m' hm' => by simp [Pc.scan?] at hm'⟩
          · cases hst
            exact ⟨by simpa [received_append, received] using hstore, hsc⟩

/-- Full claim: the prior chosen for a scan is the closest of all received so far. Proved here for
schedules in which no prior received is more than a second newer than a scan handled; without that
assumption it is false (`C77_violated`), because handling a scan deletes newer priors. -/
theorem C77_closest_received_partial (sched : List (Act K Scan)) (n : Node K Scan)
    (h : exec run second (Node.new K Scan) sched = .ok n)
    (hold : ∀ e ∈ received sched, ∀ m ∈ scans sched, e.1 ≤ m.stamp + second)
    (m : ScanMsg K Scan) (hpc : n.pc = .sized m) :
    ∃ n' e, step run second n .closest = .ok n' ∧ n'.pc = .got m e ∧
      Closest (fun e => LastFor (received sched) e.1 e.2) m.stamp e := by
  obtain ⟨hstore, _⟩ := store_eq_received run second sched n h hold
  have hne := (C56_query_nonempty run second sched n h m hpc).1
  have hne' : received sched ≠ [] := by
    intro hnil
    rw [hstore, hnil] at hne
    exact hne rfl
  obtain ⟨e, he, hcl⟩ := C54_closest (received sched) hne' m.stamp
  simp only [step, hpc, hstore, he, bind, Except.bind]
  exact ⟨_, e, rfl, rfl, hcl⟩

end Node

/-! ### Concrete schedules -/

section Witness

/-- An optimiser that returns its start pose: enough to exhibit schedules. -/
noncomputable def still : Unit → Pose → Res Result := fun _ p => .ok ⟨p, .converged, 0, 0, 0, true⟩

/-- Two distinguishable poses. -/
def poseA : Pose := ⟨1, 0⟩
def poseB : Pose := ⟨1, fun _ => 1⟩

/-- Priors at 0 s and 10 s arrive, then a scan of 1 s is handled, then a scan of 10 s starts. -/
def lateSchedule : List (Act ℤ Unit) :=
  [.insert 0 poseA, .insert 10 poseB, .size ⟨1, ()⟩, .closest, .remove, .publish, .size ⟨10, ()⟩,
   .closest]

/-- The prior used for the scan of 10 s is the one of 0 s although one of exactly 10 s has been
received: handling the scan of 1 s deleted it. -/
theorem C77_violated :
    ∃ n e, exec still (1 : ℤ) (Node.new ℤ Unit) lateSchedule = .ok n ∧
      n.pc = .got ⟨10, ()⟩ e ∧ e = (0, poseA) ∧
      ¬ Closest (fun e => LastFor (received lateSchedule) e.1 e.2) (10 : ℤ) e := by
  refine ⟨_, _, rfl, rfl, rfl, ?_⟩
  intro hcl
  have h10 : LastFor (received lateSchedule) ((10 : ℤ), poseB).1 ((10 : ℤ), poseB).2 :=
    ⟨[(0, poseA)], [], rfl, by simp⟩
  have := (hcl.2 (10, poseB) h10).1
  revert this
  decide

/-- A prior more than a second newer than the scan, and no other: handling the scan is undefined
behaviour. -/
theorem C55_node_undefined_violated :
    exec still (1 : ℤ) (Node.new ℤ Unit)
      [.insert 10 poseA, .size ⟨0, ()⟩, .closest, .remove] = .error .undefinedBehaviour := rfl

/-- One prior and one scan per second. -/
def steady : ℕ → List (Act ℤ Unit)
  | 0 => []
  | k + 1 => steady k ++
      [.insert (k : ℤ) poseA, .size ⟨k, ()⟩, .closest, .remove, .publish]

theorem insert_last (s : Store ℤ Pose) (t : ℤ) (p : Pose) (h : ∀ e ∈ s, e.1 < t) :
    insert t p s = s ++ [(t, p)] := by
  induction s with
  | nil => rfl
  | cons a rest ih =>
    have ha := h a List.mem_cons_self
    unfold insert
    rw [if_neg (lt_asymm ha), if_pos ha, ih fun e he => h e (List.mem_cons_of_mem _ he)]
    rfl

theorem steady_store (k : ℕ) : ∃ n, exec still (1 : ℤ) (Node.new ℤ Unit) (steady k) = .ok n ∧
    n.pc = .idle ∧ n.store = (List.range k).map fun i : ℕ => ((i : ℤ), poseA) := by
  induction k with
  | zero => exact ⟨_, rfl, rfl, rfl⟩
  | succ k ih =>
    obtain ⟨n, hn, hpc, hst⟩ := ih
    have hs : Sorted n.store := (inv_exec still 1 (steady k) n hn).1
    have hins : insert (k : ℤ) poseA n.store = (List.range (k + 1)).map fun i : ℕ => ((i : ℤ), poseA) := by
      rw [insert_last, hst, List.range_succ, List.map_append]
      · rfl
      · intro e he
        rw [hst] at he
        obtain ⟨i, hi, rfl⟩ := List.mem_map.1 he
        exact Int.ofNat_lt.2 (List.mem_range.1 hi)
    have hs' : Sorted (insert (k : ℤ) poseA n.store) := sorted_insert hs _ _
    have hne : insert (k : ℤ) poseA n.store ≠ [] := insert_ne_nil _ _ _
    obtain ⟨e, _, hget, _⟩ := getClosest_spec hs' hne (k : ℤ)
    have hrem : removeOlderThan ((k : ℤ) + 1) (insert (k : ℤ) poseA n.store) =
        .ok (insert (k : ℤ) poseA n.store) := by
      have hle : ∀ e ∈ insert (k : ℤ) poseA n.store, e.1 ≤ (k : ℤ) + 1 := by
        intro e he
        rw [hins] at he
        obtain ⟨i, hi, rfl⟩ := List.mem_map.1 he
        have := List.mem_range.1 hi
        simp only
        omega
      rw [removeOlderThan_eq hs', if_neg, List.filter_eq_self.2]
      · intro e he
        simpa using hle e he
      · rintro ⟨_, hall⟩
        obtain ⟨e, he⟩ := List.exists_mem_of_ne_nil _ hne
        exact absurd (hle e he) (not_le.2 (hall e he))
    have hsize : ¬ size (insert (k : ℤ) poseA n.store) = 0 := by
      simpa [size] using hne
    simp only [steady, exec_append, hn, Except.bind, exec, bind, step, hpc, hsize, if_false, hget,
      hrem, Localizer.update, Localizer.init, still]
    exact ⟨_, rfl, rfl, hins⟩

/-- The store of priors is not bounded: with one prior and one scan per second, `k` seconds leave
`k` stored priors, the oldest `k - 1` seconds older than the newest scan. -/
theorem C55_unbounded_violated (k : ℕ) :
    ∃ n, exec still (1 : ℤ) (Node.new ℤ Unit) (steady k) = .ok n ∧ size n.store = k := by
  obtain ⟨n, hn, _, hst⟩ := steady_store k
  exact ⟨n, hn, by rw [hst]; simp [size]⟩

/-- A schedule in which a prior arrives in the middle of the callback, and one scan precedes all
priors: only the second scan is published, with the prior chosen before the interruption. -/
example : ∃ n, exec still (1 : ℤ) (Node.new ℤ Unit)
    [.size ⟨3, ()⟩, .closest, .remove, .publish,
     .insert 4 poseA, .size ⟨5, ()⟩, .closest, .insert 5 poseB, .remove, .publish] = .ok n ∧
    n.outputs = messages 5 poseA ∧ n.store = [(4, poseA), (5, poseB)] :=
  ⟨_, rfl, rfl, rfl⟩

/-- The hypothesis of the partial theorem on received priors holds of a schedule with two priors and
two scans. -/
example : ∀ e ∈ received [Act.insert (4 : ℤ) poseA, .size ⟨5, ()⟩, .insert 5 poseB, .size ⟨(6 : ℤ), ()⟩],
    ∀ m ∈ scans [Act.insert (4 : ℤ) poseA, .size ⟨5, ()⟩, .insert 5 poseB, .size ⟨(6 : ℤ), ()⟩],
      e.1 ≤ m.stamp + 1 := by
  simp [received, scans]

end Witness

end Verif.Store
