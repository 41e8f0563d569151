/-
C107: edge and surface clouds are paired scan by scan.
-/
import Mathlib.Tactic.Linarith
import Mathlib.Order.Monotone.Basic
import Verif.Model.Sync
import Verif.Model.Callback

set_option autoImplicit false

namespace Verif.Sync

variable {A B : Type}

/-! ### Pairs are made of messages with one stamp -/

/-- Everything waiting was received. -/
def Received (evs : List (Event A B)) (s : Pending A B) : Prop :=
  ∀ e ∈ s, (∀ a, e.2.1 = some a → Event.left e.1 a ∈ evs) ∧
    (∀ b, e.2.2 = some b → Event.right e.1 b ∈ evs)

theorem mem_upsert {t : ℤ} {f : Option A × Option B → Option A × Option B} {s : Pending A B}
    {e : ℤ × Option A × Option B} (h : e ∈ upsert t f s) :
    e ∈ s ∨ (e.1 = t ∧ (e.2 = f (none, none) ∨ ∃ x, (t, x) ∈ s ∧ e.2 = f x)) := by
  induction s with
  | nil =>
    simp only [upsert, List.mem_singleton] at h
    subst h
    exact Or.inr ⟨rfl, Or.inl rfl⟩
  | cons y ys ih =>
    simp only [upsert] at h
    split_ifs at h with h1 h2
    · rcases List.mem_cons.1 h with rfl | h
      · exact Or.inr ⟨rfl, Or.inl rfl⟩
      · exact Or.inl h
    · rcases List.mem_cons.1 h with rfl | h
      · exact Or.inl List.mem_cons_self
      · rcases ih h with h | ⟨h3, h4 | ⟨x, hx, h4⟩⟩
        · exact Or.inl (List.mem_cons_of_mem _ h)
        · exact Or.inr ⟨h3, Or.inl h4⟩
        · exact Or.inr ⟨h3, Or.inr ⟨x, List.mem_cons_of_mem _ hx, h4⟩⟩
    · have ht : y.1 = t := le_antisymm (not_lt.1 h1) (not_lt.1 h2)
      rcases List.mem_cons.1 h with rfl | h
      · exact Or.inr ⟨ht, Or.inr ⟨y.2, by rw [← ht]; exact List.mem_cons_self, rfl⟩⟩
      · exact Or.inl (List.mem_cons_of_mem _ h)

theorem mem_trim {q : ℕ} {s : Pending A B} {e : ℤ × Option A × Option B} (h : e ∈ trim q s) :
    e ∈ s := by
  unfold trim at h
  split_ifs at h
  · exact h
  · exact List.mem_of_mem_drop h

theorem lookup_mem {t : ℤ} {s : Pending A B} {x : Option A × Option B} (h : lookup t s = some x) :
    (t, x) ∈ s := by
  simp only [lookup, Option.map_eq_some_iff] at h
  obtain ⟨e, he, rfl⟩ := h
  have h1 := List.find?_some he
  simp only [decide_eq_true_eq] at h1
  rw [← h1]
  exact List.mem_of_find?_eq_some he

theorem checkTuple_received {q : ℕ} {t : ℤ} {s : Pending A B} {evs : List (Event A B)}
    (h : Received evs s) :
    (∀ c ∈ (checkTuple q t s).1, c.1 = t ∧ Event.left c.1 c.2.1 ∈ evs ∧
      Event.right c.1 c.2.2 ∈ evs) ∧ Received evs (checkTuple q t s).2 := by
  unfold checkTuple
  split
  · rename_i a b hl
    have hm := lookup_mem hl
    refine ⟨?_, fun e he => h e (List.mem_of_mem_filter (mem_trim he))⟩
    intro c hc
    simp only [List.mem_singleton] at hc
    subst hc
    exact ⟨rfl, (h _ hm).1 a rfl, (h _ hm).2 b rfl⟩
  · exact ⟨by simp, fun e he => h e (mem_trim he)⟩

theorem add_received {q : ℕ} {s : Pending A B} {evs : List (Event A B)} (e : Event A B)
    (he : e ∈ evs) (h : Received evs s) :
    (∀ c ∈ (add q s e).1, c.1 = e.stamp ∧ Event.left c.1 c.2.1 ∈ evs ∧
      Event.right c.1 c.2.2 ∈ evs) ∧ Received evs (add q s e).2 := by
  cases e with
  | left t a =>
    apply checkTuple_received
    intro x hx
    rcases mem_upsert hx with hx | ⟨h1, h2 | ⟨y, hy, h2⟩⟩
    · exact h x hx
    · rw [h2, h1]
      exact ⟨fun a' ha => (by cases ha; exact he), fun b hb => (by cases hb)⟩
    · rw [h2, h1]
      exact ⟨fun a' ha => (by cases ha; exact he), (h _ hy).2⟩
  | right t b =>
    apply checkTuple_received
    intro x hx
    rcases mem_upsert hx with hx | ⟨h1, h2 | ⟨y, hy, h2⟩⟩
    · exact h x hx
    · rw [h2, h1]
      exact ⟨fun a ha => (by cases ha), fun b' hb => (by cases hb; exact he)⟩
    · rw [h2, h1]
      exact ⟨(h _ hy).1, fun b' hb => by cases hb; exact he⟩

/-- C107, safety: whatever arrives in whatever order, and whatever the queue drops, every pair given
to the callback consists of two messages that were received with one and the same stamp. -/
theorem C107_pairs_share_stamp (q : ℕ) (evs : List (Event A B)) :
    ∀ c ∈ calls q [] evs, Event.left c.1 c.2.1 ∈ evs ∧ Event.right c.1 c.2.2 ∈ evs := by
  have key : ∀ (es : List (Event A B)) (s : Pending A B), (∀ e ∈ es, e ∈ evs) → Received evs s →
      ∀ c ∈ calls q s es, Event.left c.1 c.2.1 ∈ evs ∧ Event.right c.1 c.2.2 ∈ evs := by
    intro es
    induction es with
    | nil => intro s _ _ c hc; simp [calls] at hc
    | cons e es ih =>
      intro s hes hs c hc
      obtain ⟨h1, h2⟩ := add_received (q := q) e (hes e List.mem_cons_self) hs
      simp only [calls, List.mem_append] at hc
      rcases hc with hc | hc
      · exact (h1 c hc).2
      · exact ih _ (fun e he => hes e (List.mem_cons_of_mem _ he)) h2 c hc
  exact key evs [] (fun e he => he) (by intro e he; simp at he)

/-! ### No scan is lost and none is processed twice -/

/-- The messages of two topics that carry one message per scan, delivered in the order of a schedule:
`true` is the next message of the first topic, `false` of the second; `l` and `r` messages have
been delivered before. -/
def deliver (t : ℕ → ℤ) (a : ℕ → A) (b : ℕ → B) : ℕ → ℕ → List Bool → List (Event A B)
  | _, _, [] => []
  | l, r, true :: sched => .left (t l) (a l) :: deliver t a b (l + 1) r sched
  | l, r, false :: sched => .right (t r) (b r) :: deliver t a b l (r + 1) sched

/-- At no time one topic is more than `q` messages ahead of the other. -/
def LagAtMost (q : ℕ) : ℕ → ℕ → List Bool → Prop
  | l, r, [] => l ≤ r + q ∧ r ≤ l + q
  | l, r, true :: sched => (l ≤ r + q ∧ r ≤ l + q) ∧ LagAtMost q (l + 1) r sched
  | l, r, false :: sched => (l ≤ r + q ∧ r ≤ l + q) ∧ LagAtMost q l (r + 1) sched

theorem LagAtMost.here {q l r : ℕ} {sched : List Bool} (h : LagAtMost q l r sched) :
    l ≤ r + q ∧ r ≤ l + q := by
  cases sched with
  | nil => exact h
  | cons x xs => cases x <;> exact h.1

/-- What is waiting after `l` messages of the first and `r` of the second topic. -/
def waiting (t : ℕ → ℤ) (a : ℕ → A) (b : ℕ → B) (l r : ℕ) : Pending A B :=
  (List.range' (min l r) (max l r - min l r)).map fun i =>
    (t i, if i < l then some (a i) else none, if i < r then some (b i) else none)

theorem upsert_last {t : ℤ} {f : Option A × Option B → Option A × Option B} {s : Pending A B}
    (h : ∀ e ∈ s, e.1 < t) : upsert t f s = s ++ [(t, f (none, none))] := by
  induction s with
  | nil => rfl
  | cons y ys ih =>
    have hy := h y List.mem_cons_self
    simp only [upsert, not_lt.2 hy.le, hy, if_true, if_false, List.cons_append]
    rw [ih fun e he => h e (List.mem_cons_of_mem _ he)]

theorem lookup_last {t : ℤ} {x : Option A × Option B} {s : Pending A B} (h : ∀ e ∈ s, e.1 < t) :
    lookup t (s ++ [(t, x)]) = some x := by
  have h0 : s.find? (fun e => decide (e.1 = t)) = none := by
    rw [List.find?_eq_none]
    intro e he
    have := h e he
    simp only [decide_eq_true_eq]
    omega
  simp [lookup, List.find?_append, h0]

theorem trim_of_le {q : ℕ} {s : Pending A B} (h : s.length ≤ q) : trim q s = s := by
  unfold trim
  split_ifs
  · rfl
  · rw [Nat.sub_eq_zero_of_le h, List.drop_zero]

theorem waiting_length (t : ℕ → ℤ) (a : ℕ → A) (b : ℕ → B) (l r : ℕ) :
    (waiting t a b l r).length = max l r - min l r := by simp [waiting]

/-- The message that completes the oldest entry. -/
theorem check_head {q : ℕ} {t : ℤ} {a : A} {b : B} {s : Pending A B} (h : ∀ e ∈ s, t < e.1)
    (hq : s.length ≤ q) :
    checkTuple q t ((t, some a, some b) :: s) = ([(t, a, b)], s) := by
  have h1 : lookup t ((t, some a, some b) :: s) = some (some a, some b) := by simp [lookup]
  have h2 : s.filter (fun e => decide (t < e.1)) = s := by
    rw [List.filter_eq_self]
    intro e he
    simpa using h e he
  simp only [checkTuple, h1, List.filter_cons, lt_irrefl, decide_false, h2]
  rw [if_neg (by simp), trim_of_le hq]

theorem waiting_succ_left (t : ℕ → ℤ) (a : ℕ → A) (b : ℕ → B) (l r : ℕ) (h : r ≤ l) :
    waiting t a b (l + 1) r = waiting t a b l r ++ [(t l, some (a l), none)] := by
  unfold waiting
  rw [show min (l + 1) r = r by omega, show max (l + 1) r - r = (l - r) + 1 by omega,
    show min l r = r by omega, show max l r - r = l - r by omega, List.range'_1_concat,
    List.map_append]
  congr 1
  · apply List.map_congr_left
    intro i hi
    rw [List.mem_range'_1] at hi
    rw [if_pos (by omega), if_pos (show i < l by omega)]
  · simp only [List.map_cons, List.map_nil]
    rw [show r + (l - r) = l by omega, if_pos (by omega), if_neg (by omega)]

theorem waiting_succ_right (t : ℕ → ℤ) (a : ℕ → A) (b : ℕ → B) (l r : ℕ) (h : l ≤ r) :
    waiting t a b l (r + 1) = waiting t a b l r ++ [(t r, none, some (b r))] := by
  unfold waiting
  rw [show min l (r + 1) = l by omega, show max l (r + 1) - l = (r - l) + 1 by omega,
    show min l r = l by omega, show max l r - l = r - l by omega, List.range'_1_concat,
    List.map_append]
  congr 1
  · apply List.map_congr_left
    intro i hi
    rw [List.mem_range'_1] at hi
    rw [if_pos (show i < r + 1 by omega), if_pos (show i < r by omega)]
  · simp only [List.map_cons, List.map_nil]
    rw [show l + (r - l) = r by omega, if_neg (by omega), if_pos (by omega)]

theorem waiting_head_left (t : ℕ → ℤ) (a : ℕ → A) (b : ℕ → B) (l r : ℕ) (h : l < r) :
    waiting t a b l r = (t l, none, some (b l)) :: waiting t a b (l + 1) r := by
  unfold waiting
  rw [show min l r = l by omega, show max l r - l = (r - (l + 1)) + 1 by omega,
    show min (l + 1) r = l + 1 by omega, show max (l + 1) r - (l + 1) = r - (l + 1) by omega,
    List.range'_succ, List.map_cons, if_neg (by omega), if_pos h]
  congr 1
  apply List.map_congr_left
  intro i hi
  rw [List.mem_range'_1] at hi
  rw [if_neg (show ¬ i < l by omega), if_neg (show ¬ i < l + 1 by omega)]

theorem waiting_head_right (t : ℕ → ℤ) (a : ℕ → A) (b : ℕ → B) (l r : ℕ) (h : r < l) :
    waiting t a b l r = (t r, some (a r), none) :: waiting t a b l (r + 1) := by
  unfold waiting
  rw [show min l r = r by omega, show max l r - r = (l - (r + 1)) + 1 by omega,
    show min l (r + 1) = r + 1 by omega, show max l (r + 1) - (r + 1) = l - (r + 1) by omega,
    List.range'_succ, List.map_cons, if_pos h, if_neg (by omega)]
  congr 1
  apply List.map_congr_left
  intro i hi
  rw [List.mem_range'_1] at hi
  rw [if_neg (show ¬ i < r by omega), if_neg (show ¬ i < r + 1 by omega)]

theorem waiting_stamps {t : ℕ → ℤ} (a : ℕ → A) (b : ℕ → B) {l r : ℕ} {e : ℤ × Option A × Option B}
    (he : e ∈ waiting t a b l r) : ∃ i, min l r ≤ i ∧ i < max l r ∧ e.1 = t i := by
  unfold waiting at he
  obtain ⟨i, hi, rfl⟩ := List.mem_map.1 he
  rw [List.mem_range'_1] at hi
  exact ⟨i, hi.1, by omega, rfl⟩

/-- One message of the first topic. -/
theorem add_left {t : ℕ → ℤ} (ht : StrictMono t) (a : ℕ → A) (b : ℕ → B) {q l r : ℕ}
    (hq : l + 1 ≤ r + q) (hq' : r ≤ l + q) :
    add q (waiting t a b l r) (.left (t l) (a l)) =
      ((if l < r then [(t l, a l, b l)] else []), waiting t a b (l + 1) r) := by
  simp only [add]
  by_cases h : l < r
  · have hgt : ∀ e ∈ waiting t a b (l + 1) r, t l < e.1 := by
      intro e he
      obtain ⟨i, h1, _, h2⟩ := waiting_stamps a b he
      rw [h2]; exact ht (by omega)
    rw [waiting_head_left t a b l r h, if_pos h]
    simp only [upsert, lt_irrefl, if_false]
    exact check_head hgt (by rw [waiting_length]; omega)
  · have hlt : ∀ e ∈ waiting t a b l r, e.1 < t l := by
      intro e he
      obtain ⟨i, _, h1, h2⟩ := waiting_stamps a b he
      rw [h2]; exact ht (by omega)
    rw [upsert_last hlt, if_neg h, waiting_succ_left t a b l r (by omega)]
    simp only [checkTuple, lookup_last hlt]
    rw [trim_of_le]
    rw [List.length_append, waiting_length, List.length_singleton]
    omega

/-- One message of the second topic. -/
theorem add_right {t : ℕ → ℤ} (ht : StrictMono t) (a : ℕ → A) (b : ℕ → B) {q l r : ℕ}
    (hq : l ≤ r + q) (hq' : r + 1 ≤ l + q) :
    add q (waiting t a b l r) (.right (t r) (b r)) =
      ((if r < l then [(t r, a r, b r)] else []), waiting t a b l (r + 1)) := by
  simp only [add]
  by_cases h : r < l
  · have hgt : ∀ e ∈ waiting t a b l (r + 1), t r < e.1 := by
      intro e he
      obtain ⟨i, h1, _, h2⟩ := waiting_stamps a b he
      rw [h2]; exact ht (by omega)
    rw [waiting_head_right t a b l r h, if_pos h]
    simp only [upsert, lt_irrefl, if_false]
    exact check_head hgt (by rw [waiting_length]; omega)
  · have hlt : ∀ e ∈ waiting t a b l r, e.1 < t r := by
      intro e he
      obtain ⟨i, _, h1, h2⟩ := waiting_stamps a b he
      rw [h2]; exact ht (by omega)
    rw [upsert_last hlt, if_neg h, waiting_succ_right t a b l r (by omega)]
    simp only [checkTuple, lookup_last hlt]
    rw [trim_of_le]
    rw [List.length_append, waiting_length, List.length_singleton]
    omega

/-- The scans whose two messages are both among the delivered ones, from number `n` on. -/
def completed (t : ℕ → ℤ) (a : ℕ → A) (b : ℕ → B) (n m : ℕ) : List (ℤ × A × B) :=
  (List.range' n (m - n)).map fun i => (t i, a i, b i)

theorem calls_from {t : ℕ → ℤ} (ht : StrictMono t) (a : ℕ → A) (b : ℕ → B) {q : ℕ}
    (sched : List Bool) (l r : ℕ) (hlag : LagAtMost q l r sched) :
    calls q (waiting t a b l r) (deliver t a b l r sched) =
      completed t a b (min l r) (min (l + sched.count true) (r + sched.count false)) := by
  induction sched generalizing l r with
  | nil => simp [calls, deliver, completed]
  | cons x xs ih =>
    cases x with
    | true =>
      have h1 := hlag.1
      have h2 := hlag.2.here
      simp only [deliver, calls, add_left ht a b h2.1 h1.2]
      rw [ih (l + 1) r hlag.2]
      simp only [List.count_cons_self, List.count_cons_of_ne (show (true : Bool) ≠ false by decide)]
      rw [show l + 1 + xs.count true = l + (xs.count true + 1) by omega]
      unfold completed
      by_cases h : l < r
      · rw [if_pos h, show min l r = l by omega, show min (l + 1) r = l + 1 by omega]
        rw [show min (l + (xs.count true + 1)) (r + xs.count false) - l =
          (min (l + (xs.count true + 1)) (r + xs.count false) - (l + 1)) + 1 by omega,
          List.range'_succ, List.map_cons]
        rfl
      · rw [if_neg h, show min l r = r by omega, show min (l + 1) r = r by omega]
        rfl
    | false =>
      have h1 := hlag.1
      have h2 := hlag.2.here
      simp only [deliver, calls, add_right ht a b h1.1 h2.2]
      rw [ih l (r + 1) hlag.2]
      simp only [List.count_cons_self, List.count_cons_of_ne (show (false : Bool) ≠ true by decide)]
      rw [show r + 1 + xs.count false = r + (xs.count false + 1) by omega]
      unfold completed
      by_cases h : r < l
      · rw [if_pos h, show min l r = r by omega, show min l (r + 1) = r + 1 by omega]
        rw [show min (l + xs.count true) (r + (xs.count false + 1)) - r =
          (min (l + xs.count true) (r + (xs.count false + 1)) - (r + 1)) + 1 by omega,
          List.range'_succ, List.map_cons]
        rfl
      · rw [if_neg h, show min l r = l by omega, show min l (r + 1) = l by omega]
        rfl

/-- C107, completeness: if the stamps of the scans increase and neither topic ever gets more than `q`
messages ahead of the other, then for every interleaving of the two topics the callback is called
exactly once for every scan of which both messages have arrived, in the order of the scans, with the
two messages of that scan. -/
theorem C107_every_scan_once {t : ℕ → ℤ} (ht : StrictMono t) (a : ℕ → A) (b : ℕ → B) (q : ℕ)
    (sched : List Bool) (hlag : LagAtMost q 0 0 sched) :
    calls q [] (deliver t a b 0 0 sched) =
      (List.range (min (sched.count true) (sched.count false))).map fun i => (t i, a i, b i) := by
  have h := calls_from ht a b sched 0 0 hlag
  have h0 : waiting t a b 0 0 = [] := by simp [waiting]
  rw [h0] at h
  rw [h]
  simp [completed, List.range_eq_range']

/-- C107 for the two clouds the extraction publishes for each input cloud: their stamps agree, so the
localizer is given the two clouds extracted from one scan, for every scan, in order. -/
theorem C107_extraction_to_localization {P K : Type} [Field K] [LinearOrder K]
    (plat : Extraction.Platform K) (hp : Extraction.HyperParameters K) (geo : Extraction.Geometry P K)
    (stamp : ℕ → ℤ) (hstamp : StrictMono stamp) (cloud : ℕ → List P)
    (eff : ℕ → Extraction.CallbackEffect P)
    (heff : ∀ i, Extraction.callback plat hp geo (stamp i) true true (cloud i) = .ok (eff i))
    (sched : List Bool) (hlag : LagAtMost 10 0 0 sched) :
    calls localizationQueue [] (deliver (fun i => (eff i).edge.stamp) (fun i => (eff i).edge.points)
        (fun i => (eff i).surface.points) 0 0 sched) =
      ((List.range (min (sched.count true) (sched.count false))).map fun i =>
        (stamp i, (eff i).edge.points, (eff i).surface.points)) ∧
    (∀ i, (eff i).surface.stamp = (eff i).edge.stamp) := by
  have hst : ∀ i, (eff i).edge.stamp = stamp i ∧ (eff i).surface.stamp = stamp i := by
    intro i
    have h := heff i
    simp only [Extraction.callback, bind, Except.bind] at h
    cases hc : Extraction.extractClouds plat hp geo (cloud i) with
    | error e => rw [hc] at h; cases h
    | ok c =>
      rw [hc] at h
      simp only [pure, Except.pure, Except.ok.injEq] at h
      rw [← h]
      exact ⟨rfl, rfl⟩
  have hfun : (fun i => (eff i).edge.stamp) = stamp := funext fun i => (hst i).1
  refine ⟨?_, fun i => (hst i).2.trans (hst i).1.symm⟩
  rw [hfun]
  exact C107_every_scan_once hstamp _ _ _ _ hlag

/-- Without the bound on the lag a scan can be lost: with a queue of one, two messages of the first
topic before the first of the second. -/
theorem C107_lag_needed :
    calls 1 [] (deliver (fun i => (i : ℤ)) (fun i => i) (fun i => i) 0 0
      [true, true, false, false]) = [(1, 1, 1)] := by decide

/-! Non-vacuity: surface clouds that come late, then in a burst. -/

example : LagAtMost localizationQueue 0 0 [true, true, true, false, false, true, false] := by
  simp [LagAtMost, localizationQueue]
example : calls localizationQueue [] (deliver (fun i => 100 * (i : ℤ)) (fun i => i) (fun i => i + 7)
    0 0 [true, true, true, false, false, true, false]) = [(0, 0, 7), (100, 1, 8), (200, 2, 9)] := by
  decide

end Verif.Sync
