/-
C153: what a busy or a late program gets of the messages that were sent to it.
-/
import Mathlib.Data.List.Basic
import Mathlib.Data.List.Infix
import Verif.Model.History
import Verif.Model.Apps
import Verif.Model.Mapping
import Verif.Props.C54
import Verif.Props.C58

set_option autoImplicit false

namespace Verif.History

open Verif Verif.Launch

variable {M : Type}

/-! ### Specification -/

/-- The messages that arrive in the course of events, in their order. -/
def arrivals : List (Event M) → List M
  | [] => []
  | .arrive m :: es => m :: arrivals es
  | .take :: es => arrivals es

/-- A subscription that has just been made. -/
def fresh : Reader M := ⟨[], []⟩

/-- What is not lost: the messages handled and those that will be. -/
def Reader.seen (r : Reader M) : List M := r.handled ++ r.waiting

/-! ### Lemmas -/

theorem arrivals_append (a b : List (Event M)) : arrivals (a ++ b) = arrivals a ++ arrivals b := by
  induction a with
  | nil => rfl
  | cons e a ih => cases e <;> simp [arrivals, ih]

theorem arrivals_map (ms : List M) : arrivals (ms.map Event.arrive) = ms := by
  induction ms with
  | nil => rfl
  | cons m ms ih => simp [arrivals, ih]

theorem arrivals_takes (n : ℕ) : arrivals (List.replicate n (Event.take : Event M)) = [] := by
  induction n with
  | zero => rfl
  | succ n ih => simpa [List.replicate_succ, arrivals] using ih

theorem run_append (d : Option ℕ) (r : Reader M) (a b : List (Event M)) :
    run d r (a ++ b) = run d (run d r a) b := by simp [run]

theorem keep_sublist (d : Option ℕ) (l : List M) : (keep d l).Sublist l := by
  cases d with
  | none => exact List.Sublist.refl _
  | some d => exact List.drop_sublist _ _

theorem keep_of_le {d : ℕ} {l : List M} (h : l.length ≤ d) : keep (some d) l = l := by
  rw [keep, Nat.sub_eq_zero_of_le h, List.drop_zero]

theorem keep_length (d : ℕ) (l : List M) : (keep (some d) l).length = min l.length d := by
  rw [keep, List.length_drop]; omega

theorem step_take_seen (d : Option ℕ) (r : Reader M) : (step d r .take).seen = r.seen := by
  rcases r with ⟨_ | ⟨m, w⟩, h⟩ <;> simp [step, Reader.seen]

theorem seen_sublist (d : Option ℕ) (es : List (Event M)) : ∀ r : Reader M,
    (run d r es).seen.Sublist (r.seen ++ arrivals es) := by
  induction es with
  | nil => intro r; simp [run, arrivals]
  | cons e es ih =>
    intro r
    cases e with
    | take =>
      have := ih (step d r .take)
      rwa [step_take_seen] at this
    | arrive m =>
      refine (ih (step d r (.arrive m))).trans ?_
      have h : (step d r (.arrive m)).seen.Sublist (r.seen ++ [m]) := by
        simp only [Reader.seen, step, List.append_assoc]
        exact (List.Sublist.refl _).append (keep_sublist d _)
      have := h.append (List.Sublist.refl (arrivals es))
      simpa [arrivals] using this

theorem keep_keep (d : ℕ) (a b : List M) : keep (some d) (keep (some d) a ++ b) = keep (some d) (a ++ b) := by
  rcases le_total a.length d with h | h
  · rw [keep_of_le h]
  · simp only [keep, List.length_append, List.length_drop]
    rw [← List.drop_append_of_le_length (Nat.sub_le _ _), List.drop_drop]
    congr 1
    omega

theorem burst (d : ℕ) (ms : List M) : ∀ r : Reader M, r.waiting.length ≤ d →
    run (some d) r (ms.map Event.arrive) = ⟨keep (some d) (r.waiting ++ ms), r.handled⟩ := by
  induction ms with
  | nil => intro r h; simp [run, keep_of_le h]
  | cons m ms ih =>
    intro r h
    have hl : (step (some d) r (.arrive m)).waiting.length ≤ d := by
      simp only [step, keep_length]; omega
    have h2 : run (some d) r ((m :: ms).map Event.arrive) =
        run (some d) (step (some d) r (.arrive m)) (ms.map Event.arrive) := rfl
    rw [h2, ih _ hl]
    simp only [step, keep_keep, List.append_assoc, List.singleton_append]

theorem takes (d : Option ℕ) (n : ℕ) : ∀ r : Reader M,
    run d r (List.replicate n .take) = ⟨r.waiting.drop n, r.handled ++ r.waiting.take n⟩ := by
  induction n with
  | zero => intro r; simp [run]
  | succ n ih =>
    intro r
    have h2 : run d r (List.replicate (n + 1) .take) = run d (step d r .take) (List.replicate n .take) := rfl
    rw [h2, ih]
    rcases r with ⟨_ | ⟨m, w⟩, h⟩ <;> simp [step]

theorem run_none_seen (es : List (Event M)) : ∀ r : Reader M, (run none r es).seen = r.seen ++ arrivals es := by
  induction es with
  | nil => intro r; simp [run, arrivals]
  | cons e es ih =>
    intro r
    have h2 : run none r (e :: es) = run none (step none r e) es := rfl
    rw [h2, ih]
    cases e with
    | take => rw [step_take_seen]; rfl
    | arrive m => simp [step, Reader.seen, keep, arrivals]

theorem waiting_le (d : ℕ) (es : List (Event M)) : ∀ r : Reader M, r.waiting.length ≤ d →
    (run (some d) r es).waiting.length ≤ d := by
  induction es with
  | nil => intro r h; exact h
  | cons e es ih =>
    intro r h
    refine ih _ ?_
    cases e with
    | take => rcases r with ⟨_ | ⟨m, w⟩, _⟩ <;> simp [step] at h ⊢; omega
    | arrive m => simp only [step, keep_length]; omega

theorem seen_length (d : Option ℕ) (es : List (Event M)) :
    (run d fresh es).seen.length ≤ (arrivals es).length := by
  simpa [Reader.seen, fresh] using (seen_sublist d es fresh).length_le

theorem slack (d : ℕ) (es : List (Event M)) :
    (∀ p, p <+: es → (run none (fresh : Reader M) p).waiting.length ≤ d) →
      run (some d) fresh es = run none fresh es := by
  induction es using List.reverseRecOn with
  | nil => intro _; rfl
  | append_singleton es e ih =>
    intro h
    have h1 := ih fun p hp => h p (hp.trans (List.prefix_append _ _))
    have h2 := h _ (List.prefix_refl _)
    rw [run_append, run_append, h1]
    rw [run_append] at h2
    cases e with
    | take => rfl
    | arrive m =>
      simp only [run, List.foldl_cons, List.foldl_nil, step, keep] at h2 ⊢
      rw [Nat.sub_eq_zero_of_le h2, List.drop_zero]

/-! ### C153 -/

/-- C153, order: whatever the depth and whenever the callback runs, it is called with messages that
arrived, in the order in which they arrived and not twice with one. -/
theorem C153_order (d : Option ℕ) (es : List (Event M)) :
    (run d fresh es).handled.Sublist (arrivals es) := by
  have := seen_sublist d es fresh
  simp only [Reader.seen, fresh, List.nil_append] at this
  exact (List.sublist_append_left _ _).trans this

/-- C153, newest: the newest message is never the one that is lost, and of those that were not handled yet
at most `d` wait. -/
theorem C153_newest (d : ℕ) (hd : 0 < d) (es : List (Event M)) :
    (run (some d) fresh es).seen.getLast? = (arrivals es).getLast? ∧
      (run (some d) (fresh : Reader M) es).waiting.length ≤ d := by
  refine ⟨?_, waiting_le d es _ (by simp [fresh])⟩
  induction es using List.reverseRecOn with
  | nil => rfl
  | append_singleton es e ih =>
    rw [run_append, arrivals_append]
    cases e with
    | take =>
      have h2 : run (some d) (run (some d) fresh es) [Event.take] = step (some d) (run (some d) fresh es) .take := rfl
      rw [h2, step_take_seen, ih]
      simp [arrivals]
    | arrive m =>
      simp only [run, List.foldl_cons, List.foldl_nil, step, arrivals, Reader.seen]
      rw [keep, List.drop_append_of_le_length (by simp; omega), ← List.append_assoc]
      simp

/-- C153, exactly when: a subscription of depth `d` loses nothing if and only if at no time more than `d`
messages would wait at one that keeps all; and then it does the same as that one. -/
theorem C153_lossless_partial (d : ℕ) (es : List (Event M)) :
    ((run (some d) fresh es).seen = arrivals es ↔
      ∀ p, p <+: es → (run none (fresh : Reader M) p).waiting.length ≤ d) ∧
    ((run (some d) fresh es).seen = arrivals es → run (some d) fresh es = run none fresh es) := by
  have key : (run (some d) fresh es).seen = arrivals es →
      ∀ p, p <+: es → (run none (fresh : Reader M) p).waiting.length ≤ d := by
    induction es using List.reverseRecOn with
    | nil =>
      intro _ p hp
      rw [List.prefix_nil.1 hp]
      simp [run, fresh]
    | append_singleton es e ih =>
      intro h p hp
      rw [run_append, arrivals_append] at h
      have hlen := seen_length (some d) es
      cases e with
      | take =>
        have h2 : run (some d) (run (some d) fresh es) [Event.take] =
            step (some d) (run (some d) fresh es) .take := rfl
        rw [h2, step_take_seen, show arrivals [(Event.take : Event M)] = [] from rfl, List.append_nil] at h
        have hb := ih h
        rcases List.prefix_concat_iff.1 hp with rfl | hp
        · rw [run_append, ← slack d es hb]
          have h3 : run none (run (some d) fresh es) [Event.take] =
            run (some d) (run (some d) fresh es) [Event.take] := rfl
          rw [h3, ← run_append]
          exact waiting_le d _ _ (by simp [fresh])
        · exact hb p hp
      | arrive m =>
        have hw : (run (some d) fresh es).waiting.length + 1 ≤ d := by
          by_contra hcon
          have h3 := congrArg List.length h
          simp only [run, List.foldl_cons, List.foldl_nil, step, Reader.seen, List.length_append, arrivals,
            List.length_cons, List.length_nil] at h3
          simp only [Reader.seen, List.length_append, run] at hlen
          simp only [run] at hcon
          rw [keep_length] at h3
          simp only [List.length_append, List.length_cons, List.length_nil] at h3
          omega
        have h4 : (run (some d) fresh es).seen = arrivals es := by
          simp only [run, List.foldl_cons, List.foldl_nil, step, Reader.seen, arrivals] at h
          simp only [run] at hw
          rw [keep_of_le (by simpa using hw), ← List.append_assoc] at h
          exact (List.append_inj' h rfl).1
        have hb := ih h4
        rcases List.prefix_concat_iff.1 hp with rfl | hp
        · rw [run_append, ← slack d es hb]
          simpa [run, step, keep] using hw
        · exact hb p hp
  refine ⟨⟨key, fun h => ?_⟩, fun h => slack d es (key h)⟩
  rw [slack d es h, run_none_seen]
  rfl

/-- C153, the subscriptions that keep all: every cloud that the extraction sends is handed to the
synchroniser of the localizer in the end, every pose to the path generator and every cloud of the sensor
that arrives to the converter, however long their callbacks take. -/
theorem C153_keep_all (s : Endpoint)
    (hs : s ∈ localization.subscriptions ∧ s.type = .pointCloud2 ∨ s ∈ pathGenerator.subscriptions ∨
      s ∈ converter.subscriptions) (es : List (Event M)) (n : ℕ) (hn : (arrivals es).length ≤ n) :
    (run s.depth fresh (es ++ List.replicate n .take)).handled = arrivals es := by
  have hd : s.depth = none := by
    have key : (∀ s ∈ localization.subscriptions, s.type = .pointCloud2 → s.depth = none) ∧
      (∀ s ∈ pathGenerator.subscriptions, s.depth = none) ∧ ∀ s ∈ converter.subscriptions, s.depth = none := by
      decide
    rcases hs with hs | hs | hs
    · exact key.1 s hs.1 hs.2
    · exact key.2.1 s hs
    · exact key.2.2 s hs
  rw [hd, run_append, takes]
  have h1 := run_none_seen es (fresh : Reader M)
  simp only [Reader.seen, fresh, List.nil_append] at h1
  have h2 := congrArg List.length h1
  simp only [List.length_append] at h2
  simp only [fresh]
  rw [List.take_of_length_le (by omega), h1]

/-- The general form of the loss: if, from any state in which none waits, the messages `lost ++ rest` arrive
while a callback runs, and `rest` are `d`, no one of `lost` is handled whatever happens afterwards: all that is
ever handled comes from before, `rest` and after. -/
theorem lost_burst (d : ℕ) (r : Reader M) (hr : r.waiting = []) (lost rest : List M) (hrest : rest.length = d)
    (es : List (Event M)) :
    (run (some d) r ((lost ++ rest).map Event.arrive ++ es)).seen.Sublist (r.handled ++ rest ++ arrivals es) := by
  rw [run_append, burst d _ r (by simp [hr]), hr, List.nil_append, keep, List.length_append, hrest,
    Nat.add_sub_cancel, List.drop_left]
  exact seen_sublist (some d) es ⟨rest, r.handled⟩

/-- The claim is false of the extraction, the mapping program and the localizer's priors: of the messages that
arrive while one callback runs, all but the newest five are lost. -/
theorem C153_five_violated (s : Endpoint)
    (hs : s ∈ extraction.subscriptions ++ mapping.subscriptions ∨
      s ∈ localization.subscriptions ∧ s.type ≠ .pointCloud2)
    (r : Reader M) (hr : r.waiting = []) (lost rest : List M) (hrest : rest.length = 5) (es : List (Event M)) :
    (run s.depth r ((lost ++ rest).map Event.arrive ++ es)).seen.Sublist (r.handled ++ rest ++ arrivals es) := by
  have key : (∀ s ∈ extraction.subscriptions ++ mapping.subscriptions, s.depth = some 5) ∧
      ∀ s ∈ localization.subscriptions, s.type ≠ .pointCloud2 → s.depth = some 5 := by decide
  rw [show s.depth = some 5 from hs.elim (key.1 s) fun h => key.2 s h.1 h.2]
  exact lost_burst 5 r hr lost rest hrest es

/-- And false of the filter node: while its timer or any other callback runs, all but the newest message of
each of its topics are lost, initial poses included. -/
theorem C153_one_violated (s : Endpoint) (hs : s ∈ ekfLocalizer.subscriptions)
    (r : Reader M) (hr : r.waiting = []) (lost : List M) (m : M) (es : List (Event M)) :
    (run s.depth r ((lost ++ [m]).map Event.arrive ++ es)).seen.Sublist (r.handled ++ [m] ++ arrivals es) := by
  have key : ∀ s ∈ ekfLocalizer.subscriptions, s.depth = some 1 := by decide
  rw [key s hs]
  exact lost_burst 1 r hr lost [m] rfl es

section Priors

variable {K V : Type} [CommRing K] [LinearOrder K] [IsStrictOrderedRing K]

/-- What it means for the localizer: if six or more priors arrive while a scan is aligned, a scan taken at the
time of the first of them is not started from it, though its cloud, which is kept, is handled after all of them
arrived; the store of all the priors sent would have given exactly this one. -/
theorem C153_prior_violated (s : Endpoint) (hs : s ∈ localization.subscriptions) (ht : s.type = .odometry)
    (r : Reader (K × V)) (hr : r.waiting = []) (prior : K × V) (rest : List (K × V)) (hrest : 5 ≤ rest.length)
    (hne : ∀ e ∈ r.handled ++ rest, e.1 ≠ prior.1) (n : ℕ) (e : K × V)
    (he : Store.getClosest prior.1 (Store.build
      (run s.depth r ((prior :: rest).map Event.arrive ++ List.replicate n .take)).handled) = .ok e) :
    e.1 ≠ prior.1 ∧
      Store.getClosest prior.1 (Store.build (r.handled ++ prior :: rest)) = .ok prior := by
  constructor
  · have hsub := C153_five_violated s (Or.inr ⟨hs, by rw [ht]; decide⟩) r hr
      (prior :: rest.take (rest.length - 5)) (rest.drop (rest.length - 5))
      (by rw [List.length_drop]; omega) (List.replicate n Event.take)
    rw [List.cons_append, List.take_append_drop] at hsub
    rw [arrivals_takes, List.append_nil] at hsub
    have hh := (List.sublist_append_left _ _).trans hsub
    by_cases hnil : (run s.depth r ((prior :: rest).map Event.arrive ++ List.replicate n .take)).handled = []
    · rw [hnil, Store.build, List.foldl_nil, Store.C54_empty] at he
      cases he
    · obtain ⟨e', h1, h2, -⟩ := Store.C54_closest _ hnil prior.1
      rw [he] at h1
      cases h1
      obtain ⟨pre, post, heq, -⟩ := h2
      have hmem : (e.1, e.2) ∈ r.handled ++ rest.drop (rest.length - 5) := hh.subset (by rw [heq]; simp)
      refine hne e ?_
      rcases List.mem_append.1 hmem with h | h
      · exact List.mem_append.2 (Or.inl h)
      · exact List.mem_append.2 (Or.inr (List.mem_of_mem_drop h))
  · obtain ⟨e', h1, h2⟩ := Store.C54_closest (r.handled ++ prior :: rest) (by simp) prior.1
    rw [h1]
    obtain ⟨h3, h4⟩ := h2
    have hp : Store.LastFor (r.handled ++ prior :: rest) prior.1 prior.2 :=
      ⟨r.handled, rest, rfl, fun e he => hne e (List.mem_append_right _ he)⟩
    have h5 := (h4 prior hp).1
    rw [sub_self, abs_zero, abs_nonpos_iff, sub_eq_zero] at h5
    obtain ⟨pre, post, heq, -⟩ := h3
    have hmem : e' ∈ r.handled ++ prior :: rest := by rw [heq]; simp
    rcases List.mem_append.1 hmem with h | h
    · exact absurd h5.symm (hne e' (List.mem_append_left _ h))
    · rcases List.mem_cons.1 h with rfl | h
      · rfl
      · exact absurd h5.symm (hne e' (List.mem_append_right _ h))

end Priors

/-! ### Late readers -/

/-- C153, late readers of a map: the map loader publishes once, when it starts; a reader that asks for stored
messages gets the map whenever it starts, and exactly once. -/
theorem C153_late_map {P : Type} (fs : Apps.Fs P) (name : String) (msgs : List (Apps.MapMsg P))
    (h : Apps.mapLoader fs name = .ok msgs) (p : Endpoint) (hp : p ∈ mapLoader.publishers) (s : Endpoint)
    (hs : s.transientLocal = true) (hd : s.depth ≠ some 0) :
    late p s msgs = [Apps.loadMap fs name] := by
  have key : ∀ p ∈ mapLoader.publishers, p.transientLocal = true ∧ p.depth = some 5 := by decide
  have hm : msgs = [Apps.loadMap fs name] := by
    unfold Apps.mapLoader at h
    split at h
    · cases h
    · cases h; rfl
  rw [late, (key p hp).1, (key p hp).2, hs, hm]
  rcases s with ⟨_, _, _, _, _ | _ | d⟩
  · rfl
  · exact absurd rfl hd
  · simp [keep]

/-- The generator of the map's transform and the two views ask for stored messages. -/
theorem C153_late_map_readers (s : Endpoint)
    (hs : s ∈ mapTfGenerator.subscriptions ∨
      s ∈ rvizLocalization.subscriptions ++ rvizDebug.subscriptions ∧
        s.topic ∈ [abs "edge_map", abs "surface_map"]) :
    s.transientLocal = true ∧ s.depth ≠ some 0 := by
  have key : (∀ s ∈ mapTfGenerator.subscriptions, s.transientLocal = true ∧ s.depth ≠ some 0) ∧
      ∀ s ∈ rvizLocalization.subscriptions ++ rvizDebug.subscriptions,
        s.topic ∈ [abs "edge_map", abs "surface_map"] → s.transientLocal = true ∧ s.depth ≠ some 0 := by decide
  exact hs.elim (key.1 s) fun h => key.2 s h.1 h.2

theorem keep_getLast? (d : Option ℕ) (hd : d ≠ some 0) (l : List M) : (keep d l).getLast? = l.getLast? := by
  rcases List.eq_nil_or_concat l with rfl | ⟨l, m, rfl⟩
  · rcases d with _ | d <;> simp [keep]
  · rcases d with _ | _ | d
    · rfl
    · exact absurd rfl hd
    · rw [List.concat_eq_append, keep, List.drop_append_of_le_length (by simp)]
      simp

/-- C153, late readers of the path: of a reader that asks for stored messages, the last message it gets at its
start holds all the poses that were ever received. -/
theorem C153_late_path {H Q : Type} (default : H) (msgs : List (H × Q)) (last : H × Q) (p : Endpoint)
    (hp : p ∈ pathGenerator.publishers) (s : Endpoint) (hs : s.transientLocal = true) (hd : s.depth ≠ some 0) :
    (late p s ((msgs ++ [last]).foldl (fun g m => g.publish m.1 m.2)
      (Mapping.PathGenerator.new default)).published).getLast? = some ⟨last.1, msgs ++ [last]⟩ := by
  have key : ∀ p ∈ pathGenerator.publishers, p.transientLocal = true ∧ p.depth ≠ some 0 := by decide
  rw [late, (key p hp).1, hs]
  simp only [Bool.and_self, if_true]
  rw [keep_getLast? _ hd, keep_getLast? _ (key p hp).2]
  exact (Mapping.C60_path default msgs last).1

/-- All other messages are lost on a program that starts after they were published; in particular clouds, poses
and odometry, whatever the reader asks for, and the path on the debug view, which does not ask for stored ones. -/
theorem C153_late_violated (p s : Endpoint)
    (h : p ∈ converter.publishers ++ extraction.publishers ++ localization.publishers ++ ekfLocalizer.publishers ∨
      s ∈ rvizDebug.subscriptions ∧ s.type = .path) (published : List M) :
    late p s published = [] := by
  have key : (∀ p ∈ converter.publishers ++ extraction.publishers ++ localization.publishers ++
      ekfLocalizer.publishers, p.transientLocal = false) ∧
      ∀ s ∈ rvizDebug.subscriptions, s.type = .path → s.transientLocal = false := by decide
  rcases h with h | h
  · simp [late, key.1 p h]
  · simp [late, key.2 s h.1 h.2]

/-! Non-vacuity. -/

/-- Six clouds arrive while the extraction works on one; the first is lost. With a callback between them none is. -/
example : (run (some 5) fresh ([0].map Event.arrive ++ [.take] ++ [1, 2, 3, 4, 5, 6].map Event.arrive ++
    List.replicate 9 Event.take)).handled = [0, 2, 3, 4, 5, 6] ∧
    (run (some 5) fresh ([0].map Event.arrive ++ [.take] ++ [1, 2, 3].map Event.arrive ++ [.take] ++
      [4, 5, 6].map Event.arrive ++ List.replicate 9 Event.take)).handled = [0, 1, 2, 3, 4, 5, 6] := by decide

/-- Priors at the times 1 to 6 arrive during one alignment, after one at the time 0: the scan of the time 1 gets
the prior of the time 2. -/
example : Store.getClosest (1 : ℤ) (Store.build (run (some 5) (⟨[], [(-1, 'a')]⟩ : Reader (ℤ × Char))
    ([(1, 'b'), (2, 'c'), (3, 'd'), (4, 'e'), (5, 'f'), (6, 'g')].map Event.arrive ++
      List.replicate 6 .take)).handled) = .ok (2, 'c') := by decide

/-- The hypotheses of `C153_keep_all`, `C153_five_violated` and `C153_one_violated` hold of subscriptions there are. -/
example : (∃ s ∈ localization.subscriptions, s.type = .pointCloud2) ∧ extraction.subscriptions ≠ [] ∧
    mapping.subscriptions ≠ [] ∧ ekfLocalizer.subscriptions.length = 3 ∧
    (∃ s ∈ localization.subscriptions, s.type = .odometry) ∧ (∃ s ∈ rvizDebug.subscriptions, s.type = .path) := by
  decide

example (fs : Apps.Fs Unit) : ∃ msgs, Apps.mapLoader fs "maps/edge.pcd" = .ok msgs := ⟨_, rfl⟩

end Verif.History
