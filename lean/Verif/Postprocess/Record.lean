import Mathlib.Algebra.Order.Field.Basic
import Mathlib.Algebra.Order.Field.Rat
import Mathlib.Algebra.BigOperators.Group.List.Basic
import Mathlib.Data.List.Range
import Mathlib.Data.List.Nodup
import Mathlib.Tactic.Ring
import Mathlib.Tactic.NormNum
import Mathlib.Tactic.Linarith

/-! # C82, C83: which steps of a transient run are recorded

`record` (/repo/src/managers/postprocess/postprocessManager_util.hpp:15-70), the sum over the recorded times in `reportObjective`
(postprocessManager_objectives.hpp:594-630), the weights of `computeObjectiveGradState` (postprocessManager_objective_gradient.hpp:960-966,
1132-1144) and of `computeObjectiveGradParam` (ibid. 314-317), and the calls in `transientSolver`
(/repo/src/managers/solver/solverManager_solvers.hpp:62, 160-187, 256-274).

A run of `n` steps is given by the times `t 0, ..., t n`; `t k` is the time after step `k`. -/

namespace MrHyDE.Postprocess.Record

set_option linter.unusedSectionVars false

variable {K : Type} [Field K] [LinearOrder K] [IsStrictOrderedRing K]

/-- Frequency and time window of one kind of output; postprocessManager_construct.hpp:74-75, 101-105. -/
structure Window (K : Type) where
  /-- `write frequency` (or `exodus write frequency`); negative numbers are not modelled -/
  freq : Nat
  /-- `record start time` -/
  start : K
  /-- `record stop time` -/
  stop : K

/-- Whether a step is recorded; postprocessManager_util.hpp:19-22 and 38 (25-28 and 31 for Exodus).  `guard` is the constant 1e-100.  `none`: the
remainder by zero is undefined. -/
def due (guard : K) (w : Window K) (k : Nat) (t : K) : Option Bool :=
  if w.freq = 0 then none
  else some (decide (k % w.freq = 0) && decide (w.start ≤ t + guard) && decide (t - guard ≤ w.stop))

/-- The recorded steps of a run, in order: `objective_times` without the times; postprocessManager_util.hpp:38-43, postprocessManager_objectives.hpp:569-573,
solverManager_solvers.hpp:62, 160-164. -/
def recorded (guard : K) (w : Window K) (t : Nat → K) (n : Nat) : Option (List Nat) :=
  if w.freq = 0 then none
  else some ((List.range (n + 1)).filter (fun k => due guard w k (t k) == some true))

/-- Each recorded step with the one recorded before; postprocessManager_objectives.hpp:604-619. -/
def pairs (rec : List Nat) : List (Nat × Nat) := rec.zip rec.tail

/-- The value of an objective which is not of type `sensors`, `g k` being its value at step `k` summed over the processes:
a single recorded time is taken for a steady problem, otherwise the first recorded time is left out; postprocessManager_objectives.hpp:594-620. -/
def value (t g : Nat → K) (rec : List Nat) : K :=
  match rec with
  | [x] => g x
  | _ => ((pairs rec).map (fun p => (t p.2 - t p.1) * g p.2)).sum

/-- Comparison of a recorded time with the current one, relative to the latter; postprocessManager_objective_gradient.hpp:1139.  Division by zero
gives no number below the tolerance. -/
def near (tol a b : K) : Bool := decide (b ≠ 0) && decide (|a - b| / b < tol)

/-- The step size by which the derivative with respect to the state is multiplied; postprocessManager_objective_gradient.hpp:1134-1144. -/
def lookup (tol : K) (t : Nat → K) (rec : List Nat) (s : K) : K :=
  (pairs rec).foldl (fun dt p => if near tol (t p.2) s then t p.2 - t p.1 else dt) 1

/-- What the adjoint run adds for the dependence of the objective on the states, `dg k` being the derivative at step `k` in the
direction of a variation; steps are visited backwards, the order does not matter; postprocessManager_objective_gradient.hpp:960-966,
solverManager_solvers.hpp:224-274, 477. -/
def stateSum (tol : K) (w : Window K) (t dg : Nat → K) (n : Nat) (rec : List Nat) : K :=
  (((List.range n).map (· + 1)).map (fun k => if k % w.freq = 0 then lookup tol t rec (t k) * dg k else 0)).sum

/-- What the adjoint run adds for the explicit dependence on the parameters: every step with its size `d k`;
postprocessManager_objective_gradient.hpp:314-317, solverManager_solvers.hpp:269-270. -/
def explicitSum (d dg : Nat → K) (n : Nat) : K :=
  (((List.range n).map (· + 1)).map (fun k => d k * dg k)).sum

/-- The times at which the Exodus file gets a frame, given by the steps: the recorded ones, and the last if it is not a multiple
of the *other* frequency; postprocessManager_util.hpp:31-35, solverManager_solvers.hpp:164, 184-186. -/
def frames (guard : K) (exo : Window K) (freq : Nat) (t : Nat → K) (n : Nat) : Option (List Nat) :=
  if freq = 0 then none
  else (recorded guard exo t n).map (fun l => l ++ (if n % freq ≠ 0 then [n] else []))

/-! ## Lemmas -/

theorem pairs_snd (rec : List Nat) : (pairs rec).map (·.2) = rec.tail := by
  unfold pairs
  rw [List.map_snd_zip]
  simp

theorem fold_unique {α : Type} (c : α → Bool) (f : α → K) (p : α) (hp : c p = true) : ∀ (l : List α) (d : K),
    p ∈ l → (∀ x ∈ l, c x = true → f x = f p) → l.foldl (fun o x => if c x then f x else o) d = f p := by
  have stay : ∀ (l : List α), (∀ x ∈ l, c x = true → f x = f p) →
      l.foldl (fun o x => if c x then f x else o) (f p) = f p := by
    intro l
    induction l with
    | nil => intro _; rfl
    | cons a l ih =>
      intro h
      rw [List.foldl_cons]
      by_cases ha : c a = true
      · rw [if_pos ha, h a (by simp) ha]
        exact ih (fun x hx => h x (by simp [hx]))
      · rw [if_neg ha]
        exact ih (fun x hx => h x (by simp [hx]))
  intro l
  induction l with
  | nil => intro d h; simp at h
  | cons a l ih =>
    intro d hm h
    rw [List.foldl_cons]
    by_cases ha : c a = true
    · rw [if_pos ha, h a (by simp) ha]
      exact stay l (fun x hx => h x (by simp [hx]))
    · rw [if_neg ha]
      have : p ∈ l := by
        rcases List.mem_cons.mp hm with e | e
        · exact absurd (e ▸ hp) ha
        · exact e
      exact ih d this (fun x hx => h x (by simp [hx]))

theorem pairs_unique {rec : List Nat} (hn : rec.Nodup) {p q : Nat × Nat} (hp : p ∈ pairs rec) (hq : q ∈ pairs rec)
    (e : p.2 = q.2) : p = q := by
  have h2 : ((pairs rec).map (·.2)).Nodup := by
    rw [pairs_snd]
    exact hn.tail
  exact List.inj_on_of_nodup_map h2 hp hq e

theorem near_iff {tol : K} (t : Nat → K) {i j : Nat} (htol : 0 < tol) (hpos : 0 < t i)
    (hsep : i ≠ j → tol * t i ≤ |t j - t i|) : near tol (t j) (t i) = true ↔ j = i := by
  unfold near
  rw [Bool.and_eq_true, decide_eq_true_iff, decide_eq_true_iff, div_lt_iff₀ hpos]
  constructor
  · intro h
    by_contra hne
    exact absurd h.2 (not_lt.mpr (hsep (fun e => hne e.symm)))
  · intro e
    subst e
    refine ⟨hpos.ne', ?_⟩
    simp only [sub_self, abs_zero]
    exact mul_pos htol hpos

theorem lookup_pair {tol : K} (t : Nat → K) (rec : List Nat) (hn : rec.Nodup) (htol : 0 < tol)
    (hpos : ∀ k ∈ rec.tail, 0 < t k) (hsep : ∀ i ∈ rec, ∀ j ∈ rec, i ≠ j → tol * t i ≤ |t j - t i|)
    {p : Nat × Nat} (hp : p ∈ pairs rec) : lookup tol t rec (t p.2) = t p.2 - t p.1 := by
  have mem2 : ∀ q ∈ pairs rec, q.2 ∈ rec.tail := by
    intro q hq
    rw [← pairs_snd]
    exact List.mem_map_of_mem hq
  have key : ∀ q ∈ pairs rec, (near tol (t q.2) (t p.2) = true ↔ q.2 = p.2) := by
    intro q hq
    refine near_iff t htol (hpos _ (mem2 p hp)) ?_
    exact hsep _ (List.mem_of_mem_tail (mem2 p hp)) _ (List.mem_of_mem_tail (mem2 q hq))
  unfold lookup
  refine fold_unique (fun q : Nat × Nat => near tol (t q.2) (t p.2)) (fun q => t q.2 - t q.1) p ((key p hp).mpr rfl) _ _ hp ?_
  intro q hq hc
  rw [pairs_unique hn hq hp ((key q hq).mp hc)]

theorem sum_filter_ite {α : Type} (c : α → Bool) (f : α → K) (l : List α) :
    (l.map (fun x => if c x then f x else 0)).sum = ((l.filter c).map f).sum := by
  induction l with
  | nil => rfl
  | cons a l ih =>
    by_cases h : c a = true
    · rw [List.filter_cons_of_pos h, List.map_cons, List.map_cons, List.sum_cons, List.sum_cons, if_pos h, ih]
    · rw [List.filter_cons_of_neg h, List.map_cons, List.sum_cons, if_neg h, ih, zero_add]

/-- The window contains all the times of the run. [specification, no code] -/
def Covers (guard : K) (w : Window K) (t : Nat → K) (n : Nat) : Prop :=
  ∀ k ≤ n, w.start ≤ t k + guard ∧ t k - guard ≤ w.stop

theorem recorded_covers {guard : K} {w : Window K} {t : Nat → K} {n : Nat} {rec : List Nat}
    (hr : recorded guard w t n = some rec) (hc : Covers guard w t n) :
    w.freq ≠ 0 ∧ rec = 0 :: ((List.range n).map (· + 1)).filter (fun k => decide (k % w.freq = 0)) := by
  unfold recorded at hr
  by_cases h0 : w.freq = 0
  · rw [if_pos h0] at hr
    exact absurd hr (by simp)
  · rw [if_neg h0] at hr
    refine ⟨h0, ?_⟩
    rw [← Option.some.inj hr, List.range_succ_eq_map]
    have e : ∀ k ≤ n, (due guard w k (t k) == some true) = decide (k % w.freq = 0) := by
      intro k hk
      unfold due
      rw [if_neg h0]
      simp [(hc k hk).1, (hc k hk).2]
    rw [List.filter_cons_of_pos (by rw [e 0 (Nat.zero_le _)]; simp)]
    congr 1
    apply List.filter_congr
    intro k hk
    obtain ⟨j, hj, rfl⟩ := List.mem_map.mp hk
    exact e _ (by have := List.mem_range.mp hj; omega)

/-! ## C82 -/

/-- C82, partial: if the window contains the whole run, then for every write frequency the adjoint run counts the dependence on
the states exactly as the objective does, for every variation that leaves the initial state as it is.  Missing: windows which leave
out steps (`C82_window_violated`), runs at negative times (`C82_negative_times_violated`), and the explicit dependence on the
parameters for frequencies other than one (`C82_frequency_violated`). -/
theorem C82_state_partial {guard tol : K} {w : Window K} {t dg : Nat → K} {n : Nat} {rec : List Nat}
    (hr : recorded guard w t n = some rec) (hc : Covers guard w t n) (htol : 0 < tol) (hpos : ∀ k, 1 ≤ k → k ≤ n → 0 < t k)
    (hsep : ∀ i ≤ n, ∀ j ≤ n, i ≠ j → tol * t i ≤ |t j - t i|) (h0 : dg 0 = 0) :
    stateSum tol w t dg n rec = value t dg rec := by
  obtain ⟨hf, e⟩ := recorded_covers hr hc
  have hmem : ∀ k ∈ rec.tail, 1 ≤ k ∧ k ≤ n := by
    intro k hk
    rw [e, List.tail_cons] at hk
    obtain ⟨j, hj, rfl⟩ := List.mem_map.mp (List.mem_filter.mp hk).1
    have := List.mem_range.mp hj
    omega
  have hle : ∀ k ∈ rec, k ≤ n := by
    intro k hk
    rw [e] at hk
    rcases List.mem_cons.mp hk with r | r
    · omega
    · exact (hmem k (by rw [e]; exact r)).2
  have hnd : rec.Nodup := by
    have : recorded guard w t n = some ((List.range (n + 1)).filter (fun k => due guard w k (t k) == some true)) := by
      unfold recorded
      rw [if_neg hf]
    rw [this] at hr
    rw [← Option.some.inj hr]
    exact List.nodup_range.filter _
  have h1 : stateSum tol w t dg n rec = (rec.tail.map (fun k => lookup tol t rec (t k) * dg k)).sum := by
    unfold stateSum
    have := sum_filter_ite (fun k : Nat => decide (k % w.freq = 0)) (fun k => lookup tol t rec (t k) * dg k)
      ((List.range n).map (· + 1))
    simp only [decide_eq_true_eq] at this
    rw [this]
    conv_rhs => rw [e, List.tail_cons, ← e]
  have h2 : (rec.tail.map (fun k => lookup tol t rec (t k) * dg k)).sum =
      ((pairs rec).map (fun p => (t p.2 - t p.1) * dg p.2)).sum := by
    rw [← pairs_snd, List.map_map]
    congr 1
    apply List.map_congr_left
    intro p hp
    simp only [Function.comp]
    rw [lookup_pair t rec hnd htol (fun k hk => hpos k (hmem k hk).1 (hmem k hk).2)
      (fun i hi j hj => hsep i (hle i hi) j (hle j hj)) hp]
  rw [h1, h2]
  unfold value
  match rec, e with
  | [x], e =>
    have : x = 0 := (List.cons.inj e).1
    subst this
    simp [pairs, h0]
  | [], e => exact absurd e (by simp)
  | a :: b :: l, _ => rfl

/-- Five steps of size one starting at time one, every second one recorded, everything inside the window. -/
example : ∃ rec, recorded (0 : ℚ) ⟨2, 0, 10⟩ (fun k => (k : ℚ) + 1) 5 = some rec ∧ rec = [0, 2, 4] ∧
    Covers (0 : ℚ) ⟨2, 0, 10⟩ (fun k => (k : ℚ) + 1) 5 ∧
    (∀ i : Nat, i ≤ 5 → ∀ j : Nat, j ≤ 5 → i ≠ j → (1 / 100 : ℚ) * ((i : ℚ) + 1) ≤ |((j : ℚ) + 1) - ((i : ℚ) + 1)|) ∧
    stateSum (1 / 100 : ℚ) ⟨2, 0, 10⟩ (fun k => (k : ℚ) + 1) (fun k => (k : ℚ)) 5 rec = 12 := by
  refine ⟨[0, 2, 4], by decide +kernel, rfl, ?_, ?_, by decide +kernel⟩
  · intro k hk
    simp only
    have : (k : ℚ) ≤ 5 := by exact_mod_cast hk
    have : (0 : ℚ) ≤ k := by positivity
    constructor <;> linarith
  · have : ∀ i : Fin 6, ∀ j : Fin 6, i ≠ j →
        (1 / 100 : ℚ) * ((i.val : ℚ) + 1) ≤ |((j.val : ℚ) + 1) - ((i.val : ℚ) + 1)| := by decide +kernel
    intro i hi j hj hne
    exact this ⟨i, by omega⟩ ⟨j, by omega⟩ (by simpa using hne)

/-- C82, partial: at write frequency one and with a window containing the run, also the explicit dependence on the parameters is
counted as in the objective, provided the step sizes given to the adjoint run are those of the forward run. -/
theorem C82_explicit_partial {guard : K} {w : Window K} {t d dg : Nat → K} {n : Nat} {rec : List Nat}
    (hr : recorded guard w t n = some rec) (hc : Covers guard w t n) (h1 : w.freq = 1) (hn : 1 ≤ n)
    (hd : ∀ k < n, d (k + 1) = t (k + 1) - t k) : explicitSum d dg n = value t dg rec := by
  obtain ⟨_, e⟩ := recorded_covers hr hc
  have e2 : rec = List.range (n + 1) := by
    rw [e, List.range_succ_eq_map, h1]
    congr 1
    rw [List.filter_eq_self]
    intro a _
    simp [Nat.mod_one]
  have hp : pairs rec = (List.range n).map (fun k => (k, k + 1)) := by
    unfold pairs
    rw [e2]
    apply List.ext_getElem
    · simp
    · intro i h1 h2
      simp only [List.getElem_zip, List.getElem_tail, List.getElem_range, List.getElem_map]
  have hv : value t dg rec = ((pairs rec).map (fun p => (t p.2 - t p.1) * dg p.2)).sum := by
    obtain ⟨m, rfl⟩ : ∃ m, n = m + 1 := ⟨n - 1, by omega⟩
    rw [e2, List.range_succ_eq_map, List.range_succ_eq_map]
    rfl
  rw [hv, hp]
  unfold explicitSum
  rw [List.map_map, List.map_map]
  congr 1
  apply List.map_congr_left
  intro k hk
  simp only [Function.comp]
  rw [hd k (List.mem_range.mp hk)]

example : recorded (0 : ℚ) ⟨1, 0, 10⟩ (fun k => (k : ℚ) * 2) 3 = some [0, 1, 2, 3] ∧
    explicitSum (fun _ => (2 : ℚ)) (fun k => (k : ℚ)) 3 = 12 ∧ value (fun k => (k : ℚ) * 2) (fun k => (k : ℚ)) [0, 1, 2, 3] = 12 := by
  decide +kernel

/-- C82 is false with a recording window: the adjoint run adds, with weight one, steps outside the window.  Two steps of size one,
recorded from time two on. -/
theorem C82_window_violated : ∃ (w : Window ℚ) (t dg : Nat → ℚ) (rec : List Nat), recorded 0 w t 2 = some rec ∧ dg 0 = 0 ∧
    value t dg rec = 0 ∧ stateSum (1 / 100) w t dg 2 rec = 1 :=
  ⟨⟨1, 2, 10⟩, fun k => (k : ℚ) + 1, fun k => if k = 1 then 1 else 0, [1, 2], by decide +kernel, rfl, by decide +kernel,
    by decide +kernel⟩

/-- C82 is false when only every second step is recorded: the explicit dependence is counted at all steps. -/
theorem C82_frequency_violated : ∃ (w : Window ℚ) (t d dg : Nat → ℚ) (rec : List Nat), recorded 0 w t 2 = some rec ∧
    Covers 0 w t 2 ∧ (∀ k < 2, d (k + 1) = t (k + 1) - t k) ∧ value t dg rec = 0 ∧ explicitSum d dg 2 = 1 := by
  refine ⟨⟨2, 0, 10⟩, fun k => (k : ℚ), fun _ => 1, fun k => if k = 1 then 1 else 0, [0, 2], by decide +kernel, ?_, ?_,
    by decide +kernel, by decide +kernel⟩
  · intro k hk
    simp only
    have : (k : ℚ) ≤ 2 := by exact_mod_cast hk
    have : (0 : ℚ) ≤ k := by positivity
    constructor <;> linarith
  · intro k _
    simp

/-- C82 is false at negative times: the comparison is relative to the time, so every recorded time matches and the size of the last
step is used for all. -/
theorem C82_negative_times_violated : ∃ (w : Window ℚ) (t dg : Nat → ℚ) (rec : List Nat), recorded 0 w t 2 = some rec ∧
    Covers 0 w t 2 ∧ dg 0 = 0 ∧ value t dg rec = 1 ∧ stateSum (1 / 100) w t dg 2 rec = 2 := by
  refine ⟨⟨1, -10, 10⟩, fun k => if k = 0 then -4 else if k = 1 then -3 else -1, fun k => if k = 1 then 1 else 0, [0, 1, 2],
    by decide +kernel, ?_, rfl, by decide +kernel, by decide +kernel⟩
  intro k _
  simp only
  split_ifs <;> norm_num

/-- C82 is false when exactly one step is recorded: the value is not multiplied by any step size (and the initial state counts). -/
theorem C82_single_recorded (t g : Nat → K) (k : Nat) : value t g [k] = g k := rfl

/-! ## C83 -/

/-- C83, partial: with equal frequencies and the last time inside the window, the Exodus file has exactly one frame of the last
state, and before it, in order and once each, the multiples of the frequency inside the window.  Missing: different frequencies
(`C83_last_missing`, `C83_last_twice`). -/
theorem C83_partial {guard : K} {exo : Window K} {t : Nat → K} {n : Nat} {l : List Nat}
    (h : frames guard exo exo.freq t n = some l) (hw : exo.start ≤ t n + guard ∧ t n - guard ≤ exo.stop) :
    l.count n = 1 ∧ l.Pairwise (· < ·) ∧
      ∀ k < n, (k ∈ l ↔ exo.freq ∣ k ∧ exo.start ≤ t k + guard ∧ t k - guard ≤ exo.stop) := by
  unfold frames recorded at h
  by_cases h0 : exo.freq = 0
  · rw [if_pos h0] at h
    exact absurd h (by simp)
  rw [if_neg h0, if_neg h0, Option.map_some] at h
  have h := Option.some.inj h
  have ed : ∀ k, ((due guard exo k (t k) == some true) = true) ↔
      (exo.freq ∣ k ∧ exo.start ≤ t k + guard ∧ t k - guard ≤ exo.stop) := by
    intro k
    unfold due
    rw [if_neg h0]
    simp [Nat.dvd_iff_mod_eq_zero, and_assoc]
  set L := (List.range (n + 1)).filter (fun k => due guard exo k (t k) == some true) with hL
  have hLn : n ∈ L ↔ exo.freq ∣ n := by
    rw [hL, List.mem_filter, ed]
    simp [hw.1, hw.2]
  have hLs : L.Pairwise (· < ·) := List.Pairwise.filter _ List.pairwise_lt_range
  have hLk : ∀ k < n, (k ∈ L ↔ exo.freq ∣ k ∧ exo.start ≤ t k + guard ∧ t k - guard ≤ exo.stop) := by
    intro k hk
    rw [hL, List.mem_filter, ed, List.mem_range]
    constructor
    · exact fun x => x.2
    · exact fun x => ⟨by omega, x⟩
  by_cases hn : n % exo.freq = 0
  · rw [if_neg (by simpa using hn), List.append_nil] at h
    subst h
    refine ⟨?_, hLs, hLk⟩
    exact List.count_eq_one_of_mem (hLs.imp Nat.ne_of_lt) (hLn.mpr (Nat.dvd_of_mod_eq_zero hn))
  · rw [if_pos hn] at h
    have hnot : n ∉ L := fun c => hn (Nat.mod_eq_zero_of_dvd (hLn.mp c))
    have hlt : ∀ k ∈ L, k < n := by
      intro k hk
      have h1 : k < n + 1 := List.mem_range.mp (List.mem_filter.mp (hL ▸ hk)).1
      have h2 : k ≠ n := fun c => hnot (c ▸ hk)
      omega
    subst h
    refine ⟨?_, ?_, ?_⟩
    · rw [List.count_append, List.count_eq_zero_of_not_mem hnot]
      simp
    · rw [List.pairwise_append]
      refine ⟨hLs, by simp, ?_⟩
      intro a ha b hb
      rw [List.mem_singleton] at hb
      subst hb
      exact hlt a ha
    · intro k hk
      rw [List.mem_append, hLk k hk, List.mem_singleton]
      constructor
      · rintro (c | c)
        · exact c
        · omega
      · exact Or.inl

example : frames (0 : ℚ) ⟨2, 1, 10⟩ 2 (fun k => (k : ℚ)) 7 = some [2, 4, 6, 7] := by decide +kernel

/-- C83 is false for different frequencies: three steps, every second one written, and the last state is not in the file. -/
theorem C83_last_missing : frames (0 : ℚ) ⟨2, 0, 10⟩ 1 (fun k => (k : ℚ)) 3 = some [0, 2] := by decide +kernel

/-- C83 is false for different frequencies: every step written, and the last state is written twice. -/
theorem C83_last_twice : frames (0 : ℚ) ⟨1, 0, 10⟩ 2 (fun k => (k : ℚ)) 3 = some [0, 1, 2, 3, 3] := by decide +kernel

/-- A frequency of zero is undefined behaviour. -/
theorem C83_zero_frequency (guard : K) (a b : K) (t : Nat → K) (n : Nat) : recorded guard ⟨0, a, b⟩ t n = none := rfl

end MrHyDE.Postprocess.Record
