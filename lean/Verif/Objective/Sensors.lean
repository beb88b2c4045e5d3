import Verif.Objective.Lemmas
import Mathlib.Algebra.Ring.Rat
import Mathlib.Algebra.Order.Ring.Rat
import Mathlib.Data.List.Nodup
import Mathlib.Tactic.NormNum

/-! # C74: measurements at sensors

Matching of times in `computeObjective` (/repo/src/managers/postprocess/postprocessManager_objectives.hpp:290-310, 428-436) and in
`computeObjectiveGradParam` (postprocessManager_objective_gradient.hpp:540-553, 673-681).  In the adjoint run the latter is
called with the time at the beginning of the step (/repo/src/managers/solver/solverManager_solvers.hpp:256-274, 1534 of
objective_gradient.hpp) and the state at its end. -/

namespace MrHyDE.Objective.Sensors

variable {K : Type} [CommRing K]

/-- `foundtime` and `tindex`: the last measurement time near the current time; postprocessManager_objectives.hpp:292-303.  `near a b`:
`abs(a - b) < 1e-12`. -/
def matched (near : K → K → Bool) (times : List K) (t : K) : Option Nat :=
  ((times.zip (List.range times.length)).foldl (fun o x => if near t x.1 then some x.2 else o) none)

/-- What one sensor adds at one time; postprocessManager_objectives.hpp:305, 428-436: with `compute responses` the sensor is evaluated at all times
and `tindex` is zero unless found. -/
def term (near : K → K → Bool) (resp : Bool) (w : K) (times data : List K) (t r : K) : K :=
  match matched near times t with
  | some j => w * (r - data.getD j 0) * (r - data.getD j 0)
  | none => if resp then w * (r - data.getD 0 0) * (r - data.getD 0 0) else 0

/-- One sensor over a run, given by times and responses; the initial time does not count; postprocessManager_objectives.hpp:603-624. -/
def total (near : K → K → Bool) (resp : Bool) (w : K) (times data : List K) (run : List (K × K)) : K :=
  (run.drop 1).foldl (fun s x => s + term near resp w times data x.1 x.2) 0

/-- Explicit derivative over a run: the response and its derivative at the end of each step, the data of the time at its
beginning; postprocessManager_objective_gradient.hpp:540-553, 673-681, solverManager_solvers.hpp:258-274. -/
def explicit (near : K → K → Bool) (resp : Bool) (w : K) (times data : List K) : List (K × K × K) → K
  | x :: y :: t =>
    (match matched near times x.1 with
      | some j => 2 * w * (y.2.1 - data.getD j 0) * y.2.2
      | none => if resp then 2 * w * (y.2.1 - data.getD 0 0) * y.2.2 else 0) + explicit near resp w times data (y :: t)
  | _ => 0

/-- The wanted value: every step (after the initial time) with every measurement made at its time. [specification, no code] -/
def wanted (near : K → K → Bool) (w : K) (times data : List K) (run : List (K × K)) : K :=
  ((run.drop 1).map (fun x =>
    (((List.range times.length).filter (fun j => near x.1 (times.getD j 0))).map (fun j => w * (x.2 - data.getD j 0) ^ 2)).sum)).sum

/-- The wanted explicit derivative. [specification, no code] -/
def wantedSlope (near : K → K → Bool) (w : K) (times data : List K) (run : List (K × K × K)) : K :=
  ((run.drop 1).map (fun x =>
    (((List.range times.length).filter (fun j => near x.1 (times.getD j 0))).map
      (fun j => 2 * w * (x.2.1 - data.getD j 0) * x.2.2)).sum)).sum

theorem matched_fold (near : K → K → Bool) (t : K) : ∀ (l : List (K × Nat)) (o : Option Nat),
    l.foldl (fun o x => if near t x.1 then some x.2 else o) o =
      match (l.filter (fun x => near t x.1)).getLast? with
      | some x => some x.2
      | none => o := by
  intro l
  induction l with
  | nil => intro o; rfl
  | cons a l ih =>
    intro o
    rw [List.foldl_cons, ih]
    by_cases ha : near t a.1 = true
    · rw [if_pos ha, List.filter_cons_of_pos (by simpa using ha), List.getLast?_cons]
      cases (l.filter (fun x => near t x.1)).getLast? <;> rfl
    · rw [if_neg ha, List.filter_cons_of_neg (by simpa using ha)]

theorem filter_range (near : K → K → Bool) (times : List K) (t : K) :
    (List.range times.length).filter (fun j => near t (times.getD j 0)) =
      ((times.zip (List.range times.length)).filter (fun x => near t x.1)).map (·.2) := by
  have h : times.zip (List.range times.length) = (List.range times.length).map (fun j => (times.getD j 0, j)) := by
    apply List.ext_getElem
    · simp
    · intro i h1 h2
      simp only [List.getElem_zip, List.getElem_range, List.getElem_map]
      rw [List.getD_eq_getElem?_getD, List.getElem?_eq_getElem (by simpa using h2), Option.getD_some]
  rw [h, List.filter_map, List.map_map]
  simp [Function.comp_def]

/-- At most one measurement time is near any time. [specification, no code] -/
def Separated (near : K → K → Bool) (times : List K) : Prop :=
  ∀ t i j, i < times.length → j < times.length → near t (times.getD i 0) = true → near t (times.getD j 0) = true → i = j

theorem matched_some (near : K → K → Bool) (times : List K) (hs : Separated near times) (t : K) :
    (List.range times.length).filter (fun j => near t (times.getD j 0)) =
      match matched near times t with
      | some j => [j]
      | none => [] := by
  unfold matched
  rw [matched_fold]
  have hf := filter_range near times t
  generalize hL : ((times.zip (List.range times.length)).filter (fun x => near t x.1)) = L at hf ⊢
  have hnd : (L.map (·.2)).Nodup := by rw [← hf]; exact List.nodup_range.filter _
  match L, hf, hnd with
  | [], hf, _ => rw [hf]; rfl
  | [a], hf, _ => rw [hf]; rfl
  | a :: b :: l, hf, hnd =>
    exfalso
    have ha : a.2 ∈ (List.range times.length).filter (fun j => near t (times.getD j 0)) := by rw [hf]; simp
    have hb : b.2 ∈ (List.range times.length).filter (fun j => near t (times.getD j 0)) := by rw [hf]; simp
    rw [List.mem_filter, List.mem_range] at ha hb
    have := hs t a.2 b.2 ha.1 hb.1 ha.2 hb.2
    simp only [List.map_cons, List.nodup_cons, List.mem_cons, not_or] at hnd
    exact hnd.1.1 this

/-- C74, partial: without `compute responses`, each measurement enters at the steps at its time, and no other.  Missing: runs
with `compute responses` (`C74_responses_add_first_data`), measurements at the initial time or between the times of the
steps (`C74_silent`), and the explicit derivative (`C74_derivative_shifted`). -/
theorem C74_measurements_partial (near : K → K → Bool) (w : K) (times data : List K) (hs : Separated near times)
    (run : List (K × K)) : total near false w times data run = wanted near w times data run := by
  unfold total wanted
  rw [foldl_add (fun x : K × K => term near false w times data x.1 x.2), zero_add]
  congr 1
  apply List.map_congr_left
  intro x _
  rw [matched_some near times hs x.1]
  unfold term
  cases matched near times x.1 with
  | none => simp
  | some j => simp; ring

/-- C74 is false with `compute responses`: at a time without measurement the first measurement is compared. -/
theorem C74_responses_add_first_data (near : K → K → Bool) (w : K) (times data : List K) (t r : K)
    (h : ∀ s ∈ times, near t s = false) : term near true w times data t r = w * (r - data.getD 0 0) ^ 2 := by
  have : matched near times t = none := by
    unfold matched
    rw [matched_fold]
    have : (times.zip (List.range times.length)).filter (fun x => near t x.1) = [] := by
      rw [List.filter_eq_nil_iff]
      intro x hx
      rw [h x.1 (List.of_mem_zip hx).1]
      simp
    rw [this]
    rfl
  unfold term
  rw [this]
  simp only [if_true]
  ring

/-- A measurement away from the times of all steps is silently ignored: its value does not matter. -/
theorem C74_silent (near : K → K → Bool) (w : K) (times data data' : List K) (hs : Separated near times) (run : List (K × K)) (i : Nat)
    (hd : ∀ j, j ≠ i → data.getD j 0 = data'.getD j 0)
    (hn : ∀ x ∈ run.drop 1, near x.1 (times.getD i 0) = false) :
    total near false w times data run = total near false w times data' run := by
  rw [C74_measurements_partial near w times data hs, C74_measurements_partial near w times data' hs]
  unfold wanted
  congr 1
  apply List.map_congr_left
  intro x hx
  congr 1
  apply List.map_congr_left
  intro j hj
  rw [List.mem_filter] at hj
  have : j ≠ i := by
    intro h
    rw [h, hn x hx] at hj
    exact absurd hj.2 (by simp)
  rw [hd j this]

/-- Times are near if equal. [case] -/
def exNear (a b : ℚ) : Bool := a == b

/-- C74 is false for the explicit derivative: it is the measurement at the beginning of the step that counts.  Times 0, 1, 2,
one measurement 5 at time 1, responses 3 and 4 with derivatives 1 and 10: wanted is 2 (3 - 5) 1 = -4, computed
2 (4 - 5) 10 = -20. -/
theorem C74_derivative_shifted : ∃ (times data : List ℚ) (run : List (ℚ × ℚ × ℚ)), Separated exNear times ∧
    wantedSlope exNear 1 times data run = -4 ∧ explicit exNear false 1 times data run = -20 := by
  refine ⟨[1], [5], [(0, 0, 0), (1, 3, 1), (2, 4, 10)], ?_, by decide +kernel, by decide +kernel⟩
  intro t i j hi hj _ _
  simp at hi hj
  omega

/-- Case: two measurements at times 1 and 2, steps at 0, 1, 2, 3; weight 2: 2 ((3 - 5)² + (4 - 7)²) = 26; with `compute responses`
the step at 3 is compared with the measurement at 1. -/
example : total exNear false 2 [1, 2] [5, 7] [(0, 9), (1, 3), (2, 4), (3, 6)] = 26 ∧
    wanted exNear 2 [1, 2] [5, 7] [(0, 9), (1, 3), (2, 4), (3, 6)] = 26 ∧
    total exNear true 2 [1, 2] [5, 7] [(0, 9), (1, 3), (2, 4), (3, 6)] = 28 := by decide +kernel

example : Separated exNear [1, 2] := by
  intro t i j hi hj h1 h2
  simp only [exNear, beq_iff_eq] at h1 h2
  simp only [List.length_cons, List.length_nil] at hi hj
  have e : ([1, 2] : List ℚ).getD i 0 = ([1, 2] : List ℚ).getD j 0 := by rw [← h1, ← h2]
  rcases (show i = 0 ∨ i = 1 by omega) with rfl | rfl <;> rcases (show j = 0 ∨ j = 1 by omega) with rfl | rfl
  · rfl
  · simp at e
  · simp at e
  · rfl

end MrHyDE.Objective.Sensors
