import Mathlib.Data.List.Basic

/-! # C88: what is kept from one solve to the next

`resetObjectives` (/repo/src/managers/postprocess/postprocessManager_objectives.hpp:671-681), called at the start of every forward solve
(/repo/src/managers/solver/solverManager_models.hpp:24), and the lists filled by `record`
(postprocessManager_util.hpp:15-70).  A sampling study calls `forwardSolve` and `collectResponses` once per sample
(/repo/src/managers/analysis/analysisManager_solve.hpp:272-275). -/

namespace MrHyDE.Postprocess.Repeat

variable {T R : Type}

/-- The lists of one process: those of an objective, and the errors and norms of the manager; postprocessManager_objectives.hpp:289,
570-571, postprocessManager_sensors.hpp:1235, postprocessManager_error_estimation.hpp:204, 508, postprocessManager_util.hpp:945. -/
structure Kept (T R : Type) where
  responseTimes : List T
  responseData : List R
  objectiveTimes : List T
  objectiveValues : List R
  sensorSolution : List R
  errorTimes : List T
  errors : List R
  norms : List R
  deriving DecidableEq

/-- A newly constructed manager. [case] -/
def empty : Kept T R := ⟨[], [], [], [], [], [], [], []⟩

/-- `resetObjectives`; postprocessManager_objectives.hpp:671-681. -/
def reset (s : Kept T R) : Kept T R :=
  { s with responseTimes := [], responseData := [], objectiveTimes := [], objectiveValues := [] }

/-- What is computed at one recorded time: response, value of the objective, solution at the sensors, error, norm. [helper] -/
structure Frame (T R : Type) where
  time : T
  response : R
  value : R
  sensor : R
  error : R
  norm : R
  deriving DecidableEq

/-- One recorded time, everything being asked for; postprocessManager_util.hpp:38-58.  (When responses *and* solutions at sensors
are computed the time is kept twice, postprocessManager_objectives.hpp:289 and postprocessManager_sensors.hpp:1176; here once.) -/
def record (s : Kept T R) (f : Frame T R) : Kept T R :=
  { responseTimes := s.responseTimes ++ [f.time]
    responseData := s.responseData ++ [f.response]
    objectiveTimes := s.objectiveTimes ++ [f.time]
    objectiveValues := s.objectiveValues ++ [f.value]
    sensorSolution := s.sensorSolution ++ [f.sensor]
    errorTimes := s.errorTimes ++ [f.time]
    errors := s.errors ++ [f.error]
    norms := s.norms ++ [f.norm] }

/-- A forward solve; solverManager_models.hpp:14-60. -/
def solve (s : Kept T R) (run : List (Frame T R)) : Kept T R := run.foldl record (reset s)

theorem foldl_record : ∀ (run : List (Frame T R)) (s : Kept T R), run.foldl record s =
    { responseTimes := s.responseTimes ++ run.map Frame.time
      responseData := s.responseData ++ run.map Frame.response
      objectiveTimes := s.objectiveTimes ++ run.map Frame.time
      objectiveValues := s.objectiveValues ++ run.map Frame.value
      sensorSolution := s.sensorSolution ++ run.map Frame.sensor
      errorTimes := s.errorTimes ++ run.map Frame.time
      errors := s.errors ++ run.map Frame.error
      norms := s.norms ++ run.map Frame.norm } := by
  intro run
  induction run with
  | nil => intro s; simp
  | cons f run ih =>
    intro s
    rw [List.foldl_cons, ih]
    simp [record]

theorem solves : ∀ (runs : List (List (Frame T R))) (s : Kept T R),
    (runs.foldl solve s).sensorSolution = s.sensorSolution ++ runs.flatten.map Frame.sensor ∧
    (runs.foldl solve s).errors = s.errors ++ runs.flatten.map Frame.error ∧
    (runs.foldl solve s).norms = s.norms ++ runs.flatten.map Frame.norm := by
  intro runs
  induction runs with
  | nil => intro s; simp
  | cons run runs ih =>
    intro s
    rw [List.foldl_cons]
    obtain ⟨h1, h2, h3⟩ := ih (solve s run)
    rw [h1, h2, h3]
    unfold solve
    rw [foldl_record]
    simp [reset]

/-- C88, partial: after any number of solves, the responses and the values of the objective are those of the last one.  Missing: the
solutions at the sensors, errors and norms, see `C88_accumulate`. -/
theorem C88_partial (s : Kept T R) (runs : List (List (Frame T R))) (run : List (Frame T R)) :
    ((runs ++ [run]).foldl solve s).responseData = run.map Frame.response ∧
    ((runs ++ [run]).foldl solve s).responseTimes = run.map Frame.time ∧
    ((runs ++ [run]).foldl solve s).objectiveValues = run.map Frame.value ∧
    ((runs ++ [run]).foldl solve s).objectiveTimes = run.map Frame.time := by
  rw [List.foldl_append, List.foldl_cons, List.foldl_nil]
  unfold solve
  rw [foldl_record]
  simp [reset]

/-- C88 is false for the solutions at the sensors, the errors and the norms: after several solves they are those of all solves, one
after the other. -/
theorem C88_accumulate (runs : List (List (Frame T R))) :
    (runs.foldl solve empty).sensorSolution = runs.flatten.map Frame.sensor ∧
    (runs.foldl solve empty).errors = runs.flatten.map Frame.error ∧
    (runs.foldl solve empty).norms = runs.flatten.map Frame.norm := by
  obtain ⟨h1, h2, h3⟩ := solves runs (empty : Kept T R)
  rw [h1, h2, h3]
  simp [empty]

/-- C88: the responses of a sampling study which keeps the solutions at the sensors are wrong from the second sample on: they agree
with those of the sample exactly when nothing had been recorded before. -/
theorem C88_violated (runs : List (List (Frame T R))) (run : List (Frame T R)) :
    ((runs ++ [run]).foldl solve empty).sensorSolution = run.map Frame.sensor ↔ ∀ r ∈ runs, r = [] := by
  rw [(C88_accumulate _).1, List.flatten_append, List.map_append]
  simp only [List.flatten_cons, List.flatten_nil, List.append_nil]
  constructor
  · intro h
    have : (runs.flatten.map Frame.sensor).length + (run.map Frame.sensor).length = (run.map Frame.sensor).length := by
      rw [← List.length_append, h]
    have : runs.flatten.length = 0 := by
      rw [List.length_map] at this
      omega
    have := List.length_eq_zero_iff.mp this
    exact List.flatten_eq_nil_iff.mp this
  · intro h
    rw [List.flatten_eq_nil_iff.mpr h]
    rfl

/-- Two samples with one recorded time each: after the second there are two solutions but one time. -/
example : (([[⟨1, 10, 20, 30, 40, 50⟩], [⟨1, 11, 21, 31, 41, 51⟩]] : List (List (Frame Nat Nat))).foldl solve empty).sensorSolution = [30, 31] ∧
    (([[⟨1, 10, 20, 30, 40, 50⟩], [⟨1, 11, 21, 31, 41, 51⟩]] : List (List (Frame Nat Nat))).foldl solve empty).responseTimes = [1] := by
  decide +kernel

end MrHyDE.Postprocess.Repeat
