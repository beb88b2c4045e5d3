import Mathlib.Algebra.DualNumber
import Mathlib.Algebra.BigOperators.Group.List.Basic

/-! # Objectives: model

/repo/src/managers/postprocess/postprocessManager_objectives.hpp (`computeObjective` 79-575, `reportObjective` 580-640) and
postprocessManager_objective_gradient.hpp (`computeObjectiveGradParam` 29-945, `computeSensitivities` 1510-1660).  The numbers are
an arbitrary commutative ring; values with one derivative slot are dual numbers.  The functions at the integration points are
given by their values; quadrature weights are constants.  Exact sums. -/

namespace MrHyDE.Objective

/-- Types of objectives; postprocessManager_objectives.hpp:132, 183, 211, 276. -/
inductive Kind
  | control
  | discrete
  | response
  | sensors
deriving DecidableEq

/-- Values and weights at the integration points: groups, elements, points; postprocessManager_objectives.hpp:142-163. -/
abbrev Quad (R : Type) := List (List (List (R × R)))

/-- A regularisation with its values at one time: type "integrated" with the values at the integration points, or "l2 norm
squared"; postprocessManager_objectives.hpp:452-560. -/
inductive Reg (R : Type)
  | integrated (wt : R) (q : Quad R)
  | l2 (wt : R)

/-- What is seen at one time on one process; postprocessManager_objectives.hpp:130-448.  `misfits`: squared norms of the differences of each set
(the same on all processes); `sensors`: response and data of the sensors of this process. -/
structure Seen (R : Type) where
  quad : Quad R := []
  misfits : List R := []
  sensors : List (R × R) := []
  regs : List (Reg R) := []

/-- An objective; postprocessManager_objectives.hpp:132-448, 629-632. -/
structure Obj (R : Type) where
  kind : Kind
  weight : R
  target : R

variable {R : Type} [CommRing R]

/-- Sum over the points of one group; postprocessManager_objectives.hpp:156-162, 227-233. -/
def groupSum (g : List (List (R × R))) : R :=
  g.foldl (fun s e => s + e.foldl (fun t q => t + q.1 * q.2) 0) 0

/-- Contribution of a regularisation on one process, added to what is there; postprocessManager_objectives.hpp:452-560.  The squared norm of the
active parameters `ps` is added on process 0 only (537). -/
def addReg (ps : List R) (rank0 : Bool) (t : R) : Reg R → R
  | .integrated wt q => q.foldl (fun t g => g.foldl (fun t e => e.foldl (fun t x => t + wt * (x.2 * x.1)) t) t) t
  | .l2 wt => if rank0 then ps.foldl (fun t p => t + wt * p * p) t else t

/-- `totaldiff[r]` of one process at one time; postprocessManager_objectives.hpp:128-560. -/
def value (o : Obj R) (ps : List R) (rank0 : Bool) (s : Seen R) : R :=
  let main := match o.kind with
    | .control => s.quad.foldl (fun t g => t + o.weight * groupSum g) 0
    | .discrete => if rank0 then s.misfits.foldl (fun t m => t + o.weight * m) 0 else 0
    | .response => s.quad.foldl (fun t g => t + groupSum g) 0
    | .sensors => s.sensors.foldl (fun t q => t + o.weight * (q.1 - q.2) * (q.1 - q.2)) 0
  s.regs.foldl (addReg ps rank0) main

/-- `reduceAll` with a sum over the processes; postprocessManager_objectives.hpp:599, 612. -/
def reduce (l : List R) : R := l.foldl (· + ·) 0

/-- The recorded values, time and values of all processes, turned into the sum over the times; postprocessManager_objectives.hpp:594-625.
One time is taken to be a steady state; the first of several is ignored. -/
def accumulate (kind : Kind) (rec : List (R × List R)) : R :=
  match rec with
  | [] => 0
  | [x] => reduce x.2
  | x :: rest =>
    (rest.foldl (fun (s : R × R) y =>
      let dt := y.1 - s.1
      let g := reduce y.2
      (y.1, s.2 + if kind = .sensors then g else g * dt)) (x.1, 0)).2

/-- The objective reported; postprocessManager_objectives.hpp:590-636. -/
def report (o : Obj R) (rec : List (R × List R)) : R :=
  let v := accumulate o.kind rec
  if o.kind = .response then o.weight * (v - o.target) * (v - o.target) else v

/-- A run as seen by all processes: times with what each process sees; solverManager_solvers.hpp:62, 164. -/
abbrev Run (R : Type) := List (R × List (Seen R))

/-- Values of all processes at one time; process 0 first (it alone adds the squared norms); postprocessManager_objectives.hpp:541-543, 599. -/
def values (o : Obj R) (ps : List R) (seen : List (Seen R)) : List R :=
  (seen.zip (List.range seen.length)).map (fun x => value o ps (x.2 == 0) x.1)

/-- The records of a run with every step recorded (`write_frequency` one, record window around all times);
postprocessManager_util.hpp:15-45, postprocessManager_objectives.hpp:563-567. -/
def record (o : Obj R) (ps : List R) (run : Run R) : List (R × List R) :=
  run.map (fun x => (x.1, values o ps x.2))

/-! ## Explicit derivative with respect to one scalar parameter -/

open DualNumber

variable {K : Type} [CommRing K]

/-- Sum of the derivative slots over the points of all groups; postprocessManager_objective_gradient.hpp:207-245, 398-425. -/
def slotSum (q : Quad (DualNumber K)) : K :=
  q.foldl (fun t g => t + (groupSum g).snd) 0

/-- Regularisations: only the squared norm depends on scalar parameters for the code, integrated ones are treated for
discretised parameters only; postprocessManager_objective_gradient.hpp:773-780, 897-917.  `pk`: the parameter. -/
def addRegGrad (pk dt : K) (t : K) : Reg (DualNumber K) → K
  | .integrated _ _ => t
  | .l2 wt => t + wt.fst * dt * 2 * pk

/-- `gradient[k]` of one process at one time; postprocessManager_objective_gradient.hpp:195-917.  `v`: accumulated response of all recorded times
(341-365). -/
def gradStep (o : Obj K) (v : K) (pk dt : K) (s : Seen (DualNumber K)) : K :=
  let main := match o.kind with
    | .control => s.quad.foldl (fun t g => t + o.weight * (groupSum g).snd) 0 * dt
    | .discrete => 0
    | .response => 2 * dt * o.weight * (v - o.target) * slotSum s.quad
    | .sensors => s.sensors.foldl (fun t q =>
        t + (TrivSqZeroExt.inl o.weight * (q.1 - q.2) * (q.1 - q.2) : DualNumber K).snd) 0
  s.regs.foldl (addRegGrad pk dt) main

/-- What process `r` adds to its gradient in the adjoint run over the steps, given the derivative slots the evaluations return: its own slots only, since the sum over processes is
commented out; postprocessManager_objective_gradient.hpp:925-932, 1610-1621.  The list has times and what each process sees, the first entry
is the initial time. -/
def gradRun (o : Obj K) (v : K) (pk : K) (r : Nat) : List (K × List (Seen (DualNumber K))) → K
  | [] => 0
  | [_] => 0
  | x :: y :: t => gradStep o v pk (y.1 - x.1) (y.2.getD r {}) + gradRun o v pk r (y :: t)

/-- What the evaluations made for the explicit derivative see of the functions of an objective: the seeds written by
`sacadoizeParams(true)` (postprocessManager_objective_gradient.hpp:195, 376, 557) are not copied to the view the functions read
(parameterManager_update.hpp:108-136 is not called; C171, `C171_explicit_violated`), so the values have no derivative slots. -/
def Seen.unseeded (s : Seen (DualNumber K)) : Seen (DualNumber K) :=
  { s with
    quad := s.quad.map (fun g => g.map (fun e => e.map (fun q => (TrivSqZeroExt.inl q.1.fst, q.2))))
    sensors := s.sensors.map (fun q => (TrivSqZeroExt.inl q.1.fst, q.2)) }

/-- What the code adds to the gradient of process `r`: the sum over the steps of the slots it sees;
postprocessManager_objective_gradient.hpp:191-939, 1534, 1610-1621. -/
def codeGrad (o : Obj K) (v : K) (pk : K) (r : Nat) (run : List (K × List (Seen (DualNumber K)))) : K :=
  gradRun o v pk r (run.map (fun x => (x.1, x.2.map Seen.unseeded)))

end MrHyDE.Objective
