import Mathlib.Algebra.Field.Rat
import Mathlib.Algebra.Order.Floor.Semiring
import Mathlib.Data.Matrix.Mul
import Mathlib.Data.Rat.Floor
import Mathlib.LinearAlgebra.Matrix.Notation
import Mathlib.Logic.Function.Basic

/-! # Steady runs: model

The forward run of a problem of solver type `steady-state`: `forwardModel` (/repo/src/managers/solver/solverManager_models.hpp:14-63)
and `steadySolver` (solverManager_solvers.hpp:13-33); its adjoint run: `adjointModel` (solverManager_models.hpp:69-118), the
adjoint part of `nonlinearSolver` (solverManager_solvers.hpp:322-343, 446-449, 454-485, 519-542), `computeSensitivities`
(/repo/src/managers/postprocess/postprocessManager_objective_gradient.hpp:1509-1619).

The nonlinear solve of one physics set, with the Dirichlet values set before, is a function of the solutions of all sets; the
linear solver is a function; what assembly returns is given by the linearisation at a state.  Objectives are of type
`integrated control`; discretized parameters are left out. -/

namespace MrHyDE.Solver.Steady

open Matrix

set_option linter.unusedSectionVars false

section Forward

variable {V : Type}

/-- The physics sets `0, ..., n - 1` solved in turn, each with the latest solutions of all sets;
solverManager_solvers.hpp:18-27. -/
def sweep (solve : Nat → (Nat → V) → V) : Nat → (Nat → V) → (Nat → V)
  | 0, u => u
  | n + 1, u => Function.update (sweep solve n u) n (solve n (sweep solve n u))

/-- The cycles; solverManager_solvers.hpp:17-28. -/
def cycles (solve : Nat → (Nat → V) → V) (n : Nat) : Nat → (Nat → V) → (Nat → V)
  | 0, u => u
  | k + 1, u => cycles solve n k (sweep solve n u)

/-- What a forward run leaves in the storage of the solutions: `setInitial`, the run, one record at the end if the solutions are
saved.  Another solver type than the two runs nothing (a transient run is left to the argument); `max subcycles` may be negative;
solverManager_models.hpp:25, 40-51, solverManager_solvers.hpp:13-33, postprocessManager_util.hpp:61-65. -/
def forward (solve : Nat → (Nat → V) → V) (n : Nat) (transient : (Nat → V) → List (Nat → V)) (kind : String)
    (subcycles : Int) (save : Bool) (u : Nat → V) : List (Nat → V) :=
  let ran := if kind = "steady-state" then [cycles solve n subcycles.toNat u]
    else if kind = "transient" then transient u else []
  if save then ran else []

end Forward

variable {K : Type} [Field K] {ι π : Type} [Fintype ι] [Fintype π]

/-- What assembly returns at a state: derivative of the residual with respect to the state (solverManager_solvers.hpp:459) and to
the parameters (postprocessManager_objective_gradient.hpp:1570), derivative of the integrated objective with respect to state (1170) and to the
parameters: `rf` through functions of the input file (220-245), `rl` through squared norms of the parameters (903-922). -/
structure Lin (K ι π : Type) where
  A : (ι → K) → Matrix ι ι K
  C : (ι → K) → Matrix ι π K
  q : (ι → K) → ι → K
  rf : (ι → K) → π → K
  rl : (ι → K) → π → K

/-- The whole explicit derivative. [specification, no code] -/
def Lin.r (L : Lin K ι π) (u : ι → K) : π → K := L.rf u + L.rl u

/-- What the adjoint run finds: number of processes and of physics sets, the solver type, the initial time (which is the current
time after a steady run, solverManager_models.hpp:18), the write frequency of the postprocessing (postprocessManager_construct.hpp:74), its time
index if it has been set (it is by a transient adjoint run only, postprocessManager_util.hpp:975-978, and has no initial value,
postprocessManager.hpp:691), whether scalar parameters vary in time. -/
structure Cfg where
  ranks : Nat
  sets : Nat
  kind : String
  start : ℚ
  freq : Int
  timeIndex : Option Int
  dynamic : Bool

/-- Outcome of an adjoint run: the gradient, with whether the forward solution was found (a message is printed if not); the
result of a transient run; undefined behaviour; processes that wait for each other for ever. -/
inductive Result (K π : Type) where
  | gradient (g : π → K) (found : Bool)
  | transient
  | undefined
  | waiting

/-- Conversion of the current time to the unsigned integer taken by the `extract` with two arguments: digits after the point are
dropped; undefined for numbers not above −1; solutionStorage.hpp:44, solverManager_models.hpp:94.  Overflow left out. -/
def toIndex (t : ℚ) : Option Nat := if -1 < t then some ⌊t⌋₊ else none

/-- Whether the derivative of the objective is added to the right hand side; postprocessManager_objective_gradient.hpp:961-969.  `none`: an
unset index or a remainder by zero.  With frequency one (or minus one) every value of the index gives yes. -/
def counted (c : Cfg) : Option Bool :=
  if c.freq = 0 then none
  else if c.freq = 1 ∨ c.freq = -1 then some true
  else c.timeIndex.map (fun i => decide (i.tmod c.freq = 0))

/-- One linear solve from the values in `phi`; the vector of the residual is new (store_vectors is false,
solverManager_construct.hpp:32-35); solverManager_solvers.hpp:328-331, 470-485, 519-540. -/
def adjointSolve (L : Lin K ι π) (solve : Matrix ι ι K → (ι → K) → ι → K) (add : Bool) (u phi : ι → K) : ι → K :=
  let rhs := (if add then -(L.q u) else 0) - (L.A u)ᵀ *ᵥ phi
  phi + solve (L.A u)ᵀ rhs

/-- `computeSensitivities` as called with time 0 and the current time in place of the number of the step; the step size is one;
solverManager_models.hpp:102, solverManager_construct.hpp:78-80, postprocessManager_objective_gradient.hpp:1533-1619.  `none`: scalar parameters that
vary in time are read at the number of the step minus one (1547, 1553), outside for the first.  The functions of the objective
are evaluated with parameters that carry no derivative slots (C171, `C171_explicit_violated`): of the explicit derivative only
the squared norms are added. -/
def sensitivities (L : Lin K ι π) (c : Cfg) (u phi : ι → K) (g : π → K) : Option (π → K) :=
  if c.dynamic ∧ toIndex c.start = some 0 then none
  else some (g + ((1 : K) • L.rl u - (-(L.C u))ᵀ *ᵥ phi))

/-- The adjoint run, `stored` the storage of set 0, `guess` the result of `setInitial`, `g` what was in the gradient;
solverManager_models.hpp:69-118.  With several sets the first process prints and leaves, the others go on to operations that
all processes have to take part in. -/
def adjoint (L : Lin K ι π) (solve : Matrix ι ι K → (ι → K) → ι → K) (c : Cfg) (stored : List (ι → K)) (guess : ι → K)
    (g : π → K) : Result K π :=
  if 1 < c.sets then (if c.ranks ≤ 1 then .gradient g true else .waiting)
  else if c.kind = "steady-state" then
    match toIndex c.start, counted c with
    | some i, some add =>
      let u := (stored[i]?).getD 0
      match sensitivities L c u (adjointSolve L solve add u guess) g with
      | some h => .gradient h (stored[i]?).isSome
      | none => .undefined
    | _, _ => .undefined
  else if c.kind = "transient" then .transient
  else .gradient g true

/-! ## Specification -/

/-- [specification, no code] `g` is the gradient at the state `u`: for every change `d` of the parameters and the change `w` of
the state that keeps the residual, the change of the objective. -/
def IsGradient (L : Lin K ι π) (u : ι → K) (g : π → K) : Prop :=
  ∀ (d : π → K) (w : ι → K), L.A u *ᵥ w + L.C u *ᵥ d = 0 → g ⬝ᵥ d = L.q u ⬝ᵥ w + L.r u ⬝ᵥ d

end MrHyDE.Solver.Steady
