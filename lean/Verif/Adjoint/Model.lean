import Mathlib.Algebra.Order.Field.Basic
import Mathlib.Algebra.Order.Ring.Abs
import Mathlib.LinearAlgebra.Matrix.Notation
import Mathlib.Data.Matrix.Mul

/-! # Transient adjoint: model

The backward loop of `SolverManager::transientSolver`, /repo/src/managers/solver/solverManager_solvers.hpp:194-283, with the
adjoint parts of `nonlinearSolver` (442-596), the gradient with respect to the state of an objective of type "integrated
control", /repo/src/managers/postprocess/postprocessManager_objective_gradient.hpp:1128-1203, and `computeSensitivities`
(1509-1617) for active scalar parameters that do not depend on time.

What assembly returns is given as linearisations of the discrete equations at the recorded states, as functions of the step
size used (their correctness is the subject of C28, C35, C52, C61, C65).  Only the first physics set is treated, as in the code.
The linear solver is a function.  Reuse of matrices is off.  Single process. -/

namespace MrHyDE.Adjoint

open Matrix

variable {K : Type} [Field K] [LinearOrder K] [IsStrictOrderedRing K] {ι π : Type} [Fintype ι] [Fintype π]

/-- Linearisation of step `n` at the recorded states, for a step size: derivative of the residual with respect to the new
state (solverManager_solvers.hpp:459), to the state `k + 1` steps back (563), to the parameters
(postprocessManager_objective_gradient.hpp:1566), and of the integrand of the objective with respect to state (1169) and
parameters: `rf` through functions of the input file (205), `rl` through squared norms of the parameters as regularisation
(903-922). -/
structure Lin (K ι π : Type) where
  A : Nat → K → Matrix ι ι K
  B : Nat → K → Nat → Matrix ι ι K
  C : Nat → K → Matrix ι π K
  q : Nat → ι → K
  rf : Nat → π → K
  rl : Nat → π → K

/-- The whole explicit derivative of the integrand. [specification, no code] -/
def Lin.r (L : Lin K ι π) (n : Nat) : π → K := L.rf n + L.rl n

/-- Settings at the time of the adjoint solve: stages and steps of the integrator, number of physics sets
(solverManager_solvers.hpp:205-206, 258), the member `deltat`, and the recorded times (231, 249);
`tol` is the 1.0e-12 of postprocessManager_objective_gradient.hpp:1138. -/
structure Cfg (K : Type) where
  stages : Nat
  steps : Nat
  sets : Nat
  deltat : K
  N : Nat
  times : Nat → K
  tol : K

/-- Comparison of a recorded time with the current one; division by a zero time never compares true;
postprocessManager_objective_gradient.hpp:1136-1138. -/
def sameTime (tol a cur : K) : Prop := cur ≠ 0 ∧ |a - cur| / cur < tol

instance (tol a cur : K) : Decidable (sameTime tol a cur) := by unfold sameTime; infer_instance

/-- The factor by which the gradient of the objective is scaled: 1 unless a recorded time is found, the last one found
counts; postprocessManager_objective_gradient.hpp:1130-1143. -/
def weight (c : Cfg K) (cur : K) : K :=
  ((List.range c.N).map (· + 1)).foldl (fun w t => if sameTime c.tol (c.times t) cur then c.times t - c.times (t - 1) else w) 1

/-- State of the loop: the vectors `phi` and `phi_stage[0]`, the entry `previous_adjoints[0][0]`, the gradient;
solverManager_solvers.hpp:199-222. -/
structure St (K ι π : Type) where
  phi : ι → K
  phiStage : ι → K
  prev : ι → K
  grad : π → K

/-- `previous_adjoints[istep][istep]` for all steps is subtracted: all entries except the first are zero vectors; the inner
vectors have one entry for each set, so a step number that is not the number of a set reads outside (none);
solverManager_solvers.hpp:204-214, 495-497. -/
def diagonalReads (c : Cfg K) : Option Unit := if c.steps ≤ c.sets then some () else none

/-- One adjoint solve for the recorded step `n`; solverManager_solvers.hpp:474-497, 519-531, 577-593.  `prev` is subtracted if
there is at least one step. -/
def solveStep (L : Lin K ι π) (solve : Matrix ι ι K → (ι → K) → ι → K) (c : Cfg K) (n : Nat) (s : St K ι π) :
    Option (St K ι π) :=
  match diagonalReads c with
  | none => none
  | some () =>
    let w := weight c (c.times (n - 1) + c.deltat)
    let rhs : ι → K := -(w • L.q n) - (L.A n c.deltat)ᵀ *ᵥ s.phiStage - (if c.steps = 0 then 0 else s.prev)
    let phi := s.phiStage + solve (L.A n c.deltat)ᵀ rhs
    some { s with phiStage := phi, prev := (L.B n c.deltat 0)ᵀ *ᵥ phi }

/-- `computeSensitivities` for the recorded step `n`: the assembled residual holds minus the derivative;
postprocessManager_objective_gradient.hpp:1534, 1566-1616.  The functions of the objective are evaluated with parameters that
carry no derivative slots (C171, `C171_explicit_violated`), so that of the explicit derivative only the squared norms, which
are differentiated by formula, are added. -/
def addSens (L : Lin K ι π) (c : Cfg K) (n : Nat) (s : St K ι π) : St K ι π :=
  { s with grad := s.grad + (c.deltat • L.rl n - (-(L.C n c.deltat))ᵀ *ᵥ s.phi) }

/-- Body of the backward loop; solverManager_solvers.hpp:225-280.  With more than one stage nothing is done. -/
def backStep (L : Lin K ι π) (solve : Matrix ι ι K → (ι → K) → ι → K) (c : Cfg K) (n : Nat) (s : St K ι π) :
    Option (St K ι π) :=
  if c.stages = 1 then
    match solveStep L solve c n s with
    | none => none
    | some t => some (addSens L c n { t with phi := t.phiStage })
  else some s

/-- Steps `n, n-1, ..., 1`; solverManager_solvers.hpp:225-226. -/
def backLoop (L : Lin K ι π) (solve : Matrix ι ι K → (ι → K) → ι → K) (c : Cfg K) : Nat → St K ι π → Option (St K ι π)
  | 0, s => some s
  | n + 1, s =>
    match backStep L solve c (n + 1) s with
    | none => none
    | some t => backLoop L solve c n t

/-- The adjoint run: zero vectors, all recorded steps; solverManager_solvers.hpp:194-283.  The gradient is what was in
`gradient` before plus what the steps add. -/
def adjoint (L : Lin K ι π) (solve : Matrix ι ι K → (ι → K) → ι → K) (c : Cfg K) : Option (π → K) :=
  (backLoop L solve c c.N ⟨0, 0, 0, 0⟩).map St.grad

end MrHyDE.Adjoint
