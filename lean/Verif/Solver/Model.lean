import Mathlib.Algebra.Order.Field.Basic
import Mathlib.Algebra.Module.Defs
import Mathlib.Algebra.Module.LinearMap.Defs
import Mathlib.Algebra.BigOperators.Group.Finset.Basic
import Mathlib.Data.Fintype.BigOperators
import Mathlib.Algebra.Module.Pi

/-!
# Nonlinear solver and conjugate gradients

Model of `nonlinearSolver`, `PCG` and `matrixFreePCG` in
`src/managers/solver/solverManager_solvers.hpp`.  Numbers are elements of an ordered field, vectors
elements of a module; rounding is not modelled, division by zero is.
-/

namespace MrHyDE.Solver

/-- Result of a floating point division of a norm by a norm. [solverManager_solvers.hpp:393-446] -/
inductive Quot (K : Type) where
  | num (q : K)
  | inf
  | nan
deriving DecidableEq

section
variable {K : Type} [Field K] [LinearOrder K]

/-- Division of two non-negative numbers in floating point: `0/0` is not a number, `r/0` infinite. [solverManager_solvers.hpp:393-400] -/
def fdiv (r d : K) : Quot K := if d = 0 then (if r = 0 then .nan else .inf) else .num (r / d)

/-- Comparison `q > c` (false for not-a-number). [solverManager_solvers.hpp:416-446] -/
def Quot.gt (q : Quot K) (c : K) : Bool :=
  match q with
  | .num q => decide (c < q)
  | .inf => true
  | .nan => false

/-- Comparison `q < c` (false for not-a-number). [solverManager_solvers.hpp:416-446] -/
def Quot.lt (q : Quot K) (c : K) : Bool :=
  match q with
  | .num q => decide (q < c)
  | .inf => false
  | .nan => false

/-- Options of the nonlinear solver, solverManager_construct.hpp:58-64, and the quantities the report
of failure depends on. -/
structure NLOptions (K : Type) where
  tol : K
  abstol : K
  maxiter : Int
  useRelative : Bool
  useAbsolute : Bool
  backtracking : Bool
  verbosity : Int

/-- Variables of `nonlinearSolver`: the iterate (`sol_stage[stage]` or `sol[set]`), the increment
`current_du_over`, `alpha`, `NLiter` and `resnorm_first`. [solverManager_solvers.hpp:302-360] -/
structure NLState (K V : Type) where
  x : V
  du : V
  alpha : K
  iter : Nat
  first : K
deriving DecidableEq

/-- What one iteration does. [solverManager_solvers.hpp:416-446] -/
inductive Action where
  | backtrack
  | converged
  | solve
deriving DecidableEq

variable {V : Type}

/-- `resnorm_scaled`, solverManager_solvers.hpp:393-400; `r` is the norm of the residual. -/
def scaled (s : NLState K V) (r : K) : Quot K := if s.iter = 0 then .num 1 else fdiv r s.first

/-- Decision of one iteration, solverManager_solvers.hpp:416-446 (forward problem). -/
def action (o : NLOptions K) (rn : V → K) (s : NLState K V) : Action :=
  let r := rn s.x
  if o.backtracking && (scaled s r).gt (11/10) then .backtrack
  else if o.useRelative then
    if (scaled s r).lt o.tol then .converged
    else if r < 1/10^100 then .converged
    else .solve
  else if o.useAbsolute && decide (r < o.abstol) then .converged
  else .solve

variable [AddCommGroup V] [Module K V]

/-- One iteration, solverManager_solvers.hpp:334-615 (forward problem).  `rn` gives the norm of the
residual at an iterate, `newton` the solution of the linear system there (both arbitrary). -/
def iteration (o : NLOptions K) (rn : V → K) (newton : V → V) (s : NLState K V) : NLState K V :=
  let first := if s.iter = 0 then rn s.x else s.first
  match action o rn s with
  | .backtrack =>
    let alpha := s.alpha * (1/2)
    { s with x := s.x + (-1 * alpha) • s.du, alpha := alpha, iter := s.iter + 1, first := first }
  | .converged => { s with iter := s.iter + 1, first := first }
  | .solve =>
    let du := newton s.x
    { x := s.x + (1 : K) • du, du := du, alpha := 1, iter := s.iter + 1, first := first }

/-- The loop, solverManager_solvers.hpp:334-615, with at most `fuel` iterations; also returns whether
it was left through a convergence test. -/
def nlLoop (o : NLOptions K) (rn : V → K) (newton : V → V) : Nat → NLState K V → Option (NLState K V × Bool)
  | 0, _ => none
  | fuel + 1, s =>
    let s' := iteration o rn newton s
    if action o rn s = .converged then some (s', true)
    else if o.maxiter ≤ (s'.iter : Int) then some (s', false)
    else nlLoop o rn newton fuel s'

/-- Variables before the loop, solverManager_solvers.hpp:302-318. -/
def nlInit (o : NLOptions K) (x : V) : NLState K V :=
  { x := x, du := 0, alpha := 1, iter := 0, first := 10 * o.tol }

/-- The status returned, solverManager_solvers.hpp:302 and 628-638, by the process of the given rank. -/
def nlStatus (o : NLOptions K) (rank : Nat) (s : NLState K V) : Int :=
  if rank = 0 then (if o.maxiter < (s.iter : Int) && decide (1 < o.verbosity) then 1 else 0) else 0

end

/-! ### Conjugate gradients -/

section
variable {K : Type} [Field K] [LinearOrder K] {n : Nat}

/-- Vectors of the distributed linear algebra (all entries together). [solverManager_solvers.hpp:812-903] -/
abbrev Vec (K : Type) (n : Nat) := Fin n → K

/-- `Tpetra::Vector::dot`. [used at solverManager_solvers.hpp:860-898] -/
def dot (u v : Vec K n) : K := ∑ i, u i * v i

/-- Variables of `PCG`. [solverManager_solvers.hpp:819-858] -/
structure CGState (K : Type) (n : Nat) where
  x : Vec K n
  r : Vec K n
  p : Vec K n
  rho : K

/-- Application of the diagonal preconditioner, solverManager_solvers.hpp:864-871 and 980-987. -/
def prec (M r : Vec K n) : Vec K n := fun k => r k / M k

/-- One iteration, solverManager_solvers.hpp:862-897 and 978-1022 (`A` is `J->apply` or the matrix-free
product).  `none`: a division by zero, after which `x` is not a number. -/
def cgStep (A : Vec K n → Vec K n) (M : Vec K n) (iter : Nat) (s : CGState K n) : Option (CGState K n) :=
  if ∃ k, M k = 0 then none
  else
    let z := prec M s.r
    let rho := dot s.r z
    if iter ≠ 0 ∧ s.rho = 0 then none
    else
      let p := if iter = 0 then z else z + (rho / s.rho) • s.p
      let q := A p
      let pq := dot p q
      if pq = 0 then none
      else
        let alpha := rho / pq
        some { x := s.x + alpha • p, r := s.r + (-1 * alpha) • q, p := p, rho := rho }

/-- The loop, solverManager_solvers.hpp:860-898 and 976-1023; `norm2` is the Euclidean norm, `r0` the
norm of the first residual, `left` the iterations that remain.  Returns the final state and the number
of iterations. -/
def cgLoop (A : Vec K n → Vec K n) (M : Vec K n) (norm2 : Vec K n → K) (tol r0 : K) :
    Nat → Nat → CGState K n → Option (CGState K n × Nat)
  | 0, iter, s => some (s, iter)
  | left + 1, iter, s =>
    if (fdiv (norm2 s.r) r0).gt tol then
      match cgStep A M iter s with
      | none => none
      | some s' => cgLoop A M norm2 tol r0 left (iter + 1) s'
    else some (s, iter)

/-- State before the loop, solverManager_solvers.hpp:819-858. -/
def cgInit (A : Vec K n → Vec K n) (b x : Vec K n) : CGState K n :=
  { x := x, r := b + (-1 : K) • A x, p := 0, rho := 1 }

/-- `PCG` and `matrixFreePCG`, solverManager_solvers.hpp:812-903 and 909-1028. -/
def pcg (A : Vec K n → Vec K n) (M : Vec K n) (norm2 : Vec K n → K) (tol : K) (maxiter : Nat)
    (b x : Vec K n) : Option (CGState K n × Nat) :=
  let s := cgInit A b x
  cgLoop A M norm2 tol (norm2 s.r) maxiter 0 s

end

end MrHyDE.Solver
