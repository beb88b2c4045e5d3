import Mathlib.Algebra.Field.Defs
import Mathlib.Algebra.Module.Defs
import Mathlib.Algebra.Order.Field.Basic

/-!
# Time integration

Model of the time integration of MrHyDE: the weights and tableaux of
`src/managers/solver/solverManager_setup.hpp`, the reconstruction of the solution and of its time
derivative in `src/tools/workset.cpp`, and the loop over time steps and stages in
`src/managers/solver/solverManager_solvers.hpp`.  Numbers are elements of a field, state vectors
elements of a module over it; rounding is not modelled.
-/

namespace MrHyDE.Time

/-- The weights of `setBackwardDifference`, solverManager_setup.hpp:443-505 (`isTransient` true).
An order outside 1..6 leaves the view unallocated (`[]`). -/
def bdfWeights {K : Type} [Field K] : Nat → List K
  | 1 => [1, -1]
  | 2 => [15/10, -2, 5/10]
  | 3 => [11/6, -3, 15/10, -1/3]
  | 4 => [25/12, -4, 3, -4/3, 1/4]
  | 5 => [137/60, -5, 5, -10/3, 75/60, -1/5]
  | 6 => [147/60, -6, 15/2, -20/3, 225/60, -72/60, 1/6]
  | _ => []

/-- A Butcher tableau as stored in `butcher_A`, `butcher_b`, `butcher_c`. [solverManager_setup.hpp:181-317] -/
structure Tableau (K : Type) where
  A : List (List K)
  b : List K
  c : List K

/-- Entry of `butcher_A` (views are zero where nothing was assigned, and never read outside their
extents). [solverManager_setup.hpp:181-317, workset.cpp:553-575] -/
def Tableau.a {K : Type} [Field K] (T : Tableau K) (i j : Nat) : K := (T.A.getD i []).getD j 0

/-- Entry of `butcher_b`. [solverManager_setup.hpp:181-317] -/
def Tableau.w {K : Type} [Field K] (T : Tableau K) (i : Nat) : K := T.b.getD i 0

/-- Entry of `butcher_c`. [solverManager_setup.hpp:181-317] -/
def Tableau.t {K : Type} [Field K] (T : Tableau K) (i : Nat) : K := T.c.getD i 0

/-- Number of stages, solverManager_setup.hpp:417. -/
def Tableau.stages {K : Type} (T : Tableau K) : Nat := T.A.length

/-- The tableau "DIRK-3,3" as a function of the constant `p` of solverManager_setup.hpp:286-304, which
the code sets to `0.4358665215`. -/
def dirk33 {K : Type} [Field K] (p : K) : Tableau K :=
  { A := [[p, 0, 0], [(1-p)/2, p, 0],
          [-3*p*p/2 + 4*p - 1/4, 3*p*p/2 - 5*p + 5/4, p]],
    b := [-3*p*p/2 + 4*p - 1/4, 3*p*p/2 - 5*p + 5/4, p], c := [p, (1+p)/2, 1] }

/-- The built-in tableaux of `setButcherTableau`, solverManager_setup.hpp:181-317; `s3` is the value
of `std::sqrt(3)`.  Decimal literals are the rational numbers they denote.  `none` stands for the
exception of line 399 (the name "custom" is handled elsewhere). -/
def builtin {K : Type} [Field K] (s3 : K) (name : String) : Option (Tableau K) :=
  if name = "BWE" ∨ name = "DIRK-1,1" then
    some { A := [[1]], b := [1], c := [1] }
  else if name = "FWE" then
    some { A := [[0]], b := [1], c := [0] }
  else if name = "CN" then
    some { A := [[0, 0], [5/10, 5/10]], b := [5/10, 5/10], c := [0, 1] }
  else if name = "SSPRK-3,3" then
    some { A := [[0, 0, 0], [1, 0, 0], [25/100, 25/100, 0]], b := [1/6, 1/6, 2/3], c := [0, 1, 1/2] }
  else if name = "RK-4,4" then
    some { A := [[0, 0, 0, 0], [5/10, 0, 0, 0], [0, 5/10, 0, 0], [0, 0, 1, 0]],
           b := [1/6, 1/3, 1/3, 1/6], c := [0, 1/2, 1/2, 1] }
  else if name = "DIRK-1,2" then
    some { A := [[5/10]], b := [1], c := [5/10] }
  else if name = "DIRK-2,2" then
    some { A := [[1/4, 0], [1/2, 1/4]], b := [1/2, 1/2], c := [1/4, 3/4] }
  else if name = "DIRK-2,3" then
    some { A := [[1/2 + s3/6, 0], [-s3/3, 1/2 + s3/6]], b := [1/2, 1/2],
           c := [1/2 + s3/6, 1/2 - s3/6] }
  else if name = "DIRK-3,3" then
    some (dirk33 (4358665215/10000000000))
  else if name = "leap-frog" then
    some { A := [[0, 0], [1, 0]], b := [1, 1], c := [0, 0] }
  else none

section
variable {K V : Type} [Field K] [AddCommGroup V] [Module K V]

/-- The solution at which a stage is evaluated, src/tools/workset.cpp:553-567 (the same in every
branch of 601-818): `alpha_u*stageval + beta_u`.  `un` is `u_prev(.,0)`, `st j` the solution of
stage `j`. -/
def evalPoint (T : Tableau K) (s : Nat) (un : V) (st : Nat → V) (stageval : V) : V :=
  let alpha := T.a s s / T.w s
  let beta := (List.range s).foldl (fun acc j => acc + (T.a s j / T.w j) • (st j - un))
    ((1 - alpha) • un)
  alpha • stageval + beta

/-- The time derivative of a stage, src/tools/workset.cpp:554-575: `prev j` is `u_prev(.,j)`. -/
def timeDeriv (T : Tableau K) (bdf : List K) (dt : K) (s : Nat) (prev : Nat → V) (stageval : V) : V :=
  let timewt := 1 / dt / T.w s
  let alphaT := bdf.getD 0 0 * timewt
  let beta := (List.range (bdf.length - 1)).foldl (fun acc j => acc + bdf.getD (j+1) 0 • prev j) 0
  alphaT • stageval + timewt • beta

/-- The time at which a stage is evaluated, `updateStage`,
src/managers/assembly/assemblyManager_workset.hpp:1203-1213. -/
def stageTime (T : Tableau K) (t dt : K) (s : Nat) : K := t + T.t s * dt

/-- The loop over stages, solverManager_solvers.hpp:128-156, for `maxnumstages > 1`: the stage
solutions and the solution `sol` after the loop.  `solve s st` is what the nonlinear or explicit
solver makes of stage `s` when the earlier stages are `st`. -/
def stageLoop (solve : Nat → (Nat → V) → V) (un : V) : Nat → (Nat → V) × V
  | 0 => (fun _ => un, un)
  | n + 1 =>
    let (st, sol) := stageLoop solve un n
    let new := solve n st
    let st' := fun j => if j = n then new else st j
    (st', (sol + new) - un)

/-- One time step of a physics set, solverManager_solvers.hpp:102-156: `maxStages` is
`maxnumstages[set]`, the largest number of stages of the start-up and the main tableau, `stages` is
`numstages[set]` of the tableau in use.  With `maxStages = 1` the vector `sol_stage[0]` is the same
vector as `sol` (104-106) and nothing is added. -/
def timeStep (solve : Nat → (Nat → V) → V) (un : V) (maxStages stages : Nat) : V :=
  if maxStages = 1 then solve 0 (fun _ => un) else (stageLoop solve un stages).2

/-- The stage update of `explicitSolver`, solverManager_solvers.hpp:711-757: the stage starts from
`un`, the residual is `-(M u_dot - F)` and `invM` applies the inverse of the mass matrix;
`wt = deltat * b(stage)`.  Simplified: the linear solver is exact; the early exit for a residual below
1e-100 is not taken. -/
def explicitStage (T : Tableau K) (bdf : List K) (dt : K) (invM : V → V) (res : Nat → V → V → V)
    (un : V) (s : Nat) (st : Nat → V) : V :=
  let udot := timeDeriv T bdf dt s (fun _ => un) un
  let u := evalPoint T s un st un
  un + (dt * T.w s) • invM (-(res s u udot))

end

/-! ### The loop over time steps -/

/-- Variables of the loop, solverManager_solvers.hpp:73-76: `current_time`, `deltat`, `stepProg`,
`numCuts`, and the times passed to `postproc->record` (newest first). -/
structure LoopState (K : Type) where
  time : K
  dt : K
  stepProg : Nat
  numCuts : Nat
  recorded : List K
deriving DecidableEq

/-- The condition of the loop, solverManager_solvers.hpp:76-78. -/
def loopCond {K : Type} [Field K] [LT K] [DecidableLT K] (endTime : K) (maxCuts : Nat)
    (s : LoopState K) : Bool :=
  decide (s.time < endTime - endTime * (1/1000000)) && decide (s.numCuts ≤ maxCuts)

/-- One pass, solverManager_solvers.hpp:160-181; `ok` says whether `status == 0`. -/
def loopBody {K : Type} [Field K] (ok : Bool) (s : LoopState K) : LoopState K :=
  if ok then
    { s with time := s.time + s.dt, stepProg := s.stepProg + 1, recorded := (s.time + s.dt) :: s.recorded }
  else
    { s with dt := s.dt * (1/2), numCuts := s.numCuts + 1 }

/-- The loop with at most `fuel` tests of its condition; `ok n` is the outcome of attempt `n`;
`none`: not finished. [solverManager_solvers.hpp:73-181] -/
def loop {K : Type} [Field K] [LT K] [DecidableLT K] (endTime : K) (maxCuts : Nat)
    (ok : Nat → Bool) : Nat → Nat → LoopState K → Option (LoopState K)
  | 0, _, _ => none
  | fuel + 1, n, s =>
    if loopCond endTime maxCuts s then loop endTime maxCuts ok fuel (n + 1) (loopBody (ok n) s)
    else some s

/-- The state before the loop, solverManager_solvers.hpp:47-75: the initial state is recorded. -/
def loopInit {K : Type} (t0 dt : K) : LoopState K :=
  { time := t0, dt := dt, stepProg := 0, numCuts := 0, recorded := [t0] }

/-! ### The history of a multistep method -/

/-- `sol` and `sol_prev` of one physics set. [solverManager_solvers.hpp:114-181] -/
structure Hist (V : Type) where
  sol : V
  prev : List V

/-- The shift before a step, solverManager_solvers.hpp:114-119: from the last slot down, each slot
takes the one before it; slot 0 takes `sol`. -/
def shift {V : Type} (h : Hist V) : Hist V :=
  match h.prev with
  | [] => h
  | _ => { h with prev := h.sol :: h.prev.dropLast }

/-- One attempt, solverManager_solvers.hpp:114-181: shift, solve (`new` is the solution found), and on
failure set `sol` back to `sol_prev[0]` (172). -/
def attempt {V : Type} (h : Hist V) (new : V) (ok : Bool) : Hist V :=
  let h1 := shift h
  if ok then { h1 with sol := new } else { h1 with sol := h1.prev.headD new }

end MrHyDE.Time
