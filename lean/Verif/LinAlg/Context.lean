import Mathlib.Data.Rat.Defs
import Mathlib.Data.List.Basic

/-!
# Linear solver contexts

The linear algebra interface keeps, for each purpose a matrix is needed for, a *context*: options read from the
input, the matrix that may be reused, and the preconditioner that may be reused.  This file models how the options
are chosen, which matrix a request returns, what is handed to the linear solver, and what the reset does.

Matrices are values of an arbitrary type; what the solver libraries do with them is outside the model.
-/

namespace MrHyDE.LinAlg

/-! ## Options -/

/-- A value of an option in a parameter list.  `src/interfaces/linear_algebra/linearSolverContext.hpp:58-77`,
`linearAlgebraInterface_construct.hpp:32-36`.  Simplification: only the three kinds of value that are read there. -/
inductive Val where
  | bool (b : Bool)
  | str (s : String)
  | num (q : ℚ)
deriving DecidableEq, Repr

/-- A parameter list: options and sublists.  `linearSolverContext.hpp:57-71` (`get`, `isSublist`, `sublist`). -/
inductive PList where
  | mk (opts : List (String × Val)) (subs : List (String × PList))

/-- The options of a list.  `linearSolverContext.hpp:58-59`. -/
def PList.opts : PList → List (String × Val)
  | .mk o _ => o

/-- The sublists of a list.  `linearSolverContext.hpp:60-61`. -/
def PList.subs : PList → List (String × PList)
  | .mk _ s => s

/-- `ParameterList::set` on a list: the new value hides any former one.
`linearAlgebraInterface_construct.hpp:77`, `linearAlgebraInterface_util.hpp:82-108`. -/
def PList.set (l : PList) (key : String) (v : Val) : PList := .mk ((key, v) :: l.opts) l.subs

/-- `get<bool>(key, default)`; `none` is the exception for a value of another type.
`linearSolverContext.hpp:72-77`. -/
def PList.getBool (l : PList) (key : String) (dflt : Bool) : Option Bool :=
  match l.opts.lookup key with
  | none => some dflt
  | some (.bool b) => some b
  | some _ => none

/-- `get<string>(key, default)`; `none` is the exception for a value of another type.
`linearSolverContext.hpp:58-59,73`. -/
def PList.getStr (l : PList) (key : String) (dflt : String) : Option String :=
  match l.opts.lookup key with
  | none => some dflt
  | some (.str s) => some s
  | some _ => none

/-- `get<double>`/`get<int>` with a default; `none` is the exception for a value of another type.
`linearAlgebraInterface_construct.hpp:32-35`. -/
def PList.getNum (l : PList) (key : String) (dflt : ℚ) : Option ℚ :=
  match l.opts.lookup key with
  | none => some dflt
  | some (.num q) => some q
  | some _ => none

/-- The options of a context.  `linearSolverContext.hpp:94-106`. -/
structure Config where
  amesosType : String
  belosType : String
  precType : String
  useDirect : Bool
  usePrec : Bool
  rightPrec : Bool
  reusePrec : Bool
  reuseMatrix : Bool
  belos : Option PList
  prec : Option PList

/-- The constructor of a context from a parameter list.  `linearSolverContext.hpp:57-77`. -/
def Config.ofList (l : PList) : Option Config := do
  let amesos ← l.getStr "Amesos solver" "KLU2"
  let belosT ← l.getStr "Belos solver" "Block GMRES"
  let direct ← l.getBool "use direct solver" false
  let precT ← l.getStr "preconditioner type" "AMG"
  let useP ← l.getBool "use preconditioner" true
  let reuseP ← l.getBool "reuse preconditioner" true
  let right ← l.getBool "right preconditioner" false
  let reuseM ← l.getBool "reuse Jacobian" false
  return { amesosType := amesos, belosType := belosT, precType := precT, useDirect := direct, usePrec := useP,
           rightPrec := right, reusePrec := reuseP, reuseMatrix := reuseM,
           belos := l.subs.lookup "Belos Settings", prec := l.subs.lookup "Preconditioner Settings" }

/-- What a context is for.  `linearAlgebraInterface_construct.hpp:45-128`, `linearAlgebraInterface_matrix.hpp:88-109`. -/
inductive Purpose where
  | state | stateL2 | stateBndryL2 | param | paramL2 | paramBndryL2 | paramState | previous
deriving DecidableEq, Repr

/-- The name of the sublist that controls a context.
`linearAlgebraInterface_construct.hpp:47,59,71,84,96,108,120`, `linearAlgebraInterface_matrix.hpp:98`. -/
def Purpose.key : Purpose → String
  | .state => "State linear solver"
  | .stateL2 => "State L2 linear solver"
  | .stateBndryL2 => "State boundary L2 linear solver"
  | .param => "Parameter linear solver"
  | .paramL2 => "Parameter L2 linear solver"
  | .paramBndryL2 => "Parameter boundary L2 linear solver"
  | .paramState => "Parameter state linear solver"
  | .previous => "State linear solver"

/-- The list a context is built from: the sublist when there is one, the whole "Solver" list otherwise.
`linearAlgebraInterface_construct.hpp:47-52` and the same lines for the other purposes. -/
def chosen (solver : PList) (p : Purpose) : PList := (solver.subs.lookup p.key).getD solver

/-- The options of the context for one purpose; the boundary projections never use a preconditioner.
`linearAlgebraInterface_construct.hpp:45-128` (line 77 for the boundary projections). -/
def contextFor (solver : PList) (p : Purpose) : Option Config :=
  match p with
  | .stateBndryL2 => Config.ofList ((chosen solver p).set "use preconditioner" (.bool false))
  | _ => Config.ofList (chosen solver p)

/-! ## The list of options for the iterative solver -/

/-- The values the interface reads once from the "Solver" list.  `linearAlgebraInterface_construct.hpp:32-36`. -/
structure Generic where
  tol : ℚ
  condEst : Bool
  maxIters : ℚ
  krylov : ℚ
  scaling : String

/-- Reading them.  `linearAlgebraInterface_construct.hpp:32-36`. -/
def Generic.ofList (solver : PList) : Option Generic := do
  let tol ← solver.getNum "linear TOL" (1 / 10000000)
  let cond ← solver.getBool "Estimate Condition Number" false
  let maxIt ← solver.getNum "max linear iters" 100
  let kry ← solver.getNum "krylov vectors" 100
  let sc ← solver.getStr "Belos implicit residual scaling" "None"
  return { tol := tol, condEst := cond, maxIters := maxIt, krylov := kry, scaling := sc }

/-- The list handed to the iterative solver: the settings of the interface, then those of the user's
"Belos Settings", which replace entries of the same name.  `linearAlgebraInterface_util.hpp:80-113`.
Simplification: the verbosity, output style and output frequency are left out; `neq` is the entry
"number of equations" (lines 98-102). -/
def belosList (g : Generic) (neq : ℚ) (user : Option PList) : List (String × Val) :=
  let own : List (String × Val) :=
    [("Maximum Iterations", .num g.maxIters), ("Num Blocks", .num g.maxIters),
     ("Convergence Tolerance", .num g.tol), ("Estimate Condition Number", .bool g.condEst),
     ("number of equations", .num neq), ("Implicit Residual Scaling", .str g.scaling)]
  match user with
  | none => own
  | some l => l.opts ++ own

/-! ## Matrices and their reuse -/

/-- What a matrix object holds: nothing yet, or assembled entries.
`linearAlgebraInterface_matrix.hpp:21` (a fresh matrix), `solverManager_solvers.hpp:464-466` (filled). -/
inductive Content (M : Type) where
  | unfilled
  | filled (m : M)
deriving DecidableEq, Repr

/-- The state of a context.  `stored` is what the stored matrix object holds; the object is shared with whoever
requested it.  `precOf` is the matrix the stored preconditioner was computed from.
`linearSolverContext.hpp:101-112`. -/
structure Ctx (M : Type) where
  haveMatrix : Bool
  stored : Content M
  havePrec : Bool
  precOf : Option M
  haveSymb : Bool
deriving DecidableEq, Repr

/-- A context just constructed.  `linearSolverContext.hpp:79-81`. -/
def Ctx.fresh {M : Type} : Ctx M :=
  { haveMatrix := false, stored := .unfilled, havePrec := false, precOf := none, haveSymb := false }

/-- `reset`.  `linearSolverContext.hpp:85-91`. -/
def Ctx.reset {M : Type} (c : Ctx M) : Ctx M :=
  { c with haveMatrix := false, stored := .unfilled, havePrec := false, precOf := none }

/-- `getJacobianReuse`.  `linearAlgebraInterface_util.hpp:27-33`. -/
def reuses {M : Type} (reuseMatrix : Bool) (c : Ctx M) : Bool := reuseMatrix && c.haveMatrix

/-- `getNewMatrix`: what the returned matrix holds, and the context afterwards.
`linearAlgebraInterface_matrix.hpp:13-30` (and 36-53, 59-76, 145-162 for the other purposes). -/
def getNewMatrix {M : Type} (reuseMatrix : Bool) (c : Ctx M) : Ctx M × Content M :=
  if reuseMatrix then
    if c.haveMatrix then (c, c.stored)
    else ({ c with haveMatrix := true, stored := .unfilled }, .unfilled)
  else (c, .unfilled)

/-- One pass of the nonlinear iteration as far as the Jacobian is concerned: whether the residual asks for a linear
solve, and the Jacobian that would be assembled at the current state.  `solverManager_solvers.hpp:335-523`. -/
structure Pass (M : Type) where
  solve : Bool
  jac : M

/-- The Jacobian in one pass: it is requested in every pass, assembled only when a linear solve is needed and no
matrix is being reused, and handed to the linear solver.  The result is the context afterwards and the matrix the
linear solve was given, if there was one.  `solverManager_solvers.hpp:342-351,453-467,523`. -/
def pass {M : Type} (reuseMatrix : Bool) (c : Ctx M) (p : Pass M) : Ctx M × Option (Content M) :=
  let build := !reuses reuseMatrix c
  let r := getNewMatrix reuseMatrix c
  if p.solve then
    if build then
      (if reuseMatrix then { r.1 with stored := .filled p.jac } else r.1, some (.filled p.jac))
    else (r.1, some r.2)
  else (r.1, none)

/-- The passes of one run of the model, one after another: the nonlinear iterations of all time steps and stages.
`solverManager_solvers.hpp:335-614` inside 40-285. -/
def passes {M : Type} (reuseMatrix : Bool) : Ctx M → List (Pass M) → Ctx M × List (Option (Content M))
  | c, [] => (c, [])
  | c, p :: ps =>
    let r := pass reuseMatrix c p
    let rest := passes reuseMatrix r.1 ps
    (rest.1, r.2 :: rest.2)

/-- A sequence of model runs (forward and adjoint in any order); each begins with the reset of all contexts.
`solverManager_models.hpp:26` (forward), `solverManager_models.hpp:83` (adjoint), `linearAlgebraInterface_util.hpp:119-137`. -/
def session {M : Type} (reuseMatrix : Bool) : Ctx M → List (List (Pass M)) → List (List (Option (Content M)))
  | _, [] => []
  | c, run :: runs =>
    let r := passes reuseMatrix c.reset run
    r.2 :: session reuseMatrix r.1 runs

/-! ## The linear solve -/

/-- The names of the iterative solvers that are known.  `linearAlgebraInterface_solvers.hpp:102-135`. -/
def belosKnown : List String :=
  ["Block GMRES", "Block Gmres", "Block CG", "BiCGStab", "GCRODR", "PCPG", "Pseudo Block CG",
   "Pseudo Block Gmres", "Pseudo Block GMRES", "Pseudo Block Stochastic CG", "Pseudo Block TFQMR", "RCG", "TFQMR"]

/-- The kinds of preconditioner.  `linearAlgebraInterface_solvers.hpp:34,51,81`. -/
inductive PrecKind where
  | schwarz | ifpack | amg
deriving DecidableEq, Repr

/-- The kind for a name.  `linearAlgebraInterface_solvers.hpp:34,51,81`. -/
def precKind (s : String) : PrecKind :=
  if s = "domain decomposition" then .schwarz else if s = "Ifpack2" then .ifpack else .amg

/-- What is put to work in a linear solve.  `linearAlgebraInterface_solvers.hpp:20-141`. -/
inductive Action (M : Type) where
  /-- factor this matrix and solve with it; whether a solver object is created and the pattern analysed first
  (`linearAlgebraInterface_solvers.hpp:21-25`) -/
  | direct (factored : M) (analysed : Bool)
  /-- iterate with this operator and a preconditioner (kind, from the right, computed from) -/
  | krylov (solver : String) (op : M) (prec : Option (PrecKind × Bool × M))
deriving DecidableEq, Repr

/-- The preconditioner part of a linear solve: the context afterwards and the matrix the preconditioner in use was
computed from.  `linearAlgebraInterface_solvers.hpp:34-95`.  Simplification: `ReuseTpetraPreconditioner` is taken to
recompute from the new matrix, as it does for "reuse: type" = "none" (line 231). -/
def precStep {M : Type} (cfg : Config) (c : Ctx M) (m : M) : Ctx M × M :=
  let build := !cfg.reusePrec || !c.havePrec
  if build then ({ c with havePrec := true, precOf := some m }, m)
  else
    match precKind cfg.precType with
    | .amg => ({ c with precOf := some m }, m)
    | _ => (c, c.precOf.getD m)

/-- The linear solve of a context: `none` is an exception, either for a matrix never filled or for an unknown
iterative solver.  `linearAlgebraInterface_solvers.hpp:15-152`. -/
def linearSolve {M : Type} (cfg : Config) (c : Ctx M) : Content M → Option (Ctx M × Action M)
  | .unfilled => none
  | .filled m =>
    if cfg.useDirect then some ({ c with haveSymb := true }, .direct m (!c.haveSymb))
    else
      let r := if cfg.usePrec then
          let s := precStep cfg c m
          (s.1, some (precKind cfg.precType, cfg.rightPrec, s.2))
        else (c, none)
      if cfg.belosType ∈ belosKnown then some (r.1, .krylov cfg.belosType m r.2) else none

/-- A sequence of linear solves with one context.  `linearAlgebraInterface_solvers.hpp:158-160`. -/
def solves {M : Type} (cfg : Config) : Ctx M → List M → Option (Ctx M × List (Action M))
  | c, [] => some (c, [])
  | c, m :: ms => do
    let r ← linearSolve cfg c (.filled m)
    let rest ← solves cfg r.1 ms
    return (rest.1, r.2 :: rest.2)

/-- The linear solves of the discretised parameters for the two projections: the bodies are commented out, so the
solution stays what it was.  `linearAlgebraInterface_solvers.hpp:190-192,199-201`. -/
def linearSolverL2Param {M V : Type} (_J : M) (_r : V) (soln : V) : V := soln

/-! ## Jacobians with respect to earlier steps -/

/-- The contexts for the earlier steps, allocated at the first request: one row per step.
`linearAlgebraInterface_matrix.hpp:88-109`. -/
def allocPrev {M : Type} (numsets numsteps : Nat) : List (List (Ctx M)) :=
  (List.range numsteps).map fun (_ : Nat) =>
    (List.range numsets).flatMap fun (_ : Nat) => (List.range numsets).map fun (_ : Nat) => Ctx.fresh

/-- `getNewPreviousMatrix`: the contexts afterwards and the content of the matrices returned; `none` is an access
outside the table.  `linearAlgebraInterface_matrix.hpp:82-129`. -/
def getNewPrevious {M : Type} (reuseMatrix : Bool) (numsets : Nat) (table : List (List (Ctx M))) (set numsteps : Nat) :
    Option (List (List (Ctx M)) × List (Content M)) :=
  let table := if table.length = 0 then allocPrev numsets numsteps else table
  (List.range numsteps).foldlM (fun (acc : List (List (Ctx M)) × List (Content M)) (k : Nat) => do
    let row ← acc.1[k]?
    let c ← row[set]?
    let r := getNewMatrix reuseMatrix c
    return (acc.1.set k (row.set set r.1), acc.2 ++ [r.2])) (table, [])

/-- `getPrevJacobianReuse`; the argument is called `step`, and the only caller passes the set.
`linearAlgebraInterface_util.hpp:38-52`, `solverManager_solvers.hpp:547`.  `none` is an access outside the table. -/
def prevReuse {M : Type} (reuseMatrix : Bool) (table : List (List (Ctx M))) (step : Nat) : Option Bool :=
  if table.length = 0 then some false
  else (table[step]?).map fun row => row.all fun c => reuseMatrix && c.haveMatrix

end MrHyDE.LinAlg
