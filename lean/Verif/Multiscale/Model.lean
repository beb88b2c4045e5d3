import Mathlib.Data.List.Basic
import Mathlib.Order.Basic
import Mathlib.Algebra.Order.Field.Basic

/-! # Choice of subgrid models: model

/repo/src/managers/assembly/assemblyManager_util.hpp:293-361 (`identifySubgridModels`) and
/repo/src/managers/multiscale/multiscaleManager.cpp: `initialize` 230-364, `update` 370-860, hierarchical choice in
`evaluateMacroMicroMacroMap` 925-993.  The subgrid solves themselves are given by their results. -/

namespace MrHyDE.Multiscale

/-! ## User-defined choice -/

/-- Number of points of the elements of the group at which the usage function is at least one;
assemblyManager_util.hpp:336-342. -/
def countVotes {K : Type} [LinearOrder K] [One K] (usage : Nat → Nat → K) (nelem nip : Nat) : Nat :=
  ((List.range nelem).flatMap (fun p => (List.range nip).filter (fun j => decide (1 ≤ usage p j)))).length

/-- Votes of all models for a group of block `b`: models of other blocks get none; assemblyManager_util.hpp:314-344. -/
def votes (macroBlock : List Nat) (count : Nat → Nat) (b : Nat) : List Int :=
  (List.range macroBlock.length).map (fun s => if macroBlock.getD s 0 = b then (count s : Int) else 0)

/-- The loop over the votes, from model `i` on, with the present maximum and winner; assemblyManager_util.hpp:348-353. -/
def poll : List Int → Nat → Int → Nat → Nat
  | [], _, _, w => w
  | v :: t, i, m, w => if v ≥ m then poll t (i + 1) v i else poll t (i + 1) m w

/-- The model chosen for a group; assemblyManager_util.hpp:346-354. -/
def winner (v : List Int) : Nat := poll v 0 (-1) 0

/-! ## Choice by trained predictors -/

/-- Whether a predictor accepts all elements of the group, whose predictions start at `prog`; `none`: fewer predictions than
elements; multiscaleManager.cpp:641-646. -/
def acceptAll (pred : List Int) (prog n : Nat) : Option Bool :=
  (List.range n).foldlM (fun ok e => (pred[prog + e]?).map (fun v => if v < 1 then false else ok)) true

/-- The loop over the predictors; `none` for no predictor (a single model): the code reads outside the empty table;
multiscaleManager.cpp:636-659. -/
def mlGo : List (List Int) → Nat → Nat → Nat → Option Nat
  | [], _, _, _ => none
  | [p], i, prog, n =>
    match acceptAll p prog n with
    | none => none
    | some ok => if ok then some i else some (i + 1)
  | p :: q :: t, i, prog, n =>
    match acceptAll p prog n with
    | none => none
    | some ok => if ok then some i else mlGo (q :: t) (i + 1) prog n

/-- All groups in order, given by their numbers of elements; multiscaleManager.cpp:632-660. -/
def mlAssign (preds : List (List Int)) : List Nat → Nat → Option (List Nat)
  | [], _ => some []
  | n :: t, prog =>
    match mlGo preds 0 prog n with
    | none => none
    | some w => (mlAssign preds t (prog + n)).map (w :: ·)

/-- A group as the predictors see it: number of elements, number of rows of the shared table of its block
(src/tools/groupMetaData.cpp:159), and what predictor `k` says for the data in each row of the table;
multiscaleManager.cpp:469-560. -/
structure Grp where
  n : Nat
  rows : Nat
  verdict : Nat → Nat → Int

/-- The predictions of predictor `k`: one line for each row of the table of each group; multiscaleManager.cpp:468-471,
541-560, 592-601. -/
def lines (gs : List Grp) (k : Nat) : List Int := gs.flatMap (fun g => (List.range g.rows).map (g.verdict k))

/-- The models chosen by `m` predictors; multiscaleManager.cpp:566-660. -/
def mlChoice (m : Nat) (gs : List Grp) : Option (List Nat) :=
  mlAssign ((List.range m).map (lines gs)) (gs.map (·.n)) 0

/-! ## Hierarchical choice -/

/-- The loop `while (!satisfied)` from model `c` on, with the residual of model `c - 1`: returns the chosen model and the
residual left in the workset; `err a b` is the relative error of `b` against `a`, `none` for 0/0; `fuel` bounds the number of
models left; multiscaleManager.cpp:933-988. -/
def hierGo {R K : Type} [LT K] [DecidableLT K] (res : Nat → R) (err : R → R → Option K) (tol : K) (n : Nat) :
    Nat → Nat → Nat × R
  | 0, c => (c, res c)
  | fuel + 1, c =>
    if c = n - 1 then (c, res c)
    else
      match err (res (c - 1)) (res c) with
      | some e => if e < tol then (c, res c) else hierGo res err tol n fuel (c + 1)
      | none => hierGo res err tol n fuel (c + 1)

/-- Hierarchical choice among `n` models; with one model the index `old` of the group stays; multiscaleManager.cpp:925-993. -/
def hier {R K : Type} [LT K] [DecidableLT K] (res : Nat → R) (err : R → R → Option K) (tol : K) (n old : Nat) : Nat × R :=
  if n > 1 then hierGo res err tol n n 1 else (old, res 0)

/-! ## Which users of a model are active -/

/-- A group with the index of its model and its user number; src/tools/group.hpp:222-223.  Both are left unset for groups of
blocks without subgrid models. -/
structure User where
  model : Nat
  user : Nat

/-- The flags handed to model `s`; `none`: a user number outside the vector; multiscaleManager.cpp:419-430 (also 298-309,
685-696). -/
def activeFlags (n s : Nat) (us : List User) : Option (List Bool) :=
  us.foldlM (fun (fl : List Bool) u =>
    if u.model = s then (if u.user < fl.length then some (fl.set u.user true) else none) else some fl)
    (List.replicate n false)

/-! ## Load balancing factor -/

/-- The number printed: minimum and maximum over the processes both go to `gmin`, `gmax` stays zero;
/repo/src/managers/solver/solverManager_setup.hpp:791-799, multiscaleManager.cpp:844-852.  `none`: 0/0. -/
def loadFactor {K : Type} [Field K] [LinearOrder K] (costs : List K) : Option K :=
  let gmin := costs.foldl max 0
  let gmax : K := 0
  if gmin = 0 then none else some (gmax / gmin)

/-- The cost of one process: each group overwrites the last; multiscaleManager.cpp:236, 262. -/
def initCost {K : Type} [Field K] (cost : Nat → K) (groups : List (Nat × Nat)) : K :=
  groups.foldl (fun _ g => cost g.1 * g.2) 0

end MrHyDE.Multiscale
