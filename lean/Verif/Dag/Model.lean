/-
Model of the dependency check of the function manager.

Source: /repo/src/managers/function/functionManager_create.hpp, lines 587-619
(`FunctionManager::checkDepDataType`) and lines 507-519 (the loop that calls it
for every branch of every tree), /repo/src/tools/dag.hpp (class `Branch`).
-/

namespace MrHyDE.Dag

/-- The three flags threaded by reference through `checkDepDataType`
    (functionManager_create.hpp:589 and 513): `isConst`, `isView`, `isAD`. -/
structure Flags where
  isConst : Bool
  isView : Bool
  isAD : Bool
deriving DecidableEq, Repr

/-- Start values of the flags for each checked branch
    (functionManager_create.hpp:513). -/
def Flags.start : Flags := ⟨true, false, false⟩

/-- What the check looks at in one branch (dag.hpp:23-117): a leaf carries its three
    flags; a function reference (`is_func_`) has one dependency, branch 0 of the tree
    `func_index_`; any other branch has the dependencies `dep_list_`.
    Simplification: a node is an element of an arbitrary type `α` instead of the triple
    (forest, tree, branch). -/
structure Graph (α : Type) where
  /-- `some fl` when the branch is a leaf (`is_leaf_`) with these flags -/
  leaf : α → Option Flags
  /-- dependencies of a branch that is not a leaf, in the order they are visited -/
  succ : α → List α

/-- The effect of a leaf on the flags (functionManager_create.hpp:597-607). -/
def Flags.absorb (fl info : Flags) : Flags where
  isConst := fl.isConst && info.isConst
  isView := fl.isView || info.isView
  isAD := fl.isAD || info.isAD

/-- Outcomes other than normal return: `cycle` is the exception thrown in
    functionManager_create.hpp:592; `fuel` means the fuel argument of the Lean function
    ran out and does not correspond to anything in the code (the theorems show that it is
    never returned when the fuel exceeds the number of branches). -/
inductive Stop where
  | cycle
  | fuel
deriving DecidableEq, Repr

/-- `checkDepDataType` (functionManager_create.hpp:587-619).  The list `path` holds the
    branches whose `currently_checking_` flag is set: the flag is set on entry (line 595)
    and cleared on exit (line 618), so the flagged branches are exactly those on the call
    stack. -/
def check {α : Type} [DecidableEq α] (G : Graph α) : Nat → List α → α → Flags → Except Stop Flags
  | 0, _, _, _ => .error .fuel
  | n + 1, path, v, fl =>
    if v ∈ path then .error .cycle
    else match G.leaf v with
      | some info => .ok (fl.absorb info)
      | none => (G.succ v).foldlM (fun fl w => check G n (v :: path) w fl) fl

/-- The call made for every branch by `decomposeFunctions`
    (functionManager_create.hpp:513-519); `N` is the number of branches. -/
def classifyBranch {α : Type} [DecidableEq α] (G : Graph α) (N : Nat) (v : α) : Except Stop Flags :=
  check G (N + 1) [] v Flags.start

end MrHyDE.Dag
