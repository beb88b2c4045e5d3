import Verif.Expr.Eval

/-
Model of the set-up of all trees of one location (`decomposeFunctions`,
/repo/src/managers/function/functionManager_create.hpp:77-551) and of the public entry
`evaluate(fname, location)` (/repo/src/managers/function/functionManager_evaluate.hpp:13-52).

Simplifications: one location (the code treats the forests one after the other and no
branch refers to another forest); Kokkos views are values, so that
`viewdata_ = other.viewdata_` is a copy (in the code it is a reference to the same memory;
only a branch of kind `node` and a `Vista` of a parameter write through a view, and both
write to the view allocated for that branch).
-/

namespace MrHyDE.Expr

variable {K : Type}

/-- Decomposition of all trees in order (functionManager_create.hpp:86-502). -/
def decomposeAll (env : Env) (stodOk : Str → Bool) : List Str → Except Err (List (List Branch))
  | [] => .ok []
  | s :: ss =>
    match decomposeTree env stodOk s with
    | .error e => .error e
    | .ok bs =>
      match decomposeAll env stodOk ss with
      | .error e => .error e
      | .ok r => .ok (bs :: r)

/-- Text and kind of the branches of a decomposed tree; a branch without kind cannot occur
    after the pass loop (functionManager_create.hpp:489-500). -/
def kinds (bs : List Branch) : List (Str × DKind) :=
  bs.filterMap (fun b => b.kind.map (fun k => (b.expr, k)))

/-- All (tree, branch) pairs in the order of the loops of functionManager_create.hpp:507-509. -/
def positions (D : List (List (Str × DKind))) : List (Nat × Nat) :=
  (List.range D.length).flatMap (fun t => (List.range ((D[t]?.getD []).length)).map (fun b => (t, b)))

/-- Flags of one branch (functionManager_create.hpp:513-519).  The exception of a circular
    definition is the result `throws`. -/
def flagBranch (D : List (List (Str × DKind))) (t b : Nat) (x : Str × DKind) : Except Err ABranch :=
  match Dag.classifyBranch (depGraph D) (positions D).length (t, b) with
  | .error _ => .error .throws
  | .ok fl => .ok ⟨x.1, x.2, fl.isConst, fl.isView⟩

/-- Flags of the branches of one tree from branch `b` on (functionManager_create.hpp:509-533). -/
def flagTree (D : List (List (Str × DKind))) (t : Nat) : Nat → List (Str × DKind) → Except Err (List ABranch)
  | _, [] => .ok []
  | b, x :: xs =>
    match flagBranch D t b x with
    | .error e => .error e
    | .ok y =>
      match flagTree D t (b + 1) xs with
      | .error e => .error e
      | .ok r => .ok (y :: r)

/-- Flags of all trees from tree `t` on (functionManager_create.hpp:507-534). -/
def flagAll (D : List (List (Str × DKind))) : Nat → List (List (Str × DKind)) → Except Err Forest
  | _, [] => .ok []
  | t, x :: xs =>
    match flagTree D t 0 x with
    | .error e => .error e
    | .ok y =>
      match flagAll D (t + 1) xs with
      | .error e => .error e
      | .ok r => .ok (y :: r)

/-- Set-up up to the flags (functionManager_create.hpp:77-534): `defs` are the registered
    functions (name, expression) in order. -/
def setup (A : Arith K) (soln scal params : List Str) (defs : List (Str × Str)) : Except Err Forest :=
  let env : Env := ⟨soln, scal, params, defs.map Prod.fst⟩
  match decomposeAll env (fun s => (A.stod s).isSome) (defs.map Prod.snd) with
  | .error e => .error e
  | .ok bss =>
    let D := bss.map kinds
    flagAll D 0 D

/-- The mutable state: storage of the branches and the `Vista` of every tree
    (/repo/src/tools/dag.hpp:105-109, 225). -/
structure State (K : Type) where
  cells : Store K
  vista : Nat → View K

/-- What `setupVista` / `updateVista` show of the root of a tree that is not a parameter
    (/repo/src/tools/dag.hpp:161-217, /repo/src/tools/vista.hpp:93-106). -/
def rootView (br : ABranch) (c : Cell K) : View K :=
  if br.isView then c.view else fun _ _ => c.sc

/-- Overwrite the `Vista` of one tree. [src/managers/function/functionManager_create.hpp:539-547] -/
def State.setVista (s : State K) (t : Nat) (v : View K) : State K :=
  { s with vista := fun t' => if t' = t then v else s.vista t' }

/-- Evaluation of branch `b` of tree `t` if it is constant (functionManager_create.hpp:540-544). -/
def foldStep (A : Arith K) (w : WksetData K) (dim1 : Nat) (F : Forest) (fuel t : Nat) (st : Store K) (b : Nat) :
    Option (Store K) :=
  match F[t]?.bind (·[b]?) with
  | none => none
  | some br => if br.isConst then evalB A w dim1 F fuel st t b else some st

/-- Evaluation of the constant branches of tree `t` followed by `setupVista`
    (functionManager_create.hpp:539-547).  Leaves are included because `evalLeaf` writes the
    constant that the code wrote when the leaf was recognised. -/
def foldTree (A : Arith K) (w : WksetData K) (dim1 : Nat) (F : Forest) (fuel : Nat)
    (s : State K) (t : Nat) : Option (State K) :=
  match (List.range ((F[t]?.getD []).length)).foldlM (foldStep A w dim1 F fuel t) s.cells with
  | none => none
  | some st =>
    match F[t]?.bind (·[0]?) with
    | none => some { s with cells := st }
    | some br => some (State.setVista { s with cells := st } t (rootView br (st t 0)))

/-- Constant folding of all trees (functionManager_create.hpp:537-549). -/
def foldConst (A : Arith K) (w : WksetData K) (dim1 : Nat) (F : Forest) (fuel : Nat)
    (s : State K) : Option (State K) :=
  (List.range F.length).foldlM (foldTree A w dim1 F fuel) s

/-- `evaluate(fname, location)` (functionManager_evaluate.hpp:13-52): the first tree of that
    name; nothing is evaluated if its root is constant.  An unknown name throws (line 44);
    `ub` stands for an index out of range or endless recursion. -/
def evaluate (A : Arith K) (w : WksetData K) (dim1 : Nat) (F : Forest) (names : List Str) (fuel : Nat)
    (s : State K) (fname : Str) : Except Err (State K × View K) :=
  match names.idxOf? fname with
  | none => .error .throws
  | some t =>
    match F[t]?.bind (·[0]?) with
    | none => .error .ub
    | some br =>
      if br.isConst then .ok (s, s.vista t)
      else
        match evalTree A w dim1 F fuel s.cells t with
        | none => .error .ub
        | some (st, v) => .ok (State.setVista { s with cells := st } t v, v)

/-- A history of evaluations: at each call the workset holds other data and another function
    is asked for; the results are collected. [calls of functionManager_evaluate.hpp:13-52] -/
def runCalls (A : Arith K) (dim1 : Nat) (F : Forest) (names : List Str) (fuel : Nat) :
    State K → List (WksetData K × Str) → Except Err (List (View K))
  | _, [] => .ok []
  | s, (w, f) :: cs =>
    match evaluate A w dim1 F names fuel s f with
    | .error e => .error e
    | .ok (s', v) =>
      match runCalls A dim1 F names fuel s' cs with
      | .error e => .error e
      | .ok vs => .ok (v :: vs)

end MrHyDE.Expr
