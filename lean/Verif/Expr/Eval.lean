import Verif.Expr.Decompose
import Verif.Dag.Model

/-
Model of `FunctionManager::evaluate` and its operation tables
(/repo/src/managers/function/functionManager_evaluate.hpp) and of the set-up that precedes
it (flags, constant folding, `Vista` objects).

Simplifications: automatic-differentiation types are represented by their values, hence
`viewdata_`/`viewdata_Sc_` are one field and `data_`/`data_Sc_` are one field (each branch
uses the one selected by its own `is_AD_` flag).  All views of a forest have the same
extents (functionManager_create.hpp:524-531), so the `min` of the extents is that extent;
pointwise operations are written for all indices.
-/

namespace MrHyDE.Expr

/-- The primitive arithmetic used by the tables.  No laws are assumed: `K` may be
    floating-point numbers.  `stod` is `std::stod` (`none`: it throws); `smallInt` is the
    rounding test of functionManager_evaluate.hpp:956-966; `ofNat` converts `dim1`. -/
structure Arith (K : Type) where
  zero : K
  one : K
  half : K
  piVal : K
  add : K → K → K
  mul : K → K → K
  div : K → K → K
  neg : K → K
  pow : K → K → K
  lt : K → K → Bool
  le : K → K → Bool
  sin : K → K
  cos : K → K
  tan : K → K
  exp : K → K
  log : K → K
  sqrt : K → K
  sinh : K → K
  cosh : K → K
  stod : Str → Option K
  smallInt : K → Option Nat
  ofNat : Nat → K

variable {K : Type}

/-- Which table is used (functionManager_evaluate.hpp:237, 570, 891, 1243). -/
inductive Mode where
  | vToV
  | paramToV
  | sToV
  | sToS
deriving DecidableEq, Repr

/-- Repeated multiplication of functionManager_evaluate.hpp:972-979: `acc = acc * base`,
    `n - 1` times. -/
def repMul (A : Arith K) (base : K) : Nat → K
  | 0 => base
  | 1 => base
  | n + 1 => A.mul (repMul A base n) base

/-- One entry of the tables acting on a single value: new value of `data` from the old
    `data` (`d`) and `tdata` (`t`).  functionManager_evaluate.hpp:242-412, 460-560 (VToV),
    577-784, 818-882 (ParamToV), 897-1136, 1170-1234 (SToV), 1247-1310, 1320-1351 (SToS).
    The four tables agree except for `power` and `sqrt` in SToV.  An unknown operation
    leaves `data` unchanged. -/
def applyOp (A : Arith K) (m : Mode) (op : Op) (d t : K) : K :=
  if op = [] then t
  else if op = "plus".toList then A.add d t
  else if op = "minus".toList then A.add d (A.neg t)
  else if op = "times".toList then A.mul d t
  else if op = "divide".toList then A.div d t
  else if op = "power".toList then
    match m, A.smallInt t with
    | .sToV, some n => repMul A d n
    | _, _ => A.pow d t
  else if op = "sin".toList then A.sin t
  else if op = "cos".toList then A.cos t
  else if op = "tan".toList then A.tan t
  else if op = "exp".toList then A.exp t
  else if op = "log".toList then A.log t
  else if op = "abs".toList then (if A.lt t A.zero then A.neg t else t)
  else if op = "max".toList then (if A.lt d t then t else d)
  else if op = "min".toList then (if A.lt t d then t else d)
  else if op = "mean".toList then A.add (A.mul A.half d) (A.mul A.half t)
  else if op = "lt".toList then (if A.lt d t then A.one else A.zero)
  else if op = "lte".toList then (if A.le d t then A.one else A.zero)
  else if op = "gt".toList then (if A.lt t d then A.one else A.zero)
  else if op = "gte".toList then (if A.le t d then A.one else A.zero)
  else if op = "sqrt".toList then
    (if (match m with | .sToV => A.lt t A.zero | _ => A.le t A.zero) then A.zero else A.sqrt t)
  else if op = "sinh".toList then A.sinh t
  else if op = "cosh".toList then A.cosh t
  else d

/-- A view: value at (element, point). [dag.hpp:99-109] -/
abbrev View (K : Type) := Nat → Nat → K

/-- The loop of `emax` in VToV (functionManager_evaluate.hpp:413-428) for one element: the
    running value is compared with `tdata(e,0)`, not with the running value. -/
def emaxLoop (A : Arith K) (t : Nat → K) (dim1 : Nat) : K :=
  (List.range dim1).foldl (fun d n => if A.lt (t 0) (t n) then t n else d) (t 0)

/-- The loop of `emin` in VToV (functionManager_evaluate.hpp:429-444). -/
def eminLoop (A : Arith K) (t : Nat → K) (dim1 : Nat) : K :=
  (List.range dim1).foldl (fun d n => if A.lt (t n) (t 0) then t n else d) (t 0)

/-- The loop of `emean` in VToV (functionManager_evaluate.hpp:445-459). -/
def emeanLoop (A : Arith K) (t : Nat → K) (dim1 : Nat) : K :=
  (List.range dim1).foldl (fun d n => A.add d (A.div (t n) (A.ofNat dim1)))
    (A.div (t 0) (A.ofNat dim1))

/-- `evaluateOpVToV` (functionManager_evaluate.hpp:237-562) on whole views. -/
def opVToV (A : Arith K) (dim1 : Nat) (op : Op) (data tdata : View K) : View K :=
  if op = "emax".toList then fun e _ => emaxLoop A (tdata e) dim1
  else if op = "emin".toList then fun e _ => eminLoop A (tdata e) dim1
  else if op = "emean".toList then fun e _ => emeanLoop A (tdata e) dim1
  else fun e p => applyOp A .vToV op (data e p) (tdata e p)

/-- `emax`, `emin`, `emean` of a single value in the other tables are copies
    (functionManager_evaluate.hpp:785-817, 1137-1169, 1311-1319). -/
def isReduction (op : Op) : Bool :=
  op = "emax".toList || op = "emin".toList || op = "emean".toList

/-- `evaluateOpParamToV` / `evaluateOpSToV` (functionManager_evaluate.hpp:570-884,
    891-1236). -/
def opSToV (A : Arith K) (m : Mode) (op : Op) (data : View K) (t : K) : View K :=
  if isReduction op then fun _ _ => t else fun e p => applyOp A m op (data e p) t

/-- `evaluateOpSToS` (functionManager_evaluate.hpp:1243-1353). -/
def opSToS (A : Arith K) (op : Op) (d t : K) : K :=
  if isReduction op then t else applyOp A .sToS op d t

/-- Data held by the workset (fields, parameters, time) at the moment of evaluation. [functionManager_evaluate.hpp:62-145] -/
structure WksetData (K : Type) where
  soln : Nat → View K
  scal : Nat → View K
  param : Nat → Nat → K
  paramDot : Nat → Nat → K
  time : K

/-- Storage of one branch: `data_Sc_`/`data_` and `viewdata_`/`viewdata_Sc_`
    (/repo/src/tools/dag.hpp:105-109). -/
structure Cell (K : Type) where
  sc : K
  view : View K

/-- A set-up branch: text, what it is, and the flags `is_constant_`, `is_view_`
    (/repo/src/tools/dag.hpp:99-101). -/
structure ABranch where
  expr : Str
  kind : DKind
  isConst : Bool
  isView : Bool
deriving DecidableEq, Repr

/-- The trees of one location after set-up. [dag.hpp:161-217] -/
abbrev Forest := List (List ABranch)

/-- Storage of all branches of the forest. [dag.hpp:99-109] -/
abbrev Store (K : Type) := Nat → Nat → Cell K

/-- Overwrite one cell. [functionManager_evaluate.hpp:130-228] -/
def Store.put (st : Store K) (t b : Nat) (c : Cell K) : Store K :=
  fun t' b' => if t' = t ∧ b' = b then c else st t' b'

/-- Is the leaf a parameter (`is_parameter_`, functionManager_create.hpp:248, 312)? -/
def Leaf.isParam : Leaf → Bool
  | .param .. => true
  | .paramDot .. => true
  | _ => false

/-- `param_data_(param_index_)` of a parameter leaf (functionManager_create.hpp:249-253). -/
def Leaf.paramVal (w : WksetData K) : Leaf → Option K
  | .param j i => some (w.param j i)
  | .paramDot j i => some (w.paramDot j i)
  | _ => none

/-- The parameter value of a branch, `none` unless it is a parameter leaf (`is_parameter_`,
    functionManager_evaluate.hpp:134-145). -/
def DKind.paramVal (w : WksetData K) : DKind → Option K
  | .leaf l => l.paramVal w
  | _ => none

/-- Evaluation of a leaf (functionManager_evaluate.hpp:62-107).  Field leaves take the view of
    the workset; a parameter leaf does nothing; `t` takes the current time.  Simplification:
    the constant of a number or `pi` leaf is written by the set-up
    (functionManager_create.hpp:435, 455) and never overwritten; here it is (re)written at
    evaluation. -/
def evalLeaf (A : Arith K) (w : WksetData K) (l : Leaf) (c : Cell K) : Cell K :=
  match l with
  | .soln j => { c with view := w.soln j }
  | .scal j => { c with view := w.scal j }
  | .param .. => c
  | .paramDot .. => c
  | .num s => match A.stod s with
    | some v => { c with sc := v }
    | none => c
  | .time => { c with sc := w.time }
  | .pi => { c with sc := A.piVal }
  | .unset => c

/-- Combine the dependency `dep` (its branch and cell) into the cell `c` of a branch with
    flag `isView` (functionManager_evaluate.hpp:130-228). -/
def combine (A : Arith K) (w : WksetData K) (dim1 : Nat) (isView : Bool) (op : Op)
    (dep : ABranch) (dc : Cell K) (c : Cell K) : Cell K :=
  if isView then
    if dep.isView then
      match dep.kind.paramVal w with
      | some v => { c with view := opSToV A .paramToV op c.view v }
      | none => { c with view := opVToV A dim1 op c.view dc.view }
    else { c with view := opSToV A .sToV op c.view dc.sc }
  else
    if dep.isView then c
    else { c with sc := opSToS A op c.sc dc.sc }

/-- `FunctionManager::evaluate(findex, tindex, bindex)`
    (functionManager_evaluate.hpp:59-230).  `none`: an index is out of range (undefined
    behaviour) or the fuel ran out (endless recursion). -/
def evalB (A : Arith K) (w : WksetData K) (dim1 : Nat) (F : Forest) :
    Nat → Store K → Nat → Nat → Option (Store K)
  | 0, _, _, _ => none
  | n + 1, st, t, b =>
    match F[t]?.bind (·[b]?) with
    | none => none
    | some br =>
      match br.kind with
      | .leaf l => some (st.put t b (evalLeaf A w l (st t b)))
      | .func j =>
        match evalB A w dim1 F n st j 0 with
        | none => none
        | some st' =>
          let src := st' j 0
          let c := st' t b
          some (st'.put t b (if br.isView then { c with view := src.view }
                             else { c with sc := src.sc }))
      | .node deps =>
        deps.foldlM (fun st d =>
          match evalB A w dim1 F n st t d.2 with
          | none => none
          | some st' =>
            match F[t]?.bind (·[d.2]?) with
            | none => none
            | some db => some (st'.put t b (combine A w dim1 br.isView d.1 db (st' t d.2) (st' t b)))) st

/-- The value seen by the caller of `evaluate(fname, location)`: the `Vista` of the tree
    (functionManager_evaluate.hpp:13-52, /repo/src/tools/dag.hpp:161-217,
    /repo/src/tools/vista.hpp:93-106).  For a parameter the parameter value is
    copied *into the view shared with branch 0* (dag.hpp:185-197, vista.cpp:66-68). -/
def evalTree (A : Arith K) (w : WksetData K) (dim1 : Nat) (F : Forest) (fuel : Nat)
    (st : Store K) (t : Nat) : Option (Store K × View K) :=
  match evalB A w dim1 F fuel st t 0, F[t]?.bind (·[0]?) with
  | some st', some br =>
    match br.kind with
    | .leaf l =>
      match l.paramVal w with
      | some v =>
        let c := st' t 0
        some (st'.put t 0 { c with view := fun _ _ => v }, fun _ _ => v)
      | none => some (st', if br.isView then (st' t 0).view else fun _ _ => (st' t 0).sc)
    | _ => some (st', if br.isView then (st' t 0).view else fun _ _ => (st' t 0).sc)
  | _, _ => none

/-! ### Set-up -/

/-- Flags of a leaf (functionManager_create.hpp:115-119, 182-186, 244-247, 430-432, 449-455).
    `isAD` is not used by the evaluation model. -/
def Leaf.flags : Leaf → Dag.Flags
  | .soln _ => ⟨false, true, true⟩
  | .scal _ => ⟨false, true, false⟩
  | .param .. => ⟨false, true, true⟩
  | .paramDot .. => ⟨false, true, true⟩
  | .num _ => ⟨true, false, false⟩
  | .time => ⟨false, false, false⟩
  | .pi => ⟨true, false, false⟩
  | .unset => ⟨false, false, false⟩

/-- The reference graph of the decomposed trees, nodes being (tree, branch)
    (functionManager_create.hpp:597-617). -/
def depGraph (D : List (List (Str × DKind))) : Dag.Graph (Nat × Nat) where
  leaf := fun v => match D[v.1]?.bind (·[v.2]?) with
    | some (_, .leaf l) => some l.flags
    | _ => none
  succ := fun v => match D[v.1]?.bind (·[v.2]?) with
    | some (_, .func j) => [(j, 0)]
    | some (_, .node deps) => deps.map (fun d => (v.1, d.2))
    | _ => []

end MrHyDE.Expr
