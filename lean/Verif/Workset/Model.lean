import Mathlib.Data.List.Basic
import Mathlib.Data.List.Infix

/-!
# Solution fields of a workset

Model of `src/tools/fields.hpp` (class `SolutionField`) and of the field part of
`src/tools/workset.cpp` (`createSolutionFields`, `addSolutionField`, `resetSolutionFields`,
`evaluateSolutionField`, `evaluateSideSolutionField`, `getSolutionField`, `isVar`, `isParameter`,
`findBasisIndex`).

Undefined behaviour (reading or writing outside a vector or view) is the outcome `none`.
-/

namespace MrHyDE.Workset

/-- A character string. [fields.hpp:46-165] -/
abbrev Str := List Char

/-- `derivative_type_` of a field, src/tools/fields.hpp:58 and 93-128 (the empty string is
`plain`). -/
inductive DType where
  | plain | grad | div | curl | phasegrad | phasediv | phasecurl | time
  deriving DecidableEq, Repr

/-- `variable_type_` of a field, src/tools/fields.hpp:49. -/
inductive VType where
  | solution | param | aux
  deriving DecidableEq, Repr

/-- `expression_.find(p) != npos`, used throughout src/tools/fields.hpp:62-128. -/
def has (p s : Str) : Bool := s.tails.any (fun t => p.isPrefixOf t)

/-- The vector component, src/tools/fields.hpp:59 and 62-90: every check overrides the ones before
it. -/
def component (s : Str) : Nat :=
  let c0 := 0
  let c0 := if has "[x]".toList s then 0 else c0
  let c1 := if has "[y]".toList s then 1 else c0
  let c2 := if has "[z]".toList s then 2 else c1
  let c3 := if has "[u]".toList s then 3 else c2
  let c4 := if has "[v]".toList s then 4 else c3
  if has "[w]".toList s then 5 else c4

/-- The kind of derivative, src/tools/fields.hpp:93-128: every check overrides the ones before
it. -/
def dtype (s : Str) : DType :=
  let d0 := DType.plain
  let d1 := if has "grad".toList s then DType.grad else d0
  let d2 := if has "div".toList s then DType.div else d1
  let d3 := if has "curl".toList s then DType.curl else d2
  let d4 := if has "phasegrad".toList s then DType.phasegrad else d3
  let d5 := if has "phasediv".toList s then DType.phasediv else d4
  let d6 := if has "phasecurl".toList s then DType.phasecurl else d5
  if has "_t".toList s then DType.time else d6

/-- What the constructor of `SolutionField` fixes once and for all, src/tools/fields.hpp:46-130.
-/
structure Static where
  label : Str
  vtype : VType
  set : Nat
  var : Nat
  dtype : DType
  comp : Nat
  deriving DecidableEq, Repr

/-- The constructor of `SolutionField`, src/tools/fields.hpp:46-130. -/
def mkStatic (label : Str) (set : Nat) (vtype : VType) (var : Nat) : Static :=
  { label := label, vtype := vtype, set := set, var := var,
    dtype := dtype label, comp := component label }

/-- A field: its fixed part, the flag `is_updated_` and the array `data_` (element, point),
src/tools/fields.hpp:132-165.  Simplified: an array that has not been allocated yet
(`is_initialized_` false) is the array of zeros that `checkSolutionFieldAllocation`
(workset.cpp:1632-1653) allocates on first use. -/
structure Field (K : Type) where
  st : Static
  updated : Bool
  data : Nat → Nat → K

/-- The basis family of a variable: the prefix of the basis type that
src/tools/workset.cpp:347-434 tests. -/
inductive BType where
  | hgrad | hdiv | hvol | hcurl | hface | other
  deriving DecidableEq, Repr

/-- One variable or discretized parameter handed to `addSolutionField`,
src/tools/workset.cpp:344. -/
structure Entry where
  name : Str
  vtype : VType
  set : Nat
  var : Nat
  btype : BType
  deriving DecidableEq, Repr

/-- Labels of the volume fields of one variable, src/tools/workset.cpp:347-434, in the order of the
`push_back` calls on `soln_fields`. -/
def volLabels (dim : Nat) (b : BType) (v : Str) : List Str :=
  match b with
  | .hgrad => [v, "grad(".toList ++ v ++ ")[x]".toList, "grad(".toList ++ v ++ ")[y]".toList,
      "grad(".toList ++ v ++ ")[z]".toList, v ++ "_t".toList]
  | .hdiv => [v ++ "[x]".toList, v ++ "[y]".toList, v ++ "[z]".toList,
      "div(".toList ++ v ++ ")".toList,
      v ++ "_t[x]".toList, v ++ "_t[y]".toList, v ++ "_t[z]".toList]
  | .hvol => [v, v ++ "_t".toList]
  | .hcurl => [v ++ "[x]".toList, v ++ "[y]".toList, v ++ "[z]".toList] ++
      (if dim = 2 then ["curl(".toList ++ v ++ ")".toList]
       else ["curl(".toList ++ v ++ ")[x]".toList, "curl(".toList ++ v ++ ")[y]".toList,
         "curl(".toList ++ v ++ ")[z]".toList]) ++
      [v ++ "_t[x]".toList, v ++ "_t[y]".toList, v ++ "_t[z]".toList,
        "div(".toList ++ v ++ ")".toList]
  | .hface => []
  | .other => []

/-- Labels of the side fields of one variable, src/tools/workset.cpp:347-434, in the order of the
`push_back` calls on `side_soln_fields`. -/
def sideLabels (dim : Nat) (b : BType) (v : Str) : List Str :=
  match b with
  | .hgrad => [v, "grad(".toList ++ v ++ ")[x]".toList, "grad(".toList ++ v ++ ")[y]".toList,
      "grad(".toList ++ v ++ ")[z]".toList]
  | .hdiv => [v ++ "[x]".toList, v ++ "[y]".toList, v ++ "[z]".toList,
      "div(".toList ++ v ++ ")".toList]
  | .hvol => [v]
  | .hcurl => [v ++ "[x]".toList, v ++ "[y]".toList, v ++ "[z]".toList] ++
      (if dim = 2 then ["curl(".toList ++ v ++ ")".toList]
       else ["curl(".toList ++ v ++ ")[x]".toList, "curl(".toList ++ v ++ ")[y]".toList,
         "curl(".toList ++ v ++ ")[z]".toList])
  | .hface => [v]
  | .other => []

/-- The fields `createSolutionFields` makes for the volume, src/tools/workset.cpp:146-277
(`is_updated_` false, src/tools/fields.hpp:60). -/
def volFields (K : Type) [Zero K] (dim : Nat) (es : List Entry) : List (Field K) :=
  es.flatMap (fun e => (volLabels dim e.btype e.name).map
    (fun l => { st := mkStatic l e.set e.vtype e.var, updated := false, data := fun _ _ => 0 }))

/-- The fields `createSolutionFields` makes for the sides, src/tools/workset.cpp:146-277. -/
def sideFields (K : Type) [Zero K] (dim : Nat) (es : List Entry) : List (Field K) :=
  es.flatMap (fun e => (sideLabels dim e.btype e.name).map
    (fun l => { st := mkStatic l e.set e.vtype e.var, updated := false, data := fun _ _ => 0 }))

/-- A tabulated basis: extents (element, dof, point, component) and values;
src/tools/workset.hpp:524-528. -/
structure Basis (K : Type) where
  ne : Nat
  ndof : Nat
  npt : Nat
  dim : Nat
  val : Nat → Nat → Nat → Nat → K

/-- The part of the workset from which fields are computed (src/tools/workset.hpp):
`isTransient`, `numip`, `numsideip`, `sol_vals_index`, `sol_vals`, `sol_dot_vals`, `pvals`,
`set_usebasis`, `paramusebasis` and the tabulated bases.  Simplified: coefficient arrays are total
in (element, dof); they are allocated with the cardinality of the basis (workset.cpp:197-202). -/
structure Env (K : Type) where
  transient : Bool
  numip : Nat
  numsideip : Nat
  solIndex : List (List Nat)
  sol : List (Nat → Nat → K)
  solDot : List (Nat → Nat → K)
  pvals : List (Nat → Nat → K)
  setBasis : List (List Nat)
  paramBasis : List Nat
  basis : List (Basis K)
  basisGrad : List (Basis K)
  basisCurl : List (Basis K)
  basisDiv : List (Basis K)
  basisSide : List (Basis K)
  basisGradSide : List (Basis K)

/-- Which set of points the workset is on (`isOnSide`, `isOnPoint`), workset.cpp:1546, 1569. -/
inductive Loc where
  | volume | side | point
  deriving DecidableEq, Repr

variable {K : Type}

/-- The flag `proceed`, src/tools/workset.cpp:981-999 and 1121-1139. -/
def proceed (env : Env K) (loc : Loc) (s : Static) : Bool :=
  let p := true
  let p := if s.dtype = DType.time then
      (if !env.transient then false
       else if loc = Loc.side then false
       else if s.vtype = VType.param then false
       else p)
    else p
  let p := if s.vtype = VType.aux then false else p
  if loc = Loc.point then false else p

/-- The coefficients and the number of the basis, src/tools/workset.cpp:1007-1030 and 1147-1170.
The entry of `sol_vals_index` is read for every kind of variable. -/
def coeffs (env : Env K) (s : Static) : Option ((Nat → Nat → K) × Nat) :=
  match env.solIndex[s.set]? with
  | none => none
  | some row =>
    match row[s.var]? with
    | none => none
    | some uindex =>
      match s.vtype with
      | .solution =>
        match (if s.dtype = DType.time then env.solDot[uindex]? else env.sol[uindex]?),
          (env.setBasis[s.set]?).bind (fun r => r[s.var]?) with
        | some c, some b => some (c, b)
        | _, _ => none
      | .param =>
        match env.pvals[s.var]?, env.paramBasis[s.var]? with
        | some c, some b => some (c, b)
        | _, _ => none
      | .aux => none

/-- The value accumulated at one point over the dofs `1..n`, starting from dof 0,
src/tools/workset.cpp:1042-1052, 1093-1103. -/
def accumulate [Mul K] [Add K] (c : Nat → K) (b : Nat → K) (ndof : Nat) : K :=
  (List.range (ndof - 1)).foldl (fun acc d => acc + c (d + 1) * b (d + 1)) (c 0 * b 0)

/-- The loop over elements and points writing the field, src/tools/workset.cpp:1036-1053 and
1085-1103.  Writing past the width of the field array, or reading dof 0 of an empty basis, is
undefined. -/
def fill [Mul K] [Add K] (width : Nat) (c : Nat → Nat → K) (b : Basis K) (comp : Nat)
    (data : Nat → Nat → K) : Option (Nat → Nat → K) :=
  if b.ne = 0 ∨ b.npt = 0 then some data
  else if b.ndof = 0 ∨ width < b.npt then none
  else some (fun e p =>
    if e < b.ne ∧ p < b.npt then accumulate (c e) (fun d => b.val e d p comp) b.ndof
    else data e p)

/-- The tabulated basis chosen for a field that is not a divergence in the volume,
src/tools/workset.cpp:1057-1081 (with `isOnSide` false). -/
def volBasis (env : Env K) (s : Static) (b : Nat) : Option (Basis K) :=
  match s.dtype with
  | .grad => env.basisGrad[b]?
  | .curl => env.basisCurl[b]?
  | _ => env.basis[b]?

/-- The tabulated basis chosen for a field that is not a divergence on a side,
src/tools/workset.cpp:1198-1204. -/
def sideBasis (env : Env K) (s : Static) (b : Nat) : Option (Basis K) :=
  match s.dtype with
  | .grad => env.basisGradSide[b]?
  | _ => env.basisSide[b]?

/-- The part of the evaluation after the basis is known, src/tools/workset.cpp:1083-1106 and
1206-1229. -/
def evalWith [Mul K] [Add K] [Zero K] (width : Nat) (c : Nat → Nat → K) (b : Basis K)
    (f : Field K) : Option (Field K) :=
  if b.dim ≤ f.st.comp then some { f with updated := true, data := fun _ _ => 0 }
  else (fill width c b f.st.comp f.data).map (fun d => { f with updated := true, data := d })

/-- `evaluateSolutionField`, src/tools/workset.cpp:979-1110, for a field of the volume list. -/
def evalVol [Mul K] [Add K] [Zero K] (env : Env K) (f : Field K) : Option (Field K) :=
  if proceed env .volume f.st then
    match coeffs env f.st with
    | none => none
    | some (c, bid) =>
      if f.st.dtype = DType.div then
        match env.basisDiv[bid]? with
        | none => none
        | some b => (fill env.numip c b 0 f.data).map (fun d => { f with updated := true, data := d })
      else
        match volBasis env f.st bid with
        | none => none
        | some b => evalWith env.numip c b f
  else some f

/-- `evaluateSideSolutionField`, src/tools/workset.cpp:1118-1233; reached only from the side branch
of `getSolutionField`. -/
def evalSide [Mul K] [Add K] [Zero K] (env : Env K) (f : Field K) : Option (Field K) :=
  if proceed env .side f.st then
    match coeffs env f.st with
    | none => none
    | some (c, bid) =>
      if f.st.dtype = DType.div then
        match env.basisDiv[bid]? with
        | none => none
        | some b =>
          (fill env.numsideip c b 0 f.data).map (fun d => { f with updated := true, data := d })
      else
        match sideBasis env f.st bid with
        | none => none
        | some b => evalWith env.numsideip c b f
  else some f

/-- The workset: data, position, and the lists `soln_fields` and `side_soln_fields`. [workset.hpp:200-260, fields.hpp:46-130] -/
structure State (K : Type) where
  env : Env K
  loc : Loc
  vol : List (Field K)
  side : List (Field K)

/-- `resetSolutionFields`, src/tools/workset.cpp:464-475. -/
def reset (s : State K) : State K :=
  { s with vol := s.vol.map (fun f => { f with updated := false }),
           side := s.side.map (fun f => { f with updated := false }) }

/-- The search for a label and the evaluation of the field found,
src/tools/workset.cpp:1547-1568 and 1592-1613: the list after the call and the array returned.
The search stops at the first match; without a match the array one past the end of the list is
read. -/
def request (eval : Field K → Option (Field K)) (label : Str) (evaluate mark : Bool) :
    List (Field K) → Option (List (Field K) × (Nat → Nat → K))
  | [] => none
  | f :: fs =>
    if label = f.st.label then
      if evaluate && !f.updated then (eval f).map (fun g => (g :: fs, g.data))
      else if mark then some ({ f with updated := true } :: fs, f.data)
      else some (f :: fs, f.data)
    else (request eval label evaluate mark fs).map (fun r => (f :: r.1, r.2))

/-- `getSolutionField`, src/tools/workset.cpp:1538-1620, in the volume and on sides.  Simplified:
the point branch (1571-1596) is `getPoint` in Verif/Workset/Points.lean; it never evaluates
(`proceed` is false on points). -/
def getField [Mul K] [Add K] [Zero K] (s : State K) (label : Str) (evaluate mark : Bool) :
    Option (State K × (Nat → Nat → K)) :=
  match s.loc with
  | .volume => (request (evalVol s.env) label evaluate mark s.vol).map
      (fun r => ({ s with vol := r.1 }, r.2))
  | .side => (request (evalSide s.env) label evaluate mark s.side).map
      (fun r => ({ s with side := r.1 }, r.2))
  | .point => none

/-- What the rest of the code does to a workset.  `load` is the arrival of new coefficients, bases
or flags followed by a reset of the fields (assemblyManager_workset.hpp:1112-1155,
workset.cpp:455-458); `move` changes `isOnSide`/`isOnPoint`; `ask` is a request with
`evaluate = true` and `markUpdated = false`, the defaults of `getSolutionField`
(workset.hpp:223-224). -/
inductive Op (K : Type) where
  | load (env : Env K)
  | move (loc : Loc)
  | ask (label : Str)

/-- One operation; a request on a point leaves the volume and side lists alone
(workset.cpp:1571-1596, 998-1000). -/
def step [Mul K] [Add K] [Zero K] (s : State K) : Op K → Option (State K)
  | .load env => some (reset { s with env := env })
  | .move loc => some { s with loc := loc }
  | .ask label =>
    match s.loc with
    | .point => some s
    | _ => (getField s label true false).map Prod.fst

/-- A sequence of operations. [calls of the operations above, workset.cpp:981-1620] -/
def run [Mul K] [Add K] [Zero K] (s : State K) : List (Op K) → Option (State K)
  | [] => some s
  | o :: os => (step s o).bind (fun s' => run s' os)

/-! ### Looking a name up -/

/-- A C++ `while` loop run for at most `fuel` tests of its condition; `none` means that it has not
stopped yet. [loops of workset.cpp:1754-1811] -/
def whileLoop {σ : Type} (cond : σ → Bool) (body : σ → σ) : Nat → σ → Option σ
  | 0, _ => none
  | fuel + 1, s => if cond s then whileLoop cond body fuel (body s) else some s

/-- The local variables of the lookups: `found`, `varindex`, `index`. [workset.cpp:1754-1811] -/
structure Look where
  found : Bool
  varindex : Nat
  index : Nat
  deriving DecidableEq, Repr

/-- `isVar`, src/tools/workset.cpp:1779-1795, with at most `fuel` tests of the loop condition.
`index` is what the caller passed in. -/
def isVar (varlist : List Str) (v : Str) (index fuel : Nat) : Option Look :=
  whileLoop (fun s => !s.found && s.varindex < varlist.length)
    (fun s => if varlist[s.varindex]? = some v then { s with found := true, index := s.varindex }
      else { s with varindex := s.varindex + 1 })
    fuel { found := false, varindex := 0, index := index }

/-- `isParameter`, src/tools/workset.cpp:1800-1811: there is no `else` branch. -/
def isParameter (varlist : List Str) (v : Str) (index fuel : Nat) : Option Look :=
  whileLoop (fun s => !s.found && s.varindex < varlist.length)
    (fun s => if varlist[s.varindex]? = some v then { s with found := true, index := s.varindex }
      else s)
    fuel { found := false, varindex := 0, index := index }

/-- `findBasisIndex`, src/tools/workset.cpp:1754-1775: whether the name was found and the basis
number written; the outer `none` is a loop that has not stopped after `fuel` tests, the inner
`none` an access outside `usebasis`/`paramusebasis`. -/
def findBasisIndex (varlist : List Str) (usebasis : List Nat) (params : List Str)
    (paramusebasis : List Nat) (v : Str) (basisindex fuel : Nat) : Option (Option (Bool × Nat)) :=
  match isVar varlist v 0 fuel with
  | none => none
  | some l =>
    if l.found then some ((usebasis[l.index]?).map (fun b => (true, b)))
    else
      match isParameter params v l.index fuel with
      | none => none
      | some q =>
        if q.found then some ((paramusebasis[q.index]?).map (fun b => (true, b)))
        else some (some (false, basisindex))

end MrHyDE.Workset
