import Verif.Workset.Model
import Mathlib.Algebra.BigOperators.Group.Finset.Basic
import Mathlib.Algebra.Ring.Defs

/-!
# What a solution field means

The user's view: a variable `v` has quantities `v`, `v[x]`, `grad(v)[x]`, `div(v)`, `curl(v)`,
`curl(v)[x]`, `v_t`, `v_t[x]`; each is a finite element function, the sum over the degrees of
freedom of coefficient times basis function.  Nothing here uses the classification of the code.
-/

namespace MrHyDE.Workset

/-- A coordinate direction. -/
inductive Axis where
  | x | y | z
  deriving DecidableEq, Repr

/-- The text naming a direction. -/
def Axis.text : Axis → Str
  | .x => "[x]".toList
  | .y => "[y]".toList
  | .z => "[z]".toList

/-- The number of a direction. -/
def Axis.num : Axis → Nat
  | .x => 0
  | .y => 1
  | .z => 2

/-- The quantities a user can ask for. -/
inductive Qty where
  | val | valc (a : Axis) | grad (a : Axis) | div | curl | curlc (a : Axis) | dt | dtc (a : Axis)
  deriving DecidableEq, Repr

/-- The text of the request for a quantity of variable `v`. -/
def Qty.label (v : Str) : Qty → Str
  | .val => v
  | .valc a => v ++ a.text
  | .grad a => "grad(".toList ++ v ++ ")".toList ++ a.text
  | .div => "div(".toList ++ v ++ ")".toList
  | .curl => "curl(".toList ++ v ++ ")".toList
  | .curlc a => "curl(".toList ++ v ++ ")".toList ++ a.text
  | .dt => v ++ "_t".toList
  | .dtc a => v ++ "_t".toList ++ a.text

/-- The kind of derivative a quantity is. -/
def Qty.kind : Qty → DType
  | .val | .valc _ => .plain
  | .grad _ => .grad
  | .div => .div
  | .curl | .curlc _ => .curl
  | .dt | .dtc _ => .time

/-- The component of a quantity. -/
def Qty.comp : Qty → Nat
  | .valc a | .grad a | .curlc a | .dtc a => a.num
  | _ => 0

/-- A name that does not itself look like a quantity. -/
def PlainName (v : Str) : Prop :=
  ¬ ("grad".toList <:+: v) ∧ ¬ ("div".toList <:+: v) ∧ ¬ ("curl".toList <:+: v) ∧
  ¬ ("_t".toList <:+: v) ∧ '(' ∉ v ∧ ')' ∉ v ∧ '[' ∉ v

/-- The quantities a basis family provides in the volume. -/
def volQty (dim : Nat) : BType → List Qty
  | .hgrad => [.val, .grad .x, .grad .y, .grad .z, .dt]
  | .hdiv => [.valc .x, .valc .y, .valc .z, .div, .dtc .x, .dtc .y, .dtc .z]
  | .hvol => [.val, .dt]
  | .hcurl => [.valc .x, .valc .y, .valc .z, .dtc .x, .dtc .y, .dtc .z] ++
      (if dim = 2 then [.curl] else [.curlc .x, .curlc .y, .curlc .z])
  | _ => []

/-- The quantities a basis family provides on sides. -/
def sideQty (dim : Nat) : BType → List Qty
  | .hgrad => [.val, .grad .x, .grad .y, .grad .z]
  | .hdiv => [.valc .x, .valc .y, .valc .z, .div]
  | .hvol => [.val]
  | .hcurl => [.valc .x, .valc .y, .valc .z] ++
      (if dim = 2 then [.curl] else [.curlc .x, .curlc .y, .curlc .z])
  | .hface => [.val]
  | .other => []

variable {K : Type}

/-- The coefficients of a variable or parameter: of its time derivative if the quantity is one. -/
def coefOf (env : Env K) (e : Entry) (q : Qty) : Option (Nat → Nat → K) :=
  match e.vtype with
  | .solution => do
    let u ← (← env.solIndex[e.set]?)[e.var]?
    if q.kind = .time then env.solDot[u]? else env.sol[u]?
  | .param => env.pvals[e.var]?
  | .aux => none

/-- The number of the basis of a variable or parameter. -/
def basisNum (env : Env K) (e : Entry) : Option Nat :=
  match e.vtype with
  | .solution => do (← env.setBasis[e.set]?)[e.var]?
  | .param => env.paramBasis[e.var]?
  | .aux => none

/-- The table of the basis functions, or of the derivative of them that the quantity needs, at the
volume points. -/
def tableVol (env : Env K) (q : Qty) (b : Nat) : Option (Basis K) :=
  match q with
  | .grad _ => env.basisGrad[b]?
  | .div => env.basisDiv[b]?
  | .curl | .curlc _ => env.basisCurl[b]?
  | _ => env.basis[b]?

/-- The table of the basis functions or of their gradient at the side points (no other derivative
is tabulated there). -/
def tableSide (env : Env K) (q : Qty) (b : Nat) : Option (Basis K) :=
  match q with
  | .val | .valc _ => env.basisSide[b]?
  | .grad _ => env.basisGradSide[b]?
  | _ => none

/-- The finite element function at point `p` of element `el`: the sum over the degrees of freedom;
a component the basis does not have is zero. -/
def femValue [Semiring K] (c : Nat → Nat → K) (b : Basis K) (comp el p : Nat) : K :=
  if comp < b.dim then ∑ d ∈ Finset.range b.ndof, c el d * b.val el d p comp else 0

/-- The value of a quantity; a divergence has no components. -/
def qtyValue [Semiring K] (c : Nat → Nat → K) (b : Basis K) (q : Qty) (el p : Nat) : K :=
  if q = .div then ∑ d ∈ Finset.range b.ndof, c el d * b.val el d p 0
  else femValue c b q.comp el p

end MrHyDE.Workset
