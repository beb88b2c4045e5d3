import Mathlib.Algebra.Order.Field.Basic
import Verif.Solver.Model

/-!
# Model of the optimisation vectors and objectives

`src/optimization/MrHyDE_OptVector.hpp`, `MrHyDE_Objective.hpp`, `MrHyDE_Stochastic_Objective.hpp`.

A component (one time level of the discretized or of the scalar parameters) is a list of numbers, the global
vector of all ranks; a null pointer is `none`.  The component operations of the library (`set`, `plus`, `scale`,
`axpy`, `dot` of `ROL::TpetraMultiVector` and `ROL::StdVector`) are entrywise; different lengths raise an exception
there and give `none` here, as do a null pointer and an index past the end.
-/

namespace MrHyDE.Opt

open MrHyDE.Solver (fdiv Quot)

variable {K : Type}

/-- `field_vec` or `scalar_vec`, MrHyDE_OptVector.hpp:30-37. -/
abbrev Comps (K : Type) := List (Option (List K))

/-- The data members of `MrHyDE_OptVector` the operations read, MrHyDE_OptVector.hpp:30-46.  `diag` is
`diagParamMass` (absent when `have_mass_diag` is false), `haveMass` is `have_mass`. -/
structure OptVec (K : Type) where
  field : Comps K
  scalar : Comps K
  isDual : Bool := false
  dscale : K
  diag : Option (List K) := none
  haveMass : Bool := false
deriving DecidableEq

/-- Entrywise operation of two components; the library raises an exception for different lengths. [calls at src/optimization/MrHyDE_OptVector.hpp:867-982] -/
def zip2 (f : K → K → K) (u v : List K) : Option (List K) :=
  if u.length = v.length then some (List.zipWith f u v) else none

/-- The loop of `set`, `plus` and `axpy` over one list of components, MrHyDE_OptVector.hpp:867-887, 892-913,
987-1008: own null components are skipped, the argument is dereferenced otherwise. -/
def upd (f : K → K → K) : Comps K → Comps K → Option (Comps K)
  | [], _ => some []
  | none :: cs, ds => (upd f cs ds.tail).map (none :: ·)
  | some _ :: _, [] => none
  | some _ :: _, none :: _ => none
  | some u :: cs, some v :: ds => do
      let w ← zip2 f u v
      let r ← upd f cs ds
      return some w :: r

/-- The loop of `scale`, `zero` and `putScalar`, MrHyDE_OptVector.hpp:918-982. -/
def mapC (f : K → K) (c : Comps K) : Comps K := c.map (·.map (·.map f))

/-- Common part of `set`, `plus`, `axpy`: fields, then scalars; the other members are kept. [src/optimization/MrHyDE_OptVector.hpp:867-982] -/
def OptVec.update (f : K → K → K) (x y : OptVec K) : Option (OptVec K) := do
  let a ← upd f x.field y.field
  let b ← upd f x.scalar y.scalar
  return { x with field := a, scalar := b }

/-- `set`, MrHyDE_OptVector.hpp:867-887. -/
def OptVec.set (x y : OptVec K) : Option (OptVec K) := x.update (fun _ b => b) y

/-- `putScalar`, MrHyDE_OptVector.hpp:964-982. -/
def OptVec.putScalar (a : K) (x : OptVec K) : OptVec K :=
  { x with field := mapC (fun _ => a) x.field, scalar := mapC (fun _ => a) x.scalar }

/-- `clone`, MrHyDE_OptVector.hpp:1108-1142: new components of the same sizes (zero here; the code leaves the
content to the library), the mass data passed on, `isDual` and `dualityScale` not.  A vector without scalars gets one
null component (constructor 665-706). -/
def OptVec.clone [Zero K] [One K] (x : OptVec K) : OptVec K :=
  { field := mapC (fun _ => 0) x.field
    scalar := if x.scalar = [] then [none] else mapC (fun _ => 0) x.scalar
    isDual := false, dscale := 1, diag := x.diag, haveMass := x.haveMass }

section
variable [Field K]

/-- `plus`, MrHyDE_OptVector.hpp:892-913. -/
def OptVec.plus (x y : OptVec K) : Option (OptVec K) := x.update (· + ·) y

/-- `axpy`, MrHyDE_OptVector.hpp:987-1008. -/
def OptVec.axpy (x : OptVec K) (a : K) (y : OptVec K) : Option (OptVec K) := x.update (fun p q => p + a * q) y

/-- `scale`, MrHyDE_OptVector.hpp:918-936. -/
def OptVec.scale (a : K) (x : OptVec K) : OptVec K :=
  { x with field := mapC (a * ·) x.field, scalar := mapC (a * ·) x.scalar }

/-- `zero`, MrHyDE_OptVector.hpp:941-959. -/
def OptVec.zero (x : OptVec K) : OptVec K := x.putScalar 0

/-- Dot product of two components (library; exception for different lengths). [calls at src/optimization/MrHyDE_OptVector.hpp:1016-1083] -/
def dotL (u v : List K) : Option K :=
  if u.length = v.length then some (List.zipWith (· * ·) u v).sum else none

/-- A loop of `dot` over one list of components, MrHyDE_OptVector.hpp:1037-1041, 1046-1053, 1056-1063, 1070-1074,
1087-1091; `w` is the scaling applied to a copy of the argument's component. -/
def dotC (w : List K → Option (List K)) : Comps K → Comps K → Option K
  | [], _ => some 0
  | none :: cs, ds => dotC w cs ds.tail
  | some _ :: _, [] => none
  | some _ :: _, none :: _ => none
  | some u :: cs, some v :: ds => do
      let v' ← w v
      let a ← dotL u v'
      let r ← dotC w cs ds
      return a + r

/-- The contribution of the fields to `dot`, MrHyDE_OptVector.hpp:1016-1083.  The branch for a mass matrix without
diagonal (1066-1068) is empty in the code.  Division by a zero weight is not distinguished. -/
def OptVec.fieldDot (x y : OptVec K) : Option K :=
  if x.isDual ≠ y.isDual then dotC some x.field y.field
  else
    match x.diag with
    | some D => dotC (fun v => zip2 (fun a d => if x.isDual then a / d else a * d) v D) x.field y.field
    | none =>
      if x.haveMass then some 0
      else (dotC some x.field y.field).map (fun s => if x.isDual then s * (1 / x.dscale) else s * x.dscale)

/-- `dot`, MrHyDE_OptVector.hpp:1013-1095. -/
def OptVec.dot (x y : OptVec K) : Option K := do
  let a ← x.fieldDot y
  let b ← dotC some x.scalar y.scalar
  return a + b

/-- `dual`, MrHyDE_OptVector.hpp:1147-1172: copies of the components (the library's `dual` of a component is the
component), the mass data, `isDual` false and scale one. -/
def OptVec.dual (x : OptVec K) : OptVec K := { x with isDual := false, dscale := 1 }

/-- `apply`, MrHyDE_OptVector.hpp:1177-1193 (the library's `apply` of a component is its dot product). -/
def OptVec.apply (x y : OptVec K) : Option K := do
  let a ← dotC some x.field y.field
  let b ← dotC some x.scalar y.scalar
  return a + b

end

/-! ### Objectives -/

section
variable [Field K] [LinearOrder K]

/-- `checkNewParams`, MrHyDE_Objective.hpp:99-115, and `checkNewx`, MrHyDE_Stochastic_Objective.hpp:189-208: copy the
current vector, subtract, compare the quotient of the norms with the tolerance.  Simplified: the code compares the
square roots, the model the squares with `tol2 = tol²`, which is the same comparison for non-negative squares. -/
def checkNew (tol2 : K) (cur x : OptVec K) : Option Bool := do
  let d ← cur.clone.set cur
  let d ← d.axpy (-1) x
  let dn ← d.dot d
  let rn ← cur.dot cur
  return (fdiv dn rn).gt tol2

/-- What an objective depends on: the current parameters and the parameters the stored forward solution was computed
with; the flag tells that it was computed while generating data. [src/optimization/MrHyDE_Objective.hpp:27-58] -/
structure OState (K : Type) where
  cur : OptVec K
  solved : Option (OptVec K × Bool) := none
deriving DecidableEq

/-- Calls: evaluation, gradient, generation of data (analysisManager_solve.hpp:420-452, 644-675). -/
inductive Call (K : Type) where
  | value (x : OptVec K)
  | gradient (x : OptVec K)
  | generate

/-- `updateParams` followed by `forwardModel`, MrHyDE_Objective.hpp:68-71 and 87-89 (parameterManager_update.hpp:25-62
copies the entries). -/
def OState.forward (s : OState K) (x : OptVec K) : Option (OState K) := do
  let c ← s.cur.set x
  return ⟨c, some (c, false)⟩

/-- One call, MrHyDE_Objective.hpp:60-97.  The second component of the result tells what the answer was computed
from: the current parameters and the stored forward solution. -/
def OState.call (tol2 : K) (s : OState K) : Call K → Option (OState K × OptVec K × Option (OptVec K × Bool))
  | .value x => do
      let s' ← s.forward x
      return (s', s'.cur, s'.solved)
  | .gradient x => do
      let isNew ← checkNew tol2 s.cur x
      let s' ← if isNew then s.forward x else some s
      return (s', s'.cur, s'.solved)
  | .generate => some (⟨s.cur, some (s.cur, true)⟩, s.cur, some (s.cur, true))

/-- A history of calls. [calls of src/optimization/MrHyDE_Objective.hpp:60-97] -/
def OState.run (tol2 : K) (s : OState K) : List (Call K) → Option (OState K)
  | [] => some s
  | c :: cs => do
      let r ← s.call tol2 c
      r.1.run tol2 cs

/-! ### Stochastic objective -/

/-- Squared distance of a sample point and the current stochastic parameters, MrHyDE_Stochastic_Objective.hpp:170-175;
`none` when there are fewer parameters than coordinates. -/
def sqDist : List K → List K → Option K
  | [], _ => some 0
  | _ :: _, [] => none
  | p :: ps, q :: qs => do
      let r ← sqDist ps qs
      return (p - q) * (p - q) + r

/-- `IdentifySample`, MrHyDE_Stochastic_Objective.hpp:163-187: the first sample within the tolerance; `none` is the
value −1, an index out of range for the callers. -/
def identify (eps : K) : List (List K) → List K → Option Nat
  | [], _ => none
  | p :: ps, q => do
      let d ← sqDist p q
      if d < eps then return 0 else (identify eps ps q).map (· + 1)

/-- State of the stochastic objective: optimisation parameters, stochastic parameters, what the stored solution was
computed with, and the cache, one entry for each sample (`none`: not yet allocated; an entry `none`: allocated, all
zeros). [src/optimization/MrHyDE_Stochastic_Objective.hpp:27-60] -/
structure SState (K : Type) where
  cur : OptVec K
  sample : List K
  soln : Option (OptVec K × List K) := none
  cache : Option (List (Option (OptVec K × List K))) := none
deriving DecidableEq

/-- Calls of the stochastic objective. [src/optimization/MrHyDE_Stochastic_Objective.hpp:61-187] -/
inductive SCall (K : Type) where
  | setParameter (q : List K)
  | value (x : OptVec K)
  | gradient (x : OptVec K)

/-- `updateParams`, `forwardModel` and `Cache_State`, MrHyDE_Stochastic_Objective.hpp:69-76, 93-97, 130-147 with
`Instantiate_Solution_Storage` 111-128.  Simplified: every solve has the same number of steps. -/
def SState.forward (eps : K) (pts : List (List K)) (s : SState K) (x : OptVec K) : Option (SState K) := do
  let c ← s.cur.set x
  let i ← identify eps pts s.sample
  let cache := s.cache.getD (List.replicate pts.length none)
  return { s with cur := c, soln := some (c, s.sample), cache := some (cache.set i (some (c, s.sample))) }

/-- One call, MrHyDE_Stochastic_Objective.hpp:61-107, 211-217.  Reading the cache before it is allocated is an index
out of range. -/
def SState.call (tol2 eps : K) (pts : List (List K)) (s : SState K) : SCall K → Option (SState K)
  | .setParameter q => some { s with sample := q }
  | .value x => s.forward eps pts x
  | .gradient x => do
      let isNew ← checkNew tol2 s.cur x
      if isNew then s.forward eps pts x
      else do
        let i ← identify eps pts s.sample
        let cache ← s.cache
        let e ← cache[i]?
        return { s with soln := e }

/-- A history of calls. [calls of src/optimization/MrHyDE_Stochastic_Objective.hpp:61-187] -/
def SState.run (tol2 eps : K) (pts : List (List K)) (s : SState K) : List (SCall K) → Option (SState K)
  | [] => some s
  | c :: cs => do
      let s' ← s.call tol2 eps pts c
      s'.run tol2 eps pts cs

end

end MrHyDE.Opt
