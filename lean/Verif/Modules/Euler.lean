import Verif.Modules.Loops
import Mathlib.Algebra.Field.Basic
import Mathlib.Algebra.Order.Field.Basic
import Mathlib.Analysis.SpecialFunctions.Sqrt

/-!
# The Euler equations, hybridised (C125): model and specification

`euler` keeps the state `S` of an element and a trace `Ŝ` on its sides.  The flux through a side is
`F(Ŝ)·n + Stab (S - Ŝ)`, with one of two stabilisations, and on the boundary of the domain a far-field or a slip condition is
imposed through the flux.
-/

set_option linter.unusedSectionVars false

namespace MrHyDE.Modules.Euler

variable {K : Type}

/-! ## Model -/

/-- The conserved quantities at one point, src/physics/euler.cpp:28-39; components beyond the dimension are not read. -/
structure State (K : Type) where
  rho : K
  mx : K
  my : K
  mz : K
  e : K

/-- The variables in the order in which the constructor registers them, src/physics/euler.cpp:28-36. -/
def myvars (dim : Nat) : List String :=
  ["rho", "rhoux", "rhoE"] ++ (if dim > 1 then ["rhouy"] else []) ++ (if dim > 2 then ["rhouz"] else [])

/-- The numbers of the variables, src/physics/euler.hpp:291. -/
structure Nums where
  rho : Nat
  rhoux : Nat
  rhoE : Nat
  rhouy : Nat
  rhouz : Nat
  deriving DecidableEq

/-- `setWorkset`: the numbers are positions in the list of variables of the whole physics set,
src/physics/euler.cpp:715-732.  `init` stands for the values the members have before. -/
def setWorkset (init : Nums) (varlist : List String) : Nums :=
  varlist.zipIdx.foldl (fun n v =>
    if v.1 = "rho" then { n with rho := v.2 }
    else if v.1 = "rhoux" then { n with rhoux := v.2 }
    else if v.1 = "rhouy" then { n with rhouy := v.2 }
    else if v.1 = "rhouz" then { n with rhouz := v.2 }
    else if v.1 = "rhoE" then { n with rhoE := v.2 }
    else n) init

/-- Whether the numbers are inside the storage for `spaceDim + 2` equations, src/physics/euler.cpp:121-136.
Reading or writing beyond is undefined. -/
def inStorage (dim : Nat) (n : Nums) : Bool :=
  decide (n.rho < dim + 2) && decide (n.rhoux < dim + 2) && decide (n.rhoE < dim + 2) &&
    (decide (dim ≤ 1) || decide (n.rhouy < dim + 2)) && (decide (dim ≤ 2) || decide (n.rhouz < dim + 2))

/-- A write into a view with one index, src/physics/euler.cpp:1037. -/
def put (v : Nat → K) (i : Nat) (x : K) : Nat → K := fun j => if j = i then x else v j

/-- A write into the flux storage at one point, src/physics/euler.cpp:786. -/
def putF (f : Nat → Nat → K) (i d : Nat) (x : K) : Nat → Nat → K :=
  fun j c => if j = i ∧ c = d then x else f j c

section
variable [Field K]

/-- The pressure of `computeThermoProps`, src/physics/euler.cpp:945-952. -/
def pressure (dim : Nat) (gamma : K) (s : State K) : K :=
  let p := (gamma - 1) * (s.e - 1 / 2 * s.mx * s.mx / s.rho)
  let p := if dim > 1 then p + (gamma - 1) * (-(1 / 2) * s.my * s.my / s.rho) else p
  if dim > 2 then p + (gamma - 1) * (-(1 / 2) * s.mz * s.mz / s.rho) else p

/-- The temperature of `computeThermoProps`, src/physics/euler.cpp:956. -/
def temperature (dim : Nat) (gamma mach : K) (s : State K) : K :=
  gamma * mach * mach * pressure dim gamma s / s.rho

/-- `computeInviscidFluxes` at one point, src/physics/euler.cpp:777-894; `old` is what the storage held before. -/
def inviscid (dim : Nat) (n : Nums) (gamma : K) (s : State K) (old : Nat → Nat → K) : Nat → Nat → K :=
  let p := pressure dim gamma s
  if dim = 1 then
    let f := putF old n.rho 0 s.mx
    let f := putF f n.rhoux 0 (s.mx * s.mx / s.rho + p)
    putF f n.rhoE 0 (s.e * s.mx / s.rho + p * s.mx / s.rho)
  else if dim = 2 then
    let f := putF old n.rho 0 s.mx
    let f := putF f n.rho 1 s.my
    let f := putF f n.rhoux 0 (s.mx * s.mx / s.rho + p)
    let f := putF f n.rhoux 1 (s.mx * s.my / s.rho)
    let f := putF f n.rhouy 0 (s.mx * s.my / s.rho)
    let f := putF f n.rhouy 1 (s.my * s.my / s.rho + p)
    let f := putF f n.rhoE 0 (s.e * s.mx / s.rho + p * s.mx / s.rho)
    putF f n.rhoE 1 (s.e * s.my / s.rho + p * s.my / s.rho)
  else
    let f := putF old n.rho 0 s.mx
    let f := putF f n.rho 1 s.my
    let f := putF f n.rho 2 s.mz
    let f := putF f n.rhoux 0 (s.mx * s.mx / s.rho + p)
    let f := putF f n.rhoux 1 (s.mx * s.my / s.rho)
    let f := putF f n.rhoux 2 (s.mx * s.mz / s.rho)
    let f := putF f n.rhouy 0 (s.mx * s.my / s.rho)
    let f := putF f n.rhouy 1 (s.my * s.my / s.rho + p)
    let f := putF f n.rhouy 2 (s.my * s.mz / s.rho)
    let f := putF f n.rhoE 0 (s.e * s.mx / s.rho + p * s.mx / s.rho)
    let f := putF f n.rhoE 1 (s.e * s.my / s.rho + p * s.my / s.rho)
    putF f n.rhoE 2 (s.e * s.mz / s.rho + p * s.mz / s.rho)

/-- The difference of two states in a view, src/physics/euler.cpp:1037-1046 and 1204-1213. -/
def delta (dim : Nat) (n : Nums) (s t : State K) : Nat → K :=
  let v : Nat → K := fun _ => 0
  let v := put v n.rho (s.rho - t.rho)
  let v := put v n.rhoux (s.mx - t.mx)
  let v := put v n.rhoE (s.e - t.e)
  let v := if dim > 1 then put v n.rhouy (s.my - t.my) else v
  if dim > 2 then put v n.rhouz (s.mz - t.mz) else v

/-- What `eigendecompFluxJacobian` fills, src/physics/euler.cpp:1291. -/
structure Eig (K : Type) where
  left : Nat → Nat → K
  lam : Nat → K
  right : Nat → Nat → K

/-- `eigendecompFluxJacobian` in one dimension, src/physics/euler.cpp:1291-1331; the normal is not an argument. -/
def eig1 (mx rho a gamma : K) : Eig K :=
  let gm1 := gamma - 1
  { right := fun i j => match i, j with
      | 0, 0 => 1
      | 1, 0 => mx / rho - a
      | 2, 0 => a * a / gm1 + 1 / 2 * mx * mx / (rho * rho) - mx / rho * a
      | 0, 1 => 1
      | 1, 1 => mx / rho
      | 2, 1 => 1 / 2 * mx * mx / (rho * rho)
      | 0, 2 => 1
      | 1, 2 => mx / rho + a
      | 2, 2 => a * a / gm1 + 1 / 2 * mx * mx / (rho * rho) + mx / rho * a
      | _, _ => 0
    left := fun i j => match i, j with
      | 0, 0 => gm1 / 4 * mx * mx / (rho * rho) / (a * a) + mx / rho / (2 * a)
      | 0, 1 => -gm1 / (a * a * a) * mx / rho - 1 / (2 * a)
      | 0, 2 => gm1 / (2 * a * a)
      | 1, 0 => 1 - gm1 / 2 * mx * mx / (rho * rho) / (a * a)
      | 1, 1 => gm1 * mx / rho / (a * a)
      | 1, 2 => -gm1 / (a * a)
      | 2, 0 => gm1 / 4 * mx * mx / (rho * rho) / (a * a) - mx / rho / (2 * a)
      | 2, 1 => -gm1 / (a * a * a) * mx / rho + 1 / (2 * a)
      | 2, 2 => gm1 / (2 * a * a)
      | _, _ => 0
    lam := fun j => match j with
      | 0 => mx / rho - a
      | 1 => mx / rho
      | 2 => mx / rho + a
      | _ => 0 }

/-- `eigendecompFluxJacobian` in two dimensions, src/physics/euler.cpp:1334-1389. -/
def eig2 (mx my rho nx ny a gamma : K) : Eig K :=
  let vn := mx / rho * nx + my / rho * ny
  let ek := 1 / 2 * (mx * mx + my * my) / (rho * rho)
  let gm1 := gamma - 1
  { right := fun i j => match i, j with
      | 0, 0 => 1
      | 1, 0 => mx / rho - a * nx
      | 2, 0 => my / rho - a * ny
      | 3, 0 => a * a / gm1 + ek - vn * a
      | 0, 1 => 1
      | 1, 1 => mx / rho
      | 2, 1 => my / rho
      | 3, 1 => ek
      | 0, 2 => 1
      | 1, 2 => mx / rho + a * nx
      | 2, 2 => my / rho + a * ny
      | 3, 2 => a * a / gm1 + ek + vn * a
      | 0, 3 => 0
      | 1, 3 => ny
      | 2, 3 => -nx
      | 3, 3 => mx / rho * ny - my / rho * nx
      | _, _ => 0
    left := fun i j => match i, j with
      | 0, 0 => 1 / (2 * a * a) * (gm1 * ek + a * vn)
      | 0, 1 => 1 / (2 * a * a) * (-gm1 * mx / rho - a * nx)
      | 0, 2 => 1 / (2 * a * a) * (-gm1 * my / rho - a * ny)
      | 0, 3 => 1 / (2 * a * a) * gm1
      | 1, 0 => 1 / (a * a) * (a * a - gm1 * ek)
      | 1, 1 => 1 / (a * a) * (gm1 * mx / rho)
      | 1, 2 => 1 / (a * a) * (gm1 * my / rho)
      | 1, 3 => 1 / (a * a) * (-gm1)
      | 2, 0 => 1 / (2 * a * a) * (gm1 * ek - a * vn)
      | 2, 1 => 1 / (2 * a * a) * (-gm1 * mx / rho + a * nx)
      | 2, 2 => 1 / (2 * a * a) * (-gm1 * my / rho + a * ny)
      | 2, 3 => 1 / (2 * a * a) * gm1
      | 3, 0 => my / rho * nx - mx / rho * ny
      | 3, 1 => ny
      | 3, 2 => -nx
      | 3, 3 => 0
      | _, _ => 0
    lam := fun j => match j with
      | 0 => vn - a
      | 1 => vn
      | 2 => vn + a
      | 3 => vn
      | _ => 0 }

/-- The choice of the pair of matrices in three dimensions, src/physics/euler.cpp:1409-1420. -/
def whichMat [LinearOrder K] (nx ny nz : K) : Nat :=
  if |ny| > |nx| ∨ |nz| > |nx| then (if |nz| > |ny| then 3 else 2) else 1

/-- `eigendecompFluxJacobian` in three dimensions, src/physics/euler.cpp:1392-1551. -/
def eig3 [LinearOrder K] (mx my mz rho nx ny nz a gamma : K) : Eig K :=
  let vn := mx / rho * nx + my / rho * ny + mz / rho * nz
  let ek := 1 / 2 * (mx * mx + my * my + mz * mz) / (rho * rho)
  let gm1 := gamma - 1
  let w := whichMat nx ny nz
  { right := fun i j => match i, j with
      | 0, 0 => 1
      | 1, 0 => mx / rho - a * nx
      | 2, 0 => my / rho - a * ny
      | 3, 0 => mz / rho - a * nz
      | 4, 0 => a * a / gm1 + ek - vn * a
      | 0, 1 => 1
      | 1, 1 => mx / rho
      | 2, 1 => my / rho
      | 3, 1 => mz / rho
      | 4, 1 => ek
      | 0, 2 => 1
      | 1, 2 => mx / rho + a * nx
      | 2, 2 => my / rho + a * ny
      | 3, 2 => mz / rho + a * nz
      | 4, 2 => a * a / gm1 + ek + vn * a
      | 0, 3 => 0
      | 1, 3 => if w = 3 then -nz else ny
      | 2, 3 => if w = 3 then 0 else -nx
      | 3, 3 => if w = 3 then nx else 0
      | 4, 3 => if w = 3 then mz / rho * nx - mx / rho * nz else mx / rho * ny - my / rho * nx
      | 0, 4 => 0
      | 1, 4 => if w = 1 then -nz else 0
      | 2, 4 => if w = 1 then 0 else nz
      | 3, 4 => if w = 1 then nx else -ny
      | 4, 4 => if w = 1 then mz / rho * nx - mx / rho * nz else my / rho * nz - mz / rho * ny
      | _, _ => 0
    left := fun i j => match i, j with
      | 0, 0 => 1 / (2 * a * a) * (gm1 * ek + a * vn)
      | 0, 1 => 1 / (2 * a * a) * (-gm1 * mx / rho - a * nx)
      | 0, 2 => 1 / (2 * a * a) * (-gm1 * my / rho - a * ny)
      | 0, 3 => 1 / (2 * a * a) * (-gm1 * mz / rho - a * nz)
      | 0, 4 => 1 / (2 * a * a) * gm1
      | 1, 0 => 1 / (a * a) * (a * a - gm1 * ek)
      | 1, 1 => 1 / (a * a) * (gm1 * mx / rho)
      | 1, 2 => 1 / (a * a) * (gm1 * my / rho)
      | 1, 3 => 1 / (a * a) * (gm1 * mz / rho)
      | 1, 4 => 1 / (a * a) * (-gm1)
      | 2, 0 => 1 / (2 * a * a) * (gm1 * ek - a * vn)
      | 2, 1 => 1 / (2 * a * a) * (-gm1 * mx / rho + a * nx)
      | 2, 2 => 1 / (2 * a * a) * (-gm1 * my / rho + a * ny)
      | 2, 3 => 1 / (2 * a * a) * (-gm1 * mz / rho + a * nz)
      | 2, 4 => 1 / (2 * a * a) * gm1
      | 3, 0 => if w = 1 then (my / rho - vn * ny) / nx
          else if w = 2 then (vn * nx - mx / rho) / ny else (mx / rho - vn * nx) / nz
      | 3, 1 => if w = 1 then ny else if w = 2 then (1 - nx * nx) / ny else (nx * nx - 1) / nz
      | 3, 2 => if w = 1 then (ny * ny - 1) / nx else if w = 2 then -nx else nx * ny / nz
      | 3, 3 => if w = 1 then ny * nz / nx else if w = 2 then -nx * nz / ny else nx
      | 3, 4 => 0
      | 4, 0 => if w = 1 then (vn * nz - mz / rho) / nx
          else if w = 2 then (mz / rho - vn * nz) / ny else (vn * ny - my / rho) / nz
      | 4, 1 => if w = 1 then -nz else if w = 2 then nx * nz / ny else -nx * ny / nz
      | 4, 2 => if w = 1 then -ny * nz / nx else if w = 2 then nz else (1 - ny * ny) / nz
      | 4, 3 => if w = 1 then (1 - nz * nz) / nx else if w = 2 then (nz * nz - 1) / ny else -ny
      | 4, 4 => 0
      | _, _ => 0
    lam := fun j => match j with
      | 0 => vn - a
      | 1 => vn
      | 2 => vn + a
      | 3 => vn
      | 4 => vn
      | _ => 0 }

/-- The call of `eigendecompFluxJacobian` for the dimension, src/physics/euler.cpp:1050-1061 and 1190-1201; `nrm` is the
normal. -/
def eig [LinearOrder K] (dim : Nat) (t : State K) (nrm : Nat → K) (a gamma : K) : Eig K :=
  if dim = 1 then eig1 t.mx t.rho a gamma
  else if dim = 2 then eig2 t.mx t.my t.rho (nrm 0) (nrm 1) a gamma
  else eig3 t.mx t.my t.mz t.rho (nrm 0) (nrm 1) (nrm 2) a gamma

/-- `matVec`, src/physics/euler.hpp:267-279. -/
def matVec (n : Nat) (A : Nat → Nat → K) (x : Nat → K) : Nat → K :=
  fun i => (List.range n).foldl (fun y j => y + A i j * x j) 0

/-- `R f(Λ) L` applied to a vector, as the three steps of the code, src/physics/euler.cpp:1063-1069. -/
def spectral (n : Nat) (g : Eig K) (f : K → K) (v : Nat → K) : Nat → K :=
  let tmp := matVec n g.left v
  let tmp := fun i => tmp i * f (g.lam i)
  matVec n g.right tmp

/-- The normal velocity, src/physics/euler.cpp:1073-1075 and 1258-1260. -/
def normalVel (dim : Nat) (s : State K) (nrm : Nat → K) : K :=
  let vn := nrm 0 * s.mx / s.rho
  let vn := if dim > 1 then vn + nrm 1 * s.my / s.rho else vn
  if dim > 2 then vn + nrm 2 * s.mz / s.rho else vn

/-- `computeStabilizationTerm` at one point, src/physics/euler.cpp:1031-1083; `s` is the state, `t` the trace and `a` the speed
of sound of the trace. -/
def stabTerm [LinearOrder K] (dim : Nat) (n : Nums) (roe : Bool) (gamma a : K) (nrm : Nat → K) (s t : State K) : Nat → K :=
  let ds := delta dim n s t
  if roe then spectral (dim + 2) (eig dim t nrm a gamma) (fun l => |l|) ds
  else
    let vn := normalVel dim t nrm
    let lambdaMax := max |vn + a| |vn - a|
    fun i => ds i * lambdaMax

/-- The far-field branch of `computeBoundaryTerm`, src/physics/euler.cpp:1188-1254; `far` is the given state. -/
def farField [LinearOrder K] (dim : Nat) (n : Nums) (gamma a : K) (nrm : Nat → K) (s t far : State K) : Nat → K :=
  let g := eig dim t nrm a gamma
  let bound := spectral (dim + 2) g (fun l => (l + |l|) / 2) (delta dim n s t)
  let ds := spectral (dim + 2) g (fun l => (l - |l|) / 2) (delta dim n far t)
  fun i => bound i - ds i

/-- The slip branch of `computeBoundaryTerm`, src/physics/euler.cpp:1256-1281. -/
def slip (dim : Nat) (n : Nums) (nrm : Nat → K) (s t : State K) (old : Nat → K) : Nat → K :=
  let vn := normalVel dim s nrm
  let b := put old n.rho (s.rho - t.rho)
  let b := put b n.rhoE (s.e - t.e)
  let b := put b n.rhoux ((s.mx / s.rho - vn * nrm 0) - t.mx / t.rho)
  let b := if dim > 1 then put b n.rhouy ((s.my / s.rho - vn * nrm 1) - t.my / t.rho) else b
  if dim > 2 then put b n.rhouz ((s.mz / s.rho - vn * nrm 2) - t.mz / t.rho) else b

/-- `F(Ŝ)·n` plus the stabilisation, for equation `i`, src/physics/euler.cpp:664-665, 679-680, 695-697. -/
def sideFlux (dim : Nat) (f : Nat → Nat → K) (stab : Nat → K) (nrm : Nat → K) (i : Nat) : K :=
  if dim = 1 then f i 0 * nrm 0 + stab i
  else if dim = 2 then f i 0 * nrm 0 + f i 1 * nrm 1 + stab i
  else f i 0 * nrm 0 + f i 1 * nrm 1 + f i 2 * nrm 2 + stab i

/-- `computeFlux` at one point of a side, src/physics/euler.cpp:609-706; the condition is that of the density alone.
`old` is what `wkset->flux` held before, `oldF` and `oldB` what the two storages of the module held. -/
def computeFlux [LinearOrder K] (dim : Nat) (n : Nums) (roe : Bool) (sidetype : String) (gamma a : K) (nrm : Nat → K)
    (s t far : State K) (oldF : Nat → Nat → K) (oldB old : Nat → K) : Nat → K :=
  let f := inviscid dim n gamma t oldF
  let b := if sidetype = "Far-field" then farField dim n gamma a nrm s t far
    else if sidetype = "Slip" then slip dim n nrm s t oldB
    else stabTerm dim n roe gamma a nrm s t
  if sidetype = "Far-field" ∨ sidetype = "Slip" then fun i => if i < dim + 2 then b i else old i
  else if sidetype = "interface" then fun i => if i < dim + 2 then sideFlux dim f b nrm i else old i
  else old

/-- What `volumeResidual` reads at one integration point, src/physics/euler.cpp:154-177. -/
structure Pt (K : Type) where
  wts : K
  st : State K
  dt : State K
  src : State K
  basis : Nat → Nat → K
  grad : Nat → Nat → Nat → K

/-- The two additions of one equation, src/physics/euler.cpp:199-201, 268-271, 363-367; `dt` and `src` are the time derivative
and the source of the equation, `e` its number. -/
def volAdds (dim : Nat) (n : Nums) (gamma : K) (e : Nat) (dt src : Pt K → K) (p : Pt K) (d : Nat) : List K :=
  let f := inviscid dim n gamma p.st (fun _ _ => 0)
  [dt p * p.basis e d * p.wts,
   if dim = 1 then -(f e 0 * p.grad e d 0 + src p * p.basis e d) * p.wts
   else if dim = 2 then -(f e 0 * p.grad e d 0 + f e 1 * p.grad e d 1 + src p * p.basis e d) * p.wts
   else -(f e 0 * p.grad e d 0 + f e 1 * p.grad e d 1 + f e 2 * p.grad e d 2 + src p * p.basis e d) * p.wts]

/-- The loops of `volumeResidual`, src/physics/euler.cpp:181-465, in their order. -/
def volLoops (dim : Nat) (n : Nums) (gamma : K) (ndof : Nat → Nat) : List (Loop K (Pt K)) :=
  let mk := fun (e : Nat) (dt src : Pt K → K) =>
    ({ eq := e, ndof := ndof e, adds := volAdds dim n gamma e dt src } : Loop K (Pt K))
  [mk n.rho (fun p => p.dt.rho) (fun p => p.src.rho), mk n.rhoux (fun p => p.dt.mx) (fun p => p.src.mx)] ++
    (if dim > 1 then [mk n.rhouy (fun p => p.dt.my) (fun p => p.src.my)] else []) ++
    (if dim > 2 then [mk n.rhouz (fun p => p.dt.mz) (fun p => p.src.mz)] else []) ++
    [mk n.rhoE (fun p => p.dt.e) (fun p => p.src.e)]

/-- `volumeResidual` on one element, src/physics/euler.cpp:152-466; undefined when a number is outside the storage.
Simplified: the flux storage starts from zeros (Kokkos initialises views), and the entries the module does not write stay so. -/
def volumeResidual (dim : Nat) (n : Nums) (gamma : K) (ndof : Nat → Nat) (off : Nat → Nat → Nat) (pts : List (Pt K))
    (res : Nat → K) : Option (Nat → K) :=
  if inStorage dim n then some (runLoops off pts (volLoops dim n gamma ndof) res) else none

/-- What `boundaryResidual` reads at one point of a side, src/physics/euler.cpp:502-511. -/
structure SidePt (K : Type) where
  wts : K
  nrm : Nat → K
  sound : K
  st : State K
  tr : State K
  basis : Nat → Nat → K

/-- `boundaryResidual` on one side of one element, src/physics/euler.cpp:472-586: for the equations `0` to `spaceDim + 1`,
whatever the condition of the side. -/
def boundaryResidual [LinearOrder K] (dim : Nat) (n : Nums) (roe : Bool) (gamma : K) (ndof : Nat → Nat)
    (off : Nat → Nat → Nat) (pts : List (SidePt K)) (res : Nat → K) : Option (Nat → K) :=
  if inStorage dim n then
    some (runLoops off pts ((List.range (dim + 2)).map (fun (i : Nat) =>
      ({ eq := i, ndof := ndof i, adds := fun p d =>
          [sideFlux dim (inviscid dim n gamma p.tr (fun _ _ => 0)) (stabTerm dim n roe gamma p.sound p.nrm p.st p.tr) p.nrm i *
            p.wts * p.basis i d] } : Loop K (SidePt K)))) res)
  else none

end

/-- The speed of sound of `computeThermoProps`, src/physics/euler.cpp:957. -/
noncomputable def sound (dim : Nat) (gamma mach : ℝ) (s : State ℝ) : ℝ :=
  Real.sqrt (temperature dim gamma mach s) / mach

/-- The reference Mach number of the constructor, src/physics/euler.cpp:90-93. -/
noncomputable def machRef (uRef gamma rGas tRef : ℝ) : ℝ := uRef / Real.sqrt (gamma * rGas * tRef)

/-! ## Specification -/

/-- The conservation laws.  [specification, no code] -/
inductive Law | mass | momentum (c : Nat) | energy
  deriving DecidableEq

/-- The laws in `dim` dimensions.  [specification, no code] -/
def Law.ok (dim : Nat) : Law → Prop
  | .mass => True
  | .momentum c => c < dim
  | .energy => True

/-- The momentum by component.  [specification, no code] -/
def State.mom (s : State K) (c : Nat) : K := if c = 0 then s.mx else if c = 1 then s.my else s.mz

/-- The density of a law.  [specification, no code] -/
def State.get (s : State K) : Law → K
  | .mass => s.rho
  | .momentum c => s.mom c
  | .energy => s.e

/-- The number of the equation of a law.  [specification, no code] -/
def Nums.of (n : Nums) : Law → Nat
  | .mass => n.rho
  | .momentum c => if c = 0 then n.rhoux else if c = 1 then n.rhouy else n.rhouz
  | .energy => n.rhoE

/-- The numbering the constructor of the module leads to when no other module is used.  [specification, no code] -/
def ownNums : Nums := { rho := 0, rhoux := 1, rhoE := 2, rhouy := 3, rhouz := 4 }

/-- The order of the laws in the matrices of the eigenvectors: mass, momentum, energy.  [specification, no code] -/
def lawAt (dim i : Nat) : Law := if i = 0 then .mass else if i = dim + 1 then .energy else .momentum (i - 1)

section
variable [Field K]

/-- Ideal gas: `p = (gamma - 1)(rho E - |rho u|² / (2 rho))`.  [specification, no code] -/
def idealPressure (dim : Nat) (gamma : K) (s : State K) : K :=
  (gamma - 1) * (s.e - (∑ c ∈ Finset.range dim, s.mom c ^ 2) / (2 * s.rho))

/-- The flux of a law in direction `d`: transport with the velocity `m_d / rho`, the pressure, and its work.
[specification, no code] -/
def physFlux (dim : Nat) (gamma : K) (s : State K) (d : Nat) : Law → K
  | .mass => s.mom d
  | .momentum c => s.mom c * (s.mom d / s.rho) + (if c = d then idealPressure dim gamma s else 0)
  | .energy => (s.e + idealPressure dim gamma s) * (s.mom d / s.rho)

/-- The flux of a law through a surface with normal `nrm`.  [specification, no code] -/
def normalFlux (dim : Nat) (gamma : K) (nrm : Nat → K) (s : State K) (l : Law) : K :=
  ∑ d ∈ Finset.range dim, physFlux dim gamma s d l * nrm d

/-- The state moved by `x` times a vector in the order of the matrices.  [specification, no code] -/
def State.move (dim : Nat) (s : State K) (x : K) (w : Nat → K) : State K :=
  { rho := s.rho + x * w 0
    mx := s.mx + x * w 1
    my := if dim > 1 then s.my + x * w 2 else s.my
    mz := if dim > 2 then s.mz + x * w 3 else s.mz
    e := s.e + x * w (dim + 1) }

/-- The normal has length one.  [specification, no code] -/
def UnitNormal (dim : Nat) (nrm : Nat → K) : Prop := ∑ d ∈ Finset.range dim, nrm d ^ 2 = 1

/-- The velocity by component.  [specification, no code] -/
def State.vel (s : State K) (c : Nat) : K := s.mom c / s.rho

/-- A gas at a positive density and pressure with the given speed of sound.  [specification, no code] -/
def IsSound (dim : Nat) (gamma a : K) (s : State K) : Prop :=
  s.rho ≠ 0 ∧ gamma ≠ 0 ∧ gamma ≠ 1 ∧ a ≠ 0 ∧ a ^ 2 = gamma * idealPressure dim gamma s / s.rho

end

end MrHyDE.Modules.Euler
