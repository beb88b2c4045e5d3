import Verif.Modules.EulerLemmas

/-!
# The shallow water equations, hybridised (C144): model and specification

`shallowwaterHybridized` keeps depth and discharge of an element and a trace of them on its sides.  The flux through a side is
`F(Ŝ)·n + Stab (S - Ŝ)`, with one of two stabilisations, and on the boundary of the domain a far-field or a slip condition is
imposed through the flux.
-/

set_option linter.unusedSectionVars false

namespace MrHyDE.Modules.ShallowHybrid

open MrHyDE.Modules.Euler (put putF Eig matVec spectral)

variable {K : Type}

/-! ## Model

A state at one point is a function of the component: 0 is the depth `H`, 1 and 2 are `Hux` and `Huy`,
src/physics/shallowwaterHybridized.cpp:29-33. -/

/-- The variables in the order in which the constructor registers them, src/physics/shallowwaterHybridized.cpp:29-33. -/
def myvars (dim : Nat) : List String := ["H", "Hux"] ++ (if dim > 1 then ["Huy"] else [])

/-- The stabilisation of the constructor, src/physics/shallowwaterHybridized.cpp:50-55: whether an error message is printed, and
whether the Roe-like matrix is used (the branch of lines 534 and 554 looks at `roestab` alone).  The message does not stop
the run. -/
def options (maxEV roe : Option Bool) : Bool × Bool :=
  let m := maxEV.getD false
  let r := roe.getD false
  (!(m || r), r)

/-- `setWorkset`: the numbers are positions in the list of variables of the whole physics set,
src/physics/shallowwaterHybridized.cpp:381-389, as a function of the component.  `init` stands for the values the members have
before. -/
def setWorkset (init : Nat → Nat) (varlist : List String) : Nat → Nat :=
  varlist.zipIdx.foldl (fun n v =>
    if v.1 = "H" then put n 0 v.2
    else if v.1 = "Hux" then put n 1 v.2
    else if v.1 = "Huy" then put n 2 v.2
    else n) init

/-- How many source terms `volumeResidual` collects, src/physics/shallowwaterHybridized.cpp:120-124. -/
def numSources (dim : Nat) : Nat := if dim > 1 then 3 else 2

/-- Whether all accesses stay inside the storage: the loops over all `nv` variables of the physics set index the source terms and
the `spaceDim + 1` equations of the flux storage, src/physics/shallowwaterHybridized.cpp:90-104, 138-145, 226-239, and the numbers
index the flux storage.  Outside the behaviour is undefined. -/
def inStorage (dim nv : Nat) (n : Nat → Nat) : Bool :=
  decide (nv ≤ numSources dim) && decide (nv ≤ dim + 1) && decide (n 0 < nv) && decide (n 1 < nv) &&
    (decide (dim ≤ 1) || decide (n 2 < nv))

section
variable [Field K]

/-- `computeFluxVector` at one point, src/physics/shallowwaterHybridized.cpp:426-478; `old` is what the storage held before.
Nothing is written in three dimensions. -/
def fluxVector (dim : Nat) (n : Nat → Nat) (g : K) (s : Nat → K) (old : Nat → Nat → K) : Nat → Nat → K :=
  if dim = 1 then
    let f := putF old (n 0) 0 (s 1)
    putF f (n 1) 0 (s 1 * s 1 / s 0 + 1 / 2 * s 0 * s 0 * g)
  else if dim = 2 then
    let f := putF old (n 0) 0 (s 1)
    let f := putF f (n 0) 1 (s 2)
    let f := putF f (n 1) 0 (s 1 * s 1 / s 0 + 1 / 2 * s 0 * s 0 * g)
    let f := putF f (n 1) 1 (s 1 * s 2 / s 0)
    let f := putF f (n 2) 0 (s 1 * s 2 / s 0)
    putF f (n 2) 1 (s 2 * s 2 / s 0 + 1 / 2 * s 0 * s 0 * g)
  else old

/-- The difference of two states in a view, src/physics/shallowwaterHybridized.cpp:547-552, 693-698, 713-718. -/
def delta (dim : Nat) (n : Nat → Nat) (s t : Nat → K) : Nat → K :=
  let v : Nat → K := fun _ => 0
  let v := put v (n 0) (s 0 - t 0)
  let v := put v (n 1) (s 1 - t 1)
  if dim > 1 then put v (n 2) (s 2 - t 2) else v

/-- `eigendecompFluxJacobian` in one dimension, src/physics/shallowwaterHybridized.cpp:764-789; the normal is not an argument.
`a` stands for the square root of line 779. -/
def eig1 (hux h a : K) : Eig K :=
  { right := fun i j => match i, j with
      | 0, 0 => 1
      | 1, 0 => hux / h - a
      | 0, 1 => 1
      | 1, 1 => hux / h + a
      | _, _ => 0
    left := fun i j => match i, j with
      | 0, 0 => (hux / h + a) / (2 * a)
      | 0, 1 => -1 / (2 * a)
      | 1, 0 => (a - hux / h) / (2 * a)
      | 1, 1 => 1 / (2 * a)
      | _, _ => 0
    lam := fun j => match j with
      | 0 => hux / h - a
      | 1 => hux / h + a
      | _ => 0 }

/-- `eigendecompFluxJacobian` in two dimensions, src/physics/shallowwaterHybridized.cpp:791-823; `a` stands for the square root
of line 797. -/
def eig2 (hux huy h nx ny a : K) : Eig K :=
  let vn := hux / h * nx + huy / h * ny
  { right := fun i j => match i, j with
      | 0, 0 => 1
      | 1, 0 => hux / h + a * nx
      | 2, 0 => huy / h + a * ny
      | 0, 1 => 0
      | 1, 1 => -a * ny
      | 2, 1 => a * nx
      | 0, 2 => 1
      | 1, 2 => hux / h - a * nx
      | 2, 2 => huy / h - a * ny
      | _, _ => 0
    left := fun i j => match i, j with
      | 0, 0 => 1 / 2 - vn / (2 * a)
      | 0, 1 => nx / (2 * a)
      | 0, 2 => ny / (2 * a)
      | 1, 0 => (ny * hux / h - nx * huy / h) / a
      | 1, 1 => -ny / a
      | 1, 2 => nx / a
      | 2, 0 => 1 / 2 + vn / (2 * a)
      | 2, 1 => -nx / (2 * a)
      | 2, 2 => -ny / (2 * a)
      | _, _ => 0
    lam := fun j => match j with
      | 0 => vn + a
      | 1 => vn
      | 2 => vn - a
      | _ => 0 }

/-- The call of `eigendecompFluxJacobian` for the dimension, src/physics/shallowwaterHybridized.cpp:556-563 and 683-690; in three
dimensions the views keep the zeros they were made with. -/
def eig (dim : Nat) (t : Nat → K) (nrm : Nat → K) (a : K) : Eig K :=
  if dim = 1 then eig1 (t 1) (t 0) a
  else if dim = 2 then eig2 (t 1) (t 2) (t 0) (nrm 0) (nrm 1) a
  else { left := fun _ _ => 0, lam := fun _ => 0, right := fun _ _ => 0 }

/-- The normal velocity, src/physics/shallowwaterHybridized.cpp:575-577 and 739-740. -/
def normalVel (dim : Nat) (s nrm : Nat → K) : K :=
  let vn := nrm 0 * s 1 / s 0
  if dim > 1 then vn + nrm 1 * s 2 / s 0 else vn

/-- `computeStabilizationTerm` at one point, src/physics/shallowwaterHybridized.cpp:541-587; `s` is the state, `t` the trace and
`a` the square root of line 576; `nv` is the number of variables of the physics set. -/
def stabTerm [LinearOrder K] (dim nv : Nat) (n : Nat → Nat) (roe : Bool) (a : K) (nrm s t : Nat → K) : Nat → K :=
  let ds := delta dim n s t
  if roe then spectral nv (eig dim t nrm a) (fun l => |l|) ds
  else
    let vn := normalVel dim t nrm
    let lambdaMax := max |vn + a| |vn - a|
    fun i => ds i * lambdaMax

/-- The far-field branch of `computeBoundaryTerm`, src/physics/shallowwaterHybridized.cpp:681-735; `far` is the given state. -/
def farField [LinearOrder K] (dim nv : Nat) (n : Nat → Nat) (a : K) (nrm s t far : Nat → K) : Nat → K :=
  let g := eig dim t nrm a
  let bound := spectral nv g (fun l => (l + |l|) / 2) (delta dim n s t)
  let ds := spectral nv g (fun l => (l - |l|) / 2) (delta dim n far t)
  fun i => bound i - ds i

/-- The slip branch of `computeBoundaryTerm`, src/physics/shallowwaterHybridized.cpp:737-754. -/
def slip (dim : Nat) (n : Nat → Nat) (nrm s t : Nat → K) (old : Nat → K) : Nat → K :=
  let vn := normalVel dim s nrm
  let b := put old (n 0) (s 0 - t 0)
  let b := put b (n 1) ((s 1 / s 0 - vn * nrm 0) - t 1 / t 0)
  if dim > 1 then put b (n 2) ((s 2 / s 0 - vn * nrm 1) - t 2 / t 0) else b

/-- `F(Ŝ)·n` plus the stabilisation, for equation `i` (`none`: nothing is written), src/physics/shallowwaterHybridized.cpp:232-259
and 334-361. -/
def sideFlux (dim : Nat) (f : Nat → Nat → K) (stab : Nat → K) (nrm : Nat → K) (i : Nat) : Option K :=
  if dim = 1 then some (f i 0 * nrm 0 + stab i)
  else if dim = 2 then some (f i 0 * nrm 0 + f i 1 * nrm 1 + stab i)
  else none

/-- `computeFlux` at one point of a side, src/physics/shallowwaterHybridized.cpp:286-367; the condition is that of the depth alone.
`old` is what `wkset->flux` held before, `oldF` and `oldB` what the two storages of the module held. -/
def computeFlux [LinearOrder K] (dim nv : Nat) (n : Nat → Nat) (roe : Bool) (sidetype : String) (g a : K)
    (nrm s t far : Nat → K) (oldF : Nat → Nat → K) (oldB old : Nat → K) : Nat → K :=
  let f := fluxVector dim n g t oldF
  let b := if sidetype = "Far-field" then farField dim nv n a nrm s t far
    else if sidetype = "Slip" then slip dim n nrm s t oldB
    else stabTerm dim nv n roe a nrm s t
  if sidetype = "Far-field" ∨ sidetype = "Slip" then fun i => if i < nv then b i else old i
  else if sidetype = "interface" then fun i => if i < nv then (sideFlux dim f b nrm i).getD (old i) else old i
  else old

/-- What `volumeResidual` reads at one integration point, by number of the equation except for the state,
src/physics/shallowwaterHybridized.cpp:138-158. -/
structure Pt (K : Type) where
  wts : K
  st : Nat → K
  dt : Nat → K
  src : Nat → K
  basis : Nat → Nat → K
  grad : Nat → Nat → Nat → K

/-- The additions of one equation, src/physics/shallowwaterHybridized.cpp:146-181. -/
def volAdds (dim : Nat) (n : Nat → Nat) (g : K) (e : Nat) (p : Pt K) (d : Nat) : List K :=
  let f := fluxVector dim n g p.st (fun _ _ => 0)
  if dim = 1 then
    [p.dt e * p.basis e d * p.wts, -(f e 0 * p.grad e d 0 + p.src e * p.basis e d) * p.wts]
  else if dim = 2 then
    [p.dt e * p.basis e d * p.wts,
     -(f e 0 * p.grad e d 0 + f e 1 * p.grad e d 1 + p.src e * p.basis e d) * p.wts]
  else []

/-- `volumeResidual` on one element, src/physics/shallowwaterHybridized.cpp:112-184; undefined when an access is outside the storage.
Simplified: the flux storage starts from zeros (Kokkos initialises views). -/
def volumeResidual (dim nv : Nat) (n : Nat → Nat) (g : K) (ndof : Nat → Nat) (off : Nat → Nat → Nat) (pts : List (Pt K))
    (res : Nat → K) : Option (Nat → K) :=
  if inStorage dim nv n then
    some (runLoops off pts ((List.range nv).map (fun (i : Nat) =>
      ({ eq := i, ndof := ndof i, adds := volAdds dim n g i } : Loop K (Pt K)))) res)
  else none

/-- What `boundaryResidual` reads at one point of a side, src/physics/shallowwaterHybridized.cpp:208-230; `cel` is the square root
of lines 576, 779 and 797. -/
structure SidePt (K : Type) where
  wts : K
  nrm : Nat → K
  cel : K
  st : Nat → K
  tr : Nat → K
  basis : Nat → Nat → K

/-- `boundaryResidual` on one side of one element, src/physics/shallowwaterHybridized.cpp:189-263, whatever the condition of the
side. -/
def boundaryResidual [LinearOrder K] (dim nv : Nat) (n : Nat → Nat) (roe : Bool) (g : K) (ndof : Nat → Nat)
    (off : Nat → Nat → Nat) (pts : List (SidePt K)) (res : Nat → K) : Option (Nat → K) :=
  if inStorage dim nv n then
    some (runLoops off pts ((List.range nv).map (fun (i : Nat) =>
      ({ eq := i, ndof := ndof i, adds := fun p d =>
          match sideFlux dim (fluxVector dim n g p.tr (fun _ _ => 0)) (stabTerm dim nv n roe p.cel p.nrm p.st p.tr) p.nrm i with
          | some x => [x * p.wts * p.basis i d]
          | none => [] } : Loop K (SidePt K)))) res)
  else none

end

/-- The square root of lines 576, 779 and 797, src/physics/shallowwaterHybridized.cpp:576. -/
noncomputable def celerity (g : ℝ) (t : Nat → ℝ) : ℝ := Real.sqrt (t 0 * g)

/-! ## Specification -/

section
variable [Field K]

/-- The flux of component `c` in direction `d`: the discharge for the depth; transport of the discharge with the velocity and
the hydrostatic pressure `g H² / 2` for the momenta.  [specification, no code] -/
def physFlux (g : K) (s : Nat → K) (d : Nat) : Nat → K
  | 0 => s (d + 1)
  | c + 1 => s (c + 1) * (s (d + 1) / s 0) + (if c = d then g * s 0 ^ 2 / 2 else 0)

/-- The flux through a surface with normal `nrm`.  [specification, no code] -/
def normalFlux (dim : Nat) (g : K) (nrm s : Nat → K) (c : Nat) : K :=
  ∑ d ∈ Finset.range dim, physFlux g s d c * nrm d

/-- The normal velocity.  [specification, no code] -/
def velN (dim : Nat) (nrm s : Nat → K) : K := ∑ d ∈ Finset.range dim, s (d + 1) / s 0 * nrm d

/-- The normal has length one.  [specification, no code] -/
def UnitNormal (dim : Nat) (nrm : Nat → K) : Prop := ∑ d ∈ Finset.range dim, nrm d ^ 2 = 1

/-- Water of nonzero depth with the speed `a` of gravity waves, `a² = g H`.  [specification, no code] -/
def IsCelerity (g a : K) (t : Nat → K) : Prop := t 0 ≠ 0 ∧ a ≠ 0 ∧ a ^ 2 = g * t 0

end

/-- The module is alone in its physics set: the numbers are its own.  [specification, no code] -/
def Own (dim : Nat) (n : Nat → Nat) : Prop := ∀ c : Nat, c ≤ dim → n c = c

/-- The derivative of the flux through a side at the state `t`, in the direction `w`, is `D`.  [specification, no code] -/
def FluxDeriv (dim : Nat) (g : ℝ) (nrm t w D : Nat → ℝ) : Prop :=
  ∀ i : Nat, i ≤ dim → HasDerivAt (fun x : ℝ => normalFlux dim g nrm (fun k => t k + x * w k) i) (D i) 0

/-- `w` is a wave of the state `t` with speed `μ`: an eigenvector of the derivative of the flux through the side.
[specification, no code] -/
def IsWave (dim : Nat) (g : ℝ) (nrm t w : Nat → ℝ) (μ : ℝ) : Prop := FluxDeriv dim g nrm t w (fun i => μ * w i)

/-- `ℓ` is a characteristic of the state `t` with speed `μ`: a left eigenvector of the derivative of the flux.
[specification, no code] -/
def IsChar (dim : Nat) (g : ℝ) (nrm t ell : Nat → ℝ) (μ : ℝ) : Prop :=
  ∀ w D : Nat → ℝ, FluxDeriv dim g nrm t w D →
    ∑ i ∈ Finset.range (dim + 1), ell i * D i = μ * ∑ i ∈ Finset.range (dim + 1), ell i * w i

end MrHyDE.Modules.ShallowHybrid
