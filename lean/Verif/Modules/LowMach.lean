import Verif.Modules.Loops
import Mathlib.Analysis.SpecialFunctions.Pow.Real

/-!
# The variable-density module (C148): model

`VDNS` solves the low-Mach equations of a gas: `rho (u_t + u . grad u) = div sigma + f` with the stress
`sigma = mu (grad u + grad u^T - 2/3 div u) - pr`, `rho (T_t + u . grad T) = div (lambda / cp grad T) + (p0' + Q) / cp`
and `div u = (T_t + u . grad T) / T - p0' / p0`.  The background pressure `p0` depends on time only; in a closed system
it is recomputed from integrals over the domain after every recorded step.
-/

set_option linter.unusedSectionVars false

namespace MrHyDE.Modules.LowMach

variable {K : Type}

/-- The settings, src/physics/variableDensityNS.cpp:49-56. -/
structure Cfg where
  supg : Bool
  pspg : Bool
  graddiv : Bool
  openSystem : Bool
  inoutflow : Bool

/-- The values of the settings when the input file has them or not, src/physics/variableDensityNS.cpp:49-56. -/
def construct (supg pspg graddiv openSystem inoutflow : Option Bool) : Cfg :=
  { supg := supg.getD false, pspg := pspg.getD false, graddiv := graddiv.getD false,
    openSystem := openSystem.getD true, inoutflow := inoutflow.getD false }

/-- The functions the module defines when the input file does not, src/physics/variableDensityNS.cpp:69-92. -/
def defaults : List (String × String) :=
  [("source ux", "0.0"), ("source pr", "0.0"), ("source uy", "0.0"), ("source uz", "0.0"), ("source T", "0.0"),
   ("rho", "p0/(RGas*T)"), ("mu", "0.01178"), ("lambda", "cp*mu/PrNum"), ("cp", "1004.5"), ("gamma", "1.4"),
   ("RGas", "287.0"), ("PrNum", "1.0")]

/-- What the volume residual reads at one integration point, src/physics/variableDensityNS.cpp:112-126 and 148-155.
Equations: the velocity components are `0 .. dim-1`, the temperature is `dim`, the pressure `dim + 1` (the code keeps
the numbers in `ux_num`, `uy_num`, `uz_num`, `T_num` and `pr_num`). -/
structure Pt (K : Type) where
  wts : K
  basis : Nat → Nat → K
  grad : Nat → Nat → Nat → K
  rho : K
  mu : K
  lam : K
  cp : K
  u : Nat → K
  ut : Nat → K
  g : Nat → Nat → K
  pr : K
  gp : Nat → K
  T : K
  Tt : K
  gT : Nat → K
  src : Nat → K
  srcPr : K
  srcT : K
  h : K

/-- The stabilisation parameter as the residual calls it: diffusivity times density, the three arguments for the
velocity, density and element size, src/physics/variableDensityNS.cpp:1378 (the remaining arguments, dimension, time
step and whether the run is transient, are the same in every call). -/
abbrev Tau (K : Type) := K → K → K → K → K → K → K

variable [Field K]

/-- The call of `computeTau` in `dim` dimensions: the velocity components beyond the dimension are passed as zero,
src/physics/variableDensityNS.cpp:185, 378 and 681. -/
def tauAt (tau : Tau K) (dim : Nat) (diff : K) (p : Pt K) : K :=
  if dim = 1 then tau diff (p.u 0) 0 0 p.rho p.h
  else if dim = 2 then tau diff (p.u 0) (p.u 1) 0 p.rho p.h
  else tau diff (p.u 0) (p.u 1) (p.u 2) p.rho p.h

/-- `u_i` and its transport, src/physics/variableDensityNS.cpp:166, 359, 446, 662, 729 and 797. -/
def moving (dim i : Nat) (p : Pt K) : K :=
  if dim = 1 then p.ut i + p.u 0 * p.g i 0
  else if dim = 2 then p.ut i + p.u 0 * p.g i 0 + p.u 1 * p.g i 1
  else p.ut i + p.u 0 * p.g i 0 + p.u 1 * p.g i 1 + p.u 2 * p.g i 2

/-- The transport of the temperature, src/physics/variableDensityNS.cpp:240, 526 and 853. -/
def heating (dim : Nat) (p : Pt K) : K :=
  if dim = 1 then p.Tt + p.u 0 * p.gT 0
  else if dim = 2 then p.Tt + p.u 0 * p.gT 0 + p.u 1 * p.gT 1
  else p.Tt + p.u 0 * p.gT 0 + p.u 1 * p.gT 1 + p.u 2 * p.gT 2

/-- `Fx`, `Fy`, `Fz` of momentum equation `i`, src/physics/variableDensityNS.cpp:164-165, 353-358, 440-445, 656-661,
723-728 and 791-796. -/
def flux (dim i c : Nat) (p : Pt K) : K :=
  if dim = 1 then (4 / 3 * p.mu * p.g 0 0 - p.pr) * p.wts
  else if c = i then
    (p.mu * (2 * p.g i i - 2 / 3 * (if dim = 2 then p.g 0 0 + p.g 1 1 else p.g 0 0 + p.g 1 1 + p.g 2 2)) - p.pr) * p.wts
  else p.mu * (p.g i c + p.g c i) * p.wts

/-- The terms of momentum equation `i`, src/physics/variableDensityNS.cpp:164-170, 353-363, 440-450, 656-666, 723-733
and 791-801. -/
def momAdds (dim i : Nat) (p : Pt K) (d : Nat) : List K :=
  let F := (p.rho * moving dim i p - p.src i) * p.wts
  if dim = 1 then [flux dim i 0 p * p.grad i d 0 + F * p.basis i d]
  else if dim = 2 then [flux dim i 0 p * p.grad i d 0 + flux dim i 1 p * p.grad i d 1 + F * p.basis i d]
  else [flux dim i 0 p * p.grad i d 0 + flux dim i 1 p * p.grad i d 1 + flux dim i 2 p * p.grad i d 2
    + F * p.basis i d]

/-- `strongres` of momentum equation `i`, without the viscous term, src/physics/variableDensityNS.cpp:188, 379, 467,
682, 750 and 818. -/
def strongMom (dim i : Nat) (p : Pt K) : K := p.rho * moving dim i p + p.gp i - p.src i

/-- The SUPG terms of equation `e` for the parameter `t` and the strong residual `r`,
src/physics/variableDensityNS.cpp:189-192, 380-384, 468-472, 683-688, 751-756, 819-824, 265-268, 552-556 and
880-885. -/
def supgAdds (dim e : Nat) (t r : K) (p : Pt K) (d : Nat) : List K :=
  let s := fun c => t * r * p.rho * p.u c * p.wts
  if dim = 1 then [s 0 * p.grad e d 0]
  else if dim = 2 then [s 0 * p.grad e d 0 + s 1 * p.grad e d 1]
  else [s 0 * p.grad e d 0 + s 1 * p.grad e d 1 + s 2 * p.grad e d 2]

/-- `thermDiv`, src/physics/variableDensityNS.cpp:212-213, 406-407, 493-494, 295-296, 586-587 and 917-918; `bg` is the
background pressure and its rate. -/
def thermDiv (dim : Nat) (bg : K × K) (p : Pt K) : K := 1 / p.T * heating dim p - 1 / bg.1 * bg.2

/-- The grad-div terms of momentum equation `i`: one dimension, src/physics/variableDensityNS.cpp:209-218; two
dimensions, lines 403-412 and 490-499, where the second term of the divergence is `duy_dx`. -/
def graddivAdds (tau : Tau K) (dim : Nat) (bg : K × K) (i : Nat) (p : Pt K) (d : Nat) : List K :=
  let t := p.h * p.h / tauAt tau dim p.mu p
  let strongres := if dim = 1 then p.g 0 0 - thermDiv dim bg p else (p.g 0 0 + p.g 1 0) - thermDiv dim bg p
  [t * strongres * p.wts * p.grad i d i]

/-- The loop nests of momentum equation `i`: src/physics/variableDensityNS.cpp:147-222, 331-416, 418-503, 627-692,
694-760 and 762-828; the blocks of three dimensions have no grad-div nest. -/
def momLoops (tau : Tau K) (dim : Nat) (ndof : Nat → Nat) (c : Cfg) (bg : K × K) (i : Nat) : List (Loop K (Pt K)) :=
  [{ eq := i, ndof := ndof i, adds := momAdds dim i }]
  ++ (if c.supg then
        [{ eq := i, ndof := ndof i,
           adds := fun p d => supgAdds dim i (tauAt tau dim p.mu p) (strongMom dim i p) p d }]
      else [])
  ++ (if c.graddiv ∧ dim ≤ 2 then
        [{ eq := i, ndof := ndof i, adds := graddivAdds tau dim bg i }]
      else [])

/-- The terms of the energy equation, src/physics/variableDensityNS.cpp:240-245, 526-532 and 853-860. -/
def heatAdds (dim : Nat) (bg : K × K) (p : Pt K) (d : Nat) : List K :=
  let F := p.rho * heating dim p * p.wts - (bg.2 + p.srcT) / p.cp * p.wts
  let f := fun c => p.lam / p.cp * p.gT c * p.wts
  if dim = 1 then [F * p.basis dim d + f 0 * p.grad dim d 0]
  else if dim = 2 then [F * p.basis dim d + f 0 * p.grad dim d 0 + f 1 * p.grad dim d 1]
  else [F * p.basis dim d + f 0 * p.grad dim d 0 + f 1 * p.grad dim d 1 + f 2 * p.grad dim d 2]

/-- `strongres` of the energy equation, src/physics/variableDensityNS.cpp:263-264, 550-551 and 878-879. -/
def strongHeat (dim : Nat) (bg : K × K) (p : Pt K) : K := p.rho * heating dim p - (bg.2 + p.srcT) / p.cp

/-- The loop nests of the energy equation, src/physics/variableDensityNS.cpp:224-272, 505-561 and 830-889. -/
def heatLoops (tau : Tau K) (dim : Nat) (ndof : Nat → Nat) (c : Cfg) (bg : K × K) : List (Loop K (Pt K)) :=
  [{ eq := dim, ndof := ndof dim, adds := heatAdds dim bg }]
  ++ (if c.supg then
        [{ eq := dim, ndof := ndof dim,
           adds := fun p d => supgAdds dim dim (tauAt tau dim (p.lam / p.cp) p) (strongHeat dim bg p) p d }]
      else [])

/-- `divu`, src/physics/variableDensityNS.cpp:294, 585 and 916. -/
def divu (dim : Nat) (p : Pt K) : K :=
  if dim = 1 then p.g 0 0 else if dim = 2 then p.g 0 0 + p.g 1 1 else p.g 0 0 + p.g 1 1 + p.g 2 2

/-- The terms of the pressure equation, src/physics/variableDensityNS.cpp:294-299, 585-590 and 916-921. -/
def prAdds (dim : Nat) (bg : K × K) (p : Pt K) (d : Nat) : List K :=
  [(divu dim p - thermDiv dim bg p) * p.basis (dim + 1) d * p.wts]

/-- PSPG, src/physics/variableDensityNS.cpp:317-324, 611-621 and 948-960. -/
def pspgAdds (tau : Tau K) (dim : Nat) (p : Pt K) (d : Nat) : List K :=
  let s := fun c => strongMom dim c p * (tauAt tau dim p.mu p * p.wts)
  if dim = 1 then [s 0 * p.grad (dim + 1) d 0]
  else if dim = 2 then [s 0 * p.grad (dim + 1) d 0 + s 1 * p.grad (dim + 1) d 1]
  else [s 0 * p.grad (dim + 1) d 0 + s 1 * p.grad (dim + 1) d 1 + s 2 * p.grad (dim + 1) d 2]

/-- The loop nests of the pressure equation, src/physics/variableDensityNS.cpp:274-328, 563-624 and 891-964. -/
def prLoops (tau : Tau K) (dim : Nat) (ndof : Nat → Nat) (c : Cfg) (bg : K × K) : List (Loop K (Pt K)) :=
  [{ eq := dim + 1, ndof := ndof (dim + 1), adds := prAdds dim bg }]
  ++ (if c.pspg then [{ eq := dim + 1, ndof := ndof (dim + 1), adds := pspgAdds tau dim }] else [])

/-- All the nests in the order of the code: momentum, energy, pressure, src/physics/variableDensityNS.cpp:146-966. -/
def loops (tau : Tau K) (dim : Nat) (ndof : Nat → Nat) (c : Cfg) (bg : K × K) : List (Loop K (Pt K)) :=
  (List.range dim).flatMap (momLoops tau dim ndof c bg) ++ heatLoops tau dim ndof c bg ++ prLoops tau dim ndof c bg

/-- `Workset::getParameter`, src/tools/workset.cpp:1439-1453: the row of the first parameter with that name. -/
def getParameter (params : List (String × List K)) (name : String) : Option (List K) :=
  (params.find? (fun p => p.1 == name)).map Prod.snd

/-- The first entries of the parameters `p0` and `dp0dt`, src/physics/variableDensityNS.cpp:130-140: when one is
missing a warning is printed and the empty view is read, `none`. -/
def background (params : List (String × List K)) : Option (K × K) :=
  (getParameter params "p0").bind fun a => (getParameter params "dp0dt").bind fun b =>
    a.head?.bind fun p0 => b.head?.bind fun dp => some (p0, dp)

/-- `volumeResidual` on one element, src/physics/variableDensityNS.cpp:100-966. -/
def volumeResidual (tau : Tau K) (dim : Nat) (ndof : Nat → Nat) (off : Nat → Nat → Nat) (c : Cfg)
    (params : List (String × List K)) (pts : List (Pt K)) (res : Nat → K) : Option (Nat → K) :=
  (background params).map fun bg => runLoops off pts (loops tau dim ndof c bg) res

/-- What the boundary residual reads at one point of a side: the Neumann data of velocity component `i` and, at index
`dim`, of the temperature, src/physics/variableDensityNS.cpp:1001-1012. -/
structure SidePt (K : Type) where
  wts : K
  basis : Nat → Nat → K
  neu : Nat → K

/-- The nests of `boundaryResidual`, src/physics/variableDensityNS.cpp:1024-1222: one for each velocity component and
one for the temperature, when its condition on the side has the type "Neumann". -/
def sideLoops (dim : Nat) (ndof : Nat → Nat) (bcs : Nat → String) : List (Loop K (SidePt K)) :=
  (List.range (dim + 1)).flatMap fun e =>
    if bcs e = "Neumann" then
      [{ eq := e, ndof := ndof e, adds := fun p d => [- (p.neu e * p.wts * p.basis e d)] }]
    else []

/-- `boundaryResidual` on one side, src/physics/variableDensityNS.cpp:972-1223. -/
def boundaryResidual (dim : Nat) (ndof : Nat → Nat) (off : Nat → Nat → Nat) (bcs : Nat → String)
    (pts : List (SidePt K)) (res : Nat → K) : Nat → K :=
  runLoops off pts (sideLoops dim ndof bcs) res

/-! ## The background pressure of a closed system -/

/-- `setupIntegratedQuantities`, src/physics/variableDensityNS.cpp:1239-1285: the integrands and where they are
integrated. -/
def integrands (c : Cfg) (dim : Nat) : List (String × String) :=
  if c.openSystem then []
  else if c.inoutflow then
    [("1.", "volume"), ("source T*(gamma-1.)", "volume"),
     (if dim = 1 then "(gamma-1.)*lambda*(n[x]*grad(T)[x])"
      else if dim = 2 then "(gamma-1.)*lambda*(n[x]*grad(T)[x] + n[y]*grad(T)[y])"
      else "(gamma-1.)*lambda*(n[x]*grad(T)[x] + n[y]*grad(T)[y] + n[z]*grad(T)[z])", "boundary"),
     (if dim = 1 then "gamma*n[x]*ux" else if dim = 2 then "gamma*(n[x]*ux + n[y]*uy)"
      else "gamma*(n[x]*ux + n[y]*uy + n[z]*uz)", "boundary")]
  else [("rho*RGas", "volume"), ("1./T", "volume")]

/-- The number of values the module reserves in the workset, src/physics/variableDensityNS.cpp:1311-1319. -/
def reserved (c : Cfg) : Nat := if c.openSystem then 0 else if c.inoutflow then 4 else 2

/-- `updateIntegratedQuantitiesDependents`, src/physics/variableDensityNS.cpp:1328-1371: the new background pressure
and rate from the stored integrals, of which those of this module begin at `start`.  The divisions are those of the
code; a zero divisor is `none`. -/
def update [DecidableEq K] (c : Cfg) (start : Nat) (iq : Nat → K) (dt : K) (bg : K × K) : Option (K × K) :=
  if c.openSystem then some bg
  else if c.inoutflow then
    if iq start = 0 then none
    else
      let rate := 1 / iq start * (iq (start + 3) + iq (start + 1) - bg.1 * iq (start + 2))
      some (bg.1 + dt * rate, rate)
  else
    if iq (start + 1) = 0 ∨ dt = 0 then none
    else
      let pnew := iq start / iq (start + 1)
      some (pnew, (pnew - bg.1) / dt)

/-- The copies of the parameters: the values of the parameter manager for each time index, the view of the worksets
without derivatives and the view of the worksets that compute derivatives, src/managers/parameter/
parameterManager_setup.hpp:187-224, src/managers/solver/solverManager_setup.hpp:539-548 and 666. -/
structure Views (K : Type) where
  all : Nat → K × K
  plain : K × K
  ad : K × K

/-- `updateDynamicParams`, src/managers/parameter/parameterManager_update.hpp:108-136: both views receive the values of
the parameter manager, of index zero without parameters that depend on the step. -/
def refresh (dynamic : Bool) (step : Nat) (v : Views K) : Views K :=
  let x := v.all (if dynamic then step else 0)
  { v with plain := x, ad := x }

/-- `PostprocessManager::record` as far as it concerns the background pressure: the module without derivatives
overwrites the values in its own view, src/managers/postprocess/postprocessManager_integrated_quantities.hpp:268-281
and src/physics/variableDensityNS.cpp:1338-1339. -/
def record (upd : K × K → K × K) (v : Views K) : Views K := { v with plain := upd v.plain }

/-- One time step after another, src/managers/solver/solverManager_solvers.hpp:78-170: the parameters are refreshed,
the residuals of the step read them (`ad` when the step is solved implicitly), the state is recorded.  `upds` are the
updates computed from the integrals of the successive states.  The result lists what the residuals of the steps
read. -/
def steps (implicit dynamic : Bool) : List (K × K → K × K) → Nat → Views K → List (K × K)
  | [], _, _ => []
  | upd :: upds, n, v =>
    let v' := refresh dynamic n v
    (if implicit then v'.ad else v'.plain) :: steps implicit dynamic upds (n + 1) (record upd v')

/-- `transientSolver`: the initial state is recorded before the first step,
src/managers/solver/solverManager_solvers.hpp:62-86. -/
def run (implicit dynamic : Bool) (first : K × K → K × K) (upds : List (K × K → K × K)) (v : Views K) :
    List (K × K) := steps implicit dynamic upds 0 (record first v)

/-! ## The stabilisation parameter -/

/-- `computeTau`, src/physics/variableDensityNS.cpp:1378-1411. -/
noncomputable def computeTau (dim : Nat) (dt : ℝ) (transient : Bool) : Tau ℝ := fun diff x y z rho h =>
  let c3 : ℝ := if transient then 2 else 0
  let n2 := if dim = 1 then x * x else if dim = 2 then x * x + y * y else if dim = 3 then x * x + y * y + z * z else 0
  let nvel := if n2 > 1 / 10 ^ 12 then Real.sqrt n2 else n2
  1 / Real.sqrt ((4 * diff / h / h) * (4 * diff / h / h) + (2 * rho * nvel / h) * (2 * rho * nvel / h)
    + (c3 * rho / dt) * (c3 * rho / dt))

end MrHyDE.Modules.LowMach
