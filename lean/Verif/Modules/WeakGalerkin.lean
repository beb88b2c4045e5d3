import Verif.Modules.Loops
import Mathlib.Algebra.Field.Basic
import Mathlib.Algebra.Field.Rat
import Mathlib.Algebra.BigOperators.Fin
import Mathlib.Data.Fin.VecNotation
import Mathlib.Tactic.FieldSimp
import Mathlib.Tactic.Linarith
import Mathlib.Tactic.FinCases
import Mathlib.Tactic.IntervalCases
import Mathlib.Tactic.LinearCombination
import Mathlib.Tactic.NormNum

/-!
# Porous flow by weak Galerkin (C132)

`porousWeakGalerkin` has four unknowns: the pressure `pint` in the elements, the pressure `pbndry` on the faces, the weak gradient `u`
of the two, and the flux `t = -K u`.  Also here: the basis `HDIV_AC` on quadrilaterals, which the module can use for `u` and `t`.
-/

set_option linter.unusedSectionVars false
set_option linter.unusedSimpArgs false

namespace MrHyDE.Modules.WeakGalerkin

variable {K : Type}

/-! ## Model -/

/-- What `volumeResidual` reads at one integration point, src/physics/porousWeakGalerkin.cpp:101-136, 199-214, 301-316.  Equation 0 is
that of `pint`, 1 that of `u`, 2 that of `t`, 3 that of `pbndry`. -/
structure Pt (K : Type) where
  wts : K
  source : K
  perm : K
  p : K
  u : Nat → K
  t : Nat → K
  divt : K
  basisU : Nat → Nat → K
  divU : Nat → K
  basisT : Nat → Nat → K
  basisP : Nat → K

/-- Terms of the equation of `u`, src/physics/porousWeakGalerkin.cpp:138-194. -/
def uAdds [Field K] (dim : Nat) (q : Pt K) (d : Nat) : List K :=
  let pint := q.p * q.wts
  let uw := fun c => q.u c * q.wts
  if dim = 1 then [uw 0 * q.basisU d 0 + pint * q.divU d]
  else if dim = 2 then [(uw 0 * q.basisU d 0 + uw 1 * q.basisU d 1) + pint * q.divU d]
  else [(uw 0 * q.basisU d 0 + uw 1 * q.basisU d 1 + uw 2 * q.basisU d 2) + pint * q.divU d]

/-- Terms of the equation of `t`, src/physics/porousWeakGalerkin.cpp:206-297. -/
def tAdds [Field K] (dim : Nat) (q : Pt K) (d : Nat) : List K :=
  let e := fun c => q.perm * q.u c * q.wts + q.t c * q.wts
  if dim = 1 then [e 0 * q.basisT d 0]
  else if dim = 2 then [e 0 * q.basisT d 0 + e 1 * q.basisT d 1]
  else [e 0 * q.basisT d 0 + e 1 * q.basisT d 1 + e 2 * q.basisT d 2]

/-- Terms of the equation of `pint`, src/physics/porousWeakGalerkin.cpp:311-319. -/
def pAdds [Field K] (q : Pt K) (d : Nat) : List K := [(q.divt * q.wts - q.source * q.wts) * q.basisP d]

/-- The loop nests of `volumeResidual`, src/physics/porousWeakGalerkin.cpp:130-322. -/
def loops [Field K] (dim : Nat) (ndof : Nat → Nat) : List (Loop K (Pt K)) :=
  [{ eq := 1, ndof := ndof 1, adds := uAdds dim }, { eq := 2, ndof := ndof 2, adds := tAdds dim },
   { eq := 0, ndof := ndof 0, adds := pAdds }]

/-- `volumeResidual` on one element, src/physics/porousWeakGalerkin.cpp:94-323. -/
def volumeResidual [Field K] (dim : Nat) (ndof : Nat → Nat) (off : Nat → Nat → Nat) (pts : List (Pt K)) (res : Nat → K) : Nat → K :=
  runLoops off pts (loops dim ndof) res

/-- The type of the condition of `pint` on the current side, src/physics/porousWeakGalerkin.cpp:335-336, 372, 393. -/
inductive Cond where
  | dirichlet
  | interface
  | other
  deriving DecidableEq

/-- What is read at one point of a side, src/physics/porousWeakGalerkin.cpp:341-367, 395, 430-453, 479-481. -/
structure SidePt (K : Type) where
  wts : K
  n : Nat → K
  t : Nat → K
  basisU : Nat → Nat → K
  basisB : Nat → K
  dirichlet : K
  aux : K
  pb : K

/-- The product with the normal, src/physics/porousWeakGalerkin.cpp:381-387, 403-409, 462-468, 489-495, 542-548. -/
def normal [Field K] (dim : Nat) (v n : Nat → K) : K :=
  let s := v 0 * n 0
  let s := if dim > 1 then s + v 1 * n 1 else s
  if dim > 2 then s + v 2 * n 2 else s

/-- Terms of `boundaryResidual`, src/physics/porousWeakGalerkin.cpp:372-414. -/
def sideAdds [Field K] (dim : Nat) (c : Cond) (q : SidePt K) (d : Nat) : List K :=
  match c with
  | .dirichlet => [-(q.dirichlet * q.wts * normal dim (q.basisU d) q.n)]
  | .interface => [-(q.aux * q.wts * normal dim (q.basisU d) q.n)]
  | .other => []

/-- `boundaryResidual` on one side, src/physics/porousWeakGalerkin.cpp:330-416. -/
def boundaryResidual [Field K] (dim : Nat) (ndof : Nat → Nat) (off : Nat → Nat → Nat) (c : Cond) (pts : List (SidePt K))
    (res : Nat → K) : Nat → K :=
  ptLoop (ndof 1) pts (off 1) (sideAdds dim c) res

/-- `faceResidual` on one side, src/physics/porousWeakGalerkin.cpp:424-505; called for every side of every element,
src/managers/assembly/assemblyManager_jacres.hpp:389-402. -/
def faceResidual [Field K] (dim : Nat) (ndof : Nat → Nat) (off : Nat → Nat → Nat) (pts : List (SidePt K)) (res : Nat → K) : Nat → K :=
  runLoops off pts
    [{ eq := 1, ndof := ndof 1, adds := fun q d => [-(q.pb * q.wts * normal dim (q.basisU d) q.n)] },
     { eq := 3, ndof := ndof 3, adds := fun q d => [-(normal dim q.t q.n * (q.basisB d * q.wts))] }] res

/-- `computeFlux` at one point, src/physics/porousWeakGalerkin.cpp:541-551. -/
def flux [Field K] (dim : Nat) (q : SidePt K) : K := normal dim q.t q.n

/-- The permeability from data, src/physics/porousWeakGalerkin.cpp:601-609. -/
def dataPerm (data : K) : K := data

/-- Number of the coarse variable that receives the flux, src/physics/porousWeakGalerkin.cpp:583-589: the last one with one of
three names; `none` if there is none (the number is then not set). -/
def auxNum (names : List String) : Option Nat :=
  (names.zipIdx).foldl (fun acc x => if x.1 = "pbndry" ∨ x.1 = "lambda" ∨ x.1 = "pint" then some x.2 else acc) none

/-! ### The basis HDIV_AC -/

/-- Values of the four functions, src/tools/Intrepid2_HDIV_AC_QUAD_I1_FEMDef.hpp:68-84. -/
def acValue [Field K] (i : Fin 4) (x y : K) : K × K :=
  match i with
  | 0 => (0, 1)
  | 1 => (1, 0)
  | 2 => (1 / 2 * (1 + x), 1 / 2 * (1 + y))
  | 3 => (x, -y)

/-- Their divergences, src/tools/Intrepid2_HDIV_AC_QUAD_I1_FEMDef.hpp:87-93. -/
def acDiv [Field K] (i : Fin 4) : K :=
  match i with
  | 0 => 0
  | 1 => 0
  | 2 => 1
  | 3 => 0

/-- The nodes and the vectors of the functionals, function `i` being that of edge `i`,
src/tools/Intrepid2_HDIV_AC_QUAD_I1_FEMDef.hpp:205-251. -/
def acNode [Field K] (i : Fin 4) : K × K :=
  match i with
  | 0 => (0, -1)
  | 1 => (1, 0)
  | 2 => (0, 1)
  | 3 => (-1, 0)

/-- The functions on an element: all are mapped by the contravariant Piola transformation, `J v / det J`, as the type of the basis
begins with "HDIV", src/interfaces/discretization/discretizationInterface_basis.hpp:495-503; `(a, b), (c, d)` are the rows of the
Jacobian at the point.  Signs by orientation (504-507) are left out: they do not change the span. -/
def piola [Field K] (J : (K × K) × (K × K)) (v : K × K) : K × K :=
  let det := J.1.1 * J.2.2 - J.1.2 * J.2.1
  ((J.1.1 * v.1 + J.1.2 * v.2) / det, (J.2.1 * v.1 + J.2.2 * v.2) / det)

/-! ## Specification -/

/-- The point with the state given by coefficients, `t` and `u` in the same space.  [specification, no code] -/
def withState [CommRing K] (nU nP : Nat) (U T P : Nat → K) (q : Pt K) : Pt K :=
  { q with
    u := fun c => ∑ d ∈ Finset.range nU, U d * q.basisU d c
    t := fun c => ∑ d ∈ Finset.range nU, T d * q.basisU d c
    divt := ∑ d ∈ Finset.range nU, T d * q.divU d
    p := ∑ d ∈ Finset.range nP, P d * q.basisP d
    basisT := q.basisU }

/-- The same on a side.  [specification, no code] -/
def sideState [CommRing K] (nU nB : Nat) (T B : Nat → K) (q : SidePt K) : SidePt K :=
  { q with
    t := fun c => ∑ d ∈ Finset.range nU, T d * q.basisU d c
    pb := ∑ d ∈ Finset.range nB, B d * q.basisB d }

/-! ## Lemmas -/

section
variable [Field K]

theorem loops_fit (dim : Nat) (ndof : Nat → Nat) : Fits 4 ndof (loops dim ndof : List (Loop K (Pt K))) := by
  intro l hl
  simp only [loops, List.mem_cons, List.not_mem_nil, or_false] at hl
  rcases hl with rfl | rfl | rfl <;> exact ⟨by simp, rfl⟩

theorem uAdds_sum {dim : Nat} (h1 : 1 ≤ dim) (h3 : dim ≤ 3) (q : Pt K) (d : Nat) :
    (uAdds dim q d).sum = q.wts * (dot dim q.u (q.basisU d) + q.p * q.divU d) := by
  interval_cases dim <;> simp [uAdds, dot_one, dot_two, dot_three] <;> ring

theorem tAdds_sum {dim : Nat} (h1 : 1 ≤ dim) (h3 : dim ≤ 3) (q : Pt K) (d : Nat) :
    (tAdds dim q d).sum = q.wts * dot dim (fun c => q.perm * q.u c + q.t c) (q.basisT d) := by
  interval_cases dim <;> simp [tAdds, dot_one, dot_two, dot_three] <;> ring

theorem pAdds_sum (q : Pt K) (d : Nat) : (pAdds q d).sum = q.wts * ((q.divt - q.source) * q.basisP d) := by
  simp [pAdds]; ring

theorem normal_eq {dim : Nat} (h1 : 1 ≤ dim) (h3 : dim ≤ 3) (v n : Nat → K) : normal dim v n = dot dim v n := by
  interval_cases dim <;> simp [normal, dot_one, dot_two, dot_three]

theorem pull (k : K) (X f : Nat → K) (m : Nat) :
    ∑ d ∈ Finset.range m, X d * (k * f d) = k * ∑ d ∈ Finset.range m, X d * f d := by
  rw [Finset.mul_sum]
  exact Finset.sum_congr rfl fun d _ => by ring

theorem dot_coef (dim m : Nat) (X a : Nat → K) (b : Nat → Nat → K) :
    ∑ d ∈ Finset.range m, X d * dot dim a (b d) = dot dim a (fun c => ∑ d ∈ Finset.range m, X d * b d c) := by
  unfold dot
  simp only [Finset.mul_sum]
  rw [Finset.sum_comm]
  exact Finset.sum_congr rfl fun c _ => Finset.sum_congr rfl fun d _ => by ring

theorem faceFit (dim : Nat) (ndof : Nat → Nat) : Fits 4 ndof
    [({ eq := 1, ndof := ndof 1, adds := fun q d => [-(q.pb * q.wts * normal dim (q.basisU d) q.n)] } : Loop K (SidePt K)),
     { eq := 3, ndof := ndof 3, adds := fun q d => [-(normal dim q.t q.n * (q.basisB d * q.wts))] }] := by
  intro l hl
  simp only [List.mem_cons, List.not_mem_nil, or_false] at hl
  rcases hl with rfl | rfl <;> exact ⟨by simp, rfl⟩

/-! ## Properties -/

/-- C132: the three equations of an element: the weak gradient, Darcy's law and the balance, each tested with every function of its
unknown, and nothing else changes. -/
theorem C132_volume {dim : Nat} (h1 : 1 ≤ dim) (h3 : dim ≤ 3) {ndof : Nat → Nat} {off : Nat → Nat → Nat}
    (hoff : DistinctAll 4 ndof off) (pts : List (Pt K)) (res : Nat → K) :
    (∀ d : Nat, d < ndof 1 → volumeResidual dim ndof off pts res (off 1 d) =
      res (off 1 d) + quad pts (fun q => q.wts * (dot dim q.u (q.basisU d) + q.p * q.divU d))) ∧
    (∀ d : Nat, d < ndof 2 → volumeResidual dim ndof off pts res (off 2 d) =
      res (off 2 d) + quad pts (fun q => q.wts * dot dim (fun c => q.perm * q.u c + q.t c) (q.basisT d))) ∧
    (∀ d : Nat, d < ndof 0 → volumeResidual dim ndof off pts res (off 0 d) =
      res (off 0 d) + quad pts (fun q => q.wts * ((q.divt - q.source) * q.basisP d))) ∧
    (∀ j : Nat, (∀ e d : Nat, e < 3 → d < ndof e → off e d ≠ j) → volumeResidual dim ndof off pts res j = res j) := by
  refine ⟨fun d hd => ?_, fun d hd => ?_, fun d hd => ?_, fun j hj => ?_⟩
  · unfold volumeResidual
    rw [runLoops_at hoff pts _ (loops_fit dim ndof) res (by omega) hd]
    refine congrArg _ (quad_congr pts fun q _ => ?_)
    simp [termsAt, loops, uAdds_sum h1 h3]
  · unfold volumeResidual
    rw [runLoops_at hoff pts _ (loops_fit dim ndof) res (by omega) hd]
    refine congrArg _ (quad_congr pts fun q _ => ?_)
    simp [termsAt, loops, tAdds_sum h1 h3]
  · unfold volumeResidual
    rw [runLoops_at hoff pts _ (loops_fit dim ndof) res (by omega) hd]
    refine congrArg _ (quad_congr pts fun q _ => ?_)
    simp [termsAt, loops, pAdds_sum]
  · refine runLoops_other pts _ res fun l hl d hd => ?_
    simp only [loops, List.mem_cons, List.not_mem_nil, or_false] at hl
    rcases hl with rfl | rfl | rfl
    · exact hj 1 d (by omega) hd
    · exact hj 2 d (by omega) hd
    · exact hj 0 d (by omega) hd

/-- C132: on every face of an element: the pressure of the face acts on the weak gradient, the equation of the face is minus the flux
leaving the element, tested; pressure and flux equations of the element do not change. -/
theorem C132_face {dim : Nat} (h1 : 1 ≤ dim) (h3 : dim ≤ 3) {ndof : Nat → Nat} {off : Nat → Nat → Nat}
    (hoff : DistinctAll 4 ndof off) (pts : List (SidePt K)) (res : Nat → K) :
    (∀ d : Nat, d < ndof 1 → faceResidual dim ndof off pts res (off 1 d) =
      res (off 1 d) - quad pts (fun q => q.wts * (q.pb * dot dim (q.basisU d) q.n))) ∧
    (∀ d : Nat, d < ndof 3 → faceResidual dim ndof off pts res (off 3 d) =
      res (off 3 d) - quad pts (fun q => q.wts * (dot dim q.t q.n * q.basisB d))) ∧
    (∀ e d : Nat, e = 0 ∨ e = 2 → d < ndof e → faceResidual dim ndof off pts res (off e d) = res (off e d)) := by
  refine ⟨fun d hd => ?_, fun d hd => ?_, fun e d he hd => ?_⟩
  · unfold faceResidual
    rw [runLoops_at hoff pts _ (faceFit dim ndof) res (by omega) hd, sub_eq_add_neg, ← quad_neg]
    refine congrArg _ (quad_congr pts fun q _ => ?_)
    simp [termsAt, normal_eq h1 h3]; ring
  · unfold faceResidual
    rw [runLoops_at hoff pts _ (faceFit dim ndof) res (by omega) hd, sub_eq_add_neg, ← quad_neg]
    refine congrArg _ (quad_congr pts fun q _ => ?_)
    simp [termsAt, normal_eq h1 h3]; ring
  · unfold faceResidual
    rw [runLoops_at hoff pts _ (faceFit dim ndof) res (by omega) hd,
      quad_congr pts (g := fun _ => (0 : K)) (fun q _ => by rcases he with rfl | rfl <;> simp [termsAt]), quad_zero, add_zero]

/-- C132: a side with given pressure of the element acts as the pressure of the face, an interface with the value of the coarse scale,
any other side not at all; the flux handed to the coarse scale is the one leaving the element. -/
theorem C132_side {dim : Nat} (h1 : 1 ≤ dim) (h3 : dim ≤ 3) {ndof : Nat → Nat} {off : Nat → Nat → Nat}
    (hoff : Distinct (ndof 1) (off 1)) (pts : List (SidePt K)) (res : Nat → K) {d : Nat} (hd : d < ndof 1) :
    boundaryResidual dim ndof off .dirichlet pts res (off 1 d) =
      res (off 1 d) - quad pts (fun q => q.wts * (q.dirichlet * dot dim (q.basisU d) q.n)) ∧
    boundaryResidual dim ndof off .interface pts res (off 1 d) =
      res (off 1 d) - quad pts (fun q => q.wts * (q.aux * dot dim (q.basisU d) q.n)) ∧
    boundaryResidual dim ndof off .other pts res (off 1 d) = res (off 1 d) ∧
    ∀ q : SidePt K, flux dim q = dot dim q.t q.n := by
  refine ⟨?_, ?_, ?_, fun q => normal_eq h1 h3 _ _⟩
  · rw [boundaryResidual, ptLoop_at hoff pts _ res hd, sub_eq_add_neg, ← quad_neg]
    refine congrArg _ (quad_congr pts fun q _ => ?_)
    simp [sideAdds, normal_eq h1 h3]; ring
  · rw [boundaryResidual, ptLoop_at hoff pts _ res hd, sub_eq_add_neg, ← quad_neg]
    refine congrArg _ (quad_congr pts fun q _ => ?_)
    simp [sideAdds, normal_eq h1 h3]; ring
  · rw [boundaryResidual, ptLoop_at hoff pts _ res hd,
      quad_congr pts (g := fun _ => (0 : K)) (fun p _ => by simp [sideAdds]), quad_zero, add_zero]

/-- C132: conservation in an element: if the functions of the pressure sum to one, its equations sum to what leaves the element minus
what is produced in it. -/
theorem C132_conservation {dim : Nat} (h1 : 1 ≤ dim) (h3 : dim ≤ 3) {ndof : Nat → Nat} {off : Nat → Nat → Nat}
    (hoff : DistinctAll 4 ndof off) (pts : List (Pt K))
    (hone : ∀ q : Pt K, q ∈ pts → ∑ d ∈ Finset.range (ndof 0), q.basisP d = 1) :
    ∑ d ∈ Finset.range (ndof 0), volumeResidual dim ndof off pts (fun _ => 0) (off 0 d) =
      quad pts (fun q => q.wts * q.divt) - quad pts (fun q => q.wts * q.source) := by
  rw [Finset.sum_congr rfl (fun d hd => (C132_volume h1 h3 hoff pts (fun _ => 0)).2.2.1 d (Finset.mem_range.mp hd))]
  simp only [zero_add]
  rw [quad_sum, sub_eq_add_neg, ← quad_neg, ← quad_add]
  refine quad_congr pts fun q hq => ?_
  rw [← Finset.mul_sum, ← Finset.mul_sum, hone q hq]
  ring

/-- C132: Darcy's law can be met exactly where the permeability is constant: the flux `-k u` has residual zero. -/
theorem C132_darcy {dim : Nat} (h1 : 1 ≤ dim) (h3 : dim ≤ 3) {ndof : Nat → Nat} {off : Nat → Nat → Nat}
    (hoff : DistinctAll 4 ndof off) (pts : List (Pt K)) (k : K) (hk : ∀ q : Pt K, q ∈ pts → q.perm = k) (nU nP : Nat)
    (U P : Nat → K) {d : Nat} (hd : d < ndof 2) :
    volumeResidual dim ndof off (pts.map (withState nU nP U (fun e => -(k * U e)) P)) (fun _ => 0) (off 2 d) = 0 := by
  rw [(C132_volume h1 h3 hoff _ _).2.1 d hd, zero_add, quad_congr (g := fun _ => (0 : K)), quad_zero]
  intro q hq
  obtain ⟨q0, h0, rfl⟩ := List.mem_map.mp hq
  have e : (fun c => (withState nU nP U (fun e => -(k * U e)) P q0).perm * (withState nU nP U (fun e => -(k * U e)) P q0).u c
      + (withState nU nP U (fun e => -(k * U e)) P q0).t c) = fun _ => 0 := by
    funext c
    simp only [withState, hk q0 h0, Finset.mul_sum, ← Finset.sum_add_distrib]
    exact Finset.sum_eq_zero fun d _ => by ring
  rw [e]
  simp [dot]

/-- C132: energy: the equations of an element and its faces, that of the weak gradient weighted with minus the flux, Darcy's law with
the gradient, the balance with the pressure and the faces with the pressure of the faces, leave the dissipation minus the work of the
source. -/
theorem C132_energy {dim : Nat} (h1 : 1 ≤ dim) (h3 : dim ≤ 3) {ndof : Nat → Nat} {off : Nat → Nat → Nat}
    (hoff : DistinctAll 4 ndof off) (hn : ndof 2 = ndof 1) (pts : List (Pt K)) (spts : List (SidePt K)) (U T P B : Nat → K) :
    let ps := pts.map (withState (ndof 1) (ndof 0) U T P)
    let R := faceResidual dim ndof off (spts.map (sideState (ndof 1) (ndof 3) T B)) (volumeResidual dim ndof off ps (fun _ => 0))
    (∑ d ∈ Finset.range (ndof 2), U d * R (off 2 d)) - (∑ d ∈ Finset.range (ndof 1), T d * R (off 1 d))
      + (∑ d ∈ Finset.range (ndof 0), P d * R (off 0 d)) + (∑ d ∈ Finset.range (ndof 3), B d * R (off 3 d)) =
      quad ps (fun q => q.wts * (q.perm * dot dim q.u q.u)) - quad ps (fun q => q.wts * (q.source * q.p)) := by
  intro ps R
  have hv := C132_volume h1 h3 hoff ps (fun _ => (0 : K))
  have hf := C132_face h1 h3 hoff (spts.map (sideState (ndof 1) (ndof 3) T B)) (volumeResidual dim ndof off ps (fun _ => 0))
  have h3z : ∀ d : Nat, d < ndof 3 → volumeResidual dim ndof off ps (fun _ => (0 : K)) (off 3 d) = 0 := by
    intro d hd
    refine hv.2.2.2 _ fun e d' he hd' hc => ?_
    have := (hoff e d' 3 d (by omega) (by omega) hd' hd hc).1
    omega
  have a2 : ∑ d ∈ Finset.range (ndof 2), U d * R (off 2 d)
      = quad ps (fun q => q.wts * dot dim (fun c => q.perm * q.u c + q.t c) q.u) := by
    rw [Finset.sum_congr rfl (fun d hd => by
      simp only [R]
      rw [hf.2.2 2 d (Or.inr rfl) (Finset.mem_range.mp hd), hv.2.1 d (Finset.mem_range.mp hd), zero_add, quad_mul_left]), quad_sum]
    refine quad_congr _ fun q hq => ?_
    obtain ⟨q0, _, rfl⟩ := List.mem_map.mp hq
    rw [pull, dot_coef, hn]
    rfl
  have a1 : ∑ d ∈ Finset.range (ndof 1), T d * R (off 1 d)
      = quad ps (fun q => q.wts * (dot dim q.u q.t + q.p * q.divt))
        - quad (spts.map (sideState (ndof 1) (ndof 3) T B)) (fun q => q.wts * (q.pb * dot dim q.t q.n)) := by
    rw [Finset.sum_congr rfl (fun d hd => by
      simp only [R]
      rw [hf.1 d (Finset.mem_range.mp hd), hv.1 d (Finset.mem_range.mp hd), zero_add, mul_sub, quad_mul_left, quad_mul_left]),
      Finset.sum_sub_distrib, quad_sum, quad_sum]
    congr 1
    · refine quad_congr _ fun q hq => ?_
      obtain ⟨q0, _, rfl⟩ := List.mem_map.mp hq
      rw [pull]
      simp only [mul_add, Finset.sum_add_distrib, dot_coef, pull]
      rfl
    · refine quad_congr _ fun q hq => ?_
      obtain ⟨q0, _, rfl⟩ := List.mem_map.mp hq
      rw [pull, pull]
      simp only [dot_comm dim _ (sideState (ndof 1) (ndof 3) T B q0).n]
      rw [dot_coef]
      rfl
  have a0 : ∑ d ∈ Finset.range (ndof 0), P d * R (off 0 d) = quad ps (fun q => q.wts * ((q.divt - q.source) * q.p)) := by
    rw [Finset.sum_congr rfl (fun d hd => by
      simp only [R]
      rw [hf.2.2 0 d (Or.inl rfl) (Finset.mem_range.mp hd), hv.2.2.1 d (Finset.mem_range.mp hd), zero_add, quad_mul_left]), quad_sum]
    refine quad_congr _ fun q hq => ?_
    obtain ⟨q0, _, rfl⟩ := List.mem_map.mp hq
    rw [pull, pull]
    rfl
  have a3 : ∑ d ∈ Finset.range (ndof 3), B d * R (off 3 d)
      = - quad (spts.map (sideState (ndof 1) (ndof 3) T B)) (fun q => q.wts * (q.pb * dot dim q.t q.n)) := by
    rw [Finset.sum_congr rfl (fun d hd => by
      simp only [R]
      rw [hf.2.1 d (Finset.mem_range.mp hd), h3z d (Finset.mem_range.mp hd), zero_sub, ← quad_neg, quad_mul_left]), quad_sum,
      ← quad_neg]
    refine quad_congr _ fun q hq => ?_
    obtain ⟨q0, _, rfl⟩ := List.mem_map.mp hq
    simp only [mul_neg, Finset.sum_neg_distrib]
    rw [pull, pull]
    simp only [sideState]
    ring
  rw [a2, a1, a0, a3]
  have b : quad ps (fun q => q.wts * dot dim (fun c => q.perm * q.u c + q.t c) q.u)
      = quad ps (fun q => q.wts * (q.perm * dot dim q.u q.u)) + quad ps (fun q => q.wts * dot dim q.u q.t) := by
    rw [← quad_add]
    refine quad_congr _ fun q _ => ?_
    have : dot dim (fun c => q.perm * q.u c + q.t c) q.u = q.perm * dot dim q.u q.u + dot dim q.u q.t := by
      unfold dot
      rw [Finset.mul_sum, ← Finset.sum_add_distrib]
      exact Finset.sum_congr rfl fun c _ => by ring
    rw [this]
    ring
  have c : quad ps (fun q => q.wts * (dot dim q.u q.t + q.p * q.divt))
      = quad ps (fun q => q.wts * dot dim q.u q.t) + quad ps (fun q => q.wts * (q.p * q.divt)) := by
    rw [← quad_add]
    exact quad_congr _ fun q _ => by ring
  have e : quad ps (fun q => q.wts * ((q.divt - q.source) * q.p))
      = quad ps (fun q => q.wts * (q.p * q.divt)) - quad ps (fun q => q.wts * (q.source * q.p)) := by
    rw [sub_eq_add_neg, ← quad_neg, ← quad_add]
    exact quad_congr _ fun q _ => by ring
  rw [b, c, e]
  ring

/-- C132: rest: with the same constant pressure in the element and on its faces the weak gradient is zero, as far as the divergence
theorem holds for the functions of the gradient. -/
theorem C132_rest {dim : Nat} (h1 : 1 ≤ dim) (h3 : dim ≤ 3) {ndof : Nat → Nat} {off : Nat → Nat → Nat}
    (hoff : DistinctAll 4 ndof off) (pts : List (Pt K)) (spts : List (SidePt K)) (p0 : K)
    (hp : ∀ q : Pt K, q ∈ pts → q.p = p0 ∧ ∀ c : Nat, q.u c = 0) (hs : ∀ q : SidePt K, q ∈ spts → q.pb = p0) {d : Nat}
    (hd : d < ndof 1)
    (hdiv : quad pts (fun q => q.wts * q.divU d) = quad spts (fun q => q.wts * dot dim (q.basisU d) q.n)) :
    faceResidual dim ndof off spts (volumeResidual dim ndof off pts (fun _ => 0)) (off 1 d) = 0 := by
  rw [(C132_face h1 h3 hoff spts _).1 d hd, (C132_volume h1 h3 hoff pts _).1 d hd, zero_add]
  have a : quad pts (fun q => q.wts * (dot dim q.u (q.basisU d) + q.p * q.divU d))
      = p0 * quad pts (fun q => q.wts * q.divU d) := by
    rw [quad_mul_left]
    refine quad_congr pts fun q hq => ?_
    have : dot dim q.u (q.basisU d) = 0 := by
      unfold dot
      exact Finset.sum_eq_zero fun c _ => by simp [(hp q hq).2 c]
    rw [this, (hp q hq).1]
    ring
  have b : quad spts (fun q => q.wts * (q.pb * dot dim (q.basisU d) q.n))
      = p0 * quad spts (fun q => q.wts * dot dim (q.basisU d) q.n) := by
    rw [quad_mul_left]
    refine quad_congr spts fun q hq => ?_
    rw [hs q hq]
    ring
  rw [a, b, hdiv]
  ring

end

/-! ## A case, and where the property is false -/

/-- [case] The interval [0, 1] with the function `x`, one point, pressure 1, no gradient. -/
def pt1 : Pt ℚ := ⟨1, 0, 1, 1, fun _ => 0, fun _ => 0, 0, fun _ _ => 1 / 2, fun _ => 1, fun _ _ => 1 / 2, fun _ => 1⟩

/-- [case] Its two ends, with pressure 1 on both and as given pressure. -/
def end0 : SidePt ℚ := ⟨1, fun _ => -1, fun _ => 0, fun _ _ => 0, fun _ => 1, 1, 0, 1⟩

/-- [case] The right end. -/
def end1 : SidePt ℚ := ⟨1, fun _ => 1, fun _ => 0, fun _ _ => 1, fun _ => 1, 1, 0, 1⟩

/-- [case] Each unknown has one function (two on the faces), numbered in turn. -/
def off1 (e d : Nat) : Nat := e + d

/-- [case] The numbers of functions. -/
def ndof1 (e : Nat) : Nat := if e = 3 then 2 else 1

theorem off1_distinct : DistinctAll 4 ndof1 off1 := by
  intro e d e' d' he he' hd hd' h
  simp only [ndof1, off1] at *
  interval_cases e <;> interval_cases e' <;> simp at hd hd' <;> omega

-- the hypotheses of rest are met
example : faceResidual 1 ndof1 off1 [end0, end1] (volumeResidual 1 ndof1 off1 [pt1] (fun _ => 0)) (off1 1 0) = 0 :=
  C132_rest (by omega) (by omega) off1_distinct [pt1] [end0, end1] 1
    (by intro q hq; simp at hq; subst hq; exact ⟨rfl, fun _ => rfl⟩)
    (by intro q hq; simp at hq; rcases hq with rfl | rfl <;> rfl) (by decide)
    (by norm_num [quad, pt1, end0, end1, dot])

/-- C132 is false on a side where the pressure of the element is prescribed: `faceResidual` has run on that side too, so that with the
prescribed value on the face it counts twice, and constant pressure is not at rest. -/
theorem C132_dirichlet_violated :
    (∀ (K : Type) [Field K] {dim : Nat} (_ : 1 ≤ dim) (_ : dim ≤ 3) {ndof : Nat → Nat} {off : Nat → Nat → Nat}
      (_ : DistinctAll 4 ndof off) (pts : List (SidePt K)) (_ : ∀ q : SidePt K, q ∈ pts → q.dirichlet = q.pb) (res : Nat → K)
      {d : Nat} (_ : d < ndof 1), boundaryResidual dim ndof off .dirichlet pts (faceResidual dim ndof off pts res) (off 1 d) =
        res (off 1 d) - 2 * quad pts (fun q => q.wts * (q.pb * dot dim (q.basisU d) q.n))) ∧
    boundaryResidual 1 ndof1 off1 .dirichlet [end1]
      (faceResidual 1 ndof1 off1 [end0, end1] (volumeResidual 1 ndof1 off1 [pt1] (fun _ => 0))) (off1 1 0) = -1 := by
  have gen : ∀ (K : Type) [Field K] {dim : Nat} (_ : 1 ≤ dim) (_ : dim ≤ 3) {ndof : Nat → Nat} {off : Nat → Nat → Nat}
      (_ : DistinctAll 4 ndof off), Distinct (ndof 1) (off 1) := by
    intro K _ dim _ _ ndof off hoff a b ha hb hab
    exact (hoff 1 a 1 b (by omega) (by omega) ha hb hab).2
  constructor
  · intro K _ dim h1 h3 ndof off hoff pts hd0 res d hd
    rw [(C132_side h1 h3 (gen K h1 h3 hoff) pts _ hd).1, (C132_face h1 h3 hoff pts res).1 d hd,
      quad_congr pts (f := fun q => q.wts * (q.dirichlet * dot dim (q.basisU d) q.n))
        (g := fun q => q.wts * (q.pb * dot dim (q.basisU d) q.n)) (fun q hq => by rw [hd0 q hq])]
    ring
  · rw [(C132_side (K := ℚ) (by omega) (by omega) (gen ℚ (dim := 1) (by omega) (by omega) off1_distinct) [end1] _ (by decide)).1,
      C132_rest (by omega) (by omega) off1_distinct [pt1] [end0, end1] 1
        (by intro q hq; simp at hq; subst hq; exact ⟨rfl, fun _ => rfl⟩)
        (by intro q hq; simp at hq; rcases hq with rfl | rfl <;> rfl) (by decide)
        (by norm_num [quad, pt1, end0, end1, dot])]
    norm_num [quad, end1, dot]

/-- C132 is false for subgrid models with coarse variables `pbndry` and `pint` in this order: the flux goes to the second. -/
theorem C132_coarse_violated : auxNum ["pbndry", "pint"] = some 1 ∧ auxNum ["pint", "pbndry"] = some 1 ∧ auxNum ["p"] = none := by
  decide

/-! ## The basis HDIV_AC -/

section
variable [Field K]

/-- C132, the basis HDIV_AC: the divergences are those of the values: the functions are linear, differences over any step give
derivatives. -/
theorem C132_ac_divergence (i : Fin 4) (x y h : K) (h2 : (2 : K) ≠ 0) :
    ((acValue i (x + h) y).1 - (acValue i x y).1) + ((acValue i x (y + h)).2 - (acValue i x y).2) = h * acDiv i := by
  fin_cases i <;> simp only [acValue, acDiv] <;> field_simp <;> ring

/-- C132, the basis HDIV_AC: on the reference element the functions span, uniquely, the fields `(a + c x + e x, b + c y - e y)`:
constants, the position and one field without divergence. -/
theorem C132_ac_span (h2 : (2 : K) ≠ 0) (a b c e : K) :
    ∃! X : Fin 4 → K, ∀ x y : K, (∑ i, X i * (acValue i x y).1 = a + c * x + e * x) ∧
      (∑ i, X i * (acValue i x y).2 = b + c * y - e * y) := by
  refine ⟨![b - c, a - c, 2 * c, e], ?_, ?_⟩
  · intro x y
    constructor <;> simp [Fin.sum_univ_four, acValue] <;> field_simp <;> ring
  · intro Y hY
    have h00 := hY 0 0
    have h10 := hY 1 0
    have h01 := hY 0 1
    simp [Fin.sum_univ_four, acValue] at h00 h10 h01
    have hi : (2 : K)⁻¹ * 2 = 1 := inv_mul_cancel₀ h2
    have p : Y 2 * 2⁻¹ + Y 3 = c + e := by linear_combination h10.1 - h00.1
    have m : Y 2 * 2⁻¹ - Y 3 = c - e := by linear_combination h01.2 - h00.2
    have y2 : Y 2 = 2 * c := by linear_combination p + m - Y 2 * hi
    have y3 : Y 3 = e := by rw [y2] at p; linear_combination p - c * hi
    have y1 : Y 1 = a - c := by rw [y2] at h00; linear_combination h00.1 - c * hi
    have y0 : Y 0 = b - c := by rw [y2] at h00; linear_combination h00.2 - c * hi
    funext i
    fin_cases i <;> simp [y0, y1, y2, y3]

/-- [specification, no code] The Jacobian of the map `(x, y) ↦ P + x A + y B + x y C` of a quadrilateral. -/
def bilinear (A B C : K × K) (x y : K) : (K × K) × (K × K) := ((A.1 + C.1 * y, B.1 + C.1 * x), (A.2 + C.2 * y, B.2 + C.2 * x))

/-- C132, the basis HDIV_AC: on every quadrilateral, parallelogram or not, the constant fields are represented. -/
theorem C132_ac_constants (A B C : K × K) (a b : K) :
    ∃ X : Fin 4 → K, ∀ x y : K,
      (bilinear A B C x y).1.1 * (bilinear A B C x y).2.2 - (bilinear A B C x y).1.2 * (bilinear A B C x y).2.1 ≠ 0 →
      (∑ i, X i * (piola (bilinear A B C x y) (acValue i x y)).1 = a) ∧
      (∑ i, X i * (piola (bilinear A B C x y) (acValue i x y)).2 = b) := by
  refine ⟨![A.1 * b - A.2 * a, B.2 * a - B.1 * b, 0, C.2 * a - C.1 * b], fun x y hJ => ?_⟩
  have key : ∀ D n1 n2 m1 m2 p1 p2 : K, D ≠ 0 → ∀ v w z r : K, v * n1 + w * m1 + z * p1 = r * D →
      v * (n1 / D) + w * (m1 / D) + z * (p1 / D) = r := by
    intro D n1 _ m1 _ p1 _ hD v w z r h
    field_simp
    linear_combination h
  constructor
  · simp only [Fin.sum_univ_four, acValue, piola]
    simp only [Matrix.cons_val_zero, Matrix.cons_val_one, Matrix.cons_val, zero_mul, add_zero]
    refine key _ _ 0 _ 0 _ 0 hJ _ _ _ _ ?_
    simp only [bilinear]
    ring
  · simp only [Fin.sum_univ_four, acValue, piola]
    simp only [Matrix.cons_val_zero, Matrix.cons_val_one, Matrix.cons_val, zero_mul, add_zero]
    refine key _ _ 0 _ 0 _ 0 hJ _ _ _ _ ?_
    simp only [bilinear]
    ring

end

/-- C132 is false on quadrilaterals that are no parallelograms: all four functions are mapped by Piola, also those that should not be;
on the trapezoid `(x (2 + y) / 2, y)` the field of positions, whose divergence is constant, is not represented (the basis is then
nothing but the usual one of lowest order). -/
theorem C132_ac_position_violated :
    ¬ ∃ X : Fin 4 → ℚ, ∀ x y : ℚ, -1 ≤ x → x ≤ 1 → -1 ≤ y → y ≤ 1 →
      (∑ i, X i * (piola (bilinear (1, 0) (0, 1) (1 / 2, 0) x y) (acValue i x y)).1 = x * (2 + y) / 2) ∧
      (∑ i, X i * (piola (bilinear (1, 0) (0, 1) (1 / 2, 0) x y) (acValue i x y)).2 = y) := by
  rintro ⟨X, h⟩
  have h0 := (h 0 0 (by norm_num) (by norm_num) (by norm_num) (by norm_num)).2
  have h1 := (h 0 1 (by norm_num) (by norm_num) (by norm_num) (by norm_num)).2
  have h2 := (h 0 (-1) (by norm_num) (by norm_num) (by norm_num) (by norm_num)).2
  norm_num [Fin.sum_univ_four, acValue, piola, bilinear] at h0 h1 h2
  linarith

-- the condition of the constants is met on this trapezoid, everywhere
example (x y : ℚ) (hy : -1 ≤ y) : (bilinear ((1 : ℚ), 0) (0, 1) (1 / 2, 0) x y).1.1 * (bilinear ((1 : ℚ), 0) (0, 1) (1 / 2, 0) x y).2.2
    - (bilinear ((1 : ℚ), 0) (0, 1) (1 / 2, 0) x y).1.2 * (bilinear ((1 : ℚ), 0) (0, 1) (1 / 2, 0) x y).2.1 ≠ 0 := by
  simp [bilinear]
  linarith

/-- C132 is false for HDIV_AC as a basis shared between elements: function 0, tagged as that of the lower edge, flows through the upper
edge as well, and its functional gives -1 instead of 1. -/
theorem C132_ac_edges_violated :
    (∀ x : ℚ, (acValue 0 x (-1)).2 = 1 ∧ (acValue 0 x 1).2 = 1) ∧
    (let n := acNode (K := ℚ) 0; (acValue 0 n.1 n.2).1 * n.1 + (acValue 0 n.1 n.2).2 * n.2 = -1) := by
  constructor
  · intro x; simp [acValue]
  · norm_num [acValue, acNode]

/-- The vertices of the reference square in the order of the cell topology.  [specification, no code] -/
def quadVertex : Fin 4 → ℚ × ℚ := ![(-1, -1), (1, -1), (1, 1), (-1, 1)]

/-- C132: the node of function `i` is the middle of side `i` of the reference square, and the vector of the functional is the outward
normal there. -/
theorem C132_ac_nodes :
    (∀ i : Fin 4, acNode (K := ℚ) i =
      (((quadVertex i).1 + (quadVertex (i + 1)).1) / 2, ((quadVertex i).2 + (quadVertex (i + 1)).2) / 2)) ∧
    (∀ i : Fin 4, (acNode (K := ℚ) i).1 * ((quadVertex (i + 1)).1 - (quadVertex i).1)
      + (acNode (K := ℚ) i).2 * ((quadVertex (i + 1)).2 - (quadVertex i).2) = 0) ∧
    (∀ i : Fin 4, (acNode (K := ℚ) i).1 * (acNode (K := ℚ) i).1 + (acNode (K := ℚ) i).2 * (acNode (K := ℚ) i).2 = 1) := by
  refine ⟨?_, ?_, ?_⟩ <;> intro i <;> fin_cases i <;> decide +kernel

end MrHyDE.Modules.WeakGalerkin
