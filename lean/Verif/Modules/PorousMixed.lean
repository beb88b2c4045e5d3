import Verif.Modules.Loops
import Mathlib.Algebra.Field.Basic
import Mathlib.Algebra.Field.Rat
import Mathlib.Tactic.FieldSimp
import Mathlib.Tactic.IntervalCases
import Mathlib.Tactic.LinearCombination
import Mathlib.Tactic.NormNum

/-!
# The mixed porous media modules (C119)

`porousMixed` solves `u = -(mobility K) grad p`, `div u = source` with the velocity in HDIV (HGRAD in one dimension) and
the pressure in HVOL; `porousMixedHybrid` does so with a velocity that is not continuous between the elements and an
unknown `lambda` on the faces that makes it so.
-/

set_option linter.unusedSectionVars false
set_option linter.unusedSimpArgs false

namespace MrHyDE.Modules.PorousMixed

variable {K : Type}

/-! ## Model -/

/-- What `volumeResidual` reads at one integration point, src/physics/porousMixed.cpp:161-230, 237-323 and
src/physics/porousMixedHybridized.cpp:74-111, 172-174.  Equation 0 is that of the pressure, equation 1 that of the velocity,
equation 2 that of `lambda`. -/
structure Pt (K : Type) where
  wts : K
  source : K
  mob : K
  kinv : Nat → K
  p : K
  u : Nat → K
  divu : K
  basisU : Nat → Nat → K
  divBasis : Nat → K
  basisP : Nat → K

/-- The terms of the velocity equation, src/physics/porousMixed.cpp:248-257 (one dimension), 268-280 (two), 292-307
(three), and src/physics/porousMixedHybridized.cpp:115-123, 132-142, 152-164, which has no mobility.  Simplified: the hybrid module asks
in one dimension for the component "u[x]" of a face element that does not exist in one dimension; here the formula is
kept. -/
def uAdds [Field K] (hybrid : Bool) (dim : Nat) (q : Pt K) (d : Nat) : List K :=
  let p := q.p * q.wts
  let ki := fun c => if hybrid then q.kinv c * q.u c * q.wts else q.kinv c * q.u c * q.wts / q.mob
  if dim = 1 then [ki 0 * q.basisU d 0 - p * q.divBasis d]
  else if dim = 2 then [ki 0 * q.basisU d 0 + ki 1 * q.basisU d 1 - p * q.divBasis d]
  else [ki 0 * q.basisU d 0 + ki 1 * q.basisU d 1 + ki 2 * q.basisU d 2 - p * q.divBasis d]

/-- The terms of the pressure equation, src/physics/porousMixed.cpp:328-335 and
src/physics/porousMixedHybridized.cpp:179-186. -/
def pAdds [Field K] (hybrid : Bool) (q : Pt K) (d : Nat) : List K :=
  if hybrid then [-(q.divu * q.wts) * q.basisP d + q.source * q.wts * q.basisP d]
  else [(q.source - q.divu) * q.wts * q.basisP d]

/-- The loop nests of `volumeResidual`, src/physics/porousMixed.cpp:234-338 and
src/physics/porousMixedHybridized.cpp:102-188. -/
def loops [Field K] (hybrid : Bool) (dim : Nat) (ndof : Nat → Nat) : List (Loop K (Pt K)) :=
  [{ eq := 1, ndof := ndof 1, adds := uAdds hybrid dim }, { eq := 0, ndof := ndof 0, adds := pAdds hybrid }]

/-- `volumeResidual` on one element, src/physics/porousMixed.cpp:158-339 and
src/physics/porousMixedHybridized.cpp:71-189. -/
def volumeResidual [Field K] (hybrid : Bool) (dim : Nat) (ndof : Nat → Nat) (off : Nat → Nat → Nat)
    (pts : List (Pt K)) (res : Nat → K) : Nat → K :=
  runLoops off pts (loops hybrid dim ndof) res

/-- The type of the condition of the pressure on the current side, src/physics/porousMixed.cpp:351-352, 391, 411. -/
inductive Cond where
  | dirichlet
  | interface
  | other
  deriving DecidableEq

/-- What `boundaryResidual`, `faceResidual` and `computeFlux` read at one point of a side,
src/physics/porousMixed.cpp:354-389, 412 and src/physics/porousMixedHybridized.cpp:204-237, 260, 290-315, 339-341. -/
structure SidePt (K : Type) where
  wts : K
  n : Nat → K
  u : Nat → K
  basisU : Nat → Nat → K
  basisL : Nat → K
  dirichlet : K
  aux : K
  lambda : K

/-- The product with the normal as accumulated in the code, src/physics/porousMixed.cpp:399-405, 420-426 and
src/physics/porousMixedHybridized.cpp:247-253, 268-274, 324-330, 348-354; `dim` is the last extent of the basis, which
for these bases is the dimension of space. -/
def normal [Field K] (dim : Nat) (v n : Nat → K) : K :=
  let s := v 0 * n 0
  let s := if dim > 1 then s + v 1 * n 1 else s
  if dim > 2 then s + v 2 * n 2 else s

/-- The terms of `boundaryResidual`, src/physics/porousMixed.cpp:391-431 and
src/physics/porousMixedHybridized.cpp:239-279. -/
def sideAdds [Field K] (dim : Nat) (c : Cond) (q : SidePt K) (d : Nat) : List K :=
  match c with
  | .dirichlet => [q.dirichlet * q.wts * normal dim (q.basisU d) q.n]
  | .interface => [q.aux * q.wts * normal dim (q.basisU d) q.n]
  | .other => []

/-- `boundaryResidual` on one side, src/physics/porousMixed.cpp:345-433 and
src/physics/porousMixedHybridized.cpp:195-280. -/
def boundaryResidual [Field K] (dim : Nat) (ndof : Nat → Nat) (off : Nat → Nat → Nat) (c : Cond)
    (pts : List (SidePt K)) (res : Nat → K) : Nat → K :=
  ptLoop (ndof 1) pts (off 1) (sideAdds dim c) res

/-- `faceResidual` of the hybrid module, src/physics/porousMixedHybridized.cpp:286-362. -/
def faceResidual [Field K] (dim : Nat) (ndof : Nat → Nat) (off : Nat → Nat → Nat) (pts : List (SidePt K))
    (res : Nat → K) : Nat → K :=
  runLoops off pts
    [{ eq := 1, ndof := ndof 1, adds := fun q d => [q.lambda * q.wts * normal dim (q.basisU d) q.n] },
     { eq := 2, ndof := ndof 2, adds := fun q d => [-(normal dim q.u q.n * q.wts * q.basisL d)] }] res

/-- `computeFlux`: what is stored at a point of a side, src/physics/porousMixed.cpp:451-496 and
src/physics/porousMixedHybridized.cpp:395-404. -/
def flux [Field K] (dim : Nat) (q : SidePt K) : K := normal dim q.u q.n

/-- The position in the list of side bases that `boundaryResidual` takes for the velocity: the number of the basis in the
hybrid module (src/physics/porousMixedHybridized.cpp:204-206), the number of the variable in the other
(src/physics/porousMixed.cpp:354).  `none` is a position after the end. -/
def sideBasis {B : Type} (hybrid : Bool) (bases : List B) (usebasis : List Nat) (unum : Nat) : Option B :=
  if hybrid then usebasis[unum]? >>= fun b => bases[b]? else bases[unum]?

/-- The inverse permeability from data: `updatePerm`, src/physics/porousMixed.cpp:550-564 and
src/physics/porousMixedHybridized.cpp:450-464. -/
def dataKinv [Field K] (hybrid : Bool) (data : K) : K := if hybrid then data else 1 / data

/-! ## Specification -/

/-- The point with the state given by coefficients.  [specification, no code] -/
def withState [CommRing K] (nU nP : Nat) (U P : Nat → K) (q : Pt K) : Pt K :=
  { q with
    u := fun c => ∑ d ∈ Finset.range nU, U d * q.basisU d c
    divu := ∑ d ∈ Finset.range nU, U d * q.divBasis d
    p := ∑ d ∈ Finset.range nP, P d * q.basisP d }

/-- Darcy's law tested with a basis function, at a point; `k` is the inverse of the product of mobility and permeability.
[specification, no code] -/
def darcy [CommRing K] (dim : Nat) (k : Nat → K) (q : Pt K) (d : Nat) : K :=
  dot dim (fun c => k c * q.u c) (q.basisU d) - q.p * q.divBasis d

/-- The inverse of mobility and permeability at a point.  [specification, no code] -/
def resist [Field K] (hybrid : Bool) (q : Pt K) (c : Nat) : K := if hybrid then q.kinv c else q.kinv c / q.mob

/-! ## Lemmas -/

section
variable [Field K]

theorem loops_fit (hybrid : Bool) (dim : Nat) (ndof : Nat → Nat) {n : Nat} (hn : 2 ≤ n) :
    Fits n ndof (loops hybrid dim ndof : List (Loop K (Pt K))) := by
  intro l hl
  simp only [loops, List.mem_cons, List.not_mem_nil, or_false] at hl
  rcases hl with rfl | rfl
  · exact ⟨by simp; omega, rfl⟩
  · exact ⟨by simp; omega, rfl⟩

theorem uAdds_sum (hybrid : Bool) {dim : Nat} (h1 : 1 ≤ dim) (h3 : dim ≤ 3) (q : Pt K) (d : Nat) :
    (uAdds hybrid dim q d).sum = q.wts * darcy dim (resist hybrid q) q d := by
  cases hybrid <;> interval_cases dim <;> simp [uAdds, darcy, resist, dot_one, dot_two, dot_three] <;> ring

theorem pAdds_sum (hybrid : Bool) (q : Pt K) (d : Nat) :
    (pAdds hybrid q d).sum = q.wts * ((q.source - q.divu) * q.basisP d) := by
  cases hybrid <;> simp [pAdds] <;> ring

theorem normal_eq {dim : Nat} (h1 : 1 ≤ dim) (h3 : dim ≤ 3) (v n : Nat → K) : normal dim v n = dot dim v n := by
  interval_cases dim <;> simp [normal, dot_one, dot_two, dot_three]

theorem dot_sum (dim n : Nat) (X : Nat → K) (k : Nat → K) (a : Nat → K) (b : Nat → Nat → K) :
    ∑ d ∈ Finset.range n, X d * dot dim (fun c => k c * a c) (b d)
      = dot dim (fun c => k c * a c) (fun c => ∑ d ∈ Finset.range n, X d * b d c) := by
  unfold dot
  simp only [Finset.mul_sum]
  rw [Finset.sum_comm]
  refine Finset.sum_congr rfl fun c _ => Finset.sum_congr rfl fun d _ => ?_
  ring

theorem darcy_sum (dim nU : Nat) (V : Nat → K) (k : Nat → K) (q : Pt K) :
    ∑ d ∈ Finset.range nU, V d * darcy dim k q d =
      dot dim (fun c => k c * q.u c) (fun c => ∑ d ∈ Finset.range nU, V d * q.basisU d c)
        - q.p * ∑ d ∈ Finset.range nU, V d * q.divBasis d := by
  simp only [darcy, mul_sub, Finset.sum_sub_distrib, dot_sum]
  congr 1
  rw [Finset.mul_sum]
  exact Finset.sum_congr rfl fun d _ => by ring

end

/-! ## Properties -/

section
variable [Field K]

/-- C119: both equations: Darcy's law tested with every velocity function and the balance tested with every pressure
function, in both modules, and nothing else changes. -/
theorem C119_volume (hybrid : Bool) {dim n : Nat} (h1 : 1 ≤ dim) (h3 : dim ≤ 3) (hn : 2 ≤ n) {ndof : Nat → Nat}
    {off : Nat → Nat → Nat} (hoff : DistinctAll n ndof off) (pts : List (Pt K)) (res : Nat → K) :
    (∀ d : Nat, d < ndof 1 → volumeResidual hybrid dim ndof off pts res (off 1 d) =
      res (off 1 d) + quad pts (fun q => q.wts * darcy dim (resist hybrid q) q d)) ∧
    (∀ d : Nat, d < ndof 0 → volumeResidual hybrid dim ndof off pts res (off 0 d) =
      res (off 0 d) + quad pts (fun q => q.wts * ((q.source - q.divu) * q.basisP d))) ∧
    (∀ j : Nat, (∀ e d : Nat, e < 2 → d < ndof e → off e d ≠ j) →
      volumeResidual hybrid dim ndof off pts res j = res j) := by
  refine ⟨fun d hd => ?_, fun d hd => ?_, fun j hj => ?_⟩
  · unfold volumeResidual
    rw [runLoops_at hoff pts _ (loops_fit hybrid dim ndof hn) res (by omega) hd]
    refine congrArg _ (quad_congr pts fun q _ => ?_)
    simp [termsAt, loops, uAdds_sum hybrid h1 h3]
  · unfold volumeResidual
    rw [runLoops_at hoff pts _ (loops_fit hybrid dim ndof hn) res (by omega) hd]
    refine congrArg _ (quad_congr pts fun q _ => ?_)
    simp [termsAt, loops, pAdds_sum]
  · refine runLoops_other pts _ res fun l hl d hd => ?_
    simp only [loops, List.mem_cons, List.not_mem_nil, or_false] at hl
    rcases hl with rfl | rfl
    · exact hj 1 d (by omega) hd
    · exact hj 0 d (by omega) hd

/-- C119: local conservation: if the pressure functions sum to one, the pressure equations of an element sum to the
source minus the outflow `div u`; where they vanish, what is produced in the element leaves it. -/
theorem C119_conservation (hybrid : Bool) {dim n : Nat} (h1 : 1 ≤ dim) (h3 : dim ≤ 3) (hn : 2 ≤ n)
    {ndof : Nat → Nat} {off : Nat → Nat → Nat} (hoff : DistinctAll n ndof off) (pts : List (Pt K))
    (hone : ∀ q : Pt K, q ∈ pts → ∑ d ∈ Finset.range (ndof 0), q.basisP d = 1) :
    ∑ d ∈ Finset.range (ndof 0), volumeResidual hybrid dim ndof off pts (fun _ => 0) (off 0 d) =
      quad pts (fun q => q.wts * q.source) - quad pts (fun q => q.wts * q.divu) := by
  rw [Finset.sum_congr rfl (fun d hd =>
    (C119_volume hybrid h1 h3 hn hoff pts (fun _ => 0)).2.1 d (Finset.mem_range.mp hd))]
  simp only [zero_add]
  rw [quad_sum, sub_eq_add_neg, ← quad_neg, ← quad_add]
  refine quad_congr pts fun q hq => ?_
  rw [← Finset.mul_sum, ← Finset.mul_sum, hone q hq]
  ring

/-- C119: energy balance: the equations weighted with velocity and minus pressure leave the dissipation minus the work of
the source; the coupling of velocity and pressure drops out. -/
theorem C119_energy (hybrid : Bool) {dim n : Nat} (h1 : 1 ≤ dim) (h3 : dim ≤ 3) (hn : 2 ≤ n)
    {ndof : Nat → Nat} {off : Nat → Nat → Nat} (hoff : DistinctAll n ndof off) (pts : List (Pt K))
    (U P : Nat → K) :
    let R := volumeResidual hybrid dim ndof off (pts.map (withState (ndof 1) (ndof 0) U P)) (fun _ => 0)
    (∑ d ∈ Finset.range (ndof 1), U d * R (off 1 d)) - ∑ d ∈ Finset.range (ndof 0), P d * R (off 0 d) =
      quad (pts.map (withState (ndof 1) (ndof 0) U P)) (fun q =>
        q.wts * (dot dim (fun c => resist hybrid q c * q.u c) q.u - q.source * q.p)) := by
  intro R
  have hv := C119_volume hybrid h1 h3 hn hoff (pts.map (withState (ndof 1) (ndof 0) U P)) (fun _ => (0 : K))
  rw [Finset.sum_congr rfl (fun d hd => by
      simp only [R]; rw [hv.1 d (Finset.mem_range.mp hd), zero_add, quad_mul_left]),
    Finset.sum_congr (s₁ := Finset.range (ndof 0)) rfl (fun d hd => by
      simp only [R]; rw [hv.2.1 d (Finset.mem_range.mp hd), zero_add, quad_mul_left]),
    quad_sum, quad_sum, sub_eq_add_neg, ← quad_neg, ← quad_add]
  refine quad_congr _ fun q hq => ?_
  obtain ⟨q0, _, rfl⟩ := List.mem_map.mp hq
  have e1 : ∀ (k : K) (X : Nat → K) (f : Nat → K) (m : Nat),
      ∑ d ∈ Finset.range m, X d * (k * f d) = k * ∑ d ∈ Finset.range m, X d * f d := by
    intro k X f m
    rw [Finset.mul_sum]
    exact Finset.sum_congr rfl fun d _ => by ring
  rw [e1, darcy_sum, e1]
  have e2 : ∀ (k : K) (X : Nat → K) (f : Nat → K) (m : Nat),
      ∑ d ∈ Finset.range m, X d * (k * f d) = k * ∑ d ∈ Finset.range m, X d * f d := e1
  rw [e2]
  simp only [withState]
  ring

/-- C119: the matrix of the two equations is symmetric: exchanging the state and the test functions does not change the
result, without sources. -/
theorem C119_symmetric (hybrid : Bool) {dim n : Nat} (h1 : 1 ≤ dim) (h3 : dim ≤ 3) (hn : 2 ≤ n)
    {ndof : Nat → Nat} {off : Nat → Nat → Nat} (hoff : DistinctAll n ndof off) (pts : List (Pt K))
    (hs : ∀ q : Pt K, q ∈ pts → q.source = 0) (U P V Q : Nat → K) :
    let R := fun (U P : Nat → K) =>
      volumeResidual hybrid dim ndof off (pts.map (withState (ndof 1) (ndof 0) U P)) (fun _ => 0)
    (∑ d ∈ Finset.range (ndof 1), V d * R U P (off 1 d)) + ∑ d ∈ Finset.range (ndof 0), Q d * R U P (off 0 d) =
    (∑ d ∈ Finset.range (ndof 1), U d * R V Q (off 1 d)) + ∑ d ∈ Finset.range (ndof 0), P d * R V Q (off 0 d) := by
  intro R
  have e1 : ∀ (k : K) (X : Nat → K) (f : Nat → K) (m : Nat),
      ∑ d ∈ Finset.range m, X d * (k * f d) = k * ∑ d ∈ Finset.range m, X d * f d := by
    intro k X f m
    rw [Finset.mul_sum]
    exact Finset.sum_congr rfl fun d _ => by ring
  have key : ∀ U P V Q : Nat → K,
      (∑ d ∈ Finset.range (ndof 1), V d * R U P (off 1 d)) + ∑ d ∈ Finset.range (ndof 0), Q d * R U P (off 0 d) =
      quad pts (fun q => q.wts *
        (dot dim (fun c => resist hybrid q c * (withState (ndof 1) (ndof 0) U P q).u c)
            (withState (ndof 1) (ndof 0) V Q q).u
          - (withState (ndof 1) (ndof 0) U P q).p * (withState (ndof 1) (ndof 0) V Q q).divu
          - (withState (ndof 1) (ndof 0) U P q).divu * (withState (ndof 1) (ndof 0) V Q q).p)) := by
    intro U P V Q
    have hv := C119_volume hybrid h1 h3 hn hoff (pts.map (withState (ndof 1) (ndof 0) U P)) (fun _ => (0 : K))
    rw [Finset.sum_congr rfl (fun d hd => by
        simp only [R]; rw [hv.1 d (Finset.mem_range.mp hd), zero_add, quad_mul_left]),
      Finset.sum_congr (s₁ := Finset.range (ndof 0)) rfl (fun d hd => by
        simp only [R]; rw [hv.2.1 d (Finset.mem_range.mp hd), zero_add, quad_mul_left]),
      quad_sum, quad_sum, ← quad_add]
    simp only [quad, List.map_map]
    congr 1
    refine List.map_congr_left fun q hq => ?_
    simp only [Function.comp]
    rw [e1, darcy_sum, e1]
    have e3 : (withState (ndof 1) (ndof 0) U P q).source = 0 := hs q hq
    rw [e1, e3]
    have e4 : resist hybrid (withState (ndof 1) (ndof 0) U P q) = resist hybrid q := rfl
    rw [e4]
    simp only [withState]
    ring
  rw [key U P V Q, key V Q U P]
  refine quad_congr pts fun q _ => ?_
  have e5 : dot dim (fun c => resist hybrid q c * (withState (ndof 1) (ndof 0) U P q).u c)
        (withState (ndof 1) (ndof 0) V Q q).u
      = dot dim (fun c => resist hybrid q c * (withState (ndof 1) (ndof 0) V Q q).u c)
        (withState (ndof 1) (ndof 0) U P q).u := by
    unfold dot
    exact Finset.sum_congr rfl fun c _ => by ring
  rw [e5]
  ring

/-- C119: a side with a given pressure adds that pressure times the outflow of the test function, an interface the value
of the coarse scale, any other side nothing; the flux handed to the coarse scale is the outflow. -/
theorem C119_side {dim : Nat} (h1 : 1 ≤ dim) (h3 : dim ≤ 3) {ndof : Nat → Nat} {off : Nat → Nat → Nat}
    (hoff : Distinct (ndof 1) (off 1)) (pts : List (SidePt K)) (res : Nat → K) {d : Nat} (hd : d < ndof 1) :
    boundaryResidual dim ndof off .dirichlet pts res (off 1 d) =
      res (off 1 d) + quad pts (fun q => q.wts * (q.dirichlet * dot dim (q.basisU d) q.n)) ∧
    boundaryResidual dim ndof off .interface pts res (off 1 d) =
      res (off 1 d) + quad pts (fun q => q.wts * (q.aux * dot dim (q.basisU d) q.n)) ∧
    boundaryResidual dim ndof off .other pts res (off 1 d) = res (off 1 d) ∧
    ∀ q : SidePt K, flux dim q = dot dim q.u q.n := by
  refine ⟨?_, ?_, ?_, fun q => normal_eq h1 h3 _ _⟩
  · rw [boundaryResidual, ptLoop_at hoff pts _ res hd]
    refine congrArg _ (quad_congr pts fun q _ => ?_)
    simp [sideAdds, normal_eq h1 h3]; ring
  · rw [boundaryResidual, ptLoop_at hoff pts _ res hd]
    refine congrArg _ (quad_congr pts fun q _ => ?_)
    simp [sideAdds, normal_eq h1 h3]; ring
  · rw [boundaryResidual, ptLoop_at hoff pts _ res hd,
      quad_congr pts (g := fun _ => (0 : K)) (fun p _ => by simp [sideAdds]), quad_zero, add_zero]

/-- C119: a constant pressure is an exact solution at rest: with velocity and source zero, pressure `p0` in the element
and on all its sides, the velocity equations vanish as far as the divergence theorem holds for the velocity functions. -/
theorem C119_rest (hybrid : Bool) {dim n : Nat} (h1 : 1 ≤ dim) (h3 : dim ≤ 3) (hn : 2 ≤ n) {ndof : Nat → Nat}
    {off : Nat → Nat → Nat} (hoff : DistinctAll n ndof off) (pts : List (Pt K)) (spts : List (SidePt K)) (p0 : K)
    (hp : ∀ q : Pt K, q ∈ pts → q.p = p0 ∧ ∀ c : Nat, q.u c = 0)
    (hs : ∀ q : SidePt K, q ∈ spts → q.dirichlet = p0) {d : Nat} (hd : d < ndof 1)
    (hdiv : quad pts (fun q => q.wts * q.divBasis d) = quad spts (fun q => q.wts * dot dim (q.basisU d) q.n)) :
    boundaryResidual dim ndof off .dirichlet spts
      (volumeResidual hybrid dim ndof off pts (fun _ => 0)) (off 1 d) = 0 := by
  have hdist : Distinct (ndof 1) (off 1) := fun a b ha hb hab =>
    (hoff 1 a 1 b (by omega) (by omega) ha hb hab).2
  rw [(C119_side h1 h3 hdist spts _ hd).1, (C119_volume hybrid h1 h3 hn hoff pts _).1 d hd, zero_add]
  have a : quad pts (fun q => q.wts * darcy dim (resist hybrid q) q d)
      = -(p0 * quad pts (fun q => q.wts * q.divBasis d)) := by
    rw [quad_mul_left, ← quad_neg]
    refine quad_congr pts fun q hq => ?_
    have : dot dim (fun c => resist hybrid q c * q.u c) (q.basisU d) = 0 := by
      unfold dot
      exact Finset.sum_eq_zero fun c _ => by simp [(hp q hq).2 c]
    rw [darcy, this, (hp q hq).1]
    ring
  have b : quad spts (fun q => q.wts * (q.dirichlet * dot dim (q.basisU d) q.n))
      = p0 * quad spts (fun q => q.wts * dot dim (q.basisU d) q.n) := by
    rw [quad_mul_left]
    refine quad_congr spts fun q hq => ?_
    rw [hs q hq]
    ring
  rw [a, b, hdiv]
  ring

/-- C119: the faces of the hybrid module: `lambda` acts as the pressure on the face in the velocity equation, and the
equation of `lambda` is minus the outflow tested with the functions of the face. -/
theorem C119_face {dim : Nat} (h1 : 1 ≤ dim) (h3 : dim ≤ 3) {ndof : Nat → Nat} {off : Nat → Nat → Nat}
    (hoff : DistinctAll 3 ndof off) (pts : List (SidePt K)) (res : Nat → K) :
    (∀ d : Nat, d < ndof 1 → faceResidual dim ndof off pts res (off 1 d) =
      res (off 1 d) + quad pts (fun q => q.wts * (q.lambda * dot dim (q.basisU d) q.n))) ∧
    (∀ d : Nat, d < ndof 2 → faceResidual dim ndof off pts res (off 2 d) =
      res (off 2 d) - quad pts (fun q => q.wts * (dot dim q.u q.n * q.basisL d))) ∧
    (∀ d : Nat, d < ndof 0 → faceResidual dim ndof off pts res (off 0 d) = res (off 0 d)) := by
  have hfit : Fits 3 ndof
      [({ eq := 1, ndof := ndof 1, adds := fun q d => [q.lambda * q.wts * normal dim (q.basisU d) q.n] } :
          Loop K (SidePt K)),
       { eq := 2, ndof := ndof 2, adds := fun q d => [-(normal dim q.u q.n * q.wts * q.basisL d)] }] := by
    intro l hl
    simp only [List.mem_cons, List.not_mem_nil, or_false] at hl
    rcases hl with rfl | rfl <;> exact ⟨by simp, rfl⟩
  refine ⟨fun d hd => ?_, fun d hd => ?_, fun d hd => ?_⟩
  · unfold faceResidual
    rw [runLoops_at hoff pts _ hfit res (by omega) hd]
    refine congrArg _ (quad_congr pts fun q _ => ?_)
    simp [termsAt, normal_eq h1 h3]; ring
  · unfold faceResidual
    rw [runLoops_at hoff pts _ hfit res (by omega) hd, sub_eq_add_neg, ← quad_neg]
    refine congrArg _ (quad_congr pts fun q _ => ?_)
    simp [termsAt, normal_eq h1 h3]; ring
  · unfold faceResidual
    rw [runLoops_at hoff pts _ hfit res (by omega) hd,
      quad_congr pts (g := fun _ => (0 : K)) (fun q _ => by simp [termsAt]), quad_zero, add_zero]

/-- C119: what `lambda` does to the energy: on every face its work in the velocity equation is the opposite of the
weighted equation of `lambda`, so that the energy balance of `C119_energy` is unchanged. -/
theorem C119_multiplier {dim : Nat} (h1 : 1 ≤ dim) (h3 : dim ≤ 3) {ndof : Nat → Nat} {off : Nat → Nat → Nat}
    (hoff : DistinctAll 3 ndof off) (pts : List (SidePt K)) (U L : Nat → K)
    (hu : ∀ q : SidePt K, q ∈ pts → (∀ c : Nat, q.u c = ∑ d ∈ Finset.range (ndof 1), U d * q.basisU d c) ∧
      q.lambda = ∑ d ∈ Finset.range (ndof 2), L d * q.basisL d) :
    let R := faceResidual dim ndof off pts (fun _ => 0)
    (∑ d ∈ Finset.range (ndof 1), U d * R (off 1 d)) + ∑ d ∈ Finset.range (ndof 2), L d * R (off 2 d) = 0 := by
  intro R
  have hv := C119_face h1 h3 hoff pts (fun _ => (0 : K))
  rw [Finset.sum_congr rfl (fun d hd => by
      simp only [R]; rw [hv.1 d (Finset.mem_range.mp hd), zero_add, quad_mul_left]),
    Finset.sum_congr (s₁ := Finset.range (ndof 2)) rfl (fun d hd => by
      simp only [R]; rw [hv.2.1 d (Finset.mem_range.mp hd), zero_sub, ← quad_neg, quad_mul_left]),
    quad_sum, quad_sum, ← quad_add, quad_congr pts (g := fun _ => (0 : K)), quad_zero]
  intro q hq
  have a : ∑ d ∈ Finset.range (ndof 1), U d * (q.wts * (q.lambda * dot dim (q.basisU d) q.n))
      = q.wts * q.lambda * dot dim q.u q.n := by
    unfold dot
    simp only [(hu q hq).1, Finset.sum_mul, Finset.mul_sum]
    rw [Finset.sum_comm]
    exact Finset.sum_congr rfl fun c _ => Finset.sum_congr rfl fun d _ => by ring
  have b : ∑ d ∈ Finset.range (ndof 2), L d * -(q.wts * (dot dim q.u q.n * q.basisL d))
      = -(q.wts * q.lambda * dot dim q.u q.n) := by
    rw [(hu q hq).2, Finset.mul_sum, Finset.sum_mul, ← Finset.sum_neg_distrib]
    exact Finset.sum_congr rfl fun d _ => by ring
  rw [a, b]
  ring

/-- C119: transmission: a face seen from its two elements, with opposite normals, equal weights and equal functions on
the face, gives the jump of the normal velocity tested with them; the equation of `lambda` vanishes where the velocity
leaving one element enters the other. -/
theorem C119_transmission {dim : Nat} (h1 : 1 ≤ dim) (h3 : dim ≤ 3) {ndof : Nat → Nat} {off : Nat → Nat → Nat}
    (hoff : DistinctAll 3 ndof off) (pairs : List (SidePt K × SidePt K))
    (hp : ∀ q : SidePt K × SidePt K, q ∈ pairs →
      q.2.wts = q.1.wts ∧ q.2.basisL = q.1.basisL ∧ ∀ c : Nat, q.2.n c = - q.1.n c)
    {d : Nat} (hd : d < ndof 2) :
    faceResidual dim ndof off (pairs.map Prod.fst) (fun _ => 0) (off 2 d)
      + faceResidual dim ndof off (pairs.map Prod.snd) (fun _ => 0) (off 2 d) =
    quad pairs (fun q => q.1.wts * (dot dim (fun c => q.2.u c - q.1.u c) q.1.n * q.1.basisL d)) := by
  rw [(C119_face h1 h3 hoff _ _).2.1 d hd, (C119_face h1 h3 hoff _ _).2.1 d hd, zero_sub, zero_sub, ← quad_neg,
    ← quad_neg]
  simp only [quad, List.map_map]
  rw [← List.sum_map_add]
  congr 1
  refine List.map_congr_left fun q hq => ?_
  obtain ⟨a, b, c⟩ := hp q hq
  simp only [Function.comp, a, b]
  have e : dot dim q.2.u q.2.n = - dot dim q.2.u q.1.n := by
    unfold dot
    rw [← Finset.sum_neg_distrib]
    exact Finset.sum_congr rfl fun i _ => by rw [c]; ring
  have e' : dot dim (fun c => q.2.u c - q.1.u c) q.1.n = dot dim q.2.u q.1.n - dot dim q.1.u q.1.n := by
    unfold dot
    rw [← Finset.sum_sub_distrib]
    exact Finset.sum_congr rfl fun i _ => by ring
  rw [e, e']
  ring

/-- C119, the part that holds of "the side terms use the velocity functions": in the hybrid module always; in the other
if the number of the basis of the velocity is the number of the variable.  Missing: other numberings, see
`C119_basis_violated`. -/
theorem C119_basis_partial {B : Type} (hybrid : Bool) (bases : List B) (usebasis : List Nat) (unum b : Nat) (v : B)
    (hu : usebasis[unum]? = some b) (hb : bases[b]? = some v) (h : hybrid = true ∨ b = unum) :
    sideBasis hybrid bases usebasis unum = some v := by
  unfold sideBasis
  rcases h with h | h
  · simp [h, hu, hb]
  · subst h
    cases hybrid <;> simp [hu, hb]

/-- C119, the part that holds of "permeability data are permeabilities": in `porousMixed`.  Missing: the hybrid module,
see `C119_data_violated`. -/
theorem C119_data_partial (data : K) (h : data ≠ 0) : dataKinv false data * data = 1 := by
  simp [dataKinv, h]

end

/-! ## What does not hold -/

/-- C119: that the side terms use the velocity functions is false when another variable comes first with the basis of the
pressure: with variables `T`, `p`, `u` and bases HVOL, HDIV the position is after the end of the list; and with one more
variable after them the functions of that variable are taken. -/
theorem C119_basis_violated :
    sideBasis false ["HVOL", "HDIV"] [0, 0, 1] 2 = none ∧
    sideBasis false ["HVOL", "HDIV", "HGRAD"] [0, 0, 1, 2] 2 = some "HGRAD" ∧
    sideBasis true ["HVOL", "HDIV", "HGRAD"] [0, 0, 1, 2] 2 = some "HDIV" := by
  simp [sideBasis]

/-- C119: that permeability data are permeabilities is false in the hybrid module: it takes the same data for inverse
permeabilities; the two modules agree only for the values 1 and -1. -/
theorem C119_data_violated (data : ℚ) (h : data ≠ 0) :
    dataKinv true data * data = data ^ 2 ∧ (dataKinv true data = dataKinv false data ↔ data = 1 ∨ data = -1) := by
  refine ⟨by simp [dataKinv]; ring, ?_⟩
  simp only [dataKinv, if_true, Bool.false_eq_true, if_false]
  rw [eq_div_iff h]
  constructor
  · intro h2
    have : (data - 1) * (data + 1) = 0 := by linear_combination h2
    rcases mul_eq_zero.mp this with h | h
    · left; linear_combination h
    · right; linear_combination h
  · rintro (rfl | rfl) <;> norm_num

/-! ## Cases -/

/-- One point of an element with two velocity functions and one pressure function, [case]. -/
def onePt : Pt ℚ :=
  { wts := 2, source := 3, mob := 2, kinv := fun _ => 4, p := 5, u := fun c => if c = 0 then 1 else 0, divu := 3,
    basisU := fun d c => if d = c then 1 else 0, divBasis := fun d => if d = 0 then 1 else -1, basisP := fun _ => 1 }

/-- The offsets: pressure first, [case]. -/
def offs (e d : Nat) : Nat := if e = 0 then d else if e = 1 then 1 + d else 3 + d

example : DistinctAll 3 (fun e => if e = 1 then 2 else 1) offs := by
  intro i a j b hi hj ha hb h
  interval_cases i <;> interval_cases j <;> simp [offs] at * <;> omega

example : (volumeResidual false 2 (fun e => if e = 1 then 2 else 1) offs [onePt] (fun _ => 0) 1,
    volumeResidual false 2 (fun e => if e = 1 then 2 else 1) offs [onePt] (fun _ => 0) 0) = (-6, 0) := by
  decide +kernel

end MrHyDE.Modules.PorousMixed
