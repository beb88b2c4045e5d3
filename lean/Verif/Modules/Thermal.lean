import Verif.Modules.Weak
import Mathlib.Algebra.Field.Basic
import Mathlib.Algebra.Field.Rat
import Mathlib.Tactic.FieldSimp
import Mathlib.Tactic.IntervalCases
import Mathlib.Tactic.NormNum

/-!
# The thermal module (C100)

`thermal` solves `rho cp dT/dt - div(kappa grad T) + U . grad T + b . grad T = source`, with Neumann conditions
`kappa grad T . n = g`, and with weakly imposed values on a side (a weak Dirichlet condition, or the interface to
the coarse scale in a multiscale computation).
-/

set_option linter.unusedSectionVars false

namespace MrHyDE.Modules.Thermal

variable {K : Type}

/-! ## Model -/

/-- What `volumeResidual` reads at one integration point of one element, src/physics/thermal.cpp:73-121: the
weight, the basis functions and their gradients, the functions, the temperature with its rate and gradient, the
velocity of the flow module and the advection functions. -/
structure VolPt (K : Type) where
  wts : K
  basis : Nat → K
  grad : Nat → Nat → K
  rho : K
  cp : K
  diff : K
  source : K
  dTdt : K
  gradT : Nat → K
  U : Nat → K
  b : Nat → K

/-- The additions of the loop body of `volumeResidual` for one basis function and one point,
src/physics/thermal.cpp:131-160.  `nsvel` is `have_nsvel`, `adv` is `have_advection`. -/
def volAdds [CommRing K] (dim : Nat) (nsvel adv : Bool) (p : VolPt K) (d : Nat) : List K :=
  [(p.rho * p.cp * p.dTdt - p.source) * p.wts * p.basis d] ++
  [p.diff * p.gradT 0 * p.wts * p.grad d 0] ++
  (if dim > 1 then [p.diff * p.gradT 1 * p.wts * p.grad d 1] else []) ++
  (if dim > 2 then [p.diff * p.gradT 2 * p.wts * p.grad d 2] else []) ++
  (if nsvel then
    (if dim = 1 then [p.U 0 * p.gradT 0 * p.wts * p.basis d]
     else if dim = 2 then [(p.U 0 * p.gradT 0 + p.U 1 * p.gradT 1) * p.wts * p.basis d]
     else [(p.U 0 * p.gradT 0 + p.U 1 * p.gradT 1 + p.U 2 * p.gradT 2) * p.wts * p.basis d])
   else []) ++
  (if adv then
    (if dim = 1 then [p.b 0 * p.gradT 0 * p.wts * p.basis d]
     else if dim = 2 then [(p.b 0 * p.gradT 0 + p.b 1 * p.gradT 1) * p.wts * p.basis d]
     else [(p.b 0 * p.gradT 0 + p.b 1 * p.gradT 1 + p.b 2 * p.gradT 2) * p.wts * p.basis d])
   else [])

/-- `volumeResidual` on one element, src/physics/thermal.cpp:71-165. -/
def volumeResidual [CommRing K] (dim ndof : Nat) (off : Nat → Nat) (nsvel adv : Bool) (pts : List (VolPt K))
    (res : Nat → K) : Nat → K :=
  dofLoop ndof pts off (volAdds dim nsvel adv) res

/-- The type of the condition on the current side (`var_bcs`), src/physics/thermal.cpp:177, as far as the module
distinguishes it. -/
inductive Cond where
  | neumann
  | weakDirichlet
  | interface
  | other
  deriving DecidableEq

/-- What `boundaryResidual` and `computeFlux` read at one integration point of one side,
src/physics/thermal.cpp:174-243 and 288-324: `dirichlet` and `neumann` are the values of the functions
"Dirichlet T <side>" and "Neumann T <side>", `aux` the coarse-scale value "aux T", `robin` the function
"robin alpha", `n` the normal. -/
structure SidePt (K : Type) where
  wts : K
  basis : Nat → K
  grad : Nat → Nat → K
  n : Nat → K
  diff : K
  T : K
  gradT : Nat → K
  dirichlet : K
  neumann : K
  aux : K
  robin : K

/-- The factor of the term with the gradient of the test function in `boundaryResidual`,
src/physics/thermal.cpp:197-201. -/
def sfBoundary [One K] (formparam : K) (adjoint : Bool) : K := if adjoint then 1 else formparam

/-- The factor of the normal derivative in `computeFlux`, src/physics/thermal.cpp:292-295. -/
def sfFlux [One K] (formparam : K) (adjoint : Bool) : K := if adjoint then formparam else 1

/-- `bdata`, src/physics/thermal.cpp:186-191 and 235-243. -/
def bdata (c : Cond) (p : SidePt K) : K :=
  match c with
  | .interface => p.aux
  | _ => p.dirichlet

/-- The additions of the loop bodies of `boundaryResidual` for one basis function and one point,
src/physics/thermal.cpp:215-279; `epen` is 10 (line 244), `h` the size of the element. -/
def sideAdds [Field K] (dim : Nat) (c : Cond) (formparam : K) (adjoint : Bool) (h : K) (p : SidePt K) (d : Nat) :
    List K :=
  match c with
  | .neumann => [-p.neumann * p.wts * p.basis d]
  | .other => []
  | _ =>
    let sf := sfBoundary formparam adjoint
    let b := bdata c p
    if dim = 1 then
      [10 / h * p.diff * (p.T - b) * p.wts * p.basis d,
       -p.diff * p.gradT 0 * p.n 0 * p.wts * p.basis d,
       -sf * p.diff * (p.T - b) * p.wts * p.grad d 0 * p.n 0]
    else if dim = 2 then
      [10 / h * p.diff * (p.T - b) * p.wts * p.basis d,
       -p.diff * (p.gradT 0 * p.n 0 + p.gradT 1 * p.n 1) * p.wts * p.basis d,
       -sf * p.diff * (p.T - b) * p.wts * (p.grad d 0 * p.n 0 + p.grad d 1 * p.n 1)]
    else
      [10 / h * p.diff * (p.T - b) * p.wts * p.basis d,
       -p.diff * (p.gradT 0 * p.n 0 + p.gradT 1 * p.n 1 + p.gradT 2 * p.n 2) * p.wts * p.basis d,
       -sf * p.diff * (p.T - b) * p.wts * (p.grad d 0 * p.n 0 + p.grad d 1 * p.n 1 + p.grad d 2 * p.n 2)]

/-- `boundaryResidual` on one side of one element, src/physics/thermal.cpp:172-281. -/
def boundaryResidual [Field K] (dim ndof : Nat) (off : Nat → Nat) (c : Cond) (formparam : K) (adjoint : Bool)
    (h : K) (pts : List (SidePt K)) (res : Nat → K) : Nat → K :=
  dofLoop ndof pts off (sideAdds dim c formparam adjoint h) res

/-- `computeFlux` at one point, src/physics/thermal.cpp:319-342. -/
def computeFlux [Field K] (dim : Nat) (formparam : K) (adjoint : Bool) (h : K) (p : SidePt K) : K :=
  let sf := sfFlux formparam adjoint
  let f := 10 / h * p.diff * (p.aux - p.T)
  let f := f + sf * p.diff * p.gradT 0 * p.n 0
  let f := if dim > 1 then f + sf * p.diff * p.gradT 1 * p.n 1 else f
  if dim > 2 then f + sf * p.diff * p.gradT 2 * p.n 2 else f

/-! ## Specification -/

/-- The integrand of the equation tested with a function of value `v` and gradient `dv`.
[specification, no code] -/
def form [CommRing K] (dim : Nat) (nsvel adv : Bool) (p : VolPt K) (v : K) (dv : Nat → K) : K :=
  (p.rho * p.cp * p.dTdt - p.source + (if nsvel then dot dim p.U p.gradT else 0)
    + (if adv then dot dim p.b p.gradT else 0)) * v
  + p.diff * dot dim p.gradT dv

/-- The integrand of a weakly imposed value `g`: penalty, outflow of heat, and the term that makes the form
symmetric.  [specification, no code] -/
def nitsche [Field K] (dim : Nat) (sf h g : K) (p : SidePt K) (v : K) (dv : Nat → K) : K :=
  10 / h * p.diff * (p.T - g) * v - p.diff * dot dim p.gradT p.n * v - sf * p.diff * (p.T - g) * dot dim dv p.n

/-- The state with the coefficient of basis function `e` increased by one.  [specification, no code] -/
def SidePt.raise [Add K] (e : Nat) (p : SidePt K) : SidePt K :=
  { p with T := p.T + p.basis e, gradT := fun c => p.gradT c + p.grad e c }

/-- The entry (`d`,`e`) of the matrix of the boundary terms: the residual is affine in the coefficients, so the
derivative is the difference.  [specification, no code] -/
def matrix [Field K] (dim ndof : Nat) (off : Nat → Nat) (c : Cond) (formparam : K) (adjoint : Bool)
    (h : K) (pts : List (SidePt K)) (d e : Nat) : K :=
  boundaryResidual dim ndof off c formparam adjoint h (pts.map (SidePt.raise e)) (fun _ => 0) (off d)
  - boundaryResidual dim ndof off c formparam adjoint h pts (fun _ => 0) (off d)

/-! ## Properties -/

section Volume
variable [CommRing K]

theorem volAdds_sum {dim : Nat} (h1 : 1 ≤ dim) (h3 : dim ≤ 3) (nsvel adv : Bool) (p : VolPt K) (d : Nat) :
    (volAdds dim nsvel adv p d).sum = p.wts * form dim nsvel adv p (p.basis d) (p.grad d) := by
  interval_cases dim <;> cases nsvel <;> cases adv <;>
    simp [volAdds, form, dot_one, dot_two, dot_three] <;> ring

/-- C100: in one, two and three dimensions, with and without flow velocity and advection, the entry of every basis
function receives the quadrature of the equation tested with that basis function, and no other entry changes. -/
theorem C100_volume {dim ndof : Nat} (h1 : 1 ≤ dim) (h3 : dim ≤ 3) {off : Nat → Nat} (hoff : Distinct ndof off)
    (nsvel adv : Bool) (pts : List (VolPt K)) (res : Nat → K) :
    (∀ d : Nat, d < ndof → volumeResidual dim ndof off nsvel adv pts res (off d) =
        res (off d) + quad pts (fun p => p.wts * form dim nsvel adv p (p.basis d) (p.grad d))) ∧
    (∀ j : Nat, (∀ d : Nat, d < ndof → off d ≠ j) →
        volumeResidual dim ndof off nsvel adv pts res j = res j) := by
  refine ⟨fun d hd => ?_, fun j hj => dofLoop_other pts _ res hj⟩
  rw [volumeResidual, dofLoop_at hoff pts _ res hd]
  rw [quad_congr pts (fun p _ => volAdds_sum h1 h3 nsvel adv p d)]

/-- C100: no heat is made or lost by the discretisation: when the basis functions sum to one, the residuals of an
element sum to stored heat plus advected heat minus source; the diffusion drops out. -/
theorem C100_volume_balance {dim ndof : Nat} (h1 : 1 ≤ dim) (h3 : dim ≤ 3) {off : Nat → Nat}
    (hoff : Distinct ndof off) (nsvel adv : Bool) (pts : List (VolPt K)) (res : Nat → K)
    (hpu : ∀ p : VolPt K, p ∈ pts → PartitionOfUnity ndof dim p.basis p.grad) :
    ∑ d ∈ Finset.range ndof, volumeResidual dim ndof off nsvel adv pts res (off d) =
      ∑ d ∈ Finset.range ndof, res (off d) +
      quad pts (fun p => p.wts * (p.rho * p.cp * p.dTdt - p.source + (if nsvel then dot dim p.U p.gradT else 0)
        + (if adv then dot dim p.b p.gradT else 0))) := by
  rw [Finset.sum_congr rfl (fun d hd => (C100_volume h1 h3 hoff nsvel adv pts res).1 d (Finset.mem_range.mp hd)),
    Finset.sum_add_distrib, quad_sum]
  congr 1
  refine quad_congr pts (fun p hp => ?_)
  obtain ⟨hb, hg⟩ := hpu p hp
  have hgd : ∑ d ∈ Finset.range ndof, dot dim p.gradT (p.grad d) = 0 := by
    unfold dot
    rw [Finset.sum_comm]
    refine Finset.sum_eq_zero (fun c hc => ?_)
    rw [← Finset.mul_sum, hg c (Finset.mem_range.mp hc), mul_zero]
  simp only [form]
  rw [← Finset.mul_sum, Finset.sum_add_distrib, ← Finset.mul_sum, ← Finset.mul_sum, hb, hgd]
  ring

end Volume

section Side
variable [Field K]

theorem sideAdds_sum {dim : Nat} (h1 : 1 ≤ dim) (h3 : dim ≤ 3) {c : Cond}
    (hc : c = .weakDirichlet ∨ c = .interface) (fp : K) (adj : Bool) (h : K) (p : SidePt K) (d : Nat) :
    (sideAdds dim c fp adj h p d).sum =
      p.wts * nitsche dim (if adj then 1 else fp) h (if c = .interface then p.aux else p.dirichlet) p
        (p.basis d) (p.grad d) := by
  rcases hc with rfl | rfl <;> interval_cases dim <;> cases adj <;>
    simp [sideAdds, nitsche, bdata, sfBoundary, dot_one, dot_two, dot_three] <;> ring

/-- C100: on a side with a Neumann condition the residual of every basis function receives minus the integral of
the given flux; with a weak Dirichlet condition the integral of the weakly imposed Dirichlet function; on an
interface the same with the coarse-scale value; in one, two and three dimensions.  Other sides add nothing. -/
theorem C100_side {dim ndof : Nat} (h1 : 1 ≤ dim) (h3 : dim ≤ 3) {off : Nat → Nat} (hoff : Distinct ndof off)
    (fp h : K) (pts : List (SidePt K)) (res : Nat → K) {d : Nat} (hd : d < ndof) :
    boundaryResidual dim ndof off .neumann fp false h pts res (off d) =
      res (off d) - quad pts (fun p => p.wts * (p.neumann * p.basis d)) ∧
    boundaryResidual dim ndof off .weakDirichlet fp false h pts res (off d) =
      res (off d) + quad pts (fun p => p.wts * nitsche dim fp h p.dirichlet p (p.basis d) (p.grad d)) ∧
    boundaryResidual dim ndof off .interface fp false h pts res (off d) =
      res (off d) + quad pts (fun p => p.wts * nitsche dim fp h p.aux p (p.basis d) (p.grad d)) ∧
    boundaryResidual dim ndof off .other fp false h pts res (off d) = res (off d) := by
  refine ⟨?_, ?_, ?_, ?_⟩
  · rw [boundaryResidual, dofLoop_at hoff pts _ res hd, sub_eq_add_neg, ← quad_neg]
    congr 1
    exact quad_congr pts (fun p _ => by simp [sideAdds]; ring)
  · rw [boundaryResidual, dofLoop_at hoff pts _ res hd]
    congr 1
    refine quad_congr pts (fun p _ => ?_)
    rw [sideAdds_sum h1 h3 (Or.inl rfl)]
    simp
  · rw [boundaryResidual, dofLoop_at hoff pts _ res hd]
    congr 1
    refine quad_congr pts (fun p _ => ?_)
    rw [sideAdds_sum h1 h3 (Or.inr rfl)]
    simp
  · rw [boundaryResidual, dofLoop_at hoff pts _ res hd]
    rw [quad_congr pts (g := fun _ => (0 : K)) (fun p _ => by simp [sideAdds]), quad_zero, add_zero]

theorem computeFlux_eq {dim : Nat} (h1 : 1 ≤ dim) (h3 : dim ≤ 3) (fp : K) (adj : Bool) (h : K) (p : SidePt K) :
    computeFlux dim fp adj h p =
      10 / h * p.diff * (p.aux - p.T) + (if adj then fp else 1) * p.diff * dot dim p.gradT p.n := by
  interval_cases dim <;> cases adj <;>
    simp [computeFlux, sfFlux, dot_one, dot_two, dot_three] <;> ring

/-- C100: the flux reported to the coarse scale balances the interface residual: in a forward computation, when
the basis functions sum to one, the interface residuals of an element sum to minus the integral of the reported
flux.  What the fine scale gains through the interface, the coarse scale loses. -/
theorem C100_flux_balance {dim ndof : Nat} (h1 : 1 ≤ dim) (h3 : dim ≤ 3) {off : Nat → Nat}
    (hoff : Distinct ndof off) (fp h : K) (pts : List (SidePt K)) (res : Nat → K)
    (hpu : ∀ p : SidePt K, p ∈ pts → PartitionOfUnity ndof dim p.basis p.grad) :
    ∑ d ∈ Finset.range ndof, boundaryResidual dim ndof off .interface fp false h pts res (off d) =
      ∑ d ∈ Finset.range ndof, res (off d) - quad pts (fun p => p.wts * computeFlux dim fp false h p) := by
  rw [Finset.sum_congr rfl
      (fun d hd => (C100_side h1 h3 hoff fp h pts res (Finset.mem_range.mp hd)).2.2.1),
    Finset.sum_add_distrib, quad_sum, sub_eq_add_neg, ← quad_neg]
  congr 1
  refine quad_congr pts (fun p hp => ?_)
  obtain ⟨hb, hg⟩ := hpu p hp
  have hgd : ∑ d ∈ Finset.range ndof, dot dim (p.grad d) p.n = 0 := by
    unfold dot
    rw [Finset.sum_comm]
    refine Finset.sum_eq_zero (fun c hc => ?_)
    rw [← Finset.sum_mul, hg c (Finset.mem_range.mp hc), zero_mul]
  rw [computeFlux_eq h1 h3]
  simp only [nitsche]
  rw [← Finset.mul_sum, Finset.sum_sub_distrib, Finset.sum_sub_distrib, ← Finset.mul_sum, ← Finset.mul_sum,
    ← Finset.mul_sum, hb, hgd]
  simp only [Bool.false_eq_true, if_false]
  ring

theorem dot_add (n : Nat) (a b c : Nat → K) : dot n (fun i => a i + b i) c = dot n a c + dot n b c := by
  simp [dot, add_mul, Finset.sum_add_distrib]

theorem matrix_eq {dim ndof : Nat} (h1 : 1 ≤ dim) (h3 : dim ≤ 3) {off : Nat → Nat} (hoff : Distinct ndof off)
    (fp : K) (adj : Bool) (h : K) (pts : List (SidePt K)) {d : Nat} (hd : d < ndof) (e : Nat) :
    matrix dim ndof off .weakDirichlet fp adj h pts d e =
      quad pts (fun p => p.wts * p.diff * (10 / h * p.basis e * p.basis d
        - dot dim (p.grad e) p.n * p.basis d
        - (if adj then 1 else fp) * p.basis e * dot dim (p.grad d) p.n)) := by
  unfold matrix
  rw [boundaryResidual, boundaryResidual, dofLoop_at hoff _ _ _ hd, dofLoop_at hoff _ _ _ hd]
  have hmap : quad (pts.map (SidePt.raise e)) (fun p => (sideAdds dim .weakDirichlet fp adj h p d).sum) =
      quad pts (fun p => (sideAdds dim .weakDirichlet fp adj h (SidePt.raise e p) d).sum) := by
    simp [quad, List.map_map, Function.comp_def]
  rw [hmap]
  rw [sub_eq_add_neg, neg_add, zero_add, neg_zero, zero_add, ← quad_neg, ← quad_add]
  refine quad_congr pts (fun p _ => ?_)
  rw [sideAdds_sum h1 h3 (Or.inl rfl), sideAdds_sum h1 h3 (Or.inl rfl)]
  simp only [nitsche, SidePt.raise, reduceCtorEq, if_false, dot_add]
  ring

/-- C100: with the default form parameter 1 the matrix of a weakly imposed value is symmetric. -/
theorem C100_symmetric {dim ndof : Nat} (h1 : 1 ≤ dim) (h3 : dim ≤ 3) {off : Nat → Nat}
    (hoff : Distinct ndof off) (adj : Bool) (h : K) (pts : List (SidePt K)) {d e : Nat} (hd : d < ndof)
    (he : e < ndof) :
    matrix dim ndof off .weakDirichlet 1 adj h pts d e = matrix dim ndof off .weakDirichlet 1 adj h pts e d := by
  rw [matrix_eq h1 h3 hoff _ _ _ _ hd, matrix_eq h1 h3 hoff _ _ _ _ he]
  refine quad_congr pts (fun p _ => ?_)
  simp only [ite_self]
  ring

/-- C100, the part that holds of "the adjoint computation uses the transposed matrix of the forward computation":
with the default form parameter 1 the boundary terms are the same in both.  Missing: other form parameters, see
`C100_adjoint_violated`. -/
theorem C100_adjoint_partial {dim ndof : Nat} {off : Nat → Nat} (c : Cond) (h : K) (pts : List (SidePt K))
    (res : Nat → K) :
    boundaryResidual dim ndof off c 1 true h pts res = boundaryResidual dim ndof off c 1 false h pts res := by
  have hf : (sideAdds dim c (1 : K) true h) = sideAdds dim c (1 : K) false h := by
    funext p d
    cases c <;> simp [sideAdds, sfBoundary]
  rw [boundaryResidual, boundaryResidual, hf]

end Side

/-! ## What does not hold -/

/-- A side of an interval, [case]: the outer point of the element [0,1], with linear basis functions. -/
def endPoint (T : ℚ) : SidePt ℚ :=
  { wts := 1, basis := fun d => if d = 1 then 1 else 0, grad := fun d _ => if d = 1 then 1 else -1,
    n := fun _ => 1, diff := 1, T := T, gradT := fun _ => 0, dirichlet := 0, neumann := 0, aux := 0, robin := 0 }

/-- C100: that the adjoint computation uses the forward matrix is false when the user selects the nonsymmetric
form: the adjoint assembly (which transposes afterwards) assembles the symmetric form instead.  One element with
linear basis functions and form parameter -1. -/
theorem C100_adjoint_violated :
    ∃ (pts : List (SidePt ℚ)) (fp : ℚ) (d e : Nat), d < 2 ∧ e < 2 ∧
      matrix 1 2 id .weakDirichlet fp true 1 pts d e ≠ matrix 1 2 id .weakDirichlet fp false 1 pts d e := by
  refine ⟨[endPoint 0], -1, 0, 1, by decide, by decide, ?_⟩
  have hd : Distinct 2 id := fun a b _ _ h => h
  rw [matrix_eq (by decide) (by decide) hd _ _ _ _ (by decide), matrix_eq (by decide) (by decide) hd _ _ _ _ (by decide)]
  norm_num [quad, endPoint, dot_one]

/-- C100: that the function "robin alpha" acts on the boundary is false: the residual is the same for every value
of it, on every kind of side. -/
theorem C100_robin_violated [Field K] (dim ndof : Nat) (off : Nat → Nat) (c : Cond) (fp : K) (adj : Bool) (h : K)
    (pts : List (SidePt K)) (res : Nat → K) (alpha : SidePt K → K) :
    boundaryResidual dim ndof off c fp adj h (pts.map (fun p => { p with robin := alpha p })) res =
      boundaryResidual dim ndof off c fp adj h pts res := by
  have hf : ∀ (p : SidePt K) (d : Nat),
      sideAdds dim c fp adj h { p with robin := alpha p } d = sideAdds dim c fp adj h p d := by
    intro p d
    cases c <;> simp [sideAdds, bdata]
  unfold boundaryResidual dofLoop
  simp only [List.foldl_map, hf]

/-! ## Cases -/

/-- A point of the element [0,1] with linear basis functions, [case]. -/
def midPoint : VolPt ℚ :=
  { wts := 1, basis := fun _ => 1/2, grad := fun d _ => if d = 1 then 1 else -1, rho := 2, cp := 3, diff := 5,
    source := 7, dTdt := 1, gradT := fun _ => 4, U := fun _ => 0, b := fun _ => 1 }

example : volumeResidual 1 2 id false true [midPoint] (fun _ => 0) 1 = 43/2 := by decide +kernel

example : PartitionOfUnity 2 1 midPoint.basis midPoint.grad := by
  refine ⟨by norm_num [midPoint, Finset.sum_range_succ], fun c hc => ?_⟩
  simp [midPoint, Finset.sum_range_succ]

example : Distinct 2 (id : Nat → Nat) := fun _ _ _ _ h => h

example : boundaryResidual 1 2 id .weakDirichlet 1 false (1/2) [endPoint 3] (fun _ => 0) 1 = 57 := by
  decide +kernel

example : matrix 1 2 id .weakDirichlet (-1) true (1 : ℚ) [endPoint 0] 0 1 = 1 := by decide +kernel

example : PartitionOfUnity 2 1 (endPoint 3).basis (endPoint 3).grad := by
  refine ⟨by norm_num [endPoint, Finset.sum_range_succ], fun c hc => ?_⟩
  simp [endPoint, Finset.sum_range_succ]

end MrHyDE.Modules.Thermal
