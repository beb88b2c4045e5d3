import Verif.Modules.Weak
import Mathlib.Algebra.Field.Basic
import Mathlib.Algebra.Field.Rat
import Mathlib.Tactic.FieldSimp
import Mathlib.Tactic.IntervalCases
import Mathlib.Tactic.NormNum

/-!
# The porous media module (C104)

`porous` solves the single-phase, slightly compressible flow equation
`phi rho_ref c dp/dt - div(k/mu rho(p) grad p) = source`, `rho(p) = rho_ref (1 + c (p - p_ref))`, with a continuous
pressure; gravity is a function of the user.
-/

set_option linter.unusedSectionVars false

namespace MrHyDE.Modules.Porous

variable {K : Type}

/-! ## Model -/

/-- What `volumeResidual` reads at one integration point, src/physics/porous.cpp:59-85. -/
structure VolPt (K : Type) where
  wts : K
  basis : Nat → K
  grad : Nat → Nat → K
  perm : K
  porosity : K
  visc : K
  densref : K
  pref : K
  comp : K
  gravity : K
  source : K
  p : K
  pdot : K
  gradp : Nat → K

/-- The additions of the loop body of `volumeResidual`, src/physics/porous.cpp:92-98, 109-116 and 128-136. -/
def volAdds [Field K] (dim : Nat) (q : VolPt K) (d : Nat) : List K :=
  let kdens := q.perm / q.visc * q.densref * (1 + q.comp * (q.p - q.pref))
  let m := (q.porosity * q.densref * q.comp * q.pdot - q.source) * q.wts
  let k := fun c => kdens * q.gradp c * q.wts
  if dim = 1 then [m * q.basis d + k 0 * q.grad d 0]
  else if dim = 2 then [m * q.basis d + k 0 * q.grad d 0 + k 1 * q.grad d 1]
  else [m * q.basis d + k 0 * q.grad d 0 + k 1 * q.grad d 1 + k 2 * q.grad d 2]

/-- `volumeResidual` on one element, src/physics/porous.cpp:57-141. -/
def volumeResidual [Field K] (dim ndof : Nat) (off : Nat → Nat) (pts : List (VolPt K)) (res : Nat → K) : Nat → K :=
  ptLoop ndof pts off (volAdds dim) res

/-- The type of the condition on the current side, src/physics/porous.cpp:154, as far as the module distinguishes
it. -/
inductive Cond where
  | neumann
  | weakDirichlet
  | interface
  | other
  deriving DecidableEq

/-- What `boundaryResidual` and `computeFlux` read at one point of a side, src/physics/porous.cpp:156-206 and
312-342. -/
structure SidePt (K : Type) where
  wts : K
  basis : Nat → K
  grad : Nat → Nat → K
  n : Nat → K
  perm : K
  visc : K
  densref : K
  pref : K
  comp : K
  gravity : K
  p : K
  gradp : Nat → K
  dirichlet : K
  neumann : K
  aux : K

/-- `dens`, src/physics/porous.cpp:227, 260 and 348. -/
def dens [Field K] (q : SidePt K) : K := q.densref * (1 + q.comp * (q.p - q.pref))

/-- `Kval`, src/physics/porous.cpp:228, 261 and 349. -/
def kval [Field K] (q : SidePt K) : K := q.perm / q.visc * dens q

/-- The product of `Kval`, a gradient and the normal as accumulated in the code, src/physics/porous.cpp:230-236,
241-247, 263-269 and 274-280. -/
def normalK [Field K] (dim : Nat) (q : SidePt K) (g : Nat → K) : K :=
  let s := kval q * g 0 * q.n 0
  let s := if dim > 1 then s + kval q * g 1 * q.n 1 else s
  if dim > 2 then s + kval q * g 2 * q.n 2 else s

/-- The additions of the loop bodies of `boundaryResidual`, src/physics/porous.cpp:208-286; `h` is the size of the
element. -/
def sideAdds [Field K] (dim : Nat) (c : Cond) (formparam : K) (adjoint : Bool) (h : K) (q : SidePt K) (d : Nat) :
    List K :=
  match c with
  | .neumann => [(-q.neumann * q.wts) * q.basis d]
  | .other => []
  | _ =>
    let sf := if adjoint then 1 else formparam
    let g := match c with | .interface => q.aux | _ => q.dirichlet
    let scale := 10 * kval q / h
    let out := normalK dim q q.gradp * q.wts
    let pdiff := (q.p - g) * q.wts
    [-out * q.basis d - sf * normalK dim q (q.grad d) * pdiff + scale * pdiff * q.basis d]

/-- `boundaryResidual` on one side, src/physics/porous.cpp:148-287. -/
def boundaryResidual [Field K] (dim ndof : Nat) (off : Nat → Nat) (c : Cond) (formparam : K) (adjoint : Bool)
    (h : K) (pts : List (SidePt K)) (res : Nat → K) : Nat → K :=
  ptLoop ndof pts off (sideAdds dim c formparam adjoint h) res

/-- What `computeFlux` adds at one point, src/physics/porous.cpp:344-361.  `ext` is the last extent of the array that
the code takes for the basis gradients (line 323). -/
def fluxAdd [Field K] (ext : Nat) (formparam : K) (adjoint : Bool) (h : K) (q : SidePt K) : K :=
  let sf := if adjoint then formparam else 1
  let penalty := 10 * kval q / h
  let s := kval q * q.gradp 0 * q.n 0
  let s := if ext > 1 then s + kval q * q.gradp 1 * q.n 1 else s
  let s := if ext > 2 then s + kval q * (q.gradp 2 - q.gravity * dens q) * q.n 2 else s
  sf * s + penalty * (q.aux - q.p)

/-- The last extent of `basis_side` of a scalar basis, src/physics/porous.cpp:323 and
src/interfaces/discretization/discretizationInterface_basis.hpp:1195: the values have one component. -/
def basisExtent : Nat := 1

/-- `computeFlux` on the sides of one element: the entries of the flux array are increased,
src/physics/porous.cpp:301-365. -/
def computeFlux [Field K] (formparam : K) (adjoint : Bool) (h : K) (pts : List (SidePt K)) (old : List K) : List K :=
  List.zipWith (fun f q => f + fluxAdd basisExtent formparam adjoint h q) old pts

/-! ## Specification -/

/-- Density at pressure `p`.  [specification, no code] -/
def density [Field K] (densref comp pref p : K) : K := densref * (1 + comp * (p - pref))

/-- The integrand of the equation tested with a function of value `v` and gradient `dv`; `g` is the weight the
equation would have in the last direction.  [specification, no code] -/
def form [Field K] (dim : Nat) (q : VolPt K) (v : K) (dv : Nat → K) : K :=
  (q.porosity * q.densref * q.comp * q.pdot - q.source) * v
  + q.perm / q.visc * density q.densref q.comp q.pref q.p * dot dim q.gradp dv

/-- The integrand of a weakly imposed pressure `g`.  [specification, no code] -/
def nitsche [Field K] (dim : Nat) (sf h g : K) (q : SidePt K) (v : K) (dv : Nat → K) : K :=
  q.perm / q.visc * density q.densref q.comp q.pref q.p *
    (10 / h * (q.p - g) * v - dot dim q.gradp q.n * v - sf * (q.p - g) * dot dim dv q.n)

/-- The flux through an interface that balances the interface residual.  [specification, no code] -/
def interfaceFlux [Field K] (dim : Nat) (h : K) (q : SidePt K) : K :=
  q.perm / q.visc * density q.densref q.comp q.pref q.p * (dot dim q.gradp q.n + 10 / h * (q.aux - q.p))

/-! ## Properties -/

section
variable [Field K]

theorem volAdds_sum {dim : Nat} (h1 : 1 ≤ dim) (h3 : dim ≤ 3) (q : VolPt K) (d : Nat) :
    (volAdds dim q d).sum = q.wts * form dim q (q.basis d) (q.grad d) := by
  interval_cases dim <;> simp [volAdds, form, density, dot_one, dot_two, dot_three] <;> ring

/-- C104: the entry of every basis function receives the quadrature of the equation (without gravity) tested with
that basis function, and no other entry changes. -/
theorem C104_volume {dim ndof : Nat} (h1 : 1 ≤ dim) (h3 : dim ≤ 3) {off : Nat → Nat} (hoff : Distinct ndof off)
    (pts : List (VolPt K)) (res : Nat → K) :
    (∀ d : Nat, d < ndof → volumeResidual dim ndof off pts res (off d) =
        res (off d) + quad pts (fun q => q.wts * form dim q (q.basis d) (q.grad d))) ∧
    (∀ j : Nat, (∀ d : Nat, d < ndof → off d ≠ j) → volumeResidual dim ndof off pts res j = res j) := by
  refine ⟨fun d hd => ?_, fun j hj => ptLoop_other pts _ res hj⟩
  rw [volumeResidual, ptLoop_at hoff pts _ res hd, quad_congr pts (fun q _ => volAdds_sum h1 h3 q d)]

/-- C104: mass balance of an element: when the basis functions sum to one, the residuals sum to the stored mass minus
the source. -/
theorem C104_balance {dim ndof : Nat} (h1 : 1 ≤ dim) (h3 : dim ≤ 3) {off : Nat → Nat}
    (hoff : Distinct ndof off) (pts : List (VolPt K)) (res : Nat → K)
    (hpu : ∀ q : VolPt K, q ∈ pts → PartitionOfUnity ndof dim q.basis q.grad) :
    ∑ d ∈ Finset.range ndof, volumeResidual dim ndof off pts res (off d) =
      ∑ d ∈ Finset.range ndof, res (off d) +
      quad pts (fun q => q.wts * (q.porosity * q.densref * q.comp * q.pdot - q.source)) := by
  rw [Finset.sum_congr rfl (fun d hd => (C104_volume h1 h3 hoff pts res).1 d (Finset.mem_range.mp hd)),
    Finset.sum_add_distrib, quad_sum]
  congr 1
  refine quad_congr pts (fun q hq => ?_)
  simp only [form]
  rw [← Finset.mul_sum, Finset.sum_add_distrib, ← Finset.mul_sum, ← Finset.mul_sum, (hpu q hq).1,
    (hpu q hq).dot_right]
  ring

theorem normalK_eq {dim : Nat} (h1 : 1 ≤ dim) (h3 : dim ≤ 3) (q : SidePt K) (g : Nat → K) :
    normalK dim q g = kval q * dot dim g q.n := by
  interval_cases dim <;> simp [normalK, dot_one, dot_two, dot_three] <;> ring

theorem sideAdds_sum {dim : Nat} (h1 : 1 ≤ dim) (h3 : dim ≤ 3) {c : Cond}
    (hc : c = .weakDirichlet ∨ c = .interface) (fp : K) (adj : Bool) (h : K) (q : SidePt K) (d : Nat) :
    (sideAdds dim c fp adj h q d).sum =
      q.wts * nitsche dim (if adj then 1 else fp) h (if c = .interface then q.aux else q.dirichlet) q
        (q.basis d) (q.grad d) := by
  rcases hc with rfl | rfl <;> cases adj <;>
    simp [sideAdds, nitsche, normalK_eq h1 h3, kval, dens, density] <;> ring

/-- C104: a Neumann side contributes minus the integral of the given flux, a weak Dirichlet side the weakly imposed
value, an interface the same with the coarse-scale value, other sides nothing; one, two and three dimensions. -/
theorem C104_side {dim ndof : Nat} (h1 : 1 ≤ dim) (h3 : dim ≤ 3) {off : Nat → Nat} (hoff : Distinct ndof off)
    (fp h : K) (pts : List (SidePt K)) (res : Nat → K) {d : Nat} (hd : d < ndof) :
    boundaryResidual dim ndof off .neumann fp false h pts res (off d) =
      res (off d) - quad pts (fun q => q.wts * (q.neumann * q.basis d)) ∧
    boundaryResidual dim ndof off .weakDirichlet fp false h pts res (off d) =
      res (off d) + quad pts (fun q => q.wts * nitsche dim fp h q.dirichlet q (q.basis d) (q.grad d)) ∧
    boundaryResidual dim ndof off .interface fp false h pts res (off d) =
      res (off d) + quad pts (fun q => q.wts * nitsche dim fp h q.aux q (q.basis d) (q.grad d)) ∧
    boundaryResidual dim ndof off .other fp false h pts res (off d) = res (off d) := by
  refine ⟨?_, ?_, ?_, ?_⟩
  · rw [boundaryResidual, ptLoop_at hoff pts _ res hd, sub_eq_add_neg, ← quad_neg]
    congr 1
    exact quad_congr pts (fun q _ => by simp [sideAdds]; ring)
  · rw [boundaryResidual, ptLoop_at hoff pts _ res hd]
    congr 1
    refine quad_congr pts (fun q _ => ?_)
    rw [sideAdds_sum h1 h3 (Or.inl rfl)]
    simp
  · rw [boundaryResidual, ptLoop_at hoff pts _ res hd]
    congr 1
    refine quad_congr pts (fun q _ => ?_)
    rw [sideAdds_sum h1 h3 (Or.inr rfl)]
    simp
  · rw [boundaryResidual, ptLoop_at hoff pts _ res hd]
    rw [quad_congr pts (g := fun _ => (0 : K)) (fun p _ => by simp [sideAdds]), quad_zero, add_zero]

/-- C104: a weak Dirichlet side whose data the state meets contributes only the outflow: no penalty acts on a state
that has the prescribed pressure. -/
theorem C104_consistent {dim ndof : Nat} (h1 : 1 ≤ dim) (h3 : dim ≤ 3) {off : Nat → Nat} (hoff : Distinct ndof off)
    (fp h : K) (pts : List (SidePt K)) (res : Nat → K) {d : Nat} (hd : d < ndof)
    (hmeet : ∀ q : SidePt K, q ∈ pts → q.p = q.dirichlet) :
    boundaryResidual dim ndof off .weakDirichlet fp false h pts res (off d) =
      res (off d) - quad pts (fun q => q.wts *
        (q.perm / q.visc * density q.densref q.comp q.pref q.p * dot dim q.gradp q.n * q.basis d)) := by
  rw [(C104_side h1 h3 hoff fp h pts res hd).2.1, sub_eq_add_neg, ← quad_neg]
  congr 1
  refine quad_congr pts (fun q hq => ?_)
  unfold nitsche
  rw [← hmeet q hq]
  ring

/-- C104: the interface residuals of an element sum to minus the integral of `interfaceFlux`: that is the quantity the
coarse scale has to receive. -/
theorem C104_interface_sum {dim ndof : Nat} (h1 : 1 ≤ dim) (h3 : dim ≤ 3) {off : Nat → Nat}
    (hoff : Distinct ndof off) (fp h : K) (pts : List (SidePt K)) (res : Nat → K)
    (hpu : ∀ q : SidePt K, q ∈ pts → PartitionOfUnity ndof dim q.basis q.grad) :
    ∑ d ∈ Finset.range ndof, boundaryResidual dim ndof off .interface fp false h pts res (off d) =
      ∑ d ∈ Finset.range ndof, res (off d) - quad pts (fun q => q.wts * interfaceFlux dim h q) := by
  rw [Finset.sum_congr rfl
      (fun d hd => (C104_side h1 h3 hoff fp h pts res (Finset.mem_range.mp hd)).2.2.1),
    Finset.sum_add_distrib, quad_sum, sub_eq_add_neg, ← quad_neg]
  congr 1
  refine quad_congr pts (fun q hq => ?_)
  simp only [nitsche, interfaceFlux]
  rw [← Finset.mul_sum, ← Finset.mul_sum, Finset.sum_sub_distrib, Finset.sum_sub_distrib, ← Finset.mul_sum,
    ← Finset.mul_sum, ← Finset.mul_sum, (hpu q hq).1, (hpu q hq).dot_left]
  ring

/-- C104, the part that holds of "the flux reported to the coarse scale is the flux through the interface": in one
dimension, in a forward computation, starting from zero entries.  Missing: two and three dimensions, see
`C104_flux_violated`. -/
theorem C104_flux_partial (fp h : K) (pts : List (SidePt K)) :
    computeFlux fp false h pts (pts.map (fun _ => 0)) = pts.map (interfaceFlux 1 h) := by
  unfold computeFlux
  induction pts with
  | nil => rfl
  | cons q qs ih =>
    rw [List.map_cons, List.zipWith_cons_cons, ih, List.map_cons]
    congr 1
    simp [fluxAdd, basisExtent, interfaceFlux, kval, dens, density, dot_one]
    ring

/-- C104: with the dimension of space in the place of the extent that is read, the formula of the flux is right in every
dimension, less the weight of the fluid in three; this is what the code is meant to do. -/
theorem C104_flux_intended {dim : Nat} (h1 : 1 ≤ dim) (h3 : dim ≤ 3) (fp h : K) (q : SidePt K) :
    fluxAdd dim fp false h q =
      interfaceFlux dim h q - if dim = 3 then kval q * (q.gravity * dens q) * q.n 2 else 0 := by
  interval_cases dim <;>
    simp [fluxAdd, interfaceFlux, kval, dens, density, dot_one, dot_two, dot_three] <;> ring

/-! ## What does not hold -/

/-- C104: that the flux reported to the coarse scale is the flux through the interface is false in two and three
dimensions: the part of the pressure gradient in the y and z directions is missing, so that through a side with
normal in the y direction the reported flux has the penalty part only, whatever the gradient is. -/
theorem C104_flux_violated {dim : Nat} (hd : 2 ≤ dim) (fp h : K) (q : SidePt K)
    (hn : ∀ c : Nat, q.n c = if c = 1 then 1 else 0) :
    computeFlux fp false h [q] [0] = [kval q * (10 / h * (q.aux - q.p))] ∧
    interfaceFlux dim h q = kval q * (q.gradp 1 + 10 / h * (q.aux - q.p)) := by
  refine ⟨?_, ?_⟩
  · simp [computeFlux, fluxAdd, basisExtent, hn]
    ring
  · have hdot : dot dim q.gradp q.n = q.gradp 1 := by
      unfold dot
      rw [Finset.sum_eq_single 1]
      · rw [hn]; simp
      · intro c _ hc
        rw [hn, if_neg hc, mul_zero]
      · intro hm
        exact absurd (Finset.mem_range.mpr (by omega)) hm
    rw [interfaceFlux, hdot, kval, dens, density]

/-- C104: that the gravity given by the user acts is false: neither the volume residual nor the boundary residual nor
the flux depends on it. -/
theorem C104_gravity_violated (dim ndof : Nat) (off : Nat → Nat) (c : Cond) (fp : K) (adj : Bool) (h : K)
    (vpts : List (VolPt K)) (spts : List (SidePt K)) (res : Nat → K) (old : List K) (g : VolPt K → K)
    (g' : SidePt K → K) :
    volumeResidual dim ndof off (vpts.map (fun q => { q with gravity := g q })) res =
      volumeResidual dim ndof off vpts res ∧
    boundaryResidual dim ndof off c fp adj h (spts.map (fun q => { q with gravity := g' q })) res =
      boundaryResidual dim ndof off c fp adj h spts res ∧
    computeFlux fp adj h (spts.map (fun q => { q with gravity := g' q })) old = computeFlux fp adj h spts old := by
  refine ⟨?_, ?_, ?_⟩
  · have hf : ∀ (q : VolPt K) (d : Nat), volAdds dim { q with gravity := g q } d = volAdds dim q d := fun _ _ => rfl
    unfold volumeResidual ptLoop
    simp only [List.foldl_map, hf]
  · have hf : ∀ (q : SidePt K) (d : Nat), sideAdds dim c fp adj h { q with gravity := g' q } d =
        sideAdds dim c fp adj h q d := by
      intro q d
      cases c <;> rfl
    unfold boundaryResidual ptLoop
    simp only [List.foldl_map, hf]
  · unfold computeFlux
    rw [List.zipWith_map_right]
    rfl

end

/-- A side of an element with normal in the y direction, [case]. -/
def topSide : SidePt ℚ :=
  { wts := 1, basis := fun _ => 1/2, grad := fun d c => if c = 1 then (if d = 0 then -1 else 1) else 0,
    n := fun c => if c = 1 then 1 else 0, perm := 2, visc := 1, densref := 1, pref := 0, comp := 0, gravity := 10,
    p := 3, gradp := fun _ => 4, dirichlet := 3, neumann := 5, aux := 3 }

/-- C104: that the reported flux is the flux through the interface, witnessed: the pressures agree, the fluid flows
with 8 through the side, the reported flux is 0: the claim is false. -/
theorem C104_flux_zero_violated :
    computeFlux 1 false (1 : ℚ) [topSide] [0] = [0] ∧ interfaceFlux 2 (1 : ℚ) topSide = 8 := by
  have h := C104_flux_violated (dim := 2) (by decide) (1 : ℚ) 1 topSide (fun c => rfl)
  refine ⟨?_, ?_⟩
  · rw [h.1]; norm_num [topSide]
  · rw [h.2]; norm_num [topSide, kval, dens]

/-! ## Cases -/

/-- A point of the element [0,1] with linear basis functions, [case]. -/
def midPoint : VolPt ℚ :=
  { wts := 1, basis := fun _ => 1/2, grad := fun d _ => if d = 1 then 1 else -1, perm := 2, porosity := 1/2,
    visc := 4, densref := 8, pref := 1, comp := 1/2, gravity := 10, source := 3, p := 2, pdot := 1,
    gradp := fun _ => 5 }

example : volumeResidual 1 2 id [midPoint] (fun _ => 0) 1 = 59/2 := by decide +kernel

example : PartitionOfUnity 2 1 midPoint.basis midPoint.grad := by
  refine ⟨by norm_num [midPoint, Finset.sum_range_succ], fun c hc => ?_⟩
  simp [midPoint, Finset.sum_range_succ]

example : Distinct 2 (id : Nat → Nat) := fun _ _ _ _ h => h

example : PartitionOfUnity 2 2 topSide.basis topSide.grad := by
  refine ⟨by norm_num [topSide, Finset.sum_range_succ], fun c hc => ?_⟩
  by_cases h : c = 1 <;> simp [topSide, Finset.sum_range_succ, h]

example : boundaryResidual 2 2 id .weakDirichlet 1 false (1 : ℚ) [topSide] (fun _ => 0) 1 = -4 := by decide +kernel

example : topSide.p = topSide.dirichlet := rfl

end MrHyDE.Modules.Porous
