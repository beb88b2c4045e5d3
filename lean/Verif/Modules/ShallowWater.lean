import Verif.Modules.Loops
import Mathlib.Algebra.Field.Basic
import Mathlib.Algebra.Field.Rat
import Mathlib.Tactic.FieldSimp
import Mathlib.Tactic.IntervalCases
import Mathlib.Tactic.LinearCombination
import Mathlib.Tactic.NormNum

/-!
# The shallow water module (C113)

`shallowwater` solves for the elevation `xi` of the surface (the variable `H`) and the discharges `Hu`, `Hv`.  The
depth is `xi + bathymetry`.
-/

set_option linter.unusedSectionVars false

namespace MrHyDE.Modules.ShallowWater

variable {K : Type}

/-! ## Model -/

/-- What `volumeResidual` reads at one integration point, src/physics/shallowwater.cpp:71-118: the bathymetry and its
slopes, the viscosity, the Coriolis parameter, the sources, the fields and the basis functions `basis v d`, `grad v d i` of
the three variables. -/
structure Pt (K : Type) where
  wts : K
  bath : K
  bathX : K
  bathY : K
  visc : K
  cor : K
  srcH : K
  srcHu : K
  srcHv : K
  xi : K
  xit : K
  hu : K
  hut : K
  hv : K
  hvt : K
  basis : Nat → Nat → K
  grad : Nat → Nat → Nat → K

/-- The additions to the three equations, src/physics/shallowwater.cpp:124-129 (0, the elevation), 131-141 (1, the first
discharge) and 143-149 (2, the second).  The quotients by the depth are those of a field; where the depth is zero the
code divides by zero, and the theorems about the discharges assume a depth that is not. -/
def adds [Field K] (gravity : K) (p : Pt K) (e d : Nat) : List K :=
  let H := p.xi + p.bath
  let uHu := p.hu * p.hu / H
  let uHv := p.hu * p.hv / H
  let vHv := p.hv * p.hv / H
  if e = 0 then
    let f := (p.xit - p.srcH) * p.wts
    let Fx := -p.hu * p.wts
    let Fy := -p.hv * p.wts
    [f * p.basis 0 d + Fx * p.grad 0 d 0 + Fy * p.grad 0 d 1]
  else if e = 1 then
    let f := (p.hut - gravity * p.xi * p.bathX - p.srcHu) * p.wts
    let Fx := -(uHu + 1 / 2 * gravity * (H * H - p.bath * p.bath)) * p.wts
    let Fy := -uHv * p.wts
    [f * p.basis 1 d + Fx * p.grad 1 d 0 + Fy * p.grad 1 d 1]
  else
    let f := (p.hvt - gravity * p.xi * p.bathY - p.srcHv) * p.wts
    let Fx := -uHv * p.wts
    let Fy := -(vHv + 1 / 2 * gravity * (H * H - p.bath * p.bath)) * p.wts
    [f * p.basis 2 d + Fx * p.grad 2 d 0 + Fy * p.grad 2 d 1]

/-- The three loops over the basis functions in the body of the loop over the points,
src/physics/shallowwater.cpp:127-129, 139-141, 147-149. -/
def loops [Field K] (gravity : K) (ndof : Nat → Nat) : List (Loop K (Pt K)) :=
  [{ eq := 0, ndof := ndof 0, adds := fun p d => adds gravity p 0 d },
   { eq := 1, ndof := ndof 1, adds := fun p d => adds gravity p 1 d },
   { eq := 2, ndof := ndof 2, adds := fun p d => adds gravity p 2 d }]

/-- `volumeResidual` on one element, src/physics/shallowwater.cpp:69-155. -/
def volumeResidual [Field K] (gravity : K) (ndof : Nat → Nat) (off : Nat → Nat → Nat) (pts : List (Pt K))
    (res : Nat → K) : Nat → K :=
  pointLoops off pts (loops gravity ndof) res

/-! ## Specification -/

/-- Conservation of water with velocity `(u,v)` and depth `H`, tested with a function `phi` with derivatives `phi_i`:
the discharge is `H u`.  [specification, no code] -/
def water [Field K] (H u v xit src phi phi0 phi1 : K) : K := (xit - src) * phi - H * u * phi0 - H * v * phi1

/-- Balance of momentum in direction `i` (the component `ui`), tested: flux `H u ui` plus the pressure of the elevation,
`g (xi²/2 + xi b)`, and the force of the bed `g xi b_i`.  [specification, no code] -/
def momentum [Field K] (g H xi b bi u v ui mt src phi phi0 phi1 phii : K) : K :=
  (mt - g * xi * bi - src) * phi - H * u * ui * phi0 - H * v * ui * phi1 - g * (xi ^ 2 / 2 + xi * b) * phii

/-- Basis functions of variable `v` that sum to one.  [specification, no code] -/
def Sums [Field K] (n v : Nat) (p : Pt K) : Prop :=
  ∑ d ∈ Finset.range n, p.basis v d = 1 ∧ ∀ i : Nat, i < 2 → ∑ d ∈ Finset.range n, p.grad v d i = 0

/-- Water at rest with the elevation `c` and no sources.  [specification, no code] -/
def AtRest [Field K] (c : K) (p : Pt K) : Prop :=
  p.xi = c ∧ p.xit = 0 ∧ p.hu = 0 ∧ p.hut = 0 ∧ p.hv = 0 ∧ p.hvt = 0 ∧ p.srcH = 0 ∧ p.srcHu = 0 ∧ p.srcHv = 0

/-- The quadrature rule satisfies the divergence theorem for the products of the basis function `d` of variable `v` with the
bathymetry and with constants: the boundary terms vanish (a function that is zero on the boundary).
[specification, no code] -/
def ByParts [Field K] (pts : List (Pt K)) (v d : Nat) : Prop :=
  quad pts (fun p => p.wts * p.grad v d 0) = 0 ∧ quad pts (fun p => p.wts * p.grad v d 1) = 0 ∧
  quad pts (fun p => p.wts * (p.bathX * p.basis v d + p.bath * p.grad v d 0)) = 0 ∧
  quad pts (fun p => p.wts * (p.bathY * p.basis v d + p.bath * p.grad v d 1)) = 0

/-! ## Properties -/

section
variable [Field K] [CharZero K]

theorem fits (g : K) (ndof : Nat → Nat) : Fits 3 ndof (loops g ndof) := by
  intro l hl
  simp [loops] at hl
  rcases hl with rfl | rfl | rfl <;> exact ⟨by simp, rfl⟩

/-- C113: where the depth `H` is not zero and the discharges are `H u`, `H v`, the three equations are the weak forms of
conservation of water and of the two components of momentum, with gravity and the force of the bed.  Missing:
viscosity, Coriolis force and bottom friction (`C113_terms_violated`) and the boundary (the boundary residual is empty). -/
theorem C113_weak_partial (g : K) {ndof : Nat → Nat} {off : Nat → Nat → Nat} (hoff : DistinctAll 3 ndof off)
    (pts : List (Pt K)) (u v : Pt K → K)
    (hw : ∀ p : Pt K, p ∈ pts → p.xi + p.bath ≠ 0 ∧ p.hu = (p.xi + p.bath) * u p ∧ p.hv = (p.xi + p.bath) * v p)
    (res : Nat → K) (d : Nat) :
    (d < ndof 0 → volumeResidual g ndof off pts res (off 0 d) = res (off 0 d) + quad pts (fun p => p.wts *
      water (p.xi + p.bath) (u p) (v p) p.xit p.srcH (p.basis 0 d) (p.grad 0 d 0) (p.grad 0 d 1))) ∧
    (d < ndof 1 → volumeResidual g ndof off pts res (off 1 d) = res (off 1 d) + quad pts (fun p => p.wts *
      momentum g (p.xi + p.bath) p.xi p.bath p.bathX (u p) (v p) (u p) p.hut p.srcHu (p.basis 1 d) (p.grad 1 d 0)
        (p.grad 1 d 1) (p.grad 1 d 0))) ∧
    (d < ndof 2 → volumeResidual g ndof off pts res (off 2 d) = res (off 2 d) + quad pts (fun p => p.wts *
      momentum g (p.xi + p.bath) p.xi p.bath p.bathY (u p) (v p) (v p) p.hvt p.srcHv (p.basis 2 d) (p.grad 2 d 0)
        (p.grad 2 d 1) (p.grad 2 d 1))) := by
  refine ⟨fun hd => ?_, fun hd => ?_, fun hd => ?_⟩ <;>
  · unfold volumeResidual
    rw [pointLoops_at hoff pts _ (fits g ndof) res (by omega) hd]
    refine congrArg _ (quad_congr pts fun p hp => ?_)
    obtain ⟨h0, h1, h2⟩ := hw p hp
    simp only [termsAt, loops, adds, List.map, List.sum_cons, List.sum_nil, h1, h2]
    simp [water, momentum]
    field_simp
    try ring

/-- C113 (conservation): the entries of the first equation sum to the rate of change of the volume of water less the
sources, whatever the discharges and the bathymetry. -/
theorem C113_conservation (g : K) {ndof : Nat → Nat} {off : Nat → Nat → Nat} (hoff : DistinctAll 3 ndof off)
    (pts : List (Pt K)) (hs : ∀ p : Pt K, p ∈ pts → Sums (ndof 0) 0 p) :
    ∑ d ∈ Finset.range (ndof 0), volumeResidual g ndof off pts (fun _ => 0) (off 0 d) =
      quad pts (fun p => p.wts * (p.xit - p.srcH)) := by
  have e : ∀ d ∈ Finset.range (ndof 0), volumeResidual g ndof off pts (fun _ => 0) (off 0 d) =
      quad pts (fun p => p.wts * ((p.xit - p.srcH) * p.basis 0 d - p.hu * p.grad 0 d 0 - p.hv * p.grad 0 d 1)) := by
    intro d hd
    unfold volumeResidual
    rw [pointLoops_at hoff pts _ (fits g ndof) _ (by omega) (Finset.mem_range.mp hd), zero_add]
    refine quad_congr pts fun p _ => ?_
    simp [termsAt, loops, adds]
    ring
  rw [Finset.sum_congr rfl e, quad_sum]
  refine quad_congr pts fun p hp => ?_
  obtain ⟨hb, hg⟩ := hs p hp
  rw [← Finset.mul_sum, Finset.sum_sub_distrib, Finset.sum_sub_distrib, ← Finset.mul_sum, ← Finset.mul_sum,
    ← Finset.mul_sum, hb, hg 0 (by omega), hg 1 (by omega)]
  ring

/-- C113 (lake at rest): water at rest with a level surface stays at rest over any bed.  Every entry of the residual that
belongs to a basis function which vanishes on the boundary is unchanged, if the quadrature rule integrates the products
with the bathymetry exactly. -/
theorem C113_lake_at_rest (g c : K) {ndof : Nat → Nat} {off : Nat → Nat → Nat} (hoff : DistinctAll 3 ndof off)
    (pts : List (Pt K)) (hr : ∀ p : Pt K, p ∈ pts → AtRest c p) (res : Nat → K) {e d : Nat} (he : e < 3)
    (hd : d < ndof e) (hp : ByParts pts e d) :
    volumeResidual g ndof off pts res (off e d) = res (off e d) := by
  unfold volumeResidual
  rw [pointLoops_at hoff pts _ (fits g ndof) res he hd]
  obtain ⟨h0, h1, h2, h3⟩ := hp
  have key : quad pts (termsAt (loops g ndof) e d) = 0 := by
    interval_cases e
    · rw [← quad_zero (K := K) pts]
      refine quad_congr pts fun p hp => ?_
      obtain ⟨_, a2, a3, _, a5, _, a7, _⟩ := hr p hp
      simp [termsAt, loops, adds, a2, a3, a5, a7]
    · have : quad pts (termsAt (loops g ndof) 1 d) =
          -(g * c) * quad pts (fun p => p.wts * (p.bathX * p.basis 1 d + p.bath * p.grad 1 d 0)) +
          -(g * c ^ 2 / 2) * quad pts (fun p => p.wts * p.grad 1 d 0) := by
        rw [quad_mul_left, quad_mul_left, ← quad_add]
        refine quad_congr pts fun p hp => ?_
        obtain ⟨a1, a2, a3, a4, a5, a6, a7, a8, a9⟩ := hr p hp
        simp [termsAt, loops, adds, a1, a3, a4, a5, a8]
        ring
      rw [this, h0, h2]
      ring
    · have : quad pts (termsAt (loops g ndof) 2 d) =
          -(g * c) * quad pts (fun p => p.wts * (p.bathY * p.basis 2 d + p.bath * p.grad 2 d 1)) +
          -(g * c ^ 2 / 2) * quad pts (fun p => p.wts * p.grad 2 d 1) := by
        rw [quad_mul_left, quad_mul_left, ← quad_add]
        refine quad_congr pts fun p hp => ?_
        obtain ⟨a1, a2, a3, a4, a5, a6, a7, a8, a9⟩ := hr p hp
        simp [termsAt, loops, adds, a1, a3, a5, a6, a9]
        ring
      rw [this, h1, h3]
      ring
  rw [key, add_zero]

/-- C113 (still water at the reference level): with elevation zero the residual is unchanged for every basis function and
any quadrature rule: the pressure is written relative to the bathymetry. -/
theorem C113_reference_level (g : K) {ndof : Nat → Nat} {off : Nat → Nat → Nat} (hoff : DistinctAll 3 ndof off)
    (pts : List (Pt K)) (hr : ∀ p : Pt K, p ∈ pts → AtRest 0 p) (res : Nat → K) {e d : Nat} (he : e < 3)
    (hd : d < ndof e) : volumeResidual g ndof off pts res (off e d) = res (off e d) := by
  unfold volumeResidual
  rw [pointLoops_at hoff pts _ (fits g ndof) res he hd]
  have key : quad pts (termsAt (loops g ndof) e d) = 0 := by
    rw [← quad_zero (K := K) pts]
    refine quad_congr pts fun p hp => ?_
    obtain ⟨a1, a2, a3, a4, a5, a6, a7, a8, a9⟩ := hr p hp
    interval_cases e <;> simp [termsAt, loops, adds, a1, a2, a3, a4, a5, a6, a7, a8, a9]
  rw [key, add_zero]

/-- C113: that the viscosity and the Coriolis parameter of the input act on the flow is false: whatever their values, the
residual of every state is the same. -/
theorem C113_terms_violated (g : K) (ndof : Nat → Nat) (off : Nat → Nat → Nat) (visc cor : Pt K → K) (pts : List (Pt K))
    (res : Nat → K) :
    volumeResidual g ndof off (pts.map fun p => { p with visc := visc p, cor := cor p }) res =
      volumeResidual g ndof off pts res := by
  unfold volumeResidual pointLoops
  rw [List.foldl_map]
  rfl

end

/-! ## Cases -/

/-- [case] Flowing water over a sloping bed, two basis functions. -/
def flow (x : ℚ) : Pt ℚ :=
  { wts := 1, bath := 2 + x, bathX := 1, bathY := 0, visc := 1, cor := 1, srcH := 1, srcHu := 0, srcHv := 0,
    xi := 1, xit := 3, hu := 2 * (3 + x), hut := 1, hv := 0, hvt := 0, basis := fun _ d => if d = 0 then 1 - x else x,
    grad := fun _ d i => if i = 0 then (if d = 0 then -1 else 1) else 0 }

example : Sums 2 0 (flow (1 / 3)) := by
  refine ⟨?_, fun i _ => ?_⟩ <;> simp [flow, Finset.sum_range_succ]

example : (flow (1 / 3)).xi + (flow (1 / 3)).bath ≠ 0 ∧
    (flow (1 / 3)).hu = ((flow (1 / 3)).xi + (flow (1 / 3)).bath) * 2 := by
  norm_num [flow]

/-- [case] Still water above a sloping bed with a hat function; the rule is the midpoint rule on the two halves of an
element. -/
def still (s x : ℚ) : Pt ℚ :=
  { wts := 1, bath := 2 + s * x, bathX := s, bathY := 0, visc := 0, cor := 0, srcH := 0, srcHu := 0, srcHv := 0,
    xi := 3, xit := 0, hu := 0, hut := 0, hv := 0, hvt := 0, basis := fun _ _ => 1 / 2,
    grad := fun _ _ i => if i = 0 then (if x < 0 then 1 else -1) else 0 }

example : AtRest 3 (still 5 (-1 / 2)) ∧ ByParts [still 5 (-1 / 2), still 5 (1 / 2)] 1 0 := by
  refine ⟨by simp [AtRest, still], ?_, ?_, ?_, ?_⟩ <;> norm_num [quad, still]

example : volumeResidual 10 (fun _ => 1) (fun e _ => e) [still 5 (-1 / 2)] (fun _ => 0) 1 = -105 ∧
    volumeResidual 10 (fun _ => 1) (fun e _ => e) [still 5 (-1 / 2), still 5 (1 / 2)] (fun _ => 0) 1 = 0 := by
  constructor <;> norm_num [volumeResidual, pointLoops, runLoops, loops, Loop.run, ptLoop, bump, addAll, adds, still]

end MrHyDE.Modules.ShallowWater
