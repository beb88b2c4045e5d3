import Verif.Modules.Loops
import Mathlib.Algebra.Field.Basic
import Mathlib.Algebra.Field.Rat
import Mathlib.Tactic.FieldSimp
import Mathlib.Tactic.IntervalCases
import Mathlib.Tactic.NormNum

/-!
# Scalar transport modules (C110)

`cdr` and `cdr2` (convection, diffusion, reaction), `shallowice`, `ellipticPrior` and `ode`: one equation each of the form
`(f, phi) + (F, grad phi)`.
-/

set_option linter.unusedSectionVars false

namespace MrHyDE.Modules.Transport

variable {K : Type}

/-! ## Model -/

/-- What `volumeResidual` of `cdr` reads at one integration point, src/physics/cdr.cpp:65-98 (`cdr2` the same with its own
names of functions and variable, src/physics/cdr2.cpp:65-98). -/
structure Pt (K : Type) where
  wts : K
  source : K
  diff : K
  cp : K
  rho : K
  reax : K
  vel : Nat → K
  tau : K
  c : K
  ct : K
  g : Nat → K
  basis : Nat → K
  grad : Nat → Nat → K

/-- The addition of the loop bodies of `cdr`, src/physics/cdr.cpp:104-110, 117-124 and 131-139 (`cdr2`:
src/physics/cdr2.cpp:104-139). -/
def cdrAdds [Field K] (dim : Nat) (p : Pt K) (d : Nat) : List K :=
  let F := fun i => 1 / (p.rho * p.cp) * p.diff * p.g i * p.wts
  if dim = 1 then
    let f := (p.ct + p.vel 0 * p.g 0 + p.reax - p.source) * p.wts
    [f * p.basis d + F 0 * p.grad d 0]
  else if dim = 2 then
    let f := (p.ct + p.vel 0 * p.g 0 + p.vel 1 * p.g 1 + p.reax - p.source) * p.wts
    [f * p.basis d + F 0 * p.grad d 0 + F 1 * p.grad d 1]
  else if dim = 3 then
    let f := (p.ct + p.vel 0 * p.g 0 + p.vel 1 * p.g 1 + p.vel 2 * p.g 2 + p.reax - p.source) * p.wts
    [f * p.basis d + F 0 * p.grad d 0 + F 1 * p.grad d 1 + F 2 * p.grad d 2]
  else []

/-- `cdr::volumeResidual` on one element, src/physics/cdr.cpp:62-143. -/
def cdr [Field K] (dim ndof : Nat) (off : Nat → Nat) (pts : List (Pt K)) (res : Nat → K) : Nat → K :=
  ptLoop ndof pts off (cdrAdds dim) res

/-- The functions of `cdr` when the input deck gives none, src/physics/cdr.cpp:40-48; the fields of the state are those
of `p`. -/
def cdrDefaults [Field K] (p : Pt K) : Pt K :=
  { p with source := 0, diff := 1, cp := 1, rho := 1, reax := 1, vel := fun _ => 1, tau := 0 }

/-- The addition of the loop bodies of `shallowice`, src/physics/shallowice.cpp:85-91 and 98-105: nothing in three
dimensions. -/
def iceAdds [Field K] (dim : Nat) (p : Pt K) (d : Nat) : List K :=
  let f := (p.ct - p.source) * p.wts
  let F := fun i => p.diff * p.g i * p.wts
  if dim = 1 then [f * p.basis d + F 0 * p.grad d 0]
  else if dim = 2 then [f * p.basis d + F 0 * p.grad d 0 + F 1 * p.grad d 1]
  else []

/-- `shallowice::volumeResidual` on one element, src/physics/shallowice.cpp:49-110. -/
def ice [Field K] (dim ndof : Nat) (off : Nat → Nat) (pts : List (Pt K)) (res : Nat → K) : Nat → K :=
  ptLoop ndof pts off (iceAdds dim) res

/-- The additions of the loop body of `ellipticPrior`, src/physics/ellipticPrior.cpp:98-109; `reax` is the coefficient
of the reaction. -/
def priorAdds [Field K] (dim : Nat) (p : Pt K) (d : Nat) : List K :=
  [(p.ct - p.source) * p.wts * p.basis d,
    p.diff * p.g 0 * p.wts * p.grad d 0 + p.reax * p.c * p.wts * p.basis d] ++
  (if 1 < dim then [p.diff * p.g 1 * p.wts * p.grad d 1] else []) ++
  (if 2 < dim then [p.diff * p.g 2 * p.wts * p.grad d 2] else [])

/-- `ellipticPrior::volumeResidual` on one element, src/physics/ellipticPrior.cpp:57-112. -/
def prior [Field K] (dim ndof : Nat) (off : Nat → Nat) (pts : List (Pt K)) (res : Nat → K) : Nat → K :=
  dofLoop ndof pts off (priorAdds dim) res

/-- What `ellipticPrior::computeFlux` reads at one point of a side, src/physics/ellipticPrior.cpp:133-158; `aux` is the
field "aux e". -/
structure SidePt (K : Type) where
  diff : K
  T : K
  g : Nat → K
  n : Nat → K
  aux : K

/-- `ellipticPrior::computeFlux` at one point, src/physics/ellipticPrior.cpp:167-176; the penalty is 10 (line 155), the
factor `sf` is 1 (line 131). -/
def priorFlux [Field K] (dim : Nat) (h : K) (q : SidePt K) : K :=
  let f := 10 / h * q.diff * (q.aux - q.T) + 1 * q.diff * q.g 0 * q.n 0
  let f := if 1 < dim then f + 1 * q.diff * q.g 1 * q.n 1 else f
  if 2 < dim then f + 1 * q.diff * q.g 2 * q.n 2 else f

/-- `ODE::volumeResidual` on one element, src/physics/ode.cpp:43-70: only the first basis function, and without its
value. -/
def ode [Field K] (off : Nat → Nat) (pts : List (Pt K)) (res : Nat → K) : Nat → K :=
  pts.foldl (fun r p => bump r (off 0) [(p.ct - p.source) * p.wts]) res

/-! ## Specification -/

/-- The weak form of `f - div F = 0` at a point.  [specification, no code] -/
def weak [CommRing K] (dim : Nat) (f : K) (F : Nat → K) (p : Pt K) (d : Nat) : K :=
  p.wts * (f * p.basis d + dot dim F (p.grad d))

/-- Basis functions that sum to one.  [specification, no code] -/
def Sums [CommRing K] (dim ndof : Nat) (p : Pt K) : Prop :=
  ∑ d ∈ Finset.range ndof, p.basis d = 1 ∧ ∀ i : Nat, i < dim → ∑ d ∈ Finset.range ndof, p.grad d i = 0

/-! ## Properties -/

section
variable [Field K]

theorem cdrAdds_sum {dim : Nat} (h1 : 1 ≤ dim) (h3 : dim ≤ 3) (k : K) (p : Pt K) (hk : k * (p.rho * p.cp) = 1) (d : Nat) :
    (cdrAdds dim p d).sum =
      weak dim (p.ct + dot dim p.vel p.g + p.reax - p.source) (fun i => k * p.diff * p.g i) p d := by
  have hne : p.rho * p.cp ≠ 0 := right_ne_zero_of_mul (hk ▸ one_ne_zero)
  have hk' : 1 / (p.rho * p.cp) = k := by
    rw [div_eq_iff hne]; exact hk.symm
  interval_cases dim <;>
    simp only [cdrAdds, weak, hk', dot_one, dot_two, dot_three] <;> simp <;> ring

/-- C110: `cdr` and `cdr2` assemble the weak form of `c_t + v·grad c + r - div(D/(rho cp) grad c) = s` in one, two and
three dimensions, with density and specific heat different from zero. -/
theorem C110_cdr {dim : Nat} (h1 : 1 ≤ dim) (h3 : dim ≤ 3) {ndof : Nat} {off : Nat → Nat} (hoff : Distinct ndof off)
    (k : Pt K → K) (pts : List (Pt K)) (hk : ∀ p : Pt K, p ∈ pts → k p * (p.rho * p.cp) = 1) (res : Nat → K) {d : Nat}
    (hd : d < ndof) :
    cdr dim ndof off pts res (off d) = res (off d) + quad pts (fun p =>
      weak dim (p.ct + dot dim p.vel p.g + p.reax - p.source) (fun i => k p * p.diff * p.g i) p d) := by
  unfold cdr
  rw [ptLoop_at hoff pts _ res hd]
  exact congrArg _ (quad_congr pts fun p hp => cdrAdds_sum h1 h3 (k p) p (hk p hp) d)

/-- C110: `ellipticPrior` assembles the weak form of `T_t + a T - div(D grad T) = s` in one, two and three dimensions. -/
theorem C110_prior {dim : Nat} (h1 : 1 ≤ dim) (h3 : dim ≤ 3) {ndof : Nat} {off : Nat → Nat} (hoff : Distinct ndof off)
    (pts : List (Pt K)) (res : Nat → K) {d : Nat} (hd : d < ndof) :
    prior dim ndof off pts res (off d) = res (off d) + quad pts (fun p =>
      weak dim (p.ct + p.reax * p.c - p.source) (fun i => p.diff * p.g i) p d) := by
  unfold prior
  rw [dofLoop_at hoff pts _ res hd]
  refine congrArg _ (quad_congr pts fun p _ => ?_)
  interval_cases dim <;> simp [priorAdds, weak, dot_one, dot_two, dot_three] <;> ring

/-- C110: `shallowice` assembles the weak form of `s_t - div(D grad s) = f` in one and two dimensions.  Missing: three
dimensions, where it assembles nothing (`C110_ice_violated`). -/
theorem C110_ice_partial {dim : Nat} (h1 : 1 ≤ dim) (h2 : dim ≤ 2) {ndof : Nat} {off : Nat → Nat}
    (hoff : Distinct ndof off) (pts : List (Pt K)) (res : Nat → K) {d : Nat} (hd : d < ndof) :
    ice dim ndof off pts res (off d) = res (off d) + quad pts (fun p =>
      weak dim (p.ct - p.source) (fun i => p.diff * p.g i) p d) := by
  unfold ice
  rw [ptLoop_at hoff pts _ res hd]
  refine congrArg _ (quad_congr pts fun p _ => ?_)
  interval_cases dim <;> simp [iceAdds, weak, dot_one, dot_two] <;> ring

/-- The sum over basis functions that sum to one leaves the integral of `f`. -/
theorem weak_sum {dim ndof : Nat} {p : Pt K} (h : Sums dim ndof p) (f : K) (F : Nat → K) :
    ∑ d ∈ Finset.range ndof, weak dim f F p d = p.wts * f := by
  unfold weak
  rw [← Finset.mul_sum, Finset.sum_add_distrib, ← Finset.mul_sum, h.1, mul_one]
  have hz : ∑ d ∈ Finset.range ndof, dot dim F (p.grad d) = 0 := by
    unfold dot
    rw [Finset.sum_comm]
    refine Finset.sum_eq_zero fun i hi => ?_
    rw [← Finset.mul_sum, h.2 i (Finset.mem_range.mp hi), mul_zero]
  rw [hz, add_zero]

/-- C110 (balance): if the basis functions sum to one, the entries of `cdr` sum to the integral of
`c_t + v·grad c + r - s`: diffusion moves nothing out of the element except through its sides. -/
theorem C110_balance {dim : Nat} (h1 : 1 ≤ dim) (h3 : dim ≤ 3) {ndof : Nat} {off : Nat → Nat} (hoff : Distinct ndof off)
    (pts : List (Pt K)) (hr : ∀ p : Pt K, p ∈ pts → p.rho * p.cp ≠ 0 ∧ Sums dim ndof p) :
    ∑ d ∈ Finset.range ndof, cdr dim ndof off pts (fun _ => 0) (off d) =
      quad pts (fun p => p.wts * (p.ct + dot dim p.vel p.g + p.reax - p.source)) := by
  have : ∑ d ∈ Finset.range ndof, cdr dim ndof off pts (fun _ => 0) (off d) =
      ∑ d ∈ Finset.range ndof, quad pts (fun p =>
        weak dim (p.ct + dot dim p.vel p.g + p.reax - p.source) (fun i => (p.rho * p.cp)⁻¹ * p.diff * p.g i) p d) :=
    Finset.sum_congr rfl fun d hd => by
      rw [C110_cdr h1 h3 hoff (fun p => (p.rho * p.cp)⁻¹) pts (fun p hp => inv_mul_cancel₀ (hr p hp).1) _
        (Finset.mem_range.mp hd), zero_add]
  rw [this, quad_sum]
  exact quad_congr pts fun p hp => weak_sum (hr p hp).2 _ _

/-- C110: the flux of `ellipticPrior` is consistent: if the coarse value is that of the solution it is the diffusive flux
through the side. -/
theorem C110_flux {dim : Nat} (h1 : 1 ≤ dim) (h3 : dim ≤ 3) (h : K) (q : SidePt K) (ha : q.aux = q.T) :
    priorFlux dim h q = q.diff * dot dim q.g q.n := by
  interval_cases dim <;> simp [priorFlux, ha, dot_one, dot_two, dot_three] <;> ring

/-- C110: with one basis function equal to one, `ode` assembles the weak form of `q' = f`.  Missing: other bases, for
which it is not the weak form (`C110_ode_violated`). -/
theorem C110_ode_partial (off : Nat → Nat) (pts : List (Pt K)) (hb : ∀ p : Pt K, p ∈ pts → p.basis 0 = 1) (res : Nat → K) :
    ode off pts res (off 0) = res (off 0) + quad pts (fun p => p.wts * ((p.ct - p.source) * p.basis 0)) := by
  unfold ode
  induction pts generalizing res with
  | nil => simp [quad]
  | cons p ps ih =>
    rw [List.foldl_cons, ih (fun q hq => hb q (List.mem_cons_of_mem _ hq))]
    simp [quad, bump, addAll, hb p List.mem_cons_self]
    ring

/-! ## What does not hold -/

/-- C110: that `shallowice` solves its equation is false in three dimensions: nothing is assembled, for every state. -/
theorem C110_ice_violated (ndof : Nat) (off : Nat → Nat) (pts : List (Pt K)) (res : Nat → K) :
    ice 3 ndof off pts res = res := by
  have hb : ∀ (r : Nat → K) (j : Nat), bump r j [] = r := fun r j => by
    funext i
    unfold bump
    by_cases h : i = j <;> simp [h, addAll]
  have hl : ∀ (l : List Nat) (r : Nat → K), l.foldl (fun r d => bump r (off d) []) r = r := by
    intro l
    induction l with
    | nil => intro r; rfl
    | cons a l ih => intro r; rw [List.foldl_cons, hb, ih]
  unfold ice ptLoop
  induction pts generalizing res with
  | nil => rfl
  | cons p ps ih =>
    rw [List.foldl_cons]
    have : (List.range ndof).foldl (fun r d => bump r (off d) (iceAdds 3 p d)) res = res := by
      simpa [iceAdds] using hl (List.range ndof) res
    rw [this]
    exact ih res

end

/-- [case] A point of an element with two basis functions, uniform state at rest. -/
def rest : Pt ℚ :=
  { wts := 1, source := 5, diff := 7, cp := 3, rho := 2, reax := 4, vel := fun i => i, tau := 0, c := 6, ct := 0,
    g := fun _ => 0, basis := fun _ => 1 / 2, grad := fun d _ => if d = 0 then -1 else 1 }

/-- C110: that a uniform concentration at rest is a steady state when the input deck gives no functions is false: the
default of the reaction is the constant 1, not multiplied by the concentration.  The entries of the residual sum to the
measure of the element.  The equation that is solved has the constants 1 for diffusion, velocity and reaction. -/
theorem C110_defaults_violated :
    (∀ (p : Pt ℚ) (d : Nat), (cdrAdds 2 (cdrDefaults p) d).sum =
      p.wts * ((p.ct + p.g 0 + p.g 1 + 1) * p.basis d + p.g 0 * p.grad d 0 + p.g 1 * p.grad d 1)) ∧
    cdr 2 2 id [cdrDefaults rest] (fun _ => 0) 0 + cdr 2 2 id [cdrDefaults rest] (fun _ => 0) 1 = rest.wts ∧
    rest.wts ≠ 0 := by
  refine ⟨fun p d => ?_, by decide +kernel, by decide +kernel⟩
  simp [cdrAdds, cdrDefaults]
  ring

/-- C110: that `ode` assembles the weak form is false when its basis has more than one function: the value of the basis
function is left out and the other functions receive nothing. -/
theorem C110_ode_violated :
    ode id [{ rest with ct := 1 }] (fun _ => 0) 0 ≠
      quad [{ rest with ct := 1 }] (fun p => p.wts * ((p.ct - p.source) * p.basis 0)) ∧
    ode id [{ rest with ct := 1 }] (fun _ => 0) 1 = 0 ∧
    quad [{ rest with ct := 1 }] (fun p => p.wts * ((p.ct - p.source) * p.basis 1)) ≠ 0 := by
  decide +kernel

/-! ## Cases -/

example : Sums 2 2 rest ∧ rest.rho * rest.cp ≠ 0 := by
  refine ⟨⟨?_, fun i _ => ?_⟩, ?_⟩ <;> norm_num [rest, Finset.sum_range_succ]

example : cdr 2 2 id [{ rest with g := fun _ => 6 }] (fun _ => 0) 0 = -23/2 := by decide +kernel

example : prior 2 2 id [{ rest with g := fun _ => 6 }] (fun _ => 0) 1 = 187 / 2 := by decide +kernel

end MrHyDE.Modules.Transport
