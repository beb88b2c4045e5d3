import Verif.Modules.Loops
import Mathlib.Algebra.Field.Basic
import Mathlib.Algebra.Field.Rat
import Mathlib.Tactic.FinCases
import Mathlib.Tactic.IntervalCases
import Mathlib.Tactic.LinearCombination
import Mathlib.Tactic.NormNum

/-!
# Transport of saturation (C133)

`incompressibleSaturation` transports the saturation `S` of water with a velocity given by functions:
`phi S_t + div (f_w u) = source`.
-/

set_option linter.unusedSectionVars false
set_option linter.unusedSimpArgs false

namespace MrHyDE.Modules.Saturation

variable {K : Type}

/-! ## Model -/

/-- What `volumeResidual` reads at one integration point, src/physics/incompressibleSaturation.cpp:83, 96-109, 221-222, 240, 257-258:
weight, source (wells included, 88-92), fraction of the flow, velocity, and for every variable of the workset its time derivative and
its basis. -/
structure Pt (K : Type) where
  wts : K
  source : K
  fw : K
  u : Nat → K
  dt : Nat → K
  basis : Nat → Nat → K
  grad : Nat → Nat → Nat → K

/-- The number of equations for which fluxes and sources are stored, src/physics/incompressibleSaturation.cpp:68-69, 79-83. -/
def stored : Nat := 1

/-- The flux, src/physics/incompressibleSaturation.cpp:224-273: component `c` at one point. -/
def fluxAt [Field K] (q : Pt K) (c : Nat) : K := q.fw * q.u c

/-- The terms added for variable `e`, src/physics/incompressibleSaturation.cpp:111-164. -/
def adds [Field K] (phi : K) (dim e : Nat) (q : Pt K) (d : Nat) : List K :=
  if dim = 1 then
    [phi * q.dt e * q.basis e d * q.wts, -(fluxAt q 0 * q.grad e d 0 + q.source * q.basis e d) * q.wts]
  else if dim = 2 then
    [phi * q.dt e * q.basis e d * q.wts,
     -(fluxAt q 0 * q.grad e d 0 + fluxAt q 1 * q.grad e d 1 + q.source * q.basis e d) * q.wts]
  else if dim = 3 then
    [phi * q.dt e * q.basis e d * q.wts,
     -(fluxAt q 0 * q.grad e d 0 + fluxAt q 1 * q.grad e d 1 + fluxAt q 2 * q.grad e d 2 + q.source * q.basis e d) * q.wts]
  else []

/-- `volumeResidual` on one element, src/physics/incompressibleSaturation.cpp:77-166, 195-205, 212-273: `sNum` is the position of `S`
among the `nv` variables of the workset.  The fluxes are written at position `sNum` of storage for one equation, and the loop over
the equations runs over all variables of the workset; `none` where an entry that does not exist is read or written. -/
def volumeResidual [Field K] (phi : K) (dim nv sNum : Nat) (ndof : Nat → Nat) (off : Nat → Nat → Nat) (pts : List (Pt K))
    (res : Nat → K) : Option (Nat → K) :=
  if stored ≤ sNum then none
  else (List.range nv).foldlM
    (fun r e => if e < stored then some (ptLoop (ndof e) pts (off e) (adds phi dim e) r) else none) res

/-- `boundaryResidual`, src/physics/incompressibleSaturation.cpp:172-176, and `computeFlux`, 183-187: nothing. -/
def boundaryResidual (res : Nat → K) : Nat → K := res

/-! ## Lemmas -/

section
variable [Field K]

theorem adds_sum (phi : K) {dim : Nat} (h1 : 1 ≤ dim) (h3 : dim ≤ 3) (e : Nat) (q : Pt K) (d : Nat) :
    (adds phi dim e q d).sum = q.wts * (phi * q.dt e * q.basis e d - q.fw * dot dim q.u (q.grad e d) - q.source * q.basis e d) := by
  interval_cases dim <;> simp [adds, fluxAt, dot_one, dot_two, dot_three] <;> ring

theorem alone (phi : K) (dim : Nat) (ndof : Nat → Nat) (off : Nat → Nat → Nat) (pts : List (Pt K)) (res : Nat → K) :
    volumeResidual phi dim 1 0 ndof off pts res = some (ptLoop (ndof 0) pts (off 0) (adds phi dim 0) res) := by
  simp [volumeResidual, stored, List.range_succ]

/-! ## Properties -/

/-- C133: where `S` is the only variable of its physics set, its residual is the balance of water tested with every function of
`S`, and no other entry changes; sides add nothing. -/
theorem C133_weak_partial (phi : K) {dim : Nat} (h1 : 1 ≤ dim) (h3 : dim ≤ 3) {ndof : Nat → Nat} {off : Nat → Nat → Nat}
    (hoff : Distinct (ndof 0) (off 0)) (pts : List (Pt K)) (res : Nat → K) :
    ∃ r : Nat → K, (volumeResidual phi dim 1 0 ndof off pts res).map boundaryResidual = some r ∧
      (∀ d : Nat, d < ndof 0 → r (off 0 d) = res (off 0 d) + quad pts (fun q =>
        q.wts * (phi * q.dt 0 * q.basis 0 d - q.fw * dot dim q.u (q.grad 0 d) - q.source * q.basis 0 d))) ∧
      (∀ j : Nat, (∀ d : Nat, d < ndof 0 → off 0 d ≠ j) → r j = res j) := by
  refine ⟨_, by rw [alone]; rfl, fun d hd => ?_, fun j hj => ?_⟩
  · rw [boundaryResidual, ptLoop_at hoff pts _ res hd]
    exact congrArg _ (quad_congr pts fun q _ => adds_sum phi h1 h3 0 q d)
  · exact ptLoop_other pts _ res hj

/-- C133: balance: if the functions sum to one the equations sum to the rate at which water is stored minus the source, whatever the
velocity: no water passes a side. -/
theorem C133_balance (phi : K) {dim : Nat} (h1 : 1 ≤ dim) (h3 : dim ≤ 3) {ndof : Nat → Nat} {off : Nat → Nat → Nat}
    (hoff : Distinct (ndof 0) (off 0)) (pts : List (Pt K))
    (hone : ∀ q : Pt K, q ∈ pts → PartitionOfUnity (ndof 0) dim (q.basis 0) (q.grad 0)) (r : Nat → K)
    (hr : volumeResidual phi dim 1 0 ndof off pts (fun _ => 0) = some r) :
    ∑ d ∈ Finset.range (ndof 0), r (off 0 d) = quad pts (fun q => q.wts * (phi * q.dt 0 - q.source)) := by
  obtain ⟨r', h', hw, -⟩ := C133_weak_partial phi h1 h3 hoff pts (fun _ => 0)
  have e : r' = r := by
    rw [hr] at h'
    simpa [boundaryResidual] using h'.symm
  subst e
  rw [Finset.sum_congr rfl fun d hd => hw d (Finset.mem_range.mp hd)]
  simp only [zero_add]
  rw [quad_sum]
  refine quad_congr pts fun q hq => ?_
  rw [← Finset.mul_sum, Finset.sum_sub_distrib, Finset.sum_sub_distrib, ← Finset.mul_sum, ← Finset.mul_sum, ← Finset.mul_sum,
    (hone q hq).1, (hone q hq).dot_right q.u]
  ring

/-- C133: a uniform saturation stays: where the fraction of the flow is constant, nothing is produced and nothing is stored, the
residual is minus the fraction times the weak divergence of the velocity; so it vanishes with the velocity of a pressure solve, whose
weak divergence is zero. -/
theorem C133_uniform (phi f : K) {dim : Nat} (h1 : 1 ≤ dim) (h3 : dim ≤ 3) {ndof : Nat → Nat} {off : Nat → Nat → Nat}
    (hoff : Distinct (ndof 0) (off 0)) (pts : List (Pt K))
    (hu : ∀ q : Pt K, q ∈ pts → q.fw = f ∧ q.dt 0 = 0 ∧ q.source = 0) (r : Nat → K)
    (hr : volumeResidual phi dim 1 0 ndof off pts (fun _ => 0) = some r) {d : Nat} (hd : d < ndof 0) :
    r (off 0 d) = -(f * quad pts (fun q => q.wts * dot dim q.u (q.grad 0 d))) ∧
    (quad pts (fun q => q.wts * dot dim q.u (q.grad 0 d)) = 0 → r (off 0 d) = 0) := by
  obtain ⟨r', h', hw, -⟩ := C133_weak_partial phi h1 h3 hoff pts (fun _ => 0)
  have e : r' = r := by
    rw [hr] at h'
    simpa [boundaryResidual] using h'.symm
  subst e
  have key : r' (off 0 d) = -(f * quad pts (fun q => q.wts * dot dim q.u (q.grad 0 d))) := by
    rw [hw d hd, zero_add, quad_mul_left, ← quad_neg]
    refine quad_congr pts fun q hq => ?_
    obtain ⟨hf, ht, hs⟩ := hu q hq
    rw [hf, ht, hs]
    ring
  exact ⟨key, fun h => by rw [key, h, mul_zero, neg_zero]⟩

/-- C133 is false for a physics set with further variables: whatever they are, and wherever `S` stands among them, sources and fluxes
that were never stored are used, as the loop runs over all variables of the set. -/
theorem C133_further_violated (phi : K) (dim nv sNum : Nat) (h : 2 ≤ nv) (ndof : Nat → Nat) (off : Nat → Nat → Nat)
    (pts : List (Pt K)) (res : Nat → K) : volumeResidual phi dim nv sNum ndof off pts res = none := by
  unfold volumeResidual
  split
  · rfl
  · obtain ⟨m, rfl⟩ : ∃ m : Nat, nv = 2 + m := ⟨nv - 2, by omega⟩
    rw [List.range_add, List.foldlM_append]
    simp [List.range_succ, stored]

/-- C133: a residual is computed exactly where `S` is the first variable and there is no further one. -/
theorem C133_alone_iff (phi : K) (dim nv sNum : Nat) (ndof : Nat → Nat) (off : Nat → Nat → Nat) (pts : List (Pt K)) (res : Nat → K) :
    (∃ r, volumeResidual phi dim nv sNum ndof off pts res = some r) ↔ sNum = 0 ∧ nv ≤ 1 := by
  constructor
  · rintro ⟨r, h⟩
    refine ⟨?_, ?_⟩
    · by_contra h0
      rw [volumeResidual, if_pos (by simp only [stored]; omega)] at h
      cases h
    · by_contra h1
      rw [C133_further_violated phi dim nv sNum (by omega)] at h
      cases h
  · rintro ⟨rfl, h1⟩
    rcases (by omega : nv = 0 ∨ nv = 1) with rfl | rfl
    · exact ⟨res, by simp [volumeResidual, stored]⟩
    · exact ⟨_, alone _ _ _ _ _ _⟩

-- two variables are a case without a residual, one variable a case with one
example : ¬ ((0 : Nat) = 0 ∧ 2 ≤ 1) ∧ ((0 : Nat) = 0 ∧ 1 ≤ 1) := by decide

end

/-- The interval [0, 1] with two points of the trapezoidal rule, velocity one, only water, nothing stored.  [case] -/
def inflow : List (Pt ℚ) :=
  [⟨1/2, 0, 1, fun _ => 1, fun _ => 0, fun _ d => if d = 0 then 1 else 0, fun _ d _ => if d = 0 then -1 else 1⟩,
   ⟨1/2, 0, 1, fun _ => 1, fun _ => 0, fun _ d => if d = 0 then 0 else 1, fun _ d _ => if d = 0 then -1 else 1⟩]

/-- C133 is false where water enters or leaves through the boundary: with velocity one and pure water everywhere, a steady solution
of the equation, the residual at both ends is not zero: nothing is added on the sides, so both are closed. -/
theorem C133_sides_violated :
    ∃ r : Nat → ℚ, volumeResidual (1 / 2) 1 1 0 (fun _ => 2) (fun _ d => d) inflow (fun _ => 0) = some r ∧
      boundaryResidual r 0 = 1 ∧ boundaryResidual r 1 = -1 := by
  refine ⟨_, alone _ _ _ _ _ _, ?_, ?_⟩ <;> decide +kernel

/-! ## Cases -/

/-- The hypotheses of `C133_weak_partial` and `C133_balance` in a case.  [case] -/
example : Distinct 2 (fun d : Nat => d) ∧ ∀ q : Pt ℚ, q ∈ inflow → PartitionOfUnity 2 1 (q.basis 0) (q.grad 0) := by
  refine ⟨fun a b _ _ h => h, fun q hq => ?_⟩
  simp only [inflow, List.mem_cons, List.not_mem_nil, or_false] at hq
  rcases hq with rfl | rfl <;>
    refine ⟨by norm_num [Finset.sum_range_succ], fun c hc => by norm_num [Finset.sum_range_succ]⟩

/-- The hypotheses of `C133_uniform`: here the weak divergence is not zero; with velocity zero it is.  [case] -/
example : (∀ q : Pt ℚ, q ∈ inflow → q.fw = 1 ∧ q.dt 0 = 0 ∧ q.source = 0) ∧
    quad inflow (fun q => q.wts * dot 1 q.u (q.grad 0 0)) = -1 := by
  refine ⟨fun q hq => ?_, ?_⟩
  · simp only [inflow, List.mem_cons, List.not_mem_nil, or_false] at hq
    rcases hq with rfl | rfl <;> simp
  · norm_num [quad, inflow, dot_one]

/-- A case of `C133_further_violated`: pressure and saturation in one set.  [case] -/
example : volumeResidual (1 / 2 : ℚ) 1 2 1 (fun _ => 2) (fun e d => 2 * e + d) inflow (fun _ => 0) = none :=
  C133_further_violated _ _ _ _ (by norm_num) _ _ _ _

end MrHyDE.Modules.Saturation
