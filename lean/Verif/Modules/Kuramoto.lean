import Verif.Modules.Loops
import Mathlib.Algebra.Field.Basic
import Mathlib.Algebra.Field.Rat
import Mathlib.Tactic.IntervalCases
import Mathlib.Tactic.LinearCombination
import Mathlib.Tactic.NormNum

/-!
# The Kuramoto-Sivashinsky module (C112)

`KuramotoSivashinsky` solves `u_t + lap w + w + 1/2 |grad u|² = 0`, `lap u - w = 0`.
-/

set_option linter.unusedSectionVars false

namespace MrHyDE.Modules.Kuramoto

variable {K : Type}

/-! ## Model -/

/-- What `volumeResidual` reads at one integration point, src/physics/kuramotoSivashinsky.cpp:48-54 and 99-105: the basis
functions are those of `u`, also in the equation of `w` (lines 48-49, 127). -/
structure Pt (K : Type) where
  wts : K
  u : K
  ut : K
  w : K
  gu : Nat → K
  gw : Nat → K
  basis : Nat → K
  grad : Nat → Nat → K

/-- The addition of the loop bodies of the first equation, src/physics/kuramotoSivashinsky.cpp:67-74, 86-95 and
109-119. -/
def uAdds [Field K] (dim : Nat) (p : Pt K) (d : Nat) : List K :=
  let F := fun i => -(p.gw i) * p.wts
  if dim = 1 then
    let f := (p.ut + p.w + 1 / 2 * p.gu 0 * p.gu 0) * p.wts
    [f * p.basis d + F 0 * p.grad d 0]
  else if dim = 2 then
    let f := (p.ut + p.w + 1 / 2 * (p.gu 0 * p.gu 0 + p.gu 1 * p.gu 1)) * p.wts
    [f * p.basis d + F 0 * p.grad d 0 + F 1 * p.grad d 1]
  else if dim = 3 then
    let f := (p.ut + p.w + 1 / 2 * (p.gu 0 * p.gu 0 + p.gu 1 * p.gu 1 + p.gu 2 * p.gu 2)) * p.wts
    [f * p.basis d + F 0 * p.grad d 0 + F 1 * p.grad d 1 + F 2 * p.grad d 2]
  else []

/-- The addition of the loop bodies of the second equation, src/physics/kuramotoSivashinsky.cpp:134-140, 150-158 and
169-178. -/
def wAdds [Field K] (dim : Nat) (p : Pt K) (d : Nat) : List K :=
  let f := p.w * p.wts
  let F := fun i => p.gu i * p.wts
  if dim = 1 then [f * p.basis d + F 0 * p.grad d 0]
  else if dim = 2 then [f * p.basis d + F 0 * p.grad d 0 + F 1 * p.grad d 1]
  else if dim = 3 then [f * p.basis d + F 0 * p.grad d 0 + F 1 * p.grad d 1 + F 2 * p.grad d 2]
  else []

/-- `volumeResidual` on one element, src/physics/kuramotoSivashinsky.cpp:42-183: equation 0 is that of `u`, equation 1
that of `w`; both loops run over the `ndof` basis functions of `u`. -/
def volumeResidual [Field K] (dim ndof : Nat) (off : Nat → Nat → Nat) (pts : List (Pt K)) (res : Nat → K) : Nat → K :=
  runLoops off pts [{ eq := 0, ndof := ndof, adds := uAdds dim }, { eq := 1, ndof := ndof, adds := wAdds dim }] res

/-! ## Specification -/

/-- The first equation tested with a basis function, at a point (line 57 of the source).  [specification, no code] -/
def first [Field K] (dim : Nat) (p : Pt K) (d : Nat) : K :=
  (p.ut + p.w + dot dim p.gu p.gu / 2) * p.basis d - dot dim p.gw (p.grad d)

/-- The second equation tested with a basis function, at a point (line 125 of the source).  [specification, no code] -/
def second [Field K] (dim : Nat) (p : Pt K) (d : Nat) : K := p.w * p.basis d + dot dim p.gu (p.grad d)

/-- The fields have the coefficients `U` and `W` in the basis of `u`.  [specification, no code] -/
def HasCoefs [Field K] (dim ndof : Nat) (U W : Nat → K) (p : Pt K) : Prop :=
  p.u = ∑ d ∈ Finset.range ndof, U d * p.basis d ∧
  p.w = ∑ d ∈ Finset.range ndof, W d * p.basis d ∧
  (∀ i : Nat, i < dim → p.gu i = ∑ d ∈ Finset.range ndof, U d * p.grad d i) ∧
  (∀ i : Nat, i < dim → p.gw i = ∑ d ∈ Finset.range ndof, W d * p.grad d i)

/-- Basis functions that sum to one.  [specification, no code] -/
def Sums [Field K] (dim ndof : Nat) (p : Pt K) : Prop :=
  ∑ d ∈ Finset.range ndof, p.basis d = 1 ∧ ∀ i : Nat, i < dim → ∑ d ∈ Finset.range ndof, p.grad d i = 0

/-! ## Properties -/

section
variable [Field K] [CharZero K]

/-- C112: both equations are the weak forms of the Kuramoto-Sivashinsky equations in one, two and three dimensions, if `u`
and `w` have the same basis.  Missing: different bases (`C112_basis_violated`). -/
theorem C112_weak_partial {dim : Nat} (h1 : 1 ≤ dim) (h3 : dim ≤ 3) {ndof : Nat} {off : Nat → Nat → Nat}
    (hoff : DistinctAll 2 (fun _ => ndof) off) (pts : List (Pt K)) (res : Nat → K) {d : Nat} (hd : d < ndof) :
    volumeResidual dim ndof off pts res (off 0 d) = res (off 0 d) + quad pts (fun p => p.wts * first dim p d) ∧
    volumeResidual dim ndof off pts res (off 1 d) = res (off 1 d) + quad pts (fun p => p.wts * second dim p d) := by
  have hfit : Fits 2 (fun _ => ndof)
      ([{ eq := 0, ndof := ndof, adds := uAdds dim }, { eq := 1, ndof := ndof, adds := wAdds dim }] :
        List (Loop K (Pt K))) := by
    intro l hl
    simp at hl
    rcases hl with rfl | rfl <;> exact ⟨by simp, rfl⟩
  unfold volumeResidual
  rw [runLoops_at hoff pts _ hfit res (by omega) hd, runLoops_at hoff pts _ hfit res (by omega) hd]
  constructor
  · refine congrArg _ (quad_congr pts fun p _ => ?_)
    interval_cases dim <;> simp [termsAt, uAdds, first, dot_one, dot_two, dot_three] <;> ring
  · refine congrArg _ (quad_congr pts fun p _ => ?_)
    interval_cases dim <;> simp [termsAt, wAdds, second, dot_one, dot_two, dot_three] <;> ring

/-- Sums over the basis functions become the fields. -/
theorem swap {dim n : Nat} (Z : Nat → K) (a : Nat → K) (b : Nat → Nat → K) (z : Nat → K)
    (hz : ∀ c : Nat, c < dim → z c = ∑ d ∈ Finset.range n, Z d * b d c) :
    ∑ d ∈ Finset.range n, Z d * dot dim a (b d) = dot dim a z := by
  unfold dot
  rw [Finset.sum_congr rfl fun d _ => Finset.mul_sum (Finset.range dim) _ (Z d), Finset.sum_comm]
  refine Finset.sum_congr rfl fun c hc => ?_
  rw [hz c (Finset.mem_range.mp hc), Finset.mul_sum]
  exact Finset.sum_congr rfl fun d _ => by ring

/-- C112 (energy): weighting the first equation with `u` and the second with `w - u` gives
`u u_t + w² - |grad u|² + u |grad u|²/2`: the terms with `grad w` cancel. -/
theorem C112_energy {dim : Nat} (h1 : 1 ≤ dim) (h3 : dim ≤ 3) {ndof : Nat} {off : Nat → Nat → Nat}
    (hoff : DistinctAll 2 (fun _ => ndof) off) (pts : List (Pt K)) (U W : Nat → K)
    (hc : ∀ p : Pt K, p ∈ pts → HasCoefs dim ndof U W p) :
    (∑ d ∈ Finset.range ndof, U d * volumeResidual dim ndof off pts (fun _ => 0) (off 0 d)) +
      ∑ d ∈ Finset.range ndof, (W d - U d) * volumeResidual dim ndof off pts (fun _ => 0) (off 1 d) =
    quad pts (fun p => p.wts *
      (p.u * p.ut + p.w ^ 2 - dot dim p.gu p.gu + p.u * dot dim p.gu p.gu / 2)) := by
  rw [Finset.sum_congr rfl fun d hd => congrArg (U d * ·)
      (((C112_weak_partial h1 h3 hoff pts (fun _ => 0) (Finset.mem_range.mp hd)).1).trans (zero_add _)),
    Finset.sum_congr rfl fun d hd => congrArg ((W d - U d) * ·)
      (((C112_weak_partial h1 h3 hoff pts (fun _ => 0) (Finset.mem_range.mp hd)).2).trans (zero_add _))]
  simp only [quad_mul_left]
  rw [quad_sum, quad_sum, ← quad_add]
  refine quad_congr pts fun p hp => ?_
  obtain ⟨hu, hw, hgu, hgw⟩ := hc p hp
  have s1 := swap (dim := dim) U p.gw p.grad p.gu hgu
  have s2 := swap (dim := dim) U p.gu p.grad p.gu hgu
  have s3 := swap (dim := dim) W p.gu p.grad p.gw hgw
  have hcomm : dot dim p.gw p.gu = dot dim p.gu p.gw := dot_comm _ _ _
  have e1 : ∑ d ∈ Finset.range ndof, U d * (p.wts * first dim p d) =
      p.wts * ((p.ut + p.w + dot dim p.gu p.gu / 2) * p.u - dot dim p.gw p.gu) := by
    rw [← s1, hu, Finset.mul_sum, ← Finset.sum_sub_distrib, Finset.mul_sum]
    refine Finset.sum_congr rfl fun d _ => ?_
    unfold first
    ring
  have e2 : ∑ d ∈ Finset.range ndof, (W d - U d) * (p.wts * second dim p d) =
      p.wts * (p.w * (p.w - p.u) + dot dim p.gu p.gw - dot dim p.gu p.gu) := by
    have e3 : p.w * (p.w - p.u) =
        ∑ d ∈ Finset.range ndof, p.w * ((W d - U d) * p.basis d) := by
      rw [← Finset.mul_sum]
      congr 1
      rw [Finset.sum_congr rfl fun d _ => sub_mul (W d) (U d) (p.basis d), Finset.sum_sub_distrib, ← hu, ← hw]
    rw [← s2, ← s3, e3, ← Finset.sum_add_distrib, ← Finset.sum_sub_distrib, Finset.mul_sum]
    refine Finset.sum_congr rfl fun d _ => ?_
    unfold second
    ring
  rw [e1, e2, hcomm]
  ring

/-- C112 (drift of the mean): if the basis functions sum to one, the entries of the first equation less those of the second
sum to the integral of `u_t + |grad u|²/2`. -/
theorem C112_mean {dim : Nat} (h1 : 1 ≤ dim) (h3 : dim ≤ 3) {ndof : Nat} {off : Nat → Nat → Nat}
    (hoff : DistinctAll 2 (fun _ => ndof) off) (pts : List (Pt K)) (hs : ∀ p : Pt K, p ∈ pts → Sums dim ndof p) :
    (∑ d ∈ Finset.range ndof, volumeResidual dim ndof off pts (fun _ => 0) (off 0 d)) -
      ∑ d ∈ Finset.range ndof, volumeResidual dim ndof off pts (fun _ => 0) (off 1 d) =
    quad pts (fun p => p.wts * (p.ut + dot dim p.gu p.gu / 2)) := by
  rw [Finset.sum_congr rfl fun d hd =>
      ((C112_weak_partial h1 h3 hoff pts (fun _ => 0) (Finset.mem_range.mp hd)).1).trans (zero_add _),
    Finset.sum_congr rfl fun d hd =>
      ((C112_weak_partial h1 h3 hoff pts (fun _ => 0) (Finset.mem_range.mp hd)).2).trans (zero_add _),
    quad_sum, quad_sum, sub_eq_add_neg, ← quad_neg, ← quad_add]
  refine quad_congr pts fun p hp => ?_
  obtain ⟨hb, hg⟩ := hs p hp
  have hz : ∀ a : Nat → K, ∑ d ∈ Finset.range ndof, dot dim a (p.grad d) = 0 := by
    intro a
    unfold dot
    rw [Finset.sum_comm]
    refine Finset.sum_eq_zero fun i hi => ?_
    rw [← Finset.mul_sum, hg i (Finset.mem_range.mp hi), mul_zero]
  have e1 : ∑ d ∈ Finset.range ndof, p.wts * first dim p d = p.wts * (p.ut + p.w + dot dim p.gu p.gu / 2) := by
    unfold first
    rw [← Finset.mul_sum, Finset.sum_sub_distrib, hz, ← Finset.mul_sum, hb, mul_one, sub_zero]
  have e2 : ∑ d ∈ Finset.range ndof, p.wts * second dim p d = p.wts * p.w := by
    unfold second
    rw [← Finset.mul_sum, Finset.sum_add_distrib, hz, ← Finset.mul_sum, hb, mul_one, add_zero]
  rw [e1, e2]
  ring

/-- C112: that every basis function of `w` has an equation is false when `w` has more of them than `u`: the equations
beyond the number of basis functions of `u` receive nothing, for every state. -/
theorem C112_basis_violated (dim ndofU ndofW : Nat) {off : Nat → Nat → Nat}
    (hoff : ∀ e d e' d' : Nat, off e d = off e' d' → e = e' ∧ d = d') (pts : List (Pt K)) (res : Nat → K) {d : Nat}
    (hd : ndofU ≤ d ∧ d < ndofW) :
    volumeResidual dim ndofU off pts res (off 1 d) = res (off 1 d) := by
  unfold volumeResidual
  refine runLoops_other pts _ res fun l hl a ha he => ?_
  simp at hl
  rcases hl with rfl | rfl
  · exact absurd (hoff _ _ _ _ he).1 (by simp)
  · have := (hoff _ _ _ _ he).2
    simp only at ha
    omega

end

/-! ## Cases -/

example : DistinctAll 2 (fun _ => 2) (fun e d => 2 * e + d) := by
  intro i a j b _ _ ha hb h
  simp only at ha hb h
  omega

/-- [case] A point with all fields non-zero and two basis functions. -/
def busy : Pt ℚ :=
  { wts := 2, u := 3 / 2, ut := 5, w := 5 / 2, gu := fun _ => 1, gw := fun _ => 3,
    basis := fun _ => 1 / 2, grad := fun d _ => if d = 0 then -1 else 1 }

example : HasCoefs 2 2 (fun d => if d = 0 then 1 else 2) (fun d => if d = 0 then 1 else 4) busy ∧ Sums 2 2 busy := by
  refine ⟨⟨?_, ?_, fun i _ => ?_, fun i _ => ?_⟩, ?_, fun i _ => ?_⟩ <;> norm_num [busy, Finset.sum_range_succ]

example : volumeResidual 2 2 (fun e d => 2 * e + d) [busy] (fun _ => 0) 1 = -7 / 2 := by decide +kernel

end MrHyDE.Modules.Kuramoto
