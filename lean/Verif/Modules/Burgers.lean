import Verif.Modules.Loops
import Mathlib.Algebra.Order.Field.Basic
import Mathlib.Algebra.Field.Rat
import Mathlib.Algebra.Order.Ring.Abs
import Mathlib.Tactic.IntervalCases
import Mathlib.Tactic.Linarith
import Mathlib.Tactic.NormNum
import Mathlib.Tactic.Positivity

/-!
# The Burgers module (C111)

`Burgers` solves `u_t + div(1/2 v u² - eps grad u) = s` with, in two dimensions, an entropy viscosity and a streamline
stabilisation (SUPG) on request.
-/

set_option linter.unusedSectionVars false

namespace MrHyDE.Modules.Burgers

variable {K : Type}

/-! ## Model -/

/-- What `volumeResidual` reads at one integration point, src/physics/burgers.cpp:57-68 and 87-99; `C1`, `C2` are the
functions of the entropy viscosity, `sC`, `sC1`, `sC2` those of the stabilisation ("supg C" and so on). -/
structure Pt (K : Type) where
  wts : K
  source : K
  eps : K
  vel : Nat → K
  u : K
  ut : K
  g : Nat → K
  basis : Nat → K
  grad : Nat → Nat → K
  C1 : K
  C2 : K
  sC : K
  sC1 : K
  sC2 : K

/-- The settings, src/physics/burgers.cpp:25-26, the size of the element and of the time step (lines 100-101). -/
structure Setting (K : Type) where
  evisc : Bool
  supg : Bool
  h : K
  dt : K

section
variable [Field K] [LinearOrder K] [IsStrictOrderedRing K]

/-- The entropy viscosity in two dimensions, src/physics/burgers.cpp:106-113. -/
def evisc (s : Setting K) (p : Pt K) : K :=
  let e := if s.evisc then
      let entres := p.u * (p.ut + p.u * p.g 0 + p.u * p.g 1)
      p.C1 * s.h * s.h * |1 / 10 ^ 12 + entres| / p.C2
    else 0
  if 1 / 10 < e then 1 / 10 else e

/-- The parameter of the stabilisation, src/physics/burgers.cpp:119-125; `sqrt` is the square root. -/
def tau (sqrt : K → K) (s : Setting K) (p : Pt K) : K :=
  let n2 := p.vel 0 * p.vel 0 + p.vel 1 * p.vel 1
  let nvel := if 1 / 10 ^ 12 < n2 then sqrt n2 else n2
  p.sC / (p.sC1 / s.dt + p.sC2 * nvel / s.h)

/-- The stabilised residual, src/physics/burgers.cpp:127. -/
def sres (sqrt : K → K) (s : Setting K) (p : Pt K) : K :=
  tau sqrt s p * (p.ut + p.vel 0 * p.u * p.g 0 + p.vel 1 * p.u * p.g 1 - p.source) * p.wts

/-- The flux in direction `i`, src/physics/burgers.cpp:79 (one dimension), 116-117 with 128-129 (two), 150-152
(three). -/
def flux (sqrt : K → K) (dim : Nat) (s : Setting K) (p : Pt K) (i : Nat) : K :=
  let usq := 1 / 2 * p.u * p.u
  if dim = 2 then
    let F := ((p.eps + evisc s p) * p.g i - p.vel i * usq) * p.wts
    if s.supg then F + sres sqrt s p * p.u * p.vel i else F
  else (p.eps * p.g i - p.vel i * usq) * p.wts

/-- The addition of the loop bodies, src/physics/burgers.cpp:76-83, 105-135 and 147-157. -/
def adds (sqrt : K → K) (dim : Nat) (s : Setting K) (p : Pt K) (d : Nat) : List K :=
  let f := (p.ut - p.source) * p.wts
  let F := flux sqrt dim s p
  if dim = 1 then [f * p.basis d + F 0 * p.grad d 0]
  else if dim = 2 then [f * p.basis d + F 0 * p.grad d 0 + F 1 * p.grad d 1]
  else if dim = 3 then [f * p.basis d + F 0 * p.grad d 0 + F 1 * p.grad d 1 + F 2 * p.grad d 2]
  else []

/-- `volumeResidual` on one element, src/physics/burgers.cpp:51-161. -/
def volumeResidual (sqrt : K → K) (dim ndof : Nat) (off : Nat → Nat) (s : Setting K) (pts : List (Pt K))
    (res : Nat → K) : Nat → K :=
  ptLoop ndof pts off (adds sqrt dim s) res

/-- What `boundaryResidual` reads at one point of a side, src/physics/burgers.cpp:181-190. -/
structure SidePt (K : Type) where
  wts : K
  u : K
  vel : Nat → K
  n : Nat → K
  basis : Nat → K

/-- `boundaryResidual` on one side of one element, src/physics/burgers.cpp:166-204: only in two dimensions, and it asks for
the condition of variable 0 of the block (line 180), whichever the variable `u` is.  `neumann v` tells whether the
condition of variable `v` on the side is "Neumann". -/
def boundaryResidual (dim ndof : Nat) (off : Nat → Nat) (neumann : Nat → Bool) (pts : List (SidePt K))
    (res : Nat → K) : Nat → K :=
  if dim = 2 && neumann 0 then
    dofLoop ndof pts off (fun q d =>
      [1 / 2 * q.u * q.u * q.wts * q.basis d * (q.vel 0 * q.n 0 + q.vel 1 * q.n 1)]) res
  else res

/-! ## Specification -/

/-- The weak form of `f - div F = 0` at a point.  [specification, no code] -/
def weak (dim : Nat) (f : K) (F : Nat → K) (p : Pt K) (d : Nat) : K :=
  p.wts * (f * p.basis d + dot dim F (p.grad d))

/-- Basis functions that sum to one.  [specification, no code] -/
def Sums (dim ndof : Nat) (p : Pt K) : Prop :=
  ∑ d ∈ Finset.range ndof, p.basis d = 1 ∧ ∀ i : Nat, i < dim → ∑ d ∈ Finset.range ndof, p.grad d i = 0

/-- The field has the coefficients `U`.  [specification, no code] -/
def HasCoefs (dim ndof : Nat) (U : Nat → K) (p : Pt K) : Prop :=
  p.u = ∑ d ∈ Finset.range ndof, U d * p.basis d ∧
  ∀ i : Nat, i < dim → p.g i = ∑ d ∈ Finset.range ndof, U d * p.grad d i

/-- The equation holds at the point, without diffusion and for a velocity without divergence.
[specification, no code] -/
def Solves (dim : Nat) (p : Pt K) : Prop := p.ut + p.u * dot dim p.vel p.g = p.source

/-! ## Properties -/

theorem adds_sum (sqrt : K → K) {dim : Nat} (h1 : 1 ≤ dim) (h3 : dim ≤ 3) (s : Setting K) (p : Pt K) (d : Nat) :
    (adds sqrt dim s p d).sum =
      p.wts * ((p.ut - p.source) * p.basis d) + dot dim (flux sqrt dim s p) (p.grad d) := by
  interval_cases dim <;> simp [adds, dot_one, dot_two, dot_three] <;> ring

theorem entry (sqrt : K → K) {dim : Nat} (h1 : 1 ≤ dim) (h3 : dim ≤ 3) {ndof : Nat} {off : Nat → Nat}
    (hoff : Distinct ndof off) (s : Setting K) (pts : List (Pt K)) (res : Nat → K) {d : Nat} (hd : d < ndof) :
    volumeResidual sqrt dim ndof off s pts res (off d) = res (off d) + quad pts (fun p =>
      p.wts * ((p.ut - p.source) * p.basis d) + dot dim (flux sqrt dim s p) (p.grad d)) := by
  unfold volumeResidual
  rw [ptLoop_at hoff pts _ res hd]
  exact congrArg _ (quad_congr pts fun p _ => adds_sum sqrt h1 h3 s p d)

/-- C111: without stabilisation the module assembles the weak form of `u_t + div(1/2 v u² - eps grad u) = s`, in one, two
and three dimensions. -/
theorem C111_weak (sqrt : K → K) {dim : Nat} (h1 : 1 ≤ dim) (h3 : dim ≤ 3) {ndof : Nat} {off : Nat → Nat}
    (hoff : Distinct ndof off) (h dt : K) (pts : List (Pt K)) (res : Nat → K) {d : Nat} (hd : d < ndof) :
    volumeResidual sqrt dim ndof off ⟨false, false, h, dt⟩ pts res (off d) = res (off d) + quad pts (fun p =>
      weak dim (p.ut - p.source) (fun i => p.eps * p.g i - p.vel i * (p.u ^ 2 / 2)) p d) := by
  rw [entry sqrt h1 h3 hoff _ pts res hd]
  refine congrArg _ (quad_congr pts fun p _ => ?_)
  have hpos : ¬ ((1 : K) / 10 < 0) := by
    have : (0 : K) < 1 / 10 := by positivity
    exact not_lt.mpr this.le
  unfold weak dot
  rw [mul_add, Finset.mul_sum]
  congr 1
  refine Finset.sum_congr rfl fun i _ => ?_
  unfold flux evisc
  by_cases h2 : dim = 2
  · simp only [if_pos h2, if_neg hpos, Bool.false_eq_true, if_false]
    ring
  · simp only [if_neg h2]
    ring

/-- C111 (conservation): whatever stabilisation is switched on, if the basis functions sum to one the entries sum to the
integral of `u_t - s`. -/
theorem C111_conservation (sqrt : K → K) {dim : Nat} (h1 : 1 ≤ dim) (h3 : dim ≤ 3) {ndof : Nat} {off : Nat → Nat}
    (hoff : Distinct ndof off) (s : Setting K) (pts : List (Pt K)) (hs : ∀ p : Pt K, p ∈ pts → Sums dim ndof p) :
    ∑ d ∈ Finset.range ndof, volumeResidual sqrt dim ndof off s pts (fun _ => 0) (off d) =
      quad pts (fun p => p.wts * (p.ut - p.source)) := by
  rw [Finset.sum_congr rfl fun d hd =>
    (entry sqrt h1 h3 hoff s pts (fun _ => 0) (Finset.mem_range.mp hd)).trans (zero_add _), quad_sum]
  refine quad_congr pts fun p hp => ?_
  obtain ⟨hb, hg⟩ := hs p hp
  have hz : ∑ d ∈ Finset.range ndof, dot dim (flux sqrt dim s p) (p.grad d) = 0 := by
    unfold dot
    rw [Finset.sum_comm]
    refine Finset.sum_eq_zero fun i hi => ?_
    rw [← Finset.mul_sum, hg i (Finset.mem_range.mp hi), mul_zero]
  rw [Finset.sum_add_distrib, hz, add_zero, ← Finset.mul_sum, ← Finset.mul_sum, hb, mul_one]

/-- C111: the entropy viscosity is at most 1/10, and not negative when its coefficients are not. -/
theorem C111_viscosity (s : Setting K) (p : Pt K) :
    evisc s p ≤ 1 / 10 ∧ (0 ≤ p.C1 → 0 < p.C2 → 0 ≤ evisc s p) := by
  unfold evisc
  constructor
  · by_cases h : 1 / 10 < (if s.evisc then
      p.C1 * s.h * s.h * |1 / 10 ^ 12 + p.u * (p.ut + p.u * p.g 0 + p.u * p.g 1)| / p.C2 else 0)
    · simp only [if_pos h]
      exact le_refl _
    · simp only [if_neg h]
      exact not_lt.mp h
  · intro hC1 hC2
    have h0 : 0 ≤ (if s.evisc then
        p.C1 * s.h * s.h * |1 / 10 ^ 12 + p.u * (p.ut + p.u * p.g 0 + p.u * p.g 1)| / p.C2 else 0) := by
      cases s.evisc
      · simp
      · simp only [if_true]
        have : 0 ≤ p.C1 * s.h * s.h := by
          rw [mul_assoc]; exact mul_nonneg hC1 (mul_self_nonneg _)
        positivity
    by_cases h : 1 / 10 < (if s.evisc then
      p.C1 * s.h * s.h * |1 / 10 ^ 12 + p.u * (p.ut + p.u * p.g 0 + p.u * p.g 1)| / p.C2 else 0)
    · simp only [if_pos h]
      positivity
    · simp only [if_neg h]
      exact h0

/-- C111 (stabilisation parameter): `tau` is `C / (C1/dt + C2 |v|/h)` with the length `|v|` of the velocity, for which the
square stands in where it is below `1e-12`; for positive functions it is positive and at most `C dt / C1`. -/
theorem C111_tau (sqrt : K → K) (hs : ∀ x : K, 0 < x → 0 < sqrt x ∧ sqrt x * sqrt x = x) (s : Setting K) (p : Pt K)
    (hC : 0 < p.sC) (hC1 : 0 < p.sC1) (hC2 : 0 < p.sC2) (hh : 0 < s.h) (hdt : 0 < s.dt) :
    (∃ m : K, 0 ≤ m ∧ tau sqrt s p * (p.sC1 / s.dt + p.sC2 * m / s.h) = p.sC ∧
      (1 / 10 ^ 12 < dot 2 p.vel p.vel → m * m = dot 2 p.vel p.vel) ∧
      (dot 2 p.vel p.vel ≤ 1 / 10 ^ 12 → m = dot 2 p.vel p.vel)) ∧
    0 < tau sqrt s p ∧ tau sqrt s p ≤ p.sC * s.dt / p.sC1 := by
  have hn2 : dot 2 p.vel p.vel = p.vel 0 * p.vel 0 + p.vel 1 * p.vel 1 := by rw [dot_two]
  have h0 : 0 ≤ p.vel 0 * p.vel 0 + p.vel 1 * p.vel 1 := add_nonneg (mul_self_nonneg _) (mul_self_nonneg _)
  obtain ⟨m, hm, he, hb, hsm⟩ : ∃ m : K, 0 ≤ m ∧ tau sqrt s p = p.sC / (p.sC1 / s.dt + p.sC2 * m / s.h) ∧
      (1 / 10 ^ 12 < dot 2 p.vel p.vel → m * m = dot 2 p.vel p.vel) ∧
      (dot 2 p.vel p.vel ≤ 1 / 10 ^ 12 → m = dot 2 p.vel p.vel) := by
    by_cases hc : 1 / 10 ^ 12 < p.vel 0 * p.vel 0 + p.vel 1 * p.vel 1
    · have hpos : 0 < p.vel 0 * p.vel 0 + p.vel 1 * p.vel 1 := lt_trans (by positivity) hc
      refine ⟨sqrt (p.vel 0 * p.vel 0 + p.vel 1 * p.vel 1), (hs _ hpos).1.le, ?_, ?_, ?_⟩
      · simp only [tau, if_pos hc]
      · intro _
        rw [hn2]
        exact (hs _ hpos).2
      · intro h
        rw [hn2] at h
        exact absurd hc (not_lt.mpr h)
    · refine ⟨p.vel 0 * p.vel 0 + p.vel 1 * p.vel 1, h0, ?_, ?_, ?_⟩
      · simp only [tau, if_neg hc]
      · intro h
        rw [hn2] at h
        exact absurd h hc
      · intro _
        rw [hn2]
  have hden : 0 < p.sC1 / s.dt + p.sC2 * m / s.h := by positivity
  refine ⟨⟨m, hm, by rw [he, div_mul_cancel₀ _ hden.ne'], hb, hsm⟩, by rw [he]; positivity, ?_⟩
  rw [he, div_le_div_iff₀ hden hC1]
  have hx : 0 ≤ p.sC2 * m / s.h := by positivity
  have e : p.sC * s.dt * (p.sC1 / s.dt + p.sC2 * m / s.h) = p.sC * p.sC1 + p.sC * s.dt * (p.sC2 * m / s.h) := by
    rw [mul_add, mul_assoc p.sC s.dt (p.sC1 / s.dt), mul_div_cancel₀ _ hdt.ne']
  rw [e]
  have : 0 ≤ p.sC * s.dt * (p.sC2 * m / s.h) := by positivity
  linarith

/-- C111 (energy): the residual weighted with the coefficients of the solution is the rate of energy less the power of the
source less the power of the convection plus the power of the diffusion and of the entropy viscosity, plus, with the
stabilisation, `tau` times equation residual times derivative along the streamline. -/
theorem C111_energy (sqrt : K → K) {ndof : Nat} {off : Nat → Nat} (hoff : Distinct ndof off) (s : Setting K)
    (pts : List (Pt K)) (U : Nat → K) (hU : ∀ p : Pt K, p ∈ pts → HasCoefs 2 ndof U p) :
    ∑ d ∈ Finset.range ndof, U d * volumeResidual sqrt 2 ndof off s pts (fun _ => 0) (off d) =
      quad pts (fun p => p.wts * (p.u * (p.ut - p.source) - p.u ^ 2 / 2 * dot 2 p.vel p.g
        + (p.eps + evisc s p) * dot 2 p.g p.g
        + (if s.supg then tau sqrt s p * (p.ut + p.u * dot 2 p.vel p.g - p.source) * (p.u * dot 2 p.vel p.g) else 0))) := by
  rw [Finset.sum_congr rfl fun d hd => congrArg (U d * ·)
    ((entry sqrt (by omega) (by omega) hoff s pts (fun _ => 0) (Finset.mem_range.mp hd)).trans (zero_add _))]
  simp only [quad_mul_left]
  rw [quad_sum]
  refine quad_congr pts fun p hp => ?_
  obtain ⟨hb, hg⟩ := hU p hp
  have e1 : ∑ d ∈ Finset.range ndof,
      U d * (p.wts * ((p.ut - p.source) * p.basis d) + dot 2 (flux sqrt 2 s p) (p.grad d)) =
      p.wts * (p.ut - p.source) * (∑ d ∈ Finset.range ndof, U d * p.basis d)
        + (flux sqrt 2 s p 0 * (∑ d ∈ Finset.range ndof, U d * p.grad d 0)
          + flux sqrt 2 s p 1 * (∑ d ∈ Finset.range ndof, U d * p.grad d 1)) := by
    rw [Finset.mul_sum, Finset.mul_sum, Finset.mul_sum, ← Finset.sum_add_distrib, ← Finset.sum_add_distrib]
    exact Finset.sum_congr rfl fun d _ => by rw [dot_two]; ring
  rw [e1, ← hb, ← hg 0 (by omega), ← hg 1 (by omega)]
  unfold flux sres
  simp only [if_true, dot_two]
  cases s.supg
  · simp
    ring
  · simp
    ring

/-- C111: the stabilisation is consistent: where the equation holds it adds nothing. -/
theorem C111_supg_consistent (sqrt : K → K) {ndof : Nat} {off : Nat → Nat} (hoff : Distinct ndof off) (e : Bool) (h dt : K)
    (pts : List (Pt K)) (hs : ∀ p : Pt K, p ∈ pts → Solves 2 p) (res : Nat → K) {d : Nat} (hd : d < ndof) :
    volumeResidual sqrt 2 ndof off ⟨e, true, h, dt⟩ pts res (off d) =
      volumeResidual sqrt 2 ndof off ⟨e, false, h, dt⟩ pts res (off d) := by
  rw [entry sqrt (by omega) (by omega) hoff _ pts res hd, entry sqrt (by omega) (by omega) hoff _ pts res hd]
  refine congrArg _ (quad_congr pts fun p hp => ?_)
  have h0 : p.ut + p.vel 0 * p.u * p.g 0 + p.vel 1 * p.u * p.g 1 - p.source = 0 := by
    have := hs p hp
    unfold Solves at this
    rw [dot_two] at this
    rw [← this]
    ring
  have hsr : sres sqrt ⟨e, true, h, dt⟩ p = 0 := by
    unfold sres
    rw [h0, mul_zero, zero_mul]
  congr 1
  unfold dot
  refine Finset.sum_congr rfl fun i _ => ?_
  congr 1
  unfold flux
  simp only [if_true, hsr, zero_mul, add_zero]
  rfl

/-- C111, the part of the entropy viscosity that holds: for the velocity (1, 1) and no source it is negligible where the
equation holds.  Missing: other velocities, which the entropy residual leaves out (`C111_entropy_violated`). -/
theorem C111_entropy_partial (s : Setting K) (p : Pt K) (hv : p.vel 0 = 1 ∧ p.vel 1 = 1) (h0 : p.source = 0)
    (hs : Solves 2 p) (hC1 : 0 ≤ p.C1) (hC2 : 0 < p.C2) :
    evisc s p ≤ p.C1 * s.h ^ 2 / p.C2 * (1 / 10 ^ 12) := by
  have hr : p.ut + p.u * p.g 0 + p.u * p.g 1 = 0 := by
    unfold Solves at hs
    rw [dot_two, hv.1, hv.2, h0] at hs
    rw [← hs]
    ring
  have hnn : 0 ≤ p.C1 * s.h ^ 2 / p.C2 * (1 / 10 ^ 12) := by positivity
  have habs : |(1 : K) / 10 ^ 12 + 0| = 1 / 10 ^ 12 := by
    rw [add_zero, abs_of_nonneg (by positivity)]
  unfold evisc
  simp only [hr, mul_zero, habs]
  cases s.evisc
  · have hpos : ¬ ((1 : K) / 10 < 0) := by
      have : (0 : K) < 1 / 10 := by positivity
      exact not_lt.mpr this.le
    simp only [Bool.false_eq_true, if_false, if_neg hpos]
    exact hnn
  · simp only [if_true]
    have e : p.C1 * s.h * s.h * (1 / 10 ^ 12) / p.C2 = p.C1 * s.h ^ 2 / p.C2 * (1 / 10 ^ 12) := by ring
    rw [e]
    by_cases hl : 1 / 10 < p.C1 * s.h ^ 2 / p.C2 * (1 / 10 ^ 12)
    · rw [if_pos hl]
      exact hl.le
    · rw [if_neg hl]

/-- C111 (free stream): in two dimensions, if all sides of an element are "Neumann" and the quadrature rules satisfy the
divergence theorem for `v phi`, a uniform state at rest has zero residual. -/
theorem C111_uniform (sqrt : K → K) {ndof : Nat} {off : Nat → Nat} (hoff : Distinct ndof off) (h dt u : K)
    (neumann : Nat → Bool) (hN : neumann 0 = true) (pts : List (Pt K)) (sides : List (SidePt K))
    (hp : ∀ p : Pt K, p ∈ pts → p.u = u ∧ p.ut = 0 ∧ p.source = 0 ∧ p.g 0 = 0 ∧ p.g 1 = 0)
    (hq : ∀ q : SidePt K, q ∈ sides → q.u = u) {d : Nat} (hd : d < ndof)
    (hdiv : quad pts (fun p => p.wts * dot 2 p.vel (p.grad d)) =
      quad sides (fun q => q.wts * (dot 2 q.vel q.n * q.basis d))) :
    boundaryResidual 2 ndof off neumann sides
      (volumeResidual sqrt 2 ndof off ⟨false, false, h, dt⟩ pts (fun _ => 0)) (off d) = 0 := by
  have hc : (decide (2 = 2) && neumann 0) = true := by rw [hN]; rfl
  unfold boundaryResidual
  rw [if_pos hc, dofLoop_at hoff sides _ _ hd, C111_weak sqrt (by omega) (by omega) hoff h dt pts _ hd, zero_add]
  have e1 : quad pts (fun p => weak 2 (p.ut - p.source) (fun i => p.eps * p.g i - p.vel i * (p.u ^ 2 / 2)) p d) =
      -(u ^ 2 / 2) * quad pts (fun p => p.wts * dot 2 p.vel (p.grad d)) := by
    rw [quad_mul_left]
    refine quad_congr pts fun p hpp => ?_
    obtain ⟨a1, a2, a3, a4, a5⟩ := hp p hpp
    unfold weak
    rw [dot_two, dot_two, a1, a2, a3, a4, a5]
    ring
  have e2 : quad sides (fun q => [1 / 2 * q.u * q.u * q.wts * q.basis d * (q.vel 0 * q.n 0 + q.vel 1 * q.n 1)].sum) =
      u ^ 2 / 2 * quad sides (fun q => q.wts * (dot 2 q.vel q.n * q.basis d)) := by
    rw [quad_mul_left]
    refine quad_congr sides fun q hqq => ?_
    rw [List.sum_singleton, dot_two, hq q hqq]
    ring
  rw [e1, e2, hdiv]
  ring

/-! ## What does not hold -/

/-- C111: that the settings "use entropy viscosity" and "use SUPG" act is false in one and three dimensions: the residual
does not depend on them. -/
theorem C111_dimension_violated (sqrt : K → K) {dim : Nat} (hdim : dim ≠ 2) (ndof : Nat) (off : Nat → Nat) (s t : Setting K)
    (pts : List (Pt K)) (res : Nat → K) :
    volumeResidual sqrt dim ndof off s pts res = volumeResidual sqrt dim ndof off t pts res := by
  have : adds sqrt dim s = adds sqrt dim t := by
    funext p d
    unfold adds
    have hf : flux sqrt dim s p = flux sqrt dim t p := by
      funext i
      unfold flux
      rw [if_neg hdim, if_neg hdim]
    simp only [hf]
  unfold volumeResidual
  rw [this]

/-- C111: that a flux leaves through a "Neumann" side is false outside two dimensions, and in two dimensions when the
first variable of the block has another condition there. -/
theorem C111_side_violated (dim ndof : Nat) (off : Nat → Nat) (neumann : Nat → Bool)
    (h : dim ≠ 2 ∨ neumann 0 = false) (pts : List (SidePt K)) (res : Nat → K) :
    boundaryResidual dim ndof off neumann pts res = res := by
  unfold boundaryResidual
  rw [if_neg]
  rcases h with h | h <;> simp [h]

end

/-- [case] A point where `u_t + v·grad(u²/2) = 0` holds with the velocity (2, 0): `u = 1`, `u_x = 1`, `u_t = -2`. -/
def travelling : Pt ℚ :=
  { wts := 1, source := 0, eps := 0, vel := fun i => if i = 0 then 2 else 0, u := 1, ut := -2,
    g := fun i => if i = 0 then 1 else 0, basis := fun _ => 1 / 2, grad := fun d _ => if d = 0 then -1 else 1,
    C1 := 1, C2 := 1, sC := 1, sC1 := 1, sC2 := 1 }

/-- C111: that the entropy viscosity is negligible where the equation holds is false for a velocity other than (1, 1):
the entropy residual leaves the velocity out; the viscosity takes its largest value 1/10. -/
theorem C111_entropy_violated : Solves 2 travelling ∧ evisc ⟨true, false, 1, 1⟩ travelling = 1 / 10 := by
  constructor
  · unfold Solves
    rw [dot_two]
    norm_num [travelling]
  · decide +kernel

/-! ## Cases -/

example : Sums 2 2 travelling := by
  refine ⟨?_, fun i _ => ?_⟩ <;> norm_num [travelling, Finset.sum_range_succ]

example : HasCoefs 2 2 (fun d => if d = 0 then 1/2 else 3/2) { travelling with g := fun _ => 1 } := by
  refine ⟨?_, fun i _ => ?_⟩ <;> norm_num [travelling, Finset.sum_range_succ]

example : volumeResidual (fun x => x) 2 2 id ⟨true, true, 1, 1⟩ [{ travelling with eps := 3 }] (fun _ => 0) 1 = 11 / 10 := by
  decide +kernel

/-- [case] One basis function that is constant: the divergence theorem holds with opposite normals. -/
example : quad [{ travelling with grad := fun _ _ => 0 }] (fun p => p.wts * dot 2 p.vel (p.grad 0)) =
    quad [(⟨1, 1, fun _ => 2, fun i => if i = 0 then 1 else 0, fun _ => 1⟩ : SidePt ℚ),
      ⟨1, 1, fun _ => 2, fun i => if i = 0 then -1 else 0, fun _ => 1⟩] (fun q => q.wts * (dot 2 q.vel q.n * q.basis 0)) := by
  norm_num [quad, dot_two]

end MrHyDE.Modules.Burgers
