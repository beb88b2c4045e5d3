import Verif.Modules.Loops
import Mathlib.Algebra.Field.Basic
import Mathlib.Algebra.Field.Rat
import Mathlib.Algebra.Order.Field.Basic
import Mathlib.Tactic.IntervalCases
import Mathlib.Tactic.Linarith
import Mathlib.Tactic.LinearCombination
import Mathlib.Tactic.NormNum

/-!
# The Hartmann flow module (C114)

`hartmann` solves `u'' + Ha b' = s` and `b'' + Ha u' = 0` on an interval.
-/

set_option linter.unusedSectionVars false

namespace MrHyDE.Modules.Hartmann

variable {K : Type}

/-! ## Model -/

/-- What `volumeResidual` reads at one integration point, src/physics/hartmann.cpp:48-66 and 86-91: the basis functions and
their derivatives, for `u` (0) and `b` (1). -/
structure Pt (K : Type) where
  wts : K
  ha : K
  src : K
  ux : K
  bx : K
  basis : Nat → Nat → K
  grad : Nat → Nat → K

/-- The addition to the equation of `u`, src/physics/hartmann.cpp:74-82. -/
def uAdds [Field K] (p : Pt K) (d : Nat) : List K :=
  let Fx := -p.ux * p.wts
  let F := (p.ha * p.bx - p.src) * p.wts
  [Fx * p.grad 0 d + F * p.basis 0 d]

/-- The addition to the equation of `b`, src/physics/hartmann.cpp:99-106. -/
def bAdds [Field K] (p : Pt K) (d : Nat) : List K :=
  let Fx := -p.bx * p.wts
  let F := p.ha * p.ux * p.wts
  [Fx * p.grad 1 d + F * p.basis 1 d]

/-- `volumeResidual` on one element, src/physics/hartmann.cpp:46-110. -/
def volumeResidual [Field K] (ndof : Nat → Nat) (off : Nat → Nat → Nat) (pts : List (Pt K)) (res : Nat → K) : Nat → K :=
  runLoops off pts [{ eq := 0, ndof := ndof 0, adds := uAdds }, { eq := 1, ndof := ndof 1, adds := bAdds }] res

/-- What `boundaryResidual` reads at one point of a side, src/physics/hartmann.cpp:124-135: the normal is read and not
used. -/
structure SidePt (K : Type) where
  wts : K
  nsource : K
  basis : Nat → K

/-- The condition set for `b` on the side; the test of it is commented out, src/physics/hartmann.cpp:141.
[specification, no code] -/
inductive Cond | none | Dirichlet | Neumann
  deriving DecidableEq

/-- `boundaryResidual` on one side of one element, src/physics/hartmann.cpp:115-158: the Neumann term is added whatever the
condition. -/
def boundaryResidual [Field K] (_cond : Cond) (ndof : Nat) (off : Nat → Nat → Nat) (pts : List (SidePt K)) (res : Nat → K) :
    Nat → K :=
  ptLoop ndof pts (off 1) (fun p d => [p.nsource * p.wts * p.basis d]) res

/-! ## Specification -/

/-- `u'' + Ha b' - s` tested with a function `phi`: `∫ (-u' phi' + (Ha b' - s) phi)`.  [specification, no code] -/
def uWeak [Field K] (p : Pt K) (phi phi' : K) : K := -(p.ux * phi') + (p.ha * p.bx - p.src) * phi

/-- `b'' + Ha u'` tested with a function `phi`.  [specification, no code] -/
def bWeak [Field K] (p : Pt K) (phi phi' : K) : K := -(p.bx * phi') + p.ha * p.ux * phi

/-- The values `u`, `b` of the fields at the points, and their derivatives, have the coefficients `U` and `B`.
[specification, no code] -/
def HasCoefs [Field K] (ndof : Nat → Nat) (U B : Nat → K) (u b : Pt K → K) (p : Pt K) : Prop :=
  u p = ∑ d ∈ Finset.range (ndof 0), U d * p.basis 0 d ∧ p.ux = ∑ d ∈ Finset.range (ndof 0), U d * p.grad 0 d ∧
  b p = ∑ d ∈ Finset.range (ndof 1), B d * p.basis 1 d ∧ p.bx = ∑ d ∈ Finset.range (ndof 1), B d * p.grad 1 d

/-- What the side of an element should add to the equation of `b`: the flux on a Neumann side only.
[specification, no code] -/
def sideTerm [Field K] (cond : Cond) (pts : List (SidePt K)) (d : Nat) : K :=
  if cond = Cond.Neumann then quad pts (fun p => p.wts * p.nsource * p.basis d) else 0

/-! ## Properties -/

section
variable [Field K]

/-- C114: both equations are the weak forms of Hartmann flow. -/
theorem C114_weak {ndof : Nat → Nat} {off : Nat → Nat → Nat} (hoff : DistinctAll 2 ndof off) (pts : List (Pt K))
    (res : Nat → K) (d : Nat) :
    (d < ndof 0 → volumeResidual ndof off pts res (off 0 d) =
      res (off 0 d) + quad pts (fun p => p.wts * uWeak p (p.basis 0 d) (p.grad 0 d))) ∧
    (d < ndof 1 → volumeResidual ndof off pts res (off 1 d) =
      res (off 1 d) + quad pts (fun p => p.wts * bWeak p (p.basis 1 d) (p.grad 1 d))) := by
  have hfit : Fits 2 ndof
      ([{ eq := 0, ndof := ndof 0, adds := uAdds }, { eq := 1, ndof := ndof 1, adds := bAdds }] :
        List (Loop K (Pt K))) := by
    intro l hl
    simp at hl
    rcases hl with rfl | rfl <;> exact ⟨by simp, rfl⟩
  unfold volumeResidual
  refine ⟨fun hd => ?_, fun hd => ?_⟩ <;>
  · rw [runLoops_at hoff pts _ hfit res (by omega) hd]
    refine congrArg _ (quad_congr pts fun p _ => ?_)
    simp [termsAt, uAdds, bAdds, uWeak, bWeak]
    ring

/-- C114 (energy): weighted with the coefficients the two equations give minus the two dissipations, the power of the source
and the magnetic coupling, which is `Ha (u b)'`. -/
theorem C114_energy {ndof : Nat → Nat} {off : Nat → Nat → Nat} (hoff : DistinctAll 2 ndof off) (pts : List (Pt K))
    (U B : Nat → K) (u b : Pt K → K) (hc : ∀ p : Pt K, p ∈ pts → HasCoefs ndof U B u b p) :
    (∑ d ∈ Finset.range (ndof 0), U d * volumeResidual ndof off pts (fun _ => 0) (off 0 d)) +
      ∑ d ∈ Finset.range (ndof 1), B d * volumeResidual ndof off pts (fun _ => 0) (off 1 d) =
    quad pts (fun p => p.wts * (-(p.ux ^ 2) - p.bx ^ 2 + p.ha * (p.bx * u p + p.ux * b p) - p.src * u p)) := by
  rw [Finset.sum_congr rfl fun d hd => congrArg (U d * ·)
      (((C114_weak hoff pts (fun _ => 0) d).1 (Finset.mem_range.mp hd)).trans (zero_add _)),
    Finset.sum_congr rfl fun d hd => congrArg (B d * ·)
      (((C114_weak hoff pts (fun _ => 0) d).2 (Finset.mem_range.mp hd)).trans (zero_add _))]
  simp only [quad_mul_left]
  rw [quad_sum, quad_sum, ← quad_add]
  refine quad_congr pts fun p hp => ?_
  obtain ⟨h1, h2, h3, h4⟩ := hc p hp
  have e1 : ∑ d ∈ Finset.range (ndof 0), U d * (p.wts * uWeak p (p.basis 0 d) (p.grad 0 d)) =
      p.wts * (-(p.ux * p.ux) + (p.ha * p.bx - p.src) * u p) := by
    conv_rhs => rw [h1]
    conv_rhs => rw [show p.ux * p.ux = p.ux * ∑ d ∈ Finset.range (ndof 0), U d * p.grad 0 d by rw [← h2]]
    rw [Finset.mul_sum, Finset.mul_sum, ← Finset.sum_neg_distrib, ← Finset.sum_add_distrib, Finset.mul_sum]
    refine Finset.sum_congr rfl fun d _ => ?_
    unfold uWeak
    ring
  have e2 : ∑ d ∈ Finset.range (ndof 1), B d * (p.wts * bWeak p (p.basis 1 d) (p.grad 1 d)) =
      p.wts * (-(p.bx * p.bx) + p.ha * p.ux * b p) := by
    conv_rhs => rw [h3]
    conv_rhs => rw [show p.bx * p.bx = p.bx * ∑ d ∈ Finset.range (ndof 1), B d * p.grad 1 d by rw [← h4]]
    rw [Finset.mul_sum, Finset.mul_sum, ← Finset.sum_neg_distrib, ← Finset.sum_add_distrib, Finset.mul_sum]
    refine Finset.sum_congr rfl fun d _ => ?_
    unfold bWeak
    ring
  rw [e1, e2]
  ring

/-- C114: on a Neumann side the given flux is added to the equation of `b`, and nothing else changes.  Missing: the other
conditions (`C114_side_violated`). -/
theorem C114_side_partial {ndof : Nat → Nat} {off : Nat → Nat → Nat} (hoff : DistinctAll 2 ndof off)
    (pts : List (SidePt K)) (res : Nat → K) :
    (∀ d : Nat, d < ndof 1 → boundaryResidual Cond.Neumann (ndof 1) off pts res (off 1 d) =
      res (off 1 d) + sideTerm Cond.Neumann pts d) ∧
    (∀ d : Nat, d < ndof 0 → boundaryResidual Cond.Neumann (ndof 1) off pts res (off 0 d) = res (off 0 d)) := by
  refine ⟨fun d hd => ?_, fun d hd => ?_⟩
  · have hdist : Distinct (ndof 1) (off 1) := fun a b ha hb h =>
      (hoff 1 a 1 b (by omega) (by omega) ha hb h).2
    unfold boundaryResidual
    rw [ptLoop_at hdist pts _ res hd]
    refine congrArg _ (quad_congr pts fun p _ => ?_)
    simp only [List.sum_cons, List.sum_nil]
    ring
  · unfold boundaryResidual
    exact ptLoop_other pts _ res fun a ha h => absurd (hoff 1 a 0 d (by omega) (by omega) ha hd h).1 (by omega)

/-- C114 (uniqueness): without a source, and for fields that vanish at the ends (so that the quadrature of `(u b)'` is
zero) with a constant Hartmann number, a zero residual means derivatives that are zero at every point with a positive
weight: the homogeneous problem has no other solution. -/
theorem C114_unique {F : Type} [Field F] [LinearOrder F] [IsStrictOrderedRing F] {ndof : Nat → Nat}
    {off : Nat → Nat → Nat} (hoff : DistinctAll 2 ndof off)
    (pts : List (Pt F)) (ha : F) (U B : Nat → F) (u b : Pt F → F)
    (hc : ∀ p : Pt F, p ∈ pts → HasCoefs ndof U B u b p ∧ p.ha = ha ∧ p.src = 0 ∧ 0 < p.wts)
    (hends : quad pts (fun p => p.wts * (p.bx * u p + p.ux * b p)) = 0)
    (h0 : ∀ d : Nat, (d < ndof 0 → volumeResidual ndof off pts (fun _ => 0) (off 0 d) = 0) ∧
      (d < ndof 1 → volumeResidual ndof off pts (fun _ => 0) (off 1 d) = 0)) :
    ∀ p : Pt F, p ∈ pts → p.ux = 0 ∧ p.bx = 0 := by
  have he := C114_energy hoff pts U B u b fun p hp => (hc p hp).1
  rw [Finset.sum_eq_zero fun d hd => by rw [(h0 d).1 (Finset.mem_range.mp hd), mul_zero],
    Finset.sum_eq_zero fun d hd => by rw [(h0 d).2 (Finset.mem_range.mp hd), mul_zero]] at he
  have hsplit : quad pts (fun p => p.wts * (-(p.ux ^ 2) - p.bx ^ 2 + p.ha * (p.bx * u p + p.ux * b p) - p.src * u p)) =
      -(quad pts (fun p => p.wts * (p.ux ^ 2 + p.bx ^ 2))) +
        ha * quad pts (fun p => p.wts * (p.bx * u p + p.ux * b p)) := by
    rw [quad_mul_left, ← quad_neg, ← quad_add]
    refine quad_congr pts fun p hp => ?_
    obtain ⟨_, h1, h2, _⟩ := hc p hp
    rw [h1, h2]
    ring
  rw [hsplit, hends] at he
  have hq : quad pts (fun p => p.wts * (p.ux ^ 2 + p.bx ^ 2)) = 0 := by linarith
  clear he hsplit hends h0
  induction pts with
  | nil => intro p hp; simp at hp
  | cons a ps ih =>
    have hsum : quad (a :: ps) (fun p => p.wts * (p.ux ^ 2 + p.bx ^ 2)) =
        a.wts * (a.ux ^ 2 + a.bx ^ 2) + quad ps (fun p => p.wts * (p.ux ^ 2 + p.bx ^ 2)) := by
      simp [quad]
    have hnn : ∀ qs : List (Pt F), (∀ q : Pt F, q ∈ qs → 0 < q.wts) →
        0 ≤ quad qs (fun p => p.wts * (p.ux ^ 2 + p.bx ^ 2)) := by
      intro qs hqs
      induction qs with
      | nil => simp [quad]
      | cons q qs ihq =>
        have : quad (q :: qs) (fun p => p.wts * (p.ux ^ 2 + p.bx ^ 2)) =
            q.wts * (q.ux ^ 2 + q.bx ^ 2) + quad qs (fun p => p.wts * (p.ux ^ 2 + p.bx ^ 2)) := by
          simp [quad]
        rw [this]
        have h1 := hqs q List.mem_cons_self
        have h2 := ihq fun r hr => hqs r (List.mem_cons_of_mem _ hr)
        have h3 : 0 ≤ q.wts * (q.ux ^ 2 + q.bx ^ 2) :=
          mul_nonneg h1.le (add_nonneg (sq_nonneg _) (sq_nonneg _))
        exact add_nonneg h3 h2
    have hw := (hc a List.mem_cons_self).2.2.2
    have hrest := hnn ps fun q hq => (hc q (List.mem_cons_of_mem _ hq)).2.2.2
    have ha' : 0 ≤ a.wts * (a.ux ^ 2 + a.bx ^ 2) :=
      mul_nonneg hw.le (add_nonneg (sq_nonneg _) (sq_nonneg _))
    rw [hsum] at hq
    have hz : a.wts * (a.ux ^ 2 + a.bx ^ 2) = 0 := by linarith
    have hr : quad ps (fun p => p.wts * (p.ux ^ 2 + p.bx ^ 2)) = 0 := by linarith
    intro p hp
    rcases List.mem_cons.mp hp with rfl | hp
    · have hs := (mul_eq_zero.mp hz).resolve_left hw.ne'
      have h1 := sq_nonneg p.ux
      have h2 := sq_nonneg p.bx
      exact ⟨pow_eq_zero_iff (two_ne_zero) |>.mp (by linarith), pow_eq_zero_iff (two_ne_zero) |>.mp (by linarith)⟩
    · exact ih (fun q hq => hc q (List.mem_cons_of_mem _ hq)) hr p hp

end

/-- C114: that a side without a Neumann condition leaves the equation of `b` to the other conditions is false: the test of
the condition is commented out, and the term is added there too. -/
theorem C114_side_violated : ∃ (c : Cond) (pts : List (SidePt ℚ)) (off : Nat → Nat → Nat),
    DistinctAll 2 (fun _ => 1) off ∧
    boundaryResidual c 1 off pts (fun _ => 0) (off 1 0) ≠ sideTerm c pts 0 := by
  refine ⟨Cond.none, [{ wts := 1, nsource := 2, basis := fun _ => 1 }], fun e _ => e, ?_, by decide +kernel⟩
  intro i a j b _ _ ha hb h
  simp only at ha hb h
  omega

/-! ## Cases -/

/-- [case] A point with every field non-zero. -/
def busy : Pt ℚ :=
  { wts := 1, ha := 3, src := 2, ux := 1, bx := 2, basis := fun _ _ => 1 / 2, grad := fun _ d => if d = 0 then -1 else 1 }

example : HasCoefs (fun _ => 2) (fun d => if d = 0 then 1 else 2) (fun d => if d = 0 then 1 else 3)
    (fun _ => 3 / 2) (fun _ => 2) busy := by
  refine ⟨?_, ?_, ?_, ?_⟩ <;> norm_num [busy, Finset.sum_range_succ]

example : volumeResidual (fun _ => 2) (fun e d => 2 * e + d) [busy] (fun _ => 0) 1 = 1 ∧
    volumeResidual (fun _ => 2) (fun e d => 2 * e + d) [busy] (fun _ => 0) 2 = 7 / 2 := by decide +kernel

/-- [case] A point of constant fields: the hypotheses of `C114_unique` hold with non-zero coefficients. -/
def flat : Pt ℚ :=
  { wts := 2, ha := 3, src := 0, ux := 0, bx := 0, basis := fun _ _ => 1 / 2, grad := fun _ d => if d = 0 then -1 else 1 }

example : HasCoefs (fun _ => 2) (fun _ => 4) (fun _ => 1) (fun _ => 4) (fun _ => 1) flat ∧
    quad [flat] (fun p => p.wts * (p.bx * 4 + p.ux * 1)) = 0 ∧
    volumeResidual (fun _ => 2) (fun e d => 2 * e + d) [flat] (fun _ => 0) 1 = 0 := by
  refine ⟨⟨?_, ?_, ?_, ?_⟩, by simp [quad, flat], by decide +kernel⟩ <;> norm_num [flat, Finset.sum_range_succ]

end MrHyDE.Modules.Hartmann
