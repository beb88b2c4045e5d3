import Verif.Modules.NeoHookean
import Mathlib.Analysis.SpecialFunctions.Log.Deriv
import Mathlib.Analysis.SpecialFunctions.Trigonometric.Basic
import Mathlib.LinearAlgebra.Matrix.Adjugate
import Mathlib.Analysis.Calculus.Deriv.Pow
import Mathlib.Analysis.Calculus.Deriv.Inv
import Mathlib.Tactic.Linarith
import Mathlib.Tactic.LinearCombination

/-!
# Theorems about the neo-Hookean module (C145) and the stress measures (C146)
-/

set_option linter.unusedSectionVars false
set_option linter.unusedSimpArgs false

namespace MrHyDE.Modules.NeoHookean

open MrHyDE.Modules Matrix

/-! ## Lemmas -/

theorem F_apply (n : Nat) (g : Nat → Nat → ℝ) (i j : Fin n) : F n g i j = defo g i j := by
  unfold F defo mat
  by_cases h : i = j
  · subst h; simp
  · have h' : ¬ ((i : Nat) = (j : Nat)) := fun e => h (Fin.ext e)
    simp [h, h', Matrix.one_apply_ne h]

theorem det_one (g : Nat → Nat → ℝ) : (F 1 g).det = jac 1 (defo g) := by
  rw [Matrix.det_fin_one, F_apply]; simp [jac]

theorem det_two (g : Nat → Nat → ℝ) : (F 2 g).det = jac 2 (defo g) := by
  rw [Matrix.det_fin_two]; simp only [F_apply]; simp [jac]

theorem det_three (g : Nat → Nat → ℝ) : (F 3 g).det = jac 3 (defo g) := by
  rw [Matrix.det_fin_three]; simp only [F_apply]; simp [jac, cof3]; ring

/-- The Jacobian of the model is the determinant of the deformation gradient. -/
theorem jac_det {dim : Nat} (h1 : 1 ≤ dim) (h3 : dim ≤ 3) (g : Nat → Nat → ℝ) :
    jac dim (defo g) = (F dim g).det := by
  interval_cases dim
  · exact (det_one g).symm
  · exact (det_two g).symm
  · exact (det_three g).symm

theorem entry_three (lam mu : ℝ) (g : Nat → Nat → ℝ) (h : 0 < (F 3 g).det) :
    mat 3 (entry 3 lam mu g) = piola 3 lam mu (F 3 g) := by
  have hne : (F 3 g).det ≠ 0 := h.ne'
  ext i j
  unfold piola
  rw [Matrix.inv_def, Ring.inverse_eq_inv']
  simp only [mat, Matrix.of_apply, entry, Matrix.add_apply, Matrix.smul_apply, Matrix.transpose_apply, smul_eq_mul,
    adjugate_fin_three, coeff, ← jac_det (by decide : 1 ≤ 3) (by decide : 3 ≤ 3), F_apply]
  rw [← jac_det (by decide : 1 ≤ 3) (by decide : 3 ≤ 3)] at hne
  fin_cases i <;> fin_cases j <;> simp [cof3] <;> field_simp <;> ring

theorem entry_one (lam mu : ℝ) (g : Nat → Nat → ℝ) :
    mat 1 (entry 1 lam mu g) = piola 1 lam mu (F 1 g) := by
  ext i j
  unfold piola
  rw [Matrix.inv_def, Ring.inverse_eq_inv']
  have hi : i = 0 := Subsingleton.elim _ _
  have hj : j = 0 := Subsingleton.elim _ _
  subst hi; subst hj
  simp [mat, entry, det_one, F_apply, jac, div_eq_mul_inv]

/-! ## Stress -/

/-- C145, the part that holds of "the stress is `mu F + (lambda ln J - mu) F^{-T}`": in one and three dimensions,
for every displacement gradient with a positive volume ratio.  For the others no stress is computed in any
dimension.  Missing: two dimensions, see `C145_stress_2d` and `C145_rotation_violated`. -/
theorem C145_stress_partial {dim : Nat} (hd : dim = 1 ∨ dim = 3) (lam mu : ℝ) (g : Nat → Nat → ℝ) :
    (0 < (F dim g).det → ∃ s : Nat → Nat → ℝ, computeStress dim lam mu g = some s ∧
      mat dim s = piola dim lam mu (F dim g)) ∧
    ((F dim g).det ≤ 0 → computeStress dim lam mu g = none) := by
  have h1 : 1 ≤ dim := by omega
  have h3 : dim ≤ 3 := by omega
  unfold computeStress
  rw [jac_det h1 h3]
  refine ⟨fun h => ⟨_, if_pos h, ?_⟩, fun h => if_neg (not_lt.mpr h)⟩
  rcases hd with rfl | rfl
  · exact entry_one lam mu g
  · exact entry_three lam mu g h

/-- C145: in two dimensions the two shear entries are right exactly when the displacement gradient is symmetric or
`lambda ln J = mu`; the diagonal entries are always right. -/
theorem C145_stress_2d (lam mu : ℝ) (g : Nat → Nat → ℝ) (h : 0 < (F 2 g).det) :
    ∃ s : Nat → Nat → ℝ, computeStress 2 lam mu g = some s ∧
      (∀ i : Fin 2, mat 2 s i i = piola 2 lam mu (F 2 g) i i) ∧
      (mat 2 s = piola 2 lam mu (F 2 g) ↔ g 0 1 = g 1 0 ∨ lam * Real.log (F 2 g).det = mu) := by
  refine ⟨_, by rw [computeStress, jac_det (by decide) (by decide), if_pos h], ?_⟩
  have hne : jac 2 (defo g) ≠ 0 := by rw [jac_det (by decide) (by decide)]; exact h.ne'
  have hP : ∀ i j : Fin 2, piola 2 lam mu (F 2 g) i j = mu * defo g i j +
      coeff 2 lam mu (defo g) * (if i = j then defo g (1 - i : Nat) (1 - i : Nat) else - defo g j i) := by
    intro i j
    unfold piola
    rw [Matrix.inv_def, Ring.inverse_eq_inv']
    simp only [Matrix.add_apply, Matrix.smul_apply, Matrix.transpose_apply, smul_eq_mul,
      adjugate_fin_two, coeff, ← jac_det (by decide : 1 ≤ 2) (by decide : 2 ≤ 3), F_apply]
    fin_cases i <;> fin_cases j <;> simp <;> field_simp
  constructor
  · intro i
    rw [hP]
    fin_cases i <;> simp [mat, entry, cof2]
  · rw [← jac_det (by decide) (by decide)]
    have hc : coeff 2 lam mu (defo g) = 0 ↔ lam * Real.log (jac 2 (defo g)) = mu := by
      rw [coeff, div_eq_zero_iff, or_iff_left hne, sub_eq_zero]
    have h01 : defo g 0 1 = g 0 1 := by simp [defo]
    have h10 : defo g 1 0 = g 1 0 := by simp [defo]
    constructor
    · intro heq
      have e := congrFun (congrFun heq 0) 1
      rw [hP] at e
      simp only [mat, entry, cof2, Matrix.of_apply] at e
      simp [h01, h10] at e
      rcases e with e | e
      · exact Or.inl e
      · exact Or.inr (hc.mp e)
    · intro hor
      ext i j
      rw [hP]
      rcases hor with e | e
      · fin_cases i <;> fin_cases j <;> simp [mat, entry, cof2, h01, h10, e]
      · rw [hc.mpr e]
        simp [mat, entry, hc.mpr e]

/-- C145: an undeformed body is free of stress, in one, two and three dimensions. -/
theorem C145_reference {dim : Nat} (h1 : 1 ≤ dim) (h3 : dim ≤ 3) (lam mu : ℝ) {g : Nat → Nat → ℝ}
    (hg : ∀ i j : Nat, i < dim → j < dim → g i j = 0) :
    ∃ s : Nat → Nat → ℝ, computeStress dim lam mu g = some s ∧ ∀ i j : Nat, i < dim → j < dim → s i j = 0 := by
  have hF : F dim g = 1 := by
    unfold F mat
    ext i j
    simp [hg i j i.isLt j.isLt]
  refine ⟨_, by rw [computeStress, jac_det h1 h3, hF, Matrix.det_one, if_pos one_pos], ?_⟩
  interval_cases dim
  · intro i j hi hj
    simp [entry, jac, defo, hg 0 0]
  · intro i j hi hj
    have a := hg 0 0 (by decide) (by decide)
    have b := hg 0 1 (by decide) (by decide)
    have c := hg 1 0 (by decide) (by decide)
    have d := hg 1 1 (by decide) (by decide)
    interval_cases i <;> interval_cases j <;> simp [entry, coeff, cof2, jac, defo, a, b, c, d]
  · intro i j hi hj
    have e : ∀ i j : Nat, i < 3 → j < 3 → g i j = 0 := hg
    interval_cases i <;> interval_cases j <;>
      simp [entry, coeff, cof3, jac, defo, e 0 0, e 0 1, e 0 2, e 1 0, e 1 1, e 1 2, e 2 0, e 2 1, e 2 2]

/-- Rotating after deforming rotates the stress. -/
theorem piola_rotate {n : Nat} (lam mu : ℝ) {Q A : Matrix (Fin n) (Fin n) ℝ} (hQ : Rotation Q) :
    piola n lam mu (Q * A) = Q * piola n lam mu A := by
  unfold piola
  have hdet : (Q * A).det = A.det := by rw [Matrix.det_mul, hQ.2, one_mul]
  have hinv : Q⁻¹ = Q.transpose := Matrix.inv_eq_left_inv hQ.1
  rw [hdet, Matrix.mul_add, Matrix.mul_smul, Matrix.mul_smul, Matrix.mul_inv_rev, hinv, Matrix.transpose_mul,
    Matrix.transpose_transpose]

/-- C145, the part that holds of "a rotation of the deformed body rotates the stress and causes none": in one and
three dimensions, for every rotation and deformation.  Missing: two dimensions, see `C145_rotation_violated`. -/
theorem C145_frame_partial {dim : Nat} (hd : dim = 1 ∨ dim = 3) (lam mu : ℝ) {g g' : Nat → Nat → ℝ}
    {Q : Matrix (Fin dim) (Fin dim) ℝ} (hQ : Rotation Q) (hg : F dim g' = Q * F dim g) {s : Nat → Nat → ℝ}
    (hs : computeStress dim lam mu g = some s) :
    ∃ s' : Nat → Nat → ℝ, computeStress dim lam mu g' = some s' ∧ mat dim s' = Q * mat dim s := by
  have h0 : 0 < (F dim g).det := by
    by_contra hn
    rw [(C145_stress_partial hd lam mu g).2 (not_lt.mp hn)] at hs
    cases hs
  have h0' : 0 < (F dim g').det := by rw [hg, Matrix.det_mul, hQ.2, one_mul]; exact h0
  obtain ⟨t, ht, hv⟩ := (C145_stress_partial hd lam mu g).1 h0
  obtain ⟨t', ht', hv'⟩ := (C145_stress_partial hd lam mu g').1 h0'
  rw [hs] at ht
  cases ht
  exact ⟨t', ht', by rw [hv', hg, piola_rotate lam mu hQ, hv]⟩

/-- The displacement gradient of the rotation by the angle `a` in the plane.  [case] -/
noncomputable def turn (a : ℝ) (i j : Nat) : ℝ :=
  if i = 0 then if j = 0 then Real.cos a - 1 else - Real.sin a
  else if j = 0 then Real.sin a else Real.cos a - 1

/-- C145 is false in two dimensions: a rigid rotation by the angle `a` causes the shear stresses `-2 mu sin a` and
`2 mu sin a` (the off-diagonal entries of the cofactor matrix are exchanged), so a body that is only turned is not
in equilibrium. -/
theorem C145_rotation_violated (lam mu a : ℝ) :
    Rotation (F 2 (turn a)) ∧
    ∃ s : Nat → Nat → ℝ, computeStress 2 lam mu (turn a) = some s ∧
      s 0 0 = 0 ∧ s 0 1 = -2 * mu * Real.sin a ∧ s 1 0 = 2 * mu * Real.sin a ∧ s 1 1 = 0 := by
  have hsq := Real.sin_sq_add_cos_sq a
  have h00 : defo (turn a) 0 0 = Real.cos a := by simp [defo, turn]
  have h01 : defo (turn a) 0 1 = - Real.sin a := by simp [defo, turn]
  have h10 : defo (turn a) 1 0 = Real.sin a := by simp [defo, turn]
  have h11 : defo (turn a) 1 1 = Real.cos a := by simp [defo, turn]
  have hj : jac 2 (defo (turn a)) = 1 := by
    simp [jac, h00, h01, h10, h11]
    linarith [hsq]
  have hc : coeff 2 lam mu (defo (turn a)) = -mu := by simp [coeff, hj]
  refine ⟨⟨?_, by rw [det_two, hj]⟩, _, by rw [computeStress, hj, if_pos one_pos], ?_⟩
  · ext i j
    rw [Matrix.mul_apply, Fin.sum_univ_two]
    simp only [Matrix.transpose_apply, F_apply]
    fin_cases i <;> fin_cases j <;> simp [h00, h01, h10, h11]
    · linarith [hsq]
    · ring
    · ring
    · linarith [hsq]
  · simp [entry, cof2, hc, h00, h01, h10, h11]
    constructor <;> ring

/-! ## Energy -/

/-- The rotated cofactor matrix times a direction: the derivative of the determinant. -/
theorem det_line_three (A H : Matrix (Fin 3) (Fin 3) ℝ) (t : ℝ) :
    (A + t • H).det = A.det + t * (A.adjugate * H).trace + t ^ 2 * (H.adjugate * A).trace + t ^ 3 * H.det := by
  simp only [Matrix.det_fin_three, adjugate_fin_three, Matrix.trace, Matrix.diag, Matrix.mul_apply,
    Fin.sum_univ_three, Matrix.add_apply, Matrix.smul_apply, smul_eq_mul]
  simp
  ring

theorem hasDeriv_cubic (a b c d : ℝ) : HasDerivAt (fun t : ℝ => a + t * b + t ^ 2 * c + t ^ 3 * d) b 0 := by
  have h1 : HasDerivAt (fun t : ℝ => t * b) b 0 := by simpa using (hasDerivAt_id (0 : ℝ)).mul_const b
  have h2 : HasDerivAt (fun t : ℝ => t ^ 2 * c) 0 0 := by
    simpa using (hasDerivAt_pow 2 (0 : ℝ)).mul_const c
  have h3 : HasDerivAt (fun t : ℝ => t ^ 3 * d) 0 0 := by
    simpa using (hasDerivAt_pow 3 (0 : ℝ)).mul_const d
  exact (((h1.const_add a).add h2).add h3).congr_deriv (by ring)

theorem det_deriv {dim : Nat} (hd : dim = 1 ∨ dim = 3) (A H : Matrix (Fin dim) (Fin dim) ℝ) :
    HasDerivAt (fun t : ℝ => (A + t • H).det) (A.adjugate * H).trace 0 := by
  rcases hd with rfl | rfl
  · have h := hasDeriv_cubic (A 0 0) (H 0 0) 0 0
    have e : (A.adjugate * H).trace = H 0 0 := by
      simp [Matrix.trace, Matrix.mul_apply, Matrix.adjugate_fin_one]
    rw [e]
    refine h.congr_of_eventuallyEq (Filter.Eventually.of_forall fun t => ?_)
    simp
  · have h := hasDeriv_cubic A.det (A.adjugate * H).trace (H.adjugate * A).trace H.det
    exact h.congr_of_eventuallyEq (Filter.Eventually.of_forall fun t => det_line_three A H t)

theorem quad_line {n : Nat} (A H : Matrix (Fin n) (Fin n) ℝ) (t : ℝ) :
    ((A + t • H).transpose * (A + t • H)).trace =
      (A.transpose * A).trace + t * (2 * (A.transpose * H).trace) + t ^ 2 * (H.transpose * H).trace := by
  have hc : (H.transpose * A).trace = (A.transpose * H).trace := by
    rw [← Matrix.trace_transpose (H.transpose * A), Matrix.transpose_mul, Matrix.transpose_transpose]
  rw [Matrix.transpose_add, Matrix.transpose_smul]
  simp only [Matrix.add_mul, Matrix.mul_add, Matrix.smul_mul, Matrix.mul_smul, Matrix.trace_add, Matrix.trace_smul,
    smul_eq_mul, hc]
  ring

/-- The derivative of the stored energy is the documented stress. -/
theorem energy_deriv {dim : Nat} (hd : dim = 1 ∨ dim = 3) (lam mu : ℝ) {A : Matrix (Fin dim) (Fin dim) ℝ}
    (hA : 0 < A.det) (H : Matrix (Fin dim) (Fin dim) ℝ) :
    HasDerivAt (fun t : ℝ => energy dim lam mu (A + t • H)) ((piola dim lam mu A).transpose * H).trace 0 := by
  have h0 : (A + (0 : ℝ) • H) = A := by simp
  have hdet := det_deriv hd A H
  have hlog : HasDerivAt (fun t : ℝ => Real.log (A + t • H).det) ((A.adjugate * H).trace / A.det) 0 := by
    have := hdet.log (by rw [h0]; exact hA.ne')
    rwa [h0] at this
  have hq : HasDerivAt (fun t : ℝ => ((A + t • H).transpose * (A + t • H)).trace)
      (2 * (A.transpose * H).trace) 0 := by
    have := hasDeriv_cubic (A.transpose * A).trace (2 * (A.transpose * H).trace) (H.transpose * H).trace 0
    refine this.congr_of_eventuallyEq (Filter.Eventually.of_forall fun t => ?_)
    show ((A + t • H).transpose * (A + t • H)).trace = _
    rw [quad_line]
    ring
  have hsq := hlog.pow 2
  have hE := (((hq.sub_const 3).const_mul (mu / 2)).add (hsq.const_mul (lam / 2))).sub (hlog.const_mul mu)
  have e : (fun t : ℝ => energy dim lam mu (A + t • H)) = _ := rfl
  refine (hE.congr_deriv ?_).congr_of_eventuallyEq (Filter.Eventually.of_forall fun t => ?_)
  · rw [h0]
    unfold piola
    rw [Matrix.transpose_add, Matrix.transpose_smul, Matrix.transpose_smul, Matrix.transpose_transpose,
      Matrix.add_mul, Matrix.trace_add, Matrix.smul_mul, Matrix.smul_mul, Matrix.trace_smul, Matrix.trace_smul,
      Matrix.inv_def, Ring.inverse_eq_inv', Matrix.smul_mul, Matrix.trace_smul]
    simp only [smul_eq_mul]
    field_simp
    ring
  · rfl

theorem trace_transpose_mul {n : Nat} (s : Nat → Nat → ℝ) (H : Nat → Nat → ℝ) :
    ((mat n s).transpose * mat n H).trace = Elasticity.contract n s H := by
  unfold Elasticity.contract
  simp only [Matrix.trace, Matrix.diag, Matrix.mul_apply, Matrix.transpose_apply, mat, Matrix.of_apply,
    Finset.sum_range]
  rw [Finset.sum_comm]

theorem F_line (n : Nat) (g G : Nat → Nat → ℝ) (t : ℝ) :
    F n (fun i j => g i j + t * G i j) = F n g + t • mat n G := by
  ext i j
  simp [F, mat, add_assoc]

/-- C145, the part that holds of "the stress is the derivative of the stored energy": in one and three dimensions,
for every displacement gradient `g` for which a stress is computed and every direction `G`.  Missing: two
dimensions, see `C145_rotation_violated`. -/
theorem C145_energy_partial {dim : Nat} (hd : dim = 1 ∨ dim = 3) (lam mu : ℝ) {g s : Nat → Nat → ℝ}
    (hs : computeStress dim lam mu g = some s) (G : Nat → Nat → ℝ) :
    HasDerivAt (fun t : ℝ => energy dim lam mu (F dim (fun i j => g i j + t * G i j)))
      (Elasticity.contract dim s G) 0 := by
  have h0 : 0 < (F dim g).det := by
    by_contra hn
    rw [(C145_stress_partial hd lam mu g).2 (not_lt.mp hn)] at hs
    cases hs
  obtain ⟨t, ht, hv⟩ := (C145_stress_partial hd lam mu g).1 h0
  rw [hs] at ht
  cases ht
  rw [← trace_transpose_mul, hv]
  refine (energy_deriv hd lam mu h0 (mat dim G)).congr_of_eventuallyEq (Filter.Eventually.of_forall fun t => ?_)
  show energy dim lam mu (F dim fun i j => g i j + t * G i j) = _
  rw [F_line]

theorem hasDeriv_quad {P : Type} (pts : List P) {f : P → ℝ → ℝ} {f' : P → ℝ}
    (h : ∀ p : P, p ∈ pts → HasDerivAt (f p) (f' p) 0) :
    HasDerivAt (fun t => quad pts (fun p => f p t)) (quad pts f') 0 := by
  induction pts with
  | nil => simpa [quad] using hasDerivAt_const (0 : ℝ) (0 : ℝ)
  | cons p ps ih =>
    have h1 := h p List.mem_cons_self
    have h2 := ih (fun q hq => h q (List.mem_cons_of_mem _ hq))
    have h3 := h1.add h2
    simp only [quad, List.map_cons, List.sum_cons] at h3 ⊢
    exact h3

/-- The displacement at a point with the coefficients `V`.  [specification, no code] -/
def valueOf (ndof : Nat → Nat) (V : Nat → Nat → ℝ) (basis : Nat → Nat → ℝ) (i : Nat) : ℝ :=
  ∑ d ∈ Finset.range (ndof i), V i d * basis i d

/-- C145, the part that holds of "an equilibrium is a stationary point of the energy": in one and three dimensions
the volume residuals, weighted with the coefficients of any displacement `V`, are the derivative in the direction
`V` of the stored energy less the work of the sources.  The stress is the one the module computes at each point.
Missing: two dimensions, see `C145_rotation_violated`. -/
theorem C145_equilibrium_partial {dim : Nat} (hd : dim = 1 ∨ dim = 3) {ndof : Nat → Nat} {off : Nat → Nat → Nat}
    (hoff : DistinctAll dim ndof off) (pts : List (Elasticity.Pt ℝ × (Nat → Nat → ℝ)))
    (hs : ∀ q : Elasticity.Pt ℝ × (Nat → Nat → ℝ), q ∈ pts →
      computeStress dim q.1.lambda q.1.mu q.1.g = some q.2) (V : Nat → Nat → ℝ) :
    HasDerivAt (fun t : ℝ => quad pts (fun q => q.1.wts *
        (energy dim q.1.lambda q.1.mu (F dim (fun i j => q.1.g i j + t * Elasticity.gradOf ndof V q.1.grad i j))
          - t * ∑ i ∈ Finset.range dim, q.1.src i * valueOf ndof V q.1.basis i)))
      (∑ i ∈ Finset.range dim, ∑ d ∈ Finset.range (ndof i),
        V i d * volumeResidual dim ndof off pts (fun _ => 0) (off i d)) 0 := by
  have h1 : 1 ≤ dim := by omega
  have h3 : dim ≤ 3 := by omega
  have hterm : ∀ i : Nat, i ∈ Finset.range dim → ∑ d ∈ Finset.range (ndof i),
      V i d * volumeResidual dim ndof off pts (fun _ => 0) (off i d) =
      quad pts (fun q => q.1.wts * (∑ j ∈ Finset.range dim, q.2 i j * Elasticity.gradOf ndof V q.1.grad i j
        - q.1.src i * valueOf ndof V q.1.basis i)) := by
    intro i hi
    have hrow : ∑ d ∈ Finset.range (ndof i),
        V i d * volumeResidual dim ndof off pts (fun _ => 0) (off i d) =
        ∑ d ∈ Finset.range (ndof i), quad pts (fun q => V i d *
          (q.1.wts * (dot dim (q.2 i) (q.1.grad i d) - q.1.src i * q.1.basis i d))) :=
      Finset.sum_congr rfl (fun d hd' => by
        rw [volumeResidual, Elasticity.C101_volume h1 h3 hoff pts _ (Finset.mem_range.mp hi)
          (Finset.mem_range.mp hd'), zero_add, quad_mul_left])
    rw [hrow, quad_sum]
    refine quad_congr pts (fun q _ => ?_)
    simp only [dot, Elasticity.gradOf, valueOf, Finset.mul_sum, mul_sub, Finset.sum_sub_distrib]
    rw [Finset.sum_comm]
    congr 1
    · refine Finset.sum_congr rfl (fun j _ => Finset.sum_congr rfl (fun d _ => by ring))
    · refine Finset.sum_congr rfl (fun d _ => by ring)
  rw [Finset.sum_congr rfl hterm, quad_sum]
  refine hasDeriv_quad pts (fun q hq => ?_)
  have hE := C145_energy_partial hd q.1.lambda q.1.mu (hs q hq) (Elasticity.gradOf ndof V q.1.grad)
  have hW := (hasDerivAt_id (0 : ℝ)).mul_const (∑ i ∈ Finset.range dim, q.1.src i * valueOf ndof V q.1.basis i)
  refine ((hE.sub hW).const_mul q.1.wts).congr_deriv ?_
  rw [Elasticity.contract, ← Finset.mul_sum, Finset.sum_sub_distrib]
  ring

/-! ## Angular momentum -/

/-- C145, the part that holds of "the Cauchy stress is symmetric": in one and three dimensions the product of the
stress with the transposed deformation gradient is symmetric.  Missing: two dimensions, see
`C145_moment_violated`. -/
theorem C145_moment_partial {dim : Nat} (hd : dim = 1 ∨ dim = 3) (lam mu : ℝ) {g s : Nat → Nat → ℝ}
    (hs : computeStress dim lam mu g = some s) :
    (mat dim s * (F dim g).transpose).transpose = mat dim s * (F dim g).transpose := by
  have h0 : 0 < (F dim g).det := by
    by_contra hn
    rw [(C145_stress_partial hd lam mu g).2 (not_lt.mp hn)] at hs
    cases hs
  obtain ⟨t, ht, hv⟩ := (C145_stress_partial hd lam mu g).1 h0
  rw [hs] at ht
  cases ht
  have hu : IsUnit (F dim g).det := isUnit_iff_ne_zero.mpr h0.ne'
  have e : mat dim s * (F dim g).transpose =
      mu • (F dim g * (F dim g).transpose) + (lam * Real.log (F dim g).det - mu) • 1 := by
    rw [hv, piola, Matrix.add_mul, Matrix.smul_mul, Matrix.smul_mul, ← Matrix.transpose_mul,
      Matrix.mul_nonsing_inv _ hu, Matrix.transpose_one]
  rw [e]
  simp [Matrix.transpose_add, Matrix.transpose_smul, Matrix.transpose_mul]

/-- C145 is false in two dimensions: the stress exerts the moment `(lambda ln J - mu)/J (F10 - F01) (F00 + F11)` on
every point, so the Cauchy stress is not symmetric unless the displacement gradient is, `lambda ln J = mu` or
`F00 = - F11`. -/
theorem C145_moment_violated (lam mu : ℝ) {g s : Nat → Nat → ℝ} (hs : computeStress 2 lam mu g = some s) :
    (mat 2 s * (F 2 g).transpose) 0 1 - (mat 2 s * (F 2 g).transpose) 1 0 =
      coeff 2 lam mu (defo g) * (defo g 1 0 - defo g 0 1) * (defo g 0 0 + defo g 1 1) := by
  have hs' : s = entry 2 lam mu g := by
    unfold computeStress at hs
    split at hs
    · exact (Option.some.inj hs).symm
    · cases hs
  subst hs'
  simp only [Matrix.mul_apply, Fin.sum_univ_two, Matrix.transpose_apply, F_apply]
  simp [mat, entry, cof2]
  ring

/-! ## Small displacements -/

theorem coeff_deriv (lam mu : ℝ) {J : ℝ → ℝ} {j : ℝ} (hJ : HasDerivAt J j 0) (h0 : J 0 = 1) :
    HasDerivAt (fun t => (lam * Real.log (J t) - mu) / J t) ((lam + mu) * j) 0 := by
  have hl := hJ.log (by rw [h0]; exact one_ne_zero)
  have h := ((hl.const_mul lam).sub_const mu).div hJ (by rw [h0]; exact one_ne_zero)
  refine h.congr_deriv ?_
  simp only [h0, Real.log_one]
  ring

theorem cof3_line (G : Nat → Nat → ℝ) {i j : Nat} (hi : i < 3) (hj : j < 3) (t : ℝ) :
    cof3 (defo fun a b => t * G a b) i j =
      (if i = j then 1 else 0) + t * ((if i = j then G 0 0 + G 1 1 + G 2 2 else 0) - G j i)
        + t ^ 2 * cof3 G i j + t ^ 3 * 0 := by
  interval_cases i <;> interval_cases j <;> simp [cof3, defo] <;> ring

theorem jac3_line (G : Nat → Nat → ℝ) (t : ℝ) :
    jac 3 (defo fun a b => t * G a b) =
      1 + t * (G 0 0 + G 1 1 + G 2 2) + t ^ 2 * (cof3 G 0 0 + cof3 G 1 1 + cof3 G 2 2) + t ^ 3 * jac 3 G := by
  simp [jac, cof3, defo]; ring

/-- C145, the part that holds of "for small displacements the stress is that of linear elasticity": the derivative
of every entry along `t G` at `t = 0` is Hooke's law, in one and three dimensions for every `G`, in two dimensions
for a symmetric one.  Missing: see `C145_small_violated`. -/
theorem C145_small_partial {dim : Nat} (h1 : 1 ≤ dim) (h3 : dim ≤ 3) (lam mu : ℝ) (G : Nat → Nat → ℝ)
    (hG : dim = 2 → G 0 1 = G 1 0) {i j : Nat} (hi : i < dim) (hj : j < dim) :
    HasDerivAt (fun t : ℝ => entry dim lam mu (fun a b => t * G a b) i j)
      (Elasticity.hooke dim lam mu G i j) 0 := by
  have hdefo : ∀ a b : Nat, HasDerivAt (fun t : ℝ => defo (fun a b => t * G a b) a b) (G a b) 0 := by
    intro a b
    refine (hasDeriv_cubic (if a = b then 1 else 0) (G a b) 0 0).congr_of_eventuallyEq
      (Filter.Eventually.of_forall fun t => ?_)
    by_cases h : a = b <;> simp [defo, h]
  interval_cases dim
  · interval_cases i; interval_cases j
    have hJ := hdefo 0 0
    have hc := coeff_deriv lam mu hJ (by simp [defo])
    refine (((hJ.const_mul mu).add hc).congr_deriv ?_).congr_of_eventuallyEq
      (Filter.Eventually.of_forall fun t => ?_)
    · simp [Elasticity.hooke]; ring
    · simp [entry, jac]
  · have hJ : HasDerivAt (fun t : ℝ => jac 2 (defo fun a b => t * G a b)) (G 0 0 + G 1 1) 0 := by
      refine (hasDeriv_cubic 1 (G 0 0 + G 1 1) (jac 2 G) 0).congr_of_eventuallyEq
        (Filter.Eventually.of_forall fun t => ?_)
      simp [jac, defo]; ring
    have hc := coeff_deriv lam mu hJ (by simp [jac, defo])
    have hcof : HasDerivAt (fun t : ℝ => cof2 (defo fun a b => t * G a b) i j)
        ((if i = j then G 0 0 + G 1 1 else 0) - G j i) 0 := by
      refine (hasDeriv_cubic (if i = j then 1 else 0) ((if i = j then G 0 0 + G 1 1 else 0) - G j i) 0
        0).congr_of_eventuallyEq (Filter.Eventually.of_forall fun t => ?_)
      have := hG rfl
      interval_cases i <;> interval_cases j <;> simp [cof2, defo, this]
    refine ((((hdefo i j).const_mul mu).add (hc.mul hcof)).congr_deriv ?_).congr_of_eventuallyEq
      (Filter.Eventually.of_forall fun t => ?_)
    · interval_cases i <;> interval_cases j <;>
        simp [Elasticity.hooke, jac, defo, cof2, Finset.sum_range_succ] <;> ring
    · simp [entry, coeff]
  · have hJ : HasDerivAt (fun t : ℝ => jac 3 (defo fun a b => t * G a b)) (G 0 0 + G 1 1 + G 2 2) 0 :=
      (hasDeriv_cubic 1 (G 0 0 + G 1 1 + G 2 2) (cof3 G 0 0 + cof3 G 1 1 + cof3 G 2 2)
        (jac 3 G)).congr_of_eventuallyEq (Filter.Eventually.of_forall fun t => jac3_line G t)
    have hc := coeff_deriv lam mu hJ (by rw [jac3_line]; ring)
    have hcof : HasDerivAt (fun t : ℝ => cof3 (defo fun a b => t * G a b) i j)
        ((if i = j then G 0 0 + G 1 1 + G 2 2 else 0) - G j i) 0 :=
      (hasDeriv_cubic (if i = j then 1 else 0) ((if i = j then G 0 0 + G 1 1 + G 2 2 else 0) - G j i)
        (cof3 G i j) 0).congr_of_eventuallyEq (Filter.Eventually.of_forall fun t => cof3_line G hi hj t)
    refine ((((hdefo i j).const_mul mu).add (hc.mul hcof)).congr_deriv ?_).congr_of_eventuallyEq
      (Filter.Eventually.of_forall fun t => ?_)
    · have e0 : jac 3 (defo fun a b => (0 : ℝ) * G a b) = 1 := by rw [jac3_line]; ring
      have e1 : cof3 (defo fun a b => (0 : ℝ) * G a b) i j = if i = j then 1 else 0 := by
        rw [cof3_line G hi hj]; ring
      rw [e0, e1]
      by_cases h : i = j
      · subst h
        simp [Elasticity.hooke, Finset.sum_range_succ]
        ring
      · simp [Elasticity.hooke, h]
        ring
    · simp [entry, coeff]

/-- C145 is false for small displacements in two dimensions: the shear stress is `2 mu du/dy`, not
`mu (du/dy + dv/dx)`, so an infinitesimal rotation is resisted and a simple shear is twice too stiff in one entry
and not resisted in the other. -/
theorem C145_small_violated (lam mu : ℝ) (G : Nat → Nat → ℝ) :
    HasDerivAt (fun t : ℝ => entry 2 lam mu (fun a b => t * G a b) 0 1) (2 * mu * G 0 1) 0 ∧
    HasDerivAt (fun t : ℝ => entry 2 lam mu (fun a b => t * G a b) 1 0) (2 * mu * G 1 0) 0 := by
  have hJ : HasDerivAt (fun t : ℝ => jac 2 (defo fun a b => t * G a b)) (G 0 0 + G 1 1) 0 := by
    refine (hasDeriv_cubic 1 (G 0 0 + G 1 1) (jac 2 G) 0).congr_of_eventuallyEq
      (Filter.Eventually.of_forall fun t => ?_)
    simp [jac, defo]; ring
  have hc := coeff_deriv lam mu hJ (by simp [jac, defo])
  have hlin : ∀ x : ℝ, HasDerivAt (fun t : ℝ => t * x) x 0 := fun x => by
    simpa using (hasDerivAt_id (0 : ℝ)).mul_const x
  constructor
  · refine ((((hlin (G 0 1)).const_mul mu).add (hc.mul (hlin (- G 0 1)))).congr_deriv ?_).congr_of_eventuallyEq
      (Filter.Eventually.of_forall fun t => ?_)
    · simp [jac, defo]; ring
    · simp [entry, coeff, cof2, defo]
  · refine ((((hlin (G 1 0)).const_mul mu).add (hc.mul (hlin (- G 1 0)))).congr_deriv ?_).congr_of_eventuallyEq
      (Filter.Eventually.of_forall fun t => ?_)
    · simp [jac, defo]; ring
    · simp [entry, coeff, cof2, defo]

/-! ## Sides -/

theorem rowDot_eq {dim : Nat} (h1 : 1 ≤ dim) (h3 : dim ≤ 3) (s : Nat → Nat → ℝ) (n : Nat → ℝ) (i : Nat) :
    rowDot dim s n i = dot dim (s i) n := by
  interval_cases dim <;> simp [rowDot, dot_one, dot_two, dot_three]

/-- The integrand of the boundary terms of component `i`: minus the prescribed traction, or minus the traction of
the stress and a penalty on the difference to the prescribed displacement, or nothing.
[specification, no code] -/
noncomputable def sideIntegrand (dim i : Nat) (cond : Elasticity.Cond) (pen h : ℝ)
    (q : Elasticity.SidePt ℝ × (Nat → Nat → ℝ)) : ℝ :=
  match cond with
  | .neumann => - q.1.traction i
  | .weakDirichlet => - dot dim (q.2 i) q.1.n + pen * (q.1.lambda + 2 * q.1.mu) / h * (q.1.u i - q.1.given i)
  | .interface => - dot dim (q.2 i) q.1.n + pen * (q.1.lambda + 2 * q.1.mu) / h * (q.1.u i - q.1.aux i)
  | .dirichlet => 0

theorem sideAdds_sum {dim : Nat} (h1 : 1 ≤ dim) (h3 : dim ≤ 3) (i : Nat) (cond : Elasticity.Cond) (pen h : ℝ)
    (q : Elasticity.SidePt ℝ × (Nat → Nat → ℝ)) (d : Nat) :
    (sideAdds dim i cond pen h q d).sum = q.1.wts * (sideIntegrand dim i cond pen h q * q.1.basis i d) := by
  cases cond <;> simp [sideAdds, sideIntegrand, rowDot_eq h1 h3] <;> ring

theorem range_pick {n i : Nat} (hi : i < n) (f : Nat → ℝ) :
    ((List.range n).map (fun k => if k = i then f k else 0)).sum = f i := by
  have e : ((List.range n).map (fun k => if k = i then f k else 0)).sum =
      ∑ k ∈ Finset.range n, if k = i then f k else 0 := by
    rw [Finset.sum, Finset.range_val, ← Multiset.coe_range, Multiset.map_coe, Multiset.sum_coe]
  rw [e, Finset.sum_ite_eq']
  simp [hi]

/-- C145: on every side every component receives the quadrature of its own condition (traction, weakly imposed
displacement, interface, or nothing), whatever the conditions of the other components, in one, two and three
dimensions; entries of no component do not change. -/
theorem C145_side {dim : Nat} (h1 : 1 ≤ dim) (h3 : dim ≤ 3) {ndof : Nat → Nat} {off : Nat → Nat → Nat}
    (hoff : DistinctAll dim ndof off) (cs : Nat → Elasticity.Cond) (pen h : ℝ)
    (pts : List (Elasticity.SidePt ℝ × (Nat → Nat → ℝ))) (res : Nat → ℝ) :
    (∀ i d : Nat, i < dim → d < ndof i → boundaryResidual dim ndof off cs pen h pts res (off i d) =
      res (off i d) + quad pts (fun q => q.1.wts * (sideIntegrand dim i (cs i) pen h q * q.1.basis i d))) ∧
    (∀ k : Nat, (∀ i d : Nat, i < dim → d < ndof i → off i d ≠ k) →
      boundaryResidual dim ndof off cs pen h pts res k = res k) := by
  constructor
  · intro i d hi hd
    rw [boundaryResidual, runLoops_at hoff pts _ (by
      intro l hl
      obtain ⟨k, hk, rfl⟩ := List.mem_map.mp hl
      exact ⟨List.mem_range.mp hk, rfl⟩) res hi hd]
    congr 1
    refine quad_congr pts (fun q _ => ?_)
    rw [termsAt, List.map_map]
    have := range_pick hi (fun k => (sideAdds dim k (cs k) pen h q d).sum)
    rw [← sideAdds_sum h1 h3]
    exact this
  · intro k hk
    rw [boundaryResidual, runLoops_other]
    intro l hl d hd
    obtain ⟨i, hi, rfl⟩ := List.mem_map.mp hl
    exact hk i d (List.mem_range.mp hi) hd

/-- C145: the force reported to the coarse scale balances the residual of the interface: when the basis functions
of component `i` sum to one, the boundary residuals of that component sum to minus the integral of the flux. -/
theorem C145_flux_balance {dim : Nat} (h1 : 1 ≤ dim) (h3 : dim ≤ 3) {ndof : Nat → Nat} {off : Nat → Nat → Nat}
    (hoff : DistinctAll dim ndof off) (cs : Nat → Elasticity.Cond) (pen h : ℝ)
    (pts : List (Elasticity.SidePt ℝ × (Nat → Nat → ℝ))) {i : Nat} (hi : i < dim)
    (hc : cs i = .interface ∨ cs i = .weakDirichlet)
    (hone : ∀ q : Elasticity.SidePt ℝ × (Nat → Nat → ℝ), q ∈ pts → ∑ d ∈ Finset.range (ndof i), q.1.basis i d = 1)
    (fl : Elasticity.SidePt ℝ × (Nat → Nat → ℝ) → ℝ)
    (hfl : ∀ q : Elasticity.SidePt ℝ × (Nat → Nat → ℝ), q ∈ pts →
      ∃ old : ℝ, computeFlux dim i (cs i) pen h q old = some (fl q)) :
    ∑ d ∈ Finset.range (ndof i), boundaryResidual dim ndof off cs pen h pts (fun _ => 0) (off i d) =
      - quad pts (fun q => q.1.wts * fl q) := by
  have hrow : ∑ d ∈ Finset.range (ndof i), boundaryResidual dim ndof off cs pen h pts (fun _ => 0) (off i d) =
      ∑ d ∈ Finset.range (ndof i),
        quad pts (fun q => q.1.wts * (sideIntegrand dim i (cs i) pen h q * q.1.basis i d)) :=
    Finset.sum_congr rfl (fun d hd => by
      rw [(C145_side h1 h3 hoff cs pen h pts _).1 i d hi (Finset.mem_range.mp hd), zero_add])
  rw [hrow, quad_sum, ← quad_neg]
  refine quad_congr pts (fun q hq => ?_)
  obtain ⟨old, ho⟩ := hfl q hq
  rw [← Finset.mul_sum, ← Finset.mul_sum, hone q hq, mul_one, ← mul_neg]
  congr 1
  rcases hc with hc | hc <;>
  · rw [hc] at ho ⊢
    simp only [computeFlux, fluxSource, Option.some.injEq] at ho
    rw [← ho, rowDot_eq h1 h3]
    simp only [sideIntegrand]
    ring

/-- C145 is false for the flux of a component with a traction condition: in one and two dimensions an unassigned
view is read; in three dimensions the flux keeps the value of an earlier call. -/
theorem C145_flux_violated (i : Nat) (pen h : ℝ) (q : Elasticity.SidePt ℝ × (Nat → Nat → ℝ)) (old : ℝ) :
    computeFlux 1 i .neumann pen h q old = none ∧ computeFlux 2 i .neumann pen h q old = none ∧
    computeFlux 3 i .neumann pen h q old = some old := by
  simp [computeFlux, fluxSource]

/-! ## Cases -/

/-- A displacement gradient in space, [case]: stretch by 2 in the first direction and a shear. -/
def pull (i j : Nat) : ℝ := if i = 0 ∧ j = 0 then 1 else if i = 0 ∧ j = 1 then 3 else 0

example : 0 < (F 3 pull).det := by
  rw [det_three]; norm_num [jac, cof3, defo, pull]

example : 0 < (F 2 pull).det ∧ pull 0 1 ≠ pull 1 0 := by
  rw [det_two]; norm_num [jac, defo, pull]

example : ∃ s : Nat → Nat → ℝ, computeStress 3 1 2 pull = some s ∧ s 1 0 = - 3 * (Real.log 2 - 2) / 2 := by
  have hj : jac 3 (defo pull) = 2 := by norm_num [jac, cof3, defo, pull]
  refine ⟨_, by rw [computeStress, hj, if_pos two_pos], ?_⟩
  simp only [entry, coeff, hj]
  norm_num [cof3, defo, pull]
  ring

/-- In two dimensions the same deformation has no stress in the entry (1,0).  -/
example : ∃ s : Nat → Nat → ℝ, computeStress 2 1 2 pull = some s ∧ s 1 0 = 0 := by
  have hj : jac 2 (defo pull) = 2 := by norm_num [jac, defo, pull]
  refine ⟨_, by rw [computeStress, hj, if_pos two_pos], ?_⟩
  simp only [entry, coeff, hj]
  norm_num [cof2, defo, pull]

/-- No stress for a body turned inside out.  -/
example : computeStress 1 1 1 (fun _ _ => -2) = none := by
  rw [computeStress, if_neg]
  norm_num [jac, defo]

/-- A rotation in space (a cyclic exchange of the axes), [case]. -/
def cyc : Matrix (Fin 3) (Fin 3) ℝ := !![0, 0, 1; 1, 0, 0; 0, 1, 0]

example : Rotation cyc := by
  constructor
  · ext i j
    fin_cases i <;> fin_cases j <;> simp [cyc, Matrix.mul_apply, Fin.sum_univ_three]
  · simp [cyc, Matrix.det_fin_three]

example : DistinctAll 3 (fun _ => 8) (fun i d => 8 * i + d) := by
  intro i a j b hi hj ha hb h
  have ha' : a < 8 := ha
  have hb' : b < 8 := hb
  have h' : 8 * i + a = 8 * j + b := h
  constructor <;> omega

example : -2 * (1 / 2 : ℝ) * Real.sin (Real.pi / 2) = -1 := by
  rw [Real.sin_pi_div_two]; norm_num

/-- A point of a side, [case]. -/
noncomputable def sidePt : Elasticity.SidePt ℝ :=
  { wts := 2, basis := fun _ _ => 1, grad := fun _ _ _ => 0, lambda := 1, mu := 1 / 2, g := fun _ _ => 0, T := 0,
    pres := 0, src := fun _ => 0, n := fun j => if j = 0 then 1 else 0, u := fun _ => 3, traction := fun _ => 5,
    given := fun _ => 1, aux := fun _ => 2 }

example : boundaryResidual 1 (fun _ => 1) (fun i d => i + d) (fun _ => .weakDirichlet) 10 4
    [(sidePt, fun _ _ => 7)] (fun _ => 0) 0 = 6 := by
  have hoff : DistinctAll 1 (fun _ => 1) (fun i d => i + d) := by
    intro i a j b hi hj ha hb h
    have ha' : a < 1 := ha
    have hb' : b < 1 := hb
    omega
  have := (C145_side (by decide) (by decide) hoff (fun _ => .weakDirichlet) 10 4 [(sidePt, fun _ _ => 7)]
    (fun _ => 0)).1 0 0 (by decide) (by decide)
  norm_num [sideIntegrand, quad, sidePt, dot_one] at this
  exact this

example : computeFlux 1 0 .interface 10 4 (sidePt, fun _ _ => 7) 0 = some 2 := by
  norm_num [computeFlux, fluxSource, rowDot, sidePt]

end MrHyDE.Modules.NeoHookean
