import Verif.Modules.NeoHookeanProps

/-!
# Theorems about the stress measures written to the output (C146)
-/

set_option linter.unusedSectionVars false
set_option linter.unusedSimpArgs false

namespace MrHyDE.Modules.NeoHookean

open MrHyDE.Modules Matrix

/-- The stress of a problem in `dim` dimensions as a stress in space when nothing acts out of the plane (line).
[specification, no code] -/
def space (dim : Nat) (s : Nat → Nat → ℝ) : Matrix (Fin 3) (Fin 3) ℝ :=
  Matrix.of fun i j => if (i : Nat) < dim ∧ (j : Nat) < dim then s i j else 0

/-- A symmetric stress.  [specification, no code] -/
def Sym (dim : Nat) (s : Nat → Nat → ℝ) : Prop := ∀ i j : Nat, i < dim → j < dim → s i j = s j i

theorem mises_sq (S : Matrix (Fin 3) (Fin 3) ℝ) :
    3 / 2 * ((deviator S).transpose * deviator S).trace =
      3 / 2 * (S.transpose * S).trace - 1 / 2 * S.trace ^ 2 := by
  simp only [deviator, Matrix.trace, Matrix.diag, Matrix.mul_apply, Matrix.transpose_apply, Matrix.sub_apply,
    Matrix.smul_apply, Fin.sum_univ_three, smul_eq_mul]
  simp
  ring

/-- C146, the part that holds of "VM stress is the von Mises stress": it is that of the computed stress completed
with zeros, in one, two and three dimensions, for every symmetric stress.  Missing: the stress out of the plane in
plane strain, see `C146_plane_violated`. -/
theorem C146_mises_partial {dim : Nat} (h1 : 1 ≤ dim) (h3 : dim ≤ 3) {s : Nat → Nat → ℝ} (hs : Sym dim s) :
    vonMises dim s = mises (space dim s) := by
  unfold mises
  rw [mises_sq]
  interval_cases dim
  · simp only [vonMises, if_true]
    congr 1
    simp [space, Matrix.trace, Matrix.mul_apply, Fin.sum_univ_three]
    ring
  · have h := hs 1 0 (by decide) (by decide)
    simp only [vonMises, if_true, if_neg (by decide : ¬ (2 = 1))]
    congr 1
    simp [space, Matrix.trace, Matrix.mul_apply, Fin.sum_univ_three, h]
    ring
  · have a := hs 1 0 (by decide) (by decide)
    have b := hs 2 1 (by decide) (by decide)
    have c := hs 0 2 (by decide) (by decide)
    simp only [vonMises, if_neg (by decide : ¬ (3 = 1)), if_neg (by decide : ¬ (3 = 2))]
    congr 1
    simp [space, Matrix.trace, Matrix.mul_apply, Fin.sum_univ_three, a, b, c]
    ring

theorem space_three (s : Nat → Nat → ℝ) : space 3 s = mat 3 s := by
  ext i j
  simp [space, mat]

theorem mises_conj {S Q : Matrix (Fin 3) (Fin 3) ℝ} (hQ : Q.transpose * Q = 1) :
    mises (Q * S * Q.transpose) = mises S := by
  unfold mises
  rw [mises_sq, mises_sq]
  have h1 : (Q * S * Q.transpose).trace = S.trace := by
    rw [Matrix.trace_mul_comm, ← Matrix.mul_assoc, hQ, Matrix.one_mul]
  have h2 : ((Q * S * Q.transpose).transpose * (Q * S * Q.transpose)).trace = (S.transpose * S).trace := by
    have e : (Q * S * Q.transpose).transpose * (Q * S * Q.transpose) =
        Q * (S.transpose * S) * Q.transpose := by
      rw [Matrix.transpose_mul, Matrix.transpose_mul, Matrix.transpose_transpose]
      calc Q * (S.transpose * Q.transpose) * (Q * S * Q.transpose)
          = Q * S.transpose * (Q.transpose * Q) * S * Q.transpose := by simp only [Matrix.mul_assoc]
        _ = Q * (S.transpose * S) * Q.transpose := by rw [hQ, Matrix.mul_one]; simp only [Matrix.mul_assoc]
    rw [e, Matrix.trace_mul_comm, ← Matrix.mul_assoc, hQ, Matrix.one_mul]
  rw [h1, h2]

/-- C146: the von Mises stress reported in three dimensions does not depend on the axes: a symmetric stress written
in rotated (or reflected) axes has the same value. -/
theorem C146_invariant {s s' : Nat → Nat → ℝ} (hs : Sym 3 s) (hs' : Sym 3 s') {Q : Matrix (Fin 3) (Fin 3) ℝ}
    (hQ : Q.transpose * Q = 1) (h : mat 3 s' = Q * mat 3 s * Q.transpose) : vonMises 3 s' = vonMises 3 s := by
  rw [C146_mises_partial (by decide) (by decide) hs', C146_mises_partial (by decide) (by decide) hs, space_three,
    space_three, h, mises_conj hQ]

/-- C146: in three dimensions the von Mises stress vanishes exactly for a pressure. -/
theorem C146_pressure {s : Nat → Nat → ℝ} (hs : Sym 3 s) :
    vonMises 3 s = 0 ↔ ∃ p : ℝ, mat 3 s = p • (1 : Matrix (Fin 3) (Fin 3) ℝ) := by
  have a := hs 1 0 (by decide) (by decide)
  have b := hs 2 1 (by decide) (by decide)
  have c := hs 0 2 (by decide) (by decide)
  constructor
  · intro h
    simp only [vonMises, if_neg (by decide : ¬ (3 = 1)), if_neg (by decide : ¬ (3 = 2))] at h
    rw [Real.sqrt_eq_zero'] at h
    have e1 := mul_self_nonneg (s 0 0 - s 1 1)
    have e2 := mul_self_nonneg (s 1 1 - s 2 2)
    have e3 := mul_self_nonneg (s 2 2 - s 0 0)
    have e4 := mul_self_nonneg (s 0 1)
    have e5 := mul_self_nonneg (s 1 2)
    have e6 := mul_self_nonneg (s 2 0)
    have f1 : s 0 0 - s 1 1 = 0 := mul_self_eq_zero.mp (by linarith)
    have f2 : s 1 1 - s 2 2 = 0 := mul_self_eq_zero.mp (by linarith)
    have f4 : s 0 1 = 0 := mul_self_eq_zero.mp (by linarith)
    have f5 : s 1 2 = 0 := mul_self_eq_zero.mp (by linarith)
    have f6 : s 2 0 = 0 := mul_self_eq_zero.mp (by linarith)
    refine ⟨s 0 0, ?_⟩
    ext i j
    fin_cases i <;> fin_cases j <;> simp [mat, a, b, c, f4, f5, f6] <;> linarith
  · rintro ⟨p, hp⟩
    rw [C146_mises_partial (by decide) (by decide) hs, space_three, hp]
    unfold mises
    rw [mises_sq]
    have e : 3 / 2 * ((p • (1 : Matrix (Fin 3) (Fin 3) ℝ)).transpose * (p • (1 : Matrix (Fin 3) (Fin 3) ℝ))).trace
        - 1 / 2 * (p • (1 : Matrix (Fin 3) (Fin 3) ℝ)).trace ^ 2 = 0 := by
      simp [Matrix.trace, Matrix.mul_apply, Fin.sum_univ_three, Matrix.one_apply]
      ring
    rw [e, Real.sqrt_zero]

/-- C146 is false in plane strain (linear elasticity in two dimensions without the option for plane stress): the
stress out of the plane is left out.  The same deformation, stretched in one direction only, has the von Mises
stress `2 |mu|` when it is computed in three dimensions and another one in two dimensions whenever `lambda` and
`lambda + 2 mu` are positive; in one dimension it is `|lambda + 2 mu|`. -/
theorem C146_plane_violated {lam mu : ℝ} (hl : 0 < lam) (hm : 0 < lam + 2 * mu) :
    vonMises 3 (Elasticity.hooke 3 lam mu (fun i j => if i = 0 ∧ j = 0 then 1 else 0)) = 2 * |mu| ∧
    2 * |mu| < vonMises 2 (Elasticity.hooke 2 lam mu (fun i j => if i = 0 ∧ j = 0 then 1 else 0)) ∧
    vonMises 1 (Elasticity.hooke 1 lam mu (fun i j => if i = 0 ∧ j = 0 then 1 else 0)) = lam + 2 * mu := by
  have e2 : √(4 * mu ^ 2) = 2 * |mu| := by
    rw [show 4 * mu ^ 2 = (2 * mu) ^ 2 by ring, Real.sqrt_sq_eq_abs, abs_mul]; norm_num
  refine ⟨?_, ?_, ?_⟩
  · rw [← e2]
    simp only [vonMises, if_neg (by decide : ¬ (3 = 1)), if_neg (by decide : ¬ (3 = 2))]
    congr 1
    simp [Elasticity.hooke, Finset.sum_range_succ]
    ring
  · rw [← e2]
    simp only [vonMises, if_true, if_neg (by decide : ¬ (2 = 1))]
    refine Real.sqrt_lt_sqrt (by positivity) ?_
    simp [Elasticity.hooke, Finset.sum_range_succ]
    nlinarith [mul_pos hl hm]
  · simp only [vonMises, if_true]
    have : Elasticity.hooke 1 lam mu (fun i j => if i = 0 ∧ j = 0 then 1 else 0) 0 0 = lam + 2 * mu := by
      simp [Elasticity.hooke]
      ring
    rw [this, Real.sqrt_mul_self hm.le]

/-- C146, the part that holds of "MAG stress is the magnitude of the stress": it is the norm of the stress exactly
when the stress has no shear.  Missing: see `C146_shear_violated`. -/
theorem C146_magnitude_partial {dim : Nat} (h1 : 1 ≤ dim) (h3 : dim ≤ 3) (s : Nat → Nat → ℝ) :
    magnitude dim s = frob (mat dim s) ↔ ∀ i j : Nat, i < dim → j < dim → i ≠ j → s i j = 0 := by
  unfold frob
  interval_cases dim
  · simp only [magnitude, if_true]
    constructor
    · intro _ i j hi hj hij
      omega
    · intro _
      congr 1
      simp [mat, Matrix.trace, Matrix.mul_apply]
  · simp only [magnitude, if_true, if_neg (by decide : ¬ (2 = 1))]
    have e : ((mat 2 s).transpose * mat 2 s).trace =
        s 0 0 * s 0 0 + s 1 1 * s 1 1 + (s 0 1 * s 0 1 + s 1 0 * s 1 0) := by
      simp [mat, Matrix.trace, Matrix.mul_apply, Fin.sum_univ_two]
      ring
    rw [e]
    have q1 := mul_self_nonneg (s 0 0)
    have q2 := mul_self_nonneg (s 1 1)
    have q3 := mul_self_nonneg (s 0 1)
    have q4 := mul_self_nonneg (s 1 0)
    rw [Real.sqrt_inj (by linarith) (by linarith)]
    constructor
    · intro h i j hi hj hij
      have z1 : s 0 1 = 0 := mul_self_eq_zero.mp (by linarith)
      have z2 : s 1 0 = 0 := mul_self_eq_zero.mp (by linarith)
      interval_cases i <;> interval_cases j <;> first | exact absurd rfl hij | assumption
    · intro h
      rw [h 0 1 (by decide) (by decide) (by decide), h 1 0 (by decide) (by decide) (by decide)]
      ring
  · simp only [magnitude, if_neg (by decide : ¬ (3 = 1)), if_neg (by decide : ¬ (3 = 2))]
    have e : ((mat 3 s).transpose * mat 3 s).trace =
        s 0 0 * s 0 0 + s 1 1 * s 1 1 + s 2 2 * s 2 2 + (s 0 1 * s 0 1 + s 1 0 * s 1 0 + s 0 2 * s 0 2
          + s 2 0 * s 2 0 + s 1 2 * s 1 2 + s 2 1 * s 2 1) := by
      simp [mat, Matrix.trace, Matrix.mul_apply, Fin.sum_univ_three]
      ring
    rw [e]
    have q1 := mul_self_nonneg (s 0 0)
    have q2 := mul_self_nonneg (s 1 1)
    have q0 := mul_self_nonneg (s 2 2)
    have q3 := mul_self_nonneg (s 0 1)
    have q4 := mul_self_nonneg (s 1 0)
    have q5 := mul_self_nonneg (s 0 2)
    have q6 := mul_self_nonneg (s 2 0)
    have q7 := mul_self_nonneg (s 1 2)
    have q8 := mul_self_nonneg (s 2 1)
    rw [Real.sqrt_inj (by linarith) (by linarith)]
    constructor
    · intro h i j hi hj hij
      have z1 : s 0 1 = 0 := mul_self_eq_zero.mp (by linarith)
      have z2 : s 1 0 = 0 := mul_self_eq_zero.mp (by linarith)
      have z3 : s 0 2 = 0 := mul_self_eq_zero.mp (by linarith)
      have z4 : s 2 0 = 0 := mul_self_eq_zero.mp (by linarith)
      have z5 : s 1 2 = 0 := mul_self_eq_zero.mp (by linarith)
      have z6 : s 2 1 = 0 := mul_self_eq_zero.mp (by linarith)
      interval_cases i <;> interval_cases j <;> first | exact absurd rfl hij | assumption
    · intro h
      rw [h 0 1 (by decide) (by decide) (by decide), h 1 0 (by decide) (by decide) (by decide),
        h 0 2 (by decide) (by decide) (by decide), h 2 0 (by decide) (by decide) (by decide),
        h 1 2 (by decide) (by decide) (by decide), h 2 1 (by decide) (by decide) (by decide)]
      ring

/-- The shear stress `t` in the plane of the first two axes.  [case] -/
def shear (t : ℝ) (i j : Nat) : ℝ := if (i = 0 ∧ j = 1) ∨ (i = 1 ∧ j = 0) then t else 0

/-- The same stress in axes turned by 45 degrees: tension in one, compression in the other.  [case] -/
def tension (t : ℝ) (i j : Nat) : ℝ := if i = 0 ∧ j = 0 then t else if i = 1 ∧ j = 1 then -t else 0

/-- C146 is false for "MAG stress": a shear stress of any size has the magnitude zero, while the same stress written
in axes turned by 45 degrees has the magnitude `sqrt 2 |t|` (its "VM stress" is the same in both). -/
theorem C146_shear_violated (t : ℝ) :
    magnitude 2 (shear t) = 0 ∧ magnitude 3 (shear t) = 0 ∧
    magnitude 2 (tension t) = √2 * |t| ∧ magnitude 3 (tension t) = √2 * |t| ∧
    vonMises 2 (shear t) = vonMises 2 (tension t) ∧ vonMises 3 (shear t) = vonMises 3 (tension t) ∧
    (∃ Q : Matrix (Fin 2) (Fin 2) ℝ, Rotation Q ∧ mat 2 (tension t) = Q * mat 2 (shear t) * Q.transpose) := by
  have hs2 : √(2 : ℝ) * √2 = 2 := Real.mul_self_sqrt (by norm_num)
  have e : √(t * t + t * t) = √2 * |t| := by
    rw [show t * t + t * t = 2 * t ^ 2 by ring, Real.sqrt_mul (by norm_num), Real.sqrt_sq_eq_abs]
  refine ⟨?_, ?_, ?_, ?_, ?_, ?_, ?_⟩
  · simp [magnitude, shear]
  · simp [magnitude, shear]
  · simp [magnitude, tension, e]
  · simp [magnitude, tension, e]
  · simp only [vonMises, if_true, if_neg (by decide : ¬ (2 = 1))]
    congr 1
    simp [shear, tension]
    ring
  · simp only [vonMises, if_neg (by decide : ¬ (3 = 1)), if_neg (by decide : ¬ (3 = 2))]
    congr 1
    simp [shear, tension]
    ring
  · refine ⟨(√2 / 2) • !![1, 1; -1, 1], ⟨?_, ?_⟩, ?_⟩
    · ext i j
      fin_cases i <;> fin_cases j <;> simp [Matrix.mul_apply, Fin.sum_univ_two] <;>
        linear_combination (1 / 2) * hs2
    · rw [Matrix.det_fin_two]
      simp
      linear_combination (1 / 2) * hs2
    · have e1 : mat 2 (shear t) = !![0, t; t, 0] := by
        ext i j
        fin_cases i <;> fin_cases j <;> simp [mat, shear]
      have e2 : mat 2 (tension t) = !![t, 0; 0, -t] := by
        ext i j
        fin_cases i <;> fin_cases j <;> simp [mat, tension]
      rw [e1, e2]
      ext i j
      fin_cases i <;> fin_cases j <;> simp [Matrix.mul_apply, Fin.sum_univ_two]
      · linear_combination (-t / 2) * hs2
      · linear_combination (t / 2) * hs2

/-- C146: the two names come with two values, in this order, for every stress. -/
theorem C146_names (dim : Nat) (s : Nat → Nat → ℝ) :
    derivedNames.zip (derivedValues dim s) =
      [("VM stress", vonMises dim s), ("MAG stress", magnitude dim s)] ∧
    derivedNames.length = (derivedValues dim s).length := by
  simp [derivedNames, derivedValues]

/-! ## The neo-Hookean module -/

/-- C146, the part that holds of "the neo-Hookean module reports measures of the Cauchy stress `P F^T / J`": in one
and three dimensions.  Missing: two dimensions, see `C146_turn_violated`. -/
theorem C146_cauchy_partial {dim : Nat} (hd : dim = 1 ∨ dim = 3) (lam mu : ℝ) {g : Nat → Nat → ℝ}
    (h : 0 < (F dim g).det) :
    ∃ c : Nat → Nat → ℝ, cauchy dim lam mu g = some c ∧ Sym dim c ∧
      mat dim c = (F dim g).det⁻¹ • (piola dim lam mu (F dim g) * (F dim g).transpose) ∧
      derivedNH dim lam mu g = some [vonMises dim c, magnitude dim c] := by
  obtain ⟨P, hP, hv⟩ := (C145_stress_partial hd lam mu g).1 h
  have hsym := C145_moment_partial hd lam mu hP
  rw [← hv]
  refine ⟨_, by rw [cauchy, hP]; rfl, ?_, ?_, by rw [derivedNH, cauchy, hP]; rfl⟩
  · rcases hd with rfl | rfl
    · intro i j hi hj
      simp
    · intro i j hi hj
      simp only [if_neg (by decide : ¬ (3 = 1)), if_neg (by decide : ¬ (3 = 2))]
      rcases Nat.lt_trichotomy i j with e | e | e
      · rw [if_pos e.le, if_neg (not_le.mpr e)]
      · subst e; rfl
      · rw [if_neg (not_le.mpr e), if_pos e.le]
  · rcases hd with rfl | rfl
    · ext i j
      have hi : i = 0 := Subsingleton.elim _ _
      have hj : j = 0 := Subsingleton.elim _ _
      subst hi; subst hj
      rw [det_one]
      simp [mat, Matrix.mul_apply, F_apply, jac]
      ring
    · ext i j
      have hd3 : (F 3 g).det = defo g 0 0 * (defo g 1 1 * defo g 2 2 - defo g 1 2 * defo g 2 1)
          - defo g 0 1 * (defo g 1 0 * defo g 2 2 - defo g 1 2 * defo g 2 0)
          + defo g 0 2 * (defo g 1 0 * defo g 2 1 - defo g 1 1 * defo g 2 0) := by
        rw [det_three]; simp [jac, cof3]; ring
      have hs : ∀ a b : Fin 3, (mat 3 P * (F 3 g).transpose) a b =
          P a 0 * defo g b 0 + P a 1 * defo g b 1 + P a 2 * defo g b 2 := by
        intro a b
        simp only [Matrix.mul_apply, Fin.sum_univ_three, Matrix.transpose_apply, F_apply]
        simp [mat]
      have ht : ∀ a b : Fin 3, (mat 3 P * (F 3 g).transpose) a b = (mat 3 P * (F 3 g).transpose) b a := by
        intro a b
        have := congrFun (congrFun hsym b) a
        simpa [Matrix.transpose_apply] using this
      simp only [Matrix.smul_apply, smul_eq_mul, mat, Matrix.of_apply, if_neg (by decide : ¬ (3 = 1)),
        if_neg (by decide : ¬ (3 = 2)), one_div, ← hd3]
      by_cases hij : (i : Nat) ≤ (j : Nat)
      · rw [if_pos hij, ← hs i j]; rfl
      · rw [if_neg hij]
        have := hs j i
        rw [← this, ht j i]; rfl

/-- C146, the part that holds of "turning the deformed body leaves its von Mises stress alone": in three dimensions.
Missing: two dimensions, see `C146_turn_violated`. -/
theorem C146_frame_partial (lam mu : ℝ) {g g' : Nat → Nat → ℝ} {Q : Matrix (Fin 3) (Fin 3) ℝ} (hQ : Rotation Q)
    (hg : F 3 g' = Q * F 3 g) (h : 0 < (F 3 g).det) :
    ∃ c c' : Nat → Nat → ℝ, cauchy 3 lam mu g = some c ∧ cauchy 3 lam mu g' = some c' ∧
      mat 3 c' = Q * mat 3 c * Q.transpose ∧ vonMises 3 c' = vonMises 3 c := by
  have hdet : (F 3 g').det = (F 3 g).det := by rw [hg, Matrix.det_mul, hQ.2, one_mul]
  obtain ⟨c, hc, hsc, hvc, -⟩ := C146_cauchy_partial (Or.inr rfl) lam mu h
  obtain ⟨c', hc', hsc', hvc', -⟩ := C146_cauchy_partial (Or.inr rfl) lam mu (hdet ▸ h : 0 < (F 3 g').det)
  have e : mat 3 c' = Q * mat 3 c * Q.transpose := by
    rw [hvc', hvc, hdet, hg, piola_rotate lam mu hQ, Matrix.transpose_mul, Matrix.mul_smul, Matrix.smul_mul]
    simp only [Matrix.mul_assoc]
  exact ⟨c, c', hc, hc', e, C146_invariant hsc hsc' hQ.1 e⟩

/-- C146 is false for the neo-Hookean module in two dimensions: a body turned by the angle `a` without any
deformation is reported with the von Mises stress `2 |mu| sin^2 a`. -/
theorem C146_turn_violated (lam mu a : ℝ) :
    ∃ c : Nat → Nat → ℝ, cauchy 2 lam mu (turn a) = some c ∧ vonMises 2 c = 2 * |mu| * Real.sin a ^ 2 := by
  obtain ⟨-, s, hs, h00, h01, h10, h11⟩ := C145_rotation_violated lam mu a
  have hsq := Real.sin_sq_add_cos_sq a
  have f00 : defo (turn a) 0 0 = Real.cos a := by simp [defo, turn]
  have f01 : defo (turn a) 0 1 = - Real.sin a := by simp [defo, turn]
  have f10 : defo (turn a) 1 0 = Real.sin a := by simp [defo, turn]
  have f11 : defo (turn a) 1 1 = Real.cos a := by simp [defo, turn]
  have hj : jac 2 (defo (turn a)) = 1 := by
    simp [jac, f00, f01, f10, f11]
    linarith [hsq]
  refine ⟨_, by rw [cauchy, hs]; rfl, ?_⟩
  have e : √((2 * mu * Real.sin a ^ 2) ^ 2) = 2 * |mu| * Real.sin a ^ 2 := by
    rw [Real.sqrt_sq_eq_abs, abs_mul, abs_mul, abs_of_nonneg (sq_nonneg (Real.sin a))]
    norm_num
  rw [← e]
  simp only [vonMises, if_true, if_neg (by decide : ¬ (2 = 1))]
  congr 1
  simp [hj, h00, h01, h10, h11, f00, f01, f10, f11]
  ring

/-! ## Cases -/

example : Sym 3 (shear 2) := by
  intro i j hi hj
  interval_cases i <;> interval_cases j <;> simp [shear]

example : vonMises 3 (shear 2) = √12 := by
  simp only [vonMises]
  norm_num [shear]

example : (0 : ℝ) < 1 ∧ (0 : ℝ) < 1 + 2 * (1 / 2) := by norm_num

example : 0 < (F 1 (fun _ _ => (1 : ℝ))).det ∧ 0 < (F 3 pull).det := by
  rw [det_one, det_three]
  norm_num [jac, cof3, defo, pull]

/-- Two descriptions of one turned state for `C146_frame_partial`.  -/
example : ∃ g' : Nat → Nat → ℝ, F 3 g' = cyc * F 3 pull := by
  refine ⟨fun i j => if h : i < 3 ∧ j < 3 then (cyc * F 3 pull - 1) ⟨i, h.1⟩ ⟨j, h.2⟩ else 0, ?_⟩
  ext i j
  simp [F, mat, i.isLt, j.isLt]

end MrHyDE.Modules.NeoHookean
