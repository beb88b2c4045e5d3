import Verif.Modules.Euler
import Mathlib.Analysis.Calculus.Deriv.Inv
import Mathlib.Analysis.Calculus.Deriv.Mul
import Mathlib.Analysis.Calculus.Deriv.Add
import Mathlib.Algebra.BigOperators.Field
import Mathlib.LinearAlgebra.Matrix.NonsingularInverse
import Mathlib.Tactic.IntervalCases
import Mathlib.Tactic.Linarith
import Mathlib.Tactic.LinearCombination
import Mathlib.Tactic.FieldSimp
import Mathlib.Tactic.NormNum

/-!
# The Euler equations, hybridised (C125): derivative of the flux, form of the matrices
-/

set_option linter.unusedSectionVars false
set_option linter.unusedSimpArgs false
set_option linter.unusedTactic false
set_option linter.unreachableTactic false

namespace MrHyDE.Modules.Euler

variable {K : Type}

/-! ## Lemmas -/

section
variable [Field K]

theorem matVec_eq (n : Nat) (A : Nat → Nat → K) (x : Nat → K) (i : Nat) :
    matVec n A x i = ∑ j ∈ Finset.range n, A i j * x j := by
  unfold matVec
  induction n with
  | zero => simp
  | succ n ih => rw [List.range_succ, List.foldl_append, ih, Finset.sum_range_succ]; rfl

theorem pressure_eq [CharZero K] {dim : Nat} (hd : 1 ≤ dim ∧ dim ≤ 3) (gamma : K) {s : State K} (hr : s.rho ≠ 0) :
    pressure dim gamma s = idealPressure dim gamma s := by
  obtain ⟨h1, h3⟩ := hd
  have h2 : (2 : K) ≠ 0 := two_ne_zero
  unfold pressure idealPressure
  interval_cases dim <;>
    simp only [State.mom, Finset.sum_range_succ, Finset.sum_range_zero] <;> norm_num <;> field_simp <;> ring_nf <;> simp

end

/-! ## Derivative of the flux -/

/-- Derivative of the normal flux at a state in the direction `w` (order of the matrices), by velocity, kinetic energy and
total enthalpy.  [helper] -/
noncomputable def jac (dim : Nat) (gamma : ℝ) (nrm : Nat → ℝ) (s : State ℝ) (w : Nat → ℝ) : Law → ℝ := fun l =>
  let u := fun c => s.mom c / s.rho
  let un := ∑ d ∈ Finset.range dim, u d * nrm d
  let wn := ∑ d ∈ Finset.range dim, w (d + 1) * nrm d
  let ek := (∑ c ∈ Finset.range dim, u c ^ 2) / 2
  let dp := (gamma - 1) * (w (dim + 1) - ∑ c ∈ Finset.range dim, u c * w (c + 1) + ek * w 0)
  let H := (s.e + idealPressure dim gamma s) / s.rho
  match l with
  | .mass => wn
  | .momentum c => w (c + 1) * un + u c * wn - u c * un * w 0 + dp * nrm c
  | .energy => (w (dim + 1) + dp) * un + H * wn - H * un * w 0

theorem lin_deriv (a b : ℝ) : HasDerivAt (fun x : ℝ => a + x * b) b 0 := by
  simpa using ((hasDerivAt_id (0 : ℝ)).mul_const b).const_add a

theorem quot_deriv {f : ℝ → ℝ} {f' c d r s : ℝ} (hf : HasDerivAt f f' 0) (hr : r ≠ 0) :
    HasDerivAt (fun x : ℝ => f x * ((c + x * d) / (r + x * s)))
      (f' * (c / r) + f 0 * (d / r - c / r * (s / r))) 0 := by
  have h1 := (lin_deriv c d).div (lin_deriv r s) (by simpa using hr)
  have h2 := hf.mul h1
  refine h2.congr_deriv ?_
  simp only [Pi.div_apply, zero_mul, add_zero]
  field_simp

theorem mom_move {dim c : Nat} (hd : dim ≤ 3) (hc : c < dim) (s : State ℝ) (x : ℝ) (w : Nat → ℝ) :
    (s.move dim x w).mom c = s.mom c + x * w (c + 1) := by
  interval_cases dim <;> interval_cases c <;> simp [State.mom, State.move]

theorem pressure_deriv {dim : Nat} (hd : dim ≤ 3) (gamma : ℝ) {s : State ℝ} (hr : s.rho ≠ 0) (w : Nat → ℝ) :
    HasDerivAt (fun x : ℝ => idealPressure dim gamma (s.move dim x w))
      ((gamma - 1) * (w (dim + 1) - ∑ c ∈ Finset.range dim, s.mom c / s.rho * w (c + 1) +
        (∑ c ∈ Finset.range dim, (s.mom c / s.rho) ^ 2) / 2 * w 0)) 0 := by
  have hq : ∀ c : Nat, c ∈ Finset.range dim → HasDerivAt
      (fun x : ℝ => (s.mom c + x * w (c + 1)) * ((s.mom c + x * w (c + 1)) / (s.rho + x * w 0)))
      (w (c + 1) * (s.mom c / s.rho) + (s.mom c + 0 * w (c + 1)) *
        (w (c + 1) / s.rho - s.mom c / s.rho * (w 0 / s.rho))) 0 :=
    fun c _ => quot_deriv (lin_deriv _ _) hr
  have h := ((lin_deriv s.e (w (dim + 1))).sub ((HasDerivAt.fun_sum hq).const_mul (1 / 2))).const_mul (gamma - 1)
  have hf : (fun x : ℝ => idealPressure dim gamma (s.move dim x w)) = fun x : ℝ => (gamma - 1) *
      ((s.e + x * w (dim + 1)) - 1 / 2 * ∑ c ∈ Finset.range dim,
        (s.mom c + x * w (c + 1)) * ((s.mom c + x * w (c + 1)) / (s.rho + x * w 0))) := by
    funext x
    unfold idealPressure
    rw [Finset.sum_congr rfl fun c hc => by rw [mom_move hd (Finset.mem_range.mp hc)]]
    simp only [State.move]
    rw [Finset.mul_sum, Finset.sum_div]
    congr 2
    refine Finset.sum_congr rfl fun c _ => ?_
    rw [div_eq_mul_inv, div_eq_mul_inv, mul_inv]
    ring
  rw [hf]
  refine h.congr_deriv ?_
  congr 1
  rw [sub_add, Finset.mul_sum, Finset.sum_div, Finset.sum_mul, ← Finset.sum_sub_distrib]
  congr 1
  refine Finset.sum_congr rfl fun c _ => ?_
  field_simp
  ring

theorem flux_deriv {dim : Nat} (hd : dim ≤ 3) (gamma : ℝ) (nrm : Nat → ℝ) {s : State ℝ} (hr : s.rho ≠ 0)
    (w : Nat → ℝ) {l : Law} (hl : l.ok dim) :
    HasDerivAt (fun x : ℝ => normalFlux dim gamma nrm (s.move dim x w) l) (jac dim gamma nrm s w l) 0 := by
  have hp := pressure_deriv hd gamma hr w
  have h0 : s.move dim 0 w = s := by simp [State.move]
  cases l with
  | mass =>
    have h : HasDerivAt (fun x : ℝ => ∑ d ∈ Finset.range dim, (s.mom d + x * w (d + 1)) * nrm d)
        (∑ d ∈ Finset.range dim, w (d + 1) * nrm d) 0 :=
      HasDerivAt.fun_sum fun d _ => (lin_deriv _ _).mul_const _
    have hf : (fun x : ℝ => normalFlux dim gamma nrm (s.move dim x w) .mass) =
        fun x : ℝ => ∑ d ∈ Finset.range dim, (s.mom d + x * w (d + 1)) * nrm d := by
      funext x
      refine Finset.sum_congr rfl fun d hd' => ?_
      simp only [physFlux, mom_move hd (Finset.mem_range.mp hd')]
    rw [hf]
    exact h
  | momentum c =>
    have hc : c < dim := hl
    have h := HasDerivAt.fun_sum (u := Finset.range dim) fun d _ =>
      ((quot_deriv (c := s.mom d) (d := w (d + 1)) (s := w 0) (lin_deriv (s.mom c) (w (c + 1))) hr)).mul_const (nrm d)
    have h := h.add (hp.mul_const (nrm c))
    have hf : (fun x : ℝ => normalFlux dim gamma nrm (s.move dim x w) (.momentum c)) =
        fun x : ℝ => (∑ d ∈ Finset.range dim, (s.mom c + x * w (c + 1)) *
          ((s.mom d + x * w (d + 1)) / (s.rho + x * w 0)) * nrm d) +
          idealPressure dim gamma (s.move dim x w) * nrm c := by
      funext x
      have hsplit : ∀ d : Nat, d ∈ Finset.range dim →
          physFlux dim gamma (s.move dim x w) d (.momentum c) * nrm d =
            (s.mom c + x * w (c + 1)) * ((s.mom d + x * w (d + 1)) / (s.rho + x * w 0)) * nrm d +
              (if c = d then idealPressure dim gamma (s.move dim x w) * nrm d else 0) := by
        intro d hd'
        simp only [physFlux]
        rw [mom_move hd (Finset.mem_range.mp hd'), mom_move hd hc, add_mul, ite_mul, zero_mul]
        rfl
      unfold normalFlux
      rw [Finset.sum_congr rfl hsplit, Finset.sum_add_distrib, Finset.sum_ite_eq, if_pos (Finset.mem_range.mpr hc)]
    rw [hf]
    refine h.congr_deriv ?_
    simp only [jac]
    congr 1
    rw [Finset.mul_sum, Finset.mul_sum, ← Finset.sum_add_distrib, Finset.mul_sum, Finset.sum_mul,
      ← Finset.sum_sub_distrib]
    refine Finset.sum_congr rfl fun d _ => ?_
    field_simp
    ring
  | energy =>
    have h := HasDerivAt.fun_sum (u := Finset.range dim) fun d _ =>
      ((quot_deriv (c := s.mom d) (d := w (d + 1)) (s := w 0) ((lin_deriv s.e (w (dim + 1))).add hp) hr)).mul_const (nrm d)
    have hf : (fun x : ℝ => normalFlux dim gamma nrm (s.move dim x w) .energy) =
        fun x : ℝ => ∑ d ∈ Finset.range dim, ((fun x : ℝ => s.e + x * w (dim + 1)) +
          fun x : ℝ => idealPressure dim gamma (s.move dim x w)) x *
          ((s.mom d + x * w (d + 1)) / (s.rho + x * w 0)) * nrm d := by
      funext x
      refine Finset.sum_congr rfl fun d hd' => ?_
      simp only [physFlux, mom_move hd (Finset.mem_range.mp hd'), Pi.add_apply]
      rfl
    rw [hf]
    refine h.congr_deriv ?_
    simp only [jac, Pi.add_apply, h0, zero_mul, add_zero]
    rw [Finset.mul_sum, Finset.mul_sum, ← Finset.sum_add_distrib, Finset.mul_sum, Finset.sum_mul,
      ← Finset.sum_sub_distrib]
    refine Finset.sum_congr rfl fun d _ => ?_
    field_simp
    ring

/-! ## The eigendecomposition -/

theorem enthalpy {dim : Nat} {gamma a : ℝ} {s : State ℝ} (h : IsSound dim gamma a s) :
    (s.e + idealPressure dim gamma s) / s.rho =
      a ^ 2 / (gamma - 1) + (∑ c ∈ Finset.range dim, (s.mom c / s.rho) ^ 2) / 2 := by
  obtain ⟨hr, hg, hg1, ha, h⟩ := h
  have hg1' : gamma - 1 ≠ 0 := sub_ne_zero.mpr hg1
  rw [h]
  have hs : (∑ c ∈ Finset.range dim, (s.mom c / s.rho) ^ 2) / 2 =
      (∑ c ∈ Finset.range dim, s.mom c ^ 2) / (2 * s.rho) / s.rho := by
    simp only [div_pow]
    rw [← Finset.sum_div]
    field_simp
  rw [hs]
  unfold idealPressure
  field_simp
  ring

/-- Columns of `right`: two sound waves, the entropy wave and shear waves `t`.  [helper] -/
structure RightForm (dim : Nat) (g : Eig ℝ) (u n : Nat → ℝ) (a k : ℝ) (t : Nat → Nat → ℝ) : Prop where
  l0 : g.lam 0 = (∑ c ∈ Finset.range dim, u c * n c) - a
  l1 : g.lam 1 = ∑ c ∈ Finset.range dim, u c * n c
  l2 : g.lam 2 = (∑ c ∈ Finset.range dim, u c * n c) + a
  l3 : ∀ j : Nat, j + 3 < dim + 2 → g.lam (j + 3) = ∑ c ∈ Finset.range dim, u c * n c
  m0 : g.right 0 0 = 1
  m1 : g.right 0 1 = 1
  m2 : g.right 0 2 = 1
  m3 : ∀ j : Nat, j + 3 < dim + 2 → g.right 0 (j + 3) = 0
  c0 : ∀ c : Nat, c < dim → g.right (c + 1) 0 = u c - a * n c
  c1 : ∀ c : Nat, c < dim → g.right (c + 1) 1 = u c
  c2 : ∀ c : Nat, c < dim → g.right (c + 1) 2 = u c + a * n c
  c3 : ∀ j c : Nat, j + 3 < dim + 2 → c < dim → g.right (c + 1) (j + 3) = t j c
  e0 : g.right (dim + 1) 0 = k + (∑ c ∈ Finset.range dim, u c ^ 2) / 2 - (∑ c ∈ Finset.range dim, u c * n c) * a
  e1 : g.right (dim + 1) 1 = (∑ c ∈ Finset.range dim, u c ^ 2) / 2
  e2 : g.right (dim + 1) 2 = k + (∑ c ∈ Finset.range dim, u c ^ 2) / 2 + (∑ c ∈ Finset.range dim, u c * n c) * a
  e3 : ∀ j : Nat, j + 3 < dim + 2 → g.right (dim + 1) (j + 3) = ∑ c ∈ Finset.range dim, u c * t j c
  tan : ∀ j : Nat, j + 3 < dim + 2 → ∑ c ∈ Finset.range dim, t j c * n c = 0

/-- Rows of `left`, with `b` for the shear waves.  [helper] -/
structure LeftForm (dim : Nat) (g : Eig ℝ) (u n : Nat → ℝ) (a gm1 : ℝ) (t b : Nat → Nat → ℝ) : Prop where
  m0 : g.left 0 0 = 1 / (2 * a * a) * (gm1 * ((∑ c ∈ Finset.range dim, u c ^ 2) / 2) +
    a * ∑ c ∈ Finset.range dim, u c * n c)
  m1 : g.left 1 0 = 1 / (a * a) * (a * a - gm1 * ((∑ c ∈ Finset.range dim, u c ^ 2) / 2))
  m2 : g.left 2 0 = 1 / (2 * a * a) * (gm1 * ((∑ c ∈ Finset.range dim, u c ^ 2) / 2) -
    a * ∑ c ∈ Finset.range dim, u c * n c)
  m3 : ∀ j : Nat, j + 3 < dim + 2 → g.left (j + 3) 0 = -∑ c ∈ Finset.range dim, b j c * u c
  c0 : ∀ c : Nat, c < dim → g.left 0 (c + 1) = 1 / (2 * a * a) * (-gm1 * u c - a * n c)
  c1 : ∀ c : Nat, c < dim → g.left 1 (c + 1) = 1 / (a * a) * (gm1 * u c)
  c2 : ∀ c : Nat, c < dim → g.left 2 (c + 1) = 1 / (2 * a * a) * (-gm1 * u c + a * n c)
  c3 : ∀ j c : Nat, j + 3 < dim + 2 → c < dim → g.left (j + 3) (c + 1) = b j c
  e0 : g.left 0 (dim + 1) = 1 / (2 * a * a) * gm1
  e1 : g.left 1 (dim + 1) = 1 / (a * a) * -gm1
  e2 : g.left 2 (dim + 1) = 1 / (2 * a * a) * gm1
  e3 : ∀ j : Nat, j + 3 < dim + 2 → g.left (j + 3) (dim + 1) = 0
  full : ∀ (y : Nat → ℝ) (c : Nat), c < dim → n c * (∑ d ∈ Finset.range dim, n d * y d) +
    ∑ j ∈ Finset.range (dim - 1), t j c * (∑ d ∈ Finset.range dim, b j d * y d) = y c

/-- The derivative in a direction made of an entropy wave, a momentum change and an energy change. -/
theorem jac_form {dim : Nat} {gamma : ℝ} {nrm : Nat → ℝ} {s : State ℝ} {w : Nat → ℝ} {z κ : ℝ} {t : Nat → ℝ}
    (h0 : w 0 = z) (hc : ∀ c : Nat, c < dim → w (c + 1) = z * s.vel c + t c)
    (he : w (dim + 1) = z * ((∑ c ∈ Finset.range dim, s.vel c ^ 2) / 2) + (∑ c ∈ Finset.range dim, s.vel c * t c) + κ) :
    jac dim gamma nrm s w .mass =
      z * (∑ c ∈ Finset.range dim, s.vel c * nrm c) + (∑ c ∈ Finset.range dim, t c * nrm c) ∧
    (∀ c : Nat, c < dim → jac dim gamma nrm s w (.momentum c) =
      (z * s.vel c + t c) * (∑ c ∈ Finset.range dim, s.vel c * nrm c) +
        s.vel c * (∑ c ∈ Finset.range dim, t c * nrm c) + (gamma - 1) * κ * nrm c) ∧
    jac dim gamma nrm s w .energy =
      (z * ((∑ c ∈ Finset.range dim, s.vel c ^ 2) / 2) + (∑ c ∈ Finset.range dim, s.vel c * t c) + gamma * κ) *
        (∑ c ∈ Finset.range dim, s.vel c * nrm c) +
      (s.e + idealPressure dim gamma s) / s.rho * (∑ c ∈ Finset.range dim, t c * nrm c) := by
  have hwn : ∑ d ∈ Finset.range dim, w (d + 1) * nrm d =
      z * (∑ c ∈ Finset.range dim, s.vel c * nrm c) + ∑ c ∈ Finset.range dim, t c * nrm c := by
    rw [Finset.mul_sum, ← Finset.sum_add_distrib]
    refine Finset.sum_congr rfl fun c h => ?_
    rw [hc c (Finset.mem_range.mp h)]
    ring
  have huw : ∑ c ∈ Finset.range dim, s.mom c / s.rho * w (c + 1) =
      z * (∑ c ∈ Finset.range dim, s.vel c ^ 2) + ∑ c ∈ Finset.range dim, s.vel c * t c := by
    rw [Finset.mul_sum, ← Finset.sum_add_distrib]
    refine Finset.sum_congr rfl fun c h => ?_
    rw [hc c (Finset.mem_range.mp h)]
    simp only [State.vel]
    ring
  have hv : ∀ c : Nat, s.mom c / s.rho = s.vel c := fun _ => rfl
  refine ⟨?_, ?_, ?_⟩
  · simp only [jac]
    exact hwn
  · intro c h
    simp only [jac, huw, hwn, hc c h, h0, he]
    simp only [hv]
    ring
  · simp only [jac, huw, hwn, h0, he]
    simp only [hv]
    ring

/-- Every column is an eigenvector of the derivative of the normal flux. -/
theorem right_eigen {dim : Nat} {gamma a : ℝ} {s : State ℝ} (h : IsSound dim gamma a s) {nrm : Nat → ℝ}
    (hn : UnitNormal dim nrm) {g : Eig ℝ} {t : Nat → Nat → ℝ}
    (hR : RightForm dim g s.vel nrm a (a ^ 2 / (gamma - 1)) t) {i j : Nat} (hi : i < dim + 2) (hj : j < dim + 2) :
    jac dim gamma nrm s (fun k => g.right k j) (lawAt dim i) = g.lam j * g.right i j := by
  have hH := enthalpy h
  have hg : gamma - 1 ≠ 0 := sub_ne_zero.mpr h.2.2.1
  have hk : (gamma - 1) * (a ^ 2 / (gamma - 1)) = a ^ 2 := by field_simp
  have hk2 : gamma * (a ^ 2 / (gamma - 1)) = a ^ 2 + a ^ 2 / (gamma - 1) := by field_simp; ring
  have hH' : (s.e + idealPressure dim gamma s) / s.rho =
      a ^ 2 / (gamma - 1) + (∑ c ∈ Finset.range dim, s.vel c ^ 2) / 2 := hH
  have hnn : ∀ σ : ℝ, ∑ c ∈ Finset.range dim, σ * nrm c * nrm c = σ := by
    intro σ
    have : ∑ c ∈ Finset.range dim, σ * nrm c * nrm c = σ * ∑ c ∈ Finset.range dim, nrm c ^ 2 := by
      rw [Finset.mul_sum]
      exact Finset.sum_congr rfl fun c _ => by ring
    rw [this, hn, mul_one]
  have hun : ∀ σ : ℝ, ∑ c ∈ Finset.range dim, s.vel c * (σ * nrm c) =
      σ * ∑ c ∈ Finset.range dim, s.vel c * nrm c := by
    intro σ
    rw [Finset.mul_sum]
    exact Finset.sum_congr rfl fun c _ => by ring
  -- the wave with speed `un + σ` and energy `k + ek + σ un`
  have sound : ∀ (σ : ℝ) (j : Nat), σ ^ 2 = a ^ 2 → g.lam j = (∑ c ∈ Finset.range dim, s.vel c * nrm c) + σ →
      g.right 0 j = 1 → (∀ c : Nat, c < dim → g.right (c + 1) j = s.vel c + σ * nrm c) →
      g.right (dim + 1) j = a ^ 2 / (gamma - 1) + (∑ c ∈ Finset.range dim, s.vel c ^ 2) / 2 +
        (∑ c ∈ Finset.range dim, s.vel c * nrm c) * σ →
      jac dim gamma nrm s (fun k => g.right k j) (lawAt dim i) = g.lam j * g.right i j := by
    intro σ j hσ hl hm hc he
    obtain ⟨f1, f2, f3⟩ := jac_form (gamma := gamma) (nrm := nrm) (s := s) (w := fun k => g.right k j)
      (z := 1) (κ := a ^ 2 / (gamma - 1)) (t := fun c => σ * nrm c) hm (fun c h => by rw [hc c h]; ring)
      (by rw [he, hun]; ring)
    rw [hun, hnn] at f3
    simp only [hnn] at f1 f2
    rw [lawAt]
    by_cases h0 : i = 0
    · rw [if_pos h0, f1, h0, hl, hm]; ring
    · rw [if_neg h0]
      by_cases h1 : i = dim + 1
      · rw [if_pos h1, f3, h1, hl, he, hH', hk2]
        linear_combination (-(∑ c ∈ Finset.range dim, s.vel c * nrm c)) * hσ
      · rw [if_neg h1]
        obtain ⟨c, rfl⟩ : ∃ c, i = c + 1 := ⟨i - 1, by omega⟩
        rw [Nat.add_sub_cancel, f2 c (by omega), hk, hl, hc c (by omega)]
        linear_combination (-(nrm c)) * hσ
  -- the waves with speed `un`
  have still : ∀ (z : ℝ) (t : Nat → ℝ) (j : Nat), g.lam j = (∑ c ∈ Finset.range dim, s.vel c * nrm c) →
      g.right 0 j = z → (∀ c : Nat, c < dim → g.right (c + 1) j = z * s.vel c + t c) →
      g.right (dim + 1) j = z * ((∑ c ∈ Finset.range dim, s.vel c ^ 2) / 2) + (∑ c ∈ Finset.range dim, s.vel c * t c) →
      ∑ c ∈ Finset.range dim, t c * nrm c = 0 →
      jac dim gamma nrm s (fun k => g.right k j) (lawAt dim i) = g.lam j * g.right i j := by
    intro z t j hl hm hc he ht
    obtain ⟨f1, f2, f3⟩ := jac_form (gamma := gamma) (nrm := nrm) (s := s) (w := fun k => g.right k j)
      (z := z) (κ := 0) (t := t) hm hc (by rw [he]; ring)
    rw [ht] at f1 f3
    simp only [ht] at f2
    rw [lawAt]
    by_cases h0 : i = 0
    · rw [if_pos h0, f1, h0, hl, hm]; ring
    · rw [if_neg h0]
      by_cases h1 : i = dim + 1
      · rw [if_pos h1, f3, h1, hl, he]; ring
      · rw [if_neg h1]
        obtain ⟨c, rfl⟩ : ∃ c, i = c + 1 := ⟨i - 1, by omega⟩
        rw [Nat.add_sub_cancel, f2 c (by omega), hl, hc c (by omega)]
        ring
  match j, hj with
  | 0, _ =>
    exact sound (-a) 0 (by ring) (by rw [hR.l0]; ring) hR.m0 (fun c h => by rw [hR.c0 c h]; ring)
      (by rw [hR.e0]; ring)
  | 1, _ =>
    exact still 1 (fun _ => 0) 1 hR.l1 hR.m1 (fun c h => by rw [hR.c1 c h]; ring) (by rw [hR.e1]; simp) (by simp)
  | 2, _ => exact sound a 2 rfl hR.l2 hR.m2 hR.c2 hR.e2
  | j + 3, hj =>
    exact still 0 (t j) (j + 3) (hR.l3 j hj) (hR.m3 j hj) (fun c h => by rw [hR.c3 j c hj h]; ring)
      (by rw [hR.e3 j hj]; ring) (hR.tan j hj)

theorem sum_waves {dim : Nat} (hd : 1 ≤ dim) (f : Nat → ℝ) :
    ∑ j ∈ Finset.range (dim + 2), f j = f 0 + f 1 + f 2 + ∑ j ∈ Finset.range (dim - 1), f (j + 3) := by
  obtain ⟨m, rfl⟩ : ∃ m, dim = m + 1 := ⟨dim - 1, by omega⟩
  rw [show m + 1 + 2 = m + 1 + 1 + 1 from rfl, Finset.sum_range_succ', Finset.sum_range_succ', Finset.sum_range_succ',
    Nat.add_sub_cancel]
  ring

theorem sum_laws (dim : Nat) (f : Nat → ℝ) :
    ∑ k ∈ Finset.range (dim + 2), f k = f 0 + (∑ c ∈ Finset.range dim, f (c + 1)) + f (dim + 1) := by
  rw [show dim + 2 = (dim + 1) + 1 from rfl, Finset.sum_range_succ, Finset.sum_range_succ']
  ring

/-- The product of the two matrices is the identity. -/
theorem right_left {dim : Nat} (hd : 1 ≤ dim) {g : Eig ℝ} {u n : Nat → ℝ} {a gm1 : ℝ} (ha : a ≠ 0) (hg : gm1 ≠ 0)
    {t b : Nat → Nat → ℝ} (hR : RightForm dim g u n a (a ^ 2 / gm1) t) (hL : LeftForm dim g u n a gm1 t b)
    (w : Nat → ℝ) {i : Nat} (hi : i < dim + 2) :
    ∑ j ∈ Finset.range (dim + 2), g.right i j * ∑ k ∈ Finset.range (dim + 2), g.left j k * w k = w i := by
  obtain ⟨un, hun⟩ : ∃ x, x = ∑ c ∈ Finset.range dim, u c * n c := ⟨_, rfl⟩
  obtain ⟨ek, hek⟩ : ∃ x, x = (∑ c ∈ Finset.range dim, u c ^ 2) / 2 := ⟨_, rfl⟩
  obtain ⟨uw, huw⟩ : ∃ x, x = ∑ c ∈ Finset.range dim, u c * w (c + 1) := ⟨_, rfl⟩
  obtain ⟨nw, hnw⟩ : ∃ x, x = ∑ c ∈ Finset.range dim, n c * w (c + 1) := ⟨_, rfl⟩
  have a0 : ∑ k ∈ Finset.range (dim + 2), g.left 0 k * w k =
      1 / (2 * a * a) * (gm1 * (ek * w 0 - uw + w (dim + 1)) - a * (nw - un * w 0)) := by
    have hs : ∑ c ∈ Finset.range dim, g.left 0 (c + 1) * w (c + 1) = 1 / (2 * a * a) * (-gm1 * uw - a * nw) := by
      rw [huw, hnw, Finset.mul_sum, Finset.mul_sum, ← Finset.sum_sub_distrib, Finset.mul_sum]
      exact Finset.sum_congr rfl fun c h => by rw [hL.c0 c (Finset.mem_range.mp h)]; ring
    rw [sum_laws, hs, hL.m0, hL.e0, ← hek, ← hun]
    ring
  have a1 : ∑ k ∈ Finset.range (dim + 2), g.left 1 k * w k =
      w 0 - 1 / (a * a) * (gm1 * (ek * w 0 - uw + w (dim + 1))) := by
    have hs : ∑ c ∈ Finset.range dim, g.left 1 (c + 1) * w (c + 1) = 1 / (a * a) * (gm1 * uw) := by
      rw [huw, Finset.mul_sum, Finset.mul_sum]
      exact Finset.sum_congr rfl fun c h => by rw [hL.c1 c (Finset.mem_range.mp h)]; ring
    rw [sum_laws, hs, hL.m1, hL.e1, ← hek]
    field_simp
    ring
  have a2 : ∑ k ∈ Finset.range (dim + 2), g.left 2 k * w k =
      1 / (2 * a * a) * (gm1 * (ek * w 0 - uw + w (dim + 1)) + a * (nw - un * w 0)) := by
    have hs : ∑ c ∈ Finset.range dim, g.left 2 (c + 1) * w (c + 1) = 1 / (2 * a * a) * (-gm1 * uw + a * nw) := by
      rw [huw, hnw, Finset.mul_sum, Finset.mul_sum, ← Finset.sum_add_distrib, Finset.mul_sum]
      exact Finset.sum_congr rfl fun c h => by rw [hL.c2 c (Finset.mem_range.mp h)]; ring
    rw [sum_laws, hs, hL.m2, hL.e2, ← hek, ← hun]
    ring
  have a3 : ∀ j : Nat, j ∈ Finset.range (dim - 1) → ∑ k ∈ Finset.range (dim + 2), g.left (j + 3) k * w k =
      ∑ d ∈ Finset.range dim, b j d * (w (d + 1) - u d * w 0) := by
    intro j hj
    have hj' : j + 3 < dim + 2 := by have := Finset.mem_range.mp hj; omega
    have hs : ∑ c ∈ Finset.range dim, g.left (j + 3) (c + 1) * w (c + 1) =
        ∑ c ∈ Finset.range dim, b j c * w (c + 1) :=
      Finset.sum_congr rfl fun c h => by rw [hL.c3 j c hj' (Finset.mem_range.mp h)]
    rw [sum_laws, hs, hL.m3 j hj', hL.e3 j hj', zero_mul, add_zero, neg_mul, Finset.sum_mul, neg_add_eq_sub,
      ← Finset.sum_sub_distrib]
    exact Finset.sum_congr rfl fun c _ => by ring
  have hq : ∑ d ∈ Finset.range dim, n d * (w (d + 1) - u d * w 0) = nw - un * w 0 := by
    rw [hnw, hun, Finset.sum_mul, ← Finset.sum_sub_distrib]
    exact Finset.sum_congr rfl fun c _ => by ring
  have hfull : ∀ c : Nat, c < dim → n c * (nw - un * w 0) + ∑ j ∈ Finset.range (dim - 1), t j c *
      ∑ d ∈ Finset.range dim, b j d * (w (d + 1) - u d * w 0) = w (c + 1) - u c * w 0 := by
    intro c hc
    rw [← hL.full (fun d => w (d + 1) - u d * w 0) c hc, hq]
  rw [sum_waves hd, a0, a1, a2, Finset.sum_congr rfl fun j hj => by rw [a3 j hj]]
  by_cases h0 : i = 0
  · subst h0
    rw [hR.m0, hR.m1, hR.m2, Finset.sum_eq_zero fun j hj => by
      rw [hR.m3 j (by have := Finset.mem_range.mp hj; omega), zero_mul]]
    field_simp
    ring
  · by_cases h1 : i = dim + 1
    · subst h1
      have hs : ∑ j ∈ Finset.range (dim - 1), g.right (dim + 1) (j + 3) *
          ∑ d ∈ Finset.range dim, b j d * (w (d + 1) - u d * w 0) =
          uw - 2 * ek * w 0 - un * (nw - un * w 0) := by
        have e1 : ∀ j : Nat, j ∈ Finset.range (dim - 1) → g.right (dim + 1) (j + 3) *
            ∑ d ∈ Finset.range dim, b j d * (w (d + 1) - u d * w 0) =
            ∑ c ∈ Finset.range dim, u c * (t j c * ∑ d ∈ Finset.range dim, b j d * (w (d + 1) - u d * w 0)) := by
          intro j hj
          rw [hR.e3 j (by have := Finset.mem_range.mp hj; omega), Finset.sum_mul]
          exact Finset.sum_congr rfl fun c _ => by ring
        rw [Finset.sum_congr rfl e1, Finset.sum_comm]
        have e2 : ∀ c : Nat, c ∈ Finset.range dim → ∑ j ∈ Finset.range (dim - 1),
            u c * (t j c * ∑ d ∈ Finset.range dim, b j d * (w (d + 1) - u d * w 0)) =
            u c * w (c + 1) - u c ^ 2 * w 0 - u c * n c * (nw - un * w 0) := by
          intro c hc
          rw [← Finset.mul_sum]
          have := hfull c (Finset.mem_range.mp hc)
          linear_combination u c * this
        rw [Finset.sum_congr rfl e2, Finset.sum_sub_distrib, Finset.sum_sub_distrib, ← Finset.sum_mul, ← Finset.sum_mul,
          ← huw, ← hun, hek]
        ring
      rw [hs, hR.e0, hR.e1, hR.e2, ← hek, ← hun]
      field_simp
      ring
    · obtain ⟨c, rfl⟩ : ∃ c, i = c + 1 := ⟨i - 1, by omega⟩
      have hc : c < dim := by omega
      have hs : ∑ j ∈ Finset.range (dim - 1), g.right (c + 1) (j + 3) *
          ∑ d ∈ Finset.range dim, b j d * (w (d + 1) - u d * w 0) =
          w (c + 1) - u c * w 0 - n c * (nw - un * w 0) := by
        rw [← hfull c hc, add_sub_cancel_left]
        exact Finset.sum_congr rfl fun j hj => by
          rw [hR.c3 j c (by have := Finset.mem_range.mp hj; omega) hc]
      rw [hs, hR.c0 c hc, hR.c1 c hc, hR.c2 c hc]
      field_simp
      ring

/-! ### The matrices of the code have these forms -/

theorem eig2_right {s : State ℝ} {nrm : Nat → ℝ} {a gamma : ℝ} :
    RightForm 2 (eig2 s.mx s.my s.rho (nrm 0) (nrm 1) a gamma) s.vel nrm a (a ^ 2 / (gamma - 1))
      (fun _ c => if c = 0 then nrm 1 else -nrm 0) := by
  constructor
  case l0 => first | rfl | (simp only [eig2, Finset.sum_range_succ, Finset.sum_range_zero, State.vel, State.mom, ↓reduceIte, one_ne_zero, OfNat.ofNat_ne_zero, OfNat.ofNat_ne_one, OfNat.one_ne_ofNat, Nat.reduceEqDiff, Nat.reduceAdd]; ring)
  case l1 => first | rfl | (simp only [eig2, Finset.sum_range_succ, Finset.sum_range_zero, State.vel, State.mom, ↓reduceIte, one_ne_zero, OfNat.ofNat_ne_zero, OfNat.ofNat_ne_one, OfNat.one_ne_ofNat, Nat.reduceEqDiff, Nat.reduceAdd]; ring)
  case l2 => first | rfl | (simp only [eig2, Finset.sum_range_succ, Finset.sum_range_zero, State.vel, State.mom, ↓reduceIte, one_ne_zero, OfNat.ofNat_ne_zero, OfNat.ofNat_ne_one, OfNat.one_ne_ofNat, Nat.reduceEqDiff, Nat.reduceAdd]; ring)
  case m0 => first | rfl | (simp only [eig2, Finset.sum_range_succ, Finset.sum_range_zero, State.vel, State.mom, ↓reduceIte, one_ne_zero, OfNat.ofNat_ne_zero, OfNat.ofNat_ne_one, OfNat.one_ne_ofNat, Nat.reduceEqDiff, Nat.reduceAdd]; ring)
  case m1 => first | rfl | (simp only [eig2, Finset.sum_range_succ, Finset.sum_range_zero, State.vel, State.mom, ↓reduceIte, one_ne_zero, OfNat.ofNat_ne_zero, OfNat.ofNat_ne_one, OfNat.one_ne_ofNat, Nat.reduceEqDiff, Nat.reduceAdd]; ring)
  case m2 => first | rfl | (simp only [eig2, Finset.sum_range_succ, Finset.sum_range_zero, State.vel, State.mom, ↓reduceIte, one_ne_zero, OfNat.ofNat_ne_zero, OfNat.ofNat_ne_one, OfNat.one_ne_ofNat, Nat.reduceEqDiff, Nat.reduceAdd]; ring)
  case e0 => first | rfl | (simp only [eig2, Finset.sum_range_succ, Finset.sum_range_zero, State.vel, State.mom, ↓reduceIte, one_ne_zero, OfNat.ofNat_ne_zero, OfNat.ofNat_ne_one, OfNat.one_ne_ofNat, Nat.reduceEqDiff, Nat.reduceAdd]; ring)
  case e1 => first | rfl | (simp only [eig2, Finset.sum_range_succ, Finset.sum_range_zero, State.vel, State.mom, ↓reduceIte, one_ne_zero, OfNat.ofNat_ne_zero, OfNat.ofNat_ne_one, OfNat.one_ne_ofNat, Nat.reduceEqDiff, Nat.reduceAdd]; ring)
  case e2 => first | rfl | (simp only [eig2, Finset.sum_range_succ, Finset.sum_range_zero, State.vel, State.mom, ↓reduceIte, one_ne_zero, OfNat.ofNat_ne_zero, OfNat.ofNat_ne_one, OfNat.one_ne_ofNat, Nat.reduceEqDiff, Nat.reduceAdd]; ring)
  case l3 =>
    intro j hj
    obtain rfl : j = 0 := by omega
    first | rfl | (simp only [eig2, Finset.sum_range_succ, Finset.sum_range_zero, State.vel, State.mom, ↓reduceIte, one_ne_zero, OfNat.ofNat_ne_zero, OfNat.ofNat_ne_one, OfNat.one_ne_ofNat, Nat.reduceEqDiff, Nat.reduceAdd]; ring)
  case m3 =>
    intro j hj
    obtain rfl : j = 0 := by omega
    first | rfl | (simp only [eig2, Finset.sum_range_succ, Finset.sum_range_zero, State.vel, State.mom, ↓reduceIte, one_ne_zero, OfNat.ofNat_ne_zero, OfNat.ofNat_ne_one, OfNat.one_ne_ofNat, Nat.reduceEqDiff, Nat.reduceAdd]; ring)
  case e3 =>
    intro j hj
    obtain rfl : j = 0 := by omega
    first | rfl | (simp only [eig2, Finset.sum_range_succ, Finset.sum_range_zero, State.vel, State.mom, ↓reduceIte, one_ne_zero, OfNat.ofNat_ne_zero, OfNat.ofNat_ne_one, OfNat.one_ne_ofNat, Nat.reduceEqDiff, Nat.reduceAdd]; ring)
  case tan =>
    intro j hj
    obtain rfl : j = 0 := by omega
    first | rfl | (simp only [eig2, Finset.sum_range_succ, Finset.sum_range_zero, State.vel, State.mom, ↓reduceIte, one_ne_zero, OfNat.ofNat_ne_zero, OfNat.ofNat_ne_one, OfNat.one_ne_ofNat, Nat.reduceEqDiff, Nat.reduceAdd]; ring)
  case c0 =>
    intro c hc
    interval_cases c <;> first | rfl | (simp only [eig2, Finset.sum_range_succ, Finset.sum_range_zero, State.vel, State.mom, ↓reduceIte, one_ne_zero, OfNat.ofNat_ne_zero, OfNat.ofNat_ne_one, OfNat.one_ne_ofNat, Nat.reduceEqDiff, Nat.reduceAdd]; ring)
  case c1 =>
    intro c hc
    interval_cases c <;> first | rfl | (simp only [eig2, Finset.sum_range_succ, Finset.sum_range_zero, State.vel, State.mom, ↓reduceIte, one_ne_zero, OfNat.ofNat_ne_zero, OfNat.ofNat_ne_one, OfNat.one_ne_ofNat, Nat.reduceEqDiff, Nat.reduceAdd]; ring)
  case c2 =>
    intro c hc
    interval_cases c <;> first | rfl | (simp only [eig2, Finset.sum_range_succ, Finset.sum_range_zero, State.vel, State.mom, ↓reduceIte, one_ne_zero, OfNat.ofNat_ne_zero, OfNat.ofNat_ne_one, OfNat.one_ne_ofNat, Nat.reduceEqDiff, Nat.reduceAdd]; ring)
  case c3 =>
    intro j c hj hc
    obtain rfl : j = 0 := by omega
    interval_cases c <;> first | rfl | (simp only [eig2, Finset.sum_range_succ, Finset.sum_range_zero, State.vel, State.mom, ↓reduceIte, one_ne_zero, OfNat.ofNat_ne_zero, OfNat.ofNat_ne_one, OfNat.one_ne_ofNat, Nat.reduceEqDiff, Nat.reduceAdd]; try ring)

theorem eig2_left {s : State ℝ} {nrm : Nat → ℝ} (hn : UnitNormal 2 nrm) {a gamma : ℝ} :
    LeftForm 2 (eig2 s.mx s.my s.rho (nrm 0) (nrm 1) a gamma) s.vel nrm a (gamma - 1)
      (fun _ c => if c = 0 then nrm 1 else -nrm 0)
      (fun _ c => if c = 0 then nrm 1 else -nrm 0) := by
  constructor
  case m0 => first | rfl | (simp only [eig2, Finset.sum_range_succ, Finset.sum_range_zero, State.vel, State.mom, ↓reduceIte, one_ne_zero, OfNat.ofNat_ne_zero, OfNat.ofNat_ne_one, OfNat.one_ne_ofNat, Nat.reduceEqDiff, Nat.reduceAdd]; ring)
  case m1 => first | rfl | (simp only [eig2, Finset.sum_range_succ, Finset.sum_range_zero, State.vel, State.mom, ↓reduceIte, one_ne_zero, OfNat.ofNat_ne_zero, OfNat.ofNat_ne_one, OfNat.one_ne_ofNat, Nat.reduceEqDiff, Nat.reduceAdd]; ring)
  case m2 => first | rfl | (simp only [eig2, Finset.sum_range_succ, Finset.sum_range_zero, State.vel, State.mom, ↓reduceIte, one_ne_zero, OfNat.ofNat_ne_zero, OfNat.ofNat_ne_one, OfNat.one_ne_ofNat, Nat.reduceEqDiff, Nat.reduceAdd]; ring)
  case e0 => first | rfl | (simp only [eig2, Finset.sum_range_succ, Finset.sum_range_zero, State.vel, State.mom, ↓reduceIte, one_ne_zero, OfNat.ofNat_ne_zero, OfNat.ofNat_ne_one, OfNat.one_ne_ofNat, Nat.reduceEqDiff, Nat.reduceAdd]; ring)
  case e1 => first | rfl | (simp only [eig2, Finset.sum_range_succ, Finset.sum_range_zero, State.vel, State.mom, ↓reduceIte, one_ne_zero, OfNat.ofNat_ne_zero, OfNat.ofNat_ne_one, OfNat.one_ne_ofNat, Nat.reduceEqDiff, Nat.reduceAdd]; ring)
  case e2 => first | rfl | (simp only [eig2, Finset.sum_range_succ, Finset.sum_range_zero, State.vel, State.mom, ↓reduceIte, one_ne_zero, OfNat.ofNat_ne_zero, OfNat.ofNat_ne_one, OfNat.one_ne_ofNat, Nat.reduceEqDiff, Nat.reduceAdd]; ring)
  case m3 =>
    intro j hj
    obtain rfl : j = 0 := by omega
    first | rfl | (simp only [eig2, Finset.sum_range_succ, Finset.sum_range_zero, State.vel, State.mom, ↓reduceIte, one_ne_zero, OfNat.ofNat_ne_zero, OfNat.ofNat_ne_one, OfNat.one_ne_ofNat, Nat.reduceEqDiff, Nat.reduceAdd]; ring)
  case e3 =>
    intro j hj
    obtain rfl : j = 0 := by omega
    first | rfl | (simp only [eig2, Finset.sum_range_succ, Finset.sum_range_zero, State.vel, State.mom, ↓reduceIte, one_ne_zero, OfNat.ofNat_ne_zero, OfNat.ofNat_ne_one, OfNat.one_ne_ofNat, Nat.reduceEqDiff, Nat.reduceAdd]; ring)
  case c0 =>
    intro c hc
    interval_cases c <;> first | rfl | (simp only [eig2, Finset.sum_range_succ, Finset.sum_range_zero, State.vel, State.mom, ↓reduceIte, one_ne_zero, OfNat.ofNat_ne_zero, OfNat.ofNat_ne_one, OfNat.one_ne_ofNat, Nat.reduceEqDiff, Nat.reduceAdd]; ring)
  case c1 =>
    intro c hc
    interval_cases c <;> first | rfl | (simp only [eig2, Finset.sum_range_succ, Finset.sum_range_zero, State.vel, State.mom, ↓reduceIte, one_ne_zero, OfNat.ofNat_ne_zero, OfNat.ofNat_ne_one, OfNat.one_ne_ofNat, Nat.reduceEqDiff, Nat.reduceAdd]; ring)
  case c2 =>
    intro c hc
    interval_cases c <;> first | rfl | (simp only [eig2, Finset.sum_range_succ, Finset.sum_range_zero, State.vel, State.mom, ↓reduceIte, one_ne_zero, OfNat.ofNat_ne_zero, OfNat.ofNat_ne_one, OfNat.one_ne_ofNat, Nat.reduceEqDiff, Nat.reduceAdd]; ring)
  case c3 =>
    intro j c hj hc
    obtain rfl : j = 0 := by omega
    interval_cases c <;> first | rfl | (simp only [eig2, Finset.sum_range_succ, Finset.sum_range_zero, State.vel, State.mom, ↓reduceIte, one_ne_zero, OfNat.ofNat_ne_zero, OfNat.ofNat_ne_one, OfNat.one_ne_ofNat, Nat.reduceEqDiff, Nat.reduceAdd]; try ring)
  case full =>
    intro y c hc
    have hn' : nrm 0 ^ 2 + nrm 1 ^ 2 = 1 := by simpa [UnitNormal, Finset.sum_range_succ] using hn
    interval_cases c <;> simp [Finset.sum_range_succ]
    · linear_combination y 0 * hn'
    · linear_combination y 1 * hn'

theorem eig3_right1 {s : State ℝ} {nrm : Nat → ℝ} (hw : whichMat (nrm 0) (nrm 1) (nrm 2) = 1) {a gamma : ℝ} :
    RightForm 3 (eig3 s.mx s.my s.mz s.rho (nrm 0) (nrm 1) (nrm 2) a gamma) s.vel nrm a (a ^ 2 / (gamma - 1))
      (fun j c => if j = 0 then (if c = 0 then nrm 1 else if c = 1 then -nrm 0 else 0) else (if c = 0 then -nrm 2 else if c = 1 then 0 else nrm 0)) := by
  constructor
  case l0 => first | rfl | (simp only [eig3, Finset.sum_range_succ, Finset.sum_range_zero, State.vel, State.mom, ↓reduceIte, one_ne_zero, OfNat.ofNat_ne_zero, OfNat.ofNat_ne_one, OfNat.one_ne_ofNat, Nat.reduceEqDiff, Nat.reduceAdd, hw]; ring)
  case l1 => first | rfl | (simp only [eig3, Finset.sum_range_succ, Finset.sum_range_zero, State.vel, State.mom, ↓reduceIte, one_ne_zero, OfNat.ofNat_ne_zero, OfNat.ofNat_ne_one, OfNat.one_ne_ofNat, Nat.reduceEqDiff, Nat.reduceAdd, hw]; ring)
  case l2 => first | rfl | (simp only [eig3, Finset.sum_range_succ, Finset.sum_range_zero, State.vel, State.mom, ↓reduceIte, one_ne_zero, OfNat.ofNat_ne_zero, OfNat.ofNat_ne_one, OfNat.one_ne_ofNat, Nat.reduceEqDiff, Nat.reduceAdd, hw]; ring)
  case m0 => first | rfl | (simp only [eig3, Finset.sum_range_succ, Finset.sum_range_zero, State.vel, State.mom, ↓reduceIte, one_ne_zero, OfNat.ofNat_ne_zero, OfNat.ofNat_ne_one, OfNat.one_ne_ofNat, Nat.reduceEqDiff, Nat.reduceAdd, hw]; ring)
  case m1 => first | rfl | (simp only [eig3, Finset.sum_range_succ, Finset.sum_range_zero, State.vel, State.mom, ↓reduceIte, one_ne_zero, OfNat.ofNat_ne_zero, OfNat.ofNat_ne_one, OfNat.one_ne_ofNat, Nat.reduceEqDiff, Nat.reduceAdd, hw]; ring)
  case m2 => first | rfl | (simp only [eig3, Finset.sum_range_succ, Finset.sum_range_zero, State.vel, State.mom, ↓reduceIte, one_ne_zero, OfNat.ofNat_ne_zero, OfNat.ofNat_ne_one, OfNat.one_ne_ofNat, Nat.reduceEqDiff, Nat.reduceAdd, hw]; ring)
  case e0 => first | rfl | (simp only [eig3, Finset.sum_range_succ, Finset.sum_range_zero, State.vel, State.mom, ↓reduceIte, one_ne_zero, OfNat.ofNat_ne_zero, OfNat.ofNat_ne_one, OfNat.one_ne_ofNat, Nat.reduceEqDiff, Nat.reduceAdd, hw]; ring)
  case e1 => first | rfl | (simp only [eig3, Finset.sum_range_succ, Finset.sum_range_zero, State.vel, State.mom, ↓reduceIte, one_ne_zero, OfNat.ofNat_ne_zero, OfNat.ofNat_ne_one, OfNat.one_ne_ofNat, Nat.reduceEqDiff, Nat.reduceAdd, hw]; ring)
  case e2 => first | rfl | (simp only [eig3, Finset.sum_range_succ, Finset.sum_range_zero, State.vel, State.mom, ↓reduceIte, one_ne_zero, OfNat.ofNat_ne_zero, OfNat.ofNat_ne_one, OfNat.one_ne_ofNat, Nat.reduceEqDiff, Nat.reduceAdd, hw]; ring)
  case l3 =>
    intro j hj
    have hj' : j < 2 := by omega
    interval_cases j <;> first | rfl | (simp only [eig3, Finset.sum_range_succ, Finset.sum_range_zero, State.vel, State.mom, ↓reduceIte, one_ne_zero, OfNat.ofNat_ne_zero, OfNat.ofNat_ne_one, OfNat.one_ne_ofNat, Nat.reduceEqDiff, Nat.reduceAdd, hw]; ring)
  case m3 =>
    intro j hj
    have hj' : j < 2 := by omega
    interval_cases j <;> first | rfl | (simp only [eig3, Finset.sum_range_succ, Finset.sum_range_zero, State.vel, State.mom, ↓reduceIte, one_ne_zero, OfNat.ofNat_ne_zero, OfNat.ofNat_ne_one, OfNat.one_ne_ofNat, Nat.reduceEqDiff, Nat.reduceAdd, hw]; ring)
  case e3 =>
    intro j hj
    have hj' : j < 2 := by omega
    interval_cases j <;> first | rfl | (simp only [eig3, Finset.sum_range_succ, Finset.sum_range_zero, State.vel, State.mom, ↓reduceIte, one_ne_zero, OfNat.ofNat_ne_zero, OfNat.ofNat_ne_one, OfNat.one_ne_ofNat, Nat.reduceEqDiff, Nat.reduceAdd, hw]; ring)
  case tan =>
    intro j hj
    have hj' : j < 2 := by omega
    interval_cases j <;> first | rfl | (simp only [eig3, Finset.sum_range_succ, Finset.sum_range_zero, State.vel, State.mom, ↓reduceIte, one_ne_zero, OfNat.ofNat_ne_zero, OfNat.ofNat_ne_one, OfNat.one_ne_ofNat, Nat.reduceEqDiff, Nat.reduceAdd, hw]; ring)
  case c0 =>
    intro c hc
    interval_cases c <;> first | rfl | (simp only [eig3, Finset.sum_range_succ, Finset.sum_range_zero, State.vel, State.mom, ↓reduceIte, one_ne_zero, OfNat.ofNat_ne_zero, OfNat.ofNat_ne_one, OfNat.one_ne_ofNat, Nat.reduceEqDiff, Nat.reduceAdd, hw]; ring)
  case c1 =>
    intro c hc
    interval_cases c <;> first | rfl | (simp only [eig3, Finset.sum_range_succ, Finset.sum_range_zero, State.vel, State.mom, ↓reduceIte, one_ne_zero, OfNat.ofNat_ne_zero, OfNat.ofNat_ne_one, OfNat.one_ne_ofNat, Nat.reduceEqDiff, Nat.reduceAdd, hw]; ring)
  case c2 =>
    intro c hc
    interval_cases c <;> first | rfl | (simp only [eig3, Finset.sum_range_succ, Finset.sum_range_zero, State.vel, State.mom, ↓reduceIte, one_ne_zero, OfNat.ofNat_ne_zero, OfNat.ofNat_ne_one, OfNat.one_ne_ofNat, Nat.reduceEqDiff, Nat.reduceAdd, hw]; ring)
  case c3 =>
    intro j c hj hc
    have hj' : j < 2 := by omega
    interval_cases j <;> interval_cases c <;> first | rfl | (simp only [eig3, Finset.sum_range_succ, Finset.sum_range_zero, State.vel, State.mom, ↓reduceIte, one_ne_zero, OfNat.ofNat_ne_zero, OfNat.ofNat_ne_one, OfNat.one_ne_ofNat, Nat.reduceEqDiff, Nat.reduceAdd, hw]; try ring)

theorem eig3_left1 {s : State ℝ} {nrm : Nat → ℝ} (hn : UnitNormal 3 nrm) (h0 : nrm 0 ≠ 0) (hw : whichMat (nrm 0) (nrm 1) (nrm 2) = 1) {a gamma : ℝ} :
    LeftForm 3 (eig3 s.mx s.my s.mz s.rho (nrm 0) (nrm 1) (nrm 2) a gamma) s.vel nrm a (gamma - 1)
      (fun j c => if j = 0 then (if c = 0 then nrm 1 else if c = 1 then -nrm 0 else 0) else (if c = 0 then -nrm 2 else if c = 1 then 0 else nrm 0))
      (fun j c => if j = 0 then (if c = 0 then nrm 1 else if c = 1 then (nrm 1 * nrm 1 - 1) / nrm 0 else nrm 1 * nrm 2 / nrm 0) else (if c = 0 then -nrm 2 else if c = 1 then -nrm 1 * nrm 2 / nrm 0 else (1 - nrm 2 * nrm 2) / nrm 0)) := by
  constructor
  case m0 => first | rfl | (simp only [eig3, Finset.sum_range_succ, Finset.sum_range_zero, State.vel, State.mom, ↓reduceIte, one_ne_zero, OfNat.ofNat_ne_zero, OfNat.ofNat_ne_one, OfNat.one_ne_ofNat, Nat.reduceEqDiff, Nat.reduceAdd, hw]; ring)
  case m1 => first | rfl | (simp only [eig3, Finset.sum_range_succ, Finset.sum_range_zero, State.vel, State.mom, ↓reduceIte, one_ne_zero, OfNat.ofNat_ne_zero, OfNat.ofNat_ne_one, OfNat.one_ne_ofNat, Nat.reduceEqDiff, Nat.reduceAdd, hw]; ring)
  case m2 => first | rfl | (simp only [eig3, Finset.sum_range_succ, Finset.sum_range_zero, State.vel, State.mom, ↓reduceIte, one_ne_zero, OfNat.ofNat_ne_zero, OfNat.ofNat_ne_one, OfNat.one_ne_ofNat, Nat.reduceEqDiff, Nat.reduceAdd, hw]; ring)
  case e0 => first | rfl | (simp only [eig3, Finset.sum_range_succ, Finset.sum_range_zero, State.vel, State.mom, ↓reduceIte, one_ne_zero, OfNat.ofNat_ne_zero, OfNat.ofNat_ne_one, OfNat.one_ne_ofNat, Nat.reduceEqDiff, Nat.reduceAdd, hw]; ring)
  case e1 => first | rfl | (simp only [eig3, Finset.sum_range_succ, Finset.sum_range_zero, State.vel, State.mom, ↓reduceIte, one_ne_zero, OfNat.ofNat_ne_zero, OfNat.ofNat_ne_one, OfNat.one_ne_ofNat, Nat.reduceEqDiff, Nat.reduceAdd, hw]; ring)
  case e2 => first | rfl | (simp only [eig3, Finset.sum_range_succ, Finset.sum_range_zero, State.vel, State.mom, ↓reduceIte, one_ne_zero, OfNat.ofNat_ne_zero, OfNat.ofNat_ne_one, OfNat.one_ne_ofNat, Nat.reduceEqDiff, Nat.reduceAdd, hw]; ring)
  case m3 =>
    intro j hj
    have hj' : j < 2 := by omega
    interval_cases j <;> first | rfl | (simp only [eig3, Finset.sum_range_succ, Finset.sum_range_zero, State.vel, State.mom, ↓reduceIte, one_ne_zero, OfNat.ofNat_ne_zero, OfNat.ofNat_ne_one, OfNat.one_ne_ofNat, Nat.reduceEqDiff, Nat.reduceAdd, hw]; field_simp; ring)
  case e3 =>
    intro j hj
    have hj' : j < 2 := by omega
    interval_cases j <;> first | rfl | (simp only [eig3, Finset.sum_range_succ, Finset.sum_range_zero, State.vel, State.mom, ↓reduceIte, one_ne_zero, OfNat.ofNat_ne_zero, OfNat.ofNat_ne_one, OfNat.one_ne_ofNat, Nat.reduceEqDiff, Nat.reduceAdd, hw]; ring)
  case c0 =>
    intro c hc
    interval_cases c <;> first | rfl | (simp only [eig3, Finset.sum_range_succ, Finset.sum_range_zero, State.vel, State.mom, ↓reduceIte, one_ne_zero, OfNat.ofNat_ne_zero, OfNat.ofNat_ne_one, OfNat.one_ne_ofNat, Nat.reduceEqDiff, Nat.reduceAdd, hw]; ring)
  case c1 =>
    intro c hc
    interval_cases c <;> first | rfl | (simp only [eig3, Finset.sum_range_succ, Finset.sum_range_zero, State.vel, State.mom, ↓reduceIte, one_ne_zero, OfNat.ofNat_ne_zero, OfNat.ofNat_ne_one, OfNat.one_ne_ofNat, Nat.reduceEqDiff, Nat.reduceAdd, hw]; ring)
  case c2 =>
    intro c hc
    interval_cases c <;> first | rfl | (simp only [eig3, Finset.sum_range_succ, Finset.sum_range_zero, State.vel, State.mom, ↓reduceIte, one_ne_zero, OfNat.ofNat_ne_zero, OfNat.ofNat_ne_one, OfNat.one_ne_ofNat, Nat.reduceEqDiff, Nat.reduceAdd, hw]; ring)
  case c3 =>
    intro j c hj hc
    have hj' : j < 2 := by omega
    interval_cases j <;> interval_cases c <;> first | rfl | (simp only [eig3, Finset.sum_range_succ, Finset.sum_range_zero, State.vel, State.mom, ↓reduceIte, one_ne_zero, OfNat.ofNat_ne_zero, OfNat.ofNat_ne_one, OfNat.one_ne_ofNat, Nat.reduceEqDiff, Nat.reduceAdd, hw]; try ring)
  case full =>
    intro y c hc
    have hn' : nrm 0 ^ 2 + nrm 1 ^ 2 + nrm 2 ^ 2 = 1 := by simpa [UnitNormal, Finset.sum_range_succ] using hn
    interval_cases c <;> simp [Finset.sum_range_succ] <;> field_simp <;> grind

theorem eig3_right2 {s : State ℝ} {nrm : Nat → ℝ} (hw : whichMat (nrm 0) (nrm 1) (nrm 2) = 2) {a gamma : ℝ} :
    RightForm 3 (eig3 s.mx s.my s.mz s.rho (nrm 0) (nrm 1) (nrm 2) a gamma) s.vel nrm a (a ^ 2 / (gamma - 1))
      (fun j c => if j = 0 then (if c = 0 then nrm 1 else if c = 1 then -nrm 0 else 0) else (if c = 0 then 0 else if c = 1 then nrm 2 else -nrm 1)) := by
  constructor
  case l0 => first | rfl | (simp only [eig3, Finset.sum_range_succ, Finset.sum_range_zero, State.vel, State.mom, ↓reduceIte, one_ne_zero, OfNat.ofNat_ne_zero, OfNat.ofNat_ne_one, OfNat.one_ne_ofNat, Nat.reduceEqDiff, Nat.reduceAdd, hw]; ring)
  case l1 => first | rfl | (simp only [eig3, Finset.sum_range_succ, Finset.sum_range_zero, State.vel, State.mom, ↓reduceIte, one_ne_zero, OfNat.ofNat_ne_zero, OfNat.ofNat_ne_one, OfNat.one_ne_ofNat, Nat.reduceEqDiff, Nat.reduceAdd, hw]; ring)
  case l2 => first | rfl | (simp only [eig3, Finset.sum_range_succ, Finset.sum_range_zero, State.vel, State.mom, ↓reduceIte, one_ne_zero, OfNat.ofNat_ne_zero, OfNat.ofNat_ne_one, OfNat.one_ne_ofNat, Nat.reduceEqDiff, Nat.reduceAdd, hw]; ring)
  case m0 => first | rfl | (simp only [eig3, Finset.sum_range_succ, Finset.sum_range_zero, State.vel, State.mom, ↓reduceIte, one_ne_zero, OfNat.ofNat_ne_zero, OfNat.ofNat_ne_one, OfNat.one_ne_ofNat, Nat.reduceEqDiff, Nat.reduceAdd, hw]; ring)
  case m1 => first | rfl | (simp only [eig3, Finset.sum_range_succ, Finset.sum_range_zero, State.vel, State.mom, ↓reduceIte, one_ne_zero, OfNat.ofNat_ne_zero, OfNat.ofNat_ne_one, OfNat.one_ne_ofNat, Nat.reduceEqDiff, Nat.reduceAdd, hw]; ring)
  case m2 => first | rfl | (simp only [eig3, Finset.sum_range_succ, Finset.sum_range_zero, State.vel, State.mom, ↓reduceIte, one_ne_zero, OfNat.ofNat_ne_zero, OfNat.ofNat_ne_one, OfNat.one_ne_ofNat, Nat.reduceEqDiff, Nat.reduceAdd, hw]; ring)
  case e0 => first | rfl | (simp only [eig3, Finset.sum_range_succ, Finset.sum_range_zero, State.vel, State.mom, ↓reduceIte, one_ne_zero, OfNat.ofNat_ne_zero, OfNat.ofNat_ne_one, OfNat.one_ne_ofNat, Nat.reduceEqDiff, Nat.reduceAdd, hw]; ring)
  case e1 => first | rfl | (simp only [eig3, Finset.sum_range_succ, Finset.sum_range_zero, State.vel, State.mom, ↓reduceIte, one_ne_zero, OfNat.ofNat_ne_zero, OfNat.ofNat_ne_one, OfNat.one_ne_ofNat, Nat.reduceEqDiff, Nat.reduceAdd, hw]; ring)
  case e2 => first | rfl | (simp only [eig3, Finset.sum_range_succ, Finset.sum_range_zero, State.vel, State.mom, ↓reduceIte, one_ne_zero, OfNat.ofNat_ne_zero, OfNat.ofNat_ne_one, OfNat.one_ne_ofNat, Nat.reduceEqDiff, Nat.reduceAdd, hw]; ring)
  case l3 =>
    intro j hj
    have hj' : j < 2 := by omega
    interval_cases j <;> first | rfl | (simp only [eig3, Finset.sum_range_succ, Finset.sum_range_zero, State.vel, State.mom, ↓reduceIte, one_ne_zero, OfNat.ofNat_ne_zero, OfNat.ofNat_ne_one, OfNat.one_ne_ofNat, Nat.reduceEqDiff, Nat.reduceAdd, hw]; ring)
  case m3 =>
    intro j hj
    have hj' : j < 2 := by omega
    interval_cases j <;> first | rfl | (simp only [eig3, Finset.sum_range_succ, Finset.sum_range_zero, State.vel, State.mom, ↓reduceIte, one_ne_zero, OfNat.ofNat_ne_zero, OfNat.ofNat_ne_one, OfNat.one_ne_ofNat, Nat.reduceEqDiff, Nat.reduceAdd, hw]; ring)
  case e3 =>
    intro j hj
    have hj' : j < 2 := by omega
    interval_cases j <;> first | rfl | (simp only [eig3, Finset.sum_range_succ, Finset.sum_range_zero, State.vel, State.mom, ↓reduceIte, one_ne_zero, OfNat.ofNat_ne_zero, OfNat.ofNat_ne_one, OfNat.one_ne_ofNat, Nat.reduceEqDiff, Nat.reduceAdd, hw]; ring)
  case tan =>
    intro j hj
    have hj' : j < 2 := by omega
    interval_cases j <;> first | rfl | (simp only [eig3, Finset.sum_range_succ, Finset.sum_range_zero, State.vel, State.mom, ↓reduceIte, one_ne_zero, OfNat.ofNat_ne_zero, OfNat.ofNat_ne_one, OfNat.one_ne_ofNat, Nat.reduceEqDiff, Nat.reduceAdd, hw]; ring)
  case c0 =>
    intro c hc
    interval_cases c <;> first | rfl | (simp only [eig3, Finset.sum_range_succ, Finset.sum_range_zero, State.vel, State.mom, ↓reduceIte, one_ne_zero, OfNat.ofNat_ne_zero, OfNat.ofNat_ne_one, OfNat.one_ne_ofNat, Nat.reduceEqDiff, Nat.reduceAdd, hw]; ring)
  case c1 =>
    intro c hc
    interval_cases c <;> first | rfl | (simp only [eig3, Finset.sum_range_succ, Finset.sum_range_zero, State.vel, State.mom, ↓reduceIte, one_ne_zero, OfNat.ofNat_ne_zero, OfNat.ofNat_ne_one, OfNat.one_ne_ofNat, Nat.reduceEqDiff, Nat.reduceAdd, hw]; ring)
  case c2 =>
    intro c hc
    interval_cases c <;> first | rfl | (simp only [eig3, Finset.sum_range_succ, Finset.sum_range_zero, State.vel, State.mom, ↓reduceIte, one_ne_zero, OfNat.ofNat_ne_zero, OfNat.ofNat_ne_one, OfNat.one_ne_ofNat, Nat.reduceEqDiff, Nat.reduceAdd, hw]; ring)
  case c3 =>
    intro j c hj hc
    have hj' : j < 2 := by omega
    interval_cases j <;> interval_cases c <;> first | rfl | (simp only [eig3, Finset.sum_range_succ, Finset.sum_range_zero, State.vel, State.mom, ↓reduceIte, one_ne_zero, OfNat.ofNat_ne_zero, OfNat.ofNat_ne_one, OfNat.one_ne_ofNat, Nat.reduceEqDiff, Nat.reduceAdd, hw]; try ring)

theorem eig3_left2 {s : State ℝ} {nrm : Nat → ℝ} (hn : UnitNormal 3 nrm) (h0 : nrm 1 ≠ 0) (hw : whichMat (nrm 0) (nrm 1) (nrm 2) = 2) {a gamma : ℝ} :
    LeftForm 3 (eig3 s.mx s.my s.mz s.rho (nrm 0) (nrm 1) (nrm 2) a gamma) s.vel nrm a (gamma - 1)
      (fun j c => if j = 0 then (if c = 0 then nrm 1 else if c = 1 then -nrm 0 else 0) else (if c = 0 then 0 else if c = 1 then nrm 2 else -nrm 1))
      (fun j c => if j = 0 then (if c = 0 then (1 - nrm 0 * nrm 0) / nrm 1 else if c = 1 then -nrm 0 else -nrm 0 * nrm 2 / nrm 1) else (if c = 0 then nrm 0 * nrm 2 / nrm 1 else if c = 1 then nrm 2 else (nrm 2 * nrm 2 - 1) / nrm 1)) := by
  constructor
  case m0 => first | rfl | (simp only [eig3, Finset.sum_range_succ, Finset.sum_range_zero, State.vel, State.mom, ↓reduceIte, one_ne_zero, OfNat.ofNat_ne_zero, OfNat.ofNat_ne_one, OfNat.one_ne_ofNat, Nat.reduceEqDiff, Nat.reduceAdd, hw]; ring)
  case m1 => first | rfl | (simp only [eig3, Finset.sum_range_succ, Finset.sum_range_zero, State.vel, State.mom, ↓reduceIte, one_ne_zero, OfNat.ofNat_ne_zero, OfNat.ofNat_ne_one, OfNat.one_ne_ofNat, Nat.reduceEqDiff, Nat.reduceAdd, hw]; ring)
  case m2 => first | rfl | (simp only [eig3, Finset.sum_range_succ, Finset.sum_range_zero, State.vel, State.mom, ↓reduceIte, one_ne_zero, OfNat.ofNat_ne_zero, OfNat.ofNat_ne_one, OfNat.one_ne_ofNat, Nat.reduceEqDiff, Nat.reduceAdd, hw]; ring)
  case e0 => first | rfl | (simp only [eig3, Finset.sum_range_succ, Finset.sum_range_zero, State.vel, State.mom, ↓reduceIte, one_ne_zero, OfNat.ofNat_ne_zero, OfNat.ofNat_ne_one, OfNat.one_ne_ofNat, Nat.reduceEqDiff, Nat.reduceAdd, hw]; ring)
  case e1 => first | rfl | (simp only [eig3, Finset.sum_range_succ, Finset.sum_range_zero, State.vel, State.mom, ↓reduceIte, one_ne_zero, OfNat.ofNat_ne_zero, OfNat.ofNat_ne_one, OfNat.one_ne_ofNat, Nat.reduceEqDiff, Nat.reduceAdd, hw]; ring)
  case e2 => first | rfl | (simp only [eig3, Finset.sum_range_succ, Finset.sum_range_zero, State.vel, State.mom, ↓reduceIte, one_ne_zero, OfNat.ofNat_ne_zero, OfNat.ofNat_ne_one, OfNat.one_ne_ofNat, Nat.reduceEqDiff, Nat.reduceAdd, hw]; ring)
  case m3 =>
    intro j hj
    have hj' : j < 2 := by omega
    interval_cases j <;> first | rfl | (simp only [eig3, Finset.sum_range_succ, Finset.sum_range_zero, State.vel, State.mom, ↓reduceIte, one_ne_zero, OfNat.ofNat_ne_zero, OfNat.ofNat_ne_one, OfNat.one_ne_ofNat, Nat.reduceEqDiff, Nat.reduceAdd, hw]; field_simp; ring)
  case e3 =>
    intro j hj
    have hj' : j < 2 := by omega
    interval_cases j <;> first | rfl | (simp only [eig3, Finset.sum_range_succ, Finset.sum_range_zero, State.vel, State.mom, ↓reduceIte, one_ne_zero, OfNat.ofNat_ne_zero, OfNat.ofNat_ne_one, OfNat.one_ne_ofNat, Nat.reduceEqDiff, Nat.reduceAdd, hw]; ring)
  case c0 =>
    intro c hc
    interval_cases c <;> first | rfl | (simp only [eig3, Finset.sum_range_succ, Finset.sum_range_zero, State.vel, State.mom, ↓reduceIte, one_ne_zero, OfNat.ofNat_ne_zero, OfNat.ofNat_ne_one, OfNat.one_ne_ofNat, Nat.reduceEqDiff, Nat.reduceAdd, hw]; ring)
  case c1 =>
    intro c hc
    interval_cases c <;> first | rfl | (simp only [eig3, Finset.sum_range_succ, Finset.sum_range_zero, State.vel, State.mom, ↓reduceIte, one_ne_zero, OfNat.ofNat_ne_zero, OfNat.ofNat_ne_one, OfNat.one_ne_ofNat, Nat.reduceEqDiff, Nat.reduceAdd, hw]; ring)
  case c2 =>
    intro c hc
    interval_cases c <;> first | rfl | (simp only [eig3, Finset.sum_range_succ, Finset.sum_range_zero, State.vel, State.mom, ↓reduceIte, one_ne_zero, OfNat.ofNat_ne_zero, OfNat.ofNat_ne_one, OfNat.one_ne_ofNat, Nat.reduceEqDiff, Nat.reduceAdd, hw]; ring)
  case c3 =>
    intro j c hj hc
    have hj' : j < 2 := by omega
    interval_cases j <;> interval_cases c <;> first | rfl | (simp only [eig3, Finset.sum_range_succ, Finset.sum_range_zero, State.vel, State.mom, ↓reduceIte, one_ne_zero, OfNat.ofNat_ne_zero, OfNat.ofNat_ne_one, OfNat.one_ne_ofNat, Nat.reduceEqDiff, Nat.reduceAdd, hw]; try ring)
  case full =>
    intro y c hc
    have hn' : nrm 0 ^ 2 + nrm 1 ^ 2 + nrm 2 ^ 2 = 1 := by simpa [UnitNormal, Finset.sum_range_succ] using hn
    interval_cases c <;> simp [Finset.sum_range_succ] <;> field_simp <;> grind

theorem eig3_right3 {s : State ℝ} {nrm : Nat → ℝ} (hw : whichMat (nrm 0) (nrm 1) (nrm 2) = 3) {a gamma : ℝ} :
    RightForm 3 (eig3 s.mx s.my s.mz s.rho (nrm 0) (nrm 1) (nrm 2) a gamma) s.vel nrm a (a ^ 2 / (gamma - 1))
      (fun j c => if j = 0 then (if c = 0 then -nrm 2 else if c = 1 then 0 else nrm 0) else (if c = 0 then 0 else if c = 1 then nrm 2 else -nrm 1)) := by
  constructor
  case l0 => first | rfl | (simp only [eig3, Finset.sum_range_succ, Finset.sum_range_zero, State.vel, State.mom, ↓reduceIte, one_ne_zero, OfNat.ofNat_ne_zero, OfNat.ofNat_ne_one, OfNat.one_ne_ofNat, Nat.reduceEqDiff, Nat.reduceAdd, hw]; ring)
  case l1 => first | rfl | (simp only [eig3, Finset.sum_range_succ, Finset.sum_range_zero, State.vel, State.mom, ↓reduceIte, one_ne_zero, OfNat.ofNat_ne_zero, OfNat.ofNat_ne_one, OfNat.one_ne_ofNat, Nat.reduceEqDiff, Nat.reduceAdd, hw]; ring)
  case l2 => first | rfl | (simp only [eig3, Finset.sum_range_succ, Finset.sum_range_zero, State.vel, State.mom, ↓reduceIte, one_ne_zero, OfNat.ofNat_ne_zero, OfNat.ofNat_ne_one, OfNat.one_ne_ofNat, Nat.reduceEqDiff, Nat.reduceAdd, hw]; ring)
  case m0 => first | rfl | (simp only [eig3, Finset.sum_range_succ, Finset.sum_range_zero, State.vel, State.mom, ↓reduceIte, one_ne_zero, OfNat.ofNat_ne_zero, OfNat.ofNat_ne_one, OfNat.one_ne_ofNat, Nat.reduceEqDiff, Nat.reduceAdd, hw]; ring)
  case m1 => first | rfl | (simp only [eig3, Finset.sum_range_succ, Finset.sum_range_zero, State.vel, State.mom, ↓reduceIte, one_ne_zero, OfNat.ofNat_ne_zero, OfNat.ofNat_ne_one, OfNat.one_ne_ofNat, Nat.reduceEqDiff, Nat.reduceAdd, hw]; ring)
  case m2 => first | rfl | (simp only [eig3, Finset.sum_range_succ, Finset.sum_range_zero, State.vel, State.mom, ↓reduceIte, one_ne_zero, OfNat.ofNat_ne_zero, OfNat.ofNat_ne_one, OfNat.one_ne_ofNat, Nat.reduceEqDiff, Nat.reduceAdd, hw]; ring)
  case e0 => first | rfl | (simp only [eig3, Finset.sum_range_succ, Finset.sum_range_zero, State.vel, State.mom, ↓reduceIte, one_ne_zero, OfNat.ofNat_ne_zero, OfNat.ofNat_ne_one, OfNat.one_ne_ofNat, Nat.reduceEqDiff, Nat.reduceAdd, hw]; ring)
  case e1 => first | rfl | (simp only [eig3, Finset.sum_range_succ, Finset.sum_range_zero, State.vel, State.mom, ↓reduceIte, one_ne_zero, OfNat.ofNat_ne_zero, OfNat.ofNat_ne_one, OfNat.one_ne_ofNat, Nat.reduceEqDiff, Nat.reduceAdd, hw]; ring)
  case e2 => first | rfl | (simp only [eig3, Finset.sum_range_succ, Finset.sum_range_zero, State.vel, State.mom, ↓reduceIte, one_ne_zero, OfNat.ofNat_ne_zero, OfNat.ofNat_ne_one, OfNat.one_ne_ofNat, Nat.reduceEqDiff, Nat.reduceAdd, hw]; ring)
  case l3 =>
    intro j hj
    have hj' : j < 2 := by omega
    interval_cases j <;> first | rfl | (simp only [eig3, Finset.sum_range_succ, Finset.sum_range_zero, State.vel, State.mom, ↓reduceIte, one_ne_zero, OfNat.ofNat_ne_zero, OfNat.ofNat_ne_one, OfNat.one_ne_ofNat, Nat.reduceEqDiff, Nat.reduceAdd, hw]; ring)
  case m3 =>
    intro j hj
    have hj' : j < 2 := by omega
    interval_cases j <;> first | rfl | (simp only [eig3, Finset.sum_range_succ, Finset.sum_range_zero, State.vel, State.mom, ↓reduceIte, one_ne_zero, OfNat.ofNat_ne_zero, OfNat.ofNat_ne_one, OfNat.one_ne_ofNat, Nat.reduceEqDiff, Nat.reduceAdd, hw]; ring)
  case e3 =>
    intro j hj
    have hj' : j < 2 := by omega
    interval_cases j <;> first | rfl | (simp only [eig3, Finset.sum_range_succ, Finset.sum_range_zero, State.vel, State.mom, ↓reduceIte, one_ne_zero, OfNat.ofNat_ne_zero, OfNat.ofNat_ne_one, OfNat.one_ne_ofNat, Nat.reduceEqDiff, Nat.reduceAdd, hw]; ring)
  case tan =>
    intro j hj
    have hj' : j < 2 := by omega
    interval_cases j <;> first | rfl | (simp only [eig3, Finset.sum_range_succ, Finset.sum_range_zero, State.vel, State.mom, ↓reduceIte, one_ne_zero, OfNat.ofNat_ne_zero, OfNat.ofNat_ne_one, OfNat.one_ne_ofNat, Nat.reduceEqDiff, Nat.reduceAdd, hw]; ring)
  case c0 =>
    intro c hc
    interval_cases c <;> first | rfl | (simp only [eig3, Finset.sum_range_succ, Finset.sum_range_zero, State.vel, State.mom, ↓reduceIte, one_ne_zero, OfNat.ofNat_ne_zero, OfNat.ofNat_ne_one, OfNat.one_ne_ofNat, Nat.reduceEqDiff, Nat.reduceAdd, hw]; ring)
  case c1 =>
    intro c hc
    interval_cases c <;> first | rfl | (simp only [eig3, Finset.sum_range_succ, Finset.sum_range_zero, State.vel, State.mom, ↓reduceIte, one_ne_zero, OfNat.ofNat_ne_zero, OfNat.ofNat_ne_one, OfNat.one_ne_ofNat, Nat.reduceEqDiff, Nat.reduceAdd, hw]; ring)
  case c2 =>
    intro c hc
    interval_cases c <;> first | rfl | (simp only [eig3, Finset.sum_range_succ, Finset.sum_range_zero, State.vel, State.mom, ↓reduceIte, one_ne_zero, OfNat.ofNat_ne_zero, OfNat.ofNat_ne_one, OfNat.one_ne_ofNat, Nat.reduceEqDiff, Nat.reduceAdd, hw]; ring)
  case c3 =>
    intro j c hj hc
    have hj' : j < 2 := by omega
    interval_cases j <;> interval_cases c <;> first | rfl | (simp only [eig3, Finset.sum_range_succ, Finset.sum_range_zero, State.vel, State.mom, ↓reduceIte, one_ne_zero, OfNat.ofNat_ne_zero, OfNat.ofNat_ne_one, OfNat.one_ne_ofNat, Nat.reduceEqDiff, Nat.reduceAdd, hw]; try ring)

theorem eig3_left3 {s : State ℝ} {nrm : Nat → ℝ} (hn : UnitNormal 3 nrm) (h0 : nrm 2 ≠ 0) (hw : whichMat (nrm 0) (nrm 1) (nrm 2) = 3) {a gamma : ℝ} :
    LeftForm 3 (eig3 s.mx s.my s.mz s.rho (nrm 0) (nrm 1) (nrm 2) a gamma) s.vel nrm a (gamma - 1)
      (fun j c => if j = 0 then (if c = 0 then -nrm 2 else if c = 1 then 0 else nrm 0) else (if c = 0 then 0 else if c = 1 then nrm 2 else -nrm 1))
      (fun j c => if j = 0 then (if c = 0 then (nrm 0 * nrm 0 - 1) / nrm 2 else if c = 1 then nrm 0 * nrm 1 / nrm 2 else nrm 0) else (if c = 0 then -nrm 0 * nrm 1 / nrm 2 else if c = 1 then (1 - nrm 1 * nrm 1) / nrm 2 else -nrm 1)) := by
  constructor
  case m0 => first | rfl | (simp only [eig3, Finset.sum_range_succ, Finset.sum_range_zero, State.vel, State.mom, ↓reduceIte, one_ne_zero, OfNat.ofNat_ne_zero, OfNat.ofNat_ne_one, OfNat.one_ne_ofNat, Nat.reduceEqDiff, Nat.reduceAdd, hw]; ring)
  case m1 => first | rfl | (simp only [eig3, Finset.sum_range_succ, Finset.sum_range_zero, State.vel, State.mom, ↓reduceIte, one_ne_zero, OfNat.ofNat_ne_zero, OfNat.ofNat_ne_one, OfNat.one_ne_ofNat, Nat.reduceEqDiff, Nat.reduceAdd, hw]; ring)
  case m2 => first | rfl | (simp only [eig3, Finset.sum_range_succ, Finset.sum_range_zero, State.vel, State.mom, ↓reduceIte, one_ne_zero, OfNat.ofNat_ne_zero, OfNat.ofNat_ne_one, OfNat.one_ne_ofNat, Nat.reduceEqDiff, Nat.reduceAdd, hw]; ring)
  case e0 => first | rfl | (simp only [eig3, Finset.sum_range_succ, Finset.sum_range_zero, State.vel, State.mom, ↓reduceIte, one_ne_zero, OfNat.ofNat_ne_zero, OfNat.ofNat_ne_one, OfNat.one_ne_ofNat, Nat.reduceEqDiff, Nat.reduceAdd, hw]; ring)
  case e1 => first | rfl | (simp only [eig3, Finset.sum_range_succ, Finset.sum_range_zero, State.vel, State.mom, ↓reduceIte, one_ne_zero, OfNat.ofNat_ne_zero, OfNat.ofNat_ne_one, OfNat.one_ne_ofNat, Nat.reduceEqDiff, Nat.reduceAdd, hw]; ring)
  case e2 => first | rfl | (simp only [eig3, Finset.sum_range_succ, Finset.sum_range_zero, State.vel, State.mom, ↓reduceIte, one_ne_zero, OfNat.ofNat_ne_zero, OfNat.ofNat_ne_one, OfNat.one_ne_ofNat, Nat.reduceEqDiff, Nat.reduceAdd, hw]; ring)
  case m3 =>
    intro j hj
    have hj' : j < 2 := by omega
    interval_cases j <;> first | rfl | (simp only [eig3, Finset.sum_range_succ, Finset.sum_range_zero, State.vel, State.mom, ↓reduceIte, one_ne_zero, OfNat.ofNat_ne_zero, OfNat.ofNat_ne_one, OfNat.one_ne_ofNat, Nat.reduceEqDiff, Nat.reduceAdd, hw]; field_simp; ring)
  case e3 =>
    intro j hj
    have hj' : j < 2 := by omega
    interval_cases j <;> first | rfl | (simp only [eig3, Finset.sum_range_succ, Finset.sum_range_zero, State.vel, State.mom, ↓reduceIte, one_ne_zero, OfNat.ofNat_ne_zero, OfNat.ofNat_ne_one, OfNat.one_ne_ofNat, Nat.reduceEqDiff, Nat.reduceAdd, hw]; ring)
  case c0 =>
    intro c hc
    interval_cases c <;> first | rfl | (simp only [eig3, Finset.sum_range_succ, Finset.sum_range_zero, State.vel, State.mom, ↓reduceIte, one_ne_zero, OfNat.ofNat_ne_zero, OfNat.ofNat_ne_one, OfNat.one_ne_ofNat, Nat.reduceEqDiff, Nat.reduceAdd, hw]; ring)
  case c1 =>
    intro c hc
    interval_cases c <;> first | rfl | (simp only [eig3, Finset.sum_range_succ, Finset.sum_range_zero, State.vel, State.mom, ↓reduceIte, one_ne_zero, OfNat.ofNat_ne_zero, OfNat.ofNat_ne_one, OfNat.one_ne_ofNat, Nat.reduceEqDiff, Nat.reduceAdd, hw]; ring)
  case c2 =>
    intro c hc
    interval_cases c <;> first | rfl | (simp only [eig3, Finset.sum_range_succ, Finset.sum_range_zero, State.vel, State.mom, ↓reduceIte, one_ne_zero, OfNat.ofNat_ne_zero, OfNat.ofNat_ne_one, OfNat.one_ne_ofNat, Nat.reduceEqDiff, Nat.reduceAdd, hw]; ring)
  case c3 =>
    intro j c hj hc
    have hj' : j < 2 := by omega
    interval_cases j <;> interval_cases c <;> first | rfl | (simp only [eig3, Finset.sum_range_succ, Finset.sum_range_zero, State.vel, State.mom, ↓reduceIte, one_ne_zero, OfNat.ofNat_ne_zero, OfNat.ofNat_ne_one, OfNat.one_ne_ofNat, Nat.reduceEqDiff, Nat.reduceAdd, hw]; try ring)
  case full =>
    intro y c hc
    have hn' : nrm 0 ^ 2 + nrm 1 ^ 2 + nrm 2 ^ 2 = 1 := by simpa [UnitNormal, Finset.sum_range_succ] using hn
    interval_cases c <;> simp [Finset.sum_range_succ] <;> field_simp <;> grind

/-! ### Consequences -/

theorem whichMat_ne {nrm : Nat → ℝ} (hn : UnitNormal 3 nrm) :
    (whichMat (nrm 0) (nrm 1) (nrm 2) = 1 ∧ nrm 0 ≠ 0) ∨ (whichMat (nrm 0) (nrm 1) (nrm 2) = 2 ∧ nrm 1 ≠ 0) ∨
      (whichMat (nrm 0) (nrm 1) (nrm 2) = 3 ∧ nrm 2 ≠ 0) := by
  have hn' : nrm 0 ^ 2 + nrm 1 ^ 2 + nrm 2 ^ 2 = 1 := by simpa [UnitNormal, Finset.sum_range_succ] using hn
  unfold whichMat
  by_cases h : |nrm 1| > |nrm 0| ∨ |nrm 2| > |nrm 0|
  · rw [if_pos h]
    by_cases h2 : |nrm 2| > |nrm 1|
    · rw [if_pos h2]
      refine Or.inr (Or.inr ⟨rfl, fun h0 => ?_⟩)
      rw [h0, abs_zero] at h2
      exact absurd h2 (not_lt.mpr (abs_nonneg _))
    · rw [if_neg h2]
      refine Or.inr (Or.inl ⟨rfl, fun h0 => ?_⟩)
      rw [h0, abs_zero] at h h2
      rcases h with h | h
      · exact absurd h (not_lt.mpr (abs_nonneg _))
      · exact h2 (lt_of_le_of_lt (abs_nonneg _) h)
  · rw [if_neg h]
    refine Or.inl ⟨rfl, fun h0 => ?_⟩
    rw [h0, abs_zero] at h
    push Not at h
    have h1 : nrm 1 = 0 := abs_eq_zero.mp (le_antisymm h.1 (abs_nonneg _))
    have h2 : nrm 2 = 0 := abs_eq_zero.mp (le_antisymm h.2 (abs_nonneg _))
    rw [h0, h1, h2] at hn'
    norm_num at hn'

/-- In two and three dimensions both forms hold. -/
theorem eig_forms {dim : Nat} (hd : dim = 2 ∨ dim = 3) (s : State ℝ) {nrm : Nat → ℝ} (hn : UnitNormal dim nrm) (a gamma : ℝ) :
    ∃ t b : Nat → Nat → ℝ, RightForm dim (eig dim s nrm a gamma) s.vel nrm a (a ^ 2 / (gamma - 1)) t ∧
      LeftForm dim (eig dim s nrm a gamma) s.vel nrm a (gamma - 1) t b := by
  rcases hd with rfl | rfl
  · exact ⟨_, _, eig2_right, eig2_left hn⟩
  · rcases whichMat_ne hn with ⟨hw, h0⟩ | ⟨hw, h0⟩ | ⟨hw, h0⟩
    · exact ⟨_, _, eig3_right1 hw, eig3_left1 hn h0 hw⟩
    · exact ⟨_, _, eig3_right2 hw, eig3_left2 hn h0 hw⟩
    · exact ⟨_, _, eig3_right3 hw, eig3_left3 hn h0 hw⟩

theorem jac_congr {dim : Nat} (gamma : ℝ) (nrm : Nat → ℝ) (s : State ℝ) {v w : Nat → ℝ}
    (h : ∀ i : Nat, i < dim + 2 → v i = w i) {l : Law} (hl : l.ok dim) :
    jac dim gamma nrm s v l = jac dim gamma nrm s w l := by
  have h1 : ∑ d ∈ Finset.range dim, v (d + 1) * nrm d = ∑ d ∈ Finset.range dim, w (d + 1) * nrm d :=
    Finset.sum_congr rfl fun d hd => by rw [h (d + 1) (by have := Finset.mem_range.mp hd; omega)]
  have h2 : ∑ c ∈ Finset.range dim, s.mom c / s.rho * v (c + 1) = ∑ c ∈ Finset.range dim, s.mom c / s.rho * w (c + 1) :=
    Finset.sum_congr rfl fun d hd => by rw [h (d + 1) (by have := Finset.mem_range.mp hd; omega)]
  have h3 := h (dim + 1) (by omega)
  have h4 := h 0 (by omega)
  cases l with
  | mass => simp only [jac, h1]
  | momentum c =>
    have hc : c < dim := hl
    simp only [jac, h1, h2, h3, h4, h (c + 1) (by omega)]
  | energy => simp only [jac, h1, h2, h3, h4]

theorem jac_linear {dim m : Nat} (gamma : ℝ) (nrm : Nat → ℝ) (s : State ℝ) (v : Nat → Nat → ℝ) (α : Nat → ℝ) (l : Law) :
    jac dim gamma nrm s (fun k => ∑ j ∈ Finset.range m, α j * v j k) l =
      ∑ j ∈ Finset.range m, α j * jac dim gamma nrm s (v j) l := by
  induction m with
  | zero => cases l <;> simp [jac]
  | succ m ih =>
    rw [Finset.sum_range_succ, ← ih]
    simp only [Finset.sum_range_succ]
    have key : ∀ x y : Nat → ℝ, ∀ β : ℝ, jac dim gamma nrm s (fun k => x k + β * y k) l =
        jac dim gamma nrm s x l + β * jac dim gamma nrm s y l := by
      intro x y β
      have e1 : ∑ d ∈ Finset.range dim, (x (d + 1) + β * y (d + 1)) * nrm d =
          (∑ d ∈ Finset.range dim, x (d + 1) * nrm d) + β * ∑ d ∈ Finset.range dim, y (d + 1) * nrm d := by
        rw [Finset.mul_sum, ← Finset.sum_add_distrib]
        exact Finset.sum_congr rfl fun d _ => by ring
      have e2 : ∑ c ∈ Finset.range dim, s.mom c / s.rho * (x (c + 1) + β * y (c + 1)) =
          (∑ c ∈ Finset.range dim, s.mom c / s.rho * x (c + 1)) +
            β * ∑ c ∈ Finset.range dim, s.mom c / s.rho * y (c + 1) := by
        rw [Finset.mul_sum, ← Finset.sum_add_distrib]
        exact Finset.sum_congr rfl fun d _ => by ring
      cases l <;> simp only [jac, e1, e2] <;> ring
    exact key _ _ _

theorem spectral_eq (n : Nat) (g : Eig ℝ) (f : ℝ → ℝ) (v : Nat → ℝ) (i : Nat) :
    spectral n g f v i = ∑ j ∈ Finset.range n, g.right i j * ((∑ k ∈ Finset.range n, g.left j k * v k) * f (g.lam j)) := by
  unfold spectral
  rw [matVec_eq]
  simp only [matVec_eq]

/-- If `R L = 1` then `L R = 1`. -/
theorem left_right {n : Nat} {g : Eig ℝ}
    (h : ∀ (w : Nat → ℝ) (i : Nat), i < n →
      ∑ j ∈ Finset.range n, g.right i j * ∑ k ∈ Finset.range n, g.left j k * w k = w i)
    (x : Nat → ℝ) {i : Nat} (hi : i < n) :
    ∑ j ∈ Finset.range n, g.left i j * ∑ k ∈ Finset.range n, g.right j k * x k = x i := by
  let R : Matrix (Fin n) (Fin n) ℝ := fun i j => g.right i j
  let L : Matrix (Fin n) (Fin n) ℝ := fun i j => g.left i j
  have hRL : R * L = 1 := by
    ext a b
    rw [Matrix.mul_apply]
    have := h (fun k => if k = (b : Nat) then 1 else 0) a a.2
    simp only [mul_ite, mul_one, mul_zero, Finset.sum_ite_eq', Finset.mem_range, b.2, if_true] at this
    rw [← Fin.sum_univ_eq_sum_range (fun j => g.right a j * g.left j b)] at this
    rw [Matrix.one_apply]
    simp only [Fin.ext_iff]
    exact this
  have hLR : L * R = 1 := mul_eq_one_comm.mp hRL
  have hv : (L.mulVec (R.mulVec (fun k : Fin n => x k))) ⟨i, hi⟩ = x i := by
    rw [Matrix.mulVec_mulVec, hLR, Matrix.one_mulVec]
  rw [← hv]
  simp only [Matrix.mulVec, dotProduct]
  rw [← Fin.sum_univ_eq_sum_range (fun j => g.left i j * ∑ k ∈ Finset.range n, g.right j k * x k)]
  refine Finset.sum_congr rfl fun j _ => ?_
  rw [← Fin.sum_univ_eq_sum_range (fun k => g.right j k * x k)]

/-- If the columns are eigenvectors and `R L = 1`, then `R Λ L` is the derivative of the flux. -/
theorem jac_spectral {dim : Nat} {gamma : ℝ} {nrm : Nat → ℝ} {s : State ℝ} {g : Eig ℝ}
    (hE : ∀ i j : Nat, i < dim + 2 → j < dim + 2 →
      jac dim gamma nrm s (fun k => g.right k j) (lawAt dim i) = g.lam j * g.right i j)
    (hI : ∀ (w : Nat → ℝ) (i : Nat), i < dim + 2 →
      ∑ j ∈ Finset.range (dim + 2), g.right i j * ∑ k ∈ Finset.range (dim + 2), g.left j k * w k = w i)
    (w : Nat → ℝ) {i : Nat} (hi : i < dim + 2) (hl : (lawAt dim i).ok dim) :
    jac dim gamma nrm s w (lawAt dim i) = spectral (dim + 2) g (fun l => l) w i := by
  rw [spectral_eq, ← jac_congr gamma nrm s (v := fun k => ∑ j ∈ Finset.range (dim + 2),
    (∑ m ∈ Finset.range (dim + 2), g.left j m * w m) * g.right k j) (fun k hk => by
      rw [← hI w k hk]
      exact Finset.sum_congr rfl fun j _ => by ring) hl]
  rw [jac_linear gamma nrm s (fun j k => g.right k j)]
  refine Finset.sum_congr rfl fun j hj => ?_
  rw [hE i j hi (Finset.mem_range.mp hj)]
  ring

/-- A function of the eigenvalues acts on an eigenvector of the derivative by its value at the eigenvalue. -/
theorem spectral_eigen {dim : Nat} {gamma : ℝ} {nrm : Nat → ℝ} {s : State ℝ} {g : Eig ℝ}
    (hE : ∀ i j : Nat, i < dim + 2 → j < dim + 2 →
      jac dim gamma nrm s (fun k => g.right k j) (lawAt dim i) = g.lam j * g.right i j)
    (hI : ∀ (w : Nat → ℝ) (i : Nat), i < dim + 2 →
      ∑ j ∈ Finset.range (dim + 2), g.right i j * ∑ k ∈ Finset.range (dim + 2), g.left j k * w k = w i)
    (hl : ∀ i : Nat, i < dim + 2 → (lawAt dim i).ok dim) {w : Nat → ℝ} {μ : ℝ}
    (hw : ∀ i : Nat, i < dim + 2 → jac dim gamma nrm s w (lawAt dim i) = μ * w i) (f : ℝ → ℝ) {i : Nat}
    (hi : i < dim + 2) : spectral (dim + 2) g f w i = f μ * w i := by
  have hα : ∀ j : Nat, j < dim + 2 → (g.lam j - μ) * (∑ k ∈ Finset.range (dim + 2), g.left j k * w k) = 0 := by
    intro j hj
    have h1 := left_right hI (fun j => (∑ k ∈ Finset.range (dim + 2), g.left j k * w k) * g.lam j) hj
    have h2 : ∑ m ∈ Finset.range (dim + 2), g.left j m * ∑ k ∈ Finset.range (dim + 2), g.right m k *
        ((∑ q ∈ Finset.range (dim + 2), g.left k q * w q) * g.lam k) =
        μ * ∑ m ∈ Finset.range (dim + 2), g.left j m * w m := by
      rw [Finset.mul_sum]
      refine Finset.sum_congr rfl fun m hm => ?_
      have hm' := Finset.mem_range.mp hm
      have h3 := hw m hm'
      rw [jac_spectral hE hI w hm' (hl m hm'), spectral_eq] at h3
      rw [h3]
      ring
    rw [h2] at h1
    linear_combination -h1
  rw [spectral_eq]
  have e : ∀ j : Nat, j ∈ Finset.range (dim + 2) →
      g.right i j * ((∑ k ∈ Finset.range (dim + 2), g.left j k * w k) * f (g.lam j)) =
      f μ * (g.right i j * ∑ k ∈ Finset.range (dim + 2), g.left j k * w k) := by
    intro j hj
    rcases mul_eq_zero.mp (hα j (Finset.mem_range.mp hj)) with h | h
    · rw [sub_eq_zero.mp h]; ring
    · rw [h]; ring
  rw [Finset.sum_congr rfl e, ← Finset.mul_sum, hI w i hi]

theorem lawAt_ok {dim : Nat} {i : Nat} (hi : i < dim + 2) : (lawAt dim i).ok dim := by
  unfold lawAt
  by_cases h0 : i = 0
  · rw [if_pos h0]; trivial
  · rw [if_neg h0]
    by_cases h1 : i = dim + 1
    · rw [if_pos h1]; trivial
    · rw [if_neg h1]
      show i - 1 < dim
      omega

end MrHyDE.Modules.Euler
