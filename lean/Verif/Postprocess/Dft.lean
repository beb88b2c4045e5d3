import Mathlib.Analysis.SpecialFunctions.Trigonometric.Basic
import Mathlib.Analysis.SpecialFunctions.Complex.Log
import Mathlib.Tactic.NormNum

/-! # C89: discrete Fourier transform of the solution at a sensor

`computeSensorSolution` (/repo/src/managers/postprocess/postprocessManager_sensors.hpp:1208-1233). -/

namespace MrHyDE.Postprocess.Dft

open Complex

/-- The transform of one component at one sensor after one more recorded value `u`; the quotient `k * j / N` is one of integers
(nonnegative ones: Lean's natural division); postprocessManager_sensors.hpp:1220-1232. -/
noncomputable def step (N : Nat) (dft : Nat → ℂ) (u : ℝ) : Nat → ℂ :=
  (List.range N).foldl (fun d j => fun k => if k < N then d k + (u : ℂ) * exp (I * (((k * j / N : Nat) : ℂ) * (-2 * Real.pi)))
    else d k) dft

/-- The transform after the recorded values, starting with a new view of zeros; postprocessManager_sensors.hpp:1212-1219. -/
noncomputable def code (N : Nat) (us : List ℝ) : Nat → ℂ := us.foldl (step N) (fun _ => 0)

/-- The discrete Fourier transform of the values at frequency `k` of `N`, values numbered from `t`. [specification, no code] -/
noncomputable def transform (N k : Nat) : List ℝ → Nat → ℂ
  | [], _ => 0
  | u :: us, t => (u : ℂ) * exp (-2 * Real.pi * I * ((k : ℂ) * (t : ℂ) / (N : ℂ))) + transform N k us (t + 1)

theorem exp_whole (m : Nat) : exp (I * ((m : ℂ) * (-2 * Real.pi))) = 1 := by
  rw [Complex.exp_eq_one_iff]
  refine ⟨-(m : ℤ), ?_⟩
  push_cast
  ring

theorem step_fold (N : Nat) (u : ℝ) (k : Nat) (hk : k < N) : ∀ (l : List Nat) (d : Nat → ℂ),
    l.foldl (fun d j => fun k => if k < N then d k + (u : ℂ) * exp (I * (((k * j / N : Nat) : ℂ) * (-2 * Real.pi))) else d k) d k =
      d k + (l.length : ℂ) * u := by
  intro l
  induction l with
  | nil => intro d; simp
  | cons j l ih =>
    intro d
    rw [List.foldl_cons, ih]
    rw [if_pos hk, exp_whole, List.length_cons]
    push_cast
    ring

theorem step_eq (N : Nat) (d : Nat → ℂ) (u : ℝ) (k : Nat) (hk : k < N) : step N d u k = d k + (N : ℂ) * u := by
  unfold step
  rw [step_fold N u k hk]
  simp

/-- C89 is false: at every frequency the reported transform is the number of frequencies times the sum of the values. -/
theorem C89_violated (N : Nat) (us : List ℝ) (k : Nat) (hk : k < N) : code N us k = (N : ℂ) * ((us.sum : ℝ) : ℂ) := by
  have : ∀ (us : List ℝ) (d : Nat → ℂ), us.foldl (step N) d k = d k + (N : ℂ) * ((us.sum : ℝ) : ℂ) := by
    intro us
    induction us with
    | nil => intro d; simp
    | cons u us ih =>
      intro d
      rw [List.foldl_cons, ih, step_eq N d u k hk, List.sum_cons]
      push_cast
      ring
  unfold code
  rw [this]
  simp

theorem transform_zero (N : Nat) : ∀ (us : List ℝ) (t : Nat), transform N 0 us t = ((us.sum : ℝ) : ℂ) := by
  intro us
  induction us with
  | nil => intro t; simp [transform]
  | cons u us ih =>
    intro t
    rw [transform, ih, List.sum_cons]
    simp

/-- C89, partial: the transform is right with a single frequency; with several, that at frequency zero is too large by their
number.  Missing: all other frequencies, see `C89_violated`. -/
theorem C89_partial (us : List ℝ) : code 1 us 0 = transform 1 0 us 0 ∧
    ∀ N, 0 < N → code N us 0 = (N : ℂ) * transform N 0 us 0 := by
  constructor
  · rw [C89_violated 1 us 0 (by omega), transform_zero]
    simp
  · intro N hN
    rw [C89_violated N us 0 hN, transform_zero]

/-- An oscillation with period two: the transform at the frequency of the oscillation is two, the reported one is zero. -/
theorem C89_witness : code 2 [1, -1] 1 = 0 ∧ transform 2 1 [1, -1] 0 = 2 := by
  constructor
  · rw [C89_violated 2 _ 1 (by omega)]
    simp
  · have h : exp (-2 * (Real.pi : ℂ) * I * (((1 : Nat) : ℂ) * ((0 + 1 : Nat) : ℂ) / ((2 : Nat) : ℂ))) = -1 := by
      have : -2 * (Real.pi : ℂ) * I * (((1 : Nat) : ℂ) * ((0 + 1 : Nat) : ℂ) / ((2 : Nat) : ℂ)) = -(Real.pi * I) := by
        push_cast
        ring
      rw [this, Complex.exp_neg, Complex.exp_pi_mul_I]
      norm_num
    rw [transform, transform, transform, h]
    push_cast
    simp
    norm_num

/-- A sensor recorded three times. -/
example : code 1 [1, 2, 4] 0 = 7 := by
  rw [C89_violated 1 _ 0 (by omega)]
  norm_num

end MrHyDE.Postprocess.Dft
