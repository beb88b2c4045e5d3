import Mathlib.Analysis.SpecialFunctions.Pow.Real
import Mathlib.Analysis.Complex.Trigonometric
import Mathlib.Analysis.Complex.Exponential
import Mathlib.Algebra.Order.Round
import Mathlib.Data.Rat.Floor
import Mathlib.Tactic.Linarith
import Mathlib.Tactic.LinearCombination
import Mathlib.Tactic.NormNum
import Mathlib.Tactic.Positivity
import Mathlib.Tactic.FieldSimp

/-!
# The speed of a fire (C135)

`rothermal` computes the rate of spread of a fire in a cell from the properties of the fuel, and corrects it for fuel, wind and slope.
-/

set_option linter.unusedSectionVars false
set_option linter.unusedSimpArgs false

namespace MrHyDE.Modules.Rothermal

/-! ## Model -/

/-- The data of a cell, src/physics/rothermal.cpp:64-71: load, depth, ratio of surface to volume and moisture of extinction of the
fuel. -/
structure Fuel where
  w0 : ℝ
  delta : ℝ
  sigma : ℝ
  mx : ℝ

/-- The constants of the fuel, src/physics/rothermal.cpp:76-80: heat content. -/
noncomputable def heat : ℝ := 8000
/-- Density of the particles, src/physics/rothermal.cpp:77. -/
noncomputable def rhoP : ℝ := 32
/-- Moisture of the fuel, src/physics/rothermal.cpp:78. -/
noncomputable def mf : ℝ := 0.01
/-- Total mineral content, src/physics/rothermal.cpp:79. -/
noncomputable def st : ℝ := 0.0555
/-- Effective mineral content, src/physics/rothermal.cpp:80. -/
noncomputable def se : ℝ := 0.010

/-- Division in the formulas, src/physics/rothermal.cpp:266, 271, 278, 279, 330; `none`: the divisor is zero and the rate of spread
becomes "not a number" (an infinity is always multiplied with zero or subtracted from another one later). -/
noncomputable def div (x y : ℝ) : Option ℝ := if y = 0 then none else some (x / y)

/-- Powers, src/physics/rothermal.cpp:269-273, 328; `none` as above for a base that is not positive. -/
noncomputable def pow (x a : ℝ) : Option ℝ := if 0 < x then some (x ^ a) else none

/-- `baseEquationsResult`, src/physics/rothermal.hpp:170-184. -/
structure Base where
  gammaMax : ℝ
  betaOp : ℝ
  a : ℝ
  etaM : ℝ
  etaS : ℝ
  wn : ℝ
  rhoB : ℝ
  eps : ℝ
  qig : ℝ

/-- `computeBaseEquations`, src/physics/rothermal.cpp:250-283. -/
noncomputable def base (f : Fuel) : Option Base := do
  let r ← div mf f.mx
  let s15 ← pow f.sigma 1.5
  let so ← pow f.sigma (-0.8189)
  let s01 ← pow f.sigma 0.1
  let a ← div 1 (4.774 * s01 - 7.27)
  let es ← pow se (-0.19)
  let rhoB ← div f.w0 f.delta
  let e ← div (-138) f.sigma
  return { gammaMax := s15 / (495 + 0.0594 * s15), betaOp := 3.348 * so, a := a,
           etaM := 1 - 2.59 * r + 5.11 * r ^ 2 - 3.52 * r ^ 3, etaS := 0.174 * es, wn := f.w0 / (1 + st), rhoB := rhoB,
           eps := Real.exp e, qig := 250 + 1116 * mf }

/-- `computeRothermals`, src/physics/rothermal.cpp:292-334. -/
noncomputable def rothermals (f : Fuel) : Option ℝ := do
  let b ← base f
  let beta := b.rhoB / rhoP
  let s05 ← pow f.sigma 0.5
  let xi := Real.exp ((0.792 + 0.681 * s05) * (beta + 0.1)) / (192 + 0.2595 * f.sigma)
  let ratio ← div beta b.betaOp
  let g ← pow ratio b.a
  let gamma := b.gammaMax * g * Real.exp (b.a * (1 - ratio))
  let ir := gamma * b.wn * heat * b.etaM * b.etaS
  div (ir * xi) (b.rhoB * b.eps * b.qig)

/-- The numbers of the settings and the length of the diagonal of the mesh, src/physics/rothermal.cpp:37-48, 114 and
src/physics/rothermal.hpp:153-167. -/
structure Conf where
  burn : ℝ := 1
  wind : ℝ := 1
  slope : ℝ := 1
  fthresh : ℝ := 5 / 100
  hscale : ℝ := 1
  diag : ℝ
  tol : ℝ := 1 / 10 ^ 8

/-- `heaviside`, src/physics/rothermal.cpp:101-104. -/
noncomputable def heaviside (x : ℝ) : ℝ := 0.5 * (1 + Real.tanh x)

/-- A vector divided by its length, with the tolerance, src/physics/rothermal.cpp:414-419. -/
noncomputable def normal (c : Conf) (g : ℝ × ℝ) : ℝ × ℝ :=
  let inv := 1 / Real.sqrt (g.1 * g.1 + g.2 * g.2 + c.tol * c.tol)
  (g.1 * inv, g.2 * inv)

/-- What is read at one point, src/physics/rothermal.cpp:402-442: level set and gradient, wind, slope of the ground, whether there is
fuel. -/
structure Pt where
  phi : ℝ
  g : ℝ × ℝ
  w : ℝ × ℝ
  s : ℝ × ℝ
  isFuel : ℝ

/-- The scaled level set, src/physics/rothermal.cpp:408. -/
noncomputable def phiScaled (c : Conf) (q : Pt) : ℝ := c.hscale * 2 * q.phi / c.diag

/-- The weight of wind and slope, src/physics/rothermal.cpp:411. -/
noncomputable def gate (c : Conf) (q : Pt) : ℝ := Real.exp (-(phiScaled c q * phiScaled c q))

/-- `fuelCorrection_`, src/physics/rothermal.cpp:422-423. -/
noncomputable def fuelCorrection (c : Conf) (q : Pt) : ℝ := heaviside (c.burn * phiScaled c q - c.fthresh)

/-- `windCorrection_`, src/physics/rothermal.cpp:426-430. -/
noncomputable def windCorrection (c : Conf) (q : Pt) : ℝ :=
  let n := normal c q.g
  let comp := q.w.1 * n.1 + q.w.2 * n.2
  let norm := Real.sqrt (q.w.1 * q.w.1 + q.w.2 * q.w.2 + c.tol * c.tol)
  Real.exp (gate c q * c.wind * (comp / (1 + norm)))

/-- `slopeCorrection_`, src/physics/rothermal.cpp:433-439. -/
noncomputable def slopeCorrection (c : Conf) (q : Pt) : ℝ :=
  let n := normal c q.g
  let comp := q.s.1 * n.1 + q.s.2 * n.2
  let norm := Real.sqrt (q.s.1 * q.s.1 + q.s.2 * q.s.2 + c.tol * c.tol)
  Real.exp (gate c q * c.slope * comp / (1 + norm))

/-- `ROS_` for a given rate without wind and slope, src/physics/rothermal.cpp:445-449. -/
noncomputable def ros (c : Conf) (r : ℝ) (q : Pt) : ℝ :=
  r * fuelCorrection c q * windCorrection c q * slopeCorrection c q * q.isFuel

/-- `computeFields` on one element, src/physics/rothermal.cpp:387-451: the pairs (`Rothermal_`, `ROS_`) at the points.  `ext` are the
values of the given rate at the points, if one is given (399, 442; `none` as well where the element has no points). -/
noncomputable def computeFields (c : Conf) (f : Fuel) (ext : Option (List ℝ)) (pts : List Pt) : Option (List (ℝ × ℝ)) :=
  match ext with
  | none => (rothermals f).map fun r0 => pts.map fun q => (r0, ros c r0 q)
  | some rs => rs.head?.map fun r0 => List.zipWith (fun r q => (r0, ros c r q)) rs pts

/-- The value of the function `Hphi_scale`, src/physics/levelSet.cpp:59, 75-79: the scale is read from another list than in
src/physics/rothermal.cpp:42, with default ten, and the number is written with six decimals. -/
def hphiScale (listed : Option ℚ) (diag : ℚ) : ℚ :=
  let hs := listed.getD 10
  (round (2 * hs / diag * 10 ^ 6) : ℚ) / 10 ^ 6

/-- The scale of the level set, src/physics/rothermal.cpp:42, 408 with the default of src/physics/rothermal.hpp:164. -/
def phiScale (set : Option ℚ) (diag : ℚ) : ℚ := set.getD 1 * 2 / diag

/-! ## Specification -/

/-- The reaction velocity relative to its maximum, as a function of the packing ratio relative to the optimal one.
[specification, no code] -/
noncomputable def reaction (a x : ℝ) : ℝ := (x * Real.exp (1 - x)) ^ a

/-- Rotation of the plane.  [specification, no code] -/
def turn (co si : ℝ) (v : ℝ × ℝ) : ℝ × ℝ := (co * v.1 - si * v.2, si * v.1 + co * v.2)

/-- Scalar product.  [specification, no code] -/
def inner (v w : ℝ × ℝ) : ℝ := v.1 * w.1 + v.2 * w.2

/-- A cell with fuel for which the formulas are defined.  [specification, no code] -/
def Burnable (f : Fuel) : Prop := 0 < f.w0 ∧ 0 < f.delta ∧ 0 < f.sigma ∧ 0 < f.mx ∧ 4.774 * f.sigma ^ (0.1 : ℝ) ≠ 7.27

/-- The maximal reaction velocity.  [specification, no code] -/
noncomputable def gammaMax (f : Fuel) : ℝ := f.sigma ^ (1.5 : ℝ) / (495 + 0.0594 * f.sigma ^ (1.5 : ℝ))

/-- The exponent.  [specification, no code] -/
noncomputable def expo (f : Fuel) : ℝ := 1 / (4.774 * f.sigma ^ (0.1 : ℝ) - 7.27)

/-- The packing ratio relative to the optimal one.  [specification, no code] -/
noncomputable def packing (f : Fuel) : ℝ := f.w0 / f.delta / 32 / (3.348 * f.sigma ^ (-0.8189 : ℝ))

/-- The propagating flux ratio.  [specification, no code] -/
noncomputable def xi (f : Fuel) : ℝ :=
  Real.exp ((0.792 + 0.681 * f.sigma ^ (0.5 : ℝ)) * (f.w0 / f.delta / 32 + 0.1)) / (192 + 0.2595 * f.sigma)

/-- Damping by moisture, with its zero at the moisture of extinction factored out.  [specification, no code] -/
noncomputable def moisture (x : ℝ) : ℝ := (1 - x) * (1 - 1.59 * x + 3.52 * x ^ 2)

/-! ## Lemmas -/

theorem moisture_eq (r : ℝ) : 1 - 2.59 * r + 5.11 * r ^ 2 - 3.52 * r ^ 3 = moisture r := by
  unfold moisture; ring

theorem quadratic_pos (x : ℝ) : 0 < 1 - 1.59 * x + 3.52 * x ^ 2 := by
  nlinarith [sq_nonneg (x - 0.2)]

theorem heaviside_pos (x : ℝ) : 0 < heaviside x := by
  have h := Real.tanh_lt_one (-x)
  rw [Real.tanh_neg] at h
  unfold heaviside
  linarith

theorem heaviside_lt (x : ℝ) : heaviside x < 1 := by
  have h := Real.tanh_lt_one x
  unfold heaviside
  linarith

theorem tanh_pos {x : ℝ} (h : 0 < x) : 0 < Real.tanh x := by
  rw [Real.tanh_eq]
  have h1 : Real.exp (-x) < Real.exp x := Real.exp_lt_exp.2 (by linarith)
  exact div_pos (by linarith) (by positivity)

/-- Size of a component.  [helper] -/
theorem comp_abs (c : Conf) (ht : 0 < c.tol) (g w : ℝ × ℝ) :
    |w.1 * (normal c g).1 + w.2 * (normal c g).2| ≤ Real.sqrt (w.1 * w.1 + w.2 * w.2 + c.tol * c.tol) := by
  refine Real.abs_le_sqrt ?_
  have hp : 0 < g.1 * g.1 + g.2 * g.2 + c.tol * c.tol := by nlinarith [mul_self_nonneg g.1, mul_self_nonneg g.2, mul_pos ht ht]
  have hs : 0 < Real.sqrt (g.1 * g.1 + g.2 * g.2 + c.tol * c.tol) := Real.sqrt_pos.2 hp
  have h2 : Real.sqrt (g.1 * g.1 + g.2 * g.2 + c.tol * c.tol) ^ 2 = g.1 * g.1 + g.2 * g.2 + c.tol * c.tol := Real.sq_sqrt hp.le
  have e : (w.1 * (normal c g).1 + w.2 * (normal c g).2) ^ 2
      = (w.1 * g.1 + w.2 * g.2) ^ 2 / (g.1 * g.1 + g.2 * g.2 + c.tol * c.tol) := by
    simp only [normal]
    rw [eq_div_iff hp.ne']
    nth_rewrite 3 [← h2]
    field_simp
  rw [e, div_le_iff₀ hp]
  have t2 : 0 ≤ c.tol * c.tol := mul_self_nonneg _
  nlinarith [sq_nonneg (w.1 * g.2 - w.2 * g.1), mul_self_nonneg g.1, mul_self_nonneg g.2, mul_self_nonneg w.1, mul_self_nonneg w.2,
    mul_nonneg t2 (mul_self_nonneg w.1), mul_nonneg t2 (mul_self_nonneg w.2), mul_nonneg t2 (mul_self_nonneg g.1),
    mul_nonneg t2 (mul_self_nonneg g.2), mul_nonneg t2 t2]

theorem frac_abs (c : Conf) (ht : 0 < c.tol) (g w : ℝ × ℝ) :
    |(w.1 * (normal c g).1 + w.2 * (normal c g).2) / (1 + Real.sqrt (w.1 * w.1 + w.2 * w.2 + c.tol * c.tol))| ≤ 1 := by
  have hs := Real.sqrt_nonneg (w.1 * w.1 + w.2 * w.2 + c.tol * c.tol)
  rw [abs_div, abs_of_pos (by linarith : 0 < 1 + Real.sqrt (w.1 * w.1 + w.2 * w.2 + c.tol * c.tol)),
    div_le_one (by linarith)]
  linarith [comp_abs c ht g w]

theorem gate_le (c : Conf) (q : Pt) : gate c q ≤ 1 := by
  unfold gate
  rw [Real.exp_le_one_iff]
  nlinarith [mul_self_nonneg (phiScaled c q)]

theorem gate_pos (c : Conf) (q : Pt) : 0 < gate c q := Real.exp_pos _

theorem wind_log (c : Conf) (ht : 0 < c.tol) (q : Pt) : |Real.log (windCorrection c q)| ≤ |c.wind| * gate c q := by
  simp only [windCorrection, Real.log_exp]
  rw [abs_mul, abs_mul, abs_of_pos (gate_pos c q)]
  have := frac_abs c ht q.g q.w
  nlinarith [mul_nonneg (gate_pos c q).le (abs_nonneg c.wind)]

theorem slope_log (c : Conf) (ht : 0 < c.tol) (q : Pt) : |Real.log (slopeCorrection c q)| ≤ |c.slope| * gate c q := by
  simp only [slopeCorrection, Real.log_exp]
  rw [mul_div_assoc, abs_mul, abs_mul, abs_of_pos (gate_pos c q)]
  have := frac_abs c ht q.g q.s
  nlinarith [mul_nonneg (gate_pos c q).le (abs_nonneg c.slope)]

theorem wind_pos (c : Conf) (q : Pt) : 0 < windCorrection c q := Real.exp_pos _

theorem slope_pos (c : Conf) (q : Pt) : 0 < slopeCorrection c q := Real.exp_pos _

theorem between {x b : ℝ} (hx : 0 < x) (h : |Real.log x| ≤ b) : Real.exp (-b) ≤ x ∧ x ≤ Real.exp b := by
  obtain ⟨h1, h2⟩ := abs_le.1 h
  constructor
  · rw [← Real.exp_log hx]; exact Real.exp_le_exp.2 h1
  · rw [← Real.exp_log hx]; exact Real.exp_le_exp.2 h2

theorem wind_between (c : Conf) (ht : 0 < c.tol) (q : Pt) :
    Real.exp (-|c.wind|) ≤ windCorrection c q ∧ windCorrection c q ≤ Real.exp |c.wind| :=
  between (wind_pos c q) ((wind_log c ht q).trans (by nlinarith [gate_le c q, abs_nonneg c.wind]))

theorem slope_between (c : Conf) (ht : 0 < c.tol) (q : Pt) :
    Real.exp (-|c.slope|) ≤ slopeCorrection c q ∧ slopeCorrection c q ≤ Real.exp |c.slope| :=
  between (slope_pos c q) ((slope_log c ht q).trans (by nlinarith [gate_le c q, abs_nonneg c.slope]))

/-! ## Properties: the rate without wind and slope -/

theorem packing_pos {f : Fuel} (h : Burnable f) : 0 < packing f := by
  obtain ⟨h1, h2, h3, -, -⟩ := h
  unfold packing
  have := Real.rpow_pos_of_pos h3 (-0.8189)
  positivity

/-- C135: in a cell with fuel the rate is that of Rothermel's model: the intensity of the reaction times the part that propagates,
over the heat that ignites the fuel ahead. -/
theorem C135_rothermel {f : Fuel} (h : Burnable f) :
    rothermals f = some (gammaMax f * reaction (expo f) (packing f) * (f.w0 / (1 + 0.0555)) * 8000 * moisture (0.01 / f.mx)
        * (0.174 * (0.010 : ℝ) ^ (-0.19 : ℝ)) * xi f
      / (f.w0 / f.delta * Real.exp (-138 / f.sigma) * (250 + 1116 * 0.01))) := by
  obtain ⟨h1, h2, h3, h4, h5⟩ := h
  have hp := packing_pos ⟨h1, h2, h3, h4, h5⟩
  have h6 : 4.774 * f.sigma ^ (0.1 : ℝ) - 7.27 ≠ 0 := sub_ne_zero.2 h5
  have h7 := Real.rpow_pos_of_pos h3 (-0.8189)
  have h8 : 3.348 * f.sigma ^ (-0.8189 : ℝ) ≠ 0 := by positivity
  have h9 : f.w0 / f.delta * Real.exp (-138 / f.sigma) * (250 + 1116 * mf) ≠ 0 := by
    have : (0 : ℝ) < 250 + 1116 * mf := by norm_num [mf]
    have := Real.exp_pos (-138 / f.sigma)
    positivity
  have hb : base f = some {
      gammaMax := gammaMax f, betaOp := 3.348 * f.sigma ^ (-0.8189 : ℝ), a := expo f,
      etaM := 1 - 2.59 * (mf / f.mx) + 5.11 * (mf / f.mx) ^ 2 - 3.52 * (mf / f.mx) ^ 3, etaS := 0.174 * se ^ (-0.19 : ℝ),
      wn := f.w0 / (1 + st), rhoB := f.w0 / f.delta, eps := Real.exp (-138 / f.sigma), qig := 250 + 1116 * mf } := by
    have hse : 0 < se := by norm_num [se]
    simp only [base, div, pow, if_neg h4.ne', if_pos h3, if_neg h6, if_pos hse, if_neg h2.ne', if_neg h3.ne', Option.bind_eq_bind,
      Option.bind_some, Option.pure_def, gammaMax, expo]
  have hr : 0 < f.w0 / f.delta / rhoP / (3.348 * f.sigma ^ (-0.8189 : ℝ)) := by simpa [packing, rhoP] using hp
  have hre : reaction (expo f) (packing f) = packing f ^ expo f * Real.exp (expo f * (1 - packing f)) := by
    rw [reaction, Real.mul_rpow hp.le (Real.exp_pos _).le, ← Real.exp_mul]
    ring_nf
  simp only [rothermals, hb, Option.bind_eq_bind, Option.bind_some, div, pow, if_pos h3, if_neg h8, if_pos hr, if_neg h9, Option.some.injEq]
  rw [moisture_eq, hre]
  simp only [packing, xi, rhoP, mf, st, se, heat]
  ring

/-- C135: the rate is positive exactly where the fuel is drier than its moisture of extinction. -/
theorem C135_sign {f : Fuel} (h : Burnable f) : ∃ r : ℝ, rothermals f = some r ∧ (0 < r ↔ 0.01 < f.mx) ∧ (r = 0 ↔ f.mx = 0.01) := by
  refine ⟨_, C135_rothermel h, ?_⟩
  have hp := packing_pos h
  obtain ⟨h1, h2, h3, h4, h5⟩ := h
  have hg : 0 < gammaMax f := by
    unfold gammaMax
    have := Real.rpow_pos_of_pos h3 1.5
    positivity
  have hre : 0 < reaction (expo f) (packing f) := Real.rpow_pos_of_pos (mul_pos hp (Real.exp_pos _)) _
  have hx : 0 < xi f := by unfold xi; have := Real.rpow_pos_of_pos h3 0.5; positivity
  have hs : (0 : ℝ) < 0.174 * (0.010 : ℝ) ^ (-0.19 : ℝ) := by
    have := Real.rpow_pos_of_pos (by norm_num : (0 : ℝ) < 0.010) (-0.19)
    positivity
  obtain ⟨k, hk, he⟩ : ∃ k : ℝ, 0 < k ∧ gammaMax f * reaction (expo f) (packing f) * (f.w0 / (1 + 0.0555)) * 8000
      * moisture (0.01 / f.mx) * (0.174 * (0.010 : ℝ) ^ (-0.19 : ℝ)) * xi f
      / (f.w0 / f.delta * Real.exp (-138 / f.sigma) * (250 + 1116 * 0.01)) = k * (f.mx - 0.01) := by
    refine ⟨gammaMax f * reaction (expo f) (packing f) * (f.w0 / (1 + 0.0555)) * 8000
      * (1 - 1.59 * (0.01 / f.mx) + 3.52 * (0.01 / f.mx) ^ 2) * (0.174 * (0.010 : ℝ) ^ (-0.19 : ℝ)) * xi f
      / (f.w0 / f.delta * Real.exp (-138 / f.sigma) * (250 + 1116 * 0.01)) / f.mx, ?_, ?_⟩
    · have := quadratic_pos (0.01 / f.mx)
      have := Real.exp_pos (-138 / f.sigma)
      positivity
    · have hm : moisture (0.01 / f.mx) = (1 - 1.59 * (0.01 / f.mx) + 3.52 * (0.01 / f.mx) ^ 2) / f.mx * (f.mx - 0.01) := by
        unfold moisture
        field_simp
      rw [hm]
      ring
  rw [he]
  constructor
  · rw [mul_pos_iff_of_pos_left hk, sub_pos]
  · rw [mul_eq_zero, or_iff_right hk.ne', sub_eq_zero]

/-- C135: the optimal packing ratio is optimal: the reaction velocity is at most the maximal one and reaches it there, for fuels finer
than those whose exponent changes its sign. -/
theorem C135_optimum {a x : ℝ} (ha : 0 < a) (hx : 0 < x) : reaction a x ≤ 1 ∧ (x = 1 → reaction a x = 1) := by
  constructor
  · refine Real.rpow_le_one (by positivity) ?_ ha.le
    have h := Real.add_one_le_exp (x - 1)
    have e : Real.exp (x - 1) * Real.exp (1 - x) = 1 := by rw [← Real.exp_add]; simp
    nlinarith [Real.exp_pos (1 - x)]
  · rintro rfl
    simp [reaction]

/-! ## Properties: the corrections -/

/-- C135: the speed lies between the rate and the corrections for wind and slope; the corrections are bounded by the constants of the
settings, however strong the wind and steep the ground. -/
theorem C135_bounds (c : Conf) (ht : 0 < c.tol) {r : ℝ} (hr : 0 ≤ r) (q : Pt) (h0 : 0 ≤ q.isFuel) (h1 : q.isFuel ≤ 1) :
    0 ≤ ros c r q ∧ ros c r q ≤ r * Real.exp (|c.wind| + |c.slope|) ∧
    r * fuelCorrection c q * q.isFuel * Real.exp (-(|c.wind| + |c.slope|)) ≤ ros c r q := by
  obtain ⟨w0, w1⟩ := wind_between c ht q
  obtain ⟨s0, s1⟩ := slope_between c ht q
  have f0 := heaviside_pos (c.burn * phiScaled c q - c.fthresh)
  have f1 := heaviside_lt (c.burn * phiScaled c q - c.fthresh)
  have wp := wind_pos c q
  have sp := slope_pos c q
  have hws : windCorrection c q * slopeCorrection c q ≤ Real.exp (|c.wind| + |c.slope|) := by
    rw [Real.exp_add]; exact mul_le_mul w1 s1 sp.le (Real.exp_pos _).le
  have hws' : Real.exp (-(|c.wind| + |c.slope|)) ≤ windCorrection c q * slopeCorrection c q := by
    rw [neg_add, Real.exp_add]; exact mul_le_mul w0 s0 (Real.exp_pos _).le wp.le
  have ff0 : 0 < fuelCorrection c q := f0
  have ff1 : fuelCorrection c q < 1 := f1
  have e : ros c r q = r * (fuelCorrection c q * q.isFuel) * (windCorrection c q * slopeCorrection c q) := by unfold ros; ring
  have p1 : 0 ≤ fuelCorrection c q * q.isFuel := by positivity
  have p2 : fuelCorrection c q * q.isFuel ≤ 1 := by nlinarith
  have p3 : 0 < windCorrection c q * slopeCorrection c q := by positivity
  refine ⟨by rw [e]; positivity, ?_, ?_⟩
  · rw [e, mul_assoc]
    refine mul_le_mul_of_nonneg_left ?_ hr
    nlinarith
  · rw [e, ← mul_assoc r]
    exact mul_le_mul_of_nonneg_left hws' (mul_nonneg (mul_nonneg hr ff0.le) h0)

/-- C135: a fire stands only where its rate is zero or there is no fuel. -/
theorem C135_stands (c : Conf) (r : ℝ) (q : Pt) : ros c r q = 0 ↔ r = 0 ∨ q.isFuel = 0 := by
  have h1 : fuelCorrection c q ≠ 0 := (heaviside_pos _).ne'
  have h2 := (wind_pos c q).ne'
  have h3 := (slope_pos c q).ne'
  simp [ros, h1, h2, h3]

/-- C135: wind with the front makes it faster, against it slower, along it does not matter; the same for the slope of the ground. -/
theorem C135_direction (c : Conf) (ht : 0 < c.tol) (hw : 0 < c.wind) (hs : 0 < c.slope) (q : Pt) :
    ((1 < windCorrection c q ↔ 0 < inner q.w q.g) ∧ (windCorrection c q = 1 ↔ inner q.w q.g = 0)) ∧
    ((1 < slopeCorrection c q ↔ 0 < inner q.s q.g) ∧ (slopeCorrection c q = 1 ↔ inner q.s q.g = 0)) := by
  have hp : 0 < q.g.1 * q.g.1 + q.g.2 * q.g.2 + c.tol * c.tol := by
    nlinarith [mul_self_nonneg q.g.1, mul_self_nonneg q.g.2, mul_pos ht ht]
  have hsq : 0 < Real.sqrt (q.g.1 * q.g.1 + q.g.2 * q.g.2 + c.tol * c.tol) := Real.sqrt_pos.2 hp
  have hg := gate_pos c q
  have key : ∀ (k : ℝ) (v : ℝ × ℝ), 0 < k → ∃ m : ℝ, 0 < m ∧ gate c q * k * ((v.1 * (normal c q.g).1 + v.2 * (normal c q.g).2)
      / (1 + Real.sqrt (v.1 * v.1 + v.2 * v.2 + c.tol * c.tol))) = m * inner v q.g := by
    intro k v hk
    refine ⟨gate c q * k / (1 + Real.sqrt (v.1 * v.1 + v.2 * v.2 + c.tol * c.tol))
      / Real.sqrt (q.g.1 * q.g.1 + q.g.2 * q.g.2 + c.tol * c.tol), by positivity, ?_⟩
    simp only [normal, inner]
    ring
  obtain ⟨m, hm, em⟩ := key c.wind q.w hw
  obtain ⟨n, hn, en⟩ := key c.slope q.s hs
  have ew : windCorrection c q = Real.exp (m * inner q.w q.g) := by rw [← em]; rfl
  have es : slopeCorrection c q = Real.exp (n * inner q.s q.g) := by
    rw [← en]; simp only [slopeCorrection, mul_div_assoc]
  rw [ew, es]
  refine ⟨⟨?_, ?_⟩, ?_, ?_⟩
  · rw [Real.one_lt_exp_iff, mul_pos_iff_of_pos_left hm]
  · rw [Real.exp_eq_one_iff, mul_eq_zero, or_iff_right hm.ne']
  · rw [Real.one_lt_exp_iff, mul_pos_iff_of_pos_left hn]
  · rw [Real.exp_eq_one_iff, mul_eq_zero, or_iff_right hn.ne']

/-- C135: wind and slope act at the front only: the logarithms of the corrections decay with the square of the scaled distance. -/
theorem C135_front (c : Conf) (ht : 0 < c.tol) (q : Pt) :
    |Real.log (windCorrection c q)| ≤ |c.wind| * Real.exp (-(c.hscale * 2 * q.phi / c.diag) ^ 2) ∧
    |Real.log (slopeCorrection c q)| ≤ |c.slope| * Real.exp (-(c.hscale * 2 * q.phi / c.diag) ^ 2) := by
  have e : Real.exp (-(c.hscale * 2 * q.phi / c.diag) ^ 2) = gate c q := by
    unfold gate phiScaled; congr 1; ring
  rw [e]
  exact ⟨wind_log c ht q, slope_log c ht q⟩

/-- C135: the speed does not depend on the axes: turning gradient, wind and slope together leaves it as it is. -/
theorem C135_turn (c : Conf) (r : ℝ) (q : Pt) {co si : ℝ} (h : co ^ 2 + si ^ 2 = 1) :
    ros c r { q with g := turn co si q.g, w := turn co si q.w, s := turn co si q.s } = ros c r q := by
  have n : ∀ v : ℝ × ℝ, (turn co si v).1 * (turn co si v).1 + (turn co si v).2 * (turn co si v).2 = v.1 * v.1 + v.2 * v.2 := by
    intro v
    simp only [turn]
    linear_combination (v.1 ^ 2 + v.2 ^ 2) * h
  have m : ∀ v : ℝ × ℝ, (turn co si v).1 * (normal c (turn co si q.g)).1 + (turn co si v).2 * (normal c (turn co si q.g)).2
      = v.1 * (normal c q.g).1 + v.2 * (normal c q.g).2 := by
    intro v
    simp only [normal, n]
    simp only [turn]
    linear_combination (v.1 * q.g.1 + v.2 * q.g.2) * (1 / Real.sqrt (q.g.1 * q.g.1 + q.g.2 * q.g.2 + c.tol * c.tol)) * h
  simp only [ros, fuelCorrection, windCorrection, slopeCorrection, gate, phiScaled, m, n]

/-- C135: with a rate given at the points the speed at every point comes from the value there. -/
theorem C135_external (c : Conf) (f : Fuel) (rs : List ℝ) (pts : List Pt) (h : rs.length = pts.length) (hne : rs ≠ []) :
    ∃ out : List (ℝ × ℝ), computeFields c f (some rs) pts = some out ∧ out.map Prod.snd = List.zipWith (ros c) rs pts := by
  obtain ⟨r, rs, rfl⟩ := List.exists_cons_of_ne_nil hne
  refine ⟨_, rfl, ?_⟩
  simp [List.map_zipWith]

/-- C135 is false in cells that cannot burn: with no fuel at all the formulas divide by zero, and the factor that should switch the fire
off does not help. -/
theorem C135_bare_violated (c : Conf) (mx delta sigma : ℝ) (pts : List Pt) :
    computeFields c ⟨0, delta, sigma, mx⟩ none pts = none ∧
    (∀ w0 : ℝ, computeFields c ⟨w0, delta, sigma, 0⟩ none pts = none) ∧
    (∀ w0 : ℝ, computeFields c ⟨w0, delta, 0, mx⟩ none pts = none) := by
  refine ⟨?_, fun w0 => ?_, fun w0 => ?_⟩
  · simp only [computeFields, Option.map_eq_none_iff]
    unfold rothermals
    cases hb : base ⟨0, delta, sigma, mx⟩ with
    | none => rfl
    | some b =>
      have hz : b.rhoB = 0 := by
        simp only [base, Option.bind_eq_bind, Option.bind_eq_some_iff, Option.pure_def, Option.some.injEq] at hb
        obtain ⟨_, _, _, _, _, _, _, _, _, _, _, _, rb, hrb, _, _, rfl⟩ := hb
        simp only [div] at hrb
        split at hrb
        · simp at hrb
        · simpa using hrb.symm
      simp [hz, div, pow]
  · simp [computeFields, rothermals, base, div]
  · simp [computeFields, rothermals, base, div, pow]

/-- C135 is false for fuel wetter than its moisture of extinction: the rate is negative, so the front runs backwards. -/
theorem C135_wet_violated : ∃ (f : Fuel) (r : ℝ), Burnable f ∧ rothermals f = some r ∧ r < 0 ∧
    ∀ (c : Conf) (q : Pt), q.isFuel = 1 → ros c r q < 0 := by
  have hb : Burnable ⟨1, 1, 1, 0.005⟩ := ⟨by norm_num, by norm_num, by norm_num, by norm_num, by norm_num⟩
  obtain ⟨r, h, hp, hz⟩ := C135_sign hb
  have hr : r < 0 := by
    rcases lt_trichotomy r 0 with h' | h' | h'
    · exact h'
    · have := hz.1 h'; norm_num at this
    · have := hp.1 h'; norm_num at this
  refine ⟨_, r, hb, h, hr, fun c q hq => ?_⟩
  have f0 : 0 < fuelCorrection c q := heaviside_pos _
  have p : 0 < fuelCorrection c q * windCorrection c q * slopeCorrection c q := by
    have := wind_pos c q
    have := slope_pos c q
    positivity
  have e : ros c r q = r * (fuelCorrection c q * windCorrection c q * slopeCorrection c q) := by rw [ros, hq]; ring
  rw [e]
  exact mul_neg_of_neg_of_pos hr p

/-- C135 is false at the front: without wind and slope, and with fuel, the speed is less than half the rate, as the correction for the
fuel is centred at the threshold. -/
theorem C135_half_violated (c : Conf) (hf : 0 < c.fthresh) {r : ℝ} (hr : 0 < r) (q : Pt) (h0 : q.phi = 0) (hw : q.w = (0, 0))
    (hs : q.s = (0, 0)) (h1 : q.isFuel = 1) : ros c r q < r / 2 := by
  have e1 : windCorrection c q = 1 := by simp [windCorrection, hw]
  have e2 : slopeCorrection c q = 1 := by simp [slopeCorrection, hs]
  have e3 : fuelCorrection c q = 0.5 * (1 - Real.tanh c.fthresh) := by
    simp only [fuelCorrection, phiScaled, h0, heaviside]
    rw [show c.burn * (c.hscale * 2 * 0 / c.diag) - c.fthresh = -c.fthresh by ring, Real.tanh_neg]
    ring
  rw [ros, e1, e2, e3, h1]
  nlinarith [tanh_pos hf]

/-- C135 is false for extinction: below the threshold of the fuel a fire does not die, whatever the level set. -/
theorem C135_threshold_violated (c : Conf) {r : ℝ} (hr : 0 < r) (q : Pt) (h1 : q.isFuel = 1) : 0 < ros c r q := by
  have f0 : 0 < fuelCorrection c q := heaviside_pos _
  have := wind_pos c q
  have := slope_pos c q
  rw [ros, h1]
  positivity

/-- C135 is false for the rate in the output: with a rate given by a function the value at the first point of an element is written at
all its points. -/
theorem C135_output_violated (c : Conf) (f : Fuel) (q : Pt) :
    ∃ out : List (ℝ × ℝ), computeFields c f (some [1, 2]) [q, q] = some out ∧ out.map Prod.fst = [1, 1] ∧
      out.map Prod.snd = [ros c 1 q, ros c 2 q] := ⟨_, rfl, rfl, rfl⟩

/-- C135 is false for the function that hands the scale of the level set to the user: it is read from another list, with another
default, and written with six decimals. -/
theorem C135_scale_violated :
    (∃ diag : ℚ, 0 < diag ∧ hphiScale none diag ≠ phiScale none diag) ∧
    (∃ s diag : ℚ, 0 < diag ∧ hphiScale none diag ≠ phiScale (some s) diag) ∧
    (∃ s diag : ℚ, 0 < s ∧ 0 < diag ∧ hphiScale (some s) diag = 0 ∧ phiScale (some s) diag ≠ 0) := by
  refine ⟨⟨2, by norm_num, by decide +kernel⟩, ⟨5, 2, by norm_num, by decide +kernel⟩, ⟨10, 10 ^ 8, by norm_num, by norm_num,
    by decide +kernel, by decide +kernel⟩⟩

/-- C135: the scale of the level set is twice the number of the user, one if there is none, over the diagonal of the domain. -/
theorem C135_scale (set : Option ℚ) (diag : ℚ) (hd : diag ≠ 0) :
    (∀ s, set = some s → phiScale set diag * diag = 2 * s) ∧ (set = none → phiScale set diag * diag = 2) := by
  constructor
  · rintro s rfl
    simp only [phiScale, Option.getD_some]
    field_simp
  · rintro rfl
    simp only [phiScale, Option.getD_none]
    field_simp

/-- C135: where both lists hold the same scale, and the number has no more than six decimals, they agree. -/
theorem C135_scale_partial (s diag : ℚ) (h : ∃ n : ℤ, 2 * s / diag * 10 ^ 6 = n) : hphiScale (some s) diag = phiScale (some s) diag := by
  obtain ⟨n, hn⟩ := h
  have e : 2 * s / diag = n / 10 ^ 6 := by rw [← hn]; field_simp
  simp only [hphiScale, phiScale, Option.getD_some, hn, round_intCast]
  rw [← e]
  ring

/-! ## Cases -/

/-- The hypotheses of `C135_rothermel` and `C135_sign` in a case.  [case] -/
example : Burnable ⟨1, 1, 1, 0.3⟩ := ⟨by norm_num, by norm_num, by norm_num, by norm_num, by norm_num⟩

/-- Those of `C135_bounds`, `C135_direction`, `C135_turn`, `C135_half_violated`.  [case] -/
example : (0 : ℝ) < ({ diag := 1 } : Conf).tol ∧ (0 : ℝ) < ({ diag := 1 } : Conf).wind ∧ (0 : ℝ) < ({ diag := 1 } : Conf).slope ∧
    (0 : ℝ) < ({ diag := 1 } : Conf).fthresh ∧ (3 / 5 : ℝ) ^ 2 + (4 / 5) ^ 2 = 1 ∧
    0 < inner (1, 0) ((⟨0, (1, 0), (1, 0), (0, 0), 1⟩ : Pt).g) := by
  refine ⟨by norm_num, by norm_num, by norm_num, by norm_num, by norm_num, by norm_num [inner]⟩

/-- Those of `C135_scale_partial`.  [case] -/
example : ∃ n : ℤ, 2 * (10 : ℚ) / 5000 * 10 ^ 6 = n := ⟨4000, by norm_num⟩

end MrHyDE.Modules.Rothermal
