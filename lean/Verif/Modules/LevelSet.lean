import Verif.Modules.Loops
import Mathlib.Analysis.Real.Sqrt
import Mathlib.Algebra.BigOperators.Field
import Mathlib.Algebra.Order.BigOperators.Group.List
import Mathlib.Tactic.Linarith
import Mathlib.Tactic.LinearCombination
import Mathlib.Tactic.NormNum
import Mathlib.Tactic.Positivity
import Mathlib.Tactic.FieldSimp

/-!
# Transport of a level set (C134)

`levelSet` transports `phi` with a given velocity, or with a speed in the direction of the gradient; a term keeps the gradient near
length one, another stabilises the transport.
-/

set_option linter.unusedSectionVars false
set_option linter.unusedSimpArgs false

namespace MrHyDE.Modules.LevelSet

/-! ## Model -/

/-- What `volumeResidual` reads at one integration point, src/physics/levelSet.cpp:94-96, 118-121, 141-157, 202. -/
structure Pt where
  wts : ℝ
  beta : ℝ
  xvel : ℝ
  yvel : ℝ
  ros : ℝ
  dt : ℝ
  gx : ℝ
  gy : ℝ
  basis : Nat → ℝ
  grad : Nat → Nat → ℝ

/-- `zero_tol`, src/physics/levelSet.hpp:109. -/
noncomputable def tol : ℝ := 1 / 10 ^ 8

/-- The length of the gradient, src/physics/levelSet.cpp:194-196, 237-239. -/
noncomputable def gradNorm (q : Pt) : ℝ := Real.sqrt (q.gx * q.gx + q.gy * q.gy + tol * tol)

/-- The size of the velocity, src/physics/levelSet.cpp:200-210. -/
noncomputable def velMag (roth : Bool) (q : Pt) : ℝ :=
  if roth then q.ros else Real.sqrt (q.xvel * q.xvel + q.yvel * q.yvel + tol * tol)

/-- The velocity, src/physics/levelSet.cpp:244-250. -/
noncomputable def vel (roth : Bool) (q : Pt) : ℝ × ℝ :=
  if roth then (q.ros * q.gx / gradNorm q, q.ros * q.gy / gradNorm q) else (q.xvel, q.yvel)

/-- The four sums of the first pass, src/physics/levelSet.cpp:184-218. -/
noncomputable def sums (roth : Bool) (pts : List Pt) : ℝ × ℝ × ℝ × ℝ :=
  pts.foldl (fun s q => (s.1 + gradNorm q * q.wts, s.2.1 + velMag roth q * q.wts, s.2.2.1 + q.beta * q.wts, s.2.2.2 + q.wts))
    (0, 0, 0, 0)

/-- The coefficient of the penalty, src/physics/levelSet.cpp:221-225; `none`: division by zero. -/
noncomputable def penalty (roth : Bool) (h : ℝ) (pts : List Pt) : Option ℝ :=
  let s := sums roth pts
  if s.2.2.2 = 0 then none
  else
    let gradAvg := s.1 / s.2.2.2
    let velAvg := s.2.1 / s.2.2.2
    let betaE := s.2.2.1 / s.2.2.2
    let lambda2 := 0.5 * betaE * h * h * velAvg
    some (lambda2 * (gradAvg - 1))

/-- `computeTau`, src/physics/levelSet.cpp:301-316; `none`: division by zero. -/
noncomputable def tau (x y h : ℝ) : Option ℝ :=
  let nvel := x * x + y * y
  let nvel := if nvel > 1 / 10 ^ 12 then Real.sqrt nvel else nvel
  if nvel = 0 then none else some (0.5 * h / (2 * nvel))

/-- The terms of one point, src/physics/levelSet.cpp:252-278. -/
noncomputable def adds (roth : Bool) (pe t : ℝ) (q : Pt) (d : Nat) : List ℝ :=
  let u := vel roth q
  let invGrad := 1 / gradNorm q
  let stabres := q.dt + u.1 * q.gx + u.2 * q.gy
  [q.dt * q.wts * q.basis d, u.1 * q.gx * q.wts * q.basis d, u.2 * q.gy * q.wts * q.basis d,
   pe * (q.gx * invGrad) * q.wts * q.grad d 0, pe * (q.gy * invGrad) * q.wts * q.grad d 1,
   t * stabres * u.1 * q.wts * q.grad d 0, t * stabres * u.2 * q.wts * q.grad d 1]

/-- `volumeResidual` on one element, src/physics/levelSet.cpp:132-283. -/
noncomputable def volumeResidual (roth : Bool) (h : ℝ) (ndof : Nat) (off : Nat → Nat) (pts : List Pt) (res : Nat → ℝ) :
    Option (Nat → ℝ) :=
  (penalty roth h pts).bind fun pe =>
    pts.foldlM (fun r q => (tau (vel roth q).1 (vel roth q).2 h).bind fun t =>
      some ((List.range ndof).foldl (fun r d => bump r (off d) (adds roth pe t q d)) r)) res

/-- The length of the gradient in the output, src/physics/levelSet.cpp:370. -/
noncomputable def gradNormOut (q : Pt) : ℝ := Real.sqrt (q.gx * q.gx + q.gy * q.gy + tol)

/-- `getDerivedNames`, src/physics/levelSet.cpp:322-338. -/
def derivedNames (roth : Bool) : List String :=
  ["gradNorm"] ++ if roth then
    ["fuelCorrection", "ROS", "Rothermal", "windComponent", "windCorrection", "slopeComponent", "slopeCorrection", "Hphi"] else []

/-- The fields of `ResponseFields`, src/physics/rothermal.hpp:85-95, and the length of the gradient. -/
structure Fields (V : Type) where
  gradNorm : V
  ros : V
  fuelCorrection : V
  rothermal : V
  windComponent : V
  windCorrection : V
  slopeComponent : V
  slopeCorrection : V
  hphi : V

/-- `getDerivedValues`, src/physics/levelSet.cpp:375-405. -/
def derivedValues {V : Type} (roth : Bool) (F : Fields V) : List V :=
  [F.gradNorm] ++ if roth then
    [F.fuelCorrection, F.ros, F.rothermal, F.windComponent, F.windCorrection, F.slopeComponent, F.slopeCorrection, F.hphi] else []

/-! ## Specification -/

/-- The equation at a point.  [specification, no code] -/
noncomputable def strong (roth : Bool) (q : Pt) : ℝ := q.dt + ((vel roth q).1 * q.gx + (vel roth q).2 * q.gy)

/-- The stabilisation of streamline diffusion: `h / 4|u|`.  [specification, no code] -/
noncomputable def tauSpec (h : ℝ) (u : ℝ × ℝ) : ℝ := h / (4 * Real.sqrt (u.1 ^ 2 + u.2 ^ 2))

/-- Mean over the element.  [specification, no code] -/
noncomputable def mean (pts : List Pt) (f : Pt → ℝ) : ℝ := quad pts (fun q => q.wts * f q) / quad pts (fun q => q.wts)

/-- The coefficient of the penalty.  [specification, no code] -/
noncomputable def peSpec (roth : Bool) (h : ℝ) (pts : List Pt) : ℝ :=
  h ^ 2 / 2 * mean pts (fun q => q.beta) * mean pts (velMag roth) * (mean pts gradNorm - 1)

/-- The name under which a field is written.  [specification, no code] -/
def named {V : Type} (F : Fields V) : List (String × V) :=
  [("gradNorm", F.gradNorm), ("ROS", F.ros), ("fuelCorrection", F.fuelCorrection), ("Rothermal", F.rothermal),
   ("windComponent", F.windComponent), ("windCorrection", F.windCorrection), ("slopeComponent", F.slopeComponent),
   ("slopeCorrection", F.slopeCorrection), ("Hphi", F.hphi)]

/-! ## Lemmas -/

theorem gradNorm_pos (q : Pt) : 0 < gradNorm q := by
  unfold gradNorm
  refine Real.sqrt_pos.2 ?_
  have : 0 < tol := by norm_num [tol]
  nlinarith [mul_self_nonneg q.gx, mul_self_nonneg q.gy, mul_pos this this]

theorem sums_eq (roth : Bool) (pts : List Pt) :
    sums roth pts = (quad pts (fun q => q.wts * gradNorm q), quad pts (fun q => q.wts * velMag roth q),
      quad pts (fun q => q.wts * q.beta), quad pts (fun q => q.wts)) := by
  have key : ∀ (l : List Pt) (s : ℝ × ℝ × ℝ × ℝ), l.foldl (fun s q => (s.1 + gradNorm q * q.wts, s.2.1 + velMag roth q * q.wts,
      s.2.2.1 + q.beta * q.wts, s.2.2.2 + q.wts)) s = (s.1 + quad l (fun q => q.wts * gradNorm q),
      s.2.1 + quad l (fun q => q.wts * velMag roth q), s.2.2.1 + quad l (fun q => q.wts * q.beta), s.2.2.2 + quad l (fun q => q.wts)) := by
    intro l
    induction l with
    | nil => intro s; simp [quad]
    | cons q l ih =>
      intro s
      rw [List.foldl_cons, ih]
      simp only [quad, List.map_cons, List.sum_cons, Prod.mk.injEq]
      refine ⟨by ring, by ring, by ring, by ring⟩
  unfold sums
  simpa using key pts (0, 0, 0, 0)

theorem penalty_eq (roth : Bool) (h : ℝ) (pts : List Pt) (hw : quad pts (fun q => q.wts) ≠ 0) :
    penalty roth h pts = some (peSpec roth h pts) := by
  simp only [penalty, sums_eq, hw, if_false, Option.some.injEq, peSpec, mean]
  ring

theorem tau_eq {x y h : ℝ} (hu : 1 / 10 ^ 12 < x ^ 2 + y ^ 2) : tau x y h = some (tauSpec h (x, y)) := by
  have hp : 0 < x ^ 2 + y ^ 2 := lt_trans (by norm_num) hu
  have hs : Real.sqrt (x ^ 2 + y ^ 2) ≠ 0 := (Real.sqrt_pos.2 hp).ne'
  have e : x * x + y * y = x ^ 2 + y ^ 2 := by ring
  simp only [tau, e, gt_iff_lt, if_pos hu, if_neg hs, tauSpec, Option.some.injEq]
  field_simp
  ring

theorem adds_sum (roth : Bool) (pe t : ℝ) (q : Pt) (d : Nat) :
    (adds roth pe t q d).sum = q.wts * (strong roth q * (q.basis d + t * ((vel roth q).1 * q.grad d 0 + (vel roth q).2 * q.grad d 1))
      + pe * ((q.gx * q.grad d 0 + q.gy * q.grad d 1) / gradNorm q)) := by
  simp only [adds, strong, List.sum_cons, List.sum_nil]
  ring

theorem fold_some (roth : Bool) (h pe : ℝ) (ndof : Nat) (off : Nat → Nat) (pts : List Pt) (T : Pt → ℝ)
    (hT : ∀ q : Pt, q ∈ pts → tau (vel roth q).1 (vel roth q).2 h = some (T q)) (res : Nat → ℝ) :
    pts.foldlM (fun r q => (tau (vel roth q).1 (vel roth q).2 h).bind fun t =>
      some ((List.range ndof).foldl (fun r d => bump r (off d) (adds roth pe t q d)) r)) res =
    some (ptLoop ndof pts off (fun q d => adds roth pe (T q) q d) res) := by
  induction pts generalizing res with
  | nil => simp [ptLoop]
  | cons q l ih =>
    rw [List.foldlM_cons, hT q (by simp)]
    simp only [Option.bind_some, Option.bind_eq_bind]
    rw [ih fun p hp => hT p (by simp [hp])]
    simp [ptLoop]

theorem fold_none (roth : Bool) (h pe : ℝ) (ndof : Nat) (off : Nat → Nat) (pts : List Pt)
    (hq : ∃ q : Pt, q ∈ pts ∧ tau (vel roth q).1 (vel roth q).2 h = none) (res : Nat → ℝ) :
    pts.foldlM (fun r q => (tau (vel roth q).1 (vel roth q).2 h).bind fun t =>
      some ((List.range ndof).foldl (fun r d => bump r (off d) (adds roth pe t q d)) r)) res = none := by
  induction pts generalizing res with
  | nil => obtain ⟨q, hq, -⟩ := hq; simp at hq
  | cons p l ih =>
    rw [List.foldlM_cons]
    cases ht : tau (vel roth p).1 (vel roth p).2 h with
    | none => simp
    | some t =>
      simp only [Option.bind_some, Option.bind_eq_bind]
      apply ih
      obtain ⟨q, hm, hn⟩ := hq
      rcases List.mem_cons.mp hm with rfl | hm
      · rw [ht] at hn; simp at hn
      · exact ⟨q, hm, hn⟩

theorem quad_nonneg (pts : List Pt) (f : Pt → ℝ) (h : ∀ q : Pt, q ∈ pts → 0 ≤ f q) : 0 ≤ quad pts f := by
  unfold quad
  exact List.sum_nonneg (by simpa using h)

theorem quad_le (pts : List Pt) (f g : Pt → ℝ) (h : ∀ q : Pt, q ∈ pts → f q ≤ g q) : quad pts f ≤ quad pts g := by
  unfold quad
  exact List.sum_le_sum h

theorem quad_abs_le (pts : List Pt) (f g : Pt → ℝ) (h : ∀ q : Pt, q ∈ pts → |f q| ≤ g q) : |quad pts f| ≤ quad pts g := by
  rw [abs_le]
  constructor
  · rw [← quad_neg]
    exact quad_le _ _ _ fun q hq => (abs_le.1 (h q hq)).1
  · exact quad_le _ _ _ fun q hq => (abs_le.1 (h q hq)).2

/-! ## Properties -/

/-- C134: away from vanishing velocities the residual is the equation tested with the functions and with their derivatives along
the velocity, with the penalty; no other entry changes. -/
theorem C134_weak_partial (roth : Bool) (h : ℝ) {ndof : Nat} {off : Nat → Nat} (hoff : Distinct ndof off) (pts : List Pt)
    (hw : quad pts (fun q => q.wts) ≠ 0) (hu : ∀ q : Pt, q ∈ pts → 1 / 10 ^ 12 < (vel roth q).1 ^ 2 + (vel roth q).2 ^ 2)
    (res : Nat → ℝ) :
    ∃ r : Nat → ℝ, volumeResidual roth h ndof off pts res = some r ∧
      (∀ d : Nat, d < ndof → r (off d) = res (off d) + quad pts (fun q => q.wts * (strong roth q * (q.basis d
          + tauSpec h (vel roth q) * ((vel roth q).1 * q.grad d 0 + (vel roth q).2 * q.grad d 1))
        + peSpec roth h pts * ((q.gx * q.grad d 0 + q.gy * q.grad d 1) / gradNorm q)))) ∧
      (∀ j : Nat, (∀ d : Nat, d < ndof → off d ≠ j) → r j = res j) := by
  refine ⟨_, by rw [volumeResidual, penalty_eq roth h pts hw, Option.bind_some,
    fold_some roth h _ ndof off pts (fun q => tauSpec h (vel roth q)) (fun q hq => tau_eq (hu q hq)) res], fun d hd => ?_, fun j hj => ?_⟩
  · rw [ptLoop_at hoff pts _ res hd]
    exact congrArg _ (quad_congr pts fun q _ => adds_sum _ _ _ _ _)
  · exact ptLoop_other pts _ res hj

/-- C134: with functions that sum to one the equations of an element sum to the integral of the equation: neither the penalty nor the
stabilisation changes the balance. -/
theorem C134_balance (roth : Bool) (h : ℝ) {ndof : Nat} {off : Nat → Nat} (hoff : Distinct ndof off) (pts : List Pt)
    (hw : quad pts (fun q => q.wts) ≠ 0) (hu : ∀ q : Pt, q ∈ pts → 1 / 10 ^ 12 < (vel roth q).1 ^ 2 + (vel roth q).2 ^ 2)
    (hone : ∀ q : Pt, q ∈ pts → PartitionOfUnity ndof 2 q.basis q.grad) (r : Nat → ℝ)
    (hr : volumeResidual roth h ndof off pts (fun _ => 0) = some r) :
    ∑ d ∈ Finset.range ndof, r (off d) = quad pts (fun q => q.wts * strong roth q) := by
  obtain ⟨r', h', hd, -⟩ := C134_weak_partial roth h hoff pts hw hu (fun _ => 0)
  obtain rfl : r' = r := by rw [hr] at h'; exact (Option.some.inj h').symm
  rw [Finset.sum_congr rfl fun d hm => hd d (Finset.mem_range.mp hm)]
  simp only [zero_add]
  rw [quad_sum]
  refine quad_congr pts fun q hq => ?_
  obtain ⟨h1, h2⟩ := hone q hq
  have e0 := h2 0 (by norm_num)
  have e1 := h2 1 (by norm_num)
  calc ∑ d ∈ Finset.range ndof, q.wts * (strong roth q * (q.basis d
          + tauSpec h (vel roth q) * ((vel roth q).1 * q.grad d 0 + (vel roth q).2 * q.grad d 1))
        + peSpec roth h pts * ((q.gx * q.grad d 0 + q.gy * q.grad d 1) / gradNorm q))
      = q.wts * (strong roth q * ((∑ d ∈ Finset.range ndof, q.basis d)
          + tauSpec h (vel roth q) * ((vel roth q).1 * (∑ d ∈ Finset.range ndof, q.grad d 0)
            + (vel roth q).2 * (∑ d ∈ Finset.range ndof, q.grad d 1)))
        + peSpec roth h pts * ((q.gx * (∑ d ∈ Finset.range ndof, q.grad d 0) + q.gy * (∑ d ∈ Finset.range ndof, q.grad d 1))
          / gradNorm q)) := by
        simp only [Finset.mul_sum, Finset.sum_div, ← Finset.sum_add_distrib]
    _ = q.wts * strong roth q := by rw [h1, e0, e1]; ring

/-- C134: a transported level set meets the equations up to the penalty. -/
theorem C134_transported (roth : Bool) (h : ℝ) {ndof : Nat} {off : Nat → Nat} (hoff : Distinct ndof off) (pts : List Pt)
    (hw : quad pts (fun q => q.wts) ≠ 0) (hu : ∀ q : Pt, q ∈ pts → 1 / 10 ^ 12 < (vel roth q).1 ^ 2 + (vel roth q).2 ^ 2)
    (hs : ∀ q : Pt, q ∈ pts → strong roth q = 0) (r : Nat → ℝ)
    (hr : volumeResidual roth h ndof off pts (fun _ => 0) = some r) {d : Nat} (hd : d < ndof) :
    r (off d) = peSpec roth h pts * quad pts (fun q => q.wts * ((q.gx * q.grad d 0 + q.gy * q.grad d 1) / gradNorm q)) := by
  obtain ⟨r', h', hdd, -⟩ := C134_weak_partial roth h hoff pts hw hu (fun _ => 0)
  obtain rfl : r' = r := by rw [hr] at h'; exact (Option.some.inj h').symm
  rw [hdd d hd, zero_add, quad_mul_left]
  refine quad_congr pts fun q hq => ?_
  rw [hs q hq]
  ring

/-- The penalty of a distance function is small.  [helper] -/
theorem mean_distance (pts : List Pt) (hwp : ∀ q : Pt, q ∈ pts → 0 < q.wts) (hne : pts ≠ [])
    (hg : ∀ q : Pt, q ∈ pts → q.gx ^ 2 + q.gy ^ 2 = 1) : 0 ≤ mean pts gradNorm - 1 ∧ mean pts gradNorm - 1 ≤ tol ^ 2 / 2 := by
  have hW : 0 < quad pts (fun q => q.wts) := by
    unfold quad
    refine List.sum_pos _ (by simpa using hwp) (by simpa using hne)
  have hb : ∀ q : Pt, q ∈ pts → 1 ≤ gradNorm q ∧ gradNorm q ≤ 1 + tol ^ 2 / 2 := by
    intro q hq
    have e : q.gx * q.gx + q.gy * q.gy + tol * tol = 1 + tol ^ 2 := by linear_combination hg q hq
    unfold gradNorm
    rw [e]
    constructor
    · exact Real.one_le_sqrt.2 (by nlinarith [sq_nonneg tol])
    · rw [Real.sqrt_le_left (by nlinarith [sq_nonneg tol])]
      nlinarith [sq_nonneg (tol ^ 2)]
  constructor
  · rw [sub_nonneg, mean, le_div_iff₀ hW, one_mul]
    refine quad_le _ _ _ fun q hq => ?_
    nlinarith [hwp q hq, (hb q hq).1]
  · rw [sub_le_iff_le_add', mean, div_le_iff₀ hW, quad_mul_left]
    refine quad_le _ _ _ fun q hq => ?_
    nlinarith [hwp q hq, (hb q hq).2]

/-- C134: a distance function that is transported meets the equations up to the square of the tolerance `1e-8` in the length of the
gradient. -/
theorem C134_distance (roth : Bool) (h : ℝ) {ndof : Nat} {off : Nat → Nat} (hoff : Distinct ndof off) (pts : List Pt)
    (hwp : ∀ q : Pt, q ∈ pts → 0 < q.wts) (hne : pts ≠ [])
    (hu : ∀ q : Pt, q ∈ pts → 1 / 10 ^ 12 < (vel roth q).1 ^ 2 + (vel roth q).2 ^ 2)
    (hs : ∀ q : Pt, q ∈ pts → strong roth q = 0) (hg : ∀ q : Pt, q ∈ pts → q.gx ^ 2 + q.gy ^ 2 = 1) (r : Nat → ℝ)
    (hr : volumeResidual roth h ndof off pts (fun _ => 0) = some r) {d : Nat} (hd : d < ndof) :
    |r (off d)| ≤ |h ^ 2 / 2 * mean pts (fun q => q.beta) * mean pts (velMag roth)| * ((1 / 10 ^ 8) ^ 2 / 2)
      * quad pts (fun q => q.wts * (|q.grad d 0| + |q.grad d 1|)) := by
  have hW : quad pts (fun q => q.wts) ≠ 0 := by
    unfold quad
    exact (List.sum_pos _ (by simpa using hwp) (by simpa using hne)).ne'
  rw [C134_transported roth h hoff pts hW hu hs r hr hd, peSpec, abs_mul, abs_mul]
  obtain ⟨m0, m1⟩ := mean_distance pts hwp hne hg
  refine mul_le_mul (mul_le_mul_of_nonneg_left ?_ (abs_nonneg _)) ?_ (abs_nonneg _) (by positivity)
  · rw [abs_of_nonneg m0]
    simpa [tol] using m1
  · refine quad_abs_le _ _ _ fun q hq => ?_
    rw [abs_mul, abs_of_pos (hwp q hq)]
    refine mul_le_mul_of_nonneg_left ?_ (hwp q hq).le
    rw [abs_div, abs_of_pos (gradNorm_pos q), div_le_iff₀ (gradNorm_pos q)]
    have hn : 1 ≤ gradNorm q := by
      unfold gradNorm
      refine Real.one_le_sqrt.2 ?_
      nlinarith [hg q hq, mul_self_nonneg tol]
    have hx : |q.gx| ≤ 1 := by rw [abs_le_one_iff_mul_self_le_one]; nlinarith [hg q hq, mul_self_nonneg q.gy]
    have hy : |q.gy| ≤ 1 := by rw [abs_le_one_iff_mul_self_le_one]; nlinarith [hg q hq, mul_self_nonneg q.gx]
    calc |q.gx * q.grad d 0 + q.gy * q.grad d 1| ≤ |q.gx * q.grad d 0| + |q.gy * q.grad d 1| := abs_add_le _ _
      _ ≤ |q.grad d 0| + |q.grad d 1| := by
          rw [abs_mul, abs_mul]
          nlinarith [abs_nonneg (q.grad d 0), abs_nonneg (q.grad d 1), abs_nonneg q.gx, abs_nonneg q.gy]
      _ ≤ (|q.grad d 0| + |q.grad d 1|) * gradNorm q := by
          nlinarith [abs_nonneg (q.grad d 0), abs_nonneg (q.grad d 1)]

/-- C134: the penalty works against steep gradients: tested with the level set itself it has the sign of the mean length of the
gradient minus one. -/
theorem C134_restoring (roth : Bool) (h : ℝ) {ndof : Nat} {off : Nat → Nat} (hoff : Distinct ndof off) (pts : List Pt)
    (hwp : ∀ q : Pt, q ∈ pts → 0 ≤ q.wts) (hw : quad pts (fun q => q.wts) ≠ 0)
    (hu : ∀ q : Pt, q ∈ pts → 1 / 10 ^ 12 < (vel roth q).1 ^ 2 + (vel roth q).2 ^ 2)
    (hs : ∀ q : Pt, q ∈ pts → strong roth q = 0) (X : Nat → ℝ)
    (hX : ∀ q : Pt, q ∈ pts → q.gx = ∑ d ∈ Finset.range ndof, X d * q.grad d 0 ∧ q.gy = ∑ d ∈ Finset.range ndof, X d * q.grad d 1)
    (hb : 0 ≤ mean pts (fun q => q.beta) * mean pts (velMag roth)) (r : Nat → ℝ)
    (hr : volumeResidual roth h ndof off pts (fun _ => 0) = some r) :
    (1 ≤ mean pts gradNorm → 0 ≤ ∑ d ∈ Finset.range ndof, X d * r (off d)) ∧
    (mean pts gradNorm ≤ 1 → ∑ d ∈ Finset.range ndof, X d * r (off d) ≤ 0) := by
  have key : ∑ d ∈ Finset.range ndof, X d * r (off d) =
      peSpec roth h pts * quad pts (fun q => q.wts * ((q.gx ^ 2 + q.gy ^ 2) / gradNorm q)) := by
    rw [Finset.sum_congr rfl fun d hm => by
      rw [C134_transported roth h hoff pts hw hu hs r hr (Finset.mem_range.mp hm)]]
    rw [show (∑ d ∈ Finset.range ndof, X d * (peSpec roth h pts * quad pts (fun q => q.wts * ((q.gx * q.grad d 0 + q.gy * q.grad d 1)
          / gradNorm q)))) = peSpec roth h pts * ∑ d ∈ Finset.range ndof, quad pts (fun q => X d * (q.wts * ((q.gx * q.grad d 0
          + q.gy * q.grad d 1) / gradNorm q))) from by
      rw [Finset.mul_sum]
      refine Finset.sum_congr rfl fun d _ => ?_
      rw [← quad_mul_left]; ring]
    rw [quad_sum]
    refine congrArg _ (quad_congr pts fun q hq => ?_)
    obtain ⟨ex, ey⟩ := hX q hq
    calc ∑ d ∈ Finset.range ndof, X d * (q.wts * ((q.gx * q.grad d 0 + q.gy * q.grad d 1) / gradNorm q))
        = q.wts * ((q.gx * (∑ d ∈ Finset.range ndof, X d * q.grad d 0) + q.gy * (∑ d ∈ Finset.range ndof, X d * q.grad d 1))
          / gradNorm q) := by
          simp only [Finset.mul_sum, Finset.sum_div, ← Finset.sum_add_distrib]
          exact Finset.sum_congr rfl fun d _ => by ring
      _ = q.wts * ((q.gx ^ 2 + q.gy ^ 2) / gradNorm q) := by rw [← ex, ← ey]; ring
  have hq : 0 ≤ quad pts (fun q => q.wts * ((q.gx ^ 2 + q.gy ^ 2) / gradNorm q)) :=
    quad_nonneg _ _ fun q hq => mul_nonneg (hwp q hq) (div_nonneg (by positivity) (gradNorm_pos q).le)
  have hc : 0 ≤ h ^ 2 / 2 * mean pts (fun q => q.beta) * mean pts (velMag roth) := by
    rw [mul_assoc]; exact mul_nonneg (by positivity) hb
  rw [key, peSpec]
  constructor <;> intro hm
  · exact mul_nonneg (mul_nonneg hc (by linarith)) hq
  · exact mul_nonpos_of_nonpos_of_nonneg (mul_nonpos_of_nonneg_of_nonpos hc (by linarith)) hq

/-- C134: the velocity is the one of the user, or, for fires, points along the gradient of the level set: its components times the
smoothed length of the gradient are the rate of spread times the gradient, and along the gradient the front moves at the rate of spread
up to the smoothing.  The size that enters the penalty is the rate of spread, or the smoothed length of the velocity of the user. -/
theorem C134_velocity (q : Pt) :
    vel false q = (q.xvel, q.yvel) ∧
    (vel true q).1 * gradNorm q = q.ros * q.gx ∧ (vel true q).2 * gradNorm q = q.ros * q.gy ∧
    ((vel true q).1 * q.gx + (vel true q).2 * q.gy) * gradNorm q = q.ros * (q.gx ^ 2 + q.gy ^ 2) ∧
    velMag true q = q.ros ∧ 0 ≤ velMag false q ∧ velMag false q ^ 2 = q.xvel ^ 2 + q.yvel ^ 2 + (1 / 10 ^ 8) ^ 2 ∧
    0 ≤ gradNorm q ∧ gradNorm q ^ 2 = q.gx ^ 2 + q.gy ^ 2 + (1 / 10 ^ 8) ^ 2 := by
  have hg := gradNorm_pos q
  have h1 : (vel true q).1 * gradNorm q = q.ros * q.gx := by simp only [vel, if_true]; field_simp
  have h2 : (vel true q).2 * gradNorm q = q.ros * q.gy := by simp only [vel, if_true]; field_simp
  refine ⟨by simp [vel], h1, h2, by linear_combination q.gx * h1 + q.gy * h2, by simp [velMag], ?_, ?_, hg.le, ?_⟩
  · simp only [velMag, Bool.false_eq_true, if_false]; exact Real.sqrt_nonneg _
  · simp only [velMag, Bool.false_eq_true, if_false]
    rw [Real.sq_sqrt (by nlinarith [mul_self_nonneg q.xvel, mul_self_nonneg q.yvel, mul_self_nonneg tol]), tol]
    ring
  · simp only [gradNorm]
    rw [Real.sq_sqrt (by nlinarith [mul_self_nonneg q.gx, mul_self_nonneg q.gy, mul_self_nonneg tol]), tol]
    ring

/-- C134: the names of the output fields are those of the values, in the same order. -/
theorem C134_names {V : Type} (roth : Bool) (F : Fields V) :
    (derivedNames roth).length = (derivedValues roth F).length ∧
    ∀ x : String × V, x ∈ (derivedNames roth).zip (derivedValues roth F) → x ∈ named F := by
  cases roth
  · simp [derivedNames, derivedValues, named]
  · refine ⟨rfl, fun x hx => ?_⟩
    simp only [derivedNames, derivedValues, named, List.cons_append, List.nil_append, if_true, List.zip_cons_cons, List.zip_nil_right,
      List.mem_cons, List.not_mem_nil, or_false] at hx ⊢
    tauto

/-- C134 is false where the velocity vanishes at a point of the element: the stabilisation divides by its size. -/
theorem C134_zero_violated (roth : Bool) (h : ℝ) (ndof : Nat) (off : Nat → Nat) (pts : List Pt) (res : Nat → ℝ)
    (hz : ∃ q : Pt, q ∈ pts ∧ vel roth q = (0, 0)) : volumeResidual roth h ndof off pts res = none := by
  unfold volumeResidual
  cases penalty roth h pts with
  | none => rfl
  | some pe =>
    rw [Option.bind_some]
    obtain ⟨q, hq, hv⟩ := hz
    refine fold_none roth h pe ndof off pts ⟨q, hq, ?_⟩ res
    rw [hv]
    simp [tau]

/-- C134 is false with the speed of a fire: where the level set is flat, and where nothing burns, the speed is zero. -/
theorem C134_fire_violated (h : ℝ) (ndof : Nat) (off : Nat → Nat) (pts : List Pt) (res : Nat → ℝ)
    (hz : ∃ q : Pt, q ∈ pts ∧ (q.ros = 0 ∨ q.gx = 0 ∧ q.gy = 0)) : volumeResidual true h ndof off pts res = none := by
  obtain ⟨q, hq, hv⟩ := hz
  refine C134_zero_violated true h ndof off pts res ⟨q, hq, ?_⟩
  rcases hv with h0 | ⟨h0, h1⟩ <;> simp [vel, *]

/-- C134 is false for slow flow: up to the size `1e-6` the stabilisation divides by the square of the velocity, so for the size
`1e-7` it is ten million times too large. -/
theorem C134_slow_violated (h : ℝ) (hh : 0 < h) :
    ∃ x : ℝ, 0 < x ∧ ∃ t : ℝ, tau x 0 h = some t ∧ t = 10 ^ 7 * tauSpec h (x, 0) ∧ t ≠ tauSpec h (x, 0) := by
  have hs : Real.sqrt ((1 / 10 ^ 7 : ℝ) ^ 2 + 0 ^ 2) = 1 / 10 ^ 7 := by
    rw [show ((1 / 10 ^ 7 : ℝ) ^ 2 + 0 ^ 2) = (1 / 10 ^ 7) ^ 2 by ring]
    exact Real.sqrt_sq (by norm_num)
  refine ⟨1 / 10 ^ 7, by norm_num, 0.5 * h / (2 * (1 / 10 ^ 7 * (1 / 10 ^ 7) + 0 * 0)), ?_, ?_, ?_⟩
  · unfold tau
    norm_num
  · simp only [tauSpec, hs]
    ring
  · simp only [tauSpec, hs]
    intro he
    have : h = 0 := by norm_num at he; linarith
    exact hh.ne' this

/-- C134 is false for the length of the gradient in the output: it is not the one in the equations. -/
theorem C134_output_violated : ∃ q : Pt, gradNorm q = 1 / 10 ^ 8 ∧ gradNormOut q = 1 / 10 ^ 4 := by
  refine ⟨⟨1, 0, 0, 0, 0, 0, 0, 0, fun _ => 0, fun _ _ => 0⟩, ?_, ?_⟩
  · simp only [gradNorm, tol]
    rw [show (0 * 0 + 0 * 0 + 1 / 10 ^ 8 * (1 / 10 ^ 8) : ℝ) = (1 / 10 ^ 8) ^ 2 by ring]
    exact Real.sqrt_sq (by norm_num)
  · simp only [gradNormOut, tol]
    rw [show (0 * 0 + 0 * 0 + 1 / 10 ^ 8 : ℝ) = (1 / 10 ^ 4) ^ 2 by norm_num]
    exact Real.sqrt_sq (by norm_num)

/-! ## Cases -/

/-- One point of a unit square with the level set `x - t` carried by the velocity (1, 0).  [case] -/
noncomputable def wave : Pt :=
  ⟨1, 1 / 10, 1, 0, 1, -1, 1, 0, fun _ => 1 / 4, fun d c =>
    if c = 0 then (if d = 0 ∨ d = 3 then -1 / 2 else 1 / 2) else (if d = 0 ∨ d = 1 then -1 / 2 else 1 / 2)⟩

/-- The hypotheses of `C134_weak_partial`, `C134_balance`, `C134_transported`, `C134_distance` in a case.  [case] -/
example : Distinct 4 (fun d : Nat => d) ∧ (0 : ℝ) < wave.wts ∧ quad [wave] (fun q => q.wts) ≠ 0 ∧
    1 / 10 ^ 12 < (vel false wave).1 ^ 2 + (vel false wave).2 ^ 2 ∧ strong false wave = 0 ∧ wave.gx ^ 2 + wave.gy ^ 2 = 1 ∧
    PartitionOfUnity 4 2 wave.basis wave.grad := by
  refine ⟨fun a b _ _ h => h, by norm_num [wave], by norm_num [quad, wave], by norm_num [vel, wave], by norm_num [strong, vel, wave],
    by norm_num [wave], by norm_num [wave, Finset.sum_range_succ], fun c hc => ?_⟩
  rcases (by omega : c = 0 ∨ c = 1) with rfl | rfl <;> norm_num [wave, Finset.sum_range_succ]

/-- The further hypotheses of `C134_restoring`: the level set as a combination of the functions, and a positive penalty.  [case] -/
example : (∃ X : Nat → ℝ, wave.gx = ∑ d ∈ Finset.range 4, X d * wave.grad d 0 ∧ wave.gy = ∑ d ∈ Finset.range 4, X d * wave.grad d 1) ∧
    0 ≤ mean [wave] (fun q => q.beta) * mean [wave] (velMag false) := by
  refine ⟨⟨fun d => if d = 1 ∨ d = 2 then 1 else 0, by norm_num [wave, Finset.sum_range_succ], by
    norm_num [wave, Finset.sum_range_succ]⟩, ?_⟩
  refine mul_nonneg (by norm_num [mean, quad, wave]) ?_
  simp only [mean, quad, velMag, wave, List.map_cons, List.map_nil, List.sum_cons, List.sum_nil]
  positivity

/-- A case of `C134_zero_violated`: no flow.  [case] -/
example : volumeResidual false 1 4 (fun d => d) [{ wave with xvel := 0 }] (fun _ => 0) = none :=
  C134_zero_violated _ _ _ _ _ _ ⟨_, List.mem_singleton_self _, by simp [vel, wave]⟩

/-- A case of `C134_fire_violated`: a cell without fuel.  [case] -/
example : volumeResidual true 1 4 (fun d => d) [wave, { wave with ros := 0 }] (fun _ => 0) = none :=
  C134_fire_violated _ _ _ _ _ ⟨{ wave with ros := 0 }, by simp, Or.inl rfl⟩

end MrHyDE.Modules.LevelSet
