import Mathlib.Algebra.Field.Basic
import Mathlib.Algebra.Field.Rat
import Mathlib.Algebra.Order.Field.Basic
import Mathlib.Algebra.CharZero.Defs
import Mathlib.Tactic.FieldSimp
import Mathlib.Tactic.LinearCombination
import Mathlib.Tactic.Linarith
import Mathlib.Tactic.NormNum
import Mathlib.Tactic.Ring

/-!
# Coarse values at the times of the fine scale (C105)

A subgrid model with its own time steps needs the values of the coarse scale between the coarse times.  They are
interpolated from the current coarse value and the stored earlier ones.
-/

set_option linter.unusedSectionVars false

namespace MrHyDE.Subgrid

variable {K : Type}

/-! ## Model -/

/-- Division with a zero divisor as its own outcome, src/subgrid/subgridDtN_solver.cpp:584-585 (the code divides
doubles and obtains a value that is not a number). -/
def divide? [Field K] [DecidableEq K] (a b : K) : Option K := if b = 0 then none else some (a / b)

/-- `coarse_times`, src/subgrid/subgridDtN_solver.cpp:389-398; `numPrev` is the number of earlier coarse values
(`coarse_prevsoln.extent(3)`), `tprev` is `previous_time`, `dt` is `macro_deltat`. -/
def coarseTimes [Field K] (numPrev : Nat) (tprev dt : K) : List K :=
  if numPrev = 1 then [tprev, tprev + dt]
  else if numPrev = 2 then [tprev - dt, tprev, tprev + dt]
  else []

/-- `lagrangeInterpolate` for one entry, src/subgrid/subgridDtN_solver.cpp:564-631: the new entry of `interp_values`
and the new `alpha`.  `old` is the entry before the call, `alpha` the value before the call (`beta_n`).  `none`
is a division by zero or an access beyond the end of `times`. -/
def lagrangeInterpolate [Field K] [DecidableEq K] (old alpha curr : K) (prev times : List K) (t : K) :
    Option (K × K) :=
  match prev with
  | [p0] =>
    match times with
    | t1 :: tn :: _ => do
      let a1 ← divide? (tn - t) (tn - t1)
      let a ← divide? (t - t1) (tn - t1)
      return (a1 * p0 + a * curr, a)
    | _ => none
  | [p0, p1] =>
    match times with
    | t2 :: t1 :: tn :: _ => do
      let dn := tn - t1
      let dn1 := t1 - t2
      let a1 ← divide? ((t - t2) * (tn - t)) (dn * dn1)
      let a2 ← divide? (-1 * ((tn - t) * (t - t1))) (2 * dn * dn1)
      let a ← divide? ((t - t2) * (t - t1)) (2 * dn * dn1)
      return (a1 * p0 + a2 * p1 + a * curr, a)
    | _ => none
  | _ => some (old, alpha)

/-- The coarse value a stage of the subgrid model sees, src/subgrid/subgridDtN_solver.cpp:387-415: the array is
new (zero) in every sub-step and `beta_n` starts with one. -/
def seen [Field K] [DecidableEq K] (curr : K) (prev : List K) (tprev dt t : K) : Option (K × K) :=
  lagrangeInterpolate 0 1 curr prev (coarseTimes prev.length tprev dt) t

/-- `sgtime` at the start of sub-step `k`, src/subgrid/subgridDtN_solver.cpp:165, 218, 380 and 501; `tnow` is
`time`, `n` the number of steps. -/
def subStart [Field K] (tnow tprev : K) (n : Nat) : Nat → K
  | 0 => tnow - (tnow - tprev)
  | k + 1 => subStart tnow tprev n k + (tnow - tprev) / n

/-- The time of a stage with abscissa `c` in sub-step `k`, src/subgrid/subgridDtN_solver.cpp:361 and 407 with
`updateStage` (src/managers/assembly/assemblyManager_workset.hpp:1202-1213): start plus `c` times the sub-step. -/
def stageTime [Field K] (tnow tprev : K) (n k : Nat) (c : K) : K :=
  subStart tnow tprev n k + c * ((tnow - tprev) / n)

/-- `advanceStage` without synchronous stepping, src/subgrid/subgridDtN.cpp:2045-2050, as far as the times go: the
time that was solved becomes the previous time.  The stored earlier coarse values are not changed by it. -/
def advanceStage (current : K) : K := current

/-! ## Specification -/

/-- A function of time of degree two at most.  [specification, no code] -/
def poly [Field K] (a b c t : K) : K := a + b * t + c * t ^ 2

/-! ## Properties -/

section
variable [Field K] [DecidableEq K]

/-- C105: with one earlier value (one-step methods) a coarse value that changes linearly in time is seen exactly at
every time, and the reported factor is the derivative with respect to the current coarse value. -/
theorem C105_linear (a b tprev dt t e : K) (hdt : dt ≠ 0) :
    ∃ al : K, seen (poly a b 0 (tprev + dt)) [poly a b 0 tprev] tprev dt t = some (poly a b 0 t, al) ∧
      seen (poly a b 0 (tprev + dt) + e) [poly a b 0 tprev] tprev dt t = some (poly a b 0 t + al * e, al) := by
  refine ⟨(t - tprev) / dt, ?_, ?_⟩
  · simp [seen, lagrangeInterpolate, coarseTimes, divide?, hdt, poly]
    field_simp
    ring
  · simp [seen, lagrangeInterpolate, coarseTimes, divide?, hdt, poly]
    field_simp
    ring

/-- C105: with two earlier values (two-step methods) at equal distances, a coarse value that changes quadratically in
time is seen exactly, and the reported factor is the derivative with respect to the current coarse value. -/
theorem C105_quadratic [CharZero K] (a b c tprev dt t e : K) (hdt : dt ≠ 0) :
    ∃ al : K, seen (poly a b c (tprev + dt)) [poly a b c tprev, poly a b c (tprev - dt)] tprev dt t =
        some (poly a b c t, al) ∧
      seen (poly a b c (tprev + dt) + e) [poly a b c tprev, poly a b c (tprev - dt)] tprev dt t =
        some (poly a b c t + al * e, al) := by
  have h2 : (2 : K) ≠ 0 := by exact_mod_cast (two_ne_zero : (2 : ℕ) ≠ 0)
  refine ⟨(t - (tprev - dt)) * (t - tprev) / (2 * dt * dt), ?_, ?_⟩
  · simp [seen, lagrangeInterpolate, coarseTimes, divide?, hdt, poly]
    field_simp
    ring
  · simp [seen, lagrangeInterpolate, coarseTimes, divide?, hdt, poly]
    field_simp
    ring

/-- C105: at the coarse times the coarse values themselves are seen. -/
theorem C105_ends [CharZero K] (curr p0 p1 tprev dt : K) (hdt : dt ≠ 0) :
    seen curr [p0] tprev dt (tprev + dt) = some (curr, 1) ∧ seen curr [p0] tprev dt tprev = some (p0, 0) ∧
    seen curr [p0, p1] tprev dt (tprev + dt) = some (curr, 1) ∧
    seen curr [p0, p1] tprev dt tprev = some (p0, 0) := by
  have h2 : (2 : K) ≠ 0 := by exact_mod_cast (two_ne_zero : (2 : ℕ) ≠ 0)
  refine ⟨?_, ?_, ?_, ?_⟩ <;>
    simp [seen, lagrangeInterpolate, coarseTimes, divide?, hdt]
  have h3 : (dt + dt) * dt / (2 * dt * dt) = 1 := by
    field_simp
    ring
  simp [h3]

theorem subStart_eq (tnow tprev : K) (n k : Nat) :
    subStart tnow tprev n k = tprev + k * ((tnow - tprev) / n) := by
  induction k with
  | zero => simp [subStart]
  | succ k ih =>
    rw [subStart, ih]
    push_cast
    ring

/-- C105: the sub-steps cover the coarse step: the first starts at the previous time, each starts where the one before
ends, and the last ends at the current time. -/
theorem C105_cover [CharZero K] (tnow tprev : K) {n : Nat} (hn : 0 < n) :
    stageTime tnow tprev n 0 0 = tprev ∧
    (∀ k : Nat, stageTime tnow tprev n k 1 = stageTime tnow tprev n (k + 1) 0) ∧
    stageTime tnow tprev n (n - 1) 1 = tnow := by
  have hn' : (n : K) ≠ 0 := Nat.cast_ne_zero.mpr (by omega)
  refine ⟨by simp [stageTime, subStart], fun k => by simp [stageTime, subStart], ?_⟩
  rw [stageTime, subStart_eq]
  obtain ⟨m, rfl⟩ : ∃ m, n = m + 1 := ⟨n - 1, by omega⟩
  simp only [Nat.add_sub_cancel]
  push_cast at hn' ⊢
  field_simp
  ring

end

section
variable [Field K] [LinearOrder K] [IsStrictOrderedRing K]

/-- C105: with one earlier value, every stage of every sub-step with abscissa between 0 and 1 sees a value between the
two coarse values. -/
theorem C105_between (curr p0 tnow tprev c : K) {n k : Nat} (hk : k < n) (ht : tprev < tnow) (h0 : 0 ≤ c)
    (h1 : c ≤ 1) :
    ∃ v al : K, seen curr [p0] tprev (tnow - tprev) (stageTime tnow tprev n k c) = some (v, al) ∧
      0 ≤ al ∧ al ≤ 1 ∧ v = (1 - al) * p0 + al * curr := by
  have hdt : (tnow - tprev) ≠ 0 := ne_of_gt (sub_pos.mpr ht)
  have hn : (0 : K) < n := Nat.cast_pos.mpr (by omega)
  have hst : stageTime tnow tprev n k c - tprev = (k + c) / n * (tnow - tprev) := by
    rw [stageTime, subStart_eq]
    ring
  refine ⟨(1 - (k + c) / n) * p0 + (k + c) / n * curr, (k + c) / n, ?_, ?_, ?_, rfl⟩
  · have hA : (tprev + (tnow - tprev) - stageTime tnow tprev n k c) / (tprev + (tnow - tprev) - tprev) =
        1 - (k + c) / n := by
      have h' : stageTime tnow tprev n k c = tprev + (k + c) / n * (tnow - tprev) := by linear_combination hst
      have e1 : tprev + (tnow - tprev) - stageTime tnow tprev n k c = (1 - (k + c) / n) * (tnow - tprev) := by
        linear_combination -h'
      rw [e1, add_sub_cancel_left, mul_div_assoc, div_self hdt, mul_one]
    have hB : (stageTime tnow tprev n k c - tprev) / (tprev + (tnow - tprev) - tprev) = (k + c) / n := by
      rw [hst, add_sub_cancel_left, mul_div_assoc, div_self hdt, mul_one]
    have hz : tprev + (tnow - tprev) - tprev ≠ 0 := by rw [add_sub_cancel_left]; exact hdt
    simp only [seen, lagrangeInterpolate, coarseTimes, List.length_singleton, if_true, divide?, if_neg hz, hA, hB]
    rfl
  · exact div_nonneg (add_nonneg (Nat.cast_nonneg k) h0) hn.le
  · rw [div_le_one hn]
    have : (k : K) + 1 ≤ n := by exact_mod_cast hk
    linarith

end

/-! ## What does not hold -/

section
variable [Field K] [DecidableEq K]

/-- C105: that the fine scale sees the coarse scale is false when three or more earlier values are stored (methods
with three or more steps): the value seen is zero, whatever the coarse values are. -/
theorem C105_history_violated (curr p0 p1 p2 : K) (ps : List K) (tprev dt t : K) :
    seen curr (p0 :: p1 :: p2 :: ps) tprev dt t = some (0, 1) := by
  simp [seen, lagrangeInterpolate]

/-- C105: that every stage of a coarse method can be solved is false: at a stage with abscissa zero the coarse step has
length zero and the weights are not defined. -/
theorem C105_explicit_stage_violated (curr p0 p1 tprev t : K) :
    seen curr [p0] tprev 0 t = none ∧ seen curr [p0, p1] tprev 0 t = none := by
  constructor <;> simp [seen, lagrangeInterpolate, coarseTimes, divide?]

end

/-- C105: that linear changes are seen exactly is false with two earlier values when the coarse steps had different
lengths (a step was cut or adapted): the code assumes equal steps.  The coarse value is the time itself, at times
0, 2 and 3; at time 5/2 the value seen is not 5/2. -/
theorem C105_unequal_violated :
    ∃ v : ℚ, seen (poly 0 1 0 3) [poly 0 1 0 2, poly 0 1 0 0] 2 1 (5/2) = some (v, 3/8) ∧ v ≠ poly 0 1 0 (5/2) := by
  refine ⟨21/8, ?_, ?_⟩
  · decide +kernel
  · norm_num [poly]

/-- C105: that linear changes are seen exactly is false in the second stage of a coarse method with two stages: the
stored earlier value belongs to the start of the step, but is used as the value at the first stage.  The coarse value
is the time, the step starts at 0, the stages are at 1/2 and 1. -/
theorem C105_second_stage_violated :
    ∃ v : ℚ, seen (poly 0 1 0 1) [poly 0 1 0 0] (advanceStage (1/2)) (1 - advanceStage (1/2)) (3/4) = some (v, 1/2) ∧
      v ≠ poly 0 1 0 (3/4) := by
  refine ⟨1/2, ?_, ?_⟩
  · decide +kernel
  · norm_num [poly]

/-! ## Cases -/

example : seen (poly 1 2 0 3) [poly 1 2 0 2] 2 1 (9/4 : ℚ) = some (poly 1 2 0 (9/4), 1/4) := by decide +kernel

example : seen (poly 1 2 3 3) [poly 1 2 3 2, poly 1 2 3 1] 2 1 (5/2 : ℚ) = some (poly 1 2 3 (5/2), 3/8) := by
  decide +kernel

example : stageTime (3 : ℚ) 1 4 2 (1/2) = 9/4 := by decide +kernel

end MrHyDE.Subgrid
