import Verif.Time.Model
import Verif.Time.Spec
import Mathlib.Algebra.Polynomial.Derivative
import Mathlib.Algebra.Polynomial.Eval.Degree
import Mathlib.Tactic.Ring
import Mathlib.Tactic.FieldSimp
import Mathlib.Tactic.LinearCombination
import Mathlib.Tactic.NormNum
import Mathlib.Tactic.IntervalCases

/-!
# C19, C20: the weights of the multistep methods and the built-in tableaux
-/

namespace MrHyDE.Time

open Polynomial

/-- The tableau of the implicit Euler method, the one required with multistep methods. -/
def bwe (K : Type) [Field K] : Tableau K := { A := [[1]], b := [1], c := [1] }

/-- **C19.**  For every order 1..6, every polynomial of degree at most the order sampled at equally
spaced times, the time derivative the workset reconstructs (with the implicit Euler tableau that the
code demands together with a multistep method) is the exact derivative at the new time. -/
theorem C19 {K : Type} [Field K] [CharZero K] (k : Nat) (hk : 1 ≤ k ∧ k ≤ 6) (p : K[X])
    (hp : p.natDegree ≤ k) (t dt : K) (hdt : dt ≠ 0) :
    timeDeriv (bwe K) (bdfWeights k) dt 0 (fun j => p.eval (t - (j + 1 : Nat) * dt)) (p.eval t)
      = (derivative p).eval t := by
  obtain ⟨h1, h6⟩ := hk
  have e := as_sum_range' p (k+1) (Nat.lt_succ_of_le hp)
  rw [e]
  interval_cases k <;>
  · simp only [timeDeriv, bdfWeights, bwe, Tableau.w, List.length, List.range, List.range.loop, List.foldl,
      Finset.sum_range_succ, Finset.sum_range_zero, eval_add, derivative_add, derivative_monomial,
      eval_monomial, List.getD_cons_zero, List.getD_cons_succ, smul_eq_mul, eval_zero, derivative_zero]
    push_cast
    field_simp
    ring

/-- A case of `C19` with its value: BDF2 for `t^2` at `t = 3`, `dt = 1/2` gives the slope `6`. -/
example : timeDeriv (bwe ℚ) (bdfWeights 2) (1/2) 0
    (fun j => eval (3 - ((j + 1 : Nat) : ℚ) * (1/2)) (X ^ 2 : ℚ[X])) (eval (3 : ℚ) (X ^ 2)) = 6 := by
  rw [C19 2 (by decide) (X ^ 2) (by simp) 3 (1/2) (by norm_num)]
  simp
  norm_num

/-- Orders outside 1..6 have no weights: the reconstructed derivative is zero whatever the states are
(the code does not reject such an order). -/
theorem C19_other_orders_violated {K : Type} [Field K] (k : Nat) (hk : k = 0 ∨ 6 < k) (dt : K)
    (prev : Nat → K) (u : K) : timeDeriv (bwe K) (bdfWeights k) dt 0 prev u = 0 := by
  have e : (bdfWeights k : List K) = [] := by
    match k, hk with
    | 0, _ => rfl
    | n + 7, _ => rfl
    | 1, h => omega
    | 2, h => omega
    | 3, h => omega
    | 4, h => omega
    | 5, h => omega
    | 6, h => omega
  simp [timeDeriv, e]

/-- The textbook data of a stored tableau. -/
def toRK {K : Type} [Field K] (T : Tableau K) : Spec.RK K :=
  { s := T.stages, a := T.a, b := T.w, c := T.t }

/-- Order announced by the name of a tableau (the second number, or the known order of the method). -/
def advertised : String → Option Nat
  | "BWE" => some 1
  | "DIRK-1,1" => some 1
  | "FWE" => some 1
  | "CN" => some 2
  | "SSPRK-3,3" => some 3
  | "RK-4,4" => some 4
  | "DIRK-1,2" => some 2
  | "DIRK-2,2" => some 2
  | "DIRK-2,3" => some 3
  | _ => none

/-- Order conditions up to the given order (up to four). -/
def OrderUpTo {K : Type} [Field K] (R : Spec.RK K) : Nat → Prop
  | 1 => Spec.Order1 R
  | 2 => Spec.Order2 R
  | 3 => Spec.Order3 R
  | 4 => Spec.Order4 R
  | _ => False

open Spec in
/-- **C20** (partial: without "DIRK-3,3" and "leap-frog").  The tableau stored for every other
built-in name has row sums equal to its abscissae and satisfies all order conditions up to the
announced order. -/
theorem C20_partial {K : Type} [Field K] [CharZero K] (s3 : K) (h3 : s3 * s3 = 3) (name : String)
    (q : Nat) (hq : advertised name = some q) :
    ∃ T, builtin s3 name = some T ∧ RowSums (toRK T) ∧ OrderUpTo (toRK T) q := by
  have cases9 : (name = "BWE" ∧ q = 1) ∨ (name = "DIRK-1,1" ∧ q = 1) ∨ (name = "FWE" ∧ q = 1) ∨
      (name = "CN" ∧ q = 2) ∨ (name = "SSPRK-3,3" ∧ q = 3) ∨ (name = "RK-4,4" ∧ q = 4) ∨
      (name = "DIRK-1,2" ∧ q = 2) ∨ (name = "DIRK-2,2" ∧ q = 2) ∨ (name = "DIRK-2,3" ∧ q = 3) := by
    unfold advertised at hq
    split at hq <;> simp_all
  rcases cases9 with ⟨rfl, rfl⟩ | ⟨rfl, rfl⟩ | ⟨rfl, rfl⟩ | ⟨rfl, rfl⟩ | ⟨rfl, rfl⟩ | ⟨rfl, rfl⟩ |
    ⟨rfl, rfl⟩ | ⟨rfl, rfl⟩ | ⟨rfl, rfl⟩
  all_goals
    refine ⟨_, rfl, ?_, ?_⟩
    · intro i hi
      simp only [toRK, Tableau.stages, List.length] at hi
      interval_cases i <;>
        simp [toRK, Tableau.stages, Tableau.a, Tableau.t, Finset.sum_range_succ] <;> try ring
    · simp [OrderUpTo, Order1, Order2, Order3, Order4, toRK, Tableau.stages, Tableau.a, Tableau.t,
        Tableau.w, Finset.sum_range_succ]
      try norm_num
      try exact ⟨by ring, by linear_combination (1/12) * h3, by linear_combination (-1/6) * h3⟩

/-- Non-vacuity of `C20_partial`: a concrete name. -/
example : advertised "RK-4,4" = some 4 := rfl

/-- The rejection of unknown names. -/
theorem C20_unknown_names {K : Type} [Field K] (s3 : K) : builtin s3 "RK4" = none := rfl

open Spec in
/-- The formulas of "DIRK-3,3" are of order three whenever `p` is a root of
`p^3 - 3 p^2 + 3/2 p - 1/6`. -/
theorem C20_dirk33_formula {K : Type} [Field K] [CharZero K] (p : K)
    (hp : p^3 - 3*p^2 + 3/2*p - 1/6 = 0) :
    RowSums (toRK (dirk33 p)) ∧ Order3 (toRK (dirk33 p)) := by
  refine ⟨?_, ?_⟩
  · intro i hi
    simp only [toRK, Tableau.stages, dirk33, List.length] at hi
    interval_cases i <;>
      simp [toRK, dirk33, Tableau.stages, Tableau.a, Tableau.t, Finset.sum_range_succ] <;> try ring
  · simp [Order1, Order2, Order3, dirk33, toRK, Tableau.stages, Tableau.a, Tableau.t,
        Tableau.w, Finset.sum_range_succ]
    refine ⟨⟨by ring, ?_⟩, ?_, ?_⟩
    · linear_combination (-3/2) * hp
    · linear_combination (3/8 - 27/8 * p) * hp
    · linear_combination (6 - 27/2 * p) * hp

open Spec in
/-- **C20, not satisfied exactly by "DIRK-3,3".**  The constant of the code is the root rounded to ten
digits, so in exact arithmetic the second order condition already fails. -/
theorem C20_dirk33_violated (s3 : ℚ) :
    ∃ T, builtin s3 "DIRK-3,3" = some T ∧ ¬ Order2 (toRK T) := by
  refine ⟨_, rfl, ?_⟩
  simp [Order1, Order2, dirk33, toRK, Tableau.stages, Tableau.a, Tableau.t, Tableau.w,
    Finset.sum_range_succ]
  norm_num

open Spec in
/-- "DIRK-3,3" is consistent exactly, and misses the conditions of order two and three by less than
`1e-11`. -/
theorem C20_dirk33_partial {K : Type} [Field K] [LinearOrder K] [IsStrictOrderedRing K] (s3 : K) :
    ∃ T, builtin s3 "DIRK-3,3" = some T ∧ RowSums (toRK T) ∧ Order1 (toRK T) ∧
      |∑ i ∈ Finset.range 3, T.w i * T.t i * 2 - 1| < 1/10^11 ∧
      |∑ i ∈ Finset.range 3, T.w i * T.t i ^ 2 * 3 - 1| < 1/10^11 ∧
      |∑ i ∈ Finset.range 3, ∑ j ∈ Finset.range 3, T.w i * T.a i j * T.t j * 6 - 1| < 1/10^11 := by
  refine ⟨_, rfl, ?_, ?_, ?_, ?_, ?_⟩
  · intro i hi
    simp only [toRK, Tableau.stages, dirk33, List.length] at hi
    interval_cases i <;>
      simp [toRK, dirk33, Tableau.stages, Tableau.a, Tableau.t, Finset.sum_range_succ] <;> norm_num
  · simp [Order1, dirk33, toRK, Tableau.stages, Tableau.w, Finset.sum_range_succ]
    norm_num
  all_goals
    simp [dirk33, Tableau.a, Tableau.t, Tableau.w, Finset.sum_range_succ]
    norm_num [abs_lt]

open Spec in
/-- **C20, violated by "leap-frog".**  Its weights add up to two and its second row does not sum to its
abscissa: as a Runge-Kutta method (which is how the code uses it) it is not consistent. -/
theorem C20_leapfrog_violated {K : Type} [Field K] [CharZero K] (s3 : K) :
    ∃ T, builtin s3 "leap-frog" = some T ∧ ¬ Order1 (toRK T) ∧ ¬ RowSums (toRK T) := by
  refine ⟨_, rfl, ?_, ?_⟩
  · simp [Order1, toRK, Tableau.stages, Tableau.w, Finset.sum_range_succ]
  · intro h
    have := h 1 (show 1 < 2 by decide)
    simp [toRK, Tableau.stages, Tableau.a, Tableau.t, Finset.sum_range_succ] at this

end MrHyDE.Time
