import Mathlib.Algebra.Module.LinearMap.Basic
import Mathlib.Algebra.Module.Equiv.Basic
import Mathlib.Algebra.Order.Field.Basic
import Mathlib.Algebra.Field.Rat
import Mathlib.Algebra.Order.Ring.Unbundled.Rat
import Mathlib.Algebra.Order.Group.Unbundled.Abs
import Mathlib.Algebra.Module.Equiv.Defs
import Mathlib.Tactic.Linarith
import Mathlib.Tactic.LinearCombination
import Mathlib.Tactic.Module
import Mathlib.Tactic.Abel
import Mathlib.Tactic.NormNum
import Mathlib.Tactic.Ring
import Mathlib.Tactic.FieldSimp

/-!
# The fine problem and its derivative with respect to the coarse values (C107)

For every coarse element the fine problem is solved in several sub-steps, and the derivative of its solution with
respect to the coarse values is carried along.  The coarse Newton method relies on both.
-/

set_option linter.unusedSectionVars false

namespace MrHyDE.Subgrid.Sens

variable {K V L M : Type}

/-! ## Model -/

/-- The fine problem as `assembleJacobianResidual` and `forwardSensitivityPropagation` see it,
src/subgrid/subgridDtN_solver.cpp:680-895 and 1240-1330: residual at (solution, previous solution, coarse values),
matrix of derivatives with respect to the solution, derivative in the previous solution along a vector, derivative in
the coarse values along a vector, solution of a system with a factorised matrix (lines 990-993 and 1351-1353), and
largest absolute value of an entry (`normInf`).  Simplified: one process, one stage, no parameters. -/
structure Problem (K V L M : Type) where
  R : V → V → L → V
  J : V → V → L → M
  Jprev : V → V → L → V → V
  Jcoarse : V → V → L → L → V
  solve : M → V → V
  norm : V → K

/-- The loop of `nonlinearSolver`, src/subgrid/subgridDtN_solver.cpp:935-1028: `left` iterations are left, `init` is
`resnorm_initial` (absent in iteration zero), `fac` the matrix of the last factorisation held by `Am2Solver`.
The right hand side is the negative residual (lines 773-776 and 834-837).  The third component, the iterations left when
the loop ends, is kept for the statements only; the code does not return it. -/
def newtonLoop [Field K] [LinearOrder K] [AddCommGroup V] (P : Problem K V L M) (uprev : V) (lam : L) (tol : K) :
    Nat → Option K → V → Option M → V × Option M × Nat
  | 0, _, u, fac => (u, fac, 0)
  | left + 1, init, u, fac =>
    let r := P.R u uprev lam
    let scaled := match init with
      | none => if 0 < P.norm r then 1 else 0
      | some i => P.norm r / i
    if tol < scaled then
      let m := P.J u uprev lam
      newtonLoop P uprev lam tol left (some (init.getD (P.norm r))) (u + P.solve m (-r)) (some m)
    else (u, fac, left + 1)

/-- `nonlinearSolver`, src/subgrid/subgridDtN_solver.cpp:903-1037: before the first iteration the scaled norm is ten
times the tolerance (lines 922-924). -/
def nonlinearSolver [Field K] [LinearOrder K] [AddCommGroup V] (P : Problem K V L M) (maxIter : Nat) (tol : K)
    (uprev : V) (lam : L) (u : V) (fac : Option M) : V × Option M × Nat :=
  if tol < 10 * tol then newtonLoop P uprev lam tol maxIter none u fac else (u, fac, maxIter)

/-- `forwardSensitivityPropagation` for one coarse direction `e`, src/subgrid/subgridDtN_solver.cpp:1280, 1303-1315,
1347-1356 and 1373-1374, one stage; `none` if nothing has been factorised so far.  `d` is `d_sol`, `dprev` is
`d_sol_prev_saved[0]`, `scale` is `lambda_scale`. -/
def sensitivity [Field K] [AddCommGroup V] [Module K V] (P : Problem K V L M) (u uprev : V) (lam e : L) (scale : K)
    (d dprev : V) (fac : Option M) : Option V :=
  fac.map fun m => d + P.solve m (-(scale • P.Jcoarse u uprev lam e) - P.Jprev u uprev lam dprev) - dprev

/-- The sub-steps of one coarse step, src/subgrid/subgridDtN_solver.cpp:380-501: each entry of the list is the weight
`beta_n` of the current coarse value in the interpolated one (C105), `lamPrev` the coarse value of the previous time.
The sub-step starts from the value of the one before (lines 406 and 433); afterwards the derivative becomes the previous
one (line 499).  `mb` is `macro_beta`. -/
def subSteps [Field K] [LinearOrder K] [AddCommGroup V] [Module K V] [AddCommGroup L] [Module K L]
    (P : Problem K V L M) (maxIter : Nat) (tol : K) (lamPrev lam e : L) (mb : K) :
    List K → V → V → Option M → Option (V × V × Option M)
  | [], u, d, fac => some (u, d, fac)
  | a :: as, u, d, fac =>
    let l := (1 - a) • lamPrev + a • lam
    let s := nonlinearSolver P maxIter tol u l u fac
    match sensitivity P s.1 u l e (a * mb) d d s.2.1 with
    | none => none
    | some d' => subSteps P maxIter tol lamPrev lam e mb as s.1 d' s.2.1

/-- `resetPrevSoln`, src/tools/group.cpp:444-478: the earlier values move one place, the current one becomes the first.
The number of stored values does not change. -/
def resetPrevSoln {A : Type} (cur : A) (hist : List A) : List A := (cur :: hist).take hist.length

/-- Start of a call of `solve` without synchronous stepping, src/subgrid/subgridDtN_solver.cpp:338-350: the solution of
the previous coarse time is gathered and `resetPrevSoln` is called. -/
def startSolve {A : Type} (prevSol : A) (hist : List A) : List A := resetPrevSoln prevSol hist

/-- The earlier values during one call of `solve`, src/subgrid/subgridDtN_solver.cpp:338-350 and 477-484: `resetPrevSoln`
at the start and after every sub-step (`vals` are the values the sub-steps compute). -/
def solveHist {A : Type} (prevSol : A) (vals : List A) (hist : List A) : List A :=
  vals.foldl (fun h v => resetPrevSoln v h) (startSolve prevSol hist)

/-- The derivative over sub-steps for a method with two earlier values and a linear scalar problem
`a u + b u₁ + c u₂ + l`, src/subgrid/subgridDtN_solver.cpp:1303-1315, 1373-1374 and 499: only
`d_sol_prev_saved[0]` is ever assigned, `d_sol_prev_saved[1]` (`z`) keeps its value from line 85-87. -/
def sensTwo [Field K] (a b c l z : K) : Nat → K
  | 0 => 0
  | k + 1 => (-l - b * sensTwo a b c l z k - c * z) / a

/-! ## Specification -/

/-- The solutions of the fine problem at the end of the sub-steps: each sub-step solves its equation.
[specification, no code] -/
inductive Solves [Field K] [AddCommGroup V] [AddCommGroup L] [Module K L] (P : Problem K V L M) (lamPrev lam : L) :
    List K → V → V → Prop
  | nil (u : V) : Solves P lamPrev lam [] u u
  | cons {a : K} {as : List K} {u v w : V} (h : P.R v u ((1 - a) • lamPrev + a • lam) = 0)
      (t : Solves P lamPrev lam as v w) : Solves P lamPrev lam (a :: as) u w

/-- The derivative over sub-steps by the chain rule for two earlier values.  [specification, no code] -/
def chainTwo [Field K] (a b c l : K) : Nat → K × K
  | 0 => (0, 0)
  | k + 1 => ((-l - b * (chainTwo a b c l k).1 - c * (chainTwo a b c l k).2) / a, (chainTwo a b c l k).1)

/-- A linear fine problem with constant regular matrix: `A u + B u' + C λ + f`.  [specification, no code] -/
structure Affine [Field K] [AddCommGroup V] [Module K V] [AddCommGroup L] [Module K L] (P : Problem K V L M)
    (A : V ≃ₗ[K] V) (B : V →ₗ[K] V) (C : L →ₗ[K] V) (f : V) (m : M) : Prop where
  R : ∀ u p : V, ∀ l : L, P.R u p l = A u + B p + C l + f
  J : ∀ u p : V, ∀ l : L, P.J u p l = m
  solve : ∀ b : V, P.solve m b = A.symm b
  Jprev : ∀ u p : V, ∀ l : L, ∀ d : V, P.Jprev u p l d = B d
  Jcoarse : ∀ u p : V, ∀ l e : L, P.Jcoarse u p l e = C e

/-! ## Properties -/

section
variable [Field K] [LinearOrder K] [IsStrictOrderedRing K] [AddCommGroup V] [Module K V] [AddCommGroup L] [Module K L]

theorem newtonLoop_tolerance (P : Problem K V L M) (uprev : V) (lam : L) (tol i0 : K) (hi : 0 < i0) :
    ∀ (left : Nat) (u : V) (fac : Option M), (newtonLoop P uprev lam tol left (some i0) u fac).2.2 ≠ 0 →
      P.norm (P.R (newtonLoop P uprev lam tol left (some i0) u fac).1 uprev lam) ≤ tol * i0 := by
  intro left
  induction left with
  | zero => intro u fac h; exact absurd rfl h
  | succ n ih =>
    intro u fac h
    by_cases hs : tol < P.norm (P.R u uprev lam) / i0
    · have he : newtonLoop P uprev lam tol (n + 1) (some i0) u fac =
          newtonLoop P uprev lam tol n (some i0) (u + P.solve (P.J u uprev lam) (-(P.R u uprev lam)))
            (some (P.J u uprev lam)) := by
        simp only [newtonLoop, if_pos hs, Option.getD_some]
      rw [he] at h ⊢
      exact ih _ _ h
    · have he : newtonLoop P uprev lam tol (n + 1) (some i0) u fac = (u, fac, n + 1) := by
        simp only [newtonLoop, if_neg hs]
      rw [he]
      exact (div_le_iff₀ hi).mp (not_lt.mp hs)

/-- C107: whatever the fine problem is, if the solver ends before its iterations are used up, the residual of the
returned solution is at most the tolerance times the residual of the start. -/
theorem C107_tolerance (P : Problem K V L M) (uprev : V) (lam : L) {tol : K} (htol : 0 < tol) (maxIter : Nat)
    (hnn : ∀ v : V, 0 ≤ P.norm v) (u : V) (fac : Option M)
    (h : (nonlinearSolver P maxIter tol uprev lam u fac).2.2 ≠ 0) :
    P.norm (P.R (nonlinearSolver P maxIter tol uprev lam u fac).1 uprev lam) ≤ tol * P.norm (P.R u uprev lam) := by
  have h10 : tol < 10 * tol := by linarith
  unfold nonlinearSolver at h ⊢
  rw [if_pos h10] at h ⊢
  cases maxIter with
  | zero => exact absurd rfl h
  | succ n =>
    by_cases hp : 0 < P.norm (P.R u uprev lam)
    · by_cases hs : tol < 1
      · have he : newtonLoop P uprev lam tol (n + 1) none u fac =
            newtonLoop P uprev lam tol n (some (P.norm (P.R u uprev lam)))
              (u + P.solve (P.J u uprev lam) (-(P.R u uprev lam))) (some (P.J u uprev lam)) := by
          simp only [newtonLoop, if_pos hp, if_pos hs, Option.getD_none]
        rw [he] at h ⊢
        exact newtonLoop_tolerance P uprev lam tol _ hp n _ _ h
      · have he : newtonLoop P uprev lam tol (n + 1) none u fac = (u, fac, n + 1) := by
          simp only [newtonLoop, if_pos hp, if_neg hs]
        rw [he]
        exact le_mul_of_one_le_left (hnn _) (not_lt.mp hs)
    · have hz : P.norm (P.R u uprev lam) = 0 := le_antisymm (not_lt.mp hp) (hnn _)
      have he : newtonLoop P uprev lam tol (n + 1) none u fac = (u, fac, n + 1) := by
        simp only [newtonLoop, if_neg hp, if_neg (not_lt.mpr htol.le)]
      rw [he, hz, mul_zero]

/-- The solver on a linear problem: the equation is solved exactly; the factorised matrix is that of the problem unless
the start has no residual, when it is what it was before. -/
theorem nonlinearSolver_affine {P : Problem K V L M} {A : V ≃ₗ[K] V} {B : V →ₗ[K] V} {C : L →ₗ[K] V} {f : V} {m : M}
    (h : Affine P A B C f m) (hnn : ∀ v : V, 0 ≤ P.norm v) (hz : ∀ v : V, P.norm v = 0 ↔ v = 0) {tol : K}
    (h0 : 0 < tol) (h1 : tol < 1) (maxIter : Nat) (hm : 0 < maxIter) (uprev : V) (lam : L) (u : V) (fac : Option M) :
    P.R (nonlinearSolver P maxIter tol uprev lam u fac).1 uprev lam = 0 ∧
    (P.R u uprev lam = 0 → (nonlinearSolver P maxIter tol uprev lam u fac).2.1 = fac) ∧
    (P.R u uprev lam ≠ 0 → (nonlinearSolver P maxIter tol uprev lam u fac).2.1 = some m) := by
  have h10 : tol < 10 * tol := by linarith
  unfold nonlinearSolver
  rw [if_pos h10]
  obtain ⟨n, rfl⟩ : ∃ n, maxIter = n + 1 := ⟨maxIter - 1, by omega⟩
  by_cases hr : P.R u uprev lam = 0
  · have hp : ¬ 0 < P.norm (P.R u uprev lam) := by rw [(hz _).mpr hr]; exact lt_irrefl _
    have he : newtonLoop P uprev lam tol (n + 1) none u fac = (u, fac, n + 1) := by
      simp only [newtonLoop, if_neg hp, if_neg (not_lt.mpr h0.le)]
    rw [he]
    exact ⟨hr, fun _ => rfl, fun hn => absurd hr hn⟩
  · have hp : 0 < P.norm (P.R u uprev lam) := lt_of_le_of_ne (hnn _) (fun e => hr ((hz _).mp e.symm))
    have he : newtonLoop P uprev lam tol (n + 1) none u fac =
        newtonLoop P uprev lam tol n (some (P.norm (P.R u uprev lam)))
          (u + P.solve (P.J u uprev lam) (-(P.R u uprev lam))) (some (P.J u uprev lam)) := by
      simp only [newtonLoop, if_pos hp, if_pos h1, Option.getD_none]
    have hex : P.R (u + P.solve (P.J u uprev lam) (-(P.R u uprev lam))) uprev lam = 0 := by
      rw [h.J, h.solve, h.R, h.R]
      simp only [map_add, map_neg, LinearEquiv.apply_symm_apply]
      abel
    have hstop : ∀ k : Nat, newtonLoop P uprev lam tol k (some (P.norm (P.R u uprev lam)))
        (u + P.solve (P.J u uprev lam) (-(P.R u uprev lam))) (some (P.J u uprev lam)) =
        (u + P.solve (P.J u uprev lam) (-(P.R u uprev lam)), some (P.J u uprev lam), k) := by
      intro k
      cases k with
      | zero => rfl
      | succ k =>
        have hn : ¬ tol < P.norm (P.R (u + P.solve (P.J u uprev lam) (-(P.R u uprev lam))) uprev lam) /
            P.norm (P.R u uprev lam) := by
          rw [hex, (hz _).mpr rfl, zero_div]
          exact not_lt.mpr h0.le
        simp only [newtonLoop, if_neg hn]
    rw [he, hstop]
    exact ⟨hex, fun hn => absurd hn hr, fun _ => by rw [h.J]⟩

/-- C107: on a linear fine problem the solver returns a solution in every sub-step, and the derivative carried along is
exact: moving the coarse value along the direction moves the solution at the end of the coarse step by the derivative.
Required: at the start of the first sub-step there is a residual, or the matrix factorised last is the one of this
problem.  Missing: problems that are not linear, a start without residual, methods with more than one earlier value. -/
theorem C107_derivative_partial {P : Problem K V L M} {A : V ≃ₗ[K] V} {B : V →ₗ[K] V} {C : L →ₗ[K] V} {f : V} {m : M}
    (h : Affine P A B C f m) (hnn : ∀ v : V, 0 ≤ P.norm v) (hz : ∀ v : V, P.norm v = 0 ↔ v = 0) {tol : K}
    (h0 : 0 < tol) (h1 : tol < 1) (maxIter : Nat) (hm : 0 < maxIter) (lamPrev lam e : L) (mb : K) :
    ∀ (as : List K) (u d : V) (fac : Option M),
      (fac = some m ∨ ∃ (a : K) (t : List K), as = a :: t ∧ P.R u u ((1 - a) • lamPrev + a • lam) ≠ 0) →
      ∃ (v d' : V), subSteps P maxIter tol lamPrev lam e mb as u d fac = some (v, d', some m) ∧
        Solves P lamPrev lam as u v ∧ Solves P lamPrev (lam + mb • e) as (u + d) (v + d') := by
  intro as
  induction as with
  | nil =>
    intro u d fac hf
    rcases hf with rfl | ⟨a, t, h', -⟩
    · exact ⟨u, d, rfl, .nil u, .nil _⟩
    · cases h'
  | cons a as ih =>
    intro u d fac hf
    obtain ⟨hs1, hs2, hs3⟩ := nonlinearSolver_affine h hnn hz h0 h1 maxIter hm u ((1 - a) • lamPrev + a • lam) u fac
    have hfac : (nonlinearSolver P maxIter tol u ((1 - a) • lamPrev + a • lam) u fac).2.1 = some m := by
      rcases hf with rfl | ⟨a', t, hat, hr⟩
      · by_cases hr : P.R u u ((1 - a) • lamPrev + a • lam) = 0
        · exact hs2 hr
        · exact hs3 hr
      · obtain ⟨rfl, rfl⟩ := List.cons.inj hat
        exact hs3 hr
    generalize hsv : nonlinearSolver P maxIter tol u ((1 - a) • lamPrev + a • lam) u fac = s at hs1 hfac
    have hstep : ∃ d1 : V, sensitivity P s.1 u ((1 - a) • lamPrev + a • lam) e (a * mb) d d s.2.1 = some d1 ∧
        A d1 + B d + (a * mb) • C e = 0 := by
      refine ⟨_, by rw [sensitivity, hfac]; rfl, ?_⟩
      simp only [h.solve, h.Jcoarse, h.Jprev, map_add, map_sub, LinearEquiv.apply_symm_apply]
      abel
    obtain ⟨d1, hd1, hd2⟩ := hstep
    obtain ⟨v, d', hv1, hv2, hv3⟩ := ih s.1 d1 (some m) (Or.inl rfl)
    refine ⟨v, d', ?_, .cons hs1 hv2, .cons ?_ hv3⟩
    · rw [hfac] at hd1
      simp only [subSteps, hsv, hfac, hd1]
      exact hv1
    · rw [h.R] at hs1 ⊢
      have e1 : C ((1 - a) • lamPrev + a • (lam + mb • e)) = C ((1 - a) • lamPrev + a • lam) + (a * mb) • C e := by
        rw [← map_smul, ← map_add]
        congr 1
        module
      rw [e1, map_add, map_add]
      calc A s.1 + A d1 + (B u + B d) + (C ((1 - a) • lamPrev + a • lam) + (a * mb) • C e) + f
          = (A s.1 + B u + C ((1 - a) • lamPrev + a • lam) + f) + (A d1 + B d + (a * mb) • C e) := by abel
        _ = 0 := by rw [hs1, hd2, add_zero]

/-- C107: the solutions of a linear fine problem are determined by its start, so the derivative of
`C107_derivative_partial` is the difference of the two solutions. -/
theorem C107_unique {P : Problem K V L M} {A : V ≃ₗ[K] V} {B : V →ₗ[K] V} {C : L →ₗ[K] V} {f : V} {m : M}
    (h : Affine P A B C f m) (lamPrev lam : L) :
    ∀ (as : List K) (u v w : V), Solves P lamPrev lam as u v → Solves P lamPrev lam as u w → v = w := by
  intro as
  induction as with
  | nil => intro u v w h1 h2; cases h1; cases h2; rfl
  | cons a as ih =>
    intro u v w h1 h2
    cases h1 with
    | cons r1 t1 =>
      cases h2 with
      | cons r2 t2 =>
        rename_i x y
        have hxy : x = y := by
          apply A.injective
          rw [h.R] at r1 r2
          have := r1.trans r2.symm
          simpa using this
        subst hxy
        exact ih _ _ _ t1 t2

end

/-! ## What does not hold -/

/-- [case] A scalar problem with its derivatives; the matrix is a number. -/
def scalar (R : ℚ → ℚ → ℚ → ℚ) (J : ℚ → ℚ → ℚ → ℚ) (Jp Jc : ℚ → ℚ → ℚ → ℚ) : Problem ℚ ℚ ℚ ℚ :=
  { R := R, J := J, Jprev := fun u p l d => Jp u p l * d, Jcoarse := fun u p l e => Jc u p l * e,
    solve := fun m b => b / m, norm := fun v => |v| }

/-- [case] `u² - 4 - λ` -/
def square : Problem ℚ ℚ ℚ ℚ :=
  scalar (fun u _ l => u ^ 2 - 4 - l) (fun u _ _ => 2 * u) (fun _ _ _ => 0) (fun _ _ _ => -1)

/-- [case] `a u - p - λ` -/
def line (a : ℚ) : Problem ℚ ℚ ℚ ℚ :=
  scalar (fun u p l => a * u - p - l) (fun _ _ _ => a) (fun _ _ _ => -1) (fun _ _ _ => -1)

/-- C107: that the derivative satisfies the linearised fine equation at the returned solution is false for a problem that
is not linear: the matrix of the last Newton step is used again, not the matrix at the solution.  For `u² - 4 - λ` from
`u = 3` the solver returns 13/6; there the derivative should be 3/13, the code gives 1/6. -/
theorem C107_stale_violated :
    subSteps square 10 (1/2) 0 0 1 1 [1] 3 0 none = some (13/6, 1/6, some 6) ∧
    square.J (13/6) 3 0 * (1/6) + square.Jcoarse (13/6) 3 0 1 ≠ 0 := by
  constructor
  · decide +kernel
  · norm_num [square, scalar]

/-- C107: that the derivative is exact is false when the start of a sub-step has no residual: nothing is factorised, and
the matrix left by another coarse element (or another step length) is used.  The problem `2 u - u' - λ` has derivative
1/2; after an element with matrix 4 the code gives 1/4. -/
theorem C107_zero_residual_violated :
    subSteps (line 2) 10 (1/2) 0 0 1 1 [1] 0 0 (some 4) = some (0, 1/4, some 4) ∧
    Solves (line 2) 0 1 [1] 0 (1/2) := by
  refine ⟨by decide +kernel, .cons ?_ (.nil _)⟩
  norm_num [line, scalar]

/-- C107: a fine solve that fails is not reported: for `u² - 4` the solver allowed one iteration from `u = 1/100` returns a
solution whose residual is thousands of times the residual of the start, in the same form as a good one. -/
theorem C107_silent_violated :
    ∃ u : ℚ, (nonlinearSolver square 1 (1/2) 0 0 (1/100) none).1 = u ∧
      1000 * |square.R (1/100) 0 0| < |square.R u 0 0| := by
  refine ⟨_, rfl, ?_⟩
  decide +kernel

/-- C107: with two earlier values the call repeats the value of the previous coarse time: at the start of the first call
after a coarse step both earlier values are that value, the one before it is lost.  The second call in the same coarse
step (next coarse Newton iteration) instead finds the last value of the first call. -/
theorem C107_history_violated {A : Type} (un vals1 vals2 : A) (rest : List A) (hist : A × A) :
    startSolve un [un, hist.2] = [un, un] ∧
    startSolve un (solveHist un (rest ++ [vals1, vals2]) [un, hist.2]) = [un, vals2] := by
  refine ⟨rfl, ?_⟩
  have hl : ∀ (vs : List A) (h : List A), (vs.foldl (fun h v => resetPrevSoln v h) h).length = h.length := by
    intro vs
    induction vs with
    | nil => intro h; rfl
    | cons v vs ih => intro h; rw [List.foldl_cons, ih]; simp [resetPrevSoln]
  unfold solveHist
  rw [List.foldl_append]
  obtain ⟨x, y, hxy⟩ : ∃ x y : A, rest.foldl (fun h v => resetPrevSoln v h) (startSolve un [un, hist.2]) = [x, y] := by
    have h2 := hl rest (startSolve un [un, hist.2])
    match hm : rest.foldl (fun h v => resetPrevSoln v h) (startSolve un [un, hist.2]), h2 with
    | [x, y], _ => exact ⟨x, y, rfl⟩
  rw [hxy]
  rfl

/-- C107: with two earlier values the derivative is wrong from the third sub-step on, because the older derivative is
never stored: for `3/2 u - 2 u₁ + 1/2 u₂ - λ` the third value is not the one of the chain rule. -/
theorem C107_two_step_violated :
    sensTwo (3/2 : ℚ) (-2) (1/2) (-1) 0 2 = (chainTwo (3/2) (-2) (1/2) (-1) 2).1 ∧
    sensTwo (3/2 : ℚ) (-2) (1/2) (-1) 0 3 ≠ (chainTwo (3/2) (-2) (1/2) (-1) 3).1 := by
  constructor <;> decide +kernel

/-! ## Cases -/

theorem line_affine : Affine (line 2) (LinearEquiv.smulOfNeZero ℚ ℚ (2 : ℚ) two_ne_zero)
    (-LinearMap.id) (-LinearMap.id) 0 (2 : ℚ) where
  R u p l := by
    simp [line, scalar]
    ring
  J _ _ _ := rfl
  solve b := by
    apply (LinearEquiv.smulOfNeZero ℚ ℚ (2 : ℚ) two_ne_zero).injective
    rw [LinearEquiv.apply_symm_apply]
    simp only [line, scalar, LinearEquiv.smulOfNeZero_apply, smul_eq_mul]
    field_simp
  Jprev _ _ _ d := by simp [line, scalar]
  Jcoarse _ _ _ e := by simp [line, scalar]

example : subSteps (line 2) 10 (1/2) 0 1 1 1 [1/2, 1] 1 0 none = some (7/8, 5/8, some 2) := by decide +kernel

example : (line 2).R 1 1 ((1 - 1/2) • (0 : ℚ) + (1/2 : ℚ) • (1 : ℚ)) ≠ 0 := by norm_num [line, scalar]

end MrHyDE.Subgrid.Sens
