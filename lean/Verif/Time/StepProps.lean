import Verif.Time.Props
import Mathlib.Algebra.Module.Basic
import Mathlib.Algebra.BigOperators.GroupWithZero.Action
import Mathlib.Tactic.Module
import Mathlib.Tactic.Abel
import Mathlib.Tactic.Linarith
import Mathlib.Algebra.Module.LinearMap.Defs

/-!
# C21: stages and update together form the Runge-Kutta step
-/

namespace MrHyDE.Time

set_option linter.unusedSectionVars false

variable {K V : Type} [Field K] [AddCommGroup V] [Module K V]

/-- The solution of stage `j` in the loop over stages. -/
def stageSol (solve : Nat → (Nat → V) → V) (un : V) (j : Nat) : V := solve j (stageLoop solve un j).1

theorem stageLoop_inv (solve : Nat → (Nat → V) → V) (un : V) (n : Nat) :
    (∀ j < n, (stageLoop solve un n).1 j = stageSol solve un j) ∧
    (stageLoop solve un n).2 = un + ∑ j ∈ Finset.range n, (stageSol solve un j - un) := by
  induction n with
  | zero => exact ⟨fun j hj => absurd hj (by omega), by simp [stageLoop]⟩
  | succ n ih =>
    obtain ⟨ih1, ih2⟩ := ih
    refine ⟨?_, ?_⟩
    · intro j hj
      by_cases e : j = n
      · subst e
        simp [stageLoop, stageSol]
      · simp only [stageLoop, e, if_false]
        exact ih1 j (by omega)
    · rw [Finset.sum_range_succ]
      simp only [stageLoop, ih2]
      simp only [stageSol]
      abel

theorem foldl_add_range (g : Nat → V) (z : V) (n : Nat) :
    (List.range n).foldl (fun acc j => acc + g j) z = z + ∑ j ∈ Finset.range n, g j := by
  induction n with
  | zero => simp
  | succ n ih => rw [List.range_succ, List.foldl_append, ih, Finset.sum_range_succ]; simp [add_assoc]

theorem timeDeriv_euler (T : Tableau K) (dt : K) (s : Nat) (prev : Nat → V) (x : V) :
    timeDeriv T (bdfWeights 1) dt s prev x = (1 / dt / T.w s) • (x - prev 0) := by
  simp [timeDeriv, bdfWeights, List.range, List.range.loop, smul_sub, sub_eq_add_neg]

theorem evalPoint_eq (T : Tableau K) (s : Nat) (un : V) (st : Nat → V) (x : V) :
    evalPoint T s un st x = un + ((∑ j ∈ Finset.range s, (T.a s j / T.w j) • (st j - un)) +
      (T.a s s / T.w s) • (x - un)) := by
  simp only [evalPoint]
  rw [foldl_add_range (fun j => (T.a s j / T.w j) • (st j - un))]
  module

/-- **C21.**  Take any tableau that is explicit or diagonally implicit and has no zero weight, any
problem `F t u u'`, any state and any step size.  If in every stage the solver finds a stage solution
for which the reconstructed solution and time derivative satisfy the problem at the stage time, then
the state after the step is a step of the Runge-Kutta method with this tableau. -/
theorem C21 (T : Tableau K) (hs : 1 ≤ T.stages) (maxStages : Nat) (hm : T.stages ≤ maxStages)
    (hA : ∀ i < T.stages, ∀ j, i < j → T.a i j = 0) (hb : ∀ i < T.stages, T.w i ≠ 0)
    (F : K → V → V → Prop) (t dt : K) (hdt : dt ≠ 0) (un : V) (solve : Nat → (Nat → V) → V)
    (hsolve : ∀ n < T.stages, ∀ st : Nat → V, (∀ j < n, st j = stageSol solve un j) →
      F (stageTime T t dt n) (evalPoint T n un st (solve n st))
        (timeDeriv T (bdfWeights 1) dt n (fun _ => un) (solve n st))) :
    Spec.IsStep (toRK T) F t dt un (timeStep solve un maxStages T.stages) := by
  refine ⟨fun i => (1 / dt / T.w i) • (stageSol solve un i - un), ?_, ?_⟩
  · intro i hi
    have hi' : i < T.stages := hi
    have h := hsolve i hi' (stageLoop solve un i).1 (stageLoop_inv solve un i).1
    rw [timeDeriv_euler, evalPoint_eq] at h
    have hsum : ∑ j ∈ Finset.range T.stages, T.a i j • ((1 / dt / T.w j) • (stageSol solve un j - un))
        = (∑ j ∈ Finset.range i, T.a i j • ((1 / dt / T.w j) • (stageSol solve un j - un)))
          + T.a i i • ((1 / dt / T.w i) • (stageSol solve un i - un)) := by
      rw [← Finset.sum_range_succ (fun j => T.a i j • ((1 / dt / T.w j) • (stageSol solve un j - un)))]
      symm
      apply Finset.sum_subset
      · intro x hx
        simp only [Finset.mem_range] at hx ⊢
        omega
      · intro x _ hx
        simp only [Finset.mem_range] at hx
        rw [hA i hi' x (by omega), zero_smul]
    have hmul : ∀ j < T.stages, ∀ (y : V), dt • (T.a i j • ((1 / dt / T.w j) • y)) = (T.a i j / T.w j) • y := by
      intro j hj y
      rw [smul_smul, smul_smul]
      congr 1
      have := hb j hj
      field_simp
    show F (stageTime T t dt i) (un + dt • ∑ j ∈ Finset.range T.stages, T.a i j •
      ((1 / dt / T.w j) • (stageSol solve un j - un))) _
    rw [hsum, smul_add, Finset.smul_sum, hmul i hi']
    have e : ∑ j ∈ Finset.range i, dt • T.a i j • ((1 / dt / T.w j) • (stageSol solve un j - un))
        = ∑ j ∈ Finset.range i, (T.a i j / T.w j) • ((stageLoop solve un i).1 j - un) := by
      apply Finset.sum_congr rfl
      intro j hj
      simp only [Finset.mem_range] at hj
      rw [hmul j (by omega), (stageLoop_inv solve un i).1 j hj]
    rw [e]
    exact h
  · have hfin : ∀ n ≤ T.stages, un + dt • ∑ i ∈ Finset.range n, T.w i •
        ((1 / dt / T.w i) • (stageSol solve un i - un))
        = un + ∑ j ∈ Finset.range n, (stageSol solve un j - un) := by
      intro n hn
      rw [Finset.smul_sum]
      congr 1
      apply Finset.sum_congr rfl
      intro j hj
      simp only [Finset.mem_range] at hj
      have := hb j (by omega)
      have e : dt * (T.w j * (1 / dt / T.w j)) = 1 := by field_simp
      rw [smul_smul (T.w j), smul_smul dt, e, one_smul]
    show timeStep solve un maxStages T.stages = un + dt • ∑ i ∈ Finset.range T.stages, T.w i •
        ((1 / dt / T.w i) • (stageSol solve un i - un))
    rw [hfin _ (Nat.le_refl _)]
    unfold timeStep
    by_cases h1 : maxStages = 1
    · rw [if_pos h1]
      have : T.stages = 1 := by omega
      rw [this]
      simp [stageSol, stageLoop]
    · rw [if_neg h1]
      exact (stageLoop_inv solve un _).2

/-- All built-in tableaux meet the hypotheses of `C21`. -/
theorem builtin_dirk (K : Type) [Field K] [CharZero K] (s3 : K) (name : String) (T : Tableau K)
    (h : builtin s3 name = some T) :
    1 ≤ T.stages ∧ (∀ i < T.stages, ∀ j, i < j → T.a i j = 0) ∧ (∀ i < T.stages, T.w i ≠ 0) := by
  have hz : ∀ (l : List K) (j : Nat), l.length ≤ j → l.getD j 0 = 0 := by
    intro l j hj
    simp [List.getD, List.getElem?_eq_none hj]
  unfold builtin at h
  split_ifs at h <;> injection h with h <;> subst h <;> refine ⟨?_, ?_, ?_⟩ <;>
    first
    | (simp [Tableau.stages, dirk33]; done)
    | (intro i hi j hj
       simp only [Tableau.stages, dirk33, List.length] at hi
       rcases j with _ | _ | _ | _ | j <;> interval_cases i <;>
         first | omega | simp [Tableau.a, dirk33])
    | (intro i hi
       simp only [Tableau.stages, dirk33, List.length] at hi
       interval_cases i <;> simp [Tableau.w, dirk33] <;> norm_num)

/-- The tableau stored for "CN". -/
def cn : Tableau ℚ := { A := [[0, 0], [5/10, 5/10]], b := [5/10, 5/10], c := [0, 1] }

/-- A case of `C21`: `u' = u` with "CN" from `1` with step `1`.  The stage solutions are `3/2` and
`5/2`, and `C21` says that the result, `3 = (1 + 1/2)/(1 - 1/2)`, is the step of the method. -/
example : timeStep (fun n _ => if n = 0 then (3/2 : ℚ) else 5/2) 1 2 2 = 3 ∧
    Spec.IsStep (toRK cn) (fun _ u v => v = u) 0 1 (1 : ℚ) 3 := by
  have e : timeStep (fun n _ => if n = 0 then (3/2 : ℚ) else 5/2) 1 2 2 = 3 := by
    simp [timeStep, stageLoop]
    norm_num
  refine ⟨e, ?_⟩
  rw [← e]
  have hb := builtin_dirk ℚ 0 "CN" cn rfl
  refine C21 cn hb.1 2 (by decide) hb.2.1 hb.2.2 (fun _ u v => v = u) 0 1 (by norm_num) 1 _ ?_
  intro n hn st hst
  have hn' : n < 2 := hn
  interval_cases n
  · simp [timeDeriv, evalPoint, bdfWeights, cn, Tableau.a, Tableau.w, List.range, List.range.loop]
    norm_num
  · have h0 : st 0 = 3/2 := by rw [hst 0 (by decide)]; simp [stageSol]
    simp [timeDeriv, evalPoint, bdfWeights, cn, Tableau.a, Tableau.w, List.range, List.range.loop, h0]
    norm_num

/-- **C21 for the explicit solver.**  For a tableau whose diagonal is zero the update of the explicit
solver is a stage solution: the reconstructed solution `u` and slope `k` satisfy
`residual(u, u_dot) = 0` for every residual `M u_dot - G(u)` with `invM` inverting `M`. -/
theorem C21_explicit (T : Tableau K) (dt : K) (hdt : dt ≠ 0) (s : Nat) (hb : T.w s ≠ 0)
    (hd : T.a s s = 0) (M : V →ₗ[K] V) (invM : V → V) (hM : ∀ y, M (invM y) = y) (G : Nat → V → V)
    (un : V) (st : Nat → V) :
    let x := explicitStage T (bdfWeights 1) dt invM (fun s u v => M v - G s u) un s st
    M (timeDeriv T (bdfWeights 1) dt s (fun _ => un) x) = G s (evalPoint T s un st x) := by
  intro x
  have hx : x = un + (dt * T.w s) • invM (G s (evalPoint T s un st un)) := by
    simp only [x, explicitStage]
    rw [timeDeriv_euler]
    simp
  have he : evalPoint T s un st x = evalPoint T s un st un := by
    rw [evalPoint_eq, evalPoint_eq, hd]
    simp
  rw [he, timeDeriv_euler, hx, add_sub_cancel_left, smul_smul, map_smul, hM]
  have : 1 / dt / T.w s * (dt * T.w s) = 1 := by field_simp
  rw [this, one_smul]

/-- **C21, violated for the explicit solver with an implicit tableau.**  The option "fully explicit"
is not checked against the tableau: with implicit Euler the stage is evaluated at the old state, so for
`u' = -u` the result `1 - dt` is not the implicit Euler step. -/
theorem C21_explicit_violated : ∃ T : Tableau ℚ, builtin (0 : ℚ) "BWE" = some T ∧
    ¬ Spec.IsStep (toRK T) (fun _ u v => v = -u) 0 1 (1 : ℚ)
      (timeStep (fun s st => explicitStage T (bdfWeights 1) 1 id (fun _ u v => v - (-u)) 1 s st) 1 1 1) := by
  refine ⟨_, rfl, ?_⟩
  rintro ⟨k, hk, hu⟩
  have h0 := hk 0 (by decide)
  simp [toRK, Tableau.stages, Tableau.a, Tableau.w, Tableau.t, timeStep, explicitStage, evalPoint,
    timeDeriv, bdfWeights, List.range, List.range.loop] at h0 hu
  linarith

end MrHyDE.Time
