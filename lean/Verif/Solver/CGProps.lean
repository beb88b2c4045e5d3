import Verif.Solver.CGLemmas
import Mathlib.Tactic.FinCases
import Mathlib.Tactic.NormNum

/-!
# C26: conjugate gradients
-/

namespace MrHyDE.Solver

set_option linter.unusedSectionVars false

variable {K : Type} [Field K] [LinearOrder K] [IsStrictOrderedRing K] {n : Nat}

/-- One iteration keeps the residual of the iterate. -/
theorem cgStep_residual (A : Vec K n →ₗ[K] Vec K n) (M b : Vec K n) (k : Nat) (s s' : CGState K n)
    (h : cgStep A M k s = some s') (hs : s.r = b - A s.x) : s'.r = b - A s'.x := by
  unfold cgStep at h
  dsimp only at h
  split_ifs at h <;>
  · injection h with h
    subst h
    simp only [hs, map_add, map_smul]
    module

/-- **C26.**  For every linear operator, preconditioner, right-hand side, starting vector, tolerance
and iteration limit: if no division by zero occurs, the residual vector kept by the loop is the true
residual `b - A x` of the returned vector, at most `maxiter` iterations were done, and if it was fewer
the convergence test on the true residual was met. -/
theorem C26 (A : Vec K n →ₗ[K] Vec K n) (M b x : Vec K n) (norm2 : Vec K n → K) (tol : K)
    (maxiter : Nat) (s : CGState K n) (k : Nat) (h : pcg A M norm2 tol maxiter b x = some (s, k)) :
    s.r = b - A s.x ∧ k ≤ maxiter ∧
    (k = maxiter ∨ (fdiv (norm2 (b - A s.x)) (norm2 (b - A x))).gt tol = false) := by
  have key : ∀ (r0 : K) (left iter : Nat) (t : CGState K n), t.r = b - A t.x →
      cgLoop A M norm2 tol r0 left iter t = some (s, k) →
      s.r = b - A s.x ∧ k ≤ iter + left ∧
      (k = iter + left ∨ (fdiv (norm2 (b - A s.x)) r0).gt tol = false) := by
    intro r0 left
    induction left with
    | zero =>
      intro iter t ht hl
      simp only [cgLoop, Option.some.injEq, Prod.mk.injEq] at hl
      obtain ⟨rfl, rfl⟩ := hl
      exact ⟨ht, by omega, Or.inl (by omega)⟩
    | succ left ih =>
      intro iter t ht hl
      rw [cgLoop] at hl
      by_cases c : (fdiv (norm2 t.r) r0).gt tol = true
      · rw [if_pos c] at hl
        cases hst : cgStep A M iter t with
        | none => rw [hst] at hl; simp at hl
        | some t' =>
          rw [hst] at hl
          have := ih (iter+1) t' (cgStep_residual A M b iter t t' hst ht) hl
          refine ⟨this.1, by omega, ?_⟩
          rcases this.2.2 with e | e
          · left; omega
          · right; exact e
      · rw [if_neg c] at hl
        simp only [Option.some.injEq, Prod.mk.injEq] at hl
        obtain ⟨rfl, rfl⟩ := hl
        refine ⟨ht, by omega, Or.inr ?_⟩
        rw [← ht]
        simpa using c
  have hi : (cgInit A b x).r = b - A (cgInit A b x).x := by
    simp only [cgInit]
    module
  have := key (norm2 (cgInit A b x).r) maxiter 0 (cgInit A b x) hi h
  rw [hi] at this
  refine ⟨this.1, by omega, ?_⟩
  rcases this.2.2 with e | e
  · left; omega
  · right; exact e

/-- A norm, as far as the stopping test depends on it. -/
structure NormLike (norm2 : Vec K n → K) : Prop where
  nonneg : ∀ v, 0 ≤ norm2 v
  zero_iff : ∀ v, norm2 v = 0 ↔ v = 0

theorem loop_seq (A : Vec K n →ₗ[K] Vec K n) (M : Vec K n) (s0 : CGState K n) (hA : SPD A)
    (hM : ∀ k, 0 < M k) (norm2 : Vec K n → K) (hn : NormLike norm2) (tol : K) (ht : 0 ≤ tol) (r0 : K)
    (left : Nat) : ∀ k, (∀ j < k, rr A M s0 j ≠ 0) →
      ∃ k', cgLoop A M norm2 tol r0 left k (seq A M s0 k) = some (seq A M s0 k', k') ∧
        (∀ j < k', rr A M s0 j ≠ 0) := by
  induction left with
  | zero => intro k hk; exact ⟨k, rfl, hk⟩
  | succ left ih =>
    intro k hk
    rw [cgLoop]
    by_cases c : (fdiv (norm2 (seq A M s0 k).r) r0).gt tol = true
    · rw [if_pos c]
      have hne : rr A M s0 k ≠ 0 := by
        intro h0
        have h0' : (seq A M s0 k).r = 0 := h0
        rw [h0', (hn.zero_iff 0).mpr rfl] at c
        unfold fdiv at c
        by_cases hz : r0 = 0
        · simp [hz, Quot.gt] at c
        · simp [hz, Quot.gt] at c
          exact absurd c (not_lt.mpr ht)
      have hk' : ∀ j < k+1, rr A M s0 j ≠ 0 := by
        intro j hj
        by_cases e : j = k
        · rw [e]; exact hne
        · exact hk j (by omega)
      have G := good A M s0 hA hM k (fun j hj => hk' j (by omega))
      have hst := step_some A M s0 hM k
        (by
          intro h0
          obtain ⟨l, rfl⟩ : ∃ l, k = l + 1 := ⟨k - 1, by omega⟩
          rw [G.prevRho l rfl]
          exact ne_of_gt (good A M s0 hA hM l (fun j hj => hk' j (by omega))).rhPos)
        (ne_of_gt G.pqPos)
      have hseq : cgStep A M k (seq A M s0 k) = some (seq A M s0 (k+1)) := by
        have : seq A M s0 (k+1) = (cgStep A M k (seq A M s0 k)).getD (seq A M s0 k) := rfl
        rw [this, hst]
        rfl
      rw [hseq]
      exact ih (k+1) hk'
    · rw [if_neg c]
      exact ⟨k, rfl, hk⟩

/-- **C26, positive definite operators.**  For every symmetric positive definite operator on `n`
unknowns and every positive diagonal preconditioner no division by zero occurs, and in exact arithmetic
at most `n` iterations are done. -/
theorem C26_spd (A : Vec K n →ₗ[K] Vec K n) (hA : SPD A) (M : Vec K n) (hM : ∀ k, 0 < M k)
    (b x : Vec K n) (norm2 : Vec K n → K) (hn : NormLike norm2) (tol : K) (ht : 0 ≤ tol) (maxiter : Nat) :
    ∃ s k, pcg A M norm2 tol maxiter b x = some (s, k) ∧ k ≤ n := by
  obtain ⟨k', h, hne⟩ := loop_seq A M (cgInit A b x) hA hM norm2 hn tol ht (norm2 (cgInit A b x).r)
    maxiter 0 (fun j hj => by omega)
  refine ⟨_, k', h, ?_⟩
  obtain ⟨j, hj, h0⟩ := residual_vanishes A M (cgInit A b x) hA hM
  by_contra hlt
  exact hne j (by omega) h0

/-- **C26, consequence.**  With tolerance zero and at least `n` iterations allowed (plus the test), the
returned vector solves the linear system exactly. -/
theorem C26_solves (A : Vec K n →ₗ[K] Vec K n) (hA : SPD A) (M : Vec K n) (hM : ∀ k, 0 < M k)
    (b x : Vec K n) (norm2 : Vec K n → K) (hn : NormLike norm2) (maxiter : Nat) (hm : n < maxiter) :
    ∃ s k, pcg A M norm2 0 maxiter b x = some (s, k) ∧ A s.x = b := by
  obtain ⟨s, k, h, hk⟩ := C26_spd A hA M hM b x norm2 hn 0 (le_refl _) maxiter
  refine ⟨s, k, h, ?_⟩
  obtain ⟨_, _, h3⟩ := C26 A M b x norm2 0 maxiter s k h
  rcases h3 with e | e
  · omega
  · -- the quotient is not positive
    unfold fdiv at e
    by_cases hz : norm2 (b - A x) = 0
    · -- the loop was not entered
      have hb : b - A x = 0 := (hn.zero_iff _).mp hz
      have hr : (cgInit A b x).r = b - A x := by simp only [cgInit]; module
      have : pcg A M norm2 0 maxiter b x = some (cgInit A b x, 0) := by
        unfold pcg
        dsimp only
        obtain ⟨m, rfl⟩ : ∃ m, maxiter = m + 1 := ⟨maxiter - 1, by omega⟩
        rw [cgLoop, if_neg]
        rw [hr, hz]
        simp [fdiv, Quot.gt]
      rw [this] at h
      simp only [Option.some.injEq, Prod.mk.injEq] at h
      obtain ⟨rfl, _⟩ := h
      show A x = b
      exact (sub_eq_zero.mp hb).symm
    · simp only [hz, if_false, Quot.gt, decide_eq_false_iff_not, not_lt] at e
      have hpos : 0 < norm2 (b - A x) := lt_of_le_of_ne (hn.nonneg _) (Ne.symm hz)
      have h4 : norm2 (b - A s.x) ≤ 0 := by
        rw [div_le_iff₀ hpos] at e
        simpa using e
      have h5 := (hn.zero_iff _).mp (le_antisymm h4 (hn.nonneg _))
      exact (sub_eq_zero.mp h5).symm

/-- A symmetric positive definite operator on two unknowns: `(2u + v, u + 2v)`. -/
def exampleOp : Vec ℚ 2 →ₗ[ℚ] Vec ℚ 2 where
  toFun v := fun i => v i + (v 0 + v 1)
  map_add' u v := by funext i; simp; ring
  map_smul' c v := by funext i; simp; ring

/-- The sum of absolute values stands in for the norm in the examples (rational numbers have no square
roots). -/
def norm1 (v : Vec ℚ 2) : ℚ := |v 0| + |v 1|

/-- The hypotheses of `C26_spd` and `C26_solves` can be met. -/
example : SPD exampleOp ∧ NormLike norm1 ∧ (∀ k, (0:ℚ) < (fun _ : Fin 2 => (2:ℚ)) k) := by
  refine ⟨⟨?_, ?_⟩, ⟨?_, ?_⟩, fun _ => by norm_num⟩
  · intro u v
    simp [dot, exampleOp, Fin.sum_univ_two]
    ring
  · intro v hv
    have : v 0 ≠ 0 ∨ v 1 ≠ 0 := by
      by_contra h
      push Not at h
      apply hv
      funext i
      fin_cases i
      · exact h.1
      · exact h.2
    simp [dot, exampleOp, Fin.sum_univ_two]
    rcases this with h | h
    · nlinarith [mul_self_pos.mpr h, mul_self_nonneg (v 1), mul_self_nonneg (v 0 + v 1)]
    · nlinarith [mul_self_pos.mpr h, mul_self_nonneg (v 0), mul_self_nonneg (v 0 + v 1)]
  · intro v
    unfold norm1
    positivity
  · intro v
    unfold norm1
    constructor
    · intro h
      have h0 := abs_nonneg (v 0)
      have h1 := abs_nonneg (v 1)
      have e0 : v 0 = 0 := abs_eq_zero.mp (by linarith)
      have e1 : v 1 = 0 := abs_eq_zero.mp (by linarith)
      funext i
      fin_cases i
      · exact e0
      · exact e1
    · rintro rfl
      simp

/-- **C26, breakdown.**  For an indefinite operator the loop can divide by zero: the returned vector is
not a number although the system is solvable. -/
theorem C26_indefinite_violated : ∃ A : Vec ℚ 2 →ₗ[ℚ] Vec ℚ 2, ∃ b y : Vec ℚ 2, A y = b ∧
    pcg A (fun _ => 1) norm1 0 5 b 0 = none := by
  refine ⟨{ toFun := fun v => fun i => if i = 0 then v 0 else - v 1
            map_add' := fun u v => by funext i; fin_cases i <;> simp; ring
            map_smul' := fun c v => by funext i; fin_cases i <;> simp },
    fun _ => 1, fun i => if i = 0 then 1 else -1, ?_, ?_⟩
  · funext i
    fin_cases i <;> simp
  · simp [pcg, cgLoop, cgInit, cgStep, prec, dot, fdiv, Quot.gt, norm1, Fin.sum_univ_two]

end MrHyDE.Solver
