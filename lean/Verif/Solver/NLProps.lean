import Verif.Solver.Model
import Mathlib.Tactic.Ring
import Mathlib.Tactic.Linarith
import Mathlib.Tactic.Module
import Mathlib.Tactic.NormNum
import Mathlib.Algebra.Order.Ring.Abs

/-!
# C24, C25: the nonlinear solver
-/

namespace MrHyDE.Solver

set_option linter.unusedSectionVars false

variable {K : Type} [Field K] [LinearOrder K] [IsStrictOrderedRing K]
variable {V : Type} [AddCommGroup V] [Module K V]

theorem iteration_iter (o : NLOptions K) (rn : V → K) (newton : V → V) (s : NLState K V) :
    (iteration o rn newton s).iter = s.iter + 1 := by
  unfold iteration
  cases action o rn s <;> rfl

theorem iteration_converged (o : NLOptions K) (rn : V → K) (newton : V → V) (s : NLState K V)
    (h : action o rn s = .converged) : (iteration o rn newton s).x = s.x := by
  unfold iteration
  rw [h]

theorem action_backtrack (o : NLOptions K) (rn : V → K) (s : NLState K V)
    (h : action o rn s = .backtrack) : (scaled s (rn s.x)).gt (11/10) = true := by
  unfold action at h
  dsimp only at h
  split_ifs at h with h1
  simp at h1
  exact h1.2

theorem action_converged (o : NLOptions K) (rn : V → K) (s : NLState K V)
    (h : action o rn s = .converged) :
    (o.useRelative = true ∧ ((scaled s (rn s.x)).lt o.tol = true ∨ rn s.x < 1/10^100)) ∨
    (o.useRelative = false ∧ o.useAbsolute = true ∧ rn s.x < o.abstol) := by
  unfold action at h
  dsimp only at h
  split_ifs at h with h1 h2 h3 h4 h5
  · exact Or.inl ⟨h2, Or.inl h3⟩
  · exact Or.inl ⟨h2, Or.inr h4⟩
  · simp at h5
    exact Or.inr ⟨by simpa using h2, h5.1, h5.2⟩

theorem nlLoop_result (o : NLOptions K) (rn : V → K) (newton : V → V) (f : Nat) :
    ∀ (s r : NLState K V) (b : Bool), nlLoop o rn newton f s = some (r, b) →
      s.iter < r.iter ∧ ((r.iter : Int) ≤ o.maxiter ∨ r.iter = s.iter + 1) ∧
      (b = true → ∃ t : NLState K V, action o rn t = .converged ∧ t.x = r.x ∧ t.iter + 1 = r.iter ∧
        (t.first = r.first ∨ t.iter = 0)) ∧
      (b = false → o.maxiter ≤ (r.iter : Int)) := by
  induction f with
  | zero => intro s r b h; simp [nlLoop] at h
  | succ f ih =>
    intro s r b h
    rw [nlLoop] at h
    have hi := iteration_iter o rn newton s
    by_cases hc : action o rn s = .converged
    · rw [if_pos hc] at h
      injection h with h
      injection h with h1 h2
      subst h1 h2
      refine ⟨by rw [hi]; omega, Or.inr hi, fun _ => ⟨s, hc, ?_, hi.symm, ?_⟩, fun h => by cases h⟩
      · exact (iteration_converged o rn newton s hc).symm
      · unfold iteration
        rw [hc]
        by_cases h0 : s.iter = 0
        · right; exact h0
        · left; simp [h0]
    · rw [if_neg hc] at h
      by_cases hm : o.maxiter ≤ ((iteration o rn newton s).iter : Int)
      · rw [if_pos hm] at h
        injection h with h
        injection h with h1 h2
        subst h1 h2
        exact ⟨by rw [hi]; omega, Or.inr hi, (fun h => by cases h), fun _ => hm⟩
      · rw [if_neg hm] at h
        obtain ⟨h1, h2, h3, h4⟩ := ih _ _ _ h
        refine ⟨by omega, ?_, h3, h4⟩
        left
        rcases h2 with h2 | h2
        · exact h2
        · omega

/-- **C24, termination.**  Whatever the residuals and increments are, the solver ends, after at least
one and at most `max 1 maxiter` iterations. -/
theorem C24_terminates_partial (o : NLOptions K) (rn : V → K) (newton : V → V) (x : V) :
    ∃ r b, nlLoop o rn newton (max 1 o.maxiter.toNat) (nlInit o x) = some (r, b) ∧
      1 ≤ r.iter ∧ r.iter ≤ max 1 o.maxiter.toNat := by
  have key : ∀ (f : Nat) (s : NLState K V), 1 ≤ f → o.maxiter ≤ (s.iter : Int) + f →
      ∃ r b, nlLoop o rn newton f s = some (r, b) := by
    intro f
    induction f with
    | zero => intro s h; omega
    | succ f ih =>
      intro s _ hs
      have hi := iteration_iter o rn newton s
      rw [nlLoop]
      by_cases hc : action o rn s = .converged
      · exact ⟨_, _, by rw [if_pos hc]⟩
      · rw [if_neg hc]
        by_cases hm : o.maxiter ≤ ((iteration o rn newton s).iter : Int)
        · exact ⟨_, _, by rw [if_pos hm]⟩
        · rw [if_neg hm]
          refine ih _ ?_ ?_
          · rw [hi] at hm; omega
          · rw [hi]; push_cast at hs ⊢; omega
  obtain ⟨r, b, h⟩ := key (max 1 o.maxiter.toNat) (nlInit o x) (by omega) (by simp only [nlInit]; omega)
  obtain ⟨h1, h2, _, _⟩ := nlLoop_result o rn newton _ _ _ _ h
  refine ⟨r, b, h, by simp only [nlInit] at h1; omega, ?_⟩
  simp only [nlInit] at h2
  omega

/-- What the user asked for: with the relative test the residual is below the tolerance times the first
residual (or below 1e-100); with the absolute test it is below the absolute tolerance. -/
def Requested (o : NLOptions K) (r first : K) : Prop :=
  (o.useRelative = true ∧ (r < o.tol * first ∨ r < 1/10^100)) ∨
  (o.useRelative = false ∧ o.useAbsolute = true ∧ r < o.abstol)

/-- **C24, convergence** (partial).  If the solver leaves through its test then the iterate it returns
has a residual as small as requested. -/
theorem C24_converged_partial (o : NLOptions K) (ht : o.tol ≤ 1) (rn : V → K) (hr : ∀ v, 0 ≤ rn v)
    (newton : V → V) (x : V) (f : Nat) (r : NLState K V)
    (h : nlLoop o rn newton f (nlInit o x) = some (r, true)) :
    Requested o (rn r.x) (rn x) := by
  -- `first` is the norm of the first residual after the first iteration, along the loop
  have first_eq : ∀ (f : Nat) (s r : NLState K V) (b : Bool),
      ((s.iter = 0 ∧ s.x = x) ∨ (s.iter ≠ 0 ∧ s.first = rn x)) →
      nlLoop o rn newton f s = some (r, b) → r.first = rn x := by
    intro f
    induction f with
    | zero => intro s r b _ h; simp [nlLoop] at h
    | succ f ih =>
      intro s r b hs h
      rw [nlLoop] at h
      have hf : (iteration o rn newton s).first = rn x := by
        have : (if s.iter = 0 then rn s.x else s.first) = rn x := by
          rcases hs with ⟨h0, hx⟩ | ⟨h0, hx⟩
          · rw [if_pos h0, hx]
          · rw [if_neg h0, hx]
        unfold iteration
        cases action o rn s <;> exact this
      by_cases hc : action o rn s = .converged
      · rw [if_pos hc] at h
        injection h with h; injection h with h1 h2
        rw [← h1]; exact hf
      · rw [if_neg hc] at h
        by_cases hm : o.maxiter ≤ ((iteration o rn newton s).iter : Int)
        · rw [if_pos hm] at h
          injection h with h; injection h with h1 h2
          rw [← h1]; exact hf
        · rw [if_neg hm] at h
          exact ih _ _ _ (Or.inr ⟨by rw [iteration_iter]; omega, hf⟩) h
  have hfe0 := first_eq f _ r true (Or.inl ⟨rfl, rfl⟩) h
  have hfirst : 0 ≤ r.first := by rw [hfe0]; exact hr x
  rw [← hfe0]
  obtain ⟨_, _, h3, _⟩ := nlLoop_result o rn newton _ _ _ _ h
  obtain ⟨t, hact, hx, _, hfst⟩ := h3 rfl
  rw [← hx]
  rcases action_converged o rn t hact with ⟨hrel, hl | ht100⟩ | ⟨h1, h2, h4⟩
  · left
    refine ⟨hrel, Or.inl ?_⟩
    unfold scaled at hl
    by_cases h0 : t.iter = 0
    · simp [h0, Quot.lt] at hl
      exact absurd hl (not_lt.mpr ht)
    · have hfe : t.first = r.first := by
        rcases hfst with e | e
        · exact e
        · exact absurd e h0
      simp only [h0, if_false] at hl
      unfold fdiv at hl
      by_cases hz : t.first = 0
      · by_cases hz2 : rn t.x = 0 <;> simp [hz, hz2, Quot.lt] at hl
      · simp only [hz, if_false, Quot.lt, decide_eq_true_eq] at hl
        rw [hfe] at hl hz
        have hpos : 0 < r.first := lt_of_le_of_ne hfirst (Ne.symm hz)
        rwa [div_lt_iff₀ hpos] at hl
  · exact Or.inl ⟨hrel, Or.inr ht100⟩
  · exact Or.inr ⟨h1, h2, h4⟩

/-- **C24, violated.**  With any positive iteration limit the status is zero on every process, for all
residual histories, tolerances and increments: failure to converge is never reported. -/
theorem C24_status_violated (o : NLOptions K) (hm : 1 ≤ o.maxiter) (rn : V → K) (newton : V → V) (x : V)
    (f : Nat) (r : NLState K V) (b : Bool) (rank : Nat)
    (h : nlLoop o rn newton f (nlInit o x) = some (r, b)) : nlStatus o rank r = 0 := by
  obtain ⟨_, h2, _, _⟩ := nlLoop_result o rn newton _ _ _ _ h
  simp only [nlInit] at h2
  unfold nlStatus
  have : ¬ (o.maxiter < (r.iter : Int)) := by omega
  simp [this]

/-- Options with default values. -/
def defaults : NLOptions ℚ :=
  { tol := 1/1000000, abstol := 1/1000000, maxiter := 10, useRelative := true, useAbsolute := false,
    backtracking := true, verbosity := 10 }

/-- **C24, violated**: a concrete run with default options whose residual stays at `1`: ten iterations,
no convergence, status zero. -/
theorem C24_violated : ∃ r, nlLoop defaults (fun _ : ℚ => 1) (fun _ => 1) 10 (nlInit defaults 0)
      = some (r, false) ∧ r.iter = 10 ∧ ¬ Requested defaults 1 1 ∧ nlStatus defaults 0 r = 0 := by
  refine ⟨⟨10, 1, 1, 10, 1⟩, by decide +kernel, rfl, ?_, rfl⟩
  unfold Requested defaults
  norm_num

/-- **C24, violated**: the only run that reports failure (an iteration limit of zero) reports it on
process 0 only. -/
theorem C24_ranks_violated : ∃ r, nlLoop { defaults with maxiter := 0 } (fun _ : ℚ => 1) (fun _ => 1) 1
      (nlInit { defaults with maxiter := 0 } 0) = some (r, false) ∧
    nlStatus { defaults with maxiter := 0 } 0 r = 1 ∧ nlStatus { defaults with maxiter := 0 } 1 r = 0 := by
  refine ⟨⟨1, 1, 1, 1, 1⟩, by decide +kernel, by decide +kernel, by decide +kernel⟩

/-- A case of `C24_converged_partial`: the residual is `|x|`, increments are exact Newton steps. -/
example : ∃ r, nlLoop defaults (fun x : ℚ => |x|) (fun x => -x) 10 (nlInit defaults 3) = some (r, true) ∧
    r.x = 0 ∧ r.first = 3 := by
  refine ⟨⟨0, -3, 1, 2, 3⟩, by decide +kernel, rfl, rfl⟩

/-! ### Backtracking -/

/-- The state after `k` iterations. -/
def after (o : NLOptions K) (rn : V → K) (newton : V → V) (k : Nat) (s : NLState K V) : NLState K V :=
  (iteration o rn newton)^[k] s

/-- **C25.**  After a linear solve at the iterate `y`, if the next `k` iterations all backtrack, the
iterate is exactly `y + 2^-k du` with `du` the increment computed at `y`, and the reported factor is
`2^-k`.  For all residuals, increments, states and `k`. -/
theorem C25 (o : NLOptions K) (rn : V → K) (newton : V → V) (s : NLState K V)
    (hs : action o rn s = .solve) (k : Nat)
    (hk : ∀ j < k, action o rn (after o rn newton (j+1) s) = .backtrack) :
    (after o rn newton (k+1) s).x = s.x + ((1:K)/2)^k • newton s.x ∧
    (after o rn newton (k+1) s).alpha = ((1:K)/2)^k ∧
    0 < ((1:K)/2)^k ∧ ((1:K)/2)^k ≤ 1 := by
  have key : (after o rn newton (k+1) s).x = s.x + ((1:K)/2)^k • newton s.x ∧
      (after o rn newton (k+1) s).alpha = ((1:K)/2)^k ∧
      (after o rn newton (k+1) s).du = newton s.x := by
    induction k with
    | zero =>
      have e : after o rn newton (0+1) s = iteration o rn newton s := rfl
      rw [e]
      unfold iteration
      rw [hs]
      simp
    | succ k ih =>
      obtain ⟨h1, h2, h3⟩ := ih (fun j hj => hk j (by omega))
      have e : after o rn newton (k+1+1) s = iteration o rn newton (after o rn newton (k+1) s) := by
        simp only [after]
        rw [Function.iterate_succ_apply']
      rw [e]
      have hb := hk k (by omega)
      unfold iteration
      rw [hb]
      refine ⟨?_, ?_, h3⟩
      · simp only [h1, h2, h3]
        rw [pow_succ]
        module
      · simp only [h2]
        rw [pow_succ]
  refine ⟨key.1, key.2.1, by positivity, ?_⟩
  apply pow_le_one₀ <;> norm_num

/-- **C25, completeness.**  The first iteration never backtracks, so every backtracking iteration comes
after a solve: along every run the iterate is a base point plus `2^-k` times the increment computed at
that base point. -/
theorem C25_run (o : NLOptions K) (rn : V → K) (newton : V → V) (x : V) (n : Nat)
    (hrun : ∀ j < n, action o rn (after o rn newton j (nlInit o x)) ≠ .converged) :
    let s := after o rn newton n (nlInit o x)
    (n = 0 ∧ s.x = x) ∨ ∃ base k, k < n ∧ s.x = base + ((1:K)/2)^k • newton base ∧
      s.alpha = ((1:K)/2)^k ∧ s.du = newton base := by
  induction n with
  | zero => left; exact ⟨rfl, rfl⟩
  | succ n ih =>
    intro s
    right
    have ih' := ih (fun j hj => hrun j (by omega))
    have e : s = iteration o rn newton (after o rn newton n (nlInit o x)) := by
      simp only [s, after]
      rw [Function.iterate_succ_apply']
    have hne := hrun n (by omega)
    rcases ha : action o rn (after o rn newton n (nlInit o x)) with _ | _ | _
    · rcases ih' with ⟨h0, _⟩ | ⟨base, k, hk, h1, h2, h3⟩
      · subst h0
        exfalso
        simp only [after, Function.iterate_zero, id_eq] at ha
        have hg := action_backtrack o rn _ ha
        have : ¬ ((11:K)/10 < 1) := by norm_num
        simp [scaled, nlInit, Quot.gt, this] at hg
      · refine ⟨base, k+1, by omega, ?_, ?_, ?_⟩
        · rw [e]; unfold iteration; rw [ha]
          simp only [h1, h2, h3]
          rw [pow_succ]
          module
        · rw [e]; unfold iteration; rw [ha]
          simp only [h2]
          rw [pow_succ]
        · rw [e]; unfold iteration; rw [ha]
          exact h3
    · exact absurd ha hne
    · refine ⟨(after o rn newton n (nlInit o x)).x, 0, by omega, ?_, ?_, ?_⟩
      · rw [e]; unfold iteration; rw [ha]; simp
      · rw [e]; unfold iteration; rw [ha]; simp
      · rw [e]; unfold iteration; rw [ha]

/-- A case of `C25`: from `1` with increment `8` and residual `|x|`: one solve, then two reductions. -/
example : (after defaults (fun x : ℚ => |x|) (fun _ => 8) 3 (nlInit defaults 1)).x = 1 + 8/4 ∧
    (∀ j < 2, action defaults (fun x : ℚ => |x|)
      (after defaults (fun x : ℚ => |x|) (fun _ => 8) (j+1) (nlInit defaults 1)) = .backtrack) := by
  refine ⟨by decide +kernel, by decide +kernel⟩

end MrHyDE.Solver
