import Verif.Adjoint.Lemmas
import Mathlib.Data.Fin.VecNotation
import Mathlib.Algebra.Field.Rat
import Mathlib.Algebra.Order.Ring.Rat

/-! # C67: the transient gradient -/

namespace MrHyDE.Adjoint

open Matrix

variable {K : Type} [Field K] [LinearOrder K] [IsStrictOrderedRing K] {ι π : Type} [Fintype ι] [Fintype π]

/-- C67, partial: for one-stage one-step integrators and steps of equal size the adjoint run returns the gradient of the
recorded objective, for every linearisation, number of steps and change of parameters, if the functions of the objective do
not depend on the scalar parameters explicitly.  Missing: those that do (`C67_explicit_violated`), several stages
(`C67_multistage`), several steps (`C67_multistep_undefined`, `C67_multistep_ignored`), steps of different size
(`C67_step_size`). -/
theorem C67_gradient_partial (L : Lin K ι π) (solve : Matrix ι ι K → (ι → K) → ι → K) (c : Cfg K) (h1 : c.stages = 1)
    (h2 : c.steps = 1) (h3 : 1 ≤ c.sets) (hex : Exact L solve c) (hu : Uniform c) (hf : ∀ n, L.rf n = 0) :
    ∃ g, adjoint L solve c = some g ∧ IsGradient L c.steps c.N c.times g := by
  have hdef : ∀ (n : Nat) (s : St K ι π), ∃ t, backLoop L solve c n s = some t := by
    intro n
    induction n with
    | zero => intro s; exact ⟨s, rfl⟩
    | succ n ih =>
      intro s
      obtain ⟨phi, -, hb⟩ := backStep_one L solve c h1 h2 h3 (n + 1) s
      obtain ⟨t, ht⟩ := ih ⟨phi, phi, (L.B (n + 1) c.deltat 0)ᵀ *ᵥ phi,
        s.grad + (c.deltat • L.rl (n + 1) - (-(L.C (n + 1) c.deltat))ᵀ *ᵥ phi)⟩
      refine ⟨t, ?_⟩
      show (match backStep L solve c (n + 1) s with
        | none => none
        | some t => backLoop L solve c n t) = _
      rw [hb]
      exact ht
  obtain ⟨t, ht⟩ := hdef c.N ⟨0, 0, 0, 0⟩
  refine ⟨t.grad, by rw [adjoint, ht]; rfl, ?_⟩
  intro dp du htan
  rw [h2] at htan
  obtain ⟨t', ht', hg⟩ := loop_gradient L solve c h1 h2 h3 hex hu hf dp du htan c.N ⟨0, 0, 0, 0⟩ le_rfl (by
    rw [tail_end]; simp)
  rw [ht] at ht'
  cases ht'
  rw [hg, tail_zero]

/-- C67 is false for several stages: the adjoint run does nothing and returns a zero gradient. -/
theorem C67_multistage (L : Lin K ι π) (solve : Matrix ι ι K → (ι → K) → ι → K) (c : Cfg K) (h : c.stages ≠ 1) :
    adjoint L solve c = some 0 := by
  have : ∀ (n : Nat) (s : St K ι π), backLoop L solve c n s = some s := by
    intro n
    induction n with
    | zero => intro s; rfl
    | succ n ih =>
      intro s
      show (match backStep L solve c (n + 1) s with
        | none => none
        | some t => backLoop L solve c n t) = _
      have e : backStep L solve c (n + 1) s = some s := by unfold backStep; rw [if_neg h]
      rw [e]
      exact ih s
  rw [adjoint, this]
  rfl

/-- With more previous steps than physics sets, the stored products are read out of bounds: no result. -/
theorem C67_multistep_undefined (L : Lin K ι π) (solve : Matrix ι ι K → (ι → K) → ι → K) (c : Cfg K) (h1 : c.stages = 1)
    (h2 : c.sets < c.steps) (hN : 1 ≤ c.N) : adjoint L solve c = none := by
  obtain ⟨n, hn⟩ : ∃ n, c.N = n + 1 := ⟨c.N - 1, by omega⟩
  have e : ∀ s : St K ι π, backStep L solve c (n + 1) s = none := by
    intro s
    unfold backStep solveStep diagonalReads
    rw [if_pos h1, if_neg (by omega)]
  unfold adjoint
  rw [hn]
  show Option.map _ (match backStep L solve c (n + 1) _ with
    | none => none
    | some t => backLoop L solve c n t) = _
  rw [e]
  rfl

/-- With several previous steps and at least as many sets, the dependence on every state but the last is ignored: the result
is that for any other dependence on older states. -/
theorem C67_multistep_ignored (L L' : Lin K ι π) (solve : Matrix ι ι K → (ι → K) → ι → K) (c : Cfg K)
    (hA : L'.A = L.A) (hC : L'.C = L.C) (hq : L'.q = L.q) (hr : L'.rl = L.rl) (hB : ∀ n d, L'.B n d 0 = L.B n d 0) :
    adjoint L' solve c = adjoint L solve c := by
  have e : ∀ n s, backStep L' solve c n s = backStep L solve c n s := by
    intro n s
    unfold backStep solveStep addSens
    rw [hA, hC, hq, hr, hB]
  have : ∀ n s, backLoop L' solve c n s = backLoop L solve c n s := by
    intro n
    induction n with
    | zero => intro s; rfl
    | succ n ih =>
      intro s
      show (match backStep L' solve c (n + 1) s with
        | none => none
        | some t => backLoop L' solve c n t) = (match backStep L solve c (n + 1) s with
        | none => none
        | some t => backLoop L solve c n t)
      rw [e]
      cases backStep L solve c (n + 1) s with
      | none => rfl
      | some t => exact ih t
  unfold adjoint
  rw [this]

/-! ## Cases: the scalar equation u' = p, objective the integral of u -/

/-- The scalar linearisation of `(u_n - u_{n-1})/dt - p` times the step size, with integrand `u`. -/
def scalarL : Lin ℚ Unit Unit where
  A := fun _ _ => Matrix.of fun _ _ => 1
  B := fun _ _ k => Matrix.of fun _ _ => if k = 0 then -1 else 0
  C := fun _ d => Matrix.of fun _ _ => -d
  q := fun _ _ => 1
  rf := fun _ _ => 0
  rl := fun _ _ => 0

/-- Exact solver for one unknown. -/
def scalarSolve (M : Matrix Unit Unit ℚ) (b : Unit → ℚ) : Unit → ℚ := fun _ => b () / M () ()

/-- Case: two steps of size 1/2 satisfy the hypotheses, and the gradient is 1/2 (1/2) + 1/2 (1) = 3/4. -/
example : ∃ g, adjoint scalarL scalarSolve ⟨1, 1, 1, 1/2, 2, fun n => n / 2, 1/1000⟩ = some g ∧ g () = 3/4 ∧
    IsGradient scalarL 1 2 (fun n => n / 2) g := by
  obtain ⟨g, h1, h2⟩ := C67_gradient_partial scalarL scalarSolve ⟨1, 1, 1, 1/2, 2, fun n => n / 2, 1/1000⟩ rfl rfl le_rfl
    (by
      intro n _ _ b
      funext i
      simp [scalarL, scalarSolve, Matrix.mulVec, dotProduct, Matrix.transpose_apply])
    ⟨by norm_num, by norm_num, by intro n _; push_cast; ring, by norm_num, by norm_num⟩ (fun _ => rfl)
  refine ⟨g, h1, ?_, h2⟩
  have ht : Tangent scalarL 1 2 (fun n => (n : ℚ) / 2) (fun _ => 1) (fun n _ => n / 2) := by
    refine ⟨by funext i; simp, ?_⟩
    intro n hn _
    obtain ⟨m, rfl⟩ : ∃ m, n = m + 1 := ⟨n - 1, by omega⟩
    funext i
    simp [scalarL, dts, Matrix.mulVec, dotProduct]
    ring
  have := h2 _ _ ht
  simp [dotProduct, change, Lin.r, scalarL, dts, List.range_succ] at this
  rw [this]
  norm_num

/-- C67 is false for objectives whose functions depend on the scalar parameters explicitly: that dependence is ignored, the
result is the one for any other dependence. -/
theorem C67_explicit_violated (L : Lin K ι π) (solve : Matrix ι ι K → (ι → K) → ι → K) (c : Cfg K) (rf : Nat → π → K) :
    adjoint { L with rf := rf } solve c = adjoint L solve c := by
  have : ∀ n s, backLoop { L with rf := rf } solve c n s = backLoop L solve c n s := by
    intro n
    induction n with
    | zero => intro s; rfl
    | succ n ih =>
      intro s
      show (match backStep L solve c (n + 1) s with
        | none => none
        | some t => backLoop { L with rf := rf } solve c n t) = (match backStep L solve c (n + 1) s with
        | none => none
        | some t => backLoop L solve c n t)
      cases backStep L solve c (n + 1) s with
      | none => rfl
      | some t => exact ih t
  unfold adjoint
  rw [this]

/-- The scalar equation with integrand `u + p`. [case] -/
def scalarExplicit : Lin ℚ Unit Unit := { scalarL with rf := fun _ _ => 1 }

/-- Case for `C67_explicit_violated`: u' = p with integrand u + p over two steps of size 1/2: the result is 3/4, the derivative
7/4. -/
example : ∃ g, adjoint scalarExplicit scalarSolve ⟨1, 1, 1, 1/2, 2, fun n => n / 2, 1/1000⟩ = some g ∧
    ¬ IsGradient scalarExplicit 1 2 (fun n => (n : ℚ) / 2) g := by
  refine ⟨fun _ => 3/4, ?_, ?_⟩
  · unfold scalarExplicit
    rw [C67_explicit_violated]
    unfold adjoint
    simp [backLoop, backStep, solveStep, diagonalReads, addSens, weight, sameTime, scalarL, List.range_succ]
    funext i
    norm_num [Matrix.mulVec, dotProduct, Matrix.transpose_apply, scalarSolve]
  · intro h
    have ht : Tangent scalarExplicit 1 2 (fun n => (n : ℚ) / 2) (fun _ => 1) (fun n _ => n / 2) := by
      refine ⟨by funext i; simp, ?_⟩
      intro n hn _
      obtain ⟨m, rfl⟩ : ∃ m, n = m + 1 := ⟨n - 1, by omega⟩
      funext i
      simp [scalarExplicit, scalarL, dts, Matrix.mulVec, dotProduct]
      ring
    have := h _ _ ht
    norm_num [dotProduct, change, Lin.r, scalarExplicit, scalarL, dts, List.range_succ] at this

/-- C67 is false if the step was cut during the forward run: steps of size 1 and 1/2, `deltat` is 1/2 afterwards.  With
u' = p and the objective `∫ u` the gradient is 1·1 + (1/2)(3/2) = 7/4; the adjoint run returns another number. -/
theorem C67_step_size :
    ∃ g, adjoint scalarL scalarSolve ⟨1, 1, 1, 1/2, 2, fun n => if n = 0 then 0 else if n = 1 then 1 else 3/2, 1/1000⟩ = some g ∧
      g () = 1 ∧ ¬ IsGradient scalarL 1 2 (fun n => if n = 0 then 0 else if n = 1 then 1 else 3/2) g := by
  refine ⟨fun _ => 1, ?_, rfl, ?_⟩
  · have e : adjoint scalarL scalarSolve ⟨1, 1, 1, 1/2, 2, fun n => if n = 0 then 0 else if n = 1 then 1 else 3/2, 1/1000⟩ =
        some (fun _ => 1) := by
      unfold adjoint
      simp [backLoop, backStep, solveStep, diagonalReads, addSens, weight, sameTime, scalarL, List.range_succ]
      funext i
      norm_num [Matrix.mulVec, dotProduct, Matrix.transpose_apply, scalarSolve]
    exact e
  · intro h
    have ht : Tangent scalarL 1 2 (fun n => if n = 0 then 0 else if n = 1 then 1 else 3/2) (fun _ => 1)
        (fun n _ => if n = 0 then 0 else if n = 1 then 1 else 3/2) := by
      refine ⟨by funext i; simp, ?_⟩
      intro n hn hn2
      obtain rfl | rfl : n = 1 ∨ n = 2 := by omega
      · funext i
        norm_num [scalarL, dts, Matrix.mulVec, dotProduct]
      · funext i
        norm_num [scalarL, dts, Matrix.mulVec, dotProduct]
    have := h _ _ ht
    norm_num [dotProduct, change, Lin.r, scalarL, dts, List.range_succ] at this

/-- Case for `C67_multistage`: two stages, gradient zero although the objective depends on the parameter. -/
example : adjoint scalarL scalarSolve ⟨2, 1, 1, 1/2, 2, fun n => n / 2, 1/1000⟩ = some 0 ∧
    ¬ IsGradient scalarL 1 2 (fun n => (n : ℚ) / 2) 0 := by
  refine ⟨C67_multistage _ _ _ (by decide), ?_⟩
  intro h
  have ht : Tangent scalarL 1 2 (fun n => (n : ℚ) / 2) (fun _ => 1) (fun n _ => n / 2) := by
    refine ⟨by funext i; simp, ?_⟩
    intro n hn _
    obtain ⟨m, rfl⟩ : ∃ m, n = m + 1 := ⟨n - 1, by omega⟩
    funext i
    simp [scalarL, dts, Matrix.mulVec, dotProduct]
    ring
  have := h _ _ ht
  norm_num [dotProduct, change, Lin.r, scalarL, dts, List.range_succ] at this

/-- Case for `C67_multistep_ignored`: two previous states, two sets; the dependence on the second last state is ignored and
the result is not the gradient: du = (0, 1/2, 1) without it and (0, 1/2, 3) with it. -/
example : ∃ g, adjoint { scalarL with B := fun _ _ k => Matrix.of fun _ _ => if k = 0 then -1 else -4 } scalarSolve
      ⟨1, 2, 2, 1/2, 3, fun n => n / 2, 1/1000⟩ = some g ∧
    ¬ IsGradient { scalarL with B := fun _ _ k => Matrix.of fun _ _ => if k = 0 then -1 else -4 } 2 3 (fun n => (n : ℚ) / 2) g := by
  refine ⟨fun _ => 3/2, ?_, ?_⟩
  · rw [C67_multistep_ignored scalarL { scalarL with B := fun _ _ k => Matrix.of fun _ _ => if k = 0 then -1 else -4 } scalarSolve _
      rfl rfl rfl rfl (by intro n d; simp [scalarL])]
    unfold adjoint
    simp [backLoop, backStep, solveStep, diagonalReads, addSens, weight, sameTime, scalarL, List.range_succ]
    funext i
    norm_num [Matrix.mulVec, dotProduct, Matrix.transpose_apply, scalarSolve]
  · intro h
    have ht : Tangent { scalarL with B := fun _ _ k => Matrix.of fun _ _ => if k = 0 then -1 else -4 } 2 3 (fun n => (n : ℚ) / 2)
        (fun _ => 1) (fun n _ => if n = 0 then 0 else if n = 1 then 1/2 else if n = 2 then 1 else 7/2) := by
      refine ⟨by funext i; simp, ?_⟩
      intro n hn hn2
      obtain rfl | rfl | rfl : n = 1 ∨ n = 2 ∨ n = 3 := by omega
      · funext i
        norm_num [scalarL, dts, Matrix.mulVec, dotProduct]
      · funext i
        norm_num [scalarL, dts, Matrix.mulVec, dotProduct, List.range_succ]
      · funext i
        norm_num [scalarL, dts, Matrix.mulVec, dotProduct, List.range_succ]
    have := h _ _ ht
    norm_num [dotProduct, change, Lin.r, scalarL, dts, List.range_succ] at this

/-- Case for `C67_multistep_undefined`: second order backward differences, one physics set. -/
example : adjoint scalarL scalarSolve ⟨1, 2, 1, 1/2, 2, fun n => n / 2, 1/1000⟩ = none :=
  C67_multistep_undefined _ _ _ rfl (by decide) (by decide)

end MrHyDE.Adjoint
