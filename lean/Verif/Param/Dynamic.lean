import Verif.Param.Props
import Verif.Time.LoopProps

/-!
# C53: time-dependent parameters follow the time steps of the solver

Which parameter state belongs to which time step, and which step size is used for the time derivative of a
parameter: `parameterManager_construct.hpp:54-76` against `solverManager_construct.hpp:39-48` and the transient
loop.
-/

set_option linter.unusedSectionVars false

namespace MrHyDE.Param

open Time

/-- The two entries of the list "Solver" that fix the time steps. [solverManager_construct.hpp:39-48, parameterManager_construct.hpp:54-76] -/
structure TimeInput (K : Type) where
  deltaT : Option K
  numSteps : Option Nat

variable {K : Type} [Field K] [LinearOrder K] [IsStrictOrderedRing K]

/-- `dynamic_dt`, parameterManager_construct.hpp:54-59. -/
def dynamicDt (inp : TimeInput K) : K := inp.deltaT.getD 1

/-- `numTimeSteps`, parameterManager_construct.hpp:63-77 (`fuel` bounds the counting loop). -/
def numTimeSteps (fuel : Nat) (t0 tf : K) (inp : TimeInput K) : Nat :=
  match inp.numSteps with
  | some n => n
  | none => countSteps tf (inp.deltaT.getD 1) fuel t0

/-- The list after the parameter manager has been constructed: without a number of steps its `get("delta t", 1.0)`
stores the default in the list, parameterManager_construct.hpp:69. -/
def afterParams (inp : TimeInput K) : TimeInput K :=
  match inp.numSteps with
  | some _ => inp
  | none => { inp with deltaT := some (inp.deltaT.getD 1) }

/-- `deltat` of a transient solver constructed afterwards, solverManager_construct.hpp:42-48. -/
def solverDt (t0 tf : K) (inp : TimeInput K) : K :=
  match (afterParams inp).deltaT with
  | some d => d
  | none => (tf - t0) / ((inp.numSteps.getD 1 : Nat) : K)

/-- The state before pass number `n` of the transient loop. [solverManager_solvers.hpp:73-181] -/
def stateAt (ok : Nat → Bool) : Nat → LoopState K → LoopState K
  | 0, s => s
  | n + 1, s => loopBody (ok n) (stateAt ok n s)

/-- Pass number `n` of the loop is executed: the condition held before it and before all earlier ones. [solverManager_solvers.hpp:73-76] -/
def Executed (E : K) (mc : Nat) (ok : Nat → Bool) (s : LoopState K) (n : Nat) : Prop :=
  ∀ m : Nat, m ≤ n → loopCond E mc (stateAt ok m s) = true

theorem countSteps_ge (E dt : K) : ∀ (n fuel : Nat) (t : K), n < fuel → 0 ≤ dt → t + n * dt < E →
    n < countSteps E dt fuel t
  | 0, 0, t, h, _, _ => absurd h (by omega)
  | 0, fuel + 1, t, _, _, h => by
    have : t < E := by simpa using h
    simp [countSteps, this]
  | n + 1, 0, t, h, _, _ => absurd h (by omega)
  | n + 1, fuel + 1, t, hf, hd, h => by
    have e : ((n + 1 : Nat) : K) = n + 1 := by push_cast; rfl
    rw [e] at h
    have hn : (0 : K) ≤ n := Nat.cast_nonneg n
    have hlt : t < E := by nlinarith
    have := countSteps_ge E dt n fuel (t + dt) (by omega) hd (by linarith)
    simp [countSteps, hlt]
    omega

theorem stateAt_ok (n : Nat) (t0 dt : K) :
    (stateAt (fun _ => true) n (loopInit t0 dt)).time = t0 + n * dt ∧
    (stateAt (fun _ => true) n (loopInit t0 dt)).stepProg = n ∧
    (stateAt (fun _ => true) n (loopInit t0 dt)).dt = dt := by
  induction n with
  | zero => simp [stateAt, loopInit]
  | succ n ih =>
    obtain ⟨h1, h2, h3⟩ := ih
    refine ⟨?_, ?_, ?_⟩
    · simp only [stateAt, loopBody, if_true, h1, h3]
      push_cast
      ring
    · simp [stateAt, loopBody, h2]
    · simp [stateAt, loopBody, h3]

/-- **C53** (partial: the number of steps is not given, and no time step fails).  In every pass of the transient
loop the time index handed to the parameter manager has a parameter state (the counting loop of the parameter
manager having finished, `fuel` large enough), and the step size used for time derivatives of parameters is the one
of the solver. -/
theorem C53_partial (t0 tf : K) (inp : TimeInput K) (hno : inp.numSteps = none) (hE : 0 ≤ tf) (mc : Nat)
    (hdt : 0 < inp.deltaT.getD 1) (fuel n : Nat) (hf : n < fuel)
    (hex : Executed tf mc (fun _ => true) (loopInit t0 (solverDt t0 tf inp)) n) :
    solverDt t0 tf inp = dynamicDt inp ∧
    (stateAt (fun _ => true) n (loopInit t0 (solverDt t0 tf inp))).stepProg < numTimeSteps fuel t0 tf inp := by
  have e1 : solverDt t0 tf inp = dynamicDt inp := by
    simp [solverDt, afterParams, hno, dynamicDt]
  refine ⟨e1, ?_⟩
  obtain ⟨h1, h2, h3⟩ := stateAt_ok n t0 (solverDt t0 tf inp)
  rw [h2]
  have hc := hex n (le_refl n)
  rw [cond_iff] at hc
  obtain ⟨hc, _⟩ := hc
  rw [h1, e1] at hc
  simp only [numTimeSteps, hno]
  refine countSteps_ge tf _ n fuel t0 hf (le_of_lt hdt) ?_
  simp only [dynamicDt, stopAt] at hc
  have h4 : 0 ≤ tf * (1 / 1000000) := mul_nonneg hE (by norm_num)
  linarith

/-- A case of `C53_partial`: four steps to time one. -/
example : numTimeSteps 10 0 (1 : ℚ) ⟨some (1/4), none⟩ = 4 ∧
    Executed (1 : ℚ) 5 (fun _ => true) (loopInit 0 (solverDt 0 1 ⟨some (1/4), none⟩)) 3 := by
  refine ⟨by decide +kernel, ?_⟩
  intro m hm
  have : m = 0 ∨ m = 1 ∨ m = 2 ∨ m = 3 := by omega
  rcases this with rfl | rfl | rfl | rfl <;> decide +kernel

/-- **C53, violated (a).**  With the number of steps given and no step size, the parameter manager uses the step
size one while the solver uses `(tf - t0)/n`: time derivatives of parameters are wrong by the factor `(tf - t0)/n`. -/
theorem C53_dt_violated (t0 tf : K) (n : Nat) :
    dynamicDt (⟨none, some n⟩ : TimeInput K) = 1 ∧
    solverDt t0 tf (⟨none, some n⟩ : TimeInput K) = (tf - t0) / n := by
  simp [dynamicDt, solverDt, afterParams]

/-- **C53, violated (b).**  With both entries given the solver follows the step size and the parameter manager the
number of steps: with two steps and step size 1/4 the third step to time one has no parameter state. -/
theorem C53_both_violated : ∃ n : Nat,
    Executed (1 : ℚ) 5 (fun _ => true) (loopInit 0 (solverDt 0 1 ⟨some (1/4), some 2⟩)) n ∧
    numTimeSteps 10 0 (1 : ℚ) ⟨some (1/4), some 2⟩
      ≤ (stateAt (fun _ => true) n (loopInit (0 : ℚ) (solverDt 0 1 ⟨some (1/4), some 2⟩))).stepProg := by
  refine ⟨2, ?_, by decide +kernel⟩
  intro m hm
  have : m = 0 ∨ m = 1 ∨ m = 2 := by omega
  rcases this with rfl | rfl | rfl <;> decide +kernel

/-- **C53, violated (c).**  After a step cut the solver takes more steps than there are parameter states: with
step size 1/2, a failure in the first attempt and one parameter state for each of the two planned steps, the third
step reads past the end. -/
theorem C53_cut_violated : ∃ n : Nat,
    Executed (1 : ℚ) 5 (fun k => decide (k ≠ 0)) (loopInit 0 (solverDt 0 1 ⟨some (1/2), none⟩)) n ∧
    numTimeSteps 10 0 (1 : ℚ) ⟨some (1/2), none⟩
      ≤ (stateAt (fun k => decide (k ≠ 0)) n (loopInit (0 : ℚ) (solverDt 0 1 ⟨some (1/2), none⟩))).stepProg := by
  refine ⟨3, ?_, by decide +kernel⟩
  intro m hm
  have : m = 0 ∨ m = 1 ∨ m = 2 ∨ m = 3 := by omega
  rcases this with rfl | rfl | rfl | rfl <;> decide +kernel

/-- **C53, violated (d).**  The time derivative `p_t` of a scalar parameter is never available: the view it reads
has no entries, whatever the parameter number, time index and values. -/
theorem C53_scalar_violated (j index : Nat) (dt : K) (cur prev : List K) :
    paramDotLeaf j index dt cur prev = none := by
  simp [paramDotLeaf, scalarDot, dotExtent]

/-- What the kernel would compute in an allocated view: the difference quotient. -/
theorem scalarDot_value (ext index c : Nat) (dt : K) (cur prev : List K) (a b : K) (hi : 0 < index) (hc : c < ext)
    (ha : cur[c]? = some a) (hb : prev[c]? = some b) :
    (scalarDot ext index dt cur prev)[c]? = some ((a - b) / dt) := by
  have hi' : index ≠ 0 := by omega
  simp [scalarDot, hc, hi', ha, hb]

end MrHyDE.Param
