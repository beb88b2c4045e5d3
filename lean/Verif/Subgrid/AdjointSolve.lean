import Mathlib.Algebra.Module.Basic
import Mathlib.Algebra.Order.Field.Basic
import Mathlib.Algebra.Field.Rat
import Mathlib.Algebra.Order.Ring.Unbundled.Rat
import Mathlib.Algebra.Order.Group.Unbundled.Abs
import Mathlib.Tactic.Linarith
import Mathlib.Tactic.Abel
import Mathlib.Tactic.NormNum
import Mathlib.Tactic.Ring
import Verif.Subgrid.Sens

/-!
# Adjoint and sensitivity evaluations with subgrid models (C169)

The coarse assembly asks a fine model for a forward, an adjoint or a sensitivity evaluation.  Objects held by a
reference counted pointer are `Option`s, and an outcome `none` means that a null pointer is followed.
-/

set_option linter.unusedSectionVars false

namespace MrHyDE.Subgrid.AdjointSolve

variable {K V L M F : Type}

/-! ## Model -/

/-- The fine problem as `solve` sees it, src/subgrid/subgridDtN_solver.cpp:680-895, 1133-1202 and 1536-1610: residual and
matrix at (`isAdjoint` of the workset, time, state, previous state held by the fine groups, values on the interface) —
the flag matters because modules read it (src/physics/thermal.cpp:198-200); solution of a system; `normInf`; the parts of
the derivative of the residual in parameter `p` from the volume and from the sides; the sum over the entries of a product
(lines 1195-1198); the flux handed to the coarse residual.  The time is the one held by the workset.  Simplified: one process, one stage,
derivative parts of the flux not kept. -/
structure Prob (K V L M F : Type) where
  R : Bool → K → V → V → L → V
  J : Bool → K → V → V → L → M
  solve : M → V → V
  norm : V → K
  dVol : Bool → K → V → V → L → Nat → V
  dSide : Bool → K → V → V → L → Nat → V
  dot : V → V → K
  flux : V → L → F

/-- Options of the fine solver, src/subgrid/subgridDtN_solver.cpp:41-42 and src/subgrid/subgridDtN.cpp:26: iteration
limit, tolerance, number of sub-steps, whether the method is "mortar", and number of active parameters (an argument of
`solve`). -/
structure Cfg (K : Type) where
  maxIter : Nat
  tol : K
  steps : Nat
  mortar : Bool
  np : Nat

/-- The loop of `nonlinearSolver`, src/subgrid/subgridDtN_solver.cpp:935-1028, with the gather of the adjoint at the head
of the assembly (lines 722-725, `vec->getLocalView` at line 1941).  The matrix and the right hand side are the same for
forward and adjoint calls (lines 760-806); the increment goes to the adjoint or to the state (lines 1020-1026). -/
def nlLoop [Field K] [LinearOrder K] [AddCommGroup V] (P : Prob K V L M F) (ad : Bool) (t : K) (hist : V) (lam : L)
    (tol : K) : Nat → Option K → V → Option V → Option (V × Option V)
  | 0, _, u, a => some (u, a)
  | left + 1, init, u, a =>
    if ad && a.isNone then none else
    let r := -(P.R ad t u hist lam)
    let scaled := match init with
      | none => if 0 < P.norm r then 1 else 0
      | some i => P.norm r / i
    if tol < scaled then
      let du := P.solve (P.J ad t u hist lam) r
      let i := some (init.getD (P.norm r))
      if ad then nlLoop P ad t hist lam tol left i u (a.map fun x => x + du)
      else nlLoop P ad t hist lam tol left i (u + du) a
    else some (u, a)

/-- `nonlinearSolver`, src/subgrid/subgridDtN_solver.cpp:903-1037: before the first iteration the scaled norm is ten
times the tolerance (lines 922-924). -/
def nonlinearSolver [Field K] [LinearOrder K] [AddCommGroup V] (P : Prob K V L M F) (c : Cfg K) (ad : Bool) (t : K)
    (hist : V) (lam : L) (u : V) (a : Option V) : Option (V × Option V) :=
  if c.tol < 10 * c.tol then nlLoop P ad t hist lam c.tol c.maxIter none u a else some (u, a)

/-- `forwardSensitivityPropagation` as far as the parameter gradient goes, src/subgrid/subgridDtN_solver.cpp:1131-1202:
without `compute_sens` it stays; otherwise the adjoint vector is read (line 1187) and the numbers of the active
parameters are replaced (line 1199), with the derivative of the volume part for other methods than "mortar"
(lines 1137-1161) and the derivative of the side part for "mortar" (lines 1163-1185). -/
def sensitivity (P : Prob K V L M F) (c : Cfg K) (cs ad : Bool) (t : K) (hist : V) (lam : L) (u : V) (a : Option V)
    (g : Nat → K) : Option (Nat → K) :=
  if cs then a.map fun x => fun p =>
    if p < c.np then P.dot x (if c.mortar then P.dSide ad t u hist lam p else P.dVol ad t u hist lam p) else g p
  else some g

/-- What a call leaves behind: the fine state, the fine adjoint, the parameter gradient and the coarse residual.
[helper] -/
structure Result (K V F : Type) where
  sol : V
  adj : Option V
  grad : Nat → K
  flux : F

/-- `solve` in a steady run, src/subgrid/subgridDtN_solver.cpp:179-182, 193-195 and 524-542: interface values are the
coarse adjoint in an adjoint call, the fine state starts from `prev_sol`, the parameter gradient from zero (line 167). -/
def solveSteady [Field K] [LinearOrder K] [AddCommGroup V] (P : Prob K V L M F) (c : Cfg K) (ad cs : Bool) (t : K)
    (hist prev : V) (lam phi : L) (a : Option V) : Option (Result K V F) :=
  let l := if ad then phi else lam
  (nonlinearSolver P c ad t hist l prev a).bind fun s =>
  (sensitivity P c cs ad t hist l s.1 s.2 (fun _ => 0)).bind fun g =>
  if ad then s.2.map fun x => ⟨s.1, s.2, g, P.flux x l⟩ else some ⟨s.1, s.2, g, P.flux s.1 l⟩

/-- Vectors in memory: the values of the storage blocks and the number of the next free one.  [helper] -/
structure Heap (V : Type) where
  val : Nat → V
  next : Nat

/-- One pass of the first loop of a transient adjoint call, src/subgrid/subgridDtN_solver.cpp:226-248: a new vector is
made, `*recu = *curr_sol` makes it refer to the storage of `curr_sol` (assignment of `Tpetra::MultiVector` is a shallow
copy), the forward problem of this sub-step is solved in it, and it is stored.  The groups' previous state is not
changed, and neither is the time `wt` held by the workset.  The state is (memory, time, stored vectors, stored times);
`cur` is the storage of `curr_sol`. -/
def resolveStep [Field K] [LinearOrder K] [AddCommGroup V] (P : Prob K V L M F) (c : Cfg K) (wt dt : K) (hist : V) (lam : L)
    (a : Option V) (cur : Nat) (x : Heap V × K × List Nat × List K) : Option (Heap V × K × List Nat × List K) :=
  let h : Heap V := ⟨Function.update x.1.val x.1.next 0, x.1.next + 1⟩
  let recu := cur
  let t := x.2.1 + dt / c.steps
  (nonlinearSolver P c false wt hist lam (h.val recu) a).map fun s =>
    (⟨Function.update h.val recu s.1, h.next⟩, t, x.2.2.1 ++ [recu], x.2.2.2 ++ [t])

/-- The first loop, src/subgrid/subgridDtN_solver.cpp:227-248, `n` passes. -/
def resolve [Field K] [LinearOrder K] [AddCommGroup V] (P : Prob K V L M F) (c : Cfg K) (wt dt : K) (hist : V) (lam : L)
    (a : Option V) (cur : Nat) : Nat → Heap V × K × List Nat × List K → Option (Heap V × K × List Nat × List K)
  | 0, x => some x
  | n + 1, x => (resolveStep P c wt dt hist lam a cur x).bind (resolve P c wt dt hist lam a cur n)

/-- The second loop, src/subgrid/subgridDtN_solver.cpp:250-273: sub-steps backwards, `n` is `tindex`; the stored vector
`curr_fsol[tindex-1]` and the time `subsolvetimes[tindex]` are used, the gradient is replaced and so is the coarse
residual (`macrowkset.reset()`, line 1554).  `none` also if an index is not stored. -/
def backward [Field K] [LinearOrder K] [AddCommGroup V] (P : Prob K V L M F) (c : Cfg K) (cs : Bool) (wt : K) (hist : V) (phi : L)
    (val : Nat → V) (fsol : List Nat) (times : List K) :
    Nat → Option V → (Nat → K) → Option F → Option (Option V × (Nat → K) × Option F)
  | 0, a, g, f => some (a, g, f)
  | n + 1, a, g, _ =>
    fsol[n]?.bind fun h => times[n + 1]?.bind fun _ =>
    (nonlinearSolver P c true wt hist phi (val h) a).bind fun s =>
    (sensitivity P c cs true wt hist phi (val h) s.2 g).bind fun g' =>
    s.2.bind fun x => backward P c cs wt hist phi val fsol times n s.2 g' (some (P.flux x phi))

/-- `solve` for an adjoint call of a transient run, src/subgrid/subgridDtN_solver.cpp:163-167, 193-195 and 217-274:
`prevTime` is `previous_time`, `wt` the time held by the workset; `curr_sol` (storage 0) starts from `prev_sol`. -/
def solveTransientAdjoint [Field K] [LinearOrder K] [AddCommGroup V] (P : Prob K V L M F) (c : Cfg K) (cs : Bool)
    (wt t prevTime : K) (hist prev : V) (lam phi : L) (a : Option V) : Option (Option V × (Nat → K) × Option F) :=
  let dt := t - prevTime
  (resolve P c wt dt hist lam a 0 c.steps (⟨fun _ => prev, 1⟩, t - dt, [], [t - dt])).bind fun x =>
  backward P c cs wt hist phi x.1.val x.2.2.1 x.2.2.2 c.steps a (fun _ => 0) none

/-- One sub-step of a forward call of a transient run without synchronous stepping, one stage,
src/subgrid/subgridDtN_solver.cpp:380-501: state, previous state and gradient; `lam k` are the interface values
interpolated in time for sub-step `k`, and the workset's time is the end of the sub-step (`updateStage` with
`butcher_c = 1`, src/managers/assembly/assemblyManager_workset.hpp:1203-1211). -/
def forwardSteps [Field K] [LinearOrder K] [AddCommGroup V] (P : Prob K V L M F) (c : Cfg K) (cs : Bool) (dt : K)
    (lam : Nat → L) (a : Option V) : Nat → Nat → K → V → (Nat → K) → Option (V × (Nat → K))
  | 0, _, _, u, g => some (u, g)
  | n + 1, k, t, u, g =>
    let t' := t + dt / c.steps
    (nonlinearSolver P c false t' u (lam k) u a).bind fun s =>
    (sensitivity P c cs false t' u (lam k) s.1 s.2 g).bind fun g' =>
    forwardSteps P c cs dt lam a n (k + 1) t' s.1 g'

/-- `subgridSolver` in a steady run, src/subgrid/subgridDtN.cpp:1085-1100 and src/subgrid/subgridDtN2.cpp:865-876: the
pointer to the current fine adjoint is declared and handed on without being set. -/
def subgridSteady [Field K] [LinearOrder K] [AddCommGroup V] (P : Prob K V L M F) (c : Cfg K) (ad cs : Bool) (t : K)
    (hist prev : V) (lam phi : L) : Option (Result K V F) :=
  solveSteady P c ad cs t hist prev lam phi none

/-- `subgridSolver` for an adjoint call of a transient run, src/subgrid/subgridDtN.cpp:1085-1100 and
src/subgrid/subgridDtN2.cpp:865-876. -/
def subgridTransientAdjoint [Field K] [LinearOrder K] [AddCommGroup V] (P : Prob K V L M F) (c : Cfg K) (cs : Bool)
    (wt t prevTime : K) (hist prev : V) (lam phi : L) : Option (Option V × (Nat → K) × Option F) :=
  solveTransientAdjoint P c cs wt t prevTime hist prev lam phi none

/-- `subgridSolver` for a forward call of a transient run without synchronous stepping, src/subgrid/subgridDtN.cpp:1085-1100,
src/subgrid/subgridDtN2.cpp:865-876 and src/subgrid/subgridDtN_solver.cpp:338-353. -/
def subgridTransientForward [Field K] [LinearOrder K] [AddCommGroup V] (P : Prob K V L M F) (c : Cfg K) (cs : Bool)
    (t prevTime : K) (prev : V) (lam : Nat → L) : Option (V × (Nat → K)) :=
  forwardSteps P c cs (t - prevTime) lam none c.steps 0 prevTime prev (fun _ => 0)

/-! ## Specification -/

/-- The problem of C107 at a fixed time with the flag unset.  [specification, no code] -/
def atTime [Zero V] (P : Prob K V L M F) (t : K) : Sens.Problem K V L M where
  R := P.R false t
  J := P.J false t
  Jprev := fun _ _ _ _ => 0
  Jcoarse := fun _ _ _ _ => 0
  solve := P.solve
  norm := P.norm

/-- The states of the sub-steps of the forward run, each from the one before.  [specification, no code] -/
def states [Field K] [LinearOrder K] [AddCommGroup V] (P : Prob K V L M F) (c : Cfg K) (dt : K) (lam : Nat → L) :
    Nat → Nat → K → V → List V
  | 0, _, _, _ => []
  | n + 1, k, t, u =>
    let t' := t + dt / c.steps
    let v := (Sens.nonlinearSolver (atTime P t') c.maxIter c.tol u (lam k) u none).1
    v :: states P c dt lam n (k + 1) t' v

/-! ## Properties -/

section
variable [Field K] [LinearOrder K] [IsStrictOrderedRing K] [AddCommGroup V]

theorem nlLoop_forward (P : Prob K V L M F) (hn : ∀ v : V, P.norm (-v) = P.norm v) (t : K) (hist : V) (lam : L) (tol : K)
    (a : Option V) : ∀ (left : Nat) (init : Option K) (u : V) (fac : Option M),
      nlLoop P false t hist lam tol left init u a =
        some ((Sens.newtonLoop (atTime P t) hist lam tol left init u fac).1, a) := by
  intro left
  induction left with
  | zero => intro init u fac; rfl
  | succ n ih =>
    intro init u fac
    cases init with
    | none =>
      simp only [nlLoop, Sens.newtonLoop, Bool.false_and, Bool.false_eq_true, if_false, hn]
      by_cases h : tol < (if 0 < P.norm (P.R false t u hist lam) then (1 : K) else 0)
      · rw [if_pos h]
        have h' : tol < (if 0 < (atTime P t).norm ((atTime P t).R u hist lam) then (1 : K) else 0) := h
        rw [if_pos h']
        exact ih _ _ _
      · rw [if_neg h]
        have h' : ¬ tol < (if 0 < (atTime P t).norm ((atTime P t).R u hist lam) then (1 : K) else 0) := h
        rw [if_neg h']
    | some i =>
      simp only [nlLoop, Sens.newtonLoop, Bool.false_and, Bool.false_eq_true, if_false, hn]
      by_cases h : tol < P.norm (P.R false t u hist lam) / i
      · rw [if_pos h]
        have h' : tol < (atTime P t).norm ((atTime P t).R u hist lam) / i := h
        rw [if_pos h']
        exact ih _ _ _
      · rw [if_neg h]
        have h' : ¬ tol < (atTime P t).norm ((atTime P t).R u hist lam) / i := h
        rw [if_neg h']

theorem nonlinearSolver_forward (P : Prob K V L M F) (hn : ∀ v : V, P.norm (-v) = P.norm v) (c : Cfg K) (t : K) (hist : V)
    (lam : L) (u : V) (a : Option V) : nonlinearSolver P c false t hist lam u a =
      some ((Sens.nonlinearSolver (atTime P t) c.maxIter c.tol hist lam u none).1, a) := by
  unfold nonlinearSolver Sens.nonlinearSolver
  split
  · exact nlLoop_forward P hn t hist lam c.tol a _ _ _ _
  · rfl

/-- C169 (part): an evaluation that is neither for the adjoint nor for sensitivities ends, whatever the fine problem and
the options are; the fine state it leaves is the one of the fine solver from the previous state (the solver of C107), the
parameter gradient is zero and the coarse residual is the flux of this state.  In a transient run the same holds for the
last of the sub-steps' states. -/
theorem C169_partial (P : Prob K V L M F) (hn : ∀ v : V, P.norm (-v) = P.norm v) (c : Cfg K) (t prevTime : K)
    (hist prev : V) (lam phi : L) (lams : Nat → L) :
    subgridSteady P c false false t hist prev lam phi =
      (let u := (Sens.nonlinearSolver (atTime P t) c.maxIter c.tol hist lam prev none).1
       some ⟨u, none, fun _ => 0, P.flux u lam⟩) ∧
    subgridTransientForward P c false t prevTime prev lams =
      some ((prev :: states P c (t - prevTime) lams c.steps 0 prevTime prev).getLast (by simp), fun _ => 0) := by
  constructor
  · simp [subgridSteady, solveSteady, nonlinearSolver_forward P hn, sensitivity]
  · unfold subgridTransientForward
    have key : ∀ (n k : Nat) (s : K) (u : V) (g : Nat → K), forwardSteps P c false (t - prevTime) lams none n k s u g =
        some ((u :: states P c (t - prevTime) lams n k s u).getLast (by simp), g) := by
      intro n
      induction n with
      | zero => intro k s u g; rfl
      | succ n ih =>
        intro k s u g
        simp only [forwardSteps, nonlinearSolver_forward P hn, sensitivity, Option.bind_some, Bool.false_eq_true, if_false, ih,
          states]
        exact (congrArg (fun z => some (z, g)) (List.getLast_cons (List.cons_ne_nil _ _))).symm
    exact key _ _ _ _ _

/-- C169 is false: an adjoint evaluation of a fine model follows a null pointer, for every fine problem, state and
coarse adjoint, in steady runs and in transient runs (given a positive tolerance and at least one iteration and
sub-step). -/
theorem C169_adjoint_violated (P : Prob K V L M F) (c : Cfg K) (ht : 0 < c.tol)
    (hi : 0 < c.maxIter) (hs : 0 < c.steps) (cs : Bool) (wt t prevTime : K) (hist prev : V) (lam phi : L) :
    subgridSteady P c true cs wt hist prev lam phi = none ∧
    subgridTransientAdjoint P c cs wt t prevTime hist prev lam phi = none := by
  have h10 : c.tol < 10 * c.tol := by linarith
  obtain ⟨n, hn'⟩ : ∃ n, c.maxIter = n + 1 := ⟨c.maxIter - 1, by omega⟩
  obtain ⟨m, hm⟩ : ∃ m, c.steps = m + 1 := ⟨c.steps - 1, by omega⟩
  have hnone : ∀ (t : K) (l : L) (u : V), nonlinearSolver P c true t hist l u none = none := by
    intro t l u
    unfold nonlinearSolver
    rw [if_pos h10, hn']
    simp [nlLoop]
  constructor
  · simp [subgridSteady, solveSteady, hnone]
  · unfold subgridTransientAdjoint solveTransientAdjoint
    simp only
    cases resolve P c wt (t - prevTime) hist lam none 0 c.steps
        (⟨fun _ => prev, 1⟩, t - (t - prevTime), [], [t - (t - prevTime)]) with
    | none => rfl
    | some x =>
      rw [hm]
      simp only [Option.bind_some, backward, hnone, Option.bind_none]
      cases x.2.2.1[m]? <;> cases x.2.2.2[m + 1]? <;> rfl

/-- C169 is false: an evaluation for the derivative in scalar parameters follows a null pointer, for every fine problem, in
steady runs and in transient runs with at least one sub-step. -/
theorem C169_sensitivity_violated (P : Prob K V L M F) (hn : ∀ v : V, P.norm (-v) = P.norm v) (c : Cfg K)
    (hs : 0 < c.steps) (t prevTime : K) (hist prev : V) (lam phi : L) (lams : Nat → L) :
    subgridSteady P c false true t hist prev lam phi = none ∧
    subgridTransientForward P c true t prevTime prev lams = none := by
  obtain ⟨m, hm⟩ : ∃ m, c.steps = m + 1 := ⟨c.steps - 1, by omega⟩
  constructor
  · simp [subgridSteady, solveSteady, nonlinearSolver_forward P hn, sensitivity]
  · unfold subgridTransientForward
    rw [hm]
    simp [forwardSteps, nonlinearSolver_forward P hn, sensitivity]

/-! ### The solver itself, given a vector for the adjoint -/

theorem nlLoop_adjoint (P : Prob K V L M F) (t : K) (hist : V) (lam : L) (tol i : K) (u : V)
    (hr : tol < P.norm (-(P.R true t u hist lam)) / i) : ∀ (left : Nat) (x : V),
      nlLoop P true t hist lam tol left (some i) u (some x) =
        some (u, some (x + left • P.solve (P.J true t u hist lam) (-(P.R true t u hist lam)))) := by
  intro left
  induction left with
  | zero => intro x; simp [nlLoop]
  | succ n ih =>
    intro x
    simp only [nlLoop, Option.isNone_some, Bool.and_false, Bool.false_eq_true, if_false, if_pos hr, Option.getD_some, if_true,
      Option.map_some]
    rw [ih, succ_nsmul]
    congr 3
    abel

/-- What the fine solver does in an adjoint call when a vector for the adjoint is there: the fine state is kept, and the
increment of one Newton step of the *forward* equation (with the coarse adjoint as interface values and the matrix not
transposed) is added as many times as there are iterations; nothing is added if the forward residual is zero. -/
theorem C169_adjoint_value (P : Prob K V L M F) (c : Cfg K) (h0 : 0 < c.tol) (h1 : c.tol < 1) (t : K) (hist : V) (phi : L)
    (u x : V) :
    (0 < P.norm (-(P.R true t u hist phi)) → nonlinearSolver P c true t hist phi u (some x) =
      some (u, some (x + c.maxIter • P.solve (P.J true t u hist phi) (-(P.R true t u hist phi))))) ∧
    (P.norm (-(P.R true t u hist phi)) = 0 → nonlinearSolver P c true t hist phi u (some x) = some (u, some x)) := by
  have h10 : c.tol < 10 * c.tol := by linarith
  unfold nonlinearSolver
  rw [if_pos h10]
  constructor
  · intro hp
    cases hm : c.maxIter with
    | zero => simp [nlLoop]
    | succ n =>
      have hq : c.tol < P.norm (-(P.R true t u hist phi)) / P.norm (-(P.R true t u hist phi)) := by
        rw [div_self hp.ne']; exact h1
      simp only [nlLoop, Option.isNone_some, Bool.and_false, Bool.false_eq_true, if_false, if_pos hp, if_pos h1, if_true,
        Option.map_some, Option.getD_none]
      rw [nlLoop_adjoint P t hist phi c.tol _ u hq n, succ_nsmul]
      congr 3
      abel
  · intro hp
    cases hm : c.maxIter with
    | zero => simp [nlLoop]
    | succ n =>
      simp only [nlLoop, Option.isNone_some, Bool.and_false, Bool.false_eq_true, if_false, hp, lt_irrefl]
      rw [if_neg (not_lt.mpr h0.le)]

/-- All vectors stored by the first loop of a transient adjoint call are the same one, so that every sub-step of the
second loop is linearised at the same state: as many forward solves as there are sub-steps, each started from the result
of the one before, but all with the same previous state, the same interface values and the same time. -/
theorem C169_alias (P : Prob K V L M F) (hn : ∀ v : V, P.norm (-v) = P.norm v) (c : Cfg K) (wt dt t : K) (hist prev : V)
    (lam : L) (a : Option V) (n : Nat) :
    ∃ x, resolve P c wt dt hist lam a 0 n (⟨fun _ => prev, 1⟩, t, [], [t]) = some x ∧ x.2.2.1 = List.replicate n 0 ∧
      x.2.2.2 = (List.range (n + 1)).map (fun k : Nat => t + (k : K) * (dt / c.steps)) ∧
      x.1.val 0 = (List.range n).foldl (fun u _ =>
        (Sens.nonlinearSolver (atTime P wt) c.maxIter c.tol hist lam u none).1) prev := by
  have key : ∀ (m k : Nat) (h : Heap V) (fs : List Nat) (ts : List K), 0 < h.next →
      ∃ x, resolve P c wt dt hist lam a 0 m (h, t + k * (dt / c.steps), fs, ts) = some x ∧
        x.2.2.1 = fs ++ List.replicate m 0 ∧
        x.2.2.2 = ts ++ (List.range' (k + 1) m).map (fun j : Nat => t + (j : K) * (dt / c.steps)) ∧
        x.1.val 0 = (List.range' k m).foldl (fun u _ =>
          (Sens.nonlinearSolver (atTime P wt) c.maxIter c.tol hist lam u none).1)
          (h.val 0) := by
    intro m
    induction m with
    | zero => intro k h fs ts _; exact ⟨_, rfl, by simp, by simp, by simp⟩
    | succ m ih =>
      intro k h fs ts hpos
      have e : t + k * (dt / c.steps) + dt / c.steps = t + (k + 1 : Nat) * (dt / c.steps) := by push_cast; ring
      have hne : (0 : Nat) ≠ h.next := by omega
      obtain ⟨x, h1, h2, h3, h4⟩ := ih (k + 1)
        ⟨Function.update (Function.update h.val h.next 0) 0
          (Sens.nonlinearSolver (atTime P wt) c.maxIter c.tol hist lam (h.val 0) none).1,
          h.next + 1⟩ (fs ++ [0]) (ts ++ [t + (k + 1 : Nat) * (dt / c.steps)]) (by simp)
      refine ⟨x, ?_, ?_, ?_, ?_⟩
      · simp only [resolve, resolveStep, nonlinearSolver_forward P hn, Option.map_some, Option.bind_some, e,
          Function.update_of_ne hne]
        exact h1
      · rw [h2, List.replicate_succ]; simp
      · rw [h3, List.range'_succ]; simp
      · rw [h4, List.range'_succ]; simp
  obtain ⟨x, h1, h2, h3, h4⟩ := key n 0 ⟨fun _ => prev, 1⟩ [] [t] (by simp)
  refine ⟨x, ?_, ?_, ?_, ?_⟩
  · simpa using h1
  · simpa using h2
  · rw [h3, List.range_succ_eq_map, List.range_eq_range', List.map_cons, List.map_map]
    simp only [List.singleton_append, Nat.cast_zero, zero_mul, add_zero, List.cons.injEq, true_and]
    rw [List.range'_eq_map_range, List.range'_eq_map_range, List.map_map, List.map_map]
    apply List.map_congr_left
    intro j _
    simp [add_comm]
  · rw [h4, List.range_eq_range']

/-- The gradient of the active scalar parameters after a sensitivity evaluation, given a vector for the adjoint: replaced by the
products of the adjoint with the derivative of the side part (mortar) or the volume part of the residual; other numbers stay. -/
theorem C169_gradient_value (P : Prob K V L M F) (c : Cfg K) (ad : Bool) (t : K) (hist : V) (lam : L) (u x : V) (g : Nat → K) :
    ∃ g', sensitivity P c true ad t hist lam u (some x) g = some g' ∧
      (∀ p < c.np, g' p = P.dot x ((if c.mortar then P.dSide else P.dVol) ad t u hist lam p)) ∧ ∀ p, c.np ≤ p → g' p = g p := by
  refine ⟨_, rfl, ?_, ?_⟩
  · intro p hp
    simp only [if_pos hp]
    cases c.mortar <;> rfl
  · intro p hp
    simp only [if_neg (not_lt.mpr hp)]

/-- A steady adjoint evaluation, given a vector for the adjoint and a forward residual that is not zero (with the coarse adjoint as
interface values): the state is the previous one, the adjoint has grown by one forward increment per iteration, the gradient is
the one of `C169_gradient_value` with the new adjoint, and the coarse residual is the flux of the new adjoint. -/
theorem C169_steady_value (P : Prob K V L M F) (c : Cfg K) (h0 : 0 < c.tol) (h1 : c.tol < 1) (cs : Bool) (t : K) (hist prev : V)
    (lam phi : L) (x : V) (hr : 0 < P.norm (-(P.R true t prev hist phi))) :
    ∃ res, solveSteady P c true cs t hist prev lam phi (some x) = some res ∧ res.sol = prev ∧
      res.adj = some (x + c.maxIter • P.solve (P.J true t prev hist phi) (-(P.R true t prev hist phi))) ∧
      res.adj.map (fun y => P.flux y phi) = some res.flux ∧
      sensitivity P c cs true t hist phi prev res.adj (fun _ => 0) = some res.grad := by
  have hv := (C169_adjoint_value P c h0 h1 t hist phi prev x).1 hr
  set y := x + c.maxIter • P.solve (P.J true t prev hist phi) (-(P.R true t prev hist phi)) with hy
  obtain ⟨g, hg⟩ : ∃ g, sensitivity P c cs true t hist phi prev (some y) (fun _ => 0) = some g := by
    cases cs
    · exact ⟨_, rfl⟩
    · exact ⟨_, rfl⟩
  refine ⟨⟨prev, some y, g, P.flux y phi⟩, ?_, rfl, rfl, rfl, hg⟩
  simp [solveSteady, hv, hg]

theorem backward_value (P : Prob K V L M F) (c : Cfg K) (h0 : 0 < c.tol) (h1 : c.tol < 1) (cs : Bool) (wt : K) (hist : V) (phi : L)
    (val : Nat → V) (N : Nat) (times : List K) (ht : times.length = N + 1)
    (hr : 0 < P.norm (-(P.R true wt (val 0) hist phi))) : ∀ (n : Nat), n ≤ N → ∀ (x : V) (g : Nat → K) (f : Option F), 0 < n →
      ∃ g', backward P c cs wt hist phi val (List.replicate N 0) times n (some x) g f =
          some (some (x + (n * c.maxIter) • P.solve (P.J true wt (val 0) hist phi) (-(P.R true wt (val 0) hist phi))), g',
            some (P.flux (x + (n * c.maxIter) • P.solve (P.J true wt (val 0) hist phi) (-(P.R true wt (val 0) hist phi))) phi)) ∧
        (cs = true → ∀ p < c.np, g' p =
          P.dot (x + (n * c.maxIter) • P.solve (P.J true wt (val 0) hist phi) (-(P.R true wt (val 0) hist phi)))
            ((if c.mortar then P.dSide else P.dVol) true wt (val 0) hist phi p)) ∧
        (cs = false → g' = g) := by
  intro n
  induction n with
  | zero => intro _ x g f h; exact absurd h (lt_irrefl 0)
  | succ n ih =>
    intro hn x g f _
    have hv := (C169_adjoint_value P c h0 h1 wt hist phi (val 0) x).1 hr
    have e1 : (List.replicate N 0)[n]? = some 0 := by
      rw [List.getElem?_replicate]; rw [if_pos (by omega)]
    obtain ⟨t, e2⟩ : ∃ t, times[n + 1]? = some t := ⟨times[n + 1]'(by omega), List.getElem?_eq_getElem _⟩
    obtain ⟨g1, hg1, hg2⟩ : ∃ g1, sensitivity P c cs true wt hist phi (val 0)
        (some (x + c.maxIter • P.solve (P.J true wt (val 0) hist phi) (-(P.R true wt (val 0) hist phi)))) g = some g1 ∧
        (cs = true → ∀ p < c.np, g1 p =
          P.dot (x + c.maxIter • P.solve (P.J true wt (val 0) hist phi) (-(P.R true wt (val 0) hist phi)))
            ((if c.mortar then P.dSide else P.dVol) true wt (val 0) hist phi p)) ∧ (cs = false → g1 = g) := by
      cases cs
      · exact ⟨g, rfl, by simp, by simp⟩
      · obtain ⟨g1, a, b, _⟩ := C169_gradient_value P c true wt hist phi (val 0)
          (x + c.maxIter • P.solve (P.J true wt (val 0) hist phi) (-(P.R true wt (val 0) hist phi))) g
        exact ⟨g1, a, fun _ => b, by simp⟩
    have es : x + c.maxIter • P.solve (P.J true wt (val 0) hist phi) (-(P.R true wt (val 0) hist phi)) +
        (n * c.maxIter) • P.solve (P.J true wt (val 0) hist phi) (-(P.R true wt (val 0) hist phi)) =
        x + ((n + 1) * c.maxIter) • P.solve (P.J true wt (val 0) hist phi) (-(P.R true wt (val 0) hist phi)) := by
      rw [add_assoc, ← add_nsmul]
      congr 2
      ring
    simp only [backward, e1, e2, Option.bind_some, hv, hg1]
    cases n with
    | zero =>
      refine ⟨g1, ?_, ?_, hg2.2⟩
      · simp [backward]
      · simpa using hg2.1
    | succ m =>
      obtain ⟨g', k1, k2, k3⟩ := ih (by omega)
        (x + c.maxIter • P.solve (P.J true wt (val 0) hist phi) (-(P.R true wt (val 0) hist phi))) g1
        (some (P.flux (x + c.maxIter • P.solve (P.J true wt (val 0) hist phi) (-(P.R true wt (val 0) hist phi))) phi)) (by omega)
      rw [es] at k1 k2
      exact ⟨g', k1, k2, fun h => (k3 h).trans (hg2.2 h)⟩

/-- A transient adjoint evaluation, given a vector for the adjoint: with `u` the state after all the forward solves of
`C169_alias` and a forward residual at `u` that is not zero, the adjoint has grown by one and the same increment for every
sub-step and iteration; the coarse residual is the flux of the final adjoint only, and the gradient the product of the final
adjoint with the derivative at `u` only, not sums over the sub-steps. -/
theorem C169_transient_value (P : Prob K V L M F) (hn : ∀ v : V, P.norm (-v) = P.norm v) (c : Cfg K) (h0 : 0 < c.tol)
    (h1 : c.tol < 1) (hs : 0 < c.steps) (cs : Bool) (wt t prevTime : K) (hist prev : V) (lam phi : L) (x u : V)
    (hu : u = (List.range c.steps).foldl (fun u _ =>
      (Sens.nonlinearSolver (atTime P wt) c.maxIter c.tol hist lam u none).1) prev)
    (hr : 0 < P.norm (-(P.R true wt u hist phi))) :
    ∃ y g, y = x + (c.steps * c.maxIter) • P.solve (P.J true wt u hist phi) (-(P.R true wt u hist phi)) ∧
      solveTransientAdjoint P c cs wt t prevTime hist prev lam phi (some x) = some (some y, g, some (P.flux y phi)) ∧
      (cs = true → ∀ p < c.np, g p = P.dot y ((if c.mortar then P.dSide else P.dVol) true wt u hist phi p)) ∧
      (cs = false → g = fun _ => 0) := by
  obtain ⟨z, a1, a2, a3, a4⟩ := C169_alias P hn c wt (t - prevTime) (t - (t - prevTime)) hist prev lam (some x) c.steps
  have hz : z.1.val 0 = u := a4.trans hu.symm
  obtain ⟨g, b1, b2, b3⟩ := backward_value P c h0 h1 cs wt hist phi z.1.val c.steps z.2.2.2 (by rw [a3]; simp)
    (by rw [hz]; exact hr) c.steps le_rfl x (fun _ => 0) none hs
  rw [hz] at b1 b2
  refine ⟨_, g, rfl, ?_, b2, b3⟩
  simp only [solveTransientAdjoint, a1, Option.bind_some, a2]
  exact b1

end

/-! ## Cases -/

/-- A scalar fine problem: residual `3 u − hist − λ` with matrix 3; the parameter `p` multiplies the
volume part with derivative `u` and does not occur on the sides.  [case] -/
def scalar : Prob ℚ ℚ ℚ ℚ ℚ where
  R := fun _ _ u h l => 3 * u - h - l
  J := fun _ _ _ _ _ => 3
  solve := fun m b => b / m
  norm := fun v => |v|
  dVol := fun _ _ u _ _ _ => u
  dSide := fun _ _ _ _ _ _ => 0
  dot := fun a b => a * b
  flux := fun u l => u - l

/-- [case] -/
def opts (k : Nat) (mortar : Bool) : Cfg ℚ := ⟨k, 1 / 1000, 2, mortar, 1⟩

example : subgridSteady scalar (opts 5 true) false false 0 0 0 6 0 = some ⟨2, none, fun _ => 0, -4⟩ := by
  rw [(C169_partial scalar (fun v => abs_neg v) (opts 5 true) 0 0 0 0 6 0 (fun _ => 0)).1]
  norm_num [Sens.nonlinearSolver, Sens.newtonLoop, atTime, scalar, opts]

example : subgridTransientForward scalar (opts 5 true) false 1 0 9 (fun _ => 0) = some (1, fun _ => 0) := by
  rw [(C169_partial scalar (fun v => abs_neg v) (opts 5 true) 1 0 0 9 0 0 (fun _ => 0)).2]
  norm_num [Sens.nonlinearSolver, Sens.newtonLoop, atTime, scalar, opts, states, List.getLast]

example : subgridSteady scalar (opts 5 true) true false 1 0 2 6 9 = none ∧
    subgridTransientAdjoint scalar (opts 5 true) false 1 1 0 0 2 6 9 = none :=
  C169_adjoint_violated scalar (opts 5 true) (by norm_num [opts]) (by decide) (by decide) false 1 1 0 0 2 6 9

example : subgridSteady scalar (opts 5 true) false true 0 0 2 6 9 = none ∧
    subgridTransientForward scalar (opts 5 true) true 0 0 2 (fun _ => 6) = none :=
  C169_sensitivity_violated scalar (fun v => abs_neg v) (opts 5 true) (by decide) 0 0 0 2 6 9 (fun _ => 6)

example : nonlinearSolver scalar (opts 5 true) true 0 0 9 2 (some 0) = some (2, some 5) := by
  rw [(C169_adjoint_value scalar (opts 5 true) (by norm_num [opts]) (by norm_num [opts]) 0 0 9 2 0).1
    (by norm_num [scalar])]
  norm_num [scalar, opts]

example : ∃ g', sensitivity scalar (opts 5 false) true false 0 0 6 2 (some 7) (fun _ => 1) = some g' ∧
    (∀ p < 1, g' p = 7 * 2) ∧ ∀ p, 1 ≤ p → g' p = 1 :=
  C169_gradient_value scalar (opts 5 false) false 0 0 6 2 7 (fun _ => 1)

example : ∃ res, solveSteady scalar (opts 5 false) true true 0 0 2 6 9 (some 0) = some res ∧ res.sol = 2 ∧ res.adj = some 5 ∧
    res.flux = -4 ∧ res.grad 0 = 10 := by
  obtain ⟨res, h1, h2, h3, h4, h5⟩ := C169_steady_value scalar (opts 5 false) (by norm_num [opts]) (by norm_num [opts]) true 0 0 2 6 9 0
    (by norm_num [scalar])
  have e : res.adj = some 5 := by rw [h3]; norm_num [scalar, opts]
  rw [e] at h4 h5
  have h4' := Option.some.inj h4
  have h5' := congrFun (Option.some.inj h5) 0
  exact ⟨res, h1, h2, e, by rw [← h4']; norm_num [scalar], by rw [← h5']; norm_num [scalar, opts]⟩

/-- Two sub-steps of the scalar problem, previous state 9: both solves give 3, the increment is `(9+6−9)/3 = 2`. -/
example : ∃ g, solveTransientAdjoint scalar (opts 5 false) true 0 1 0 9 9 0 6 (some 0) = some (some 20, g, some 14) ∧ g 0 = 60 := by
  obtain ⟨y, g, h1, h2, h3, _⟩ := C169_transient_value scalar (fun v => abs_neg v) (opts 5 false) (by norm_num [opts]) (by norm_num [opts])
    (by decide) true 0 1 0 9 9 0 6 0 3
    (by norm_num [Sens.nonlinearSolver, Sens.newtonLoop, atTime, scalar, opts, List.range, List.range.loop]) (by norm_num [scalar])
  have hy : y = 20 := by rw [h1]; norm_num [scalar, opts]
  refine ⟨g, ?_, ?_⟩
  · rw [h2, hy]; norm_num [scalar]
  · rw [h3 rfl 0 (by decide), hy]; norm_num [scalar, opts]

/-- C169 is false even if the vector for the adjoint is supplied: for the fine problem `3 u = λ` with solved forward state
(`λ = 6`, `u = 2`) and the coarse adjoint `φ = 9` the adjoint of the fine problem is `3`, the solver returns one per allowed
iteration; and with `φ = 6` it returns zero. -/
theorem C169_limit_violated (k : Nat) :
    nonlinearSolver scalar (opts k true) true 0 0 9 2 (some 0) = some (2, some (k : ℚ)) ∧
    nonlinearSolver scalar (opts k true) true 0 0 6 2 (some 0) = some (2, some 0) := by
  have h := C169_adjoint_value scalar (opts k true) (by norm_num [opts]) (by norm_num [opts]) 0 0
  constructor
  · rw [(h 9 2 0).1 (by norm_num [scalar])]
    norm_num [scalar, opts]
  · rw [(h 6 2 0).2 (by norm_num [scalar])]

/-- C169 is false even if the vector for the adjoint is supplied: with two sub-steps both stored forward states are the
second one, and that one is computed with the previous state of the whole step: for `3 u = u' + λ`, start 9 and `λ = 0` the
states of the forward run are 3 and 1, those stored are 3 and 3. -/
theorem C169_alias_violated : states scalar (opts 5 true) 1 (fun _ => 0) 2 0 0 9 = [3, 1] ∧
    (resolve scalar (opts 5 true) 0 1 9 0 (some 0) 0 2 (⟨fun _ => 9, 1⟩, 0, [], [0])).map
      (fun x => x.2.2.1.map x.1.val) = some [3, 3] := by
  constructor
  · norm_num [Sens.nonlinearSolver, Sens.newtonLoop, atTime, scalar, opts, states]
  · obtain ⟨x, h1, h2, _, h4⟩ := C169_alias scalar (fun v => abs_neg v) (opts 5 true) 0 1 0 9 9 0 (some 0) 2
    rw [h1, Option.map_some, h2]
    simp only [List.replicate, List.map_cons, List.map_nil, h4]
    norm_num [Sens.nonlinearSolver, Sens.newtonLoop, atTime, scalar, opts, List.range, List.range.loop]

/-- C169 is false even if the vector for the adjoint is supplied: with the mortar method the derivative of the residual inside
the fine elements is left out of the parameter gradient, and over several sub-steps only the last one counts. -/
theorem C169_mortar_violated (a u : ℚ) :
    (sensitivity scalar (opts 5 true) true false 0 0 6 u (some a) (fun _ => 0)).map (· 0) = some 0 ∧
    (sensitivity scalar (opts 5 false) true false 0 0 6 u (some a) (fun _ => 0)).map (· 0) = some (a * u) ∧
    ∀ g : Nat → ℚ, (sensitivity scalar (opts 5 false) true false 0 0 6 u (some a) g).map (· 0) = some (a * u) := by
  refine ⟨?_, ?_, ?_⟩ <;> simp [sensitivity, opts, scalar]

end MrHyDE.Subgrid.AdjointSolve
