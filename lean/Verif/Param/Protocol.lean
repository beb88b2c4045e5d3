import Verif.Param.Model

/-!
# C171: which parameter values, with which seeds, an evaluation sees

The parameter manager keeps the scalar parameters three times: the host table (`paramvals`), written by
`updateParams`; the table over all time indices with derivative slots (`paramvals_KV_ALL`, `paramvals_KVAD*_ALL`),
written by `sacadoizeParams`; and the view of one time index (`paramvals_KV`, `paramvals_KVAD*`), written by
`updateDynamicParams` only.  Every function of the input file reads the last one: solverManager_setup.hpp:539-541, 666
hands it to the worksets, functionManager_create.hpp:252, 319 to the leaves.  This file follows the three tables through
the forward and adjoint runs and records what each evaluation of functions sees.
-/

namespace MrHyDE.Param.Protocol

set_option linter.unusedSectionVars false
set_option linter.unusedSimpArgs false

variable {K : Type} [Zero K] [One K]

/-- How the Dirichlet data of a physics set is given, solverManager_setup.hpp:710-711 (options "scalar data", default
false, and "static data", default true). -/
inductive Data where
  | scalar
  | static
  | changing
deriving DecidableEq

/-- What a set of functions is evaluated for.  [specification, no code] `dirichlet`, `initial`, `start`: Dirichlet data before the
solve, initial condition, objective at the initial time; `dirichletStage`: Dirichlet data in a stage of a time step;
`assembly`, `value`: residual and objective; `stateGrad`: derivative of the objective with respect to the state;
`explicit`, `explicitField`: its derivatives with respect to the scalar and to the discretized parameters; `residual`,
`discrete`: the same derivatives of the residual. -/
inductive Use where
  | dirichlet
  | initial
  | start
  | dirichletStage
  | assembly
  | value
  | stateGrad
  | explicit
  | explicitField
  | residual
  | discrete
deriving DecidableEq

/-- What does not change after setup: type codes and derivative slots of the components (the latter is C28's `slots`, here
a function of parameter and component), number of derivative slots of the number type, number of time indices of the
table, `have_dynamic_scalar` (parameterManager_setup.hpp:59-63, 177-224), whether there are active and discretized
parameters, the Dirichlet data of the physics sets with the flag `usestrongDBCs`, for each set whether its initial
condition is evaluated (solverManager_util.hpp:192-193, not restarted), number of stages, the objectives (true when its
type evaluates functions: postprocessManager_objective_gradient.hpp:191, 360, 527), whether the response is of type
"discrete" (1533) and whether the parameter Jacobian is reused (1676-1685). -/
structure Cfg where
  types : Nat → Int
  slot : Nat → Nat → Nat
  N : Nat
  times : Nat
  dynamic : Bool
  active : Bool
  fields : Bool
  strong : Bool
  data : List Data
  initial : List Bool
  stages : Nat
  objs : List Bool
  discreteResponse : Bool
  reuse : Bool

/-- One evaluation: purpose, time index it is for, host table at that time, what the functions see. [specification, no code] -/
structure Event (K : Type) where
  use : Use
  step : Nat
  host : Nat → Nat → Nat → K
  view : Nat → Nat → AD K

/-- State: host table `paramvals`, `paramvals_KVAD*_ALL`, `paramvals_KVAD*` (parameterManager.hpp:205-235; the real-valued
copies carry the same values), `have_static_Dirichlet_data` (solverManager.hpp:287) and the evaluations so far. -/
structure St (K : Type) where
  host : Nat → Nat → Nat → K
  all : Nat → Nat → Nat → AD K
  view : Nat → Nat → AD K
  done : Nat → Bool
  log : List (Event K)

/-- After setup: the host table of the input file, both views allocated and zero (parameterManager_setup.hpp:177-224);
solverManager_construct.hpp:260. -/
def init (h : Nat → Nat → Nat → K) : St K :=
  ⟨h, fun _ _ _ => AD.const 0, fun _ _ => AD.const 0, fun _ => false, []⟩

/-- `sacadoizeParams(seed_active)`, parameterManager_sacadoize.hpp:13-148, writing the table over all time indices only. -/
def sacadoize (c : Cfg) (b : Bool) (s : St K) : St K :=
  { s with all := fun k i j => sacado b c.N (c.types i) (c.slot i j) (s.host k i j) }

/-- `updateDynamicParams(timestep)`, parameterManager_update.hpp:108-136: the slice of the index (converted to an
unsigned number) is copied to the view; `none` when it lies outside the table. -/
def updateDynamic (c : Cfg) (t : Int) (s : St K) : Option (St K) :=
  let idx : Int := if c.dynamic then t else 0
  if 0 ≤ idx ∧ idx < (c.times : Int) then some { s with view := s.all idx.toNat } else none

/-- An evaluation of functions. [helper] -/
def eval (u : Use) (k : Nat) (s : St K) : St K := { s with log := s.log ++ [⟨u, k, s.host, s.view⟩] }

/-- The choice about projecting the Dirichlet data of a set, solverManager_models.hpp:29-37 and solverManager_util.hpp:72-80;
`projectDirichlet` evaluates only with strong Dirichlet conditions (solverManager_util.hpp:21-47). -/
def project (c : Cfg) (u : Use) (k : Nat) (set : Nat) (s : St K) : St K :=
  match c.data[set]? with
  | some .changing => if c.strong then eval u k s else s
  | some .static =>
    if s.done set then s
    else
      let s' := { s with done := Function.update s.done set true }
      if c.strong then eval u k s' else s'
  | _ => s

/-- `setDirichlet`, solverManager_util.hpp:60-80, called only with `usestrongDBCs` (the rest imposes the values: C36). -/
def setDirichlet (c : Cfg) (u : Use) (k : Nat) (set : Nat) (s : St K) : St K :=
  if c.strong then project c u k set s else s

/-- Loop over the physics sets. [helper] -/
def overSets (f : Nat → St K → St K) : Nat → St K → St K
  | 0, s => s
  | n + 1, s => f n (overSets f n s)

/-- `setInitial`, solverManager_util.hpp:155-300: a set with an initial condition that is not scalar is evaluated. -/
def setInitial (c : Cfg) (s : St K) : St K :=
  overSets (fun set s => if c.initial.getD set false then eval .initial 0 s else s) c.data.length s

/-- One physics set of the steady solver, solverManager_solvers.hpp:19-26 (the iterations of the nonlinear solver evaluate the
same: one evaluation here). -/
def steadySet (c : Cfg) (set : Nat) (s : St K) : Option (St K) :=
  (updateDynamic c 0 (setDirichlet c .dirichlet 0 set s)).map (eval .assembly 0)

/-- Loop over the sets, solverManager_solvers.hpp:18-27: sets `0 … n-1`. -/
def steadySets (c : Cfg) : Nat → St K → Option (St K)
  | 0, s => some s
  | n + 1, s => (steadySets c n s).bind (steadySet c n)

/-- Loop over the subcycles, solverManager_solvers.hpp:17-28. -/
def subcycles (c : Cfg) : Nat → St K → Option (St K)
  | 0, s => some s
  | n + 1, s => (subcycles c n s).bind (steadySets c c.data.length)

/-- `steadySolver`, solverManager_solvers.hpp:13-33; line 29 evaluates the objective. -/
def steadySolver (c : Cfg) (nsub : Nat) (s : St K) : Option (St K) :=
  (subcycles c nsub s).map (eval .value 0)

/-- The stages of one physics set in a time step, solverManager_solvers.hpp:128-156. -/
def stageLoop (c : Cfg) (k set : Nat) : Nat → St K → St K
  | 0, s => s
  | n + 1, s => eval .assembly k (setDirichlet c .dirichletStage k set (stageLoop c k set n s))

/-- The time loop, solverManager_solvers.hpp:78-182: for each attempted step whether its solves converged; `k` is
`stepProg`.  The objective recorded after step `k` (line 164) is for the parameters of that step.  Which attempts are
made (clock, cuts) is C20's model. -/
def timeLoop (c : Cfg) : Nat → List Bool → St K → Option (St K)
  | _, [], s => some s
  | k, ok :: rest, s =>
    (updateDynamic c k s).bind (fun s =>
      let s := overSets (fun set s => stageLoop c k set c.stages s) c.data.length s
      if ok then timeLoop c (k + 1) rest (eval .value k s) else timeLoop c k rest s)

/-- The forward part of `transientSolver`, solverManager_solvers.hpp:51-187. -/
def transientSolver (c : Cfg) (steps : List Bool) (s : St K) : Option (St K) :=
  timeLoop c 0 steps (eval .start 0 (overSets (setDirichlet c .dirichlet 0) c.data.length s))

/-- The kind of run. [specification, no code] -/
inductive Kind where
  | steady (subcycles : Nat)
  | transient (steps : List Bool)

/-- `forwardModel` up to the solver, solverManager_models.hpp:23-40. -/
def prepare (c : Cfg) (s : St K) : St K :=
  setInitial c (overSets (project c .dirichlet 0) c.data.length (sacadoize c false s))

/-- `forwardModel`, solverManager_models.hpp:14-62. -/
def forward (c : Cfg) (kind : Kind) (s : St K) : Option (St K) :=
  match kind with
  | .steady n => steadySolver c n (prepare c s)
  | .transient l => transientSolver c l (prepare c s)

/-- One objective in `computeObjectiveGradParam`, postprocessManager_objective_gradient.hpp:191-256, 360-456, 527-692: the
scalar parameters are seeded, then, when there are discretized parameters, not seeded.  (Groups, sensors and
regularisations repeat the same evaluations: one each here; lines 777, 838 and 939 end without seeds.) -/
def gradParamObj (c : Cfg) (k : Nat) (o : Bool) (s : St K) : St K :=
  let s := if o then
      let s := sacadoize c true s
      let s := if c.active then eval .explicit k s else s
      if c.fields then eval .explicitField k (sacadoize c false s) else s
    else s
  sacadoize c false s

/-- `computeObjectiveGradParam` over the objectives, postprocessManager_objective_gradient.hpp:16-130, 191-939. -/
def gradParam (c : Cfg) (k : Nat) (s : St K) : St K := c.objs.foldl (fun s o => gradParamObj c k o s) s

/-- Residual part for the scalar parameters, postprocessManager_objective_gradient.hpp:1544-1619. -/
def gradResidual (c : Cfg) (t : Int) (k : Nat) (s : St K) : Option (St K) :=
  if c.active then
    (updateDynamic c (t - 1) (sacadoize c true s)).bind (fun s =>
      updateDynamic c (t - 1) (sacadoize c false (eval .residual k s)))
  else some s

/-- `computeDiscreteSensitivities`, postprocessManager_objective_gradient.hpp:1621-1623, 1676-1703. -/
def gradDiscrete (c : Cfg) (t : Int) (k : Nat) (s : St K) : Option (St K) :=
  if c.fields && !c.reuse then
    (updateDynamic c (t - 1) (sacadoize c false s)).map (eval .discrete k)
  else some s

/-- `computeSensitivities(…, tindex, …)`, postprocessManager_objective_gradient.hpp:1510-1655; `k` is the time index the
evaluations are for. -/
def sensitivities (c : Cfg) (t : Int) (k : Nat) (s : St K) : Option (St K) :=
  let s := if c.discreteResponse then s else gradParam c k s
  (gradResidual c t k s).bind (gradDiscrete c t k)

/-- Solve of one adjoint step: the assembly, then `computeObjectiveGradState`
(postprocessManager_objective_gradient.hpp:1071), called by the nonlinear solver, solverManager_solvers.hpp:375, 459, 477 (the assemblies of the
previous steps' Jacobians, line 563, see the same). -/
def adjointSolve (c : Cfg) (k : Nat) (s : St K) : St K :=
  eval .stateGrad k (sacadoize c false (eval .assembly k s))

/-- The steady branch of `adjointModel`, solverManager_models.hpp:99-102; `t` is `current_time` cut to an integer. -/
def adjointSteady (c : Cfg) (t : Int) (s : St K) : Option (St K) :=
  (updateDynamic c 0 s).bind (fun s => sensitivities c t 0 (adjointSolve c 0 s))

/-- The adjoint time loop, solverManager_solvers.hpp:229-278, from `cindex = n` down to one. -/
def adjointSteps (c : Cfg) : Nat → St K → Option (St K)
  | 0, s => some s
  | n + 1, s =>
    (updateDynamic c n s).bind (fun s =>
      (sensitivities c (n + 1) n (adjointSolve c n s)).bind (adjointSteps c n))

/-- The kind of adjoint run: steady with the integer part of the current time, or transient with the number of stored
steps. [specification, no code] -/
inductive AKind where
  | steady (t : Int)
  | transient (n : Nat)

/-- `adjointModel`, solverManager_models.hpp:69-118: nothing with several physics sets (on the first process; the others, `C130_sets_violated`, are not modelled here). -/
def adjoint (c : Cfg) (kind : AKind) (s : St K) : Option (St K) :=
  if 1 < c.data.length then some s
  else
    let s := setInitial c (sacadoize c false s)
    match kind with
    | .steady t => adjointSteady c t s
    | .transient n => adjointSteps c n s

/-- What a driver (optimiser, sampling, `AnalysisManager::run`) does, in any order: new parameter values
(parameterManager_update.hpp:14-60), a forward run, an adjoint run (MrHyDE_Objective.hpp:60-95). -/
inductive Call (K : Type) where
  | update (h : Nat → Nat → Nat → K)
  | forward (kind : Kind)
  | adjoint (kind : AKind)

/-- One call. [helper] -/
def step (c : Cfg) : Call K → St K → Option (St K)
  | .update h, s => some { s with host := h }
  | .forward kind, s => forward c kind s
  | .adjoint kind, s => adjoint c kind s

/-- A sequence of calls. [helper] -/
def run (c : Cfg) : List (Call K) → St K → Option (St K)
  | [], s => some s
  | x :: xs, s => (step c x s).bind (run c xs)

/-! ### Specification -/

/-- The values an evaluation must see: the current value of every component at its time index (there is only one unless a
parameter depends on time), with derivative one in its own slot exactly when derivatives with respect to the scalar
parameters are taken and the parameter is active. [specification, no code] -/
def Sees (c : Cfg) (e : Event K) (seed : Prop) : Prop :=
  ∀ i j, (e.view i j).val = e.host (if c.dynamic then e.step else 0) i j ∧
    (∀ m, seed → c.types i = 1 → c.slot i j < c.N → (e.view i j).dx m = if m = c.slot i j then 1 else 0) ∧
    (∀ m, ¬(seed ∧ c.types i = 1 ∧ c.slot i j < c.N) → (e.view i j).dx m = 0)

/-- No derivative slot is set. [specification, no code] -/
def Plain (v : Nat → Nat → AD K) : Prop := ∀ i j m, (v i j).dx m = 0

/-- The purposes for which the current values are wanted and guaranteed. [specification, no code] -/
def Regular : Use → Prop
  | .dirichletStage | .assembly | .value | .stateGrad | .explicit | .explicitField | .residual | .discrete => True
  | _ => False

/-- What holds for every evaluation: regular ones see the current values, seeded in the residual's derivative only, the
others see no seeds. [specification, no code] -/
def Good (c : Cfg) (e : Event K) : Prop :=
  (Regular e.use → Sees c e (e.use = .residual)) ∧ (e.use ≠ .residual → Plain e.view)

/-! ### Proofs -/

/-- The table without (with) seeds. [helper] -/
def Filled (c : Cfg) (b : Bool) (s : St K) : Prop :=
  ∀ k i j, s.all k i j = sacado b c.N (c.types i) (c.slot i j) (s.host k i j)

/-- The view is the slice of time index `k` of the table without (with) seeds. [helper] -/
def At (c : Cfg) (b : Bool) (k : Nat) (s : St K) : Prop :=
  ∀ i j, s.view i j = sacado b c.N (c.types i) (c.slot i j) (s.host (if c.dynamic then k else 0) i j)

theorem sacado_val (b : Bool) (N : Nat) (t : Int) (q : Nat) (v : K) : (sacado b N t q v).val = v := by
  unfold sacado; split_ifs <;> rfl

theorem sacado_plain (N : Nat) (t : Int) (q : Nat) (v : K) (m : Nat) : (sacado false N t q v).dx m = 0 := rfl

theorem sacado_seed (N : Nat) (t : Int) (q : Nat) (v : K) (m : Nat) :
    (sacado true N t q v).dx m = if t = 1 ∧ q < N ∧ m = q then 1 else 0 := by
  unfold sacado AD.seed AD.const
  by_cases h1 : t = 1 <;> by_cases h2 : q < N <;> simp [h1, h2]

theorem at_sees (c : Cfg) (k : Nat) (s : St K) (u : Use) (hu : u ≠ .residual) (h : At c false k s) :
    Sees c ⟨u, k, s.host, s.view⟩ (u = .residual) := by
  intro i j
  show (s.view i j).val = _ ∧ _
  rw [h i j]
  refine ⟨sacado_val _ _ _ _ _, fun m hs => absurd hs hu, fun m _ => ?_⟩
  show (s.view i j).dx m = 0
  rw [h i j, sacado_plain]

theorem at_sees_seeded (c : Cfg) (k : Nat) (s : St K) (h : At c true k s) :
    Sees c ⟨.residual, k, s.host, s.view⟩ (Use.residual = .residual) := by
  intro i j
  show (s.view i j).val = _ ∧ _
  rw [h i j]
  refine ⟨sacado_val _ _ _ _ _, fun m _ ht hN => ?_, fun m hn => ?_⟩
  · show (s.view i j).dx m = _
    rw [h i j, sacado_seed]; simp [ht, hN]
  · show (s.view i j).dx m = 0
    rw [h i j, sacado_seed, if_neg]
    intro hh; exact hn ⟨rfl, hh.1, hh.2.1⟩

theorem at_plain (c : Cfg) (k : Nat) (s : St K) (h : At c false k s) : Plain s.view := by
  intro i j m; rw [h i j]; rfl

/-- Invariant between calls. [helper] -/
def Inv (c : Cfg) (s : St K) : Prop := Plain s.view ∧ ∀ e ∈ s.log, Good c e

/-- Invariant inside a solve at time index `k`. [helper] -/
def InvAt (c : Cfg) (k : Nat) (s : St K) : Prop := Filled c false s ∧ At c false k s ∧ ∀ e ∈ s.log, Good c e

theorem good_append (c : Cfg) (l : List (Event K)) (e : Event K) (h : ∀ e ∈ l, Good c e) (he : Good c e) :
    ∀ x ∈ l ++ [e], Good c x := by
  intro x hx
  rcases List.mem_append.mp hx with hx | hx
  · exact h x hx
  · rw [List.mem_singleton.mp hx]; exact he

theorem upd (c : Cfg) (b : Bool) (t : Nat) (s s' : St K) (hf : Filled c b s) (h : updateDynamic c t s = some s') :
    At c b t s' ∧ Filled c b s' ∧ s'.log = s.log ∧ s'.host = s.host := by
  unfold updateDynamic at h
  simp only at h
  split_ifs at h with hc hd
  all_goals injection h with h; subst h; refine ⟨fun i j => ?_, hf, rfl, rfl⟩
  all_goals simp [hf _ i j, hc]

theorem upd_static (c : Cfg) (b : Bool) (t : Int) (k : Nat) (hc : c.dynamic = false) (s s' : St K) (hf : Filled c b s)
    (h : updateDynamic c t s = some s') :
    At c b k s' ∧ Filled c b s' ∧ s'.log = s.log ∧ s'.host = s.host := by
  unfold updateDynamic at h
  simp only [hc, Bool.false_eq_true, if_false] at h
  split_ifs at h with hd
  injection h with h; subst h; refine ⟨fun i j => ?_, hf, rfl, rfl⟩
  simp [hf _ i j, hc]

theorem filled_sacadoize (c : Cfg) (b : Bool) (s : St K) : Filled c b (sacadoize c b s) := fun _ _ _ => rfl

theorem invAt_eval (c : Cfg) (k : Nat) (u : Use) (hu : u ≠ .residual) (s : St K) (h : InvAt c k s) : InvAt c k (eval u k s) :=
  ⟨h.1, h.2.1, good_append c _ _ h.2.2 ⟨fun _ => at_sees c k s u hu h.2.1, fun _ => at_plain c k s h.2.1⟩⟩

theorem plain_eval (c : Cfg) (k : Nat) (u : Use) (hr : ¬Regular u) (s : St K) (hv : Plain s.view)
    (h : ∀ e ∈ s.log, Good c e) : ∀ e ∈ (eval u k s).log, Good c e :=
  good_append c _ _ h ⟨fun hh => absurd hh hr, fun _ => hv⟩

theorem overSets_inv (P : St K → Prop) (f : Nat → St K → St K) (hf : ∀ n s, P s → P (f n s)) :
    ∀ n s, P s → P (overSets f n s)
  | 0, _, h => h
  | n + 1, s, h => hf n _ (overSets_inv P f hf n s h)

/-- What the part of a run before the first update of the view keeps. [helper] -/
def Pre (c : Cfg) (v : Nat → Nat → AD K) (s : St K) : Prop :=
  Filled c false s ∧ s.view = v ∧ Plain s.view ∧ ∀ e ∈ s.log, Good c e

theorem project_pre (c : Cfg) (v : Nat → Nat → AD K) (u : Use) (hr : ¬Regular u) (k set : Nat) (s : St K) (h : Pre c v s) :
    Pre c v (project c u k set s) := by
  have he : ∀ s : St K, Pre c v s → Pre c v (eval u k s) := fun s h =>
    ⟨h.1, h.2.1, h.2.2.1, plain_eval c k u hr s h.2.2.1 h.2.2.2⟩
  unfold project
  split
  · split_ifs
    · exact he _ h
    · exact h
  · split_ifs
    · exact h
    · exact he _ ⟨h.1, h.2.1, h.2.2.1, h.2.2.2⟩
    · exact ⟨h.1, h.2.1, h.2.2.1, h.2.2.2⟩
  · exact h

theorem setDirichlet_pre (c : Cfg) (v : Nat → Nat → AD K) (k set : Nat) (s : St K) (h : Pre c v s) :
    Pre c v (setDirichlet c .dirichlet k set s) := by
  unfold setDirichlet
  split_ifs
  · exact project_pre c v _ (by simp [Regular]) k set s h
  · exact h

theorem setInitial_pre (c : Cfg) (v : Nat → Nat → AD K) (s : St K) (h : Pre c v s) : Pre c v (setInitial c s) := by
  unfold setInitial
  refine overSets_inv _ _ (fun n s h => ?_) _ _ h
  split_ifs
  · exact ⟨h.1, h.2.1, h.2.2.1, plain_eval c 0 _ (by simp [Regular]) s h.2.2.1 h.2.2.2⟩
  · exact h

theorem prepare_pre (c : Cfg) (s : St K) (h : Inv c s) : Pre c s.view (prepare c s) := by
  unfold prepare
  refine setInitial_pre c _ _ (overSets_inv _ _ (fun n s h => project_pre c _ _ (by simp [Regular]) 0 n s h) _ _ ?_)
  exact ⟨filled_sacadoize c false s, rfl, h.1, h.2⟩

theorem invAt_project (c : Cfg) (u : Use) (hu : u ≠ .residual) (k set : Nat) (s : St K) (h : InvAt c k s) :
    InvAt c k (project c u k set s) := by
  unfold project
  split
  · split_ifs
    · exact invAt_eval c k u hu _ h
    · exact h
  · split_ifs
    · exact h
    · exact invAt_eval c k u hu _ ⟨h.1, h.2.1, h.2.2⟩
    · exact ⟨h.1, h.2.1, h.2.2⟩
  · exact h

theorem invAt_setDirichlet (c : Cfg) (u : Use) (hu : u ≠ .residual) (k set : Nat) (s : St K) (h : InvAt c k s) :
    InvAt c k (setDirichlet c u k set s) := by
  unfold setDirichlet
  split_ifs
  · exact invAt_project c u hu k set s h
  · exact h

theorem invAt_inv (c : Cfg) (k : Nat) (s : St K) (h : InvAt c k s) : Inv c s := ⟨at_plain c k s h.2.1, h.2.2⟩

theorem invAt_pre (c : Cfg) (k : Nat) (s : St K) (h : InvAt c k s) : Pre c s.view s := ⟨h.1, rfl, at_plain c k s h.2.1, h.2.2⟩

theorem updPre (c : Cfg) (v : Nat → Nat → AD K) (k : Nat) (s s' : St K) (h : Pre c v s) (he : updateDynamic c k s = some s') :
    InvAt c k s' := by
  obtain ⟨a, b, l, _⟩ := upd c false k s s' h.1 he
  exact ⟨b, a, by rw [l]; exact h.2.2.2⟩

/-- The view holds some slice without seeds. [helper] -/
def SomePre (c : Cfg) (s : St K) : Prop := ∃ v, Pre c v s

theorem steadySet_inv (c : Cfg) (set : Nat) (s s' : St K) (h : SomePre c s) (he : steadySet c set s = some s') :
    InvAt c 0 s' := by
  obtain ⟨v, h⟩ := h
  unfold steadySet at he
  obtain ⟨t, ht, rfl⟩ := Option.map_eq_some_iff.mp he
  exact invAt_eval c 0 _ (by decide) _ (updPre c v 0 _ _ (setDirichlet_pre c v 0 set s h) ht)

theorem steadySets_inv (c : Cfg) : ∀ n (s s' : St K), SomePre c s → steadySets c n s = some s' →
    (n = 0 ∧ s' = s) ∨ InvAt c 0 s'
  | 0, s, s', _, he => by injection he with he; exact Or.inl ⟨rfl, he.symm⟩
  | n + 1, s, s', h, he => by
    obtain ⟨t, ht, hq⟩ := Option.bind_eq_some_iff.mp he
    rcases steadySets_inv c n s t h ht with ⟨_, e⟩ | h'
    · exact Or.inr (steadySet_inv c n _ _ (by rw [e]; exact h) hq)
    · exact Or.inr (steadySet_inv c n _ _ ⟨_, invAt_pre c 0 t h'⟩ hq)

theorem subcycles_inv (c : Cfg) (hs : c.data ≠ []) : ∀ n (s s' : St K), SomePre c s → subcycles c n s = some s' →
    (n = 0 ∧ s' = s) ∨ InvAt c 0 s'
  | 0, s, s', _, he => by injection he with he; exact Or.inl ⟨rfl, he.symm⟩
  | n + 1, s, s', h, he => by
    obtain ⟨t, ht, he⟩ := Option.bind_eq_some_iff.mp he
    have hp : SomePre c t := by
      rcases subcycles_inv c hs n s t h ht with ⟨_, rfl⟩ | h'
      · exact h
      · exact ⟨_, invAt_pre c 0 t h'⟩
    rcases steadySets_inv c _ t s' hp he with ⟨h0, _⟩ | h'
    · exact absurd (List.length_eq_zero_iff.mp h0) hs
    · exact Or.inr h'

theorem stageLoop_inv (c : Cfg) (k set : Nat) : ∀ n (s : St K), InvAt c k s → InvAt c k (stageLoop c k set n s)
  | 0, _, h => h
  | n + 1, s, h =>
    invAt_eval c k _ (by decide) _ (invAt_setDirichlet c _ (by decide) k set _ (stageLoop_inv c k set n s h))

theorem timeLoop_inv (c : Cfg) : ∀ (l : List Bool) (k : Nat) (s s' : St K), SomePre c s → timeLoop c k l s = some s' → Inv c s'
  | [], k, s, s', ⟨v, h⟩, he => by injection he with he; subst he; exact ⟨h.2.2.1, h.2.2.2⟩
  | ok :: rest, k, s, s', ⟨v, h⟩, he => by
    rw [timeLoop] at he
    obtain ⟨t, ht, he⟩ := Option.bind_eq_some_iff.mp he
    have h1 := updPre c v k s t h ht
    have h2 := overSets_inv (InvAt c k) (fun set s => stageLoop c k set c.stages s)
      (fun n s h => stageLoop_inv c k n c.stages s h) c.data.length t h1
    simp only at he
    split_ifs at he
    · exact timeLoop_inv c rest _ _ _ ⟨_, invAt_pre c k _ (invAt_eval c k _ (by decide) _ h2)⟩ he
    · exact timeLoop_inv c rest _ _ _ ⟨_, invAt_pre c k _ h2⟩ he

theorem forward_inv (c : Cfg) (hs : c.data ≠ []) (kind : Kind) (hk : kind ≠ .steady 0) (s s' : St K) (h : Inv c s)
    (he : forward c kind s = some s') : Inv c s' := by
  have hp := prepare_pre c s h
  cases kind with
  | steady n =>
    obtain ⟨t, ht, rfl⟩ := Option.map_eq_some_iff.mp (show (subcycles c n (prepare c s)).map (eval .value 0) = some s' from he)
    rcases subcycles_inv c hs n _ t ⟨_, hp⟩ ht with ⟨rfl, _⟩ | h'
    · exact absurd rfl hk
    · exact invAt_inv c 0 _ (invAt_eval c 0 _ (by decide) _ h')
  | transient l =>
    refine timeLoop_inv c l 0 _ s' ⟨s.view, ?_⟩ he
    have := overSets_inv (Pre c s.view) (setDirichlet c .dirichlet 0) (fun n s h => setDirichlet_pre c _ 0 n s h)
      c.data.length _ hp
    exact ⟨this.1, this.2.1, this.2.2.1, plain_eval c 0 _ (by simp [Regular]) _ this.2.2.1 this.2.2.2⟩

/-- The view of time index `k` without seeds, whatever the table over all indices. [helper] -/
def ViewAt (c : Cfg) (k : Nat) (s : St K) : Prop := At c false k s ∧ ∀ e ∈ s.log, Good c e

theorem viewAt_eval (c : Cfg) (k : Nat) (u : Use) (hu : u ≠ .residual) (s : St K) (h : ViewAt c k s) : ViewAt c k (eval u k s) :=
  ⟨h.1, good_append c _ _ h.2 ⟨fun _ => at_sees c k s u hu h.1, fun _ => at_plain c k s h.1⟩⟩

theorem gradParamObj_inv (c : Cfg) (k : Nat) (o : Bool) (s : St K) (h : ViewAt c k s) : ViewAt c k (gradParamObj c k o s) := by
  unfold gradParamObj
  have hz : ∀ (b : Bool) (s : St K), ViewAt c k s → ViewAt c k (sacadoize c b s) := fun _ _ h => h
  simp only
  split_ifs
  all_goals first
    | exact hz _ _ h
    | exact hz _ _ (viewAt_eval c k _ (by decide) _ (hz _ _ (viewAt_eval c k _ (by decide) _ (hz _ _ h))))
    | exact hz _ _ (viewAt_eval c k _ (by decide) _ (hz _ _ h))

theorem gradParam_inv (c : Cfg) (k : Nat) (s : St K) (h : ViewAt c k s) : ViewAt c k (gradParam c k s) := by
  unfold gradParam
  generalize c.objs = l
  induction l generalizing s with
  | nil => exact h
  | cons o l ih => exact ih _ (gradParamObj_inv c k o s h)

/-- The index passed leads to time index `k`. [helper] -/
def Leads (c : Cfg) (t : Int) (k : Nat) : Prop := c.dynamic = false ∨ t = (k : Int) + 1

theorem upd_leads (c : Cfg) (b : Bool) (t : Int) (k : Nat) (hl : Leads c t k) (s s' : St K) (hf : Filled c b s)
    (h : updateDynamic c (t - 1) s = some s') :
    At c b k s' ∧ Filled c b s' ∧ s'.log = s.log ∧ s'.host = s.host := by
  rcases hl with hl | rfl
  · exact upd_static c b _ k hl s s' hf h
  · exact upd c b k s s' hf (by rw [show ((k : Int) + 1 - 1) = (k : Int) by omega] at h; exact h)

theorem gradResidual_inv (c : Cfg) (t : Int) (k : Nat) (hl : Leads c t k) (s s' : St K) (h : ViewAt c k s)
    (he : gradResidual c t k s = some s') : ViewAt c k s' := by
  unfold gradResidual at he
  split_ifs at he
  · obtain ⟨r, hr, he⟩ := Option.bind_eq_some_iff.mp he
    obtain ⟨a, b, l, _⟩ := upd_leads c true t k hl _ _ (filled_sacadoize c true s) hr
    obtain ⟨a', b', l', _⟩ := upd_leads c false t k hl _ _ (filled_sacadoize c false (eval .residual k r)) he
    refine ⟨a', ?_⟩
    rw [l']
    refine good_append c _ _ ?_ ⟨fun _ => at_sees_seeded c k r a, fun hn => absurd rfl hn⟩
    rw [l]; exact h.2
  · injection he with he; subst he; exact h

theorem gradDiscrete_inv (c : Cfg) (t : Int) (k : Nat) (hl : Leads c t k) (s s' : St K) (h : ViewAt c k s)
    (he : gradDiscrete c t k s = some s') : ViewAt c k s' := by
  unfold gradDiscrete at he
  split_ifs at he
  · obtain ⟨r, hr, rfl⟩ := Option.map_eq_some_iff.mp he
    obtain ⟨a, b, l, _⟩ := upd_leads c false t k hl _ _ (filled_sacadoize c false s) hr
    exact viewAt_eval c k _ (by decide) _ ⟨a, by rw [l]; exact h.2⟩
  · injection he with he; subst he; exact h

theorem sensitivities_inv (c : Cfg) (t : Int) (k : Nat) (hl : Leads c t k) (s s' : St K) (h : ViewAt c k s)
    (he : sensitivities c t k s = some s') : ViewAt c k s' := by
  unfold sensitivities at he
  obtain ⟨r, hr, he⟩ := Option.bind_eq_some_iff.mp he
  refine gradDiscrete_inv c t k hl r s' (gradResidual_inv c t k hl _ r ?_ hr) he
  split_ifs
  · exact h
  · exact gradParam_inv c k s h

theorem sacadoize_filled_step (c : Cfg) (t : Int) (k : Nat) (s s' : St K)
    (hf : Filled c false s) (he : sensitivities c t k s = some s') : Filled c false s' := by
  have hobj : ∀ (l : List Bool) (s : St K), Filled c false s → Filled c false (l.foldl (fun s o => gradParamObj c k o s) s) := by
    intro l
    induction l with
    | nil => exact fun _ h => h
    | cons o l ih => intro s _; exact ih _ (filled_sacadoize c false _)
  have hu : ∀ (t : Int) (s s' : St K), Filled c false s → updateDynamic c t s = some s' → Filled c false s' := by
    intro t s s' hf h
    unfold updateDynamic at h
    simp only at h
    split_ifs at h
    all_goals injection h with h; subst h; exact hf
  unfold sensitivities at he
  obtain ⟨r, hr, he⟩ := Option.bind_eq_some_iff.mp he
  have h1 : Filled c false r := by
    unfold gradResidual at hr
    split_ifs at hr
    · obtain ⟨q, _, hq⟩ := Option.bind_eq_some_iff.mp hr
      exact hu _ _ _ (filled_sacadoize c false _) hq
    · obtain ⟨q, _, hq⟩ := Option.bind_eq_some_iff.mp hr
      exact hu _ _ _ (filled_sacadoize c false _) hq
    · injection hr with hr; subst hr; exact hf
    · injection hr with hr; subst hr; exact hobj _ _ hf
  unfold gradDiscrete at he
  split_ifs at he
  · obtain ⟨q, hq, rfl⟩ := Option.map_eq_some_iff.mp he
    exact (hu _ _ _ (filled_sacadoize c false _) hq : Filled c false q)
  · injection he with he; subst he; exact h1

theorem adjointSolve_inv (c : Cfg) (k : Nat) (s : St K) (h : InvAt c k s) : InvAt c k (adjointSolve c k s) := by
  unfold adjointSolve
  refine invAt_eval c k _ (by decide) _ ?_
  have := invAt_eval c k .assembly (by decide) s h
  exact ⟨filled_sacadoize c false _, this.2.1, this.2.2⟩

theorem adjointSteps_inv (c : Cfg) : ∀ (n : Nat) (s s' : St K), SomePre c s → adjointSteps c n s = some s' → Inv c s'
  | 0, s, s', ⟨v, h⟩, he => by injection he with he; subst he; exact ⟨h.2.2.1, h.2.2.2⟩
  | n + 1, s, s', ⟨v, h⟩, he => by
    obtain ⟨t, ht, he⟩ := Option.bind_eq_some_iff.mp he
    obtain ⟨r, hr, he⟩ := Option.bind_eq_some_iff.mp he
    have h1 := adjointSolve_inv c n t (updPre c v n s t h ht)
    have h2 := sensitivities_inv c _ n (Or.inr rfl) _ r ⟨h1.2.1, h1.2.2⟩ hr
    have h3 := sacadoize_filled_step c _ n _ r h1.1 hr
    exact adjointSteps_inv c n r s' ⟨_, h3, rfl, at_plain c n r h2.1, h2.2⟩ he

/-- Calls the property speaks about: at least one subcycle in a steady run; a steady adjoint is asked for only without
time-dependent parameters or with its index right. [specification, no code] -/
def Allowed (c : Cfg) : Call K → Prop
  | .forward (.steady 0) => False
  | .adjoint (.steady t) => c.dynamic = false ∨ t = 1
  | _ => True

theorem adjoint_inv (c : Cfg) (kind : AKind) (hk : Allowed c (.adjoint kind : Call K)) (s s' : St K) (h : Inv c s)
    (he : adjoint c kind s = some s') : Inv c s' := by
  unfold adjoint at he
  split_ifs at he with hl
  · injection he with he; subst he; exact h
  · have hp : Pre c s.view (setInitial c (sacadoize c false s)) :=
      setInitial_pre c _ _ ⟨filled_sacadoize c false s, rfl, h.1, h.2⟩
    cases kind with
    | steady t =>
      obtain ⟨r, hr, he⟩ := Option.bind_eq_some_iff.mp (show (updateDynamic c 0 _).bind _ = some s' from he)
      have h1 := adjointSolve_inv c 0 r (updPre c _ 0 _ r hp hr)
      have h2 := sensitivities_inv c t 0 (by simpa [Leads, Allowed] using hk) _ s' ⟨h1.2.1, h1.2.2⟩ he
      exact ⟨at_plain c 0 _ h2.1, h2.2⟩
    | transient n => exact adjointSteps_inv c n _ s' ⟨_, hp⟩ he

theorem run_inv (c : Cfg) (hs : c.data ≠ []) : ∀ (l : List (Call K)) (s s' : St K), (∀ x ∈ l, Allowed c x) → Inv c s →
    run c l s = some s' → Inv c s'
  | [], s, s', _, h, he => by injection he with he; subst he; exact h
  | x :: l, s, s', ha, h, he => by
    obtain ⟨t, ht, he⟩ := Option.bind_eq_some_iff.mp he
    refine run_inv c hs l t s' (fun y hy => ha y (List.mem_cons_of_mem _ hy)) ?_ he
    have hx := ha x (List.mem_cons_self ..)
    cases x with
    | update g => injection ht with ht; subst ht; exact ⟨h.1, h.2⟩
    | forward kind => exact forward_inv c hs kind (fun h0 => by subst h0; exact hx) s t h ht
    | adjoint kind => exact adjoint_inv c kind hx s t h ht

theorem init_inv (c : Cfg) (h : Nat → Nat → Nat → K) : Inv c (init h) :=
  ⟨fun _ _ _ => rfl, fun _ he => absurd he (by simp [init])⟩

/-- Closed under the elementary steps of a solve. [helper] -/
structure Closed (c : Cfg) (P : St K → Prop) : Prop where
  sac : ∀ b s, P s → P (sacadoize c b s)
  upd : ∀ t s s', P s → updateDynamic c t s = some s' → P s'
  ev : ∀ u k s, u ≠ .initial → u ≠ .start → u ≠ .dirichlet → u ≠ .dirichletStage → P s → P (eval u k s)
  prj : ∀ u k set s, u = .dirichlet ∨ u = .dirichletStage → P s → P (project c u k set s)

theorem Closed.dir {c : Cfg} {P : St K → Prop} (h : Closed c P) (u : Use) (k set : Nat) (s : St K)
    (hu : u = .dirichlet ∨ u = .dirichletStage) (hs : P s) : P (setDirichlet c u k set s) := by
  unfold setDirichlet
  split_ifs
  · exact h.prj u k set s hu hs
  · exact hs

theorem Closed.set {c : Cfg} {P : St K → Prop} (h : Closed c P) (set : Nat) (s s' : St K) (hs : P s)
    (he : steadySet c set s = some s') : P s' := by
  unfold steadySet at he
  obtain ⟨t, ht, rfl⟩ := Option.map_eq_some_iff.mp he
  exact h.ev _ _ _ (by decide) (by decide) (by decide) (by decide) (h.upd _ _ _ (h.dir _ _ _ _ (Or.inl rfl) hs) ht)

theorem Closed.sets {c : Cfg} {P : St K → Prop} (h : Closed c P) : ∀ n (s s' : St K), P s → steadySets c n s = some s' → P s'
  | 0, s, s', hs, he => by injection he with he; subst he; exact hs
  | n + 1, s, s', hs, he => by
    obtain ⟨t, ht, he⟩ := Option.bind_eq_some_iff.mp he
    exact h.set n t s' (h.sets n s t hs ht) he

theorem Closed.sub {c : Cfg} {P : St K → Prop} (h : Closed c P) : ∀ n (s s' : St K), P s → subcycles c n s = some s' → P s'
  | 0, s, s', hs, he => by injection he with he; subst he; exact hs
  | n + 1, s, s', hs, he => by
    obtain ⟨t, ht, he⟩ := Option.bind_eq_some_iff.mp he
    exact h.sets _ t s' (h.sub n s t hs ht) he

theorem Closed.stage {c : Cfg} {P : St K → Prop} (h : Closed c P) (k set : Nat) : ∀ n (s : St K), P s → P (stageLoop c k set n s)
  | 0, _, hs => hs
  | n + 1, s, hs => h.ev _ _ _ (by decide) (by decide) (by decide) (by decide)
      (h.dir _ _ _ _ (Or.inr rfl) (h.stage k set n s hs))

theorem Closed.time {c : Cfg} {P : St K → Prop} (h : Closed c P) : ∀ (l : List Bool) (k : Nat) (s s' : St K), P s →
    timeLoop c k l s = some s' → P s'
  | [], k, s, s', hs, he => by injection he with he; subst he; exact hs
  | ok :: rest, k, s, s', hs, he => by
    rw [timeLoop] at he
    obtain ⟨t, ht, he⟩ := Option.bind_eq_some_iff.mp he
    have h2 := overSets_inv P (fun set s => stageLoop c k set c.stages s)
      (fun n s hs => h.stage k n c.stages s hs) c.data.length t (h.upd _ _ _ hs ht)
    simp only at he
    split_ifs at he
    · exact h.time rest _ _ _ (h.ev _ _ _ (by decide) (by decide) (by decide) (by decide) h2) he
    · exact h.time rest _ _ _ h2 he

theorem Closed.sens {c : Cfg} {P : St K → Prop} (h : Closed c P) (t : Int) (k : Nat) (s s' : St K) (hs : P s)
    (he : sensitivities c t k s = some s') : P s' := by
  have ev : ∀ u k s, u ≠ Use.initial ∧ u ≠ .start ∧ u ≠ .dirichlet ∧ u ≠ .dirichletStage → P s → P (eval u k s) :=
    fun u k s hh hs => h.ev u k s hh.1 hh.2.1 hh.2.2.1 hh.2.2.2 hs
  have hobj : ∀ (o : Bool) (s : St K), P s → P (gradParamObj c k o s) := by
    intro o s hs
    unfold gradParamObj
    simp only
    split_ifs
    all_goals first
      | exact h.sac _ _ (ev _ _ _ (by decide) (h.sac _ _ (ev _ _ _ (by decide) (h.sac _ _ hs))))
      | exact h.sac _ _ (ev _ _ _ (by decide) (h.sac _ _ (h.sac _ _ hs)))
      | exact h.sac _ _ (ev _ _ _ (by decide) (h.sac _ _ hs))
      | exact h.sac _ _ (h.sac _ _ hs)
      | exact h.sac _ _ hs
  have hobjs : ∀ (l : List Bool) (s : St K), P s → P (l.foldl (fun s o => gradParamObj c k o s) s) := by
    intro l
    induction l with
    | nil => exact fun _ hs => hs
    | cons o l ih => exact fun s hs => ih _ (hobj o s hs)
  have hg : P (if c.discreteResponse then s else gradParam c k s) := by
    split_ifs
    · exact hs
    · exact hobjs _ _ hs
  unfold sensitivities at he
  obtain ⟨r, hr, he⟩ := Option.bind_eq_some_iff.mp he
  have h1 : P r := by
    revert hr
    generalize (if c.discreteResponse then s else gradParam c k s) = q at hg
    intro hr
    unfold gradResidual at hr
    split_ifs at hr
    · obtain ⟨w, hw, hr⟩ := Option.bind_eq_some_iff.mp hr
      exact h.upd _ _ _ (h.sac _ _ (ev _ _ _ (by decide) (h.upd _ _ _ (h.sac _ _ hg) hw))) hr
    · injection hr with hr; subst hr; exact hg
  unfold gradDiscrete at he
  split_ifs at he
  · obtain ⟨q, hq, rfl⟩ := Option.map_eq_some_iff.mp he
    exact ev _ _ _ (by decide) (h.upd _ _ _ (h.sac _ _ h1) hq)
  · injection he with he; subst he; exact h1

theorem Closed.asolve {c : Cfg} {P : St K → Prop} (h : Closed c P) (k : Nat) (s : St K) (hs : P s) : P (adjointSolve c k s) :=
  h.ev _ _ _ (by decide) (by decide) (by decide) (by decide) (h.sac _ _
    (h.ev _ _ _ (by decide) (by decide) (by decide) (by decide) hs))

theorem Closed.asteps {c : Cfg} {P : St K → Prop} (h : Closed c P) : ∀ (n : Nat) (s s' : St K), P s →
    adjointSteps c n s = some s' → P s'
  | 0, s, s', hs, he => by injection he with he; subst he; exact hs
  | n + 1, s, s', hs, he => by
    obtain ⟨t, ht, he⟩ := Option.bind_eq_some_iff.mp he
    obtain ⟨r, hr, he⟩ := Option.bind_eq_some_iff.mp he
    exact h.asteps n r s' (h.sens _ _ _ _ (h.asolve n t (h.upd _ _ _ hs ht)) hr) he

theorem Closed.initialSets {c : Cfg} {P : St K → Prop} (hi : ∀ s, P s → P (eval .initial 0 s)) (s : St K) (hs : P s) :
    P (setInitial c s) := by
  unfold setInitial
  refine overSets_inv P _ (fun n s h => ?_) _ _ hs
  split_ifs
  · exact hi s h
  · exact h

theorem Closed.fwd {c : Cfg} {P : St K → Prop} (h : Closed c P) (hi : ∀ s, P s → P (eval .initial 0 s))
    (ht : ∀ s, P s → P (eval .start 0 s)) (kind : Kind) (s s' : St K) (hs : P s) (he : forward c kind s = some s') : P s' := by
  have hp : P (prepare c s) :=
    Closed.initialSets hi _ (overSets_inv P _ (fun n s hs => h.prj _ _ n s (Or.inl rfl) hs) _ _ (h.sac _ _ hs))
  cases kind with
  | steady n =>
    obtain ⟨t, ht, rfl⟩ := Option.map_eq_some_iff.mp (show (subcycles c n (prepare c s)).map (eval .value 0) = some s' from he)
    exact h.ev _ _ _ (by decide) (by decide) (by decide) (by decide) (h.sub n _ t hp ht)
  | transient l =>
    exact h.time l 0 _ s' (ht _ (overSets_inv P _ (fun n s hs => h.dir _ _ n s (Or.inl rfl) hs) _ _ hp)) he

theorem Closed.adj {c : Cfg} {P : St K → Prop} (h : Closed c P) (hi : ∀ s, P s → P (eval .initial 0 s)) (kind : AKind)
    (s s' : St K) (hs : P s) (he : adjoint c kind s = some s') : P s' := by
  unfold adjoint at he
  split_ifs at he
  · injection he with he; subst he; exact hs
  · have hp : P (setInitial c (sacadoize c false s)) := Closed.initialSets hi _ (h.sac _ _ hs)
    cases kind with
    | steady t =>
      obtain ⟨r, hr, he⟩ := Option.bind_eq_some_iff.mp (show (updateDynamic c 0 _).bind _ = some s' from he)
      exact h.sens t 0 _ s' (h.asolve 0 r (h.upd _ _ _ hp hr)) he
    | transient n => exact h.asteps n _ s' hp he

theorem Closed.run {c : Cfg} {P : St K → Prop} (h : Closed c P) (hi : ∀ s, P s → P (eval .initial 0 s))
    (ht : ∀ s, P s → P (eval .start 0 s)) (hu : ∀ (s : St K) g, P s → P { s with host := g }) :
    ∀ (l : List (Call K)) (s s' : St K), P s → run c l s = some s' → P s'
  | [], s, s', hs, he => by injection he with he; subst he; exact hs
  | x :: l, s, s', hs, he => by
    obtain ⟨t, hx, he⟩ := Option.bind_eq_some_iff.mp he
    refine Closed.run h hi ht hu l t s' ?_ he
    cases x with
    | update g => injection hx with hx; subst hx; exact hu s g hs
    | forward kind => exact h.fwd hi ht kind s t hs hx
    | adjoint kind => exact h.adj hi kind s t hs hx

/-! ### The property -/

/-- C171 (partial): in every sequence of parameter updates, forward runs and adjoint runs, the residual, the objective, the
derivative of the objective with respect to the state, the derivatives of the residual and the Dirichlet data of the
stages are evaluated with the current parameter values of their time index; the scalar parameters carry derivative slots
in the derivative of the residual and nowhere else, each active component its own.  Missing: the explicit derivative of the
objective (`C171_explicit_violated`), initial conditions, Dirichlet data before the solve and the objective at the initial
time (`C171_first_violated`, `C171_static_violated`, `C171_stale_violated`), steady adjoints with time-dependent
parameters (`C171_steady_dynamic_violated`). -/
theorem C171_partial (c : Cfg) (hs : c.data ≠ []) (h0 : Nat → Nat → Nat → K) (l : List (Call K)) (ha : ∀ x ∈ l, Allowed c x)
    (s : St K) (hr : run c l (init h0) = some s) (e : Event K) (he : e ∈ s.log) :
    (Regular e.use → Sees c e (e.use = .residual)) ∧ (e.use ≠ .residual → Plain e.view) :=
  (run_inv c hs l (init h0) s ha (init_inv c h0) hr).2 e he

/-- C171 is false for the explicit derivative of the objective: in every sequence of calls the evaluations made to
differentiate the objective with respect to the scalar parameters see them without any derivative slot (the seeds are
written to the table over all time indices and never copied to the view), so that for an active component with a slot the
values wanted are not seen. -/
theorem C171_explicit_violated (c : Cfg) (hs : c.data ≠ []) (h0 : Nat → Nat → Nat → K) (l : List (Call K))
    (ha : ∀ x ∈ l, Allowed c x) (s : St K) (hr : run c l (init h0) = some s) (e : Event K) (he : e ∈ s.log)
    (hu : e.use = .explicit) :
    Plain e.view ∧ ((1 : K) ≠ 0 → ∀ i j, c.types i = 1 → c.slot i j < c.N → ¬Sees c e True) := by
  have hp := (C171_partial c hs h0 l ha s hr e he).2 (by rw [hu]; decide)
  refine ⟨hp, fun h1 i j ht hN hw => h1 ?_⟩
  have := (hw i j).2.1 (c.slot i j) trivial ht hN
  rw [hp i j, if_pos rfl] at this
  exact this.symm

/-- The events added since `l0` with one of the purposes `initial`, `start` see `v`. [helper] -/
def Added (l0 : List (Event K)) (v : Nat → Nat → AD K) (s : St K) : Prop :=
  ∃ new, s.log = l0 ++ new ∧ ∀ e ∈ new, e.use = .initial ∨ e.use = .start → e.view = v

theorem added_eval (l0 : List (Event K)) (v : Nat → Nat → AD K) (u : Use) (k : Nat) (s : St K)
    (hu : (u ≠ .initial ∧ u ≠ .start) ∨ s.view = v) (h : Added l0 v s) : Added l0 v (eval u k s) := by
  obtain ⟨new, hl, hn⟩ := h
  refine ⟨new ++ [⟨u, k, s.host, s.view⟩], by show s.log ++ _ = _; rw [hl, List.append_assoc], fun e he hh => ?_⟩
  rcases List.mem_append.mp he with he | he
  · exact hn e he hh
  · rw [List.mem_singleton.mp he] at hh ⊢
    rcases hu with hu | hu
    · exact absurd hh (by rintro (h | h); exacts [hu.1 h, hu.2 h])
    · exact hu

theorem added_project (c : Cfg) (l0 : List (Event K)) (v : Nat → Nat → AD K) (u : Use) (k set : Nat) (s : St K)
    (hu : u = .dirichlet ∨ u = .dirichletStage) (h : Added l0 v s) : Added l0 v (project c u k set s) := by
  have hu' : u ≠ .initial ∧ u ≠ .start := by rcases hu with rfl | rfl <;> decide
  unfold project
  split
  · split_ifs
    · exact added_eval l0 v u k s (Or.inl hu') h
    · exact h
  · split_ifs
    · exact h
    · exact added_eval l0 v u k _ (Or.inl hu') h
    · exact h
  · exact h

theorem updateDynamic_log (c : Cfg) (t : Int) (s s' : St K) (h : updateDynamic c t s = some s') :
    s'.log = s.log ∧ s'.done = s.done ∧ s'.host = s.host := by
  unfold updateDynamic at h
  simp only at h
  split_ifs at h
  all_goals injection h with h; subst h; exact ⟨rfl, rfl, rfl⟩

theorem added_closed (c : Cfg) (l0 : List (Event K)) (v : Nat → Nat → AD K) : Closed c (Added l0 v) where
  sac := fun _ _ h => h
  upd := fun t s s' h he => by
    unfold Added; rw [(updateDynamic_log c t s s' he).1]; exact h
  ev := fun u k s h1 h2 _ _ h => added_eval l0 v u k s (Or.inl ⟨h1, h2⟩) h
  prj := fun u k set s hu h => added_project c l0 v u k set s hu h

theorem view_project (c : Cfg) (u : Use) (k set : Nat) (s : St K) : (project c u k set s).view = s.view := by
  unfold project
  split
  · split_ifs <;> rfl
  · split_ifs <;> rfl
  · rfl

theorem view_setDirichlet (c : Cfg) (u : Use) (k set : Nat) (s : St K) : (setDirichlet c u k set s).view = s.view := by
  unfold setDirichlet
  split_ifs
  · exact view_project c u k set s
  · rfl

/-- The initial conditions and the objective at the initial time of a forward run see the view the previous run left.
[helper] -/
theorem forward_added (c : Cfg) (kind : Kind) (s s' : St K) (he : forward c kind s = some s') : Added s.log s.view s' := by
  have hp : Added s.log s.view (prepare c s) ∧ (prepare c s).view = s.view := by
    unfold prepare setInitial
    refine overSets_inv (fun t => Added s.log s.view t ∧ t.view = s.view) _ (fun n t h => ?_) _ _
      (overSets_inv (fun t => Added s.log s.view t ∧ t.view = s.view) _ (fun n t h => ?_) _ _ ⟨⟨[], by simp [sacadoize], by simp⟩, rfl⟩)
    · split_ifs
      · exact ⟨added_eval _ _ _ _ _ (Or.inr h.2) h.1, h.2⟩
      · exact h
    · exact ⟨added_project c _ _ _ _ _ _ (Or.inl rfl) h.1, (view_project c _ _ _ _).trans h.2⟩
  cases kind with
  | steady n =>
    obtain ⟨t, ht, rfl⟩ := Option.map_eq_some_iff.mp (show (subcycles c n (prepare c s)).map (eval .value 0) = some s' from he)
    exact added_eval _ _ _ _ _ (Or.inl (by decide)) ((added_closed c _ _).sub n _ t hp.1 ht)
  | transient l =>
    have h2 := overSets_inv (fun t => Added s.log s.view t ∧ t.view = s.view) (setDirichlet c .dirichlet 0) (fun n t h =>
      ⟨(added_closed c _ _).dir _ _ _ _ (Or.inl rfl) h.1, (view_setDirichlet c _ _ _ _).trans h.2⟩) c.data.length _ hp
    exact (added_closed c _ _).time l 0 _ s' (added_eval _ _ _ _ _ (Or.inr h2.2) h2.1) he

/-- C171 is false for the first forward run: whatever values the parameters have been given, the initial conditions and the
objective at the initial time are evaluated with all scalar parameters zero (the view is filled for the first time after
them). -/
theorem C171_first_violated (c : Cfg) (h0 : Nat → Nat → Nat → K) (us : List (Nat → Nat → Nat → K)) (kind : Kind) (s : St K)
    (hr : run c (us.map .update ++ [.forward kind]) (init h0) = some s) (e : Event K) (he : e ∈ s.log)
    (hu : e.use = .initial ∨ e.use = .start) : ∀ i j, (e.view i j).val = 0 := by
  have hgen : ∀ (us : List (Nat → Nat → Nat → K)) (t : St K), t.log = [] → (∀ i j, (t.view i j).val = 0) →
      run c (us.map .update ++ [.forward kind]) t = some s → ∀ i j, (e.view i j).val = 0 := by
    intro us
    induction us with
    | nil =>
      intro t hl hv hr
      obtain ⟨r, h1, h2⟩ := Option.bind_eq_some_iff.mp (show (forward c kind t).bind (run c []) = some s from hr)
      injection h2 with h2; subst h2
      obtain ⟨new, hn, ha⟩ := forward_added c kind t r h1
      rw [hn, hl, List.nil_append] at he
      intro i j
      rw [ha e he hu]
      exact hv i j
    | cons u us ih => intro t hl hv hr; exact ih { t with host := u } hl hv hr
  exact hgen us (init h0) rfl (fun _ _ => rfl) hr

theorem host_project (c : Cfg) (u : Use) (k set : Nat) (s : St K) : (project c u k set s).host = s.host := by
  unfold project
  split
  · split_ifs <;> rfl
  · split_ifs <;> rfl
  · rfl

theorem host_closed (c : Cfg) (h : Nat → Nat → Nat → K) : Closed c (fun s => s.host = h) where
  sac := fun _ _ h => h
  upd := fun t s s' h he => (updateDynamic_log c t s s' he).2.2.trans h
  ev := fun _ _ _ _ _ _ _ h => h
  prj := fun u k set s _ h => (host_project c u k set s).trans h

/-- C171 is false for later forward runs: after a steady run with parameters `h1`, new parameters `h2` and another run, the
initial conditions of the second run (and the objective at its initial time) are evaluated with `h1`. -/
theorem C171_stale_violated (c : Cfg) (hs : c.data ≠ []) (s1 s2 s3 : St K) (hi : Inv c s1) (n : Nat)
    (hr : forward c (.steady (n + 1)) s1 = some s2) (h2 : Nat → Nat → Nat → K) (kind : Kind)
    (hr' : run c [.update h2, .forward kind] s2 = some s3) :
    ∃ new, s3.log = s2.log ++ new ∧
      ∀ e ∈ new, e.use = .initial ∨ e.use = .start → ∀ i j, (e.view i j).val = s1.host 0 i j := by
  have hh : s2.host = s1.host := (host_closed c s1.host).fwd (fun _ h => h) (fun _ h => h) _ s1 s2 rfl hr
  obtain ⟨r, h3, h4⟩ := Option.bind_eq_some_iff.mp (show (forward c kind { s2 with host := h2 }).bind (run c []) = some s3 from hr')
  injection h4 with h4; subst h4
  obtain ⟨new, hn, ha⟩ := forward_added c kind _ r h3
  refine ⟨new, hn, fun e he hu i j => ?_⟩
  rw [ha e he hu]
  show (s2.view i j).val = _
  obtain ⟨t, ht, rfl⟩ := Option.map_eq_some_iff.mp
    (show (subcycles c (n + 1) (prepare c s1)).map (eval .value 0) = some s2 from hr)
  rcases subcycles_inv c hs (n + 1) _ t ⟨_, prepare_pre c s1 hi⟩ ht with ⟨h0, _⟩ | h'
  · exact absurd h0 (Nat.succ_ne_zero n)
  · show (t.view i j).val = _
    rw [h'.2.1 i j, sacado_val, ← hh]
    show t.host _ i j = t.host 0 i j
    simp

/-- All static data has been projected, and every projection so far saw parameters equal to zero. [helper] -/
def Static (c : Cfg) (s : St K) : Prop :=
  (∀ set < c.data.length, s.done set = true) ∧
    ∀ e ∈ s.log, e.use = .dirichlet ∨ e.use = .dirichletStage → ∀ i j, (e.view i j).val = 0

theorem static_project (c : Cfg) (hd : ∀ d ∈ c.data, d ≠ .changing) (u : Use) (k set : Nat) (s : St K)
    (h : ∀ set < c.data.length, s.done set = true) : project c u k set s = s := by
  unfold project
  split
  · rename_i hx; exact absurd rfl (hd _ (List.mem_of_getElem? hx))
  · rename_i hx
    obtain ⟨hl, _⟩ := List.getElem?_eq_some_iff.mp hx
    simp [h set hl]
  · rfl

theorem static_eval (c : Cfg) (u : Use) (k : Nat) (s : St K) (h1 : u ≠ .dirichlet) (h2 : u ≠ .dirichletStage) (h : Static c s) :
    Static c (eval u k s) := by
  refine ⟨h.1, fun e he hu => ?_⟩
  rcases List.mem_append.mp (show e ∈ s.log ++ [_] from he) with he | he
  · exact h.2 e he hu
  · rw [List.mem_singleton.mp he] at hu
    rcases hu with hu | hu
    · exact absurd hu h1
    · exact absurd hu h2

theorem static_closed (c : Cfg) (hd : ∀ d ∈ c.data, d ≠ .changing) : Closed c (Static (K := K) c) where
  sac := fun _ _ h => h
  upd := fun t s s' h he => by
    obtain ⟨a, b, _⟩ := updateDynamic_log c t s s' he
    unfold Static; rw [a, b]; exact h
  ev := fun u k s _ _ h1 h2 h => static_eval c u k s h1 h2 h
  prj := fun u k set s _ h => by rw [static_project c hd u k set s h.1]; exact h

/-- After the loop over the first `n` sets of the first forward run. [helper] -/
theorem static_loop (c : Cfg) (hd : ∀ d ∈ c.data, d = .static) (s : St K) (hv : ∀ i j, (s.view i j).val = 0)
    (hl : ∀ e ∈ s.log, e.use = .dirichlet ∨ e.use = .dirichletStage → ∀ i j, (e.view i j).val = 0) :
    ∀ n ≤ c.data.length, (∀ set < n, (overSets (project c .dirichlet 0) n s).done set = true) ∧
      (overSets (project c .dirichlet 0) n s).view = s.view ∧
      ∀ e ∈ (overSets (project c .dirichlet 0) n s).log, e.use = .dirichlet ∨ e.use = .dirichletStage →
        ∀ i j, (e.view i j).val = 0
  | 0, _ => ⟨fun _ h => absurd h (Nat.not_lt_zero _), rfl, hl⟩
  | n + 1, hn => by
    obtain ⟨h1, h2, h3⟩ := static_loop c hd s hv hl n (Nat.le_of_succ_le hn)
    show (∀ set < n + 1, (project c .dirichlet 0 n (overSets (project c .dirichlet 0) n s)).done set = true) ∧
      (project c .dirichlet 0 n (overSets (project c .dirichlet 0) n s)).view = s.view ∧
      ∀ e ∈ (project c .dirichlet 0 n (overSets (project c .dirichlet 0) n s)).log, _
    refine ⟨?_, (view_project c _ _ _ _).trans h2, ?_⟩
    all_goals
      generalize overSets (project c .dirichlet 0) n s = t at h1 h2 h3
      have hx : c.data[n]? = some .static := by
        rw [List.getElem?_eq_getElem (by omega)]
        exact congrArg some (hd _ (List.getElem_mem _))
      unfold project
      rw [hx]
      simp only
    · intro set hset
      by_cases hdn : t.done n = true
      · rw [if_pos hdn]
        rcases Nat.lt_succ_iff_lt_or_eq.mp hset with h | rfl
        · exact h1 set h
        · exact hdn
      · rw [if_neg hdn]
        have : Function.update t.done n true set = true := by
          rcases Nat.lt_succ_iff_lt_or_eq.mp hset with h | rfl
          · rw [Function.update_of_ne (by omega)]; exact h1 set h
          · exact Function.update_self ..
        split_ifs <;> exact this
    · split_ifs
      · exact h3
      · intro e he hu
        rcases List.mem_append.mp (show e ∈ t.log ++ [_] from he) with he | he
        · exact h3 e he hu
        · rw [List.mem_singleton.mp he]
          intro i j
          show (t.view i j).val = 0
          rw [h2]; exact hv i j
      · exact h3

/-- C171 is false for Dirichlet data with the default options: when the data is static in all physics sets (the default),
then after whatever parameter updates, a first forward run and any further calls, every evaluation of the Dirichlet data ever
made saw all scalar parameters zero. -/
theorem C171_static_violated (c : Cfg) (hd : ∀ d ∈ c.data, d = .static) (h0 : Nat → Nat → Nat → K)
    (us : List (Nat → Nat → Nat → K)) (kind : Kind) (rest : List (Call K)) (s : St K)
    (hr : run c (us.map .update ++ .forward kind :: rest) (init h0) = some s) (e : Event K) (he : e ∈ s.log)
    (hu : e.use = .dirichlet ∨ e.use = .dirichletStage) : ∀ i j, (e.view i j).val = 0 := by
  have hd' : ∀ d ∈ c.data, d ≠ .changing := fun d h => by rw [hd d h]; decide
  have hc := static_closed (K := K) c hd'
  have hgen : ∀ (us : List (Nat → Nat → Nat → K)) (t : St K), t.log = [] → (∀ i j, (t.view i j).val = 0) →
      run c (us.map .update ++ .forward kind :: rest) t = some s → Static c s := by
    intro us
    induction us with
    | nil =>
      intro t hl hv hr
      obtain ⟨r, h1, h2⟩ := Option.bind_eq_some_iff.mp (show (forward c kind t).bind (run c rest) = some s from hr)
      refine hc.run (fun s h => static_eval c _ _ s (by decide) (by decide) h)
        (fun s h => static_eval c _ _ s (by decide) (by decide) h) (fun s g h => h) rest r s ?_ h2
      obtain ⟨a, b, d⟩ := static_loop c hd (sacadoize c false t) hv (by
        intro e he; rw [show (sacadoize c false t).log = [] from hl] at he; exact absurd he (List.not_mem_nil))
        c.data.length (Nat.le_refl _)
      have hp : Static c (prepare c t) :=
        Closed.initialSets (fun s h => static_eval c _ _ s (by decide) (by decide) h) _ ⟨a, d⟩
      cases kind with
      | steady n =>
        obtain ⟨w, hw, rfl⟩ := Option.map_eq_some_iff.mp
          (show (subcycles c n (prepare c t)).map (eval .value 0) = some r from h1)
        exact static_eval c _ _ _ (by decide) (by decide) (hc.sub n _ w hp hw)
      | transient l =>
        exact hc.time l 0 _ r (static_eval c _ _ _ (by decide) (by decide)
          (overSets_inv _ _ (fun n s hs => hc.dir _ _ n s (Or.inl rfl) hs) _ _ hp)) h1
    | cons u us ih => intro t hl hv hr; exact ih { t with host := u } hl hv hr
  exact (hgen us (init h0) rfl (fun _ _ => rfl) hr).2 e he hu

/-- C171 is false for the steady adjoint with a time-dependent active parameter: at current time zero the index handed to
the parameter manager is minus one, outside the table. -/
theorem C171_steady_dynamic_violated (c : Cfg) (hd : c.dynamic = true) (ha : c.active = true) (s : St K) :
    adjointSteady c 0 s = none := by
  unfold adjointSteady sensitivities gradResidual
  cases h : updateDynamic c 0 s with
  | none => rfl
  | some t =>
    have : ∀ q : St K, updateDynamic c (-1) q = none := by
      intro q; unfold updateDynamic; simp [hd]
    simp [ha, this]

/-- C171 is false when the time loop makes more steps than the table has indices (a step cut in two is enough): with a
time-dependent parameter and the last index used up, one further attempt reads outside the table. -/
theorem C171_steps_violated (c : Cfg) (hd : c.dynamic = true) (ok : Bool) (rest : List Bool) (s : St K) :
    timeLoop c c.times (ok :: rest) s = none := by
  unfold timeLoop updateDynamic
  simp [hd]

theorem upd_some (c : Cfg) (hd : c.dynamic = false) (ht : 0 < c.times) (t : Int) (s : St K) : ∃ s', updateDynamic c t s = some s' := by
  unfold updateDynamic
  simp only [hd, Bool.false_eq_true, if_false]
  rw [if_pos ⟨Int.le_refl 0, by omega⟩]
  exact ⟨_, rfl⟩

theorem upd_some_dyn (c : Cfg) (k : Nat) (hk : k < c.times) (s : St K) : ∃ s', updateDynamic c k s = some s' := by
  unfold updateDynamic
  simp only
  rw [if_pos (by split_ifs <;> omega)]
  exact ⟨_, rfl⟩

/-- C171: a time loop that attempts no more steps than the table has indices, and any number of steps without
time-dependent parameters, never reads outside the table. -/
theorem C171_steps (c : Cfg) : ∀ (l : List Bool) (k : Nat) (s : St K),
    (c.dynamic = false ∧ 0 < c.times) ∨ k + l.length ≤ c.times → ∃ s', timeLoop c k l s = some s'
  | [], _, s, _ => ⟨s, rfl⟩
  | ok :: rest, k, s, h => by
    obtain ⟨t, ht⟩ : ∃ t, updateDynamic c k s = some t := by
      rcases h with h | h
      · exact upd_some c h.1 h.2 k s
      · exact upd_some_dyn c k (by simp at h; omega) s
    rw [timeLoop, ht]
    simp only [Option.bind_some]
    split_ifs
    · exact C171_steps c rest (k + 1) _ (h.imp id (fun h => by simp at h; omega))
    · exact C171_steps c rest k _ (h.imp id (fun h => by simp at h; omega))

/-- C171 is false with two or more physics sets: an adjoint run evaluates nothing, and leaves tables and view as they were. -/
theorem C171_sets_violated (c : Cfg) (h : 2 ≤ c.data.length) (kind : AKind) (s : St K) : adjoint c kind s = some s := by
  unfold adjoint
  rw [if_pos (by omega)]

/-- [case] Two sets. -/
example (s : St ℚ) : adjoint ⟨fun _ => 1, fun _ _ => 0, 1, 1, false, true, false, false, [.static, .static], [], 1, [true], false, false⟩
    (.transient 3) s = some s := C171_sets_violated _ (by decide) _ _

/-- C171: the adjoint steps over as many stored steps as the table has indices, or any number without time-dependent
parameters, never read outside the table. -/
theorem C171_adjoint_steps (c : Cfg) : ∀ (n : Nat) (s : St K), (c.dynamic = false ∧ 0 < c.times) ∨ n ≤ c.times →
    ∃ s', adjointSteps c n s = some s'
  | 0, s, _ => ⟨s, rfl⟩
  | n + 1, s, h => by
    have hu : ∀ s : St K, ∃ t, updateDynamic c n s = some t := fun s => by
      rcases h with h | h
      · exact upd_some c h.1 h.2 n s
      · exact upd_some_dyn c n h s
    have hu' : ∀ s : St K, ∃ t, updateDynamic c ((n : Int) + 1 - 1) s = some t := fun s => by
      rw [show ((n : Int) + 1 - 1) = (n : Int) by omega]; exact hu s
    obtain ⟨t, ht⟩ := hu s
    rw [adjointSteps, ht]
    simp only [Option.bind_some]
    have hg : ∀ q : St K, ∃ r, (gradResidual c ((n : Int) + 1) n q).bind (gradDiscrete c ((n : Int) + 1) n) = some r := by
      intro q
      have h1 : ∃ r, gradResidual c ((n : Int) + 1) n q = some r := by
        unfold gradResidual
        split_ifs
        · obtain ⟨a, ha⟩ := hu' (sacadoize c true q)
          rw [ha]
          exact hu' _
        · exact ⟨_, rfl⟩
      obtain ⟨r, hr⟩ := h1
      rw [hr]
      simp only [Option.bind_some]
      unfold gradDiscrete
      split_ifs
      · obtain ⟨a, ha⟩ := hu' (sacadoize c false r)
        rw [ha]; exact ⟨_, rfl⟩
      · exact ⟨_, rfl⟩
    obtain ⟨r, hr⟩ : ∃ r, sensitivities c ((n : Int) + 1) n (adjointSolve c n t) = some r := hg _
    rw [hr]
    exact C171_adjoint_steps c n r (h.imp id (fun h => by omega))

/-! ### Cases -/

/-- One active scalar parameter with one component and slot zero, one physics set with static Dirichlet data and an initial
condition, an objective that evaluates functions. [case] -/
def exCfg : Cfg where
  types := fun _ => 1
  slot := fun i j => i + j
  N := 2
  times := 1
  dynamic := false
  active := true
  fields := false
  strong := true
  data := [.static]
  initial := [true]
  stages := 1
  objs := [true]
  discreteResponse := false
  reuse := false

/-- The value of component zero and its derivative slot zero, over the evaluations. [case] -/
def shown (o : Option (St Int)) : Option (List (Use × Nat × Int × Int)) :=
  o.map (fun s => s.log.map (fun e => (e.use, e.step, (e.view 0 0).val, (e.view 0 0).dx 0)))

/-- Optimisation of one parameter, value and gradient at 5 then value at 7. [case] -/
def exCalls : List (Call Int) :=
  [.update (fun _ _ _ => 5), .forward (.transient [true]), .adjoint (.transient 1), .update (fun _ _ _ => 7),
   .forward (.transient [false, true])]

example : shown (run exCfg exCalls (init (fun _ _ _ => 3))) = some
    [(.dirichlet, 0, 0, 0), (.initial, 0, 0, 0), (.start, 0, 0, 0), (.assembly, 0, 5, 0), (.value, 0, 5, 0),
     (.initial, 0, 5, 0), (.assembly, 0, 5, 0), (.stateGrad, 0, 5, 0), (.explicit, 0, 5, 0), (.residual, 0, 5, 1),
     (.initial, 0, 5, 0), (.start, 0, 5, 0), (.assembly, 0, 7, 0), (.assembly, 0, 7, 0), (.value, 0, 7, 0)] := by
  decide +kernel

example : exCfg.data ≠ [] ∧ (∀ d ∈ exCfg.data, d = .static) ∧ (∀ x ∈ exCalls, Allowed exCfg x) := by
  refine ⟨by decide, by decide, ?_⟩
  intro x hx
  simp only [exCalls, List.mem_cons, List.not_mem_nil, or_false] at hx
  rcases hx with rfl | rfl | rfl | rfl | rfl <;> trivial

/-- The same with a time-dependent parameter over two steps, changing Dirichlet data and a discretized parameter. [case] -/
def exDyn : Cfg := { exCfg with times := 2, dynamic := true, data := [.changing], fields := true }

example : shown (run exDyn [.update (fun k _ _ => 5 + k), .forward (.transient [true, true]), .adjoint (.transient 2)]
    (init (fun _ _ _ => 3))) = some
    [(.dirichlet, 0, 0, 0), (.initial, 0, 0, 0), (.dirichlet, 0, 0, 0), (.start, 0, 0, 0),
     (.dirichletStage, 0, 5, 0), (.assembly, 0, 5, 0), (.value, 0, 5, 0),
     (.dirichletStage, 1, 6, 0), (.assembly, 1, 6, 0), (.value, 1, 6, 0),
     (.initial, 0, 6, 0),
     (.assembly, 1, 6, 0), (.stateGrad, 1, 6, 0), (.explicit, 1, 6, 0), (.explicitField, 1, 6, 0), (.residual, 1, 6, 1), (.discrete, 1, 6, 0),
     (.assembly, 0, 5, 0), (.stateGrad, 0, 5, 0), (.explicit, 0, 5, 0), (.explicitField, 0, 5, 0), (.residual, 0, 5, 1), (.discrete, 0, 5, 0)] := by
  decide +kernel

example : ((run exDyn [.forward (.transient [true, true, true])] (init (fun _ _ _ => (3 : Int)))).isNone = true) ∧
    (run exDyn [.adjoint (.steady 0)] (init (fun _ _ _ => (3 : Int)))).isNone = true := by decide +kernel

/-- A steady problem with changing Dirichlet data: at the second iterate the problem is solved with the boundary values of
the first. [case] -/
def exSteady : Cfg := { exCfg with data := [.changing] }

example : shown (run exSteady [.update (fun _ _ _ => 5), .forward (.steady 1), .adjoint (.steady 0), .update (fun _ _ _ => 7),
    .forward (.steady 1)] (init (fun _ _ _ => 3))) = some
    [(.dirichlet, 0, 0, 0), (.initial, 0, 0, 0), (.dirichlet, 0, 0, 0), (.assembly, 0, 5, 0), (.value, 0, 5, 0),
     (.initial, 0, 5, 0), (.assembly, 0, 5, 0), (.stateGrad, 0, 5, 0), (.explicit, 0, 5, 0), (.residual, 0, 5, 1),
     (.dirichlet, 0, 5, 0), (.initial, 0, 5, 0), (.dirichlet, 0, 5, 0), (.assembly, 0, 7, 0), (.value, 0, 7, 0)] := by
  decide +kernel

end MrHyDE.Param.Protocol
