import Verif.Time.StepProps
import Mathlib.Tactic.Linarith

/-!
# C49, C50, C51: choice of the integrator, prescribed boundary values, repeated solves

Model of the time integration settings (`src/managers/solver/solverManager_construct.hpp`), of the
start-up phase of a multistep method, and of the values of degrees of freedom with strongly prescribed
data over a step (`src/managers/solver/solverManager_solvers.hpp`).
-/

namespace MrHyDE.Time

/-! ### Settings -/

/-- Time integration entries of a solver parameter list; `none`: not given by the user. [solverManager_construct.hpp:135-196] -/
structure SolverList where
  tableau : Option String
  order : Option Int
  startTableau : Option String
  startOrder : Option Int
  startSteps : Option Int

/-- What the solver manager stores for a physics set. [solverManager_construct.hpp:135-196] -/
structure Resolved where
  tableau : String
  order : Int
  startTableau : String
  startOrder : Int
  startSteps : Int
deriving DecidableEq

/-- The checks of solverManager_construct.hpp:166-188. -/
def allowed (order : Int) (tableau : String) : Bool :=
  if order > 1 then tableau == "custom" || tableau == "BWE" || tableau == "DIRK-1,1" else true

/-- Settings of a physics set, solverManager_construct.hpp:135-196: `g` is the list "Solver", `s` the
list of the set.  `none`: the exception "need to use BWE or DIRK-1,1 with higher order BDF". -/
def resolve (g s : SolverList) : Option Resolved :=
  let tab := g.tableau.getD "BWE"
  let order := g.order.getD 1
  let stab := g.startTableau.getD tab
  let sorder := g.startOrder.getD order
  let ssteps := g.startSteps.getD order
  let tab := s.tableau.getD tab
  let order := s.order.getD 1
  let stab := s.startTableau.getD stab
  let sorder := s.startOrder.getD sorder
  let ssteps := s.startSteps.getD ssteps
  if allowed order tab && allowed sorder stab then
    some { tableau := tab, order := order, startTableau := stab, startOrder := sorder, startSteps := ssteps }
  else none

/-- The list used for a physics set, src/interfaces/physics/physicsInterface_construct.hpp:37-47: the
unnamed set uses the list "Solver" itself, a named set its own sublist. -/
def setList (g : SolverList) (sub : String → SolverList) (name : String) : SolverList :=
  if name = "default" then g else sub name

/-- **C49** (partial: the unnamed set, or a set that gives the order itself).  The order and the tableau
in use are those of the set if it gives them, otherwise those of the global list. -/
theorem C49_partial (g : SolverList) (sub : String → SolverList) (name : String) (r : Resolved)
    (h : resolve g (setList g sub name) = some r)
    (hn : name = "default" ∨ (sub name).order ≠ none ∨ g.order = none) :
    r.order = ((setList g sub name).order.orElse (fun _ => g.order)).getD 1 ∧
    r.tableau = ((setList g sub name).tableau.orElse (fun _ => g.tableau)).getD "BWE" := by
  unfold resolve at h
  dsimp only at h
  split_ifs at h
  injection h with h
  subst h
  refine ⟨?_, ?_⟩
  · simp only [setList] at *
    by_cases hd : name = "default"
    · simp only [hd, if_true]
      cases g.order <;> rfl
    · simp only [hd, if_false, false_or] at hn ⊢
      cases ho : (sub name).order with
      | some o => rfl
      | none =>
        rcases hn with hn | hn
        · exact absurd ho hn
        · simp [hn]
  · cases (setList g sub name).tableau <;> rfl

/-- An empty list. [solverManager_construct.hpp:135-196] -/
def noEntries : SolverList := ⟨none, none, none, none, none⟩

/-- A case of `C49_partial`. -/
example : resolve ⟨none, some 3, none, none, none⟩ (setList ⟨none, some 3, none, none, none⟩ (fun _ => noEntries)
    "default") = some ⟨"BWE", 3, "BWE", 3, 3⟩ := by decide

/-- **C49, violated.**  For a named physics set the multistep order given in the list "Solver" is
ignored: the set runs with order one. -/
theorem C49_violated : resolve ⟨none, some 3, none, none, none⟩
    (setList ⟨none, some 3, none, none, none⟩ (fun _ => noEntries) "fluid")
    = some ⟨"BWE", 1, "BWE", 3, 3⟩ := by decide

/-- **C49, checks.**  Whatever is stored, a multistep order above one comes with implicit Euler or a
custom tableau, in the start-up phase as well. -/
theorem C49_allowed (g s : SolverList) (r : Resolved) (h : resolve g s = some r) :
    (1 < r.order → r.tableau ∈ ["custom", "BWE", "DIRK-1,1"]) ∧
    (1 < r.startOrder → r.startTableau ∈ ["custom", "BWE", "DIRK-1,1"]) := by
  unfold resolve at h
  dsimp only at h
  split_ifs at h with hc
  injection h with h
  subst h
  simp only [Bool.and_eq_true] at hc
  obtain ⟨h1, h2⟩ := hc
  refine ⟨fun ho => ?_, fun ho => ?_⟩
  · have ho' : s.order.getD 1 > 1 := ho
    unfold allowed at h1
    rw [if_pos ho'] at h1
    simp at h1 ⊢
    tauto
  · have ho' : s.startOrder.getD (g.startOrder.getD (g.order.getD 1)) > 1 := ho
    unfold allowed at h2
    rw [if_pos ho'] at h2
    simp at h2 ⊢
    tauto

/-! ### Start-up phase -/

/-- A multistep order together with a tableau. [solverManager_construct.hpp:166-224] -/
structure Integrator where
  order : Int
  tableau : String
deriving DecidableEq

/-- The main and the start-up integrator of a physics set. [solverManager_construct.hpp:166-224] -/
def Resolved.main (r : Resolved) : Integrator := ⟨r.order, r.tableau⟩

/-- Start-up integrator. [solverManager_construct.hpp:166-224] -/
def Resolved.start (r : Resolved) : Integrator := ⟨r.startOrder, r.startTableau⟩

/-- Integrator in place after construction, solverManager_construct.hpp:217-224. -/
def initialInteg (r : Resolved) : Integrator := if r.order > 1 then r.start else r.main

/-- Integrator in place in step `k`, solverManager_solvers.hpp:93-97. -/
def selectInteg (r : Resolved) (cur : Integrator) (k : Nat) : Integrator :=
  if r.order > 1 ∧ (k : Int) = r.startSteps then r.main else cur

/-- The integrators used by a transient solve of `n` steps (all accepted) that starts with `cur` in
place, and the one left in place afterwards. [solverManager_solvers.hpp:73-181] -/
def solveIntegs (r : Resolved) (cur : Integrator) : Nat → List Integrator × Integrator
  | 0 => ([], cur)
  | n + 1 =>
    let (l, c) := solveIntegs r cur n
    let c' := selectInteg r c n
    (l ++ [c'], c')

theorem solveIntegs_spec (r : Resolved) (hs : 0 ≤ r.startSteps) (cur : Integrator) (n : Nat) :
    (solveIntegs r cur n).1 = (List.range n).map (fun k : Nat =>
      if r.order > 1 ∧ r.startSteps ≤ (k : Int) then r.main else cur) ∧
    (solveIntegs r cur n).2 = (if r.order > 1 ∧ r.startSteps < (n : Int) then r.main else cur) := by
  induction n with
  | zero =>
    refine ⟨rfl, ?_⟩
    have : ¬ (r.order > 1 ∧ r.startSteps < ((0 : Nat) : Int)) := by omega
    rw [if_neg this]
    rfl
  | succ n ih =>
    obtain ⟨h1, h2⟩ := ih
    have hsel : selectInteg r (solveIntegs r cur n).2 n =
        (if r.order > 1 ∧ r.startSteps ≤ (n : Int) then r.main else cur) := by
      rw [h2]
      unfold selectInteg
      by_cases ho : r.order > 1
      · by_cases e : (n : Int) = r.startSteps
        · rw [if_pos ⟨ho, e⟩, if_pos ⟨ho, by omega⟩]
        · rw [if_neg (fun h => e h.2)]
          by_cases l : r.startSteps < (n : Int)
          · rw [if_pos ⟨ho, l⟩, if_pos ⟨ho, by omega⟩]
          · rw [if_neg (fun h => l h.2), if_neg (fun h => by omega)]
      · rw [if_neg (fun h => ho h.1), if_neg (fun h => ho h.1), if_neg (fun h => ho h.1)]
    refine ⟨?_, ?_⟩
    · show (solveIntegs r cur n).1 ++ [selectInteg r (solveIntegs r cur n).2 n] = _
      rw [hsel, h1, List.range_succ, List.map_append]
      rfl
    · show selectInteg r (solveIntegs r cur n).2 n = _
      rw [hsel]
      have : (r.order > 1 ∧ r.startSteps ≤ (n : Int)) ↔ (r.order > 1 ∧ r.startSteps < ((n+1 : Nat) : Int)) := by
        push_cast
        omega
      by_cases c : r.order > 1 ∧ r.startSteps ≤ (n : Int)
      · rw [if_pos c, if_pos (this.mp c)]
      · rw [if_neg c, if_neg (fun h => c (this.mpr h))]

/-- What is asked for: in every solve the start-up integrator in the first steps of a multistep method,
then the main one. [specification, no code] -/
def wanted (r : Resolved) (n : Nat) : List Integrator :=
  (List.range n).map (fun k : Nat => if r.order > 1 ∧ (k : Int) < r.startSteps then r.start else r.main)

/-- **C51, first solve.**  The first transient solve uses the start-up integrator exactly in the steps
before `startSteps` (if the order is above one), then the main one; for any number of steps. -/
theorem C51_first_partial (r : Resolved) (hs : 0 ≤ r.startSteps) (n : Nat) :
    (solveIntegs r (initialInteg r) n).1 = wanted r n := by
  rw [(solveIntegs_spec r hs _ n).1]
  unfold wanted
  apply List.map_congr_left
  intro k _
  unfold initialInteg
  by_cases ho : r.order > 1
  · by_cases l : r.startSteps ≤ (k : Int)
    · rw [if_pos ⟨ho, l⟩, if_neg (fun h => by omega)]
    · rw [if_neg (fun h => l h.2), if_pos ho, if_pos ⟨ho, by omega⟩]
  · rw [if_neg (fun h => ho h.1), if_neg ho, if_neg (fun h => ho h.1)]

/-- **C51** (partial).  A second solve uses the same integrators as the first one if there is no
start-up phase (order one), or start-up and main integrator agree, or the first solve did not leave the
start-up phase. -/
theorem C51_repeat_partial (r : Resolved) (hs : 0 ≤ r.startSteps) (n : Nat)
    (h : r.order ≤ 1 ∨ r.start = r.main ∨ (n : Int) ≤ r.startSteps) :
    (solveIntegs r (solveIntegs r (initialInteg r) n).2 n).1 = wanted r n := by
  have e : (solveIntegs r (initialInteg r) n).2 = initialInteg r := by
    rw [(solveIntegs_spec r hs _ n).2]
    unfold initialInteg
    by_cases ho : r.order > 1
    · rw [if_pos ho]
      rcases h with h | h | h
      · omega
      · rw [h]; simp
      · rw [if_neg (fun hh => by omega)]
    · rw [if_neg (fun hh => ho hh.1)]
  rw [e]
  exact C51_first_partial r hs n

/-- **C51, violated.**  With a start-up phase, the second solve (the next evaluation of an objective
function, say) starts with the main multistep method at once. -/
theorem C51_violated : ∃ r : Resolved, resolve ⟨none, some 2, none, some 1, none⟩ ⟨none, some 2, none, some 1, none⟩ = some r ∧
    (solveIntegs r (initialInteg r) 4).1 = [⟨1, "BWE"⟩, ⟨1, "BWE"⟩, ⟨2, "BWE"⟩, ⟨2, "BWE"⟩] ∧
    (solveIntegs r (solveIntegs r (initialInteg r) 4).2 4).1
      = [⟨2, "BWE"⟩, ⟨2, "BWE"⟩, ⟨2, "BWE"⟩, ⟨2, "BWE"⟩] := by
  refine ⟨⟨"BWE", 2, "BWE", 1, 2⟩, by decide, by decide, by decide⟩

/-! ### Prescribed values -/

/-- Value of a degree of freedom with prescribed data `g` after a step from the value `u`:
`setDirichlet` (solverManager_util.hpp:60-141) sets the stage solution to the data at the stage time and
the solver leaves it alone (its equation is `du = 0`); the stages are then combined as for every other
degree of freedom. -/
def fixedStep {K : Type} [Field K] (T : Tableau K) (maxStages : Nat) (g : K → K) (t dt u : K) : K :=
  timeStep (fun s _ => g (stageTime T t dt s)) u maxStages T.stages

theorem fixedStep_eq {K : Type} [Field K] (T : Tableau K) (hs : 1 ≤ T.stages) (maxStages : Nat)
    (hm : T.stages ≤ maxStages) (g : K → K) (t dt u : K) :
    fixedStep T maxStages g t dt u = u + ∑ i ∈ Finset.range T.stages, (g (t + T.t i * dt) - u) := by
  unfold fixedStep timeStep
  by_cases h1 : maxStages = 1
  · rw [if_pos h1]
    have : T.stages = 1 := by omega
    rw [this]
    simp [stageTime]
  · rw [if_neg h1, (stageLoop_inv (fun s _ => g (stageTime T t dt s)) u T.stages).2]
    rfl

/-- **C50** (partial: data constant in time).  With data that do not change the prescribed value is
kept, whatever the tableau. -/
theorem C50_constant_partial {K : Type} [Field K] (T : Tableau K) (hs : 1 ≤ T.stages) (maxStages : Nat)
    (hm : T.stages ≤ maxStages) (g t dt : K) : fixedStep T maxStages (fun _ => g) t dt g = g := by
  rw [fixedStep_eq T hs maxStages hm]
  simp

/-- **C50** (partial: one stage at the end of the step, such as implicit Euler).  The value after the
step is the data at the new time, for all data. -/
theorem C50_one_stage_partial {K : Type} [Field K] (T : Tableau K) (h1 : T.stages = 1) (hc : T.t 0 = 1)
    (maxStages : Nat) (hm : 1 ≤ maxStages) (g : K → K) (t dt u : K) :
    fixedStep T maxStages g t dt u = g (t + dt) := by
  rw [fixedStep_eq T (by omega) maxStages (by omega), h1]
  simp [hc]

/-- **C50, data linear in time.**  Starting from the data at the old time, the value after the step is
the data at the new time exactly if the abscissae of the tableau add up to one. -/
theorem C50_linear {K : Type} [Field K] (T : Tableau K) (hs : 1 ≤ T.stages) (maxStages : Nat)
    (hm : T.stages ≤ maxStages) (a b : K) (hb : b ≠ 0) (t dt : K) (hdt : dt ≠ 0) :
    fixedStep T maxStages (fun τ => a + b * τ) t dt (a + b * t) = a + b * (t + dt) ↔
      ∑ i ∈ Finset.range T.stages, T.t i = 1 := by
  rw [fixedStep_eq T hs maxStages hm]
  have e : ∑ i ∈ Finset.range T.stages, (a + b * (t + T.t i * dt) - (a + b * t))
      = b * dt * ∑ i ∈ Finset.range T.stages, T.t i := by
    rw [Finset.mul_sum]
    apply Finset.sum_congr rfl
    intro i _
    ring
  rw [e]
  constructor
  · intro h
    have h2 : b * dt * (∑ i ∈ Finset.range T.stages, T.t i - 1) = 0 := by linear_combination h
    rcases mul_eq_zero.mp h2 with h3 | h3
    · rcases mul_eq_zero.mp h3 with h4 | h4
      · exact absurd h4 hb
      · exact absurd h4 hdt
    · exact sub_eq_zero.mp h3
  · intro h
    rw [h]
    ring

/-- **C50, violated.**  For each of these built-in tableaux boundary data that are linear in time are
wrong after the first step. -/
theorem C50_violated (name : String)
    (hn : name ∈ ["FWE", "DIRK-1,2", "SSPRK-3,3", "RK-4,4", "DIRK-3,3", "leap-frog"]) :
    ∃ T : Tableau ℚ, builtin 0 name = some T ∧
      fixedStep T T.stages (fun τ => τ) 0 1 0 ≠ 1 := by
  simp only [List.mem_cons, List.not_mem_nil, or_false] at hn
  rcases hn with rfl | rfl | rfl | rfl | rfl | rfl <;>
  · refine ⟨_, rfl, ?_⟩
    rw [fixedStep_eq _ (by simp [Tableau.stages, dirk33]) _ (Nat.le_refl _)]
    simp [Tableau.stages, Tableau.t, dirk33, Finset.sum_range_succ]
    try norm_num

/-- For these built-in tableaux `C50_linear` gives the right value. -/
theorem C50_sums {K : Type} [Field K] [CharZero K] (s3 : K) (name : String)
    (hn : name ∈ ["BWE", "DIRK-1,1", "CN", "DIRK-2,2", "DIRK-2,3"]) :
    ∃ T : Tableau K, builtin s3 name = some T ∧ ∑ i ∈ Finset.range T.stages, T.t i = 1 := by
  simp only [List.mem_cons, List.not_mem_nil, or_false] at hn
  rcases hn with rfl | rfl | rfl | rfl | rfl <;>
  · refine ⟨_, rfl, ?_⟩
    simp [Tableau.stages, Tableau.t, Finset.sum_range_succ]
    try ring

end MrHyDE.Time
