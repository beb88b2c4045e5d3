import Mathlib.Algebra.Field.Defs
import Mathlib.Algebra.Field.Rat
import Mathlib.Algebra.Order.Field.Rat
import Mathlib.Algebra.BigOperators.Group.List.Basic
import Mathlib.Tactic.Ring
import Mathlib.Tactic.Linarith
import Mathlib.Tactic.Abel
import Mathlib.Tactic.NormNum

/-!
# C160: fine states follow the accepted coarse steps

What a subgrid model keeps for a coarse group in a transient run: the fine state at the end of the last step, the state of the
current step, the stage, the values in the fine groups from which the derivative in time is computed, and two times
(subgridDtN_solver.cpp:136-556, subgridDtN.cpp:893-914, 2026-2051, subgridDtN2.cpp:370-390, 1732-1789), under the loop over the
coarse steps (solverManager_solvers.hpp:78-182).

The fine solves are arbitrary functions of what they read.  Forward runs, one set of physics, methods with one earlier
value, a group that keeps its model (C159 for changes).
-/

namespace MrHyDE.Subgrid.Life

set_option linter.unusedSectionVars false

/-! ## Model -/

/-- The state: `prev_soln`, `curr_soln`, `stage_soln` of the group, `sol_prev` and `sol_stage` of its fine groups, `previous_time`
and `current_time` of the model.  [src/subgrid/subgridModel.hpp:115, src/tools/group.hpp, subgridDtN_solver.hpp:294] -/
structure Fine (V K : Type) where
  prev : V
  curr : V
  stage : V
  hist : V
  stg : Nat → V
  ptime : K
  ctime : K

/-- The fine problem.  `sync hist start stages s t dt lam`: the last iterate of stage `s` for the coarse values `lam`
(subgridDtN_solver.cpp:935-1030).  This is also what the fine groups hold when the stage is stored: without parameter sensitivities
it is gathered once more at 1303-1308 (722), since methods have at least one earlier value.
`async start t0 t1 lam`: the fine steps from `t0` to `t1`, subgridDtN_solver.cpp:339-503. -/
structure Problem (V K L : Type) where
  sync : V → V → (Nat → V) → Nat → K → K → L → V
  async : V → K → K → L → V

/-- "synchronous time stepping" (subgridDtN.cpp:35, subgridDtN2.cpp:35), and is it the class `SubGridDtN2`. -/
structure Cfg where
  sync : Bool
  two : Bool

variable {V K L : Type}

/-- After `setUpSubgridModels`, subgridDtN.cpp:893-913, subgridDtN2.cpp:370-390: the initial state goes to the vectors; the earlier
values of the fine groups are as allocated. -/
def setup [Zero V] (init : V) (t0 : K) : Fine V K := ⟨init, init, init, 0, fun _ => 0, t0, t0⟩

/-- One evaluation for the coarse values `lam` in stage `s` at time `t`; subgridDtN_solver.cpp:162-196, 277-336, 337-503. -/
def evaluate (P : Problem V K L) (c : Cfg) (s : Nat) (t dt : K) (f : Fine V K) (lam : L) : Fine V K :=
  let f := { f with ctime := t, curr := if s = 0 then f.prev else f.curr }
  if c.sync then
    let r := P.sync f.hist f.prev f.stg s t dt lam
    { f with stage := r, stg := Function.update f.stg s r }
  else
    let u := P.async f.prev f.ptime t lam
    { f with curr := u, hist := u, stg := fun _ => u }

/-- `advanceStage`, subgridDtN.cpp:2038-2051, subgridDtN2.cpp:1771-1789. -/
def advanceStage [Add V] [Sub V] (c : Cfg) (f : Fine V K) : Fine V K :=
  if c.sync then { f with curr := f.curr + f.stage - f.prev } else { f with ptime := f.ctime, prev := f.curr }

/-- `advance`, subgridDtN.cpp:2026-2032, subgridDtN2.cpp:1732-1748. -/
def advance (c : Cfg) (f : Fine V K) : Fine V K :=
  let f := { f with ptime := f.ctime, prev := f.curr }
  if c.two then { f with hist := f.curr, stg := fun _ => f.curr } else f

/-- A try of a coarse step: length, for every stage the abscissa and the coarse values for which the residual is evaluated, did the
solver end without a failure.  [solverManager_solvers.hpp:128-160] -/
structure Try (K L : Type) where
  dt : K
  stages : List (K × List L)
  ok : Bool

/-- The stages from number `s` on; solverManager_solvers.hpp:128-156, the time of a stage as in `updateStage`. -/
def stagesFrom [Add V] [Sub V] [Add K] [Mul K] (P : Problem V K L) (c : Cfg) (t dt : K) :
    Nat → List (K × List L) → Fine V K → Fine V K
  | _, [], f => f
  | s, (a, ls) :: rest, f => stagesFrom P c t dt (s + 1) rest (advanceStage c (ls.foldl (evaluate P c s (t + a * dt) dt) f))

/-- One try, solverManager_solvers.hpp:128-182: coarse time and fine state. -/
def tryStep [Add V] [Sub V] [Add K] [Mul K] (P : Problem V K L) (c : Cfg) (x : K × Fine V K) (y : Try K L) : K × Fine V K :=
  let f := stagesFrom P c x.1 y.dt 0 y.stages x.2
  if y.ok then (x.1 + y.dt, advance c f) else (x.1, f)

/-- The loop over the tries, solverManager_solvers.hpp:78-182. -/
def run [Add V] [Sub V] [Add K] [Mul K] (P : Problem V K L) (c : Cfg) (x : K × Fine V K) (ys : List (Try K L)) : K × Fine V K :=
  ys.foldl (tryStep P c) x

/-! ## Specification -/

/-- [specification, no code] The fine stages of a step from `u`, with the coarse values of the last evaluation of each stage; a stage
knows the start and the stages before it. -/
def stageValues [Add K] [Mul K] (P : Problem V K L) (u : V) (t dt : K) : List V → List (K × L) → List V
  | vs, [] => vs
  | vs, (a, l) :: rest => stageValues P u t dt (vs ++ [P.sync u u (fun k => vs.getD k u) vs.length (t + a * dt) dt l]) rest

/-- [specification, no code] The state after the step, as on the coarse scale: the start plus the increments of the stages. -/
def stepValue [AddCommGroup V] [Add K] [Mul K] (P : Problem V K L) (t dt : K) (u : V) (evs : List (K × L)) : V :=
  u + ((stageValues P u t dt [] evs).map (· - u)).sum

/-- [specification, no code] Time and state after accepted steps. -/
def follow [AddCommGroup V] [Add K] [Mul K] (P : Problem V K L) (step : K → K → V → List (K × L) → V) :
    K × V → List (K × List (K × L)) → K × V
  | x, [] => x
  | x, (dt, evs) :: rest => follow P step (x.1 + dt, step x.1 dt x.2 evs) rest

/-- [specification, no code] The last coarse values of each stage. -/
def lasts (st : List (K × List L)) : List (K × L) := st.filterMap fun p => (p.2.getLast?).map fun l => (p.1, l)

/-- [specification, no code] The accepted tries. -/
def accepted (ys : List (Try K L)) : List (K × List (K × L)) := (ys.filter (·.ok)).map fun y => (y.dt, lasts y.stages)

/-! ## Synchronous steps -/

theorem lasts_cons (a : K) (ls : List L) (h : ls ≠ []) (rest : List (K × List L)) :
    lasts ((a, ls) :: rest) = (a, ls.getLast h) :: lasts rest := by
  simp [lasts, List.getLast?_eq_some_getLast h]

theorem evals_sync (P : Problem V K L) (c : Cfg) (hc : c.sync = true) (s : Nat) (t dt : K)
    (hread : ∀ h u g g' t dt l, (∀ k < s, g k = g' k) → P.sync h u g s t dt l = P.sync h u g' s t dt l) :
    ∀ (ls : List L) (hls : ls ≠ []) (f : Fine V K),
    ls.foldl (evaluate P c s t dt) f =
      { f with ctime := t, curr := if s = 0 then f.prev else f.curr,
               stage := P.sync f.hist f.prev f.stg s t dt (ls.getLast hls),
               stg := Function.update f.stg s (P.sync f.hist f.prev f.stg s t dt (ls.getLast hls)) }
  | [l], _, f => by simp [evaluate, hc]
  | l :: l' :: ls, _, f => by
    rw [List.foldl_cons, evals_sync P c hc s t dt hread (l' :: ls) (by simp)]
    have e : ∀ l, P.sync f.hist f.prev (Function.update f.stg s (P.sync f.hist f.prev f.stg s t dt l)) s t dt
        ((l' :: ls).getLast (by simp)) = P.sync f.hist f.prev f.stg s t dt ((l' :: ls).getLast (by simp)) := by
      intro l
      apply hread
      intro k hk
      rw [Function.update_of_ne (by omega)]
    simp only [evaluate, hc, if_true]
    rw [List.getLast_cons (List.cons_ne_nil l' ls)]
    congr 1
    · split <;> rfl
    · rw [e]
    · rw [e, Function.update_idem]

theorem stages_sync [AddCommGroup V] [Field K] (P : Problem V K L) (c : Cfg) (hc : c.sync = true)
    (hread : ∀ s h u g g' t dt l, (∀ k < s, g k = g' k) → P.sync h u g s t dt l = P.sync h u g' s t dt l)
    (t dt : K) (u : V) :
    ∀ (st : List (K × List L)) (hst : ∀ p ∈ st, p.2 ≠ []) (vs : List V) (f : Fine V K), f.prev = u → f.hist = u →
    (∀ k < vs.length, f.stg k = vs.getD k u) → (vs ≠ [] → f.curr = u + (vs.map (· - u)).sum) →
    (stagesFrom P c t dt vs.length st f).prev = u ∧ (stagesFrom P c t dt vs.length st f).hist = u ∧
    (st ≠ [] ∨ vs ≠ [] → (stagesFrom P c t dt vs.length st f).curr = u + ((stageValues P u t dt vs (lasts st)).map (· - u)).sum)
  | [], _, vs, f, hp, hh, hs, hcur => by
    refine ⟨hp, hh, fun h => ?_⟩
    rcases h with h | h
    · exact absurd rfl h
    · exact hcur h
  | (a, ls) :: rest, hst, vs, f, hp, hh, hs, hcur => by
    have hls : ls ≠ [] := hst (a, ls) List.mem_cons_self
    rw [lasts_cons a ls hls]
    simp only [stagesFrom, stageValues]
    rw [evals_sync P c hc vs.length (t + a * dt) dt (hread _) ls hls f]
    have ev : P.sync f.hist f.prev f.stg vs.length (t + a * dt) dt (ls.getLast hls) =
        P.sync u u (fun k => vs.getD k u) vs.length (t + a * dt) dt (ls.getLast hls) := by
      rw [hp, hh]
      exact hread _ _ _ _ _ _ _ _ hs
    simp only [ev]
    generalize hv : P.sync u u (fun k => vs.getD k u) vs.length (t + a * dt) dt (ls.getLast hls) = r
    have ih := stages_sync P c hc hread t dt u rest (fun p hp => hst p (List.mem_cons_of_mem _ hp)) (vs ++ [r])
      (advanceStage c { f with ctime := t + a * dt, curr := if vs.length = 0 then f.prev else f.curr, stage := r,
                               stg := Function.update f.stg vs.length r })
      (by simp [advanceStage, hc, hp]) (by simp [advanceStage, hc, hh])
      (by
        intro k hk
        simp only [advanceStage, hc, if_true]
        rw [List.length_append, List.length_singleton] at hk
        by_cases hkv : k = vs.length
        · subst hkv
          simp
        · have : k < vs.length := by omega
          rw [Function.update_of_ne hkv, hs k this]
          simp [List.getElem?_append_left, this])
      (by
        intro _
        simp only [advanceStage, hc, if_true]
        rw [List.map_append, List.sum_append]
        simp only [List.map_cons, List.map_nil, List.sum_cons, List.sum_nil, add_zero]
        by_cases h0 : vs = []
        · subst h0
          simp only [List.length_nil, if_true, List.map_nil, List.sum_nil, hp]
          abel
        · rw [if_neg (fun h => h0 (List.length_eq_zero_iff.1 h)), hcur h0, hp]
          abel)
    rw [List.length_append, List.length_singleton] at ih
    exact ⟨ih.1, ih.2.1, fun _ => ih.2.2 (.inr (by simp))⟩

/-- **C160, synchronous steps, partial.**  A model of the second kind whose fine groups have the last state as their earlier value
(this holds at the start if the initial state is zero, and after each accepted step): after any sequence of tries, accepted
or rejected, with any number of stages and of coarse evaluations, the fine state is what the accepted steps make of the state
at the start, with the coarse values of the last evaluations; rejected tries leave no trace.  Missing: models of the first kind,
initial states that are not zero, changes of the model. -/
theorem C160_sync_partial [AddCommGroup V] [Field K] (P : Problem V K L) (c : Cfg) (hc : c.sync = true) (h2 : c.two = true)
    (hread : ∀ s h u g g' t dt l, (∀ k < s, g k = g' k) → P.sync h u g s t dt l = P.sync h u g' s t dt l)
    (ys : List (Try K L)) (hy : ∀ y ∈ ys, y.stages ≠ [] ∧ ∀ p ∈ y.stages, p.2 ≠ []) (x : K × Fine V K) (hx : x.2.hist = x.2.prev) :
    ((run P c x ys).1, (run P c x ys).2.prev) = follow P (stepValue P) (x.1, x.2.prev) (accepted ys) ∧
    (run P c x ys).2.hist = (run P c x ys).2.prev := by
  induction ys generalizing x with
  | nil => exact ⟨rfl, hx⟩
  | cons y ys ih =>
    obtain ⟨hy1, hy2⟩ := hy y List.mem_cons_self
    have hs := stages_sync P c hc hread x.1 y.dt x.2.prev y.stages hy2 [] x.2 rfl hx (by simp) (by simp)
    simp only [List.length_nil] at hs
    have ih' := fun x hx => ih (fun y h => hy y (List.mem_cons_of_mem _ h)) x hx
    show (((run P c (tryStep P c x y) ys).1, (run P c (tryStep P c x y) ys).2.prev) = _) ∧ _
    by_cases hok : y.ok = true
    · have e : tryStep P c x y = (x.1 + y.dt, advance c (stagesFrom P c x.1 y.dt 0 y.stages x.2)) := by simp [tryStep, hok]
      have e1 : (advance c (stagesFrom P c x.1 y.dt 0 y.stages x.2)).prev = stepValue P x.1 y.dt x.2.prev (lasts y.stages) := by
        simp only [advance, h2, if_true]
        exact hs.2.2 (.inl hy1)
      have e2 : (advance c (stagesFrom P c x.1 y.dt 0 y.stages x.2)).hist = (advance c (stagesFrom P c x.1 y.dt 0 y.stages x.2)).prev := by
        simp [advance, h2]
      have := ih' (tryStep P c x y) (by rw [e]; exact e2)
      refine ⟨?_, this.2⟩
      rw [this.1, e]
      have ea : accepted (y :: ys) = (y.dt, lasts y.stages) :: accepted ys := by simp [accepted, hok]
      rw [ea]
      simp only [follow, e1]
    · have e : tryStep P c x y = (x.1, stagesFrom P c x.1 y.dt 0 y.stages x.2) := by simp [tryStep, hok]
      have := ih' (tryStep P c x y) (by rw [e]; exact hs.2.1.trans hs.1.symm)
      refine ⟨?_, this.2⟩
      rw [this.1, e]
      have ea : accepted (y :: ys) = accepted ys := by simp [accepted, hok]
      rw [ea]
      simp only [hs.1]

/-- The history at the start of the run is the initial state if and only if that is zero. -/
theorem C160_start_partial [Zero V] (init : V) (t0 : K) : (setup init t0).hist = (setup init t0).prev ↔ init = 0 :=
  ⟨fun h => h.symm, fun h => h.symm⟩

/-! ## Asynchronous steps -/

theorem evals_async (P : Problem V K L) (c : Cfg) (hc : c.sync = false) (s : Nat) (t dt : K) :
    ∀ (ls : List L) (hls : ls ≠ []) (f : Fine V K),
    (ls.foldl (evaluate P c s t dt) f).prev = f.prev ∧ (ls.foldl (evaluate P c s t dt) f).ptime = f.ptime ∧
    (ls.foldl (evaluate P c s t dt) f).ctime = t ∧
    (ls.foldl (evaluate P c s t dt) f).curr = P.async f.prev f.ptime t (ls.getLast hls)
  | [l], _, f => by simp [evaluate, hc]
  | l :: l' :: ls, _, f => by
    rw [List.foldl_cons, List.getLast_cons (by simp)]
    have ih := evals_async P c hc s t dt (l' :: ls) (by simp) (evaluate P c s t dt f l)
    have e1 : (evaluate P c s t dt f l).prev = f.prev := by simp [evaluate, hc]
    have e2 : (evaluate P c s t dt f l).ptime = f.ptime := by simp [evaluate, hc]
    rw [e1, e2] at ih
    exact ih

/-- What an asynchronous try with one stage does. -/
theorem try_async [AddCommGroup V] [Field K] (P : Problem V K L) (c : Cfg) (hc : c.sync = false) (x : K × Fine V K) (dt a : K)
    (ls : List L) (hls : ls ≠ []) (ok : Bool) :
    (tryStep P c x ⟨dt, [(a, ls)], ok⟩).1 = (if ok then x.1 + dt else x.1) ∧
    (tryStep P c x ⟨dt, [(a, ls)], ok⟩).2.prev = P.async x.2.prev x.2.ptime (x.1 + a * dt) (ls.getLast hls) ∧
    (tryStep P c x ⟨dt, [(a, ls)], ok⟩).2.ptime = x.1 + a * dt := by
  obtain ⟨h1, h2, h3, h4⟩ := evals_async P c hc 0 (x.1 + a * dt) dt ls hls x.2
  cases ok <;> cases hc2 : c.two <;> simp [tryStep, stagesFrom, advanceStage, advance, hc, hc2, h3, h4]

/-- **C160, asynchronous steps, partial.**  For a coarse method with one stage at the end of the step, and no try rejected: the fine
state and its time are what the steps make of the start, with the coarse values of the last evaluations, and the fine time is the
coarse time.  Missing: rejected tries, stages elsewhere, several stages. -/
theorem C160_async_partial [AddCommGroup V] [Field K] (P : Problem V K L) (c : Cfg) (hc : c.sync = false) (steps : List (K × List L))
    (hs : ∀ p ∈ steps, p.2 ≠ []) (x : K × Fine V K) (hx : x.2.ptime = x.1) :
    let r := run P c x (steps.map fun p => ⟨p.1, [(1, p.2)], true⟩)
    (r.1, r.2.prev) = follow P (fun t dt u evs => evs.foldl (fun u e => P.async u t (t + e.1 * dt) e.2) u) (x.1, x.2.prev)
      (steps.filterMap fun p => (p.2.getLast?).map fun l => (p.1, [(1, l)])) ∧ r.2.ptime = r.1 := by
  induction steps generalizing x with
  | nil => exact ⟨rfl, hx⟩
  | cons p steps ih =>
    have hp := hs p List.mem_cons_self
    obtain ⟨h1, h2, h3⟩ := try_async P c hc x p.1 1 p.2 hp true
    have := ih (fun q hq => hs q (List.mem_cons_of_mem _ hq)) (tryStep P c x ⟨p.1, [(1, p.2)], true⟩) (by
      rw [h3, h1]; simp)
    simp only [List.map_cons]
    refine ⟨?_, this.2⟩
    refine this.1.trans ?_
    rw [h1, h2, List.filterMap_cons, List.getLast?_eq_some_getLast hp]
    simp [follow, hx]

/-! ## Where the property fails -/

/-- C160 is false for asynchronous steps when a coarse step is rejected and tried again with half the length: the fine model keeps
the state and the time of the rejected try, and its fine steps in the next try go back in time, from `t + dt` to
`t + dt/2`. -/
theorem C160_rejected_violated [AddCommGroup V] [Field K] (P : Problem V K L) (c : Cfg) (hc : c.sync = false) (x : K × Fine V K) (dt : K)
    (l l' : L) (hx : x.2.ptime = x.1) :
    let y := tryStep P c x ⟨dt, [(1, [l])], false⟩
    let z := tryStep P c y ⟨dt / 2, [(1, [l'])], true⟩
    y.1 = x.1 ∧ y.2.prev = P.async x.2.prev x.1 (x.1 + dt) l ∧
    z.1 = x.1 + dt / 2 ∧ z.2.prev = P.async (P.async x.2.prev x.1 (x.1 + dt) l) (x.1 + dt) (x.1 + dt / 2) l' := by
  obtain ⟨h1, h2, h3⟩ := try_async P c hc x dt 1 [l] (by simp) false
  obtain ⟨k1, k2, k3⟩ := try_async P c hc (tryStep P c x ⟨dt, [(1, [l])], false⟩) (dt / 2) 1 [l'] (by simp) true
  refine ⟨by simpa using h1, by simpa [hx] using h2, ?_, ?_⟩
  · simpa [h1] using k1
  · simpa [h1, h2, h3, hx] using k2

/-- C160 is false for asynchronous steps under a coarse method whose stage is not at the end of the step (implicit midpoint rule,
say): the fine state is only taken to the time of the stage, and stays behind the coarse one, for all steps. -/
theorem C160_abscissa_violated [AddCommGroup V] [Field K] (P : Problem V K L) (c : Cfg) (hc : c.sync = false) (x : K × Fine V K) (dt a : K)
    (steps : List L) (h : steps ≠ []) :
    let r := run P c x (steps.map fun l => ⟨dt, [(a, [l])], true⟩)
    r.1 = x.1 + steps.length * dt ∧ r.2.ptime = r.1 - (1 - a) * dt := by
  induction steps generalizing x with
  | nil => exact absurd rfl h
  | cons l steps ih =>
    obtain ⟨h1, -, h3⟩ := try_async P c hc x dt a [l] (by simp) true
    by_cases h0 : steps = []
    · subst h0
      simp only [List.map_cons, List.map_nil, run, List.foldl_cons, List.foldl_nil, h1, h3, if_true]
      constructor
      · simp
      · ring
    · have := ih (tryStep P c x ⟨dt, [(a, [l])], true⟩) h0
      refine ⟨?_, this.2⟩
      refine this.1.trans ?_
      rw [h1]
      simp only [if_true, List.length_cons]
      push_cast
      ring

/-- C160 is false for the second forward run of a program (a sample, an iteration of the optimisation): nothing puts the fine
models back, and the first step of the new run, from `t0` to `t0 + dt`, starts from the last fine state of the run before and
goes from its end time to `t0 + dt`. -/
theorem C160_second_run_violated [AddCommGroup V] [Field K] (P : Problem V K L) (c : Cfg) (hc : c.sync = false) (t0 dt : K) (f : Fine V K)
    (steps : List (K × List L)) (hs : ∀ p ∈ steps, p.2 ≠ []) (hf : f.ptime = t0) (l : L) :
    let r := run P c (t0, f) (steps.map fun p => ⟨p.1, [(1, p.2)], true⟩)
    (tryStep P c (t0, r.2) ⟨dt, [(1, [l])], true⟩).2.prev = P.async r.2.prev r.1 (t0 + dt) l := by
  have h := (C160_async_partial P c hc steps hs (t0, f) hf).2
  obtain ⟨-, h2, -⟩ := try_async P c hc (t0, (run P c (t0, f) (steps.map fun p => ⟨p.1, [(1, p.2)], true⟩)).2) dt 1 [l] (by simp) true
  intro r
  rw [h2]
  have h : r.2.ptime = r.1 := h
  simp only [one_mul, List.getLast_singleton]
  rw [← h]

theorem hist_one [Add V] [Sub V] [Add K] [Mul K] (P : Problem V K L) (c : Cfg) (hc : c.sync = true) (h2 : c.two = false)
    (ys : List (Try K L)) (x : K × Fine V K) : (run P c x ys).2.hist = x.2.hist := by
  have h1 : ∀ s t dt (ls : List L) (f : Fine V K), (ls.foldl (evaluate P c s t dt) f).hist = f.hist := by
    intro s t dt ls
    induction ls with
    | nil => intro f; rfl
    | cons l ls ih => intro f; rw [List.foldl_cons, ih]; simp [evaluate, hc]
  have h3 : ∀ t dt (st : List (K × List L)) s (f : Fine V K), (stagesFrom P c t dt s st f).hist = f.hist := by
    intro t dt st
    induction st with
    | nil => intro s f; rfl
    | cons p st ih => intro s f; obtain ⟨a, ls⟩ := p; rw [stagesFrom, ih]; simp [advanceStage, hc, h1]
  induction ys generalizing x with
  | nil => rfl
  | cons y ys ih =>
    show (run P c (tryStep P c x y) ys).2.hist = _
    rw [ih]
    unfold tryStep
    cases y.ok <;> simp [advance, h2, h3]

/-- C160 is false for synchronous steps with the first kind of model: the earlier values of the fine groups are never set.  Whatever
steps were taken before, the fine solves of a step see the earlier value zero. -/
theorem C160_history_violated [AddCommGroup V] [Field K] (P : Problem V K L) (c : Cfg) (hc : c.sync = true) (h2 : c.two = false) (init : V)
    (t0 : K) (ys : List (Try K L)) (s : Nat) (t dt : K) (l : L) :
    let f := (run P c (t0, setup init t0) ys).2
    (evaluate P c s t dt f l).stage = (P.sync 0 f.prev f.stg s t dt l) := by
  intro f
  have h : f.hist = 0 := hist_one P c hc h2 ys (t0, setup init t0)
  simp [evaluate, hc, h]

/-- C160 is false for the first synchronous step with the second kind of model: the earlier value is zero and not the initial
state. -/
theorem C160_first_violated (P : Problem V K L) [Zero V] (c : Cfg) (hc : c.sync = true) (init : V) (t0 t dt : K) (l : L) :
    (evaluate P c 0 t dt (setup init t0) l).stage = (P.sync 0 init (fun _ => 0) 0 t dt l) := by
  simp [evaluate, hc, setup]

/-! ## Cases -/

/-- The equation `u' = lam` by implicit Euler, one stage. [case] -/
def euler : Problem ℚ ℚ ℚ where
  sync h _ _ _ _ dt l := h + dt * l
  async u t0 t1 l := u + (t1 - t0) * l

/-- A rejected step and two accepted ones. [case] -/
def tries : List (Try ℚ ℚ) := [⟨1, [(1, [5, 7])], false⟩, ⟨1 / 2, [(1, [3, 4])], true⟩, ⟨1 / 2, [(1, [2])], true⟩]

example : (run euler ⟨true, true⟩ (0, setup 0 0) tries).2.prev = 3 := by
  have h := (C160_sync_partial euler ⟨true, true⟩ rfl rfl (fun _ _ _ _ _ _ _ _ _ => rfl) tries
    (by decide) (0, setup 0 0) rfl).1
  have e := congrArg Prod.snd h
  refine e.trans ?_
  decide +kernel

example : (run euler ⟨false, false⟩ (0, setup 1 0) [⟨1, [(1, [5, 7])], true⟩, ⟨1 / 2, [(1, [2])], true⟩]).2.prev = 9 := by
  have h := (C160_async_partial euler ⟨false, false⟩ rfl [(1, [5, 7]), (1 / 2, [2])] (by decide) (0, setup 1 0) rfl).1
  have e := congrArg Prod.snd h
  refine e.trans ?_
  decide +kernel

-- what the code makes of a rejected step: the state should be 1 + 1/2 * 2 = 2
example : (run euler ⟨false, false⟩ (0, setup 1 0) [⟨1, [(1, [5])], false⟩, ⟨1 / 2, [(1, [2])], true⟩]).2.prev = 5 := by
  have h := (C160_rejected_violated euler ⟨false, false⟩ rfl (0, setup 1 0) 1 5 2 rfl).2.2.2
  refine h.trans ?_
  norm_num [euler, setup]

-- the midpoint rule: after two steps of length 1 the fine time is 3/2
example : (run euler ⟨false, false⟩ (0, setup 1 0) [⟨1, [(1 / 2, [5])], true⟩, ⟨1, [(1 / 2, [2])], true⟩]).2.ptime = 3 / 2 := by
  have h := (C160_abscissa_violated euler ⟨false, false⟩ rfl (0, setup 1 0) 1 (1 / 2) [5, 2] (by simp))
  refine h.2.trans ?_
  rw [h.1]
  norm_num

-- a second run from 1 with `u' = 1` on [0,1]: the step goes from time 1 to time 1
example : (tryStep euler ⟨false, false⟩ (0, (run euler ⟨false, false⟩ (0, setup 1 0) [⟨1, [(1, [1])], true⟩]).2)
    ⟨1, [(1, [1])], true⟩).2.prev = 2 := by
  have h := C160_second_run_violated euler ⟨false, false⟩ rfl 0 1 (setup 1 0) [(1, [1])] (by decide) rfl 1
  refine h.trans ?_
  norm_num [euler, setup, run, tryStep, stagesFrom, advanceStage, advance, evaluate]

-- the first kind of model: the second step of `u' = 1` starts from zero again
example : (run euler ⟨true, false⟩ (0, setup 0 0) [⟨1, [(1, [1])], true⟩, ⟨1, [(1, [1])], true⟩]).2.prev = 1 := by decide +kernel

example : (run euler ⟨true, true⟩ (0, setup 4 0) [⟨1, [(1, [1])], true⟩]).2.prev = 1 := by decide +kernel

end MrHyDE.Subgrid.Life
