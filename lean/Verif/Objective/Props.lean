import Verif.Objective.Lemmas
import Mathlib.Algebra.Ring.Rat
import Mathlib.Tactic.NormNum
import Mathlib.Tactic.LinearCombination

/-! # C72, C73: the reported objective and its explicit derivative -/

namespace MrHyDE.Objective

section

variable {R : Type} [CommRing R]

/-- C72, partial: for any number of processes, steps, groups, elements and points the objective reported is the time integral
(sum for sensors) of the misfit plus that of the regularisations, if the objective is an integrated or discrete control, or has
no regularisation.  Missing: responses and sensors with regularisation (`C72_response_squares_regularisation`,
`C72_sensor_regularisation_step`). -/
theorem C72_reported_partial (o : Obj R) (ps : List R) (run : Run R)
    (h : o.kind = .control ∨ o.kind = .discrete ∨ ∀ x ∈ run, ∀ s ∈ x.2, s.regs = []) :
    report o (record o ps run) = J o ps run := by
  unfold report
  simp only
  rw [accumulate_eq]
  have hz : (∀ x ∈ run, ∀ s ∈ x.2, s.regs = []) → overTime (regs ps) run = 0 ∧ sumTime (regs ps) run = 0 := fun h =>
    ⟨overTime_zero _ _ (fun x hx => regs_none ps _ (h x hx)), sumTime_zero _ _ (fun x hx => regs_none ps _ (h x hx))⟩
  unfold J
  cases hk : o.kind with
  | control =>
    simp only [reduceCtorEq, if_false]
    rw [overTime_add]
  | discrete =>
    simp only [reduceCtorEq, if_false]
    rw [overTime_add]
  | response =>
    simp only [reduceCtorEq, if_false, if_true]
    rw [hk] at h
    simp only [reduceCtorEq, false_or] at h
    rw [overTime_add, (hz h).1]
    ring
  | sensors =>
    simp only [reduceCtorEq, if_false, if_true]
    rw [hk] at h
    simp only [reduceCtorEq, false_or] at h
    rw [sumTime_add, (hz h).1, (hz h).2]

/-- C72 is false for a response with regularisation: the regularisation is squared together with the response. -/
theorem C72_response_squares_regularisation (o : Obj R) (ps : List R) (run : Run R) (hk : o.kind = .response) :
    report o (record o ps run) = o.weight * (overTime (main o) run + overTime (regs ps) run - o.target) ^ 2 := by
  unfold report
  simp only
  rw [accumulate_eq, hk]
  simp only [reduceCtorEq, if_false, if_true]
  rw [overTime_add]
  ring

/-- C72 is false for sensors with regularisation: the regularisation is added once per step, whatever the step size. -/
theorem C72_sensor_regularisation_step (o : Obj R) (ps : List R) (run : Run R) (hk : o.kind = .sensors) :
    report o (record o ps run) = sumTime (main o) run + sumTime (regs ps) run := by
  unfold report
  simp only
  rw [accumulate_eq, hk]
  simp only [reduceCtorEq, if_false, if_true]
  rw [sumTime_add]

/-- Two processes, two steps of sizes 1 and 2, an integrated control with weight 2 and a squared norm of weight 3 of the
parameter 5: 1 * (2 * (7 + 1) + 75) + 2 * (2 * (8 + 1) + 75) = 277. -/
def exRun : Run ℚ :=
  let s (a : ℚ) : Seen ℚ := { quad := [[[(a, 1)]]], regs := [.l2 3] }
  [(0, [s 6, s 1]), (1, [s 7, s 1]), (3, [s 8, s 1])]

example : report ⟨.control, 2, 0⟩ (record ⟨.control, 2, 0⟩ [5] exRun) = 277 ∧ J ⟨.control, (2 : ℚ), 0⟩ [5] exRun = 277 := by
  decide +kernel

/-- The same as a response with target 26: the misfit is zero and the regularisation 225, but 2 * 225 ^ 2 is reported. -/
example : report ⟨.response, 2, 26⟩ (record ⟨.response, 2, 26⟩ [5] exRun) = 101250 ∧ J ⟨.response, (2 : ℚ), 26⟩ [5] exRun = 225 := by
  decide +kernel

/-- Sensors: 150 is reported for the regularisation 225. -/
example : report ⟨.sensors, 2, 0⟩ (record ⟨.sensors, 2, 0⟩ [5] exRun) = 150 ∧ J ⟨.sensors, (2 : ℚ), 0⟩ [5] exRun = 225 := by
  decide +kernel

end

/-! ## Explicit derivative -/

section

open DualNumber TrivSqZeroExt

variable {K : Type} [CommRing K]

/-- A run with constants for times, over dual numbers. [specification, no code] -/
def liftTimes (run : List (K × List (Seen (DualNumber K)))) : Run (DualNumber K) := run.map (fun x => (inl x.1, x.2))

/-- An objective with constants. [specification, no code] -/
def liftObj (o : Obj K) : Obj (DualNumber K) := ⟨o.kind, inl o.weight, inl o.target⟩

/-- The parameters with the derivative with respect to the `k`-th. [specification, no code] -/
def seeded (ps : List K) (k : Nat) : List (DualNumber K) :=
  (ps.zip (List.range ps.length)).map (fun x => if x.2 = k then inl x.1 + inr 1 else inl x.1)

/-- Value of dual numbers of a sum. -/
theorem snd_sum (l : List (DualNumber K)) : l.sum.snd = (l.map (fun x => x.snd)).sum := by
  induction l with
  | nil => simp
  | cons a t ih => simp [ih]

theorem fst_sum (l : List (DualNumber K)) : l.sum.fst = (l.map (fun x => x.fst)).sum := by
  induction l with
  | nil => simp
  | cons a t ih => simp [ih]

theorem seeded_aux (pk : K) : ∀ (ps : List K) (k j : Nat), ps[k]? = some pk →
    (((ps.zip (List.range' j ps.length)).map (fun x : K × Nat => if x.2 = k + j then (inl x.1 + inr 1 : DualNumber K) else inl x.1)).map
      (fun p => p * p)).sum.snd = 2 * pk := by
  intro ps
  induction ps with
  | nil => intro k j h; simp at h
  | cons a t ih =>
    intro k j h
    rw [List.length_cons, List.range'_succ, List.zip_cons_cons, List.map_cons, List.map_cons, List.sum_cons, snd_add]
    cases k with
    | zero =>
      simp only [List.getElem?_cons_zero, Option.some.injEq] at h
      subst h
      have hz : ((t.zip (List.range' (j + 1) t.length)).map
          (fun x : K × Nat => if x.2 = 0 + j then (inl x.1 + inr 1 : DualNumber K) else inl x.1)) =
          (t.zip (List.range' (j + 1) t.length)).map (fun x => (inl x.1 : DualNumber K)) := by
        apply List.map_congr_left
        rintro ⟨x, i⟩ hx
        have := (List.of_mem_zip hx).2
        rw [List.mem_range'] at this
        obtain ⟨m, -, hm⟩ := this
        rw [if_neg]
        simp only
        omega
      rw [hz, List.map_map, snd_sum, List.map_map]
      have h0 : (t.zip (List.range' (j + 1) t.length)).map ((fun x : DualNumber K => x.snd) ∘ ((fun p => p * p) ∘ fun x => (inl x.1 : DualNumber K))) =
          (t.zip (List.range' (j + 1) t.length)).map (fun _ => (0 : K)) := by
        apply List.map_congr_left
        rintro x _
        simp
      rw [h0]
      simp
      ring
    | succ k =>
      rw [if_neg (by simp only; omega)]
      have := ih k (j + 1) (by simpa using h)
      rw [show k + 1 + j = k + (j + 1) by omega, this]
      simp

/-- The derivative of the squared norm. -/
theorem seeded_sq (ps : List K) (k : Nat) (pk : K) (h : ps[k]? = some pk) :
    ((seeded ps k).map (fun p => p * p)).sum.snd = 2 * pk := by
  unfold seeded
  rw [List.range_eq_range']
  exact seeded_aux pk ps k 0 h

/-- What one process sees, with constant weights: quadrature weights, weights of squared norms, squared misfits of the state
(which does not change); integrated regularisations do not depend on the parameter. [specification, no code] -/
def Constants (s : Seen (DualNumber K)) : Prop :=
  (∀ m ∈ s.misfits, m.snd = 0) ∧
    ∀ r ∈ s.regs, match r with
      | .integrated wt q => (wt * integral q).snd = 0
      | .l2 wt => wt.snd = 0

theorem gradReg_sum (pk dt : K) (ps : List (DualNumber K)) (hp : (ps.map (fun p => p * p)).sum.snd = 2 * pk)
    (rs : List (Reg (DualNumber K)))
    (h : ∀ r ∈ rs, match r with
      | .integrated wt q => (wt * integral q).snd = 0
      | .l2 wt => wt.snd = 0) : ∀ a : K,
    rs.foldl (addRegGrad pk dt) a = a + dt * ((rs.map Reg.own).sum + (rs.map (Reg.shared ps)).sum).snd := by
  induction rs with
  | nil => intro a; simp
  | cons r t ih =>
    intro a
    rw [List.foldl_cons, ih (fun x hx => h x (List.mem_cons_of_mem _ hx))]
    have hr := h r List.mem_cons_self
    simp only [List.map_cons, List.sum_cons, snd_add]
    cases r with
    | integrated wt q =>
      simp only at hr
      simp only [addRegGrad, Reg.own, Reg.shared, hr, snd_zero]
      ring
    | l2 wt =>
      simp only at hr
      simp only [addRegGrad, Reg.own, Reg.shared, snd_zero]
      rw [DualNumber.snd_mul, hp, hr]
      ring

theorem groupSum_slots (q : Quad (DualNumber K)) : slotSum q = (integral q).snd := by
  unfold slotSum
  rw [foldl_add (fun g : List (List (DualNumber K × DualNumber K)) => (groupSum g).snd), zero_add, ← integral_eq, snd_sum, List.map_map]
  rfl

theorem snd_smul (a : K) (b : DualNumber K) : (inl a * b).snd = a * b.snd := by
  rw [DualNumber.snd_mul]; simp

/-- One step on a single process: the code's slots are those of the specification. -/
theorem gradStep_eq (o : Obj K) (v pk dt : K) (ps : List (DualNumber K)) (hp : (ps.map (fun p => p * p)).sum.snd = 2 * pk)
    (s : Seen (DualNumber K)) (hc : Constants s) :
    gradStep o v pk dt s =
      (match o.kind with
        | .control => dt * (main (liftObj o) [s]).snd
        | .discrete => dt * (main (liftObj o) [s]).snd
        | .response => dt * (2 * o.weight * (v - o.target) * (main (liftObj o) [s]).snd)
        | .sensors => (main (liftObj o) [s]).snd) + dt * (regs ps [s]).snd := by
  unfold gradStep
  simp only
  rw [gradReg_sum pk dt ps hp s.regs hc.2]
  have hr : regs ps [s] = (s.regs.map Reg.own).sum + (s.regs.map (Reg.shared ps)).sum := by
    simp [regs]
  rw [hr]
  congr 1
  unfold main liftObj
  cases o.kind with
  | control =>
    simp only
    rw [foldl_of _ (fun g => o.weight * (groupSum g).snd) (by intro t x; rfl), zero_add, sum_map_mul']
    simp only [List.map_cons, List.map_nil, List.sum_cons, List.sum_nil, add_zero]
    rw [snd_smul, ← groupSum_slots, slotSum,
      foldl_add (fun g : List (List (DualNumber K × DualNumber K)) => (groupSum g).snd), zero_add]
    ring
  | discrete =>
    simp only
    rw [snd_smul, snd_sum]
    have : s.misfits.map (fun x => x.snd) = s.misfits.map (fun _ => (0 : K)) := List.map_congr_left hc.1
    rw [this]
    simp
  | response =>
    simp only [List.map_cons, List.map_nil, List.sum_cons, List.sum_nil, add_zero]
    rw [groupSum_slots]
    ring
  | sensors =>
    simp only [List.map_cons, List.map_nil, List.sum_cons, List.sum_nil, add_zero]
    rw [foldl_add (fun q : DualNumber K × DualNumber K => (inl o.weight * (q.1 - q.2) * (q.1 - q.2) : DualNumber K).snd), zero_add,
      snd_smul, snd_sum, List.map_map, ← sum_map_mul']
    congr 1
    apply List.map_congr_left
    intro q _
    rw [mul_assoc, snd_smul]
    simp only [Function.comp_apply]
    rw [pow_two]

/-- Step size times derivative, summed. -/
theorem steps_snd (f : List (Seen (DualNumber K)) → DualNumber K) : ∀ (run : List (K × List (Seen (DualNumber K)))),
    (steps f (liftTimes run)).snd = (match run with
      | x :: y :: t => (y.1 - x.1) * (f y.2).snd + (steps f (liftTimes (y :: t))).snd
      | _ => 0) := by
  intro run
  match run with
  | [] => simp [liftTimes, steps]
  | [x] => simp [liftTimes, steps]
  | x :: y :: t =>
    simp only [liftTimes, List.map_cons, steps]
    rw [snd_add, ← inl_sub, snd_smul]

theorem plain_snd (f : List (Seen (DualNumber K)) → DualNumber K) (x y : K × List (Seen (DualNumber K)))
    (t : List (K × List (Seen (DualNumber K)))) :
    (plain f (liftTimes (x :: y :: t))).snd = (f y.2).snd + (plain f (liftTimes (y :: t))).snd := by
  simp only [liftTimes, List.map_cons, plain]
  rw [snd_add]

/-- The sum over the steps on a single process. -/
theorem gradRun_eq (o : Obj K) (v pk : K) (ps : List (DualNumber K)) (hp : (ps.map (fun p => p * p)).sum.snd = 2 * pk) :
    ∀ (run : List (K × List (Seen (DualNumber K)))), (∀ x ∈ run, ∃ s, x.2 = [s] ∧ Constants s) →
    gradRun o v pk 0 run =
      (match o.kind with
        | .control => (steps (main (liftObj o)) (liftTimes run)).snd
        | .discrete => (steps (main (liftObj o)) (liftTimes run)).snd
        | .response => 2 * o.weight * (v - o.target) * (steps (main (liftObj o)) (liftTimes run)).snd
        | .sensors => (plain (main (liftObj o)) (liftTimes run)).snd) + (steps (regs ps) (liftTimes run)).snd := by
  intro run
  induction run with
  | nil => intro _; unfold gradRun; simp only [liftTimes, steps, plain, List.map_nil]; cases o.kind <;> simp
  | cons x t ih =>
    intro h
    cases t with
    | nil => unfold gradRun; simp only [liftTimes, steps, plain, List.map_cons, List.map_nil]; cases o.kind <;> simp
    | cons y t =>
      rw [gradRun, ih (fun z hz => h z (List.mem_cons_of_mem _ hz))]
      obtain ⟨s, hs, hc⟩ := h y (by simp)
      rw [plain_snd, steps_snd (regs ps) (x :: y :: t), steps_snd (main (liftObj o)) (x :: y :: t)]
      simp only
      rw [hs, List.getD_cons_zero, gradStep_eq o v pk (y.1 - x.1) ps hp s hc]
      cases o.kind <;> simp only <;> ring

/-- C73 for evaluations that return the derivative slots (the code's do not: `C73_unseeded_violated`), partial: on a single
process, with every step recorded, what the adjoint run adds to the derivative with respect to
scalar parameter `k` is the derivative of the reported objective at fixed states; for every type of objective without
regularisation, and for controls with squared norms of the parameters.  `v` is the accumulated response as the code computes
it.  Missing: several processes (`C73_processes`), responses and sensors with regularisation (`C73_response_regularisation`,
`C73_sensor_regularisation`), integrated regularisations that depend on scalar parameters (`C73_integrated_ignored`). -/
theorem C73_seeded_partial (o : Obj K) (ps : List K) (k : Nat) (pk : K) (hk : ps[k]? = some pk)
    (x y : K × List (Seen (DualNumber K))) (t : List (K × List (Seen (DualNumber K))))
    (hrun : ∀ z ∈ x :: y :: t, ∃ s, z.2 = [s] ∧ Constants s)
    (hreg : o.kind = .control ∨ o.kind = .discrete ∨ ∀ z ∈ x :: y :: t, ∀ s ∈ z.2, s.regs = []) :
    gradRun o (accumulate o.kind (record (liftObj o) (seeded ps k) (liftTimes (x :: y :: t)))).fst pk 0 (x :: y :: t) =
      (report (liftObj o) (record (liftObj o) (seeded ps k) (liftTimes (x :: y :: t)))).snd := by
  rw [gradRun_eq o _ pk (seeded ps k) (seeded_sq ps k pk hk) _ hrun]
  have hkind : (liftObj o).kind = o.kind := rfl
  have hreg' : (liftObj o).kind = .control ∨ (liftObj o).kind = .discrete ∨
      ∀ z ∈ liftTimes (x :: y :: t), ∀ s ∈ z.2, s.regs = [] := by
    rw [hkind]
    rcases hreg with h | h | h
    · exact Or.inl h
    · exact Or.inr (Or.inl h)
    · refine Or.inr (Or.inr ?_)
      intro z hz
      unfold liftTimes at hz
      rw [List.mem_map] at hz
      obtain ⟨a, ha, rfl⟩ := hz
      exact h a ha
  have hacc := accumulate_eq (liftObj o) (seeded ps k) (liftTimes (x :: y :: t))
  rw [hkind] at hacc
  rw [C72_reported_partial (liftObj o) (seeded ps k) _ hreg', hacc]
  unfold J
  rw [hkind]
  have ot : ∀ f : List (Seen (DualNumber K)) → DualNumber K,
      overTime f (liftTimes (x :: y :: t)) = steps f (liftTimes (x :: y :: t)) := by
    intro f; simp only [liftTimes, List.map_cons, overTime]
  have st : ∀ f : List (Seen (DualNumber K)) → DualNumber K,
      sumTime f (liftTimes (x :: y :: t)) = plain f (liftTimes (x :: y :: t)) := by
    intro f; simp only [liftTimes, List.map_cons, sumTime]
  simp only [ot, st]
  cases hkk : o.kind with
  | control => simp only [snd_add]
  | discrete => simp only [snd_add]
  | sensors => simp only [snd_add]
  | response =>
    simp only [reduceCtorEq, if_false]
    simp only [hkind, hkk, reduceCtorEq, false_or] at hreg'
    have hz : steps (regs (seeded ps k)) (liftTimes (x :: y :: t)) = 0 :=
      steps_zero _ _ (fun z hz => regs_none _ _ (hreg' z hz))
    have hz2 : steps (fun seen => main (liftObj o) seen + regs (seeded ps k) seen) (liftTimes (x :: y :: t)) =
        steps (main (liftObj o)) (liftTimes (x :: y :: t)) := by
      rw [steps_add, hz, add_zero]
    rw [hz, hz2, snd_add, pow_two]
    show _ = (inl o.weight * _ : DualNumber K).snd + _
    rw [snd_smul, DualNumber.snd_mul]
    simp only [liftObj, snd_sub, fst_sub, snd_inl, fst_inl, sub_zero]
    ring

/-- C73, partial: on a single process, with every step recorded, what the code adds to the derivative with respect to scalar
parameter `k` is the derivative of the reported objective at fixed states, if the functions of the objective do not depend on
the scalar parameters explicitly (`unseeded`); for controls this leaves the squared norms of the parameters.  Missing: functions
that do (`C73_unseeded_violated`), and what `C73_seeded_partial` lists. -/
theorem C73_explicit_partial (o : Obj K) (ps : List K) (k : Nat) (pk : K) (hk : ps[k]? = some pk)
    (x y : K × List (Seen (DualNumber K))) (t : List (K × List (Seen (DualNumber K))))
    (hrun : ∀ z ∈ x :: y :: t, ∃ s, z.2 = [s] ∧ Constants s)
    (hu : ∀ z ∈ x :: y :: t, ∀ s ∈ z.2, s.unseeded = s)
    (hreg : o.kind = .control ∨ o.kind = .discrete ∨ ∀ z ∈ x :: y :: t, ∀ s ∈ z.2, s.regs = []) :
    codeGrad o (accumulate o.kind (record (liftObj o) (seeded ps k) (liftTimes (x :: y :: t)))).fst pk 0 (x :: y :: t) =
      (report (liftObj o) (record (liftObj o) (seeded ps k) (liftTimes (x :: y :: t)))).snd := by
  have e : (x :: y :: t).map (fun z => (z.1, z.2.map Seen.unseeded)) = x :: y :: t := by
    conv_rhs => rw [← List.map_id (x :: y :: t)]
    apply List.map_congr_left
    intro z hz
    have : z.2.map Seen.unseeded = z.2 := by
      conv_rhs => rw [← List.map_id z.2]
      exact List.map_congr_left (fun s hs => hu z hz s hs)
    rw [this]
    rfl
  unfold codeGrad
  rw [e]
  exact C73_seeded_partial o ps k pk hk x y t hrun hreg

theorem groupSum_const (g : List (List (DualNumber K × DualNumber K)))
    (h : ∀ e ∈ g, ∀ q ∈ e, q.1.snd = 0 ∧ q.2.snd = 0) : (groupSum g).snd = 0 := by
  have inner : ∀ (e : List (DualNumber K × DualNumber K)), (∀ q ∈ e, q.1.snd = 0 ∧ q.2.snd = 0) → ∀ a : DualNumber K, a.snd = 0 →
      (e.foldl (fun t q => t + q.1 * q.2) a).snd = 0 := by
    intro e
    induction e with
    | nil => intro _ a ha; exact ha
    | cons q t ih =>
      intro hq a ha
      obtain ⟨h1, h2⟩ := hq q List.mem_cons_self
      refine ih (fun z hz => hq z (List.mem_cons_of_mem _ hz)) _ ?_
      rw [snd_add, DualNumber.snd_mul, h1, h2, ha]
      ring
  have outer : ∀ (g : List (List (DualNumber K × DualNumber K))), (∀ e ∈ g, ∀ q ∈ e, q.1.snd = 0 ∧ q.2.snd = 0) →
      ∀ a : DualNumber K, a.snd = 0 →
      (g.foldl (fun s e => s + e.foldl (fun t q => t + q.1 * q.2) 0) a).snd = 0 := by
    intro g
    induction g with
    | nil => intro _ a ha; exact ha
    | cons e t ih =>
      intro he a ha
      refine ih (fun z hz => he z (List.mem_cons_of_mem _ hz)) _ ?_
      rw [snd_add, ha, inner e (he e List.mem_cons_self) 0 (by simp), add_zero]
  exact outer g h 0 (by simp)

/-- C73 is false for functions that depend on scalar parameters explicitly: whatever they are, on every process, for every type
of objective without regularisation (weights and data being constants), nothing at all is added to the gradient. -/
theorem C73_unseeded_violated (o : Obj K) (v pk : K) (r : Nat) (run : List (K × List (Seen (DualNumber K))))
    (hreg : ∀ x ∈ run, ∀ s ∈ x.2, s.regs = [])
    (hw : ∀ x ∈ run, ∀ s ∈ x.2, (∀ g ∈ s.quad, ∀ e ∈ g, ∀ q ∈ e, q.2.snd = 0) ∧ ∀ q ∈ s.sensors, q.2.snd = 0) :
    codeGrad o v pk r run = 0 := by
  have step : ∀ (dt : K) (s : Seen (DualNumber K)), s.regs = [] →
      ((∀ g ∈ s.quad, ∀ e ∈ g, ∀ q ∈ e, q.2.snd = 0) ∧ ∀ q ∈ s.sensors, q.2.snd = 0) →
      gradStep o v pk dt s.unseeded = 0 := by
    intro dt s hr ⟨hq, hs⟩
    have hg : ∀ g ∈ s.quad, (groupSum (g.map (fun e : List (DualNumber K × DualNumber K) => e.map (fun q => ((inl q.1.fst : DualNumber K), q.2))))).snd = 0 := by
      intro g hg
      refine groupSum_const _ ?_
      intro e he q hq'
      obtain ⟨e', he', rfl⟩ := List.mem_map.mp he
      obtain ⟨q', hq'', rfl⟩ := List.mem_map.mp hq'
      exact ⟨by simp, hq g hg e' he' q' hq''⟩
    unfold gradStep Seen.unseeded
    simp only [hr, List.foldl_nil]
    cases o.kind with
    | control =>
      simp only
      rw [foldl_of _ (fun g => o.weight * (groupSum g).snd) (by intro t x; rfl), zero_add, List.map_map]
      have : s.quad.map ((fun g => o.weight * (groupSum g).snd) ∘
          fun (g : List (List (DualNumber K × DualNumber K))) => g.map (fun e => e.map (fun q => ((inl q.1.fst : DualNumber K), q.2)))) = s.quad.map (fun _ => (0 : K)) :=
        List.map_congr_left (fun g hg' => by simp only [Function.comp_apply]; rw [hg g hg', mul_zero])
      rw [this]; simp
    | discrete => rfl
    | response =>
      simp only
      unfold slotSum
      rw [foldl_of _ (fun g : List (List (DualNumber K × DualNumber K)) => (groupSum g).snd) (by intro t x; rfl), zero_add, List.map_map]
      have : s.quad.map ((fun g => (groupSum g).snd) ∘
          fun (g : List (List (DualNumber K × DualNumber K))) => g.map (fun e => e.map (fun q => ((inl q.1.fst : DualNumber K), q.2)))) = s.quad.map (fun _ => (0 : K)) :=
        List.map_congr_left (fun g hg' => by simp only [Function.comp_apply]; exact hg g hg')
      rw [this]; simp
    | sensors =>
      simp only
      rw [foldl_of _ (fun q : DualNumber K × DualNumber K => (inl o.weight * (q.1 - q.2) * (q.1 - q.2) : DualNumber K).snd)
        (by intro t x; rfl), zero_add, List.map_map]
      have : s.sensors.map ((fun q : DualNumber K × DualNumber K => (inl o.weight * (q.1 - q.2) * (q.1 - q.2) : DualNumber K).snd) ∘
          fun q => ((inl q.1.fst : DualNumber K), q.2)) = s.sensors.map (fun _ => (0 : K)) := by
        refine List.map_congr_left (fun q hq' => ?_)
        simp only [Function.comp_apply]
        rw [mul_assoc, snd_smul, DualNumber.snd_mul, snd_sub, snd_inl, hs q hq']
        ring
      rw [this]; simp
  unfold codeGrad
  induction run with
  | nil => rfl
  | cons x t ih =>
    cases t with
    | nil => rfl
    | cons y t =>
      simp only [List.map_cons]
      rw [gradRun]
      have ih' := ih (fun z hz => hreg z (List.mem_cons_of_mem _ hz)) (fun z hz => hw z (List.mem_cons_of_mem _ hz))
      simp only [List.map_cons] at ih'
      rw [ih', add_zero]
      simp only
      by_cases hr : r < y.2.length
      · rw [List.getD_eq_getElem?_getD, List.getElem?_map, List.getElem?_eq_getElem hr, Option.map_some, Option.getD_some]
        exact step _ _ (hreg y (by simp) _ (List.getElem_mem hr)) (hw y (by simp) _ (List.getElem_mem hr))
      · rw [List.getD_eq_getElem?_getD, List.getElem?_eq_none (by simpa using hr), Option.getD_none]
        exact step _ {} rfl ⟨by simp, by simp⟩

/-- C73 with several processes: a process adds what it would add were it alone; the slots of the others are not summed. -/
theorem C73_processes (o : Obj K) (v pk : K) (r : Nat) (run : List (K × List (Seen (DualNumber K)))) :
    gradRun o v pk r run = gradRun o v pk 0 (run.map (fun x => (x.1, [x.2.getD r {}]))) := by
  induction run with
  | nil => rfl
  | cons x t ih =>
    cases t with
    | nil => rfl
    | cons y t =>
      rw [gradRun, ih]
      simp only [List.map_cons]
      rw [gradRun]
      rfl

/-- One step of size `dt`, with one integration point on each process. [case] -/
def exStep (dt : ℚ) (fs : List (DualNumber ℚ)) (rs : List (Reg (DualNumber ℚ))) : List (ℚ × List (Seen (DualNumber ℚ))) :=
  let at' : List (Seen (DualNumber ℚ)) := fs.map (fun f => { quad := [[[(f, 1)]]], sensors := [(f, 0)], regs := rs })
  [(0, at'), (dt, at')]

/-- The derivative on process `r` if the evaluations returned the slots, and the derivative of the reported objective. [case] -/
def exBoth (o : Obj ℚ) (ps : List ℚ) (r : Nat) (run : List (ℚ × List (Seen (DualNumber ℚ)))) : ℚ × ℚ :=
  let w := record (liftObj o) (seeded ps 0) (liftTimes run)
  (gradRun o (accumulate o.kind w).fst (ps.getD 0 0) r run, (report (liftObj o) w).snd)

/-- The code's derivative on process `r`, and the derivative of the reported objective. [case] -/
def exCode (o : Obj ℚ) (ps : List ℚ) (r : Nat) (run : List (ℚ × List (Seen (DualNumber ℚ)))) : ℚ × ℚ :=
  let w := record (liftObj o) (seeded ps 0) (liftTimes run)
  (codeGrad o (accumulate o.kind w).fst (ps.getD 0 0) r run, (report (liftObj o) w).snd)

/-- Case for `C73_unseeded_violated`: a control, a response and a sensor whose function has value 3 and derivative 1 in the
parameter. -/
example : exCode ⟨.control, 2, 0⟩ [5] 0 (exStep 3 [inl 3 + inr 1] []) = (0, 6) ∧
    exCode ⟨.response, 2, 1⟩ [5] 0 (exStep 3 [inl 3 + inr 1] []) = (0, 96) ∧
    exCode ⟨.sensors, 2, 1⟩ [5] 0 (exStep 3 [inl 3 + inr 1] []) = (0, 12) := by decide +kernel

/-- Case for `C73_explicit_partial`: a control of weight 2 with the squared norm of parameter 5 over a step of size 3. -/
example : exCode ⟨.control, 2, 0⟩ [5] 0 (exStep 3 [inl 3] [.l2 1]) = (30, 30) := by decide +kernel

/-- C73 is false on two processes even with slots: functions with values 3 and 5 and derivatives 1 and 10; each process gets its own part of
the derivative 11. -/
theorem C73_processes_wrong : ∃ run, exBoth ⟨.control, 1, 0⟩ [2] 0 run = (1, 11) ∧ exBoth ⟨.control, 1, 0⟩ [2] 1 run = (10, 11) :=
  ⟨exStep 1 [inl 3 + inr 1, inl 5 + inr 10] [], by decide +kernel⟩

/-- C73 is false for a response with the squared norm of the parameter: response 3, target 0, parameter 2:
the derivative of (3 + 4)² is 56, the code adds 4; were the response differentiated (slope 1), 2 * 7 * 1 + 4 instead of 70. -/
theorem C73_response_regularisation : (∃ run, exCode ⟨.response, 1, 0⟩ [2] 0 run = (4, 56)) ∧
    ∃ run, exBoth ⟨.response, 1, 0⟩ [2] 0 run = (18, 70) :=
  ⟨⟨exStep 1 [inl 3] [.l2 1], by decide +kernel⟩, ⟨exStep 1 [inl 3 + inr 1] [.l2 1], by decide +kernel⟩⟩

/-- C73 is false for sensors with the squared norm of the parameter and step size 2. -/
theorem C73_sensor_regularisation : ∃ run, exCode ⟨.sensors, 1, 0⟩ [2] 0 run = (8, 4) :=
  ⟨exStep 2 [inl 3] [.l2 1], by decide +kernel⟩

/-- C73 is false for an integrated regularisation that depends on a scalar parameter: its derivative 7 is left out. -/
theorem C73_integrated_ignored : ∃ run, exCode ⟨.control, 1, 0⟩ [2] 0 run = (0, 7) :=
  ⟨exStep 1 [inl 3] [.integrated 1 [[[(inl 5 + inr 7, 1)]]]], by decide +kernel⟩

/-- Case for `C73_seeded_partial`: a control of weight 2 with the squared norm of parameter 5, and a response, over a step of
size 3. -/
example : exBoth ⟨.control, 2, 0⟩ [5] 0 (exStep 3 [inl 3 + inr 1] [.l2 1]) = (36, 36) ∧
    exBoth ⟨.response, 2, 1⟩ [5] 0 (exStep 3 [inl 3 + inr 1] []) = (96, 96) := by decide +kernel

example : ∀ z ∈ exStep 3 [inl 3 + inr 1] [.l2 1], ∃ s, z.2 = [s] ∧ Constants s := by
  intro z hz
  simp only [exStep, List.map_cons, List.map_nil, List.mem_cons, List.not_mem_nil, or_false] at hz
  rcases hz with rfl | rfl
  all_goals
    refine ⟨_, rfl, by simp, ?_⟩
    intro r hr
    simp only [List.mem_cons, List.not_mem_nil, or_false] at hr
    subst hr
    simp

example : ∀ z ∈ exStep 3 [inl 3] [.l2 1], ∀ s ∈ z.2, s.unseeded = s := by
  intro z hz s hs
  simp only [exStep, List.map_cons, List.map_nil, List.mem_cons, List.not_mem_nil, or_false] at hz
  rcases hz with rfl | rfl
  all_goals
    simp only [List.mem_cons, List.not_mem_nil, or_false] at hs
    subst hs
    simp [Seen.unseeded]

end

end MrHyDE.Objective
