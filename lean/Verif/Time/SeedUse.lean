import Verif.Time.Seed

/-!
# C65, C66: what assembly asks to be seeded

Model of the choice of the seed in `assembleJacRes`,
`/repo/src/managers/assembly/assemblyManager_jacres.hpp:177-192`, and of its use for element groups (380) and for boundary
groups (523).
-/

namespace MrHyDE.Time

set_option linter.unusedSectionVars false

variable {K : Type} [Field K]

/-- What is asked of an assembly: Jacobian, derivative with respect to discretised parameters, derivative with respect to
previous solution `step`; arguments of assemblyManager_jacres.hpp:14-36. -/
structure Wanted where
  jac : Bool
  discSens : Bool
  previous : Bool
  step : Nat

/-- `seedwhat` and `seedindex`, assemblyManager_jacres.hpp:178-191. -/
def seedFor (w : Wanted) : SeedSel :=
  let a := if w.jac then (if w.discSens then 3 else 1) else 0
  if w.previous then ⟨2, w.step⟩ else ⟨a, 0⟩

/-- The seed used for element groups, assemblyManager_jacres.hpp:380. -/
def volumeSeed (w : Wanted) : SeedSel := seedFor w

/-- The seed used for boundary groups, assemblyManager_jacres.hpp:523: the index is not passed on and takes its default
zero (assemblyManager.hpp:1167-1168). -/
def boundarySeed (w : Wanted) : SeedSel := ⟨(seedFor w).seedwhat, 0⟩

/-- Seed of a discretised parameter, /repo/src/tools/workset.cpp:934-968: seeded in its own slot if `seedwhat` is 3. -/
def paramAD (sel : SeedSel) (slot : Nat) (p : K) : Dual K := if sel.seedwhat = 3 then seed slot p else const p

/-- Rate of change of solution and time derivative with respect to previous solution `j`. [specification, no code] -/
def RatePrev (T : Tableau K) (bdf : List K) (dt : K) (s : Nat) (prev st : Nat → K) (x : K) (j : Nat) (du dudot : K) : Prop :=
  ∀ h, evalPoint T s (if j = 0 then prev 0 + h else prev 0) st x = evalPoint T s (prev 0) st x + du * h ∧
    timeDeriv T bdf dt s (fun i => if i = j then prev i + h else prev i) x = timeDeriv T bdf dt s prev x + dudot * h

theorem seeded_prev_rate (T : Tableau K) (bdf : List K) (dt : K) (s j slot : Nat) (prev st : Nat → K) (x : K) :
    let r := seeded T bdf dt s ⟨2, j⟩ slot prev st x
    RatePrev T bdf dt s prev st x j (r.1.2 slot) (r.2.2 slot) := by
  intro r h
  obtain ⟨v1, v2, _, h4⟩ := C52 T bdf dt s ⟨2, j⟩ slot prev st x
  have := h4 h
  simp only [perturbed] at this
  rw [v1, v2] at this
  obtain ⟨e1, e2⟩ := this
  refine ⟨?_, ?_⟩
  · rw [← e1]
    by_cases hj : j = 0
    · simp [hj]
    · simp [hj, Ne.symm hj]
  · exact e2

theorem prev_slot (T : Tableau K) (bdf : List K) (dt : K) (s j slot : Nat) (prev st : Nat → K) (x : K) :
    (seeded T bdf dt s ⟨2, j⟩ slot prev st x).2.2 slot =
      if j < bdf.length - 1 then 1 / dt / T.w s * bdf.getD (j + 1) 0 else 0 := by
  have h := (seeded_prev_rate T bdf dt s j slot prev st x 1).2
  rw [mul_one] at h
  have h' : (seeded T bdf dt s ⟨2, j⟩ slot prev st x).2.2 slot =
      timeDeriv T bdf dt s (fun i => if i = j then prev i + 1 else prev i) x - timeDeriv T bdf dt s prev x := by
    rw [h]; ring
  rw [h', timeDeriv_eq, timeDeriv_eq]
  have e : ∑ i ∈ Finset.range (bdf.length - 1), bdf.getD (i+1) 0 • (if i = j then prev i + 1 else prev i) =
      ∑ i ∈ Finset.range (bdf.length - 1), bdf.getD (i+1) 0 • prev i +
        if j < bdf.length - 1 then bdf.getD (j+1) 0 else 0 := by
    have : ∀ i ∈ Finset.range (bdf.length - 1), bdf.getD (i+1) 0 • (if i = j then prev i + 1 else prev i) =
        bdf.getD (i+1) 0 • prev i + (if i = j then bdf.getD (i+1) 0 else 0) := by
      intro i _
      by_cases hi : i = j
      · simp [hi, mul_add]
      · simp [hi]
    rw [Finset.sum_congr rfl this, Finset.sum_add_distrib, Finset.sum_ite_eq' (Finset.range (bdf.length - 1)) j]
    simp [Finset.mem_range]
  rw [e]
  by_cases hj : j < bdf.length - 1
  · simp only [hj, if_true, smul_eq_mul]; ring
  · simp only [hj, if_false, smul_eq_mul]; ring

/-- **C65, partial.**  When the derivative with respect to previous solution `step` is assembled, the element terms see
exact derivatives with respect to that solution, for every method and every step; the boundary terms do for step 0.
Missing: boundary terms and older steps (`C65_boundary_older_step`). -/
theorem C65_volume_partial (T : Tableau K) (bdf : List K) (dt : K) (s slot : Nat) (prev st : Nat → K) (x : K) (w : Wanted)
    (hw : w.previous = true) :
    (let r := seeded T bdf dt s (volumeSeed w) slot prev st x
     RatePrev T bdf dt s prev st x w.step (r.1.2 slot) (r.2.2 slot)) ∧
    (w.step = 0 →
     let r := seeded T bdf dt s (boundarySeed w) slot prev st x
     RatePrev T bdf dt s prev st x 0 (r.1.2 slot) (r.2.2 slot)) := by
  have h1 : volumeSeed w = ⟨2, w.step⟩ := by simp [volumeSeed, seedFor, hw]
  have h2 : boundarySeed w = ⟨2, 0⟩ := by simp [boundarySeed, seedFor, hw]
  rw [h1, h2]
  exact ⟨seeded_prev_rate T bdf dt s w.step slot prev st x, fun _ => seeded_prev_rate T bdf dt s 0 slot prev st x⟩

/-- **C65 is false for boundary terms and older steps**: whatever step is asked for, the boundary terms see the derivative
with respect to the most recent previous solution. -/
theorem C65_boundary_older_step (T : Tableau K) (bdf : List K) (dt : K) (s slot : Nat) (prev st : Nat → K) (x : K) (w : Wanted)
    (hw : w.previous = true) (hlen : 2 ≤ bdf.length) :
    (seeded T bdf dt s (boundarySeed w) slot prev st x).2.2 slot = 1 / dt / T.w s * bdf.getD 1 0 ∧
    ∀ du dudot, RatePrev T bdf dt s prev st x w.step du dudot →
      dudot = if w.step < bdf.length - 1 then 1 / dt / T.w s * bdf.getD (w.step + 1) 0 else 0 := by
  have h2 : boundarySeed w = ⟨2, 0⟩ := by simp [boundarySeed, seedFor, hw]
  constructor
  · rw [h2, prev_slot, if_pos (by omega)]
  · intro du dudot hr
    have a := (hr 1).2
    have b := (seeded_prev_rate T bdf dt s w.step slot prev st x 1).2
    rw [a, mul_one, mul_one] at b
    rw [add_left_cancel b, prev_slot]

/-- Case: second order differences.  Asked for step 1, the boundary terms use weight -2 instead of 1/2. -/
example (T : Tableau ℚ) (hT : T.w 0 = 1) (slot : Nat) (prev st : Nat → ℚ) (x : ℚ) :
    (seeded T [3/2, -2, 1/2] 1 0 (boundarySeed ⟨true, false, true, 1⟩) slot prev st x).2.2 slot = -2 ∧
    (seeded T [3/2, -2, 1/2] 1 0 (volumeSeed ⟨true, false, true, 1⟩) slot prev st x).2.2 slot = 1/2 := by
  refine ⟨?_, ?_⟩
  · rw [(C65_boundary_older_step T _ 1 0 slot prev st x ⟨true, false, true, 1⟩ rfl (by simp)).1, hT]
    norm_num
  · have : volumeSeed ⟨true, false, true, 1⟩ = ⟨2, 1⟩ := by simp [volumeSeed, seedFor]
    rw [this, prev_slot, hT]
    norm_num

/-- **C66, partial.**  When the derivative with respect to discretised parameters is assembled, the parameter carries
derivative one in its own slot and, in the first stage, solution and time derivative carry none: slots are derivatives with
respect to the parameter alone.  Missing: later stages (`C66_later_stage`). -/
theorem C66_first_stage_partial (T : Tableau K) (bdf : List K) (dt : K) (slot : Nat) (prev st : Nat → K) (x p : K) (w : Wanted)
    (hj : w.jac = true) (hd : w.discSens = true) (hp : w.previous = false) (pslot k : Nat) :
    let r := seeded T bdf dt 0 (volumeSeed w) slot prev st x
    r.1.2 k = 0 ∧ r.2.2 k = 0 ∧ (paramAD (volumeSeed w) pslot p).2 k = if k = pslot then 1 else 0 := by
  have h1 : volumeSeed w = ⟨3, 0⟩ := by simp [volumeSeed, seedFor, hj, hd, hp]
  rw [h1]
  intro r
  obtain ⟨_, _, h3, h4⟩ := C52 T bdf dt 0 ⟨3, 0⟩ slot prev st x
  refine ⟨?_, ?_, ?_⟩
  · by_cases hk : k = slot
    · subst hk
      have := (h4 1).1
      simp only [perturbed] at this
      have e : evalPoint T 0 (prev 0) (fun j => if j = 0 then st j + 1 else st j) x = evalPoint T 0 (prev 0) st x := by
        simp [evalPoint]
      rw [e] at this
      have v := (C52 T bdf dt 0 ⟨3, 0⟩ k prev st x).1
      rw [v, mul_one] at this
      exact (left_eq_add.1 this)
    · exact (h3 k hk).1
  · by_cases hk : k = slot
    · subst hk
      have := (h4 1).2
      simp only [perturbed] at this
      have v := (C52 T bdf dt 0 ⟨3, 0⟩ k prev st x).2.1
      rw [v, mul_one] at this
      exact (left_eq_add.1 this)
    · exact (h3 k hk).2
  · rfl

/-- **C66 is false in later stages**: the same request also seeds the solution of stage 0, so the slots mix the derivative
with respect to the parameter with the one with respect to that stage. -/
theorem C66_later_stage (T : Tableau K) (bdf : List K) (dt : K) (s slot : Nat) (hs : 1 ≤ s) (prev st : Nat → K) (x : K) (w : Wanted)
    (hj : w.jac = true) (hd : w.discSens = true) (hp : w.previous = false) :
    (seeded T bdf dt s (volumeSeed w) slot prev st x).1.2 slot = T.a s 0 / T.w 0 := by
  have h1 : volumeSeed w = ⟨3, 0⟩ := by simp [volumeSeed, seedFor, hj, hd, hp]
  rw [h1]
  obtain ⟨v1, _, _, h4⟩ := C52 T bdf dt s ⟨3, 0⟩ slot prev st x
  have := (h4 1).1
  simp only [perturbed] at this
  rw [v1, mul_one] at this
  have h' : (seeded T bdf dt s ⟨3, 0⟩ slot prev st x).1.2 slot =
      evalPoint T s (prev 0) (fun j => if j = 0 then st j + 1 else st j) x - evalPoint T s (prev 0) st x := by
    rw [this]; ring
  rw [h', evalPoint_eq, evalPoint_eq]
  have e : ∑ j ∈ Finset.range s, (T.a s j / T.w j) • ((if j = 0 then st j + 1 else st j) - prev 0) =
      ∑ j ∈ Finset.range s, (T.a s j / T.w j) • (st j - prev 0) + T.a s 0 / T.w 0 := by
    have : ∀ j ∈ Finset.range s, (T.a s j / T.w j) • ((if j = 0 then st j + 1 else st j) - prev 0) =
        (T.a s j / T.w j) • (st j - prev 0) + (if j = 0 then T.a s j / T.w j else 0) := by
      intro j _
      by_cases hj0 : j = 0
      · simp only [hj0, if_true, smul_eq_mul]; ring
      · simp [hj0]
    rw [Finset.sum_congr rfl this, Finset.sum_add_distrib, Finset.sum_ite_eq' (Finset.range s) 0]
    simp [Finset.mem_range, Nat.lt_of_lt_of_le Nat.zero_lt_one hs]
  rw [e]
  simp only [smul_eq_mul]
  ring

/-- Case: the second stage of a two stage method with weight 1/2. -/
example (slot : Nat) (prev st : Nat → ℚ) (x : ℚ) :
    (seeded (K := ℚ) { A := [[1/4, 0], [1/2, 1/4]], b := [1/2, 1/2], c := [1/4, 3/4] } [1, -1] 1 1 (volumeSeed ⟨true, true, false, 0⟩)
      slot prev st x).1.2 slot = 1 := by
  rw [C66_later_stage _ _ _ _ _ (le_refl 1) _ _ _ _ rfl rfl rfl]
  norm_num [Tableau.a, Tableau.w]

end MrHyDE.Time
