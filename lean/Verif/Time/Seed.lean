import Verif.Time.StepProps
import Mathlib.Algebra.Module.Prod
import Mathlib.Algebra.Module.Pi
import Mathlib.Algebra.Module.LinearMap.Prod
import Mathlib.LinearAlgebra.Pi

/-!
# C52: seeding of the solution for automatic differentiation

Model of the seeded branches of `computeSolnTransientSeeded`, `src/tools/workset.cpp:597-835`, for one
element and one degree of freedom.
-/

namespace MrHyDE.Time

set_option linter.unusedSectionVars false

variable {K : Type} [Field K]

/-- A forward automatic differentiation number: a value and derivative slots
(`Sacado::Fad::SFad<ScalarT,N>`; the bound `N` on the slots is not modelled). [workset.cpp:597-835] -/
abbrev Dual (K : Type) := K × (Nat → K)

/-- Conversion of a plain number, `EvalT x = c`. [workset.cpp:597-835] -/
def const (c : K) : Dual K := (c, 0)

/-- A seeded number, `EvalT(size, slot, c)`. [workset.cpp:597-835] -/
def seed (slot : Nat) (c : K) : Dual K := (c, fun k => if k = slot then 1 else 0)

/-- Which number carries the seed, workset.cpp:619, 663, 721, 766: `seedwhat` 1: the stage solution, 2:
the previous solution `index`, 3: the solution of the earlier stage `index`, otherwise none. -/
structure SeedSel where
  seedwhat : Int
  index : Nat

/-- The stage solution as used in the branch, workset.cpp:641 and 680, 738, 782. -/
def stageAD (sel : SeedSel) (slot : Nat) (x : K) : Dual K := if sel.seedwhat = 1 then seed slot x else const x

/-- The previous solution `j`, workset.cpp:684-691 and 703-711 (seeded if `index == j`). -/
def prevAD (sel : SeedSel) (slot : Nat) (prev : Nat → K) (j : Nat) : Dual K :=
  if sel.seedwhat = 2 then (if sel.index = j then seed slot (prev j) else const (prev j)) else const (prev j)

/-- The solution of the earlier stage `j`, workset.cpp:744-752 (seeded if `index == j`). -/
def stagesAD (sel : SeedSel) (slot : Nat) (st : Nat → K) (j : Nat) : Dual K :=
  if sel.seedwhat = 3 then (if sel.index = j then seed slot (st j) else const (st j)) else const (st j)

/-- `u_AD` and `u_dot_AD` for the current physics set, workset.cpp:617-812: the same two formulas in
every branch, evaluated with automatic differentiation numbers. -/
def seeded (T : Tableau K) (bdf : List K) (dt : K) (s : Nat) (sel : SeedSel) (slot : Nat)
    (prev st : Nat → K) (x : K) : Dual K × Dual K :=
  (evalPoint T s (prevAD sel slot prev 0) (stagesAD sel slot st) (stageAD sel slot x),
   timeDeriv T bdf dt s (prevAD sel slot prev) (stageAD sel slot x))

/-- The same for another physics set, workset.cpp:814-830: the solution is copied, `u_dot_AD` keeps the
content it had (`old`). -/
def seededOther (old : Dual K) (x : K) : Dual K × Dual K := (const x, old)

section
variable {V W : Type} [AddCommGroup V] [Module K V] [AddCommGroup W] [Module K W]

theorem evalPoint_map (φ : V →ₗ[K] W) (T : Tableau K) (s : Nat) (un : V) (st : Nat → V) (x : V) :
    φ (evalPoint T s un st x) = evalPoint T s (φ un) (fun j => φ (st j)) (φ x) := by
  rw [evalPoint_eq, evalPoint_eq]
  simp [map_sum]

theorem timeDeriv_eq (T : Tableau K) (bdf : List K) (dt : K) (s : Nat) (prev : Nat → V) (x : V) :
    timeDeriv T bdf dt s prev x = (bdf.getD 0 0 * (1 / dt / T.w s)) • x +
      (1 / dt / T.w s) • ∑ j ∈ Finset.range (bdf.length - 1), bdf.getD (j+1) 0 • prev j := by
  simp only [timeDeriv]
  rw [foldl_add_range (fun j => bdf.getD (j+1) 0 • prev j)]
  simp

theorem timeDeriv_map (φ : V →ₗ[K] W) (T : Tableau K) (bdf : List K) (dt : K) (s : Nat) (prev : Nat → V)
    (x : V) : φ (timeDeriv T bdf dt s prev x) = timeDeriv T bdf dt s (fun j => φ (prev j)) (φ x) := by
  rw [timeDeriv_eq, timeDeriv_eq]
  simp [map_sum]

/-- The two formulas are linear in all their arguments together. -/
theorem evalPoint_lin (T : Tableau K) (s : Nat) (un a : K) (st b : Nat → K) (x c h : K) :
    evalPoint T s (un + h * a) (fun j => st j + h * b j) (x + h * c)
      = evalPoint T s un st x + h * evalPoint T s a b c := by
  rw [evalPoint_eq, evalPoint_eq, evalPoint_eq]
  have e : ∑ j ∈ Finset.range s, (T.a s j / T.w j) • (st j + h * b j - (un + h * a))
      = ∑ j ∈ Finset.range s, (T.a s j / T.w j) • (st j - un) +
        h * ∑ j ∈ Finset.range s, (T.a s j / T.w j) • (b j - a) := by
    rw [Finset.mul_sum, ← Finset.sum_add_distrib]
    apply Finset.sum_congr rfl
    intro j _
    simp only [smul_eq_mul]
    ring
  rw [e]
  simp only [smul_eq_mul]
  ring

theorem timeDeriv_lin (T : Tableau K) (bdf : List K) (dt : K) (s : Nat) (prev b : Nat → K) (x c h : K) :
    timeDeriv T bdf dt s (fun j => prev j + h * b j) (x + h * c)
      = timeDeriv T bdf dt s prev x + h * timeDeriv T bdf dt s b c := by
  rw [timeDeriv_eq, timeDeriv_eq, timeDeriv_eq]
  have e : ∑ j ∈ Finset.range (bdf.length - 1), bdf.getD (j+1) 0 • (prev j + h * b j)
      = ∑ j ∈ Finset.range (bdf.length - 1), bdf.getD (j+1) 0 • prev j +
        h * ∑ j ∈ Finset.range (bdf.length - 1), bdf.getD (j+1) 0 • b j := by
    rw [Finset.mul_sum, ← Finset.sum_add_distrib]
    apply Finset.sum_congr rfl
    intro j _
    simp only [smul_eq_mul]
    ring
  rw [e]
  simp only [smul_eq_mul]
  ring

end

/-- The perturbation of the number that is selected by `sel`: the previous solutions, the solutions of
earlier stages, and the stage solution, when the selected one grows by `h`. [specification, no code] -/
def perturbed (sel : SeedSel) (prev st : Nat → K) (x h : K) : (Nat → K) × (Nat → K) × K :=
  match sel.seedwhat with
  | 1 => (prev, st, x + h)
  | 2 => (fun j => if j = sel.index then prev j + h else prev j, st, x)
  | 3 => (prev, fun j => if j = sel.index then st j + h else st j, x)
  | _ => (prev, st, x)

/-- **C52.**  For every tableau, multistep method, step size, stage, choice of the seeded number, slot
and data: the values are those computed without differentiation, all slots other than the one of this
degree of freedom are zero, and the derivative in that slot is exact: changing the selected number by
any `h` changes solution and time derivative by exactly the derivative times `h`. -/
theorem C52 (T : Tableau K) (bdf : List K) (dt : K) (s : Nat) (sel : SeedSel) (slot : Nat)
    (prev st : Nat → K) (x : K) :
    let r := seeded T bdf dt s sel slot prev st x
    r.1.1 = evalPoint T s (prev 0) st x ∧ r.2.1 = timeDeriv T bdf dt s prev x ∧
    (∀ k, k ≠ slot → r.1.2 k = 0 ∧ r.2.2 k = 0) ∧
    (∀ h, let q := perturbed sel prev st x h
      evalPoint T s (q.1 0) q.2.1 q.2.2 = r.1.1 + r.1.2 slot * h ∧
      timeDeriv T bdf dt s q.1 q.2.2 = r.2.1 + r.2.2 slot * h) := by
  intro r
  -- projections
  let fstL : Dual K →ₗ[K] K := LinearMap.fst K K (Nat → K)
  let slotL : Nat → Dual K →ₗ[K] K := fun k => (LinearMap.proj k).comp (LinearMap.snd K K (Nat → K))
  have p1 : ∀ j, fstL (prevAD sel slot prev j) = prev j := by
    intro j
    simp only [fstL, prevAD, LinearMap.fst_apply]
    split_ifs <;> rfl
  have p2 : ∀ j, fstL (stagesAD sel slot st j) = st j := by
    intro j
    simp only [fstL, stagesAD, LinearMap.fst_apply]
    split_ifs <;> rfl
  have p3 : fstL (stageAD sel slot x) = x := by
    simp only [fstL, stageAD, LinearMap.fst_apply]
    split_ifs <;> rfl
  have v1 : r.1.1 = evalPoint T s (prev 0) st x := by
    show fstL (evalPoint T s (prevAD sel slot prev 0) (stagesAD sel slot st) (stageAD sel slot x)) = _
    rw [evalPoint_map, p1, p3]
    simp only [p2]
  have v2 : r.2.1 = timeDeriv T bdf dt s prev x := by
    show fstL (timeDeriv T bdf dt s (prevAD sel slot prev) (stageAD sel slot x)) = _
    rw [timeDeriv_map, p3]
    simp only [p1]
  have d1 : ∀ k, r.1.2 k = evalPoint T s (slotL k (prevAD sel slot prev 0))
      (fun j => slotL k (stagesAD sel slot st j)) (slotL k (stageAD sel slot x)) := by
    intro k
    show slotL k (evalPoint T s (prevAD sel slot prev 0) (stagesAD sel slot st) (stageAD sel slot x)) = _
    rw [evalPoint_map]
  have d2 : ∀ k, r.2.2 k = timeDeriv T bdf dt s (fun j => slotL k (prevAD sel slot prev j))
      (slotL k (stageAD sel slot x)) := by
    intro k
    show slotL k (timeDeriv T bdf dt s (prevAD sel slot prev) (stageAD sel slot x)) = _
    rw [timeDeriv_map]
  -- components of the slots
  have q1 : ∀ k j, slotL k (prevAD sel slot prev j) = if k = slot ∧ sel.seedwhat = 2 ∧ sel.index = j then 1 else 0 := by
    intro k j
    simp only [slotL, prevAD, LinearMap.comp_apply, LinearMap.snd_apply, LinearMap.proj_apply]
    by_cases a : sel.seedwhat = 2
    · by_cases b : sel.index = j
      · simp [a, b, seed]
      · simp [a, b, const]
    · simp [a, const]
  have q2 : ∀ k j, slotL k (stagesAD sel slot st j) = if k = slot ∧ sel.seedwhat = 3 ∧ sel.index = j then 1 else 0 := by
    intro k j
    simp only [slotL, stagesAD, LinearMap.comp_apply, LinearMap.snd_apply, LinearMap.proj_apply]
    by_cases a : sel.seedwhat = 3
    · by_cases b : sel.index = j
      · simp [a, b, seed]
      · simp [a, b, const]
    · simp [a, const]
  have q3 : ∀ k, slotL k (stageAD sel slot x) = if k = slot ∧ sel.seedwhat = 1 then 1 else 0 := by
    intro k
    simp only [slotL, stageAD, LinearMap.comp_apply, LinearMap.snd_apply, LinearMap.proj_apply]
    by_cases a : sel.seedwhat = 1
    · simp [a, seed]
    · simp [a, const]
  refine ⟨v1, v2, ?_, ?_⟩
  · intro k hk
    refine ⟨?_, ?_⟩
    · rw [d1 k]
      simp only [q1, q2, q3, hk, false_and, if_false]
      rw [evalPoint_eq]
      simp
    · rw [d2 k]
      simp only [q1, q3, hk, false_and, if_false]
      rw [timeDeriv_eq]
      simp
  · intro h q
    have e1 : q.1 = fun j => prev j + h * (if slot = slot ∧ sel.seedwhat = 2 ∧ sel.index = j then 1 else 0) := by
      funext j
      simp only [q, perturbed]
      by_cases a2 : sel.seedwhat = 2
      · by_cases b : sel.index = j
        · simp [a2, b]
        · have : ¬ j = sel.index := fun h => b h.symm
          simp [a2, b, this]
      · split <;> simp_all
    have e2 : q.2.1 = fun j => st j + h * (if slot = slot ∧ sel.seedwhat = 3 ∧ sel.index = j then 1 else 0) := by
      funext j
      simp only [q, perturbed]
      by_cases a2 : sel.seedwhat = 3
      · by_cases b : sel.index = j
        · simp [a2, b]
        · have : ¬ j = sel.index := fun h => b h.symm
          simp [a2, b, this]
      · split <;> simp_all
    have e3 : q.2.2 = x + h * (if slot = slot ∧ sel.seedwhat = 1 then 1 else 0) := by
      simp only [q, perturbed]
      by_cases a2 : sel.seedwhat = 1
      · simp [a2]
      · split <;> simp_all
    refine ⟨?_, ?_⟩
    · rw [e1, e2, e3, evalPoint_lin T s (prev 0) _ st _ x _ h, v1, d1 slot]
      simp only [q1, q2, q3]
      ring
    · rw [e1, e3, timeDeriv_lin T bdf dt s prev _ x _ h, v2, d2 slot]
      simp only [q1, q3]
      ring

/-- A case: "CN", second stage, seeding the previous solution in slot 3: the derivative of the solution
is `1 - 1/1 - 1 = -1`, that of the time derivative `-2`. -/
example : ((seeded cn (bdfWeights 1) 1 1 ⟨2, 0⟩ 3 (fun _ => 5) (fun _ => 7) 9).1.2 3 = -1) ∧
    ((seeded cn (bdfWeights 1) 1 1 ⟨2, 0⟩ 3 (fun _ => 5) (fun _ => 7) 9).2.2 3 = -2) := by
  simp [seeded, prevAD, stagesAD, stageAD, seed, const, evalPoint, timeDeriv, bdfWeights, cn, Tableau.a,
    Tableau.w, List.range, List.range.loop]
  norm_num

/-- **C52, violated for the variables of another physics set**: their time derivative is whatever an
earlier evaluation left there, so for all data there is a prior content for which it is wrong. -/
theorem C52_other_set_violated (T : Tableau K) (bdf : List K) (dt : K) (s : Nat) (prev : Nat → K) (x : K) :
    ∃ old : Dual K, (seededOther old x).2.1 ≠ timeDeriv T bdf dt s prev x :=
  ⟨const (timeDeriv T bdf dt s prev x + 1), by simp [seededOther, const]⟩

end MrHyDE.Time
