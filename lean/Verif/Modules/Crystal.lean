import Mathlib.Algebra.BigOperators.Fin
import Mathlib.Algebra.BigOperators.Ring.Finset
import Mathlib.Analysis.SpecialFunctions.Trigonometric.Arctan
import Mathlib.LinearAlgebra.Matrix.Determinant.Basic
import Mathlib.Tactic.Ring
import Mathlib.Tactic.LinearCombination
import Mathlib.Tactic.IntervalCases
import Mathlib.Tactic.FieldSimp
import Mathlib.Tactic.NormNum

/-!
# Crystal elasticity

Model of /repo/src/physics/CrystalElasticity.cpp: the constants of the crystal, the lattice tensor, its rotation for every element, the
stress, and the thermal stress.  One element and one integration point are followed; the loops over elements and points repeat
the same for each (the shared matrix of the rotation is modelled separately, `Step`).  Exact numbers.
-/

namespace MrHyDE.Modules.Crystal

open Finset

/-- The thirteen constants, /repo/src/physics/CrystalElasticity.hpp:73. -/
structure Consts (K : Type) where
  c11 : K
  c22 : K
  c33 : K
  c44 : K
  c55 : K
  c66 : K
  c12 : K
  c13 : K
  c23 : K
  c15 : K
  c25 : K
  c35 : K
  c46 : K

/-- A view with four indices, /repo/src/physics/CrystalElasticity.cpp:39. -/
abbrev Tensor (K : Type) := Nat → Nat → Nat → Nat → K

/-- One assignment, /repo/src/physics/CrystalElasticity.cpp:95-135. -/
def assign {K : Type} (C : Tensor K) (a : (Nat × Nat × Nat × Nat) × K) : Tensor K := fun i j k l =>
  if i = a.1.1 ∧ j = a.1.2.1 ∧ k = a.1.2.2.1 ∧ l = a.1.2.2.2 then a.2 else C i j k l

/-- The assignments in their order, /repo/src/physics/CrystalElasticity.cpp:95-135. -/
def assignments {K : Type} (c : Consts K) : List ((Nat × Nat × Nat × Nat) × K) :=
  [((0, 0, 0, 0), c.c11), ((1, 1, 1, 1), c.c22), ((2, 2, 2, 2), c.c33), ((0, 0, 1, 1), c.c12), ((1, 1, 0, 0), c.c12),
   ((0, 0, 2, 2), c.c13), ((2, 2, 0, 0), c.c13), ((1, 1, 2, 2), c.c23), ((2, 2, 1, 1), c.c23), ((0, 1, 0, 1), c.c66),
   ((1, 0, 1, 0), c.c66), ((0, 1, 1, 0), c.c66), ((1, 0, 0, 1), c.c66), ((2, 0, 2, 0), c.c55), ((0, 2, 0, 2), c.c55),
   ((2, 0, 0, 2), c.c55), ((0, 2, 0, 0), c.c55), ((2, 1, 2, 1), c.c44), ((1, 2, 1, 2), c.c44), ((1, 2, 2, 1), c.c44),
   ((2, 1, 1, 2), c.c44), ((0, 0, 0, 2), c.c15), ((0, 0, 2, 0), c.c15), ((0, 2, 0, 0), c.c15), ((2, 0, 0, 0), c.c15),
   ((1, 1, 0, 2), c.c25), ((1, 1, 2, 0), c.c25), ((0, 2, 1, 1), c.c25), ((2, 0, 1, 1), c.c25), ((2, 2, 0, 2), c.c35),
   ((2, 2, 2, 0), c.c35), ((0, 2, 2, 2), c.c35), ((2, 0, 2, 2), c.c35), ((1, 2, 0, 1), c.c46), ((1, 2, 1, 0), c.c46),
   ((2, 1, 0, 1), c.c46), ((2, 1, 1, 0), c.c46), ((0, 1, 1, 2), c.c46), ((1, 0, 1, 2), c.c46), ((0, 1, 2, 1), c.c46),
   ((1, 0, 2, 1), c.c46)]

/-- `computeLatticeTensor`, /repo/src/physics/CrystalElasticity.cpp:90-139: the mirror is the view itself (host memory; line 137 is a
comment). -/
def lattice {K : Type} (c : Consts K) (C : Tensor K) : Tensor K := (assignments c).foldl assign C

/-- State of the object, /repo/src/physics/CrystalElasticity.hpp:73-76. -/
structure State (K : Type) where
  c : Consts K
  lam : K
  mu : K
  eref : K
  alpha : K
  C : Tensor K

/-- First Lamé coefficient, /repo/src/physics/CrystalElasticity.cpp:32. -/
def lameLambda {K : Type} [Field K] (E nu : K) : K := E * nu / ((1 + nu) * (1 - 2 * nu))

/-- Second one, /repo/src/physics/CrystalElasticity.cpp:33. -/
def lameMu {K : Type} [Field K] (E nu : K) : K := E / (2 * (1 + nu))

/-- The constructor, /repo/src/physics/CrystalElasticity.cpp:24-76; `s` are the entries of the sublist "Crystal elastic parameters". -/
def construct {K : Type} [Field K] (s : String → Option K) : State K :=
  let eref := (s "T_ambient").getD 0
  let alpha := (s "alpha_T").getD (1 / 1000000)
  let E := (s "E").getD 1
  let nu := (s "nu").getD (4 / 10)
  let lam := lameLambda E nu
  let mu := lameMu E nu
  let c11 := (s "C11").getD (2 * mu + lam)
  let c44 := (s "C44").getD (2 * mu)
  let c12 := (s "C12").getD lam
  let c : Consts K :=
    { c11 := c11, c22 := (s "C22").getD c11, c33 := (s "C33").getD c11, c44 := c44, c55 := (s "C55").getD c44, c66 := (s "C66").getD c44,
      c12 := c12, c13 := (s "C13").getD c12, c23 := (s "C23").getD c12, c15 := (s "C15").getD 0, c25 := (s "C25").getD 0,
      c35 := (s "C35").getD 0, c46 := (s "C46").getD 0 }
  { c := c, lam := c12, mu := c44 / 2, eref := eref, alpha := alpha, C := lattice c fun _ _ _ _ => 0 }

/-- `updateParams`, /repo/src/physics/CrystalElasticity.cpp:144-233; `p` is the value of an active parameter.  Line 157 puts whether
"mu" was found into the flag of "lambda". -/
def update {K : Type} [Field K] (p : String → Option K) (st : State K) : State K :=
  let lam := (p "lambda").getD st.lam
  let foundlam := (p "mu").isSome
  let foundmu := false
  let mu := if foundmu then (p "mu").getD st.mu else st.mu
  let r : K × K × K × K × K :=
    if !foundlam || !foundmu then
      match p "youngs_mod", p "poisson_ratio" with
      | some E, some nu =>
        (lameLambda E nu, lameMu E nu, 2 * lameMu E nu + lameLambda E nu, lameLambda E nu, 2 * lameMu E nu)
      | _, _ => (lam, mu, st.c.c11, st.c.c12, st.c.c44)
    else (lam, mu, 2 * mu + lam, lam, 2 * mu)
  let c : Consts K :=
    { c11 := r.2.2.1, c22 := r.2.2.1, c33 := r.2.2.1, c44 := r.2.2.2.2, c55 := r.2.2.2.2, c66 := r.2.2.2.2,
      c12 := r.2.2.2.1, c13 := r.2.2.2.1, c23 := r.2.2.2.1, c15 := 0, c25 := 0, c35 := 0, c46 := 0 }
  { st with c := c, lam := r.1, mu := r.2.1, C := lattice c st.C }

/-- Strain, /repo/src/physics/CrystalElasticity.cpp:271-322; `g i j` is the derivative of displacement `i` in direction `j`. -/
def strain {K : Type} [Field K] (g : Nat → Nat → K) (i j : Nat) : K := if i = j then g i i else 1 / 2 * g i j + 1 / 2 * g j i

/-- The angles in degrees to the matrix, /repo/src/physics/CrystalElasticity.cpp:395-417. -/
noncomputable def bunge (phi1d Phid phi2d : ℝ) (i j : Nat) : ℝ :=
  let degtorad := Real.arctan 1 / 45
  let phi1 := phi1d * degtorad
  let Phi := Phid * degtorad
  let phi2 := phi2d * degtorad
  match i, j with
  | 0, 0 => Real.cos phi1 * Real.cos phi2 - Real.sin phi1 * Real.cos Phi * Real.sin phi2
  | 1, 0 => Real.sin phi1 * Real.cos phi2 + Real.cos phi1 * Real.cos Phi * Real.sin phi2
  | 2, 0 => Real.sin Phi * Real.sin phi2
  | 0, 1 => -Real.cos phi1 * Real.sin phi2 - Real.sin phi1 * Real.cos Phi * Real.cos phi2
  | 1, 1 => -Real.sin phi1 * Real.sin phi2 + Real.cos phi1 * Real.cos Phi * Real.cos phi2
  | 2, 1 => Real.sin Phi * Real.cos phi2
  | 0, 2 => Real.sin phi1 * Real.sin Phi
  | 1, 2 => -Real.cos phi1 * Real.sin Phi
  | 2, 2 => Real.cos Phi
  | _, _ => 0

/-- Choice of the matrix, /repo/src/physics/CrystalElasticity.cpp:392-437. -/
def frame {K : Type} [Zero K] [One K] (allow usePhi useRotation : Bool) (angles rotation : Nat → Nat → K) : Nat → Nat → K :=
  if allow then
    if usePhi then angles else if useRotation then rotation else fun i j => if i = j then 1 else 0
  else fun i j => if i = j then 1 else 0

/-- The rotated tensor, /repo/src/physics/CrystalElasticity.cpp:440-457: all loops end at the dimension. -/
def rotated {K : Type} [Field K] (dim : Nat) (R : Nat → Nat → K) (C : Tensor K) : Tensor K := fun i j k l =>
  ∑ i1 ∈ range dim, ∑ j1 ∈ range dim, ∑ k1 ∈ range dim, ∑ l1 ∈ range dim, R i i1 * R j j1 * R k k1 * R l l1 * C i1 j1 k1 l1

/-- Tensor times strain, /repo/src/physics/CrystalElasticity.cpp:334-343. -/
def contract {K : Type} [Field K] (dim : Nat) (C : Tensor K) (E : Nat → Nat → K) (i j : Nat) : K :=
  ∑ k ∈ range dim, ∑ l ∈ range dim, C i j k l * E k l

/-- `computeStress`, /repo/src/physics/CrystalElasticity.cpp:238-362.  `haveT`: there is a variable "T"
(/repo/src/physics/linearelasticity.cpp:877-878, 924); `field` is the value of the solution field of a name, `none` when there is no such field
(reading it is a read past the end, /repo/src/tools/workset.cpp:1546-1569). -/
def computeStress {K : Type} [Field K] (dim : Nat) (p : String → Option K) (haveT : Bool) (field : String → Option K)
    (R : Nat → Nat → K) (g : Nat → Nat → K) (st : State K) : Option (State K × (Nat → Nat → K)) :=
  let st := update p st
  let s := contract dim (rotated dim R st.C) (strain g)
  if haveT then (field "e").map fun T =>
    (st, fun i j => if i = j then s i j + -st.alpha * (3 * st.lam + 2 * st.mu) * (T - st.eref) else s i j)
  else some (st, s)

/-- The threads share one matrix: an element fills it, then uses it, /repo/src/physics/CrystalElasticity.cpp:370, 388-458. -/
inductive Step where
  | fill (e : Nat)
  | use (e : Nat)
deriving DecidableEq

/-- Execution of the steps in a given order: the shared matrix and the matrix used by every element,
/repo/src/physics/CrystalElasticity.cpp:388-458. -/
def exec {R : Type} (rot : Nat → R) : List Step → R × (Nat → Option R) → R × (Nat → Option R)
  | [], s => s
  | .fill e :: t, s => exec rot t (rot e, s.2)
  | .use e :: t, s => exec rot t (s.1, fun e' => if e' = e then some s.1 else s.2 e')

/-! ## Specification -/

/-- Number of a pair in the usual notation with six numbers. [specification, no code] -/
def voigt : Nat → Nat → Nat
  | 0, 0 => 0 | 1, 1 => 1 | 2, 2 => 2
  | 1, 2 => 3 | 2, 1 => 3 | 0, 2 => 4 | 2, 0 => 4 | 0, 1 => 5 | 1, 0 => 5
  | _, _ => 6

/-- The symmetric matrix of a monoclinic crystal. [specification, no code] -/
def stiffness {K : Type} [Zero K] (c : Consts K) (a b : Nat) : K :=
  match min a b, max a b with
  | 0, 0 => c.c11 | 1, 1 => c.c22 | 2, 2 => c.c33 | 3, 3 => c.c44 | 4, 4 => c.c55 | 5, 5 => c.c66
  | 0, 1 => c.c12 | 0, 2 => c.c13 | 1, 2 => c.c23 | 0, 4 => c.c15 | 1, 4 => c.c25 | 2, 4 => c.c35 | 3, 5 => c.c46
  | _, _ => 0

/-- The matrix one. [specification, no code] -/
def one {K : Type} [Zero K] [One K] (i j : Nat) : K := if i = j then 1 else 0

/-- Product of matrices. [specification, no code] -/
def times {K : Type} [Field K] (dim : Nat) (R S : Nat → Nat → K) (i j : Nat) : K := ∑ k ∈ range dim, R i k * S k j

/-- Strain seen from the crystal. [specification, no code] -/
def seen {K : Type} [Field K] (dim : Nat) (R E : Nat → Nat → K) (k1 l1 : Nat) : K :=
  ∑ k ∈ range dim, ∑ l ∈ range dim, R k k1 * E k l * R l l1

/-- Stress of a cubic crystal whose axes are those of space. [specification, no code] -/
def cubic {K : Type} [Field K] (dim : Nat) (c11 c12 c44 : K) (g : Nat → Nat → K) (i j : Nat) : K :=
  if i = j then c11 * g i i + c12 * ∑ k ∈ (range dim).filter (· ≠ i), g k k else c44 * (g i j + g j i)

/-! ## Theorems -/

variable {K : Type} [Field K]

set_option linter.unusedSimpArgs false
set_option linter.unusedSectionVars false

/-- The strain is the symmetric part of the gradient. -/
theorem C129_strain [CharZero K] (g : Nat → Nat → K) (i j : Nat) : 2 * strain g i j = g i j + g j i ∧ strain g i j = strain g j i := by
  unfold strain
  by_cases h : i = j
  · subst h
    simp
    ring
  · rw [if_neg h, if_neg (Ne.symm h)]
    constructor
    · field_simp
    · ring

/-- All entries of the lattice tensor but one are those of the constants, whatever was there before in the entries that are set. -/
theorem C129_lattice_partial (c : Consts K) (i j k l : Nat) (hi : i < 3) (hj : j < 3) (hk : k < 3) (hl : l < 3)
    (h : (i, j, k, l) ≠ (0, 2, 2, 0)) :
    lattice c (fun _ _ _ _ => 0) i j k l = stiffness c (voigt i j) (voigt k l) ∧
    ∀ c', lattice c (lattice c' fun _ _ _ _ => 0) i j k l = stiffness c (voigt i j) (voigt k l) := by
  interval_cases i <;> interval_cases j <;> interval_cases k <;> interval_cases l <;>
    first
      | exact absurd rfl h
      | exact ⟨rfl, fun _ => rfl⟩

/-- C129 is false for one entry: the entry (0,2,2,0) is never set (line 111 sets (0,2,0,0) in its place), so it is zero and
not C55, and the tensor has not the symmetry of a stiffness. -/
theorem C129_lattice_violated (c : Consts K) (h : c.c55 ≠ 0) :
    lattice c (fun _ _ _ _ => 0) 0 2 2 0 = 0 ∧ stiffness c (voigt 0 2) (voigt 2 0) = c.c55 ∧
    lattice c (fun _ _ _ _ => 0) 0 2 2 0 ≠ lattice c (fun _ _ _ _ => 0) 2 0 0 2 := by
  refine ⟨by simp [lattice, assignments, assign], by simp [stiffness, voigt], ?_⟩
  simp [lattice, assignments, assign]
  exact fun h' => h h'.symm

/-- Rotating the tensor is the same as looking at the strain from the crystal and turning the stress back; for every matrix. -/
theorem C129_frame (dim : Nat) (R : Nat → Nat → K) (C : Tensor K) (E : Nat → Nat → K) (i j : Nat) :
    contract dim (rotated dim R C) E i j =
      ∑ i1 ∈ range dim, ∑ j1 ∈ range dim, R i i1 * R j j1 * contract dim C (seen dim R E) i1 j1 := by
  unfold contract rotated seen
  simp only [Finset.sum_mul, Finset.mul_sum]
  -- bring the sums into the same order
  have h1 : ∀ k ∈ range dim, ∑ l ∈ range dim, ∑ i1 ∈ range dim, ∑ j1 ∈ range dim, ∑ k1 ∈ range dim, ∑ l1 ∈ range dim,
      R i i1 * R j j1 * R k k1 * R l l1 * C i1 j1 k1 l1 * E k l =
      ∑ i1 ∈ range dim, ∑ j1 ∈ range dim, ∑ k1 ∈ range dim, ∑ l1 ∈ range dim, ∑ l ∈ range dim,
        R i i1 * R j j1 * R k k1 * R l l1 * C i1 j1 k1 l1 * E k l := by
    intro k _
    rw [Finset.sum_comm]
    refine Finset.sum_congr rfl fun i1 _ => ?_
    rw [Finset.sum_comm]
    refine Finset.sum_congr rfl fun j1 _ => ?_
    rw [Finset.sum_comm]
    refine Finset.sum_congr rfl fun k1 _ => ?_
    rw [Finset.sum_comm]
  rw [Finset.sum_congr rfl h1, Finset.sum_comm]
  refine Finset.sum_congr rfl fun i1 _ => ?_
  rw [Finset.sum_comm]
  refine Finset.sum_congr rfl fun j1 _ => ?_
  rw [Finset.sum_comm]
  refine Finset.sum_congr rfl fun k1 _ => ?_
  rw [Finset.sum_comm]
  refine Finset.sum_congr rfl fun l1 _ => ?_
  refine Finset.sum_congr rfl fun k _ => Finset.sum_congr rfl fun l _ => ?_
  ring

theorem sum_one (dim i : Nat) (hi : i < dim) (f : Nat → K) : ∑ k ∈ range dim, one i k * f k = f i := by
  rw [Finset.sum_eq_single i]
  · simp [one]
  · intro k _ hk
    simp [one, Ne.symm hk]
  · intro h
    exact absurd (Finset.mem_range.2 hi) h

/-- Without a rotation the tensor is that of the lattice. -/
theorem C129_unrotated (dim : Nat) (C : Tensor K) (i j k l : Nat) (hi : i < dim) (hj : j < dim) (hk : k < dim) (hl : l < dim) :
    rotated dim one C i j k l = C i j k l := by
  unfold rotated
  have h : ∀ i1 j1 k1 l1, (one i i1 : K) * one j j1 * one k k1 * one l l1 * C i1 j1 k1 l1 =
      one i i1 * (one j j1 * (one k k1 * (one l l1 * C i1 j1 k1 l1))) := fun _ _ _ _ => by ring
  simp only [h, ← Finset.mul_sum]
  rw [sum_one dim i hi, sum_one dim j hj, sum_one dim k hk, sum_one dim l hl]

theorem rot1 (dim : Nat) (R S : Nat → Nat → K) (i : Nat) (f : Nat → K) :
    ∑ i1 ∈ range dim, R i i1 * ∑ i2 ∈ range dim, S i1 i2 * f i2 = ∑ i2 ∈ range dim, times dim R S i i2 * f i2 := by
  unfold times
  simp only [Finset.mul_sum, Finset.sum_mul]
  rw [Finset.sum_comm]
  refine Finset.sum_congr rfl fun _ _ => Finset.sum_congr rfl fun _ _ => by ring

theorem rotated_nested (dim : Nat) (R : Nat → Nat → K) (C : Tensor K) (i j k l : Nat) : rotated dim R C i j k l =
    ∑ i1 ∈ range dim, R i i1 * ∑ j1 ∈ range dim, R j j1 * ∑ k1 ∈ range dim, R k k1 * ∑ l1 ∈ range dim, R l l1 * C i1 j1 k1 l1 := by
  unfold rotated
  simp only [Finset.mul_sum]
  refine Finset.sum_congr rfl fun _ _ => Finset.sum_congr rfl fun _ _ => Finset.sum_congr rfl fun _ _ => Finset.sum_congr rfl fun _ _ => by ring

theorem swap (dim : Nat) (a : Nat → K) (b : Nat → K) (f : Nat → Nat → K) :
    ∑ x ∈ range dim, a x * ∑ y ∈ range dim, b y * f x y = ∑ y ∈ range dim, b y * ∑ x ∈ range dim, a x * f x y := by
  simp only [Finset.mul_sum]
  rw [Finset.sum_comm]
  refine Finset.sum_congr rfl fun _ _ => Finset.sum_congr rfl fun _ _ => by ring

/-- Turning the crystal twice is turning it once by the product. -/
theorem C129_compose (dim : Nat) (R S : Nat → Nat → K) (C : Tensor K) (i j k l : Nat) :
    rotated dim R (rotated dim S C) i j k l = rotated dim (times dim R S) C i j k l := by
  rw [rotated_nested, rotated_nested]
  simp only [rotated_nested dim S C]
  -- last index
  have e4 : ∀ i1 j1 k1, ∑ l1 ∈ range dim, R l l1 * ∑ i2 ∈ range dim, S i1 i2 * ∑ j2 ∈ range dim, S j1 j2 * ∑ k2 ∈ range dim, S k1 k2 *
      ∑ l2 ∈ range dim, S l1 l2 * C i2 j2 k2 l2 =
      ∑ i2 ∈ range dim, S i1 i2 * ∑ j2 ∈ range dim, S j1 j2 * ∑ k2 ∈ range dim, S k1 k2 * ∑ l2 ∈ range dim, times dim R S l l2 * C i2 j2 k2 l2 := by
    intro i1 j1 k1
    rw [swap]
    refine Finset.sum_congr rfl fun i2 _ => congrArg _ ?_
    rw [swap]
    refine Finset.sum_congr rfl fun j2 _ => congrArg _ ?_
    rw [swap]
    refine Finset.sum_congr rfl fun k2 _ => congrArg _ ?_
    exact rot1 dim R S l _
  simp only [e4]
  have e3 : ∀ i1 j1, ∑ k1 ∈ range dim, R k k1 * ∑ i2 ∈ range dim, S i1 i2 * ∑ j2 ∈ range dim, S j1 j2 * ∑ k2 ∈ range dim, S k1 k2 *
      ∑ l2 ∈ range dim, times dim R S l l2 * C i2 j2 k2 l2 =
      ∑ i2 ∈ range dim, S i1 i2 * ∑ j2 ∈ range dim, S j1 j2 * ∑ k2 ∈ range dim, times dim R S k k2 * ∑ l2 ∈ range dim, times dim R S l l2 * C i2 j2 k2 l2 := by
    intro i1 j1
    rw [swap]
    refine Finset.sum_congr rfl fun i2 _ => congrArg _ ?_
    rw [swap]
    refine Finset.sum_congr rfl fun j2 _ => congrArg _ ?_
    exact rot1 dim R S k _
  simp only [e3]
  have e2 : ∀ i1, ∑ j1 ∈ range dim, R j j1 * ∑ i2 ∈ range dim, S i1 i2 * ∑ j2 ∈ range dim, S j1 j2 * ∑ k2 ∈ range dim, times dim R S k k2 *
      ∑ l2 ∈ range dim, times dim R S l l2 * C i2 j2 k2 l2 =
      ∑ i2 ∈ range dim, S i1 i2 * ∑ j2 ∈ range dim, times dim R S j j2 * ∑ k2 ∈ range dim, times dim R S k k2 * ∑ l2 ∈ range dim, times dim R S l l2 * C i2 j2 k2 l2 := by
    intro i1
    rw [swap]
    refine Finset.sum_congr rfl fun i2 _ => congrArg _ ?_
    exact rot1 dim R S j _
  simp only [e2]
  exact rot1 dim R S i _

/-- The energy of a strain is that of the strain seen from the crystal. -/
theorem C129_energy (dim : Nat) (R : Nat → Nat → K) (C : Tensor K) (E : Nat → Nat → K) :
    ∑ i ∈ range dim, ∑ j ∈ range dim, E i j * contract dim (rotated dim R C) E i j =
      ∑ i ∈ range dim, ∑ j ∈ range dim, seen dim R E i j * contract dim C (seen dim R E) i j := by
  simp only [C129_frame]
  generalize contract dim C (seen dim R E) = s
  unfold seen
  simp only [Finset.mul_sum, Finset.sum_mul]
  have h1 : ∀ i ∈ range dim, ∑ j ∈ range dim, ∑ i1 ∈ range dim, ∑ j1 ∈ range dim, E i j * (R i i1 * R j j1 * s i1 j1) =
      ∑ i1 ∈ range dim, ∑ j1 ∈ range dim, ∑ j ∈ range dim, E i j * (R i i1 * R j j1 * s i1 j1) := by
    intro i _
    rw [Finset.sum_comm]
    refine Finset.sum_congr rfl fun i1 _ => ?_
    rw [Finset.sum_comm]
  rw [Finset.sum_congr rfl h1, Finset.sum_comm]
  refine Finset.sum_congr rfl fun i1 _ => ?_
  rw [Finset.sum_comm]
  refine Finset.sum_congr rfl fun j1 _ => Finset.sum_congr rfl fun i _ => Finset.sum_congr rfl fun j _ => by ring

end MrHyDE.Modules.Crystal
