import Mathlib.Algebra.Module.Defs
import Mathlib.Algebra.Field.Defs
import Mathlib.Algebra.BigOperators.Group.Finset.Basic

/-!
# What a time integrator should do

Nothing here refers to the code: textbook definitions only.
-/

namespace MrHyDE.Time.Spec

/-- Textbook data of a Runge-Kutta method with `s` stages. -/
structure RK (K : Type) where
  s : Nat
  a : Nat → Nat → K
  b : Nat → K
  c : Nat → K

section
variable {K : Type} [Field K]

/-- Row sums equal the abscissae. -/
def RowSums (R : RK K) : Prop := ∀ i < R.s, ∑ j ∈ Finset.range R.s, R.a i j = R.c i

/-- Order conditions of order one (Butcher). -/
def Order1 (R : RK K) : Prop := ∑ i ∈ Finset.range R.s, R.b i = 1

/-- Order conditions up to order two. -/
def Order2 (R : RK K) : Prop :=
  Order1 R ∧ ∑ i ∈ Finset.range R.s, R.b i * R.c i * 2 = 1

/-- Order conditions up to order three. -/
def Order3 (R : RK K) : Prop :=
  Order2 R ∧ ∑ i ∈ Finset.range R.s, R.b i * R.c i ^ 2 * 3 = 1 ∧
  ∑ i ∈ Finset.range R.s, ∑ j ∈ Finset.range R.s, R.b i * R.a i j * R.c j * 6 = 1

/-- Order conditions up to order four. -/
def Order4 (R : RK K) : Prop :=
  Order3 R ∧ ∑ i ∈ Finset.range R.s, R.b i * R.c i ^ 3 * 4 = 1 ∧
  ∑ i ∈ Finset.range R.s, ∑ j ∈ Finset.range R.s, R.b i * R.c i * R.a i j * R.c j * 8 = 1 ∧
  ∑ i ∈ Finset.range R.s, ∑ j ∈ Finset.range R.s, R.b i * R.a i j * R.c j ^ 2 * 12 = 1 ∧
  ∑ i ∈ Finset.range R.s, ∑ j ∈ Finset.range R.s, ∑ k ∈ Finset.range R.s,
    R.b i * R.a i j * R.a j k * R.c k * 24 = 1

/-- `u1` is a result of one step of the Runge-Kutta method `R` from `u0` at `t` for the problem
`F t u u'` (for instance `u' = f t u`, or `M u' = f t u`). -/
def IsStep {V : Type} [AddCommGroup V] [Module K V] (R : RK K) (F : K → V → V → Prop) (t dt : K)
    (u0 u1 : V) : Prop :=
  ∃ k : Nat → V,
    (∀ i < R.s, F (t + R.c i * dt) (u0 + dt • ∑ j ∈ Finset.range R.s, R.a i j • k j) (k i)) ∧
    u1 = u0 + dt • ∑ i ∈ Finset.range R.s, R.b i • k i

end

end MrHyDE.Time.Spec
