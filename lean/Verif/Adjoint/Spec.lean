import Verif.Adjoint.Model

/-! # Transient adjoint: specification -/

namespace MrHyDE.Adjoint

open Matrix

variable {K : Type} [Field K] [LinearOrder K] [IsStrictOrderedRing K] {ι π : Type} [Fintype ι] [Fintype π]

/-- The size of step `n` of the forward run. -/
def dts (times : Nat → K) (n : Nat) : K := times n - times (n - 1)

/-- `du` is the change of the recorded states caused by the change `dp` of the parameters: the initial state does not change,
and the discrete equation of every step, with the step size of the forward run and `steps` previous states, stays satisfied. -/
structure Tangent (L : Lin K ι π) (steps N : Nat) (times : Nat → K) (dp : π → K) (du : Nat → ι → K) : Prop where
  init : du 0 = 0
  step : ∀ n, 1 ≤ n → n ≤ N →
    L.A n (dts times n) *ᵥ du n +
      ((List.range (min steps n)).map (fun k => L.B n (dts times n) k *ᵥ du (n - (k + 1)))).sum +
      L.C n (dts times n) *ᵥ dp = 0

/-- The change of the objective, the sum over the steps of step size times integrand. -/
def change (L : Lin K ι π) (N : Nat) (times : Nat → K) (dp : π → K) (du : Nat → ι → K) : K :=
  ((List.range N).map (fun i => dts times (i + 1) * (L.q (i + 1) ⬝ᵥ du (i + 1) + L.r (i + 1) ⬝ᵥ dp))).sum

/-- `g` is the gradient of the objective with respect to the parameters. -/
def IsGradient (L : Lin K ι π) (steps N : Nat) (times : Nat → K) (g : π → K) : Prop :=
  ∀ dp du, Tangent L steps N times dp du → g ⬝ᵥ dp = change L N times dp du

/-- The linear solver solves the systems it is given. -/
def Exact (L : Lin K ι π) (solve : Matrix ι ι K → (ι → K) → ι → K) (c : Cfg K) : Prop :=
  ∀ n, 1 ≤ n → n ≤ c.N → ∀ b, (L.A n c.deltat)ᵀ *ᵥ solve (L.A n c.deltat)ᵀ b = b

/-- Steps of equal size, that of the member `deltat`, starting at a nonnegative time, and not so many that the tolerance for
equal times exceeds a step. -/
structure Uniform (c : Cfg K) : Prop where
  pos : 0 < c.deltat
  start : 0 ≤ c.times 0
  step : ∀ n, n < c.N → c.times (n + 1) = c.times n + c.deltat
  fine : c.tol * c.times c.N ≤ c.deltat
  tolPos : 0 < c.tol

end MrHyDE.Adjoint
