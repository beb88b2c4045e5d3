import Verif.Opt.Model

/-!
# Specification of optimisation vectors

A vector is the list of all its numbers; two vectors can be combined when they have the same components present with
the same sizes.
-/

namespace MrHyDE.Opt

variable {K : Type}

/-- All numbers of a list of components. -/
def flat : Comps K → List K
  | [] => []
  | none :: cs => flat cs
  | some u :: cs => u ++ flat cs

/-- All numbers of a vector. -/
def OptVec.entries (x : OptVec K) : List K := flat x.field ++ flat x.scalar

/-- Size of the component with a given number; `none` for a null component and past the end. -/
def sizeAt (c : Comps K) (i : Nat) : Option Nat := (c[i]?.join).map List.length

/-- Same components present, with the same sizes. -/
def SameC (c d : Comps K) : Prop := ∀ i : Nat, sizeAt c i = sizeAt d i

/-- Two vectors of the same space. -/
def Same (x y : OptVec K) : Prop := SameC x.field y.field ∧ SameC x.scalar y.scalar

/-- Same metric data. -/
def SameMetric (x y : OptVec K) : Prop :=
  x.isDual = y.isDual ∧ x.dscale = y.dscale ∧ x.diag = y.diag ∧ x.haveMass = y.haveMass

/-- The mass vector fits the field components. -/
def Fits (x : OptVec K) : Prop := ∀ D, x.diag = some D → ∀ u, some u ∈ x.field → u.length = D.length

/-- A metric is given: a diagonal, or no mass at all. -/
def HasMetric (x : OptVec K) : Prop := x.diag = none → x.haveMass = false

/-- Weighted sum of products. -/
def wsum [Field K] : List K → List K → List K → K
  | w :: ws, a :: as, b :: bs => w * a * b + wsum ws as bs
  | _, _, _ => 0

section
variable [Field K]

/-- Weights of the field components: the diagonal mass or the scale, inverted for dual vectors. -/
def fieldWeights (x : OptVec K) : Comps K → List K
  | [] => []
  | none :: cs => fieldWeights x cs
  | some u :: cs =>
    (match x.diag with
     | some D => D.map (fun d => if x.isDual then d⁻¹ else d)
     | none => u.map (fun _ => if x.isDual then x.dscale⁻¹ else x.dscale)) ++ fieldWeights x cs

/-- Weights of all entries; scalars have weight one. -/
def weights (x : OptVec K) : List K := fieldWeights x x.field ++ (flat x.scalar).map (fun _ => 1)

end

end MrHyDE.Opt
