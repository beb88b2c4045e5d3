import Mathlib.Data.List.Basic

/-!
# Parameter manager: specification

Independent description of the vector of the components of all parameters of one type: the parameters in
order, each with its components in order.
-/

namespace MrHyDE.Param.Spec

/-- Number of components of parameters of type `ty` among the first `i` parameters. -/
def before {K : Type} (ty : Int) (types : List Int) (row : List (List K)) (i : Nat) : Nat :=
  (((types.zip row).take i).map (fun q => if q.1 = ty then q.2.length else 0)).sum

/-- Number of components of all parameters of type `ty`. -/
def count {K : Type} (ty : Int) (types : List Int) (row : List (List K)) : Nat :=
  ((types.zip row).map (fun q => if q.1 = ty then q.2.length else 0)).sum

/-- Parameter number `i` exists, has type `ty` and a component number `j`. -/
def HasComp {K : Type} (ty : Int) (types : List Int) (row : List (List K)) (i j : Nat) : Prop :=
  types[i]? = some ty ∧ ∃ c, row[i]? = some c ∧ j < c.length

/-- Component `j` of parameter `i`. -/
def comp {K : Type} (row : List (List K)) (i j : Nat) : Option K := row[i]?.bind (fun c => c[j]?)

/-- The vector `v` lists the components of type `ty`: component `j` of parameter `i` is entry
`before i + j`. -/
def Lists {K : Type} (ty : Int) (types : List Int) (row : List (List K)) (v : List K) : Prop :=
  v.length = count ty types row ∧
  ∀ i j : Nat, HasComp ty types row i j → v[before ty types row i + j]? = comp row i j

/-- Two tables of values have the same shape. -/
def SameShape {K : Type} (a b : List (List K)) : Prop := a.map List.length = b.map List.length

end MrHyDE.Param.Spec
