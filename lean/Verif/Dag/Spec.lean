import Mathlib.Logic.Relation
import Verif.Dag.Model

/-
Specification vocabulary for the dependency check: reachability and cycles of the
reference graph.  Only `Graph.leaf` and `Graph.succ` are mentioned.
-/

namespace MrHyDE.Dag

variable {α : Type}

/-- `a` refers directly to `b`. -/
def Graph.Edge (G : Graph α) (a b : α) : Prop := G.leaf a = none ∧ b ∈ G.succ a

/-- `a` refers to `b` through a chain of any length (possibly zero). -/
def Graph.Reach (G : Graph α) : α → α → Prop := Relation.ReflTransGen G.Edge

/-- Some definition reachable from `v` refers, through a chain of positive length, to
    itself. -/
def Graph.HasCycleFrom (G : Graph α) (v : α) : Prop :=
  ∃ w, G.Reach v w ∧ Relation.TransGen G.Edge w w

/-- `N` bounds the number of branches: all branches reachable from `v` lie in a list of
    length at most `N`. -/
def Graph.Bounded (G : Graph α) (N : Nat) (v : α) : Prop :=
  ∃ V : List α, V.length ≤ N ∧ ∀ w, G.Reach v w → w ∈ V

end MrHyDE.Dag
