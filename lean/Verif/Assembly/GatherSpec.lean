import Verif.Assembly.Gather

/-! # Gather: specification -/

namespace MrHyDE.Assembly.Gather

open MrHyDE.Time

/-- Entry of a global vector that belongs to unknown `d` of variable `v` on element `e` of a group. -/
def entry {K : Type} [Zero K] (L : Layout) (set : Nat) (g : Group) (vec : List K) (e v d : Nat) : K :=
  vec.getD (g.lid set e (L.off set v d)) 0

/-- A table holds the entries of a vector for all elements of a group. -/
def Holds {K : Type} [Zero K] (L : Layout) (set : Nat) (g : Group) (vec : List K) (t : Table K) : Prop :=
  ∀ e v d, e < g.nelem → v < L.nvars set → d < L.ndof set v → t e v d = entry L set g vec e v d

/-- All local numbers of a group point into a vector. -/
def InRange {K : Type} (L : Layout) (set : Nat) (g : Group) (vec : List K) : Prop :=
  ∀ e v d, e < g.nelem → v < L.nvars set → d < L.ndof set v → g.lid set e (L.off set v d) < vec.length

/-- The vectors of an assembly fit a group. -/
def Fits {K : Type} (L : Layout) (cur : Nat) (V : Vecs K) (g : Group) : Prop :=
  (∀ i vec, V.sol[i]? = some vec → InRange L i g vec) ∧ (∀ vec ∈ V.stages, InRange L cur g vec) ∧
  (∀ vec ∈ V.prevs, InRange L cur g vec)

end MrHyDE.Assembly.Gather
