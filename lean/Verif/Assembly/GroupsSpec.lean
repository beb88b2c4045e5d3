import Mathlib.Data.List.Basic

/-! # Assembly: grouping of elements, specification

Stated without the model: a grouping is a list of lists of positions. -/

namespace MrHyDE.Assembly

/-- Every one of the `n` items is in exactly one group, no group is empty and none has more than `w` members. -/
def Partition (n w : Nat) (gs : List (List Nat)) : Prop :=
  gs.flatten.Perm (List.range n) ∧ ∀ g ∈ gs, g ≠ [] ∧ g.length ≤ w

/-- All members of one group agree in `f`. -/
def Uniform {A : Type} (f : Nat → A) (gs : List (List Nat)) : Prop := ∀ g ∈ gs, ∀ a ∈ g, ∀ b ∈ g, f a = f b

/-- The list of the boundary groups that element `e` touches. -/
def touches (bgs : List (List Nat)) (e : Nat) : List Bool := bgs.map (fun ids => decide (e ∈ ids))

/-- No later group is bigger than an earlier one (buffers are sized by the first). -/
def FirstBiggest (gs : List (List Nat)) : Prop := gs.Pairwise (fun a b => b.length ≤ a.length)

end MrHyDE.Assembly
