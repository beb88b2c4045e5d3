import Verif.Assembly.Scatter

/-! # Assembly: specification

What an assembled residual and matrix are: sums over elements and over (pairs of) local unknowns. -/

namespace MrHyDE.Assembly

variable {K : Type} [CommRing K]

/-- Contribution of one element with local unknowns `pos` to residual entry `r`. -/
def elemRes (pos : List Nat) (e : Elem K) (r : Nat) : K := (pos.map (fun p => if e.lid p = r then -e.val p else 0)).sum

/-- The same for the derivative of the residual with respect to active parameter `g`. -/
def elemSens (pos : List Nat) (e : Elem K) (r g : Nat) : K :=
  (pos.map (fun p => if e.lid p = r then -e.dx p g else 0)).sum

/-- Contribution of one element to matrix entry `(r, c)`. -/
def elemJac (pos : List Nat) (e : Elem K) (r c : Nat) : K :=
  (pos.map (fun p => (pos.map (fun q => if e.lid p = r ∧ e.lid q = c then e.dx p q else 0)).sum)).sum

/-- Sum of row `r` of the local matrix of one element. -/
def elemRow (pos : List Nat) (e : Elem K) (r : Nat) : K :=
  (pos.map (fun p => (pos.map (fun q => if e.lid p = r then e.dx p q else 0)).sum)).sum

/-- Residual entry asked for: the residual itself, or its derivative for each active parameter. -/
def resWanted (rq : Request) (pos : List Nat) (e : Elem K) (r g : Nat) : K :=
  match rq.sens with
  | none => if g = 0 then elemRes pos e r else 0
  | some n => if g < n then elemSens pos e r g else 0

/-- Matrix entry asked for: the Jacobian or its transpose. -/
def jacWanted (rq : Request) (pos : List Nat) (e : Elem K) (r c : Nat) : K :=
  if rq.jac then (if rq.adjoint then elemJac pos e c r else elemJac pos e r c) else 0

/-- Sum of a contribution over all elements of the mesh. -/
def overMesh (f : List Nat → Elem K → K) (mesh : Mesh K) : K :=
  (mesh.map (fun b => (b.2.flatten.map (f b.1.pos)).sum)).sum

/-- The local unknowns are exactly the columns of the table of local numbers, each once. -/
def FullBlock (b : Block) : Prop := b.pos.Perm (List.range b.width)

/-- The weaker condition that they are distinct columns of the table. -/
def PartBlock (b : Block) : Prop := b.pos.Nodup ∧ ∀ p ∈ b.pos, p < b.width

/-- The graph of the matrix contains all couplings of the elements. -/
def Covers (pat : Nat → Nat → Bool) (mesh : Mesh K) : Prop :=
  ∀ b ∈ mesh, ∀ e ∈ b.2.flatten, ∀ p ∈ b.1.pos, ∀ q ∈ b.1.pos, pat (e.lid p) (e.lid q) = true

end MrHyDE.Assembly
