import Mathlib.Algebra.BigOperators.Fin
import Mathlib.Algebra.Order.Field.Basic
import Mathlib.Algebra.Order.Field.Rat

/-!
# Uniform refinement of the reference element of a subgrid mesh: model

`SubGridTools::createSubMesh` with an inline mesh starts from one element and refines all elements `numrefine` times.
Nodes are found again by distance.  `SubGridTools2` repeats the text (src/subgrid/subgridTools2.cpp:398-1150), with
side maps that only hold the flag.
-/

namespace MrHyDE.Subgrid.Refine

variable {K : Type} {n : Nat}

/-- A node: as many coordinates as dimensions, `vector<ScalarT>` in src/subgrid/subgridTools.cpp:409-410. -/
abbrev Pt (K : Type) (n : Nat) := Fin n → K

/-- The side map of an element: for every side the flag (`0` or `1`) and the side of the coarse element,
src/subgrid/subgridTools.cpp:426-437. -/
abbrev SideMap := List (Int × Int)

/-- One entry of `subconnectivity_` and of `subsidemap_`; the code keeps two arrays that grow together,
src/subgrid/subgridTools.cpp:211, 218. -/
structure Elem where
  conn : List Nat
  map : SideMap
  deriving DecidableEq, Repr

/-- The arrays `subnodes_`, `subconnectivity_` and `subsidemap_`, src/subgrid/subgridTools.cpp:208-218. -/
structure Mesh (K : Type) (n : Nat) where
  nodes : List (Pt K n)
  elems : List Elem

section
variable [Field K] [LinearOrder K]

/-- The sum of squares of `checkExistingSubNodes`, src/subgrid/subgridTools.cpp:1218-1221. -/
def distSq (a b : Pt K n) : K := ∑ i, (a i - b i) * (a i - b i)

/-- `checkExistingSubNodes`, src/subgrid/subgridTools.cpp:1212-1230: the first node nearer than the tolerance.  The test
`sqrt(val) < tol` is written without the root, which is the same for a positive tolerance. -/
def checkExisting (tol : K) (nodes : List (Pt K n)) (p : Pt K n) : Option Nat :=
  nodes.findIdx? (fun q => decide (distSq q p < tol * tol))

/-- Check if a node has been added and add it if not; the index of the node, src/subgrid/subgridTools.cpp:461-465. -/
def addNode (tol : K) (nodes : List (Pt K n)) (p : Pt K n) : List (Pt K n) × Nat :=
  match checkExisting tol nodes p with
  | some k => (nodes, k)
  | none => (nodes ++ [p], nodes.length)

/-- The candidate nodes in the order in which they are added, src/subgrid/subgridTools.cpp:461-477. -/
def addNodes (tol : K) : List (Pt K n) → List (Pt K n) → List (Pt K n) × List Nat
  | nodes, [] => (nodes, [])
  | nodes, p :: ps =>
    let a := addNode tol nodes p
    let b := addNodes tol a.1 ps
    (b.1, a.2 :: b.2)

/-- The mean of some nodes, `0.5*(..+..)`, `0.25*(..)`, `0.125*(..)`, coordinate by coordinate,
src/subgrid/subgridTools.cpp:449-454, 542-551 and 840-899. -/
def avg (ps : List (Pt K n)) : Pt K n := fun i => 1 / (ps.length : K) * (ps.map (fun p => p i)).sum

end

/-- How an element is divided.  A node is named by the vertices of which it is the mean, so `[0,1]` is `mid01` and `[0]` the
first vertex: the nodes to add in their order, the nodes of the children, and the sides whose entries are set to zero in
each child, src/subgrid/subgridTools.cpp:441-531. -/
structure Scheme where
  added : List (List Nat)
  children : List (List (List Nat))
  cleared : List (List Nat)

/-- The index of a node of a child: a vertex of the parent or one of the nodes just added,
src/subgrid/subgridTools.cpp:482-485. -/
def ref (s : Scheme) (conn idx : List Nat) (r : List Nat) : Option Nat :=
  match r with
  | [i] => conn[i]?
  | r => idx[s.added.idxOf r]?

/-- The side map of a child: the map of the parent, with some sides set to zero,
src/subgrid/subgridTools.cpp:503-524. -/
def clear (m : SideMap) (sides : List Nat) : SideMap := sides.foldl (fun m j => m.set j (0, 0)) m

section
variable [Field K] [LinearOrder K]

/-- The mean of the vertices with the given local numbers, src/subgrid/subgridTools.cpp:443-454. -/
def named (vs : List (Pt K n)) (r : List Nat) : Option (Pt K n) := (r.mapM (fun i => vs[i]?)).map avg

/-- `refineSubCell` on element `e` of the mesh, src/subgrid/subgridTools.cpp:406-1206: nodes and elements are added at the
end.  An access outside an array is `none`. -/
def refineSubCell (s : Scheme) (tol : K) (m : Mesh K n) (e : Nat) : Option (Mesh K n) := do
  let el ← m.elems[e]?
  let vs ← el.conn.mapM (fun i => m.nodes[i]?)
  let cand ← s.added.mapM (named vs)
  let a := addNodes tol m.nodes cand
  let conns ← s.children.mapM (fun c => c.mapM (ref s el.conn a.2))
  let maps := s.cleared.map (clear el.map)
  pure { nodes := a.1, elems := m.elems ++ (conns.zip maps).map (fun p => ⟨p.1, p.2⟩) }

/-- One refinement of the whole mesh: the elements that were there, one after the other, then these are removed,
src/subgrid/subgridTools.cpp:378-385. -/
def refineAll (s : Scheme) (tol : K) (m : Mesh K n) : Option (Mesh K n) := do
  let m' ← (List.range m.elems.length).foldlM (refineSubCell s tol) m
  pure { m' with elems := m'.elems.drop m.elems.length }

/-- The loop over the refinements, src/subgrid/subgridTools.cpp:378-385. -/
def refineTimes (s : Scheme) (tol : K) : Nat → Mesh K n → Option (Mesh K n)
  | 0, m => some m
  | r + 1, m => (refineAll s tol m).bind (refineTimes s tol r)

/-- `refineSubCell` in one dimension, src/subgrid/subgridTools.cpp:408-439: no search for the node; the two new elements
refer to `subnodes_.size()` after the node has been added. -/
def refineSubCell1 (m : Mesh K 1) (e : Nat) : Option (Mesh K 1) := do
  let el ← m.elems[e]?
  let i0 ← el.conn[0]?
  let i1 ← el.conn[1]?
  let n0 ← m.nodes[i0]?
  let n1 ← m.nodes[i1]?
  let nodes := m.nodes ++ [avg [n0, n1]]
  pure { nodes := nodes, elems := m.elems ++
    [⟨[i0, nodes.length], clear el.map [1]⟩, ⟨[nodes.length, i1], clear el.map [0]⟩] }

end

/-- Triangles, src/subgrid/subgridTools.cpp:441-532: the nodes (448-477), the children (480-500), the sides (513-524). -/
def tri : Scheme where
  added := [[0, 1], [1, 2], [0, 2]]
  children := [[[0], [0, 1], [0, 2]], [[1], [0, 1], [1, 2]], [[2], [0, 2], [1, 2]], [[0, 1], [1, 2], [0, 2]]]
  cleared := [[1], [1], [1], [0, 1, 2]]

/-- Quadrilaterals, src/subgrid/subgridTools.cpp:533-650: the nodes (541-586), the children (589-613), the sides
(625-643). -/
def quad : Scheme where
  added := [[0, 1, 2, 3], [0, 1], [1, 2], [2, 3], [0, 3]]
  children :=
    [[[0], [0, 1], [0, 1, 2, 3], [0, 3]], [[0, 1], [1], [1, 2], [0, 1, 2, 3]],
     [[0, 1, 2, 3], [1, 2], [2], [2, 3]], [[0, 3], [0, 1, 2, 3], [2, 3], [3]]]
  cleared := [[1, 2], [2, 3], [0, 3], [0, 1]]

/-- Tetrahedra, src/subgrid/subgridTools.cpp:656-823: the nodes (664-724), the children (727-775), the sides (796-812). -/
def tet : Scheme where
  added := [[0, 1], [1, 2], [0, 2], [0, 3], [1, 3], [2, 3]]
  children :=
    [[[0], [0, 1], [0, 2], [0, 3]], [[1], [1, 2], [0, 1], [1, 3]], [[2], [0, 2], [1, 2], [2, 3]],
     [[0, 3], [1, 3], [2, 3], [3]], [[0, 1], [1, 2], [0, 2], [0, 3]], [[0, 3], [1, 3], [2, 3], [1, 2]],
     [[0, 3], [1, 3], [2, 3], [1, 2]], [[0, 3], [1, 3], [2, 3], [1, 2]]]
  cleared := [[2], [2], [2], [0], [1, 2, 3], [2], [], []]

/-- Hexahedra, src/subgrid/subgridTools.cpp:824-1201: the nodes (836-1022), the children (1025-1113), the sides
(1136-1190). -/
def hex : Scheme where
  added :=
    [[0, 1, 2, 3], [0, 1], [1, 2], [2, 3], [0, 3], [0, 1, 2, 3, 4, 5, 6, 7], [0, 4], [1, 5], [2, 6], [3, 7],
     [0, 1, 4, 5], [1, 2, 5, 6], [2, 3, 6, 7], [0, 3, 4, 7], [4, 5, 6, 7], [4, 5], [5, 6], [6, 7], [4, 7]]
  children :=
    [[[0], [0, 1], [0, 1, 2, 3], [0, 3], [0, 4], [0, 1, 4, 5], [0, 1, 2, 3, 4, 5, 6, 7], [0, 3, 4, 7]],
     [[0, 1], [1], [1, 2], [0, 1, 2, 3], [0, 1, 4, 5], [1, 5], [1, 2, 5, 6], [0, 1, 2, 3, 4, 5, 6, 7]],
     [[0, 1, 2, 3], [1, 2], [2], [2, 3], [0, 1, 2, 3, 4, 5, 6, 7], [1, 2, 5, 6], [2, 6], [2, 3, 6, 7]],
     [[0, 3], [0, 1, 2, 3], [2, 3], [3], [0, 3, 4, 7], [0, 1, 2, 3, 4, 5, 6, 7], [2, 3, 6, 7], [3, 7]],
     [[0, 4], [0, 1, 4, 5], [0, 1, 2, 3, 4, 5, 6, 7], [0, 3, 4, 7], [4], [4, 5], [4, 5, 6, 7], [4, 7]],
     [[0, 1, 4, 5], [1, 5], [1, 2, 5, 6], [0, 1, 2, 3, 4, 5, 6, 7], [4, 5], [5], [5, 6], [4, 5, 6, 7]],
     [[0, 1, 2, 3, 4, 5, 6, 7], [1, 2, 5, 6], [2, 6], [2, 3, 6, 7], [4, 5, 6, 7], [5, 6], [6], [6, 7]],
     [[0, 3, 4, 7], [0, 1, 2, 3, 4, 5, 6, 7], [2, 3, 6, 7], [3, 7], [4, 7], [4, 5, 6, 7], [6, 7], [7]]]
  cleared := [[1, 2, 5], [2, 3, 5], [0, 3, 5], [0, 1, 5], [1, 2, 4], [2, 3, 4], [0, 3, 4], [0, 1, 4]]

/-- The start when fine and coarse elements have the same shape: one element, every side flagged with its own number,
src/subgrid/subgridTools.cpp:201-220. -/
def start (nodes : List (Pt K n)) (numSides : Nat) : Mesh K n :=
  { nodes := nodes, elems := [⟨List.range nodes.length, (List.range numSides).map (fun (s : Nat) => ((1 : Int), (s : Int)))⟩] }

/-- The flagged entry for a side of the coarse element: `-1` unless the first coarse element has a condition there,
src/subgrid/subgridTools.cpp:257-261. -/
def splitSide (cond : Nat → Int) (s : Nat) : Int × Int := (1, if cond s > 0 then (s : Int) else -1)

/-- The start for triangles in a quadrilateral, src/subgrid/subgridTools.cpp:226-286; `cond s` is
`sideinfo_(0,0,s,0)`. -/
def quadToTri [Field K] (v0 v1 v2 v3 : Pt K 2) (cond : Nat → Int) : Mesh K 2 :=
  { nodes := [v0, v1, v2, v3, avg [v0, v1, v2, v3]]
    elems := [⟨[0, 1, 4], [splitSide cond 0, (0, 0), (0, 0)]⟩, ⟨[1, 2, 4], [splitSide cond 1, (0, 0), (0, 0)]⟩,
      ⟨[2, 3, 4], [splitSide cond 2, (0, 0), (0, 0)]⟩, ⟨[3, 0, 4], [splitSide cond 3, (0, 0), (0, 0)]⟩] }

/-- The start for quadrilaterals in a triangle, src/subgrid/subgridTools.cpp:287-366. -/
def triToQuad [Field K] (v0 v1 v2 : Pt K 2) (cond : Nat → Int) : Mesh K 2 :=
  { nodes := [v0, v1, v2, avg [v0, v1, v2], avg [v0, v1], avg [v1, v2], avg [v0, v2]]
    elems := [⟨[0, 4, 3, 6], [splitSide cond 0, (0, 0), (0, 0), splitSide cond 2]⟩,
      ⟨[1, 5, 3, 4], [splitSide cond 1, (0, 0), (0, 0), splitSide cond 0]⟩,
      ⟨[2, 6, 3, 5], [splitSide cond 2, (0, 0), (0, 0), splitSide cond 1]⟩] }

end MrHyDE.Subgrid.Refine
