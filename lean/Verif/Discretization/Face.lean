import Mathlib.Algebra.Order.Field.Basic
import Mathlib.Algebra.Order.Ring.Abs
import Mathlib.Algebra.BigOperators.Fin
import Mathlib.Data.List.OfFn

/-! # Bases on the sides of elements: model

The bases of type `HFACE`: /repo/src/tools/Intrepid2_HFACE_QUAD_In_FEMdef.hpp, Intrepid2_HFACE_TRI_In_FEMdef.hpp,
Intrepid2_HFACE_HEX_In_FEMdef.hpp, Intrepid2_HFACE_TET_In_FEMdef.hpp, and the splitting of the points into batches in
Intrepid2_HFACE_QUAD_In_FEM.hpp (the same in the others).

The functions on the interval [-1, 1] (`Basis_HGRAD_LINE_Cn_FEM` of Intrepid2) are given: `l j` is the polynomial of number `j`,
`c j` its node.  Numbers are exact; `tol` is the 1.0e-12 of the code.  Sizes of the work arrays are not modelled. -/

namespace MrHyDE.Disc.Face

set_option linter.unusedSectionVars false

variable {K : Type} [Field K] [LinearOrder K] [IsStrictOrderedRing K] {n : Nat} {α : Type}

/-- Functions of the sides one after the other: the running `idx`; Intrepid2_HFACE_QUAD_In_FEMdef.hpp:90-197. -/
def blocks (l : List (Fin n → α)) : List α := (l.map List.ofFn).flatten

/-- Functions of one face of a hexahedron: outer loop `j`, inner loop `i`; Intrepid2_HFACE_HEX_In_FEMdef.hpp:106-113. -/
def grid (f : Fin n → Fin n → α) : List α := (List.ofFn fun j => List.ofFn fun i => f j i).flatten

/-- Functions of the faces one after the other; Intrepid2_HFACE_HEX_In_FEMdef.hpp:97-269. -/
def faces (l : List (Fin n → Fin n → α)) : List α := (l.map grid).flatten

/-- Functions of one side: those of the line if the point counts as on the side, else zero; Intrepid2_HFACE_QUAD_In_FEMdef.hpp:92-115. -/
def side (on : Bool) (f : Fin n → K) : Fin n → K := fun j => if on then f j else 0

/-- Functions of one face; Intrepid2_HFACE_HEX_In_FEMdef.hpp:99-125. -/
def face (on : Bool) (f : Fin n → Fin n → K) : Fin n → Fin n → K := fun j i => if on then f j i else 0

/-- The comparison with zero; Intrepid2_HFACE_QUAD_In_FEMdef.hpp:94. -/
def near (tol a : K) : Bool := decide (|a| < tol)

/-- Values of all functions of the quadrilateral at the point `p` of a batch, whose first point decides on which sides it is:
left, bottom, right, top; Intrepid2_HFACE_QUAD_In_FEMdef.hpp:91-197. -/
def quadValues (l : Fin n → K → K) (tol : K) (first p : K × K) : List K :=
  blocks [side (near tol (first.1 + 1)) (fun j => l j p.2),
    side (near tol (first.2 + 1)) (fun j => l j p.1),
    side (near tol (first.1 - 1)) (fun j => l j p.2),
    side (near tol (first.2 - 1)) (fun j => l j p.1)]

/-- Edge and number on it of each function of the quadrilateral; Intrepid2_HFACE_QUAD_In_FEMdef.hpp:309-349. -/
def quadTags (n : Nat) : List (Nat × Nat) :=
  blocks (n := n) [fun j => (3, j.val), fun j => (0, j.val), fun j => (1, j.val), fun j => (2, j.val)]

/-- Coordinates of the nodes of the quadrilateral; Intrepid2_HFACE_QUAD_In_FEMdef.hpp:386-419. -/
def quadCoords (c : Fin n → K) : List (K × K) :=
  blocks [fun j => (-1, c j), fun j => (c j, -1), fun j => (1, c j), fun j => (c j, 1)]

/-- Values at points given in batches of `m`, point `k` being in batch `k / m`; Intrepid2_HFACE_QUAD_In_FEM.hpp:123-139, 193-199,
Intrepid2_HFACE_QUAD_In_FEMdef.hpp:225-251. -/
def evaluate {P : Type} (f : P → P → List K) (m : Nat) (pts : List P) : List (List K) :=
  pts.mapIdx (fun k p => f (pts.getD (k / m * m) p) p)

/-- Values of all functions of the triangle: sides `x = 0`, `y = 0`, `x + y = 1`; Intrepid2_HFACE_TRI_In_FEMdef.hpp:94-174. -/
def triValues (l : Fin n → K → K) (tol : K) (first p : K × K) : List K :=
  blocks [side (near tol (first.1 - 0)) (fun j => l j p.2),
    side (near tol (first.2 - 0)) (fun j => l j p.1),
    side (near tol (first.1 + first.2 - 1)) (fun j => l j p.1)]

/-- Edge and number on it of each function of the triangle; Intrepid2_HFACE_TRI_In_FEMdef.hpp:285-315. -/
def triTags (n : Nat) : List (Nat × Nat) :=
  blocks (n := n) [fun j => (2, j.val), fun j => (0, j.val), fun j => (1, j.val)]

/-- Coordinates of the nodes of the triangle; Intrepid2_HFACE_TRI_In_FEMdef.hpp:352-378. -/
def triCoords (c : Fin n → K) : List (K × K) :=
  blocks [fun j => (0, c j), fun j => (c j, 0), fun j => (c j, 1 - c j)]

/-- Values of all functions of the hexahedron: `x = -1`, `y = -1`, `x = 1`, `y = 1`, `z = -1`, `z = 1`;
Intrepid2_HFACE_HEX_In_FEMdef.hpp:97-269. -/
def hexValues (l : Fin n → K → K) (tol : K) (first p : K × K × K) : List K :=
  faces [face (near tol (first.1 + 1)) (fun j i => l i p.2.1 * l j p.2.2),
    face (near tol (first.2.1 + 1)) (fun j i => l i p.1 * l j p.2.2),
    face (near tol (first.1 - 1)) (fun j i => l j p.2.1 * l i p.2.2),
    face (near tol (first.2.1 - 1)) (fun j i => l i p.1 * l j p.2.2),
    face (near tol (first.2.2 + 1)) (fun j i => l i p.1 * l j p.2.1),
    face (near tol (first.2.2 - 1)) (fun j i => l i p.1 * l j p.2.1)]

/-- Face and number on it of each function of the hexahedron; Intrepid2_HFACE_HEX_In_FEMdef.hpp:381-457. -/
def hexTags (n : Nat) : List (Nat × Nat) :=
  faces (n := n) [fun j i => (3, j.val * n + i.val), fun j i => (0, j.val * n + i.val), fun j i => (1, j.val * n + i.val),
    fun j i => (2, j.val * n + i.val), fun j i => (4, j.val * n + i.val), fun j i => (5, j.val * n + i.val)]

/-- Coordinates of the nodes of the hexahedron; Intrepid2_HFACE_HEX_In_FEMdef.hpp:491-555. -/
def hexCoords (c : Fin n → K) : List (K × K × K) :=
  faces [fun j i => (-1, c j, c i), fun j i => (c j, -1, c i), fun j i => (1, c j, c i), fun j i => (c j, 1, c i),
    fun j i => (c j, c i, -1), fun j i => (c j, c i, 1)]

/-- Values of the functions of the tetrahedron of order zero, each point by itself: `y = 0`, `x + y + z = 1`, `x = 0`, `z = 0`;
Intrepid2_HFACE_TET_In_FEMdef.hpp:91-171. -/
def tetValues (tol : K) (p : K × K × K) : List K :=
  [if near tol (p.2.1 - 0) then 1 else 0, if near tol (p.1 + p.2.1 + p.2.2 - 1) then 1 else 0,
    if near tol (p.1 - 0) then 1 else 0, if near tol (p.2.2 - 0) then 1 else 0]

/-- Construction of the tetrahedral basis: the nodes of the triangle are copied into a view that has memory for order zero only
(none otherwise); Intrepid2_HFACE_TET_In_FEMdef.hpp:253-272.  The result is the number of functions. -/
def tetConstruct (order : Nat) : Option Nat := if order = 0 then some 4 else none

/-! ## Specification -/

/-- [specification, no code] The point of edge `e` of the reference quadrilateral at parameter `s` in the direction of the edge:
vertices (-1,-1), (1,-1), (1,1), (-1,1) in turn. -/
def quadEdge (e : Nat) (s : K) : K × K :=
  match e with
  | 0 => (s, -1)
  | 1 => (1, s)
  | 2 => (-s, 1)
  | _ => (-1, -s)

/-- [specification, no code] The point of edge `e` of the reference triangle at parameter `s` from 0 to 1: vertices (0,0), (1,0),
(0,1) in turn. -/
def triEdge (e : Nat) (s : K) : K × K :=
  match e with
  | 0 => (s, 0)
  | 1 => (1 - s, s)
  | _ => (0, 1 - s)

/-- [specification, no code] Polynomials of a line with their nodes: the values are those of the identity matrix. -/
def Nodal (l : Fin n → K → K) (c : Fin n → K) : Prop := ∀ i j, l i (c j) = if i = j then 1 else 0

/-- [specification, no code] The constant is represented. -/
def Unity (l : Fin n → K → K) : Prop := ∀ s, (List.ofFn fun j => l j s).sum = 1

end MrHyDE.Disc.Face
