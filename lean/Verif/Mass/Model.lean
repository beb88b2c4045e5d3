import Mathlib.Algebra.Order.AbsoluteValue.Basic
import Mathlib.Algebra.Order.Ring.Abs
import Mathlib.Algebra.BigOperators.Group.List.Basic

/-! # Mass matrices

/repo/src/managers/assembly/assemblyManager_mass.hpp: `getWeightedMass` (global 13-275, local 1065-1140), `applyMassMatrixFree`
555-745; database of mass matrices, /repo/src/managers/assembly/assemblyManager_database.hpp:740-925.  Sums are exact; the loops
over elements are sequential (concurrent atomic additions give the same sums).  The sparsifying quadrature is left out. -/

namespace MrHyDE.Mass

variable {K : Type}

/-- An element as the mass loops see it: positions of the degrees of freedom of each variable, numbers in the global vector,
basis functions of each variable (function, point, component), number of points and of components (0 for bases other than
HGRAD, HVOL, HDIV, HCURL, which are skipped), weights of the points; assemblyManager_mass.hpp:1073-1135. -/
structure Elem (K : Type) where
  /-- `offsets(n,·)`, `numDOF(n)`; assemblyManager_mass.hpp:1080, 1095 -/
  vars : List (List Nat)
  /-- `LIDs(elem,·)`; assemblyManager_mass.hpp:72 -/
  lids : Nat → Nat
  /-- `cbasis(e,i,k,dim)` for variable `n`; assemblyManager_mass.hpp:1096 -/
  basis : Nat → Nat → Nat → Nat → K
  /-- `cbasis.extent(2)`; assemblyManager_mass.hpp:1107 -/
  points : Nat
  /-- number of components in the sum, by type of basis; assemblyManager_mass.hpp:1100-1128 -/
  comps : Nat → Nat
  /-- `cwts(e,k)`; assemblyManager_mass.hpp:1078 -/
  wts : Nat → K

/-- A list with positions, as the loop counters give them; assemblyManager_mass.hpp:1094-1106. -/
def enum {A : Type} (l : List A) : List (A × Nat) := l.zip (List.range l.length)

/-- The loops over variables and pairs of their functions: variable, functions, their positions; assemblyManager_mass.hpp:1094-1106,
584-610, 727-733. -/
def pairs (vars : List (List Nat)) : List (Nat × Nat × Nat × Nat × Nat) :=
  (enum vars).flatMap (fun v => (enum v.1).flatMap (fun a => (enum v.1).map (fun b => (v.2, a.2, b.2, a.1, b.1))))

section
variable [CommRing K]

/-- Terms of one entry, over points and components; assemblyManager_mass.hpp:1107-1109, 1122-1126. -/
def terms (mwt : Nat → K) (E : Elem K) (n i j : Nat) : List K :=
  (List.range E.points).flatMap (fun k => (List.range (E.comps n)).map (fun d =>
    E.basis n i k d * E.basis n j k d * E.wts k * mwt n))

/-- Addition to an entry of a matrix; assemblyManager_mass.hpp:1108. -/
def addTo (m : Nat → Nat → K) (r c : Nat) (v : K) : Nat → Nat → K := fun a b => if a = r ∧ b = c then m a b + v else m a b

/-- The local mass matrix: zero at first, then additions for all variables, pairs, points and components;
assemblyManager_mass.hpp:1065-1132 and assemblyManager_database.hpp:880-920. -/
def localMass (mwt : Nat → K) (E : Elem K) : Nat → Nat → K :=
  (pairs E.vars).foldl (fun m p => (terms mwt E p.1 p.2.1 p.2.2.1).foldl (fun m v => addTo m p.2.2.2.1 p.2.2.2.2 v) m)
    (fun _ _ => 0)

/-- Addition to an entry of a vector; assemblyManager_mass.hpp:733. -/
def addV (y : Nat → K) (r : Nat) (v : K) : Nat → K := fun a => if a = r then y a + v else y a

/-- Matrix-free product with stored local matrices `m`; `m` is the own matrix (assemblyManager_mass.hpp:723-740), or that of the
representative in the database (694-720). -/
def applyStored (m : Nat → Nat → K) (E : Elem K) (x y : Nat → K) : Nat → K :=
  (pairs E.vars).foldl (fun y p => addV y (E.lids p.2.2.2.1) (m p.2.2.2.1 p.2.2.2.2 * x (E.lids p.2.2.2.2))) y

/-- Matrix-free product without stored matrices; assemblyManager_mass.hpp:576-645. -/
def applyComputed (mwt : Nat → K) (E : Elem K) (x y : Nat → K) : Nat → K :=
  (pairs E.vars).foldl (fun y p => addV y (E.lids p.2.2.2.1)
    ((terms mwt E p.1 p.2.1 p.2.2.1).foldl (fun s v => s + v) 0 * x (E.lids p.2.2.2.2))) y

/-- Insertion of a local matrix into the global one; assemblyManager_mass.hpp:155-180. -/
def insert (m : Nat → Nat → K) (E : Elem K) (M : Nat → Nat → K) : Nat → Nat → K :=
  (pairs E.vars).foldl (fun M p => addTo M (E.lids p.2.2.2.1) (E.lids p.2.2.2.2) (m p.2.2.2.1 p.2.2.2.2)) M

/-- The global matrix; `sparse`: the database of sparse matrices is in use, then nothing is inserted;
assemblyManager_mass.hpp:53-83, 155-180. -/
def assemble (sparse : Bool) (es : List (Elem K × (Nat → Nat → K))) : Nat → Nat → K :=
  es.foldl (fun M e => if sparse then M else insert e.2 e.1 M) (fun _ _ => 0)

/-- Product over all elements with stored matrices; assemblyManager_mass.hpp:567-742. -/
def productStored (es : List (Elem K × (Nat → Nat → K))) (x y : Nat → K) : Nat → K :=
  es.foldl (fun y e => applyStored e.2 e.1 x y) y

/-- Product over all elements, computed; assemblyManager_mass.hpp:567-645. -/
def productComputed (mwt : Nat → K) (es : List (Elem K)) (x y : Nat → K) : Nat → K :=
  es.foldl (fun y E => applyComputed mwt E x y) y

/-- Rows of an element: variable's positions with the position of the row; assemblyManager_mass.hpp:128-131. -/
def rows (vars : List (List Nat)) : List (List Nat × Nat) := vars.flatMap (fun v => v.map (fun a => (v, a)))

/-- Diagonal for preconditioning: the diagonal entries; assemblyManager_mass.hpp:118-152 with `use_jacobi`. -/
def jacobi (m : Nat → Nat → K) (E : Elem K) (y : Nat → K) : Nat → K :=
  (rows E.vars).foldl (fun y p => addV y (E.lids p.2) (m p.2 p.2)) y

/-- Lumped diagonal when the vectors live in another memory: plain row sums; assemblyManager_mass.hpp:192-232. -/
def lumpPlain (m : Nat → Nat → K) (E : Elem K) (y : Nat → K) : Nat → K :=
  (rows E.vars).foldl (fun y p => addV y (E.lids p.2) (p.1.foldl (fun s b => s + m p.2 b) 0)) y

end

section
variable [CommRing K] [LinearOrder K] [IsStrictOrderedRing K]

/-- Lumped diagonal: sums of magnitudes; assemblyManager_mass.hpp:118-152 without `use_jacobi`. -/
def lump (m : Nat → Nat → K) (E : Elem K) (y : Nat → K) : Nat → K :=
  (rows E.vars).foldl (fun y p => addV y (E.lids p.2) (p.1.foldl (fun s b => s + |m p.2 b|) 0)) y

end

end MrHyDE.Mass
