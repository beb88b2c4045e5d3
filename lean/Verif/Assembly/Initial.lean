import Verif.Mass.Model
import Mathlib.Algebra.Order.Ring.Rat

/-! # Initial conditions: the system of the projection, interpolation at nodes, numbers

/repo/src/managers/assembly/assemblyManager_initial.hpp, /repo/src/managers/solver/solverManager_util.hpp:157-315 (`setInitial`),
/repo/src/managers/solver/solverManager_construct.hpp:262-292, /repo/src/interfaces/physics/physicsInterface_initial.hpp and
physicsInterface_functions.hpp:154-225.  One process; sums are exact; the overlapped matrix holds every coupling of an element (C124),
so that no addition is dropped; the loops run one after another. -/

namespace MrHyDE.Initial

open MrHyDE.Mass

variable {K : Type}

/-- An element with the initial data at its points; assemblyManager_initial.hpp:267-275. -/
structure Data (K : Type) where
  /-- positions, numbers, basis, weights; assemblyManager_initial.hpp:267-280 (the same views as in `getMass`,
  assemblyManager_mass.hpp:916-976; bases other than HGRAD, HVOL, HCURL, HDIV have no components) -/
  elem : Elem K
  /-- `initialip(elem,n,pt,dim)`; assemblyManager_initial.hpp:273, 282, 295 -/
  init : Nat → Nat → Nat → K

/-- Positions in the order of the loops over variables and their functions; assemblyManager_initial.hpp:74-76, 92-98. -/
def positions (vars : List (List Nat)) : List Nat := vars.flatMap (fun v => v)

/-- Variable, function, position; assemblyManager_initial.hpp:277-287. -/
def dofs (vars : List (List Nat)) : List (Nat × Nat × Nat) :=
  (enum vars).flatMap (fun v => (enum v.1).map (fun a => (v.2, a.2, a.1)))

section
variable [CommRing K]

/-- Terms of one entry of the local right-hand side; assemblyManager_initial.hpp:288-290, 301-305. -/
def rhsTerms (D : Data K) (n i : Nat) : List K :=
  (List.range D.elem.points).flatMap (fun k => (List.range (D.elem.comps n)).map (fun d =>
    D.init n k d * D.elem.basis n i k d * D.elem.wts k))

/-- The local right-hand side: zero at first; assemblyManager_initial.hpp:264, 277-310. -/
def localRhs (D : Data K) : Nat → K :=
  (dofs D.elem.vars).foldl (fun y t => (rhsTerms D t.1 t.2.1).foldl (fun y v => addV y t.2.2 v) y) (fun _ => 0)

/-- Addition of the local right-hand side; assemblyManager_initial.hpp:74-86. -/
def addRhs (l : Nat → K) (E : Elem K) (y : Nat → K) : Nat → K :=
  (positions E.vars).foldl (fun y a => addV y (E.lids a) (l a)) y

/-- Addition of the local matrix, all columns in the column of the row when lumping; assemblyManager_initial.hpp:92-110. -/
def addMass (lump : Bool) (m : Nat → Nat → K) (E : Elem K) (M : Nat → Nat → K) : Nat → Nat → K :=
  (positions E.vars).foldl (fun M a => (positions E.vars).foldl (fun M b =>
    addTo M (E.lids a) (if lump then E.lids a else E.lids b) (m a b)) M) M

/-- Additions of one element of the projection on faces: the points of the element are those of its faces, one face after another;
`width` is `LIDs.extent(1)`; when lumping, the sum of a row goes to the last column; assemblyManager_initial.hpp:189-218. -/
def addFace (lump : Bool) (width : Nat) (m : Nat → Nat → K) (E : Elem K) (M : Nat → Nat → K) : Nat → Nat → K :=
  (List.range width).foldl (fun M a =>
    if lump then addTo M (E.lids a) (E.lids (width - 1)) ((List.range width).foldl (fun s b => s + m a b) 0)
    else (List.range width).foldl (fun M b => addTo M (E.lids a) (E.lids b) (m a b)) M) M

end

section
variable [Field K] [LinearOrder K] [IsStrictOrderedRing K]

/-- Sum of the magnitudes in a row of an `n` by `n` matrix; assemblyManager_initial.hpp:120-124. -/
def rowAbs (n : Nat) (M : Nat → Nat → K) (r : Nat) : K := (List.range n).foldl (fun s c => s + |M r c|) 0

/-- Rows that are zero up to the tolerance (`1.0e-14` in the code) get a one on the diagonal; assemblyManager_initial.hpp:114-133. -/
def fixRows (tol : K) (n : Nat) (M : Nat → Nat → K) : Nat → Nat → K :=
  fun r c => if r < n ∧ rowAbs n M r < tol ∧ c = r then 1 else M r c

/-- The part of a block: additions for its elements, then the rows are looked at; assemblyManager_initial.hpp:36-134. -/
def blockPart (tol : K) (n : Nat) (lump : Bool) (ds : List (Data K)) (s : (Nat → Nat → K) × (Nat → K)) :
    (Nat → Nat → K) × (Nat → K) :=
  let s := ds.foldl (fun s D => (addMass lump (localMass (fun _ => 1) D.elem) D.elem s.1, addRhs (localRhs D) D.elem s.2)) s
  (fixRows tol n s.1, s.2)

/-- The system of the projection.  `lumpMass` is the option of the solver, `_lumpArgument` the argument of the function, which is
not used; a block without elements on the process is left out; assemblyManager_initial.hpp:13-30, 52. -/
def system (tol : K) (n : Nat) (lumpMass _lumpArgument : Bool) (blocks : List (Bool × List (Data K))) :
    (Nat → Nat → K) × (Nat → K) :=
  blocks.foldl (fun s b => if b.1 then blockPart tol n lumpMass b.2 s else s) (fun _ _ => 0, fun _ => 0)

/-- The system of the projection on faces: rows are looked at once, at the end; assemblyManager_initial.hpp:165-252. -/
def faceSystem (tol : K) (n : Nat) (lumpArgument : Bool) (width : Nat) (ds : List (Data K)) : (Nat → Nat → K) × (Nat → K) :=
  let s := ds.foldl (fun s D => (addFace lumpArgument width (localMass (fun _ => 1) D.elem) D.elem s.1,
    (List.range width).foldl (fun y a => addV y (D.elem.lids a) (localRhs D a)) s.2)) (fun _ _ => 0, fun _ => 0)
  (fixRows tol n s.1, s.2)

/-- The system that the solver asks for on faces: the flag of the adjoint run is passed where the function takes the flag for
lumping; solverManager_util.hpp:277, assemblyManager_initial.hpp:165-166. -/
def solverFaceSystem (tol : K) (n : Nat) (isAdjoint : Bool) (width : Nat) (ds : List (Data K)) : (Nat → Nat → K) × (Nat → K) :=
  faceSystem tol n isAdjoint width ds

end

/-! ## What the user gives -/

/-- Initial conditions of a block: is there a list of them, is it marked as numbers, and the entry of each variable: none, a text or a
number; solverManager_construct.hpp:262-292. -/
structure BlockCond (K : Type) where
  /-- `isSublist("Initial conditions")`; solverManager_construct.hpp:265 -/
  given : Bool
  /-- `"scalar data"`; solverManager_construct.hpp:267 -/
  scalar : Bool
  /-- entry of a variable: absent, or a text (`none`) or number; solverManager_construct.hpp:281-282 -/
  entry : Nat → Option (Option K)

/-- Does a set have initial conditions, and are they numbers; solverManager_construct.hpp:263-269. -/
def flags (bs : List (BlockCond K)) : Bool × Bool :=
  bs.foldl (fun s b => if b.given then (true, b.scalar) else s) (false, false)

/-- The numbers of a block; reading a text as a number throws (`none`); solverManager_construct.hpp:276-287. -/
def blockValues [Zero K] (nvars : Nat) (b : BlockCond K) : Option (List K) :=
  (List.range nvars).mapM (fun n => match b.entry n with
    | none => some 0
    | some v => v)

/-- The numbers of all sets: an entry is made only for sets with numbers; solverManager_construct.hpp:262-290. -/
def scalarTable [Zero K] (nvars : Nat) (sets : List (List (BlockCond K))) : Option (List (List (List K))) :=
  sets.foldlM (fun t bs => if (flags bs).1 && (flags bs).2 then do some (t ++ [← bs.mapM (blockValues nvars)]) else some t) []

/-- The numbers used for a block of a set; reading past the end is undefined (`none`); solverManager_util.hpp:203-206. -/
def valuesUsed [Zero K] (nvars : Nat) (sets : List (List (BlockCond K))) (set block : Nat) : Option (List K) := do
  let t ← scalarTable nvars sets
  let s ← t[set]?
  s[block]?

/-- An assignment to an entry of a vector; solverManager_util.hpp:219. -/
def setV (x : Nat → K) (r : Nat) (v : K) : Nat → K := fun a => if a = r then v else x a

/-- Numbers as initial data: every unknown of a variable gets its number; solverManager_util.hpp:209-224. -/
def fillScalar (idata : Nat → K) (es : List (Elem K)) (x : Nat → K) : Nat → K :=
  es.foldl (fun x E => (enum E.vars).foldl (fun x v => v.1.foldl (fun x a => setV x (E.lids a) (idata v.2)) x) x) x

/-- Evaluating the initial data of a block throws (`none`) unless the block has a list of initial conditions, since only then the
functions are defined; physicsInterface_functions.hpp:157, physicsInterface_initial.hpp:46, functionManager_evaluate.hpp:42-44. -/
def evaluates (b : BlockCond K) : Option Unit := if b.given then some () else none

/-- Projection for a set: all blocks with elements are evaluated; assemblyManager_initial.hpp:20-24, 60-64. -/
def projection [Field K] [LinearOrder K] [IsStrictOrderedRing K] (tol : K) (n : Nat) (lumpMass : Bool)
    (blocks : List (BlockCond K × Bool × List (Data K))) : Option ((Nat → Nat → K) × (Nat → K)) := do
  for b in blocks do
    if b.2.1 && !b.2.2.isEmpty then evaluates b.1
  return system tol n lumpMass false (blocks.map (·.2))

/-! ## Interpolation -/

/-- `offsets(n,dof)` in the table of positions, filled up with zeros to the largest number of functions; past that it is
undefined (`none`); solverManager_setup.hpp:566-581. -/
def offset (vars : List (List Nat)) (n dof : Nat) : Option Nat :=
  if dof < (vars.map List.length).foldl max 0 then some (((vars[n]?).getD []).getD dof 0) else none

/-- Local values of the interpolation: zero at first, then the value at each node of the element is put at the position of the
function with the same number; assemblyManager_initial.hpp:264, 337-348. -/
def localInterp [Zero K] (vars : List (List Nat)) (nodes : Nat) (vals : Nat → Nat → K) : Option (Nat → K) :=
  (List.range vars.length).foldlM (fun l n => (List.range nodes).foldlM (fun l dof => do
    some (setV l (← offset vars n dof) (vals n dof))) l) (fun _ => 0)

/-- Interpolation: the local values replace the entries of the vector; an element is given by its variables, numbers and values at
nodes; assemblyManager_initial.hpp:140-159. -/
def interpolate [Zero K] (width nodes : Nat) (es : List (List (List Nat) × (Nat → Nat) × (Nat → Nat → K))) (x : Nat → K) :
    Option (Nat → K) :=
  es.foldlM (fun x e => do
    let l ← localInterp e.1 nodes e.2.2
    some ((List.range width).foldl (fun x row => setV x (e.2.1 row) (l row)) x)) x

end MrHyDE.Initial
