import Mathlib.Data.List.Basic
import Mathlib.Tactic.Common

set_option linter.unusedSectionVars false

/-!
# The mesh interface built from the section `Mesh` (C184)

The user names a dimension, an element type and a source.  The constructor of the mesh interface turns them into a number
of nodes per element, a mesh factory and the list of settings given to it.  The number of nodes per element is used later
for the node values written to the output file, whatever the type of the elements of a block is.  The classes of the fine
scale build the interface with the same constructor and then replace the mesh in it.

The factories themselves (panzer), the tables of the cell types (shards) and parameter lists (Teuchos) are libraries.  The
only facts used about them are the numbers of nodes of the five linear cell types, and that asking a list for an entry with
a default stores the default in the list.  A null pointer that is dereferenced, or the cell type without data that is asked
for its number of nodes, gives `none`.
-/

namespace MrHyDE.Mesh.Construct

variable {K : Type}

/-! ## Model -/

/-- Cell types named by the constructor, /repo/src/interfaces/mesh/meshInterface_construct.hpp:102-128. -/
inductive Cell where
  | line | quad | tri | hex | tet
  deriving DecidableEq, Repr

/-- Factories created by the constructor, /repo/src/interfaces/mesh/meshInterface_construct.hpp:139, 162-180. -/
inductive Factory where
  | exodus | line | squareQuad | squareTri | cubeHex | cubeTet
  deriving DecidableEq, Repr

/-- Number of nodes of a linear cell type (table of the library, read in
/repo/src/interfaces/mesh/meshInterface_construct.hpp:131). -/
def nodeCount : Cell → Nat
  | .line => 2
  | .quad => 4
  | .tri => 3
  | .hex => 8
  | .tet => 4

/-- The entries of one direction in the section `Mesh` (`Xblocks`, `NX`, `xmin`, `xmax`, `Xprocs` for the first),
/repo/src/interfaces/mesh/meshInterface_construct.hpp:143-160; `none` when the user does not give the entry. -/
structure Direction (K : Type) where
  blocks : Option Nat := none
  cells : Option Nat := none
  lo : Option K := none
  hi : Option K := none
  procs : Option Nat := none

/-- The section `Mesh`, /repo/src/interfaces/mesh/meshInterface_construct.hpp:27, 31, 71-74, 138-160, and the dimension of
the section `Phase Mesh` (250-251, `none` without the section).  Dimensions are natural numbers here, not integers. -/
structure Input (K : Type) where
  dimension : Option Nat := none
  shape : Option String := none
  elementType : Option String := none
  source : Option String := none
  x : Direction K := {}
  y : Direction K := {}
  z : Direction K := {}
  simple : Bool := false
  phase : Option (Option Nat) := none

/-- The dimension, /repo/src/interfaces/mesh/meshInterface_construct.hpp:27. -/
def dim (i : Input K) : Nat := i.dimension.getD 0

/-- The element type: the entry `shape`, else `element type`,
/repo/src/interfaces/mesh/meshInterface_construct.hpp:71-74. -/
def shapeOf (i : Input K) : String :=
  let s := i.shape.getD "none"
  if s = "none" then i.elementType.getD "quad" else s

/-- The cell type of a dimension and an element type, /repo/src/interfaces/mesh/meshInterface_construct.hpp:102-128, and the
same cases in /repo/src/subgrid/subgridMeshFactory.cpp:46-66; `none` is the cell type without data. -/
def cellOf (d : Nat) (s : String) : Option Cell :=
  if d = 1 then some .line
  else if d = 2 then (if s = "quad" then some .quad else if s = "tri" then some .tri else none)
  else if d = 3 then (if s = "hex" then some .hex else if s = "tet" then some .tet else none)
  else none

/-- Number of nodes per element, stored in the interface and in the section,
/repo/src/interfaces/mesh/meshInterface_construct.hpp:131-132. -/
def nodesPerElem (i : Input K) : Option Nat := (cellOf (dim i) (shapeOf i)).map nodeCount

/-- The factory, /repo/src/interfaces/mesh/meshInterface_construct.hpp:138-139, 162-180; `none` is the null pointer
dereferenced in line 188. -/
def factory (i : Input K) : Option Factory :=
  if i.source.getD "Internal" = "Exodus" then some .exodus
  else if dim i = 1 then some .line
  else if dim i = 2 then
    (if shapeOf i = "quad" then some .squareQuad else if shapeOf i = "tri" then some .squareTri else none)
  else if dim i = 3 then
    (if shapeOf i = "hex" then some .cubeHex else if shapeOf i = "tet" then some .cubeTet else none)
  else none

/-- Settings of one direction in the list of the factory, /repo/src/interfaces/mesh/meshInterface_construct.hpp:143-160;
`procs` is `none` when the list has no such entry. -/
structure Axis (K : Type) where
  blocks : Nat
  cells : Nat
  lo : K
  hi : K
  procs : Option Nat

/-- The entries of one direction with the defaults, /repo/src/interfaces/mesh/meshInterface_construct.hpp:143-146, 149-152,
156-159; `zero` and `one` are the numbers 0.0 and 1.0 of the code. -/
def axis (zero one : K) (a : Direction K) (procs : Option Nat) : Axis K :=
  { blocks := a.blocks.getD 1, cells := a.cells.getD 20, lo := a.lo.getD zero, hi := a.hi.getD one, procs := procs }

/-- The directions in the list of the factory on `size` processes; none for an Exodus file,
/repo/src/interfaces/mesh/meshInterface_construct.hpp:138-161. -/
def axes (zero one : K) (size : Nat) (i : Input K) : List (Axis K) :=
  if i.source.getD "Internal" = "Exodus" then []
  else
    [axis zero one i.x (if dim i > 1 then some (i.x.procs.getD size) else none)] ++
    (if dim i > 1 then [axis zero one i.y (some (i.y.procs.getD 1))] else []) ++
    (if dim i > 2 then [axis zero one i.z (some (i.z.procs.getD 1))] else [])

/-- What the constructor hands to the library: nodes per element, factory and its directions.  The order is that of
/repo/src/interfaces/mesh/meshInterface_construct.hpp:131, 138-181, 188, for a mesh that is not a simple mesh. -/
def construct (zero one : K) (size : Nat) (i : Input K) : Option (Nat × Factory × List (Axis K)) := do
  let n ← nodesPerElem i
  let f ← factory i
  return (n, f, axes zero one size i)

/-- A simple mesh on one process: the manager created in lines 49-56 of
/repo/src/interfaces/mesh/meshInterface_construct.hpp, `false` for the null pointer, after the number of nodes of line 131. -/
def constructSimple (i : Input K) : Option (Nat × Bool) := do
  let n ← nodesPerElem i
  return (n, dim i == 2 || dim i == 3)

/-- The rows written for a variable of type HGRAD on the elements of a block: `sol` has one list of node values per element,
the rows have the number of entries of the interface, /repo/src/managers/postprocess/postprocessManager_exodus.hpp:110-127
with /repo/src/managers/postprocess/postprocessManager_construct.hpp:111; `none` is a read past the end of a row. -/
def outputRows (n : Nat) (sol : List (List K)) : Option (List (List K)) :=
  sol.mapM fun (row : List K) => (List.range n).mapM fun (k : Nat) => row[k]?

/-- The node values of an element taken from a written row by the library: one for each of its nodes.  Models the loop of
the library called in /repo/src/managers/postprocess/postprocessManager_exodus.hpp:133; `none` is a read past the end. -/
def received (c : Cell) (row : List K) : Option (List K) := (List.range (nodeCount c)).mapM fun (k : Nat) => row[k]?

/-- The node values in the file for the elements of a block of cell type `c`,
/repo/src/managers/postprocess/postprocessManager_exodus.hpp:110-133. -/
def written (n : Nat) (c : Cell) (sol : List (List K)) : Option (List (List K)) := do
  let rows ← outputRows n sol
  rows.mapM (received c)

/-- Cell type of the phase space in the mesh interface: the member is never assigned,
/repo/src/interfaces/mesh/meshInterface.hpp:365, /repo/src/interfaces/mesh/meshInterface_util.hpp:438-440. -/
def phaseCell (_ : Input K) : Option Cell := none

/-- Dimension of the phase space, /repo/src/interfaces/mesh/meshInterface_construct.hpp:248-251. -/
def phaseDim (i : Input K) : Nat := (i.phase.map (·.getD 0)).getD 0

/-- The start of the phase part of the constructor of the discretization interface: the name of the cell type is read,
/repo/src/interfaces/discretization/discretizationInterface_construct.hpp:31, 167-172; `none` is the null pointer. -/
def discretize (i : Input K) : Option (Option Cell) :=
  if phaseDim i > 0 then (phaseCell i).map some else some none

/-- Number of elements of the phase space, /repo/src/interfaces/mesh/meshInterface_util.hpp:445-451: `cells` gives the number
of cells of the mesh of lines 268-273 of /repo/src/interfaces/mesh/meshInterface_construct.hpp, which exists in two and
three dimensions only. -/
def numPhase (cells : Nat) (i : Input K) : Option Nat :=
  if phaseDim i > 0 then (if phaseDim i = 2 ∨ phaseDim i = 3 then some cells else none) else some 1

/-- The mesh whose nodes are taken for the elements of the phase space, /repo/src/interfaces/mesh/meshInterface_util.hpp:332-335:
the simple mesh of the section `Mesh`.  `none` is the null pointer. -/
def phaseNodes {M : Type} (simpleMesh : Input K → M) (_phaseMesh : Input K → M) (i : Input K) : Option M :=
  if i.simple then some (simpleMesh i) else none

/-- The section after the constructor of a fine scale has read it with its own defaults (a default is stored),
/repo/src/subgrid/subgridDtN.cpp:25, 30 and /repo/src/subgrid/subgridDtN2.cpp:25, 30. -/
def afterSubgrid (i : Input K) : Input K :=
  { i with dimension := some (i.dimension.getD 2), elementType := some (i.elementType.getD "quad") }

/-- Cell type of the elements of the fine mesh: the factory of the fine scale gets the entry `element type` and the dimension
of the coarse nodes, /repo/src/subgrid/subgridDtN.cpp:30, 160, /repo/src/subgrid/subgridMeshFactory.cpp:46-66. -/
def fineCell (coarseDim : Nat) (i : Input K) : Option Cell := cellOf coarseDim (i.elementType.getD "quad")

/-- Cell type the mesh interface of the fine scale answers: it was taken from the mesh built by its constructor and is not
changed when the mesh is replaced, /repo/src/subgrid/subgridDtN.cpp:168-169,
/repo/src/interfaces/mesh/meshInterface_construct.hpp:217-219, /repo/src/interfaces/mesh/meshInterface_stk.hpp:31-36,
/repo/src/interfaces/mesh/meshInterface_util.hpp:425-433.  For an internal mesh (no `source`). -/
def fineTopology (i : Input K) : Option Cell :=
  match factory (afterSubgrid i) with
  | some .line => some .line
  | some .squareQuad => some .quad
  | some .squareTri => some .tri
  | some .cubeHex => some .hex
  | some .cubeTet => some .tet
  | _ => none

/-! ## Specification -/

/-- The element types a user can ask for in a dimension, with the cell meant by them.  [specification, no code] -/
inductive Meant : Nat → String → Cell → Prop
  | line (s : String) : Meant 1 s .line
  | quad : Meant 2 "quad" .quad
  | tri : Meant 2 "tri" .tri
  | hex : Meant 3 "hex" .hex
  | tet : Meant 3 "tet" .tet

/-- The factory whose elements are of a cell type.  [specification, no code] -/
def makes : Factory → Cell → Prop
  | .exodus, _ => False
  | .line, c => c = .line
  | .squareQuad, c => c = .quad
  | .squareTri, c => c = .tri
  | .cubeHex, c => c = .hex
  | .cubeTet, c => c = .tet

/-- The user asked for element type `s`: by either entry, the other one absent, or by neither for quadrilaterals.
[specification, no code] -/
def Asked (i : Input K) (s : String) : Prop :=
  s ≠ "none" ∧ ((i.shape = some s) ∨ (i.shape = none ∧ i.elementType = some s) ∨
    (i.shape = none ∧ i.elementType = none ∧ s = "quad"))

/-- Product of a list of numbers of processes.  [specification, no code] -/
def product : List Nat → Nat
  | [] => 1
  | a :: l => a * product l

/-! ## Theorems -/

theorem Meant.inv {d : Nat} {s : String} {c : Cell} (h : Meant d s c) :
    (d = 1 ∧ c = .line) ∨ (d = 2 ∧ s = "quad" ∧ c = .quad) ∨ (d = 2 ∧ s = "tri" ∧ c = .tri) ∨
      (d = 3 ∧ s = "hex" ∧ c = .hex) ∨ (d = 3 ∧ s = "tet" ∧ c = .tet) := by
  induction h <;> simp

theorem shapeOf_asked {i : Input K} {s : String} (h : Asked i s) : shapeOf i = s := by
  obtain ⟨hs, h | ⟨h1, h2⟩ | ⟨h1, h2, h3⟩⟩ := h
  · simp [shapeOf, h, hs]
  · simp [shapeOf, h1, h2]
  · simp [shapeOf, h1, h2, h3]

theorem cellOf_iff (d : Nat) (s : String) (c : Cell) : cellOf d s = some c ↔ Meant d s c := by
  constructor
  · intro h
    unfold cellOf at h
    split at h
    · next h1 => cases h; subst h1; exact Meant.line s
    split at h
    · next h2 =>
      subst h2
      split at h
      · next hs => cases h; subst hs; exact Meant.quad
      split at h
      · next hs => cases h; subst hs; exact Meant.tri
      · cases h
    split at h
    · next h3 =>
      subst h3
      split at h
      · next hs => cases h; subst hs; exact Meant.hex
      split at h
      · next hs => cases h; subst hs; exact Meant.tet
      · cases h
    · cases h
  · intro h
    obtain ⟨rfl, rfl⟩ | ⟨rfl, rfl, rfl⟩ | ⟨rfl, rfl, rfl⟩ | ⟨rfl, rfl, rfl⟩ | ⟨rfl, rfl, rfl⟩ := h.inv <;> simp [cellOf]

/-- C184, the mesh asked for: when the user gives a dimension and an element type of that dimension, the constructor succeeds,
the number of nodes is that of the cell asked for, and an internal mesh is made by a factory for these cells.  (`_partial`:
the dimension has no usable default, and the default of the element type fits two dimensions only, see below.) -/
theorem C184_asked_partial (zero one : K) (size : Nat) (i : Input K) {d : Nat} {s : String} {c : Cell}
    (hd : i.dimension = some d) (hs : Asked i s) (hc : Meant d s c) :
    ∃ f l, construct zero one size i = some (nodeCount c, f, l) ∧
      (i.source = some "Exodus" → f = .exodus ∧ l = []) ∧
      (i.source ≠ some "Exodus" → makes f c ∧ l.length = d) := by
  have hsh : shapeOf i = s := shapeOf_asked hs
  have hdim : dim i = d := by simp [dim, hd]
  have hn : nodesPerElem i = some (nodeCount c) := by
    simp [nodesPerElem, hsh, hdim, (cellOf_iff d s c).2 hc]
  by_cases hx : i.source = some "Exodus"
  · refine ⟨.exodus, [], ?_, fun _ => ⟨rfl, rfl⟩, fun h => absurd hx h⟩
    simp [construct, hn, factory, axes, hx]
  · have hx' : ¬ i.source.getD "Internal" = "Exodus" := by
      cases h : i.source with
      | none => simp
      | some t => intro ht; exact hx (by simpa [h] using ht)
    have key : ∀ f : Factory, factory i = some f → makes f c → (axes zero one size i).length = d →
        ∃ f l, construct zero one size i = some (nodeCount c, f, l) ∧
          (i.source = some "Exodus" → f = .exodus ∧ l = []) ∧
          (i.source ≠ some "Exodus" → makes f c ∧ l.length = d) := fun f h1 h2 h3 =>
      ⟨f, axes zero one size i, by simp [construct, hn, h1], fun h => absurd h hx, fun _ => ⟨h2, h3⟩⟩
    obtain ⟨rfl, rfl⟩ | ⟨rfl, rfl, rfl⟩ | ⟨rfl, rfl, rfl⟩ | ⟨rfl, rfl, rfl⟩ | ⟨rfl, rfl, rfl⟩ := hc.inv
    · exact key .line (by simp [factory, hdim, hx']) rfl (by simp [axes, hx', hdim])
    · exact key .squareQuad (by simp [factory, hdim, hsh, hx']) rfl (by simp [axes, hx', hdim])
    · exact key .squareTri (by simp [factory, hdim, hsh, hx']) rfl (by simp [axes, hx', hdim])
    · exact key .cubeHex (by simp [factory, hdim, hsh, hx']) rfl (by simp [axes, hx', hdim])
    · exact key .cubeTet (by simp [factory, hdim, hsh, hx']) rfl (by simp [axes, hx', hdim])

/-- C184, nothing else is built: if the constructor succeeds the dimension is 1, 2 or 3 and the element type belongs to it;
the number of nodes is that of the type.  The cell is unique, so a wrong type is never replaced by another one. -/
theorem C184_refused (zero one : K) (size : Nat) (i : Input K) {n : Nat} {f : Factory} {l : List (Axis K)}
    (h : construct zero one size i = some (n, f, l)) :
    ∃ d c, i.dimension = some d ∧ Meant d (shapeOf i) c ∧ n = nodeCount c ∧ (f = .exodus ∨ makes f c) := by
  unfold construct at h
  obtain ⟨m, hm, h⟩ := Option.bind_eq_some_iff.1 h
  obtain ⟨g, hg, h⟩ := Option.bind_eq_some_iff.1 h
  have h3 : (m, g, axes zero one size i) = (n, f, l) := Option.some.inj h
  obtain ⟨rfl, rfl, -⟩ : m = n ∧ g = f ∧ axes zero one size i = l := by simpa using h3
  obtain ⟨c, hc, rfl⟩ := Option.map_eq_some_iff.1 hm
  have hM := (cellOf_iff _ _ _).1 hc
  have hdim : i.dimension = some (dim i) := by
    cases hd : i.dimension with
    | some d => simp [dim, hd]
    | none =>
      have h0 : dim i = 0 := by simp [dim, hd]
      rw [h0] at hM
      have := hM.inv
      omega
  refine ⟨dim i, c, hdim, hM, rfl, ?_⟩
  unfold factory at hg
  split at hg
  · left; exact (Option.some.inj hg).symm
  · right
    obtain ⟨h1, rfl⟩ | ⟨h1, h2, rfl⟩ | ⟨h1, h2, rfl⟩ | ⟨h1, h2, rfl⟩ | ⟨h1, h2, rfl⟩ := hM.inv
    · simp only [h1] at hg; cases hg; rfl
    · simp [h1, h2] at hg; cases hg; rfl
    · simp [h1, h2] at hg; cases hg; rfl
    · simp [h1, h2] at hg; cases hg; rfl
    · simp [h1, h2] at hg; cases hg; rfl

/-- C184, the box: each direction of an internal mesh has the limits, the numbers of cells and of blocks given by the user, and
without numbers of processes in the input the product over the directions is the number of processes (two and three
dimensions). -/
theorem C184_box (zero one : K) (size : Nat) (i : Input K) {n : Nat} {f : Factory} {l : List (Axis K)}
    (h : construct zero one size i = some (n, f, l)) (hx : i.source ≠ some "Exodus") :
    (∀ (k : Nat) (a : Axis K), l[k]? = some a → ∃ b, [i.x, i.y, i.z][k]? = some b ∧
      (∀ v : K, b.lo = some v → a.lo = v) ∧ (b.lo = none → a.lo = zero) ∧
      (∀ v : K, b.hi = some v → a.hi = v) ∧ (b.hi = none → a.hi = one) ∧
      (∀ v : Nat, b.cells = some v → a.cells = v) ∧ (∀ v : Nat, b.blocks = some v → a.blocks = v) ∧
      (b.blocks = none → a.blocks = 1)) ∧
    (l.length > 1 → i.x.procs = none → i.y.procs = none → i.z.procs = none →
      ∃ p, l.mapM (·.procs) = some p ∧ product p = size) := by
  have hx' : ¬ i.source.getD "Internal" = "Exodus" := by
    cases hso : i.source with
    | none => simp
    | some t => intro ht; exact hx (by simpa [hso] using ht)
  obtain ⟨d, c, hd, hM, -, -⟩ := C184_refused zero one size i h
  have hl : l = axes zero one size i := by
    unfold construct at h
    obtain ⟨m, hm, h⟩ := Option.bind_eq_some_iff.1 h
    obtain ⟨g, hg, h⟩ := Option.bind_eq_some_iff.1 h
    have h3 : (m, g, axes zero one size i) = (n, f, l) := Option.some.inj h
    exact ((by simpa using h3 : m = n ∧ g = f ∧ axes zero one size i = l).2.2).symm
  have hdim : dim i = d := by simp [dim, hd]
  have hax : ∀ (b : Direction K) (p : Option Nat),
      (∀ v : K, b.lo = some v → (axis zero one b p).lo = v) ∧ (b.lo = none → (axis zero one b p).lo = zero) ∧
      (∀ v : K, b.hi = some v → (axis zero one b p).hi = v) ∧ (b.hi = none → (axis zero one b p).hi = one) ∧
      (∀ v : Nat, b.cells = some v → (axis zero one b p).cells = v) ∧
      (∀ v : Nat, b.blocks = some v → (axis zero one b p).blocks = v) ∧
      (b.blocks = none → (axis zero one b p).blocks = 1) := by
    intro b p
    refine ⟨?_, ?_, ?_, ?_, ?_, ?_, ?_⟩ <;> intros <;> simp_all [axis]
  have hcase : d = 1 ∨ d = 2 ∨ d = 3 := by have := hM.inv; omega
  subst hl
  constructor
  · intro k a hk
    rcases hcase with rfl | rfl | rfl
    · simp [axes, hx', hdim] at hk
      rcases k with _ | k
      · simp at hk; subst hk; exact ⟨i.x, rfl, hax _ _⟩
      · simp at hk
    · simp [axes, hx', hdim] at hk
      rcases k with _ | _ | k
      · simp at hk; subst hk; exact ⟨i.x, rfl, hax _ _⟩
      · simp at hk; subst hk; exact ⟨i.y, rfl, hax _ _⟩
      · simp at hk
    · simp [axes, hx', hdim] at hk
      rcases k with _ | _ | _ | k
      · simp at hk; subst hk; exact ⟨i.x, rfl, hax _ _⟩
      · simp at hk; subst hk; exact ⟨i.y, rfl, hax _ _⟩
      · simp at hk; subst hk; exact ⟨i.z, rfl, hax _ _⟩
      · simp at hk
  · intro hlen hpx hpy hpz
    rcases hcase with rfl | rfl | rfl
    · simp [axes, hx', hdim] at hlen
    · exact ⟨[size, 1], by simp [axes, hx', hdim, axis, hpx, hpy], by simp [product]⟩
    · exact ⟨[size, 1, 1], by simp [axes, hx', hdim, axis, hpx, hpy, hpz], by simp [product]⟩

/-- C184 is false for a section without `dimension`: the default is 0, for which there is no cell type, although the fine
scales and the second constructor take 2. -/
theorem C184_dimension_violated (zero one : K) (size : Nat) (i : Input K) (hd : i.dimension = none) :
    construct zero one size i = none ∧ constructSimple i = none := by
  have h : nodesPerElem i = none := by simp [nodesPerElem, dim, hd, cellOf]
  exact ⟨by simp [construct, h], by simp [constructSimple, h]⟩

/-- C184 is false in three dimensions for a section that leaves out the element type: the default is the quadrilateral.  The
type is needed for an Exodus file, which knows its cells, and for a simple mesh, which has hexahedra only. -/
theorem C184_default_violated (zero one : K) (size : Nat) (i : Input K) (hd : i.dimension = some 3)
    (h1 : i.shape = none) (h2 : i.elementType = none) :
    construct zero one size i = none ∧ constructSimple i = none := by
  have h : nodesPerElem i = none := by simp [nodesPerElem, dim, hd, shapeOf, h1, h2, cellOf]
  exact ⟨by simp [construct, h], by simp [constructSimple, h]⟩

/-- C184, simple meshes: in two dimensions the default element type fits, in three dimensions the type `hex` must be given; then the
number of nodes is that of the cells of the mesh and there is a mesh.  In one dimension there is none.  (`_partial`: for other
element types see below.) -/
theorem C184_simple_partial (i : Input K) :
    (i.dimension = some 2 → Asked i "quad" → constructSimple i = some (2 ^ 2, true)) ∧
    (i.dimension = some 3 → Asked i "hex" → constructSimple i = some (2 ^ 3, true)) ∧
    (i.dimension = some 1 → constructSimple i = some (2 ^ 1, false)) := by
  refine ⟨fun h hs => ?_, fun h hs => ?_, fun h => ?_⟩
  · have hd : dim i = 2 := by simp [dim, h]
    simp [constructSimple, nodesPerElem, hd, shapeOf_asked hs, cellOf, nodeCount]
  · have hd : dim i = 3 := by simp [dim, h]
    simp [constructSimple, nodesPerElem, hd, shapeOf_asked hs, cellOf, nodeCount]
  · have hd : dim i = 1 := by simp [dim, h]
    simp [constructSimple, nodesPerElem, hd, cellOf, nodeCount]

/-- C184 is false for a simple mesh with simplices: the cells of the mesh are quadrilaterals or hexahedra, the number of nodes is
that of a triangle or a tetrahedron. -/
theorem C184_simple_violated (i : Input K) :
    (i.dimension = some 2 → Asked i "tri" → constructSimple i = some (3, true)) ∧
    (i.dimension = some 3 → Asked i "tet" → constructSimple i = some (4, true)) := by
  refine ⟨fun h hs => ?_, fun h hs => ?_⟩
  · have hd : dim i = 2 := by simp [dim, h]
    simp [constructSimple, nodesPerElem, hd, shapeOf_asked hs, cellOf, nodeCount]
  · have hd : dim i = 3 := by simp [dim, h]
    simp [constructSimple, nodesPerElem, hd, shapeOf_asked hs, cellOf, nodeCount]

theorem mapM_range_getElem? (row : List K) (n : Nat) :
    (List.range n).mapM (fun (k : Nat) => row[k]?) = if n ≤ row.length then some (row.take n) else none := by
  induction n with
  | zero => simp
  | succ n ih =>
    rw [List.range_succ, List.mapM_append, ih]
    by_cases h : n + 1 ≤ row.length
    · have h1 : n ≤ row.length := by omega
      have h2 : n < row.length := by omega
      rw [if_pos h1, if_pos h]
      have h3 : row.take (n + 1) = row.take n ++ [row[n]] := by
        rw [List.take_add_one, List.getElem?_eq_getElem h2]; rfl
      rw [h3]
      simp only [List.mapM_cons, List.mapM_nil, List.getElem?_eq_getElem h2]
      rfl
    · rw [if_neg h]
      by_cases h1 : n ≤ row.length
      · rw [if_pos h1]
        have h2 : row[n]? = none := List.getElem?_eq_none (by omega)
        simp [h2]
      · rw [if_neg h1]; rfl

theorem mapM_id_some {α : Type} (g : α → Option α) (l : List α) (h : ∀ x ∈ l, g x = some x) : l.mapM g = some l := by
  induction l with
  | nil => rfl
  | cons a l ih =>
    simp [List.mapM_cons, h a List.mem_cons_self, ih fun x hx => h x (List.mem_cons_of_mem a hx)]

/-- C184, node values: a block whose elements are of the type in the input gets, for each element, the value of each of its
nodes.  (`_partial`: for blocks of another type see below.) -/
theorem C184_output_partial (c : Cell) (sol : List (List K)) (hsol : ∀ row ∈ sol, row.length = nodeCount c) :
    written (nodeCount c) c sol = some sol := by
  have h1 : ∀ row ∈ sol, (List.range (nodeCount c)).mapM (fun (k : Nat) => row[k]?) = some row := by
    intro row hr
    have hl := hsol row hr
    rw [mapM_range_getElem?, if_pos (by omega), List.take_of_length_le (by omega)]
  have h2 : outputRows (nodeCount c) sol = some sol := mapM_id_some _ sol h1
  simp only [written, h2]
  exact mapM_id_some _ sol h1

/-- C184 is false for meshes with blocks of different cell types: with a block of cells `a` and a block of cells `b` that have
different numbers of nodes, for whatever element type the input names, the values of one of the blocks cannot be written: a
row is read past its end. -/
theorem C184_output_violated (n : Nat) (a b : Cell) (hab : nodeCount a ≠ nodeCount b) (sa sb : List (List K))
    (ha : ∀ row ∈ sa, row.length = nodeCount a) (hb : ∀ row ∈ sb, row.length = nodeCount b) (hae : sa ≠ []) (hbe : sb ≠ []) :
    written n a sa = none ∨ written n b sb = none := by
  have key : ∀ (c : Cell) (s : List (List K)), (∀ row ∈ s, row.length = nodeCount c) → s ≠ [] → n ≠ nodeCount c →
      written n c s = none := by
    intro c s hs hne hn
    obtain ⟨row, rest, rfl⟩ : ∃ row rest, s = row :: rest := List.exists_cons_of_ne_nil hne
    have hl := hs row List.mem_cons_self
    by_cases hlt : n < nodeCount c
    · cases ho : outputRows n (row :: rest) with
      | none => simp [written, ho]
      | some rows =>
        have h1 : outputRows n (row :: rest) =
            (do let r ← (List.range n).mapM (fun (k : Nat) => row[k]?)
                let rs ← outputRows n rest
                pure (r :: rs)) := by simp [outputRows, List.mapM_cons]
        rw [ho, mapM_range_getElem?, if_pos (by omega)] at h1
        cases hr : outputRows n rest with
        | none => rw [hr] at h1; simp at h1
        | some rs =>
          rw [hr] at h1
          have h2 : rows = row.take n :: rs := by simpa using h1
          have h3 : received c (row.take n) = none := by
            unfold received
            rw [mapM_range_getElem?, if_neg (by rw [List.length_take]; omega)]
          simp [written, ho, h2, List.mapM_cons, h3]
    · have h1 : outputRows n (row :: rest) = none := by
        unfold outputRows
        rw [List.mapM_cons, mapM_range_getElem?, if_neg (by omega)]
        rfl
      simp [written, h1]
  by_cases h : n = nodeCount a
  · right; exact key b sb hb hbe (by omega)
  · left; exact key a sa ha hae h

/-- C184 is false for every phase space: with a section `Phase Mesh` of positive dimension the discretization interface
dereferences the cell type of the phase space, which is never set; in one dimension the number of phase elements is asked of a
mesh that does not exist; and the nodes of phase elements are those of the physical mesh, or a null pointer unless that is
a simple mesh. -/
theorem C184_phase_violated {M : Type} (i : Input K) (d : Nat) (hd : i.phase = some (some d)) (hpos : 0 < d)
    (simpleMesh phaseMesh : Input K → M) (cells : Nat) :
    discretize i = none ∧ (d = 1 → numPhase cells i = none) ∧
      (i.simple = false → phaseNodes simpleMesh phaseMesh i = none) ∧
      (simpleMesh i ≠ phaseMesh i → phaseNodes simpleMesh phaseMesh i ≠ some (phaseMesh i)) := by
  have h : phaseDim i = d := by simp [phaseDim, hd]
  refine ⟨by simp [discretize, h, hpos, phaseCell], ?_, ?_, ?_⟩
  · rintro rfl; simp [numPhase, h]
  · intro hs; simp [phaseNodes, hs]
  · intro hne hp
    unfold phaseNodes at hp
    split at hp
    · exact hne (Option.some.inj hp)
    · cases hp

/-- C184, without a phase space (no section, or a section without positive dimension): nothing is asked of it, and the number
of phase elements is one. -/
theorem C184_nophase (i : Input K) (cells : Nat) (h : i.phase = none ∨ i.phase = some none ∨ i.phase = some (some 0)) :
    discretize i = some none ∧ numPhase cells i = some 1 := by
  have h0 : phaseDim i = 0 := by rcases h with h | h | h <;> simp [phaseDim, h]
  simp [discretize, numPhase, h0]

/-- C184, fine scales: when only the entry `element type` is used, the cell type answered by the mesh interface of a fine scale
is that of its elements.  (`_partial`: for the entry `shape` see below; the dimension must be that of the coarse scale.) -/
theorem C184_fine_partial (i : Input K) {d : Nat} (hd : i.dimension.getD 2 = d) (hs : i.shape = none ∨ i.shape = some "none")
    (hx : i.source ≠ some "Exodus") : fineTopology i = fineCell d i := by
  have hx' : ¬ i.source.getD "Internal" = "Exodus" := by
    cases hso : i.source with
    | none => simp
    | some t => intro ht; exact hx (by simpa [hso] using ht)
  have hsh : shapeOf (afterSubgrid i) = i.elementType.getD "quad" := by
    rcases hs with hs | hs <;> simp [shapeOf, afterSubgrid, hs]
  have hdim : dim (afterSubgrid i) = d := by simp [dim, afterSubgrid, hd]
  have hso : (afterSubgrid i).source = i.source := rfl
  unfold fineTopology fineCell factory cellOf
  rw [hso, hsh, hdim, if_neg hx']
  by_cases h1 : d = 1
  · simp [h1]
  by_cases h2 : d = 2
  · simp only [h2]
    by_cases q : i.elementType.getD "quad" = "quad"
    · simp [q]
    by_cases t : i.elementType.getD "quad" = "tri"
    · simp [t]
    · simp [q, t]
  by_cases h3 : d = 3
  · simp only [h3]
    by_cases q : i.elementType.getD "quad" = "hex"
    · simp [q]
    by_cases t : i.elementType.getD "quad" = "tet"
    · simp [t]
    · simp [q, t]
  · simp [h1, h2, h3]

/-- C184 is false for a fine scale whose element type is given by the entry `shape`, which is good for the coarse mesh: the fine
elements are quadrilaterals while the mesh interface answers triangles, from which the basis functions are taken. -/
theorem C184_fine_violated (i : Input K) (hd : i.dimension = some 2) (hs : i.shape = some "tri") (he : i.elementType = none)
    (hx : i.source = none) :
    Asked i "tri" ∧ fineCell 2 i = some .quad ∧ fineTopology i = some .tri ∧ nodesPerElem (afterSubgrid i) = some 3 := by
  refine ⟨⟨by decide, Or.inl hs⟩, ?_, ?_, ?_⟩
  · simp [fineCell, he, cellOf]
  · simp [fineTopology, factory, afterSubgrid, dim, hd, shapeOf, hs, hx]
  · simp [nodesPerElem, afterSubgrid, dim, hd, shapeOf, hs, cellOf, nodeCount]

/-! ## Cases -/

/-- Tetrahedra on a box, in the new keyword.  [case] -/
def tets : Input Int :=
  { dimension := some 3, elementType := some "tet", x := { lo := some (-1), hi := some 2, cells := some 7 },
    z := { blocks := some 2 } }

example : ∃ f l, construct (0 : Int) 1 4 tets = some (nodeCount .tet, f, l) ∧ makes f .tet ∧ l.length = 3 := by
  obtain ⟨f, l, h1, -, h3⟩ := C184_asked_partial (0 : Int) 1 4 tets (d := 3) (s := "tet") (c := .tet) rfl
    ⟨by decide, Or.inr (Or.inl ⟨rfl, rfl⟩)⟩ Meant.tet
  exact ⟨f, l, h1, h3 (by simp [tets])⟩

example : (construct (0 : Int) 1 4 tets).map (fun r => r.2.2.map (fun a => [a.lo, a.hi, a.cells, a.blocks, a.procs.getD 0])) =
    some [[-1, 2, 7, 1, 4], [0, 1, 20, 1, 1], [0, 1, 20, 2, 1]] := by decide +kernel

/-- A file in three dimensions, without element type.  [case] -/
def file : Input Int := { dimension := some 3, source := some "Exodus" }

example : construct (0 : Int) 1 1 file = none :=
  (C184_default_violated (0 : Int) 1 1 file rfl rfl rfl).1

example : construct (0 : Int) 1 1 { file with shape := some "hex" } = some (8, .exodus, []) := by
  simp [construct, nodesPerElem, factory, axes, file, dim, shapeOf, cellOf, nodeCount]

example : constructSimple ({ dimension := some 2 } : Input Int) = some (2 ^ 2, true) :=
  (C184_simple_partial _).1 rfl ⟨by decide, Or.inr (Or.inr ⟨rfl, rfl, rfl⟩)⟩

example : constructSimple ({ dimension := some 2, elementType := some "tri" } : Input Int) = some (3, true) :=
  (C184_simple_violated _).1 rfl ⟨by decide, Or.inr (Or.inl ⟨rfl, rfl⟩)⟩

example : written 3 .tri [[(1 : Int), 2, 3], [4, 5, 6]] = some [[1, 2, 3], [4, 5, 6]] :=
  C184_output_partial .tri _ (by decide)

example : written 4 .quad [[(1 : Int), 2, 3, 4]] = some [[1, 2, 3, 4]] ∧ written 4 .tri [[(1 : Int), 2, 3]] = none :=
  ⟨C184_output_partial .quad _ (by decide), by decide +kernel⟩

example : written 4 .quad [[(1 : Int), 2, 3, 4]] = none ∨ written 4 .tri [[(1 : Int), 2, 3]] = none :=
  C184_output_violated 4 .quad .tri (by decide) _ _ (by decide) (by decide) (by decide) (by decide)

example : discretize ({ dimension := some 2, phase := some (some 2) } : Input Int) = none :=
  (C184_phase_violated _ 2 rfl (by decide) (fun _ => ()) (fun _ => ()) 4).1

example : fineTopology ({ elementType := some "tri" } : Input Int) = some .tri := by
  rw [C184_fine_partial (d := 2) _ rfl (Or.inl rfl) (by simp)]
  decide +kernel

example : fineCell 2 ({ dimension := some 2, shape := some "tri" } : Input Int) ≠
    fineTopology ({ dimension := some 2, shape := some "tri" } : Input Int) := by
  obtain ⟨-, h1, h2, -⟩ := C184_fine_violated ({ dimension := some 2, shape := some "tri" } : Input Int) rfl rfl rfl rfl
  rw [h1, h2]; decide

end MrHyDE.Mesh.Construct
