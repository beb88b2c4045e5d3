import Mathlib.Algebra.Field.Rat
import Mathlib.Algebra.Order.Field.Basic
import Mathlib.Data.List.Nodup
import Mathlib.Tactic.Ring
import Mathlib.Tactic.Linarith
import Mathlib.Tactic.FieldSimp
import Mathlib.Tactic.IntervalCases
import Mathlib.Tactic.LinearCombination

/-!
# Simple structured meshes: model (C121, C122)

The mesh managers of `tools/simplemeshmanager.hpp` that can be instantiated (rectangle, rectangle distributed over
processes, brick), and how the mesh and discretization interfaces use them.
-/

set_option linter.unusedSectionVars false
set_option linter.unusedSimpArgs false

namespace MrHyDE.Mesh

variable {K : Type}

/-- What a mesh manager holds after its constructor, /repo/src/tools/simplemeshmanager.hpp:532-543, 773-784, 1349-1360. -/
structure Mesh (P : Type) where
  numCells : Nat
  numNodes : Nat
  numEdges : Nat
  nodes : List P
  cellToNode : List (List Nat)
  cellToEdge : List (List Nat)
  sides : List (List Int)

/-- `getCellNodes`, /repo/src/tools/simplemeshmanager.hpp:585-592, 851-858, 1417-1424.  The coordinates of a node are
one value here, a loop over `k` in the code; `none` is a read past the end of a view. -/
def Mesh.getCellNodes {P : Type} (m : Mesh P) (indices : List Nat) : Option (List (List P)) :=
  indices.mapM fun c => do
    let row ← m.cellToNode[c]?
    row.mapM fun n => m.nodes[n]?

/-! ## The rectangle -/

/-- `computeNodes` of the rectangle, /repo/src/tools/simplemeshmanager.hpp:640-657 (and 941-961, where the corner and
the size are those of the part of the process).  The counter grows by one in the inner loop, so the nodes come in the
order of the loops. -/
def rectNodes [Field K] (X0 Y0 W H : K) (nx ny : Nat) : List (K × K) :=
  let dx := W / (nx : K)
  let dy := H / (ny : K)
  (List.range (ny + 1)).flatMap fun (j : Nat) => (List.range (nx + 1)).map fun (i : Nat) => (X0 + (i : K) * dx, Y0 + (j : K) * dy)

/-- `computeCellToNodeMap`, /repo/src/tools/simplemeshmanager.hpp:660-676, 964-980. -/
def rectCells (nx ny : Nat) : List (List Nat) :=
  (List.range ny).flatMap fun (j : Nat) => (List.range nx).map fun (i : Nat) =>
    [j * (nx + 1) + i, j * (nx + 1) + (i + 1), (j + 1) * (nx + 1) + (i + 1), (j + 1) * (nx + 1) + i]

/-- `computeSideSets`, /repo/src/tools/simplemeshmanager.hpp:698-721, 1002-1025: the one side set, by local side. -/
def rectSides (nx ny : Nat) : List (List Int) :=
  [(List.range nx).map fun (i : Nat) => (i : Int),
   (List.range ny).map fun (i : Nat) => ((i : Int) + 1) * nx - 1,
   (List.range nx).map fun (i : Nat) => (i : Int) + nx * ((ny : Int) - 1),
   (List.range ny).map fun (i : Nat) => (i : Int) * nx]

/-- Constructor of the rectangle, /repo/src/tools/simplemeshmanager.hpp:547-566.  `none` when a number of cells is zero,
so that the step is not a number; the edge map stays empty since its computation is commented out (564). -/
def rectangle [Field K] (X0 Y0 W H : K) (nx ny : Nat) : Option (Mesh (K × K)) :=
  if nx = 0 ∨ ny = 0 then none
  else some
    { numCells := nx * ny
      numNodes := (nx + 1) * (ny + 1)
      numEdges := (nx + 1) * ny + (ny + 1) * nx
      nodes := rectNodes X0 Y0 W H nx ny
      cellToNode := rectCells nx ny
      cellToEdge := []
      sides := rectSides nx ny }

/-! ## The rectangle on several processes -/

/-- The numbers of a process, /repo/src/tools/simplemeshmanager.hpp:758-769. -/
structure Part where
  xprocs : Nat
  yprocs : Nat
  px : Nat
  py : Nat
  nx : Nat
  ny : Nat
  deriving DecidableEq

/-- Outcomes of the constructor other than a mesh, /repo/src/tools/simplemeshmanager.hpp:802-811 (the exceptions) and
802-803 (division by zero before the check). -/
inductive Fault
  | divByZero
  | outOfRange
  | notANumber
  deriving DecidableEq

/-- First half of the constructor, /repo/src/tools/simplemeshmanager.hpp:793-819; the process number is not negative, as
it is a rank. -/
def part (NX NY procid xprocs yprocs : Nat) : Except Fault Part :=
  if xprocs = 0 then .error .divByZero
  else if yprocs = 0 then .error .outOfRange
  else if procid > xprocs * yprocs then .error .outOfRange
  else .ok
    { xprocs := xprocs
      yprocs := yprocs
      px := procid % xprocs
      py := procid / xprocs
      nx := NX / xprocs
      ny := NY / yprocs }

/-- Second half of the constructor, /repo/src/tools/simplemeshmanager.hpp:818-831, 941-961 (the shift of the corner). -/
def Part.mesh [Field K] (p : Part) (X0 Y0 W H : K) : Except Fault (Mesh (K × K)) :=
  let width := W / (p.xprocs : K)
  let height := H / (p.yprocs : K)
  match rectangle (X0 + (p.px : K) * width) (Y0 + (p.py : K) * height) width height p.nx p.ny with
  | none => .error .notANumber
  | some m => .ok m

/-- `SimpleMeshManager_Rectangle_Parallel`, /repo/src/tools/simplemeshmanager.hpp:788-832. -/
def rectangleParallel [Field K] (X0 Y0 W H : K) (NX NY procid xprocs yprocs : Nat) : Except Fault (Mesh (K × K)) := do
  let p ← part NX NY procid xprocs yprocs
  p.mesh X0 Y0 W H

/-- `localToGlobal`, /repo/src/tools/simplemeshmanager.hpp:893-900. -/
def Part.localToGlobal (p : Part) (lid : Nat) : Nat :=
  let xid := lid % (p.nx + 1)
  let yid := lid / (p.nx + 1)
  let ystride := p.xprocs * p.nx + 1
  xid + yid * ystride + p.px * p.nx + p.py * p.ny * ystride

/-- `globalToLocal`, /repo/src/tools/simplemeshmanager.hpp:903-915, with the truncating division of C++. -/
def Part.globalToLocal (p : Part) (gid : Nat) : Int :=
  let ystride : Int := p.xprocs * p.nx + 1
  let lgi : Int := gid - p.px * p.nx - p.py * p.ny * ystride
  let yid := lgi.tdiv ystride
  let xid := lgi.tmod ystride
  xid + yid * (p.nx + 1)

/-- `onRightBoundary`, /repo/src/tools/simplemeshmanager.hpp:1027-1030. -/
def Part.onRight (p : Part) (lid : Nat) : Bool := lid % (p.nx + 1) == p.nx

/-- `onTopBoundary`, /repo/src/tools/simplemeshmanager.hpp:1032-1035. -/
def Part.onTop (p : Part) (lid : Nat) : Bool := lid / (p.nx + 1) == p.ny

/-- `isShared`, /repo/src/tools/simplemeshmanager.hpp:918-936. -/
def Part.isShared (p : Part) (lid : Nat) : Bool :=
  if p.px < p.xprocs - 1 ∧ p.py < p.yprocs - 1 then p.onRight lid || p.onTop lid
  else if p.px < p.xprocs - 1 ∧ p.py = p.yprocs - 1 then p.onRight lid
  else if p.py < p.yprocs - 1 ∧ p.px = p.xprocs - 1 then p.onTop lid
  else false

/-! ## The brick -/

/-- `computeNodes` of the brick, /repo/src/tools/simplemeshmanager.hpp:1460-1482: the second direction has the depth, the
third the height. -/
def brickNodes [Field K] (X0 Y0 Z0 W D H : K) (nx ny nz : Nat) : List (K × K × K) :=
  let dx := W / (nx : K)
  let dy := D / (ny : K)
  let dz := H / (nz : K)
  (List.range (nz + 1)).flatMap fun (k : Nat) => (List.range (ny + 1)).flatMap fun (j : Nat) => (List.range (nx + 1)).map fun (i : Nat) =>
    (X0 + (i : K) * dx, Y0 + (j : K) * dy, Z0 + (k : K) * dz)

/-- The row of a cell in `computeCellToNodeMap` of the brick, /repo/src/tools/simplemeshmanager.hpp:1497-1505. -/
def brickRow (nx ny i j k : Nat) : List Nat :=
  let n := (nx + 1) * (ny + 1)
  [k * n + j * (nx + 1) + i, k * n + j * (nx + 1) + (i + 1), k * n + (j + 1) * (nx + 1) + (i + 1),
   k * n + (j + 1) * (nx + 1) + i,
   (k + 1) * n + j * (nx + 1) + i, (k + 1) * n + j * (nx + 1) + (i + 1),
   (k + 1) * n + (j + 1) * (nx + 1) + (i + 1), (k + 1) * n + (j + 1) * (nx + 1) + i]

/-- `computeCellToNodeMap` of the brick, /repo/src/tools/simplemeshmanager.hpp:1485-1512. -/
def brickCells (nx ny nz : Nat) : List (List Nat) :=
  (List.range nz).flatMap fun (k : Nat) => (List.range ny).flatMap fun (j : Nat) => (List.range nx).map fun (i : Nat) => brickRow nx ny i j k

/-- The row of a cell in `computeCellToEdgeMap` of the brick, /repo/src/tools/simplemeshmanager.hpp:1521-1542. -/
def brickEdgeRow (nx ny i j k : Nat) : List Nat :=
  let xy := (nx + 1) * ny + (ny + 1) * nx
  let z := (nx + 1) * (ny + 1)
  let xyz := xy + z
  [k * xyz + j * (2 * nx + 1) + i, k * xyz + j * (2 * nx + 1) + nx + (i + 1), k * xyz + (j + 1) * (2 * nx + 1) + i,
   k * xyz + j * (2 * nx + 1) + nx + i,
   (k + 1) * xyz + j * (2 * nx + 1) + i, (k + 1) * xyz + j * (2 * nx + 1) + nx + (i + 1),
   (k + 1) * xyz + (j + 1) * (2 * nx + 1) + i, (k + 1) * xyz + j * (2 * nx + 1) + nx + i,
   k * xyz + xy + j * (nx + 1) + i, k * xyz + xy + j * (nx + 1) + (i + 1),
   k * xyz + xy + (j + 1) * (nx + 1) + (i + 1), k * xyz + xy + (j + 1) * (nx + 1) + i]

/-- `computeCellToEdgeMap` of the brick, /repo/src/tools/simplemeshmanager.hpp:1515-1548. -/
def brickEdges (nx ny nz : Nat) : List (List Nat) :=
  (List.range nz).flatMap fun (k : Nat) => (List.range ny).flatMap fun (j : Nat) => (List.range nx).map fun (i : Nat) =>
    brickEdgeRow nx ny i j k

/-- `computeSideSets` of the brick, /repo/src/tools/simplemeshmanager.hpp:1551-1598; position `i + n*j` of a side is
entry `i` of block `j`. -/
def brickSides (nx ny nz : Nat) : List (List Int) :=
  let nxny : Int := nx * ny
  [(List.range nz).flatMap fun (j : Nat) => (List.range nx).map fun (i : Nat) => (i : Int) + nxny * j,
   (List.range nz).flatMap fun (j : Nat) => (List.range ny).map fun (i : Nat) => ((i : Int) + 1) * nx - 1 + nxny * j,
   (List.range nz).flatMap fun (j : Nat) => (List.range nx).map fun (i : Nat) => nx * ((ny : Int) - 1) + i + nxny * j,
   (List.range nz).flatMap fun (j : Nat) => (List.range ny).map fun (i : Nat) => (i : Int) * nx + nxny * j,
   (List.range ny).flatMap fun (j : Nat) => (List.range nx).map fun (i : Nat) => (i : Int) + nx * j,
   (List.range ny).flatMap fun (j : Nat) => (List.range nx).map fun (i : Nat) => (i : Int) + nx * j + nxny * ((nz : Int) - 1)]

/-- Constructor of the brick, /repo/src/tools/simplemeshmanager.hpp:1364-1386; `none` as for the rectangle. -/
def brick [Field K] (X0 Y0 Z0 W D H : K) (nx ny nz : Nat) : Option (Mesh (K × K × K)) :=
  if nx = 0 ∨ ny = 0 ∨ nz = 0 then none
  else some
    { numCells := nx * ny * nz
      numNodes := (nx + 1) * (ny + 1) * (nz + 1)
      numEdges := ((nx + 1) * ny + (ny + 1) * nx) * (nz + 1) + (nx + 1) * (ny + 1) * nz
      nodes := brickNodes X0 Y0 Z0 W D H nx ny nz
      cellToNode := brickCells nx ny nz
      cellToEdge := brickEdges nx ny nz
      sides := brickSides nx ny nz }

/-! ## Use by the interfaces -/

/-- The entries of the sublists `Mesh` and `Phase Mesh` that matter here, defaults filled in,
/repo/src/interfaces/mesh/meshInterface_construct.hpp:37-47, 254-264. -/
structure Box (K : Type) where
  xmin : K
  xmax : K
  ymin : K
  ymax : K
  zmin : K
  zmax : K
  NX : Nat
  NY : Nat
  NZ : Nat

/-- The `Geometry` list given to a mesh manager, /repo/src/interfaces/mesh/meshInterface_construct.hpp:36-47. -/
structure Geometry (K : Type) where
  X0 : K
  width : K
  NX : Nat
  Y0 : K
  height : K
  NY : Nat
  Z0 : K
  depth : K
  NZ : Nat

/-- The list of the mesh, /repo/src/interfaces/mesh/meshInterface_construct.hpp:36-47. -/
def geometry [Field K] (b : Box K) : Geometry K :=
  { X0 := b.xmin, width := b.xmax - b.xmin, NX := b.NX
    Y0 := b.ymin, height := b.ymax - b.ymin, NY := b.NY
    Z0 := b.zmin, depth := b.zmax - b.zmin, NZ := b.NZ }

/-- The list of the phase mesh, /repo/src/interfaces/mesh/meshInterface_construct.hpp:253-264: the lower limits of the
sizes are taken from the sublist `Mesh`. -/
def phaseGeometry [Field K] (mesh phase : Box K) : Geometry K :=
  { X0 := phase.xmin, width := phase.xmax - mesh.xmin, NX := phase.NX
    Y0 := phase.ymin, height := phase.ymax - mesh.ymin, NY := phase.NY
    Z0 := phase.zmin, depth := phase.zmax - mesh.zmin, NZ := phase.NZ }

/-- The mesh in two dimensions on one process, /repo/src/interfaces/mesh/meshInterface_construct.hpp:50-52, 268-270. -/
def mesh2 [Field K] (g : Geometry K) : Option (Mesh (K × K)) := rectangle g.X0 g.Y0 g.width g.height g.NX g.NY

/-- The mesh in three dimensions on one process, /repo/src/interfaces/mesh/meshInterface_construct.hpp:53-55, 271-273,
with the entries read by name in /repo/src/tools/simplemeshmanager.hpp:1366-1374. -/
def mesh3 [Field K] (g : Geometry K) : Option (Mesh (K × K × K)) :=
  brick g.X0 g.Y0 g.Z0 g.width g.depth g.height g.NX g.NY g.NZ

/-- The mesh in two dimensions on several processes,
/repo/src/interfaces/mesh/meshInterface_construct.hpp:58-65; the exception when the numbers do not multiply to the number
of processes is `outOfRange` here. -/
def mesh2Parallel [Field K] (g : Geometry K) (size rank xprocs yprocs : Nat) : Except Fault (Mesh (K × K)) :=
  if xprocs * yprocs ≠ size then .error .outOfRange
  else rectangleParallel g.X0 g.Y0 g.width g.height g.NX g.NY rank xprocs yprocs

/-- First loop of `buildSimpleDOFManagers`: the number of owned degrees of freedom,
/repo/src/interfaces/discretization/discretizationInterface_dof.hpp:252-260. -/
def numOwned (phaseDim numNodes : Nat) (shared : Nat → Bool) : Nat :=
  (List.range numNodes).foldl
    (fun n i => if !shared i then (if phaseDim > 0 then n + 1 else n) else n) 0

/-- Second loop: the owned degrees of freedom are written at growing positions of a view of the size counted before,
/repo/src/interfaces/discretization/discretizationInterface_dof.hpp:262-271; `none` is a write past its end. -/
def fillOwned (size numNodes : Nat) (shared : Nat → Bool) (toGlobal : Nat → Nat) : Option (List Nat) :=
  (List.range numNodes).foldlM
    (fun owned i =>
      if !shared i then (if owned.length < size then some (owned ++ [toGlobal i]) else none) else some owned) []

/-- The list of owned degrees of freedom, /repo/src/interfaces/discretization/discretizationInterface_dof.hpp:252-271. -/
def ownedDofs (phaseDim numNodes : Nat) (shared : Nat → Bool) (toGlobal : Nat → Nat) : Option (List Nat) :=
  fillOwned (numOwned phaseDim numNodes shared) numNodes shared toGlobal

/-- The offsets of a variable, /repo/src/interfaces/discretization/discretizationInterface_dof.hpp:305-315: the same for
every variable, block and physics set. -/
def varOffsets (_var : Nat) : List Nat := [0, 1, 3, 2]

/-- The local degree of freedom of basis function `b` of a variable on a cell, read by the gather as
`LIDs(elem,offsets(var,dof))`, with the rows of the cell-to-node map as `LIDs`,
/repo/src/interfaces/discretization/discretizationInterface_dof.hpp:288,
/repo/src/managers/assembly/assemblyManager_gather.hpp:227-229. -/
def cellDof {P : Type} (m : Mesh P) (cell var b : Nat) : Option Nat := do
  let row ← m.cellToNode[cell]?
  let o ← (varOffsets var)[b]?
  row[o]?

end MrHyDE.Mesh
