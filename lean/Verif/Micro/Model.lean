import Mathlib.Data.Real.Sqrt
import Mathlib.Algebra.Order.Field.Basic

/-!
# Microstructures: seeds, grains and rotations

A run with `compute mesh data` (or a sampling run with `regenerate grains`) draws seed points, gives every element the data of
the seed nearest to its centre, and draws one random rotation for every seed.  The generator is modelled by the sequence of
numbers it returns.
-/

namespace MrHyDE.Micro

variable {K : Type}

/-- A row of the view of seeds or of centres, /repo/src/interfaces/mesh/meshInterface_util.hpp:188, 210 (three columns). -/
abbrev Pt (K : Type) := K × K × K

/-- The limits between which seeds are drawn, /repo/src/interfaces/mesh/meshInterface_util.hpp:159-164, 221-226. -/
structure Box (K : Type) where
  lo : Pt K
  hi : Pt K

/-- `settings->sublist("Mesh").get`, /repo/src/interfaces/mesh/meshInterface_util.hpp:159-164. -/
def entry (settings : String → Option K) (name : String) (default : K) : K := (settings name).getD default

/-- The limits as read from the settings, /repo/src/interfaces/mesh/meshInterface_util.hpp:159-164, 221-226. -/
def seedBox [Field K] (settings : String → Option K) : Box K :=
  { lo := (entry settings "x min" 0, entry settings "y min" 0, entry settings "z min" 0)
    hi := (entry settings "x max" 1, entry settings "y max" 1, entry settings "z max" 1) }

/-- The limits of a mesh made by the program itself, /repo/src/interfaces/mesh/meshInterface_construct.hpp:145-146, 151-152,
158-159. -/
def meshBox [Field K] (settings : String → Option K) : Box K :=
  { lo := (entry settings "xmin" 0, entry settings "ymin" 0, entry settings "zmin" 0)
    hi := (entry settings "xmax" 1, entry settings "ymax" 1, entry settings "zmax" 1) }

/-- `std::uniform_real_distribution` between two limits, given the next number in [0,1) of the generator,
/repo/src/interfaces/mesh/meshInterface_util.hpp:186, 228-230; one number of the generator for every call. -/
def uniform [Field K] (lo hi u : K) : K := lo + (hi - lo) * u

/-- Seeds made so far and the number of draws made, /repo/src/interfaces/mesh/meshInterface_util.hpp:191-201, 236-272
(`prog` is the length of the list). -/
structure Draws (K : Type) where
  next : Nat
  seeds : List (Pt K)

/-- Distance between crude seeds in one direction, /repo/src/interfaces/mesh/meshInterface_util.hpp:166-168. -/
def spacing [Field K] (lo hi : K) (n : Nat) : K := (hi - lo) / (n + 1 : K)

/-- One crude coordinate: a point of the lattice and a draw between -1/4 and 1/4 of a spacing,
/repo/src/interfaces/mesh/meshInterface_util.hpp:170-186, 195-200. -/
def crudeCoord [Field K] (lo hi : K) (n i : Nat) (u : K) : K :=
  lo + (i + 1 : K) * spacing lo hi n + uniform (-(1 / 4)) (1 / 4) u * spacing lo hi n

/-- Body of the three loops, /repo/src/interfaces/mesh/meshInterface_util.hpp:195-201. -/
def crudeStep [Field K] (b : Box K) (nx ny nz : Nat) (u : Nat → K) (s : Draws K) (i j k : Nat) : Draws K :=
  { next := s.next + 3
    seeds := s.seeds ++
      [(crudeCoord b.lo.1 b.hi.1 nx i (u s.next),
        crudeCoord b.lo.2.1 b.hi.2.1 ny j (u (s.next + 1)),
        crudeCoord b.lo.2.2 b.hi.2.2 nz k (u (s.next + 2)))] }

/-- `fast and crude microstructure`, /repo/src/interfaces/mesh/meshInterface_util.hpp:187-205. -/
def crude [Field K] (b : Box K) (nx ny nz : Nat) (u : Nat → K) : List (Pt K) :=
  ((List.range nx).foldl (fun s i =>
    (List.range ny).foldl (fun s j =>
      (List.range nz).foldl (fun s k => crudeStep b nx ny nz u s i j k) s) s)
    { next := 0, seeds := [] }).seeds

/-- Three draws in the box, /repo/src/interfaces/mesh/meshInterface_util.hpp:242-247, 277-282. -/
def drawIn [Field K] (b : Box K) (u : Nat → K) (next : Nat) : Pt K :=
  (uniform b.lo.1 b.hi.1 (u next), uniform b.lo.2.1 b.hi.2.1 (u (next + 1)), uniform b.lo.2.2 b.hi.2.2 (u (next + 2)))

/-- The loop without `well spaced seeds`, /repo/src/interfaces/mesh/meshInterface_util.hpp:276-283. -/
def plain [Field K] (b : Box K) (n : Nat) (u : Nat → K) : List (Pt K) :=
  ((List.range n).foldl (fun (s : Draws K) _ => { next := s.next + 3, seeds := s.seeds ++ [drawIn b u s.next] })
    { next := 0, seeds := [] }).seeds

/-- The ten candidates of a round, /repo/src/interfaces/mesh/meshInterface_util.hpp:235, 241-248. -/
def candidates [Field K] (b : Box K) (u : Nat → K) (next : Nat) : List (Pt K) :=
  (List.range 10).map fun k => drawIn b u (next + 3 * k)

/-- Weighted square of the distance, /repo/src/interfaces/mesh/meshInterface_util.hpp:255-258. -/
def cval [Field K] (w c s : Pt K) : K :=
  w.1 * (c.1 - s.1) * (c.1 - s.1) + w.2.1 * (c.2.1 - s.2.1) * (c.2.1 - s.2.1) + w.2.2 * (c.2.2 - s.2.2) * (c.2.2 - s.2.2)

/-- Smallest weighted square to the seeds so far, /repo/src/interfaces/mesh/meshInterface_util.hpp:253-262; `big` is
`1.0e200`. -/
def minDist [Field K] [LinearOrder K] (w : Pt K) (big : K) (seeds : List (Pt K)) (c : Pt K) : K :=
  seeds.foldl (fun m s => if cval w c s < m then cval w c s else m) big

/-- Number of the best candidate, /repo/src/interfaces/mesh/meshInterface_util.hpp:249-267 (the pair is `maxdist`,
`bestpt`). -/
def best [Field K] [LinearOrder K] (ds : List K) : Nat :=
  (ds.zipIdx.foldl (fun (m : K × Nat) (d : K × Nat) => if d.1 > m.1 then d else m) (0, 0)).2

/-- One round, /repo/src/interfaces/mesh/meshInterface_util.hpp:240-272; the seeds so far are read through the view they are
written to. -/
def round [Field K] [LinearOrder K] (b : Box K) (w : Pt K) (big : K) (u : Nat → K) (s : Draws K) : Draws K :=
  let cs := candidates b u s.next
  let bestpt := if s.seeds.length > 0 then best (cs.map (minDist w big s.seeds)) else 0
  { next := s.next + 30
    seeds := s.seeds ++ (cs[bestpt]?).toList }

/-- `well spaced seeds`, /repo/src/interfaces/mesh/meshInterface_util.hpp:236-273; every round adds one seed, so the loop makes
as many rounds as there are seeds. -/
def wellSpaced [Field K] [LinearOrder K] (b : Box K) (w : Pt K) (big : K) (u : Nat → K) : Nat → Draws K
  | 0 => { next := 0, seeds := [] }
  | n + 1 => round b w big u (wellSpaced b w big u n)

/-- Scaled weights, /repo/src/interfaces/mesh/meshInterface_util.hpp:216-219. -/
noncomputable def weights (w : Pt ℝ) : Pt ℝ :=
  let nwt := Real.sqrt (w.1 * w.1 + w.2.1 * w.2.1 + w.2.2 * w.2.2)
  (w.1 * (3 / nwt), w.2.1 * (3 / nwt), w.2.2 * (3 / nwt))

/-- A row of `rotation_data` from four draws, /repo/src/managers/assembly/assemblyManager_util.hpp:843-864 and
/repo/src/managers/analysis/analysisManager_util.hpp:107-128; `none`: division by zero. -/
noncomputable def rotationRow (x y z w : ℝ) : Option (List ℝ) :=
  let r := Real.sqrt (x * x + y * y + z * z + w * w)
  if r = 0 then none
  else
    let x := x * (1 / r)
    let y := y * (1 / r)
    let z := z * (1 / r)
    let w := w * (1 / r)
    some [w * w + x * x - y * y - z * z, 2 * (x * y - w * z), 2 * (x * z + w * y),
      2 * (x * y + w * z), w * w - x * x + y * y - z * z, 2 * (y * z - w * x),
      2 * (x * z - w * y), 2 * (y * z + w * x), w * w - x * x - y * y + z * z]

/-- `rotation_data`, /repo/src/managers/assembly/assemblyManager_util.hpp:840-866 and
/repo/src/managers/analysis/analysisManager_util.hpp:103-129; `g` is the sequence of normal draws. -/
noncomputable def rotations (g : Nat → ℝ) (n : Nat) : Option (List (List ℝ)) :=
  (List.range n).mapM fun k => rotationRow (g (4 * k)) (g (4 * k + 1)) (g (4 * k + 2)) (g (4 * k + 3))

/-- Copy of a row of data to the rotation of an element, /repo/src/managers/assembly/assemblyManager_groups.hpp:637-645 and
/repo/src/managers/assembly/assemblyManager_workset.hpp:1454-1462. -/
def toRotation (data : List K) (i j : Nat) : Option K := data[3 * i + j]?

/-- What an element holds afterwards, /repo/src/managers/assembly/assemblyManager_util.hpp:880-883. -/
structure Info (D : Type) where
  data : D
  seed : Nat
  index : Nat
  distance : Rat
  deriving DecidableEq

/-- Rows of `totalNodes` and centres, /repo/src/managers/assembly/assemblyManager_util.hpp:891-917 and
/repo/src/interfaces/mesh/meshInterface_util.hpp:110-127: the view has as many nodes as elements of the first group of the
first block; the image of the centre of the reference cell is the mean of the vertices.  `none`: write past the end. -/
def centre [Field K] (perElem : Nat) (nodes : List (Pt K)) : Option (Pt K) :=
  if nodes.length > perElem then none
  else some ((nodes.map (·.1)).sum / (perElem : K), (nodes.map (·.2.1)).sum / (perElem : K), (nodes.map (·.2.2)).sum / (perElem : K))

/-- Body of the loop over the elements of a group, /repo/src/managers/assembly/assemblyManager_util.hpp:944-960.  `flat` is the
list of all neighbours, `total` the number of elements; the view of distances is never filled.  `none`: read past an end. -/
def giveOne {D : Type} (rot : List D) (index : List Nat) (flat : List Nat) (total : Nat) (prog : Nat) : Option (Info D) := do
  let cpt ← flat[prog]?
  let data ← rot[cpt]?
  let idx ← index[cpt]?
  let dist ← if cpt < total then some 0 else none
  return { data := data, seed := cpt % 100, index := idx, distance := dist }

/-- The loops over blocks and groups, /repo/src/managers/assembly/assemblyManager_util.hpp:933-963; a group is its number of
elements, `prog` runs on. -/
def give {D : Type} (rot : List D) (index : List Nat) (flat : List Nat) (total : Nat) :
    Nat → List (List Nat) → Option (List (List (List (Info D))))
  | _, [] => some []
  | prog, b :: bs => do
    let gs ← b.foldlM (fun (s : Nat × List (List (Info D))) n => do
      let es ← (List.range n).mapM fun c => giveOne rot index flat total (s.1 + c)
      return (s.1 + n, s.2 ++ [es])) (prog, [])
    let rest ← give rot index flat total gs.1 bs
    return gs.2 :: rest

/-- `importNewMicrostructure`, /repo/src/managers/assembly/assemblyManager_util.hpp:870-963.  `search` is the external search: for
a centre, the seeds within 1.1 times the distance of the nearest one, nearest first
(/repo/src/interfaces/compadre/CompadreInterface.hpp:73-99); line 927 takes the flat list of all of them. -/
def importNew [Field K] {D : Type} (rot : List D) (index : List Nat) (search : Pt K → List Nat)
    (groups : List (List (List (List (Pt K))))) : Option (List (List (List (Info D)))) := do
  let first ← (groups[0]?).bind (·[0]?)
  let node ← first[0]?
  let cells := groups.flatten.flatten
  let centres ← cells.mapM (centre node.length)
  give rot index (centres.map search).flatten cells.length 0 (groups.map (·.map List.length))

/-- Largest seed number of a process and of all, plus one, /repo/src/managers/analysis/analysisManager_util.hpp:73-90; a process
is the list of the seed numbers of its elements. -/
def numSeeds (procs : List (List Nat)) : Nat :=
  (procs.map (fun p => p.foldl (fun m s => if s > m then s else m) 0)).foldl max 0 + 1

/-- The loops of `updateRotationData` over groups and boundary groups, /repo/src/managers/analysis/analysisManager_util.hpp:135-164:
the new data of the elements of a group, given the number of elements and the vector `data_seed`.  `none`: read past an end. -/
def updateGroup {D : Type} (rot : List D) (numElem : Nat) (seed : List Nat) : Option (List D) :=
  (List.range numElem).mapM fun c => do
    let cnode ← seed[c]?
    rot[cnode]?

/-- `data_seed` of a boundary group after `importNewMicrostructure`: never sized, /repo/src/tools/boundaryGroup.hpp:226 and
/repo/src/managers/assembly/assemblyManager_util.hpp:968-1054 (a comment). -/
def boundarySeeds : List Nat := []

/-- Data of a boundary group after `importNewMicrostructure`,
/repo/src/managers/assembly/assemblyManager_util.hpp:968-1054 (a comment): a view of extent zero. -/
def boundaryData {D : Type} : List D := []

/-- `allocateRotations`, /repo/src/tools/workset.cpp:2688-2692; `zero` is a row of zeros. -/
def allocate {D : Type} (zero : D) (numElem : Nat) (rotation : List D) : List D :=
  if rotation.length < numElem then List.replicate numElem zero else rotation

/-- `updateGroupData` and `updateDataBoundary` with rotations, /repo/src/managers/assembly/assemblyManager_groups.hpp:628-646
and /repo/src/managers/assembly/assemblyManager_workset.hpp:1446-1464: the first rows of the rotations are overwritten by the
data of the group; the work set is shared by all groups and boundary groups of a block.  `none`: write past the end. -/
def setRotations {D : Type} (zero : D) (numElem : Nat) (data : List D) (rotation : List D) : Option (List D) :=
  let r := allocate zero numElem rotation
  if data.length > r.length then none else some (data ++ r.drop data.length)

/-- Number of columns of the data of an element, /repo/src/managers/assembly/assemblyManager_util.hpp:398-404. -/
def numData (haveRotations havePhi : Bool) : Nat := if haveRotations then 9 else if havePhi then 3 else 1

/-- Copy of a row of the data file, /repo/src/managers/assembly/assemblyManager_util.hpp:457-459, 522-524, 557-559; `none`: write past
the end. -/
def copyRow [Zero K] (numdata : Nat) (row : List K) : Option (List K) :=
  if row.length > numdata then none else some (row ++ List.replicate (numdata - row.length) 0)

/-- `importMeshData` for the elements of a group, scattered points, /repo/src/managers/assembly/assemblyManager_util.hpp:501-536;
`closest` is the number of the closest data point of every element (C13). -/
def importMesh [Zero K] (numdata : Nat) (modulus : Nat) (rows : List (List K)) (closest : List Nat) : Option (List (Info (List K))) :=
  closest.mapM fun c => do
    let row ← rows[c]?
    let data ← copyRow numdata row
    return { data := data, seed := c, index := c % modulus, distance := 0 }

/-- Volume groups, /repo/src/managers/assembly/assemblyManager_util.hpp:531. -/
def volumeModulus : Nat := 100

/-- Boundary groups, /repo/src/managers/assembly/assemblyManager_util.hpp:566. -/
def boundaryModulus : Nat := 50

/-- Coordinates of a centre passed to the search on a grid, /repo/src/managers/assembly/assemblyManager_util.hpp:453-454,
483-484: three columns are read whatever the dimension.  `none`: read past the end. -/
def gridArguments (centre : List K) : Option (Pt K) := do
  return (← centre[0]?, ← centre[1]?, ← centre[2]?)

end MrHyDE.Micro
