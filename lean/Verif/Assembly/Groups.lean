import Mathlib.Data.List.Basic

/-!
# Assembly: grouping of elements, model

Model of `createGroups`, src/managers/assembly/assemblyManager_groups.hpp: elements of a block are split into
groups (worksets), element sides into boundary groups.  Loops of the code that need not terminate carry fuel;
running out of fuel, like every access outside an array, is `none`.
-/

namespace MrHyDE.Assembly

/-- `elemPerGroup`, assemblyManager_groups.hpp:86-93.  A negative size other than -1 is converted to `size_t`,
which exceeds every number of elements. -/
def perGroup (ws : Int) (n : Nat) : Nat :=
  if ws = -1 then n else if ws < 0 then n else min ws.toNat n

/-- The while loop that cuts `[prog, n)` into pieces of `w` consecutive indices, assemblyManager_groups.hpp:275-288,
374-387. -/
def seqLoop (w n : Nat) : Nat → Nat → Option (List (List Nat))
  | fuel, prog =>
    if prog < n then
      match fuel with
      | 0 => none
      | f + 1 =>
        let c := if prog + w > n then n - prog else w
        (seqLoop w n f (prog + c)).map (fun r => List.range' prog c :: r)
    else some []

/-- The search for the first element not yet in a group, assemblyManager_groups.hpp:323-332; the result is `n`
if there is none. -/
def firstFree (added : Nat → Bool) (n : Nat) : Nat → Nat → Nat
  | 0, ref => ref
  | f + 1, ref => if ref < n then (if added ref then firstFree added n f (ref + 1) else ref) else ref

/-- `beenadded(j) = true`. [assemblyManager_groups.hpp:323-365] -/
def mark (added : Nat → Bool) (j : Nat) : Nat → Bool := fun k => if k = j then true else added k

/-- State of the subgrid-preserving grouping: the flags, the counter `numAdded` and the group being built. [assemblyManager_groups.hpp:306-371] -/
structure SG where
  added : Nat → Bool
  numAdded : Nat
  group : List Nat

/-- One pass of the loop over `j`, assemblyManager_groups.hpp:336-348.  The flag of `j` is not consulted. -/
def sgStep (sig : Nat → List Bool) (w ref : Nat) (s : SG) (j : Nat) : SG :=
  if sig j = sig ref ∧ s.group.length < w then
    { added := mark s.added j, numAdded := s.numAdded + 1, group := s.group ++ [j] }
  else s

/-- One pass of the outer loop: the group of the first free element, assemblyManager_groups.hpp:319-350. -/
def sgGroup (sig : Nat → List Bool) (w n ref : Nat) (added : Nat → Bool) (numAdded : Nat) : SG :=
  (List.range' (ref + 1) (n - (ref + 1))).foldl (sgStep sig w ref)
    { added := mark added ref, numAdded := numAdded + 1, group := [ref] }

/-- The loop `while (numAdded < numTotalElem)`, assemblyManager_groups.hpp:318-351.  No free element left means a
write outside `beenadded`. -/
def sgLoop (sig : Nat → List Bool) (w n : Nat) : Nat → (Nat → Bool) → Nat → Option (List (List Nat))
  | fuel, added, numAdded =>
    if numAdded < n then
      match fuel with
      | 0 => none
      | f + 1 =>
        let ref := firstFree added n n 0
        if ref < n then
          let s := sgGroup sig w n ref added numAdded
          (sgLoop sig w n f s.added s.numAdded).map (fun r => s.group :: r)
        else none
    else some []

/-- The index of the largest group at or after position `g` (the first of several), the loop over `grp2` in
assemblyManager_groups.hpp:357-365. -/
def maxFrom (gs : List (List Nat)) (g : Nat) : Nat :=
  (List.range' (g + 1) (gs.length - (g + 1))).foldl
    (fun m k => if (gs[k]?.getD []).length > (gs[m]?.getD []).length then k else m) g

/-- `elem_groups[a].swap(elem_groups[b])`. [assemblyManager_groups.hpp:86-93] -/
def swapAt (gs : List (List Nat)) (a b : Nat) : List (List Nat) :=
  (gs.set a (gs[b]?.getD [])).set b (gs[a]?.getD [])

/-- Re-ordering of the groups from biggest to smallest, assemblyManager_groups.hpp:356-371 (only reached with at
least one group). -/
def reorder (gs : List (List Nat)) : List (List Nat) :=
  (List.range (gs.length - 1)).foldl (fun r g => swapAt r g (maxFrom r g)) gs

/-- The table `onbndry`, assemblyManager_groups.hpp:306-320: one column for each boundary group, `ids` are the
entries of its `localElemID`.  `none` is a write outside the table. -/
def onBoundary (n : Nat) (bgs : List (List Nat)) : Option (Nat → List Bool) :=
  if bgs.all (fun ids => ids.all (fun e => decide (e < n))) then
    some (fun e => bgs.map (fun ids => decide (e ∈ ids)))
  else none

/-- The partition of the `n` elements of a block, assemblyManager_groups.hpp:272-392 (`assembly_partitioning`, the
workset size, the boundary groups made before).  The modes "random" and "neighbor-avoiding" and every unknown mode
leave the list of groups empty and line 392 reads its first entry. -/
def createGroups (mode : String) (ws : Int) (n : Nat) (bgs : List (List Nat)) (fuel : Nat) :
    Option (List (List Nat)) :=
  if n = 0 then some []
  else
    let w := perGroup ws n
    if mode = "sequential" then seqLoop w n fuel 0
    else if mode = "subgrid-preserving" then
      if bgs.length > 0 then
        match onBoundary n bgs with
        | none => none
        | some sig => (sgLoop sig w n fuel (fun _ => false) 0).map reorder
      else seqLoop w n fuel 0
    else none

/-! ### Boundary groups -/

/-- The list `unique_sides`, assemblyManager_groups.hpp:175-188: local side numbers in order of first appearance. -/
def uniqueSides (sides : List Nat) : List Nat :=
  sides.foldl (fun u s => if s ∈ u then u else u ++ [s]) (sides.take 1)

/-- The list `group` for one local side, assemblyManager_groups.hpp:191-196. -/
def withSide (sides : List Nat) (s : Nat) : List Nat :=
  (List.range sides.length).filter (fun e => sides[e]? = some s)

/-- The while loop over `prog`, assemblyManager_groups.hpp:198-205: pieces of `w` consecutive entries of `group`. -/
def chunkLoop (w : Nat) (group : List Nat) : Nat → Nat → Option (List (List Nat))
  | fuel, prog =>
    if prog < group.length then
      match fuel with
      | 0 => none
      | f + 1 =>
        let c := if prog + w > group.length then group.length - prog else w
        (chunkLoop w group f (prog + c)).map (fun r => (group.drop prog).take c :: r)
    else some []

/-- A boundary group: positions in the list of element sides of the side set, element ids, local side. [assemblyManager_groups.hpp:206-255] -/
structure BGroup where
  members : List Nat
  ids : List Nat
  side : Nat
deriving DecidableEq

/-- The boundary group made from one piece, assemblyManager_groups.hpp:206-255: ids are the processor-wide element
numbers, `sideIndex` is the local side of the last member. -/
def mkBGroup (lids sides : List Nat) (members : List Nat) : BGroup :=
  { members := members
    ids := members.map (fun e => lids[e]?.getD 0)
    side := sides[members.getLastD 0]?.getD 0 }

/-- The boundary groups of one side set, assemblyManager_groups.hpp:155-258.  `lids`, `sides`: element number and
local side of each element side (parallel lists). -/
def boundaryGroups (w : Nat) (lids sides : List Nat) (fuel : Nat) : Option (List BGroup) :=
  ((uniqueSides sides).mapM (fun s => chunkLoop w (withSide sides s) fuel 0)).map
    (fun l => l.flatten.map (mkBGroup lids sides))

/-! ### Element numbers -/

/-- Nodes and orientations of the elements of a group, as seen through the element number (any data attached to
processor-wide element numbers): a volume group stores positions in the list `my` of the block,
src/interfaces/discretization/discretizationInterface_util.hpp:51-64 (`getMyNodes`); the position is looked up in
`my_elements[block]`. -/
def dataOfBlockIds {D : Type} (my : List Nat) (dat : Nat → D) (ids : List Nat) : Option (List D) :=
  ids.mapM (fun i => (my[i]?).map dat)

/-- `getPhysicalOrientations` with `use_block = false`, discretizationInterface_basis.hpp:932-952, and the nodes
handed to a boundary group at construction (assemblyManager_groups.hpp:208-216): the numbers are used as they are. -/
def dataOfLocalIds {D : Type} (dat : Nat → D) (ids : List Nat) : List D := ids.map dat

end MrHyDE.Assembly
