import Verif.Assembly.Machine
import Mathlib.Algebra.Ring.Defs
import Mathlib.Algebra.Order.Ring.Abs

/-!
# Assembly: scatter and constraints, model

Model of the scatter kernels (src/managers/assembly/assemblyManager_scatter.hpp), of the local arrays used by the
second assembly path (assemblyManager_jacres.hpp) and of the constraints (assemblyManager_constraints.hpp) on one
process.  The local numbers `LIDs(e,p)`, the residual `res(e,p).val()` and its derivatives `res(e,p).fastAccessDx(q)`
are arbitrary.  Multiscale blocks and derivatives with respect to discretized parameters are not modelled.
-/

namespace MrHyDE.Assembly

/-- Entries of the global residual (row, column of the multivector) and of the matrix. [arguments of assemblyManager_scatter.hpp:187-276] -/
inductive Loc where
  | res (row col : Nat)
  | jac (row col : Nat)
deriving DecidableEq

/-- One element of a group: local numbers, residual, derivatives. [views read in assemblyManager_scatter.hpp:187-276] -/
structure Elem (K : Type) where
  lid : Nat → Nat
  val : Nat → K
  dx : Nat → Nat → K

variable {K : Type} [CommRing K]

/-- `sumIntoValues(row, cols, n, vals, ...)`: columns outside the graph of the matrix are skipped (Kokkos Kernels). [called at assemblyManager_scatter.hpp:237-270] -/
def sumInto (pat : Nat → Nat → Bool) (row : Nat) (entries : List (Nat × K)) : List (Loc × K) :=
  entries.filterMap (fun cv => if pat row cv.1 then some (Loc.jac row cv.1, cv.2) else none)

/-! ### First path: straight from the workset -/

/-- Residual part, assemblyManager_scatter.hpp:198-232 with `compute_sens` false (true is not reachable,
assemblyManager_jacres.hpp:183-186).  `pos` lists `offsets(n,j)` over variables and basis functions. -/
def resOps (fixed : Nat → Bool) (pos : List Nat) (e : Elem K) : List (Loc × K) :=
  pos.filterMap (fun p => if fixed (e.lid p) then none else some (Loc.res (e.lid p) 0, -e.val p))

/-- The arrays `cols`, `vals` handed over for row `p`, assemblyManager_scatter.hpp:237-270.  Their first `width`
entries are read (`numVals = LIDs.extent(1)`); `none` when one of them has not been written (indeterminate value).
The branch for the adjoint is not reachable. -/
def jacRow (lump : Bool) (width : Nat) (pos : List Nat) (e : Elem K) (p : Nat) : Option (List (Nat × K)) :=
  (List.range width).mapM
    (fun c => if c ∈ pos then some (if lump then e.lid p else e.lid c, e.dx p c) else none)

/-- All additions of one element, assemblyManager_scatter.hpp:187-276. -/
def scatterOps (pat : Nat → Nat → Bool) (fixed : Nat → Bool) (lump computeJac : Bool) (width : Nat) (pos : List Nat)
    (e : Elem K) : Option (List (Loc × K)) :=
  if computeJac then
    ((pos.filter (fun p => !fixed (e.lid p))).mapM
      (fun p => (jacRow lump width pos e p).map (sumInto pat (e.lid p)))).map (fun js => resOps fixed pos e ++ js.flatten)
  else some (resOps fixed pos e)

/-! ### Second path: through local arrays -/

/-- `local_res`, assemblyManager_jacres.hpp:1363-1398 (`updateRes`) on an array of zeros: column `g`. -/
def localRes (sens : Bool) (pos : List Nat) (e : Elem K) (g : Nat) : Nat → K :=
  pos.foldl (fun t p => fun x => if x = p then t x - (if sens then e.dx p g else e.val p) else t x) (fun _ => 0)

/-- `local_J`, assemblyManager_jacres.hpp:1447-1488 (`updateJac`) on an array of zeros. -/
def localJac (adjoint : Bool) (pos : List Nat) (e : Elem K) : Nat → Nat → K :=
  pos.foldl (fun t n => pos.foldl (fun t m =>
    fun x y => if (if adjoint then x = m ∧ y = n else x = n ∧ y = m) then t x y + e.dx n m else t x y) t) (fun _ _ => 0)

/-- `scatterRes(res_view, local_res, LIDs)`, assemblyManager_scatter.hpp:74-107, for `cols` columns. -/
def scatterResOps (fixed0 : Nat → Bool) (width cols : Nat) (e : Elem K) (lr : Nat → Nat → K) : List (Loc × K) :=
  ((List.range width).filter (fun r => !fixed0 (e.lid r))).flatMap
    (fun r => (List.range cols).map (fun g => (Loc.res (e.lid r) g, lr g r)))

/-- `scatterJac`, assemblyManager_scatter.hpp:45-63. -/
def scatterJacOps (pat : Nat → Nat → Bool) (fixed : Nat → Bool) (width : Nat) (e : Elem K) (lj : Nat → Nat → K) :
    List (Loc × K) :=
  ((List.range width).filter (fun r => !fixed (e.lid r))).flatMap
    (fun r => sumInto pat (e.lid r) ((List.range width).map (fun c => (e.lid c, lj r c))))

/-- What the caller asks for. [arguments of assemblyManager_jacres.hpp:14-36] -/
structure Request where
  jac : Bool
  adjoint : Bool
  /-- `compute_sens`, with the number of active parameters -/
  sens : Option Nat

/-- Properties of a block: width of the table of local numbers, positions used, whether the data of the assembly
device are visible where the matrix lives. [assemblyManager_jacres.hpp:150-200] -/
structure Block where
  width : Nat
  pos : List Nat
  avail : Bool

/-- `reduce_memory`, assemblyManager_jacres.hpp:181-186, without multiscale and parameter derivatives. -/
def reduceMemory (b : Block) (rq : Request) : Bool := b.avail && !rq.adjoint && rq.sens.isNone

/-- The additions of one element, assemblyManager_jacres.hpp:409-476 and 540-600 (volume and boundary groups are
treated alike; the two kernels of the second path are taken as one).  `fixed` is `isFixedDOF[set]`; the residual of
the second path looks at `isFixedDOF[0]`, here `fixed0`. -/
def elemOps (pat : Nat → Nat → Bool) (fixed fixed0 : Nat → Bool) (lump : Bool) (b : Block) (rq : Request) (e : Elem K) :
    Option (List (Loc × K)) :=
  if reduceMemory b rq then scatterOps pat fixed lump rq.jac b.width b.pos e
  else
    some (scatterResOps fixed0 b.width (rq.sens.getD 1) e (fun g => localRes rq.sens.isSome b.pos e g) ++
      (if rq.jac then scatterJacOps pat fixed b.width e (localJac rq.adjoint b.pos e) else []))

/-- The kernels of one block: one for each group. [group loop of assemblyManager_jacres.hpp:336-480] -/
def blockOps (pat : Nat → Nat → Bool) (fixed fixed0 : Nat → Bool) (lump : Bool) (rq : Request) (b : Block)
    (groups : List (List (Elem K))) : Option (List (List (Loc × K))) :=
  groups.mapM (fun g => (g.mapM (elemOps pat fixed fixed0 lump b rq)).map List.flatten)

/-- A mesh: blocks with their elements in groups. [assemblyManager_jacres.hpp:37-122] -/
abbrev Mesh (K : Type) := List (Block × List (List (Elem K)))

/-- The kernels of all blocks, loop of assemblyManager_jacres.hpp:37-122. -/
def meshOps (pat : Nat → Nat → Bool) (fixed fixed0 : Nat → Bool) (lump : Bool) (rq : Request) (mesh : Mesh K) :
    Option (List (List (List (Loc × K)))) :=
  mesh.mapM (fun b => blockOps pat fixed fixed0 lump rq b.1 b.2)

/-! ### Constraints -/

/-- `isFixedDOF`, assemblyManager_constraints.hpp:24-48: true for the degrees of freedom in the lists of the set. -/
def isFixed (dbc : List Nat) (d : Nat) : Bool := decide (d ∈ dbc)

/-- `replaceLocalValues(row, 1, &v, &col)`: nothing happens for a column outside the graph. [called at assemblyManager_constraints.hpp:91-133] -/
def replace (pat : Nat → Nat → Bool) (mem : Loc → K) (row col : Nat) (v : K) : Loc → K :=
  if pat row col then wr mem (Loc.jac row col) v else mem

/-- `setJacobianConstraints` for strongly prescribed values, assemblyManager_constraints.hpp:118-133. -/
def setDiag (pat : Nat → Nat → Bool) (mem : Loc → K) (dbc : List Nat) : Loc → K :=
  dbc.foldl (fun m d => replace pat m d d 1) mem

/-- `setJacobianConstraints` for point constraints, assemblyManager_constraints.hpp:91-113 (one process: local and
global numbers agree). -/
def setPoint (pat : Nat → Nat → Bool) (ncols : Nat) (mem : Loc → K) (pts : List Nat) : Loc → K :=
  pts.foldl (fun m d => replace pat ((List.range ncols).foldl (fun m c => replace pat m d c 0) m) d d 1) mem

/-- `dofConstraints`, assemblyManager_constraints.hpp:240-268.  `pts`: the point constraints, all blocks. -/
def constrain (strong : Bool) (pat : Nat → Nat → Bool) (ncols : Nat) (dbc pts : List Nat) (computeJac : Bool)
    (mem : Loc → K) : Loc → K :=
  if computeJac then setPoint pat ncols (if strong then setDiag pat mem dbc else mem) pts else mem

/-- The option "fix zero rows", assemblyManager_jacres.hpp:609-628; the rows are independent of each other. -/
def fixZeroRows [LinearOrder K] (tol : K) (pat : Nat → Nat → Bool) (ncols nrows : Nat) (mem : Loc → K) : Loc → K :=
  (List.range nrows).foldl (fun m r =>
    if (((List.range ncols).filter (pat r)).map (fun c => |m (Loc.jac r c)|)).sum < tol then replace pat m r r 1 else m) mem

/-- Possible outcomes of the loop over the blocks, assemblyManager_jacres.hpp:37-122: for each block the kernels of its
groups, then `post` (constraints and, if asked for, the zero rows). -/
inductive Assembled (concurrency : Nat) (post : (Loc → K) → Loc → K) :
    (Loc → K) → List (List (List (Loc × K))) → (Loc → K) → Prop where
  | nil (mem : Loc → K) : Assembled concurrency post mem [] mem
  | cons (mem mem1 mem2 : Loc → K) (block : List (List (Loc × K))) (rest : List (List (List (Loc × K)))) :
      Kernels concurrency mem block mem1 → Assembled concurrency post (post mem1) rest mem2 →
      Assembled concurrency post mem (block :: rest) mem2

end MrHyDE.Assembly
