import Mathlib.Data.List.Basic

/-!
# Maps and sparsity graphs of the linear algebra interface

`setupLinearAlgebra` builds, for each physics set, the list of unknowns a process owns, the list of unknowns it owns
or shares, the sparsity graph of the overlapped Jacobian, and for discretised parameters the corresponding graphs.
Global unknowns are natural numbers; an element is the list of its unknowns.
-/

namespace MrHyDE.LinAlg

/-- The unknowns of a process when each spatial unknown carries `nph` unknowns of the phase space (1 without it).
`src/interfaces/linear_algebra/linearAlgebraInterface_construct.hpp:165-172,193-200`. -/
def expand (nph : Nat) (dofs : List Nat) : List Nat :=
  dofs.flatMap fun (d : Nat) => (List.range nph).map fun (p : Nat) => d * nph + p

/-- One call of `insertGlobalIndices`: a row and the columns put into it.
`linearAlgebraInterface_construct.hpp:258,331,370`. -/
abbrev Insertion := Nat × List Nat

/-- The insertions of the state graph: for every element, every unknown of it, every element of the phase space and
every unknown of the phase space.  `linearAlgebraInterface_construct.hpp:245-263`; `getPhaseGIDs` gives
`0, …, nph - 1` (`discretizationInterface_dof.hpp:799-806`), only their number is used. -/
def stateInsertions (nph phaseElems : Nat) (elems : List (List Nat)) : List Insertion :=
  elems.flatMap fun (gids : List Nat) => gids.flatMap fun (g : Nat) =>
    (List.range phaseElems).flatMap fun (_ : Nat) => (List.range nph).map fun (j : Nat) => (nph * g + j, gids)

/-- The number of entries counted for a row before the graph is built.  `linearAlgebraInterface_construct.hpp:214-231`. -/
def stateCount (nph phaseElems : Nat) (elems : List (List Nat)) (row : Nat) : Nat :=
  (elems.flatMap fun (gids : List Nat) => gids.flatMap fun (g : Nat) =>
    (List.range phaseElems).flatMap fun (_ : Nat) => (List.range nph).map fun (j : Nat) =>
      if nph * g + j = row then gids.length * nph else 0).sum

/-- The rows counted; each is looked up in the overlapped map (line 225), and a row that is not there would be an
access outside the table of counts (line 226).  `linearAlgebraInterface_construct.hpp:219-228`. -/
def countedRows (nph phaseElems : Nat) (elems : List (List Nat)) : List Nat :=
  elems.flatMap fun (gids : List Nat) => gids.flatMap fun (g : Nat) =>
    (List.range phaseElems).flatMap fun (_ : Nat) => (List.range nph).map fun (j : Nat) => nph * g + j

/-- The room reserved in every row: the largest count.  `linearAlgebraInterface_construct.hpp:234-237,243-244`. -/
def maxEntries (rows : List Nat) (count : Nat → Nat) : Nat := rows.foldl (fun (a : Nat) (r : Nat) => max a (count r)) 0

/-- The insertions of the graph with a row for each discretised parameter and a column for each state unknown.  An
element is given as its parameter unknowns and its state unknowns.  `linearAlgebraInterface_construct.hpp:322-334`. -/
def paramStateInsertions (elems : List (List Nat × List Nat)) : List Insertion :=
  elems.flatMap fun (e : List Nat × List Nat) => e.1.map fun (g : Nat) => (g, e.2)

/-- The count of a row of that graph.  `linearAlgebraInterface_construct.hpp:302-315`. -/
def paramStateCount (elems : List (List Nat × List Nat)) (row : Nat) : Nat :=
  (elems.flatMap fun (e : List Nat × List Nat) => e.1.map fun (g : Nat) => if g = row then e.2.length else 0).sum

/-- The columns put into a row, in order and with repetitions.  `linearAlgebraInterface_construct.hpp:258,331,370`. -/
def inserted (ins : List Insertion) (row : Nat) : List Nat :=
  ins.flatMap fun (i : Insertion) => if i.1 = row then i.2 else []

/-! ## What is allocated -/

/-- What `setupLinearAlgebra` allocates.  `linearAlgebraInterface_construct.hpp:181-213`. -/
structure Allocated where
  graphs : Bool
  overlapped : Bool
  importer : Bool
deriving DecidableEq, Repr

/-- The choice of what is allocated.  `linearAlgebraInterface_construct.hpp:181-213`. -/
def allocated (fullyExplicit matrixFree : Bool) (procs : Nat) : Allocated :=
  let matrices := !(fullyExplicit && matrixFree)
  let overlapped := !(!matrices && decide (procs = 1))
  { graphs := matrices, overlapped := overlapped, importer := overlapped }

/-- `getNewOverlappedMatrix`: `none` is an access outside the empty list of graphs.
`linearAlgebraInterface_matrix.hpp:178-183`. -/
def newOverlappedMatrix (a : Allocated) : Option Unit := if a.graphs then some () else none

/-- `importVectorToOverlapped`: `none` is an access outside the empty list of importers.
`linearAlgebraInterface_vector.hpp:106-112`. -/
def importVector (a : Allocated) : Option Unit := if a.importer then some () else none

/-- The projection of the initial data: an overlapped mass matrix, then the import of the solution.
`src/managers/solver/solverManager_util.hpp:252-268`. -/
def projectInitial (a : Allocated) : Option Unit := do
  newOverlappedMatrix a
  importVector a

/-- The explicit update without lumping or with: the import is guarded.  `solverManager_solvers.hpp:716-788`. -/
def explicitUpdate (a : Allocated) : Option Unit := if a.overlapped then importVector a else some ()

end MrHyDE.LinAlg
