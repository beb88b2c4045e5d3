import Verif.Time.Model

/-! # Assembly: gather and evaluation of the local coefficients

Model of `performGather`, `performGather4D` (/repo/src/managers/assembly/assemblyManager_gather.hpp) and of the
part of `updateWorkset` that turns the gathered tables into the coefficients used by the physics
(assemblyManager_workset.hpp:1018-1039, /repo/src/tools/workset.cpp:520-595, 601-835).  The tables belong to the block
(`groupData[block]`) and are shared by all groups.  Simplified: derivative slots are left out (see `Time/Seed`), the
boundary versions (assemblyManager_gather.hpp:85-145, 300-400) are the same loops with the local numbers of the boundary group;
adjoint tables are treated like the solution tables and left out. -/

namespace MrHyDE.Assembly.Gather

open MrHyDE.Time

/-- A table `data(elem,var,dof)`; src/tools/groupMetaData.hpp:129. -/
abbrev Table (K : Type) := Nat → Nat → Nat → K

/-- Variables, unknowns per variable and offsets of each physics set: `set_num_dof`, `set_offsets`;
assemblyManager_gather.hpp:194-199. -/
structure Layout where
  nsets : Nat
  nvars : Nat → Nat
  ndof : Nat → Nat → Nat
  off : Nat → Nat → Nat → Nat

/-- A group: number of elements and local numbers `LIDs[set](elem,col)`; assemblyManager_gather.hpp:196, 225. -/
structure Group where
  nelem : Nat
  lid : Nat → Nat → Nat → Nat

/-- Assignment of one entry of a table; assemblyManager_gather.hpp:229. -/
def put {K : Type} (t : Table K) (e v d : Nat) (x : K) : Table K :=
  fun e' v' d' => if e' = e ∧ v' = v ∧ d' = d then x else t e' v' d'

/-- The kernel, assemblyManager_gather.hpp:223-233 (and 279-288 for one fixed last index), elements in the order
`order`.  `none`: a local number outside the vector. -/
def gather {K : Type} (L : Layout) (set : Nat) (g : Group) (vec : List K) (order : List Nat) (t : Table K) :
    Option (Table K) :=
  (order.flatMap (fun e => (List.range (L.nvars set)).flatMap
    (fun v => (List.range (L.ndof set v)).map (fun d => (e, v, d))))).foldlM
    (fun t x => (vec[g.lid set x.1 (L.off set x.2.1 x.2.2)]?).map (fun y => put t x.1 x.2.1 x.2.2 y)) t

/-- The shared tables: `sol[set]`, `sol_prev[set](..,step)`, `sol_stage[set](..,stage)`;
src/tools/groupMetaData.hpp:120-130. -/
structure Data (K : Type) where
  sol : Nat → Table K
  prev : Nat → Nat → Table K
  stage : Nat → Nat → Table K

/-- Global vectors handed to an assembly: `sol[set]`, `sol_stage[stage]`, `sol_prev[step]` (the last two of the current
set only); arguments of assemblyManager_gather.hpp:16-20. -/
structure Vecs (K : Type) where
  sol : List (List K)
  stages : List (List K)
  prevs : List (List K)

/-- Replace one entry of an indexed family; assemblyManager_gather.hpp:194-213. -/
def upd {A : Type} (f : Nat → A) (i : Nat) (a : A) : Nat → A := fun j => if j = i then a else f j

/-- Gather into `sol[set]`, type 0 of assemblyManager_gather.hpp:194-199. -/
def gatherSol {K : Type} (L : Layout) (g : Group) (order : List Nat) (D : Data K) (set : Nat) (vec : List K) :
    Option (Data K) :=
  (gather L set g vec order (D.sol set)).map (fun t => { D with sol := upd D.sol set t })

/-- Gather into `sol_stage[set]`, type 5 of assemblyManager_gather.hpp:252-257. -/
def gatherStage {K : Type} (L : Layout) (g : Group) (order : List Nat) (set : Nat) (D : Data K) (x : Nat × List K) :
    Option (Data K) :=
  (gather L set g x.2 order (D.stage set x.1)).map (fun t => { D with stage := upd D.stage set (upd (D.stage set) x.1 t) })

/-- Gather into `sol_prev[set]`, type 6 of assemblyManager_gather.hpp:258-263. -/
def gatherPrev {K : Type} (L : Layout) (g : Group) (order : List Nat) (set : Nat) (D : Data K) (x : Nat × List K) :
    Option (Data K) :=
  (gather L set g x.2 order (D.prev set x.1)).map (fun t => { D with prev := upd D.prev set (upd (D.prev set) x.1 t) })

/-- A vector with its index; the views are read by index, assemblyManager_gather.hpp:60-110. -/
def indexed {A : Type} (l : List A) : List (Nat × A) := (List.range l.length).zip l

/-- `performGather` for a group in the transient case (`use_only_sol` false), assemblyManager_gather.hpp:34-49.  `none`:
access outside a vector, or no stage `stage`. -/
def gatherAll {K : Type} (L : Layout) (g : Group) (order : List Nat) (cur stage : Nat) (V : Vecs K) (D : Data K) :
    Option (Data K) := do
  let D ← (((indexed V.sol).filter (fun x => decide (x.1 ≠ cur))).foldlM (fun D x => gatherSol L g order D x.1 x.2) D)
  let sv ← V.stages[stage]?
  let D ← gatherSol L g order D cur sv
  let D ← (((indexed V.stages).filter (fun x => decide (x.1 < stage))).foldlM (gatherStage L g order cur) D)
  (indexed V.prevs).foldlM (gatherPrev L g order cur) D

/-- `performGather` with `use_only_sol`, assemblyManager_gather.hpp:22-25. -/
def gatherSteady {K : Type} (L : Layout) (g : Group) (order : List Nat) (V : Vecs K) (D : Data K) : Option (Data K) :=
  (indexed V.sol).foldlM (fun D x => gatherSol L g order D x.1 x.2) D

/-- Coefficients in the workset: `sol_vals`, `sol_dot_vals` of each variable; src/tools/workset.cpp:176-202. -/
structure Coef (K : Type) where
  u : Nat → Table K
  udot : Nat → Table K

variable {K : Type} [Field K]

/-- `computeSolnTransientSeeded` for one set, src/tools/workset.cpp:521-595: the current set combines stages and previous
steps, the other sets copy `sol` and leave the time derivative alone. -/
def computeTransient (T : Tableau K) (bdf : List K) (dt : K) (cur stage : Nat) (D : Data K) (C : Coef K) (set : Nat) :
    Coef K :=
  if set = cur then
    { u := upd C.u set (fun e v d => evalPoint T stage (D.prev set 0 e v d) (fun j => D.stage set j e v d) (D.sol set e v d)),
      udot := upd C.udot set (fun e v d => timeDeriv T bdf dt stage (fun j => D.prev set j e v d) (D.sol set e v d)) }
  else
    { C with u := upd C.u set (D.sol set) }

/-- The loop over sets of `updateWorkset`, assemblyManager_workset.hpp:1018-1029. -/
def computeAll (L : Layout) (T : Tableau K) (bdf : List K) (dt : K) (cur stage : Nat) (D : Data K) (C : Coef K) : Coef K :=
  (List.range L.nsets).foldl (computeTransient T bdf dt cur stage D) C

/-- What happens for one group before its residual is computed, assemblyManager_jacres.hpp:336-381. -/
def prepare (L : Layout) (T : Tableau K) (bdf : List K) (dt : K) (cur stage : Nat) (V : Vecs K)
    (S : Data K × Coef K) (x : Group × List Nat) : Option (Data K × Coef K) :=
  (gatherAll L x.1 x.2 cur stage V S.1).map (fun D => (D, computeAll L T bdf dt cur stage D S.2))

end MrHyDE.Assembly.Gather
