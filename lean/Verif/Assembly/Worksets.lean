import Mathlib.Algebra.Field.Basic
import Mathlib.Algebra.Field.Rat
import Mathlib.Data.List.Basic
import Mathlib.Data.List.Range
import Mathlib.Logic.Function.Basic
import Mathlib.Tactic.Cases
import Mathlib.Tactic.NormNum

/-!
# C165: one workset per block, and the same conditions for the residual and for the Jacobian

The residual of a step is evaluated on the plain worksets, the Jacobian on the worksets of the derivative type that
was selected for the run.  Both kinds are created per element block and receive the time, the step, the stage, the
time integrator, the physics set, ... by separate calls.
-/

set_option linter.unusedSectionVars false
set_option linter.unusedSimpArgs false

namespace MrHyDE.Assembly.Worksets

/-! ## Derivative types -/

/-- The derivative types `AD`, `AD2`, ..., `AD32`. [/repo/src/preferences.hpp:79, 84-90] -/
inductive Ty | ad | a2 | a4 | a8 | a16 | a18 | a24 | a32
  deriving DecidableEq, Repr

/-- Number of derivatives held by a type; `maxD` is `MAXDERIVS`. [/repo/src/preferences.hpp:49-53, 79-90] -/
def width (maxD : Nat) : Ty → Nat
  | .ad => maxD | .a2 => 2 | .a4 => 4 | .a8 => 8 | .a16 => 16 | .a18 => 18 | .a24 => 24 | .a32 => 32

/-- The chain of comparisons of `type_AD` that every update uses; `none` when no branch is taken.
[/repo/src/managers/assembly/assemblyManager_workset.hpp:254-277, 317-340, 361-384, 405-428, 448-471; the chain of
/repo/src/interfaces/physics/physicsInterface_construct.hpp:393-536 is the same] -/
def select (t : Int) : Option Ty :=
  if t = -1 then some .ad
  else if t = 2 then some .a2
  else if t = 4 then some .a4
  else if t = 8 then some .a8
  else if t = 16 then some .a16
  else if t = 18 then some .a18
  else if t = 24 then some .a24
  else if t = 32 then some .a32
  else none

/-- An element block as seen by one process: has it elements there, does it carry subgrid models, and the number of
derivatives it needs.  [`groups[block].size() > 0`, `groupData[block]->multiscale`, `disc->num_derivs_required[block]`;
/repo/src/managers/assembly/assemblyManager_workset.hpp:21, 185,
/repo/src/managers/assembly/assemblyManager_construct.hpp:124] -/
structure Blk where
  elems : Bool
  multiscale : Bool
  ndr : Nat

/-- The settings that decide the worksets.  `forward` is "analysis type" being "forward" or "dry-run"; `sets` is the
number of physics sets. [/repo/src/managers/assembly/assemblyManager_construct.hpp:42, 164-170,
/repo/src/managers/assembly/assemblyManager_workset.hpp:57-62] -/
structure Cfg where
  blocks : List Blk
  autotune : Bool
  fullyExplicit : Bool
  forward : Bool
  sets : Nat

/-- The largest number of derivatives of any block. [/repo/src/managers/assembly/assemblyManager_construct.hpp:129-132] -/
def maxNdr (bs : List Blk) : Nat := bs.foldl (fun m b => max m b.ndr) 0

/-- `type_AD`. [/repo/src/managers/assembly/assemblyManager_construct.hpp:134-170] -/
def typeAD (c : Cfg) : Int :=
  let m := maxNdr c.blocks
  let t : Int :=
    if 0 < m ∧ m ≤ 2 then 2
    else if 2 < m ∧ m ≤ 4 then 4
    else if 4 < m ∧ m ≤ 8 then 8
    else if 8 < m ∧ m ≤ 16 then 16
    else if 16 < m ∧ m ≤ 18 then 18
    else if 18 < m ∧ m ≤ 24 then 24
    else if 24 < m ∧ m ≤ 32 then 32
    else -1
  let t := if c.blocks.any (·.multiscale) then -1 else t
  let t := if !c.autotune then -1 else t
  if c.fullyExplicit then 0 else t

/-! ## Worksets -/

section
variable {K : Type} [Field K]

/-- A Runge–Kutta tableau. [/repo/src/managers/assembly/assemblyManager_workset.hpp:525-538] -/
structure Tab (K : Type) where
  A : List (List K)
  b : List K
  c : List K

/-- The control data of a workset.  A field that no constructor sets is `none` until it is written; an unallocated
view is `none` too.  `built` is `isInitialized`.  [/repo/src/tools/workset.hpp:54-64, 493-497, 507-509, 572;
constructor values /repo/src/tools/workset.cpp:23-56, 124-127] -/
structure Ws (K : Type) where
  block : Nat
  built : Bool
  transient : Option Bool
  adjoint : Option Bool
  onSide : Option Bool
  time : Option K
  dt : Option K
  alpha : Option K
  stage : Option Nat
  cur : Option Nat
  eid : Option Nat
  step : Option Nat
  tab : Option (Tab K)
  bdf : Option (List K)
  setTab : List (Option (Tab K))
  setBdf : List (Option (List K))

/-- The two constructors: the one with the block's data for a block with elements, the one with the block number
only for a block without. [/repo/src/tools/workset.cpp:17-56, 124-127, /repo/src/tools/workset.hpp:54-64] -/
def fresh (sets : Nat) (transient : Bool) (b : Nat) (elems : Bool) : Ws K :=
  if elems then
    { block := b, built := true, transient := some transient, adjoint := none, onSide := some false,
      time := some 0, dt := some 1, alpha := none, stage := some 0, cur := some 0, eid := none, step := none,
      tab := none, bdf := none, setTab := List.replicate sets none, setBdf := List.replicate sets none }
  else
    { block := b, built := false, transient := none, adjoint := none, onSide := none,
      time := none, dt := none, alpha := none, stage := none, cur := none, eid := none, step := none,
      tab := none, bdf := none, setTab := List.replicate sets none, setBdf := List.replicate sets none }

/-- The tables `wkset`, `wkset_AD`, ..., `wkset_AD32`, the type for which the physics modules were imported and
`type_AD`. [/repo/src/managers/assembly/assemblyManager_workset.hpp:14-238,
/repo/src/managers/assembly/assemblyManager_construct.hpp:171] -/
structure St (K : Type) where
  sc : List (Ws K)
  ads : Ty → List (Ws K)
  mods : Option Ty
  type : Int

/-- `wkset_ADn.push_back(...)` followed by the writes to `wkset_ADn[block]`; `none` if that entry does not exist
(the constructor already filled in the number that is written, except for a block with elements).
[/repo/src/managers/assembly/assemblyManager_workset.hpp:66-75, 187-196] -/
def pushAt (st : St K) (k : Ty) (b : Nat) (w : Ws K) : Option (St K) :=
  let l := st.ads k ++ [w]
  match l[b]? with
  | none => none
  | some v => some { st with ads := Function.update st.ads k (l.set b { v with block := b }) }

/-- One sized type of the chain in `createWorkset`: pushed if it is the selected one.
[/repo/src/managers/assembly/assemblyManager_workset.hpp:66-78, 83-95, 100-112, 117-129, 134-146, 151-163, 168-180] -/
def trySized (reqAD : Bool) (t : Int) (n : Int) (k : Ty) (b : Nat) (w : Ws K) (p : St K × Bool) : Option (St K × Bool) :=
  if reqAD && !p.2 && decide (t = n) then (pushAt p.1 k b w).map (fun s => (s, true)) else some p

/-- The body of the loop of `createWorkset`. [/repo/src/managers/assembly/assemblyManager_workset.hpp:20-232] -/
def createOne (c : Cfg) (tr : Bool) (st : St K) (b : Nat) (blk : Blk) : Option (St K) :=
  let w : Ws K := fresh c.sets tr b blk.elems
  if blk.elems then
    let st := { st with sc := st.sc ++ [w] }
    let req := !(c.fullyExplicit && c.forward)
    (trySized req st.type 2 .a2 b w (st, false)).bind fun p =>
    (trySized req st.type 4 .a4 b w p).bind fun p =>
    (trySized req st.type 8 .a8 b w p).bind fun p =>
    (trySized req st.type 16 .a16 b w p).bind fun p =>
    (trySized req st.type 18 .a18 b w p).bind fun p =>
    (trySized req st.type 24 .a24 b w p).bind fun p =>
    (trySized req st.type 32 .a32 b w p).bind fun p =>
    if (req && !p.2) || blk.multiscale || !c.autotune then pushAt p.1 .ad b w else some p.1
  else
    let st := { st with sc := st.sc ++ [w] }
    match select st.type with
    | none => some st
    | some k => some { st with ads := Function.update st.ads k (st.ads k ++ [w]) }

/-- The loop of `createWorkset` from block `b` on. [/repo/src/managers/assembly/assemblyManager_workset.hpp:20-234] -/
def createFrom (c : Cfg) (tr : Bool) : Nat → List Blk → St K → Option (St K)
  | _, [], st => some st
  | b, blk :: bs, st => (createOne c tr st b blk).bind (createFrom c tr (b + 1) bs)

/-- `createWorkset` on empty tables; the modules were imported for `type_AD` before.
[/repo/src/managers/assembly/assemblyManager_workset.hpp:14-238,
/repo/src/interfaces/physics/physicsInterface_construct.hpp:387-536] -/
def create (c : Cfg) (tr : Bool) : Option (St K) :=
  createFrom c tr 0 c.blocks { sc := [], ads := fun _ => [], mods := select (typeAD c), type := typeAD c }

/-! ## The updates -/

/-- `updateWorksetTime` of one workset; the tableau is read at the current stage.
[/repo/src/managers/assembly/assemblyManager_workset.hpp:289-304] -/
def wTime (tr : Bool) (t dt : K) (w : Ws K) : Option (Ws K) :=
  if tr then
    match w.tab, w.stage with
    | some T, some s =>
      match T.c[s]? with
      | some cs => some { w with time := some (t + cs * dt), dt := some dt, alpha := some (1 / dt), transient := some tr }
      | none => none
    | _, _ => none
  else some { w with transient := some tr }

/-- `updateStage` of one workset. [/repo/src/managers/assembly/assemblyManager_workset.hpp:1203-1213] -/
def wStage (s : Nat) (t dt : K) (w : Ws K) : Option (Ws K) :=
  match w.tab with
  | none => none
  | some T =>
    match T.c[s]? with
    | none => none
    | some cs => some { w with stage := some s, time := some (t + cs * dt), dt := some dt, alpha := some (1 / dt) }

/-- `setWorksetButcher` of one workset. [/repo/src/managers/assembly/assemblyManager_workset.hpp:525-540] -/
def wButcher (s : Nat) (T : Tab K) (w : Ws K) : Option (Ws K) :=
  if s < w.setTab.length then some { w with setTab := w.setTab.set s (some T), tab := some T } else none

/-- `setWorksetBDF` of one workset. [/repo/src/managers/assembly/assemblyManager_workset.hpp:581-588] -/
def wBdf (s : Nat) (B : List K) (w : Ws K) : Option (Ws K) :=
  if s < w.setBdf.length then some { w with setBdf := w.setBdf.set s (some B), bdf := some B } else none

/-- `updatePhysicsSet` of one workset; the offsets, bases and variables of the set follow `cur`.
[/repo/src/tools/workset.cpp:2667-2681] -/
def wSet (s : Nat) (w : Ws K) : Option (Ws K) :=
  if w.built then
    if 1 < w.setTab.length then
      match w.setTab[s]?, w.setBdf[s]? with
      | some T, some B => some { w with cur := some s, tab := T, bdf := B }
      | _, _ => none
    else some w
  else some w

/-- The part of `finalizeWorkset` on time integration, for one workset.
[/repo/src/managers/solver/solverManager_setup.hpp:609-621, 669] -/
def wFinal (t : K) (w : Ws K) : Option (Ws K) :=
  if w.built then
    match w.setTab[0]?, w.setBdf[0]? with
    | some T, some B => (wSet 0 { w with tab := T, bdf := B }).map (fun v => { v with time := some t })
    | _, _ => none
  else some w

/-- Apply an update to entry `b` of a table; `none` if there is no such entry.
[`wkset_ADn[block]`, e.g. /repo/src/managers/assembly/assemblyManager_workset.hpp:255] -/
def upd (l : List (Ws K)) (b : Nat) (f : Ws K → Option (Ws K)) : Option (List (Ws K)) :=
  match l[b]? with
  | none => none
  | some w => (f w).map (l.set b)

/-- An update of block `b`: the plain workset (with or without the test of `isInitialized`) and then the workset of
the selected type, without test. [/repo/src/managers/assembly/assemblyManager_workset.hpp:247-279, 400-430] -/
def dispatch (guard : Bool) (b : Nat) (f : Ws K → Option (Ws K)) (st : St K) : Option (St K) :=
  (upd st.sc b (fun w => if guard && !w.built then some w else f w)).bind fun sc =>
  match select st.type with
  | none => some { st with sc := sc }
  | some k => (upd (st.ads k) b f).map fun l => { st with sc := sc, ads := Function.update st.ads k l }

/-- An update of the blocks of a list, in order. [/repo/src/managers/assembly/assemblyManager_workset.hpp:1165-1196] -/
def dispatchAll (guard : Bool) (f : Ws K → Option (Ws K)) : List Nat → St K → Option (St K)
  | [], st => some st
  | b :: bs, st => (dispatch guard b f st).bind (dispatchAll guard f bs)

/-- An update of all entries of a table. [/repo/src/managers/solver/solverManager_setup.hpp:607-623] -/
def updAll (f : Ws K → Option (Ws K)) : List (Ws K) → Option (List (Ws K))
  | [] => some []
  | w :: l => (f w).bind fun v => (updAll f l).map (v :: ·)

/-- The calls that the solver and the assembly make.  `resTime` is the beginning of `assembleRes`, `initSet` that of
`setInitial`: both write to the plain workset only.
[/repo/src/managers/assembly/assemblyManager_workset.hpp:247, 310, 355, 400, 486, 544, 1162, 1219, 1255,
/repo/src/managers/assembly/assemblyManager_jacres.hpp:761-773, /repo/src/managers/assembly/assemblyManager_initial.hpp:54,
/repo/src/managers/solver/solverManager_setup.hpp:536] -/
inductive Op (K : Type)
  | butcher (s b : Nat) (T : Tab K)
  | bdf (s b : Nat) (B : List K)
  | finalize (t : K)
  | physicsSet (s : Nat)
  | stage (s : Nat) (t dt : K)
  | stepNo (n : Nat)
  | time (b : Nat) (tr : Bool) (t dt : K)
  | adjoint (b : Nat) (f : Bool)
  | eid (b e : Nat)
  | onSide (b : Nat) (f : Bool)
  | resTime (b : Nat) (tr : Bool) (t dt : K)
  | initSet (b s : Nat)

/-- The effect of a call on the tables; `n` is the number of blocks.
[/repo/src/managers/assembly/assemblyManager_workset.hpp:247-279 (time), 310-342 (adjoint), 355-387 (element number),
400-430 (side), 486-520 (tableau), 544-576 (BDF), 1162-1197 (stage), 1219-1249 (step), 1255-1290 (physics set);
/repo/src/managers/solver/solverManager_setup.hpp:540-549 (all tables);
/repo/src/managers/assembly/assemblyManager_jacres.hpp:761-773; assemblyManager_initial.hpp:54] -/
def exec (n : Nat) (st : St K) : Op K → Option (St K)
  | .butcher s b T => dispatch false b (wButcher s T) st
  | .bdf s b B => dispatch false b (wBdf s B) st
  | .finalize t => (updAll (wFinal t) st.sc).bind fun sc =>
      (updAll (wFinal t) (st.ads .ad)).bind fun l1 => (updAll (wFinal t) (st.ads .a2)).bind fun l2 =>
      (updAll (wFinal t) (st.ads .a4)).bind fun l4 => (updAll (wFinal t) (st.ads .a8)).bind fun l8 =>
      (updAll (wFinal t) (st.ads .a16)).bind fun l16 => (updAll (wFinal t) (st.ads .a18)).bind fun l18 =>
      (updAll (wFinal t) (st.ads .a24)).bind fun l24 => (updAll (wFinal t) (st.ads .a32)).map fun l32 =>
        { st with sc := sc, ads := fun k => match k with
            | .ad => l1 | .a2 => l2 | .a4 => l4 | .a8 => l8 | .a16 => l16 | .a18 => l18 | .a24 => l24 | .a32 => l32 }
  | .physicsSet s => dispatchAll true (wSet s) (List.range n) st
  | .stage s t dt => dispatchAll false (wStage s t dt) (List.range n) st
  | .stepNo m => dispatchAll false (fun w => some { w with step := some m }) (List.range n) st
  | .time b tr t dt => dispatch true b (wTime tr t dt) st
  | .adjoint b f => dispatch true b (fun w => some { w with adjoint := some f }) st
  | .eid b e => dispatch true b (fun w => some { w with eid := some e }) st
  | .onSide b f => dispatch false b (fun w => some { w with onSide := some f }) st
  | .resTime b tr t dt => (upd st.sc b (fun w => (wTime tr t dt w).map (fun v => { v with adjoint := some false }))).map
      fun sc => { st with sc := sc }
  | .initSet b s => (upd st.sc b (wSet s)).map fun sc => { st with sc := sc }

/-- A history of calls, the newest first. [helper; no code] -/
def run (n : Nat) (st : St K) : List (Op K) → Option (St K)
  | [] => some st
  | op :: h => (run n st h).bind (fun s => exec n s op)

/-! ## The assembly of the Jacobian -/

/-- The types with which `assembleJacRes` evaluates the blocks, in order; a block with subgrid models switches the
automatic choice off for itself and all later blocks.
[/repo/src/managers/assembly/assemblyManager_jacres.hpp:37-105] -/
def jacTypes (t : Int) : Nat → Bool → List Blk → List (Nat × Ty)
  | _, _, [] => []
  | b, auto, blk :: bs =>
    if blk.elems then
      let auto := if blk.multiscale then false else auto
      (b, if !auto then .ad else (select t).getD .ad) :: jacTypes t (b + 1) auto bs
    else jacTypes t (b + 1) auto bs

/-- The workset on which the volume terms of a block are evaluated with derivatives: the one of type `AD` for a block
with subgrid models, otherwise the one of the type of the call, together with the modules of that type (`modules_ADn`
is empty unless the modules were imported for it, and `modules_ADn[set]` is then outside of it).
[/repo/src/managers/assembly/assemblyManager_jacres.hpp:364-384,
/repo/src/managers/assembly/assemblyManager_workset.hpp:924-963, /repo/src/interfaces/physics/physicsInterface_residual.hpp:13-70] -/
def jacWorkset (st : St K) (blk : Blk) (b : Nat) (k : Ty) : Option (Ws K) :=
  if blk.multiscale then (st.ads .ad)[b]?
  else if st.mods = some k then (st.ads k)[b]? else none


/-! ## What the history of calls prescribes (specification, independent of the tables) -/

/-- The last tableau given for block `b` and physics set `s`. [specification, no code] -/
def hTabOf (s b : Nat) : List (Op K) → Option (Tab K)
  | [] => none
  | .butcher s' b' T :: h => if s' = s ∧ b' = b then some T else hTabOf s b h
  | _ :: h => hTabOf s b h

/-- The last BDF weights given for block `b` and physics set `s`. [specification, no code] -/
def hBdfOf (s b : Nat) : List (Op K) → Option (List K)
  | [] => none
  | .bdf s' b' B :: h => if s' = s ∧ b' = b then some B else hBdfOf s b h
  | _ :: h => hBdfOf s b h

/-- The tableau in force on block `b`: the last one given, or that of the physics set that was chosen after it.
[specification, no code] -/
def hTab (n b : Nat) : List (Op K) → Option (Tab K)
  | [] => none
  | .butcher _ b' T :: h => if b' = b then some T else hTab n b h
  | .finalize _ :: h => hTabOf 0 b h
  | .physicsSet s :: h => if 1 < n then hTabOf s b h else hTab n b h
  | .initSet b' s :: h => if b' = b ∧ 1 < n then hTabOf s b h else hTab n b h
  | _ :: h => hTab n b h

/-- The BDF weights in force on block `b`. [specification, no code] -/
def hBdf (n b : Nat) : List (Op K) → Option (List K)
  | [] => none
  | .bdf _ b' B :: h => if b' = b then some B else hBdf n b h
  | .finalize _ :: h => hBdfOf 0 b h
  | .physicsSet s :: h => if 1 < n then hBdfOf s b h else hBdf n b h
  | .initSet b' s :: h => if b' = b ∧ 1 < n then hBdfOf s b h else hBdf n b h
  | _ :: h => hBdf n b h

/-- The physics set in force on block `b`. [specification, no code] -/
def hCur (n b : Nat) : List (Op K) → Nat
  | [] => 0
  | .finalize _ :: h => if 1 < n then 0 else hCur n b h
  | .physicsSet s :: h => if 1 < n then s else hCur n b h
  | .initSet b' s :: h => if b' = b ∧ 1 < n then s else hCur n b h
  | _ :: h => hCur n b h

/-- The stage announced last. [specification, no code] -/
def hStage : List (Op K) → Nat
  | [] => 0
  | .stage s _ _ :: _ => s
  | _ :: h => hStage h

/-- The number of the time step announced last. [specification, no code] -/
def hStep : List (Op K) → Option Nat
  | [] => none
  | .stepNo m :: _ => some m
  | _ :: h => hStep h

/-- The time of stage `s` of a step from `t` of length `dt`. [specification, no code] -/
def stageTime (T : Option (Tab K)) (s : Nat) (t dt : K) : Option K := (T.bind (·.c[s]?)).map (fun c => t + c * dt)

/-- The time at which block `b` has to be evaluated. [specification, no code] -/
def hTime (n b : Nat) : List (Op K) → Option K
  | [] => some 0
  | .finalize t :: _ => some t
  | .stage s t dt :: h => stageTime (hTab n b h) s t dt
  | .time b' tr t dt :: h => if b' = b ∧ tr then stageTime (hTab n b h) (hStage h) t dt else hTime n b h
  | .resTime b' tr t dt :: h => if b' = b ∧ tr then stageTime (hTab n b h) (hStage h) t dt else hTime n b h
  | _ :: h => hTime n b h

/-- The length of the time step on block `b`, `none` if none was announced. [specification, no code] -/
def hDt (b : Nat) : List (Op K) → Option K
  | [] => none
  | .stage _ _ dt :: _ => some dt
  | .time b' tr _ dt :: h => if b' = b ∧ tr then some dt else hDt b h
  | .resTime b' tr _ dt :: h => if b' = b ∧ tr then some dt else hDt b h
  | _ :: h => hDt b h

/-- Is block `b` evaluated with time derivatives. [specification, no code] -/
def hTransient (tr0 : Bool) (b : Nat) : List (Op K) → Bool
  | [] => tr0
  | .time b' tr _ _ :: h => if b' = b then tr else hTransient tr0 b h
  | .resTime b' tr _ _ :: h => if b' = b then tr else hTransient tr0 b h
  | _ :: h => hTransient tr0 b h

/-- Is block `b` evaluated for the adjoint problem. [specification, no code] -/
def hAdjoint (b : Nat) : List (Op K) → Option Bool
  | [] => none
  | .adjoint b' f :: h => if b' = b then some f else hAdjoint b h
  | .resTime b' _ _ _ :: h => if b' = b then some false else hAdjoint b h
  | _ :: h => hAdjoint b h

/-- The group of elements that is evaluated on block `b`. [specification, no code] -/
def hEid (b : Nat) : List (Op K) → Option Nat
  | [] => none
  | .eid b' e :: h => if b' = b then some e else hEid b h
  | _ :: h => hEid b h

/-- Is block `b` evaluated on sides. [specification, no code] -/
def hOnSide (b : Nat) : List (Op K) → Bool
  | [] => false
  | .onSide b' f :: h => if b' = b then f else hOnSide b h
  | _ :: h => hOnSide b h

/-- The workset that block `b` must have after a history of calls; `n` physics sets. [specification, no code] -/
def spec (n : Nat) (tr0 : Bool) (b : Nat) (h : List (Op K)) : Ws K :=
  { block := b, built := true, transient := some (hTransient tr0 b h), adjoint := hAdjoint b h,
    onSide := some (hOnSide b h), time := hTime n b h, dt := some ((hDt b h).getD 1),
    alpha := (hDt b h).map (fun dt => 1 / dt), stage := some (hStage h), cur := some (hCur n b h),
    eid := hEid b h, step := hStep h, tab := hTab n b h, bdf := hBdf n b h,
    setTab := (List.range n).map (fun s => hTabOf s b h), setBdf := (List.range n).map (fun s => hBdfOf s b h) }

/-- The last tableau given for block `b`, whatever the physics set: all that a block without elements is told.
[specification, no code] -/
def hLastTab (b : Nat) : List (Op K) → Option (Tab K)
  | [] => none
  | .butcher _ b' T :: h => if b' = b then some T else hLastTab b h
  | _ :: h => hLastTab b h

/-- What is required of the workset of block `b`: with elements it is the prescribed one, without elements it belongs
to the block, is never initialised, and can take the calls. [specification, no code] -/
def Good (n : Nat) (tr0 : Bool) (elems : Bool) (b : Nat) (h : List (Op K)) (w : Ws K) : Prop :=
  if elems then w = spec n tr0 b h
  else w.block = b ∧ w.built = false ∧ w.setTab.length = n ∧ w.setBdf.length = n ∧ w.tab = hLastTab b h

/-- Calls that reach the worksets with derivatives: all but those of the residual and of the initial condition.
[specification, no code] -/
def reaches : Op K → Bool
  | .resTime _ _ _ _ => false
  | .initSet _ _ => false
  | _ => true

/-- The tableau in force has the stage `s`. [specification, no code] -/
def HasStage (T : Option (Tab K)) (s : Nat) : Prop := ∃ t, T = some t ∧ s < t.c.length

/-- A call that the solver may make after the history `h`: existing blocks and physics sets, evaluations only on
blocks with elements, stages of the tableau in force. [specification, no code] -/
def Allowed (c : Cfg) (h : List (Op K)) : Op K → Prop
  | .butcher s b _ => s < c.sets ∧ b < c.blocks.length
  | .bdf s b _ => s < c.sets ∧ b < c.blocks.length
  | .finalize _ => 0 < c.sets
  | .physicsSet s => s < c.sets
  | .stage s _ _ => ∀ b blk, c.blocks[b]? = some blk →
      if blk.elems then HasStage (hTab c.sets b h) s ∧ HasStage (hTab c.sets b (h.filter reaches)) s
      else HasStage (hLastTab b h) s
  | .stepNo _ => True
  | .time b tr _ _ => ∃ blk, c.blocks[b]? = some blk ∧ blk.elems = true ∧
      (tr = true → HasStage (hTab c.sets b h) (hStage h) ∧ HasStage (hTab c.sets b (h.filter reaches)) (hStage h))
  | .adjoint b _ => b < c.blocks.length
  | .eid b _ => b < c.blocks.length
  | .onSide b _ => b < c.blocks.length
  | .resTime b tr _ _ => ∃ blk, c.blocks[b]? = some blk ∧ blk.elems = true ∧
      (tr = true → HasStage (hTab c.sets b h) (hStage h))
  | .initSet b s => s < c.sets ∧ b < c.blocks.length

/-- Every call of a history was allowed when it was made. [specification, no code] -/
def AllAllowed (c : Cfg) : List (Op K) → Prop
  | [] => True
  | op :: h => Allowed c h op ∧ AllAllowed c h

/-- The settings for which the tables are consistent: not "fully explicit", or fully explicit, without anything that
asks for derivatives. [specification, no code] -/
def Sound (c : Cfg) : Prop :=
  c.fullyExplicit = false ∨ (c.forward = true ∧ c.autotune = true ∧ ∀ blk ∈ c.blocks, blk.multiscale = false)

/-! ## Lemmas -/

/-- The state of the tables with a property for each plain workset and each workset with derivatives. [specification,
no code] -/
structure Inv (n : Nat) (t : Int) (m : Option Ty) (P Q : Nat → Ws K → Prop) (st : St K) : Prop where
  type : st.type = t
  mods : st.mods = m
  len : st.sc.length = n
  sc : ∀ (b : Nat) w, st.sc[b]? = some w → P b w
  alen : ∀ k, select t = some k → (st.ads k).length = n
  ads : ∀ k, select t = some k → ∀ (b : Nat) w, (st.ads k)[b]? = some w → Q b w
  none : ∀ k, select t ≠ some k → st.ads k = []

theorem upd_some {l : List (Ws K)} {b : Nat} {f : Ws K → Option (Ws K)} {n : Nat} {P P' : Nat → Ws K → Prop}
    (hl : l.length = n) (hb : b < n) (hP : ∀ (b : Nat) w, l[b]? = some w → P b w)
    (hf : ∀ w, P b w → ∃ w', f w = some w' ∧ P' b w') (ho : ∀ b' w, b' ≠ b → P b' w → P' b' w) :
    ∃ l', upd l b f = some l' ∧ l'.length = n ∧ ∀ (b : Nat) w, l'[b]? = some w → P' b w := by
  have hb' : b < l.length := by omega
  have hw : l[b]? = some l[b] := List.getElem?_eq_getElem hb'
  obtain ⟨w', hw', hp'⟩ := hf _ (hP b _ hw)
  refine ⟨l.set b w', by simp [upd, hw, hw'], by simp [hl], ?_⟩
  intro b1 w1 h1
  by_cases e : b1 = b
  · subst e
    rw [List.getElem?_set_self hb'] at h1
    cases h1; exact hp'
  · rw [List.getElem?_set_ne (Ne.symm e)] at h1
    exact ho _ _ e (hP _ _ h1)

theorem dispatch_some {n : Nat} {t : Int} {m : Option Ty} {P P' Q Q' : Nat → Ws K → Prop} {st : St K}
    (hi : Inv n t m P Q st) {g : Bool} {b : Nat} {f : Ws K → Option (Ws K)} (hb : b < n)
    (hf : ∀ w, P b w → ∃ w', (if g && !w.built then some w else f w) = some w' ∧ P' b w')
    (hq : ∀ w, Q b w → ∃ w', f w = some w' ∧ Q' b w')
    (ho : ∀ b' w, b' ≠ b → P b' w → P' b' w) (hoq : ∀ b' w, b' ≠ b → Q b' w → Q' b' w) :
    ∃ st', dispatch g b f st = some st' ∧ Inv n t m P' Q' st' := by
  obtain ⟨sc', h1, h2, h3⟩ := upd_some hi.len hb hi.sc hf ho
  cases hk : select t with
  | none =>
    refine ⟨{ st with sc := sc' }, by unfold dispatch; rw [h1]; simp [hi.type, hk], hi.type, hi.mods, h2, h3, ?_, ?_, ?_⟩
    · intro k e; rw [hk] at e; cases e
    · intro k e; rw [hk] at e; cases e
    · intro k e; exact hi.none k e
  | some k =>
    obtain ⟨l', g1, g2, g3⟩ := upd_some (hi.alen k hk) hb (hi.ads k hk) hq hoq
    refine ⟨{ st with sc := sc', ads := Function.update st.ads k l' }, by unfold dispatch; rw [h1]; simp [hi.type, hk, g1],
      hi.type, hi.mods, h2, h3, ?_, ?_, ?_⟩
    · intro k' e; rw [hk] at e; cases e; simpa using g2
    · intro k' e; rw [hk] at e; cases e; simpa using g3
    · intro k' e
      have : k' ≠ k := by rintro rfl; exact e hk
      simp [Function.update_of_ne this, hi.none k' e]

theorem dispatchAll_some {n : Nat} {t : Int} {m : Option Ty} {P' Q' : Nat → Ws K → Prop}
    {g : Bool} {f : Ws K → Option (Ws K)} :
    ∀ (bs : List Nat) (P Q : Nat → Ws K → Prop) (st : St K), Inv n t m P Q st → bs.Nodup → (∀ b ∈ bs, b < n) →
    (∀ b ∈ bs, ∀ w, P b w → ∃ w', (if g && !w.built then some w else f w) = some w' ∧ P' b w') →
    (∀ b ∈ bs, ∀ w, Q b w → ∃ w', f w = some w' ∧ Q' b w') →
    (∀ b, b < n → b ∉ bs → ∀ w, P b w → P' b w) → (∀ b, b < n → b ∉ bs → ∀ w, Q b w → Q' b w) →
    ∃ st', dispatchAll g f bs st = some st' ∧ Inv n t m P' Q' st' := by
  intro bs
  induction bs with
  | nil =>
    intro P Q st hi _ _ _ _ ho hoq
    refine ⟨st, rfl, hi.type, hi.mods, hi.len, ?_, hi.alen, ?_, hi.none⟩
    · intro b w h
      have hb : b < n := by
        have := (List.getElem?_eq_some_iff.1 h).1; rw [hi.len] at this; exact this
      exact ho b hb (by simp) w (hi.sc b w h)
    · intro k hk b w h
      have hb : b < n := by
        have := (List.getElem?_eq_some_iff.1 h).1; rw [hi.alen k hk] at this; exact this
      exact hoq b hb (by simp) w (hi.ads k hk b w h)
  | cons b bs ih =>
    intro P Q st hi nd hlt hf hq ho hoq
    have hnb : b ∉ bs := (List.nodup_cons.1 nd).1
    obtain ⟨st1, e1, i1⟩ := dispatch_some (g := g) (b := b) (f := f)
      (P' := fun b' w => if b' = b then P' b' w else P b' w) (Q' := fun b' w => if b' = b then Q' b' w else Q b' w)
      hi (hlt b (by simp))
      (by intro w h; obtain ⟨w', a1, a2⟩ := hf b (by simp) w h; exact ⟨w', a1, by simpa using a2⟩)
      (by intro w h; obtain ⟨w', a1, a2⟩ := hq b (by simp) w h; exact ⟨w', a1, by simpa using a2⟩)
      (by intro b' w e h; simpa [e] using h) (by intro b' w e h; simpa [e] using h)
    obtain ⟨st2, e2, i2⟩ := ih _ _ st1 i1 (List.nodup_cons.1 nd).2 (fun b' h => hlt b' (by simp [h]))
      (by
        intro b' h w hp
        have e : b' ≠ b := by rintro rfl; exact hnb h
        simp only [e, if_false] at hp
        exact hf b' (by simp [h]) w hp)
      (by
        intro b' h w hp
        have e : b' ≠ b := by rintro rfl; exact hnb h
        simp only [e, if_false] at hp
        exact hq b' (by simp [h]) w hp)
      (by
        intro b' hb' hn w hp
        by_cases e : b' = b
        · simpa [e] using hp
        · simp only [e, if_false] at hp
          exact ho b' hb' (by simp [e, hn]) w hp)
      (by
        intro b' hb' hn w hp
        by_cases e : b' = b
        · simpa [e] using hp
        · simp only [e, if_false] at hp
          exact hoq b' hb' (by simp [e, hn]) w hp)
    exact ⟨st2, by simp [dispatchAll, e1, e2], i2⟩

theorem updAll_some {f : Ws K → Option (Ws K)} : ∀ (l : List (Ws K)) (P P' : Nat → Ws K → Prop),
    (∀ (b : Nat) w, l[b]? = some w → P b w) → (∀ b w, P b w → ∃ w', f w = some w' ∧ P' b w') →
    ∃ l', updAll f l = some l' ∧ l'.length = l.length ∧ ∀ (b : Nat) w, l'[b]? = some w → P' b w := by
  intro l
  induction l with
  | nil => intro P P' _ _; exact ⟨[], rfl, rfl, by simp⟩
  | cons w l ih =>
    intro P P' hP hf
    obtain ⟨w', e1, h1⟩ := hf 0 w (hP 0 w rfl)
    obtain ⟨l', e2, h2, h3⟩ := ih (fun b => P (b + 1)) (fun b => P' (b + 1))
      (fun b v h => hP (b + 1) v (by simpa using h)) (fun b v h => hf (b + 1) v h)
    refine ⟨w' :: l', by simp [updAll, e1, e2], by simp [h2], ?_⟩
    intro b v h
    cases b with
    | zero => simp at h; subst h; exact h1
    | succ b => exact h3 b v (by simpa using h)

theorem upd_nil_all {f : Ws K → Option (Ws K)} : updAll f ([] : List (Ws K)) = some [] := rfl

theorem finalize_some {n N : Nat} {t : Int} {m : Option Ty} {P P' Q Q' : Nat → Ws K → Prop} {st : St K} {x : K}
    (hi : Inv n t m P Q st) (hf : ∀ b w, P b w → ∃ w', wFinal x w = some w' ∧ P' b w')
    (hq : ∀ b w, Q b w → ∃ w', wFinal x w = some w' ∧ Q' b w') :
    ∃ st', exec N st (.finalize x) = some st' ∧ Inv n t m P' Q' st' := by
  obtain ⟨sc', h1, h2, h3⟩ := updAll_some st.sc P P' hi.sc hf
  have key : ∀ k, ∃ l', updAll (wFinal x) (st.ads k) = some l' ∧ l'.length = (st.ads k).length ∧
      (select t = some k → ∀ (b : Nat) w, l'[b]? = some w → Q' b w) := by
    intro k
    by_cases hk : select t = some k
    · obtain ⟨l', a, b, c⟩ := updAll_some (st.ads k) Q Q' (hi.ads k hk) hq
      exact ⟨l', a, b, fun _ => c⟩
    · exact ⟨[], by rw [hi.none k hk]; rfl, by rw [hi.none k hk], fun e => absurd e hk⟩
  choose L hL using key
  refine ⟨{ st with sc := sc', ads := L }, ?_, hi.type, hi.mods, by simp [h2, hi.len], h3, ?_, ?_, ?_⟩
  · simp only [exec, h1, (hL _).1, Option.bind_some, Option.map_some, Option.some.injEq]
    congr 1
    funext k
    cases k <;> rfl
  · intro k hk; exact ((hL k).2.1).trans (hi.alen k hk)
  · intro k hk; exact (hL k).2.2 hk
  · intro k hk
    have := (hL k).2.1
    rw [hi.none k hk] at this
    exact List.eq_nil_of_length_eq_zero this


theorem range_map_set {α : Type} (n s : Nat) (f : Nat → α) (x : α) :
    ((List.range n).map f).set s x = (List.range n).map (fun i => if s = i then x else f i) := by
  apply List.ext_getElem
  · simp
  · intro i h1 h2
    simp at h1
    simp [List.getElem_set]

theorem range_map_get {α : Type} {n s : Nat} (f : Nat → α) (h : s < n) : ((List.range n).map f)[s]? = some (f s) := by
  simp [h]

variable {n : Nat} {tr0 : Bool} {b : Nat} {h : List (Op K)} {w : Ws K}

theorem good_butcher {e : Bool} {s : Nat} (T : Tab K) (hs : s < n) (hg : Good n tr0 e b h w) :
    ∃ w', wButcher s T w = some w' ∧ Good n tr0 e b (.butcher s b T :: h) w' := by
  cases e
  · simp only [Good, Bool.false_eq_true, if_false] at hg ⊢
    obtain ⟨h1, h2, h3, h4, h5⟩ := hg
    refine ⟨_, by simp only [wButcher, h3, hs, if_true]; exact rfl, ?_⟩
    exact ⟨h1, h2, by simp [h3], h4, by simp [hLastTab]⟩
  · simp only [Good, if_true] at hg ⊢
    subst hg
    refine ⟨_, by simp only [wButcher, spec, List.length_map, List.length_range, hs, if_true]; rfl, ?_⟩
    simp [spec, hTransient, hAdjoint, hOnSide, hTime, hDt, hStage, hCur, hEid, hStep, hTab, hBdf, hTabOf, hBdfOf,
      range_map_set]

theorem good_bdf {e : Bool} {s : Nat} (B : List K) (hs : s < n) (hg : Good n tr0 e b h w) :
    ∃ w', wBdf s B w = some w' ∧ Good n tr0 e b (.bdf s b B :: h) w' := by
  cases e
  · simp only [Good, Bool.false_eq_true, if_false] at hg ⊢
    obtain ⟨h1, h2, h3, h4, h5⟩ := hg
    refine ⟨_, by simp only [wBdf, h4, hs, if_true]; exact rfl, ?_⟩
    exact ⟨h1, h2, h3, by simp [h4], by simp [hLastTab, h5]⟩
  · simp only [Good, if_true] at hg ⊢
    subst hg
    refine ⟨_, by simp only [wBdf, spec, List.length_map, List.length_range, hs, if_true]; rfl, ?_⟩
    simp [spec, hTransient, hAdjoint, hOnSide, hTime, hDt, hStage, hCur, hEid, hStep, hTab, hBdf, hTabOf, hBdfOf,
      range_map_set]

theorem good_final {e : Bool} (x : K) (hs : 0 < n) (hg : Good n tr0 e b h w) :
    ∃ w', wFinal x w = some w' ∧ Good n tr0 e b (.finalize x :: h) w' := by
  cases e
  · simp only [Good, Bool.false_eq_true, if_false] at hg ⊢
    obtain ⟨h1, h2, h3, h4, h5⟩ := hg
    exact ⟨w, by simp [wFinal, h2], h1, h2, h3, h4, by simp [hLastTab, h5]⟩
  · simp only [Good, if_true] at hg ⊢
    subst hg
    by_cases hn : 1 < n
    · refine ⟨_, by simp only [wFinal, spec, range_map_get _ hs, wSet, List.length_map, List.length_range, hn, if_true, Option.map_some]; rfl, ?_⟩
      simp [spec, hTransient, hAdjoint, hOnSide, hTime, hDt, hStage, hCur, hEid, hStep, hTab, hBdf, hTabOf, hBdfOf, hn]
    · refine ⟨_, by simp only [wFinal, spec, range_map_get _ hs, wSet, List.length_map, List.length_range, hn, if_true, if_false, Option.map_some]; rfl, ?_⟩
      simp [spec, hTransient, hAdjoint, hOnSide, hTime, hDt, hStage, hCur, hEid, hStep, hTab, hBdf, hTabOf, hBdfOf, hn]

theorem good_set {e : Bool} {s : Nat} (hs : s < n) (hg : Good n tr0 e b h w) :
    ∃ w', wSet s w = some w' ∧ Good n tr0 e b (.physicsSet s :: h) w' := by
  cases e
  · simp only [Good, Bool.false_eq_true, if_false] at hg ⊢
    obtain ⟨h1, h2, h3, h4, h5⟩ := hg
    exact ⟨w, by simp [wSet, h2], h1, h2, h3, h4, by simp [hLastTab, h5]⟩
  · simp only [Good, if_true] at hg ⊢
    subst hg
    by_cases hn : 1 < n
    · refine ⟨_, by simp only [spec, range_map_get _ hs, wSet, List.length_map, List.length_range, hn, if_true]; rfl, ?_⟩
      simp [spec, hTransient, hAdjoint, hOnSide, hTime, hDt, hStage, hCur, hEid, hStep, hTab, hBdf, hTabOf, hBdfOf, hn]
    · refine ⟨_, by simp only [spec, wSet, List.length_map, List.length_range, hn, if_true, if_false]; rfl, ?_⟩
      simp [spec, hTransient, hAdjoint, hOnSide, hTime, hDt, hStage, hCur, hEid, hStep, hTab, hBdf, hTabOf, hBdfOf, hn]

theorem good_initSet {e : Bool} {s : Nat} (hs : s < n) (hg : Good n tr0 e b h w) :
    ∃ w', wSet s w = some w' ∧ Good n tr0 e b (.initSet b s :: h) w' := by
  cases e
  · simp only [Good, Bool.false_eq_true, if_false] at hg ⊢
    obtain ⟨h1, h2, h3, h4, h5⟩ := hg
    exact ⟨w, by simp [wSet, h2], h1, h2, h3, h4, by simp [hLastTab, h5]⟩
  · simp only [Good, if_true] at hg ⊢
    subst hg
    by_cases hn : 1 < n
    · refine ⟨_, by simp only [spec, range_map_get _ hs, wSet, List.length_map, List.length_range, hn, if_true]; rfl, ?_⟩
      simp [spec, hTransient, hAdjoint, hOnSide, hTime, hDt, hStage, hCur, hEid, hStep, hTab, hBdf, hTabOf, hBdfOf, hn]
    · refine ⟨_, by simp only [spec, wSet, List.length_map, List.length_range, hn, if_true, if_false]; rfl, ?_⟩
      simp [spec, hTransient, hAdjoint, hOnSide, hTime, hDt, hStage, hCur, hEid, hStep, hTab, hBdf, hTabOf, hBdfOf, hn]

theorem good_stage {e : Bool} {s : Nat} (t dt : K)
    (hs : if e then HasStage (hTab n b h) s else HasStage (hLastTab b h) s) (hg : Good n tr0 e b h w) :
    ∃ w', wStage s t dt w = some w' ∧ Good n tr0 e b (.stage s t dt :: h) w' := by
  cases e
  · simp only [Good, Bool.false_eq_true, if_false] at hg hs ⊢
    obtain ⟨h1, h2, h3, h4, h5⟩ := hg
    obtain ⟨T, e1, e2⟩ := hs
    have ht : w.tab = some T := h5.trans e1
    refine ⟨_, by simp only [wStage, ht, List.getElem?_eq_getElem e2]; exact rfl, ?_⟩
    refine ⟨h1, h2, h3, h4, ?_⟩
    simpa [hLastTab, ht] using h5
  · simp only [Good, if_true] at hg hs ⊢
    subst hg
    obtain ⟨T, e1, e2⟩ := hs
    refine ⟨_, by simp only [wStage, spec, e1, List.getElem?_eq_getElem e2]; rfl, ?_⟩
    simp [spec, hTransient, hAdjoint, hOnSide, hTime, hDt, hStage, hCur, hEid, hStep, hTab, hBdf, hTabOf, hBdfOf,
      stageTime, e1, List.getElem?_eq_getElem e2]

theorem good_time {tr : Bool} (t dt : K) (hs : tr = true → HasStage (hTab n b h) (hStage h))
    (hg : Good n tr0 true b h w) :
    ∃ w', wTime tr t dt w = some w' ∧ Good n tr0 true b (.time b tr t dt :: h) w' := by
  simp only [Good, if_true] at hg ⊢
  subst hg
  cases tr
  · refine ⟨_, by simp only [wTime, Bool.false_eq_true, if_false]; rfl, ?_⟩
    simp [spec, hTransient, hAdjoint, hOnSide, hTime, hDt, hStage, hCur, hEid, hStep, hTab, hBdf, hTabOf, hBdfOf]
  · obtain ⟨T, e1, e2⟩ := hs rfl
    refine ⟨_, by simp only [wTime, spec, e1, List.getElem?_eq_getElem e2, if_true]; rfl, ?_⟩
    simp [spec, hTransient, hAdjoint, hOnSide, hTime, hDt, hStage, hCur, hEid, hStep, hTab, hBdf, hTabOf, hBdfOf,
      stageTime, e1, List.getElem?_eq_getElem e2]

theorem good_resTime {tr : Bool} (t dt : K) (hs : tr = true → HasStage (hTab n b h) (hStage h))
    (hg : Good n tr0 true b h w) :
    ∃ w', (wTime tr t dt w).map (fun v => { v with adjoint := some false }) = some w' ∧
      Good n tr0 true b (.resTime b tr t dt :: h) w' := by
  simp only [Good, if_true] at hg ⊢
  subst hg
  cases tr
  · refine ⟨_, by simp only [wTime, Bool.false_eq_true, if_false, Option.map_some]; rfl, ?_⟩
    simp [spec, hTransient, hAdjoint, hOnSide, hTime, hDt, hStage, hCur, hEid, hStep, hTab, hBdf, hTabOf, hBdfOf]
  · obtain ⟨T, e1, e2⟩ := hs rfl
    refine ⟨_, by simp only [wTime, spec, e1, List.getElem?_eq_getElem e2, if_true, Option.map_some]; rfl, ?_⟩
    simp [spec, hTransient, hAdjoint, hOnSide, hTime, hDt, hStage, hCur, hEid, hStep, hTab, hBdf, hTabOf, hBdfOf,
      stageTime, e1, List.getElem?_eq_getElem e2]

theorem good_stepNo {e : Bool} (m : Nat) (hg : Good n tr0 e b h w) :
    Good n tr0 e b (.stepNo m :: h) { w with step := some m } := by
  cases e
  · simpa [Good, hLastTab] using hg
  · simp only [Good, if_true] at hg ⊢
    subst hg
    simp [spec, hTransient, hAdjoint, hOnSide, hTime, hDt, hStage, hCur, hEid, hStep, hTab, hBdf, hTabOf, hBdfOf]

theorem good_adjoint {e : Bool} (f : Bool) (hg : Good n tr0 e b h w) :
    Good n tr0 e b (.adjoint b f :: h) { w with adjoint := some f } := by
  cases e
  · simpa [Good, hLastTab] using hg
  · simp only [Good, if_true] at hg ⊢
    subst hg
    simp [spec, hTransient, hAdjoint, hOnSide, hTime, hDt, hStage, hCur, hEid, hStep, hTab, hBdf, hTabOf, hBdfOf]

theorem good_eid {e : Bool} (f : Nat) (hg : Good n tr0 e b h w) :
    Good n tr0 e b (.eid b f :: h) { w with eid := some f } := by
  cases e
  · simpa [Good, hLastTab] using hg
  · simp only [Good, if_true] at hg ⊢
    subst hg
    simp [spec, hTransient, hAdjoint, hOnSide, hTime, hDt, hStage, hCur, hEid, hStep, hTab, hBdf, hTabOf, hBdfOf]

theorem good_onSide {e : Bool} (f : Bool) (hg : Good n tr0 e b h w) :
    Good n tr0 e b (.onSide b f :: h) { w with onSide := some f } := by
  cases e
  · simpa [Good, hLastTab] using hg
  · simp only [Good, if_true] at hg ⊢
    subst hg
    simp [spec, hTransient, hAdjoint, hOnSide, hTime, hDt, hStage, hCur, hEid, hStep, hTab, hBdf, hTabOf, hBdfOf]

/-- The block a call is addressed to, if it is addressed to one. [specification, no code] -/
def target : Op K → Option Nat
  | .butcher _ b _ => some b
  | .bdf _ b _ => some b
  | .time b _ _ _ => some b
  | .adjoint b _ => some b
  | .eid b _ => some b
  | .onSide b _ => some b
  | .resTime b _ _ _ => some b
  | .initSet b _ => some b
  | _ => none

/-- A call addressed to another block changes nothing for this one. -/
theorem good_other {e : Bool} {op : Op K} {b' : Nat} (ht : target op = some b') (hne : b ≠ b')
    (hg : Good n tr0 e b h w) : Good n tr0 e b (op :: h) w := by
  have hne' : ¬ b' = b := fun h => hne h.symm
  have hs : spec n tr0 b (op :: h) = spec n tr0 b h ∧ hLastTab b (op :: h) = hLastTab b h := by
    cases op <;> simp only [target, Option.some.injEq, reduceCtorEq] at ht <;> subst ht <;>
      simp [spec, hTransient, hAdjoint, hOnSide, hTime, hDt, hStage, hCur, hEid, hStep, hTab, hBdf, hTabOf, hBdfOf,
        hLastTab, hne']
  cases e
  · simpa [Good, hs.2] using hg
  · simp only [Good, if_true] at hg ⊢
    rw [hg, hs.1]

/-- A call that only the plain worksets receive leaves the others as they are. -/
theorem filter_skip (op : Op K) (hr : reaches op = false) : (op :: h).filter reaches = h.filter reaches := by
  simp [hr]

theorem filter_keep (op : Op K) (hr : reaches op = true) : (op :: h).filter reaches = op :: h.filter reaches := by
  simp [hr]

theorem hStage_filter (h : List (Op K)) : hStage (h.filter reaches) = hStage h := by
  induction h with
  | nil => rfl
  | cons op h ih => cases op <;> simp [List.filter_cons, reaches, hStage, ih]

theorem hLastTab_filter (b : Nat) (h : List (Op K)) : hLastTab b (h.filter reaches) = hLastTab b h := by
  induction h with
  | nil => rfl
  | cons op h ih => cases op <;> simp [List.filter_cons, reaches, hLastTab, ih]

/-- The requirement on block `b` of the run. [specification, no code] -/
def At (c : Cfg) (tr0 : Bool) (h : List (Op K)) (b : Nat) (w : Ws K) : Prop :=
  ∃ blk, c.blocks[b]? = some blk ∧ Good c.sets tr0 blk.elems b h w

theorem at_of_lt {c : Cfg} (hb : b < c.blocks.length) : c.blocks[b]? = some c.blocks[b] :=
  List.getElem?_eq_getElem hb

/-- The invariant of the run. [specification, no code] -/
abbrev Ok (c : Cfg) (tr0 : Bool) (h : List (Op K)) (st : St K) : Prop :=
  Inv c.blocks.length (typeAD c) (select (typeAD c)) (At c tr0 h) (At c tr0 (h.filter reaches)) st

theorem at_other {c : Cfg} {op : Op K} {b' : Nat} (ht : target op = some b') (hne : b ≠ b') (hg : At c tr0 h b w) :
    At c tr0 (op :: h) b w := by
  obtain ⟨blk, e, g⟩ := hg
  exact ⟨blk, e, good_other ht hne g⟩

theorem exec_ok {c : Cfg} {st : St K} (op : Op K) (hi : Ok c tr0 h st) (ha : Allowed c h op) :
    ∃ st', exec c.blocks.length st op = some st' ∧ Ok c tr0 (op :: h) st' := by
  cases op with
  | butcher s b T =>
    obtain ⟨hs, hb⟩ := ha
    unfold Ok at *; rw [filter_keep _ rfl]
    refine dispatch_some hi hb ?_ ?_ (fun b' w e g => at_other rfl e g) (fun b' w e g => at_other rfl e g)
    · rintro w ⟨blk, e, g⟩
      obtain ⟨w', h1, h2⟩ := good_butcher T hs g
      exact ⟨w', by simpa using h1, blk, e, h2⟩
    · rintro w ⟨blk, e, g⟩
      obtain ⟨w', h1, h2⟩ := good_butcher T hs g
      exact ⟨w', h1, blk, e, h2⟩
  | bdf s b B =>
    obtain ⟨hs, hb⟩ := ha
    unfold Ok at *; rw [filter_keep _ rfl]
    refine dispatch_some hi hb ?_ ?_ (fun b' w e g => at_other rfl e g) (fun b' w e g => at_other rfl e g)
    · rintro w ⟨blk, e, g⟩
      obtain ⟨w', h1, h2⟩ := good_bdf B hs g
      exact ⟨w', by simpa using h1, blk, e, h2⟩
    · rintro w ⟨blk, e, g⟩
      obtain ⟨w', h1, h2⟩ := good_bdf B hs g
      exact ⟨w', h1, blk, e, h2⟩
  | finalize x =>
    unfold Ok at *; rw [filter_keep _ rfl]
    refine finalize_some hi ?_ ?_
    · rintro b w ⟨blk, e, g⟩
      obtain ⟨w', h1, h2⟩ := good_final x ha g
      exact ⟨w', h1, blk, e, h2⟩
    · rintro b w ⟨blk, e, g⟩
      obtain ⟨w', h1, h2⟩ := good_final x ha g
      exact ⟨w', h1, blk, e, h2⟩
  | physicsSet s =>
    unfold Ok at *; rw [filter_keep _ rfl]
    refine dispatchAll_some (List.range c.blocks.length) _ _ st hi List.nodup_range (by simp) ?_ ?_
      (by intro b hb hn; simp at hn; omega) (by intro b hb hn; simp at hn; omega)
    · rintro b - w ⟨blk, e, g⟩
      obtain ⟨w', h1, h2⟩ := good_set ha g
      by_cases hw : w.built = true
      · exact ⟨w', by simp [hw, h1], blk, e, h2⟩
      · have : wSet s w = some w := by simp [wSet, hw]
        rw [this] at h1; cases h1
        exact ⟨w, by simp [hw], blk, e, h2⟩
    · rintro b - w ⟨blk, e, g⟩
      obtain ⟨w', h1, h2⟩ := good_set ha g
      exact ⟨w', h1, blk, e, h2⟩
  | stage s t dt =>
    unfold Ok at *; rw [filter_keep _ rfl]
    refine dispatchAll_some (List.range c.blocks.length) _ _ st hi List.nodup_range (by simp) ?_ ?_
      (by intro b hb hn; simp at hn; omega) (by intro b hb hn; simp at hn; omega)
    · rintro b - w ⟨blk, e, g⟩
      have hb := ha b blk e
      obtain ⟨w', h1, h2⟩ := good_stage (s := s) t dt (by
        cases he : blk.elems <;> simp only [he, if_true, Bool.false_eq_true, if_false] at hb ⊢
        · exact hb
        · exact hb.1) g
      exact ⟨w', by simpa using h1, blk, e, h2⟩
    · rintro b - w ⟨blk, e, g⟩
      have hb := ha b blk e
      obtain ⟨w', h1, h2⟩ := good_stage (s := s) t dt (by
        cases he : blk.elems <;> simp only [he, if_true, Bool.false_eq_true, if_false] at hb ⊢
        · rw [hLastTab_filter]; exact hb
        · exact hb.2) g
      exact ⟨w', h1, blk, e, h2⟩
  | stepNo m =>
    unfold Ok at *; rw [filter_keep _ rfl]
    refine dispatchAll_some (List.range c.blocks.length) _ _ st hi List.nodup_range (by simp) ?_ ?_
      (by intro b hb hn; simp at hn; omega) (by intro b hb hn; simp at hn; omega)
    · rintro b - w ⟨blk, e, g⟩
      exact ⟨_, by simp, blk, e, good_stepNo m g⟩
    · rintro b - w ⟨blk, e, g⟩
      exact ⟨_, rfl, blk, e, good_stepNo m g⟩
  | time b tr t dt =>
    obtain ⟨blk, e, he, hs⟩ := ha
    have hb : b < c.blocks.length := (List.getElem?_eq_some_iff.1 e).1
    unfold Ok at *; rw [filter_keep _ rfl]
    refine dispatch_some hi hb ?_ ?_ (fun b' w e g => at_other rfl e g) (fun b' w e g => at_other rfl e g)
    · rintro w ⟨blk', e', g⟩
      rw [e] at e'; cases e'
      rw [he] at g
      obtain ⟨w', h1, h2⟩ := good_time t dt (fun x => (hs x).1) g
      have hw : w.built = true := by simp only [Good, if_true] at g; subst g; rfl
      exact ⟨w', by simpa [hw] using h1, blk, e, by rw [he]; exact h2⟩
    · rintro w ⟨blk', e', g⟩
      rw [e] at e'; cases e'
      rw [he] at g
      obtain ⟨w', h1, h2⟩ := good_time t dt (fun x => by rw [hStage_filter]; exact (hs x).2) g
      exact ⟨w', h1, blk, e, by rw [he]; exact h2⟩
  | adjoint b f =>
    unfold Ok at *; rw [filter_keep _ rfl]
    refine dispatch_some hi ha ?_ ?_ (fun b' w e g => at_other rfl e g) (fun b' w e g => at_other rfl e g)
    · rintro w ⟨blk, e, g⟩
      have g' := good_adjoint f g
      by_cases hw : w.built = true
      · exact ⟨_, by simp [hw], blk, e, g'⟩
      · refine ⟨w, by simp [hw], blk, e, ?_⟩
        have he : blk.elems = false := by
          cases hb : blk.elems
          · rfl
          · rw [hb] at g; simp only [Good, if_true] at g; subst g; simp [spec] at hw
        rw [he] at g g' ⊢
        simpa [Good] using g'
    · rintro w ⟨blk, e, g⟩
      exact ⟨_, rfl, blk, e, good_adjoint f g⟩
  | eid b f =>
    unfold Ok at *; rw [filter_keep _ rfl]
    refine dispatch_some hi ha ?_ ?_ (fun b' w e g => at_other rfl e g) (fun b' w e g => at_other rfl e g)
    · rintro w ⟨blk, e, g⟩
      have g' := good_eid f g
      by_cases hw : w.built = true
      · exact ⟨_, by simp [hw], blk, e, g'⟩
      · refine ⟨w, by simp [hw], blk, e, ?_⟩
        have he : blk.elems = false := by
          cases hb : blk.elems
          · rfl
          · rw [hb] at g; simp only [Good, if_true] at g; subst g; simp [spec] at hw
        rw [he] at g g' ⊢
        simpa [Good] using g'
    · rintro w ⟨blk, e, g⟩
      exact ⟨_, rfl, blk, e, good_eid f g⟩
  | onSide b f =>
    unfold Ok at *; rw [filter_keep _ rfl]
    refine dispatch_some hi ha ?_ ?_ (fun b' w e g => at_other rfl e g) (fun b' w e g => at_other rfl e g)
    · rintro w ⟨blk, e, g⟩
      exact ⟨_, by simp, blk, e, good_onSide f g⟩
    · rintro w ⟨blk, e, g⟩
      exact ⟨_, rfl, blk, e, good_onSide f g⟩
  | resTime b tr t dt =>
    obtain ⟨blk, e, he, hs⟩ := ha
    have hb : b < c.blocks.length := (List.getElem?_eq_some_iff.1 e).1
    obtain ⟨l', h1, h2, h3⟩ := upd_some (P' := At c tr0 (.resTime b tr t dt :: h)) hi.len hb hi.sc
      (f := fun w => (wTime tr t dt w).map (fun v => { v with adjoint := some false })) (by
        rintro w ⟨blk', e', g⟩
        rw [e] at e'; cases e'
        rw [he] at g
        obtain ⟨w', h1, h2⟩ := good_resTime t dt hs g
        exact ⟨w', h1, blk, e, by rw [he]; exact h2⟩) (fun b' w e g => at_other rfl e g)
    refine ⟨{ st with sc := l' }, by simp only [exec, h1, Option.map_some], hi.type, hi.mods, h2, h3, hi.alen, ?_, hi.none⟩
    rw [filter_skip _ rfl]; exact hi.ads
  | initSet b s =>
    obtain ⟨hs, hb⟩ := ha
    obtain ⟨l', h1, h2, h3⟩ := upd_some (P' := At c tr0 (.initSet b s :: h)) hi.len hb hi.sc (f := wSet s) (by
        rintro w ⟨blk, e, g⟩
        obtain ⟨w', h1, h2⟩ := good_initSet hs g
        exact ⟨w', h1, blk, e, h2⟩) (fun b' w e g => at_other rfl e g)
    refine ⟨{ st with sc := l' }, by simp only [exec, h1, Option.map_some], hi.type, hi.mods, h2, h3, hi.alen, ?_, hi.none⟩
    rw [filter_skip _ rfl]; exact hi.ads

theorem run_ok {c : Cfg} {st : St K} (hi : Ok c tr0 [] st) : ∀ h : List (Op K), AllAllowed c h →
    ∃ st', run c.blocks.length st h = some st' ∧ Ok c tr0 h st' := by
  intro h
  induction h with
  | nil => intro _; exact ⟨st, rfl, hi⟩
  | cons op h ih =>
    intro ha
    obtain ⟨s1, e1, i1⟩ := ih ha.2
    obtain ⟨s2, e2, i2⟩ := exec_ok op i1 ha.1
    exact ⟨s2, by simp [run, e1, e2], i2⟩

/-! ### Creation -/

theorem typeAD_cases {c : Cfg} (hs : c.fullyExplicit = false) :
    typeAD c = -1 ∨ ((typeAD c = 2 ∨ typeAD c = 4 ∨ typeAD c = 8 ∨ typeAD c = 16 ∨ typeAD c = 18 ∨ typeAD c = 24 ∨
      typeAD c = 32) ∧ c.autotune = true ∧ ∀ blk ∈ c.blocks, blk.multiscale = false) := by
  by_cases h1 : c.autotune = true
  · by_cases h2 : ∃ blk ∈ c.blocks, blk.multiscale = true
    · left
      have : c.blocks.any (·.multiscale) = true := by simpa using h2
      simp [typeAD, hs, h1, this]
    · have h3 : ∀ blk ∈ c.blocks, blk.multiscale = false := by
        intro blk hb
        cases hm : blk.multiscale
        · rfl
        · exact absurd ⟨blk, hb, hm⟩ h2
      have : c.blocks.any (·.multiscale) = false := by simpa using h3
      unfold typeAD
      simp only [this, hs, h1, Bool.not_true, Bool.false_eq_true, if_false]
      split_ifs <;> simp <;> exact h3
  · left; simp [typeAD, hs, h1]

theorem typeAD_explicit {c : Cfg} (hs : c.fullyExplicit = true) : typeAD c = 0 := by simp [typeAD, hs]

/-- The state of the loop of `createWorkset`. [specification, no code] -/
structure Mid (c : Cfg) (tr : Bool) (n : Nat) (st : St K) : Prop where
  type : st.type = typeAD c
  mods : st.mods = select (typeAD c)
  len : st.sc.length = n
  sc : ∀ (b : Nat) w, st.sc[b]? = some w → ∃ blk, c.blocks[b]? = some blk ∧ w = fresh c.sets tr b blk.elems
  alen : ∀ k, select (typeAD c) = some k → (st.ads k).length = n
  ads : ∀ k, select (typeAD c) = some k → ∀ (b : Nat) w, (st.ads k)[b]? = some w →
    ∃ blk, c.blocks[b]? = some blk ∧ w = fresh c.sets tr b blk.elems
  none : ∀ k, select (typeAD c) ≠ some k → st.ads k = []

theorem append_at {n : Nat} {l : List (Ws K)} {P : Nat → Ws K → Prop} {w : Ws K} (hl : l.length = n)
    (h : ∀ (b : Nat) v, l[b]? = some v → P b v) (hw : P n w) : ∀ (b : Nat) v, (l ++ [w])[b]? = some v → P b v := by
  intro b v hv
  by_cases e : b < l.length
  · rw [List.getElem?_append_left e] at hv; exact h b v hv
  · rw [List.getElem?_append_right (by omega)] at hv
    by_cases e2 : b = n
    · subst e2
      simp [hl] at hv; subst hv; exact hw
    · have : 0 < b - l.length := by omega
      obtain ⟨m, hm⟩ : ∃ m, b - l.length = m + 1 := ⟨b - l.length - 1, by omega⟩
      simp [hm] at hv

theorem fresh_block (sets : Nat) (tr : Bool) (b : Nat) (e : Bool) : (fresh sets tr b e : Ws K).block = b := by
  cases e <;> rfl

theorem pushAt_end {st : St K} {k : Ty} {b : Nat} {w : Ws K} (hl : (st.ads k).length = b) (hw : w.block = b) :
    pushAt st k b w = some { st with ads := Function.update st.ads k (st.ads k ++ [w]) } := by
  have h1 : (st.ads k ++ [w])[b]? = some w := by rw [List.getElem?_append_right (by omega)]; simp [hl]
  have h2 : (st.ads k ++ [w]).set b { w with block := b } = st.ads k ++ [w] := by
    have : ({ w with block := b } : Ws K) = w := by rw [← hw]
    rw [this]
    apply List.ext_getElem?
    intro i
    by_cases e : i = b
    · subst e; rw [List.getElem?_set_self (by simp; omega), h1]
    · rw [List.getElem?_set_ne (Ne.symm e)]
  simp only [pushAt, h1, h2]

theorem createOne_ok {c : Cfg} (hs : Sound c) {tr : Bool} {b : Nat} {blk : Blk} {st : St K}
    (hb : c.blocks[b]? = some blk) (hi : Mid c tr b st) :
    ∃ st', createOne c tr st b blk = some st' ∧ Mid c tr (b + 1) st' := by
  have hmem : blk ∈ c.blocks := List.mem_of_getElem? hb
  have key : createOne c tr st b blk = some (match select (typeAD c) with
      | none => { st with sc := st.sc ++ [fresh c.sets tr b blk.elems] }
      | some k => { st with sc := st.sc ++ [fresh c.sets tr b blk.elems],
                            ads := Function.update st.ads k (st.ads k ++ [fresh c.sets tr b blk.elems]) }) := by
    cases he : blk.elems
    · simp only [createOne, he, Bool.false_eq_true, if_false, hi.type]
      cases select (typeAD c) <;> rfl
    · have pe : ∀ k, select (typeAD c) = some k →
          pushAt { st with sc := st.sc ++ [fresh c.sets tr b true] } k b (fresh c.sets tr b true) =
          some { st with sc := st.sc ++ [fresh c.sets tr b true],
                         ads := Function.update st.ads k (st.ads k ++ [fresh c.sets tr b true]) } := by
        intro k hk
        exact pushAt_end (st := { st with sc := st.sc ++ [fresh c.sets tr b true] }) (hi.alen k hk) (fresh_block ..)
      cases hf : c.fullyExplicit
      · rcases typeAD_cases hf with ht | ⟨ht, ha, hm⟩
        · have p := pe .ad (by rw [ht]; rfl)
          rw [hi.type, ht] at p
          simp only [createOne, he, if_true, hi.type, ht, hf, trySized, Bool.false_and, Bool.not_false, Bool.true_and]
          simp [select, p]
        · have hm' := hm blk hmem
          rcases ht with ht | ht | ht | ht | ht | ht | ht
          · have p := pe .a2 (by rw [ht]; rfl)
            rw [hi.type, ht] at p
            simp only [createOne, he, if_true, hi.type, ht, hf, trySized, Bool.false_and, Bool.not_false, Bool.true_and]
            simp [select, p, ha, hm']
          · have p := pe .a4 (by rw [ht]; rfl)
            rw [hi.type, ht] at p
            simp only [createOne, he, if_true, hi.type, ht, hf, trySized, Bool.false_and, Bool.not_false, Bool.true_and]
            simp [select, p, ha, hm']
          · have p := pe .a8 (by rw [ht]; rfl)
            rw [hi.type, ht] at p
            simp only [createOne, he, if_true, hi.type, ht, hf, trySized, Bool.false_and, Bool.not_false, Bool.true_and]
            simp [select, p, ha, hm']
          · have p := pe .a16 (by rw [ht]; rfl)
            rw [hi.type, ht] at p
            simp only [createOne, he, if_true, hi.type, ht, hf, trySized, Bool.false_and, Bool.not_false, Bool.true_and]
            simp [select, p, ha, hm']
          · have p := pe .a18 (by rw [ht]; rfl)
            rw [hi.type, ht] at p
            simp only [createOne, he, if_true, hi.type, ht, hf, trySized, Bool.false_and, Bool.not_false, Bool.true_and]
            simp [select, p, ha, hm']
          · have p := pe .a24 (by rw [ht]; rfl)
            rw [hi.type, ht] at p
            simp only [createOne, he, if_true, hi.type, ht, hf, trySized, Bool.false_and, Bool.not_false, Bool.true_and]
            simp [select, p, ha, hm']
          · have p := pe .a32 (by rw [ht]; rfl)
            rw [hi.type, ht] at p
            simp only [createOne, he, if_true, hi.type, ht, hf, trySized, Bool.false_and, Bool.not_false, Bool.true_and]
            simp [select, p, ha, hm']
      · rcases hs with hf' | ⟨h1, h2, h3⟩
        · rw [hf] at hf'; cases hf'
        · have ht := typeAD_explicit hf
          simp [createOne, he, hi.type, ht, hf, trySized, h1, h2, h3 blk hmem, select]
  refine ⟨_, key, ?_⟩
  have hn : ∃ blk', c.blocks[b]? = some blk' ∧ fresh c.sets tr b blk.elems = (fresh c.sets tr b blk'.elems : Ws K) :=
    ⟨blk, hb, rfl⟩
  have hsc := append_at (P := fun b w => ∃ blk, c.blocks[b]? = some blk ∧ w = fresh c.sets tr b blk.elems) hi.len hi.sc hn
  cases hk : select (typeAD c) with
  | none =>
    exact ⟨hi.type, hi.mods, by simp [hi.len], hsc, by simp [hk], by simp [hk], fun k hk' => hi.none k (by simp [hk])⟩
  | some k =>
    refine ⟨hi.type, hi.mods, by simp [hi.len], hsc, ?_, ?_, ?_⟩
    · intro k' hk'
      rw [hk] at hk'; cases hk'
      simp [hi.alen k hk]
    · intro k' hk'
      rw [hk] at hk'; cases hk'
      simp only [Function.update_self]
      exact append_at (P := fun b w => ∃ blk, c.blocks[b]? = some blk ∧ w = fresh c.sets tr b blk.elems)
        (hi.alen k hk) (hi.ads k hk) hn
    · intro k' hk'
      have : k' ≠ k := by rintro rfl; exact hk' hk
      simp only [Function.update_of_ne this]
      exact hi.none k' hk'

theorem createFrom_ok {c : Cfg} (hs : Sound c) {tr : Bool} : ∀ (bs : List Blk) (b : Nat) (st : St K),
    c.blocks.drop b = bs → Mid c tr b st → b ≤ c.blocks.length →
    ∃ st', createFrom c tr b bs st = some st' ∧ Mid c tr c.blocks.length st' := by
  intro bs
  induction bs with
  | nil =>
    intro b st hd hi hle
    have : c.blocks.length ≤ b := by simpa using hd
    have e : b = c.blocks.length := by omega
    subst e
    exact ⟨st, rfl, hi⟩
  | cons blk bs ih =>
    intro b st hd hi hle
    have hlt : b < c.blocks.length := by
      by_contra h
      have : c.blocks.drop b = [] := by simp; omega
      rw [this] at hd; cases hd
    rw [List.drop_eq_getElem_cons hlt] at hd
    injection hd with h1 h2
    have hb : c.blocks[b]? = some blk := by rw [List.getElem?_eq_getElem hlt, h1]
    obtain ⟨s1, e1, i1⟩ := createOne_ok hs hb hi
    obtain ⟨s2, e2, i2⟩ := ih (b + 1) s1 h2 i1 hlt
    exact ⟨s2, by simp only [createFrom, e1, Option.bind_some]; exact e2, i2⟩

theorem fresh_good (n : Nat) (tr : Bool) (b : Nat) (e : Bool) : Good n tr e b [] (fresh n tr b e : Ws K) := by
  cases e
  · simp [Good, fresh, hLastTab]
  · simp only [Good, if_true, fresh, spec, hTransient, hAdjoint, hOnSide, hTime, hDt, hStage, hCur, hEid, hStep, hTab,
      hBdf, hTabOf, hBdfOf]
    simp

theorem create_ok {c : Cfg} (hs : Sound c) (tr : Bool) : ∃ st : St K, create c tr = some st ∧ Ok c tr [] st := by
  obtain ⟨st, e, i⟩ := createFrom_ok (K := K) hs (tr := tr) c.blocks 0
    { sc := [], ads := fun _ => [], mods := select (typeAD c), type := typeAD c } rfl
    ⟨rfl, rfl, rfl, by simp, by simp, by simp, by simp⟩ (Nat.zero_le _)
  refine ⟨st, e, i.type, i.mods, i.len, ?_, i.alen, ?_, i.none⟩
  · intro b w h
    obtain ⟨blk, e, rfl⟩ := i.sc b w h
    exact ⟨blk, e, fresh_good ..⟩
  · intro k hk b w h
    obtain ⟨blk, e, rfl⟩ := i.ads k hk b w h
    exact ⟨blk, e, fresh_good ..⟩

/-! ## Theorems -/

theorem le_maxNdr {bs : List Blk} {blk : Blk} (h : blk ∈ bs) : blk.ndr ≤ maxNdr bs := by
  have gen : ∀ (l : List Blk) (m : Nat), m ≤ l.foldl (fun m b => max m b.ndr) m ∧
      ∀ x ∈ l, x.ndr ≤ l.foldl (fun m b => max m b.ndr) m := by
    intro l
    induction l with
    | nil => intro m; simp
    | cons y l ih =>
      intro m
      obtain ⟨h1, h2⟩ := ih (max m y.ndr)
      refine ⟨le_trans (le_max_left _ _) h1, ?_⟩
      intro x hx
      rcases List.mem_cons.1 hx with rfl | hx
      · exact le_trans (le_max_right _ _) h1
      · exact h2 x hx
  exact (gen bs 0).2 blk h

/-- The derivative type of the run holds the derivatives of every block, provided that the custom type does. -/
theorem width_enough {c : Cfg} {maxD : Nat} {k : Ty} (hD : ∀ blk ∈ c.blocks, blk.ndr ≤ maxD)
    (hk : select (typeAD c) = some k) : ∀ blk ∈ c.blocks, blk.ndr ≤ width maxD k := by
  intro blk hb
  have hm := le_maxNdr hb
  have hd := hD blk hb
  unfold typeAD at hk
  simp only [] at hk
  split_ifs at hk <;> simp [select] at hk <;> subst hk <;> simp only [width] <;> omega

/-- Every block with elements is evaluated once, in order. -/
theorem jacTypes_blocks (t : Int) : ∀ (bs : List Blk) (b : Nat) (auto : Bool),
    (jacTypes t b auto bs).map Prod.fst = (List.range bs.length).filterMap
      (fun i => match bs[i]? with | some blk => if blk.elems then some (b + i) else none | none => none) := by
  intro bs
  induction bs with
  | nil => intro b auto; rfl
  | cons blk bs ih =>
    intro b auto
    rw [List.length_cons, List.range_succ_eq_map, List.filterMap_cons, List.filterMap_map]
    have e : ((fun i => match (blk :: bs)[i]? with | some blk => if blk.elems then some (b + i) else none | none => none) ∘ Nat.succ)
        = fun i => match bs[i]? with | some blk => if blk.elems then some (b + 1 + i) else none | none => none := by
      funext i
      simp only [Function.comp, Nat.succ_eq_add_one, List.getElem?_cons_succ]
      cases bs[i]? with
      | none => rfl
      | some x => simp only []; congr 2; omega
    rw [e]
    cases he : blk.elems
    · simp [jacTypes, he, ih]
    · simp [jacTypes, he, ih]

theorem jacTypes_mem (t : Int) : ∀ (bs : List Blk) (b : Nat) (auto : Bool) (p : Nat × Ty), p ∈ jacTypes t b auto bs →
    b ≤ p.1 ∧ (∃ blk, bs[p.1 - b]? = some blk ∧ blk.elems = true) ∧
      (p.2 = (select t).getD .ad ∨ (p.2 = .ad ∧ (auto = false ∨ ∃ blk ∈ bs, blk.multiscale = true))) := by
  intro bs
  induction bs with
  | nil => intro b auto p h; simp [jacTypes] at h
  | cons blk bs ih =>
    intro b auto p h
    have step : ∀ auto', p ∈ jacTypes t (b + 1) auto' bs → (auto' = false → auto = false ∨ blk.multiscale = true) →
        b ≤ p.1 ∧ (∃ blk', (blk :: bs)[p.1 - b]? = some blk' ∧ blk'.elems = true) ∧
        (p.2 = (select t).getD .ad ∨ (p.2 = .ad ∧ (auto = false ∨ ∃ blk' ∈ blk :: bs, blk'.multiscale = true))) := by
      intro auto' h ha
      obtain ⟨h1, ⟨blk', h2, h3⟩, h4⟩ := ih (b + 1) auto' p h
      refine ⟨by omega, ⟨blk', ?_, h3⟩, ?_⟩
      · have : p.1 - b = (p.1 - (b + 1)) + 1 := by omega
        rw [this, List.getElem?_cons_succ]; exact h2
      · rcases h4 with h4 | ⟨h4, h5 | ⟨x, hx, hm⟩⟩
        · exact Or.inl h4
        · rcases ha h5 with h6 | h6
          · exact Or.inr ⟨h4, Or.inl h6⟩
          · exact Or.inr ⟨h4, Or.inr ⟨blk, by simp, h6⟩⟩
        · exact Or.inr ⟨h4, Or.inr ⟨x, by simp [hx], hm⟩⟩
    cases he : blk.elems
    · simp only [jacTypes, he, Bool.false_eq_true, if_false] at h
      exact step auto h (fun e => Or.inl e)
    · simp only [jacTypes, he, if_true, List.mem_cons] at h
      rcases h with h | h
      · subst h
        refine ⟨le_refl _, ⟨blk, by simp, he⟩, ?_⟩
        cases hm : blk.multiscale <;> cases ha : auto <;> simp
        exact Or.inr (Or.inl hm)
      · refine step _ h ?_
        cases hm : blk.multiscale <;> simp

/-- C165: for all settings that are not "fully explicit", and for fully explicit forward runs without subgrid models
and with the automatic choice of the derivative type, the creation of the worksets succeeds, and so does every
admissible sequence of calls of the solver and the assembly, from any number of blocks with or without elements.
After it, every block with elements has a plain workset and, if derivatives are used, one workset of the selected type;
each holds exactly what the calls for this block prescribe, and no other table has entries.
Missing for the full claim: the fully explicit runs of `C165_violated` and `C165_create_violated`. -/
theorem C165_partial (c : Cfg) (tr : Bool) (h : List (Op K)) (hs : Sound c) (ha : AllAllowed c h) :
    ∃ st0 st : St K, create c tr = some st0 ∧ run c.blocks.length st0 h = some st ∧
      (∀ b blk, c.blocks[b]? = some blk → blk.elems = true → st.sc[b]? = some (spec c.sets tr b h)) ∧
      (∀ k b blk, select (typeAD c) = some k → c.blocks[b]? = some blk → blk.elems = true →
        (st.ads k)[b]? = some (spec c.sets tr b (h.filter reaches))) ∧
      (∀ k, select (typeAD c) ≠ some k → st.ads k = []) ∧
      (c.fullyExplicit = false → ∃ k, select (typeAD c) = some k ∧ st.mods = some k) := by
  obtain ⟨st0, e0, i0⟩ := create_ok (K := K) hs tr
  obtain ⟨st, e1, i1⟩ := run_ok i0 h ha
  refine ⟨st0, st, e0, e1, ?_, ?_, i1.none, ?_⟩
  · intro b blk hb he
    have hlt : b < c.blocks.length := (List.getElem?_eq_some_iff.1 hb).1
    have hl : b < st.sc.length := by rw [i1.len]; exact hlt
    obtain ⟨blk', e', g⟩ := i1.sc b _ (List.getElem?_eq_getElem hl)
    rw [hb] at e'; cases e'
    rw [he] at g; simp only [Good, if_true] at g
    rw [List.getElem?_eq_getElem hl, g]
  · intro k b blk hk hb he
    have hlt : b < c.blocks.length := (List.getElem?_eq_some_iff.1 hb).1
    have hl : b < (st.ads k).length := by rw [i1.alen k hk]; exact hlt
    obtain ⟨blk', e', g⟩ := i1.ads k hk b _ (List.getElem?_eq_getElem hl)
    rw [hb] at e'; cases e'
    rw [he] at g; simp only [Good, if_true] at g
    rw [List.getElem?_eq_getElem hl, g]
  · intro hf
    rw [i1.mods]
    rcases typeAD_cases hf with ht | ⟨ht | ht | ht | ht | ht | ht | ht, -⟩ <;> rw [ht] <;> exact ⟨_, rfl, rfl⟩

/-- C165, Jacobian: without "fully explicit", every evaluation of the Jacobian goes, block by block and each block with
elements once, to a workset that exists, belongs to the block and holds what was prescribed, with modules of the same
type, and the type holds the derivatives of the block if `MAXDERIVS` does. -/
theorem C165_jacobian (c : Cfg) (tr : Bool) (h : List (Op K)) (maxD : Nat) (hf : c.fullyExplicit = false)
    (hD : ∀ blk ∈ c.blocks, blk.ndr ≤ maxD) (ha : AllAllowed c h) :
    ∃ st0 st : St K, create c tr = some st0 ∧ run c.blocks.length st0 h = some st ∧
      (jacTypes st.type 0 c.autotune c.blocks).map Prod.fst = (List.range c.blocks.length).filter
        (fun b => match c.blocks[b]? with | some blk => blk.elems | none => false) ∧
      ∀ p ∈ jacTypes st.type 0 c.autotune c.blocks, ∃ blk, c.blocks[p.1]? = some blk ∧
        jacWorkset st blk p.1 p.2 = some (spec c.sets tr p.1 (h.filter reaches)) ∧ blk.ndr ≤ width maxD p.2 := by
  obtain ⟨st0, e0, i0⟩ := create_ok (K := K) (Or.inl hf : Sound c) tr
  obtain ⟨st, e1, i1⟩ := run_ok i0 h ha
  obtain ⟨st0', st', e0', e1', -, hads, -, hk⟩ := C165_partial c tr h (Or.inl hf) ha
  rw [e0] at e0'; cases e0'
  rw [e1] at e1'; cases e1'
  obtain ⟨k, hk, hmod⟩ := hk hf
  refine ⟨st0, st, e0, e1, ?_, ?_⟩
  · rw [jacTypes_blocks]
    have : ∀ l : List Nat, l.filterMap (fun i => match c.blocks[i]? with | some blk => if blk.elems then some (0 + i) else none | none => none)
        = l.filter (fun b => match c.blocks[b]? with | some blk => blk.elems | none => false) := by
      intro l
      induction l with
      | nil => rfl
      | cons i l ih =>
        rw [List.filterMap_cons, List.filter_cons, ih]
        cases c.blocks[i]? with
        | none => simp
        | some x => cases hx : x.elems <;> simp [hx]
    exact this _
  · rintro ⟨b, k'⟩ hp
    rw [i1.type] at hp
    obtain ⟨-, ⟨blk, hb, he⟩, hty⟩ := jacTypes_mem _ _ _ _ _ hp
    simp only [Nat.sub_zero] at hb hty
    have hmem : blk ∈ c.blocks := List.mem_of_getElem? hb
    have hadk : (c.autotune = false ∨ ∃ blk ∈ c.blocks, blk.multiscale = true) → k = .ad := by
      intro hx
      rcases typeAD_cases hf with ht | ⟨-, h1, h2⟩
      · rw [ht] at hk; cases hk; rfl
      · rcases hx with hx | ⟨x, hx, hm⟩
        · rw [h1] at hx; cases hx
        · rw [h2 x hx] at hm; cases hm
    have hk' : k' = k := by
      rcases hty with e | ⟨e, hx⟩
      · rw [e, hk]; rfl
      · rw [e, hadk hx]
    subst hk'
    refine ⟨blk, hb, ?_, width_enough hD hk blk hmem⟩
    have hw := hads k' b blk hk hb he
    cases hm : blk.multiscale
    · simp [jacWorkset, hm, hmod, hw]
    · have : k' = .ad := hadk (Or.inr ⟨blk, hmem, hm⟩)
      subst this
      simp [jacWorkset, hm, hw]

/-- No initial condition was imposed since the physics set was chosen last. [specification, no code] -/
def Settled : List (Op K) → Prop
  | [] => True
  | .physicsSet _ :: _ => True
  | .finalize _ :: _ => True
  | .initSet _ _ :: _ => False
  | _ :: h => Settled h

theorem hTabOf_filter (s b : Nat) (h : List (Op K)) : hTabOf s b (h.filter reaches) = hTabOf s b h := by
  induction h with
  | nil => rfl
  | cons op h ih => cases op <;> simp [List.filter_cons, reaches, hTabOf, ih]

theorem hBdfOf_filter (s b : Nat) (h : List (Op K)) : hBdfOf s b (h.filter reaches) = hBdfOf s b h := by
  induction h with
  | nil => rfl
  | cons op h ih => cases op <;> simp [List.filter_cons, reaches, hBdfOf, ih]

theorem hStep_filter (h : List (Op K)) : hStep (h.filter reaches) = hStep h := by
  induction h with
  | nil => rfl
  | cons op h ih => cases op <;> simp [List.filter_cons, reaches, hStep, ih]

theorem hOnSide_filter (b : Nat) (h : List (Op K)) : hOnSide b (h.filter reaches) = hOnSide b h := by
  induction h with
  | nil => rfl
  | cons op h ih => cases op <;> simp [List.filter_cons, reaches, hOnSide, ih]

theorem hEid_filter (b : Nat) (h : List (Op K)) : hEid b (h.filter reaches) = hEid b h := by
  induction h with
  | nil => rfl
  | cons op h ih => cases op <;> simp [List.filter_cons, reaches, hEid, ih]

theorem set_filter (n b : Nat) (h : List (Op K)) (hs : n ≤ 1 ∨ Settled h) :
    hTab n b (h.filter reaches) = hTab n b h ∧ hBdf n b (h.filter reaches) = hBdf n b h ∧
      (n ≤ 1 ∨ hCur n b (h.filter reaches) = hCur n b h) ∧ (n ≤ 1 → hCur n b (h.filter reaches) = hCur n b h) := by
  induction h with
  | nil => simp
  | cons op h ih =>
    rcases hs with hs | hs
    · have hn : ¬ 1 < n := by omega
      obtain ⟨i1, i2, i3, i4⟩ := ih (Or.inl hs)
      have i4 := i4 hs
      cases op <;> simp [List.filter_cons, reaches, hTab, hBdf, hCur, hTabOf_filter, hBdfOf_filter, hn, hs, i1, i2, i4]
    · cases op with
      | physicsSet s => 
        by_cases hn : 1 < n
        · simp [List.filter_cons, reaches, hTab, hBdf, hCur, hTabOf_filter, hBdfOf_filter, hn]
        · obtain ⟨i1, i2, i3, i4⟩ := ih (Or.inl (by omega))
          have i4 := i4 (by omega)
          simp [List.filter_cons, reaches, hTab, hBdf, hCur, hTabOf_filter, hBdfOf_filter, hn, i1, i2, i4]
      | finalize t =>
        by_cases hn : 1 < n
        · simp [List.filter_cons, reaches, hTab, hBdf, hCur, hTabOf_filter, hBdfOf_filter, hn]
        · obtain ⟨i1, i2, i3, i4⟩ := ih (Or.inl (by omega))
          have i4 := i4 (by omega)
          simp [List.filter_cons, reaches, hTab, hBdf, hCur, hTabOf_filter, hBdfOf_filter, hn, i4]
      | initSet b' s => exact absurd hs id
      | _ =>
        obtain ⟨i1, i2, i3, i4⟩ := ih (Or.inr hs)
        simp only [List.filter_cons, reaches, hTab, hBdf, hCur, if_true, Bool.false_eq_true, if_false, i1, i2, true_and]
        exact ⟨i3, i4⟩

/-- C165, same conditions: after any admissible history in which no initial condition was imposed since the physics set
was chosen (or with a single physics set), the residual of block `b` for the transient step from `t` of length `dt` and
the Jacobian of it are evaluated at the same time, with the same step, stage, tableau, BDF weights, physics set and step
number, on the same group and side flag, with time derivatives in both. -/
theorem C165_same (c : Cfg) (tr : Bool) (h : List (Op K)) (b : Nat) (t dt : K) (blk : Blk) (k : Ty) (hs : Sound c)
    (hb : c.blocks[b]? = some blk) (he : blk.elems = true) (hk : select (typeAD c) = some k)
    (hset : c.sets ≤ 1 ∨ Settled h)
    (hr : AllAllowed c (.resTime b true t dt :: h)) (hj : AllAllowed c (.time b true t dt :: h)) :
    ∃ (st0 s1 s2 : St K) (w v : Ws K), create c tr = some st0 ∧
      run c.blocks.length st0 (.resTime b true t dt :: h) = some s1 ∧ s1.sc[b]? = some w ∧
      run c.blocks.length st0 (.time b true t dt :: h) = some s2 ∧ (s2.ads k)[b]? = some v ∧
      w.block = b ∧ v.block = b ∧ w.transient = some true ∧ v.transient = some true ∧ w.time = v.time ∧
      w.time.isSome = true ∧ w.dt = some dt ∧ v.dt = some dt ∧ w.alpha = some (1 / dt) ∧ v.alpha = some (1 / dt) ∧
      w.stage = v.stage ∧ w.cur = v.cur ∧ w.tab = v.tab ∧ w.bdf = v.bdf ∧ w.step = v.step ∧ w.eid = v.eid ∧
      w.onSide = v.onSide ∧ w.setTab = v.setTab ∧ w.setBdf = v.setBdf := by
  obtain ⟨st0, s1, e0, e1, h1, -⟩ := C165_partial c tr (.resTime b true t dt :: h) hs hr
  obtain ⟨st0', s2, e0', e2, -, h2, -⟩ := C165_partial c tr (.time b true t dt :: h) hs hj
  rw [e0] at e0'; cases e0'
  have hw := h1 b blk hb he
  have hv := h2 k b blk hk hb he
  obtain ⟨f1, f2, f3, f4⟩ := set_filter c.sets b h hset
  have f5 : hCur c.sets b (h.filter reaches) = hCur c.sets b h := by
    rcases f3 with f3 | f3
    · exact f4 f3
    · exact f3
  have hT : (stageTime (hTab c.sets b h) (hStage h) t dt).isSome = true := by
    obtain ⟨⟨x, -, -, hst⟩, -⟩ := hr
    obtain ⟨T, eT, lT⟩ := hst rfl
    simp [stageTime, eT, List.getElem?_eq_getElem lT]
  refine ⟨st0, s1, s2, _, _, e0, e1, hw, e2, hv, rfl, rfl, ?_⟩
  rw [filter_keep _ rfl]
  simp [spec, hTransient, hAdjoint, hOnSide, hTime, hDt, hStage, hCur, hEid, hStep, hTab, hBdf, hTabOf, hBdfOf,
    f1, f2, f5, hStage_filter, hStep_filter, hEid_filter, hOnSide_filter, hTabOf_filter, hBdfOf_filter, hT]

theorem trySized_mods {req : Bool} {t n : Int} {k : Ty} {b : Nat} {w : Ws K} {p q : St K × Bool}
    (h : trySized req t n k b w p = some q) : q.1.mods = p.1.mods ∧ q.1.type = p.1.type := by
  unfold trySized at h
  split_ifs at h with hc
  · unfold pushAt at h
    simp only [] at h
    split at h
    · simp at h
    · simp at h; subst h; exact ⟨rfl, rfl⟩
  · cases h; exact ⟨rfl, rfl⟩

theorem createOne_mods {c : Cfg} {tr : Bool} {st st' : St K} {b : Nat} {blk : Blk}
    (h : createOne c tr st b blk = some st') : st'.mods = st.mods ∧ st'.type = st.type := by
  unfold createOne at h
  simp only [] at h
  split_ifs at h with he
  · simp only [Option.bind_eq_some_iff] at h
    obtain ⟨p1, q1, p2, q2, p3, q3, p4, q4, p5, q5, p6, q6, p7, q7, h⟩ := h
    have a1 := trySized_mods q1
    have a2 := trySized_mods q2
    have a3 := trySized_mods q3
    have a4 := trySized_mods q4
    have a5 := trySized_mods q5
    have a6 := trySized_mods q6
    have a7 := trySized_mods q7
    have fin : st'.mods = p7.1.mods ∧ st'.type = p7.1.type := by
      split_ifs at h with hc
      · unfold pushAt at h
        simp only [] at h
        split at h
        · simp at h
        · cases h; exact ⟨rfl, rfl⟩
      · cases h; exact ⟨rfl, rfl⟩
    exact ⟨by rw [fin.1, a7.1, a6.1, a5.1, a4.1, a3.1, a2.1, a1.1], by rw [fin.2, a7.2, a6.2, a5.2, a4.2, a3.2, a2.2, a1.2]⟩
  · split at h <;> cases h <;> exact ⟨rfl, rfl⟩

theorem createFrom_mods {c : Cfg} {tr : Bool} : ∀ (bs : List Blk) (b : Nat) (st st' : St K),
    createFrom c tr b bs st = some st' → st'.mods = st.mods ∧ st'.type = st.type := by
  intro bs
  induction bs with
  | nil => intro b st st' h; cases h; exact ⟨rfl, rfl⟩
  | cons blk bs ih =>
    intro b st st' h
    simp only [createFrom, Option.bind_eq_some_iff] at h
    obtain ⟨s1, h1, h2⟩ := h
    have a := createOne_mods h1
    have b' := ih _ _ _ h2
    exact ⟨b'.1.trans a.1, b'.2.trans a.2⟩

/-- C165 is false for "fully explicit" runs: no physics modules are imported for any derivative type, while a call
for the Jacobian evaluates every block with elements with the modules of type `AD` and thus reads outside of an empty
table, whatever the analysis (an optimisation or a sensitivity of a fully explicit problem). -/
theorem C165_violated (c : Cfg) (tr : Bool) (hf : c.fullyExplicit = true) (hm : ∀ blk ∈ c.blocks, blk.multiscale = false)
    (st : St K) (hc : create c tr = some st) :
    (jacTypes st.type 0 c.autotune c.blocks).map Prod.fst = (List.range c.blocks.length).filterMap
        (fun i => match c.blocks[i]? with | some blk => if blk.elems then some (0 + i) else none | none => none) ∧
      ∀ p ∈ jacTypes st.type 0 c.autotune c.blocks, p.2 = .ad ∧
        ∀ blk, c.blocks[p.1]? = some blk → jacWorkset st blk p.1 p.2 = none := by
  obtain ⟨h1, h2⟩ := createFrom_mods _ _ _ _ hc
  simp only [typeAD_explicit hf] at h1 h2
  refine ⟨jacTypes_blocks _ _ _ _, ?_⟩
  intro p hp
  obtain ⟨-, -, hty⟩ := jacTypes_mem _ _ _ _ _ hp
  have e : p.2 = .ad := by
    rcases hty with e | ⟨e, -⟩
    · rw [e, h2]; rfl
    · exact e
  refine ⟨e, ?_⟩
  intro blk hb
  have : st.mods = none := h1
  simp [jacWorkset, hm blk (List.mem_of_getElem? hb), this]

/-- C165 is false for "fully explicit" runs of another analysis than "forward" and "dry-run" on a process that has no
elements of the first block: the workset of the next block is put at the first place of the table and then sought at
the second. -/
theorem C165_create_violated (c : Cfg) (tr : Bool) (e f : Blk) (rest : List Blk) (hb : c.blocks = e :: f :: rest)
    (he : e.elems = false) (hf : f.elems = true) (hx : c.fullyExplicit = true) (hw : c.forward = false) :
    (create c tr : Option (St K)) = none := by
  simp [create, hb, createFrom, createOne, he, hf, typeAD_explicit hx, select, trySized, pushAt, hx, hw]

/-- The sizes of derivative numbers that are compiled. [specification, no code] -/
def sizes : List Nat := [2, 4, 8, 16, 18, 24, 32]

/-- C165, size: with the automatic choice, without subgrid models and "fully explicit", the smallest compiled size that holds
the derivatives of every block is taken, if there is one and some derivatives are needed; otherwise the general type. -/
theorem C165_size (c : Cfg) (ha : c.autotune = true) (hf : c.fullyExplicit = false) (hm : ∀ blk ∈ c.blocks, blk.multiscale = false) :
    (1 ≤ maxNdr c.blocks → maxNdr c.blocks ≤ 32 → ∃ w ∈ sizes, typeAD c = (w : Int) ∧ maxNdr c.blocks ≤ w ∧
      ∀ v ∈ sizes, maxNdr c.blocks ≤ v → w ≤ v) ∧
    (maxNdr c.blocks = 0 ∨ 32 < maxNdr c.blocks → typeAD c = -1) := by
  have hany : c.blocks.any (·.multiscale) = false := by
    rw [List.any_eq_false]
    intro b hb
    simp [hm b hb]
  unfold typeAD
  simp only [ha, hf, hany, Bool.not_true, Bool.false_eq_true, if_false]
  generalize maxNdr c.blocks = m
  constructor
  · intro h1 h2
    have : m ≤ 2 ∨ (2 < m ∧ m ≤ 4) ∨ (4 < m ∧ m ≤ 8) ∨ (8 < m ∧ m ≤ 16) ∨ (16 < m ∧ m ≤ 18) ∨ (18 < m ∧ m ≤ 24) ∨ (24 < m ∧ m ≤ 32) := by
      omega
    rcases this with h | h | h | h | h | h | h
    · exact ⟨2, by decide, by split_ifs <;> first | rfl | omega, h, by simp only [sizes, List.mem_cons, List.not_mem_nil, or_false]; omega⟩
    · exact ⟨4, by decide, by split_ifs <;> first | rfl | omega, h.2, by simp only [sizes, List.mem_cons, List.not_mem_nil, or_false]; omega⟩
    · exact ⟨8, by decide, by split_ifs <;> first | rfl | omega, h.2, by simp only [sizes, List.mem_cons, List.not_mem_nil, or_false]; omega⟩
    · exact ⟨16, by decide, by split_ifs <;> first | rfl | omega, h.2, by simp only [sizes, List.mem_cons, List.not_mem_nil, or_false]; omega⟩
    · exact ⟨18, by decide, by split_ifs <;> first | rfl | omega, h.2, by simp only [sizes, List.mem_cons, List.not_mem_nil, or_false]; omega⟩
    · exact ⟨24, by decide, by split_ifs <;> first | rfl | omega, h.2, by simp only [sizes, List.mem_cons, List.not_mem_nil, or_false]; omega⟩
    · exact ⟨32, by decide, by split_ifs <;> first | rfl | omega, h.2, by simp only [sizes, List.mem_cons, List.not_mem_nil, or_false]; omega⟩
  · intro h
    split_ifs <;> first | rfl | omega

/-! ## Cases -/

/-- Three blocks, the second without elements on this process; two physics sets. [case] -/
def caseCfg : Cfg :=
  { blocks := [⟨true, false, 8⟩, ⟨false, false, 3⟩, ⟨true, false, 12⟩], autotune := true, fullyExplicit := false,
    forward := true, sets := 2 }

/-- Backward Euler. [case] -/
def caseTab : Tab ℚ := { A := [[1]], b := [1], c := [1] }

/-- DIRK with two stages. [case] -/
def caseTab2 : Tab ℚ := { A := [[1/4, 0], [1/2, 1/4]], b := [1/2, 1/2], c := [1/4, 3/4] }

example : caseCfg.autotune = true ∧ caseCfg.fullyExplicit = false ∧ maxNdr caseCfg.blocks = 12 ∧
    ∀ blk ∈ caseCfg.blocks, blk.multiscale = false := by decide

/-- Set-up for both sets and all blocks, one step of the second set, second stage (newest first). [case] -/
def caseHist : List (Op ℚ) :=
  [.stage 1 (3/2) (1/2), .stepNo 3, .physicsSet 1, .finalize 0,
   .bdf 1 2 [1, -1], .butcher 1 2 caseTab2, .bdf 1 1 [1, -1], .butcher 1 1 caseTab2, .bdf 1 0 [1, -1], .butcher 1 0 caseTab2,
   .bdf 0 2 [1, -1], .butcher 0 2 caseTab, .bdf 0 1 [1, -1], .butcher 0 1 caseTab, .bdf 0 0 [1, -1], .butcher 0 0 caseTab]

theorem caseHist_ok : AllAllowed caseCfg caseHist := by
  have e0 : caseCfg.blocks[0]? = some ⟨true, false, 8⟩ := rfl
  refine ⟨?_, trivial, (by decide : 1 < 2), (by decide : 0 < 2), ⟨by decide, by decide⟩, ⟨by decide, by decide⟩, ⟨by decide, by decide⟩,
    ⟨by decide, by decide⟩, ⟨by decide, by decide⟩, ⟨by decide, by decide⟩, ⟨by decide, by decide⟩, ⟨by decide, by decide⟩,
    ⟨by decide, by decide⟩, ⟨by decide, by decide⟩, ⟨by decide, by decide⟩, ⟨by decide, by decide⟩, trivial⟩
  intro b blk hb
  match b with
  | 0 => cases hb; exact ⟨⟨caseTab2, rfl, by decide⟩, ⟨caseTab2, rfl, by decide⟩⟩
  | 1 => cases hb; exact ⟨caseTab2, rfl, by decide⟩
  | 2 => cases hb; exact ⟨⟨caseTab2, rfl, by decide⟩, ⟨caseTab2, rfl, by decide⟩⟩
  | _ + 3 => simp [caseCfg] at hb

/-- `C165_partial` and `C165_jacobian` apply to the case: the type has 16 derivatives, and the third block is at time
`3/2 + 3/4 · 1/2`. -/
example : Sound caseCfg ∧ typeAD caseCfg = 16 ∧ AllAllowed caseCfg caseHist ∧ (∀ blk ∈ caseCfg.blocks, blk.ndr ≤ 64) ∧
    hTime 2 2 caseHist = some (15/8) ∧ hCur 2 2 caseHist = 1 ∧
    jacTypes (typeAD caseCfg) 0 true caseCfg.blocks = [(0, .a16), (2, .a16)] :=
  ⟨Or.inl rfl, rfl, caseHist_ok, by decide, by norm_num [caseHist, hTime, stageTime, hTab, hTabOf, caseTab2], rfl, rfl⟩

/-- `C165_same` applies to the case. -/
example : Settled caseHist ∧ AllAllowed caseCfg (.resTime 2 true (3/2) (1/2) :: caseHist) ∧
    AllAllowed caseCfg (.time 2 true (3/2) (1/2) :: caseHist) :=
  ⟨trivial, ⟨⟨_, rfl, rfl, fun _ => ⟨caseTab2, rfl, by decide⟩⟩, caseHist_ok⟩,
    ⟨⟨_, rfl, rfl, fun _ => ⟨⟨caseTab2, rfl, by decide⟩, ⟨caseTab2, rfl, by decide⟩⟩⟩, caseHist_ok⟩⟩

/-- A fully explicit optimisation: the worksets are created, the Jacobian has no modules. -/
example : ∃ st : St ℚ, create { caseCfg with fullyExplicit := true, forward := false, blocks := [⟨true, false, 8⟩] } true
      = some st ∧ jacTypes st.type 0 true [⟨true, false, 8⟩] = [(0, .ad)] ∧
      jacWorkset st ⟨true, false, 8⟩ 0 .ad = none := ⟨_, rfl, rfl, rfl⟩

/-- Fully explicit, other analysis, no elements of the first block here. -/
example : (create { caseCfg with fullyExplicit := true, forward := false, blocks := [⟨false, false, 8⟩, ⟨true, false, 8⟩] } true
      : Option (St ℚ)) = none := C165_create_violated _ _ _ _ [] rfl rfl rfl rfl rfl

end

end MrHyDE.Assembly.Worksets
