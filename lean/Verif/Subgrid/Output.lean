import Verif.Subgrid.Sides
import Verif.Analysis.Files
import Mathlib.Algebra.Field.Rat

/-!
# Output of the fine solutions (C179)

"write subgrid solution" gives one file for every model and process, with the fine meshes of all coarse groups of the model
side by side: `finalize`, `setupCombinedExodus` and `writeSolution` of the two models (src/subgrid/subgridDtN.cpp:926-957,
1321-1487, 1493-1746 and src/subgrid/subgridDtN2.cpp:107-131, 1074-1232, 1240-1506), and the mesh that is made from nodes and
connectivity (src/subgrid/subgridMeshFactory.cpp:106-147).  `getListOfPhysicalNodes` and `getPhysicalConnectivity` are those of
C116; the versions of the second model, src/subgrid/subgridTools2.cpp:1180-1203 and 1241-1256, are the same.

Not modelled: the text of the file; parameter fields and "mesh_data", "mesh_data_seed".
-/

set_option linter.unusedSectionVars false

namespace MrHyDE.Subgrid.Output

open Sides (listOfNodes physicalConnectivity)

/-! ## Model -/

/-- What the mesh has of a coarse group: the number of its elements, `macronodes.extent(0)`, and the place of node `i` of the
reference mesh in element `k`. [src/subgrid/subgridDtN2.cpp:1110, 1120] -/
structure Macro (α : Type) where
  reps : Nat
  F : Nat → Nat → α

section Mesh
variable {α : Type}

/-- `comb_nodes`, src/subgrid/subgridDtN2.cpp:1106-1118 (subgridDtN.cpp has the same loop). -/
def combineNodes (nn : Nat) : List (Macro α) → List α
  | [] => []
  | m :: ms => listOfNodes m.F m.reps nn ++ combineNodes nn ms

/-- `comb_connectivity`, src/subgrid/subgridDtN2.cpp:1107-1129; `nprog` is the number of nodes of the groups before. -/
def combineConn (conn : List (List Nat)) (nn : Nat) : List (Macro α) → Nat → List (List Nat)
  | [], _ => []
  | m :: ms, nprog =>
    (physicalConnectivity conn nn m.reps 0).map (fun c => c.map (· + nprog)) ++
      combineConn conn nn ms (nprog + (listOfNodes m.F m.reps nn).length)

/-- The elements of `modifyMesh`, by the ids of their nodes; element `e` of the list has id `e + 1`.
[src/subgrid/subgridMeshFactory.cpp:124-143, for one list of elements; no caller of the factory has more] -/
def factoryElems (conn : List (List Nat)) : List (List Nat) := conn.map fun c => c.map (· + 1)

/-- The combined mesh: places of the nodes, of which node `i` of the list has id `i + 1`, and the elements.
[src/subgrid/subgridDtN2.cpp:1134-1135, 1222; subgridMeshFactory.cpp:106-147] -/
structure Mesh (α : Type) where
  nodes : List α
  elems : List (List Nat)

/-- `setupCombinedExodus`, the mesh: src/subgrid/subgridDtN2.cpp:1091-1135, 1221-1223. -/
def combined (conn : List (List Nat)) (nn : Nat) (ms : List (Macro α)) : Mesh α :=
  ⟨combineNodes nn ms, factoryElems (combineConn conn nn ms 0)⟩

/-- The node with an id. [subgridMeshFactory.cpp:113-121] -/
def Mesh.node (m : Mesh α) (id : Nat) : Option α := if id = 0 then none else m.nodes[id - 1]?

/-- The vertices of all elements in the order of their ids. [what a reader of the file sees, specification] -/
def Mesh.vertices (m : Mesh α) : Option (List (List α)) := m.elems.mapM fun c => c.mapM m.node

end Mesh

/-- The name of the file: src/subgrid/subgridDtN2.cpp:117-126 and subgridDtN.cpp:943-952. -/
def fileName (name : String) (size rank : Nat) : String :=
  if size > 1 then "subgrid_output_" ++ name ++ ".exo." ++ toString size ++ "." ++ toString rank
  else "subgrid_output_" ++ name ++ ".exo"

/-- A file: the values of every step written, `none` for no file.  Transient: `setupExodusFile` makes a file
(src/subgrid/subgridDtN2.cpp:1229-1231), `writeToExodus(time)` adds a step (1497-1499); steady: `writeToExodus(filename)`
writes a new file (1500-1502). -/
def writeAll {D : Type} (td : Bool) (ds : List D) : Option (List D) :=
  ds.foldl (fun f d => if td then f.map (· ++ [d]) else some [d]) (if td then some [] else none)

/-- The two models: the body of `writeSolution` of the first is a comment, src/subgrid/subgridDtN.cpp:1493-1746; its file is
set up in the same way, 1482-1484. -/
def modelFile {D : Type} (second td : Bool) (ds : List D) : Option (List D) :=
  if second then writeAll td ds else writeAll td ([] : List D)

/-- Types of variables; another one is not written. [src/subgrid/subgridDtN2.cpp:1275, 1296, 1317] -/
inductive Kind where
  | hgrad | hvol | hdiv | hcurl | other
deriving DecidableEq

/-- A fine group.  `sol e n i` is its own table of the solution; basis and weights for averages.
[src/subgrid/subgridDtN2.cpp:1281-1288; src/managers/assembly/assemblyManager_util.hpp:155-197] -/
structure Grp (K : Type) where
  numElem : Nat
  active : Bool
  sol : Nat → Nat → Nat → K
  ndof : Nat
  npt : Nat
  basis : Nat → Nat → Nat → Nat → K
  wts : Nat → Nat → K

section Fill
variable {K R : Type}

/-- Entry `i` of a view of the number of elements; `none` outside. [src/subgrid/subgridDtN2.cpp:1287, 1307, 1335] -/
def put (buf : List R) (i : Nat) (r : R) : Option (List R) := if i < buf.length then some (buf.set i r) else none

/-- The rows of one group at `p`, src/subgrid/subgridDtN2.cpp:1285-1289, 1306-1308, 1334-1342. -/
def putRows (buf : List R) (p : Nat) (f : Nat → R) (n : Nat) : Option (List R) :=
  (List.range n).foldlM (fun b e => put b (p + e) (f e)) buf

/-- The loop over the groups with `pprog`, which is increased for inactive groups too: src/subgrid/subgridDtN2.cpp:1278-1293,
1299-1313, 1322-1346. -/
def fill (f : Grp K → Nat → R) : List (Grp K) → Nat → List R → Option (List R)
  | [], _, buf => some buf
  | g :: gs, p, buf => do
    let buf ← if g.active then putRows buf p (f g) g.numElem else some buf
    fill f gs (p + g.numElem) buf

/-- The loop of the extra cell fields: `eprog` is increased for active groups only.  src/subgrid/subgridDtN2.cpp:1435-1455. -/
def fillActive (f : Grp K → Nat → R) : List (Grp K) → Nat → List R → Option (List R)
  | [], _, buf => some buf
  | g :: gs, p, buf =>
    if g.active then do
      let buf ← putRows buf p (f g) g.numElem
      fillActive f gs (p + g.numElem) buf
    else fillActive f gs p buf

/-- The loop of the derived quantities: all groups.  src/subgrid/subgridDtN2.cpp:1472-1490. -/
def fillAll (f : Grp K → Nat → R) : List (Grp K) → Nat → List R → Option (List R)
  | [], _, buf => some buf
  | g :: gs, p, buf => do
    let buf ← putRows buf p (f g) g.numElem
    fillAll f gs (p + g.numElem) buf

/-- `myElements.size()`, src/subgrid/subgridDtN2.cpp:1252-1261. -/
def total (gs : List (Grp K)) : Nat := (gs.map (·.numElem)).sum

end Fill

section Write
variable {K : Type}

/-- `setSolutionFieldData` of the library: the values of every element are written to its nodes, one element after the other.
[called at src/subgrid/subgridDtN2.cpp:1294, 1378-1380, 1423] -/
def setNodal (elems : List (List Nat)) (rows : List (List K)) (fld : Nat → K) : Nat → K :=
  (elems.zip rows).foldl
    (fun f er => (er.1.zip er.2).foldl (fun f w => fun id => if id = w.1 then w.2 else f id) f) fld

/-- `computeSolutionAverage`, component `d` in element `e`, from the table `u`; src/managers/assembly/assemblyManager_util.hpp:171-197. -/
def average [DivisionRing K] (g : Grp K) (u : Nat → Nat → K) (e d : Nat) : K :=
  ((List.range g.ndof).map fun i => ((List.range g.npt).map fun q => u e i * g.basis e i q d * g.wts e q).sum).sum /
    ((List.range g.npt).map (g.wts e)).sum

/-- What the second model has when it writes: types and names of the variables; dimension; number of worksets of plain numbers,
which stays at one (src/subgrid/subgridDtN2.cpp:359-365 extends those with derivatives only); the table of the solution in
the data that all groups share; number of vertices of a fine element. [src/subgrid/subgridDtN2.cpp:1263-1270] -/
structure Env (K : Type) where
  vars : List (Kind × String)
  dim : Nat
  worksets : Nat
  shared : Nat → Nat → Nat → K
  npe : Nat

/-- A field of the file. [src/subgrid/subgridDtN2.cpp:1145-1200] -/
inductive Field (K : Type) where
  | nodal (f : Nat → K)
  | cell (c : List K)

variable [DivisionRing K]

/-- Component `d` of the averages: group `m` of the list needs workset `m` of plain numbers, `wkset[block]`.
[src/subgrid/subgridDtN2.cpp:1322-1346; assemblyManager_util.hpp:152, 183] -/
def vectorCol (env : Env K) (n d : Nat) (gs : List (Grp K)) : Option (List K) :=
  if ∀ mg ∈ gs.zipIdx, mg.1.active = true → mg.2 < env.worksets then
    fill (fun g e => if d < env.dim then average g (fun e i => env.shared e n i) e d else 0) gs 0
      (List.replicate (total gs) 0)
  else none

/-- Variable `n`: src/subgrid/subgridDtN2.cpp:1273-1383.  Values of vectors at the nodes (1351-1381) are not included. -/
def writeVar (env : Env K) (elems : List (List Nat)) (gs : List (Grp K)) (append : String) (v : (Kind × String) × Nat) :
    Option (List (String × Field K)) :=
  match v.1.1 with
  | .hgrad => do
    let rows ← fill (fun g e => (List.range env.npe).map (g.sol e v.2)) gs 0
      (List.replicate (total gs) (List.replicate env.npe 0))
    some [(v.1.2 ++ append, .nodal (setNodal elems rows fun _ => 0))]
  | .hvol => do
    let col ← fill (fun g e => g.sol e v.2 0) gs 0 (List.replicate (total gs) 0)
    some [(v.1.2 ++ append, .cell col)]
  | .other => some []
  | _ => do
    let x ← vectorCol env v.2 0 gs
    let y ← vectorCol env v.2 1 gs
    let z ← vectorCol env v.2 2 gs
    some [(v.1.2 ++ append ++ "x", .cell x), (v.1.2 ++ append ++ "y", .cell y), (v.1.2 ++ append ++ "z", .cell z)]

/-- The state of the worksets: with derivatives and of plain numbers. [src/managers/assembly/assemblyManager_workset.hpp:888-;
the two are separate members] -/
structure Works (A S : Type) where
  ad : A
  plain : S

/-- Extra nodal fields (zeros, src/subgrid/subgridDtN2.cpp:1420-1424), extra cell fields (1430-1461) and derived quantities
(1467-1495).  Before every group the workset with derivatives and its time are set, `load` (1440-1441, 1476-1477); functions
and modules are evaluated for the one of plain numbers, `cell` and `derived`
(src/managers/assembly/assemblyManager_functions.hpp:87-89, 138-152). -/
structure Extras (K A S : Type) where
  nodal : List String
  cell : List (String × (S → Grp K → Nat → K))
  derived : List (String × (S → Grp K → Nat → K))
  load : A → Grp K → A

/-- The values of one extra field with the state at the time its group is evaluated.
[src/subgrid/subgridDtN2.cpp:1439-1452, 1476-1488] -/
def loaded {A S : Type} (x : Extras K A S) (w : Works A S) (g : Grp K) : Works A S := { w with ad := x.load w.ad g }

/-- src/subgrid/subgridDtN2.cpp:1420-1495: the extra fields. -/
def writeExtras {A S : Type} (x : Extras K A S) (w : Works A S) (env : Env K) (elems : List (List Nat)) (gs : List (Grp K))
    (append : String) : Option (List (String × Field K)) := do
  let ns := x.nodal.map fun f => (f ++ append,
    Field.nodal (setNodal elems (List.replicate (total gs) (List.replicate env.npe 0)) fun _ => 0))
  let cs ← x.cell.mapM fun f => do
    let c ← fillActive (fun g e => f.2 (loaded x w g).plain g e) gs 0 (List.replicate (total gs) 0)
    some (f.1 ++ append, Field.cell c)
  let ds ← x.derived.mapM fun f => do
    let c ← fillAll (fun g e => f.2 (loaded x w g).plain g e) gs 0 (List.replicate (total gs) 0)
    some (f.1 ++ append, Field.cell c)
  some (ns ++ cs ++ ds)

/-- `SubGridDtN2::writeSolution`: the fields in the order in which they are set, src/subgrid/subgridDtN2.cpp:1240-1495. -/
def writeSolution {A S : Type} (env : Env K) (x : Extras K A S) (w : Works A S) (elems : List (List Nat)) (gs : List (Grp K))
    (append : String) : Option (List (String × Field K)) := do
  let vs ← env.vars.zipIdx.mapM (writeVar env elems gs append)
  let es ← writeExtras x w env elems gs append
  some (vs.flatten ++ es)

/-- The names `setupCombinedExodus` registers for one suffix; src/subgrid/subgridDtN2.cpp:1145-1200.  The names for vectors at
the nodes are the same as those for cells. -/
def registered {A S : Type} (env : Env K) (x : Extras K A S) (append : String) : List String :=
  (env.vars.map fun v => match v.1 with
    | .hgrad => [v.2 ++ append]
    | .hvol => [v.2 ++ append]
    | .other => []
    | _ => [v.2 ++ append ++ "x", v.2 ++ append ++ "y", v.2 ++ append ++ "z"]).flatten ++
  x.nodal.map (· ++ append) ++ x.cell.map (·.1 ++ append) ++ x.derived.map (·.1 ++ append)

/-- The content of a field in the file: the last one set under the name. [specification, no code] -/
def content (fs : List (String × Field K)) (name : String) : Option (Field K) := (fs.reverse.find? (·.1 = name)).map (·.2)

end Write

/-! ## The mesh -/

section MeshProps
variable {α β : Type}

/-- The fine elements in their order: coarse group, coarse element, element of the reference mesh. [specification, no code] -/
def fineElems (conn : List (List Nat)) (ms : List (Macro α)) : List (List α) :=
  ms.flatMap fun m => (List.range m.reps).flatMap fun k => conn.map fun cc => cc.map (m.F k)

/-- The connectivity refers to nodes of the reference mesh. [specification, no code] -/
def Fits (conn : List (List Nat)) (nn : Nat) : Prop := ∀ cc ∈ conn, ∀ i ∈ cc, i < nn

theorem mapM_append_some {A B : Type} (f : A → Option B) (l l' : List A) (r r' : List B) (h : l.mapM f = some r)
    (h' : l'.mapM f = some r') : (l ++ l').mapM f = some (r ++ r') := by
  rw [List.mapM_append, h, h']
  rfl

theorem combine_vertices (conn : List (List Nat)) (nn : Nat) (hc : Fits conn nn) : ∀ (ms : List (Macro α)) (pre : List α),
    (combineConn conn nn ms pre.length).mapM (fun c => c.mapM fun i => (pre ++ combineNodes nn ms)[i]?) =
      some (fineElems conn ms)
  | [], _ => rfl
  | m :: ms, pre => by
    have ih := combine_vertices conn nn hc ms (pre ++ listOfNodes m.F m.reps nn)
    have h0 := (Sides.C116_nodes m.F m.reps nn conn hc)
    rw [h0.2] at h0
    have h1 := h0.1
    rw [combineConn, combineNodes]
    have e2 : fineElems conn (m :: ms) =
        ((List.range m.reps).flatMap fun k => conn.map fun cc => cc.map (m.F k)) ++ fineElems conn ms := by
      simp [fineElems]
    rw [e2]
    apply mapM_append_some
    · rw [List.mapM_map]
      rw [← h1]
      have hlt : ∀ c ∈ physicalConnectivity conn nn m.reps 0, ∀ i ∈ c, i < (listOfNodes m.F m.reps nn).length := by
        rw [Sides.connectivity_eq]
        intro c hcm i hi
        simp only [List.mem_flatMap, List.mem_range, List.mem_map] at hcm
        obtain ⟨k, hk, cc, hcc, rfl⟩ := hcm
        simp only [List.mem_map] at hi
        obtain ⟨j, hj, rfl⟩ := hi
        have := hc cc hcc j hj
        have hl := Sides.listOfNodes_get m.F m.reps nn k j hk this
        have := (List.getElem?_eq_some_iff.mp hl).1
        omega
      generalize physicalConnectivity conn nn m.reps 0 = pc at hlt ⊢
      have inner : ∀ c : List Nat, (∀ i ∈ c, i < (listOfNodes m.F m.reps nn).length) →
          (c.map (· + pre.length)).mapM (fun i => (pre ++ (listOfNodes m.F m.reps nn ++ combineNodes nn ms))[i]?) =
            c.mapM (fun i => (listOfNodes m.F m.reps nn)[i]?) := by
        intro c
        induction c with
        | nil => intro _; rfl
        | cons a c ih =>
          intro h
          have ha := h a (by simp)
          rw [List.map_cons, List.mapM_cons, List.mapM_cons, ih (fun i hi => h i (by simp [hi]))]
          rw [List.getElem?_append_right (by omega), Nat.add_sub_cancel, List.getElem?_append_left ha]
      clear ih
      induction pc with
      | nil => rfl
      | cons c pc ihc =>
        rw [List.mapM_cons, List.mapM_cons, ihc (fun c' h' => hlt c' (by simp [h']))]
        simp only [Function.comp_apply]
        rw [inner c (hlt c (by simp))]
    · rw [List.length_append, List.append_assoc] at ih
      exact ih

/-- C179 (mesh): the elements of the combined mesh, in the order of their ids, are the fine elements of the coarse elements of
all groups, each with its own vertices. -/
theorem C179_mesh (conn : List (List Nat)) (nn : Nat) (ms : List (Macro α)) (hc : Fits conn nn) :
    (combined conn nn ms).vertices = some (fineElems conn ms) := by
  have h := combine_vertices conn nn hc ms []
  simp only [List.length_nil, List.nil_append] at h
  rw [← h]
  simp only [Mesh.vertices, combined, factoryElems]
  rw [List.mapM_map]
  congr 1
  funext c
  simp only [Function.comp_apply]
  rw [List.mapM_map]
  congr 1

end MeshProps

/-! ## The fields -/

section FieldProps
variable {K R : Type}

theorem foldlM_put (f : Nat → R) : ∀ (n : Nat) (pre old post : List R), old.length = n →
    (List.range n).foldlM (fun b e => put b (pre.length + e) (f e)) (pre ++ old ++ post) =
      some (pre ++ (List.range n).map f ++ post)
  | 0, pre, old, post, h => by
    have : old = [] := List.length_eq_zero_iff.mp h
    subst this
    rfl
  | n + 1, pre, old, post, h => by
    obtain ⟨old', z, rfl⟩ : ∃ o z, old = o ++ [z] := by
      rcases List.eq_nil_or_concat old with h0 | ⟨o, z, h0⟩
      · subst h0; simp at h
      · exact ⟨o, z, by simpa using h0⟩
    have h' : old'.length = n := by simpa using h
    rw [List.range_succ, List.foldlM_append]
    have ih := foldlM_put f n pre old' ([z] ++ post) h'
    rw [show pre ++ (old' ++ [z]) ++ post = pre ++ old' ++ ([z] ++ post) by simp, ih]
    simp only [Option.bind_eq_bind, Option.bind_some, List.foldlM_cons, List.foldlM_nil, put]
    rw [if_pos (by simp)]
    simp

theorem putRows_spec (f : Nat → R) (n : Nat) (pre old post : List R) (h : old.length = n) :
    putRows (pre ++ old ++ post) pre.length f n = some (pre ++ (List.range n).map f ++ post) :=
  foldlM_put f n pre old post h

/-- The values of the groups one after the other; `z` for the elements of inactive ones. [specification, no code] -/
def rowsOf (z : R) (f : Grp K → Nat → R) (gs : List (Grp K)) : List R :=
  gs.flatMap fun g => (List.range g.numElem).map fun e => if g.active then f g e else z

theorem fill_spec (z : R) (f : Grp K → Nat → R) : ∀ (gs : List (Grp K)) (pre : List R),
    fill f gs pre.length (pre ++ List.replicate (total gs) z) = some (pre ++ rowsOf z f gs)
  | [], pre => by simp [fill, total, rowsOf]
  | g :: gs, pre => by
    have ht : total (g :: gs) = g.numElem + total gs := by simp [total]
    rw [fill, ht, List.replicate_add, ← List.append_assoc]
    cases ha : g.active with
    | true =>
      simp only [if_true]
      rw [putRows_spec _ _ _ _ _ (by simp)]
      have ih := fill_spec z f gs (pre ++ (List.range g.numElem).map (f g))
      simp only [List.length_append, List.length_map, List.length_range] at ih
      simp only [Option.bind_eq_bind, Option.bind_some]
      rw [ih]
      simp [rowsOf, ha]
    | false =>
      have ih := fill_spec z f gs (pre ++ List.replicate g.numElem z)
      simp only [List.length_append, List.length_replicate] at ih
      simp only [Bool.false_eq_true, if_false, Option.bind_eq_bind, Option.bind_some]
      rw [ih]
      simp [rowsOf, ha, List.map_const']

theorem fillAll_spec (z : R) (f : Grp K → Nat → R) : ∀ (gs : List (Grp K)) (pre : List R),
    fillAll f gs pre.length (pre ++ List.replicate (total gs) z) =
      some (pre ++ gs.flatMap fun g => (List.range g.numElem).map (f g))
  | [], pre => by simp [fillAll, total]
  | g :: gs, pre => by
    have ht : total (g :: gs) = g.numElem + total gs := by simp [total]
    rw [fillAll, ht, List.replicate_add, ← List.append_assoc, putRows_spec _ _ _ _ _ (by simp)]
    have ih := fillAll_spec z f gs (pre ++ (List.range g.numElem).map (f g))
    simp only [List.length_append, List.length_map, List.length_range] at ih
    simp only [Option.bind_eq_bind, Option.bind_some]
    rw [ih]
    simp

theorem fillActive_spec (z : R) (f : Grp K → Nat → R) : ∀ (gs : List (Grp K)) (pre : List R) (n : Nat),
    total (gs.filter (·.active)) ≤ n →
    fillActive f gs pre.length (pre ++ List.replicate n z) =
      some (pre ++ ((gs.filter (·.active)).flatMap fun g => (List.range g.numElem).map (f g)) ++
        List.replicate (n - total (gs.filter (·.active))) z)
  | [], pre, n, _ => by simp [fillActive, total]
  | g :: gs, pre, n, hn => by
    cases ha : g.active with
    | true =>
      rw [List.filter_cons_of_pos ha] at hn ⊢
      have ht : total (g :: gs.filter (·.active)) = g.numElem + total (gs.filter (·.active)) := by simp [total]
      rw [ht] at hn ⊢
      obtain ⟨m, rfl⟩ : ∃ m, n = g.numElem + m := ⟨n - g.numElem, by omega⟩
      rw [fillActive, if_pos ha, List.replicate_add, ← List.append_assoc, putRows_spec _ _ _ _ _ (by simp)]
      have ih := fillActive_spec z f gs (pre ++ (List.range g.numElem).map (f g)) m (by omega)
      simp only [List.length_append, List.length_map, List.length_range] at ih
      simp only [Option.bind_eq_bind, Option.bind_some]
      rw [ih]
      simp [Nat.add_sub_add_left]
    | false =>
      have hf : ¬ (g.active = true) := by simp [ha]
      rw [List.filter_cons_of_neg hf] at hn ⊢
      rw [fillActive, if_neg hf]
      exact fillActive_spec z f gs pre n hn

theorem total_filter (gs : List (Grp K)) : total (gs.filter (·.active)) ≤ total gs := by
  induction gs with
  | nil => simp [total]
  | cons g gs ih =>
    cases ha : g.active with
    | true =>
      rw [List.filter_cons_of_pos (by simpa using ha)]
      simp only [total, List.map_cons, List.sum_cons] at ih ⊢
      omega
    | false =>
      rw [List.filter_cons_of_neg (by simp [ha])]
      simp only [total, List.map_cons, List.sum_cons] at ih ⊢
      exact le_trans ih (by omega)

theorem setNodal_spec (h : Nat → K) : ∀ (elems : List (List Nat)) (fld : Nat → K) (id : Nat),
    setNodal elems (elems.map (·.map h)) fld id = if id ∈ elems.flatten then h id else fld id := by
  have inner : ∀ (c : List Nat) (fld : Nat → K) (id : Nat),
      ((c.zip (c.map h)).foldl (fun f w => fun id => if id = w.1 then w.2 else f id) fld) id =
        if id ∈ c then h id else fld id := by
    intro c
    induction c with
    | nil => intro fld id; simp
    | cons a c ih =>
      intro fld id
      rw [List.map_cons, List.zip_cons_cons, List.foldl_cons, ih]
      by_cases h1 : id ∈ c
      · simp [h1]
      · by_cases h2 : id = a
        · subst h2; simp [h1]
        · simp [h1, h2]
  intro elems
  induction elems with
  | nil => intro fld id; simp [setNodal]
  | cons c elems ih =>
    intro fld id
    have : setNodal (c :: elems) ((c :: elems).map (·.map h)) fld = setNodal elems (elems.map (·.map h))
        ((c.zip (c.map h)).foldl (fun f w => fun id => if id = w.1 then w.2 else f id) fld) := rfl
    rw [this, ih, inner]
    by_cases h1 : id ∈ elems.flatten
    · simp [h1]
    · simp [h1]

theorem range_mul (h : Nat → R) (b : Nat) : ∀ a : Nat, (List.range (a * b)).map h =
    (List.range a).flatMap fun k => (List.range b).map fun e => h (k * b + e)
  | 0 => by simp
  | a + 1 => by
    rw [Nat.succ_mul, List.range_add, List.map_append, range_mul h b a, List.range_succ, List.flatMap_append,
      List.flatMap_singleton, List.map_map]
    rfl

/-- The fine group of a coarse group: the elements are those of the copies in order, and variable `n` of its table has the value
`u k i` at node `i` of the reference mesh in coarse element `k`, for all elements at the node. [specification, no code] -/
def Agrees (conn : List (List Nat)) (n : Nat) (m : Macro K) (g : Grp K) : Prop :=
  g.numElem = m.reps * conn.length ∧
  ∀ k < m.reps, ∀ e cc, conn[e]? = some cc → ∀ j i, cc[j]? = some i → g.sol (k * conn.length + e) n j = m.F k i

theorem map_range_getElem (l : List Nat) (f g : Nat → R) (h : ∀ j i, l[j]? = some i → f j = g i) :
    (List.range l.length).map f = l.map g := by
  apply List.ext_getElem (by simp)
  intro j h1 h2
  simp only [List.getElem_map, List.getElem_range]
  exact h j _ (List.getElem?_eq_getElem _)

theorem rows_fine (conn : List (List Nat)) (npe n : Nat) (z : K) (hp : ∀ cc ∈ conn, cc.length = npe) :
    ∀ ps : List (Macro K × Grp K), (∀ p ∈ ps, Agrees conn n p.1 p.2) →
    rowsOf (List.replicate npe z) (fun g e => (List.range npe).map (g.sol e n)) (ps.map (·.2)) =
      fineElems conn (ps.map fun p => ⟨p.1.reps, fun k i => if p.2.active then p.1.F k i else z⟩)
  | [], _ => rfl
  | p :: ps, h => by
    have ih := rows_fine conn npe n z hp ps (fun q hq => h q (by simp [hq]))
    obtain ⟨h1, h2⟩ := h p (by simp)
    simp only [List.map_cons, rowsOf, fineElems, List.flatMap_cons] at ih ⊢
    congr 1
    rw [h1, range_mul]
    refine List.flatMap_congr fun k hk => ?_
    apply List.ext_getElem (by simp)
    intro e he1 he2
    have hcc : conn[e]'(by simpa using he2) ∈ conn := List.getElem_mem _
    simp only [List.getElem_map, List.getElem_range]
    rw [← hp _ hcc]
    by_cases ha : p.2.active = true
    · simp only [if_pos ha]
      apply map_range_getElem
      intro j i hj
      exact h2 k (List.mem_range.mp hk) e _ (List.getElem?_eq_getElem _) j i hj
    · simp [if_neg ha, List.map_const']

theorem mapM_getD {A B : Type} (f : A → Option B) (d : B) : ∀ (l : List A) (r : List B), l.mapM f = some r →
    r = l.map (fun a => (f a).getD d) ∧ ∀ a ∈ l, ∃ b, f a = some b
  | [], r, h => by simpa using h.symm
  | a :: l, r, h => by
    rw [List.mapM_cons] at h
    cases h1 : f a with
    | none => simp [h1] at h
    | some v =>
      cases h2 : l.mapM f with
      | none => simp [h1, h2] at h
      | some r' =>
        simp [h1, h2] at h
        obtain ⟨h3, h4⟩ := mapM_getD f d l r' h2
        rw [← h]
        refine ⟨by simp [h1, ← h3], ?_⟩
        intro b hb
        rcases List.mem_cons.mp hb with rfl | hb
        · exact ⟨v, h1⟩
        · exact h4 b hb

variable [Zero K]

theorem vertices_getD (m : Mesh K) (r : List (List K)) (h : m.vertices = some r) :
    r = m.elems.map (·.map fun id => (m.node id).getD 0) := by
  obtain ⟨h1, h2⟩ := mapM_getD _ [] _ _ h
  rw [h1]
  apply List.map_congr_left
  intro c hc
  obtain ⟨b, hb⟩ := h2 c hc
  rw [hb]
  exact (mapM_getD _ 0 _ _ hb).1

/-- The values of the nodes of the mesh, given for every coarse group, coarse element and node of the reference mesh.
[specification, no code] -/
def valuesAt (u : List (Macro K × Grp K)) : List (Macro K) :=
  u.map fun p => ⟨p.1.reps, fun k i => if p.2.active then p.1.F k i else 0⟩

theorem elems_reps {α β : Type} (conn : List (List Nat)) (nn : Nat) : ∀ (ms : List (Macro α)) (ms' : List (Macro β)),
    ms.map (·.reps) = ms'.map (·.reps) → (combined conn nn ms).elems = (combined conn nn ms').elems := by
  have key : ∀ (ms : List (Macro α)) (ms' : List (Macro β)) (p : Nat), ms.map (·.reps) = ms'.map (·.reps) →
      combineConn conn nn ms p = combineConn conn nn ms' p := by
    intro ms
    induction ms with
    | nil =>
      intro ms' p h
      cases ms' with
      | nil => rfl
      | cons a l => simp at h
    | cons m ms ih =>
      intro ms' p h
      cases ms' with
      | nil => simp at h
      | cons m' ms' =>
        simp only [List.map_cons, List.cons.injEq] at h
        simp only [combineConn, h.1]
        rw [ih ms' _ h.2]
        simp [listOfNodes, List.length_flatMap]
  intro ms ms' h
  simp only [combined, key ms ms' 0 h]

theorem nodal_field (conn : List (List Nat)) (nn npe n : Nat) (ps : List (Macro K × Grp K)) (hc : Fits conn nn)
    (hp : ∀ cc ∈ conn, cc.length = npe) (h : ∀ p ∈ ps, Agrees conn n p.1 p.2) (elems : List (List Nat))
    (he : elems = (combined conn nn (valuesAt ps)).elems) :
    ∃ rows, fill (fun g e => (List.range npe).map (g.sol e n)) (ps.map (·.2)) 0
        (List.replicate (total (ps.map (·.2))) (List.replicate npe 0)) = some rows ∧
      elems.map (·.map (setNodal elems rows fun _ => 0)) = fineElems conn (valuesAt ps) := by
  refine ⟨_, fill_spec (List.replicate npe (0 : K)) _ (ps.map (·.2)) [], ?_⟩
  rw [List.nil_append, rows_fine conn npe n 0 hp ps h]
  have h1 := vertices_getD _ _ (C179_mesh conn nn (valuesAt ps) hc)
  rw [← he] at h1
  have h2 : fineElems conn (ps.map fun p => (⟨p.1.reps, fun k i => if p.2.active then p.1.F k i else 0⟩ : Macro K)) =
      fineElems conn (valuesAt ps) := rfl
  rw [h2, h1]
  apply List.map_congr_left
  intro c hcm
  apply List.map_congr_left
  intro id hid
  rw [setNodal_spec, if_pos (List.mem_flatten.mpr ⟨c, hcm, hid⟩)]

end FieldProps

/-! ## The file of the second model -/

section File
variable {K A S : Type} [DivisionRing K]

theorem mapM_mem {X Y : Type} (f : X → Option Y) : ∀ (l : List X) (r : List Y), l.mapM f = some r →
    ∀ a ∈ l, ∃ b ∈ r, f a = some b := by
  intro l
  induction l with
  | nil => intro r _ a ha; simp at ha
  | cons x l ih =>
    intro r h a ha
    rw [List.mapM_cons] at h
    cases h1 : f x with
    | none => simp [h1] at h
    | some v =>
      cases h2 : l.mapM f with
      | none => simp [h1, h2] at h
      | some r' =>
        simp [h1, h2] at h
        subst h
        rcases List.mem_cons.mp ha with rfl | ha
        · exact ⟨v, by simp, h1⟩
        · obtain ⟨b, hb, e⟩ := ih r' h2 a ha
          exact ⟨b, by simp [hb], e⟩

theorem content_of_mem (fs : List (String × Field K)) (hn : (fs.map (·.1)).Nodup) (x : String × Field K) (hx : x ∈ fs) :
    content fs x.1 = some x.2 := by
  unfold content
  have hex : ∃ y, fs.reverse.find? (·.1 = x.1) = some y := by
    cases h : fs.reverse.find? (·.1 = x.1) with
    | some y => exact ⟨y, rfl⟩
    | none =>
      rw [List.find?_eq_none] at h
      exact absurd (decide_eq_true rfl) (h x (by simpa using hx))
  obtain ⟨y, hy⟩ := hex
  have h1 := List.find?_some hy
  have h2 := List.mem_of_find?_eq_some hy
  have : y = x := List.inj_on_of_nodup_map hn (by simpa using h2) hx (by simpa using h1)
  rw [hy, this]
  rfl

theorem var_content (env : Env K) (x : Extras K A S) (w : Works A S) (elems : List (List Nat)) (gs : List (Grp K))
    (append : String) (fs : List (String × Field K)) (hw : writeSolution env x w elems gs append = some fs)
    (hn : (fs.map (·.1)).Nodup) (kind : Kind) (v : String) (n : Nat) (hv : env.vars[n]? = some (kind, v)) :
    ∃ part, writeVar env elems gs append ((kind, v), n) = some part ∧ ∀ y ∈ part, content fs y.1 = some y.2 := by
  unfold writeSolution at hw
  cases h1 : env.vars.zipIdx.mapM (writeVar env elems gs append) with
  | none => simp [h1] at hw
  | some vs =>
    cases h2 : writeExtras x w env elems gs append with
    | none => simp [h1, h2] at hw
    | some es =>
      simp [h1, h2] at hw
      have hm : ((kind, v), n) ∈ env.vars.zipIdx := by
        rw [List.mem_zipIdx_iff_getElem?]
        exact hv
      obtain ⟨part, hp, e⟩ := mapM_mem _ _ _ h1 _ hm
      refine ⟨part, e, fun y hy => ?_⟩
      apply content_of_mem fs hn
      rw [← hw]
      exact List.mem_append_left _ (List.mem_flatten.mpr ⟨part, hp, hy⟩)

/-- C179 (values at nodes): a variable at the nodes has in the file, at every vertex of every fine element, its value there; zero in
coarse groups that use another model.  Required is that the elements at a node agree about it, and that no other field has
the name. -/
theorem C179_nodal_partial (conn : List (List Nat)) (nn n : Nat) (ps : List (Macro K × Grp K)) (hc : Fits conn nn)
    (env : Env K) (hp : ∀ cc ∈ conn, cc.length = env.npe) (h : ∀ p ∈ ps, Agrees conn n p.1 p.2)
    {α : Type} (ms : List (Macro α)) (hms : ms.map (·.reps) = ps.map (·.1.reps))
    (x : Extras K A S) (w : Works A S) (append : String) (fs : List (String × Field K))
    (hw : writeSolution env x w (combined conn nn ms).elems (ps.map (·.2)) append = some fs)
    (hn : (fs.map (·.1)).Nodup) (v : String) (hv : env.vars[n]? = some (.hgrad, v)) :
    ∃ f, content fs (v ++ append) = some (.nodal f) ∧
      (combined conn nn ms).elems.map (·.map f) =
        fineElems conn (ps.map fun p => ⟨p.1.reps, fun k i => if p.2.active then p.1.F k i else 0⟩) := by
  obtain ⟨part, e, hy⟩ := var_content env x w _ _ append fs hw hn _ v n hv
  have he : (combined conn nn ms).elems = (combined conn nn (valuesAt ps)).elems := by
    apply elems_reps
    rw [hms]
    simp [valuesAt]
  obtain ⟨rows, hr, hval⟩ := nodal_field conn nn env.npe n ps hc hp h _ he
  simp only [writeVar, hr, Option.bind_eq_bind, Option.bind_some, Option.some.injEq] at e
  subst e
  exact ⟨_, hy _ List.mem_cons_self, hval⟩

/-- C179 (values of elements): a variable with one value in an element has it in the file, at the fine element with the
vertices; zero in coarse groups that use another model. -/
theorem C179_cell_partial (conn : List (List Nat)) (nn n : Nat) (hc : Fits conn nn) (env : Env K)
    {α : Type} (ps : List (Macro α × Grp K)) (h : ∀ p ∈ ps, p.2.numElem = p.1.reps * conn.length)
    (x : Extras K A S) (w : Works A S) (append : String) (fs : List (String × Field K))
    (hw : writeSolution env x w (combined conn nn (ps.map (·.1))).elems (ps.map (·.2)) append = some fs)
    (hn : (fs.map (·.1)).Nodup) (v : String) (hv : env.vars[n]? = some (.hvol, v)) :
    ∃ c, content fs (v ++ append) = some (.cell c) ∧
      (combined conn nn (ps.map (·.1))).vertices.map (·.zip c) =
        some (ps.flatMap fun p => (List.range p.1.reps).flatMap fun k => conn.zipIdx.map fun cc =>
          (cc.1.map (p.1.F k), if p.2.active then p.2.sol (k * conn.length + cc.2) n 0 else 0)) := by
  obtain ⟨part, e, hy⟩ := var_content env x w _ _ append fs hw hn _ v n hv
  have hr := fill_spec (0 : K) (fun (g : Grp K) e => g.sol e n 0) (ps.map (·.2)) []
  simp only [List.nil_append, List.length_nil] at hr
  simp only [writeVar, hr, Option.bind_eq_bind, Option.bind_some, Option.some.injEq] at e
  subst e
  refine ⟨_, hy _ List.mem_cons_self, ?_⟩
  rw [C179_mesh conn nn _ hc, Option.map_some]
  congr 1
  clear hy hw hr
  have hz : ∀ {X Y : Type} (a : List X) (b : List Y) (a' : List X) (b' : List Y), a.length = b.length →
      (a ++ a').zip (b ++ b') = a.zip b ++ a'.zip b' := fun a b a' b' hl => List.zip_append hl
  induction ps with
  | nil => rfl
  | cons p ps ih =>
    have ih := ih (fun q hq => h q (by simp [hq]))
    have h1 := h p (by simp)
    simp only [List.map_cons, fineElems, rowsOf, List.flatMap_cons] at ih ⊢
    rw [hz, ih]
    · congr 1
      rw [h1, range_mul]
      generalize p.1.reps = r
      have key : ∀ (l : List Nat), (l.flatMap fun k => conn.map fun cc => cc.map (p.1.F k)).zip
          (l.flatMap fun k => (List.range conn.length).map fun e =>
            if p.2.active then p.2.sol (k * conn.length + e) n 0 else 0) =
          l.flatMap fun k => conn.zipIdx.map fun cc =>
            (cc.1.map (p.1.F k), if p.2.active then p.2.sol (k * conn.length + cc.2) n 0 else 0) := by
        intro l
        induction l with
        | nil => rfl
        | cons k l ihl =>
          simp only [List.flatMap_cons]
          rw [hz _ _ _ _ (by simp), ihl]
          congr 1
          apply List.ext_getElem (by simp)
          intro i h1 h2
          simp
      exact key _
    · rw [h1]
      simp [List.length_flatMap]

theorem extras_eq (env : Env K) (x : Extras K A S) (w : Works A S) (elems : List (List Nat)) (gs : List (Grp K))
    (append : String) :
    writeExtras x w env elems gs append = some (
      (x.nodal.map fun f => (f ++ append,
        Field.nodal (setNodal elems (List.replicate (total gs) (List.replicate env.npe 0)) fun _ => 0))) ++
      (x.cell.map fun f => (f.1 ++ append, Field.cell (
        ((gs.filter (·.active)).flatMap fun g => (List.range g.numElem).map (f.2 w.plain g)) ++
          List.replicate (total gs - total (gs.filter (·.active))) 0))) ++
      (x.derived.map fun f => (f.1 ++ append, Field.cell (gs.flatMap fun g => (List.range g.numElem).map (f.2 w.plain g))))) := by
  have hc : ∀ f : String × (S → Grp K → Nat → K),
      fillActive (fun g e => f.2 (loaded x w g).plain g e) gs 0 (List.replicate (total gs) 0) =
      some (((gs.filter (·.active)).flatMap fun g => (List.range g.numElem).map (f.2 w.plain g)) ++
          List.replicate (total gs - total (gs.filter (·.active))) 0) := by
    intro f
    have := fillActive_spec (0 : K) (fun g e => f.2 (loaded x w g).plain g e) gs [] (total gs) (total_filter gs)
    simp only [List.nil_append, List.length_nil] at this
    rw [this]
    rfl
  have hd : ∀ f : String × (S → Grp K → Nat → K),
      fillAll (fun g e => f.2 (loaded x w g).plain g e) gs 0 (List.replicate (total gs) 0) =
      some (gs.flatMap fun g => (List.range g.numElem).map (f.2 w.plain g)) := by
    intro f
    have := fillAll_spec (0 : K) (fun g e => f.2 (loaded x w g).plain g e) gs []
    simp only [List.nil_append, List.length_nil] at this
    rw [this]
    rfl
  unfold writeExtras
  simp only [hc, hd, Option.bind_eq_bind, Option.bind_some]
  rw [Refine.mapM_some_of _ (fun f : String × (S → Grp K → Nat → K) => (f.1 ++ append, Field.cell (
        ((gs.filter (·.active)).flatMap fun g => (List.range g.numElem).map (f.2 w.plain g)) ++
          List.replicate (total gs - total (gs.filter (·.active))) 0))) _ (fun _ _ => rfl)]
  rw [Refine.mapM_some_of _ (fun f : String × (S → Grp K → Nat → K) => (f.1 ++ append, Field.cell (
        gs.flatMap fun g => (List.range g.numElem).map (f.2 w.plain g)))) _ (fun _ _ => rfl)]
  rfl

theorem setNodal_zero (elems : List (List Nat)) (n k : Nat) : setNodal elems (List.replicate n (List.replicate k (0 : K)))
    (fun _ => 0) = fun _ => 0 := by
  have inner : ∀ (c : List Nat) (k : Nat), (c.zip (List.replicate k (0 : K))).foldl
      (fun f w => fun id => if id = w.1 then w.2 else f id) (fun _ => (0 : K)) = fun _ => 0 := by
    intro c
    induction c with
    | nil => intro k; rfl
    | cons a c ih =>
      intro k
      cases k with
      | zero => rfl
      | succ k =>
        rw [List.replicate_succ, List.zip_cons_cons, List.foldl_cons]
        have : (fun id => if id = a then (0 : K) else 0) = fun _ => 0 := by funext id; simp
        rw [this]
        exact ih k
  induction elems generalizing n with
  | nil => rfl
  | cons c elems ih =>
    cases n with
    | zero => rfl
    | succ n =>
      have : setNodal (c :: elems) (List.replicate (n + 1) (List.replicate k (0 : K))) (fun _ => 0) =
        setNodal elems (List.replicate n (List.replicate k (0 : K)))
          ((c.zip (List.replicate k (0 : K))).foldl (fun f w => fun id => if id = w.1 then w.2 else f id) (fun _ => (0 : K))) := rfl
      rw [this, inner]
      exact ih n

theorem mapM_names {X Y Z : Type} (f : X → Option Y) (nm : Y → Z) (g : X → Z) (h : ∀ a b, f a = some b → nm b = g a) :
    ∀ (l : List X) (r : List Y), l.mapM f = some r → r.map nm = l.map g
  | [], r, e => by
    have : r = [] := by simpa using e.symm
    simp [this]
  | a :: l, r, e => by
    rw [List.mapM_cons] at e
    cases h1 : f a with
    | none => simp [h1] at e
    | some v =>
      cases h2 : l.mapM f with
      | none => simp [h1, h2] at e
      | some r' =>
        simp [h1, h2] at e
        subst e
        simp [h a v h1, mapM_names f nm g h l r' h2]

/-- C179 (names): what is written is registered before the mesh is made, field by field, if the suffix is one of those known
then; another name would end the run. -/
theorem C179_names (env : Env K) (x : Extras K A S) (w : Works A S) (elems : List (List Nat)) (gs : List (Grp K))
    (append : String) (fs : List (String × Field K)) (hw : writeSolution env x w elems gs append = some fs) :
    fs.map (·.1) = registered env x append := by
  unfold writeSolution at hw
  cases h1 : env.vars.zipIdx.mapM (writeVar env elems gs append) with
  | none => simp [h1] at hw
  | some vs =>
    cases h2 : writeExtras x w env elems gs append with
    | none => simp [h1, h2] at hw
    | some es =>
      simp [h1, h2] at hw
      subst hw
      rw [extras_eq] at h2
      rw [← Option.some.inj h2]
      have e1 := mapM_names _ (fun l : List (String × Field K) => l.map (·.1)) (fun v : (Kind × String) × Nat =>
        match v.1.1 with
        | .hgrad => [v.1.2 ++ append]
        | .hvol => [v.1.2 ++ append]
        | .other => []
        | _ => [v.1.2 ++ append ++ "x", v.1.2 ++ append ++ "y", v.1.2 ++ append ++ "z"]) (by
          intro a b hab
          obtain ⟨⟨k, v⟩, n⟩ := a
          cases k with
          | other => simp only [writeVar, Option.some.injEq] at hab; subst hab; rfl
          | hgrad =>
            simp only [writeVar, Option.bind_eq_bind, Option.bind_eq_some_iff, Option.some.injEq] at hab
            obtain ⟨_, _, rfl⟩ := hab
            rfl
          | hvol =>
            simp only [writeVar, Option.bind_eq_bind, Option.bind_eq_some_iff, Option.some.injEq] at hab
            obtain ⟨_, _, rfl⟩ := hab
            rfl
          | hdiv =>
            simp only [writeVar, Option.bind_eq_bind, Option.bind_eq_some_iff, Option.some.injEq] at hab
            obtain ⟨_, _, _, _, _, _, rfl⟩ := hab
            rfl
          | hcurl =>
            simp only [writeVar, Option.bind_eq_bind, Option.bind_eq_some_iff, Option.some.injEq] at hab
            obtain ⟨_, _, _, _, _, _, rfl⟩ := hab
            rfl) _ _ h1
      simp only [List.map_append, List.map_flatten, e1, registered, List.map_map, List.append_assoc]
      congr 2
      have : ∀ (g : Kind × String → List String) (l : List (Kind × String)) (n : Nat),
          (l.zipIdx n).map (fun v => g v.1) = l.map g := by
        intro g l n
        induction l generalizing n with
        | nil => rfl
        | cons a l ih => simp [List.zipIdx_cons, ih]
      exact this (fun v => match v.1 with
        | .hgrad => [v.2 ++ append]
        | .hvol => [v.2 ++ append]
        | .other => []
        | _ => [v.2 ++ append ++ "x", v.2 ++ append ++ "y", v.2 ++ append ++ "z"]) env.vars 0

/-- C179 is false for vectors on two coarse groups: if a group other than the first uses the model, the program reads past the
list of worksets of plain numbers, which has one entry. -/
theorem C179_vector_violated (env : Env K) (x : Extras K A S) (w : Works A S) (elems : List (List Nat)) (gs : List (Grp K))
    (append : String) (hwk : env.worksets = 1) (m : Nat) (g : Grp K) (hm : 0 < m) (hg : gs[m]? = some g)
    (ha : g.active = true) (kind : Kind) (hk : kind = .hdiv ∨ kind = .hcurl) (v : String) (n : Nat)
    (hv : env.vars[n]? = some (kind, v)) : writeSolution env x w elems gs append = none := by
  have hcol : ∀ d, vectorCol env n d gs = none := by
    intro d
    unfold vectorCol
    rw [if_neg]
    intro h
    have := h (g, m) (by rw [List.mem_zipIdx_iff_getElem?]; exact hg) ha
    simp only at this
    omega
  have hnone : writeVar env elems gs append ((kind, v), n) = none := by
    rcases hk with rfl | rfl <;> simp [writeVar, hcol]
  unfold writeSolution
  cases h1 : env.vars.zipIdx.mapM (writeVar env elems gs append) with
  | none => rfl
  | some vs =>
    obtain ⟨b, _, e⟩ := mapM_mem _ _ _ h1 ((kind, v), n) (by rw [List.mem_zipIdx_iff_getElem?]; exact hv)
    rw [hnone] at e
    exact absurd e (by simp)

theorem average_zero (g : Grp K) (e d : Nat) : average g (fun _ _ => 0) e d = 0 := by
  have : ((List.range g.ndof).map fun i => ((List.range g.npt).map fun q => (0 : K) * g.basis e i q d * g.wts e q).sum).sum = 0 := by
    apply List.sum_eq_zero
    intro y hy
    obtain ⟨i, _, rfl⟩ := List.mem_map.mp hy
    apply List.sum_eq_zero
    intro z hz
    obtain ⟨q, _, rfl⟩ := List.mem_map.mp hz
    simp
  unfold average
  rw [this, zero_div]

/-- C179 is false for vectors on one coarse group: the averages are those of the table in the shared data and not of the
group's own; no fine solution is gathered into it, and with zeros there the field is zero whatever the solution is. -/
theorem C179_average_violated (env : Env K) (x : Extras K A S) (w : Works A S) (elems : List (List Nat)) (g : Grp K)
    (append : String) (hs : env.shared = fun _ _ _ => 0) (fs : List (String × Field K))
    (hw : writeSolution env x w elems [g] append = some fs) (hn : (fs.map (·.1)).Nodup)
    (kind : Kind) (hk : kind = .hdiv ∨ kind = .hcurl) (v : String) (n : Nat) (hv : env.vars[n]? = some (kind, v))
    (_hm : ∀ e < g.numElem, ((List.range g.npt).map (g.wts e)).sum ≠ 0) :
    ∀ c ∈ ["x", "y", "z"], content fs (v ++ append ++ c) = some (.cell (List.replicate g.numElem 0)) := by
  obtain ⟨part, e, hy⟩ := var_content env x w _ _ append fs hw hn _ v n hv
  have hcol : ∀ d c, vectorCol env n d [g] = some c → c = List.replicate g.numElem 0 := by
    intro d c hc
    unfold vectorCol at hc
    split at hc
    · have hr := fill_spec (0 : K) (fun (g : Grp K) e => if d < env.dim then average g (fun e i => env.shared e n i) e d else 0)
        [g] []
      simp only [List.nil_append, List.length_nil] at hr
      rw [hr] at hc
      rw [← Option.some.inj hc, hs]
      simp [rowsOf, average_zero, List.map_const']
    · simp at hc
  rcases hk with rfl | rfl <;>
  · simp only [writeVar, Option.bind_eq_bind, Option.bind_eq_some_iff, Option.some.injEq] at e
    obtain ⟨a, ha, b, hb, d, hd, rfl⟩ := e
    rw [hcol 0 a ha, hcol 1 b hb, hcol 2 d hd] at hy
    intro c hc
    simp only [List.mem_cons, List.not_mem_nil, or_false] at hc
    rcases hc with rfl | rfl | rfl
    · exact hy _ List.mem_cons_self
    · exact hy (v ++ append ++ "y", _) (by simp)
    · exact hy (v ++ append ++ "z", _) (by simp)

theorem extras_split (env : Env K) (x : Extras K A S) (w : Works A S) (elems : List (List Nat)) (gs : List (Grp K))
    (append : String) (fs : List (String × Field K)) (hw : writeSolution env x w elems gs append = some fs) :
    ∃ es, writeExtras x w env elems gs append = some es ∧ ∀ y ∈ es, y ∈ fs := by
  unfold writeSolution at hw
  cases h1 : env.vars.zipIdx.mapM (writeVar env elems gs append) with
  | none => simp [h1] at hw
  | some vs =>
    cases h2 : writeExtras x w env elems gs append with
    | none => simp [h1, h2] at hw
    | some es =>
      simp [h1, h2] at hw
      exact ⟨es, rfl, fun y hy => by rw [← hw]; exact List.mem_append_right _ hy⟩

/-- C179 is false for extra fields.  Those at nodes are zero.  Those of elements and derived quantities are evaluated with what
the worksets of plain numbers held before, neither with the solution and the points of the group nor with the time; and the
values of elements are those of the groups that use the model, one after the other: after a group that does not they
belong to other elements. -/
theorem C179_extra_violated (env : Env K) (x : Extras K A S) (w : Works A S) (elems : List (List Nat)) (gs : List (Grp K))
    (append : String) (fs : List (String × Field K)) (hw : writeSolution env x w elems gs append = some fs)
    (hn : (fs.map (·.1)).Nodup) :
    (∀ f ∈ x.nodal, content fs (f ++ append) = some (.nodal fun _ => 0)) ∧
    (∀ f ∈ x.cell, content fs (f.1 ++ append) =
      some (.cell (((gs.filter (·.active)).flatMap fun g => (List.range g.numElem).map (f.2 w.plain g)) ++
          List.replicate (total gs - total (gs.filter (·.active))) 0))) ∧
    (∀ f ∈ x.derived, content fs (f.1 ++ append) =
      some (.cell (gs.flatMap fun g => (List.range g.numElem).map (f.2 w.plain g)))) := by
  obtain ⟨es, h1, h2⟩ := extras_split env x w elems gs append fs hw
  rw [extras_eq] at h1
  have h1 := Option.some.inj h1
  refine ⟨fun f hf => ?_, fun f hf => ?_, fun f hf => ?_⟩
  · rw [← setNodal_zero elems (total gs) env.npe]
    exact content_of_mem fs hn _ (h2 _ (by
      rw [← h1]
      exact List.mem_append_left _ (List.mem_append_left _ (List.mem_map.mpr ⟨f, hf, rfl⟩))))
  · exact content_of_mem fs hn _ (h2 _ (by
      rw [← h1]
      exact List.mem_append_left _ (List.mem_append_right _ (List.mem_map.mpr ⟨f, hf, rfl⟩))))
  · exact content_of_mem fs hn _ (h2 _ (by
      rw [← h1]
      exact List.mem_append_right _ (List.mem_map.mpr ⟨f, hf, rfl⟩)))

end File

/-! ## Files and steps -/

theorem stem_inj (p e : String) {a b : String} (h : p ++ a ++ e = p ++ b ++ e) : a = b := by
  have h' := congrArg String.toList h
  simp only [String.toList_append] at h'
  exact String.toList_inj.mp (List.append_cancel_left (List.append_cancel_right h'))

theorem rank_inj (p q : String) (t : Nat) {a b : String} {r r' : Nat}
    (h : p ++ a ++ q ++ toString t ++ "." ++ toString r = p ++ b ++ q ++ toString t ++ "." ++ toString r') : a = b ∧ r = r' := by
  have h' : p ++ a ++ q ++ toString t ++ "." ++ toString r ++ "" = p ++ b ++ q ++ toString t ++ "." ++ toString r' ++ "" := by
    rw [h]
  obtain ⟨h2, h3⟩ := Analysis.numbered_inj h'
  have h4 : p ++ a ++ (q ++ toString t) = p ++ b ++ (q ++ toString t) := by
    rw [← String.append_assoc, ← String.append_assoc, h2]
  exact ⟨stem_inj _ _ h4, h3⟩

/-- C179 (files): the processes and the models of a run write different files. -/
theorem C179_files (name name' : String) (size rank rank' : Nat) (hs : rank < size) (hs' : rank' < size)
    (h : fileName name size rank = fileName name' size rank') : name = name' ∧ rank = rank' := by
  unfold fileName at h
  by_cases h1 : size > 1
  · simp only [if_pos h1] at h
    exact rank_inj _ _ _ h
  · simp only [if_neg h1] at h
    exact ⟨stem_inj _ _ h, by omega⟩

/-- C179 (steps): the second model, if it is transient, has in its file all steps written, in order.  If it is steady the file
has the last one. -/
theorem C179_steps_partial {D : Type} (ds : List D) (d : D) :
    modelFile true true ds = some ds ∧ modelFile true false (ds ++ [d]) = some [d] := by
  have key : ∀ (ds pre : List D), ds.foldl (fun f d => if true then f.map (· ++ [d]) else some [d]) (some pre) =
      some (pre ++ ds) := by
    intro ds
    induction ds with
    | nil => intro pre; simp
    | cons a ds ih => intro pre; rw [List.foldl_cons, if_pos rfl, Option.map_some, ih]; simp
  refine ⟨by simpa [modelFile, writeAll] using key ds [], ?_⟩
  simp [modelFile, writeAll, List.foldl_append]

/-- C179 is false for the first model: a steady one writes no file, a transient one a file without any step. -/
theorem C179_first_violated {D : Type} (ds : List D) :
    modelFile false false ds = none ∧ modelFile false true ds = some ([] : List D) := ⟨rfl, rfl⟩

/-- C179 is false for a steady fine model in a transient run: every step but the last is lost. -/
theorem C179_steady_violated {D : Type} (ds : List D) (d : D) (hd : ds ≠ []) :
    modelFile true false (ds ++ [d]) ≠ some (ds ++ [d]) := by
  rw [(C179_steps_partial ds d).2]
  intro h
  have := congrArg List.length (Option.some.inj h)
  simp at this
  exact hd this

/-! ## Cases -/

/-- A line of two elements as reference mesh. [case] -/
def line : List (List Nat) := [[0, 1], [1, 2]]

/-- Two coarse groups, of two elements and of one. [case] -/
def places : List (Macro ℚ) := [⟨2, fun k i => k + i / 2⟩, ⟨1, fun _ i => 2 + i / 2⟩]

example : Fits line 3 ∧ (combined line 3 places).elems = [[1, 2], [2, 3], [4, 5], [5, 6], [7, 8], [8, 9]] ∧
    (combined line 3 places).vertices = some [[0, 1/2], [1/2, 1], [1, 3/2], [3/2, 2], [2, 5/2], [5/2, 3]] := by
  refine ⟨by unfold Fits; decide, by decide +kernel, by decide +kernel⟩

/-- A fine group on `line` with a linear solution in variable 0 and the number of the element in variable 1. [case] -/
def grp (reps : Nat) (active : Bool) (c : ℚ) : Grp ℚ :=
  ⟨reps * 2, active, fun e n j => if n = 0 then c + e + j else 10 * c + e, 1, 1, fun _ _ _ _ => 1, fun _ _ => 1⟩

/-- Its values at the nodes: node `i` of copy `k`. [case] -/
def vals (reps : Nat) (c : ℚ) : Macro ℚ := ⟨reps, fun k i => c + 2 * k + i⟩

theorem grp_agrees (reps : Nat) (active : Bool) (c : ℚ) : Agrees line 0 (vals reps c) (grp reps active c) := by
  refine ⟨rfl, ?_⟩
  intro k hk e cc he j i hj
  have h2 : e < 2 := (List.getElem?_eq_some_iff.mp he).1
  have hcc : cc = [e, e + 1] := by
    rcases Nat.lt_succ_iff_lt_or_eq.mp h2 with h | h
    · have : e = 0 := by omega
      subst this; simpa [line] using he.symm
    · subst h; simpa [line] using he.symm
  subst hcc
  have hj2 : j < 2 := (List.getElem?_eq_some_iff.mp hj).1
  have hi : i = e + j := by
    rcases Nat.lt_succ_iff_lt_or_eq.mp hj2 with h | h
    · have : j = 0 := by omega
      subst this; simpa using hj.symm
    · subst h; simpa using hj.symm
  subst hi
  simp only [grp, vals, line, if_true, List.length_cons, List.length_nil]
  push_cast
  ring

/-- Variables at nodes and in elements, and one extra cell field, the number of the element. [case] -/
def env : Env ℚ := ⟨[(.hgrad, "u"), (.hvol, "p")], 1, 1, fun _ _ _ => 0, 2⟩

/-- One extra field of each sort; the state of the worksets is a number. [case] -/
def extras : Extras ℚ ℚ ℚ := ⟨["f"], [("c", fun t _ e => t + e)], [("d", fun t _ e => t - e)], fun _ _ => 1⟩

/-- The groups: the first uses another model. [case] -/
def groups : List (Grp ℚ) := [grp 1 false 5, grp 1 true 7]

/-- A field of elements of the file, or the values of a field at the nodes 1 to 6. [case] -/
def shown (name : String) : Option (List ℚ) :=
  ((writeSolution env extras ⟨0, 40⟩ (combined line 3 [vals 1 5, vals 1 7]).elems groups "_0").bind (content · name)).map
    fun f => match f with
    | .nodal f => [1, 2, 3, 4, 5, 6].map f
    | .cell c => c

/-- The second group has the third and fourth element; the extra cell field has its values at the first and the second. -/
example : shown "u_0" = some [0, 0, 0, 7, 8, 9] ∧ shown "p_0" = some [0, 0, 70, 71] ∧
    shown "f_0" = some [0, 0, 0, 0, 0, 0] ∧ shown "c_0" = some [40, 41, 0, 0] ∧ shown "d_0" = some [40, 39, 40, 39] ∧
    shown "v" = none ∧ registered env extras "_0" = ["u_0", "p_0", "f_0", "c_0", "d_0"] := by
  decide +kernel

/-- A vector: on one group zero instead of one, on two no result. -/
example : (vectorCol ⟨[(.hdiv, "q")], 1, 1, fun _ _ _ => 0, 2⟩ 0 0 [grp 1 true 1] = some [0, 0]) ∧
    average (grp 1 true 1) (fun e i => (grp 1 true 1).sol e 0 i) 0 0 = 1 ∧
    vectorCol ⟨[(.hdiv, "q")], 1, 1, fun _ _ _ => 0, 2⟩ 0 0 [grp 1 true 1, grp 1 true 1] = none := by
  refine ⟨by decide +kernel, by norm_num [average, grp, List.range_succ], by decide +kernel⟩

example : fileName "Subgrid" 4 1 = "subgrid_output_Subgrid.exo.4.1" ∧ fileName "Subgrid" 1 0 = "subgrid_output_Subgrid.exo" := by
  decide +kernel

end MrHyDE.Subgrid.Output
