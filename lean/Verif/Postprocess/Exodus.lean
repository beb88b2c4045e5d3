import Mathlib.Algebra.Field.Rat
import Mathlib.Algebra.BigOperators.Ring.List
import Mathlib.Algebra.BigOperators.GroupWithZero.Action
import Mathlib.Data.List.Range
import Mathlib.Tactic.Ring
import Mathlib.Tactic.FieldSimp
import Verif.Workset.LookupProps

/-! # C151: what stands in the output file at each element

`PostprocessManager::writeSolution` (/repo/src/managers/postprocess/postprocessManager_exodus.hpp:14-671) for one block,
with `performGather` (/repo/src/managers/assembly/assemblyManager_gather.hpp:183-235), `updateWorkset`
(assemblyManager_workset.hpp:965-1049), `computeSolutionAverage`, `computeParameterAverage`, `getSolutionAtNodes`
(assemblyManager_util.hpp:148-289) and `getDerivedQuantities` (postprocessManager_derived_quantities.hpp:13-67).

The elements of a block are split into groups; the local coefficients of a group are gathered into tables which belong to
the block and are shared by all its groups.  A kernel over the elements of a group is run in the order of the group; as
the elements of a group are different the order does not matter. -/

namespace MrHyDE.Postprocess.Exodus

set_option linter.unusedSectionVars false

/-! ## Model -/

/-- Local coefficients of one element, `(var, dof)`; src/tools/groupMetaData.hpp:129. -/
abbrev Loc (K : Type) := Nat → Nat → K

/-- The shared tables `groupData[block]->sol[set]` and `->param`, by the position of the element in its group;
assemblyManager_gather.hpp:194-222. -/
structure Shared (K : Type) where
  sol : Nat → Nat → Loc K
  par : Nat → Loc K

/-- A block: number of elements `myElements.size()`, the groups with their `localElemID`, and the coefficients of each
element in the vector of a set and in the vector of discretized parameters (the vectors read through the `LIDs`);
postprocessManager_exodus.hpp:33-87. -/
structure Block (K : Type) where
  size : Nat
  groups : List (List Nat)
  sol : Nat → Nat → Loc K
  par : Nat → Loc K

variable {K A : Type}

/-- `performGather(set, block, grp, sol_kv[set], 0, 0)`: the rows of the group are replaced;
assemblyManager_gather.hpp:194-199, 223-233. -/
def gatherSol (B : Block K) (set : Nat) (ids : List Nat) (S : Shared K) : Shared K :=
  { S with sol := fun s p => if s = set then ((ids[p]?).map (B.sol set)).getD (S.sol s p) else S.sol s p }

/-- `performGather(0, block, grp, params_kv[0], 4, 0)`; assemblyManager_gather.hpp:215-222, 223-233. -/
def gatherPar (B : Block K) (ids : List Nat) (S : Shared K) : Shared K :=
  { S with par := fun p => ((ids[p]?).map B.par).getD (S.par p) }

/-- A field: its value at an element from the coefficients of all sets and of the parameters, as `updateWorkset` turns
them into functions at the integration points (assemblyManager_workset.hpp:1018-1049); geometry and basis functions belong to
the element. -/
abbrev Field' (K A : Type) := Nat → (Nat → Loc K) → Loc K → A

/-- The kernel `dev(eID(elem)) = value(elem)`; postprocessManager_exodus.hpp:122-126 and alike.  `none`: outside the array. -/
def scatter (S : Shared K) (f : Field' K A) (ids : List Nat) (out : List A) : Option (List A) :=
  ids.zipIdx.foldlM (fun o x => if x.1 < o.length then
    some (o.set x.1 (f x.1 (fun s => S.sol s x.2) (S.par x.2))) else none) out

/-- The loop over groups of one field: gather, compute, store; the array starts with zeros.
postprocessManager_exodus.hpp:113-127, 145-157, 175-183, 208-223, 325-334, 354-361, 387-400, 445-460, 491-506. -/
def fill (B : Block K) (prep : List Nat → Shared K → Shared K) (f : Field' K A) (zero : A) (S : Shared K) :
    Option (Shared K × List A) :=
  B.groups.foldlM (fun x ids => (scatter (prep ids x.1) f ids x.2).map (fun o => (prep ids x.1, o)))
    (S, List.replicate B.size zero)

/-- Kinds of basis. [names compared in postprocessManager_exodus.hpp:104, 168, 193, 239] -/
inductive Kind where
  | hgrad | hvol | hdiv | hcurl | hface
  deriving DecidableEq, Repr

/-- Geometry and basis functions of the elements of the block: weights, `basis[b](elem,dof,pt,dim)`, values of the nodal
basis at the nodes, weights and basis on the faces; assemblyManager_util.hpp:148-163, 262-266,
postprocessManager_exodus.hpp:266-277. -/
structure Geo (K : Type) where
  dim : Nat
  nodes : Nat
  atNodes : Bool
  faces : Nat
  ndof : Nat → Nat
  wts : Nat → List K
  basis : Nat → Nat → Nat → Nat → Nat → K
  nodal : Nat → Nat → Nat → Nat → K
  fwts : Nat → Nat → List K
  fbasis : Nat → Nat → Nat → Nat → Nat → K

variable [Field K]

/-- Element average of a component of a vector variable; assemblyManager_util.hpp:166-196. -/
def average (G : Geo K) (e b d : Nat) (c : Nat → K) : K :=
  ((List.range (G.ndof b)).foldl (fun s i =>
    (G.wts e).zipIdx.foldl (fun s x => s + c i * G.basis e b i x.2 d * x.1) s) 0) / (G.wts e).foldl (· + ·) 0

/-- Value at a node; assemblyManager_util.hpp:271-283. -/
def atNode (G : Geo K) (e b pt : Nat) (c : Nat → K) : K :=
  (List.range (G.ndof b)).foldl (fun s i => s + c i * G.nodal e b i pt) 0

/-- Average over all faces; postprocessManager_exodus.hpp:257-281.  Simplified: the sums, kept in arrays that start with
zeros, are formed at once for each element. -/
def faceAverage (G : Geo K) (e b : Nat) (c : Nat → K) : K :=
  ((List.range G.faces).foldl (fun s f => (G.fwts e f).zipIdx.foldl (fun s x =>
    s + (List.range (G.ndof b)).foldl (fun u i => u + c i * G.fbasis e f b i x.2) 0 * x.1) s) 0) *
  (1 / (List.range G.faces).foldl (fun s f => (G.fwts e f).foldl (· + ·) s) 0)

/-- Data of a field in the file: at the nodes of each element, or one number per element; meshInterface_exodus.hpp:189-203. -/
inductive Data (K : Type) where
  | nodal (l : List (List K))
  | cell (l : List K)
  deriving DecidableEq, Repr

/-- What is handed to the mesh: name and data, in the order of the calls; postprocessManager_exodus.hpp:133, 163, 189, 230. -/
abbrev Writes (K : Type) := List (String × Data K)

/-- The components `x`, `y`, `z` of an averaged field; postprocessManager_exodus.hpp:229-237, 403-411. -/
def components (dim : Nat) (name : String) (cols : List (List K)) : Writes K :=
  (["x", "y", "z"].zip (cols.take (if dim > 2 then 3 else if dim > 1 then 2 else 1))).map
    (fun x => (name ++ x.1, Data.cell x.2))

/-- The list of fields computed for an averaged variable: three arrays, the ones beyond the dimension stay zero;
postprocessManager_exodus.hpp:208-223. -/
def averages (G : Geo K) (e b : Nat) (c : Nat → K) : List K :=
  (List.range 3).map (fun d => if d < G.dim then average G e b d c else 0)

/-- The j-th array of a list of arrays filled together; postprocessManager_exodus.hpp:217-222, 465-469, 510-514. -/
def column (rows : List (List K)) (j : Nat) : List K := rows.map (fun r => (r[j]?).getD 0)

/-- One state variable of a set: `set`, its number, name and kind, basis number; postprocessManager_exodus.hpp:88-290. -/
structure Var where
  set : Nat
  idx : Nat
  name : String
  kind : Kind
  basis : Nat

/-- A state variable is written; postprocessManager_exodus.hpp:104-290.  `computeSolutionAverage` finds the variable by its
name in the list of the set (`isVar`, C42), here by its number. -/
def writeVar (G : Geo K) (B : Block K) (append : String) (hface : Bool) (v : Var) (S : Shared K) :
    Option (Shared K × Writes K) :=
  match v.kind with
  | .hgrad => (fill B (gatherSol B v.set) (fun e c _ => (List.range G.nodes).map (fun i =>
      if G.atNodes then atNode G e v.basis i (c v.set v.idx) else c v.set v.idx i)) (List.replicate G.nodes 0) S).map
      (fun r => (r.1, [(v.name ++ append, Data.nodal r.2)]))
  | .hvol => (fill B (gatherSol B v.set) (fun _ c _ => c v.set v.idx 0) 0 S).map
      (fun r => (r.1, [(v.name ++ append, Data.cell r.2)]))
  | .hdiv | .hcurl => (fill B (gatherSol B v.set) (fun e c _ => averages G e v.basis (c v.set v.idx)) [0, 0, 0] S).map
      (fun r => (r.1, components G.dim (v.name ++ append) ((List.range 3).map (column r.2))))
  | .hface => if hface then (fill B (gatherSol B v.set) (fun e c _ => faceAverage G e v.basis (c v.set v.idx)) 0 S).map
      (fun r => (r.1, [(v.name ++ append, Data.cell r.2)])) else some (S, [])

/-- A discretized parameter: name, number of its basis; postprocessManager_exodus.hpp:296-309. -/
structure Par where
  name : String
  basis : Nat

/-- `isParameter`: the number of the parameter of this name; the loop only ends at the first name (C42).
src/tools/workset.cpp:1800-1811. -/
def parIndex (names : List String) (v : String) : Option Nat := if names.head? = some v then some 0 else none

/-- A discretized parameter is written: `types` are the kinds of the bases; postprocessManager_exodus.hpp:309-412.  `none`:
an index outside `types`, or a search that does not end. -/
def writePar (G : Geo K) (B : Block K) (append : String) (types : List Kind) (ps : List Par) (n : Nat) (p : Par)
    (S : Shared K) : Option (Shared K × Writes K) :=
  (types[p.basis]?).bind fun t =>
  if t = .hgrad then
    (fill B (gatherPar B) (fun _ _ q => (List.range G.nodes).map (q n)) (List.replicate G.nodes 0) S).map
      (fun r => (r.1, [(p.name ++ append, Data.nodal r.2)]))
  else if t = .hvol then
    (fill B (gatherPar B) (fun _ _ q => q n 0) 0 S).map (fun r => (r.1, [(p.name ++ append, Data.cell r.2)]))
  else
    (if t = .hdiv then some true else (types[n]?).map (fun t' => decide (t' = .hcurl))).bind fun yes =>
    if yes then
      (if B.groups.isEmpty then some 0 else parIndex (ps.map Par.name) p.name).bind fun i =>
      (fill B (gatherPar B) (fun e _ q => averages G e ((ps[i]?).map Par.basis |>.getD 0) (q i)) [0, 0, 0] S).map
        (fun r => (r.1, components G.dim (p.name ++ append) ((List.range 3).map (column r.2))))
    else some (S, [])

/-- Extra nodal fields: the names without the appended text, and zeros; postprocessManager_exodus.hpp:420-428. -/
def writeExtra (G : Geo K) (B : Block K) (names : List String) : Writes K :=
  names.map (fun n => (n, Data.nodal (List.replicate B.size (List.replicate G.nodes 0))))

/-- Extra cell fields, all at once; postprocessManager_exodus.hpp:434-475, the reductions are those of C91. -/
def writeCells (B : Block K) (append : String) (fs : List (String × Field' K K)) (S : Shared K) :
    Option (Shared K × Writes K) :=
  if fs.isEmpty then some (S, []) else
  (fill B (fun ids S => gatherPar B ids (gatherSol B 0 ids S)) (fun e c q => fs.map (fun x => x.2 e c q))
    (fs.map (fun _ => 0)) S).map
    (fun r => (r.1, fs.zipIdx.map (fun x => (x.1.1 ++ append, Data.cell (column r.2 x.2)))))

/-- A physics module: the names it announces and the values it returns (`getDerivedNames`, `getDerivedValues`);
postprocessManager_derived_quantities.hpp:21-28. -/
structure Module (K : Type) where
  names : List String
  values : List (Field' K K)

/-- Derived quantities; postprocessManager_exodus.hpp:479-517, postprocessManager_derived_quantities.hpp:13-67: the values of
all modules in a row, the names of all modules in a row.  `none`: more values than names. -/
def writeDerived (B : Block K) (append : String) (ms : List (Module K)) (S : Shared K) : Option (Shared K × Writes K) :=
  let names := ms.flatMap Module.names
  let values := ms.flatMap Module.values
  if names.isEmpty then some (S, []) else
  if names.length < values.length then none else
  (fill B (gatherSol B 0) (fun e c q => values.map (fun f => f e c q) ++
      List.replicate (names.length - values.length) 0) (names.map (fun _ => 0)) S).map
    (fun r => (r.1, names.zipIdx.map (fun x => (x.1 ++ append, Data.cell (column r.2 x.2)))))

/-- Several fields in a row, the tables are kept; postprocessManager_exodus.hpp:88-300, 309. -/
def writeList {X : Type} (w : X → Shared K → Option (Shared K × Writes K)) : List X → Shared K → Option (Shared K × Writes K)
  | [], S => some (S, [])
  | x :: l, S => (w x S).bind fun r => (writeList w l r.1).map (fun q => (q.1, r.2 ++ q.2))

/-- The settings of a block. [read in postprocessManager_construct.hpp:60-96, 252-289] -/
structure Job (K : Type) where
  append : String
  hface : Bool
  vars : List Var
  types : List Kind
  pars : List Par
  extra : List String
  cells : List (String × Field' K K)
  modules : List (Module K)

/-- `writeSolution` for one block up to the derived quantities; postprocessManager_exodus.hpp:70-517.  A block without
elements is skipped. -/
def write (G : Geo K) (B : Block K) (J : Job K) (S : Shared K) : Option (Shared K × Writes K) :=
  if B.size = 0 then some (S, []) else
  (writeList (writeVar G B J.append J.hface) J.vars S).bind fun r1 =>
  (writeList (fun (x : Par × Nat) => writePar G B J.append J.types J.pars x.2 x.1) J.pars.zipIdx r1.1).bind fun r2 =>
  (writeCells B J.append J.cells r2.1).bind fun r3 =>
  (writeDerived B J.append J.modules r3.1).map fun r4 =>
  (r4.1, r1.2 ++ r2.2 ++ writeExtra G B J.extra ++ r3.2 ++ r4.2)

/-! ## Specification -/

/-- The groups contain every element of the block once. [specification, no code] -/
def Split (B : Block K) : Prop := B.groups.flatten.Perm (List.range B.size)

/-- A field at the elements of the block, each with its own coefficients. [specification, no code] -/
def own (B : Block K) (f : Field' K A) : List A := (List.range B.size).map (fun e => f e (fun s => B.sol s e) (B.par e))

/-- A field that only looks at the given sets, and at the parameters only if allowed. [specification, no code] -/
def Looks (f : Field' K A) (sets : Nat → Prop) (pars : Prop) : Prop :=
  ∀ e c c' q q', (∀ s, sets s → c s = c' s) → (pars → q = q') → f e c q = f e c' q'

/-! ## Filling an array -/

theorem scatter_spec (S : Shared K) (f : Field' K A) (g : Nat → A) : ∀ (ids : List Nat) (k : Nat) (out : List A),
    (∀ i e, ids[i]? = some e → f e (fun s => S.sol s (k + i)) (S.par (k + i)) = g e) → (∀ e ∈ ids, e < out.length) →
    ∃ o : List A, (ids.zipIdx k).foldlM (fun o x => if x.1 < o.length then
        some (o.set x.1 (f x.1 (fun s => S.sol s x.2) (S.par x.2))) else none) out = some o ∧
      o.length = out.length ∧ ∀ j : Nat, o[j]? = if j ∈ ids then some (g j) else out[j]? := by
  intro ids
  induction ids with
  | nil => intro k out _ _; exact ⟨out, rfl, rfl, by simp⟩
  | cons a l ih =>
    intro k out hf hb
    have ha : a < out.length := hb a (by simp)
    have h0 := hf 0 a (by simp)
    simp only [Nat.add_zero] at h0
    obtain ⟨o, ho, hl, hj⟩ := ih (k + 1) (out.set a (g a)) (by
      intro i e hi
      have := hf (i + 1) e (by simpa using hi)
      rwa [show k + (i + 1) = k + 1 + i by omega] at this) (by
      intro e he
      rw [List.length_set]
      exact hb e (by simp [he]))
    refine ⟨o, ?_, by rw [hl, List.length_set], ?_⟩
    · rw [List.zipIdx_cons, List.foldlM_cons]
      simp only [ha, if_true, h0]
      exact ho
    · intro j
      rw [hj j, List.getElem?_set]
      by_cases h : j ∈ l
      · simp [h]
      · by_cases e : a = j
        · subst e
          simp [h, ha]
        · simp [h, e, Ne.symm e]

theorem fill_aux (prep : List Nat → Shared K → Shared K) (f : Field' K A) (g : Nat → A) (P : Shared K → Prop) :
    ∀ (gs : List (List Nat)), (∀ ids ∈ gs, ∀ S, P S → P (prep ids S) ∧ ∀ (i e : Nat), ids[i]? = some e →
      f e (fun s => (prep ids S).sol s i) ((prep ids S).par i) = g e) →
    ∀ (S : Shared K), P S → ∀ (out : List A), (∀ e ∈ gs.flatten, e < out.length) →
      ∃ (S' : Shared K) (o : List A), gs.foldlM (fun x ids => (scatter (prep ids x.1) f ids x.2).map
          (fun o => (prep ids x.1, o))) (S, out) = some (S', o) ∧
        S' = gs.foldl (fun S ids => prep ids S) S ∧
        o.length = out.length ∧ ∀ j : Nat, o[j]? = if j ∈ gs.flatten then some (g j) else out[j]? := by
  intro gs
  induction gs with
  | nil => intro _ S _ out _; exact ⟨S, out, rfl, rfl, rfl, by simp⟩
  | cons ids gs ih =>
    intro hp S hS out hb
    obtain ⟨hP, hf⟩ := hp ids (by simp) S hS
    obtain ⟨o, ho, hl, hj⟩ := scatter_spec (prep ids S) f g ids 0 out
      (by intro i e hi; simpa using hf i e hi)
      (by intro e he; exact hb e (by simp [he]))
    obtain ⟨S', o', h1, h2, h3, h4⟩ := ih (fun ids' h => hp ids' (by simp [h])) (prep ids S) hP o (by
      intro e he
      rw [hl]
      exact hb e (by simp only [List.flatten_cons, List.mem_append]; exact Or.inr he))
    refine ⟨S', o', ?_, by rw [h2]; rfl, by rw [h3, hl], ?_⟩
    · rw [List.foldlM_cons]
      unfold scatter
      simp only [ho, Option.map_some, Option.bind_eq_bind, Option.bind_some]
      exact h1
    · intro j
      rw [h4 j, hj j]
      simp only [List.flatten_cons, List.mem_append]
      by_cases h : j ∈ gs.flatten
      · simp [h]
      · by_cases h' : j ∈ ids <;> simp [h, h']

/-- An array is filled with the values at given coefficients of the elements. -/
theorem fill_exact (B : Block K) (hB : Split B) (prep : List Nat → Shared K → Shared K) (f : Field' K A) (zero : A)
    (g : Nat → A) (P : Shared K → Prop)
    (hp : ∀ ids ∈ B.groups, ∀ S, P S → P (prep ids S) ∧ ∀ (i e : Nat), ids[i]? = some e →
      f e (fun s => (prep ids S).sol s i) ((prep ids S).par i) = g e) (S : Shared K) (hS : P S) :
    fill B prep f zero S = some (B.groups.foldl (fun S ids => prep ids S) S, (List.range B.size).map g) := by
  have hm : ∀ e, e ∈ B.groups.flatten ↔ e < B.size := by
    intro e; rw [hB.mem_iff, List.mem_range]
  obtain ⟨S', o, h1, h2, h3, h4⟩ := fill_aux prep f g P B.groups hp S hS
    (List.replicate B.size zero) (by intro e he; rw [List.length_replicate]; exact (hm e).mp he)
  unfold fill
  rw [h1, h2]
  congr 2
  apply List.ext_getElem?
  intro j
  rw [h4 j]
  by_cases h : j < B.size
  · rw [if_pos ((hm j).mpr h), List.getElem?_map, List.getElem?_range h]
    rfl
  · rw [if_neg (fun h' => h ((hm j).mp h')), List.getElem?_eq_none (by simpa using h),
      List.getElem?_eq_none (by simpa using h)]

/-- An array is filled with the values at the elements' own coefficients whenever the gathers before the computation bring all
the coefficients the field looks at. -/
theorem fill_spec (B : Block K) (hB : Split B) (prep : List Nat → Shared K → Shared K) (f : Field' K A) (zero : A)
    (hp : ∀ ids S (i e : Nat), ids[i]? = some e →
      f e (fun s => (prep ids S).sol s i) ((prep ids S).par i) = f e (fun s => B.sol s e) (B.par e)) (S : Shared K) :
    fill B prep f zero S = some (B.groups.foldl (fun S ids => prep ids S) S, own B f) :=
  fill_exact B hB prep f zero _ (fun _ => True) (fun ids _ S _ => ⟨trivial, hp ids S⟩) S trivial

theorem sol_row (B : Block K) (set : Nat) (ids : List Nat) (S : Shared K) (i e : Nat) (h : ids[i]? = some e) :
    (gatherSol B set ids S).sol set i = B.sol set e := by
  simp [gatherSol, h]

theorem par_row (B : Block K) (ids : List Nat) (S : Shared K) (i e : Nat) (h : ids[i]? = some e) :
    (gatherPar B ids S).par i = B.par e := by
  simp [gatherPar, h]

/-! ## C151 -/

/-- The values a variable should have in the file. [specification, no code] -/
def wantedVar (G : Geo K) (B : Block K) (append : String) (hface : Bool) (v : Var) : Writes K :=
  match v.kind with
  | .hgrad => [(v.name ++ append, .nodal ((List.range B.size).map (fun e => (List.range G.nodes).map (fun i =>
      if G.atNodes then ((List.range (G.ndof v.basis)).map (fun d => B.sol v.set e v.idx d * G.nodal e v.basis d i)).sum
      else B.sol v.set e v.idx i))))]
  | .hvol => [(v.name ++ append, .cell ((List.range B.size).map (fun e => B.sol v.set e v.idx 0)))]
  | .hdiv | .hcurl => (["x", "y", "z"].zipIdx.take (if G.dim > 2 then 3 else if G.dim > 1 then 2 else 1)).map (fun x =>
      (v.name ++ append ++ x.1, .cell ((List.range B.size).map (fun e =>
        if x.2 < G.dim then average G e v.basis x.2 (B.sol v.set e v.idx) else 0))))
  | .hface => if hface then [(v.name ++ append, .cell ((List.range B.size).map (fun e =>
      faceAverage G e v.basis (B.sol v.set e v.idx))))] else []

theorem foldl_sum {X : Type} (f : X → K) : ∀ (l : List X) (a : K), l.foldl (fun s x => s + f x) a = a + (l.map f).sum := by
  intro l
  induction l with
  | nil => intro a; simp
  | cons x l ih => intro a; rw [List.foldl_cons, ih, List.map_cons, List.sum_cons]; ring

theorem components_own (G : Geo K) (B : Block K) (name : String) (f : Nat → Nat → K) :
    components G.dim name ((List.range 3).map (column ((List.range B.size).map (fun e =>
      (List.range 3).map (fun d => if d < G.dim then f e d else 0))))) =
    (["x", "y", "z"].zipIdx.take (if G.dim > 2 then 3 else if G.dim > 1 then 2 else 1)).map (fun x =>
      (name ++ x.1, .cell ((List.range B.size).map (fun e => if x.2 < G.dim then f e x.2 else 0)))) := by
  have hc : ∀ j : Nat, j < 3 → column ((List.range B.size).map (fun e =>
      (List.range 3).map (fun d => if d < G.dim then f e d else 0))) j =
      (List.range B.size).map (fun e => if j < G.dim then f e j else 0) := by
    intro j hj
    unfold column
    rw [List.map_map]
    apply List.map_congr_left
    intro e _
    simp [List.getElem?_range hj]
  have hr : (List.range 3) = [0, 1, 2] := by decide
  have hcol : (List.range 3).map (column ((List.range B.size).map (fun e =>
      (List.range 3).map (fun d => if d < G.dim then f e d else 0)))) =
      [0, 1, 2].map (fun j => (List.range B.size).map (fun e => if j < G.dim then f e j else 0)) := by
    conv_lhs => rw [show (List.range 3).map (column _) = [0, 1, 2].map (column _) from by rw [hr]]
    apply List.map_congr_left
    intro j hj
    exact hc j (by simp at hj; omega)
  rw [hcol]
  unfold components
  by_cases h2 : G.dim > 2
  · simp [h2, List.zipIdx]
  · by_cases h1 : G.dim > 1
    · simp [h2, h1, List.zipIdx]
    · simp [h2, h1, List.zipIdx]

/-- C151 for state variables: whatever is in the shared tables, for any sets, groups and kinds of basis each state variable is
written with the values of the element itself. -/
theorem C151_state (G : Geo K) (B : Block K) (hB : Split B) (append : String) (hface : Bool) (v : Var) (S : Shared K) :
    ∃ S' : Shared K, writeVar G B append hface v S = some (S', wantedVar G B append hface v) := by
  unfold writeVar wantedVar
  cases hk : v.kind with
  | hgrad =>
    dsimp only
    rw [fill_spec B hB _ _ _ (by intro ids S i e h; simp only [sol_row B v.set ids S i e h])]
    refine ⟨B.groups.foldl (fun S ids => gatherSol B v.set ids S) S, ?_⟩
    rw [Option.map_some]
    unfold own atNode
    simp only [foldl_sum, zero_add]
  | hvol =>
    dsimp only
    rw [fill_spec B hB _ _ _ (by intro ids S i e h; simp only [sol_row B v.set ids S i e h])]
    exact ⟨_, rfl⟩
  | hdiv =>
    dsimp only
    rw [fill_spec B hB _ _ _ (by intro ids S i e h; simp only [sol_row B v.set ids S i e h])]
    refine ⟨B.groups.foldl (fun S ids => gatherSol B v.set ids S) S, ?_⟩
    rw [Option.map_some]
    congr 2
    exact components_own G B (v.name ++ append) (fun e d => average G e v.basis d (B.sol v.set e v.idx))
  | hcurl =>
    dsimp only
    rw [fill_spec B hB _ _ _ (by intro ids S i e h; simp only [sol_row B v.set ids S i e h])]
    refine ⟨B.groups.foldl (fun S ids => gatherSol B v.set ids S) S, ?_⟩
    rw [Option.map_some]
    congr 2
    exact components_own G B (v.name ++ append) (fun e d => average G e v.basis d (B.sol v.set e v.idx))
  | hface =>
    dsimp only
    cases hface with
    | false => exact ⟨S, rfl⟩
    | true =>
      simp only [if_true]
      rw [fill_spec B hB _ _ _ (by intro ids S i e h; simp only [sol_row B v.set ids S i e h])]
      exact ⟨_, rfl⟩

/-- [case] Three elements in two groups, two sets. -/
def twoGroups : Block ℚ := ⟨3, [[2, 0], [1]], fun s e v d => 100 * s + 10 * e + v + d, fun e n d => 1000 + 10 * e + n + d⟩

/-- [case] A line with one point per element. -/
def line : Geo ℚ := ⟨1, 2, false, 2, fun _ => 2, fun e => [e + 1, 1], fun _ _ i pt _ => i + pt, fun _ _ i pt => if i = pt then 1 else 0,
  fun _ _ => [1], fun _ f _ i _ => if i = f then 1 else 0⟩

/-- [case] Tables with old values. -/
def stale : Shared ℚ := ⟨fun _ _ _ _ => -7, fun _ _ _ => -9⟩

example : Split twoGroups := by unfold Split twoGroups; decide

example : (writeVar line twoGroups "" false ⟨1, 0, "u", .hgrad, 0⟩ stale).map (fun r => r.2.map Prod.snd) =
    some [.nodal [[100, 101], [110, 111], [120, 121]]] := by decide +kernel

/-- C151 for averages: the number written for a vector variable, times the measure of the element, is the integral of that
component; a constant component is written as it is.  Likewise for the average over the faces. -/
theorem C151_average (G : Geo K) (e b : Nat) (c : Nat → K) :
    (∀ d, (G.wts e).sum ≠ 0 → average G e b d c * (G.wts e).sum =
      ((G.wts e).zipIdx.map (fun x => ((List.range (G.ndof b)).map (fun i => c i * G.basis e b i x.2 d)).sum * x.1)).sum) ∧
    (((List.range G.faces).map (fun f => (G.fwts e f).sum)).sum ≠ 0 →
      faceAverage G e b c * ((List.range G.faces).map (fun f => (G.fwts e f).sum)).sum =
      ((List.range G.faces).map (fun f => ((G.fwts e f).zipIdx.map (fun x =>
        ((List.range (G.ndof b)).map (fun i => c i * G.fbasis e f b i x.2)).sum * x.1)).sum)).sum) := by
  have swap : ∀ {X Y : Type} (l : List X) (m : List Y) (h : X → Y → K),
      (l.map (fun x => (m.map (fun y => h x y)).sum)).sum = (m.map (fun y => (l.map (fun x => h x y)).sum)).sum := by
    intro X Y l m h
    induction l with
    | nil => simp
    | cons x l ih => simp only [List.map_cons, List.sum_cons, ih, List.sum_map_add]
  have hw : ∀ (l : List K) (a : K), l.foldl (· + ·) a = a + l.sum := by
    intro l a
    have := foldl_sum (fun x : K => x) l a
    simpa using this
  constructor
  · intro d hm
    unfold average
    rw [hw, zero_add, div_mul_cancel₀ _ hm]
    simp only [foldl_sum, zero_add]
    rw [swap]
    congr 1
    apply List.map_congr_left
    intro x _
    rw [← List.sum_map_mul_right]
  · intro hm
    unfold faceAverage
    simp only [hw]
    rw [foldl_sum (fun f => (G.fwts e f).sum), zero_add, mul_assoc, one_div, inv_mul_cancel₀ hm, mul_one]
    simp only [foldl_sum, zero_add]

example : (line.wts 1).sum ≠ 0 ∧ average line 1 0 0 (fun i => (i : ℚ)) = 4 / 3 ∧
    ((List.range line.faces).map (fun f => (line.fwts 0 f).sum)).sum ≠ 0 := by decide +kernel

/-- The values a discretized parameter should have in the file. [specification, no code] -/
def wantedPar (G : Geo K) (B : Block K) (append : String) (t : Kind) (n : Nat) (p : Par) : Writes K :=
  match t with
  | .hgrad => [(p.name ++ append, .nodal ((List.range B.size).map (fun e => (List.range G.nodes).map (B.par e n))))]
  | .hvol => [(p.name ++ append, .cell ((List.range B.size).map (fun e => B.par e n 0)))]
  | .hdiv | .hcurl => (["x", "y", "z"].zipIdx.take (if G.dim > 2 then 3 else if G.dim > 1 then 2 else 1)).map (fun x =>
      (p.name ++ append ++ x.1, .cell ((List.range B.size).map (fun e =>
        if x.2 < G.dim then average G e p.basis x.2 (B.par e n) else 0))))
  | .hface => []

/-- Parameters for which the code works: nodal and constant ones, and the first one if it is of type HDIV, or of type HCURL
when the first basis is of type HCURL too. [specification, no code] -/
def Fine (types : List Kind) (n : Nat) (p : Par) : Prop :=
  types[p.basis]? = some .hgrad ∨ types[p.basis]? = some .hvol ∨ (types[p.basis]? = some .hdiv ∧ n = 0) ∨
  (types[p.basis]? = some .hcurl ∧ n = 0 ∧ types[0]? = some .hcurl)

/-- C151 for discretized parameters, partial: the values of the element itself, for nodal and constant parameters and for the
first parameter of type HDIV or HCURL.  Missing: see `C151_parameter_violated`, `C151_curl_violated`. -/
theorem C151_parameter_partial (G : Geo K) (B : Block K) (hB : Split B) (append : String) (types : List Kind) (ps : List Par)
    (n : Nat) (p : Par) (hp : ps[n]? = some p) (hf : Fine types n p) (S : Shared K) :
    ∃ (S' : Shared K) (t : Kind), types[p.basis]? = some t ∧
      writePar G B append types ps n p S = some (S', wantedPar G B append t n p) := by
  have vec : n = 0 → ∃ S' : Shared K,
      ((if B.groups.isEmpty then some 0 else parIndex (ps.map Par.name) p.name).bind fun i =>
        (fill B (gatherPar B) (fun e _ q => averages G e ((ps[i]?).map Par.basis |>.getD 0) (q i)) [0, 0, 0] S).map
        (fun r => (r.1, components G.dim (p.name ++ append) ((List.range 3).map (column r.2))))) =
      some (S', wantedPar G B append .hdiv n p) := by
    intro h0
    subst h0
    have hi : (if B.groups.isEmpty then some 0 else parIndex (ps.map Par.name) p.name) = some 0 := by
      split_ifs
      · rfl
      · unfold parIndex
        rw [if_pos]
        cases ps with
        | nil => simp at hp
        | cons a l => simpa using congrArg (Option.map Par.name) hp
    rw [hi, Option.bind_some]
    rw [fill_spec B hB _ _ _ (by intro ids S i e h; simp only [par_row B ids S i e h])]
    refine ⟨B.groups.foldl (fun S ids => gatherPar B ids S) S, ?_⟩
    rw [Option.map_some]
    congr 2
    rw [hp]
    exact components_own G B (p.name ++ append) (fun e d => average G e p.basis d (B.par e 0))
  unfold Fine at hf
  unfold writePar
  rcases hf with h | h | ⟨h, h0⟩ | ⟨h, h0, h1⟩
  · rw [h]
    refine ⟨B.groups.foldl (fun S ids => gatherPar B ids S) S, .hgrad, rfl, ?_⟩
    simp only [Option.bind_some, if_true]
    rw [fill_spec B hB _ _ _ (by intro ids S i e h; simp only [par_row B ids S i e h])]
    rfl
  · rw [h]
    refine ⟨B.groups.foldl (fun S ids => gatherPar B ids S) S, .hvol, rfl, ?_⟩
    simp only [Option.bind_some, if_true, reduceCtorEq, if_false]
    rw [fill_spec B hB _ _ _ (by intro ids S i e h; simp only [par_row B ids S i e h])]
    rfl
  · rw [h]
    obtain ⟨S', hS⟩ := vec h0
    refine ⟨S', .hdiv, rfl, ?_⟩
    simp only [Option.bind_some, if_true, reduceCtorEq, if_false]
    exact hS
  · rw [h]
    obtain ⟨S', hS⟩ := vec h0
    refine ⟨S', .hcurl, rfl, ?_⟩
    subst h0
    simp only [Option.bind_some, if_true, reduceCtorEq, if_false, h1, Option.map_some, decide_true]
    exact hS

example : Fine [.hgrad, .hdiv] 0 ⟨"q", 1⟩ ∧ Fine [.hgrad, .hdiv] 1 ⟨"k", 0⟩ := ⟨.inr (.inr (.inl ⟨rfl, rfl⟩)), .inl rfl⟩

/-- C151 is false for discretized parameters of type HDIV other than the first one: the search for the name never ends, no output
is written at all. -/
theorem C151_parameter_violated (G : Geo K) (B : Block K) (hg : B.groups ≠ []) (append : String) (types : List Kind)
    (ps : List Par) (n : Nat) (p : Par) (ht : types[p.basis]? = some .hdiv) (q : Par) (hq : ps.head? = some q)
    (hne : q.name ≠ p.name) (S : Shared K) : writePar G B append types ps n p S = none := by
  unfold writePar
  rw [ht]
  simp only [Option.bind_some, reduceCtorEq, if_false, if_true]
  rw [if_neg (by simpa using hg)]
  have : parIndex (ps.map Par.name) p.name = none := by
    unfold parIndex
    rw [if_neg]
    rw [List.head?_map, hq]
    simpa using hne
  rw [this]
  rfl

/-- The search of the model is the loop of the code (C42): a number is found exactly if the loop ends with success. -/
theorem C151_search (names : List String) (v : String) (hn : names ≠ []) (i : Nat) :
    parIndex names v = some i ↔ ∃ fuel r, Workset.isParameter (names.map String.toList) v.toList 0 fuel = some r ∧
      r.found = true ∧ r.index = i := by
  cases names with
  | nil => exact absurd rfl hn
  | cons a l =>
    unfold parIndex
    by_cases h : a = v
    · subst h
      simp only [List.head?_cons, if_true]
      obtain ⟨r, h1, h2, h3⟩ := Workset.C42_parameters_partial ((a :: l).map String.toList) a.toList 0 2
        (Or.inr rfl) (le_refl _)
      have hm : a.toList ∈ (a :: l).map String.toList := by simp
      constructor
      · intro he
        exact ⟨2, r, h1, h2.mpr hm, by rw [h3 hm]; simpa using he⟩
      · rintro ⟨fuel, r', g1, g2, g3⟩
        have : r'.index = 0 := by
          cases fuel with
          | zero => simp [Workset.isParameter, Workset.whileLoop] at g1
          | succ m =>
            cases m with
            | zero => simp [Workset.isParameter, Workset.whileLoop] at g1
            | succ k =>
              simp [Workset.isParameter, Workset.whileLoop] at g1
              rw [← g1]
        rw [← g3, this]
    · have hne : a.toList ≠ v.toList := fun e => h (String.toList_injective e)
      constructor
      · intro he
        simp [h] at he
      · rintro ⟨fuel, r', g1, _⟩
        rw [List.map_cons, Workset.C42_parameters_violated _ _ _ hne] at g1
        simp at g1

/-- C151 is false for discretized parameters of type HCURL: the code looks at the basis with the number of the parameter, not
at the basis of the parameter.  Nothing is written if that one is of another type, and the access is outside the list if
there are fewer bases than that. -/
theorem C151_curl_violated (G : Geo K) (B : Block K) (append : String) (types : List Kind) (ps : List Par) (n : Nat) (p : Par)
    (ht : types[p.basis]? = some .hcurl) (S : Shared K) :
    (∀ t, types[n]? = some t → t ≠ .hcurl → writePar G B append types ps n p S = some (S, [])) ∧
    (types.length ≤ n → writePar G B append types ps n p S = none) := by
  unfold writePar
  rw [ht]
  simp only [Option.bind_some, reduceCtorEq, if_false]
  constructor
  · intro t h hne
    rw [h]
    simp [hne]
  · intro h
    rw [List.getElem?_eq_none h]
    rfl

example : ([Kind.hgrad, .hcurl] : List Kind)[(⟨"A", 1⟩ : Par).basis]? = some .hcurl ∧ [Kind.hgrad, .hcurl][0]? = some .hgrad := by
  decide

/-- C151 is false for extra nodal fields: whatever was asked for, zeros are written. -/
theorem C151_extra_violated (G : Geo K) (B : Block K) (names : List String) (w : String × Data K)
    (hw : w ∈ writeExtra G B names) : ∃ l : List (List K), w.2 = .nodal l ∧ l.length = B.size ∧ ∀ r ∈ l, ∀ x ∈ r, x = 0 := by
  unfold writeExtra at hw
  obtain ⟨n, _, rfl⟩ := List.mem_map.mp hw
  refine ⟨_, rfl, by simp, ?_⟩
  intro r hr x hx
  rw [(List.mem_replicate.mp hr).2] at hx
  exact (List.mem_replicate.mp hx).2

example : (writeExtra line twoGroups ["speed"]).length = 1 := rfl

/-! ### Extra cell fields and derived quantities -/

/-- The position of an element in its group. [specification, no code] -/
def Position (B : Block K) (pos : Nat → Nat) : Prop := ∀ ids ∈ B.groups, ∀ (i e : Nat), ids[i]? = some e → pos e = i

theorem column_map (n : Nat) (fs : List (Nat → K)) (j : Nat) (g : Nat → K) (h : fs[j]? = some g) (extra : List K) :
    column ((List.range n).map (fun e => fs.map (fun f => f e) ++ extra)) j = (List.range n).map g := by
  unfold column
  rw [List.map_map]
  apply List.map_congr_left
  intro e _
  have hl : j < fs.length := by
    by_contra hc
    rw [List.getElem?_eq_none (by omega)] at h
    simp at h
  have hg : fs[j] = g := by
    rw [List.getElem?_eq_getElem hl] at h
    exact Option.some.inj h
  simp [List.getElem?_append, hl, hg]

/-- C151, extra cell fields, what is written exactly: the first set and the parameters are those of the element, the other sets
are what the tables hold at the position of the element in its group. -/
theorem C151_cells_exact (B : Block K) (hB : Split B) (pos : Nat → Nat) (hpos : Position B pos) (append : String)
    (fs : List (String × Field' K K)) (S : Shared K) : ∃ S' : Shared K, writeCells B append fs S = some (S',
      fs.map (fun x => (x.1 ++ append, .cell ((List.range B.size).map (fun e =>
        x.2 e (fun s => if s = 0 then B.sol 0 e else S.sol s (pos e)) (B.par e)))))) := by
  unfold writeCells
  cases fs with
  | nil => exact ⟨S, rfl⟩
  | cons a l =>
    rw [if_neg (by simp)]
    generalize hfs : a :: l = fs
    rw [fill_exact B hB _ _ _ (fun e => fs.map (fun x => x.2 e (fun s => if s = 0 then B.sol 0 e else S.sol s (pos e)) (B.par e)))
      (fun S' => ∀ s, s ≠ 0 → S'.sol s = S.sol s) (by
        intro ids hi S' hS'
        refine ⟨fun s hs => ?_, fun i e h => ?_⟩
        · funext p
          simp only [gatherPar, gatherSol, hs, if_false]
          rw [hS' s hs]
        · have h1 : (fun s => (gatherPar B ids (gatherSol B 0 ids S')).sol s i) =
              fun s => if s = 0 then B.sol 0 e else S.sol s (pos e) := by
            funext s
            by_cases hs : s = 0
            · subst hs
              rw [if_pos rfl]
              exact sol_row B 0 ids S' i e h
            · rw [if_neg hs, hpos ids hi i e h]
              simp only [gatherPar, gatherSol, hs, if_false]
              rw [hS' s hs]
          rw [h1, par_row B ids _ i e h]) S (fun _ _ => rfl)]
    refine ⟨B.groups.foldl (fun S ids => gatherPar B ids (gatherSol B 0 ids S)) S, ?_⟩
    rw [Option.map_some]
    congr 2
    apply List.ext_getElem?
    intro j
    rw [List.getElem?_map, List.getElem?_zipIdx, List.getElem?_map]
    cases hj : fs[j]? with
    | none => rfl
    | some x =>
      simp only [Option.map_some, Nat.zero_add]
      congr 3
      have := column_map B.size (fs.map (fun y e => y.2 e (fun s => if s = 0 then B.sol 0 e else S.sol s (pos e)) (B.par e))) j
        _ (by rw [List.getElem?_map, hj]; rfl) []
      simpa [List.map_map, Function.comp_def] using this

/-- C151, derived quantities, what is written exactly: only the first set is that of the element; the other sets and the
discretized parameters are what the tables hold at the position of the element in its group. -/
theorem C151_derived_exact (B : Block K) (hB : Split B) (pos : Nat → Nat) (hpos : Position B pos) (append : String)
    (ms : List (Module K)) (hms : ∀ m ∈ ms, m.names.length = m.values.length) (S : Shared K) :
    ∃ S' : Shared K, writeDerived B append ms S = some (S',
      ((ms.flatMap Module.names).zip (ms.flatMap Module.values)).map (fun x => (x.1 ++ append, .cell ((List.range B.size).map
        (fun e => x.2 e (fun s => if s = 0 then B.sol 0 e else S.sol s (pos e)) (S.par (pos e))))))) := by
  have hlen : (ms.flatMap Module.names).length = (ms.flatMap Module.values).length := by
    rw [List.length_flatMap, List.length_flatMap]
    congr 1
    exact List.map_congr_left hms
  unfold writeDerived
  generalize hn : ms.flatMap Module.names = names at hlen ⊢
  generalize hv : ms.flatMap Module.values = fs at hlen ⊢
  dsimp only
  by_cases he : names.isEmpty
  · rw [if_pos he]
    have : names = [] := by simpa using he
    subst this
    exact ⟨S, rfl⟩
  · rw [if_neg he, if_neg (by omega)]
    rw [fill_exact B hB _ _ _ (fun e => fs.map (fun x => x e (fun s => if s = 0 then B.sol 0 e else S.sol s (pos e))
        (S.par (pos e))) ++ List.replicate (names.length - fs.length) 0)
      (fun S' => (∀ s, s ≠ 0 → S'.sol s = S.sol s) ∧ S'.par = S.par) (by
        rintro ids hi S' ⟨hS', hpar⟩
        refine ⟨⟨fun s hs => ?_, hpar⟩, fun i e h => ?_⟩
        · funext p
          simp only [gatherSol, hs, if_false]
          rw [hS' s hs]
        · have h1 : (fun s => (gatherSol B 0 ids S').sol s i) =
              fun s => if s = 0 then B.sol 0 e else S.sol s (pos e) := by
            funext s
            by_cases hs : s = 0
            · subst hs
              rw [if_pos rfl]
              exact sol_row B 0 ids S' i e h
            · rw [if_neg hs, hpos ids hi i e h]
              simp only [gatherSol, hs, if_false]
              rw [hS' s hs]
          have h2 : (gatherSol B 0 ids S').par i = S.par (pos e) := by
            rw [hpos ids hi i e h, ← hpar]
            rfl
          rw [h1, h2]) S ⟨fun _ _ => rfl, rfl⟩]
    refine ⟨B.groups.foldl (fun S ids => gatherSol B 0 ids S) S, ?_⟩
    rw [Option.map_some]
    congr 2
    apply List.ext_getElem?
    intro j
    rw [List.getElem?_map, List.getElem?_zipIdx, List.getElem?_map]
    by_cases hj : j < names.length
    · have hj' : j < fs.length := by omega
      rw [List.getElem?_eq_getElem hj, List.getElem?_eq_getElem (l := names.zip fs) (by simp; omega)]
      simp only [Option.map_some, Nat.zero_add, List.getElem_zip]
      congr 3
      have := column_map B.size (fs.map (fun y e => y e (fun s => if s = 0 then B.sol 0 e else S.sol s (pos e)) (S.par (pos e)))) j
        _ (by rw [List.getElem?_map, List.getElem?_eq_getElem hj']; rfl) (List.replicate (names.length - fs.length) 0)
      simpa [List.map_map, Function.comp_def] using this
    · rw [List.getElem?_eq_none (by omega), List.getElem?_eq_none (l := names.zip fs) (by simp; omega)]
      rfl

example : Position twoGroups (fun e => if e = 0 then 1 else 0) := by
  intro ids hi i e h
  simp only [twoGroups, List.mem_cons, List.not_mem_nil, or_false] at hi
  rcases hi with rfl | rfl
  · rcases i with _ | _ | i <;> simp at h <;> subst h <;> rfl
  · rcases i with _ | i <;> simp at h
    subst h; rfl

/-- C151 for extra cell fields, partial: a field that only depends on the first set and on the discretized parameters is written
with the values of the element itself.  Missing: see `C151_sets_violated`. -/
theorem C151_cells_partial (B : Block K) (hB : Split B) (pos : Nat → Nat) (hpos : Position B pos) (append : String)
    (fs : List (String × Field' K K)) (hfs : ∀ x ∈ fs, Looks x.2 (fun s => s = 0) True) (S : Shared K) :
    ∃ S' : Shared K, writeCells B append fs S = some (S', fs.map (fun x => (x.1 ++ append, .cell (own B x.2)))) := by
  obtain ⟨S', h⟩ := C151_cells_exact B hB pos hpos append fs S
  refine ⟨S', ?_⟩
  rw [h]
  congr 2
  apply List.map_congr_left
  intro x hx
  congr 2
  apply List.map_congr_left
  intro e _
  exact hfs x hx _ _ _ _ _ (by rintro s rfl; rw [if_pos rfl]) (fun _ => rfl)

/-- C151 for derived quantities, partial: a quantity that only depends on the first set, of modules that return as many values as
names, is written with the values of the element itself.  Missing: see `C151_derived_violated`, `C151_names_violated`. -/
theorem C151_derived_partial (B : Block K) (hB : Split B) (pos : Nat → Nat) (hpos : Position B pos) (append : String)
    (ms : List (Module K)) (hms : ∀ m ∈ ms, m.names.length = m.values.length)
    (hfs : ∀ m ∈ ms, ∀ f ∈ m.values, Looks f (fun s => s = 0) False) (S : Shared K) :
    ∃ S' : Shared K, writeDerived B append ms S = some (S',
      ((ms.flatMap Module.names).zip (ms.flatMap Module.values)).map (fun x => (x.1 ++ append, .cell (own B x.2)))) := by
  obtain ⟨S', h⟩ := C151_derived_exact B hB pos hpos append ms hms S
  refine ⟨S', ?_⟩
  rw [h]
  congr 2
  apply List.map_congr_left
  intro x hx
  have hf : x.2 ∈ ms.flatMap Module.values := (List.of_mem_zip hx).2
  obtain ⟨m, hm, hf⟩ := List.mem_flatMap.mp hf
  congr 2
  apply List.map_congr_left
  intro e _
  exact hfs m hm x.2 hf _ _ _ _ _ (by rintro s rfl; rw [if_pos rfl]) (fun h => h.elim)

example : Looks (fun _ c q => c 0 0 0 * q 0 0 : Field' ℚ ℚ) (fun s => s = 0) True ∧
    Looks (fun _ c _ => c 0 0 1 : Field' ℚ ℚ) (fun s => s = 0) False :=
  ⟨fun e c c' q q' h1 h2 => by dsimp only; rw [h1 0 rfl, h2 trivial], fun e c c' q q' h1 _ => by dsimp only; rw [h1 0 rfl]⟩

theorem writeList_spec {X : Type} (w : X → Shared K → Option (Shared K × Writes K)) (want : X → Writes K) :
    ∀ (l : List X), (∀ x ∈ l, ∀ S, ∃ S' : Shared K, w x S = some (S', want x)) → ∀ S,
      ∃ S' : Shared K, writeList w l S = some (S', l.flatMap want) := by
  intro l
  induction l with
  | nil => intro _ S; exact ⟨S, rfl⟩
  | cons x l ih =>
    intro h S
    obtain ⟨S1, h1⟩ := h x (by simp) S
    obtain ⟨S2, h2⟩ := ih (fun y hy => h y (by simp [hy])) S1
    refine ⟨S2, ?_⟩
    unfold writeList
    rw [h1, Option.bind_some, h2]
    rfl

/-- C151, partial: the whole output of a block, whatever the tables held before.  Every state variable, every discretized parameter,
every extra cell field and derived quantity stands at each element with the values of that element, if the parameters are
such as `Fine` says, extra cell fields only depend on the first set and on the parameters, derived quantities only on the
first set.  Extra nodal fields are zero. -/
theorem C151_partial (G : Geo K) (B : Block K) (hB : Split B) (hs : B.size ≠ 0) (pos : Nat → Nat) (hpos : Position B pos)
    (J : Job K) (hP : ∀ n p, J.pars[n]? = some p → Fine J.types n p)
    (hC : ∀ x ∈ J.cells, Looks x.2 (fun s => s = 0) True)
    (hM : ∀ m ∈ J.modules, m.names.length = m.values.length)
    (hD : ∀ m ∈ J.modules, ∀ f ∈ m.values, Looks f (fun s => s = 0) False) (S : Shared K) :
    ∃ S' : Shared K, write G B J S = some (S',
      J.vars.flatMap (wantedVar G B J.append J.hface) ++
      J.pars.zipIdx.flatMap (fun x => wantedPar G B J.append ((J.types[x.1.basis]?).getD .hgrad) x.2 x.1) ++
      J.extra.map (fun n => (n, .nodal (List.replicate B.size (List.replicate G.nodes 0)))) ++
      J.cells.map (fun x => (x.1 ++ J.append, .cell (own B x.2))) ++
      ((J.modules.flatMap Module.names).zip (J.modules.flatMap Module.values)).map
        (fun x => (x.1 ++ J.append, .cell (own B x.2)))) := by
  unfold write
  rw [if_neg hs]
  obtain ⟨S1, h1⟩ := writeList_spec (writeVar G B J.append J.hface) _ J.vars
    (fun v _ S => C151_state G B hB J.append J.hface v S) S
  rw [h1, Option.bind_some]
  obtain ⟨S2, h2⟩ := writeList_spec (fun (x : Par × Nat) => writePar G B J.append J.types J.pars x.2 x.1)
    (fun x => wantedPar G B J.append ((J.types[x.1.basis]?).getD .hgrad) x.2 x.1) J.pars.zipIdx (by
      rintro ⟨p, n⟩ hx S
      have hp : J.pars[n]? = some p := by
        have := List.mem_zipIdx_iff_getElem?.mp hx
        simpa using this
      obtain ⟨S', t, ht, h⟩ := C151_parameter_partial G B hB J.append J.types J.pars n p hp (hP n p hp) S
      refine ⟨S', ?_⟩
      simp only [ht, Option.getD_some]
      exact h) S1
  rw [h2, Option.bind_some]
  obtain ⟨S3, h3⟩ := C151_cells_partial B hB pos hpos J.append J.cells hC S2
  rw [h3, Option.bind_some]
  obtain ⟨S4, h4⟩ := C151_derived_partial B hB pos hpos J.append J.modules hM hD S3
  rw [h4]
  exact ⟨S4, rfl⟩

/-- C151 is false for several physics sets: an extra cell field which is the variable `T` of the second set.  At the elements of
the first group it shows the values of the elements of the last group. -/
theorem C151_sets_violated : Split twoGroups ∧
    (write line twoGroups ⟨"", false, [⟨0, 0, "u", .hvol, 0⟩, ⟨1, 0, "T", .hvol, 0⟩], [], [], [],
      [("Tcell", fun _ c _ => c 1 0 0)], []⟩ stale).map (fun r => r.2.map Prod.snd) =
    some [.cell [0, 10, 20], .cell [100, 110, 120], .cell [100, 110, 110]] ∧
    own twoGroups (fun _ c _ => c 1 0 0) = [100, 110, 120] := by
  refine ⟨by unfold Split twoGroups; decide, by decide +kernel, by decide +kernel⟩

/-- C151 is false for derived quantities that use a discretized parameter: a module of the first set returns the parameter.  At the
elements of the first group it shows the parameter of elements of the last group. -/
theorem C151_derived_violated :
    (write line twoGroups ⟨"", false, [⟨0, 0, "u", .hvol, 0⟩], [.hvol], [⟨"k", 0⟩], [], [],
      [⟨["perm"], [fun _ _ q => q 0 0]⟩]⟩ stale).map (fun r => r.2.map Prod.snd) =
    some [.cell [0, 10, 20], .cell [1000, 1010, 1020], .cell [1000, 1010, 1010]] ∧
    own twoGroups (fun _ _ q => q 0 0) = [1000, 1010, 1020] := by
  refine ⟨by decide +kernel, by decide +kernel⟩

/-- C151 is false for the names of derived quantities: if a module announces a name without returning values, the values of the
next modules are written under the wrong names. -/
theorem C151_names_violated :
    (write line twoGroups ⟨"", false, [], [], [], [], [],
      [⟨["a"], []⟩, ⟨["b"], [fun e _ _ => (e : ℚ)]⟩]⟩ stale).map (fun r => r.2) =
    some [("a", .cell [0, 1, 2]), ("b", .cell [0, 0, 0])] := by
  decide +kernel

end MrHyDE.Postprocess.Exodus
