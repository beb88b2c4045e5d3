import Verif.Postprocess.Exodus

/-! # C152: the fields written to the output file have been declared

The mesh database only accepts data for fields that were declared before the mesh was completed: `MeshInterface::finalize`
(/repo/src/interfaces/mesh/meshInterface_construct.hpp:371-520) declares them from the input and the physics modules,
`writeSolution` (/repo/src/managers/postprocess/postprocessManager_exodus.hpp:14-671, model in `Exodus`) hands the data over.  Data for
a field that was not declared, or declared of the other kind (nodal, element), ends the run in the mesh database (library). -/

namespace MrHyDE.Postprocess.Exodus

set_option linter.unusedSectionVars false

/-! ## Model -/

/-- A field name with its kind: `true` for `addSolutionField` (values at nodes), `false` for `addCellField`;
meshInterface_construct.hpp:411-425. -/
abbrev Tag := String × Bool

/-- A discretized parameter of the input: name and the entry `type`, if given; meshInterface_construct.hpp:487-507. -/
structure ParIn where
  name : String
  type : Option Kind

/-- The part of the input `finalize` looks at, for one block: is the mesh in the STK database, number of samples if the analysis is
`UQ`, variables of each set, extra fields, extra cell fields, derived names of the modules of each set, subgrid models, mesh
data from a file, at the quadrature points, computed, new grains for each sample, group number, basis database, discretized
parameters. [meshInterface_construct.hpp:30-34, 77-91, 382-507] -/
structure Input where
  stk : Bool
  dim : Nat
  uq : Option Nat
  sets : List (List (String × Kind))
  extra : List String
  cells : List String
  derived : List (List (List String))
  subgrid : Bool
  meshData : Bool
  quadrature : Bool
  computed : Bool
  grains : Bool
  groupNumber : Bool
  database : Bool
  pars : List ParIn

/-- The texts appended to the names; meshInterface_construct.hpp:383-400. -/
def appends (I : Input) : List String :=
  match I.uq with
  | some n => (List.range n).map (fun j => "_" ++ toString j)
  | none => [""]

/-- Components of a vector field; meshInterface_construct.hpp:420-426, 500-506. -/
def vecTags (dim : Nat) (name : String) : List Tag :=
  (name ++ "x", false) :: ((if dim > 1 then [(name ++ "y", false)] else []) ++ (if dim > 2 then [(name ++ "z", false)] else []))

/-- A state variable is declared; meshInterface_construct.hpp:410-427. -/
def declVar (dim : Nat) (a : String) (v : String × Kind) : List Tag :=
  match v.2 with
  | .hgrad => [(v.1 ++ a, true)]
  | .hvol | .hface => [(v.1 ++ a, false)]
  | .hdiv | .hcurl => vecTags dim (v.1 ++ a)

/-- A discretized parameter is declared; meshInterface_construct.hpp:492-507.  `none`: the entry `type` is missing and
`get<string>` throws. -/
def declPar (dim : Nat) (a : String) (p : ParIn) : Option (List Tag) :=
  p.type.map fun t => match t with
  | .hgrad => [(p.name ++ a, true)]
  | .hvol => [(p.name ++ a, false)]
  | .hdiv | .hcurl => vecTags dim (p.name ++ a)
  | .hface => []

/-- The declarations of one set and one appended text; meshInterface_construct.hpp:404-510. -/
def declSet (I : Input) (a : String) (vars : List (String × Kind)) (derived : List (List String)) : Option (List Tag) :=
  (I.pars.mapM (declPar I.dim a)).map fun ps =>
    vars.flatMap (declVar I.dim a) ++ I.extra.map (fun n => (n ++ a, true)) ++
    I.cells.flatMap (fun n => (n ++ a, false) :: if I.subgrid then [("subgrid_mean_" ++ n ++ a, false)] else []) ++
    derived.flatten.map (fun n => (n ++ a, false)) ++
    (if I.meshData || I.computed then [("mesh_data_seed", false), ("mesh_data", false)] else []) ++
    (if I.subgrid then [("subgrid model", false)] else []) ++
    (if I.groupNumber then [("group number", false)] else []) ++
    (if I.database then [("unique Jacobian ID", false)] else []) ++ ps.flatten

/-- `finalize` with `write solution`; meshInterface_construct.hpp:382-515.  `none`: an exception, in particular when the mesh is not
in the STK database (`stk_mesh` is null and there is no test). -/
def declared (I : Input) : Option (List Tag) :=
  if I.stk then ((appends I).mapM (fun a => ((I.sets.zip I.derived).mapM (fun x => declSet I a x.1 x.2)).map List.flatten)).map
    List.flatten
  else none

/-- The kind of data. [meshInterface_exodus.hpp:189-203] -/
def Data.isNodal {K : Type} : Data K → Bool
  | .nodal _ => true
  | .cell _ => false

/-- Are the fields `mesh_data_seed` and `mesh_data` written: the flags of the group data after `setMeshData`
(assemblyManager_util.hpp:369-381, 460-462, 526-528, 663, 953-954) and after new grains for a sample
(analysisManager_solve.hpp:252-256); postprocessManager_exodus.hpp:524-527. -/
def meshWritten (I : Input) : Bool :=
  (if I.meshData && I.quadrature then false else if I.meshData then true else I.computed) || (I.uq.isSome && I.grains)

/-- The fields after the derived quantities; postprocessManager_exodus.hpp:524-652. -/
def restTags (I : Input) : List Tag :=
  (if meshWritten I then [("mesh_data_seed", false), ("mesh_data", false)] else []) ++
  (if I.groupNumber then [("group number", false)] else []) ++
  (if I.database then [("unique Jacobian ID", false)] else []) ++
  (if I.subgrid then [("subgrid model", false)] else [])

/-- Number of the basis of a given type in the list of bases: all kinds needed, each once;
parameterManager_setup.hpp:247-261.  Simplified: one order. -/
def basisOf (types : List Kind) (t : Kind) : Nat := types.idxOf t

/-- The settings of `writeSolution` that belong to the input: variables, parameters (`type` defaults to HGRAD,
parameterManager_setup.hpp:132), names of extra fields, cell fields and modules; postprocessManager_construct.hpp:252-289. -/
structure Matches {K : Type} (I : Input) (ts : List Kind) (a : String) (J : Job K) : Prop where
  append : J.append = a
  vars : J.vars.map (fun v => (v.name, v.kind)) = I.sets.flatten
  types : J.types = ts
  pars : J.pars = I.pars.map (fun p => ⟨p.name, basisOf ts (p.type.getD .hgrad)⟩)
  extra : J.extra = I.extra
  cells : J.cells.map Prod.fst = I.cells
  modules : J.modules.map Module.names = I.derived.flatten

/-! ## Names written -/

variable {K : Type} [Field K]

/-- Names and kinds of what is handed over. [specification, no code] -/
def tags (w : Writes K) : List Tag := w.map (fun x => (x.1, x.2.isNodal))

theorem tags_append (u w : Writes K) : tags (u ++ w) = tags u ++ tags w := by simp [tags]

theorem tags_components (dim : Nat) (name : String) (c : Nat → List K) :
    tags (components dim name ((List.range 3).map c)) = vecTags dim name := by
  have hr : (List.range 3) = [0, 1, 2] := by decide
  rw [hr]
  unfold components vecTags tags
  by_cases h2 : dim > 2
  · have h1 : dim > 1 := by omega
    simp [h2, h1, Data.isNodal]
  · by_cases h1 : dim > 1
    · simp [h2, h1, Data.isNodal]
    · simp [h2, h1, Data.isNodal]

theorem tags_var (G : Geo K) (B : Block K) (a : String) (hf : Bool) (v : Var) (S S' : Shared K) (w : Writes K)
    (h : writeVar G B a hf v S = some (S', w)) : ∀ t ∈ tags w, t ∈ declVar G.dim a (v.name, v.kind) := by
  unfold writeVar at h
  unfold declVar
  cases hk : v.kind with
  | hgrad =>
    rw [hk] at h
    obtain ⟨r, _, e⟩ := Option.map_eq_some_iff.mp h
    simp only [Prod.mk.injEq] at e
    rw [← e.2]
    simp [tags, Data.isNodal]
  | hvol =>
    rw [hk] at h
    obtain ⟨r, _, e⟩ := Option.map_eq_some_iff.mp h
    simp only [Prod.mk.injEq] at e
    rw [← e.2]
    simp [tags, Data.isNodal]
  | hdiv =>
    rw [hk] at h
    obtain ⟨r, _, e⟩ := Option.map_eq_some_iff.mp h
    simp only [Prod.mk.injEq] at e
    rw [← e.2, tags_components]
    exact fun t ht => ht
  | hcurl =>
    rw [hk] at h
    obtain ⟨r, _, e⟩ := Option.map_eq_some_iff.mp h
    simp only [Prod.mk.injEq] at e
    rw [← e.2, tags_components]
    exact fun t ht => ht
  | hface =>
    rw [hk] at h
    dsimp only at h
    split_ifs at h with hh
    · obtain ⟨r, _, e⟩ := Option.map_eq_some_iff.mp h
      simp only [Prod.mk.injEq] at e
      rw [← e.2]
      simp [tags, Data.isNodal]
    · simp only [Option.some.injEq, Prod.mk.injEq] at h
      rw [← h.2]
      simp [tags]

theorem tags_list {X : Type} (w : X → Shared K → Option (Shared K × Writes K)) (D : Tag → Prop) : ∀ (l : List X),
    (∀ x ∈ l, ∀ S S' r, w x S = some (S', r) → ∀ t ∈ tags r, D t) →
    ∀ S S' r, writeList w l S = some (S', r) → ∀ t ∈ tags r, D t := by
  intro l
  induction l with
  | nil =>
    intro _ S S' r h t ht
    simp only [writeList, Option.some.injEq, Prod.mk.injEq] at h
    rw [← h.2] at ht
    simp [tags] at ht
  | cons x l ih =>
    intro hx S S' r h t ht
    unfold writeList at h
    obtain ⟨r1, h1, h2⟩ := Option.bind_eq_some_iff.mp h
    obtain ⟨r2, h3, h4⟩ := Option.map_eq_some_iff.mp h2
    simp only [Prod.mk.injEq] at h4
    rw [← h4.2, tags_append] at ht
    rcases List.mem_append.mp ht with ht | ht
    · exact hx x (by simp) S r1.1 r1.2 h1 t ht
    · exact ih (fun y hy => hx y (by simp [hy])) r1.1 r2.1 r2.2 h3 t ht

theorem tags_cells (B : Block K) (a : String) (fs : List (String × Field' K K)) (S S' : Shared K) (w : Writes K)
    (h : writeCells B a fs S = some (S', w)) : tags w = (fs.map Prod.fst).map (fun n => (n ++ a, false)) := by
  unfold writeCells at h
  split_ifs at h with he
  · simp only [Option.some.injEq, Prod.mk.injEq] at h
    rw [← h.2]
    have : fs = [] := by simpa using he
    rw [this]
    rfl
  · obtain ⟨r, _, e⟩ := Option.map_eq_some_iff.mp h
    simp only [Prod.mk.injEq] at e
    rw [← e.2]
    unfold tags
    rw [List.map_map, List.map_map]
    apply List.ext_getElem?
    intro j
    rw [List.getElem?_map, List.getElem?_zipIdx, List.getElem?_map]
    cases fs[j]? <;> rfl

theorem tags_derived (B : Block K) (a : String) (ms : List (Module K)) (S S' : Shared K) (w : Writes K)
    (h : writeDerived B a ms S = some (S', w)) : tags w = (ms.flatMap Module.names).map (fun n => (n ++ a, false)) := by
  unfold writeDerived at h
  dsimp only at h
  split_ifs at h with he hl
  · simp only [Option.some.injEq, Prod.mk.injEq] at h
    rw [← h.2]
    have : ms.flatMap Module.names = [] := by
      have := he
      rwa [List.isEmpty_iff] at this
    rw [this]
    rfl
  · obtain ⟨r, _, e⟩ := Option.map_eq_some_iff.mp h
    simp only [Prod.mk.injEq] at e
    rw [← e.2]
    unfold tags
    rw [List.map_map]
    apply List.ext_getElem?
    intro j
    rw [List.getElem?_map, List.getElem?_zipIdx, List.getElem?_map]
    cases (ms.flatMap Module.names)[j]? <;> rfl

/-! ## C152 -/

theorem mapM_mem {X Y : Type} (f : X → Option Y) : ∀ (l : List X) (L : List Y), l.mapM f = some L →
    ∀ x ∈ l, ∃ y, f x = some y ∧ y ∈ L := by
  intro l
  induction l with
  | nil => intro L _ x hx; simp at hx
  | cons z l ih =>
    intro L h x hx
    rw [List.mapM_cons] at h
    obtain ⟨y, hy, h2⟩ := Option.bind_eq_some_iff.mp h
    obtain ⟨L', hL', h3⟩ := Option.bind_eq_some_iff.mp h2
    have h3 : y :: L' = L := Option.some.inj h3
    rcases List.mem_cons.mp hx with rfl | hx
    · exact ⟨y, hy, by rw [← h3]; simp⟩
    · obtain ⟨y', h4, h5⟩ := ih L' hL' x hx
      exact ⟨y', h4, by rw [← h3]; simp [h5]⟩

theorem mem_declared {I : Input} {D : List Tag} (hD : declared I = some D) {a : String} (ha : a ∈ appends I)
    {x : List (String × Kind) × List (List String)} (hx : x ∈ I.sets.zip I.derived) :
    ∃ l : List Tag, declSet I a x.1 x.2 = some l ∧ ∀ t ∈ l, t ∈ D := by
  unfold declared at hD
  split_ifs at hD with hs
  obtain ⟨L, hL, rfl⟩ := Option.map_eq_some_iff.mp hD
  obtain ⟨la, h1, h2⟩ := mapM_mem _ _ _ hL a ha
  obtain ⟨M, hM, rfl⟩ := Option.map_eq_some_iff.mp h1
  obtain ⟨l, h3, h4⟩ := mapM_mem _ _ _ hM x hx
  exact ⟨l, h3, fun t ht => List.mem_flatten.mpr ⟨M.flatten, h2, List.mem_flatten.mpr ⟨l, h4, ht⟩⟩⟩

theorem tags_par (G : Geo K) (B : Block K) (a : String) (types : List Kind) (ps : List Par) (n : Nat) (name : String) (t : Kind)
    (ht : t ∈ types) (hne : t ≠ .hface) (S S' : Shared K) (w : Writes K) (l : List Tag)
    (hl : declPar G.dim a ⟨name, some t⟩ = some l)
    (h : writePar G B a types ps n ⟨name, basisOf types t⟩ S = some (S', w)) : ∀ x ∈ tags w, x ∈ l := by
  have hb : types[basisOf types t]? = some t := by
    unfold basisOf
    rw [List.getElem?_eq_getElem (List.idxOf_lt_length_of_mem ht)]
    simp
  unfold writePar at h
  rw [hb, Option.bind_some] at h
  unfold declPar at hl
  simp only [Option.map_some, Option.some.injEq] at hl
  split_ifs at h with h1 h2 h3
  · subst h1
    obtain ⟨r, _, e⟩ := Option.map_eq_some_iff.mp h
    simp only [Prod.mk.injEq] at e
    rw [← e.2, ← hl]
    simp [tags, Data.isNodal]
  · subst h2
    obtain ⟨r, _, e⟩ := Option.map_eq_some_iff.mp h
    simp only [Prod.mk.injEq] at e
    rw [← e.2, ← hl]
    simp [tags, Data.isNodal]
  all_goals
    obtain ⟨yes, _, h⟩ := Option.bind_eq_some_iff.mp h
    cases yes with
    | false =>
      simp only [Bool.false_eq_true, if_false, Option.some.injEq, Prod.mk.injEq] at h
      rw [← h.2]
      simp [tags]
    | true =>
      rw [if_pos rfl] at h
      obtain ⟨i, _, h⟩ := Option.bind_eq_some_iff.mp h
      obtain ⟨r, _, e⟩ := Option.map_eq_some_iff.mp h
      simp only [Prod.mk.injEq] at e
      rw [← e.2, tags_components, ← hl]
      cases t with
      | hgrad => exact absurd rfl h1
      | hvol => exact absurd rfl h2
      | hface => exact absurd rfl hne
      | hdiv => exact fun x hx => hx
      | hcurl => exact fun x hx => hx

/-- C152, partial: for a mesh in the STK database, each field written for a sample (or for the only run) has been declared with the
same name and kind, for any sets, variables, parameters, cell fields, modules and options, if there are no extra nodal
fields in a `UQ` run, discretized parameters are not of type HFACE, and new grains are only asked for together with mesh
data.  Missing: see the `_violated` theorems. -/
theorem C152_partial (I : Input) (D : List Tag) (hD : declared I = some D) (hlen : I.derived.length = I.sets.length)
    (hne : I.sets ≠ []) (a : String) (ha : a ∈ appends I) (types : List Kind) (J : Job K) (hJ : Matches I types a J)
    (hT : ∀ p ∈ I.pars, ∀ t, p.type = some t → t ∈ types ∧ t ≠ .hface)
    (hE : I.uq = none ∨ I.extra = []) (hG : I.uq.isSome → I.grains → I.meshData || I.computed)
    (G : Geo K) (hdim : G.dim = I.dim) (B : Block K) (S S' : Shared K) (w : Writes K) (hw : write G B J S = some (S', w)) :
    ∀ t ∈ tags w ++ restTags I, t ∈ D := by
  obtain ⟨x0, hx0⟩ : ∃ x, x ∈ I.sets.zip I.derived := by
    cases hs : I.sets with
    | nil => exact absurd hs hne
    | cons y l =>
      cases hd : I.derived with
      | nil => rw [hs, hd] at hlen; simp at hlen
      | cons z m => exact ⟨(y, z), by simp⟩
  obtain ⟨l0, hl0, hsub0⟩ := mem_declared hD ha hx0
  intro t ht
  rcases List.mem_append.mp ht with ht | ht
  · unfold write at hw
    split_ifs at hw with hs
    · simp only [Option.some.injEq, Prod.mk.injEq] at hw
      rw [← hw.2] at ht
      simp [tags] at ht
    obtain ⟨r1, e1, hw⟩ := Option.bind_eq_some_iff.mp hw
    obtain ⟨r2, e2, hw⟩ := Option.bind_eq_some_iff.mp hw
    obtain ⟨r3, e3, hw⟩ := Option.bind_eq_some_iff.mp hw
    obtain ⟨r4, e4, hw⟩ := Option.map_eq_some_iff.mp hw
    simp only [Prod.mk.injEq] at hw
    rw [← hw.2] at ht
    simp only [tags_append, List.mem_append] at ht
    rw [hJ.append] at e1 e2 e3 e4
    rcases ht with (((ht | ht) | ht) | ht) | ht
    · refine tags_list _ (fun t => t ∈ D) J.vars ?_ S r1.1 r1.2 e1 t ht
      intro v hv S S' r hr t ht
      have h1 := tags_var G B a J.hface v S S' r hr t ht
      rw [hdim] at h1
      have hv' : (v.name, v.kind) ∈ I.sets.flatten := by
        rw [← hJ.vars]
        exact List.mem_map.mpr ⟨v, hv, rfl⟩
      obtain ⟨vs, hvs, hvv⟩ := List.mem_flatten.mp hv'
      obtain ⟨i, hi, hie⟩ := List.mem_iff_getElem.mp hvs
      have hx : (vs, I.derived[i]'(by omega)) ∈ I.sets.zip I.derived := by
        refine List.mem_iff_getElem.mpr ⟨i, by simp; omega, ?_⟩
        rw [List.getElem_zip, hie]
      obtain ⟨l, hl, hsub⟩ := mem_declared hD ha hx
      unfold declSet at hl
      obtain ⟨ps, _, rfl⟩ := Option.map_eq_some_iff.mp hl
      apply hsub
      simp only [List.mem_append]
      have : t ∈ vs.flatMap (declVar I.dim a) := List.mem_flatMap.mpr ⟨_, hvv, h1⟩
      simp only [this, true_or]
    · refine tags_list _ (fun t => t ∈ D) J.pars.zipIdx ?_ r1.1 r2.1 r2.2 e2 t ht
      rintro ⟨p, n⟩ hp S S' r hr t ht
      have hp' : p ∈ J.pars := by
        have := List.mem_zipIdx_iff_getElem?.mp hp
        exact List.mem_of_getElem? (by simpa using this)
      rw [hJ.pars] at hp'
      obtain ⟨q, hq, rfl⟩ := List.mem_map.mp hp'
      unfold declSet at hl0
      obtain ⟨ps, hps, rfl⟩ := Option.map_eq_some_iff.mp hl0
      obtain ⟨lq, hlq, hmem⟩ := mapM_mem _ _ _ hps q hq
      apply hsub0
      simp only [List.mem_append]
      right
      refine List.mem_flatten.mpr ⟨lq, hmem, ?_⟩
      have hty : ∃ ty, q.type = some ty := by
        unfold declPar at hlq
        cases hty : q.type with
        | none => rw [hty] at hlq; simp at hlq
        | some ty => exact ⟨ty, rfl⟩
      obtain ⟨ty, hty⟩ := hty
      have hqe : q = ⟨q.name, some ty⟩ := by rw [← hty]
      rw [← hdim, hqe] at hlq
      obtain ⟨h1, h2⟩ := hT q hq ty hty
      dsimp only at hr
      rw [hty, Option.getD_some, hJ.types] at hr
      exact tags_par G B a types J.pars n q.name ty h1 h2 S S' r lq hlq hr t ht
    · rw [hJ.extra] at ht
      rcases hE with hE | hE
      · have haa : a = "" := by
          unfold appends at ha
          rw [hE] at ha
          simpa using ha
        unfold declSet at hl0
        obtain ⟨ps, _, rfl⟩ := Option.map_eq_some_iff.mp hl0
        apply hsub0
        simp only [List.mem_append]
        have : t ∈ I.extra.map (fun n => (n ++ a, true)) := by
          rw [haa]
          simp only [tags, writeExtra, List.map_map] at ht
          simpa [Function.comp_def, Data.isNodal] using ht
        simp only [this, true_or, or_true]
      · rw [hE] at ht
        simp [tags, writeExtra] at ht
    · rw [tags_cells B a J.cells r2.1 r3.1 r3.2 e3, hJ.cells] at ht
      obtain ⟨n, hn, rfl⟩ := List.mem_map.mp ht
      unfold declSet at hl0
      obtain ⟨ps, _, rfl⟩ := Option.map_eq_some_iff.mp hl0
      apply hsub0
      simp only [List.mem_append]
      have : (n ++ a, false) ∈ I.cells.flatMap (fun n => (n ++ a, false) ::
          if I.subgrid then [("subgrid_mean_" ++ n ++ a, false)] else []) := List.mem_flatMap.mpr ⟨n, hn, by simp⟩
      simp only [this, true_or, or_true]
    · rw [tags_derived B a J.modules r3.1 r4.1 r4.2 e4] at ht
      obtain ⟨n, hn, rfl⟩ := List.mem_map.mp ht
      obtain ⟨m, hm, hnm⟩ := List.mem_flatMap.mp hn
      have hm' : m.names ∈ I.derived.flatten := by
        rw [← hJ.modules]
        exact List.mem_map.mpr ⟨m, hm, rfl⟩
      obtain ⟨ds, hds, hdd⟩ := List.mem_flatten.mp hm'
      obtain ⟨i, hi, hie⟩ := List.mem_iff_getElem.mp hds
      have hx : (I.sets[i]'(by omega), ds) ∈ I.sets.zip I.derived := by
        refine List.mem_iff_getElem.mpr ⟨i, by simp; omega, ?_⟩
        rw [List.getElem_zip, hie]
      obtain ⟨l, hl, hsub⟩ := mem_declared hD ha hx
      unfold declSet at hl
      obtain ⟨ps, _, rfl⟩ := Option.map_eq_some_iff.mp hl
      apply hsub
      simp only [List.mem_append]
      have : (n ++ a, false) ∈ ds.flatten.map (fun n => (n ++ a, false)) :=
        List.mem_map.mpr ⟨n, List.mem_flatten.mpr ⟨_, hdd, hnm⟩, rfl⟩
      simp only [this, true_or, or_true]
  · unfold declSet at hl0
    obtain ⟨ps, _, rfl⟩ := Option.map_eq_some_iff.mp hl0
    apply hsub0
    simp only [List.mem_append]
    unfold restTags at ht
    simp only [List.mem_append] at ht
    rcases ht with ((ht | ht) | ht) | ht
    · have : t ∈ (if I.meshData || I.computed then [("mesh_data_seed", false), ("mesh_data", false)] else []) := by
        split_ifs at ht with hmw
        · rw [if_pos]
          · exact ht
          · unfold meshWritten at hmw
            rcases (Bool.or_eq_true _ _).mp hmw with h | h
            · split_ifs at h with h1 h2
              · simp [h2]
              · simp [h]
            · simp only [Bool.and_eq_true] at h
              exact hG h.1 h.2
        · simp at ht
      simp only [this, true_or, or_true]
    · simp only [ht, true_or, or_true]
    · simp only [ht, true_or, or_true]
    · simp only [ht, true_or, or_true]

/-- [case] Two sets, two samples, a nodal and a flux variable, a discretized parameter and options. -/
def flow : Input := ⟨true, 2, some 2, [[("p", .hvol), ("v", .hdiv)], [("T", .hgrad)]], [], ["mag"], [[["vx"]], []], true, true, false,
  false, false, true, true, [⟨"k", some .hgrad⟩]⟩

/-- [case] What is written for the second sample. -/
def flowJob : Job ℚ := ⟨"_1", false, [⟨0, 0, "p", .hvol, 0⟩, ⟨0, 1, "v", .hdiv, 1⟩, ⟨1, 0, "T", .hgrad, 2⟩], [.hvol, .hdiv, .hgrad],
  [⟨"k", 2⟩], [], [("mag", fun _ c _ => c 0 0 0)], [⟨["vx"], [fun _ c _ => c 0 1 0]⟩]⟩

example : Matches flow [.hvol, .hdiv, .hgrad] "_1" flowJob ∧ "_1" ∈ appends flow ∧ (declared flow).isSome ∧
    (write { line with dim := 2 } twoGroups flowJob stale).isSome ∧ (flow.uq = none ∨ flow.extra = []) ∧
    flow.derived.length = flow.sets.length ∧ (∀ p ∈ flow.pars, ∀ t, p.type = some t → t ∈ [Kind.hvol, .hdiv, .hgrad] ∧ t ≠ .hface) := by
  refine ⟨⟨rfl, rfl, rfl, rfl, rfl, rfl, rfl⟩, by decide, by decide +kernel, by decide +kernel, .inr rfl, rfl, ?_⟩
  intro p hp t ht
  simp only [flow, List.mem_singleton] at hp
  subst hp
  simp only [Option.some.injEq] at ht
  subst ht
  decide

/-- C152 is false for extra nodal fields in a `UQ` run: they are declared with the number of the sample and written without. -/
theorem C152_extra_violated : ∃ (I : Input) (D : List Tag) (J : Job ℚ) (w : Writes ℚ), declared I = some D ∧
    "_0" ∈ appends I ∧ Matches I [.hvol] "_0" J ∧ (write line twoGroups J stale).map Prod.snd = some w ∧
    ∃ t ∈ tags w, t ∉ D := by
  refine ⟨⟨true, 1, some 1, [[("u", .hvol)]], ["speed"], [], [[]], false, false, false, false, false, false, false, []⟩,
    [("u_0", false), ("speed_0", true)], ⟨"_0", false, [⟨0, 0, "u", .hvol, 0⟩], [.hvol], [], ["speed"], [], []⟩,
    [("u_0", .cell [0, 10, 20]), ("speed", .nodal [[0, 0], [0, 0], [0, 0]])], by decide +kernel, by decide,
    ⟨rfl, rfl, rfl, rfl, rfl, rfl, rfl⟩, by decide +kernel, ("speed", true), by decide +kernel, by decide +kernel⟩

/-- C152 is false for a discretized parameter without the entry `type`: the parameter manager takes HGRAD
(parameterManager_setup.hpp:132), the declaration of the output throws. -/
theorem C152_type_violated (I : Input) (h : ∃ p ∈ I.pars, p.type = none) (hs : I.sets.zip I.derived ≠ []) (ha : appends I ≠ []) :
    declared I = none := by
  obtain ⟨p, hp, hn⟩ := h
  cases hd : declared I with
  | none => rfl
  | some D =>
    obtain ⟨a, ha⟩ := List.exists_mem_of_ne_nil _ ha
    obtain ⟨x, hx⟩ := List.exists_mem_of_ne_nil _ hs
    obtain ⟨l, hl, _⟩ := mem_declared hd ha hx
    unfold declSet at hl
    obtain ⟨ps, hps, _⟩ := Option.map_eq_some_iff.mp hl
    obtain ⟨y, hy, _⟩ := mapM_mem _ _ _ hps p hp
    unfold declPar at hy
    rw [hn] at hy
    simp at hy

example : (∃ p ∈ ({ flow with pars := [⟨"k", none⟩] } : Input).pars, p.type = none) ∧ flow.sets.zip flow.derived ≠ [] ∧
    appends flow ≠ [] := by
  refine ⟨⟨⟨"k", none⟩, by simp, rfl⟩, by decide, by decide⟩

/-- C152 is false for meshes outside the STK database: asking for output ends the run. -/
theorem C152_stk_violated (I : Input) (h : I.stk = false) : declared I = none := by
  unfold declared
  simp [h]

example : ({ flow with stk := false } : Input).stk = false := rfl

/-- C152 is false when new grains are made for each sample without mesh data in the input: the mesh data are written, but were not
declared. -/
theorem C152_grains_violated : ∃ (I : Input) (D : List Tag), declared I = some D ∧ I.grains = true ∧ I.uq = some 1 ∧
    ∃ t ∈ restTags I, t ∉ D := by
  refine ⟨⟨true, 1, some 1, [[("u", .hvol)]], [], [], [[]], false, false, false, false, true, false, false, []⟩,
    [("u_0", false)], by decide +kernel, rfl, rfl, ("mesh_data", false), by decide +kernel, by decide +kernel⟩

/-- C152, the mesh data: written with data of the mesh that are not kept at integration points, with computed data if the mesh has
none, and in a `UQ` run with new grains. -/
theorem C152_mesh (I : Input) : ("mesh_data", false) ∈ restTags I ↔
    (I.meshData = true ∧ I.quadrature = false) ∨ (I.meshData = false ∧ I.computed = true) ∨ (I.uq ≠ none ∧ I.grains = true) := by
  have h : ("mesh_data", false) ∈ restTags I ↔ meshWritten I = true := by
    unfold restTags
    simp only [List.mem_append]
    constructor
    · rintro (((h | h) | h) | h)
      · by_contra hc
        simp [hc] at h
      all_goals split_ifs at h <;> simp at h
    · intro h
      simp [h]
  rw [h]
  unfold meshWritten
  cases I.meshData <;> cases I.quadrature <;> cases I.computed <;> cases I.grains <;> cases I.uq <;> simp

/-- Case: data of the mesh at integration points are declared and not written. -/
example : ("mesh_data", false) ∉ restTags { flow with meshData := true, quadrature := true, computed := false, grains := false } := by
  rw [C152_mesh]; simp

/-- Declared but never written: variables on faces, unless their output is asked for. -/
theorem C152_hface (G : Geo K) (B : Block K) (a : String) (v : Var) (hv : v.kind = .hface) (S : Shared K) :
    writeVar G B a false v S = some (S, []) ∧ declVar G.dim a (v.name, v.kind) = [(v.name ++ a, false)] := by
  unfold writeVar declVar
  rw [hv]
  exact ⟨rfl, rfl⟩

example : (⟨0, 0, "lambda", .hface, 0⟩ : Var).kind = .hface := rfl

end MrHyDE.Postprocess.Exodus
