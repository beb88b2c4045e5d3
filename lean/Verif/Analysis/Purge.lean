import Mathlib.Data.List.Basic

/-!
# The memory purge of the driver (C187)

`driver.cpp` frees data of the mesh and of the discretization before the solve when the input has
`enable memory purge: true`.  Whether a run still finds what it reads afterwards is what a user of
this option relies on.  This file models the order of the driver (driver.cpp:163-215 and one
forward evaluation after another): which data each part reads and which data the purge removes.
A read of removed data (an entry of a cleared `std::vector`, a member of a null pointer) is the
outcome `none`.
-/

namespace MrHyDE.Analysis.Purge

/-- The data the purge removes: the mesh of STK held by the mesh interface (meshInterface_util.hpp:365-369),
the pointer to the mesh interface held by the discretization (driver.cpp:177), the numbers of the
elements of each block and the orientations (discretizationInterface_util.hpp:261-266), the local
numbers of the unknowns (241-244), the owned and the owned-and-shared unknowns and the sides with
conditions (250-256).  The pointer held by the parameters (driver.cpp:178) and the fields read from
an Exodus file (meshInterface_util.hpp:374-378) are only read before the purge and are left out. -/
inductive Res where
  | stkMesh | discMesh | elements | orientations | lids | owned | shared | sideInfo
  deriving DecidableEq, Repr

/-- What happens to the data: a read or a removal (driver.cpp:170-199). -/
inductive Op where
  | read (r : Res)
  | clear (r : Res)
  deriving DecidableEq, Repr

/-- The settings and sizes the order of reads depends on: `enable memory purge` (driver.cpp:170),
`write solution` and `create optimization movie` of Postprocess (174-175), `fully explicit` and
`matrix free` of Solver (linearAlgebraInterface_construct.hpp:182), the number of processes (186),
the number of discretized parameters (280), whether a microstructure is computed
(assemblyManager_util.hpp:377), whether the basis functions are recomputed, that is neither stored nor in
a database (assemblyManager_workset.hpp:990), whether the initial state is interpolated
(solverManager_util.hpp:296), the numbers of physics sets and blocks, and of the analysis the
number of forward evaluations, of updates of the workset in each of them and of recorded
solutions in each of them (postprocessManager_util.hpp:31-35).
Simplified: every block has elements on the process at hand. -/
structure Settings where
  purge : Bool
  writeSolution : Bool
  movie : Bool
  fullyExplicit : Bool
  matrixFree : Bool
  procs : Nat
  discParams : Nat
  microstructure : Bool
  recompute : Bool
  interpolate : Bool
  sets : Nat
  blocks : Nat
  forwards : Nat
  updates : Nat
  records : Nat

/-- A loop running the same reads `n` times (for instance the loops over the blocks in
linearAlgebraInterface_construct.hpp:215 and over the sets in 153). -/
def times (n : Nat) (l : List Op) : List Op := (List.replicate n l).flatten

/-- Nodes of a group of elements: the numbers of the elements, the pointer to the mesh interface and
its mesh (discretizationInterface_util.hpp:51-64, meshInterface `getMyNodes`). -/
def nodes : List Op := [.read .elements, .read .discMesh, .read .stkMesh]

/-- Basis functions of a group from its element numbers (assemblyManager_workset.hpp:999,
assemblyManager_mass.hpp:1089): the nodes and the orientations. -/
def basis : List Op := nodes ++ [.read .orientations]

/-- The first purge (driver.cpp:170-190). -/
def purgeBefore (s : Settings) : List Op :=
  if s.purge then
    (if !s.writeSolution && !s.movie then [.clear .stkMesh, .clear .discMesh] else []) ++
      [.clear .orientations, .clear .elements, .clear .lids]
  else []

/-- `setMeshData` (assemblyManager_util.hpp:367-384): only a computed microstructure reads the nodes
through the discretization (891-898). -/
def meshData (s : Settings) : List Op :=
  if s.microstructure then times s.blocks nodes else []

/-- `allocate_matrices` (linearAlgebraInterface_construct.hpp:181-184). -/
def allocates (s : Settings) : Bool := !(s.fullyExplicit && s.matrixFree)

/-- `have_overlapped` (linearAlgebraInterface_construct.hpp:185-188). -/
def overlapped (s : Settings) : Bool := !(!allocates s && s.procs == 1)

/-- Setup of the linear algebra for one physics set (linearAlgebraInterface_construct.hpp:153-273): the owned
unknowns (159), the number of phase unknowns, which asks the mesh interface held by the discretization
(163, discretizationInterface_util.hpp:229-235), the shared unknowns (190), and for matrices two passes
over the blocks reading their elements, the unknowns of each and the number of phase elements
(215-231, 246-262). -/
def linalgSet (s : Settings) : List Op :=
  [.read .owned, .read .discMesh] ++
    (if overlapped s then [.read .shared] else []) ++
    (if allocates s then
      times 2 (times s.blocks [.read .elements, .read .lids, .read .discMesh]) else [])

/-- Setup of the linear algebra (linearAlgebraInterface_construct.hpp:140-381): the sets, and with
discretized parameters for every set two passes over elements and unknowns (301-336) and two
passes over the elements for the parameters alone (344-373). -/
def linalg (s : Settings) : List Op :=
  times s.sets (linalgSet s) ++
    (if s.discParams > 0 then
      times s.sets (times 2 (times s.blocks [.read .elements, .read .lids])) ++
        times 2 (times s.blocks [.read .elements])
    else [])

/-- The mass for explicit methods (solverManager_setup.hpp:37-39, 53-94; assemblyManager_mass.hpp:1084-1089). -/
def explicitMass (s : Settings) : List Op :=
  if s.fullyExplicit && s.recompute then times s.sets (times s.blocks basis) else []

/-- The second purge (driver.cpp:197-199). -/
def purgeAfter (s : Settings) : List Op :=
  if s.purge then [.clear .owned, .clear .shared, .clear .sideInfo] else []

/-- One forward evaluation (solverManager_models.hpp:40-55): the initial state
(solverManager_util.hpp:296-300, assemblyManager_initial.hpp:315), the updates of the workset
(assemblyManager_workset.hpp:990-1001), the recorded solutions
(postprocessManager_util.hpp:31-35, postprocessManager_exodus.hpp:77) and the state of the
optimization (solverManager_models.hpp:53-55, postprocessManager_exodus.hpp:764-767).
Simplified: the output follows the updates instead of being interleaved with them. -/
def forward (s : Settings) : List Op :=
  (if s.interpolate then times s.sets (times s.blocks nodes) else []) ++
    (if s.recompute then times s.updates (times s.blocks basis) else []) ++
    (if s.writeSolution then times s.records (times s.blocks [.read .elements, .read .stkMesh])
      else []) ++
    (if s.movie then times s.blocks [.read .elements, .read .stkMesh] else [])

/-- The driver from the first purge on (driver.cpp:170-215). -/
def program (s : Settings) : List Op :=
  purgeBefore s ++ meshData s ++ linalg s ++ explicitMass s ++ purgeAfter s ++
    times s.forwards (forward s)

/-- Running the reads and removals on the data held: the values read, `none` when a removed value is
read (a cleared vector or a null pointer: undefined behaviour; driver.cpp:170-215). -/
def exec {α : Type} : List Op → (Res → Option α) → Option (List α)
  | [], _ => some []
  | .read r :: l, st => do
      let v ← st r
      let rest ← exec l st
      pure (v :: rest)
  | .clear r :: l, st => exec l (fun q => if q = r then none else st q)

/-- A run: everything is present after the setup (driver.cpp:163-164). -/
def run {α : Type} (s : Settings) (v : Res → α) : Option (List α) :=
  exec (program s) (fun r => some (v r))

/-! ## Specification -/

/-- [specification, no code] The values a list of operations reads, when nothing is ever removed. -/
def needed {α : Type} (l : List Op) (v : Res → α) : List α :=
  l.filterMap (fun o => match o with | .read r => some (v r) | .clear _ => none)

/-- [specification, no code] The run makes at least one forward evaluation of a problem with
unknowns, and when the solution is to be written it is written at least once. -/
def Solves (s : Settings) : Prop :=
  0 < s.sets ∧ 0 < s.blocks ∧ 0 < s.forwards ∧ (s.writeSolution = true → 0 < s.records)

/-! ## Lemmas -/

theorem exec_defined {α : Type} (v : Res → α) : ∀ (l : List Op) (st : Res → Option α) (out : List α),
    (∀ r x, st r = some x → x = v r) → exec l st = some out → out = needed l v
  | [], st, out, _, h => by simpa [exec, needed] using h.symm
  | .read r :: l, st, out, hst, h => by
      simp only [exec] at h
      cases hr : st r with
      | none => simp [hr] at h
      | some x =>
        cases hl : exec l st with
        | none => simp [hr, hl] at h
        | some rest =>
          simp [hr, hl] at h
          have := exec_defined v l st rest hst hl
          rw [← h, hst r x hr, this]
          simp [needed]
  | .clear r :: l, st, out, hst, h => by
      simp only [exec] at h
      have := exec_defined v l _ out (by
        intro q x hq
        by_cases e : q = r
        · simp [e] at hq
        · simp [e] at hq; exact hst q x hq) h
      rw [this]; simp [needed]

/-- [helper] The data left after a list of operations. -/
def after {α : Type} : List Op → (Res → Option α) → (Res → Option α)
  | [], st => st
  | .read _ :: l, st => after l st
  | .clear r :: l, st => after l (fun q => if q = r then none else st q)

theorem isSome_append {α : Type} : ∀ (a b : List Op) (st : Res → Option α),
    (exec (a ++ b) st).isSome = ((exec a st).isSome && (exec b (after a st)).isSome)
  | [], b, st => by simp [exec, after]
  | .read r :: a, b, st => by
      have ih := isSome_append a b st
      simp only [List.cons_append, exec, after]
      cases hr : st r with
      | none => simp
      | some x =>
        cases h1 : exec (a ++ b) st <;> cases h2 : exec a st <;>
          cases h3 : exec b (after a st) <;> simp [h1, h2, h3] at ih ⊢
  | .clear r :: a, b, st => by
      simp only [List.cons_append, exec, after]
      exact isSome_append a b _

/-- [helper] A list of reads only. -/
def Reads (l : List Op) : Prop := ∀ o ∈ l, ∃ r, o = .read r

theorem after_reads {α : Type} : ∀ (l : List Op) (st : Res → Option α), Reads l → after l st = st
  | [], _, _ => rfl
  | .read r :: l, st, h => after_reads l st (fun o ho => h o (List.mem_cons_of_mem _ ho))
  | .clear r :: l, st, h => by
      obtain ⟨q, hq⟩ := h (.clear r) List.mem_cons_self
      cases hq

theorem isSome_reads {α : Type} : ∀ (l : List Op) (st : Res → Option α), Reads l →
    ((exec l st).isSome = true ↔ ∀ r, Op.read r ∈ l → (st r).isSome = true)
  | [], _, _ => by simp [exec]
  | .read r :: l, st, h => by
      have ih := isSome_reads l st (fun o ho => h o (List.mem_cons_of_mem _ ho))
      simp only [exec]
      cases hr : st r with
      | none =>
        constructor
        · intro h; simp at h
        · intro h; have := h r List.mem_cons_self; simp [hr] at this
      | some x =>
        have : (do let v ← some x; let rest ← exec l st; pure (v :: rest) : Option (List α)).isSome
            = (exec l st).isSome := by
          cases exec l st <;> rfl
        rw [this, ih]
        constructor
        · intro h q hq
          rcases List.mem_cons.1 hq with e | e
          · cases e; simp [hr]
          · exact h q e
        · intro h q hq; exact h q (List.mem_cons_of_mem _ hq)
  | .clear r :: l, st, h => by
      obtain ⟨q, hq⟩ := h (.clear r) List.mem_cons_self
      cases hq

theorem mem_times (n : Nat) (l : List Op) (o : Op) : o ∈ times n l ↔ 0 < n ∧ o ∈ l := by
  simp [times, List.mem_flatten, List.mem_replicate]
  omega

theorem reads_times {n : Nat} {l : List Op} (h : Reads l) : Reads (times n l) :=
  fun o ho => h o ((mem_times n l o).1 ho).2

theorem reads_append {a b : List Op} (ha : Reads a) (hb : Reads b) : Reads (a ++ b) := by
  intro o ho
  rcases List.mem_append.1 ho with h | h
  · exact ha o h
  · exact hb o h

theorem reads_ite {c : Prop} [Decidable c] {a : List Op} (h : Reads a) :
    Reads (if c then a else []) := by
  by_cases hc : c
  · simpa [hc] using h
  · simp [hc, Reads]

theorem reads_meshData (s : Settings) : Reads (meshData s) :=
  reads_ite (reads_times (by simp [Reads, nodes]))

theorem reads_linalg (s : Settings) : Reads (linalg s) := by
  refine reads_append (reads_times ?_) (reads_ite ?_)
  · refine reads_append (reads_append (by simp [Reads]) (reads_ite (by simp [Reads]))) (reads_ite ?_)
    exact reads_times (reads_times (by simp [Reads]))
  · exact reads_append (reads_times (reads_times (reads_times (by simp [Reads]))))
      (reads_times (reads_times (by simp [Reads])))

theorem reads_explicitMass (s : Settings) : Reads (explicitMass s) :=
  reads_ite (reads_times (reads_times (by simp [Reads, basis, nodes])))

theorem reads_forward (s : Settings) : Reads (forward s) := by
  refine reads_append (reads_append (reads_append (reads_ite ?_) (reads_ite ?_)) (reads_ite ?_))
    (reads_ite ?_)
  · exact reads_times (reads_times (by simp [Reads, nodes]))
  · exact reads_times (reads_times (by simp [Reads, basis, nodes]))
  · exact reads_times (reads_times (by simp [Reads]))
  · exact reads_times (by simp [Reads])

/-- [helper] The data left by the first purge. -/
def left (s : Settings) : Res → Bool
  | .stkMesh | .discMesh => !s.purge || s.writeSolution || s.movie
  | .elements | .orientations | .lids => !s.purge
  | .owned | .shared | .sideInfo => true

theorem after_purgeBefore {α : Type} (s : Settings) (v : Res → α) (r : Res) :
    (after (purgeBefore s) (fun q => some (v q)) r).isSome = left s r := by
  unfold purgeBefore left
  cases s.purge <;> cases s.writeSolution <;> cases s.movie <;> cases r <;> simp [after]

theorem after_purgeAfter {α : Type} (s : Settings) (st : Res → Option α) (r : Res)
    (h1 : r ≠ .owned) (h2 : r ≠ .shared) (h3 : r ≠ .sideInfo) :
    after (purgeAfter s) st r = st r := by
  unfold purgeAfter
  cases s.purge <;> simp [after, h1, h2, h3]

theorem clears_isSome {α : Type} : ∀ (l : List Op) (st : Res → Option α),
    (∀ o ∈ l, ∃ r, o = .clear r) → (exec l st).isSome = true
  | [], _, _ => rfl
  | .read r :: l, st, h => by
      obtain ⟨q, hq⟩ := h (.read r) List.mem_cons_self
      cases hq
  | .clear r :: l, st, h => clears_isSome l _ (fun o ho => h o (List.mem_cons_of_mem _ ho))

theorem forward_keeps (s : Settings) (r : Res) (h : Op.read r ∈ forward s) :
    r ≠ .owned ∧ r ≠ .shared ∧ r ≠ .sideInfo := by
  simp only [forward, List.mem_append] at h
  rcases h with ((h | h) | h) | h <;> split at h <;> simp [mem_times, basis, nodes] at h <;>
    (refine ⟨?_, ?_, ?_⟩ <;> rintro rfl <;> simp at h)

/-- The run is defined exactly if every read finds what the first purge left. -/
theorem run_isSome {α : Type} (s : Settings) (v : Res → α) :
    (run s v).isSome = true ↔
      ∀ r, (Op.read r ∈ meshData s ∨ Op.read r ∈ linalg s ∨ Op.read r ∈ explicitMass s ∨
        (0 < s.forwards ∧ Op.read r ∈ forward s)) → left s r = true := by
  have hb : (exec (purgeBefore s) (fun r => some (v r))).isSome = true := by
    apply clears_isSome
    intro o ho
    unfold purgeBefore at ho
    split at ho
    · split at ho
      · simp only [List.cons_append, List.nil_append, List.mem_cons, List.not_mem_nil, or_false] at ho
        rcases ho with h | h | h | h | h <;> exact ⟨_, h⟩
      · simp only [List.nil_append, List.mem_cons, List.not_mem_nil, or_false] at ho
        rcases ho with h | h | h <;> exact ⟨_, h⟩
    · cases ho
  have ha : ∀ st : Res → Option α, (exec (purgeAfter s) st).isSome = true := by
    intro st
    apply clears_isSome
    intro o ho
    unfold purgeAfter at ho
    split at ho
    · simp only [List.mem_cons, List.not_mem_nil, or_false] at ho
      rcases ho with h | h | h <;> exact ⟨_, h⟩
    · cases ho
  have hr : Reads (meshData s ++ linalg s ++ explicitMass s) :=
    reads_append (reads_append (reads_meshData s) (reads_linalg s)) (reads_explicitMass s)
  have e : program s = purgeBefore s ++ ((meshData s ++ linalg s ++ explicitMass s) ++
      (purgeAfter s ++ times s.forwards (forward s))) := by simp [program]
  unfold run
  rw [e, isSome_append, hb, Bool.true_and, isSome_append (meshData s ++ linalg s ++ explicitMass s),
    isSome_append (purgeAfter s), ha, Bool.true_and,
    Bool.and_eq_true, isSome_reads _ _ hr, isSome_reads _ _ (reads_times (reads_forward s)),
    after_reads _ _ hr]
  constructor
  · rintro ⟨h1, h2⟩ r h
    rw [← after_purgeBefore s v r]
    rcases h with h | h | h | ⟨hp, h⟩
    · exact h1 r (by simp [h])
    · exact h1 r (by simp [h])
    · exact h1 r (by simp [h])
    · obtain ⟨k1, k2, k3⟩ := forward_keeps s r h
      have := h2 r ((mem_times _ _ _).2 ⟨hp, h⟩)
      rwa [after_purgeAfter s _ r k1 k2 k3] at this
  · intro h
    constructor
    · intro r hm
      rw [after_purgeBefore s v r]
      simp only [List.mem_append] at hm
      rcases hm with (hm | hm) | hm
      · exact h r (Or.inl hm)
      · exact h r (Or.inr (Or.inl hm))
      · exact h r (Or.inr (Or.inr (Or.inl hm)))
    · intro r hm
      obtain ⟨hp, hm⟩ := (mem_times _ _ _).1 hm
      obtain ⟨k1, k2, k3⟩ := forward_keeps s r hm
      rw [after_purgeAfter s _ r k1 k2 k3, after_purgeBefore s v r]
      exact h r (Or.inr (Or.inr (Or.inr ⟨hp, hm⟩)))

theorem needed_purge {α : Type} (s : Settings) (v : Res → α) :
    needed (program s) v = needed (program { s with purge := false }) v := by
  have hb : needed (purgeBefore s) v = [] := by
    unfold purgeBefore
    cases s.purge <;> cases s.writeSolution <;> cases s.movie <;> simp [needed]
  have ha : needed (purgeAfter s) v = [] := by
    unfold purgeAfter
    cases s.purge <;> simp [needed]
  have app : ∀ a b : List Op, needed (a ++ b) v = needed a v ++ needed b v := by
    intro a b; simp [needed]
  simp only [program, app, hb, ha]
  simp [purgeBefore, purgeAfter, needed, meshData, linalg, linalgSet, overlapped, allocates,
    explicitMass, forward]

/-! ## Properties -/

/-- Without the purge every run finds everything it reads. -/
theorem C187_kept_partial {α : Type} (s : Settings) (v : Res → α) (h : s.purge = false) :
    run s v = some (needed (program s) v) := by
  have hs : (run s v).isSome = true := by
    rw [run_isSome]
    intro r _
    cases r <;> simp [left, h]
  obtain ⟨out, ho⟩ := Option.isSome_iff_exists.1 hs
  rw [ho, exec_defined v _ _ out (by intro r x hx; simpa using hx.symm) ho]

/-- Purging never changes what a run that goes through reads: it either goes through with the very
values the run without purge has, or it is undefined. -/
theorem C187_same_partial {α : Type} (s : Settings) (v : Res → α) (out : List α)
    (h : run s v = some out) : run { s with purge := false } v = some out := by
  rw [C187_kept_partial _ v rfl, exec_defined v _ _ out (by intro r x hx; simpa using hx.symm) h]
  exact congrArg some (needed_purge s v).symm

/-- Exactly when a run with purge goes through: the mesh has to be kept for an output, the solver has to be
explicit without matrices, without discretized parameters and with stored basis functions, and the
forward evaluations may neither interpolate the initial state nor write anything. -/
theorem C187_defined_partial {α : Type} (s : Settings) (v : Res → α) (hp : s.purge = true)
    (hs : 0 < s.sets) (hb : 0 < s.blocks) :
    (run s v).isSome = true ↔
      (s.writeSolution = true ∨ s.movie = true) ∧ s.fullyExplicit = true ∧ s.matrixFree = true ∧
        s.discParams = 0 ∧ s.microstructure = false ∧ s.recompute = false ∧
        (0 < s.forwards → s.interpolate = false ∧ s.movie = false ∧
          (s.writeSolution = true → s.records = 0)) := by
  rw [run_isSome]
  constructor
  · intro h
    have hmesh : s.writeSolution = true ∨ s.movie = true := by
      have := h .discMesh (Or.inr (Or.inl (by
        simp [linalg, linalgSet, mem_times, hs])))
      simpa [left, hp] using this
    have hel : ∀ P : Prop, (P → (Op.read Res.elements ∈ meshData s ∨ Op.read Res.elements ∈ linalg s ∨
        Op.read Res.elements ∈ explicitMass s ∨
        (0 < s.forwards ∧ Op.read Res.elements ∈ forward s))) → ¬ P := by
      intro P hP p
      have := h .elements (hP p)
      simp [left, hp] at this
    have hall : allocates s = false := by
      cases ha : allocates s
      · rfl
      · exact absurd trivial (hel True (fun _ => Or.inr (Or.inl (by
          simp [linalg, linalgSet, mem_times, hs, hb, ha]))))
    have hfm : s.fullyExplicit = true ∧ s.matrixFree = true := by
      simpa [allocates] using hall
    refine ⟨hmesh, hfm.1, hfm.2, ?_, ?_, ?_, ?_⟩
    · by_contra hd
      exact hel True (fun _ => Or.inr (Or.inl (by
        have : 0 < s.discParams := Nat.pos_of_ne_zero hd
        simp [linalg, mem_times, hb, this]))) trivial
    · cases hm : s.microstructure
      · rfl
      · exact absurd trivial (hel True (fun _ => Or.inl (by
          simp [meshData, hm, mem_times, hb, nodes])))
    · cases hm : s.recompute
      · rfl
      · exact absurd trivial (hel True (fun _ => Or.inr (Or.inr (Or.inl (by
          simp [explicitMass, hm, hfm.1, mem_times, hb, hs, basis, nodes])))))
    · intro hf
      refine ⟨?_, ?_, ?_⟩
      · cases hm : s.interpolate
        · rfl
        · exact absurd trivial (hel True (fun _ => Or.inr (Or.inr (Or.inr ⟨hf, by
            simp [forward, hm, mem_times, hb, hs, nodes]⟩))))
      · cases hm : s.movie
        · rfl
        · exact absurd trivial (hel True (fun _ => Or.inr (Or.inr (Or.inr ⟨hf, by
            simp [forward, hm, mem_times, hb]⟩))))
      · intro hw
        by_contra hr
        have hr' : 0 < s.records := Nat.pos_of_ne_zero hr
        exact hel True (fun _ => Or.inr (Or.inr (Or.inr ⟨hf, by
            simp [forward, hw, mem_times, hb, hr']⟩))) trivial
  · rintro ⟨hm, hf, hmf, hd, hmi, hre, hfo⟩ r hr
    have hall : allocates s = false := by simp [allocates, hf, hmf]
    rcases hr with h | h | h | ⟨hpos, h⟩
    · simp [meshData, hmi] at h
    · simp only [linalg, linalgSet, hall, hd] at h
      simp [mem_times] at h
      have hmesh : left s .discMesh = true := by
        rcases hm with h | h <;> simp [left, h]
      rcases h with ⟨_, h | h | h⟩
      · rw [h]; rfl
      · rw [h]; exact hmesh
      · rw [h.2]; rfl
    · simp [explicitMass, hre] at h
    · obtain ⟨h1, h2, h3⟩ := hfo hpos
      simp [forward, h1, h2, hre, mem_times] at h
      have := h3 h.1
      omega

/-- C187 is false: with `enable memory purge` every run that solves something is undefined, whatever
solver, storage, output and number of processes are chosen, while without it the same run goes
through.  The setup of the linear algebra asks the mesh that was just removed; when an output keeps
the mesh, the output reads the removed numbers of the elements. -/
theorem C187_violated {α : Type} (s : Settings) (v : Res → α) (hs : Solves s) :
    run { s with purge := true } v = none ∧
      run { s with purge := false } v ≠ none := by
  obtain ⟨h1, h2, h3, h4⟩ := hs
  constructor
  · cases hr : run { s with purge := true } v with
    | none => rfl
    | some out =>
      have := (C187_defined_partial { s with purge := true } v rfl h1 h2).1 (by simp [hr])
      obtain ⟨hm, -, -, -, -, -, hf⟩ := this
      obtain ⟨-, hmov, hw⟩ := hf h3
      rcases hm with hm | hm
      · have := hw hm
        have := h4 hm
        simp only at *
        omega
      · simp only at hm hmov
        rw [hm] at hmov
        cases hmov
  · rw [C187_kept_partial _ v rfl]
    simp

theorem after_append {α : Type} : ∀ (a b : List Op) (st : Res → Option α),
    after (a ++ b) st = after b (after a st)
  | [], _, _ => rfl
  | .read _ :: a, b, st => after_append a b st
  | .clear _ :: a, b, _ => after_append a b _

/-- What is freed: with the option the numbers of the elements, orientations, unknowns and sides are gone at the end
of the run and the mesh is gone unless an output needs it; without it everything is still there. -/
theorem C187_freed_partial {α : Type} (s : Settings) (v : Res → α) (r : Res) :
    after (program s) (fun q => some (v q)) r = none ↔
      s.purge = true ∧ ((r = .stkMesh ∨ r = .discMesh) → s.writeSolution = false ∧ s.movie = false) := by
  have hr : Reads (meshData s ++ linalg s ++ explicitMass s) :=
    reads_append (reads_append (reads_meshData s) (reads_linalg s)) (reads_explicitMass s)
  have e : program s = purgeBefore s ++ ((meshData s ++ linalg s ++ explicitMass s) ++
      (purgeAfter s ++ times s.forwards (forward s))) := by simp [program]
  rw [e, after_append, after_append, after_append, after_reads _ _ hr,
    after_reads _ _ (reads_times (reads_forward s))]
  unfold purgeBefore purgeAfter
  cases s.purge <;> cases s.writeSolution <;> cases s.movie <;> cases r <;> simp [after]

/-- [specification, no code] How often a value is read. -/
def reads (r : Res) (l : List Op) : Nat := l.count (.read r)

theorem reads_append' (r : Res) (a b : List Op) : reads r (a ++ b) = reads r a + reads r b := by
  simp [reads]

theorem reads_times' (r : Res) (n : Nat) (l : List Op) : reads r (times n l) = n * reads r l := by
  induction n with
  | zero => simp [times, reads]
  | succ n ih =>
    have : times (n + 1) l = l ++ times n l := by simp [times, List.replicate_succ]
    rw [this, reads_append', ih, Nat.succ_mul, Nat.add_comm]

/-- How often the setup of the linear algebra reads the data: shared unknowns once per set except for an explicit
run without matrices on one process, the elements twice per set and block for matrices of the state, and with
discretized parameters two times more per set and two times for the parameters themselves. -/
theorem C187_linalg_partial (s : Settings) :
    reads .owned (linalg s) = s.sets ∧
    reads .shared (linalg s) =
      (if s.fullyExplicit = true ∧ s.matrixFree = true ∧ s.procs = 1 then 0 else s.sets) ∧
    reads .elements (linalg s) =
      (if s.fullyExplicit = true ∧ s.matrixFree = true then 0 else s.sets * (2 * s.blocks)) +
        (if s.discParams = 0 then 0 else s.sets * (2 * s.blocks) + 2 * s.blocks) := by
  have itd : ∀ (r : Res) (l : List Op),
      reads r (if s.discParams > 0 then l else []) = if s.discParams = 0 then 0 else reads r l := by
    intro r l
    by_cases h : s.discParams = 0
    · simp [h, reads]
    · simp [h, Nat.pos_of_ne_zero h]
  have i2 : ∀ r q : Res, ∀ l, reads r (.read q :: l) = (if q = r then 1 else 0) + reads r l := by
    intro r q l
    by_cases h : q = r
    · simp [reads, h, Nat.add_comm]
    · simp [reads, h]
  have i0 : ∀ r : Res, reads r [] = 0 := by intro r; rfl
  have h1 := Bool.eq_false_or_eq_true s.fullyExplicit
  have h2 := Bool.eq_false_or_eq_true s.matrixFree
  simp only [linalg, linalgSet, reads_append', reads_times', itd, i2, i0]
  rcases h1 with hf | hf <;> rcases h2 with hm | hm <;> by_cases hp : s.procs = 1 <;>
    by_cases hd : s.discParams = 0 <;>
    simp [overlapped, allocates, hf, hm, hp, hd, reads_times', i2, i0]

/-! ## Cases -/

/-- [case] A forward run of an implicit solver with one set and two blocks that writes its solution. -/
def implicitRun : Settings where
  purge := true
  writeSolution := true
  movie := false
  fullyExplicit := false
  matrixFree := false
  procs := 4
  discParams := 0
  microstructure := false
  recompute := false
  interpolate := false
  sets := 1
  blocks := 2
  forwards := 1
  updates := 10
  records := 11

/-- [case] An explicit run without matrices that is told to write its solution but has no step in the
window of the output. -/
def silentRun : Settings :=
  { implicitRun with fullyExplicit := true, matrixFree := true, records := 0 }

example : Solves implicitRun := by simp [Solves, implicitRun]

example : run implicitRun (fun r => r) = none := (C187_violated implicitRun _
  (by simp [Solves, implicitRun])).1

example : run silentRun (fun r => r) = some [.owned, .discMesh, .shared] := by decide +kernel

example : run { silentRun with purge := false } (fun r => r) = some [.owned, .discMesh, .shared] :=
  C187_same_partial silentRun _ _ (by decide +kernel)

example : (run silentRun (fun r => r)).isSome = true ∧ silentRun.purge = true := by
  refine ⟨?_, rfl⟩
  rw [C187_defined_partial silentRun _ rfl (by decide) (by decide)]
  simp [silentRun, implicitRun]

example : run { silentRun with purge := false, records := 1 } (fun r => r) =
    some [.owned, .discMesh, .shared, .elements, .stkMesh, .elements, .stkMesh] := by decide +kernel

example : reads .shared (linalg { silentRun with procs := 1 }) = 0 ∧
    reads .shared (linalg silentRun) = 1 ∧ reads .elements (linalg implicitRun) = 4 := by
  refine ⟨?_, ?_, ?_⟩
  · rw [(C187_linalg_partial _).2.1]; rfl
  · rw [(C187_linalg_partial _).2.1]; rfl
  · rw [(C187_linalg_partial _).2.2]; rfl

example : after (program silentRun) (fun q => some q) .owned = none ∧
    after (program silentRun) (fun q => some q) .stkMesh ≠ none := by
  constructor
  · rw [C187_freed_partial]; simp [silentRun, implicitRun]
  · rw [Ne, C187_freed_partial]; simp [silentRun, implicitRun]

end MrHyDE.Analysis.Purge
