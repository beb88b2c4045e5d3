import Verif.Assembly.ScatterLemmas
import Mathlib.Algebra.Order.Field.Rat
import Mathlib.Tactic.NormNum

/-! # Assembly: scatter and constraints, properties -/

set_option linter.unusedSectionVars false

namespace MrHyDE.Assembly

variable {K : Type} [CommRing K]

/-! ### Sums over elements, any schedule (C35) -/

theorem overMesh_if (c : Prop) [Decidable c] (f : List Nat → Elem K → K) (mesh : Mesh K) :
    (mesh.map (fun b => (b.2.flatten.map (fun e => if c then f b.1.pos e else 0)).sum)).sum =
      if c then overMesh f mesh else 0 := by
  unfold overMesh
  rw [← sum_if]
  apply sum_congr
  intro b _
  rw [sum_if]

theorem jacWanted_outside (pat : Nat → Nat → Bool) (mesh : Mesh K) (hcov : Covers pat mesh) (rq : Request) (r c : Nat)
    (hp : pat r c = false) : overMesh (fun pos e => jacWanted rq pos e r c) mesh = 0 := by
  unfold overMesh
  rw [sum_congr _ (fun _ => (0 : K)), sum_zero]
  intro b hb
  rw [sum_congr _ (fun _ => (0 : K)), sum_zero]
  intro e he
  have key : elemJac b.1.pos e r c = 0 ∧ elemJac b.1.pos e c r = 0 := by
    constructor
    · unfold elemJac
      rw [sum_congr _ (fun _ => (0 : K)), sum_zero]
      intro p hpp
      rw [sum_congr _ (fun _ => (0 : K)), sum_zero]
      intro q hq
      rw [if_neg]
      rintro ⟨rfl, rfl⟩
      rw [hcov b hb e he p hpp q hq] at hp; cases hp
    · unfold elemJac
      rw [sum_congr _ (fun _ => (0 : K)), sum_zero]
      intro p hpp
      rw [sum_congr _ (fun _ => (0 : K)), sum_zero]
      intro q hq
      rw [if_neg]
      rintro ⟨rfl, rfl⟩
      rw [hcov b hb e he q hq p hpp] at hp; cases hp
  unfold jacWanted
  simp [key.1, key.2]

/-- C35, partial: on any number of workers, for every distribution of the work and every schedule, the assembled
residual and the free rows of the assembled matrix are the sums over the elements of what was asked for, in both
assembly paths and without lumping.  Missing: blocks with fewer unknowns than the table of local numbers has columns
in the first path (`C35_narrow_block_undefined`), and in the second path of a physics set other than the first the
rows where the tables of fixed unknowns differ (`C36_second_set_residual`).  Sums are exact. -/
theorem C35_sums_partial (nw : Nat) (hw : 1 ≤ nw) (pat : Nat → Nat → Bool) (ncols : Nat) (strong : Bool)
    (dbc pts : List Nat) (fixed0 : Nat → Bool) (rq : Request) (mesh : Mesh K) (hcov : Covers pat mesh)
    (hgood : ∀ b ∈ mesh, Good b.1 rq)
    (hset : ∀ b ∈ mesh, reduceMemory b.1 rq = true ∨ fixed0 = isFixed dbc) :
    ∃ ops, meshOps pat (isFixed dbc) fixed0 false rq mesh = some ops ∧
      ∀ mem mem', Assembled nw (constrain strong pat ncols dbc pts rq.jac) mem ops mem' →
        (∀ r g, mem' (Loc.res r g) = mem (Loc.res r g) +
          if r ∈ dbc then 0 else overMesh (fun pos e => resWanted rq pos e r g) mesh) ∧
        (∀ r c, r ∉ dbc → r ∉ pts → mem' (Loc.jac r c) = mem (Loc.jac r c) +
          overMesh (fun pos e => jacWanted rq pos e r c) mesh) := by
  have hex := fun b (hb : b ∈ mesh) (e : Elem K) => elemOps_total pat (isFixed dbc) fixed0 b.1 rq (hgood b hb) e
  obtain ⟨ops, hops, _⟩ := meshOps_total pat (isFixed dbc) fixed0 false rq (Loc.res 0 0)
    (fun b e => if resTable (isFixed dbc) fixed0 b rq 0 = false then resWanted rq b.pos e 0 0 else 0) mesh
    (fun b hb e _ => (hex b hb e).imp fun o h => ⟨h.1, h.2.1 0 0⟩)
  refine ⟨ops, hops, ?_⟩
  intro mem mem' hA
  constructor
  · intro r g
    obtain ⟨ops', h1, h2⟩ := meshOps_total pat (isFixed dbc) fixed0 false rq (Loc.res r g)
      (fun b e => if resTable (isFixed dbc) fixed0 b rq r = false then resWanted rq b.pos e r g else 0) mesh
      (fun b hb e _ => (hex b hb e).imp fun o h => ⟨h.1, h.2.1 r g⟩)
    rw [hops] at h1
    injection h1 with h1
    subst h1
    rw [assembled_keep nw hw _ _ (fun m => constrain_res strong pat ncols dbc pts rq.jac m r g) _ _ _ hA, h2]
    congr 1
    have : (mesh.map (fun b => (b.2.flatten.map (fun e => if resTable (isFixed dbc) fixed0 b.1 rq r = false then
        resWanted rq b.1.pos e r g else 0)).sum)).sum =
        (mesh.map (fun b => (b.2.flatten.map (fun e => if r ∉ dbc then resWanted rq b.1.pos e r g else 0)).sum)).sum := by
      apply sum_congr
      intro b hb
      have ht : resTable (isFixed dbc) fixed0 b.1 rq = isFixed dbc := by
        unfold resTable
        rcases hset b hb with h | h
        · simp [h]
        · simp [h]
      rw [ht]
      apply sum_congr
      intro e _
      by_cases hr : r ∈ dbc <;> simp [isFixed, hr]
    rw [this, overMesh_if (r ∉ dbc) (fun pos e => resWanted rq pos e r g) mesh]
    by_cases hr : r ∈ dbc <;> simp [hr]
  · intro r c hr hp
    obtain ⟨ops', h1, h2⟩ := meshOps_total pat (isFixed dbc) fixed0 false rq (Loc.jac r c)
      (fun b e => if isFixed dbc r = false ∧ pat r c = true then jacWanted rq b.pos e r c else 0) mesh
      (fun b hb e _ => (hex b hb e).imp fun o h => ⟨h.1, h.2.2 r c⟩)
    rw [hops] at h1
    injection h1 with h1
    subst h1
    rw [assembled_keep nw hw _ _ (fun m => constrain_other strong pat ncols dbc pts rq.jac m r c ⟨fun _ => hr, hp⟩) _ _ _ hA, h2]
    congr 1
    rw [overMesh_if (isFixed dbc r = false ∧ pat r c = true) (fun pos e => jacWanted rq pos e r c) mesh]
    have hf : isFixed dbc r = false := by simp [isFixed, hr]
    by_cases hpc : pat r c = true
    · simp [hf, hpc]
    · rw [if_neg (by simp [hpc])]
      exact (jacWanted_outside pat mesh hcov rq r c (by simpa using hpc)).symm

/-- The elements of a mesh with the local unknowns of their blocks. -/
def elems (mesh : Mesh K) : List (List Nat × Elem K) := mesh.flatMap (fun b => b.2.flatten.map (fun e => (b.1.pos, e)))

theorem overMesh_elems (f : List Nat → Elem K → K) (mesh : Mesh K) :
    overMesh f mesh = ((elems mesh).map (fun x => f x.1 x.2)).sum := by
  unfold overMesh elems
  induction mesh with
  | nil => simp
  | cons b t ih =>
    simp only [List.map_cons, List.sum_cons, List.flatMap_cons, List.map_append, List.sum_append, ih, List.map_map,
      Function.comp_def]

/-- C35, order independence: two assemblies of the same elements, grouped and ordered differently, run on different
numbers of workers, agree (residual and free rows). -/
theorem C35_order_independent_partial (nw nw' : Nat) (hw : 1 ≤ nw) (hw' : 1 ≤ nw') (pat : Nat → Nat → Bool) (ncols : Nat)
    (dbc pts : List Nat) (rq : Request) (mesh mesh1 : Mesh K) (hcov : Covers pat mesh) (hcov1 : Covers pat mesh1)
    (hgood : ∀ b ∈ mesh, Good b.1 rq) (hgood1 : ∀ b ∈ mesh1, Good b.1 rq) (hsame : (elems mesh).Perm (elems mesh1))
    (ops ops1 : List (List (List (Loc × K)))) (ho : meshOps pat (isFixed dbc) (isFixed dbc) false rq mesh = some ops)
    (ho1 : meshOps pat (isFixed dbc) (isFixed dbc) false rq mesh1 = some ops1) (mem a b : Loc → K)
    (ha : Assembled nw (constrain true pat ncols dbc pts rq.jac) mem ops a)
    (hb : Assembled nw' (constrain true pat ncols dbc pts rq.jac) mem ops1 b) :
    (∀ r g, a (Loc.res r g) = b (Loc.res r g)) ∧ ∀ r c, r ∉ dbc → r ∉ pts → a (Loc.jac r c) = b (Loc.jac r c) := by
  obtain ⟨o, e1, h1⟩ := C35_sums_partial nw hw pat ncols true dbc pts (isFixed dbc) rq mesh hcov hgood (fun _ _ => Or.inr rfl)
  obtain ⟨o1, e2, h2⟩ := C35_sums_partial nw' hw' pat ncols true dbc pts (isFixed dbc) rq mesh1 hcov1 hgood1 (fun _ _ => Or.inr rfl)
  rw [ho] at e1; injection e1 with e1; subst e1
  rw [ho1] at e2; injection e2 with e2; subst e2
  obtain ⟨p1, p2⟩ := h1 mem a ha
  obtain ⟨q1, q2⟩ := h2 mem b hb
  have hover : ∀ f, overMesh f mesh = overMesh f mesh1 := by
    intro f
    rw [overMesh_elems, overMesh_elems]
    exact sum_perm hsame _
  constructor
  · intro r g; rw [p1, q1, hover]
  · intro r c h1 h2; rw [p2 r c h1 h2, q2 r c h1 h2, hover]

/-- Outcomes exist: the statements above are not empty. -/
theorem assembled_exists (nw : Nat) (hw : 1 ≤ nw) (post : (Loc → K) → Loc → K) :
    ∀ (bs : List (List (List (Loc × K)))) (mem : Loc → K), ∃ mem', Assembled nw post mem bs mem' := by
  have hk : ∀ (gs : List (List (Loc × K))) (mem : Loc → K), ∃ mem', Kernels nw mem gs mem' := by
    intro gs
    induction gs with
    | nil => intro mem; exact ⟨mem, Kernels.nil mem⟩
    | cons g t ih =>
      intro mem
      obtain ⟨m1, h1⟩ := kernel_exists nw hw mem g
      obtain ⟨m2, h2⟩ := ih m1
      exact ⟨m2, Kernels.cons _ _ _ _ _ h1 h2⟩
  intro bs
  induction bs with
  | nil => intro mem; exact ⟨mem, Assembled.nil mem⟩
  | cons b t ih =>
    intro mem
    obtain ⟨m1, h1⟩ := hk b mem
    obtain ⟨m2, h2⟩ := ih (post m1)
    exact ⟨m2, Assembled.cons _ _ _ _ _ h1 h2⟩

/-- The choice of atomics matters: two workers that add without atomics can lose an addition. -/
theorem C35_atomics_needed : ∃ (parts : List (List (Unit × Int))) (sched : List Nat),
    finished (run (launch false (fun _ => 0) parts) sched) ∧
    (run (launch false (fun _ => 0) parts) sched).mem () ≠ total parts.flatten () := by
  refine ⟨[[((), 1)], [((), 1)]], [0, 1, 0, 1], ?_, ?_⟩
  · intro w hw
    simp [run, launch, step, compile, exec, wr] at hw
    rcases hw with rfl | rfl <;> rfl
  · simp [run, launch, step, compile, exec, wr, total]

/-- C35 is false in the first path for a block with fewer local unknowns than the table has columns (the table is as
wide as the widest block): the columns left over are handed to the matrix without ever having been written. -/
theorem C35_narrow_block_undefined (pat : Nat → Nat → Bool) (fixed fixed0 : Nat → Bool) (lump : Bool) (b : Block)
    (rq : Request) (hred : reduceMemory b rq = true) (hj : rq.jac = true) (e : Elem K)
    (hrow : ∃ p ∈ b.pos, fixed (e.lid p) = false) (hcol : ∃ c, c < b.width ∧ c ∉ b.pos) :
    elemOps pat fixed fixed0 lump b rq e = none := by
  obtain ⟨c, hc, hcp⟩ := hcol
  have hnone : ∀ p, jacRow lump b.width b.pos e p = none := by
    intro p
    unfold jacRow
    cases h : (List.range b.width).mapM
        (fun c => if c ∈ b.pos then some (if lump then e.lid p else e.lid c, e.dx p c) else none) with
    | none => rfl
    | some r =>
      exfalso
      have hlen : ∀ (l : List Nat) (r : List (Nat × K)), l.mapM
          (fun c => if c ∈ b.pos then some (if lump then e.lid p else e.lid c, e.dx p c) else none) = some r →
          ∀ x ∈ l, x ∈ b.pos := by
        intro l
        induction l with
        | nil => intro r _ x hx; simp at hx
        | cons a t ih =>
          intro r hr x hx
          rw [List.mapM_cons] at hr
          by_cases ha : a ∈ b.pos
          · rw [if_pos ha] at hr
            cases ht : t.mapM (fun c => if c ∈ b.pos then some (if lump then e.lid p else e.lid c, e.dx p c) else none) with
            | none => rw [ht] at hr; simp at hr
            | some r' =>
              rcases List.mem_cons.1 hx with rfl | hx
              · exact ha
              · exact ih r' ht x hx
          · rw [if_neg ha] at hr
            simp at hr
      exact hcp (hlen _ r h c (List.mem_range.2 hc))
  obtain ⟨p, hp, hpf⟩ := hrow
  unfold elemOps scatterOps
  simp only [hred, hj, if_true]
  have hmem : p ∈ b.pos.filter (fun p => !fixed (e.lid p)) := by simp [hp, hpf]
  cases hf : b.pos.filter (fun p => !fixed (e.lid p)) with
  | nil => rw [hf] at hmem; simp at hmem
  | cons a t => rw [List.mapM_cons, hnone a]; rfl

/-! ### Constrained rows (C36) -/

/-- C36, partial: with strong conditions a prescribed unknown (not also a point constraint) has residual zero, diagonal
one and zero elsewhere in its row, whatever the elements contribute and however many blocks there are.  Missing: the
option "use strong DBCs: false" (`C36_weak_option_empty_row`), point constraints (`C36_point_residual`) and the residual of
the second path for another physics set (`C36_second_set_residual`). -/
theorem C36_identity_row_partial (nw : Nat) (hw : 1 ≤ nw) (pat : Nat → Nat → Bool) (ncols : Nat)
    (dbc pts : List Nat) (fixed0 : Nat → Bool) (rq : Request) (mesh : Mesh K) (hne : mesh ≠ [])
    (hgood : ∀ b ∈ mesh, Good b.1 rq)
    (hset : ∀ b ∈ mesh, reduceMemory b.1 rq = true ∨ fixed0 = isFixed dbc) (hj : rq.jac = true)
    (ops : List (List (List (Loc × K)))) (ho : meshOps pat (isFixed dbc) fixed0 false rq mesh = some ops)
    (mem mem' : Loc → K) (hA : Assembled nw (constrain true pat ncols dbc pts rq.jac) mem ops mem')
    (r : Nat) (hr : r ∈ dbc) (hpt : r ∉ pts) (hpat : pat r r = true)
    (h0 : ∀ c, mem (Loc.jac r c) = 0) (hr0 : ∀ g, mem (Loc.res r g) = 0) :
    (∀ c, mem' (Loc.jac r c) = if c = r then 1 else 0) ∧ ∀ g, mem' (Loc.res r g) = 0 := by
  have hex := fun b (hb : b ∈ mesh) (e : Elem K) => elemOps_total pat (isFixed dbc) fixed0 b.1 rq (hgood b hb) e
  have hon : ops ≠ [] := by
    intro h
    subst h
    cases mesh with
    | nil => exact hne rfl
    | cons b t =>
      unfold meshOps at ho
      rw [List.mapM_cons] at ho
      cases h1 : blockOps pat (isFixed dbc) fixed0 false rq b.1 b.2 with
      | none => rw [h1] at ho; simp at ho
      | some q =>
        rw [h1] at ho
        cases h2 : t.mapM (fun b => blockOps pat (isFixed dbc) fixed0 false rq b.1 b.2) with
        | none => rw [h2] at ho; simp at ho
        | some q' => rw [h2] at ho; simp at ho
  have hf : isFixed dbc r = true := by simp [isFixed, hr]
  constructor
  · intro c
    by_cases hc : c = r
    · subst hc
      rw [if_pos rfl]
      refine assembled_last nw _ _ 1 (fun m => ?_) _ _ _ hon hA
      rw [hj]
      exact constrain_diag pat ncols dbc pts m c hr hpat hpt
    · rw [if_neg hc]
      obtain ⟨ops', h1, h2⟩ := meshOps_total pat (isFixed dbc) fixed0 false rq (Loc.jac r c)
        (fun b e => if isFixed dbc r = false ∧ pat r c = true then jacWanted rq b.pos e r c else 0) mesh
        (fun b hb e _ => (hex b hb e).imp fun o h => ⟨h.1, h.2.2 r c⟩)
      rw [ho] at h1
      injection h1 with h1
      subst h1
      rw [assembled_keep nw hw _ _ (fun m => constrain_other true pat ncols dbc pts rq.jac m r c
        ⟨fun h => absurd h.symm hc, hpt⟩) _ _ _ hA, h2, h0]
      rw [overMesh_if (isFixed dbc r = false ∧ pat r c = true) (fun pos e => jacWanted rq pos e r c) mesh]
      simp [hf]
  · intro g
    obtain ⟨ops', h1, h2⟩ := meshOps_total pat (isFixed dbc) fixed0 false rq (Loc.res r g)
      (fun b e => if resTable (isFixed dbc) fixed0 b rq r = false then resWanted rq b.pos e r g else 0) mesh
      (fun b hb e _ => (hex b hb e).imp fun o h => ⟨h.1, h.2.1 r g⟩)
    rw [ho] at h1
    injection h1 with h1
    subst h1
    rw [assembled_keep nw hw _ _ (fun m => constrain_res true pat ncols dbc pts rq.jac m r g) _ _ _ hA, h2, hr0, zero_add]
    rw [sum_congr _ (fun _ => (0 : K)), sum_zero]
    intro b hb
    rw [sum_congr _ (fun _ => (0 : K)), sum_zero]
    intro e _
    have ht : resTable (isFixed dbc) fixed0 b.1 rq = isFixed dbc := by
      unfold resTable
      rcases hset b hb with h | h
      · simp [h]
      · simp [h]
    rw [ht, hf]; simp

/-- C36, the other rows: free rows and all free residual entries are the same with and without the constraints. -/
theorem C36_free_rows (nw : Nat) (hw : 1 ≤ nw) (pat : Nat → Nat → Bool) (ncols : Nat) (strong : Bool)
    (dbc pts : List Nat) (rq : Request) (mesh : Mesh K) (hcov : Covers pat mesh)
    (hgood : ∀ b ∈ mesh, Good b.1 rq) (ops ops0 : List (List (List (Loc × K))))
    (ho : meshOps pat (isFixed dbc) (isFixed dbc) false rq mesh = some ops)
    (ho0 : meshOps pat (isFixed []) (isFixed []) false rq mesh = some ops0) (mem a b : Loc → K)
    (ha : Assembled nw (constrain strong pat ncols dbc pts rq.jac) mem ops a)
    (hb : Assembled nw (constrain strong pat ncols [] [] rq.jac) mem ops0 b) (r : Nat) (hr : r ∉ dbc) (hp : r ∉ pts) :
    (∀ g, a (Loc.res r g) = b (Loc.res r g)) ∧ ∀ c, a (Loc.jac r c) = b (Loc.jac r c) := by
  obtain ⟨o, e1, h1⟩ := C35_sums_partial nw hw pat ncols strong dbc pts (isFixed dbc) rq mesh hcov hgood (fun _ _ => Or.inr rfl)
  obtain ⟨o1, e2, h2⟩ := C35_sums_partial nw hw pat ncols strong [] [] (isFixed []) rq mesh hcov hgood (fun _ _ => Or.inr rfl)
  rw [ho] at e1; injection e1 with e1; subst e1
  rw [ho0] at e2; injection e2 with e2; subst e2
  obtain ⟨p1, p2⟩ := h1 mem a ha
  obtain ⟨q1, q2⟩ := h2 mem b hb
  constructor
  · intro g; rw [p1, q1]; simp [hr]
  · intro c; rw [p2 r c hr hp, q2 r c (by simp) (by simp)]

/-- C36 is false with "use strong DBCs: false" when strong conditions are listed all the same: the rows stay empty and
the matrix is singular. -/
theorem C36_weak_option_empty_row (nw : Nat) (hw : 1 ≤ nw) (pat : Nat → Nat → Bool) (ncols : Nat)
    (dbc : List Nat) (fixed0 : Nat → Bool) (rq : Request) (mesh : Mesh K) (hgood : ∀ b ∈ mesh, Good b.1 rq)
    (ops : List (List (List (Loc × K)))) (ho : meshOps pat (isFixed dbc) fixed0 false rq mesh = some ops)
    (mem mem' : Loc → K) (hA : Assembled nw (constrain false pat ncols dbc [] rq.jac) mem ops mem')
    (r : Nat) (hr : r ∈ dbc) (h0 : ∀ c, mem (Loc.jac r c) = 0) : ∀ c, mem' (Loc.jac r c) = 0 := by
  intro c
  have hex := fun b (hb : b ∈ mesh) (e : Elem K) => elemOps_total pat (isFixed dbc) fixed0 b.1 rq (hgood b hb) e
  obtain ⟨ops', h1, h2⟩ := meshOps_total pat (isFixed dbc) fixed0 false rq (Loc.jac r c)
    (fun b e => if isFixed dbc r = false ∧ pat r c = true then jacWanted rq b.pos e r c else 0) mesh
    (fun b hb e _ => (hex b hb e).imp fun o h => ⟨h.1, h.2.2 r c⟩)
  rw [ho] at h1
  injection h1 with h1
  subst h1
  have hk : ∀ m : Loc → K, constrain false pat ncols dbc [] rq.jac m (Loc.jac r c) = m (Loc.jac r c) := by
    intro m
    unfold constrain
    cases rq.jac <;> simp [setPoint]
  rw [assembled_keep nw hw _ _ hk _ _ _ hA, h2, h0]
  rw [overMesh_if (isFixed dbc r = false ∧ pat r c = true) (fun pos e => jacWanted rq pos e r c) mesh]
  simp [isFixed, hr]

/-- C36 is false for point constraints: the matrix row is that of the identity, but the residual keeps the sum over the
elements, so the solution is moved by it. -/
theorem C36_point_residual (nw : Nat) (hw : 1 ≤ nw) (pat : Nat → Nat → Bool) (ncols : Nat) (strong : Bool)
    (dbc pts : List Nat) (rq : Request) (mesh : Mesh K) (hcov : Covers pat mesh) (hgood : ∀ b ∈ mesh, Good b.1 rq)
    (hne : mesh ≠ []) (hj : rq.jac = true) (ops : List (List (List (Loc × K))))
    (ho : meshOps pat (isFixed dbc) (isFixed dbc) false rq mesh = some ops)
    (mem mem' : Loc → K) (hA : Assembled nw (constrain strong pat ncols dbc pts rq.jac) mem ops mem')
    (r : Nat) (hr : r ∉ dbc) (hp : r ∈ pts) (hpr : pat r r = true) :
    (∀ c, c < ncols → pat r c = true → mem' (Loc.jac r c) = if c = r then 1 else 0) ∧
    ∀ g, mem' (Loc.res r g) = mem (Loc.res r g) + overMesh (fun pos e => resWanted rq pos e r g) mesh := by
  have hon : ops ≠ [] := by
    intro h
    subst h
    cases mesh with
    | nil => exact hne rfl
    | cons b t =>
      unfold meshOps at ho
      rw [List.mapM_cons] at ho
      cases h1 : blockOps pat (isFixed dbc) (isFixed dbc) false rq b.1 b.2 with
      | none => rw [h1] at ho; simp at ho
      | some q =>
        rw [h1] at ho
        cases h2 : t.mapM (fun b => blockOps pat (isFixed dbc) (isFixed dbc) false rq b.1 b.2) with
        | none => rw [h2] at ho; simp at ho
        | some q' => rw [h2] at ho; simp at ho
  constructor
  · intro c hc hpc
    refine assembled_last nw _ _ _ (fun m => ?_) _ _ _ hon hA
    unfold constrain
    rw [hj]
    simp only [if_true]
    exact setPoint_mem pat ncols r c hc hpc hpr pts _ hp
  · intro g
    obtain ⟨o, e1, h1⟩ := C35_sums_partial nw hw pat ncols strong dbc pts (isFixed dbc) rq mesh hcov hgood (fun _ _ => Or.inr rfl)
    rw [ho] at e1; injection e1 with e1; subst e1
    rw [(h1 mem mem' hA).1 r g, if_neg hr]

/-- C36 is false in the second path (sensitivities, adjoints) for a physics set other than the first: the residual looks
at the table of the first set, so a prescribed unknown of this set collects the sum over the elements. -/
theorem C36_second_set_residual (nw : Nat) (hw : 1 ≤ nw) (pat : Nat → Nat → Bool) (ncols : Nat) (strong : Bool)
    (dbc pts : List Nat) (fixed0 : Nat → Bool) (rq : Request) (mesh : Mesh K) (hgood : ∀ b ∈ mesh, PartBlock b.1)
    (hpath : ∀ b ∈ mesh, reduceMemory b.1 rq = false) (ops : List (List (List (Loc × K))))
    (ho : meshOps pat (isFixed dbc) fixed0 false rq mesh = some ops)
    (mem mem' : Loc → K) (hA : Assembled nw (constrain strong pat ncols dbc pts rq.jac) mem ops mem')
    (r : Nat) (hf0 : fixed0 r = false) (g : Nat) :
    mem' (Loc.res r g) = mem (Loc.res r g) + overMesh (fun pos e => resWanted rq pos e r g) mesh := by
  have hex := fun b (hb : b ∈ mesh) (e : Elem K) => elemOps_total pat (isFixed dbc) fixed0 b.1 rq
    (by unfold Good; rw [hpath b hb]; simpa using hgood b hb) e
  obtain ⟨ops', h1, h2⟩ := meshOps_total pat (isFixed dbc) fixed0 false rq (Loc.res r g)
    (fun b e => if resTable (isFixed dbc) fixed0 b rq r = false then resWanted rq b.pos e r g else 0) mesh
    (fun b hb e _ => (hex b hb e).imp fun o h => ⟨h.1, h.2.1 r g⟩)
  rw [ho] at h1
  injection h1 with h1
  subst h1
  rw [assembled_keep nw hw _ _ (fun m => constrain_res strong pat ncols dbc pts rq.jac m r g) _ _ _ hA, h2]
  congr 1
  unfold overMesh
  apply sum_congr
  intro b hb
  apply sum_congr
  intro e _
  simp [resTable, hpath b hb, hf0]

/-! ### Adjoint (C61) -/

/-- C61, partial: the matrix assembled for the adjoint is, between free unknowns, the transpose of the one assembled
forwards, although the two are assembled along different paths.  Missing: lumping (`C61_lumped_not_transposed`) and blocks
narrower than the table. -/
theorem C61_adjoint_transpose_partial (nw : Nat) (hw : 1 ≤ nw) (pat : Nat → Nat → Bool) (ncols : Nat)
    (dbc pts : List Nat) (mesh : Mesh K) (hcov : Covers pat mesh) (hfull : ∀ b ∈ mesh, FullBlock b.1)
    (ops opsA : List (List (List (Loc × K))))
    (ho : meshOps pat (isFixed dbc) (isFixed dbc) false ⟨true, false, none⟩ mesh = some ops)
    (hoA : meshOps pat (isFixed dbc) (isFixed dbc) false ⟨true, true, none⟩ mesh = some opsA) (a b : Loc → K)
    (ha : Assembled nw (constrain true pat ncols dbc pts true) (fun _ => 0) ops a)
    (hb : Assembled nw (constrain true pat ncols dbc pts true) (fun _ => 0) opsA b) (r c : Nat)
    (hr : r ∉ dbc) (hc : c ∉ dbc) (hrp : r ∉ pts) (hcp : c ∉ pts) :
    b (Loc.jac r c) = a (Loc.jac c r) := by
  have hg : ∀ (rq : Request), ∀ b ∈ mesh, Good b.1 rq := by
    intro rq b hb
    unfold Good
    split
    · exact hfull b hb
    · exact full_part _ (hfull b hb)
  obtain ⟨o, e1, h1⟩ := C35_sums_partial nw hw pat ncols true dbc pts (isFixed dbc) ⟨true, false, none⟩ mesh hcov (hg _)
    (fun _ _ => Or.inr rfl)
  obtain ⟨o1, e2, h2⟩ := C35_sums_partial nw hw pat ncols true dbc pts (isFixed dbc) ⟨true, true, none⟩ mesh hcov (hg _)
    (fun _ _ => Or.inr rfl)
  rw [ho] at e1; injection e1 with e1; subst e1
  rw [hoA] at e2; injection e2 with e2; subst e2
  rw [(h1 _ _ ha).2 c r hc hcp, (h2 _ _ hb).2 r c hr hrp]
  simp [jacWanted]

/-! ### Lumping of the Jacobian (C37) -/

theorem row_sum_elem (pos : List Nat) (e : Elem K) (r n : Nat) (h : ∀ q ∈ pos, e.lid q < n) :
    elemRow pos e r = ((List.range n).map (fun c => elemJac pos e r c)).sum := by
  unfold elemRow elemJac
  rw [sum_swap _ (List.range n)]
  apply sum_congr
  intro p _
  rw [sum_swap _ (List.range n)]
  apply sum_congr
  intro q hq
  rw [sum_range_of_support _ [e.lid q] n (by simp) (by simpa using h q hq)]
  · simp
  · intro x hx
    simp at hx
    rw [if_neg]
    rintro ⟨_, h2⟩
    exact hx h2.symm

/-- C37, partial: with "lump mass" the matrix assembled along the first path has, in a free row, the sum of the row of
the consistent matrix on the diagonal and zero elsewhere.  Missing: the second path, which does not lump
(`C37_second_path_not_lumped`), and the boundary projection (C68, `Projection.C68_lumped_zero_diagonal`). -/
theorem C37_lumped_partial (nw : Nat) (hw : 1 ≤ nw) (pat : Nat → Nat → Bool) (ncols : Nat) (strong : Bool)
    (dbc pts : List Nat) (fixed0 : Nat → Bool) (rq : Request) (hj : rq.jac = true) (mesh : Mesh K)
    (hfull : ∀ b ∈ mesh, FullBlock b.1) (hred : ∀ b ∈ mesh, reduceMemory b.1 rq = true) (n : Nat)
    (hn : ∀ b ∈ mesh, ∀ e ∈ b.2.flatten, ∀ p ∈ b.1.pos, e.lid p < n) :
    ∃ ops, meshOps pat (isFixed dbc) fixed0 true rq mesh = some ops ∧
      ∀ mem', Assembled nw (constrain strong pat ncols dbc pts rq.jac) (fun _ => 0) ops mem' →
        ∀ r c, r ∉ dbc → r ∉ pts → pat r r = true → mem' (Loc.jac r c) =
          if r = c then ((List.range n).map (fun c => overMesh (fun pos e => elemJac pos e r c) mesh)).sum else 0 := by
  have hex := fun b (hb : b ∈ mesh) (e : Elem K) =>
    elemOps_lump pat (isFixed dbc) fixed0 b.1 rq (hred b hb) hj (hfull b hb) e
  obtain ⟨ops, hops, _⟩ := meshOps_total pat (isFixed dbc) fixed0 true rq (Loc.jac 0 0)
    (fun b e => if 0 = 0 ∧ isFixed dbc 0 = false ∧ pat 0 0 = true then elemRow b.pos e 0 else 0) mesh
    (fun b hb e _ => (hex b hb e).imp fun o h => ⟨h.1, h.2 0 0⟩)
  refine ⟨ops, hops, ?_⟩
  intro mem' hA r c hr hp hpr
  obtain ⟨ops', h1, h2⟩ := meshOps_total pat (isFixed dbc) fixed0 true rq (Loc.jac r c)
    (fun b e => if r = c ∧ isFixed dbc r = false ∧ pat r r = true then elemRow b.pos e r else 0) mesh
    (fun b hb e _ => (hex b hb e).imp fun o h => ⟨h.1, h.2 r c⟩)
  rw [hops] at h1
  injection h1 with h1
  subst h1
  rw [assembled_keep nw hw _ _ (fun m => constrain_other strong pat ncols dbc pts rq.jac m r c ⟨fun _ => hr, hp⟩) _ _ _ hA, h2]
  rw [zero_add, overMesh_if (r = c ∧ isFixed dbc r = false ∧ pat r r = true) (fun pos e => elemRow pos e r) mesh]
  have hf : isFixed dbc r = false := by simp [isFixed, hr]
  simp only [hf, hpr, and_true]
  by_cases hrc : r = c
  · simp only [hrc, if_true]
    unfold overMesh
    rw [sum_swap]
    apply sum_congr
    intro b hb
    rw [sum_swap]
    apply sum_congr
    intro e he
    exact row_sum_elem b.1.pos e c n (fun q hq => hn b hb e he q hq)
  · simp [hrc]

/-- C37 is false along the second path: the option changes nothing there, so adjoints and sensitivities of a lumped
problem use the consistent matrix. -/
theorem C37_second_path_not_lumped (pat : Nat → Nat → Bool) (fixed fixed0 : Nat → Bool) (rq : Request) (b : Block)
    (h : reduceMemory b rq = false) (e : Elem K) :
    elemOps pat fixed fixed0 true b rq e = elemOps pat fixed fixed0 false b rq e := by
  simp [elemOps, h]

/-- C61 is false with lumping: the forward matrix is diagonal, the adjoint one is the transpose of the consistent
matrix.  Witness: the example mesh below, row 0. -/
theorem C61_lumped_not_transposed : ∃ (mesh : Mesh ℚ) (ops opsA : List (List (List (Loc × ℚ)))),
    (∀ b ∈ mesh, FullBlock b.1) ∧
    meshOps (fun _ _ => true) (isFixed []) (isFixed []) true ⟨true, false, none⟩ mesh = some ops ∧
    meshOps (fun _ _ => true) (isFixed []) (isFixed []) true ⟨true, true, none⟩ mesh = some opsA ∧
    ∀ a b, Assembled 1 (constrain true (fun _ _ => true) 2 [] [] true) (fun _ => 0) ops a →
      Assembled 1 (constrain true (fun _ _ => true) 2 [] [] true) (fun _ => 0) opsA b →
      b (Loc.jac 0 1) ≠ a (Loc.jac 1 0) := by
  let mesh : Mesh ℚ := [(⟨2, [0, 1], true⟩, [[⟨fun p => p, fun _ => 0, fun _ _ => 1⟩]])]
  have hfull : ∀ b ∈ mesh, FullBlock b.1 := by
    intro b hb
    simp only [mesh, List.mem_cons, List.not_mem_nil, or_false] at hb
    subst hb
    exact List.Perm.refl _
  have hcov : Covers (fun _ _ => true) mesh := fun _ _ _ _ _ _ _ _ => rfl
  obtain ⟨ops, h1, h2⟩ := C37_lumped_partial 1 (by decide) (fun _ _ => true) 2 true [] [] (isFixed [])
    ⟨true, false, none⟩ rfl mesh hfull (by simp [mesh, reduceMemory]) 2 (by
      intro b hb e he p hp
      simp only [mesh, List.mem_cons, List.not_mem_nil, or_false] at hb
      subst hb
      simp at hp he
      subst he
      rcases hp with rfl | rfl <;> simp)
  obtain ⟨opsA, h3, h4⟩ := C35_sums_partial 1 (by decide) (fun _ _ => true) 2 true [] [] (isFixed [])
    ⟨true, true, none⟩ mesh hcov (by
      intro b hb
      unfold Good
      split
      · exact hfull b hb
      · exact full_part _ (hfull b hb)) (fun _ _ => Or.inr rfl)
  refine ⟨mesh, ops, opsA, hfull, h1, ?_, ?_⟩
  · rw [← h3]
    unfold meshOps blockOps
    congr 1
    funext b
    congr 1
    funext g
    congr 1
    congr 1
    funext e
    exact C37_second_path_not_lumped _ _ _ _ _ (by simp [reduceMemory]) e
  · intro a b ha hb
    rw [h2 a ha 1 0 (by simp) (by simp) rfl, (h4 _ _ hb).2 0 1 (by simp) (by simp)]
    simp [mesh, overMesh, jacWanted, elemJac]

/-! ### Zero rows (C62) -/

variable [LinearOrder K]

/-- C62, partial: with a single block the option "fix zero rows" sets the diagonal of the rows whose entries are
(nearly) zero and changes nothing else.  Missing: several blocks (`C62_second_block_shifted`). -/
theorem C62_single_block_partial (nw : Nat) (tol : K) (pat : Nat → Nat → Bool) (ncols nrows : Nat)
    (strong : Bool) (dbc pts : List Nat) (cj : Bool) (mem mem' : Loc → K) (block : List (List (Loc × K)))
    (hA : Assembled nw (fun m => fixZeroRows tol pat ncols nrows (constrain strong pat ncols dbc pts cj m)) mem [block] mem') :
    ∃ mid, Assembled nw (constrain strong pat ncols dbc pts cj) mem [block] mid ∧
      ∀ r c, mem' (Loc.jac r c) =
        if r < nrows ∧ r = c ∧ pat r r = true ∧ absRow pat ncols mid r < tol then 1 else mid (Loc.jac r c) := by
  cases hA with
  | cons _ mem1 _ _ _ h1 h2 =>
    cases h2
    exact ⟨_, Assembled.cons _ _ _ _ _ h1 (Assembled.nil _), fun r c => fixZeroRows_jac tol pat ncols nrows _ r c⟩

/-- C62 is false with several blocks: a free row that the first block does not touch is declared zero, its diagonal is
set to one, and the contributions of the second block are added to that one. -/
theorem C62_second_block_shifted [IsStrictOrderedRing K] (nw : Nat) (hw : 1 ≤ nw) (tol : K) (htol : 0 < tol) (pat : Nat → Nat → Bool)
    (ncols nrows : Nat) (strong : Bool) (dbc pts : List Nat) (cj : Bool) (mem' : Loc → K)
    (b1 b2 : List (List (Loc × K)))
    (hA : Assembled nw (fun m => fixZeroRows tol pat ncols nrows (constrain strong pat ncols dbc pts cj m))
      (fun _ => 0) [b1, b2] mem')
    (r : Nat) (hr : r < nrows) (hp : pat r r = true) (hd : r ∉ dbc) (hpt : r ∉ pts)
    (h1 : ∀ c, total b1.flatten (Loc.jac r c) = 0)
    (h2 : tol ≤ (((List.range ncols).filter (pat r)).map
      (fun c => |(if c = r then 1 else 0) + total b2.flatten (Loc.jac r c)|)).sum) :
    mem' (Loc.jac r r) = 1 + total b2.flatten (Loc.jac r r) := by
  cases hA with
  | cons _ m1 _ _ _ k1 rest =>
    cases rest with
    | cons _ m2 _ _ _ k2 rest2 =>
      cases rest2
      have hc : ∀ (m : Loc → K) c, constrain strong pat ncols dbc pts cj m (Loc.jac r c) = m (Loc.jac r c) :=
        fun m c => constrain_other strong pat ncols dbc pts cj m r c ⟨fun _ => hd, hpt⟩
      have e1 : ∀ c, m1 (Loc.jac r c) = 0 := by
        intro c; rw [kernels_total nw hw _ _ _ k1, h1, add_zero]
      have z1 : absRow pat ncols (constrain strong pat ncols dbc pts cj m1) r < tol := by
        unfold absRow
        rw [sum_congr _ (fun _ => (0 : K)), sum_zero]
        · exact htol
        · intro c _; rw [hc, e1]; simp
      have e2 : ∀ c, m2 (Loc.jac r c) = (if c = r then 1 else 0) + total b2.flatten (Loc.jac r c) := by
        intro c
        rw [kernels_total nw hw _ _ _ k2, fixZeroRows_jac, hc, e1]
        congr 1
        by_cases hcr : c = r
        · subst hcr; simp [hr, hp, z1]
        · have : ¬ r = c := fun h => hcr h.symm
          simp [hcr, this]
      have z2 : ¬ absRow pat ncols (constrain strong pat ncols dbc pts cj m2) r < tol := by
        unfold absRow
        rw [sum_congr _ (fun c => |(if c = r then (1 : K) else 0) + total b2.flatten (Loc.jac r c)|)]
        · exact not_lt.2 h2
        · intro c _; rw [hc, e2]
      rw [fixZeroRows_jac, if_neg (by intro h; exact z2 h.2.2.2), hc, e2]
      simp

/-! ### Cases -/

/-- Two elements of a line with three nodes, in two groups; the second path is used when `avail` is false. -/
def exampleMesh (avail : Bool) : Mesh ℚ :=
  [(⟨2, [0, 1], avail⟩, [[⟨fun p => p, fun p => p + 1, fun p q => p + 2 * q + 1⟩],
    [⟨fun p => p + 1, fun _ => 3, fun p q => p * q + 1⟩]])]

theorem exampleMesh_covers (a : Bool) : Covers (fun r c => decide (r < 3 ∧ c < 3)) (exampleMesh a) := by
  intro b hb e he p hp q hq
  simp only [exampleMesh, List.mem_cons, List.not_mem_nil, or_false] at hb
  subst hb
  simp at hp hq he
  rcases he with rfl | rfl <;> rcases hp with rfl | rfl <;> rcases hq with rfl | rfl <;> simp

theorem exampleMesh_full (a : Bool) : ∀ b ∈ exampleMesh a, FullBlock b.1 := by
  intro b hb
  simp only [exampleMesh, List.mem_cons, List.not_mem_nil, or_false] at hb
  subst hb
  exact List.Perm.refl _

theorem exampleMesh_good (a : Bool) (rq : Request) : ∀ b ∈ exampleMesh a, Good b.1 rq := by
  intro b hb
  unfold Good
  split
  · exact exampleMesh_full a b hb
  · exact full_part _ (exampleMesh_full a b hb)

/-- C35 and C36: node 0 prescribed, four workers: entry (1,1) is 4 + 1, residual 1 is -(2) - 3, row 0 is the identity. -/
example (ops : List (List (List (Loc × ℚ)))) (mem' : Loc → ℚ)
    (ho : meshOps (fun r c => decide (r < 3 ∧ c < 3)) (isFixed [0]) (isFixed [0]) false ⟨true, false, none⟩ (exampleMesh true)
      = some ops)
    (h : Assembled 4 (constrain true (fun r c => decide (r < 3 ∧ c < 3)) 3 [0] [] true) (fun _ => 0) ops mem') :
    mem' (Loc.jac 1 1) = 5 ∧ mem' (Loc.res 1 0) = -5 ∧ mem' (Loc.jac 0 0) = 1 ∧ mem' (Loc.jac 0 1) = 0 ∧
      mem' (Loc.res 0 0) = 0 := by
  obtain ⟨o, e1, h1⟩ := C35_sums_partial 4 (by decide) (fun r c => decide (r < 3 ∧ c < 3)) 3 true [0] [] (isFixed [0])
    ⟨true, false, none⟩ (exampleMesh true) (exampleMesh_covers _) (exampleMesh_good _ _) (fun _ _ => Or.inr rfl)
  rw [ho] at e1; injection e1 with e1; subst e1
  obtain ⟨p1, p2⟩ := h1 _ _ h
  obtain ⟨q1, q2⟩ := C36_identity_row_partial 4 (by decide) (fun r c => decide (r < 3 ∧ c < 3)) 3 [0] [] (isFixed [0])
    ⟨true, false, none⟩ (exampleMesh true) (by simp [exampleMesh]) (exampleMesh_good _ _) (fun _ _ => Or.inr rfl) rfl
    ops ho _ _ h 0 (by simp) (by simp) (by simp) (fun _ => rfl) (fun _ => rfl)
  refine ⟨?_, ?_, ?_, ?_, ?_⟩
  · rw [p2 1 1 (by simp) (by simp)]
    norm_num [overMesh, exampleMesh, jacWanted, elemJac]
  · rw [p1 1 0]
    norm_num [overMesh, exampleMesh, resWanted, elemRes]
  · rw [q1]; simp
  · rw [q1]; simp
  · exact q2 0

/-- C35, order: the two elements in one group, and in the other order, give the same sums. -/
example : (elems (exampleMesh true)).Perm (elems [(⟨2, [0, 1], true⟩,
    [[⟨fun p => p + 1, fun _ => 3, fun p q => p * q + 1⟩, ⟨fun p => p, fun p => p + 1, fun p q => p + 2 * q + 1⟩]])]) :=
  List.Perm.swap _ _ _

/-- C35: a block with one unknown per element in a table of width two. -/
example : elemOps (fun _ _ => true) (fun _ => false) (fun _ => false) false ⟨2, [0], true⟩ ⟨true, false, none⟩
    (⟨fun p => p, fun _ => 1, fun _ _ => 1⟩ : Elem ℚ) = none :=
  C35_narrow_block_undefined _ _ _ _ _ _ rfl rfl _ ⟨0, by simp, rfl⟩ ⟨1, by decide, by simp⟩

/-- C36, weak option: row 0 of the example is empty. -/
example (ops : List (List (List (Loc × ℚ)))) (mem' : Loc → ℚ)
    (ho : meshOps (fun r c => decide (r < 3 ∧ c < 3)) (isFixed [0]) (isFixed [0]) false ⟨true, false, none⟩ (exampleMesh true)
      = some ops)
    (h : Assembled 1 (constrain false (fun r c => decide (r < 3 ∧ c < 3)) 3 [0] [] true) (fun _ => 0) ops mem') :
    mem' (Loc.jac 0 0) = 0 :=
  C36_weak_option_empty_row 1 (by decide) _ 3 [0] (isFixed [0]) ⟨true, false, none⟩ (exampleMesh true) (exampleMesh_good _ _)
    ops ho _ _ h 0 (by simp) (fun _ => rfl) 0

/-- C36, point constraint at node 1: diagonal one, but residual -5. -/
example (ops : List (List (List (Loc × ℚ)))) (mem' : Loc → ℚ)
    (ho : meshOps (fun r c => decide (r < 3 ∧ c < 3)) (isFixed []) (isFixed []) false ⟨true, false, none⟩ (exampleMesh true)
      = some ops)
    (h : Assembled 2 (constrain true (fun r c => decide (r < 3 ∧ c < 3)) 3 [] [1] true) (fun _ => 0) ops mem') :
    mem' (Loc.jac 1 1) = 1 ∧ mem' (Loc.res 1 0) = -5 := by
  obtain ⟨p, q⟩ := C36_point_residual 2 (by decide) (fun r c => decide (r < 3 ∧ c < 3)) 3 true [] [1] ⟨true, false, none⟩
    (exampleMesh true) (exampleMesh_covers _) (exampleMesh_good _ _) (by simp [exampleMesh]) rfl ops ho _ _ h 1 (by simp)
    (by simp) (by simp)
  refine ⟨by rw [p 1 (by decide) (by simp)]; simp, ?_⟩
  rw [q 0]
  norm_num [overMesh, exampleMesh, resWanted, elemRes]

/-- C36, a second physics set whose unknown 0 is prescribed while that of the first set is not: adjoint residual -1. -/
example (ops : List (List (List (Loc × ℚ)))) (mem' : Loc → ℚ)
    (ho : meshOps (fun r c => decide (r < 3 ∧ c < 3)) (isFixed [0]) (isFixed []) false ⟨true, true, none⟩ (exampleMesh true)
      = some ops)
    (h : Assembled 2 (constrain true (fun r c => decide (r < 3 ∧ c < 3)) 3 [0] [] true) (fun _ => 0) ops mem') :
    mem' (Loc.res 0 0) = -1 := by
  rw [C36_second_set_residual 2 (by decide) (fun r c => decide (r < 3 ∧ c < 3)) 3 true [0] [] (isFixed []) ⟨true, true, none⟩
    (exampleMesh true) (fun b hb => full_part _ (exampleMesh_full _ b hb)) (fun b _ => by simp [reduceMemory]) ops ho _ _ h 0
    (by simp [isFixed]) 0]
  norm_num [overMesh, exampleMesh, resWanted, elemRes]

/-- C61: entry (1, 0) of the adjoint is entry (0, 1) of the forward matrix, here 3 and not 2. -/
example (ops opsA : List (List (List (Loc × ℚ)))) (a b : Loc → ℚ)
    (ho : meshOps (fun r c => decide (r < 3 ∧ c < 3)) (isFixed []) (isFixed []) false ⟨true, false, none⟩ (exampleMesh true)
      = some ops)
    (hoA : meshOps (fun r c => decide (r < 3 ∧ c < 3)) (isFixed []) (isFixed []) false ⟨true, true, none⟩ (exampleMesh true)
      = some opsA)
    (ha : Assembled 3 (constrain true (fun r c => decide (r < 3 ∧ c < 3)) 3 [] [] true) (fun _ => 0) ops a)
    (hb : Assembled 3 (constrain true (fun r c => decide (r < 3 ∧ c < 3)) 3 [] [] true) (fun _ => 0) opsA b) :
    b (Loc.jac 1 0) = 3 := by
  rw [C61_adjoint_transpose_partial 3 (by decide) (fun r c => decide (r < 3 ∧ c < 3)) 3 [] [] (exampleMesh true) (exampleMesh_covers _)
    (exampleMesh_full _) ops opsA ho hoA a b ha hb 1 0 (by simp) (by simp) (by simp) (by simp)]
  obtain ⟨o, e1, h1⟩ := C35_sums_partial 3 (by decide) (fun r c => decide (r < 3 ∧ c < 3)) 3 true [] [] (isFixed [])
    ⟨true, false, none⟩ (exampleMesh true) (exampleMesh_covers _) (exampleMesh_good _ _) (fun _ _ => Or.inr rfl)
  rw [ho] at e1; injection e1 with e1; subst e1
  rw [(h1 _ _ ha).2 0 1 (by simp) (by simp)]
  norm_num [overMesh, exampleMesh, jacWanted, elemJac]

/-- C37: lumped row 1 of the example has 2 + 4 + 1 + 1 = 8 on the diagonal. -/
example (mem' : Loc → ℚ) (ops : List (List (List (Loc × ℚ))))
    (ho : meshOps (fun r c => decide (r < 3 ∧ c < 3)) (isFixed []) (isFixed []) true ⟨true, false, none⟩ (exampleMesh true)
      = some ops)
    (h : Assembled 3 (constrain true (fun r c => decide (r < 3 ∧ c < 3)) 3 [] [] true) (fun _ => 0) ops mem') :
    mem' (Loc.jac 1 1) = 8 ∧ mem' (Loc.jac 1 2) = 0 := by
  obtain ⟨o, e1, h1⟩ := C37_lumped_partial 3 (by decide) (fun r c => decide (r < 3 ∧ c < 3)) 3 true [] [] (isFixed [])
    ⟨true, false, none⟩ rfl (exampleMesh true) (exampleMesh_full _) (by simp [exampleMesh, reduceMemory]) 3 (by
      intro b hb e he p hp
      simp only [exampleMesh, List.mem_cons, List.not_mem_nil, or_false] at hb
      subst hb
      simp at hp he
      rcases he with rfl | rfl <;> rcases hp with rfl | rfl <;> simp)
  rw [ho] at e1; injection e1 with e1; subst e1
  constructor
  · rw [h1 _ h 1 1 (by simp) (by simp) (by simp)]
    norm_num [overMesh, exampleMesh, elemJac, List.range_succ]
  · rw [h1 _ h 1 2 (by simp) (by simp) (by simp)]
    simp

/-- C37: the second path is taken for every adjoint request. -/
example (b : Block) : reduceMemory b ⟨true, true, none⟩ = false := by simp [reduceMemory]

/-- C36, free rows: entry (1, 2) of the example does not depend on node 0 being prescribed. -/
example (ops ops0 : List (List (List (Loc × ℚ)))) (a b : Loc → ℚ)
    (ho : meshOps (fun r c => decide (r < 3 ∧ c < 3)) (isFixed [0]) (isFixed [0]) false ⟨true, false, none⟩ (exampleMesh true)
      = some ops)
    (ho0 : meshOps (fun r c => decide (r < 3 ∧ c < 3)) (isFixed []) (isFixed []) false ⟨true, false, none⟩ (exampleMesh true)
      = some ops0)
    (ha : Assembled 3 (constrain true (fun r c => decide (r < 3 ∧ c < 3)) 3 [0] [] true) (fun _ => 0) ops a)
    (hb : Assembled 3 (constrain true (fun r c => decide (r < 3 ∧ c < 3)) 3 [] [] true) (fun _ => 0) ops0 b) :
    a (Loc.jac 1 2) = b (Loc.jac 1 2) :=
  (C36_free_rows 3 (by decide) _ 3 true [0] [] ⟨true, false, none⟩ (exampleMesh true) (exampleMesh_covers _)
    (exampleMesh_good _ _) ops ops0 ho ho0 _ a b ha hb 1 (by simp) (by simp)).2 2

/-- C62, one block: row 1 is zero and gets diagonal one, row 0 keeps its 2. -/
example (mem' : Loc → ℚ)
    (hA : Assembled 2 (fun m => fixZeroRows (1 / 10) (fun _ _ => true) 2 2 (constrain true (fun _ _ => true) 2 [] [] true m))
      (fun _ => 0) [[[(Loc.jac 0 0, 2)]]] mem') : mem' (Loc.jac 1 1) = 1 ∧ mem' (Loc.jac 0 0) = 2 := by
  obtain ⟨mid, h1, h2⟩ := C62_single_block_partial 2 (1 / 10) _ 2 2 true [] [] true _ _ _ hA
  have hm : ∀ r c, mid (Loc.jac r c) = total [(Loc.jac 0 0, (2 : ℚ))] (Loc.jac r c) := by
    intro r c
    rw [assembled_keep 2 (by decide) _ (Loc.jac r c) (fun m => constrain_other true _ 2 [] [] true m r c ⟨by simp, by simp⟩)
      _ _ _ h1]
    simp
  constructor
  · rw [h2, if_pos]
    refine ⟨by decide, rfl, rfl, ?_⟩
    norm_num [absRow, hm, total, List.range_succ, List.filter]
  · rw [h2, if_neg, hm]
    · norm_num [total]
    · rintro ⟨_, _, _, h⟩
      norm_num [absRow, hm, total, List.range_succ, List.filter] at h

/-- C62: the second block contributes 3 to the diagonal of a row the first block does not touch: the result is 4. -/
example (mem' : Loc → ℚ)
    (hA : Assembled 2 (fun m => fixZeroRows (1 / 10) (fun _ _ => true) 2 2 (constrain true (fun _ _ => true) 2 [] [] true m))
      (fun _ => 0) [[[(Loc.jac 0 0, 2)]], [[(Loc.jac 1 1, 3)]]] mem') : mem' (Loc.jac 1 1) = 4 := by
  rw [C62_second_block_shifted 2 (by decide) (1 / 10) (by norm_num) _ 2 2 true [] [] true mem' _ _ hA 1 (by decide) rfl
    (by simp) (by simp) (by intro c; simp [total])]
  · norm_num [total]
  · norm_num [total, List.range_succ, List.filter]

end MrHyDE.Assembly
