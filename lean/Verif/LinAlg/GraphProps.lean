import Verif.LinAlg.Graph
import Mathlib.Data.List.Nodup
import Mathlib.Data.List.Perm.Basic
import Mathlib.Tactic.Ring
import Mathlib.Tactic.NormNum

/-!
# C124: unknowns and sparsity of the overlapped matrices

What a user relies on: every unknown of the problem has exactly one owner, every entry the assembly may add to has a
place in the sparsity graph, and the room reserved suffices.
-/

namespace MrHyDE.LinAlg

set_option linter.unusedSectionVars false
set_option linter.unusedSimpArgs false

/-! ## Specification -/

/-- [specification, no code] Two unknowns of the space with phase unknowns meet in an element: the spatial parts
belong to the same element. -/
def Coupled (nph : Nat) (elems : List (List Nat)) (r c : Nat) : Prop :=
  ∃ gids ∈ elems, ∃ g ∈ gids, ∃ h ∈ gids, ∃ p q : Nat, p < nph ∧ q < nph ∧ r = nph * g + p ∧ c = nph * h + q

/-- [specification, no code] The graph has an entry. -/
def HasEntry (ins : List Insertion) (r c : Nat) : Prop := ∃ i ∈ ins, i.1 = r ∧ c ∈ i.2

/-! ## Maps -/

theorem mem_expand (nph : Nat) (dofs : List Nat) (x : Nat) :
    x ∈ expand nph dofs ↔ ∃ d ∈ dofs, ∃ p < nph, x = d * nph + p := by
  simp only [expand, List.mem_flatMap, List.mem_map, List.mem_range]
  constructor
  · rintro ⟨d, hd, p, hp, rfl⟩; exact ⟨d, hd, p, hp, rfl⟩
  · rintro ⟨d, hd, p, hp, rfl⟩; exact ⟨d, hd, p, hp, rfl⟩

theorem digit (nph d e p q : Nat) (hp : p < nph) (hq : q < nph) (h : d * nph + p = e * nph + q) : d = e ∧ p = q := by
  have h1 : (d * nph + p) / nph = d := by
    rw [Nat.mul_comm, Nat.mul_add_div (by omega)]; simp [Nat.div_eq_of_lt hp]
  have h2 : (e * nph + q) / nph = e := by
    rw [Nat.mul_comm, Nat.mul_add_div (by omega)]; simp [Nat.div_eq_of_lt hq]
  have hde : d = e := by rw [← h1, ← h2, h]
  subst hde
  exact ⟨rfl, by omega⟩

theorem nodup_expand (nph : Nat) (dofs : List Nat) (h : dofs.Nodup) : (expand nph dofs).Nodup := by
  unfold expand
  rw [List.nodup_flatMap]
  refine ⟨fun d _ => ?_, ?_⟩
  · exact List.Nodup.map (fun a b hab => by simpa using hab) List.nodup_range
  · refine List.Pairwise.imp ?_ h
    intro d e hde
    rw [Function.onFun, List.disjoint_left]
    intro x hx hy
    simp only [List.mem_map, List.mem_range] at hx hy
    obtain ⟨p, hp, rfl⟩ := hx
    obtain ⟨q, hq, hxy⟩ := hy
    exact hde (digit nph e d q p hq hp hxy).1.symm

theorem expand_append (nph : Nat) (a b : List Nat) : expand nph (a ++ b) = expand nph a ++ expand nph b := by
  simp [expand]

/-- The owned unknowns of all processes together are each unknown of the problem exactly once, whenever the owned
spatial unknowns are: if those of the processes are the numbers below `n` without repetition, the lists handed to the
maps are the numbers below `n` times the number of phase unknowns without repetition. -/
theorem C124_owned (nph n : Nat) (procs : List (List Nat)) (h : List.Perm procs.flatten (List.range n)) :
    List.Perm (procs.map (expand nph)).flatten (List.range (n * nph)) := by
  have hflat : (procs.map (expand nph)).flatten = expand nph procs.flatten := by
    clear h
    induction procs with
    | nil => rfl
    | cons a as ih => simp only [List.map_cons, List.flatten_cons, ih, expand_append]
  rw [hflat]
  have hp : List.Perm (expand nph procs.flatten) (expand nph (List.range n)) := by
    unfold expand
    exact List.Perm.flatMap_right _ h
  refine hp.trans ?_
  rw [List.perm_ext_iff_of_nodup (nodup_expand nph _ List.nodup_range) List.nodup_range]
  intro x
  rw [mem_expand]
  simp only [List.mem_range]
  constructor
  · rintro ⟨d, hd, p, hp', rfl⟩
    calc d * nph + p < d * nph + nph := by omega
      _ = (d + 1) * nph := by ring
      _ ≤ n * nph := Nat.mul_le_mul_right _ hd
  · intro hx
    have hpos : 0 < nph := by
      rcases Nat.eq_zero_or_pos nph with h0 | h0
      · subst h0; simp at hx
      · exact h0
    exact ⟨x / nph, by rw [Nat.div_lt_iff_lt_mul hpos]; exact hx, x % nph, Nat.mod_lt _ hpos, by
      rw [Nat.mul_comm]; exact (Nat.div_add_mod x nph).symm⟩

/-- [case] two processes and three phase unknowns. -/
example : List.Perm ([[1, 0], [2]].map (expand 3)).flatten (List.range 9) :=
  C124_owned 3 3 [[1, 0], [2]] (by decide)

/-- Every row that is counted is in the overlapped map, so the table of counts is never accessed outside: the
unknowns of the elements of a process are among the unknowns it owns or shares. -/
theorem C124_rows_known (nph phaseElems : Nat) (elems : List (List Nat)) (ownedShared : List Nat)
    (h : ∀ gids ∈ elems, ∀ g ∈ gids, g ∈ ownedShared) :
    ∀ r ∈ countedRows nph phaseElems elems, r ∈ expand nph ownedShared := by
  intro r hr
  simp only [countedRows, List.mem_flatMap, List.mem_map, List.mem_range] at hr
  obtain ⟨gids, hg, g, hgg, _, _, j, hj, rfl⟩ := hr
  rw [mem_expand]
  exact ⟨g, h gids hg g hgg, j, hj, by ring⟩

/-! ## The graph -/

theorem hasEntry_iff (ins : List Insertion) (r c : Nat) : HasEntry ins r c ↔ c ∈ inserted ins r := by
  simp only [HasEntry, inserted, List.mem_flatMap]
  constructor
  · rintro ⟨i, hi, rfl, hc⟩; exact ⟨i, hi, by simpa using hc⟩
  · rintro ⟨i, hi, hc⟩
    by_cases h : i.1 = r
    · exact ⟨i, hi, h, by simpa [h] using hc⟩
    · simp [h] at hc

theorem state_entry (nph phaseElems : Nat) (elems : List (List Nat)) (r c : Nat) :
    HasEntry (stateInsertions nph phaseElems elems) r c ↔
      0 < phaseElems ∧ ∃ gids ∈ elems, (∃ g ∈ gids, ∃ j < nph, r = nph * g + j) ∧ c ∈ gids := by
  simp only [HasEntry, stateInsertions, List.mem_flatMap, List.mem_map, List.mem_range]
  constructor
  · rintro ⟨i, ⟨gids, hg, g, hgg, k, hk, j, hj, rfl⟩, rfl, hc⟩
    exact ⟨by omega, gids, hg, ⟨g, hgg, j, hj, rfl⟩, hc⟩
  · rintro ⟨hpos, gids, hg, ⟨g, hgg, j, hj, rfl⟩, hc⟩
    exact ⟨(nph * g + j, gids), ⟨gids, hg, g, hgg, 0, hpos, j, hj, rfl⟩, rfl, hc⟩

/-- Without a phase space the graph of the Jacobian has an entry exactly where two unknowns meet in an element, so
the assembly finds a place for every entry and nothing else is stored.  Missing: a phase space, see
`C124_phase_violated`. -/
theorem C124_graph_partial (elems : List (List Nat)) (r c : Nat) :
    HasEntry (stateInsertions 1 1 elems) r c ↔ Coupled 1 elems r c := by
  rw [state_entry]
  unfold Coupled
  constructor
  · rintro ⟨_, gids, hg, ⟨g, hgg, j, hj, rfl⟩, hc⟩
    exact ⟨gids, hg, g, hgg, c, hc, j, 0, hj, by omega, rfl, by omega⟩
  · rintro ⟨gids, hg, g, hgg, h, hh, p, q, hp, hq, rfl, rfl⟩
    refine ⟨by omega, gids, hg, ⟨g, hgg, p, hp, rfl⟩, ?_⟩
    have : 1 * h + q = h := by omega
    rw [this]; exact hh

/-- The pattern is symmetric, so the transposed Jacobian of the adjoint has the same pattern. -/
theorem C124_symmetric (elems : List (List Nat)) (r c : Nat)
    (h : HasEntry (stateInsertions 1 1 elems) r c) : HasEntry (stateInsertions 1 1 elems) c r := by
  rw [C124_graph_partial] at h ⊢
  obtain ⟨gids, hg, g, hgg, k, hk, p, q, hp, hq, rfl, rfl⟩ := h
  exact ⟨gids, hg, k, hk, g, hgg, q, p, hq, hp, rfl, rfl⟩

/-- [case] two elements sharing an unknown: 0 and 2 do not meet. -/
example : HasEntry (stateInsertions 1 1 [[0, 1], [1, 2]]) 0 1 ∧ ¬ HasEntry (stateInsertions 1 1 [[0, 1], [1, 2]]) 0 2 := by
  rw [hasEntry_iff, hasEntry_iff]
  decide

theorem sum_ite_flat {α : Type} (l : List α) (f : α → List Nat) : (l.flatMap f).sum = (l.map fun a => (f a).sum).sum := by
  induction l with
  | nil => rfl
  | cons a as ih => simp [ih]

theorem length_inserted (ins : List Insertion) (row : Nat) :
    (inserted ins row).length = (ins.map fun (i : Insertion) => if i.1 = row then i.2.length else 0).sum := by
  unfold inserted
  rw [List.length_flatMap]
  congr 1
  apply List.map_congr_left
  intro i _
  by_cases h : i.1 = row <;> simp [h]

theorem le_maxEntries (rows : List Nat) (count : Nat → Nat) (row : Nat) (h : row ∈ rows) :
    count row ≤ maxEntries rows count := by
  have gen : ∀ (l : List Nat) (a : Nat), a ≤ l.foldl (fun (a : Nat) (r : Nat) => max a (count r)) a ∧
      ∀ r ∈ l, count r ≤ l.foldl (fun (a : Nat) (r : Nat) => max a (count r)) a := by
    intro l
    induction l with
    | nil => intro a; exact ⟨le_refl _, by simp⟩
    | cons b bs ih =>
      intro a
      simp only [List.foldl_cons]
      obtain ⟨h1, h2⟩ := ih (max a (count b))
      refine ⟨le_trans (le_max_left _ _) h1, ?_⟩
      intro r hr
      rcases List.mem_cons.mp hr with rfl | hr
      · exact le_trans (le_max_right _ _) h1
      · exact h2 r hr
  exact (gen rows 0).2 row h

theorem sum_le_sum {α : Type} (l : List α) (f g : α → Nat) (h : ∀ a ∈ l, f a ≤ g a) : (l.map f).sum ≤ (l.map g).sum := by
  induction l with
  | nil => simp
  | cons a as ih =>
    simp only [List.map_cons, List.sum_cons]
    exact Nat.add_le_add (h a List.mem_cons_self) (ih fun b hb => h b (List.mem_cons_of_mem _ hb))

/-- The room reserved in every row of the state graph is enough for everything put into it, repetitions included,
with or without a phase space. -/
theorem C124_room (nph phaseElems : Nat) (elems : List (List Nat)) (rows : List Nat) (row : Nat) (h : row ∈ rows) :
    (inserted (stateInsertions nph phaseElems elems) row).length ≤
      maxEntries rows (stateCount nph phaseElems elems) := by
  refine le_trans ?_ (le_maxEntries rows _ row h)
  rw [length_inserted]
  unfold stateInsertions stateCount
  simp only [sum_ite_flat, List.map_flatMap]
  apply sum_le_sum
  intro gids _
  apply sum_le_sum
  intro g _
  apply sum_le_sum
  intro k _
  rw [List.map_map]
  apply sum_le_sum
  intro j hj
  simp only [Function.comp_apply]
  by_cases hr : nph * g + j = row
  · simp only [hr, if_true]
    exact Nat.le_mul_of_pos_right _ (by have := List.mem_range.mp hj; omega)
  · simp [hr]

/-- [case] -/
example : (inserted (stateInsertions 1 1 [[0, 1], [1, 2]]) 1).length = 4 ∧
    maxEntries [0, 1, 2] (stateCount 1 1 [[0, 1], [1, 2]]) = 4 := by decide

/-- The graph between discretised parameters and the state has an entry exactly where a parameter unknown and a state
unknown meet in an element, and the room reserved suffices. -/
theorem C124_paramState (elems : List (List Nat × List Nat)) (rows : List Nat) (r c : Nat) (h : r ∈ rows) :
    (HasEntry (paramStateInsertions elems) r c ↔ ∃ e ∈ elems, r ∈ e.1 ∧ c ∈ e.2) ∧
    (inserted (paramStateInsertions elems) r).length ≤ maxEntries rows (paramStateCount elems) := by
  constructor
  · simp only [HasEntry, paramStateInsertions, List.mem_flatMap, List.mem_map]
    constructor
    · rintro ⟨i, ⟨e, he, g, hg, rfl⟩, rfl, hc⟩; exact ⟨e, he, hg, hc⟩
    · rintro ⟨e, he, hr, hc⟩; exact ⟨(r, e.2), ⟨e, he, r, hr, rfl⟩, rfl, hc⟩
  · refine le_trans ?_ (le_maxEntries rows _ r h)
    rw [length_inserted]
    unfold paramStateInsertions paramStateCount
    simp only [sum_ite_flat, List.map_flatMap]
    apply sum_le_sum
    intro e _
    rw [List.map_map]
    exact le_of_eq rfl

/-- [case] -/
example : HasEntry (paramStateInsertions [([0], [4, 5]), ([1], [5, 6])]) 1 6 ∧
    ¬ HasEntry (paramStateInsertions [([0], [4, 5]), ([1], [5, 6])]) 0 6 := by
  rw [hasEntry_iff, hasEntry_iff]; decide

/-- Violated: with two or more phase unknowns the columns are the spatial unknowns, not multiplied out, so entries
are missing on every mesh: the unknown with the largest number couples with itself, and the graph has no diagonal
entry for it. -/
theorem C124_phase_violated (nph phaseElems : Nat) (hph : 2 ≤ nph) (elems : List (List Nat)) (g : Nat)
    (hg : ∃ gids ∈ elems, g ∈ gids) (hmax : ∀ gids ∈ elems, ∀ h ∈ gids, h ≤ g) :
    Coupled nph elems (nph * g + (nph - 1)) (nph * g + (nph - 1)) ∧
    ¬ HasEntry (stateInsertions nph phaseElems elems) (nph * g + (nph - 1)) (nph * g + (nph - 1)) := by
  obtain ⟨gids, hgi, hgg⟩ := hg
  refine ⟨⟨gids, hgi, g, hgg, g, hgg, nph - 1, nph - 1, by omega, by omega, rfl, rfl⟩, ?_⟩
  rw [state_entry]
  rintro ⟨_, gids', hgi', _, hc⟩
  have := hmax gids' hgi' _ hc
  have h2 : 2 * g ≤ nph * g := Nat.mul_le_mul_right _ hph
  omega

/-- [case] -/
example : Coupled 2 [[0, 1], [1, 2]] 5 5 ∧ ¬ HasEntry (stateInsertions 2 1 [[0, 1], [1, 2]]) 5 5 :=
  C124_phase_violated 2 1 (by norm_num) _ 2 ⟨[1, 2], by simp, by simp⟩ (by decide)

/-! ## What is allocated -/

/-- The projection of the initial data and the explicit update find what they need unless the scheme is fully explicit
and matrix free.  Missing: that combination, see `C124_projection_violated`. -/
theorem C124_alloc_partial (fullyExplicit matrixFree : Bool) (procs : Nat) :
    explicitUpdate (allocated fullyExplicit matrixFree procs) = some () ∧
    ((fullyExplicit && matrixFree) = false →
      projectInitial (allocated fullyExplicit matrixFree procs) = some ()) := by
  constructor
  · cases fullyExplicit <;> cases matrixFree <;> by_cases h : procs = 1 <;>
      simp [explicitUpdate, allocated, importVector, h]
  · intro h
    simp [projectInitial, allocated, newOverlappedMatrix, importVector, h]

/-- On several processes the values of neighbours are imported in every scheme; only a single process does without. -/
theorem C124_ghosts (fullyExplicit matrixFree : Bool) (procs : Nat) :
    (2 ≤ procs → (allocated fullyExplicit matrixFree procs).overlapped = true ∧ (allocated fullyExplicit matrixFree procs).importer = true) ∧
    ((allocated fullyExplicit matrixFree procs).overlapped = false ↔ procs = 1 ∧ fullyExplicit = true ∧ matrixFree = true) := by
  constructor
  · intro h
    have : procs ≠ 1 := by omega
    cases fullyExplicit <;> cases matrixFree <;> simp [allocated, this]
  · cases fullyExplicit <;> cases matrixFree <;> simp [allocated]

/-- [case] -/
example : (allocated true true 2).overlapped = true ∧ (allocated true true 1).overlapped = false := ⟨rfl, rfl⟩

/-- Violated: with a fully explicit matrix-free scheme no graph is built, but the default treatment of an initial
condition given as functions is a projection with an overlapped mass matrix built from such a graph; the access is outside an empty list,
for every number of processes. -/
theorem C124_projection_violated (procs : Nat) : projectInitial (allocated true true procs) = none := by
  simp [projectInitial, allocated, newOverlappedMatrix]

end MrHyDE.LinAlg
