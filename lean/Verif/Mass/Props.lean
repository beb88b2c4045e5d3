import Verif.Mass.Lemmas
import Mathlib.Algebra.Order.BigOperators.Group.List
import Mathlib.Algebra.Order.Ring.Rat
import Mathlib.Tactic.NormNum
import Mathlib.Tactic.Linarith

set_option linter.unusedSectionVars false

/-! # C78, C79, C80, C81: the mass matrix, its products and its lumped form -/

namespace MrHyDE.Mass

variable {K : Type}

section
variable [CommRing K]

/-- All numbers of the degrees of freedom are below `N`. [specification, no code] -/
def Below (N : Nat) (E : Elem K) : Prop := ∀ v ∈ E.vars, ∀ a ∈ v, E.lids a < N

theorem below_pairs (N : Nat) (E : Elem K) (h : Below N E) (t : Nat × Nat × Nat × Nat × Nat) (ht : t ∈ pairs E.vars) :
    E.lids t.2.2.2.1 < N ∧ E.lids t.2.2.2.2 < N := by
  obtain ⟨v, a1, a2, a3⟩ := mem_pairs _ _ ht
  exact ⟨h v (List.mem_of_getElem? a1) _ (List.mem_of_getElem? a2), h v (List.mem_of_getElem? a1) _ (List.mem_of_getElem? a3)⟩

/-- The additions of an element to an entry of the global matrix. [helper] -/
def entry (e : Elem K × (Nat → Nat → K)) (p q : Nat) : K :=
  ((pairs e.1.vars).map (fun t => if e.1.lids t.2.2.2.1 = p ∧ e.1.lids t.2.2.2.2 = q then e.2 t.2.2.2.1 t.2.2.2.2 else 0)).sum

theorem assemble_apply (es : List (Elem K × (Nat → Nat → K))) (p q : Nat) :
    assemble false es p q = (es.map (fun e => entry e p q)).sum := by
  have key : ∀ (es : List (Elem K × (Nat → Nat → K))) (M : Nat → Nat → K),
      es.foldl (fun M e => if false = true then M else insert e.2 e.1 M) M p q = M p q + (es.map (fun e => entry e p q)).sum := by
    intro es
    induction es with
    | nil => intro M; simp
    | cons e t ih =>
      intro M
      rw [List.foldl_cons, ih, List.map_cons, List.sum_cons]
      rw [if_neg (by simp)]
      unfold insert
      rw [foldl_addTo (fun t : Nat × Nat × Nat × Nat × Nat => e.1.lids t.2.2.2.1) (fun t => e.1.lids t.2.2.2.2)
        (fun t => e.2 t.2.2.2.1 t.2.2.2.2)]
      unfold entry
      ring
  unfold assemble
  rw [key, zero_add]

/-- C78: the matrix-free product with stored local matrices is the product with the assembled matrix, added to what the vector
held, for all elements, matrices and vectors. -/
theorem C78_stored (es : List (Elem K × (Nat → Nat → K))) (N : Nat) (hN : ∀ e ∈ es, Below N e.1) (x y : Nat → K) (r : Nat) :
    productStored es x y r = y r + ∑ q ∈ Finset.range N, assemble false es r q * x q := by
  simp only [assemble_apply]
  unfold productStored
  induction es generalizing y with
  | nil => simp
  | cons e t ih =>
    rw [List.foldl_cons, ih (fun e he => hN e (List.mem_cons_of_mem _ he))]
    simp only [List.map_cons, List.sum_cons, add_mul, Finset.sum_add_distrib]
    rw [← add_assoc]
    congr 1
    unfold applyStored
    rw [foldl_addV (fun t : Nat × Nat × Nat × Nat × Nat => e.1.lids t.2.2.2.1)
      (fun t => e.2 t.2.2.2.1 t.2.2.2.2 * x (e.1.lids t.2.2.2.2))]
    congr 1
    unfold entry
    rw [triples_product (fun t : Nat × Nat × Nat × Nat × Nat => e.1.lids t.2.2.2.1) (fun t => e.1.lids t.2.2.2.2)
      (fun t => e.2 t.2.2.2.1 t.2.2.2.2) N x _ (fun t ht => (below_pairs N e.1 (hN e (by simp)) t ht).2)]

/-- C78: without stored matrices the product is the same. -/
theorem C78_computed (mwt : Nat → K) (es : List (Elem K)) (hd : ∀ E ∈ es, Distinct E.vars) (x y : Nat → K) :
    productComputed mwt es x y = productStored (es.map (fun E => (E, localMass mwt E))) x y := by
  unfold productComputed productStored
  induction es generalizing y with
  | nil => rfl
  | cons E t ih =>
    rw [List.foldl_cons, ih (fun E hE => hd E (List.mem_cons_of_mem _ hE)), List.map_cons, List.foldl_cons]
    congr 1
    unfold applyComputed applyStored
    funext q
    rw [foldl_addV (fun t : Nat × Nat × Nat × Nat × Nat => E.lids t.2.2.2.1)
        (fun t => (terms mwt E t.1 t.2.1 t.2.2.1).foldl (fun s v => s + v) 0 * x (E.lids t.2.2.2.2)),
      foldl_addV (fun t : Nat × Nat × Nat × Nat × Nat => E.lids t.2.2.2.1)
        (fun t => localMass mwt E t.2.2.2.1 t.2.2.2.2 * x (E.lids t.2.2.2.2))]
    congr 2
    apply List.map_congr_left
    intro t ht
    rw [foldl_plain, zero_add, localMass_entry mwt E (hd E (by simp)) t ht]

/-- C78: with a database the product is the same, if the representative of each element has the same local matrix. -/
theorem C78_database (mwt : Nat → K) (es : List (Elem K × Elem K)) (x y : Nat → K)
    (h : ∀ e ∈ es, ∀ t ∈ pairs e.1.vars, localMass mwt e.2 t.2.2.2.1 t.2.2.2.2 = localMass mwt e.1 t.2.2.2.1 t.2.2.2.2) :
    productStored (es.map (fun e => (e.1, localMass mwt e.2))) x y =
      productStored (es.map (fun e => (e.1, localMass mwt e.1))) x y := by
  unfold productStored
  induction es generalizing y with
  | nil => rfl
  | cons e t ih =>
    rw [List.map_cons, List.map_cons, List.foldl_cons, List.foldl_cons]
    have : applyStored (localMass mwt e.2) e.1 x y = applyStored (localMass mwt e.1) e.1 x y := by
      unfold applyStored
      funext q
      rw [foldl_addV (fun t : Nat × Nat × Nat × Nat × Nat => e.1.lids t.2.2.2.1)
          (fun t => localMass mwt e.2 t.2.2.2.1 t.2.2.2.2 * x (e.1.lids t.2.2.2.2)),
        foldl_addV (fun t : Nat × Nat × Nat × Nat × Nat => e.1.lids t.2.2.2.1)
          (fun t => localMass mwt e.1 t.2.2.2.1 t.2.2.2.2 * x (e.1.lids t.2.2.2.2))]
      congr 2
      apply List.map_congr_left
      intro s hs
      rw [h e (by simp) s hs]
    simp only [this]
    exact ih _ (fun e he => h e (List.mem_cons_of_mem _ he))

/-- C81, partial: the assembled matrix is the same with a database of dense matrices, if the representative of each element has the
same local matrix.  Missing: the sparse database (`C81_sparse_matrix_zero`). -/
theorem C81_database_partial (mwt : Nat → K) (es : List (Elem K × Elem K))
    (h : ∀ e ∈ es, ∀ t ∈ pairs e.1.vars, localMass mwt e.2 t.2.2.2.1 t.2.2.2.2 = localMass mwt e.1 t.2.2.2.1 t.2.2.2.2) (p q : Nat) :
    assemble false (es.map (fun e => (e.1, localMass mwt e.2))) p q =
      assemble false (es.map (fun e => (e.1, localMass mwt e.1))) p q := by
  rw [assemble_apply, assemble_apply, List.map_map, List.map_map]
  congr 1
  apply List.map_congr_left
  intro e he
  simp only [Function.comp_apply]
  unfold entry
  congr 1
  apply List.map_congr_left
  intro t ht
  simp only
  rw [h e he t ht]

/-- C81 is false with the sparse database: the assembled matrix stays zero. -/
theorem C81_sparse_matrix_zero (es : List (Elem K × (Nat → Nat → K))) (p q : Nat) : assemble true es p q = 0 := by
  unfold assemble
  have : ∀ (es : List (Elem K × (Nat → Nat → K))) (M : Nat → Nat → K),
      es.foldl (fun M e => if true = true then M else insert e.2 e.1 M) M = M := by
    intro es
    induction es with
    | nil => intro M; rfl
    | cons e t ih => intro M; rw [List.foldl_cons, ih, if_pos rfl]
  rw [this]

/-! ## C79: the inner product -/

/-- The finite element function with coefficients `x`: component `d` of variable `n` at point `k`. [specification, no code] -/
def field (E : Elem K) (n : Nat) (off : List Nat) (x : Nat → K) (k d : Nat) : K :=
  ((enum off).map (fun a => x (E.lids a.1) * E.basis n a.2 k d)).sum

/-- The weighted inner product of two finite element functions on an element, by quadrature. [specification, no code] -/
def inner (mwt : Nat → K) (E : Elem K) (x z : Nat → K) : K :=
  ((enum E.vars).map (fun v => mwt v.2 * ((List.range E.points).map (fun k => E.wts k *
    ((List.range (E.comps v.2)).map (fun d => field E v.2 v.1 x k d * field E v.2 v.1 z k d)).sum)).sum)).sum

theorem sum_map_comm {A B : Type} (f : A → B → K) (l : List A) (l' : List B) :
    (l.map (fun a => (l'.map (f a)).sum)).sum = (l'.map (fun b => (l.map (fun a => f a b)).sum)).sum := by
  induction l with
  | nil => simp
  | cons a t ih =>
    simp only [List.map_cons, List.sum_cons]
    rw [ih, ← List.sum_map_add]

theorem sum_flatMap {A B : Type} (f : B → K) (g : A → List B) (l : List A) :
    ((l.flatMap g).map f).sum = (l.map (fun a => ((g a).map f).sum)).sum := by
  induction l with
  | nil => simp
  | cons a t ih => simp [ih]

theorem inner_pairs (mwt : Nat → K) (E : Elem K) (x z : Nat → K) :
    ((pairs E.vars).map (fun t => x (E.lids t.2.2.2.1) * ((terms mwt E t.1 t.2.1 t.2.2.1).sum * z (E.lids t.2.2.2.2)))).sum =
      inner mwt E x z := by
  unfold pairs inner
  rw [sum_flatMap]
  congr 1
  apply List.map_congr_left
  intro v _
  rw [sum_flatMap]
  simp only [List.map_map]
  -- expand the right-hand side
  have hf : ∀ k d, field E v.2 v.1 x k d * field E v.2 v.1 z k d =
      ((enum v.1).map (fun a => ((enum v.1).map (fun b =>
        x (E.lids a.1) * E.basis v.2 a.2 k d * (z (E.lids b.1) * E.basis v.2 b.2 k d))).sum)).sum := by
    intro k d
    unfold field
    rw [← List.sum_map_mul_right]
    congr 1
    apply List.map_congr_left
    intro a _
    rw [← List.sum_map_mul_left]
  simp only [hf]
  rw [← List.sum_map_mul_left]
  simp only [← List.sum_map_mul_left]
  -- bring the sums over functions to the outside
  have e1 : ∀ k, ((List.range (E.comps v.2)).map (fun d => mwt v.2 * (E.wts k * ((enum v.1).map (fun a => ((enum v.1).map (fun b =>
        x (E.lids a.1) * E.basis v.2 a.2 k d * (z (E.lids b.1) * E.basis v.2 b.2 k d))).sum)).sum))).sum =
      ((enum v.1).map (fun a => ((enum v.1).map (fun b => ((List.range (E.comps v.2)).map (fun d =>
        mwt v.2 * (E.wts k * (x (E.lids a.1) * E.basis v.2 a.2 k d * (z (E.lids b.1) * E.basis v.2 b.2 k d))))).sum)).sum)).sum := by
    intro k
    simp only [← List.sum_map_mul_left]
    rw [sum_map_comm]
    congr 1
    apply List.map_congr_left
    intro a _
    rw [sum_map_comm]
  simp only [← List.sum_map_mul_left] at e1
  simp only [e1]
  conv_rhs => rw [sum_map_comm]
  congr 1
  apply List.map_congr_left
  intro a _
  conv_rhs => rw [sum_map_comm]
  congr 1
  apply List.map_congr_left
  intro b _
  simp only [Function.comp_apply]
  unfold terms
  have := sum_flatMap (fun y : K => y) (fun k => (List.range (E.comps v.2)).map (fun d =>
    E.basis v.2 a.2 k d * E.basis v.2 b.2 k d * E.wts k * mwt v.2)) (List.range E.points)
  simp only [List.map_id'] at this
  rw [this, ← List.sum_map_mul_right, ← List.sum_map_mul_left]
  congr 1
  apply List.map_congr_left
  intro k _
  rw [← List.sum_map_mul_right, ← List.sum_map_mul_left]
  congr 1
  apply List.map_congr_left
  intro d _
  ring

theorem triples_form {A : Type} (r c : A → Nat) (f : A → K) (N : Nat) (x z : Nat → K) (l : List A) (hr : ∀ a ∈ l, r a < N)
    (hc : ∀ a ∈ l, c a < N) :
    ∑ p ∈ Finset.range N, ∑ q ∈ Finset.range N, x p * ((l.map (fun a => if r a = p ∧ c a = q then f a else 0)).sum * z q) =
      (l.map (fun a => x (r a) * (f a * z (c a)))).sum := by
  have h1 : ∀ p ∈ Finset.range N, ∑ q ∈ Finset.range N, x p * ((l.map (fun a => if r a = p ∧ c a = q then f a else 0)).sum * z q) =
      (l.map (fun a => if r a = p then f a * z (c a) else 0)).sum * x p := by
    intro p _
    rw [← Finset.mul_sum, triples_product r c f N z l hc p, mul_comm]
  rw [Finset.sum_congr rfl h1]
  induction l with
  | nil => simp
  | cons a t ih =>
    simp only [List.map_cons, List.sum_cons, add_mul, Finset.sum_add_distrib]
    rw [ih (fun b hb => hr b (List.mem_cons_of_mem _ hb)) (fun b hb => hc b (List.mem_cons_of_mem _ hb)) (by
      intro p _
      rw [← Finset.mul_sum, triples_product r c f N z t (fun b hb => hc b (List.mem_cons_of_mem _ hb)) p, mul_comm])]
    congr 1
    rw [Finset.sum_eq_single (r a)]
    · rw [if_pos rfl, mul_comm]
    · intro p _ hp
      rw [if_neg (fun e => hp e.symm), zero_mul]
    · intro hn
      exact absurd (Finset.mem_range.2 (hr a (by simp))) hn

/-- C79: the assembled mass matrix represents the weighted inner product of finite element functions, for all elements,
numberings, bases, quadratures and weights. -/
theorem C79_inner_product (mwt : Nat → K) (es : List (Elem K)) (N : Nat) (hN : ∀ E ∈ es, Below N E)
    (hd : ∀ E ∈ es, Distinct E.vars) (x z : Nat → K) :
    ∑ p ∈ Finset.range N, ∑ q ∈ Finset.range N, x p * (assemble false (es.map (fun E => (E, localMass mwt E))) p q * z q) =
      (es.map (fun E => inner mwt E x z)).sum := by
  simp only [assemble_apply, List.map_map, Function.comp_def]
  induction es with
  | nil => simp
  | cons E t ih =>
    simp only [List.map_cons, List.sum_cons, add_mul, mul_add, Finset.sum_add_distrib]
    rw [ih (fun E hE => hN E (List.mem_cons_of_mem _ hE)) (fun E hE => hd E (List.mem_cons_of_mem _ hE))]
    congr 1
    unfold entry
    simp only
    rw [triples_form (fun t : Nat × Nat × Nat × Nat × Nat => E.lids t.2.2.2.1) (fun t => E.lids t.2.2.2.2)
      (fun t => localMass mwt E t.2.2.2.1 t.2.2.2.2) N x z _
      (fun t ht => (below_pairs N E (hN E (by simp)) t ht).1) (fun t ht => (below_pairs N E (hN E (by simp)) t ht).2)]
    rw [← inner_pairs]
    congr 1
    apply List.map_congr_left
    intro s hs
    rw [localMass_entry mwt E (hd E (by simp)) s hs]

end

section
variable [CommRing K] [LinearOrder K] [IsStrictOrderedRing K]

/-- C79: with weights that are not negative the quadratic form is not negative, as preconditioned conjugate gradients need. -/
theorem C79_nonneg (mwt : Nat → K) (es : List (Elem K)) (N : Nat) (hN : ∀ E ∈ es, Below N E)
    (hd : ∀ E ∈ es, Distinct E.vars) (hm : ∀ n, 0 ≤ mwt n) (hw : ∀ E ∈ es, ∀ k, 0 ≤ E.wts k) (x : Nat → K) :
    0 ≤ ∑ p ∈ Finset.range N, ∑ q ∈ Finset.range N,
      x p * (assemble false (es.map (fun E => (E, localMass mwt E))) p q * x q) := by
  rw [C79_inner_product mwt es N hN hd]
  apply List.sum_nonneg
  intro y hy
  rw [List.mem_map] at hy
  obtain ⟨E, hE, rfl⟩ := hy
  unfold inner
  apply List.sum_nonneg
  intro y hy
  rw [List.mem_map] at hy
  obtain ⟨v, _, rfl⟩ := hy
  apply mul_nonneg (hm _)
  apply List.sum_nonneg
  intro y hy
  rw [List.mem_map] at hy
  obtain ⟨k, _, rfl⟩ := hy
  apply mul_nonneg (hw E hE k)
  apply List.sum_nonneg
  intro y hy
  rw [List.mem_map] at hy
  obtain ⟨d, _, rfl⟩ := hy
  exact mul_self_nonneg _

/-! ## C80: the lumped matrix -/

theorem rows_sum (vars : List (List Nat)) (f : List Nat → Nat → K) :
    ((rows vars).map (fun p => f p.1 p.2)).sum = (vars.map (fun v => (v.map (f v)).sum)).sum := by
  unfold rows
  rw [sum_flatMap]
  simp [Function.comp_def]

theorem pairs_sum (vars : List (List Nat)) (f : Nat → Nat → K) :
    ((pairs vars).map (fun t => f t.2.2.2.1 t.2.2.2.2)).sum = (vars.map (fun v => (v.map (fun a => (v.map (f a)).sum)).sum)).sum := by
  unfold pairs
  rw [sum_flatMap]
  conv_rhs => rw [← enum_map_fst vars, List.map_map]
  congr 1
  apply List.map_congr_left
  intro v _
  rw [sum_flatMap]
  simp only [Function.comp_apply]
  conv_rhs => rw [← enum_map_fst v.1, List.map_map]
  congr 1
  apply List.map_congr_left
  intro a _
  rw [List.map_map]
  simp only [Function.comp_apply]
  rw [List.map_map]
  simp [Function.comp_def]

/-- Row sums of the assembled matrix of one element. [helper] -/
theorem entry_row (e : Elem K × (Nat → Nat → K)) (N : Nat) (hN : Below N e.1) (r : Nat) :
    ∑ q ∈ Finset.range N, entry e r q = ((rows e.1.vars).map (fun p => if e.1.lids p.2 = r then (p.1.map (e.2 p.2)).sum else 0)).sum := by
  have h := triples_product (fun t : Nat × Nat × Nat × Nat × Nat => e.1.lids t.2.2.2.1) (fun t => e.1.lids t.2.2.2.2)
    (fun t => e.2 t.2.2.2.1 t.2.2.2.2) N (fun _ => 1) (pairs e.1.vars) (fun t ht => (below_pairs N e.1 hN t ht).2) r
  simp only [mul_one] at h
  unfold entry
  rw [h, rows_sum e.1.vars (fun v a => if e.1.lids a = r then (v.map (e.2 a)).sum else 0),
    pairs_sum e.1.vars (fun a b => if e.1.lids a = r then e.2 a b else 0)]
  congr 1
  apply List.map_congr_left
  intro v _
  congr 1
  apply List.map_congr_left
  intro a _
  by_cases h : e.1.lids a = r
  · simp [h]
  · simp [h]

/-- C80, partial: if the entries of the local matrices are not negative, the lumped matrix has the row sums of the assembled
matrix.  Missing: negative entries (`C80_negative`), and that all ways of storing give the same (`C80_paths_differ`). -/
theorem C80_row_sums_partial (es : List (Elem K × (Nat → Nat → K))) (N : Nat) (hN : ∀ e ∈ es, Below N e.1)
    (hm : ∀ e ∈ es, ∀ a b, 0 ≤ e.2 a b) (r : Nat) :
    es.foldl (fun y e => lump e.2 e.1 y) (fun _ => 0) r = ∑ q ∈ Finset.range N, assemble false es r q := by
  simp only [assemble_apply]
  have key : ∀ (es : List (Elem K × (Nat → Nat → K))) (y : Nat → K), (∀ e ∈ es, Below N e.1) → (∀ e ∈ es, ∀ a b, 0 ≤ e.2 a b) →
      es.foldl (fun y e => lump e.2 e.1 y) y r = y r + ∑ q ∈ Finset.range N, (es.map (fun e => entry e r q)).sum := by
    intro es
    induction es with
    | nil => intro y _ _; simp
    | cons e t ih =>
      intro y hN hm
      rw [List.foldl_cons, ih _ (fun e he => hN e (List.mem_cons_of_mem _ he)) (fun e he => hm e (List.mem_cons_of_mem _ he))]
      simp only [List.map_cons, List.sum_cons, Finset.sum_add_distrib]
      rw [← add_assoc]
      congr 1
      unfold lump
      rw [foldl_addV (fun p : List Nat × Nat => e.1.lids p.2) (fun p => p.1.foldl (fun s b => s + |e.2 p.2 b|) 0),
        entry_row e N (hN e (by simp)) r]
      congr 2
      apply List.map_congr_left
      intro p _
      rw [foldl_sum (fun b => |e.2 p.2 b|), zero_add]
      by_cases h : e.1.lids p.2 = r
      · rw [if_pos h, if_pos h]
        congr 1
        apply List.map_congr_left
        intro b _
        exact abs_of_nonneg (hm e (by simp) _ _)
      · rw [if_neg h, if_neg h]
  rw [key es _ hN hm, zero_add]

/-- The lumped matrix of the other path has the row sums of the assembled matrix without any condition. -/
theorem C80_plain (es : List (Elem K × (Nat → Nat → K))) (N : Nat) (hN : ∀ e ∈ es, Below N e.1) (r : Nat) :
    es.foldl (fun y e => lumpPlain e.2 e.1 y) (fun _ => 0) r = ∑ q ∈ Finset.range N, assemble false es r q := by
  simp only [assemble_apply]
  have key : ∀ (es : List (Elem K × (Nat → Nat → K))) (y : Nat → K), (∀ e ∈ es, Below N e.1) →
      es.foldl (fun y e => lumpPlain e.2 e.1 y) y r = y r + ∑ q ∈ Finset.range N, (es.map (fun e => entry e r q)).sum := by
    intro es
    induction es with
    | nil => intro y _; simp
    | cons e t ih =>
      intro y hN
      rw [List.foldl_cons, ih _ (fun e he => hN e (List.mem_cons_of_mem _ he))]
      simp only [List.map_cons, List.sum_cons, Finset.sum_add_distrib]
      rw [← add_assoc]
      congr 1
      unfold lumpPlain
      rw [foldl_addV (fun p : List Nat × Nat => e.1.lids p.2) (fun p => p.1.foldl (fun s b => s + e.2 p.2 b) 0),
        entry_row e N (hN e (by simp)) r]
      congr 2
      apply List.map_congr_left
      intro p _
      rw [foldl_sum (fun b => e.2 p.2 b), zero_add]
  rw [key es _ hN, zero_add]

theorem sum_picked (v : List Nat) (hv : v.Nodup) (c : Nat → Prop) [DecidablePred c] (f : Nat → K) {a : Nat} (ha : a ∈ v)
    (hc : ∀ b ∈ v, c b ↔ b = a) : (v.map (fun b => if c b then f b else 0)).sum = f a := by
  have h1 : v.map (fun b => if c b then f b else 0) = v.map (fun b => if b = a then f a else 0) := by
    apply List.map_congr_left
    intro b hb
    by_cases h : b = a
    · rw [if_pos ((hc b hb).2 h), if_pos h, h]
    · rw [if_neg (fun hcb => h ((hc b hb).1 hcb)), if_neg h]
  rw [h1]
  clear h1 hc
  induction v with
  | nil => cases ha
  | cons x t ih =>
    rw [List.map_cons, List.sum_cons]
    obtain ⟨hx, ht⟩ := List.nodup_cons.1 hv
    rcases List.mem_cons.1 ha with rfl | hat
    · rw [if_pos rfl]
      have h0 : (t.map (fun b => if b = a then f a else 0)).sum = 0 := by
        apply List.sum_eq_zero
        intro y hy
        obtain ⟨b, hb, rfl⟩ := List.mem_map.1 hy
        rw [if_neg (fun h : b = a => hx (h ▸ hb))]
      rw [h0, add_zero]
    · rw [if_neg (fun h : x = a => hx (h ▸ hat)), zero_add, ih ht hat]

/-- C80, the part that holds of the diagonal for preconditioning: if the degrees of freedom of each variable of an element have
different numbers, it is the diagonal of the assembled matrix.  Missing: elements in which two of them have the same number
(periodic meshes one element wide, `C80_jacobi_violated`). -/
theorem C80_jacobi_partial (es : List (Elem K × (Nat → Nat → K)))
    (hd : ∀ e ∈ es, ∀ v ∈ e.1.vars, v.Nodup ∧ ∀ a ∈ v, ∀ b ∈ v, e.1.lids a = e.1.lids b → a = b) (r : Nat) :
    es.foldl (fun y e => jacobi e.2 e.1 y) (fun _ => 0) r = assemble false es r r := by
  rw [assemble_apply]
  have key : ∀ (es : List (Elem K × (Nat → Nat → K))) (y : Nat → K),
      (∀ e ∈ es, ∀ v ∈ e.1.vars, v.Nodup ∧ ∀ a ∈ v, ∀ b ∈ v, e.1.lids a = e.1.lids b → a = b) →
      es.foldl (fun y e => jacobi e.2 e.1 y) y r = y r + (es.map (fun e => entry e r r)).sum := by
    intro es
    induction es with
    | nil => intro y _; simp
    | cons e t ih =>
      intro y hd
      rw [List.foldl_cons, ih _ (fun e he => hd e (List.mem_cons_of_mem _ he)), List.map_cons, List.sum_cons, ← add_assoc]
      congr 1
      unfold jacobi
      rw [foldl_addV (fun p : List Nat × Nat => e.1.lids p.2) (fun p => e.2 p.2 p.2)]
      congr 1
      unfold entry
      rw [rows_sum e.1.vars (fun _ a => if e.1.lids a = r then e.2 a a else 0),
        pairs_sum e.1.vars (fun a b => if e.1.lids a = r ∧ e.1.lids b = r then e.2 a b else 0)]
      congr 1
      apply List.map_congr_left
      intro v hv
      congr 1
      apply List.map_congr_left
      intro a ha
      obtain ⟨hn, hi⟩ := hd e List.mem_cons_self v hv
      by_cases h : e.1.lids a = r
      · rw [if_pos h]
        refine (sum_picked v hn (fun b => e.1.lids a = r ∧ e.1.lids b = r) (e.2 a) ha fun b hb => ?_).symm
        constructor
        · rintro ⟨_, h2⟩
          exact hi b hb a ha (h2.trans h.symm)
        · rintro rfl
          exact ⟨h, h⟩
      · rw [if_neg h]
        symm
        apply List.sum_eq_zero
        intro x hx
        obtain ⟨b, _, rfl⟩ := List.mem_map.1 hx
        rw [if_neg (fun hh => h hh.1)]
  rw [key es _ hd, zero_add]

end

/-! ## Cases -/

/-- Two linear functions on an element, values 1, 0 and 0, 1 at two points and 1/2, 1/2 in the middle (Simpson weights).
[case] -/
def exElem (a b : Nat) : Elem ℚ where
  vars := [[0, 1]]
  lids := fun p => if p = 0 then a else b
  basis := fun _ i k _ => if k = 1 then 1/2 else if (k = 0 ∧ i = 0) ∨ (k = 2 ∧ i = 1) then 1 else 0
  points := 3
  comps := fun _ => 1
  wts := fun k => if k = 1 then 4/6 else 1/6

/-- The usual matrix of a line with two elements. -/
example : assemble false ([exElem 0 1, exElem 1 2].map (fun E => (E, localMass (fun _ => 1) E))) 1 1 = 2/3 ∧
    assemble false ([exElem 0 1, exElem 1 2].map (fun E => (E, localMass (fun _ => 1) E))) 0 1 = 1/6 := by decide +kernel

example : productComputed (fun _ => 1) [exElem 0 1, exElem 1 2] (fun _ => 1) (fun _ => 0) 1 = 1 := by decide +kernel

example : ∀ E ∈ [exElem 0 1, exElem 1 2], Below 3 E ∧ Distinct E.vars := by
  intro E hE
  rcases List.mem_cons.1 hE with rfl | hE
  · unfold Below Distinct exElem; decide
  · rw [List.mem_singleton] at hE
    subst hE
    unfold Below Distinct exElem; decide

/-- A local matrix with a negative entry, as for quadratic functions. [case] -/
def exNeg : Nat → Nat → ℚ := fun a b => if a = b then 4/30 else -1/30

/-- C80 is false with negative entries: the lumped matrix does not have the row sums: 1/6 instead of 1/10; the total mass is not
kept. -/
theorem C80_negative : lump exNeg (exElem 0 1) (fun _ => 0) 0 = 1/6 ∧
    ∑ q ∈ Finset.range 2, assemble false [(exElem 0 1, exNeg)] 0 q = 1/10 := by decide +kernel

/-- C80 is false across the ways of storing: the lumped matrix depends on where the vectors live. -/
theorem C80_paths_differ : lump exNeg (exElem 0 1) (fun _ => 0) 0 ≠ lumpPlain exNeg (exElem 0 1) (fun _ => 0) 0 := by
  decide +kernel

/-- C80 is false for the diagonal for preconditioning when two degrees of freedom of an element are the same unknown, as on a
periodic mesh one element wide: the off-diagonal entries belong to the diagonal of the assembled matrix but are left out. -/
theorem C80_jacobi_violated : jacobi exNeg (exElem 0 0) (fun _ => 0) 0 ≠ assemble false [(exElem 0 0, exNeg)] 0 0 := by
  decide +kernel

example : ∀ v ∈ (exElem 0 1).vars, v.Nodup ∧ ∀ a ∈ v, ∀ b ∈ v, (exElem 0 1).lids a = (exElem 0 1).lids b → a = b := by
  unfold exElem; decide

end MrHyDE.Mass
