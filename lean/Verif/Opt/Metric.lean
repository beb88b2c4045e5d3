import Verif.Mass.Props
import Verif.Opt.Props
import Mathlib.Tactic.Ring
import Mathlib.Tactic.Linarith

/-!
# C166: the inner product of discretized parameters in an optimisation

With "use parameter mass" the solver hands a diagonal to the optimisation vectors (`setupDiscretizedParamMass`,
`getParamMass`), and the inner product of the optimiser uses it.
-/

set_option linter.unusedSectionVars false
set_option linter.unusedSimpArgs false

namespace MrHyDE.Opt.Metric

open MrHyDE.Mass

variable {K : Type}

section
variable [Field K] [LinearOrder K] [IsStrictOrderedRing K]

/-! ## Model -/

/-- `getParamMass` of a group: `getWeightedMass` without weights, with the bases of the parameters.
[/repo/src/managers/assembly/assemblyManager_mass.hpp:983-1058] -/
def paramLocal (E : Elem K) : Nat → Nat → K := localMass (fun _ => 1) E

/-- The parameter mass matrix; with lumped masses or matrix-free products it is left empty.
[/repo/src/managers/assembly/assemblyManager_mass.hpp:297-300, 432-458, 542-544] -/
def paramMatrix (lumped matrixFree : Bool) (es : List (Elem K)) : Nat → Nat → K :=
  if lumped || matrixFree then fun _ _ => 0 else assemble false (es.map (fun E => (E, paramLocal E)))

/-- The diagonal that `getParamMass` computes: diagonal entries, or sums of magnitudes with "lump mass"; the elements of
all processes, added up by the export to owned entries.  Simplified: the path for separate memory spaces, which adds up the
entries themselves instead of their magnitudes, is not modelled. [/repo/src/managers/assembly/assemblyManager_mass.hpp:301-304, 390-430,
/repo/src/managers/solver/solverManager_setup.hpp:147-162,
/repo/src/interfaces/linear_algebra/linearAlgebraInterface_vector.hpp:87-91] -/
def paramDiag (lumped : Bool) (es : List (Elem K)) : Nat → K :=
  es.foldl (fun y E => if lumped then lump (paramLocal E) E y else jacobi (paramLocal E) E y) (fun _ => 0)

/-- The optimisation vector of discretized parameters with `N` unknowns, one component per time level, with the diagonal
given to it if "use parameter mass" is set. [/repo/src/managers/solver/solverManager_setup.hpp:41-43, 171,
/repo/src/managers/parameter/parameterManager_access.hpp:169, /repo/src/optimization/MrHyDE_OptVector.hpp:59-126] -/
def paramVec (useMass lumped : Bool) (N : Nat) (es : List (Elem K)) (levels : List (Nat → K)) : OptVec K :=
  { field := levels.map (fun x => some ((List.range N).map x)), scalar := [], isDual := false, dscale := 1,
    diag := if useMass then some ((List.range N).map (paramDiag lumped es)) else none, haveMass := useMass }

/-! ## Specification -/

/-- The inner product of two fields by quadrature. [specification, no code] -/
def L2 (es : List (Elem K)) (x y : Nat → K) : K := (es.map (fun E => inner (fun _ => 1) E x y)).sum

/-- The inner product over time levels. [specification, no code] -/
def L2levels (es : List (Elem K)) (xs ys : List (Nat → K)) : K := (List.zipWith (L2 es) xs ys).sum

/-! ## Lemmas -/

/-- The value that a row adds to the diagonal. [helper; /repo/src/managers/assembly/assemblyManager_mass.hpp:409-418] -/
def rowVal (lumped : Bool) (E : Elem K) (p : List Nat × Nat) : K :=
  if lumped then (p.1.map (fun b => |paramLocal E p.2 b|)).sum else paramLocal E p.2 p.2

theorem paramDiag_apply (lumped : Bool) (es : List (Elem K)) (r : Nat) :
    paramDiag lumped es r = (es.map (fun E => ((rows E.vars).map (fun p =>
      if E.lids p.2 = r then rowVal lumped E p else 0)).sum)).sum := by
  have key : ∀ (es : List (Elem K)) (y : Nat → K),
      es.foldl (fun y E => if lumped then lump (paramLocal E) E y else jacobi (paramLocal E) E y) y r =
      y r + (es.map (fun E => ((rows E.vars).map (fun p => if E.lids p.2 = r then rowVal lumped E p else 0)).sum)).sum := by
    intro es
    induction es with
    | nil => intro y; simp
    | cons E es ih =>
      intro y
      rw [List.foldl_cons, ih, List.map_cons, List.sum_cons, ← add_assoc]
      congr 1
      cases lumped
      · simp only [Bool.false_eq_true, if_false, jacobi, rowVal]
        exact foldl_addV (fun p : List Nat × Nat => E.lids p.2) (fun p => paramLocal E p.2 p.2) (rows E.vars) y r
      · simp only [if_true, lump, rowVal, foldl_sum, zero_add]
        exact foldl_addV (fun p : List Nat × Nat => E.lids p.2) (fun p => (p.1.map (fun b => |paramLocal E p.2 b|)).sum)
          (rows E.vars) y r
  unfold paramDiag
  rw [key, zero_add]

theorem mem_rows {vars : List (List Nat)} {p : List Nat × Nat} (h : p ∈ rows vars) : p.1 ∈ vars ∧ p.2 ∈ p.1 := by
  unfold rows at h
  rw [List.mem_flatMap] at h
  obtain ⟨v, hv, h⟩ := h
  rw [List.mem_map] at h
  obtain ⟨a, ha, rfl⟩ := h
  exact ⟨hv, ha⟩

theorem single_sum {A : Type} (N : Nat) (r : A → Nat) (f : A → K) (g : Nat → K) (l : List A) (h : ∀ a ∈ l, r a < N) :
    ∑ q ∈ Finset.range N, (l.map (fun a => if r a = q then f a else 0)).sum * g q = (l.map (fun a => f a * g (r a))).sum := by
  induction l with
  | nil => simp
  | cons a l ih =>
    simp only [List.map_cons, List.sum_cons, add_mul, Finset.sum_add_distrib]
    rw [ih (fun b hb => h b (List.mem_cons_of_mem _ hb))]
    congr 1
    rw [Finset.sum_eq_single (r a)]
    · simp
    · intro q _ hq
      rw [if_neg (fun e => hq e.symm), zero_mul]
    · intro hn
      exact absurd (Finset.mem_range.2 (h a (by simp))) hn

theorem diag_form (lumped : Bool) (es : List (Elem K)) (N : Nat) (hN : ∀ E ∈ es, Below N E) (x y : Nat → K) :
    ∑ r ∈ Finset.range N, paramDiag lumped es r * (x r * y r) =
      (es.map (fun E => ((rows E.vars).map (fun p => rowVal lumped E p * (x (E.lids p.2) * y (E.lids p.2)))).sum)).sum := by
  simp only [paramDiag_apply]
  induction es with
  | nil => simp
  | cons E es ih =>
    simp only [List.map_cons, List.sum_cons, add_mul, Finset.sum_add_distrib]
    rw [ih (fun E hE => hN E (List.mem_cons_of_mem _ hE))]
    congr 1
    refine single_sum N (fun p : List Nat × Nat => E.lids p.2) (rowVal lumped E) (fun q => x q * y q) _ ?_
    intro p hp
    obtain ⟨h1, h2⟩ := mem_rows hp
    exact hN E (by simp) p.1 h1 p.2 h2

/-- The inner product of the optimiser, level by level. -/
theorem dot_mass (lumped : Bool) (N : Nat) (es : List (Elem K)) : ∀ (xs ys : List (Nat → K)), xs.length = ys.length →
    (paramVec true lumped N es xs).dot (paramVec true lumped N es ys) =
      some ((List.zipWith (fun x y => ∑ r ∈ Finset.range N, paramDiag lumped es r * (x r * y r)) xs ys).sum) := by
  have one : ∀ (D x y : Nat → K) (l : List Nat),
      (List.zipWith (· * ·) (l.map x) (List.zipWith (fun a d => a * d) (l.map y) (l.map D))).sum =
        (l.map (fun r => D r * (x r * y r))).sum := by
    intro D x y l
    induction l with
    | nil => simp
    | cons r l ih =>
      simp only [List.map_cons, List.zipWith_cons_cons, List.sum_cons]
      rw [ih]; ring
  have key : ∀ (D : Nat → K) (xs ys : List (Nat → K)), xs.length = ys.length →
      dotC (fun v => zip2 (fun a d => a * d) v ((List.range N).map D)) (xs.map (fun x => some ((List.range N).map x)))
        (ys.map (fun x => some ((List.range N).map x))) =
      some ((List.zipWith (fun x y => ∑ r ∈ Finset.range N, D r * (x r * y r)) xs ys).sum) := by
    intro D xs
    induction xs with
    | nil => intro ys h; simp [dotC]
    | cons x xs ih =>
      intro ys h
      cases ys with
      | nil => simp at h
      | cons y ys =>
        have h' : xs.length = ys.length := by simpa using h
        have e1 : zip2 (fun a d => a * d) ((List.range N).map y) ((List.range N).map D) =
            some (List.zipWith (fun a d => a * d) ((List.range N).map y) ((List.range N).map D)) := by simp [zip2]
        have e2 : dotL ((List.range N).map x) (List.zipWith (fun a d => a * d) ((List.range N).map y) ((List.range N).map D)) =
            some (((List.range N).map (fun r => D r * (x r * y r))).sum) := by
          unfold dotL
          rw [if_pos (by simp), one]
        simp only [List.map_cons, dotC, e1, e2, ih ys h', Option.bind_eq_bind, Option.bind_some, List.zipWith_cons_cons,
          List.sum_cons]
        rfl
  intro xs ys h
  have hk := key (paramDiag lumped es) xs ys h
  simp only [OptVec.dot, OptVec.fieldDot, paramVec, if_true, ne_eq, not_true, if_false, Bool.false_eq_true, hk, dotC]
  simp

/-- C166, default: without "use parameter mass" the optimiser uses the plain sum over the unknowns and time levels. -/
theorem C166_plain (lumped : Bool) (N : Nat) (es : List (Elem K)) (xs ys : List (Nat → K)) (h : xs.length = ys.length) :
    (paramVec false lumped N es xs).dot (paramVec false lumped N es ys) =
      some ((List.zipWith (fun x y => ∑ r ∈ Finset.range N, x r * y r) xs ys).sum) := by
  have key : ∀ (xs ys : List (Nat → K)), xs.length = ys.length →
      dotC some (xs.map (fun x => some ((List.range N).map x))) (ys.map (fun x => some ((List.range N).map x))) =
      some ((List.zipWith (fun x y => ∑ r ∈ Finset.range N, x r * y r) xs ys).sum) := by
    intro xs
    induction xs with
    | nil => intro ys h; simp [dotC]
    | cons x xs ih =>
      intro ys h
      cases ys with
      | nil => simp at h
      | cons y ys =>
        have h' : xs.length = ys.length := by simpa using h
        have e2 : dotL ((List.range N).map x) ((List.range N).map y) = some (((List.range N).map (fun r => x r * y r)).sum) := by
          unfold dotL
          rw [if_pos (by simp), List.zipWith_map, List.zipWith_self]
        simp only [List.map_cons, dotC, e2, ih ys h', Option.bind_eq_bind, Option.bind_some, List.zipWith_cons_cons,
          List.sum_cons]
        rfl
  have hk := key xs ys h
  simp only [OptVec.dot, OptVec.fieldDot, paramVec, if_true, ne_eq, not_true, if_false, Bool.false_eq_true, hk, dotC]
  simp

theorem inner_local (E : Elem K) (hd : Distinct E.vars) (x y : Nat → K) :
    inner (fun _ => 1) E x y = (E.vars.map (fun v => (v.map (fun a => (v.map (fun b =>
      x (E.lids a) * (paramLocal E a b * y (E.lids b)))).sum)).sum)).sum := by
  rw [← inner_pairs, ← pairs_sum E.vars (fun a b => x (E.lids a) * (paramLocal E a b * y (E.lids b)))]
  congr 1
  apply List.map_congr_left
  intro t ht
  rw [paramLocal, localMass_entry (fun _ => 1) E hd t ht]

theorem enum_mem {A : Type} {l : List A} {i : Nat} {a : A} (h : l[i]? = some a) : (a, i) ∈ enum l := by
  obtain ⟨hi, e⟩ := List.getElem?_eq_some_iff.1 h
  unfold enum
  rw [List.mem_iff_getElem]
  exact ⟨i, by simp [hi], by simp [e]⟩

theorem pairs_mem {vars : List (List Nat)} {v : List Nat} {n i j a b : Nat} (hv : vars[n]? = some v) (hi : v[i]? = some a)
    (hj : v[j]? = some b) : (n, i, j, a, b) ∈ pairs vars := by
  unfold pairs
  rw [List.mem_flatMap]
  refine ⟨(v, n), enum_mem hv, ?_⟩
  rw [List.mem_flatMap]
  refine ⟨(a, i), enum_mem hi, ?_⟩
  rw [List.mem_map]
  exact ⟨(b, j), enum_mem hj, rfl⟩

theorem terms_sum (E : Elem K) (n i j : Nat) : (terms (fun _ => 1) E n i j).sum =
    ((List.range E.points).map (fun k => ((List.range (E.comps n)).map (fun d =>
      E.basis n i k d * E.basis n j k d * E.wts k)).sum)).sum := by
  unfold terms
  have := sum_flatMap (fun y : K => y) (fun k => (List.range (E.comps n)).map (fun d =>
    E.basis n i k d * E.basis n j k d * E.wts k * (1 : K))) (List.range E.points)
  simp only [List.map_id'] at this
  rw [this]
  simp only [mul_one]

theorem sum_nonneg' {A : Type} (l : List A) (f : A → K) (h : ∀ a ∈ l, 0 ≤ f a) : 0 ≤ (l.map f).sum := by
  induction l with
  | nil => simp
  | cons a l ih =>
    rw [List.map_cons, List.sum_cons]
    exact add_nonneg (h a (by simp)) (ih (fun b hb => h b (List.mem_cons_of_mem _ hb)))

theorem le_sum {A : Type} (l : List A) (f : A → K) (h : ∀ a ∈ l, 0 ≤ f a) {a : A} (ha : a ∈ l) : f a ≤ (l.map f).sum := by
  induction l with
  | nil => cases ha
  | cons b l ih =>
    rw [List.map_cons, List.sum_cons]
    have h1 := h b (by simp)
    have h2 := sum_nonneg' l f (fun c hc => h c (List.mem_cons_of_mem _ hc))
    rcases List.mem_cons.1 ha with rfl | ha
    · linarith
    · have := ih (fun c hc => h c (List.mem_cons_of_mem _ hc)) ha
      linarith

/-- Diagonal entries of a local matrix. -/
theorem local_diag (E : Elem K) (hd : Distinct E.vars) {v : List Nat} {n i a : Nat} (hv : E.vars[n]? = some v)
    (hi : v[i]? = some a) : paramLocal E a a = ((List.range E.points).map (fun k => ((List.range (E.comps n)).map (fun d =>
      E.basis n i k d * E.basis n i k d * E.wts k)).sum)).sum := by
  have := localMass_entry (fun _ => (1 : K)) E hd _ (pairs_mem hv hi hi)
  rw [paramLocal]
  exact this.trans (terms_sum E n i i)

theorem local_diag_nonneg (E : Elem K) (hd : Distinct E.vars) (hw : ∀ k, 0 ≤ E.wts k) {v : List Nat} {a : Nat}
    (hv : v ∈ E.vars) (ha : a ∈ v) : 0 ≤ paramLocal E a a := by
  obtain ⟨n, hn, e⟩ := List.mem_iff_getElem.1 hv
  obtain ⟨i, hi, e'⟩ := List.mem_iff_getElem.1 ha
  rw [local_diag E hd (List.getElem?_eq_some_iff.2 ⟨hn, e⟩) (List.getElem?_eq_some_iff.2 ⟨hi, e'⟩)]
  apply sum_nonneg'
  intro k _
  apply sum_nonneg'
  intro d _
  exact mul_nonneg (mul_self_nonneg _) (hw k)

theorem rowVal_nonneg (lumped : Bool) (E : Elem K) (hd : Distinct E.vars) (hw : ∀ k, 0 ≤ E.wts k) {p : List Nat × Nat}
    (hp : p ∈ rows E.vars) : 0 ≤ rowVal lumped E p := by
  obtain ⟨h1, h2⟩ := mem_rows hp
  cases lumped
  · simp only [rowVal, Bool.false_eq_true, if_false]
    exact local_diag_nonneg E hd hw h1 h2
  · simp only [rowVal, if_true]
    exact sum_nonneg' _ _ (fun b _ => abs_nonneg _)

theorem sum_one {v : List Nat} (hv : v.Nodup) {a : Nat} (ha : a ∈ v) (f : Nat → K) (h : ∀ b ∈ v, a ≠ b → f b = 0) :
    (v.map f).sum = f a := by
  have : v.map f = v.map (fun b => if b = a then f b else 0) := by
    apply List.map_congr_left
    intro b hb
    by_cases e : b = a
    · rw [if_pos e]
    · rw [if_neg e, h b hb (fun h => e h.symm)]
  rw [this]
  exact sum_picked v hv (fun b => b = a) f ha (fun b _ => Iff.rfl)

/-! ## Theorems -/

/-- C166: the parameter mass matrix, when it is computed, represents the inner product of the fields. -/
theorem C166_matrix (es : List (Elem K)) (N : Nat) (hN : ∀ E ∈ es, Below N E) (hd : ∀ E ∈ es, Distinct E.vars)
    (x y : Nat → K) :
    ∑ p ∈ Finset.range N, ∑ q ∈ Finset.range N, x p * (paramMatrix false false es p q * y q) = L2 es x y :=
  C79_inner_product (fun _ => 1) es N hN hd x y

/-- C166 is false for the matrix with "lump mass" or with products free of matrices: it is left empty, so the form it represents is
zero for all fields, also where the inner product is not. -/
theorem C166_matrix_empty_violated (lumped matrixFree : Bool) (h : lumped = true ∨ matrixFree = true) (es : List (Elem K)) (N : Nat)
    (x y : Nat → K) : ∑ p ∈ Finset.range N, ∑ q ∈ Finset.range N, x p * (paramMatrix lumped matrixFree es p q * y q) = 0 := by
  have : paramMatrix lumped matrixFree es = fun _ _ => 0 := by
    unfold paramMatrix
    rcases h with h | h <;> simp [h]
  simp [this]

/-- C166, partial: if the functions of a parameter are orthogonal on every element (piecewise constant parameters have one
function per element), the inner product of the optimiser is that of the fields, summed over the time levels, with and
without "lump mass".  Missing: all other bases (`C166_violated`, `C166_lumped_violated`, `C166_face_violated`). -/
theorem C166_orthogonal_partial (lumped : Bool) (es : List (Elem K)) (N : Nat) (hN : ∀ E ∈ es, Below N E)
    (hd : ∀ E ∈ es, Distinct E.vars) (hw : ∀ E ∈ es, ∀ k, 0 ≤ E.wts k)
    (ho : ∀ E ∈ es, ∀ (n : Nat) (v : List Nat), E.vars[n]? = some v → ∀ i j, i < v.length → j < v.length → i ≠ j →
      ((List.range E.points).map (fun k => ((List.range (E.comps n)).map (fun d =>
        E.basis n i k d * E.basis n j k d * E.wts k)).sum)).sum = 0)
    (xs ys : List (Nat → K)) (h : xs.length = ys.length) :
    (paramVec true lumped N es xs).dot (paramVec true lumped N es ys) = some (L2levels es xs ys) := by
  rw [dot_mass lumped N es xs ys h]
  unfold L2levels
  congr 3
  funext x y
  rw [diag_form lumped es N hN]
  unfold L2
  congr 1
  apply List.map_congr_left
  intro E hE
  rw [inner_local E (hd E hE), rows_sum E.vars (fun v a => rowVal lumped E (v, a) * (x (E.lids a) * y (E.lids a)))]
  congr 1
  apply List.map_congr_left
  intro v hv
  obtain ⟨n, hn, e⟩ := List.mem_iff_getElem.1 hv
  have hvn : E.vars[n]? = some v := List.getElem?_eq_some_iff.2 ⟨hn, e⟩
  have hnd : v.Nodup := (List.nodup_flatten.1 (hd E hE)).1 v hv
  have hoff : ∀ a ∈ v, ∀ b ∈ v, a ≠ b → paramLocal E a b = 0 := by
    intro a ha b hb hab
    obtain ⟨i, hi, ei⟩ := List.mem_iff_getElem.1 ha
    obtain ⟨j, hj, ej⟩ := List.mem_iff_getElem.1 hb
    have hij : i ≠ j := by rintro rfl; exact hab (ei.symm.trans ej)
    have := localMass_entry (fun _ => (1 : K)) E (hd E hE) _
      (pairs_mem hvn (List.getElem?_eq_some_iff.2 ⟨hi, ei⟩) (List.getElem?_eq_some_iff.2 ⟨hj, ej⟩))
    rw [paramLocal]
    exact this.trans ((terms_sum E n i j).trans (ho E hE n v hvn i j hi hj hij))
  congr 1
  apply List.map_congr_left
  intro a ha
  have hrow : rowVal lumped E (v, a) = paramLocal E a a := by
    cases lumped
    · simp [rowVal]
    · simp only [rowVal, if_true]
      rw [sum_one hnd ha (fun b => |paramLocal E a b|) (fun b hb hab => by simp [hoff a ha b hb hab])]
      exact abs_of_nonneg (local_diag_nonneg E (hd E hE) (hw E hE) hv ha)
  rw [hrow, sum_one hnd ha (fun b => x (E.lids a) * (paramLocal E a b * y (E.lids b)))
    (fun b hb hab => by simp [hoff a ha b hb hab])]
  ring

/-- C166, partial: piecewise constant parameters. -/
theorem C166_constant_partial (lumped : Bool) (es : List (Elem K)) (N : Nat) (hN : ∀ E ∈ es, Below N E)
    (hd : ∀ E ∈ es, Distinct E.vars) (hw : ∀ E ∈ es, ∀ k, 0 ≤ E.wts k) (hc : ∀ E ∈ es, ∀ v ∈ E.vars, v.length ≤ 1)
    (xs ys : List (Nat → K)) (h : xs.length = ys.length) :
    (paramVec true lumped N es xs).dot (paramVec true lumped N es ys) = some (L2levels es xs ys) := by
  refine C166_orthogonal_partial lumped es N hN hd hw ?_ xs ys h
  intro E hE n v hv i j hi hj hij
  have := hc E hE v (List.mem_of_getElem? hv)
  omega

/-- C166, partial: with "lump mass" and local matrices without negative entries, the inner product with the field whose
coefficients are all one is that of the fields, for every basis. -/
theorem C166_lumped_one_partial (es : List (Elem K)) (N : Nat) (hN : ∀ E ∈ es, Below N E) (hd : ∀ E ∈ es, Distinct E.vars)
    (hm : ∀ E ∈ es, ∀ a b, 0 ≤ paramLocal E a b) (xs : List (Nat → K)) :
    (paramVec true true N es xs).dot (paramVec true true N es (xs.map (fun _ _ => 1))) =
      some (L2levels es xs (xs.map (fun _ _ => 1))) := by
  rw [dot_mass true N es xs _ (by simp)]
  have hrow : ∀ r, paramDiag true es r = ∑ q ∈ Finset.range N, paramMatrix false false es r q := by
    intro r
    have := C80_row_sums_partial (es.map (fun E => (E, paramLocal E))) N
      (by intro e he; obtain ⟨E, hE, rfl⟩ := List.mem_map.1 he; exact hN E hE)
      (by intro e he; obtain ⟨E, hE, rfl⟩ := List.mem_map.1 he; exact hm E hE) r
    rw [List.foldl_map] at this
    simpa [paramDiag, paramMatrix] using this
  have key : ∀ x : Nat → K, ∑ r ∈ Finset.range N, paramDiag true es r * (x r * 1) = L2 es x (fun _ => 1) := by
    intro x
    rw [← C166_matrix es N hN hd]
    apply Finset.sum_congr rfl
    intro p _
    rw [hrow, Finset.sum_mul]
    apply Finset.sum_congr rfl
    intro q _
    ring
  unfold L2levels
  rw [List.zipWith_map_right, List.zipWith_map_right]
  simp only [key]

/-- C166, norm: with weights that are positive and basis functions none of which vanishes at all points, the inner product of
the optimiser is positive: only the zero field has norm zero, as the optimiser assumes.  For bases of type HFACE this fails
(`C166_face_violated`). -/
theorem C166_positive (lumped : Bool) (es : List (Elem K)) (N : Nat) (hd : ∀ E ∈ es, Distinct E.vars)
    (hw : ∀ E ∈ es, ∀ k, 0 < E.wts k)
    (hs : ∀ r, r < N → ∃ E ∈ es, ∃ (n i a : Nat) (v : List Nat), E.vars[n]? = some v ∧ v[i]? = some a ∧ E.lids a = r ∧
      ∃ k d, k < E.points ∧ d < E.comps n ∧ E.basis n i k d ≠ 0)
    (xs : List (Nat → K)) :
    ∃ s, (paramVec true lumped N es xs).dot (paramVec true lumped N es xs) = some s ∧ 0 ≤ s ∧
      (s = 0 ↔ ∀ x ∈ xs, ∀ r, r < N → x r = 0) := by
  have hpos : ∀ r, r < N → 0 < paramDiag lumped es r := by
    intro r hr
    obtain ⟨E, hE, n, i, a, v, hv, hi, hl, k, d, hk, hdc, hb⟩ := hs r hr
    have hvm : v ∈ E.vars := List.mem_of_getElem? hv
    have ham : a ∈ v := List.mem_of_getElem? hi
    have hw' : ∀ E ∈ es, ∀ k, 0 ≤ E.wts k := fun E hE k => (hw E hE k).le
    have hval : 0 < paramLocal E a a := by
      rw [local_diag E (hd E hE) hv hi]
      have t1 : ∀ k ∈ List.range E.points, 0 ≤ ((List.range (E.comps n)).map (fun d =>
          E.basis n i k d * E.basis n i k d * E.wts k)).sum := by
        intro k _
        apply sum_nonneg'
        intro d _
        exact mul_nonneg (mul_self_nonneg _) (hw' E hE k)
      refine lt_of_lt_of_le ?_ (le_sum _ _ t1 (List.mem_range.2 hk))
      refine lt_of_lt_of_le ?_ (le_sum (List.range (E.comps n)) (fun d => E.basis n i k d * E.basis n i k d * E.wts k)
        (fun d _ => mul_nonneg (mul_self_nonneg _) (hw' E hE k)) (List.mem_range.2 hdc))
      exact mul_pos (mul_self_pos.2 hb) (hw E hE k)
    have hrow : 0 < rowVal lumped E (v, a) := by
      cases lumped
      · simpa [rowVal] using hval
      · simp only [rowVal, if_true]
        refine lt_of_lt_of_le ?_ (le_sum v (fun b => |paramLocal E a b|) (fun b _ => abs_nonneg _) ham)
        exact lt_of_lt_of_le hval (le_abs_self _)
    rw [paramDiag_apply]
    have t2 : ∀ F ∈ es, ∀ p ∈ rows F.vars, 0 ≤ (if F.lids p.2 = r then rowVal lumped F p else 0) := by
      intro F hF p hp
      split_ifs
      · exact rowVal_nonneg lumped F (hd F hF) (hw' F hF) hp
      · exact le_refl _
    refine lt_of_lt_of_le ?_ (le_sum es _ (fun F hF => sum_nonneg' _ _ (t2 F hF)) hE)
    have hmem : (v, a) ∈ rows E.vars := by
      unfold rows
      rw [List.mem_flatMap]
      exact ⟨v, hvm, List.mem_map.2 ⟨a, ham, rfl⟩⟩
    refine lt_of_lt_of_le ?_ (le_sum (rows E.vars) _ (t2 E hE) hmem)
    simpa [hl] using hrow
  have hsq : ∀ x : Nat → K, 0 ≤ ∑ r ∈ Finset.range N, paramDiag lumped es r * (x r * x r) := by
    intro x
    apply Finset.sum_nonneg
    intro r hr
    exact mul_nonneg (hpos r (Finset.mem_range.1 hr)).le (mul_self_nonneg _)
  refine ⟨_, dot_mass lumped N es xs xs rfl, ?_, ?_⟩
  · induction xs with
    | nil => simp
    | cons x xs ih =>
      rw [List.zipWith_cons_cons, List.sum_cons]
      exact add_nonneg (hsq x) ih
  · induction xs with
    | nil => simp
    | cons x xs ih =>
      rw [List.zipWith_cons_cons, List.sum_cons]
      have hrest : 0 ≤ (List.zipWith (fun x y => ∑ r ∈ Finset.range N, paramDiag lumped es r * (x r * y r)) xs xs).sum := by
        clear ih
        induction xs with
        | nil => simp
        | cons y ys ih =>
          rw [List.zipWith_cons_cons, List.sum_cons]
          exact add_nonneg (hsq y) ih
      rw [add_eq_zero_iff_of_nonneg (hsq x) hrest, ih]
      have hx : ∑ r ∈ Finset.range N, paramDiag lumped es r * (x r * x r) = 0 ↔ ∀ r, r < N → x r = 0 := by
        rw [Finset.sum_eq_zero_iff_of_nonneg (fun r hr =>
          mul_nonneg (hpos r (Finset.mem_range.1 hr)).le (mul_self_nonneg _))]
        constructor
        · intro h r hr
          have := h r (Finset.mem_range.2 hr)
          rcases mul_eq_zero.1 this with h0 | h0
          · exact absurd h0 (hpos r hr).ne'
          · exact mul_self_eq_zero.1 h0
        · intro h r hr
          rw [h r (Finset.mem_range.1 hr)]; ring
      rw [hx]
      constructor
      · rintro ⟨h1, h2⟩ y hy
        rcases List.mem_cons.1 hy with rfl | hy
        · exact h1
        · exact h2 y hy
      · intro h
        exact ⟨h x (by simp), fun y hy => h y (List.mem_cons_of_mem _ hy)⟩

/-- C166 is false for parameters of type HFACE: the diagonal is zero, so the optimiser sees every field, every step and
every gradient with norm zero and every inner product zero. -/
theorem C166_face_violated (lumped : Bool) (es : List (Elem K)) (N : Nat) (hf : ∀ E ∈ es, ∀ n, E.comps n = 0)
    (xs ys : List (Nat → K)) (h : xs.length = ys.length) :
    (paramVec true lumped N es xs).dot (paramVec true lumped N es ys) = some 0 := by
  rw [dot_mass lumped N es xs ys h]
  have hz : ∀ r, paramDiag lumped es r = 0 := by
    intro r
    rw [paramDiag_apply]
    apply List.sum_eq_zero
    intro z hz
    obtain ⟨E, hE, rfl⟩ := List.mem_map.1 hz
    apply List.sum_eq_zero
    intro z hz
    obtain ⟨p, hp, rfl⟩ := List.mem_map.1 hz
    have h0 : ∀ a b, paramLocal E a b = 0 := by
      intro a b
      rw [paramLocal, localMass_apply]
      apply List.sum_eq_zero
      intro z hz
      obtain ⟨t, ht, rfl⟩ := List.mem_map.1 hz
      split_ifs
      · rw [terms_sum, hf E hE]
        simp
      · rfl
    simp only [rowVal, h0, abs_zero]
    simp
  simp only [hz, zero_mul, Finset.sum_const_zero]
  congr 1
  clear h
  induction xs generalizing ys with
  | nil => simp
  | cons x xs ih =>
    cases ys with
    | nil => simp
    | cons y ys => rw [List.zipWith_cons_cons, List.sum_cons, ih, zero_add]

end

/-! ## Cases -/

/-- C166 is false for continuous linear parameters: the diagonal is that of the mass matrix, not its row sums, so the
constant field one on the unit interval has inner product 2/3 with itself instead of 1. -/
theorem C166_violated : ∃ (es : List (Elem ℚ)), (∀ E ∈ es, Below 2 E ∧ Distinct E.vars ∧ ∀ k, 0 ≤ E.wts k) ∧
    (paramVec true false 2 es [fun _ => 1]).dot (paramVec true false 2 es [fun _ => 1]) = some (2/3) ∧
    L2levels es [fun _ => 1] [fun _ => 1] = 1 := by
  refine ⟨[exElem 0 1], ?_, by decide +kernel, by decide +kernel⟩
  intro E hE
  rw [List.mem_singleton] at hE
  subst hE
  refine ⟨by unfold Below exElem; decide, by unfold Distinct exElem; decide, ?_⟩
  intro k
  simp only [exElem]
  split_ifs <;> norm_num

/-- C166 is false for continuous linear parameters with "lump mass": the field that falls from 1 to -1 on the unit interval
has inner product 1 with itself instead of 1/3. -/
theorem C166_lumped_violated : ∃ (es : List (Elem ℚ)) (x : Nat → ℚ),
    (paramVec true true 2 es [x]).dot (paramVec true true 2 es [x]) = some 1 ∧ L2levels es [x] [x] = 1/3 :=
  ⟨[exElem 0 1], fun r => if r = 0 then 1 else -1, by decide +kernel, by decide +kernel⟩

/-- One constant function on each of two elements of sizes 1/2 and 3. [case] -/
def exConst (a : Nat) (h : ℚ) : Elem ℚ where
  vars := [[0]]
  lids := fun _ => a
  basis := fun _ _ _ _ => 1
  points := 1
  comps := fun _ => 1
  wts := fun _ => h

/-- `C166_constant_partial` and `C166_positive` apply to piecewise constant parameters at two time levels. -/
example : (∀ E ∈ [exConst 0 (1/2), exConst 1 3], Below 2 E ∧ Distinct E.vars ∧ (∀ k, 0 < E.wts k) ∧ ∀ v ∈ E.vars, v.length ≤ 1) ∧
    L2levels [exConst 0 (1/2), exConst 1 3] [fun r => (r : ℚ) + 1, fun _ => 2] [fun _ => 1, fun _ => 1] = 1/2 + 6 + 1 + 6 := by
  refine ⟨?_, by decide +kernel⟩
  intro E hE
  rcases List.mem_cons.1 hE with rfl | hE
  · refine ⟨by unfold Below exConst; decide, by unfold Distinct exConst; decide, fun k => ?_, by unfold exConst; decide⟩
    norm_num [exConst]
  · rw [List.mem_singleton] at hE
    subst hE
    refine ⟨by unfold Below exConst; decide, by unfold Distinct exConst; decide, fun k => ?_, by unfold exConst; decide⟩
    norm_num [exConst]

example : ∀ r, r < 2 → ∃ E ∈ [exConst 0 (1/2), exConst 1 3], ∃ (n i a : Nat) (v : List Nat), E.vars[n]? = some v ∧
    v[i]? = some a ∧ E.lids a = r ∧ ∃ k d, k < E.points ∧ d < E.comps n ∧ E.basis n i k d ≠ 0 := by
  intro r hr
  rcases (by omega : r = 0 ∨ r = 1) with rfl | rfl
  · exact ⟨exConst 0 (1/2), by simp, 0, 0, 0, [0], rfl, rfl, rfl, 0, 0, by decide, by decide, by simp [exConst]⟩
  · exact ⟨exConst 1 3, by simp, 0, 0, 0, [0], rfl, rfl, rfl, 0, 0, by decide, by decide, by simp [exConst]⟩

/-- `C166_lumped_one_partial` applies to two linear elements: the integral of the field 0, 1, 2. -/
example : L2levels [exElem 0 1, exElem 1 2] [fun r => (r : ℚ)] [fun _ => 1] = 2 ∧
    (paramVec true true 3 [exElem 0 1, exElem 1 2] [fun r => (r : ℚ)]).dot
      (paramVec true true 3 [exElem 0 1, exElem 1 2] [fun _ => 1]) = some 2 := by decide +kernel

/-- `C166_matrix` on the same elements. -/
example : ∀ E ∈ [exElem 0 1, exElem 1 2], Below 3 E ∧ Distinct E.vars := by
  intro E hE
  rcases List.mem_cons.1 hE with rfl | hE
  · unfold Below Distinct exElem; decide
  · rw [List.mem_singleton] at hE
    subst hE
    unfold Below Distinct exElem; decide

/-- A parameter of type HFACE: no components in the sum. -/
example : (paramVec true false 2 [{ exElem 0 1 with comps := fun _ => 0 }] [fun _ => 5]).dot
    (paramVec true false 2 [{ exElem 0 1 with comps := fun _ => 0 }] [fun _ => (7 : ℚ)]) = some 0 :=
  C166_face_violated _ _ _ (by intro E hE n; rw [List.mem_singleton] at hE; subst hE; rfl) _ _ rfl

end MrHyDE.Opt.Metric
