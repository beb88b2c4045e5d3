import Verif.Discretization.Face
import Mathlib.Algebra.BigOperators.Group.List.Basic
import Mathlib.Algebra.Order.Field.Rat
import Mathlib.Data.Fin.VecNotation
import Mathlib.Tactic.FinCases
import Mathlib.Tactic.IntervalCases
import Mathlib.Tactic.Linarith
import Mathlib.Tactic.NormNum
import Mathlib.Tactic.Ring

/-! # C131: bases on the sides of elements -/

namespace MrHyDE.Disc.Face

set_option linter.unusedSectionVars false
set_option linter.unusedSimpArgs false

variable {K : Type} [Field K] [LinearOrder K] [IsStrictOrderedRing K] {n : Nat} {α : Type}

/-! ## Positions -/

theorem flat_get (m : Nat) : ∀ (L : List (List α)), (∀ l ∈ L, l.length = m) → ∀ (s r : Nat), r < m →
    L.flatten[s * m + r]? = (L[s]?).bind (fun l => l[r]?) := by
  intro L
  induction L with
  | nil => intro _ s r _; simp
  | cons a L ih =>
    intro h s r hr
    have ha : a.length = m := h a (by simp)
    cases s with
    | zero =>
      rw [List.flatten_cons, List.getElem?_append_left (by omega)]
      simp
    | succ s =>
      have e : (s + 1) * m + r = a.length + (s * m + r) := by rw [ha]; ring
      rw [List.flatten_cons, List.getElem?_append_right (by omega), e, Nat.add_sub_cancel_left,
        ih (fun l hl => h l (by simp [hl])) s r hr]
      simp

theorem blocks_get (l : List (Fin n → α)) (s : Nat) (j : Fin n) : (blocks l)[s * n + j.val]? = (l[s]?).map (fun f => f j) := by
  unfold blocks
  rw [flat_get n _ (by intro a ha; obtain ⟨f, -, rfl⟩ := List.mem_map.1 ha; simp) s j.val j.isLt]
  rw [List.getElem?_map]
  cases l[s]? with
  | none => rfl
  | some f => simp

theorem grid_length (f : Fin n → Fin n → α) : (grid f).length = n * n := by
  unfold grid
  rw [List.length_flatten, List.map_ofFn]
  simp [Function.comp_def, List.ofFn_const]

theorem grid_get (f : Fin n → Fin n → α) (j i : Fin n) : (grid f)[j.val * n + i.val]? = some (f j i) := by
  unfold grid
  rw [flat_get n _ (by intro a ha; obtain ⟨k, rfl⟩ := (List.mem_ofFn' _ _).1 ha; simp) j.val i.val i.isLt]
  simp

theorem local_lt (j i : Fin n) : j.val * n + i.val < n * n := by
  have h1 := j.isLt
  have h2 := i.isLt
  have : (j.val + 1) * n ≤ n * n := Nat.mul_le_mul_right n h1
  rw [Nat.add_mul] at this
  omega

theorem faces_get (l : List (Fin n → Fin n → α)) (s : Nat) (j i : Fin n) :
    (faces l)[s * (n * n) + (j.val * n + i.val)]? = (l[s]?).map (fun f => f j i) := by
  unfold faces
  rw [flat_get (n * n) _ (by intro a ha; obtain ⟨f, -, rfl⟩ := List.mem_map.1 ha; exact grid_length f) s _ (local_lt j i)]
  rw [List.getElem?_map]
  cases l[s]? with
  | none => rfl
  | some f => simp [grid_get]

theorem position {idx m N : Nat} (h : idx < N * m) : ∃ s r, idx = s * m + r ∧ s < N ∧ r < m := by
  have hm : 0 < m := by
    rcases Nat.eq_zero_or_pos m with e | e
    · rw [e] at h; omega
    · exact e
  refine ⟨idx / m, idx % m, ?_, Nat.div_lt_of_lt_mul (by rw [Nat.mul_comm]; exact h), Nat.mod_lt _ hm⟩
  rw [Nat.mul_comm]
  exact (Nat.div_add_mod idx m).symm

theorem blocks_length (l : List (Fin n → α)) : (blocks l).length = l.length * n := by
  unfold blocks
  rw [List.length_flatten, List.map_map]
  induction l with
  | nil => simp
  | cons a l ih =>
    rw [List.map_cons, List.sum_cons, ih]
    simp [Nat.add_mul, Nat.add_comm]

theorem faces_length (l : List (Fin n → Fin n → α)) : (faces l).length = l.length * (n * n) := by
  unfold faces
  rw [List.length_flatten, List.map_map]
  induction l with
  | nil => simp
  | cons a l ih =>
    rw [List.map_cons, List.sum_cons, ih]
    simp [grid_length, Nat.add_mul, Nat.add_comm]

theorem side_on (f : Fin n → K) : side true f = f := by funext j; simp [side]

theorem side_off (f : Fin n → K) : side false f = fun _ => 0 := by funext j; simp [side]

theorem near_zero {tol : K} (h : 0 < tol) : near tol (0 : K) = true := by simp [near, h]

theorem near_far {tol a : K} (h : tol ≤ a ∨ a ≤ -tol) : near tol a = false := by
  unfold near
  rw [decide_eq_false_iff_not, not_lt]
  rcases h with h | h
  · exact le_trans h (le_abs_self a)
  · exact le_trans (by linarith) (neg_le_abs a)

/-! ## Quadrilaterals -/

theorem quadTag (j : Fin n) (s : Nat) (hs : s < 4) :
    (quadTags n)[s * n + j.val]? = some ([3, 0, 1, 2].getD s 0, j.val) := by
  unfold quadTags
  rw [blocks_get]
  interval_cases s <;> rfl

theorem quadTag_inv {idx e k : Nat} (h : (quadTags n)[idx]? = some (e, k)) :
    ∃ s, ∃ j : Fin n, idx = s * n + j.val ∧ s < 4 ∧ e = [3, 0, 1, 2].getD s 0 ∧ k = j.val := by
  have hl : idx < 4 * n := by
    have := (List.getElem?_eq_some_iff.1 h).1
    rwa [quadTags, blocks_length] at this
  obtain ⟨s, r, rfl, hs, hr⟩ := position hl
  have := quadTag ⟨r, hr⟩ s hs
  rw [show s * n + r = s * n + (⟨r, hr⟩ : Fin n).val from rfl, this] at h
  simp only [Option.some.injEq, Prod.mk.injEq] at h
  exact ⟨s, ⟨r, hr⟩, rfl, hs, h.1.symm, h.2.symm⟩

/-- C131, quadrilaterals: along an edge, away from its ends, the functions of the edge are the given polynomials of the line, in the
direction of the coordinate axis, and all others vanish. -/
theorem C131_quad_trace (l : Fin n → K → K) (tol s : K) (ht : 0 < tol) (h1 : -1 + tol ≤ s) (h2 : s ≤ 1 - tol) (e : Nat)
    (he : e < 4) (idx e' : Nat) (j : Fin n) (htag : (quadTags n)[idx]? = some (e', j.val)) :
    (quadValues l tol (quadEdge e s) (quadEdge e s))[idx]? =
      some (if e' = e then l j (if e < 2 then s else -s) else 0) := by
  obtain ⟨r, i, rfl, hr, rfl, hk⟩ := quadTag_inv htag
  obtain rfl : j = i := Fin.ext hk
  have a0 := near_zero ht
  have a1 : near tol (s + 1) = false := near_far (Or.inl (by linarith))
  have a2 : near tol (s - 1) = false := near_far (Or.inr (by linarith))
  have a3 : near tol (-s + 1) = false := near_far (Or.inl (by linarith))
  have a4 : near tol (-s - 1) = false := near_far (Or.inr (by linarith))
  have a5 : near tol ((-1 : K) - 1) = false := near_far (Or.inr (by linarith))
  have a6 : near tol ((1 : K) + 1) = false := near_far (Or.inl (by linarith))
  unfold quadValues
  rw [blocks_get]
  interval_cases e <;> interval_cases r <;> simp [quadEdge, side, a0, a1, a2, a3, a4, a5, a6]

/-- C131, quadrilaterals: inside, all functions vanish. -/
theorem C131_quad_inside (l : Fin n → K → K) (tol : K) (p : K × K) (h1 : -1 + tol ≤ p.1) (h2 : p.1 ≤ 1 - tol)
    (h3 : -1 + tol ≤ p.2) (h4 : p.2 ≤ 1 - tol) (x : K) (hx : x ∈ quadValues l tol p p) : x = 0 := by
  have a1 : near tol (p.1 + 1) = false := near_far (Or.inl (by linarith))
  have a2 : near tol (p.1 - 1) = false := near_far (Or.inr (by linarith))
  have a3 : near tol (p.2 + 1) = false := near_far (Or.inl (by linarith))
  have a4 : near tol (p.2 - 1) = false := near_far (Or.inr (by linarith))
  simp only [quadValues, a1, a2, a3, a4, blocks, side, List.map_cons, List.map_nil, List.flatten_cons, List.flatten_nil,
    List.append_nil, List.mem_append, List.mem_ofFn', Set.mem_range, Bool.false_eq_true, if_false] at hx
  rcases hx with ⟨_, h⟩ | ⟨_, h⟩ | ⟨_, h⟩ | ⟨_, h⟩ <;> exact h.symm

/-- C131, quadrilaterals: along an edge, away from its ends, the functions add up to one. -/
theorem C131_quad_unity (l : Fin n → K → K) (hl : Unity l) (tol s : K) (ht : 0 < tol) (h1 : -1 + tol ≤ s) (h2 : s ≤ 1 - tol)
    (e : Nat) (he : e < 4) : (quadValues l tol (quadEdge e s) (quadEdge e s)).sum = 1 := by
  have a0 := near_zero ht
  have a1 : near tol (s + 1) = false := near_far (Or.inl (by linarith))
  have a2 : near tol (s - 1) = false := near_far (Or.inr (by linarith))
  have a3 : near tol (-s + 1) = false := near_far (Or.inl (by linarith))
  have a4 : near tol (-s - 1) = false := near_far (Or.inr (by linarith))
  have a5 : near tol ((-1 : K) - 1) = false := near_far (Or.inr (by linarith))
  have a6 : near tol ((1 : K) + 1) = false := near_far (Or.inl (by linarith))
  have z : (List.ofFn fun _ : Fin n => (0 : K)).sum = 0 := by rw [List.ofFn_const]; simp
  have hs := hl s
  have hs' := hl (-s)
  interval_cases e <;>
    simp only [quadValues, quadEdge, blocks, side_on, side_off, sub_self, neg_add_cancel, a0, a1, a2, a3, a4, a5, a6, List.map_cons, List.map_nil,
      List.flatten_cons, List.flatten_nil, List.append_nil, List.sum_append, z, Bool.false_eq_true, if_true, if_false, hs, hs',
      zero_add, add_zero]

/-- C131, quadrilaterals: the node of a function lies on its edge, at the node of the line. -/
theorem C131_quad_nodes (c : Fin n → K) (idx e : Nat) (j : Fin n) (htag : (quadTags n)[idx]? = some (e, j.val)) :
    (quadCoords c)[idx]? = some (quadEdge e (if e < 2 then c j else -(c j))) := by
  obtain ⟨r, i, rfl, hr, rfl, hk⟩ := quadTag_inv htag
  obtain rfl : j = i := Fin.ext hk
  unfold quadCoords
  rw [blocks_get]
  interval_cases r <;> simp [quadEdge]

/-- C131, quadrilaterals: each of the four edges has its functions, one for each polynomial of the line. -/
theorem C131_quad_all (e : Nat) (he : e < 4) (j : Fin n) : ∃ idx : Nat, (quadTags n)[idx]? = some (e, j.val) := by
  interval_cases e
  · exact ⟨_, quadTag j 1 (by omega)⟩
  · exact ⟨_, quadTag j 2 (by omega)⟩
  · exact ⟨_, quadTag j 3 (by omega)⟩
  · exact ⟨_, quadTag j 0 (by omega)⟩

/-- [specification, no code] Two quadrilaterals that share an edge, which is edge `e` of one and edge `e'` of the other, run
through in opposite directions: the functions with the same number have the same trace. -/
def QuadAgree (l : Fin n → K → K) (tol : K) (e e' : Nat) : Prop :=
  ∀ s, -1 + tol ≤ s → s ≤ 1 - tol → ∀ (j : Fin n) (idx idx' : Nat), (quadTags n)[idx]? = some (e, j.val) →
    (quadTags n)[idx']? = some (e', j.val) →
    (quadValues l tol (quadEdge e s) (quadEdge e s))[idx]? =
      (quadValues l tol (quadEdge e' (-s)) (quadEdge e' (-s)))[idx']?

/-- C131, partial: the trace is the same from both elements exactly if one of the edges is the lower or right one and the other the
upper or left one; for meshes of bricks numbered alike this is so, in general it is not (`requireOrientation` is false). -/
theorem C131_quad_shared_partial (l : Fin n → K → K) (tol : K) (ht : 0 < tol)
    (hl : ∃ (j : Fin n) (s : K), -1 + tol ≤ s ∧ s ≤ 1 - tol ∧ l j s ≠ l j (-s)) (e e' : Nat) (he : e < 4) (he' : e' < 4) :
    QuadAgree l tol e e' ↔ (e < 2 ↔ ¬ e' < 2) := by
  constructor
  · intro h
    obtain ⟨j, s, h1, h2, hne⟩ := hl
    obtain ⟨idx, hi⟩ := C131_quad_all (n := n) e he j
    obtain ⟨idx', hi'⟩ := C131_quad_all (n := n) e' he' j
    have := h s h1 h2 j idx idx' hi hi'
    rw [C131_quad_trace l tol s ht h1 h2 e he idx e j hi,
      C131_quad_trace l tol (-s) ht (by linarith) (by linarith) e' he' idx' e' j hi'] at this
    by_cases a : e < 2 <;> by_cases b : e' < 2 <;> simp [a, b] at this ⊢
    · exact hne this
    · exact hne this.symm
  · intro h s h1 h2 j idx idx' hi hi'
    rw [C131_quad_trace l tol s ht h1 h2 e he idx e j hi,
      C131_quad_trace l tol (-s) ht (by linarith) (by linarith) e' he' idx' e' j hi']
    by_cases a : e < 2
    · have b := h.1 a
      simp [a, b]
    · have b : e' < 2 := by by_contra hc; exact a (h.2 hc)
      simp [a, b]

/-- [case] The two linear polynomials. -/
def linear : Fin 2 → ℚ → ℚ := fun j s => if j = 0 then (1 - s) / 2 else (1 + s) / 2

/-- [case] Their nodes. -/
def ends : Fin 2 → ℚ := fun j => if j = 0 then -1 else 1

-- the hypotheses are met by linear polynomials
example : Nodal linear ends ∧ Unity linear ∧
    ∃ (j : Fin 2) (s : ℚ), -1 + (1 / 10 ^ 12 : ℚ) ≤ s ∧ s ≤ 1 - 1 / 10 ^ 12 ∧ linear j s ≠ linear j (-s) := by
  refine ⟨?_, ?_, 0, 1 / 2, by norm_num, by norm_num, by norm_num [linear]⟩
  · intro i j
    fin_cases i <;> fin_cases j <;> norm_num [linear, ends]
  · intro s
    simp [linear, List.ofFn_succ]
    ring

-- left edge, linear: values at (-1, 1/2)
example : quadValues linear (1 / 10 ^ 12) (-1, 1 / 2) (-1, 1 / 2) = [1 / 4, 3 / 4, 0, 0, 0, 0, 0, 0] := by
  norm_num [quadValues, blocks, side, near, linear, List.ofFn_succ, abs]

/-- C131 is false at the corners: the functions of both edges count and add up to two, and the function of the left edge is one
at the node of the lower edge too. -/
theorem C131_corner_violated : (quadValues linear (1 / 10 ^ 12) (-1, -1) (-1, -1)).sum = 2 ∧
    (quadTags 2)[0]? = some (3, 0) ∧ (quadTags 2)[2]? = some (0, 0) ∧ (quadCoords ends)[2]? = some ((-1 : ℚ), (-1 : ℚ)) ∧
    (quadValues linear (1 / 10 ^ 12) (-1, -1) (-1, -1))[0]? = some 1 := by
  refine ⟨?_, rfl, rfl, ?_, ?_⟩
  · norm_num [quadValues, blocks, side, near, linear, List.ofFn_succ, abs]
  · norm_num [quadCoords, blocks, ends, List.ofFn_succ]
  · norm_num [quadValues, blocks, side, near, linear, List.ofFn_succ, abs]

/-- C131: points evaluated one at a time do not influence each other, for any of the bases. -/
theorem C131_pointwise {P : Type} (f : P → P → List K) (pts : List P) : evaluate f 1 pts = pts.map (fun p => f p p) := by
  unfold evaluate
  apply List.ext_getElem?
  intro k
  rw [List.getElem?_mapIdx, List.getElem?_map]
  rcases h : pts[k]? with _ | p
  · rfl
  · simp [List.getD, h]

/-- C131 is false for points evaluated two at a time: the second is taken to be on the edge of the first.
(How many points are taken at a time is the constant `MaxNumPtsPerBasisEval` of Intrepid2, outside the code at hand.) -/
theorem C131_batch_violated :
    evaluate (quadValues linear (1 / 10 ^ 12)) 2 [(-1, 1 / 2), (0, 0)] ≠
      [(-1, 1 / 2), (0, 0)].map (fun p => quadValues linear (1 / 10 ^ 12) p p) := by
  intro h
  have := congrArg (fun l => (l[1]?).bind (·[0]?)) h
  norm_num [evaluate, quadValues, blocks, side, near, linear, List.ofFn_succ, abs, List.mapIdx_cons] at this

/-! ## Triangles -/

theorem triTag (j : Fin n) (s : Nat) (hs : s < 3) : (triTags n)[s * n + j.val]? = some ([2, 0, 1].getD s 0, j.val) := by
  unfold triTags
  rw [blocks_get]
  interval_cases s <;> rfl

theorem triTag_inv {idx e k : Nat} (h : (triTags n)[idx]? = some (e, k)) :
    ∃ s, ∃ j : Fin n, idx = s * n + j.val ∧ s < 3 ∧ e = [2, 0, 1].getD s 0 ∧ k = j.val := by
  have hl : idx < 3 * n := by
    have := (List.getElem?_eq_some_iff.1 h).1
    rwa [triTags, blocks_length] at this
  obtain ⟨s, r, rfl, hs, hr⟩ := position hl
  have := triTag ⟨r, hr⟩ s hs
  rw [show s * n + r = s * n + (⟨r, hr⟩ : Fin n).val from rfl, this] at h
  simp only [Option.some.injEq, Prod.mk.injEq] at h
  exact ⟨s, ⟨r, hr⟩, rfl, hs, h.1.symm, h.2.symm⟩

/-- C131, triangles: along an edge, away from its ends, only the functions of the edge do not vanish; they are the polynomials of the
line [-1, 1] at the coordinate between 0 and 1. -/
theorem C131_tri_trace (l : Fin n → K → K) (tol s : K) (ht : 0 < tol) (h1 : tol ≤ s) (h2 : s ≤ 1 - tol) (e : Nat)
    (he : e < 3) (idx e' : Nat) (j : Fin n) (htag : (triTags n)[idx]? = some (e', j.val)) :
    (triValues l tol (triEdge e s) (triEdge e s))[idx]? =
      some (if e' = e then l j (if e = 0 then s else 1 - s) else 0) := by
  obtain ⟨r, i, rfl, hr, rfl, hk⟩ := triTag_inv htag
  obtain rfl : j = i := Fin.ext hk
  have a0 := near_zero ht
  have a1 : near tol s = false := near_far (Or.inl h1)
  have a2 : near tol (s - 1) = false := near_far (Or.inr (by linarith))
  have a3 : near tol (1 - s) = false := near_far (Or.inl (by linarith))
  have a4 : near tol (1 - s - 1) = false := near_far (Or.inr (by linarith))
  have a5 : near tol (1 - s + s - 1) = true := by rw [show (1 - s + s - 1 : K) = 0 by ring]; exact a0
  unfold triValues
  rw [blocks_get]
  interval_cases e <;> interval_cases r <;>
    simp only [triEdge, List.getElem?_cons_zero, List.getElem?_cons_succ, Option.map_some, side, sub_zero, add_zero, zero_add, a0,
      a1, a2, a3, a4, a5, List.getD_cons_zero, List.getD_cons_succ, Bool.false_eq_true, if_true, if_false] <;> norm_num

/-- C131, triangles: along an edge, away from its ends, the functions add up to one. -/
theorem C131_tri_unity (l : Fin n → K → K) (hl : Unity l) (tol s : K) (ht : 0 < tol) (h1 : tol ≤ s) (h2 : s ≤ 1 - tol)
    (e : Nat) (he : e < 3) : (triValues l tol (triEdge e s) (triEdge e s)).sum = 1 := by
  have a0 := near_zero ht
  have a1 : near tol s = false := near_far (Or.inl h1)
  have a2 : near tol (s - 1) = false := near_far (Or.inr (by linarith))
  have a3 : near tol (1 - s) = false := near_far (Or.inl (by linarith))
  have a4 : near tol (1 - s - 1) = false := near_far (Or.inr (by linarith))
  have a5 : near tol (1 - s + s - 1) = true := by rw [show (1 - s + s - 1 : K) = 0 by ring]; exact a0
  have z : (List.ofFn fun _ : Fin n => (0 : K)).sum = 0 := by rw [List.ofFn_const]; simp
  have hs := hl s
  have hs' := hl (1 - s)
  interval_cases e <;>
    simp only [triValues, triEdge, blocks, side_on, side_off, sub_zero, add_zero, zero_add, a0, a1, a2, a3, a4, a5, List.map_cons, List.map_nil,
      List.flatten_cons, List.flatten_nil, List.append_nil, List.sum_append, z,
      Bool.false_eq_true, if_true, if_false, hs, hs']

/-- C131, triangles: inside, all functions vanish. -/
theorem C131_tri_inside (l : Fin n → K → K) (tol : K) (p : K × K) (h1 : tol ≤ p.1) (h2 : tol ≤ p.2)
    (h3 : p.1 + p.2 ≤ 1 - tol) (x : K) (hx : x ∈ triValues l tol p p) : x = 0 := by
  have a1 : near tol (p.1 - 0) = false := near_far (Or.inl (by linarith))
  have a2 : near tol (p.2 - 0) = false := near_far (Or.inl (by linarith))
  have a3 : near tol (p.1 + p.2 - 1) = false := near_far (Or.inr (by linarith))
  simp only [triValues, a1, a2, a3, blocks, side, List.map_cons, List.map_nil, List.flatten_cons, List.flatten_nil,
    List.append_nil, List.mem_append, List.mem_ofFn', Set.mem_range, Bool.false_eq_true, if_false] at hx
  rcases hx with ⟨_, h⟩ | ⟨_, h⟩ | ⟨_, h⟩ <;> exact h.symm

/-- C131, triangles: each of the three edges has its functions. -/
theorem C131_tri_all (e : Nat) (he : e < 3) (j : Fin n) : ∃ idx : Nat, (triTags n)[idx]? = some (e, j.val) := by
  interval_cases e
  · exact ⟨_, triTag j 1 (by omega)⟩
  · exact ⟨_, triTag j 2 (by omega)⟩
  · exact ⟨_, triTag j 0 (by omega)⟩

/-- C131 is false for triangles: the nodes are those of the interval [-1, 1], the first of each edge lies outside the triangle, and
the first function of the lower edge is nowhere one on it. -/
theorem C131_tri_nodes_violated : (triTags 2)[2]? = some (0, 0) ∧ (triCoords ends)[0]? = some ((0 : ℚ), (-1 : ℚ)) ∧
    (triCoords ends)[2]? = some ((-1 : ℚ), (0 : ℚ)) ∧ (triCoords ends)[4]? = some ((-1 : ℚ), (2 : ℚ)) ∧
    (∀ s : ℚ, 1 / 10 ^ 12 ≤ s → s ≤ 1 - 1 / 10 ^ 12 →
      (triValues linear (1 / 10 ^ 12) (triEdge 0 s) (triEdge 0 s))[2]? ≠ some 1) := by
  refine ⟨rfl, by norm_num [triCoords, blocks, ends, List.ofFn_succ], by norm_num [triCoords, blocks, ends, List.ofFn_succ],
    by norm_num [triCoords, blocks, ends, List.ofFn_succ], ?_⟩
  intro s h0 h1 h
  rw [C131_tri_trace linear _ s (by norm_num) h0 h1 0 (by omega) 2 0 (0 : Fin 2) rfl] at h
  simp only [linear, if_true, Option.some.injEq] at h
  linarith

/-- [specification, no code] Two triangles that share an edge, which is edge `e` of one and edge `e'` of the other, run through in
opposite directions: function `j` of one and function `σ j` of the other have the same trace. -/
def TriAgree (l : Fin n → K → K) (tol : K) (σ : Fin n → Fin n) (e e' : Nat) : Prop :=
  ∀ s, tol ≤ s → s ≤ 1 - tol → ∀ (j : Fin n) (idx idx' : Nat), (triTags n)[idx]? = some (e, j.val) →
    (triTags n)[idx']? = some (e', (σ j).val) →
    (triValues l tol (triEdge e s) (triEdge e s))[idx]? =
      (triValues l tol (triEdge e' (1 - s)) (triEdge e' (1 - s)))[idx']?

/-- C131, partial: the traces from both triangles are the same exactly if the edge is the lower one of one triangle and not the lower
one of the other. -/
theorem C131_tri_shared_partial (l : Fin n → K → K) (tol : K) (ht : 0 < tol)
    (hl : ∃ (j : Fin n) (s : K), tol ≤ s ∧ s ≤ 1 - tol ∧ l j s ≠ l j (1 - s)) (e e' : Nat) (he : e < 3) (he' : e' < 3) :
    TriAgree l tol id e e' ↔ (e = 0 ↔ e' ≠ 0) := by
  constructor
  · intro h
    obtain ⟨j, s, h1, h2, hne⟩ := hl
    obtain ⟨idx, hi⟩ := C131_tri_all (n := n) e he j
    obtain ⟨idx', hi'⟩ := C131_tri_all (n := n) e' he' j
    have := h s h1 h2 j idx idx' hi hi'
    rw [C131_tri_trace l tol s ht h1 h2 e he idx e j hi,
      C131_tri_trace l tol (1 - s) ht (by linarith) (by linarith) e' he' idx' e' j hi'] at this
    by_cases a : e = 0 <;> by_cases b : e' = 0 <;> simp [a, b] at this ⊢
    · exact hne this
    · exact hne this.symm
  · intro h s h1 h2 j idx idx' hi hi'
    rw [C131_tri_trace l tol s ht h1 h2 e he idx e j hi,
      C131_tri_trace l tol (1 - s) ht (by linarith) (by linarith) e' he' idx' e' j hi']
    by_cases a : e = 0
    · have b := h.1 a
      simp [a, b]
    · have b : e' = 0 := by by_contra hc; exact a (h.2 hc)
      simp [a, b]

-- the hypothesis is met by linear polynomials
example : ∃ (j : Fin 2) (s : ℚ), (1 / 10 ^ 12 : ℚ) ≤ s ∧ s ≤ 1 - 1 / 10 ^ 12 ∧ linear j s ≠ linear j (1 - s) :=
  ⟨0, 1 / 4, by norm_num, by norm_num, by norm_num [linear]⟩

/-- C131, partial: with polynomials that do not change when the edge is turned around (order zero), all pairs of edges agree, of
quadrilaterals and of triangles. -/
theorem C131_even_partial (l : Fin n → K → K) (tol : K) (ht : 0 < tol) :
    ((∀ j s, l j s = l j (-s)) → ∀ e e' : Nat, e < 4 → e' < 4 → QuadAgree l tol e e') ∧
    ((∀ j s, l j s = l j (1 - s)) → ∀ e e' : Nat, e < 3 → e' < 3 → TriAgree l tol id e e') := by
  constructor
  · intro hl e e' he he' s h1 h2 j idx idx' hi hi'
    rw [C131_quad_trace l tol s ht h1 h2 e he idx e j hi,
      C131_quad_trace l tol (-s) ht (by linarith) (by linarith) e' he' idx' e' j hi']
    have := hl j s
    by_cases a : e < 2 <;> by_cases b : e' < 2 <;> simp [a, b, this]
  · intro hl e e' he he' s h1 h2 j idx idx' hi hi'
    rw [C131_tri_trace l tol s ht h1 h2 e he idx e j hi,
      C131_tri_trace l tol (1 - s) ht (by linarith) (by linarith) e' he' idx' e' j hi']
    have := hl j s
    by_cases a : e = 0 <;> by_cases b : e' = 0 <;> simp [a, b, this]

-- order zero: the constant
example : (∀ (j : Fin 1) (s : ℚ), (fun _ _ => (1 : ℚ)) j s = (fun (_ : Fin 1) _ => (1 : ℚ)) j (-s)) := fun _ _ => rfl

/-- C131 is false for two triangles that share an edge which is the lower edge of both, or of neither: no renumbering of the functions
makes the traces agree. -/
theorem C131_tri_shared_violated (σ : Fin 2 → Fin 2) (e e' : Nat) (he : e < 3) (he' : e' < 3) (h : e = 0 ↔ e' = 0) :
    ¬ TriAgree linear (1 / 10 ^ 12) σ e e' := by
  intro ha
  obtain ⟨idx, hi⟩ := C131_tri_all (n := 2) e he 0
  obtain ⟨idx', hi'⟩ := C131_tri_all (n := 2) e' he' (σ 0)
  have := ha (1 / 4) (by norm_num) (by norm_num) 0 idx idx' hi hi'
  rw [C131_tri_trace linear _ (1 / 4) (by norm_num) (by norm_num) (by norm_num) e he idx e 0 hi,
    C131_tri_trace linear _ (1 - 1 / 4) (by norm_num) (by norm_num) (by norm_num) e' he' idx' e' (σ 0) hi'] at this
  have h2 : σ 0 = 0 ∨ σ 0 = 1 := by omega
  by_cases a : e = 0
  · have b := h.1 a
    rcases h2 with c | c <;> rw [c, a, b] at this <;> norm_num [linear] at this
  · have b : e' ≠ 0 := fun hc => a (h.2 hc)
    rcases h2 with c | c <;> simp only [c, a, b, if_true, if_false] at this <;> norm_num [linear] at this

/-! ## Hexahedra -/

/-- [specification, no code] The point of face `f` of the reference hexahedron, given by the two coordinates that vary, in the order
of the axes. -/
def hexFace (f : Nat) (a b : K) : K × K × K :=
  match f with
  | 0 => (a, -1, b)
  | 1 => (1, a, b)
  | 2 => (a, 1, b)
  | 3 => (-1, a, b)
  | 4 => (a, b, -1)
  | _ => (a, b, 1)

theorem hexTag (j i : Fin n) (s : Nat) (hs : s < 6) :
    (hexTags n)[s * (n * n) + (j.val * n + i.val)]? = some ([3, 0, 1, 2, 4, 5].getD s 0, j.val * n + i.val) := by
  unfold hexTags
  rw [faces_get]
  interval_cases s <;> rfl

theorem local_inj {j i j' i' : Fin n} (h : j.val * n + i.val = j'.val * n + i'.val) : j = j' ∧ i = i' := by
  have hn : 0 < n := Nat.lt_of_le_of_lt (Nat.zero_le _) j.isLt
  have d : (j.val * n + i.val) / n = j.val := by
    rw [Nat.mul_comm, Nat.mul_add_div hn, Nat.div_eq_of_lt i.isLt]; omega
  have d' : (j'.val * n + i'.val) / n = j'.val := by
    rw [Nat.mul_comm, Nat.mul_add_div hn, Nat.div_eq_of_lt i'.isLt]; omega
  have m : (j.val * n + i.val) % n = i.val := by
    rw [Nat.mul_comm, Nat.mul_add_mod, Nat.mod_eq_of_lt i.isLt]
  have m' : (j'.val * n + i'.val) % n = i'.val := by
    rw [Nat.mul_comm, Nat.mul_add_mod, Nat.mod_eq_of_lt i'.isLt]
  exact ⟨Fin.ext (by rw [← d, h, d']), Fin.ext (by rw [← m, h, m'])⟩

theorem hexTag_inv {idx e : Nat} {j i : Fin n} (h : (hexTags n)[idx]? = some (e, j.val * n + i.val)) :
    ∃ s, idx = s * (n * n) + (j.val * n + i.val) ∧ s < 6 ∧ e = [3, 0, 1, 2, 4, 5].getD s 0 := by
  have hl : idx < 6 * (n * n) := by
    have := (List.getElem?_eq_some_iff.1 h).1
    rwa [hexTags, faces_length] at this
  obtain ⟨s, r, rfl, hs, hr⟩ := position hl
  obtain ⟨j', i', rfl, hj', hi'⟩ := position hr
  have := hexTag ⟨j', hj'⟩ ⟨i', hi'⟩ s hs
  rw [show s * (n * n) + (j' * n + i') = s * (n * n) + ((⟨j', hj'⟩ : Fin n).val * n + (⟨i', hi'⟩ : Fin n).val) from rfl, this] at h
  simp only [Option.some.injEq, Prod.mk.injEq] at h
  obtain ⟨a, b⟩ := local_inj (j := ⟨j', hj'⟩) (i := ⟨i', hi'⟩) h.2
  subst a b
  exact ⟨s, rfl, hs, h.1.symm⟩

/-- C131, hexahedra: on a face, away from its edges, only the functions of the face do not vanish; they are products of two
polynomials, the number running faster belonging to the first coordinate except for the face `x = 1`. -/
theorem C131_hex_trace (l : Fin n → K → K) (tol a b : K) (ht : 0 < tol) (ha : -1 + tol ≤ a) (ha' : a ≤ 1 - tol)
    (hb : -1 + tol ≤ b) (hb' : b ≤ 1 - tol) (f : Nat) (hf : f < 6) (idx f' : Nat) (j i : Fin n)
    (htag : (hexTags n)[idx]? = some (f', j.val * n + i.val)) :
    (hexValues l tol (hexFace f a b) (hexFace f a b))[idx]? =
      some (if f' = f then (if f = 1 then l j a * l i b else l i a * l j b) else 0) := by
  obtain ⟨r, rfl, hr, rfl⟩ := hexTag_inv htag
  have a0 := near_zero ht
  have a1 : near tol (a + 1) = false := near_far (Or.inl (by linarith))
  have a2 : near tol (a - 1) = false := near_far (Or.inr (by linarith))
  have a3 : near tol (b + 1) = false := near_far (Or.inl (by linarith))
  have a4 : near tol (b - 1) = false := near_far (Or.inr (by linarith))
  have a5 : near tol ((-1 : K) - 1) = false := near_far (Or.inr (by linarith))
  have a6 : near tol ((1 : K) + 1) = false := near_far (Or.inl (by linarith))
  unfold hexValues
  rw [faces_get]
  interval_cases f <;> interval_cases r <;> simp [hexFace, face, a0, a1, a2, a3, a4, a5, a6]

/-- C131, hexahedra: inside, all functions vanish. -/
theorem C131_hex_inside (l : Fin n → K → K) (tol : K) (p : K × K × K) (h1 : -1 + tol ≤ p.1) (h2 : p.1 ≤ 1 - tol)
    (h3 : -1 + tol ≤ p.2.1) (h4 : p.2.1 ≤ 1 - tol) (h5 : -1 + tol ≤ p.2.2) (h6 : p.2.2 ≤ 1 - tol) (idx f : Nat) (j i : Fin n)
    (htag : (hexTags n)[idx]? = some (f, j.val * n + i.val)) : (hexValues l tol p p)[idx]? = some 0 := by
  obtain ⟨r, rfl, hr, rfl⟩ := hexTag_inv htag
  have a1 : near tol (p.1 + 1) = false := near_far (Or.inl (by linarith))
  have a2 : near tol (p.1 - 1) = false := near_far (Or.inr (by linarith))
  have a3 : near tol (p.2.1 + 1) = false := near_far (Or.inl (by linarith))
  have a4 : near tol (p.2.1 - 1) = false := near_far (Or.inr (by linarith))
  have a5 : near tol (p.2.2 + 1) = false := near_far (Or.inl (by linarith))
  have a6 : near tol (p.2.2 - 1) = false := near_far (Or.inr (by linarith))
  unfold hexValues
  rw [faces_get]
  interval_cases r <;> simp [face, a1, a2, a3, a4, a5, a6]

/-- C131, partial: of two hexahedra one behind the other in the second or third direction the functions of the common face with the
same number have the same trace.  In the first direction they do not (`C131_hex_shared_violated`). -/
theorem C131_hex_shared_partial (l : Fin n → K → K) (tol a b : K) (ht : 0 < tol) (ha : -1 + tol ≤ a) (ha' : a ≤ 1 - tol)
    (hb : -1 + tol ≤ b) (hb' : b ≤ 1 - tol) (f g : Nat) (hfg : (f = 0 ∧ g = 2) ∨ (f = 4 ∧ g = 5)) (idx idx' : Nat) (j i : Fin n)
    (h : (hexTags n)[idx]? = some (f, j.val * n + i.val)) (h' : (hexTags n)[idx']? = some (g, j.val * n + i.val)) :
    (hexValues l tol (hexFace f a b) (hexFace f a b))[idx]? = (hexValues l tol (hexFace g a b) (hexFace g a b))[idx']? := by
  rcases hfg with ⟨rfl, rfl⟩ | ⟨rfl, rfl⟩ <;>
  rw [C131_hex_trace l tol a b ht ha ha' hb hb' _ (by omega) idx _ j i h,
    C131_hex_trace l tol a b ht ha ha' hb hb' _ (by omega) idx' _ j i h'] <;> simp

/-- C131 is false for hexahedra side by side in the first direction: what is number `(j, i)` on the left face of one is number
`(i, j)` on the right face of the other; with linear polynomials the functions with the same number differ. -/
theorem C131_hex_shared_violated :
    (∀ (l : Fin n → K → K) (tol a b : K), 0 < tol → -1 + tol ≤ a → a ≤ 1 - tol → -1 + tol ≤ b → b ≤ 1 - tol →
      ∀ (idx idx' : Nat) (j i : Fin n), (hexTags n)[idx]? = some (1, j.val * n + i.val) →
      (hexTags n)[idx']? = some (3, i.val * n + j.val) →
      (hexValues l tol (hexFace 1 a b) (hexFace 1 a b))[idx]? = (hexValues l tol (hexFace 3 a b) (hexFace 3 a b))[idx']?) ∧
    (hexTags 2)[1]? = some (3, 1) ∧ (hexTags 2)[9]? = some (1, 1) ∧
    (hexValues linear (1 / 10 ^ 12) (hexFace 3 (1 / 2) 0) (hexFace 3 (1 / 2) 0))[1]? ≠
      (hexValues linear (1 / 10 ^ 12) (hexFace 1 (1 / 2) 0) (hexFace 1 (1 / 2) 0))[9]? := by
  refine ⟨?_, rfl, rfl, ?_⟩
  · intro l tol a b ht ha ha' hb hb' idx idx' j i h h'
    rw [C131_hex_trace l tol a b ht ha ha' hb hb' 1 (by omega) idx 1 j i h,
      C131_hex_trace l tol a b ht ha ha' hb hb' 3 (by omega) idx' 3 i j h']
    simp
  · rw [C131_hex_trace linear (1 / 10 ^ 12) (1 / 2) 0 (by norm_num) (by norm_num) (by norm_num) (by norm_num) (by norm_num) 3 (by omega)
        1 3 (0 : Fin 2) (1 : Fin 2) rfl,
      C131_hex_trace linear (1 / 10 ^ 12) (1 / 2) 0 (by norm_num) (by norm_num) (by norm_num) (by norm_num) (by norm_num) 1 (by omega)
        9 1 (0 : Fin 2) (1 : Fin 2) rfl]
    norm_num [linear]

theorem two {r : Nat} (hr : r < 6) (e : 1 = [3, 0, 1, 2, 4, 5].getD r 0) : r = 2 := by
  interval_cases r <;> revert e <;> decide

theorem same {r r' : Nat} (hr : r < 6) (hr' : r' < 6) (e : [3, 0, 1, 2, 4, 5].getD r 0 = [3, 0, 1, 2, 4, 5].getD r' 0) :
    r = r' := by
  interval_cases r <;> interval_cases r' <;> revert e <;> decide

/-- C131, partial: on the face `x = 1` the nodes are right: a function is one at its node and zero at the others.  On the other faces
the node of a function is that of its mirror image (`C131_hex_nodes_violated`). -/
theorem C131_hex_nodes_partial (l : Fin n → K → K) (c : Fin n → K) (hl : Nodal l c) (tol : K) (ht : 0 < tol) (idx idx' : Nat)
    (j i j' i' : Fin n) (h : (hexTags n)[idx]? = some (1, j.val * n + i.val))
    (h' : (hexTags n)[idx']? = some (1, j'.val * n + i'.val)) :
    ∃ p, (hexCoords c)[idx']? = some p ∧ (hexValues l tol p p)[idx]? = some (if j = j' ∧ i = i' then 1 else 0) := by
  obtain ⟨r, rfl, hr, e⟩ := hexTag_inv h
  obtain ⟨r', rfl, hr', e'⟩ := hexTag_inv h'
  obtain rfl : r = 2 := two hr e
  obtain rfl : r' = 2 := two hr' e'
  have hl' : ∀ i j, l i (c j) = if i = j then 1 else 0 := hl
  refine ⟨(1, c j', c i'), ?_, ?_⟩
  · unfold hexCoords
    rw [faces_get]
    rfl
  · unfold hexValues
    rw [faces_get]
    simp only [List.getElem?_cons_zero, List.getElem?_cons_succ, Option.map_some, face, sub_self, near_zero ht, if_true, hl']
    by_cases a : j = j' <;> by_cases b : i = i' <;> simp [a, b]

/-- C131 is false for the nodes of the other faces of hexahedra: the function with number `(j, i)` is one at the point given as node
of the function with number `(i, j)`, and zero at its own unless the numbers are equal. -/
theorem C131_hex_nodes_violated (l : Fin n → K → K) (c : Fin n → K) (hl : Nodal l c) (tol : K) (ht : 0 < tol) (f : Nat) (hf : f < 6)
    (hf1 : f ≠ 1) (idx idx' : Nat) (j i j' i' : Fin n) (h : (hexTags n)[idx]? = some (f, j.val * n + i.val))
    (h' : (hexTags n)[idx']? = some (f, j'.val * n + i'.val)) :
    ∃ p, (hexCoords c)[idx']? = some p ∧ (hexValues l tol p p)[idx]? = some (if j = i' ∧ i = j' then 1 else 0) := by
  obtain ⟨r, rfl, hr, e⟩ := hexTag_inv h
  obtain ⟨r', rfl, hr', e'⟩ := hexTag_inv h'
  have hrr : r = r' := same hr hr' (e ▸ e')
  subst hrr
  have h0 := near_zero ht
  have hl' : ∀ i j, l i (c j) = if i = j then 1 else 0 := hl
  unfold hexCoords hexValues
  simp only [faces_get]
  interval_cases r
  · refine ⟨(-1, c j', c i'), rfl, ?_⟩
    simp only [List.getElem?_cons_zero, Option.map_some, face, neg_add_cancel, h0, if_true, hl']
    by_cases a : j = i' <;> by_cases b : i = j' <;> simp [a, b]
  · refine ⟨(c j', -1, c i'), rfl, ?_⟩
    simp only [List.getElem?_cons_zero, List.getElem?_cons_succ, Option.map_some, face, neg_add_cancel, h0, if_true, hl']
    by_cases a : j = i' <;> by_cases b : i = j' <;> simp [a, b]
  · exact absurd e (by simpa using hf1)
  · refine ⟨(c j', 1, c i'), rfl, ?_⟩
    simp only [List.getElem?_cons_zero, List.getElem?_cons_succ, Option.map_some, face, sub_self, h0, if_true, hl']
    by_cases a : j = i' <;> by_cases b : i = j' <;> simp [a, b]
  · refine ⟨(c j', c i', -1), rfl, ?_⟩
    simp only [List.getElem?_cons_zero, List.getElem?_cons_succ, Option.map_some, face, neg_add_cancel, h0, if_true, hl']
    by_cases a : j = i' <;> by_cases b : i = j' <;> simp [a, b]
  · refine ⟨(c j', c i', 1), rfl, ?_⟩
    simp only [List.getElem?_cons_zero, List.getElem?_cons_succ, Option.map_some, face, sub_self, h0, if_true, hl']
    by_cases a : j = i' <;> by_cases b : i = j' <;> simp [a, b]

/-! ## Tetrahedra -/

/-- C131, partial: for tetrahedra of order zero, on a face away from its edges exactly the function of the face is one; inside, none. -/
theorem C131_tet_partial (tol : K) (ht : 0 < tol) (p : K × K × K) :
    ((p.2.1 = 0 → tol ≤ p.1 → tol ≤ p.2.2 → p.1 + p.2.2 ≤ 1 - tol → tetValues tol p = [1, 0, 0, 0]) ∧
     (p.1 + p.2.1 + p.2.2 = 1 → tol ≤ p.1 → tol ≤ p.2.1 → tol ≤ p.2.2 → tetValues tol p = [0, 1, 0, 0]) ∧
     (p.1 = 0 → tol ≤ p.2.1 → tol ≤ p.2.2 → p.2.1 + p.2.2 ≤ 1 - tol → tetValues tol p = [0, 0, 1, 0]) ∧
     (p.2.2 = 0 → tol ≤ p.1 → tol ≤ p.2.1 → p.1 + p.2.1 ≤ 1 - tol → tetValues tol p = [0, 0, 0, 1]) ∧
     (tol ≤ p.1 → tol ≤ p.2.1 → tol ≤ p.2.2 → p.1 + p.2.1 + p.2.2 ≤ 1 - tol → tetValues tol p = [0, 0, 0, 0])) := by
  obtain ⟨x, y, z⟩ := p
  have h0 := near_zero ht
  have far : ∀ a : K, tol ≤ a → near tol (a - 0) = false := fun a h => near_far (Or.inl (by linarith))
  have sum : ∀ a : K, a ≤ 1 - tol → near tol (a - 1) = false := fun a h => near_far (Or.inr (by linarith))
  refine ⟨?_, ?_, ?_, ?_, ?_⟩
  · intro h h1 h2 h3
    simp only at h h1 h2 h3
    subst h
    simp only [tetValues, far x h1, far z h2, sum (x + 0 + z) (by linarith), sub_self, h0, if_true, Bool.false_eq_true, if_false]
  · intro h h1 h2 h3
    simp only at h h1 h2 h3
    simp only [tetValues, far x h1, far y h2, far z h3, h, sub_self, h0, if_true, Bool.false_eq_true, if_false]
  · intro h h1 h2 h3
    simp only at h h1 h2 h3
    subst h
    simp only [tetValues, far y h1, far z h2, sum (0 + y + z) (by linarith), sub_self, h0, if_true, Bool.false_eq_true, if_false]
  · intro h h1 h2 h3
    simp only at h h1 h2 h3
    subst h
    simp only [tetValues, far x h1, far y h2, sum (x + y + 0) (by linarith), sub_self, h0, if_true, Bool.false_eq_true, if_false]
  · intro h1 h2 h3 h4
    simp only at h1 h2 h3 h4
    simp only [tetValues, far x h1, far y h2, far z h3, sum (x + y + z) h4, Bool.false_eq_true, if_false]

/-- C131 is false for tetrahedra of order one or more: the basis cannot be constructed. -/
theorem C131_tet_violated (order : Nat) (h : 1 ≤ order) : tetConstruct order = none := by
  simp [tetConstruct, show order ≠ 0 by omega]

-- a point of the slanted face
example : tetValues (1 / 10 ^ 12 : ℚ) (1 / 4, 1 / 4, 1 / 2) = [0, 1, 0, 0] := by norm_num [tetValues, near, abs]

end MrHyDE.Disc.Face
