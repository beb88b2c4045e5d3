import Mathlib.Algebra.BigOperators.Group.List.Basic
import Mathlib.Algebra.Order.BigOperators.Group.List
import Mathlib.Tactic.Linarith
import Mathlib.Tactic.NormNum
import Mathlib.Tactic.Ring
import Mathlib.Tactic.FieldSimp
import Verif.Assembly.ParamGrad

/-!
# Coarse unknowns that no fine model sees (C170)

After a fine model has delivered the derivatives of the residual of a coarse element, rows with a vanishing entry on the
diagonal are replaced before the element is added to the global matrix.
-/

set_option linter.unusedSectionVars false

namespace MrHyDE.Assembly.DiagRepair

open MrHyDE.Assembly.ParamGrad (fixRow fixDiag)

variable {K : Type}

/-! ## Model -/

/-- The elementwise part of `assembleJacRes` for an element of a block with subgrid models,
src/managers/assembly/assemblyManager_jacres.hpp:418-438, with `updateJac` (1450-1492, transposed for the adjoint),
`fixDiagJac` (1499-1531) and `updateRes` (1365-1402).  `vars` are the positions of the unknowns of each variable, `r` and
`dr` value and derivative slots of the residual.  `fixDiagJac` sets entries of the residual to zero before `updateRes`
subtracts from the array of zeros, so that it has no effect there.  `none`: an entry outside the array.  Not for
`reduce_memory`, where neither array is used (lines 409-414) and nothing is replaced. -/
def element [Field K] [LinearOrder K] (tol : K) (vars : List (List Nat)) (adjoint : Bool) (r : Nat → K)
    (dr : Nat → Nat → K) : Option ((Nat → Nat → K) × (Nat → K)) :=
  let lj := fun x y => if adjoint then dr y x else dr x y
  (fixDiag tol vars.flatten.length vars lj).map fun m => (m, fun x => 0 - r x)

/-! ## Specification -/

/-- The positions of the variables cover the element, each once.  [specification, no code] -/
structure Layout (vars : List (List Nat)) : Prop where
  nodup : vars.flatten.Nodup
  lt : ∀ d ∈ vars.flatten, d < vars.flatten.length

/-- Row `x` of a matrix times a vector, over the unknowns of the element.  [specification, no code] -/
def row [Field K] (vars : List (List Nat)) (m : Nat → Nat → K) (x : Nat) (v : Nat → K) : K :=
  (vars.flatten.map (fun y => m x y * v y)).sum

/-- The average of the unknowns of a variable other than `x`.  [specification, no code] -/
def average [Field K] (var : List Nat) (x : Nat) (v : Nat → K) : K :=
  ((var.erase x).map v).sum / ((var.erase x).length : K)

/-! ## Properties -/

section
variable [Field K] [LinearOrder K]

/-- The row written by the replacement.  [specification, no code] -/
def newRow (var : List Nat) (lj : Nat → Nat → K) (d y : Nat) : K :=
  if y = d then 1 else if y ∈ var then -(1 / ((var.length : K) - 1)) else lj d y

theorem foldlM_rows (tol : K) (cols : Nat) : ∀ (l : List (List Nat × Nat)) (lj : Nat → Nat → K), (l.map Prod.snd).Nodup →
    (∀ q ∈ l, q.2 < cols ∧ ∀ j ∈ q.1, j < cols) →
    ∃ m, l.foldlM (fun lj vd => fixRow tol cols vd.1 lj vd.2) lj = some m ∧
      (∀ x, x ∉ l.map Prod.snd → m x = lj x) ∧
      ∀ q ∈ l, m q.2 = if |lj q.2 q.2| < tol then newRow q.1 lj q.2 else lj q.2 := by
  intro l
  induction l with
  | nil => intro lj _ _; exact ⟨lj, rfl, fun _ _ => rfl, by simp⟩
  | cons a l ih =>
    intro lj hnd hlt
    obtain ⟨v, d⟩ := a
    have hd : d < cols := (hlt _ List.mem_cons_self).1
    have hv : ∀ j ∈ v, j < cols := (hlt _ List.mem_cons_self).2
    rw [List.map_cons, List.nodup_cons] at hnd
    -- the first row
    obtain ⟨lj', h1, h2, h3⟩ : ∃ lj', fixRow tol cols v lj d = some lj' ∧ (∀ x, x ≠ d → lj' x = lj x) ∧
        lj' d = if |lj d d| < tol then newRow v lj d else lj d := by
      unfold fixRow
      rw [if_neg (not_le.mpr hd)]
      by_cases ht : |lj d d| < tol
      · rw [if_pos ht, if_pos hv]
        refine ⟨_, rfl, ?_, ?_⟩
        · intro x hx; funext y; simp [hx]
        · rw [if_pos ht]; funext y; simp [newRow]
      · rw [if_neg ht]
        exact ⟨lj, rfl, fun _ _ => rfl, by rw [if_neg ht]⟩
    obtain ⟨m, g1, g2, g3⟩ := ih lj' hnd.2 (fun q hq => hlt q (List.mem_cons_of_mem _ hq))
    refine ⟨m, ?_, ?_, ?_⟩
    · rw [List.foldlM_cons, h1]; exact g1
    · intro x hx
      rw [List.map_cons, List.mem_cons, not_or] at hx
      rw [g2 x hx.2, h2 x hx.1]
    · intro q hq
      rcases List.mem_cons.mp hq with rfl | hq
      · rw [g2 d hnd.1, h3]
      · have hne : q.2 ≠ d := fun h => hnd.1 (List.mem_map.mpr ⟨q, hq, h⟩)
        rw [g3 q hq, h2 _ hne]
        by_cases ht : |lj q.2 q.2| < tol
        · rw [if_pos ht, if_pos ht]
          funext y
          simp [newRow, h2 _ hne]
        · rw [if_neg ht, if_neg ht]

theorem pairs_snd (vars : List (List Nat)) : (vars.flatMap (fun v => v.map (fun d => (v, d)))).map Prod.snd = vars.flatten := by
  induction vars with
  | nil => rfl
  | cons v vs ih => simp [List.flatMap_cons, ih, Function.comp_def]

/-- C170 (entries): for every number of unknowns and variables the element's matrix is delivered, a row with an entry on the
diagonal of at least the tolerance is the row of derivatives, and in the other rows the entry on the diagonal is one, those of
the other unknowns of the same variable are `−1/(n−1)` and those of other variables are kept; the element's right hand side is
the negative residual throughout. -/
theorem C170_entries (tol : K) (vars : List (List Nat)) (hl : Layout vars) (adjoint : Bool) (r : Nat → K)
    (dr : Nat → Nat → K) :
    ∃ m, element tol vars adjoint r dr = some (m, fun x => -r x) ∧
      ∀ v ∈ vars, ∀ x ∈ v, ∀ y,
        m x y = if |dr x x| < tol then
            (if y = x then 1 else if y ∈ v then -(1 / ((v.length : K) - 1)) else if adjoint then dr y x else dr x y)
          else if adjoint then dr y x else dr x y := by
  obtain ⟨m, h1, _, h3⟩ := foldlM_rows tol vars.flatten.length (vars.flatMap (fun v => v.map (fun d => (v, d))))
    (fun x y => if adjoint then dr y x else dr x y) (by rw [pairs_snd]; exact hl.nodup)
    (by
      intro q hq
      obtain ⟨v, hv, hq⟩ := List.mem_flatMap.mp hq
      obtain ⟨d, hd, rfl⟩ := List.mem_map.mp hq
      exact ⟨hl.lt d (List.mem_flatten.mpr ⟨v, hv, hd⟩), fun j hj => hl.lt j (List.mem_flatten.mpr ⟨v, hv, hj⟩)⟩)
  refine ⟨m, ?_, ?_⟩
  · simp only [element, fixDiag, h1, Option.map_some, zero_sub]
  · intro v hv x hx y
    have h := h3 (v, x) (List.mem_flatMap.mpr ⟨v, hv, List.mem_map.mpr ⟨x, hx, rfl⟩⟩)
    have hdd : (if adjoint then dr x x else dr x x) = dr x x := by split <;> rfl
    simp only at h
    rw [h, hdd]
    by_cases ht : |dr x x| < tol
    · rw [if_pos ht, if_pos ht]; rfl
    · rw [if_neg ht, if_neg ht]

end

section
variable [Field K] [LinearOrder K] [IsStrictOrderedRing K]

theorem sum_row_split (vars : List (List Nat)) (hn : vars.flatten.Nodup) (v : List Nat) (hv : v ∈ vars) (f : Nat → K)
    (hz : ∀ y ∈ vars.flatten, y ∉ v → f y = 0) : (vars.flatten.map f).sum = (v.map f).sum := by
  induction vars with
  | nil => simp at hv
  | cons w ws ih =>
    rw [List.flatten_cons, List.nodup_append] at hn
    rw [List.flatten_cons, List.map_append, List.sum_append]
    rcases List.mem_cons.mp hv with rfl | hv'
    · have : (ws.flatten.map f).sum = 0 := by
        apply List.sum_eq_zero
        intro z hz'
        obtain ⟨y, hy, rfl⟩ := List.mem_map.mp hz'
        exact hz y (by simp only [List.flatten_cons, List.mem_append]; exact Or.inr hy)
          (fun h => hn.2.2 y h y hy rfl)
      rw [this, add_zero]
    · have : (w.map f).sum = 0 := by
        apply List.sum_eq_zero
        intro z hz'
        obtain ⟨y, hy, rfl⟩ := List.mem_map.mp hz'
        exact hz y (by simp only [List.flatten_cons, List.mem_append]; exact Or.inl hy)
          (fun h => hn.2.2 y hy y (List.mem_flatten.mpr ⟨v, hv', h⟩) rfl)
      rw [this, zero_add]
      exact ih hn.2.1 hv' (fun y hy => hz y (by simp only [List.flatten_cons, List.mem_append]; exact Or.inr hy))

theorem sum_newRow (v : List Nat) (hn : v.Nodup) (x : Nat) (hx : x ∈ v) (h2 : 2 ≤ v.length) (w : Nat → K) :
    (v.map (fun y => (if y = x then (1 : K) else -(1 / ((v.length : K) - 1))) * w y)).sum = w x - average v x w := by
  have hp := List.perm_cons_erase hx
  rw [(hp.map _).sum_eq, List.map_cons, List.sum_cons, if_pos rfl, one_mul]
  have hne : ∀ y ∈ v.erase x, y ≠ x := fun y hy h => by
    rw [h] at hy; exact (hn.not_mem_erase) hy
  have hlen : ((v.erase x).length : K) = (v.length : K) - 1 := by
    rw [List.length_erase_of_mem hx, Nat.cast_sub (by omega), Nat.cast_one]
  rw [average, hlen]
  have : ∀ (l : List Nat), (∀ y ∈ l, y ≠ x) →
      (l.map (fun y => (if y = x then (1 : K) else -(1 / ((v.length : K) - 1))) * w y)).sum =
        -(1 / ((v.length : K) - 1)) * (l.map w).sum := by
    intro l
    induction l with
    | nil => intro _; simp
    | cons y l ih =>
      intro h
      rw [List.map_cons, List.sum_cons, ih (fun z hz => h z (List.mem_cons_of_mem _ hz)), if_neg (h y List.mem_cons_self),
        List.map_cons, List.sum_cons, mul_add]
  rw [this _ hne]
  ring

/-- C170 (part): suppose every row of the element with a small entry on the diagonal is zero and so is its residual (no fine
model contributes to the equation), and variables with such rows have at least two unknowns.  Then the replaced system is
solved by exactly those increments which solve the original one and give to every unknown without equation the average of
the increments of the other unknowns of its variable.  Missing for the full statement: rows with other entries or a residual
(`C170_coupling_violated`, `C170_residual_violated`), small units (`C170_units_violated`), variables with no equation at all
(`C170_constant_violated`), unknowns with an equation in a neighbouring element (`C170_shared_violated`), adjoint matrices (`C170_adjoint_violated`). -/
theorem C170_partial (tol : K) (vars : List (List Nat)) (hl : Layout vars) (r : Nat → K) (dr : Nat → Nat → K)
    (hz : ∀ x ∈ vars.flatten, |dr x x| < tol → r x = 0 ∧ ∀ y ∈ vars.flatten, dr x y = 0)
    (h2 : ∀ v ∈ vars, (∃ x ∈ v, |dr x x| < tol) → 2 ≤ v.length) :
    ∃ m b, element tol vars false r dr = some (m, b) ∧ ∀ w : Nat → K,
      (∀ x ∈ vars.flatten, row vars m x w = b x) ↔
        (∀ x ∈ vars.flatten, row vars dr x w = -r x) ∧ ∀ v ∈ vars, ∀ x ∈ v, |dr x x| < tol → w x = average v x w := by
  obtain ⟨m, h1, h3⟩ := C170_entries tol vars hl false r dr
  refine ⟨m, _, h1, ?_⟩
  intro w
  have hrow : ∀ v ∈ vars, ∀ x ∈ v, row vars m x w = if |dr x x| < tol then w x - average v x w else row vars dr x w := by
    intro v hv x hx
    have hxf : x ∈ vars.flatten := List.mem_flatten.mpr ⟨v, hv, hx⟩
    by_cases hs : |dr x x| < tol
    · rw [if_pos hs]
      have hvn : v.Nodup := (List.nodup_flatten.mp hl.nodup).1 v hv
      rw [← sum_newRow v hvn x hx (h2 v hv ⟨x, hx, hs⟩) w]
      unfold row
      rw [sum_row_split vars hl.nodup v hv]
      · congr 1
        apply List.map_congr_left
        intro y hy
        rw [h3 v hv x hx y, if_pos hs]
        by_cases hyx : y = x
        · simp [hyx]
        · simp [hyx, hy]
      · intro y hy hyv
        have hyx : y ≠ x := fun h => hyv (by rw [h]; exact hx)
        rw [h3 v hv x hx y, if_pos hs, if_neg hyx, if_neg hyv]
        simp [(hz x hxf hs).2 y hy]
    · rw [if_neg hs]
      unfold row
      congr 1
      apply List.map_congr_left
      intro y _
      rw [h3 v hv x hx y, if_neg hs]
      simp
  constructor
  · intro h
    constructor
    · intro x hx
      by_cases hs : |dr x x| < tol
      · obtain ⟨a, b⟩ := hz x hx hs
        rw [a, neg_zero]
        apply List.sum_eq_zero
        intro z hz'
        obtain ⟨y, hy, rfl⟩ := List.mem_map.mp hz'
        rw [b y hy, zero_mul]
      · obtain ⟨v, hv, hxv⟩ := List.mem_flatten.mp hx
        have := h x hx
        rw [hrow v hv x hxv, if_neg hs] at this
        exact this
    · intro v hv x hx hs
      have hxf : x ∈ vars.flatten := List.mem_flatten.mpr ⟨v, hv, hx⟩
      have := h x hxf
      rw [hrow v hv x hx, if_pos hs, (hz x hxf hs).1, neg_zero] at this
      exact sub_eq_zero.mp this
  · rintro ⟨ha, hb⟩ x hx
    obtain ⟨v, hv, hxv⟩ := List.mem_flatten.mp hx
    rw [hrow v hv x hxv]
    by_cases hs : |dr x x| < tol
    · rw [if_pos hs, (hz x hx hs).1, neg_zero, hb v hv x hxv hs, sub_self]
    · rw [if_neg hs]; exact ha x hx

/-- C170 is false for a variable none of whose unknowns has an equation in the element: the replaced rows all vanish on
constants, so that the element's matrix is singular for every number of unknowns. -/
theorem C170_constant_violated (tol : K) (vars : List (List Nat)) (hl : Layout vars) (r : Nat → K) (dr : Nat → Nat → K)
    (v : List Nat) (hv : v ∈ vars) (h2 : 2 ≤ v.length) (hz : ∀ x ∈ v, |dr x x| < tol)
    (hc : ∀ x ∈ vars.flatten, ∀ y ∈ v, x ∉ v → dr x y = 0) (hs : ∀ x ∈ vars.flatten, x ∉ v → tol ≤ |dr x x|) :
    ∃ m b, element tol vars false r dr = some (m, b) ∧
      ∀ x ∈ vars.flatten, row vars m x (fun y => if y ∈ v then 1 else 0) = 0 := by
  obtain ⟨m, h1, h3⟩ := C170_entries tol vars hl false r dr
  refine ⟨m, _, h1, ?_⟩
  intro x hx
  unfold row
  rw [sum_row_split vars hl.nodup v hv _ (fun y _ hy => by simp [hy])]
  have hvn : v.Nodup := (List.nodup_flatten.mp hl.nodup).1 v hv
  by_cases hxv : x ∈ v
  · have e : (v.map (fun y => m x y * if y ∈ v then 1 else 0)).sum =
        (v.map (fun y => (if y = x then (1 : K) else -(1 / ((v.length : K) - 1))) * (fun _ => 1) y)).sum := by
      congr 1
      apply List.map_congr_left
      intro y hy
      rw [h3 v hv x hxv y, if_pos (hz x hxv), if_pos hy, if_pos hy]
    rw [e, sum_newRow v hvn x hxv h2, average]
    have hlen : (v.erase x).length = v.length - 1 := List.length_erase_of_mem hxv
    have hpos : ((v.erase x).length : K) ≠ 0 := by
      rw [hlen]; exact Nat.cast_ne_zero.mpr (by omega)
    rw [List.map_const', List.sum_replicate, nsmul_eq_mul, mul_one, div_self hpos, sub_self]
  · obtain ⟨u, hu, hxu⟩ := List.mem_flatten.mp hx
    apply List.sum_eq_zero
    intro z hz'
    obtain ⟨y, hy, rfl⟩ := List.mem_map.mp hz'
    rw [h3 u hu x hxu y, if_neg (not_lt.mpr (hs x hx hxv))]
    simp [hc x hx y hy hxv]

end

/-! ## Cases -/

/-- Three unknowns of one variable, the middle one without an equation.  [case] -/
def gap : Nat → Nat → ℚ := fun x y =>
  if x = 1 then 0 else if x = y then 2 else if x + y = 2 then -1 else 0

theorem layout3 : Layout [[0, 1, 2]] := ⟨by decide, by decide⟩

example : ∃ m b, element (1/1000 : ℚ) [[0, 1, 2]] false (fun x => if x = 1 then 0 else -3) gap = some (m, b) ∧
    ∀ w : Nat → ℚ, (∀ x ∈ [[0, 1, 2]].flatten, row [[0, 1, 2]] m x w = b x) ↔
      (∀ x ∈ [[0, 1, 2]].flatten, row [[0, 1, 2]] gap x w = -(if x = 1 then 0 else -3)) ∧
      ∀ v ∈ [[0, 1, 2]], ∀ x ∈ v, |gap x x| < 1/1000 → w x = average v x w :=
  C170_partial (1/1000) [[0, 1, 2]] layout3 _ gap
    (by
      intro x hx hs
      simp only [List.flatten_cons, List.flatten_nil, List.append_nil, List.mem_cons, List.not_mem_nil, or_false] at hx
      rcases hx with rfl | rfl | rfl
      · norm_num [gap] at hs
      · simp [gap]
      · norm_num [gap] at hs)
    (by simp)

/-- The solution of this case: ends 3, middle the average 3.  [case] -/
example : (∀ x ∈ [[0, 1, 2]].flatten, row [[0, 1, 2]] gap x (fun _ => 3) = -(if x = 1 then 0 else -3)) ∧
    average [0, 1, 2] 1 (fun _ => (3 : ℚ)) = 3 := by
  constructor
  · intro x hx
    simp only [List.flatten_cons, List.flatten_nil, List.append_nil, List.mem_cons, List.not_mem_nil, or_false] at hx
    rcases hx with rfl | rfl | rfl <;> norm_num [row, gap]
  · have : ([0, 1, 2] : List Nat).erase 1 = [0, 2] := by decide
    rw [average, this]; norm_num

example : ∃ m b, element (1/1000 : ℚ) [[0, 1], [2]] false (fun _ => 0) (fun x y => if x = 2 ∧ y = 2 then 5 else 0) =
    some (m, b) ∧ ∀ x ∈ [[0, 1], [2]].flatten, row [[0, 1], [2]] m x (fun y => if y ∈ [0, 1] then 1 else 0) = 0 := by
  refine C170_constant_violated (1/1000) [[0, 1], [2]] ⟨by decide, by decide⟩ _ _ [0, 1] (by simp) (by simp) ?_ ?_ ?_
  · intro x hx
    simp only [List.mem_cons, List.not_mem_nil, or_false] at hx
    rcases hx with rfl | rfl <;> norm_num
  · intro x _ y hy _
    simp only [List.mem_cons, List.not_mem_nil, or_false] at hy
    rcases hy with rfl | rfl <;> simp
  · intro x hx hn
    simp only [List.flatten_cons, List.flatten_nil, List.append_nil, List.cons_append, List.nil_append, List.mem_cons,
      List.not_mem_nil, or_false] at hx hn
    rcases hx with rfl | rfl | rfl
    · exact absurd (Or.inl rfl) hn
    · exact absurd (Or.inr rfl) hn
    · norm_num

/-- C170 is false for equations whose own unknown does not occur in them: of the regular matrix with rows (1, 1) and (1, 0),
one unknown in each of two variables (as for a pressure), the second row becomes (1, 1) and the matrix is singular. -/
theorem C170_coupling_violated (r : Nat → ℚ) : let dr : Nat → Nat → ℚ := fun x y => if x = 1 ∧ y = 1 then 0 else 1
    (∀ a b : ℚ, ∃ w : Nat → ℚ, row [[0], [1]] dr 0 w = a ∧ row [[0], [1]] dr 1 w = b) ∧
    ∃ m c, element (1/1000) [[0], [1]] false r dr = some (m, c) ∧ ∀ w : Nat → ℚ, row [[0], [1]] m 0 w = row [[0], [1]] m 1 w := by
  intro dr
  constructor
  · intro a b
    exact ⟨fun x => if x = 0 then b else a - b, by norm_num [row, dr], by norm_num [row, dr]⟩
  · obtain ⟨m, h1, h3⟩ := C170_entries (1/1000 : ℚ) [[0], [1]] ⟨by decide, by decide⟩ false r dr
    refine ⟨m, _, h1, ?_⟩
    intro w
    have a0 : m 0 0 = 1 := by rw [h3 [0] (by simp) 0 (by simp) 0]; norm_num [dr]
    have a1 : m 0 1 = 1 := by rw [h3 [0] (by simp) 0 (by simp) 1]; norm_num [dr]
    have b0 : m 1 0 = 1 := by rw [h3 [1] (by simp) 1 (by simp) 0]; norm_num [dr]
    have b1 : m 1 1 = 1 := by rw [h3 [1] (by simp) 1 (by simp) 1]; norm_num [dr]
    simp [row, a0, a1, b0, b1]

/-- C170 is false for small units: the entries are compared with an absolute number, so that every regular diagonal matrix is
replaced by a singular one when it is scaled down (two unknowns). -/
theorem C170_units_violated (tol s : ℚ) (hs : s ≠ 0) (h : |s| < tol) (r : Nat → ℚ) :
    (∀ a b : ℚ, ∃ w : Nat → ℚ, row [[0, 1]] (fun x y => if x = y then s else 0) 0 w = a ∧
      row [[0, 1]] (fun x y => if x = y then s else 0) 1 w = b) ∧
    ∃ m c, element tol [[0, 1]] false r (fun x y => if x = y then s else 0) = some (m, c) ∧
      ∀ x ∈ [[0, 1]].flatten, row [[0, 1]] m x (fun y => if y ∈ [0, 1] then 1 else 0) = 0 := by
  constructor
  · intro a b
    refine ⟨fun x => if x = 0 then a / s else b / s, ?_, ?_⟩
    · simp [row]; field_simp
    · simp [row]; field_simp
  · refine C170_constant_violated tol [[0, 1]] ⟨by decide, by decide⟩ r _ [0, 1] (by simp) (by simp) ?_ ?_ ?_
    · intro x _; simpa using h
    · intro x hx _ _ hn
      exact absurd (by simpa using hx) (by simpa using hn)
    · intro x hx hn
      exact absurd (by simpa using hx) (by simpa using hn)

/-- C170 is false for the adjoint: the adjoint's matrix is not the transpose of the forward matrix.  For the element with three
unknowns and no equation for the middle one the forward matrix has `−1/2` in row 1, column 0, while the adjoint's matrix has
zero in row 0, column 1. -/
theorem C170_adjoint_violated : ∃ m b n c, element (1/1000 : ℚ) [[0, 1, 2]] false (fun _ => 0) gap = some (m, b) ∧
    element (1/1000) [[0, 1, 2]] true (fun _ => 0) gap = some (n, c) ∧ m 1 0 = -1/2 ∧ n 0 1 = 0 := by
  obtain ⟨m, h1, h3⟩ := C170_entries (1/1000 : ℚ) [[0, 1, 2]] layout3 false (fun _ => 0) gap
  obtain ⟨n, g1, g3⟩ := C170_entries (1/1000 : ℚ) [[0, 1, 2]] layout3 true (fun _ => 0) gap
  refine ⟨m, _, n, _, h1, g1, ?_, ?_⟩
  · rw [h3 [0, 1, 2] (by simp) 1 (by simp) 0]; norm_num [gap]
  · rw [g3 [0, 1, 2] (by simp) 0 (by simp) 1]; norm_num [gap]

/-- C170 is false when an equation is replaced whose residual is not zero: the residual stays (the code sets it to zero before it
is computed), and the increment differs from the average by it. -/
theorem C170_residual_violated (r : Nat → ℚ) (w : Nat → ℚ) : ∃ m b, element (1/1000 : ℚ) [[0, 1, 2]] false r gap = some (m, b) ∧
    (row [[0, 1, 2]] m 1 w = b 1 ↔ w 1 = average [0, 1, 2] 1 w - r 1) := by
  obtain ⟨m, h1, h3⟩ := C170_entries (1/1000 : ℚ) [[0, 1, 2]] layout3 false r gap
  refine ⟨m, _, h1, ?_⟩
  have a0 : m 1 0 = -(1/2) := by rw [h3 [0, 1, 2] (by simp) 1 (by simp) 0]; norm_num [gap]
  have a1 : m 1 1 = 1 := by rw [h3 [0, 1, 2] (by simp) 1 (by simp) 1]; norm_num [gap]
  have a2 : m 1 2 = -(1/2) := by rw [h3 [0, 1, 2] (by simp) 1 (by simp) 2]; norm_num [gap]
  have e : average [0, 1, 2] 1 w = (w 0 + w 2) / 2 := by
    have : ([0, 1, 2] : List Nat).erase 1 = [0, 2] := by decide
    rw [average, this]; simp
  rw [e]
  simp only [row, List.flatten_cons, List.flatten_nil, List.append_nil, List.map_cons, List.map_nil, List.sum_cons, List.sum_nil, a0,
    a1, a2]
  constructor <;> intro h <;> linarith

/-- C170 is false for an unknown which two elements share and only one of them has an equation for: the replacement of the
other element is added to the equation.  Two unknowns in each element, the second of the first being the first of the second;
the equation `2 w₁ = −r` becomes `3 w₁ − w₂ = −r`. -/
theorem C170_shared_violated (r s : Nat → ℚ) (w : Nat → ℚ) : ∃ m b n c,
    element (1/1000 : ℚ) [[0, 1]] false r (fun x y => if x = y then 2 else 0) = some (m, b) ∧
    element (1/1000 : ℚ) [[0, 1]] false s (fun x y => if x = 1 ∧ y = 1 then 2 else 0) = some (n, c) ∧
    row [[0, 1]] m 1 w + row [[0, 1]] n 0 (fun k => w (k + 1)) = 3 * w 1 - w 2 ∧ b 1 + c 0 = -r 1 - s 0 := by
  obtain ⟨m, h1, h3⟩ := C170_entries (1/1000 : ℚ) [[0, 1]] ⟨by decide, by decide⟩ false r (fun x y => if x = y then 2 else 0)
  obtain ⟨n, g1, g3⟩ := C170_entries (1/1000 : ℚ) [[0, 1]] ⟨by decide, by decide⟩ false s
    (fun x y => if x = 1 ∧ y = 1 then 2 else 0)
  refine ⟨m, _, n, _, h1, g1, ?_, by ring⟩
  have a0 : m 1 0 = 0 := by rw [h3 [0, 1] (by simp) 1 (by simp) 0]; norm_num
  have a1 : m 1 1 = 2 := by rw [h3 [0, 1] (by simp) 1 (by simp) 1]; norm_num
  have b0 : n 0 0 = 1 := by rw [g3 [0, 1] (by simp) 0 (by simp) 0]; norm_num
  have b1 : n 0 1 = -1 := by rw [g3 [0, 1] (by simp) 0 (by simp) 1]; norm_num
  simp [row, a0, a1, b0, b1]
  ring

end MrHyDE.Assembly.DiagRepair
