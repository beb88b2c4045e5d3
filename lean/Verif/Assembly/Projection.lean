import Mathlib.Algebra.Ring.Defs
import Mathlib.Algebra.BigOperators.Group.List.Basic
import Mathlib.Algebra.Field.Rat
import Mathlib.Tactic.Ring
import Mathlib.Tactic.NormNum

/-! # C68: the system that projects Dirichlet data

Model of `AssemblyManager::computeConstraintProjection`, /repo/src/managers/assembly/assemblyManager_constraints.hpp:144-235.
The matrix is a function of row and column: entries outside the graph are not distinguished (the graph holds all pairs of
unknowns of an element).  Single process. -/

namespace MrHyDE.Assembly.Projection

variable {K : Type} [CommRing K]

/-- A side of an element on the boundary: local indices, right-hand side and mass;
assemblyManager_constraints.hpp:163-171. -/
structure Side (K : Type) where
  lids : List Nat
  rhs : Nat → K
  mass : Nat → Nat → K

/-- Matrix and right-hand side; assemblyManager_constraints.hpp:145, 158. -/
structure Sys (K : Type) where
  mat : Nat → Nat → K
  rhs : Nat → K

/-- `sumIntoValues` for one row and one column; assemblyManager_constraints.hpp:193, 202. -/
def addMat (s : Sys K) (r c : Nat) (v : K) : Sys K :=
  { s with mat := fun i j => if i = r ∧ j = c then s.mat i j + v else s.mat i j }

/-- `sumIntoLocalValue`; assemblyManager_constraints.hpp:181. -/
def addRhs (s : Sys K) (r : Nat) (v : K) : Sys K :=
  { s with rhs := fun i => if i = r then s.rhs i + v else s.rhs i }

/-- `replaceValues` of the diagonal entry by one; assemblyManager_constraints.hpp:219-223. -/
def setOne (s : Sys K) (r : Nat) : Sys K :=
  { s with mat := fun i j => if i = r ∧ j = r then 1 else s.mat i j }

/-- Row of local number `p` of a side; assemblyManager_constraints.hpp:177-206.  With `lump` the whole row goes to the column
written last into `cols[0]`, which is that of the last local number. -/
def rowStep (fixed : Nat → Bool) (lump : Bool) (e : Side K) (s : Sys K) (p : Nat) : Sys K :=
  match e.lids[p]? with
  | none => s
  | some r =>
    if fixed r then
      let s1 := addRhs s r (e.rhs p)
      if lump then
        addMat s1 r (e.lids.getLastD 0) (((List.range e.lids.length).map (e.mass p)).sum)
      else
        (List.range e.lids.length).foldl (fun t q => addMat t r (e.lids.getD q 0) (e.mass p q)) s1
    else s

/-- One side; assemblyManager_constraints.hpp:176-208. -/
def sideStep (fixed : Nat → Bool) (lump : Bool) (s : Sys K) (e : Side K) : Sys K :=
  (List.range e.lids.length).foldl (rowStep fixed lump e) s

/-- Ones on the diagonal of the free rows of one element; assemblyManager_constraints.hpp:214-228. -/
def elemStep (fixed : Nat → Bool) (s : Sys K) (lids : List Nat) : Sys K :=
  lids.foldl (fun t r => if fixed r then t else setOne t r) s

/-- The whole function, started with a zero matrix and right-hand side; assemblyManager_constraints.hpp:144-235. -/
def project (fixed : Nat → Bool) (lump : Bool) (sides : List (Side K)) (elems : List (List Nat)) : Sys K :=
  elems.foldl (elemStep fixed) (sides.foldl (sideStep fixed lump) ⟨fun _ _ => 0, fun _ => 0⟩)

/-! ## Specification -/

/-- Sum over the local rows of the sides that have global number `r`. [specification, no code] -/
def overRows (sides : List (Side K)) (r : Nat) (f : Side K → Nat → K) : K :=
  (sides.map (fun e => ((List.range e.lids.length).map (fun p => if e.lids[p]? = some r then f e p else 0)).sum)).sum

/-- The boundary mass matrix. [specification, no code] -/
def massEntry (sides : List (Side K)) (r c : Nat) : K :=
  overRows sides r (fun e p => ((List.range e.lids.length).map (fun q => if e.lids[q]? = some c then e.mass p q else 0)).sum)

/-- Row sums of the boundary mass matrix. [specification, no code] -/
def massRow (sides : List (Side K)) (r : Nat) : K :=
  overRows sides r (fun e p => ((List.range e.lids.length).map (fun q => e.mass p q)).sum)

/-! ## Lemmas -/

theorem addMat_fold (r : Nat) (col : Nat → Nat) (v : Nat → K) (i j : Nat) : ∀ (l : List Nat) (s : Sys K),
    (l.foldl (fun t q => addMat t r (col q) (v q)) s).mat i j =
      s.mat i j + (if i = r then (l.map (fun q => if col q = j then v q else 0)).sum else 0) := by
  intro l
  induction l with
  | nil => intro s; simp
  | cons q t ih =>
    intro s
    rw [List.foldl_cons, ih]
    show (if i = r ∧ j = col q then s.mat i j + v q else s.mat i j) + _ = _
    by_cases hi : i = r
    · by_cases hj : col q = j
      · simp [hi, hj, add_assoc]
      · have hj' : ¬ j = col q := fun h => hj h.symm
        simp [hi, hj, hj']
    · simp [hi]

theorem addMat_fold_rhs (r : Nat) (col : Nat → Nat) (v : Nat → K) : ∀ (l : List Nat) (s : Sys K),
    (l.foldl (fun t q => addMat t r (col q) (v q)) s).rhs = s.rhs := by
  intro l
  induction l with
  | nil => intro s; rfl
  | cons q t ih => intro s; rw [List.foldl_cons, ih]; rfl

/-- What a local row puts into entry `(i, j)`. [helper] -/
def rowVal (fixed : Nat → Bool) (lump : Bool) (e : Side K) (i j p : Nat) : K :=
  if e.lids[p]? = some i ∧ fixed i = true then
    (if lump then (if e.lids.getLastD 0 = j then ((List.range e.lids.length).map (e.mass p)).sum else 0)
     else ((List.range e.lids.length).map (fun q => if e.lids.getD q 0 = j then e.mass p q else 0)).sum)
  else 0

theorem rowStep_mat (fixed : Nat → Bool) (lump : Bool) (e : Side K) (s : Sys K) (p i j : Nat) :
    (rowStep fixed lump e s p).mat i j = s.mat i j + rowVal fixed lump e i j p := by
  unfold rowStep rowVal
  cases h : e.lids[p]? with
  | none => simp
  | some r =>
    simp only [Option.some.injEq]
    by_cases hf : fixed r = true
    · rw [if_pos hf]
      by_cases hl : lump = true
      · simp only [hl, if_true]
        show (if i = r ∧ j = e.lids.getLastD 0 then s.mat i j + _ else s.mat i j) = _
        by_cases hi : r = i
        · subst hi
          by_cases hj : e.lids.getLastD 0 = j
          · rw [if_pos ⟨rfl, hj.symm⟩, if_pos ⟨rfl, hf⟩, if_pos hj]
          · rw [if_neg (fun hh => hj hh.2.symm), if_pos ⟨rfl, hf⟩, if_neg hj, add_zero]
        · rw [if_neg (fun hh => hi hh.1.symm), if_neg (fun hh => hi hh.1), add_zero]
      · have hl' : lump = false := by simpa using hl
        simp only [hl', Bool.false_eq_true, if_false]
        rw [addMat_fold r (fun q => e.lids.getD q 0) (e.mass p) i j]
        show s.mat i j + _ = _
        by_cases hi : r = i
        · subst hi
          rw [if_pos rfl, if_pos ⟨rfl, hf⟩]
        · rw [if_neg (fun hh => hi hh.symm), if_neg (fun hh => hi hh.1)]
    · rw [if_neg hf]
      have : ¬ (r = i ∧ fixed i = true) := by rintro ⟨rfl, h2⟩; exact hf h2
      rw [if_neg this, add_zero]

theorem rowStep_rhs (fixed : Nat → Bool) (lump : Bool) (e : Side K) (s : Sys K) (p i : Nat) :
    (rowStep fixed lump e s p).rhs i = s.rhs i + (if e.lids[p]? = some i ∧ fixed i = true then e.rhs p else 0) := by
  unfold rowStep
  cases h : e.lids[p]? with
  | none => simp
  | some r =>
    simp only [Option.some.injEq]
    have key : (addRhs s r (e.rhs p)).rhs i = s.rhs i + (if r = i then e.rhs p else 0) := by
      show (if i = r then s.rhs i + e.rhs p else s.rhs i) = _
      by_cases hi : r = i
      · rw [if_pos hi.symm, if_pos hi]
      · rw [if_neg (fun hh => hi hh.symm), if_neg hi, add_zero]
    by_cases hf : fixed r = true
    · rw [if_pos hf]
      have e2 : (if r = i ∧ fixed i = true then e.rhs p else 0) = (if r = i then e.rhs p else 0) := by
        by_cases hi : r = i
        · subst hi; simp [hf]
        · simp [hi]
      rw [e2, ← key]
      by_cases hl : lump = true
      · simp only [hl, if_true]; rfl
      · have hl' : lump = false := by simpa using hl
        simp only [hl', Bool.false_eq_true, if_false]
        rw [addMat_fold_rhs r (fun q => e.lids.getD q 0) (e.mass p)]
    · rw [if_neg hf]
      have : ¬ (r = i ∧ fixed i = true) := by rintro ⟨rfl, h2⟩; exact hf h2
      rw [if_neg this, add_zero]

theorem fold_mat (fixed : Nat → Bool) (lump : Bool) (e : Side K) (i j : Nat) : ∀ (l : List Nat) (s : Sys K),
    (l.foldl (rowStep fixed lump e) s).mat i j = s.mat i j + (l.map (rowVal fixed lump e i j)).sum := by
  intro l
  induction l with
  | nil => intro s; simp
  | cons p t ih => intro s; rw [List.foldl_cons, ih, rowStep_mat, List.map_cons, List.sum_cons, add_assoc]

theorem fold_rhs (fixed : Nat → Bool) (lump : Bool) (e : Side K) (i : Nat) : ∀ (l : List Nat) (s : Sys K),
    (l.foldl (rowStep fixed lump e) s).rhs i =
      s.rhs i + (l.map (fun p => if e.lids[p]? = some i ∧ fixed i = true then e.rhs p else 0)).sum := by
  intro l
  induction l with
  | nil => intro s; simp
  | cons p t ih => intro s; rw [List.foldl_cons, ih, rowStep_rhs, List.map_cons, List.sum_cons, add_assoc]

theorem sides_mat (fixed : Nat → Bool) (lump : Bool) (i j : Nat) : ∀ (es : List (Side K)) (s : Sys K),
    (es.foldl (sideStep fixed lump) s).mat i j =
      s.mat i j + (es.map (fun e => ((List.range e.lids.length).map (rowVal fixed lump e i j)).sum)).sum := by
  intro es
  induction es with
  | nil => intro s; simp
  | cons e t ih =>
    intro s
    rw [List.foldl_cons, ih, List.map_cons, List.sum_cons]
    unfold sideStep
    rw [fold_mat, add_assoc]

theorem sides_rhs (fixed : Nat → Bool) (lump : Bool) (i : Nat) : ∀ (es : List (Side K)) (s : Sys K),
    (es.foldl (sideStep fixed lump) s).rhs i =
      s.rhs i + (es.map (fun e => ((List.range e.lids.length).map
        (fun p => if e.lids[p]? = some i ∧ fixed i = true then e.rhs p else 0)).sum)).sum := by
  intro es
  induction es with
  | nil => intro s; simp
  | cons e t ih =>
    intro s
    rw [List.foldl_cons, ih, List.map_cons, List.sum_cons]
    unfold sideStep
    rw [fold_rhs, add_assoc]

theorem elem_mat (fixed : Nat → Bool) (i j : Nat) : ∀ (l : List Nat) (s : Sys K),
    (elemStep fixed s l).mat i j = if i = j ∧ i ∈ l ∧ fixed i = false then 1 else s.mat i j := by
  intro l
  unfold elemStep
  induction l with
  | nil => intro s; simp
  | cons r t ih =>
    intro s
    rw [List.foldl_cons, ih]
    by_cases h1 : i = j ∧ i ∈ t ∧ fixed i = false
    · rw [if_pos h1, if_pos ⟨h1.1, List.mem_cons_of_mem _ h1.2.1, h1.2.2⟩]
    · rw [if_neg h1]
      by_cases hf : fixed r = true
      · rw [if_pos hf]
        rw [if_neg]
        rintro ⟨ha, hb, hc⟩
        rcases List.mem_cons.mp hb with h | h
        · subst h; rw [hf] at hc; exact Bool.noConfusion hc
        · exact h1 ⟨ha, h, hc⟩
      · rw [if_neg hf]
        have hf' : fixed r = false := by simpa using hf
        show (if i = r ∧ j = r then (1 : K) else s.mat i j) = _
        by_cases h2 : i = r ∧ j = r
        · rw [if_pos h2, if_pos]
          refine ⟨h2.1.trans h2.2.symm, ?_, ?_⟩
          · rw [h2.1]; exact List.mem_cons_self
          · rw [h2.1]; exact hf'
        · rw [if_neg h2, if_neg]
          rintro ⟨ha, hb, hc⟩
          rcases List.mem_cons.mp hb with h | h
          · exact h2 ⟨h, ha ▸ h⟩
          · exact h1 ⟨ha, h, hc⟩

theorem elem_rhs (fixed : Nat → Bool) : ∀ (l : List Nat) (s : Sys K), (elemStep fixed s l).rhs = s.rhs := by
  intro l
  unfold elemStep
  induction l with
  | nil => intro s; rfl
  | cons r t ih =>
    intro s
    rw [List.foldl_cons, ih]
    split <;> rfl

theorem elems_mat (fixed : Nat → Bool) (i j : Nat) : ∀ (ls : List (List Nat)) (s : Sys K),
    (ls.foldl (elemStep fixed) s).mat i j =
      if i = j ∧ (∃ l ∈ ls, i ∈ l) ∧ fixed i = false then 1 else s.mat i j := by
  intro ls
  induction ls with
  | nil => intro s; simp
  | cons l t ih =>
    intro s
    rw [List.foldl_cons, ih, elem_mat]
    by_cases hij : i = j
    · by_cases hf : fixed i = false
      · by_cases h1 : ∃ l ∈ t, i ∈ l
        · rw [if_pos ⟨hij, h1, hf⟩, if_pos]
          obtain ⟨l', h, h'⟩ := h1
          exact ⟨hij, ⟨l', List.mem_cons_of_mem _ h, h'⟩, hf⟩
        · rw [if_neg (fun h => h1 h.2.1)]
          by_cases h2 : i ∈ l
          · rw [if_pos ⟨hij, h2, hf⟩, if_pos ⟨hij, ⟨l, List.mem_cons_self, h2⟩, hf⟩]
          · rw [if_neg (fun h => h2 h.2.1), if_neg]
            rintro ⟨-, ⟨l', h, h'⟩, -⟩
            rcases List.mem_cons.mp h with h3 | h3
            · subst h3; exact h2 h'
            · exact h1 ⟨l', h3, h'⟩
      · rw [if_neg (fun h => hf h.2.2), if_neg (fun h => hf h.2.2), if_neg (fun h => hf h.2.2)]
    · rw [if_neg (fun h => hij h.1), if_neg (fun h => hij h.1), if_neg (fun h => hij h.1)]

theorem elems_rhs (fixed : Nat → Bool) : ∀ (ls : List (List Nat)) (s : Sys K), (ls.foldl (elemStep fixed) s).rhs = s.rhs := by
  intro ls
  induction ls with
  | nil => intro s; rfl
  | cons l t ih => intro s; rw [List.foldl_cons, ih, elem_rhs]

theorem getD_iff (l : List Nat) (q c : Nat) (hq : q < l.length) : (l.getD q 0 = c) ↔ (l[q]? = some c) := by
  rw [List.getD_eq_getElem?_getD, List.getElem?_eq_getElem hq, Option.getD_some, Option.some.injEq]

/-! ## Properties -/

/-- C68, partial: without lumping, the rows of strongly prescribed unknowns hold the boundary mass matrix and the integrals of
the data, and every other row of the mesh is that of the identity with right-hand side zero.  Missing: lumping
(`C68_lumped_last_column`). -/
theorem C68_consistent_partial (fixed : Nat → Bool) (sides : List (Side K)) (elems : List (List Nat)) (r c : Nat)
    (hr : ∃ l ∈ elems, r ∈ l) :
    ((project fixed false sides elems).mat r c = if fixed r then massEntry sides r c else if r = c then 1 else 0) ∧
    ((project fixed false sides elems).rhs r = if fixed r then overRows sides r (fun e p => e.rhs p) else 0) := by
  unfold project
  rw [elems_mat, elems_rhs, sides_mat, sides_rhs]
  by_cases hf : fixed r = true
  · have hf' : ¬ fixed r = false := by simp [hf]
    rw [if_neg (fun h => hf' h.2.2), if_pos hf, if_pos hf]
    refine ⟨?_, ?_⟩
    · rw [zero_add]
      unfold massEntry overRows
      congr 1
      apply List.map_congr_left
      intro e _
      congr 1
      apply List.map_congr_left
      intro p _
      unfold rowVal
      simp only [hf, and_true, Bool.false_eq_true, if_false]
      by_cases hp : e.lids[p]? = some r
      · rw [if_pos hp, if_pos hp]
        congr 1
        apply List.map_congr_left
        intro q hq
        have hq' := List.mem_range.mp hq
        by_cases hc : e.lids[q]? = some c
        · rw [if_pos hc, if_pos ((getD_iff _ _ _ hq').mpr hc)]
        · rw [if_neg hc, if_neg (fun h => hc ((getD_iff _ _ _ hq').mp h))]
      · rw [if_neg hp, if_neg hp]
    · rw [zero_add]
      unfold overRows
      simp only [hf, and_true]
  · have hf' : fixed r = false := by simpa using hf
    have z : ∀ (s : List (Side K)) , (s.map (fun e => ((List.range e.lids.length).map (rowVal fixed false e r c)).sum)).sum = 0 := by
      intro s
      have : ∀ e : Side K, ((List.range e.lids.length).map (rowVal fixed false e r c)).sum = 0 := by
        intro e
        have h : ∀ p ∈ List.range e.lids.length, rowVal fixed false e r c p = 0 := by
          intro p _
          unfold rowVal
          rw [if_neg (fun hh => hf hh.2)]
        rw [List.map_congr_left h]
        simp
      simp [this]
    rw [if_neg hf, if_neg hf]
    refine ⟨?_, by simp [hf']⟩
    rw [z, add_zero]
    by_cases hc : r = c
    · rw [if_pos ⟨hc, hr, hf'⟩, if_pos hc]
    · rw [if_neg (fun h => hc h.1), if_neg hc]

/-- With lumping the row sum is that of the boundary mass matrix, but it stands in the columns of the last unknowns of the
sides. -/
theorem C68_lumped_last_column (fixed : Nat → Bool) (sides : List (Side K)) (elems : List (List Nat)) (r c : Nat)
    (hf : fixed r = true) :
    (project fixed true sides elems).mat r c =
      overRows sides r (fun e p => if e.lids.getLastD 0 = c then ((List.range e.lids.length).map (fun q => e.mass p q)).sum
        else 0) := by
  unfold project
  have hf' : ¬ fixed r = false := by simp [hf]
  rw [elems_mat, sides_mat, if_neg (fun h => hf' h.2.2), zero_add]
  unfold overRows
  congr 1
  apply List.map_congr_left
  intro e _
  congr 1
  apply List.map_congr_left
  intro p _
  unfold rowVal
  simp only [hf, and_true, if_true]

/-- C68 is false with lumping: a prescribed unknown that is not the last of any of its sides has a zero diagonal entry, so
the lumped matrix is neither diagonal nor equal to the lumped mass on the diagonal. -/
theorem C68_lumped_zero_diagonal (fixed : Nat → Bool) (sides : List (Side K)) (elems : List (List Nat)) (r : Nat)
    (hf : fixed r = true) (hl : ∀ e ∈ sides, e.lids.getLastD 0 ≠ r) :
    (project fixed true sides elems).mat r r = 0 := by
  rw [C68_lumped_last_column fixed sides elems r r hf]
  unfold overRows
  have : ∀ e ∈ sides, ((List.range e.lids.length).map (fun p => if e.lids[p]? = some r then
      (if e.lids.getLastD 0 = r then ((List.range e.lids.length).map (fun q => e.mass p q)).sum else 0) else (0 : K))).sum = 0 := by
    intro e he
    have h : ∀ p ∈ List.range e.lids.length, (if e.lids[p]? = some r then
      (if e.lids.getLastD 0 = r then ((List.range e.lids.length).map (fun q => e.mass p q)).sum else 0) else (0 : K)) = 0 := by
      intro p _
      rw [if_neg (hl e he), ite_self]
    rw [List.map_congr_left h]
    simp
  rw [List.map_congr_left this]
  simp

/-- Case: one side with unknowns 0, 1 and mass 2 1 / 1 2, both prescribed, element 0 1 2.  Without lumping entry (0,0) is 2
and row 2 is that of the identity; with lumping row 0 is (0, 3) where (3, 0) was meant. -/
example : (project (K := ℚ) (fun r => r < 2) false [⟨[0, 1], fun _ => 5, fun p q => if p = q then 2 else 1⟩] [[0, 1, 2]]).mat 0 0 = 2 ∧
    (project (K := ℚ) (fun r => r < 2) false [⟨[0, 1], fun _ => 5, fun p q => if p = q then 2 else 1⟩] [[0, 1, 2]]).mat 2 2 = 1 ∧
    (project (K := ℚ) (fun r => r < 2) true [⟨[0, 1], fun _ => 5, fun p q => if p = q then 2 else 1⟩] [[0, 1, 2]]).mat 0 0 = 0 ∧
    (project (K := ℚ) (fun r => r < 2) true [⟨[0, 1], fun _ => 5, fun p q => if p = q then 2 else 1⟩] [[0, 1, 2]]).mat 0 1 = 3 ∧
    massRow (K := ℚ) [⟨[0, 1], fun _ => 5, fun p q => if p = q then 2 else 1⟩] 0 = 3 := by
  refine ⟨?_, ?_, ?_, ?_, ?_⟩
  · rw [(C68_consistent_partial _ _ _ 0 0 ⟨_, List.mem_singleton.mpr rfl, by simp⟩).1]
    norm_num [massEntry, overRows, List.range_succ]
  · rw [(C68_consistent_partial _ _ _ 2 2 ⟨_, List.mem_singleton.mpr rfl, by simp⟩).1]
    norm_num
  · exact C68_lumped_zero_diagonal _ _ _ 0 rfl (by simp)
  · rw [C68_lumped_last_column _ _ _ 0 1 rfl]
    norm_num [overRows, List.range_succ]
  · norm_num [massRow, overRows, List.range_succ]

end MrHyDE.Assembly.Projection
