import Mathlib.Algebra.Order.Floor.Ring
import Mathlib.Algebra.Order.Field.Basic
import Mathlib.Data.Rat.Floor
import Mathlib.Data.List.Sort
import Mathlib.Tactic.Linarith
import Mathlib.Tactic.LinearCombination
import Mathlib.Tactic.NormNum
import Mathlib.Tactic.Positivity
import Mathlib.Tactic.FieldSimp
import Mathlib.Tactic.Ring

/-!
# Data of cells looked up by coordinates (C136)

The fire model reads the properties of the fuel from an Exodus file and finds the data of a cell from the coordinates of a point, with
a grid that `ExoReader` derives from the coordinates of the nodes.
-/

set_option linter.unusedSectionVars false
set_option linter.unusedSimpArgs false

namespace MrHyDE.Mesh.ExoGrid

variable {K : Type} [Field K] [LinearOrder K] [IsStrictOrderedRing K] [FloorRing K]

/-! ## Model -/

/-- `std::unique` with the comparison up to `eps`, src/tools/ExoReader.cpp:302-303, on the entries after the last one kept. -/
def uniqueFrom (eps last : K) : List K → List K
  | [] => [last]
  | y :: ys => if |last - y| < eps then uniqueFrom eps last ys else last :: uniqueFrom eps y ys

/-- `unique_sorted_`, src/tools/ExoReader.cpp:299-305. -/
def uniqueSorted (eps : K) (a : List K) : List K :=
  match a.insertionSort (· ≤ ·) with
  | [] => []
  | x :: xs => uniqueFrom eps x xs

/-- The spacings, src/tools/ExoReader.cpp:167-169. -/
def steps : List K → List K
  | x :: y :: l => (y - x) :: steps (y :: l)
  | _ => []

/-- `checkUniform`, src/tools/ExoReader.cpp:172-184; `none`: an exception. -/
def checkUniform (deltas : List K) : Option K :=
  match deltas with
  | [] => some 1
  | base :: ds =>
    let tol := max (1 / 10 ^ 8) (1 / 10 ^ 4 * max 1 |base|)
    if ds.all (fun d => decide (|d - base| ≤ tol)) then some base else none

/-- The geometry, src/tools/ExoReader.hpp:41-51; the widths of the domain are those of `domainX` and `domainY`, from which the diagonal
is computed (src/tools/ExoReader.cpp:198). -/
structure Grid (K : Type) where
  x0 : K
  y0 : K
  dx : K
  dy : K
  nx : Nat
  ny : Nat
  domainX : K
  domainY : K
  deriving DecidableEq

/-- `computeGridAndDomain`, src/tools/ExoReader.cpp:145-209: from the coordinates of the nodes and the number of elements in the block;
`none`: an exception. -/
def compute (xs ys : List K) (numElems : Nat) : Option (Grid K) := do
  let xu := uniqueSorted (1 / 10 ^ 10) xs
  let yu := uniqueSorted (1 / 10 ^ 10) ys
  if xu.length < 2 ∨ yu.length < 2 then none
  else
    let dx ← checkUniform (steps xu)
    let dy ← checkUniform (steps yu)
    let nx := xu.length - 1
    let ny := yu.length - 1
    if nx * ny ≠ numElems then none
    else some { x0 := xu.headD 0, y0 := yu.headD 0, dx := dx, dy := dy, nx := nx, ny := ny,
                domainX := xu.getLastD 0 - xu.headD 0, domainY := yu.getLastD 0 - yu.headD 0 }

/-- The index along one axis, src/physics/rothermal.cpp:141-142. -/
def axis (x x0 dx : K) (n : Nat) : Int :=
  let i := ⌊(x - x0) / dx⌋
  let i := if i < 0 then 0 else i
  if i ≥ n then n - 1 else i

/-- `getElementIds` for a point, src/physics/rothermal.cpp:139-143. -/
def elementId (g : Grid K) (x y : K) : Int := axis y g.y0 g.dy g.ny * g.nx + axis x g.x0 g.dx g.nx

/-- The index along one axis for nodal data, src/physics/rothermal.cpp:206-214. -/
def axisNode (x x0 dx : K) (n : Nat) : Int :=
  let i := ⌊(x - x0) / dx⌋
  let i := if i < 0 then 0 else i
  if i > (n : Int) - 1 then n - 1 else i

/-- `evalNodalR` at a point, src/physics/rothermal.cpp:202-235; `none`: an entry that is not there is read. -/
def nodal (g : Grid K) (r : List K) (x y : K) : Option K := do
  let sx := (x - g.x0) / g.dx
  let sy := (y - g.y0) / g.dy
  let i := axisNode x g.x0 g.dx g.nx
  let j := axisNode y g.y0 g.dy g.ny
  let tx := sx - i
  let ty := sy - j
  let nnx : Int := g.nx + 1
  let r00 ← r[(j * nnx + i).toNat]?
  let r10 ← r[(j * nnx + (i + 1)).toNat]?
  let r01 ← r[((j + 1) * nnx + i).toNat]?
  let r11 ← r[((j + 1) * nnx + (i + 1)).toNat]?
  let w00 := (1 - tx) * (1 - ty)
  let w10 := tx * (1 - ty)
  let w01 := (1 - tx) * ty
  let w11 := tx * ty
  return w00 * r00 + w10 * r10 + w01 * r01 + w11 * r11

/-! ## Specification -/

/-- The coordinates of `n + 1` nodes with equal spacing.  [specification, no code] -/
def line (x0 dx : K) (n : Nat) : List K := (List.range (n + 1)).map fun i : Nat => x0 + i * dx

/-- The coordinates of the nodes of a grid, in any order and any number of times.  [specification, no code] -/
def Covers (x0 dx : K) (n : Nat) (xs : List K) : Prop := ∀ x : K, x ∈ xs ↔ ∃ i : Nat, i ≤ n ∧ x = x0 + i * dx

/-- A point lies in cell `i` of an axis.  [specification, no code] -/
def InCell (x0 dx : K) (i : Nat) (x : K) : Prop := x0 + i * dx ≤ x ∧ x ≤ x0 + (i + 1) * dx

/-- A point lies in the domain.  [specification, no code] -/
def Inside (x0 dx : K) (n : Nat) (x : K) : Prop := x0 ≤ x ∧ x ≤ x0 + n * dx

/-- Number of a cell row by row.  [specification, no code] -/
def byRows (nx i j : Nat) : Nat := j * nx + i

/-- Number of a cell column by column.  [specification, no code] -/
def byColumns (ny i j : Nat) : Nat := i * ny + j

/-! ## Lemmas -/

theorem uniqueFrom_mem (eps : K) (he : 0 < eps) (l : List K) : ∀ (last : K),
    (∀ a : K, ∀ b : K, a ∈ last :: l → b ∈ last :: l → |a - b| < eps → a = b) → ∀ x : K, x ∈ uniqueFrom eps last l ↔ x ∈ last :: l := by
  induction l with
  | nil => intro last _ x; simp [uniqueFrom]
  | cons y ys ih =>
    intro last h x
    unfold uniqueFrom
    split
    · rename_i hlt
      have e : last = y := h last y (by simp) (by simp) hlt
      rw [ih last fun a b ha hb => h a b (by simp only [List.mem_cons] at ha ⊢; tauto) (by simp only [List.mem_cons] at hb ⊢; tauto)]
      subst e
      simp
    · rw [List.mem_cons, ih y fun a b ha hb => h a b (List.mem_cons_of_mem _ ha) (List.mem_cons_of_mem _ hb)]
      simp

theorem uniqueFrom_lt (eps : K) (he : 0 < eps) (l : List K) : ∀ (last : K), (last :: l).Pairwise (· ≤ ·) →
    (uniqueFrom eps last l).Pairwise (· < ·) ∧ ∀ x : K, x ∈ uniqueFrom eps last l → last ≤ x := by
  induction l with
  | nil => intro last _; simp [uniqueFrom]
  | cons y ys ih =>
    intro last h
    obtain ⟨h1, h2⟩ := List.pairwise_cons.1 h
    unfold uniqueFrom
    split
    · refine ih last (List.pairwise_cons.2 ⟨fun a ha => h1 a (by simp [ha]), (List.pairwise_cons.1 h2).2⟩)
    · rename_i hlt
      obtain ⟨p, q⟩ := ih y h2
      have hly : last < y := by
        rcases lt_or_eq_of_le (h1 y (by simp)) with h' | h'
        · exact h'
        · exact absurd (by rw [h']; simpa using he) hlt
      refine ⟨List.pairwise_cons.2 ⟨fun a ha => lt_of_lt_of_le hly (q a ha), p⟩, fun x hx => ?_⟩
      rcases List.mem_cons.mp hx with rfl | hx
      · exact le_refl _
      · exact le_trans hly.le (q x hx)

theorem line_lt (x0 : K) {dx : K} (hd : 0 < dx) (n : Nat) : (line x0 dx n).Pairwise (· < ·) := by
  unfold line
  rw [List.pairwise_map]
  refine List.pairwise_lt_range.imp fun {a b} h => ?_
  have : (a : K) < b := by exact_mod_cast h
  nlinarith

theorem line_mem (x0 dx : K) (n : Nat) (x : K) : x ∈ line x0 dx n ↔ ∃ i : Nat, i ≤ n ∧ x = x0 + i * dx := by
  simp only [line, List.mem_map, List.mem_range, Nat.lt_succ_iff]
  exact ⟨fun ⟨i, h, e⟩ => ⟨i, h, e.symm⟩, fun ⟨i, h, e⟩ => ⟨i, h, e.symm⟩⟩

theorem same_of_mem {l m : List K} (hl : l.Pairwise (· < ·)) (hm : m.Pairwise (· < ·)) (h : ∀ x : K, x ∈ l ↔ x ∈ m) : l = m := by
  refine List.Perm.eq_of_pairwise' (r := (· ≤ ·)) (hl.imp le_of_lt) (hm.imp le_of_lt) ?_
  exact (List.perm_ext_iff_of_nodup (hl.imp ne_of_lt) (hm.imp ne_of_lt)).2 h

theorem uniqueSorted_line {eps x0 dx : K} (he : 0 < eps) (hd : eps ≤ dx) (n : Nat) (xs : List K) (h : Covers x0 dx n xs) :
    uniqueSorted eps xs = line x0 dx n := by
  have hdx : 0 < dx := lt_of_lt_of_le he hd
  have hmem : ∀ x : K, x ∈ xs.insertionSort (· ≤ ·) ↔ x ∈ xs := fun x => (List.perm_insertionSort (· ≤ ·) xs).mem_iff
  have hsort : (xs.insertionSort (· ≤ ·)).Pairwise (· ≤ ·) := List.pairwise_insertionSort (· ≤ ·) xs
  have hgap : ∀ a b : K, a ∈ xs.insertionSort (· ≤ ·) → b ∈ xs.insertionSort (· ≤ ·) → |a - b| < eps → a = b := by
    intro a b ha hb hab
    obtain ⟨i, -, rfl⟩ := (h a).1 ((hmem a).1 ha)
    obtain ⟨j, -, rfl⟩ := (h b).1 ((hmem b).1 hb)
    rcases lt_trichotomy i j with hij | hij | hij
    · have : (i : K) + 1 ≤ j := by exact_mod_cast hij
      have h2 := (abs_lt.1 hab).1
      nlinarith
    · rw [hij]
    · have : (j : K) + 1 ≤ i := by exact_mod_cast hij
      have h2 := (abs_lt.1 hab).2
      nlinarith
  unfold uniqueSorted
  cases hs : xs.insertionSort (· ≤ ·) with
  | nil =>
    have h0 := (hmem x0).2 ((h x0).2 ⟨0, by omega, by simp⟩)
    rw [hs] at h0
    simp at h0
  | cons a l =>
    rw [hs] at hsort hgap
    refine same_of_mem (uniqueFrom_lt eps he l a hsort).1 (line_lt x0 hdx n) fun x => ?_
    rw [uniqueFrom_mem eps he l a hgap, ← hs, hmem, line_mem]
    exact h x

theorem line_succ (x0 dx : K) (n : Nat) : line x0 dx (n + 1) = x0 :: line (x0 + dx) dx n := by
  unfold line
  rw [List.range_succ_eq_map, List.map_cons, List.map_map]
  simp only [Nat.cast_zero, zero_mul, add_zero, List.cons.injEq, true_and]
  refine List.map_congr_left fun i _ => ?_
  simp only [Function.comp, Nat.cast_succ]
  ring

theorem steps_line (dx : K) (n : Nat) : ∀ x0 : K, steps (line x0 dx n) = List.replicate n dx := by
  induction n with
  | zero => intro x0; simp [line, steps]
  | succ n ih =>
    intro x0
    rw [line_succ]
    have e := ih (x0 + dx)
    cases n with
    | zero => simp [line, steps]
    | succ n =>
      rw [line_succ] at e ⊢
      rw [steps, e, List.replicate_succ (n := n + 1)]
      simp

theorem checkUniform_replicate (dx : K) (n : Nat) (hn : 0 < n) : checkUniform (List.replicate n dx) = some dx := by
  obtain ⟨m, rfl⟩ : ∃ m : Nat, n = m + 1 := ⟨n - 1, by omega⟩
  rw [List.replicate_succ]
  simp only [checkUniform]
  rw [if_pos]
  simp only [List.all_replicate, sub_self, abs_zero]
  split
  · rfl
  · simp

theorem line_head (x0 dx : K) (n : Nat) : (line x0 dx n).headD 0 = x0 := by
  cases n with
  | zero => simp [line]
  | succ n => rw [line_succ]; rfl

theorem line_last (x0 dx : K) (n : Nat) : (line x0 dx n).getLastD 0 = x0 + n * dx := by
  unfold line
  rw [List.range_succ, List.map_append]
  simp

theorem axis_cell {x0 dx x : K} (hd : 0 < dx) {n : Nat} (hn : 0 < n) (h : Inside x0 dx n x) :
    ∃ i : Nat, i < n ∧ axis x x0 dx n = i ∧ InCell x0 dx i x := by
  obtain ⟨h0, h1⟩ := h
  have hq0 : 0 ≤ (x - x0) / dx := div_nonneg (by linarith) hd.le
  have hqn : (x - x0) / dx ≤ n := by rw [div_le_iff₀ hd]; linarith
  have hf0 : 0 ≤ ⌊(x - x0) / dx⌋ := Int.floor_nonneg.2 hq0
  have hfl := Int.floor_le ((x - x0) / dx)
  have hfu := Int.lt_floor_add_one ((x - x0) / dx)
  have hx : x = x0 + (x - x0) / dx * dx := by field_simp; ring
  obtain ⟨k, hk⟩ := Int.eq_ofNat_of_zero_le hf0
  rw [hk] at hfl hfu
  push_cast at hfl hfu
  have hk0 : ¬ ((k : Int) < 0) := by omega
  simp only [axis, hk, Int.ofNat_eq_natCast, if_neg hk0]
  by_cases hc : k < n
  · refine ⟨k, hc, by rw [if_neg (by omega)], ?_, ?_⟩
    · rw [hx]; nlinarith
    · rw [hx]; nlinarith
  · refine ⟨n - 1, by omega, by rw [if_pos (by omega)]; omega, ?_, ?_⟩
    · have : ((n - 1 : Nat) : K) + 1 = n := by exact_mod_cast (by omega : n - 1 + 1 = n)
      have hkn : (n : K) ≤ k := by exact_mod_cast (by omega : n ≤ k)
      rw [hx]; nlinarith
    · have : ((n - 1 : Nat) : K) + 1 = n := by exact_mod_cast (by omega : n - 1 + 1 = n)
      rw [this]; exact h1

theorem axisNode_eq (x x0 dx : K) (n : Nat) : axisNode x x0 dx n = axis x x0 dx n := by
  simp only [axisNode, axis]
  split <;> split <;> split <;> first | rfl | omega

/-- The index along an axis lies in the range, wherever the point is.  [helper] -/
theorem axis_range (x x0 dx : K) {n : Nat} (hn : 0 < n) : ∃ i : Nat, i < n ∧ axis x x0 dx n = i := by
  simp only [axis]
  refine ⟨(if (if ⌊(x - x0) / dx⌋ < 0 then 0 else ⌊(x - x0) / dx⌋) ≥ (n : Int) then (n : Int) - 1
    else if ⌊(x - x0) / dx⌋ < 0 then 0 else ⌊(x - x0) / dx⌋).toNat, ?_, ?_⟩ <;> split_ifs <;> omega

/-! ## Properties -/

/-- C136: from the nodes of a grid with equal spacings, in any order, the reader recovers origin, spacings, numbers of cells and size of
the domain. -/
theorem C136_grid {x0 y0 dx dy : K} {nx ny : Nat} (hdx : 1 / 10 ^ 10 ≤ dx) (hdy : 1 / 10 ^ 10 ≤ dy) (hnx : 0 < nx) (hny : 0 < ny)
    {xs ys : List K} (hx : Covers x0 dx nx xs) (hy : Covers y0 dy ny ys) :
    compute xs ys (nx * ny) = some ⟨x0, y0, dx, dy, nx, ny, nx * dx, ny * dy⟩ := by
  have he : (0 : K) < 1 / 10 ^ 10 := by positivity
  have lx : (line x0 dx nx).length = nx + 1 := by simp [line]
  have ly : (line y0 dy ny).length = ny + 1 := by simp [line]
  simp only [compute, uniqueSorted_line he hdx nx xs hx, uniqueSorted_line he hdy ny ys hy, lx, ly, steps_line,
    checkUniform_replicate _ _ hnx, checkUniform_replicate _ _ hny, line_head, line_last]
  rw [if_neg (by omega)]
  simp

/-- C136: a point of the domain is looked up in a cell that contains it, numbered row by row, and the number is one of the elements. -/
theorem C136_cell {x0 y0 dx dy : K} {nx ny : Nat} (hdx : 1 / 10 ^ 10 ≤ dx) (hdy : 1 / 10 ^ 10 ≤ dy) (hnx : 0 < nx) (hny : 0 < ny)
    {xs ys : List K} (hx : Covers x0 dx nx xs) (hy : Covers y0 dy ny ys) (g : Grid K) (hg : compute xs ys (nx * ny) = some g) {x y : K}
    (hix : Inside x0 dx nx x) (hiy : Inside y0 dy ny y) :
    ∃ i j : Nat, i < nx ∧ j < ny ∧ InCell x0 dx i x ∧ InCell y0 dy j y ∧ elementId g x y = byRows nx i j ∧ byRows nx i j < nx * ny := by
  rw [C136_grid hdx hdy hnx hny hx hy] at hg
  obtain rfl := Option.some.inj hg
  have he : (0 : K) < 1 / 10 ^ 10 := by positivity
  obtain ⟨i, hi, ei, ci⟩ := axis_cell (lt_of_lt_of_le he hdx) hnx hix
  obtain ⟨j, hj, ej, cj⟩ := axis_cell (lt_of_lt_of_le he hdy) hny hiy
  refine ⟨i, j, hi, hj, ci, cj, by simp [elementId, ei, ej, byRows], ?_⟩
  unfold byRows
  nlinarith

/-- C136: inside a cell, off its borders, there is no choice: the number is that of the cell; different cells have different numbers. -/
theorem C136_unique {x0 y0 dx dy : K} {nx ny : Nat} (hdx : 1 / 10 ^ 10 ≤ dx) (hdy : 1 / 10 ^ 10 ≤ dy) (hnx : 0 < nx) (hny : 0 < ny)
    {xs ys : List K} (hx : Covers x0 dx nx xs) (hy : Covers y0 dy ny ys) (g : Grid K) (hg : compute xs ys (nx * ny) = some g) {x y : K}
    {i j : Nat} (hi : i < nx) (hj : j < ny) (hix : x0 + i * dx < x ∧ x < x0 + (i + 1) * dx)
    (hiy : y0 + j * dy < y ∧ y < y0 + (j + 1) * dy) : elementId g x y = byRows nx i j := by
  have he : (0 : K) < 1 / 10 ^ 10 := by positivity
  have px := lt_of_lt_of_le he hdx
  have py := lt_of_lt_of_le he hdy
  have bound : ∀ {z z0 dz : K} {k n : Nat}, 0 < dz → k < n → z0 + k * dz < z ∧ z < z0 + (k + 1) * dz → Inside z0 dz n z := by
    intro z z0 dz k n pz hk hz
    have h1 : (k : K) + 1 ≤ n := by exact_mod_cast hk
    have h0 : (0 : K) ≤ k := by positivity
    exact ⟨by nlinarith, by nlinarith⟩
  have same : ∀ {z z0 dz : K} {k l : Nat}, 0 < dz → z0 + k * dz < z ∧ z < z0 + (k + 1) * dz → InCell z0 dz l z → l = k := by
    intro z z0 dz k l pz hz hl
    rcases lt_trichotomy l k with h | h | h
    · have : (l : K) + 1 ≤ k := by exact_mod_cast h
      have := hl.2
      nlinarith
    · exact h
    · have : (k : K) + 1 ≤ l := by exact_mod_cast h
      have := hl.1
      nlinarith
  obtain ⟨i', j', -, -, ci, cj, e, -⟩ := C136_cell hdx hdy hnx hny hx hy g hg (bound px hi hix) (bound py hj hiy)
  rw [same px hix ci, same py hiy cj] at e
  exact e

/-- C136: the data are those of the right elements exactly if the file numbers the elements row by row: `num` is the number in the file of
every cell. -/
theorem C136_data_partial {D : Type} {nx ny : Nat} (num : Nat → Nat → Nat) :
    (∀ data : Nat → D, ∀ i j : Nat, i < nx → j < ny → data (byRows nx i j) = data (num i j)) ↔
      Subsingleton D ∨ ∀ i j : Nat, i < nx → j < ny → num i j = byRows nx i j := by
  constructor
  · intro h
    by_cases hD : Subsingleton D
    · exact Or.inl hD
    · right
      intro i j hi hj
      by_contra hne
      obtain ⟨a, b, hab⟩ : ∃ a b : D, a ≠ b := by
        by_contra hc
        exact hD ⟨fun a b => by by_contra h; exact hc ⟨a, b, h⟩⟩
      have := h (fun k => if k = num i j then a else b) i j hi hj
      simp only [if_true] at this
      rw [if_neg (fun e => hne e.symm)] at this
      exact hab this.symm
  · rintro (h | h) data i j hi hj
    · exact Subsingleton.elim _ _
    · rw [h i j hi hj]

/-- C136 is false for files whose elements are numbered column by column: wherever there are two columns and two rows the second cell of
the first row gets the data of another one; the reader looks at the coordinates only. -/
theorem C136_order_violated {x0 y0 dx dy : K} {nx ny : Nat} (hdx : 1 / 10 ^ 10 ≤ dx) (hdy : 1 / 10 ^ 10 ≤ dy) (hnx : 2 ≤ nx)
    (hny : 2 ≤ ny) {xs ys : List K} (hx : Covers x0 dx nx xs) (hy : Covers y0 dy ny ys) :
    ∃ g : Grid K, compute xs ys (nx * ny) = some g ∧ ∃ x y : K, InCell x0 dx 1 x ∧ InCell y0 dy 0 y ∧
      elementId g x y ≠ byColumns ny 1 0 := by
  have he : (0 : K) < 1 / 10 ^ 10 := by positivity
  have px := lt_of_lt_of_le he hdx
  have py := lt_of_lt_of_le he hdy
  have hg := C136_grid hdx hdy (by omega) (by omega) hx hy
  refine ⟨_, hg, x0 + (1 + 1 / 2) * dx, y0 + 1 / 2 * dy, ⟨?_, ?_⟩, ⟨?_, ?_⟩, ?_⟩
  · push_cast; nlinarith
  · push_cast; nlinarith
  · push_cast; nlinarith
  · push_cast; nlinarith
  · have e := C136_unique hdx hdy (by omega) (by omega) hx hy _ hg (x := x0 + (1 + 1 / 2) * dx) (y := y0 + 1 / 2 * dy) (i := 1) (j := 0)
      (by omega) (by omega) ⟨by push_cast; nlinarith, by push_cast; nlinarith⟩ ⟨by push_cast; nlinarith, by push_cast; nlinarith⟩
    rw [e]
    simp only [byRows, byColumns]
    omega

/-- The spacings between neighbours in a list differ from the first one by at most `1e-4`, or by at most `1e-4` of the first one.
[specification, no code] -/
def NearlyEven (l : List K) : Prop :=
  ∃ b : K, l[1]? = (l[0]?).map (· + b) ∧ ∀ (i : Nat) (x y : K), l[i]? = some x → l[i + 1]? = some y →
    |y - x - b| ≤ 1 / 10 ^ 4 ∨ |y - x - b| ≤ |b| / 10 ^ 4

theorem mem_steps (l : List K) (d : K) : d ∈ steps l ↔ ∃ (i : Nat) (x y : K), l[i]? = some x ∧ l[i + 1]? = some y ∧ d = y - x := by
  induction l with
  | nil => simp [steps]
  | cons a l ih =>
    cases l with
    | nil =>
      simp only [steps, List.not_mem_nil, false_iff]
      rintro ⟨i, x, y, _, h2, _⟩
      simp at h2
    | cons b l =>
      rw [steps, List.mem_cons, ih]
      constructor
      · rintro (rfl | ⟨i, x, y, h1, h2, h3⟩)
        · exact ⟨0, a, b, rfl, rfl, rfl⟩
        · exact ⟨i + 1, x, y, by simpa using h1, by simpa using h2, h3⟩
      · rintro ⟨i, x, y, h1, h2, h3⟩
        cases i with
        | zero =>
          left
          have e1 : a = x := by simpa using h1
          have e2 : b = y := by simpa using h2
          rw [h3, e1, e2]
        | succ i => exact Or.inr ⟨i, x, y, by simpa using h1, by simpa using h2, h3⟩

theorem tol_iff (b t : K) : t ≤ max (1 / 10 ^ 8) (1 / 10 ^ 4 * max 1 |b|) ↔ t ≤ 1 / 10 ^ 4 ∨ t ≤ |b| / 10 ^ 4 := by
  have h1 : (1 : K) / 10 ^ 8 ≤ 1 / 10 ^ 4 * max 1 |b| := by
    have : (1 : K) ≤ max 1 |b| := le_max_left _ _
    have h8 : (1 : K) / 10 ^ 8 ≤ 1 / 10 ^ 4 := by norm_num
    nlinarith
  rw [max_eq_right h1, mul_max_of_nonneg _ _ (by positivity : (0 : K) ≤ 1 / 10 ^ 4), le_max_iff, mul_one, one_div_mul_eq_div]

theorem checkUniform_iff (l : List K) (h : 2 ≤ l.length) : (∃ b, checkUniform (steps l) = some b) ↔ NearlyEven l := by
  match l, h with
  | x :: y :: l, _ =>
    have hall : (∃ b, checkUniform (steps (x :: y :: l)) = some b) ↔
        ∀ d ∈ steps (y :: l), |d - (y - x)| ≤ max (1 / 10 ^ 8) (1 / 10 ^ 4 * max 1 |y - x|) := by
      simp only [steps, checkUniform]
      constructor
      · rintro ⟨b, hb⟩ d hd
        split at hb
        · rename_i ha
          have := List.all_eq_true.mp ha d hd
          simpa using this
        · cases hb
      · intro ha
        refine ⟨y - x, ?_⟩
        rw [if_pos (List.all_eq_true.mpr fun d hd => by simpa using ha d hd)]
    rw [hall]
    constructor
    · intro ha
      refine ⟨y - x, by simp, fun i u v h1 h2 => ?_⟩
      cases i with
      | zero =>
        have e1 : x = u := by simpa using h1
        have e2 : y = v := by simpa using h2
        left
        rw [← e1, ← e2, sub_self, abs_zero]
        positivity
      | succ i =>
        have hd := (mem_steps (y :: l) (v - u)).mpr ⟨i, u, v, by simpa using h1, by simpa using h2, rfl⟩
        exact (tol_iff _ _).mp (ha _ hd)
    · rintro ⟨b, hb, hev⟩ d hd
      have hb' : b = y - x := by
        have : y = x + b := by simpa using hb
        rw [this]; ring
      subst hb'
      obtain ⟨i, u, v, h1, h2, rfl⟩ := (mem_steps _ _).mp hd
      exact (tol_iff _ _).mpr (hev (i + 1) u v (by simpa using h1) (by simpa using h2))

/-- C136: exactly the files with two distinct coordinates along each axis, nearly even spacings and the right number of elements are
accepted; the others stop with an exception. -/
theorem C136_accepts (xs ys : List K) (numElems : Nat) :
    (∃ g : Grid K, compute xs ys numElems = some g) ↔
      2 ≤ (uniqueSorted (1 / 10 ^ 10) xs).length ∧ 2 ≤ (uniqueSorted (1 / 10 ^ 10) ys).length ∧
      NearlyEven (uniqueSorted (1 / 10 ^ 10) xs) ∧ NearlyEven (uniqueSorted (1 / 10 ^ 10) ys) ∧
      ((uniqueSorted (1 / 10 ^ 10) xs).length - 1) * ((uniqueSorted (1 / 10 ^ 10) ys).length - 1) = numElems := by
  simp only [compute]
  by_cases h : (uniqueSorted (1 / 10 ^ 10) xs).length < 2 ∨ (uniqueSorted (1 / 10 ^ 10) ys).length < 2
  · rw [if_pos h]
    constructor
    · rintro ⟨g, hg⟩; cases hg
    · rintro ⟨h1, h2, _⟩; omega
  · rw [if_neg h]
    have hx : 2 ≤ (uniqueSorted (1 / 10 ^ 10) xs).length := by omega
    have hy : 2 ≤ (uniqueSorted (1 / 10 ^ 10) ys).length := by omega
    rw [← checkUniform_iff _ hx, ← checkUniform_iff _ hy]
    constructor
    · rintro ⟨g, hg⟩
      obtain ⟨dx, hdx, hg⟩ := Option.bind_eq_some_iff.mp hg
      obtain ⟨dy, hdy, hg⟩ := Option.bind_eq_some_iff.mp hg
      refine ⟨hx, hy, ⟨dx, hdx⟩, ⟨dy, hdy⟩, ?_⟩
      by_contra hne
      rw [if_pos hne] at hg
      cases hg
    · rintro ⟨_, _, ⟨dx, hdx⟩, ⟨dy, hdy⟩, hn⟩
      simp only [hdx, hdy, Option.bind_eq_bind, Option.bind_some]
      rw [if_neg (fun h => h hn)]
      exact ⟨_, rfl⟩

/-- The hypotheses of `C136_accepts` in a case.  [case] -/
example : ∃ g : Grid ℚ, compute [0, 1, 2, 1] [0, 3, 0] 2 = some g := ⟨⟨0, 0, 1, 3, 2, 1, 2, 3⟩, by decide +kernel⟩

/-- C136 is false on small meshes: the spacings are compared with an absolute tolerance of `1e-4`, so a mesh with cells of `1e-5` and
`4e-5` is accepted as one with equal spacings, and a point in the middle cell is looked up in the last. -/
theorem C136_spacing_violated :
    ∃ g : Grid ℚ, compute [0, 1 / 10 ^ 5, 5 / 10 ^ 5, 6 / 10 ^ 5] [0, 1] 3 = some g ∧ elementId g (3 / 10 ^ 5) (1 / 2) = 2 := by
  refine ⟨⟨0, 0, 1 / 10 ^ 5, 1, 3, 1, 6 / 10 ^ 5, 1⟩, ?_, by decide +kernel⟩
  decide +kernel

/-- C136: nodal data numbered row by row are interpolated: the value is the weighted mean of the four corners of a cell that contains the
point, with weights that are not negative and sum to one; no other entry is read. -/
theorem C136_nodal {g : Grid K} (hdx : 0 < g.dx) (hdy : 0 < g.dy) (hnx : 0 < g.nx) (hny : 0 < g.ny) (r : List K) (R : Nat → Nat → K)
    (hR : ∀ i j : Nat, i ≤ g.nx → j ≤ g.ny → r[byRows (g.nx + 1) i j]? = some (R i j)) {x y : K} (hix : Inside g.x0 g.dx g.nx x)
    (hiy : Inside g.y0 g.dy g.ny y) :
    ∃ i j : Nat, i < g.nx ∧ j < g.ny ∧ InCell g.x0 g.dx i x ∧ InCell g.y0 g.dy j y ∧ ∃ a b : K, 0 ≤ a ∧ a ≤ 1 ∧ 0 ≤ b ∧ b ≤ 1 ∧
      x = g.x0 + (i + a) * g.dx ∧ y = g.y0 + (j + b) * g.dy ∧
      nodal g r x y = some ((1 - a) * (1 - b) * R i j + a * (1 - b) * R (i + 1) j + (1 - a) * b * R i (j + 1)
        + a * b * R (i + 1) (j + 1)) := by
  obtain ⟨i, hi, ei, ci⟩ := axis_cell hdx hnx hix
  obtain ⟨j, hj, ej, cj⟩ := axis_cell hdy hny hiy
  have hxe : x = g.x0 + (i + ((x - g.x0) / g.dx - i)) * g.dx := by field_simp; ring
  have hye : y = g.y0 + (j + ((y - g.y0) / g.dy - j)) * g.dy := by field_simp; ring
  refine ⟨i, j, hi, hj, ci, cj, (x - g.x0) / g.dx - i, (y - g.y0) / g.dy - j, ?_, ?_, ?_, ?_, hxe, hye, ?_⟩
  · rw [sub_nonneg, le_div_iff₀ hdx]; linarith [ci.1]
  · rw [sub_le_iff_le_add', div_le_iff₀ hdx]; linarith [ci.2]
  · rw [sub_nonneg, le_div_iff₀ hdy]; linarith [cj.1]
  · rw [sub_le_iff_le_add', div_le_iff₀ hdy]; linarith [cj.2]
  · simp only [nodal, axisNode_eq, ei, ej]
    have t00 : ((j : Int) * ((g.nx : Int) + 1) + i).toNat = byRows (g.nx + 1) i j := by
      rw [show ((j : Int) * ((g.nx : Int) + 1) + i) = ((byRows (g.nx + 1) i j : Nat) : Int) by simp [byRows], Int.toNat_natCast]
    have t10 : ((j : Int) * ((g.nx : Int) + 1) + (i + 1)).toNat = byRows (g.nx + 1) (i + 1) j := by
      rw [show ((j : Int) * ((g.nx : Int) + 1) + (i + 1)) = ((byRows (g.nx + 1) (i + 1) j : Nat) : Int) by simp [byRows], Int.toNat_natCast]
    have t01 : (((j : Int) + 1) * ((g.nx : Int) + 1) + i).toNat = byRows (g.nx + 1) i (j + 1) := by
      rw [show (((j : Int) + 1) * ((g.nx : Int) + 1) + i) = ((byRows (g.nx + 1) i (j + 1) : Nat) : Int) by simp [byRows], Int.toNat_natCast]
    have t11 : (((j : Int) + 1) * ((g.nx : Int) + 1) + (i + 1)).toNat = byRows (g.nx + 1) (i + 1) (j + 1) := by
      rw [show (((j : Int) + 1) * ((g.nx : Int) + 1) + (i + 1)) = ((byRows (g.nx + 1) (i + 1) (j + 1) : Nat) : Int) by
        simp [byRows], Int.toNat_natCast]
    rw [t00, t10, t01, t11, hR i j (by omega) (by omega), hR (i + 1) j (by omega) (by omega), hR i (j + 1) (by omega) (by omega),
      hR (i + 1) (j + 1) (by omega) (by omega)]
    simp

/-- C136: so nodal data of a function `a + b x + c y + d x y` give the function at every point of the domain. -/
theorem C136_bilinear {g : Grid K} (hdx : 0 < g.dx) (hdy : 0 < g.dy) (hnx : 0 < g.nx) (hny : 0 < g.ny) (r : List K) (a b c d : K)
    (hR : ∀ i j : Nat, i ≤ g.nx → j ≤ g.ny → r[byRows (g.nx + 1) i j]? =
      some (a + b * (g.x0 + i * g.dx) + c * (g.y0 + j * g.dy) + d * (g.x0 + i * g.dx) * (g.y0 + j * g.dy))) {x y : K}
    (hix : Inside g.x0 g.dx g.nx x) (hiy : Inside g.y0 g.dy g.ny y) : nodal g r x y = some (a + b * x + c * y + d * x * y) := by
  obtain ⟨i, j, -, -, -, -, s, t, -, -, -, -, ex, ey, e⟩ := C136_nodal hdx hdy hnx hny r _ hR hix hiy
  rw [e, ex, ey]
  congr 1
  push_cast
  ring

/-! ## Cases -/

/-- The hypotheses of `C136_grid` and those that follow, in a case: two by two cells, coordinates as listed for the nine nodes.  [case] -/
example : Covers (0 : ℚ) 1 2 [0, 1, 2, 0, 1, 2, 0, 1, 2] ∧ Inside (0 : ℚ) 1 2 (3 / 2) ∧
    Covers (0 : ℚ) 1 2 [2, 1, 0] := by
  have key : ∀ l : List ℚ, (∀ x : ℚ, x ∈ l ↔ x = 0 ∨ x = 1 ∨ x = 2) → Covers (0 : ℚ) 1 2 l := by
    intro l hl x
    rw [hl]
    constructor
    · rintro (rfl | rfl | rfl)
      · exact ⟨0, by omega, by norm_num⟩
      · exact ⟨1, by omega, by norm_num⟩
      · exact ⟨2, by omega, by norm_num⟩
    · rintro ⟨i, hi, rfl⟩
      rcases (by omega : i = 0 ∨ i = 1 ∨ i = 2) with rfl | rfl | rfl <;> norm_num
  refine ⟨key _ fun x => by simp only [List.mem_cons, List.not_mem_nil, or_false]; tauto, by norm_num [Inside], key _ fun x => by
    simp only [List.mem_cons, List.not_mem_nil, or_false]; tauto⟩

/-- The hypotheses of `C136_nodal`: one cell.  [case] -/
example : nodal (⟨0, 0, 1, 1, 1, 1, 1, 1⟩ : Grid ℚ) [1, 2, 3, 4] (1 / 2) (1 / 2) = some (5 / 2) := by decide +kernel

end MrHyDE.Mesh.ExoGrid
