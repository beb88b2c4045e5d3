import Verif.Views.Grid
import Mathlib.Algebra.Order.Ring.Abs
import Mathlib.Algebra.Order.Field.Rat
import Mathlib.Tactic.Linarith
import Mathlib.Tactic.NormNum

/-
Property theorem C13: nearest data point.
-/

namespace MrHyDE.Views

set_option linter.unusedSectionVars false

variable {K : Type} [Field K] [LinearOrder K] [IsStrictOrderedRing K]

/-- `i` is the first closest entry of one axis. -/
def FirstClosest (x : K) (grid : List K) (i : Nat) (d : K) : Prop :=
  (∃ g, grid[i]? = some g ∧ d = (x - g) ^ 2) ∧
  (∀ (j : Nat) (g : K), grid[j]? = some g → d ≤ (x - g) ^ 2) ∧
  (∀ (j : Nat) (g : K), j < i → grid[j]? = some g → d < (x - g) ^ 2)

theorem axisLoop_spec (x : K) (gs : List K) (i : Nat) (s : K × Nat) :
    (axisLoop x gs i s).1 ≤ s.1 ∧
    (∀ (j : Nat) (g : K), gs[j]? = some g → (axisLoop x gs i s).1 ≤ (x - g) ^ 2) ∧
    (axisLoop x gs i s = s ∨ ∃ (j : Nat) (g : K), gs[j]? = some g ∧ axisLoop x gs i s = ((x - g) ^ 2, i + j) ∧ (x - g) ^ 2 < s.1 ∧
      ∀ (j' : Nat) (g' : K), j' < j → gs[j']? = some g' → (x - g) ^ 2 < (x - g') ^ 2) := by
  induction gs generalizing i s with
  | nil => simp [axisLoop]
  | cons a gs ih =>
    rw [axisLoop]
    by_cases h : (x - a) * (x - a) < s.1
    · rw [if_pos h]
      obtain ⟨h1, h2, h3⟩ := ih (i + 1) ((x - a) * (x - a), i)
      simp only at h1 h3
      refine ⟨le_trans h1 (le_of_lt h), ?_, Or.inr ?_⟩
      · intro j g hg
        cases j with
        | zero => simp at hg; subst hg; rw [pow_two]; exact h1
        | succ j => exact h2 j g (by simpa using hg)
      · rcases h3 with h3 | ⟨j, g, hg, e, hlt, hf⟩
        · exact ⟨0, a, by simp, by rw [h3, pow_two]; rfl, by rw [pow_two]; exact h, by intro j' g' hj; omega⟩
        · refine ⟨j + 1, g, by simpa using hg, by rw [e]; congr 1; omega, lt_trans hlt h, ?_⟩
          intro j' g' hj' hg'
          cases j' with
          | zero => simp at hg'; subst hg'; rw [pow_two (x - a)]; exact hlt
          | succ j' => exact hf j' g' (by omega) (by simpa using hg')
    · rw [if_neg h]
      obtain ⟨h1, h2, h3⟩ := ih (i + 1) s
      refine ⟨h1, ?_, ?_⟩
      · intro j g hg
        cases j with
        | zero => simp at hg; subst hg; rw [pow_two]; exact le_trans h1 (not_lt.mp h)
        | succ j => exact h2 j g (by simpa using hg)
      · rcases h3 with h3 | ⟨j, g, hg, e, hlt, hf⟩
        · exact Or.inl h3
        · refine Or.inr ⟨j + 1, g, by simpa using hg, by rw [e]; congr 1; omega, hlt, ?_⟩
          intro j' g' hj' hg'
          cases j' with
          | zero => simp at hg'; subst hg'; rw [pow_two (x - a)]; exact lt_of_lt_of_le hlt (not_lt.mp h)
          | succ j' => exact hf j' g' (by omega) (by simpa using hg')

theorem axis_spec (big x : K) (grid : List K) (hnear : ∃ g ∈ grid, (x - g) ^ 2 < big) :
    FirstClosest x grid (axis big x grid).2 (axis big x grid).1 := by
  obtain ⟨_, h2, h3⟩ := axisLoop_spec x grid 0 (big, 0)
  unfold axis
  rcases h3 with h3 | ⟨j, g, hg, e, hlt, hf⟩
  · exfalso
    obtain ⟨g, hg, hb⟩ := hnear
    obtain ⟨i, hi⟩ := List.mem_iff_getElem?.mp hg
    have := h2 i g hi
    rw [h3] at this
    exact absurd hb (not_lt.mpr this)
  · refine ⟨⟨g, ?_, ?_⟩, h2, ?_⟩
    · rw [e]; simpa using hg
    · rw [e]
    · rw [e]; intro j' g' hj hg'
      exact hf j' g' (by simpa using hj) hg'

theorem axis_lt (big x : K) (grid : List K) (hnear : ∃ g ∈ grid, (x - g) ^ 2 < big) : (axis big x grid).2 < grid.length := by
  obtain ⟨⟨g, h, _⟩, _⟩ := axis_spec big x grid hnear
  exact (List.getElem?_eq_some_iff.mp h).1

/-- C13, one dimension: if some grid node is closer than `sqrt(RAND_MAX)`, the node returned is the first
    closest node, and the distance is its distance. -/
theorem C13_grid1_partial (big x : K) (gx : List K) (hx : ∃ g ∈ gx, (x - g) ^ 2 < big) :
    FirstClosest x gx (closestGrid1 big x gx).1 (closestGrid1 big x gx).2 :=
  axis_spec big x gx hx

/-- The squared distance to the node `n` of a two-dimensional grid stored with the first axis
    fastest; `none` if there is no such node. -/
def dist2 (x y : K) (gx gy : List K) (n : Nat) : Option K :=
  match gx[n % gx.length]?, gy[n / gx.length]? with
  | some a, some b => some ((x - a) ^ 2 + (y - b) ^ 2)
  | _, _ => none

/-- The same in three dimensions. -/
def dist3 (x y z : K) (gx gy gz : List K) (n : Nat) : Option K :=
  match gx[n % gx.length]?, gy[(n / gx.length) % gy.length]?, gz[n / (gx.length * gy.length)]? with
  | some a, some b, some c => some ((x - a) ^ 2 + (y - b) ^ 2 + (z - c) ^ 2)
  | _, _, _ => none

/-- C13, two dimensions: the node returned exists, its squared distance is the value
    returned, no node is closer, and no node with a smaller number is as close. -/
theorem C13_grid2_partial (big x y : K) (gx gy : List K) (hx : ∃ g ∈ gx, (x - g) ^ 2 < big)
    (hy : ∃ g ∈ gy, (y - g) ^ 2 < big) :
    dist2 x y gx gy (closestGrid2 big x y gx gy).1 = some (closestGrid2 big x y gx gy).2 ∧
    (∀ n d, dist2 x y gx gy n = some d → (closestGrid2 big x y gx gy).2 ≤ d) ∧
    (∀ n d, n < (closestGrid2 big x y gx gy).1 → dist2 x y gx gy n = some d → (closestGrid2 big x y gx gy).2 < d) := by
  have lx := axis_lt big x gx hx
  obtain ⟨⟨a, ha, da⟩, mx, fx⟩ := axis_spec big x gx hx
  obtain ⟨⟨b, hb, db⟩, my, fy⟩ := axis_spec big y gy hy
  unfold closestGrid2
  generalize axis big x gx = X at *
  generalize axis big y gy = Y at *
  have e1 : (Y.2 * gx.length + X.2) % gx.length = X.2 := by
    rw [Nat.add_comm, Nat.add_mul_mod_self_right, Nat.mod_eq_of_lt lx]
  have e2 : (Y.2 * gx.length + X.2) / gx.length = Y.2 := by
    rw [Nat.add_comm, Nat.add_mul_div_right _ _ (by omega), Nat.div_eq_of_lt lx, Nat.zero_add]
  refine ⟨?_, ?_, ?_⟩
  · simp only [dist2, e1, e2, ha, hb, da, db]
  · intro n d h
    unfold dist2 at h
    cases h1 : gx[n % gx.length]? with
    | none => simp [h1] at h
    | some a' =>
      cases h2 : gy[n / gx.length]? with
      | none => simp [h1, h2] at h
      | some b' =>
        simp [h1, h2] at h
        rw [← h]
        exact add_le_add (mx _ _ h1) (my _ _ h2)
  · intro n d hn h
    unfold dist2 at h
    cases h1 : gx[n % gx.length]? with
    | none => simp [h1] at h
    | some a' =>
      cases h2 : gy[n / gx.length]? with
      | none => simp [h1, h2] at h
      | some b' =>
        simp [h1, h2] at h
        rw [← h]
        have hy' : n / gx.length ≤ Y.2 := by
          rw [← e2]; exact Nat.div_le_div_right (le_of_lt hn)
        rcases Nat.lt_or_eq_of_le hy' with hlt | heq
        · exact add_lt_add_of_le_of_lt (mx _ _ h1) (fy _ _ hlt h2)
        · have hxlt : n % gx.length < X.2 := by
            have := Nat.div_add_mod n gx.length
            rw [heq, Nat.mul_comm] at this
            simp only at hn
            omega
          exact add_lt_add_of_lt_of_le (fx _ _ hxlt h1) (my _ _ h2)

/-- C13, three dimensions. -/
theorem C13_grid3_partial (big x y z : K) (gx gy gz : List K) (hx : ∃ g ∈ gx, (x - g) ^ 2 < big)
    (hy : ∃ g ∈ gy, (y - g) ^ 2 < big) (hz : ∃ g ∈ gz, (z - g) ^ 2 < big) :
    dist3 x y z gx gy gz (closestGrid3 big x y z gx gy gz).1 = some (closestGrid3 big x y z gx gy gz).2 ∧
    (∀ n d, dist3 x y z gx gy gz n = some d → (closestGrid3 big x y z gx gy gz).2 ≤ d) ∧
    (∀ n d, n < (closestGrid3 big x y z gx gy gz).1 → dist3 x y z gx gy gz n = some d →
      (closestGrid3 big x y z gx gy gz).2 < d) := by
  have lx := axis_lt big x gx hx
  have ly := axis_lt big y gy hy
  obtain ⟨⟨a, ha, da⟩, mx, fx⟩ := axis_spec big x gx hx
  obtain ⟨⟨b, hb, db⟩, my, fy⟩ := axis_spec big y gy hy
  obtain ⟨⟨c, hc, dc⟩, mz, fz⟩ := axis_spec big z gz hz
  unfold closestGrid3
  generalize axis big x gx = X at *
  generalize axis big y gy = Y at *
  generalize axis big z gz = Z at *
  have er : Z.2 * gx.length * gy.length + Y.2 * gx.length + X.2 = (Z.2 * gy.length + Y.2) * gx.length + X.2 := by
    rw [Nat.add_mul, Nat.mul_right_comm]
  have e1 : (Z.2 * gx.length * gy.length + Y.2 * gx.length + X.2) % gx.length = X.2 := by
    rw [er, Nat.add_comm, Nat.add_mul_mod_self_right, Nat.mod_eq_of_lt lx]
  have e2 : (Z.2 * gx.length * gy.length + Y.2 * gx.length + X.2) / gx.length = Z.2 * gy.length + Y.2 := by
    rw [er, Nat.add_comm, Nat.add_mul_div_right _ _ (by omega), Nat.div_eq_of_lt lx, Nat.zero_add]
  have e3 : (Z.2 * gy.length + Y.2) % gy.length = Y.2 := by
    rw [Nat.add_comm, Nat.add_mul_mod_self_right, Nat.mod_eq_of_lt ly]
  have e4 : (Z.2 * gx.length * gy.length + Y.2 * gx.length + X.2) / (gx.length * gy.length) = Z.2 := by
    rw [← Nat.div_div_eq_div_mul, e2, Nat.add_comm, Nat.add_mul_div_right _ _ (by omega), Nat.div_eq_of_lt ly, Nat.zero_add]
  refine ⟨?_, ?_, ?_⟩
  · simp only [dist3, e1, e2, e3, e4, ha, hb, hc, da, db, dc]
  · intro n d h
    unfold dist3 at h
    cases h1 : gx[n % gx.length]? with
    | none => simp [h1] at h
    | some a' =>
      cases h2 : gy[(n / gx.length) % gy.length]? with
      | none => simp [h1, h2] at h
      | some b' =>
        cases h3 : gz[n / (gx.length * gy.length)]? with
        | none => simp [h1, h2, h3] at h
        | some c' =>
          simp [h1, h2, h3] at h
          rw [← h]
          exact add_le_add (add_le_add (mx _ _ h1) (my _ _ h2)) (mz _ _ h3)
  · intro n d hn h
    unfold dist3 at h
    cases h1 : gx[n % gx.length]? with
    | none => simp [h1] at h
    | some a' =>
      cases h2 : gy[(n / gx.length) % gy.length]? with
      | none => simp [h1, h2] at h
      | some b' =>
        cases h3 : gz[n / (gx.length * gy.length)]? with
        | none => simp [h1, h2, h3] at h
        | some c' =>
          simp [h1, h2, h3] at h
          rw [← h]
          simp only at hn
          have hz' : n / (gx.length * gy.length) ≤ Z.2 := by
            rw [← e4]; exact Nat.div_le_div_right (le_of_lt hn)
          rcases Nat.lt_or_eq_of_le hz' with hlt | heq
          · exact add_lt_add_of_le_of_lt (add_le_add (mx _ _ h1) (my _ _ h2)) (fz _ _ hlt h3)
          · apply add_lt_add_of_lt_of_le _ (mz _ _ h3)
            have hq : n / gx.length ≤ Z.2 * gy.length + Y.2 := by
              rw [← e2]; exact Nat.div_le_div_right (le_of_lt hn)
            have hdm := Nat.div_add_mod (n / gx.length) gy.length
            rw [Nat.div_div_eq_div_mul, heq, Nat.mul_comm] at hdm
            have hy' : (n / gx.length) % gy.length ≤ Y.2 := by omega
            rcases Nat.lt_or_eq_of_le hy' with hlt | heq2
            · exact add_lt_add_of_le_of_lt (mx _ _ h1) (fy _ _ hlt h2)
            · have hxlt : n % gx.length < X.2 := by
                have := Nat.div_add_mod n gx.length
                rw [← hdm, heq2, Nat.mul_comm] at this
                rw [er] at hn
                omega
              exact add_lt_add_of_lt_of_le (fx _ _ hxlt h1) (my _ _ h2)

/-- Non-vacuity, and ties go to the first node. -/
example : closestGrid2 (2147483647 : ℚ) (1/2) (3/4) [0, 1] [0, 1] = (2, 5/16) ∧
    ((∃ g ∈ [(0 : ℚ), 1], (1/2 - g) ^ 2 < 2147483647) ∧ ∃ g ∈ [(0 : ℚ), 1], (3/4 - g) ^ 2 < 2147483647) := by
  refine ⟨by decide +kernel, ⟨0, by simp, by norm_num⟩, ⟨0, by simp, by norm_num⟩⟩

/-- C13 fails for locations farther than `sqrt(RAND_MAX)` from every node of the axis, whatever that constant:
    node 0 is returned although node 1 is closer, and the distance is not that of any node. -/
theorem C13_far_violated (big : K) (hbig : 1 ≤ big) :
    ∃ (x : K) (gx : List K), (closestGrid1 big x gx).1 = 0 ∧ (closestGrid1 big x gx).2 = big ∧
      ¬ ∃ d, FirstClosest x gx 0 d := by
  refine ⟨0, [big + 2, big + 1], ?_, ?_, ?_⟩
  · have h1 : ¬ ((0 : K) - (big + 2)) * (0 - (big + 2)) < big := by nlinarith
    have h2 : ¬ ((0 : K) - (big + 1)) * (0 - (big + 1)) < big := by nlinarith
    simp only [closestGrid1, axis, axisLoop, if_neg h1, if_neg h2]
  · have h1 : ¬ ((0 : K) - (big + 2)) * (0 - (big + 2)) < big := by nlinarith
    have h2 : ¬ ((0 : K) - (big + 1)) * (0 - (big + 1)) < big := by nlinarith
    simp only [closestGrid1, axis, axisLoop, if_neg h1, if_neg h2]
  · rintro ⟨d, ⟨g, hg, hd⟩, hmin, _⟩
    simp at hg; subst hg
    have := hmin 1 (big + 1) (by simp)
    rw [hd] at this
    nlinarith

/-- C13, scattered points: if the external search finds at least one neighbour for every query, each
    query gets the first (closest) neighbour of its own list. -/
theorem C13_scattered_partial (lists : List (List Nat)) (hne : ∀ l ∈ lists, l ≠ []) :
    closestPoints lists = lists.map List.head? := by
  unfold closestPoints
  have : ∀ (pre post : List (List Nat)), (∀ l ∈ post, l ≠ []) →
      pickFirst (pre.flatten ++ post.flatten) pre.flatten.length (post.map List.length) = post.map List.head? := by
    intro pre post
    induction post generalizing pre with
    | nil => intro _; rfl
    | cons l post ih =>
      intro h
      rw [List.map_cons, pickFirst, List.map_cons]
      congr 1
      · rw [List.getElem?_append_right (Nat.le_refl _), Nat.sub_self]
        cases l with
        | nil => exact absurd rfl (h [] (by simp))
        | cons a l => rfl
      · have := ih (pre ++ [l]) (fun l' hl' => h l' (by simp [hl']))
        simpa [List.flatten_append] using this
  simpa using this [] lists hne

/-- C13 fails for scattered points when a query has no neighbour: it silently gets the
    neighbour of the next query (and the last one reads past the end). -/
theorem C13_scattered_violated (a : Nat) : closestPoints [[], [a]] = [some a, some a] ∧ closestPoints [[a], []] = [some a, none] :=
  ⟨rfl, rfl⟩

end MrHyDE.Views
