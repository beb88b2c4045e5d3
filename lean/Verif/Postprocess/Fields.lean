import Mathlib.Analysis.SpecialFunctions.Sqrt
import Mathlib.Algebra.Order.BigOperators.Group.List
import Mathlib.Algebra.Order.Field.Rat
import Mathlib.Algebra.BigOperators.Ring.List
import Mathlib.Tactic.Ring
import Mathlib.Tactic.Linarith
import Mathlib.Tactic.FieldSimp

/-! # C90, C91: the weighted norm of the solution, and fields written element by element

`computeWeightedNorm` (/repo/src/managers/postprocess/postprocessManager_util.hpp:901-953), `getExtraCellFields`
(postprocessManager_exodus.hpp:678-725) and `getDerivedQuantities` (postprocessManager_derived_quantities.hpp:16-67). -/

namespace MrHyDE.Postprocess.Fields

set_option linter.unusedSectionVars false

/-! ## C90 -/

/-- Weights and solution of one set: the Euclidean norm of the vector of `w u²`; postprocessManager_util.hpp:933-942. -/
noncomputable def setNorm (l : List (ℝ × ℝ)) : ℝ := Real.sqrt ((l.map (fun x => (x.1 * x.2 * x.2) ^ 2)).sum)

/-- The norms of the sets are added; postprocessManager_util.hpp:925-945. -/
noncomputable def weightedNorm (sets : List (List (ℝ × ℝ))) : ℝ := (sets.map setNorm).sum

/-- The solution multiplied by a number. [specification, no code] -/
def scaled (c : ℝ) (sets : List (List (ℝ × ℝ))) : List (List (ℝ × ℝ)) := sets.map (fun l => l.map (fun x => (x.1, c * x.2)))

theorem setNorm_scaled (c : ℝ) (l : List (ℝ × ℝ)) : setNorm (l.map (fun x => (x.1, c * x.2))) = c ^ 2 * setNorm l := by
  unfold setNorm
  rw [List.map_map]
  have e : (l.map ((fun x : ℝ × ℝ => (x.1 * x.2 * x.2) ^ 2) ∘ fun x => (x.1, c * x.2))).sum =
      (c ^ 2) ^ 2 * (l.map (fun x => (x.1 * x.2 * x.2) ^ 2)).sum := by
    rw [← List.sum_map_mul_left]
    congr 1
    apply List.map_congr_left
    intro x _
    simp only [Function.comp]
    ring
  rw [e, Real.sqrt_mul (by positivity), Real.sqrt_sq (by positivity)]

/-- C90 is false: a solution twice as large has a reported norm four times as large; the reported number is no norm. -/
theorem C90_violated (c : ℝ) (sets : List (List (ℝ × ℝ))) : weightedNorm (scaled c sets) = c ^ 2 * weightedNorm sets := by
  unfold weightedNorm scaled
  rw [List.map_map, ← List.sum_map_mul_left]
  congr 1
  apply List.map_congr_left
  intro l _
  exact setNorm_scaled c l

/-- C90 is false even for one unknown: the reported number is `w u²`, the norm of the solution is `√w |u|`. -/
theorem C90_single (w u : ℝ) (hw : 0 ≤ w) : weightedNorm [[(w, u)]] = w * u ^ 2 ∧ weightedNorm [[(w, u)]] = Real.sqrt (w * u ^ 2) ^ 2 := by
  have h : weightedNorm [[(w, u)]] = w * u ^ 2 := by
    unfold weightedNorm setNorm
    simp only [List.map_cons, List.map_nil, List.sum_cons, List.sum_nil, add_zero]
    rw [Real.sqrt_sq (by nlinarith [mul_nonneg hw (mul_self_nonneg u)])]
    ring
  exact ⟨h, by rw [Real.sq_sqrt (by positivity), h]⟩

theorem sum_nonneg' : ∀ (l : List ℝ), (∀ x ∈ l, 0 ≤ x) → 0 ≤ l.sum ∧ (l.sum = 0 ↔ ∀ x ∈ l, x = 0) := by
  intro l
  induction l with
  | nil => intro _; simp
  | cons a l ih =>
    intro h
    obtain ⟨h1, h2⟩ := ih (fun x hx => h x (by simp [hx]))
    have ha := h a (by simp)
    rw [List.sum_cons]
    refine ⟨by linarith, ?_⟩
    constructor
    · intro hs x hx
      have ha0 : a = 0 := by linarith
      rcases List.mem_cons.mp hx with e | e
      · rw [e, ha0]
      · exact h2.mp (by linarith) x e
    · intro hall
      rw [hall a (by simp), h2.mpr (fun x hx => hall x (by simp [hx])), add_zero]

/-- C90, partial: the reported number is not negative, and zero exactly when the solution vanishes (positive weights).  Missing: it is
not a norm, see `C90_violated`. -/
theorem C90_partial (sets : List (List (ℝ × ℝ))) (hw : ∀ l ∈ sets, ∀ x ∈ l, 0 < x.1) :
    0 ≤ weightedNorm sets ∧ (weightedNorm sets = 0 ↔ ∀ l ∈ sets, ∀ x ∈ l, x.2 = 0) := by
  obtain ⟨h1, h2⟩ := sum_nonneg' (sets.map setNorm) (by
    intro x hx
    obtain ⟨l, _, e⟩ := List.mem_map.mp hx
    rw [← e]
    exact Real.sqrt_nonneg _)
  refine ⟨h1, ?_⟩
  unfold weightedNorm
  rw [h2]
  have key : ∀ l ∈ sets, (setNorm l = 0 ↔ ∀ x ∈ l, x.2 = 0) := by
    intro l hl
    obtain ⟨g1, g2⟩ := sum_nonneg' (l.map (fun x => (x.1 * x.2 * x.2) ^ 2)) (by
      intro y hy
      obtain ⟨x, _, e⟩ := List.mem_map.mp hy
      rw [← e]
      positivity)
    unfold setNorm
    rw [Real.sqrt_eq_zero g1, g2]
    constructor
    · intro h x hx
      have h0 := h _ (List.mem_map.mpr ⟨x, hx, rfl⟩)
      have hp := hw l hl x hx
      have h1 : x.1 * x.2 * x.2 = 0 := by simpa using h0
      rcases mul_eq_zero.mp h1 with h | h
      · rcases mul_eq_zero.mp h with h | h
        · linarith
        · exact h
      · exact h
    · intro h y hy
      obtain ⟨x, hx, e⟩ := List.mem_map.mp hy
      rw [← e, h x hx]
      ring
  constructor
  · intro h l hl
    exact (key l hl).mp (h _ (List.mem_map.mpr ⟨l, hl, rfl⟩))
  · intro h x hx
    obtain ⟨l, hl, e⟩ := List.mem_map.mp hx
    rw [← e]
    exact (key l hl).mpr (h l hl)

example : weightedNorm [[(3, 2)]] = 12 := by
  rw [(C90_single 3 2 (by norm_num)).1]
  norm_num

/-! ## C91 -/

variable {K : Type} [Field K] [LinearOrder K] [IsStrictOrderedRing K]

/-- Mean over an element, weights and values at the integration points; postprocessManager_exodus.hpp:692-700. -/
def cellMean (l : List (K × K)) : K :=
  let meas := l.foldl (fun s x => s + x.1) 0
  l.foldl (fun s x => s + x.2 * x.1 / meas) 0

/-- Greatest value, starting from the zero of the new view; postprocessManager_exodus.hpp:704-710. -/
def cellMax (vs : List K) : K := vs.foldl (fun m v => if v > m then v else m) 0

/-- Least value, likewise; postprocessManager_exodus.hpp:714-720. -/
def cellMin (vs : List K) : K := vs.foldl (fun m v => if v < m then v else m) 0

theorem foldl_add (f : K × K → K) : ∀ (l : List (K × K)) (a : K), l.foldl (fun s x => s + f x) a = a + (l.map f).sum := by
  intro l
  induction l with
  | nil => intro a; simp
  | cons x l ih => intro a; rw [List.foldl_cons, ih, List.map_cons, List.sum_cons]; ring

/-- C91: the mean is the integral divided by the measure, and lies between bounds of the values. -/
theorem C91_mean (l : List (K × K)) (hpos : ∀ x ∈ l, 0 < x.1) (hne : l ≠ []) :
    cellMean l * (l.map Prod.fst).sum = (l.map (fun x => x.2 * x.1)).sum ∧
    ∀ a b, (∀ x ∈ l, a ≤ x.2 ∧ x.2 ≤ b) → a ≤ cellMean l ∧ cellMean l ≤ b := by
  have hm : 0 < (l.map Prod.fst).sum := by
    match l, hne with
    | x :: l, _ =>
      rw [List.map_cons, List.sum_cons]
      have h1 := hpos x (by simp)
      have h2 : 0 ≤ (l.map Prod.fst).sum := List.sum_nonneg (by
        intro y hy
        obtain ⟨z, hz, e⟩ := List.mem_map.mp hy
        rw [← e]
        exact le_of_lt (hpos z (by simp [hz])))
      linarith
  have hmean : cellMean l * (l.map Prod.fst).sum = (l.map (fun x => x.2 * x.1)).sum := by
    unfold cellMean
    simp only
    rw [foldl_add (fun x => x.1), zero_add]
    have : (l.map (fun x : K × K => x.1)) = l.map Prod.fst := rfl
    rw [this, foldl_add (fun x => x.2 * x.1 / (l.map Prod.fst).sum), zero_add, ← List.sum_map_mul_right]
    congr 1
    apply List.map_congr_left
    intro x _
    field_simp
  refine ⟨hmean, ?_⟩
  intro a b hab
  have hlo : a * (l.map Prod.fst).sum ≤ (l.map (fun x => x.2 * x.1)).sum := by
    rw [← List.sum_map_mul_left]
    exact List.sum_le_sum (fun x hx => mul_le_mul_of_nonneg_right (hab x hx).1 (le_of_lt (hpos x hx)))
  have hhi : (l.map (fun x => x.2 * x.1)).sum ≤ b * (l.map Prod.fst).sum := by
    rw [← List.sum_map_mul_left]
    exact List.sum_le_sum (fun x hx => mul_le_mul_of_nonneg_right (hab x hx).2 (le_of_lt (hpos x hx)))
  rw [← hmean] at hlo hhi
  exact ⟨le_of_mul_le_mul_right hlo hm, le_of_mul_le_mul_right hhi hm⟩

example : cellMean [((1 : ℚ), 4), (3, 8)] = 7 := by decide +kernel

theorem foldl_max_spec : ∀ (vs : List K) (m : K), (∀ v ∈ vs, v ≤ vs.foldl (fun m v => if v > m then v else m) m) ∧
    m ≤ vs.foldl (fun m v => if v > m then v else m) m ∧
    (vs.foldl (fun m v => if v > m then v else m) m = m ∨ vs.foldl (fun m v => if v > m then v else m) m ∈ vs) := by
  intro vs
  induction vs with
  | nil => intro m; simp
  | cons v vs ih =>
    intro m
    rw [List.foldl_cons]
    obtain ⟨h1, h2, h3⟩ := ih (if v > m then v else m)
    have hv : v ≤ if v > m then v else m := by split_ifs with h <;> [exact le_refl _; exact not_lt.mp h]
    have hm : m ≤ if v > m then v else m := by split_ifs with h <;> [exact le_of_lt h; exact le_refl _]
    refine ⟨?_, hm.trans h2, ?_⟩
    · intro w hw
      rcases List.mem_cons.mp hw with e | e
      · rw [e]; exact hv.trans h2
      · exact h1 w e
    · rcases h3 with h3 | h3
      · by_cases h : v > m
        · rw [if_pos h] at h3 ⊢
          exact Or.inr (by rw [h3]; simp)
        · rw [if_neg h] at h3 ⊢
          exact Or.inl h3
      · exact Or.inr (by simp [h3])

theorem cellMin_neg (vs : List K) : cellMin vs = -cellMax (vs.map (fun v => -v)) := by
  have : ∀ (vs : List K) (m : K), vs.foldl (fun m v => if v < m then v else m) m =
      -(vs.map (fun v => -v)).foldl (fun m v => if v > m then v else m) (-m) := by
    intro vs
    induction vs with
    | nil => intro m; simp
    | cons v vs ih =>
      intro m
      rw [List.foldl_cons, ih, List.map_cons, List.foldl_cons]
      congr 2
      by_cases h : v < m
      · rw [if_pos h, if_pos (by simpa using h)]
      · rw [if_neg h, if_neg (by simpa using h)]
  unfold cellMin cellMax
  rw [this vs 0, neg_zero]

/-- C91, partial: the greatest value is right exactly when some value is not negative, the least one exactly when some value is not
positive.  Missing: see `C91_violated`. -/
theorem C91_max_partial (vs : List K) (hne : vs ≠ []) :
    ((cellMax vs ∈ vs ∧ ∀ v ∈ vs, v ≤ cellMax vs) ↔ ∃ v ∈ vs, 0 ≤ v) ∧
    ((cellMin vs ∈ vs ∧ ∀ v ∈ vs, cellMin vs ≤ v) ↔ ∃ v ∈ vs, v ≤ 0) := by
  have hmax : ∀ vs : List K, (cellMax vs ∈ vs ∧ ∀ v ∈ vs, v ≤ cellMax vs) ↔ ∃ v ∈ vs, 0 ≤ v := by
    intro vs
    obtain ⟨h1, h2, h3⟩ := foldl_max_spec vs (0 : K)
    constructor
    · rintro ⟨hm, _⟩
      exact ⟨_, hm, h2⟩
    · rintro ⟨v, hv, h0⟩
      refine ⟨?_, h1⟩
      rcases h3 with h3 | h3
      · have hle := h1 v hv
        rw [h3] at hle
        have : v = cellMax vs := by
          unfold cellMax
          rw [h3]
          exact le_antisymm hle h0
        rw [← this]
        exact hv
      · exact h3
  refine ⟨hmax vs, ?_⟩
  have := hmax (vs.map (fun v => -v))
  rw [cellMin_neg]
  constructor
  · rintro ⟨hm, hall⟩
    obtain ⟨w, hw, hw0⟩ := this.mp ⟨List.mem_map.mpr ⟨_, hm, by simp⟩, by
      intro v hv
      obtain ⟨w, hw, e⟩ := List.mem_map.mp hv
      have := hall w hw
      rw [← e]
      linarith⟩
    obtain ⟨x, hx, e⟩ := List.mem_map.mp hw
    exact ⟨x, hx, by rw [← e] at hw0; linarith⟩
  · rintro ⟨v, hv, h0⟩
    obtain ⟨hm, hall⟩ := this.mpr ⟨-v, List.mem_map.mpr ⟨v, hv, rfl⟩, by linarith⟩
    refine ⟨?_, ?_⟩
    · obtain ⟨x, hx, e⟩ := List.mem_map.mp hm
      rw [← e, neg_neg]
      exact hx
    · intro w hw
      have := hall (-w) (List.mem_map.mpr ⟨w, hw, rfl⟩)
      linarith

example : cellMax [(-3 : ℚ), 2, 1] = 2 ∧ cellMin [(-3 : ℚ), 2, 1] = -3 := by decide +kernel

/-- C91 is false: the greatest of negative values and the least of positive values are reported as zero. -/
theorem C91_violated (vs : List K) : ((∀ v ∈ vs, v < 0) → cellMax vs = 0) ∧ ((∀ v ∈ vs, 0 < v) → cellMin vs = 0) := by
  have hmax : ∀ vs : List K, (∀ v ∈ vs, v < 0) → cellMax vs = 0 := by
    intro vs h
    obtain ⟨_, h2, h3⟩ := foldl_max_spec vs (0 : K)
    rcases h3 with h3 | h3
    · exact h3
    · exact absurd (h _ h3) (not_lt.mpr h2)
  refine ⟨hmax vs, ?_⟩
  intro h
  rw [cellMin_neg, hmax _ (by
    intro v hv
    obtain ⟨w, hw, e⟩ := List.mem_map.mp hv
    rw [← e]
    linarith [h w hw]), neg_zero]

/-- A field of temperatures between 290 and 310. -/
example : cellMin [(300 : ℚ), 290, 310] = 0 := by decide +kernel

end MrHyDE.Postprocess.Fields
