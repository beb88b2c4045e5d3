import Verif.Analysis.Inversion
import Mathlib.Tactic.LinearCombination
import Mathlib.Tactic.FieldSimp

/-!
# Data-consistent inversion: C147
-/

namespace MrHyDE.Analysis.Inversion

open MrHyDE.UQ MeasureTheory ProbabilityTheory Finset

set_option linter.unusedSectionVars false

/-! ## Specification -/

/-- Mean of a column. [specification, no code] -/
noncomputable def specMean (P : Pts) (d : Nat) : ℝ := (∑ k ∈ range P.n, P.val k d) / P.n

/-- Sample variance of a column. [specification, no code] -/
noncomputable def specVar (P : Pts) (d : Nat) : ℝ := (∑ k ∈ range P.n, (P.val k d - specMean P d) ^ 2) / (P.n - 1)

/-- Squared width of the kernels: 1.06 standard deviations, divided by the (4 + dimension)-th root of the number of points. [specification, no code] -/
noncomputable def specWidth2 (P : Pts) (dim d : Nat) : ℝ := (1.06 * √(specVar P d) / (P.n : ℝ) ^ (1 / (4 + (dim : ℝ)))) ^ 2

/-- A point of ℝ^dim. [specification, no code] -/
def extend {dim : Nat} (x : Fin dim → ℝ) : Nat → ℝ := fun d => if h : d < dim then x ⟨d, h⟩ else 0

/-! ## Lemmas -/

theorem loopSum_eq (n : Nat) (f : Nat → ℝ) : loopSum n f = ∑ k ∈ range n, f k := by
  unfold loopSum
  induction n with
  | zero => simp
  | succ n ih => rw [List.range_succ, List.foldl_append, ih, Finset.sum_range_succ]; rfl

theorem loopProd_eq (n : Nat) (f : Nat → ℝ) : loopProd n f = ∏ k ∈ range n, f k := by
  unfold loopProd
  induction n with
  | zero => simp
  | succ n ih => rw [List.range_succ, List.foldl_append, ih, Finset.prod_range_succ]; rfl

theorem list_sum_range (n : Nat) (f : Nat → ℝ) : ((List.range n).map f).sum = ∑ k ∈ range n, f k := by
  induction n with
  | zero => simp
  | succ n ih => rw [List.range_succ, List.map_append, List.sum_append, ih, Finset.sum_range_succ]; simp

theorem foldl_add (l : List ℝ) (f : ℝ → ℝ) (a : ℝ) : l.foldl (fun a x => a + f x) a = a + (l.map f).sum := by
  induction l generalizing a with
  | nil => simp
  | cons x l ih => rw [List.foldl_cons, ih, List.map_cons, List.sum_cons]; ring

theorem colVar_eq (P : Pts) (d : Nat) (h : 2 ≤ P.n) : colVar P d = specVar P d := by
  obtain ⟨m, v, hm, hv, -, e⟩ := C16_variance_unbiased (column P d) (by simpa [column] using h)
  have hl : (column P d).length = P.n := by simp [column]
  have hm' : m = specMean P d := by
    unfold mean at hm
    rw [hl, if_neg (by omega)] at hm
    have := Option.some.inj hm
    rw [← this, specMean, ← list_sum_range]
    have := foldl_add (column P d) id 0
    rw [List.map_id, zero_add] at this
    exact congrArg (· / (P.n : ℝ)) this
  have hp : (P.n : ℝ) - 1 ≠ 0 := by
    have : (2 : ℝ) ≤ P.n := by exact_mod_cast h
    intro h0
    linarith
  rw [colVar, hv, Option.getD_some, specVar, eq_div_iff hp, ← hl, e, hl, ← list_sum_range, column, List.map_map, hm']
  congr 1
  refine List.map_congr_left fun k _ => ?_
  simp only [Function.comp]
  ring

theorem colVar_few (P : Pts) (d : Nat) (h : P.n < 2) : colVar P d = 0 := by
  rw [colVar, variance1, if_pos (by simpa [column] using h)]
  rfl

theorem specVar_nonneg (P : Pts) (d : Nat) (h : 2 ≤ P.n) : 0 ≤ specVar P d := by
  have : (2 : ℝ) ≤ P.n := by exact_mod_cast h
  exact div_nonneg (Finset.sum_nonneg fun _ _ => sq_nonneg _) (by linarith)

theorem defined_two {P : Pts} {dim d : Nat} (h : defined P dim) (hd : d < dim) : 2 ≤ P.n := by
  by_contra h2
  exact h.2.2 d hd (colVar_few P d (by omega))

theorem sigma_sq {P : Pts} {dim d : Nat} (h : defined P dim) (hd : d < dim) :
    sigma P dim d * sigma P dim d = specWidth2 P dim d ∧ 0 < specWidth2 P dim d := by
  have h2 := defined_two h hd
  have hn : (0 : ℝ) < P.n := by exact_mod_cast h.1
  have hv : 0 < specVar P d := lt_of_le_of_ne (specVar_nonneg P d h2) (by rw [← colVar_eq P d h2]; exact (h.2.2 d hd).symm)
  constructor
  · rw [sigma, specWidth2, colVar_eq P d h2, show (-1 / (4 + (dim : ℝ))) = -(1 / (4 + (dim : ℝ))) by ring, Real.rpow_neg hn.le]
    ring
  · unfold specWidth2
    have := Real.rpow_pos_of_pos hn (1 / (4 + (dim : ℝ)))
    have := Real.sqrt_pos.2 hv
    positivity

/-- One factor of a kernel is a normal density. -/
theorem factor_eq {P : Pts} {dim d : Nat} (h : defined P dim) (hd : d < dim) (k : Nat) (x : ℝ) :
    coeff P dim d * Real.exp (-1 * (x - P.val k d) * (x - P.val k d) / (2 * sigma P dim d * sigma P dim d)) =
      gaussianPDFReal (P.val k d) (specWidth2 P dim d).toNNReal x := by
  obtain ⟨e, hp⟩ := sigma_sq h hd
  rw [gaussianPDFReal, coeff, Real.coe_toNNReal _ hp.le, ← e, one_div]
  congr 2
  · rw [mul_assoc (2 * Real.pi)]
  · rw [mul_assoc 2]
    congr 1
    ring

theorem kernel_eq {P : Pts} {dim : Nat} (h : defined P dim) (k : Nat) (x : Nat → ℝ) :
    kernel P dim k x = ∏ d ∈ range dim, gaussianPDFReal (P.val k d) (specWidth2 P dim d).toNNReal (x d) := by
  rw [kernel, loopProd_eq]
  exact Finset.prod_congr rfl fun d hd => factor_eq h (Finset.mem_range.1 hd) k (x d)

theorem width_ne {P : Pts} {dim d : Nat} (h : defined P dim) (hd : d < dim) : (specWidth2 P dim d).toNNReal ≠ 0 := by
  rw [Ne, Real.toNNReal_eq_zero, not_le]
  exact (sigma_sq h hd).2

theorem densityAt_eq {P : Pts} {dim : Nat} (h : defined P dim) (x : Nat → ℝ) :
    densityAt P dim x = (∑ k ∈ range P.n, ∏ d ∈ range dim, gaussianPDFReal (P.val k d) (specWidth2 P dim d).toNNReal (x d)) / P.n := by
  rw [densityAt, loopSum_eq]
  simp only [kernel_eq h]

theorem densityAt_pos {P : Pts} {dim : Nat} (h : defined P dim) (x : Nat → ℝ) : 0 < densityAt P dim x := by
  rw [densityAt_eq h]
  refine div_pos (Finset.sum_pos (fun k _ => Finset.prod_pos fun d hd => gaussianPDFReal_pos _ _ _ (width_ne h (Finset.mem_range.1 hd))) ?_) (by exact_mod_cast h.1)
  exact ⟨0, Finset.mem_range.2 h.1⟩

theorem densityAt_integral {P : Pts} {dim : Nat} (h : defined P dim) : ∫ x : Fin dim → ℝ, densityAt P dim (extend x) = 1 := by
  have e : ∀ x : Fin dim → ℝ, densityAt P dim (extend x) =
      (∑ k ∈ range P.n, ∏ d : Fin dim, gaussianPDFReal (P.val k d) (specWidth2 P dim d).toNNReal (x d)) / P.n := by
    intro x
    rw [densityAt_eq h]
    refine congrArg (· / (P.n : ℝ)) (Finset.sum_congr rfl fun k _ => ?_)
    rw [Finset.prod_range]
    exact Finset.prod_congr rfl fun d _ => by simp [extend]
  simp only [e]
  have hn : (P.n : ℝ) ≠ 0 := by exact_mod_cast h.1.ne'
  have hi : ∀ k ∈ range P.n, Integrable (fun x : Fin dim → ℝ => ∏ d : Fin dim, gaussianPDFReal (P.val k d) (specWidth2 P dim d).toNNReal (x d)) volume :=
    fun k _ => Integrable.fintype_prod (μ := fun _ => volume) fun d => integrable_gaussianPDFReal _ _
  rw [integral_div, integral_finsetSum _ hi]
  have : ∀ k ∈ range P.n, ∫ x : Fin dim → ℝ, ∏ d : Fin dim, gaussianPDFReal (P.val k d) (specWidth2 P dim d).toNNReal (x d) = 1 := by
    intro k _
    rw [integral_fintype_prod_volume_eq_prod fun (d : Fin dim) x => gaussianPDFReal (P.val k d) (specWidth2 P dim d).toNNReal x]
    exact Finset.prod_eq_one fun d _ => integral_gaussianPDFReal_eq_one _ (width_ne h d.2)
  rw [Finset.sum_congr rfl this]
  simp [hn]

theorem solve_some {o : Settings} {resp : List (List ℝ)} {checks : Nat → ℝ} {R : Result} (h : solve o resp checks = some R) :
    ∃ P ob, predicted resp = some P ∧ observed o P = some ob ∧ defined P P.dim ∧ R.pred = P ∧ R.obsDens = ob ∧
      R.predDens = (List.range P.n).map (fun i => densityAt P P.dim (P.val i)) ∧ R.ratio = ratios ob R.predDens ∧
      R.meanRatio = meanRatio R.ratio ∧ R.info = info R.ratio ∧ R.accept = rejection R.ratio ((List.range P.n).map checks) := by
  unfold solve at h
  cases hp : predicted resp with
  | none => rw [hp] at h; cases h
  | some P =>
    rw [hp, Option.bind_some] at h
    cases ho : observed o P with
    | none => rw [ho] at h; cases h
    | some ob =>
      rw [ho, Option.bind_some] at h
      unfold kde at h
      by_cases hd : defined P P.dim
      · rw [if_pos hd, Option.bind_some] at h
        cases h
        exact ⟨P, ob, rfl, ho, hd, rfl, rfl, rfl, rfl, rfl, rfl, rfl⟩
      · rw [if_neg hd] at h
        cases h

theorem exists_solve {o : Settings} {resp : List (List ℝ)} (checks : Nat → ℝ) {P : Pts} {ob : List ℝ} (hp : predicted resp = some P) (ho : observed o P = some ob)
    (hd : defined P P.dim) : ∃ R, solve o resp checks = some R := by
  refine Option.isSome_iff_exists.1 ?_
  rw [solve, hp, Option.bind_some, ho, Option.bind_some, kde, if_pos hd]
  rfl

/-- Two samples of one response. [case] -/
def twoPts : Pts := ⟨2, 1, fun i j => (([[0], [2]] : List (List ℝ)).getD i []).getD j 0⟩

theorem two_predicted : predicted [[0], [2]] = some twoPts := by simp [predicted, twoPts]

theorem two_defined : defined twoPts twoPts.dim := by
  refine ⟨by norm_num [twoPts], le_refl _, fun d hd => ?_⟩
  rw [colVar_eq _ _ (by norm_num [twoPts])]
  have h1 : d = 0 := by simp [twoPts] at hd; omega
  subst h1
  simp [specVar, specMean, twoPts, Finset.sum_range_succ]
  norm_num

/-- Observed: normal around 2. [case] -/
def twoSettings : Settings := ⟨none, some 2, none, none, none, none, true⟩

theorem two_solve (checks : Nat → ℝ) : ∃ R, solve twoSettings [[0], [2]] checks = some R :=
  exists_solve checks two_predicted (ob := (List.range 2).map fun i => obsGauss 2 1 (twoPts.val i 0)) (by
    rw [observed, if_pos (by rfl), if_neg (by norm_num [twoPts, twoSettings])]
    simp [twoSettings, twoPts]) two_defined

theorem observed_length {o : Settings} {P : Pts} {ob : List ℝ} (h : observed o P = some ob) : ob.length = P.n := by
  unfold observed kde at h
  split_ifs at h with h1 h2 h3 h4 h5
  · cases h; simp
  · cases h; simp
  · cases hf : o.file with
    | none => rw [hf] at h; cases h
    | some ls =>
      rw [hf, Option.bind_some] at h
      split_ifs at h
      cases h; simp
  · cases h; simp

theorem observed_nonneg {o : Settings} {P : Pts} {ob : List ℝ} (h : observed o P = some ob) (x : ℝ) (hx : x ∈ ob) : 0 ≤ x := by
  unfold observed kde at h
  split_ifs at h with h1 h2 h3 h4 h5
  · cases h
    obtain ⟨i, -, rfl⟩ := List.mem_map.1 hx
    unfold obsGauss
    positivity
  · cases h
    obtain ⟨i, -, rfl⟩ := List.mem_map.1 hx
    unfold obsUniform
    split_ifs with hb
    · have : 0 < o.hi.getD 1 - o.lo.getD 0 := by linarith [hb.1, hb.2]
      positivity
    · exact le_refl _
  · cases hf : o.file with
    | none => rw [hf] at h; cases h
    | some ls =>
      rw [hf, Option.bind_some] at h
      split_ifs at h with hd
      cases h
      obtain ⟨i, -, rfl⟩ := List.mem_map.1 hx
      exact (densityAt_pos hd _).le
  · cases h
    obtain ⟨i, -, rfl⟩ := List.mem_map.1 hx
    exact le_refl _

/-! ## C147 -/

/-- The density of the responses that is written for a sample is the mean of normal densities centred at the samples, with the width of the
specification; it is positive, and a probability density: its integral over all responses is one. -/
theorem C147_predicted {o : Settings} {resp : List (List ℝ)} {checks : Nat → ℝ} {R : Result} (h : solve o resp checks = some R) :
    ∃ f : (Fin R.pred.dim → ℝ) → ℝ, (∀ x, 0 < f x) ∧ ∫ x, f x = 1 ∧
      (∀ x, f x * R.pred.n = ∑ k ∈ range R.pred.n, ∏ d : Fin R.pred.dim,
        gaussianPDFReal (R.pred.val k d) (specWidth2 R.pred R.pred.dim d).toNNReal (x d)) ∧
      ∀ i < R.pred.n, R.predDens[i]? = some (f fun d => R.pred.val i d) := by
  obtain ⟨P, ob, hp, ho, hd, rfl, -, hr, -⟩ := solve_some h
  refine ⟨fun x => densityAt R.pred R.pred.dim (extend x), fun x => densityAt_pos hd _, densityAt_integral hd, fun x => ?_, fun i hi => ?_⟩
  · have hn : (R.pred.n : ℝ) ≠ 0 := by exact_mod_cast hd.1.ne'
    simp only [densityAt_eq hd]
    rw [div_mul_cancel₀ _ hn]
    refine Finset.sum_congr rfl fun k _ => ?_
    rw [Finset.prod_range]
    exact Finset.prod_congr rfl fun d _ => by simp [extend]
  · rw [hr, List.getElem?_map, List.getElem?_range hi, Option.map_some]
    refine congrArg some ?_
    dsimp only
    rw [densityAt_eq hd, densityAt_eq hd]
    refine congrArg (· / (R.pred.n : ℝ)) (Finset.sum_congr rfl fun k _ => Finset.prod_congr rfl fun d hd => ?_)
    simp [extend, Finset.mem_range.1 hd]

example : ∃ R : Result, ∃ f : (Fin R.pred.dim → ℝ) → ℝ, ∫ x, f x = 1 ∧ R.predDens[1]? = some (f fun _ => 2) ∧ R.pred.dim = 1 := by
  obtain ⟨R, h⟩ := two_solve fun _ => 0
  obtain ⟨f, -, h1, -, h2⟩ := C147_predicted h
  obtain ⟨P, ob, hp, -, -, rfl, -⟩ := solve_some h
  have e : R.pred = twoPts := Option.some.inj (hp.symm.trans two_predicted)
  refine ⟨R, f, h1, ?_, by rw [e]; rfl⟩
  rw [h2 1 (by rw [e]; norm_num [twoPts])]
  refine congrArg (fun g => some (f g)) (funext fun d => ?_)
  have hd : (d : Nat) < twoPts.dim := e ▸ d.2
  have h0 : (d : Nat) = 0 := by simp [twoPts] at hd; omega
  rw [h0, e]
  simp [twoPts]

/-- The responses of the samples are those of the study, one row for each sample in the given order. -/
theorem C147_responses {o : Settings} {resp : List (List ℝ)} {checks : Nat → ℝ} {R : Result} (h : solve o resp checks = some R)
    (hrect : ∀ r ∈ resp, r.length = R.pred.dim) : R.pred.n = resp.length ∧ (List.range R.pred.n).map (row R.pred) = resp := by
  obtain ⟨P, ob, hp, -, -, rfl, -⟩ := solve_some h
  unfold predicted at hp
  match resp, hp with
  | r0 :: rs, hp =>
    dsimp only at hp
    split_ifs at hp
    have := Option.some.inj hp
    rw [← this] at hrect ⊢
    refine ⟨rfl, List.ext_getElem (by simp) fun i h1 h2 => ?_⟩
    have hi : i < (r0 :: rs).length := by simpa using h1
    have hl : ((r0 :: rs)[i]).length = r0.length := hrect _ (List.getElem_mem hi)
    rw [List.getElem_map, List.getElem_range]
    refine List.ext_getElem (by simp [row, hl]) fun j h3 h4 => ?_
    simp only [row, List.getElem_map, List.getElem_range]
    simp only [List.getD, List.getElem?_eq_getElem hi, Option.getD_some, List.getElem?_eq_getElem h4]

example : ∃ R, solve twoSettings [[0], [2]] (fun _ => 0) = some R ∧ (List.range R.pred.n).map (row R.pred) = [[0], [2]] := by
  obtain ⟨R, h⟩ := two_solve fun _ => 0
  obtain ⟨P, ob, hp, -, -, rfl, -⟩ := solve_some h
  have e : R.pred = twoPts := Option.some.inj (hp.symm.trans two_predicted)
  exact ⟨R, h, (C147_responses h (by rw [e]; simp [twoPts])).2⟩

/-- The observed density of type "Gaussian" (also when no type is given) is the normal density with the given mean and variance, by default 0 and 1,
at the first response; a variance that is not positive gives no result. -/
theorem C147_gaussian (o : Settings) (h : o.type = some "Gaussian" ∨ o.type = none) (P : Pts) (hd : 0 < P.dim) :
    (0 < o.var.getD 1 → observed o P = some ((List.range P.n).map fun i => gaussianPDFReal (o.mean.getD 0) (o.var.getD 1).toNNReal (P.val i 0)) ∧
      ∫ x, gaussianPDFReal (o.mean.getD 0) (o.var.getD 1).toNNReal x = 1) ∧
    (o.var.getD 1 ≤ 0 → observed o P = none) := by
  have ht : o.type.getD "Gaussian" = "Gaussian" := by rcases h with h | h <;> simp [h]
  refine ⟨fun hv => ⟨?_, integral_gaussianPDFReal_eq_one _ ?_⟩, fun hv => ?_⟩
  · rw [observed, if_pos ht, if_neg (by rintro (h1 | h1) <;> [omega; linarith])]
    refine congrArg some (List.map_congr_left fun i _ => ?_)
    rw [obsGauss, gaussianPDFReal, Real.coe_toNNReal _ hv.le, one_div, Real.sqrt_mul (by positivity : 0 ≤ 2 * Real.pi) (o.var.getD 1)]
    congr 3
    ring
  · rw [Ne, Real.toNNReal_eq_zero, not_le]
    exact hv
  · rw [observed, if_pos ht, if_pos (Or.inr hv)]

example : observed ⟨none, none, none, none, none, none, true⟩ ⟨2, 1, fun i _ => i⟩ = some [gaussianPDFReal 0 1 0, gaussianPDFReal 0 1 1] := by
  have := ((C147_gaussian ⟨none, none, none, none, none, none, true⟩ (Or.inr rfl) ⟨2, 1, fun i _ => i⟩ (by norm_num)).1 (by norm_num)).1
  simpa [List.range_succ] using this

/-- The observed density of type "uniform" is constant strictly between the bounds, by default 0 and 1, and zero elsewhere; with bounds in order its
integral is one. -/
theorem C147_uniform (o : Settings) (h : o.type = some "uniform") (P : Pts) (hd : 0 < P.dim) (hb : o.lo.getD 0 < o.hi.getD 1) :
    ∃ f : ℝ → ℝ, observed o P = some ((List.range P.n).map fun i => f (P.val i 0)) ∧ ∫ x, f x = 1 ∧
      (∀ x y, o.lo.getD 0 < x → x < o.hi.getD 1 → o.lo.getD 0 < y → y < o.hi.getD 1 → f x = f y ∧ 0 < f x) ∧
      ∀ x, x ≤ o.lo.getD 0 ∨ o.hi.getD 1 ≤ x → f x = 0 := by
  refine ⟨obsUniform (o.lo.getD 0) (o.hi.getD 1), ?_, ?_, fun x y h1 h2 h3 h4 => ?_, fun x hx => ?_⟩
  · rw [observed, h, if_neg (by decide), if_pos (by decide), if_neg (by omega)]
  · have e : obsUniform (o.lo.getD 0) (o.hi.getD 1) = Set.indicator (Set.Ioo (o.lo.getD 0) (o.hi.getD 1)) fun _ => 1 / (o.hi.getD 1 - o.lo.getD 0) := by
      funext x
      simp [obsUniform, Set.indicator, Set.mem_Ioo]
    have hp : o.hi.getD 1 - o.lo.getD 0 ≠ 0 := by linarith
    rw [e, integral_indicator measurableSet_Ioo, setIntegral_const, Real.volume_real_Ioo_of_le hb.le, smul_eq_mul]
    field_simp
  · have : 0 < o.hi.getD 1 - o.lo.getD 0 := by linarith
    simp only [obsUniform, gt_iff_lt, h1, h2, h3, h4, and_self, if_true, true_and]
    positivity
  · rw [obsUniform, if_neg]
    rintro ⟨h1, h2⟩
    rcases hx with hx | hx <;> linarith

example : ∃ f : ℝ → ℝ, observed ⟨some "uniform", none, none, some 1, some 3, none, true⟩ ⟨2, 1, fun i _ => i + 1⟩ = some ((List.range 2).map fun i => f (i + 1)) ∧
    ∫ x, f x = 1 ∧ f 1 = 0 := by
  obtain ⟨f, h1, h2, -, h3⟩ := C147_uniform ⟨some "uniform", none, none, some 1, some 3, none, true⟩ rfl ⟨2, 1, fun i _ => i + 1⟩ (by norm_num) (by norm_num)
  exact ⟨f, h1, h2, h3 1 (Or.inl (by norm_num))⟩

/-- The observed density of type "data" is estimated from the lines of the file as the predicted one from the samples; without a file there is no result. -/
theorem C147_data (o : Settings) (h : o.type = some "data") (P : Pts) :
    (o.file = none → observed o P = none) ∧
    ∀ lines, o.file = some lines → defined (importData lines) P.dim →
      ∃ f : (Fin P.dim → ℝ) → ℝ, (∀ x, 0 < f x) ∧ ∫ x, f x = 1 ∧
      (∀ x, f x * lines.length = ∑ k ∈ range lines.length, ∏ d : Fin P.dim,
        gaussianPDFReal ((lines.getD k []).getD d 0) (specWidth2 (importData lines) P.dim d).toNNReal (x d)) ∧
      observed o P = some ((List.range P.n).map fun i => f fun d => P.val i d) := by
  have ho : observed o P = o.file.bind fun lines => kde (importData lines) P := by
    rw [observed, h, if_neg (by decide), if_neg (by decide), if_pos (by decide)]
  refine ⟨fun hf => by rw [ho, hf]; rfl, fun lines hf hd => ?_⟩
  refine ⟨fun x => densityAt (importData lines) P.dim (extend x), fun x => densityAt_pos hd _, densityAt_integral hd, fun x => ?_, ?_⟩
  · have hn : (lines.length : ℝ) ≠ 0 := by exact_mod_cast hd.1.ne'
    simp only [densityAt_eq hd]
    rw [show (importData lines).n = lines.length from rfl, div_mul_cancel₀ _ hn]
    refine Finset.sum_congr rfl fun k _ => ?_
    rw [Finset.prod_range]
    exact Finset.prod_congr rfl fun d _ => by simp [extend, importData]
  · rw [ho, hf, Option.bind_some, kde, if_pos hd]
    refine congrArg some (List.map_congr_left fun i _ => ?_)
    dsimp only
    rw [densityAt_eq hd, densityAt_eq hd]
    refine congrArg (· / ((importData lines).n : ℝ)) (Finset.sum_congr rfl fun k _ => Finset.prod_congr rfl fun d hd => ?_)
    simp [extend, Finset.mem_range.1 hd]

example : ∃ f : (Fin 1 → ℝ) → ℝ, ∫ x, f x = 1 ∧
    observed ⟨some "data", none, none, none, none, some [[0], [2]], true⟩ twoPts = some ((List.range twoPts.n).map fun i => f fun d => twoPts.val i d) := by
  have hi : importData [[0], [2]] = twoPts := by simp [importData, twoPts]
  obtain ⟨f, -, h1, -, h2⟩ := (C147_data ⟨some "data", none, none, none, none, some [[0], [2]], true⟩ rfl twoPts).2 _ rfl (by rw [hi]; exact two_defined)
  exact ⟨f, h1, h2⟩

/-! ### Weights -/

/-- Every sample has the ratio of its observed density to its predicted one, which is not negative; the reported mean is that of the ratios. -/
theorem C147_weights {o : Settings} {resp : List (List ℝ)} {checks : Nat → ℝ} {R : Result} (h : solve o resp checks = some R) :
    R.ratio.length = R.pred.n ∧ R.accept.length = R.pred.n ∧
    (∀ i < R.pred.n, ∃ r ob pr, R.ratio[i]? = some r ∧ R.obsDens[i]? = some ob ∧ R.predDens[i]? = some pr ∧ 0 < pr ∧ r * pr = ob ∧ 0 ≤ r) ∧
    R.meanRatio * R.pred.n = R.ratio.sum := by
  obtain ⟨P, ob, hp, ho, hd, rfl, rfl, hr, hq, hm, -, ha⟩ := solve_some h
  have l1 := observed_length ho
  have l2 : R.predDens.length = R.pred.n := by rw [hr]; simp
  have l3 : R.ratio.length = R.pred.n := by rw [hq, ratios, List.length_zipWith, l1, l2, min_self]
  refine ⟨l3, by rw [ha, rejection]; simp [l3], fun i hi => ?_, ?_⟩
  · have hi1 : i < R.obsDens.length := by omega
    have hi2 : i < R.predDens.length := by omega
    have hpos : 0 < R.predDens[i] := by
      have e : R.predDens[i]? = some (densityAt R.pred R.pred.dim (R.pred.val i)) := by
        rw [hr, List.getElem?_map, List.getElem?_range hi, Option.map_some]
      rw [List.getElem?_eq_getElem hi2] at e
      rw [Option.some.inj e]
      exact densityAt_pos hd _
    have hob : 0 ≤ R.obsDens[i] := observed_nonneg ho _ (List.getElem_mem hi1)
    refine ⟨R.obsDens[i] / R.predDens[i], R.obsDens[i], R.predDens[i], ?_, List.getElem?_eq_getElem hi1, List.getElem?_eq_getElem hi2, hpos, ?_, div_nonneg hob hpos.le⟩
    · rw [hq, ratios, List.getElem?_zipWith, List.getElem?_eq_getElem hi1, List.getElem?_eq_getElem hi2]
    · field_simp
  · have hn : (R.pred.n : ℝ) ≠ 0 := by exact_mod_cast hd.1.ne'
    rw [hm, meanRatio, foldl_add R.ratio (fun x => x / (R.ratio.length : ℝ)) 0, l3, zero_add]
    have : (R.ratio.map fun x => x / (R.pred.n : ℝ)).sum = R.ratio.sum / R.pred.n := by
      simp only [div_eq_mul_inv, List.sum_map_mul_right, List.map_id']
    rw [this]
    field_simp

example : ∃ R, solve twoSettings [[0], [2]] (fun _ => 0) = some R ∧ R.meanRatio * R.pred.n = R.ratio.sum ∧ R.meanRatio - 1 ≤ R.meanRatio := by
  obtain ⟨R, h⟩ := two_solve fun _ => 0
  exact ⟨R, h, (C147_weights h).2.2.2, by linarith⟩

theorem sum_le_sum_of (l : List ℝ) (f g : ℝ → ℝ) (h : ∀ x ∈ l, f x ≤ g x) : (l.map f).sum ≤ (l.map g).sum := List.sum_le_sum h

/-- The reported information: it exceeds the mean of r log r over the samples by at most 1e-13, and that mean is at least the mean of the ratios minus one;
so it is not negative when the mean of the ratios is one. -/
theorem C147_information {o : Settings} {resp : List (List ℝ)} {checks : Nat → ℝ} {R : Result} (h : solve o resp checks = some R) :
    (R.ratio.map fun r => r * Real.log r).sum / R.pred.n ≤ R.info ∧
    R.info ≤ (R.ratio.map fun r => r * Real.log r).sum / R.pred.n + 1e-13 ∧ R.meanRatio - 1 ≤ R.info := by
  obtain ⟨l3, -, hw, hmean⟩ := C147_weights h
  obtain ⟨P, ob, hp, ho, hd, rfl, rfl, hr, hq, hm, hinf, ha⟩ := solve_some h
  have hn : (0 : ℝ) < R.pred.n := by exact_mod_cast hd.1
  have hpos : ∀ r ∈ R.ratio, 0 ≤ r := by
    intro r hr
    obtain ⟨i, hi, e⟩ := List.mem_iff_getElem.1 hr
    obtain ⟨r', -, -, h1, -, -, -, -, h2⟩ := hw i (by omega)
    rw [List.getElem?_eq_getElem hi] at h1
    rw [← e, Option.some.inj h1]
    exact h2
  have e1 : R.info = (R.ratio.map fun r => r * Real.log (r + 1e-13)).sum / R.pred.n := by
    rw [hinf, info, foldl_add R.ratio (fun x => x * Real.log (x + 1e-13) / (R.ratio.length : ℝ)) 0, l3, zero_add]
    simp only [div_eq_mul_inv, List.sum_map_mul_right]
  have a1 : (R.ratio.map fun r => r * Real.log r).sum ≤ (R.ratio.map fun r => r * Real.log (r + 1e-13)).sum := by
    refine sum_le_sum_of _ _ _ fun r hr => ?_
    rcases (hpos r hr).eq_or_lt with h0 | h0
    · rw [← h0]; simp
    · exact mul_le_mul_of_nonneg_left (Real.log_le_log h0 (by norm_num)) h0.le
  have a2 : (R.ratio.map fun r => r * Real.log (r + 1e-13)).sum ≤ (R.ratio.map fun r => r * Real.log r + 1e-13).sum := by
    refine sum_le_sum_of _ _ _ fun r hr => ?_
    rcases (hpos r hr).eq_or_lt with h0 | h0
    · rw [← h0]; norm_num
    · have e : r + 1e-13 = r * (1 + 1e-13 / r) := by field_simp
      have p : 0 < 1 + 1e-13 / r := by positivity
      rw [e, Real.log_mul h0.ne' p.ne']
      have := Real.log_le_sub_one_of_pos p
      have : r * Real.log (1 + 1e-13 / r) ≤ r * (1e-13 / r) := mul_le_mul_of_nonneg_left (by linarith) h0.le
      have e2 : r * (1e-13 / r) = 1e-13 := by field_simp
      rw [mul_add]
      linarith
  have a3 : (R.ratio.map fun r => r - 1).sum ≤ (R.ratio.map fun r => r * Real.log r).sum := by
    refine sum_le_sum_of _ _ _ fun r hr => ?_
    rcases (hpos r hr).eq_or_lt with h0 | h0
    · rw [← h0]; norm_num
    · have := Real.log_le_sub_one_of_pos (inv_pos.2 h0)
      rw [Real.log_inv] at this
      have : r * (-Real.log r) ≤ r * (r⁻¹ - 1) := mul_le_mul_of_nonneg_left this h0.le
      have e2 : r * r⁻¹ = 1 := mul_inv_cancel₀ h0.ne'
      nlinarith
  have s1 : (R.ratio.map fun r => r * Real.log r + 1e-13).sum = (R.ratio.map fun r => r * Real.log r).sum + R.pred.n * 1e-13 := by
    rw [List.sum_map_add, List.map_const', List.sum_replicate, l3, nsmul_eq_mul]
  have s2 : (R.ratio.map fun r => r - 1).sum = R.ratio.sum - R.pred.n := by
    simp only [sub_eq_add_neg]
    rw [List.sum_map_add, List.map_const', List.sum_replicate, l3, nsmul_eq_mul, List.map_id']
    ring
  refine ⟨?_, ?_, ?_⟩
  · rw [e1]
    exact div_le_div_of_nonneg_right a1 hn.le
  · rw [e1, div_add' _ _ _ hn.ne']
    refine div_le_div_of_nonneg_right ?_ hn.le
    rw [s1] at a2
    linarith
  · rw [e1, le_div_iff₀ hn, sub_mul, hmean, one_mul, ← s2]
    exact a3.trans a1

example : ∃ R, solve twoSettings [[0], [2]] (fun _ => 0) = some R ∧ R.meanRatio - 1 ≤ R.info := by
  obtain ⟨R, h⟩ := two_solve fun _ => 0
  exact ⟨R, h, (C147_information h).2.2⟩

/-! ### Rejection -/

theorem rejection_iff {o : Settings} {resp : List (List ℝ)} {checks : Nat → ℝ} {R : Result} (h : solve o resp checks = some R)
    (M : ℝ) (hM : ∀ x ∈ R.ratio, x ≤ M) (hmax : M ∈ R.ratio) (hpos : 0 < M) (k : Nat) (hk : k < R.pred.n) (r : ℝ) (hr : R.ratio[k]? = some r) :
    R.accept[k]? = some true ↔ checks k * M ≤ r := by
  obtain ⟨l3, -, hw, -⟩ := C147_weights h
  have hnn : ∀ r ∈ R.ratio, 0 ≤ r := by
    intro r hr
    obtain ⟨i, hi, e⟩ := List.mem_iff_getElem.1 hr
    obtain ⟨r', -, -, h1, -, -, -, -, h2⟩ := hw i (by omega)
    rw [List.getElem?_eq_getElem hi] at h1
    rw [← e, Option.some.inj h1]
    exact h2
  obtain ⟨P, ob, hp, ho, hd, rfl, rfl, -, -, -, -, ha⟩ := solve_some h
  obtain ⟨-, hC, -⟩ := C47_rejection R.ratio ((List.range R.pred.n).map checks) (by simp [l3]) M
    (fun x hx => by rw [abs_of_nonneg (hnn x hx)]; exact hM x hx) ⟨M, hmax, abs_of_pos hpos⟩ hpos
  have hr0 : 0 ≤ r := hnn r (List.mem_of_getElem? hr)
  rw [ha, hC k r (checks k) hr (by rw [List.getElem?_map, List.getElem?_range hk, Option.map_some]), abs_of_nonneg hr0]

/-- A sample is accepted with the probability of its ratio divided by the greatest ratio, if its random number is uniform in [0,1]; the
decision does not depend on the random numbers of the other samples. -/
theorem C147_chance {o : Settings} {resp : List (List ℝ)} {checks : Nat → ℝ} {R : Result} (h : solve o resp checks = some R)
    (M : ℝ) (hM : ∀ x ∈ R.ratio, x ≤ M) (hmax : M ∈ R.ratio) (hpos : 0 < M) (k : Nat) (hk : k < R.pred.n) (r : ℝ) (hr : R.ratio[k]? = some r) :
    volume {u ∈ Set.Icc (0 : ℝ) 1 | ∀ checks', checks' k = u → ∃ R', solve o resp checks' = some R' ∧ R'.accept[k]? = some true} =
      ENNReal.ofReal (r / M) := by
  have hall : ∀ checks', ∃ R', solve o resp checks' = some R' ∧ R'.ratio = R.ratio ∧ R'.pred = R.pred := by
    intro checks'
    unfold solve at h ⊢
    cases hp : predicted resp with
    | none => rw [hp] at h; cases h
    | some P =>
      rw [hp, Option.bind_some] at h
      cases ho : observed o P with
      | none => rw [ho] at h; cases h
      | some ob =>
        rw [ho, Option.bind_some] at h
        cases hkd : kde P P with
        | none => rw [hkd] at h; cases h
        | some pr =>
          rw [hkd, Option.bind_some] at h
          cases h
          exact ⟨⟨P, pr, ob, ratios ob pr, meanRatio (ratios ob pr), info (ratios ob pr), rejection (ratios ob pr) ((List.range P.n).map checks')⟩,
            by rw [Option.bind_some, ho, Option.bind_some, hkd, Option.bind_some], rfl, rfl⟩
  have e : {u ∈ Set.Icc (0 : ℝ) 1 | ∀ checks', checks' k = u → ∃ R', solve o resp checks' = some R' ∧ R'.accept[k]? = some true} = Set.Icc 0 (r / M) := by
    have hr1 : r ≤ M := hM r (List.mem_of_getElem? hr)
    ext u
    simp only [Set.mem_ofPred_eq, Set.mem_Icc]
    constructor
    · rintro ⟨⟨h0, h1⟩, hu⟩
      obtain ⟨R', hs, hacc⟩ := hu (fun _ => u) rfl
      obtain ⟨R'', hs', e1, e2⟩ := hall (fun _ => u)
      rw [hs] at hs'
      obtain rfl := Option.some.inj hs'
      have := (rejection_iff hs M (by rw [e1]; exact hM) (by rw [e1]; exact hmax) hpos k (by rw [e2]; exact hk) r (by rw [e1]; exact hr)).1 hacc
      exact ⟨h0, (le_div_iff₀ hpos).2 this⟩
    · rintro ⟨h0, h1⟩
      refine ⟨⟨h0, h1.trans ((div_le_one hpos).2 hr1)⟩, fun checks' hc => ?_⟩
      obtain ⟨R', hs', e1, e2⟩ := hall checks'
      refine ⟨R', hs', ?_⟩
      rw [rejection_iff hs' M (by rw [e1]; exact hM) (by rw [e1]; exact hmax) hpos k (by rw [e2]; exact hk) r (by rw [e1]; exact hr), hc]
      exact (le_div_iff₀ hpos).1 h1
  rw [e, Real.volume_Icc, sub_zero]

/-- For two samples, one at the observed mean: the most probable one is always accepted. -/
example : ∃ R M, solve twoSettings [[0], [2]] (fun _ => 0) = some R ∧ ∃ k < R.pred.n,
    volume {u ∈ Set.Icc (0 : ℝ) 1 | ∀ checks', checks' k = u → ∃ R', solve twoSettings [[0], [2]] checks' = some R' ∧ R'.accept[k]? = some true} =
      ENNReal.ofReal (M / M) ∧ 0 < M := by
  obtain ⟨R, h⟩ := two_solve fun _ => 0
  obtain ⟨l3, -, hw, -⟩ := C147_weights h
  have hob : ∀ x ∈ R.obsDens, 0 < x := by
    obtain ⟨P, ob, hp, ho, -, rfl, rfl, -⟩ := solve_some h
    have e : R.pred = twoPts := Option.some.inj (hp.symm.trans two_predicted)
    rw [((C147_gaussian twoSettings (Or.inr rfl) R.pred (by rw [e]; norm_num [twoPts])).1 (by norm_num [twoSettings])).1] at ho
    rw [← Option.some.inj ho]
    intro x hx
    obtain ⟨i, -, rfl⟩ := List.mem_map.1 hx
    exact gaussianPDFReal_pos _ _ _ (by norm_num [twoSettings])
  have hn : 0 < R.pred.n := by
    obtain ⟨P, ob, hp, ho, hd, rfl, -⟩ := solve_some h
    exact hd.1
  have hpos : ∀ x ∈ R.ratio, 0 < x := by
    intro x hx
    obtain ⟨i, hi, e⟩ := List.mem_iff_getElem.1 hx
    obtain ⟨r, ob, pr, h1, h2, h3, hp, he, -⟩ := hw i (by omega)
    rw [List.getElem?_eq_getElem hi, e] at h1
    rw [Option.some.inj h1]
    have := hob ob (List.mem_of_getElem? h2)
    by_contra hneg
    push Not at hneg
    nlinarith
  obtain ⟨M, h1, h2⟩ := Finset.exists_max_image R.ratio.toFinset id (by
    rw [Finset.nonempty_iff_ne_empty, Ne, List.toFinset_eq_empty_iff]
    intro h0
    rw [h0] at l3
    simp only [List.length_nil] at l3
    omega)
  have hM : M ∈ R.ratio := by simpa using h1
  obtain ⟨k, hk, e⟩ := List.mem_iff_getElem.1 hM
  exact ⟨R, M, h, k, by omega, C147_chance h M (fun x hx => h2 x (by simpa using hx)) hM (hpos M hM) k (by omega) M (by rw [List.getElem?_eq_getElem hk, e]), hpos M hM⟩

/-- If some sample has a positive observed density, at least one sample is accepted (random numbers at most one), and the mean of the accepted responses is reported. -/
theorem C147_some {o : Settings} {resp : List (List ℝ)} {checks : Nat → ℝ} {R : Result} (h : solve o resp checks = some R)
    (hc : ∀ k, checks k ≤ 1) (hob : ∃ x ∈ R.obsDens, 0 < x) : acceptedIdx R ≠ [] ∧ ∀ j, ∃ m, accMean R j = some m := by
  obtain ⟨l3, -, hw, -⟩ := C147_weights h
  obtain ⟨x, hx, hx0⟩ := hob
  obtain ⟨i, hi, rfl⟩ := List.mem_iff_getElem.1 hx
  have hlen : R.obsDens.length = R.pred.n := by
    obtain ⟨P, ob, hp, ho, hd, rfl, rfl, -⟩ := solve_some h
    exact observed_length ho
  have hne : R.ratio ≠ [] := by
    intro h0
    rw [h0] at l3
    simp only [List.length_nil] at l3
    omega
  obtain ⟨M, hM⟩ : ∃ M, M ∈ R.ratio ∧ ∀ y ∈ R.ratio, y ≤ M := by
    obtain ⟨M, h1, h2⟩ := Finset.exists_max_image R.ratio.toFinset id (by simpa [Finset.nonempty_iff_ne_empty] using hne)
    exact ⟨M, by simpa using h1, fun y hy => h2 y (by simpa using hy)⟩
  have hMpos : 0 < M := by
    obtain ⟨r, ob, pr, h1, h2, h3, hp, he, -⟩ := hw i (by omega)
    rw [List.getElem?_eq_getElem hi] at h2
    rw [Option.some.inj h2] at hx0
    have : 0 < r := by
      by_contra hneg
      push Not at hneg
      nlinarith
    exact lt_of_lt_of_le this (hM.2 r (List.mem_of_getElem? h1))
  obtain ⟨k, hk, e⟩ := List.mem_iff_getElem.1 hM.1
  have hacc := (rejection_iff h M hM.2 hM.1 hMpos k (by omega) M (by rw [List.getElem?_eq_getElem hk, e])).2 (by nlinarith [hc k])
  have hmem : k ∈ acceptedIdx R := by
    rw [acceptedIdx, List.mem_filter]
    exact ⟨List.mem_range.2 hk, by simp [List.getD, hacc]⟩
  have hnil : acceptedIdx R ≠ [] := fun h0 => by rw [h0] at hmem; cases hmem
  exact ⟨hnil, fun j => ⟨_, by rw [accMean, if_neg (by rwa [List.length_eq_zero_iff])]⟩⟩

example : ∃ R, solve twoSettings [[0], [2]] (fun _ => 1) = some R ∧ acceptedIdx R ≠ [] := by
  obtain ⟨R, h⟩ := two_solve fun _ => 1
  refine ⟨R, h, (C147_some h (fun _ => le_refl _) ?_).1⟩
  obtain ⟨P, ob, hp, ho, -, rfl, rfl, -⟩ := solve_some h
  have e : R.pred = twoPts := Option.some.inj (hp.symm.trans two_predicted)
  rw [((C147_gaussian twoSettings (Or.inr rfl) R.pred (by rw [e]; norm_num [twoPts])).1 (by norm_num [twoSettings])).1] at ho
  rw [← Option.some.inj ho]
  refine ⟨_, List.mem_map.2 ⟨0, List.mem_range.2 (by rw [e]; norm_num [twoPts]), rfl⟩, gaussianPDFReal_pos _ _ _ (by norm_num [twoSettings])⟩

/-! ### Files and statistics -/

theorem foldl_addN (l : List Nat) (f : Nat → ℝ) (a : ℝ) : l.foldl (fun a x => a + f x) a = a + (l.map f).sum := by
  induction l generalizing a with
  | nil => simp
  | cons x l ih => rw [List.foldl_cons, ih, List.map_cons, List.sum_cons]; ring

theorem filter_sum (n : Nat) (p : Nat → Bool) (f : Nat → ℝ) : (((List.range n).filter p).map f).sum = ∑ k ∈ (range n).filter (fun k => p k = true), f k := by
  induction n with
  | zero => simp
  | succ n ih =>
    rw [List.range_succ, List.filter_append, List.map_append, List.sum_append, ih, Finset.range_add_one, Finset.filter_insert]
    by_cases h : p n = true
    · rw [if_pos h, Finset.sum_insert (by simp)]
      simp [h]
      ring
    · rw [if_neg h]
      simp [h]

/-- The samples that were accepted. [specification, no code] -/
def acceptedSet (R : Result) : Finset Nat := (range R.pred.n).filter fun k => R.accept[k]? = some true

theorem accepted_set {o : Settings} {resp : List (List ℝ)} {checks : Nat → ℝ} {R : Result} (h : solve o resp checks = some R) :
    (acceptedIdx R).length = (acceptedSet R).card ∧ ∀ f : Nat → ℝ, ((acceptedIdx R).map f).sum = ∑ k ∈ acceptedSet R, f k := by
  have l3 := (C147_weights h).1
  have key : ∀ f : Nat → ℝ, ((acceptedIdx R).map f).sum = ∑ k ∈ acceptedSet R, f k := by
    intro f
    rw [acceptedIdx, l3, filter_sum, acceptedSet]
    refine Finset.sum_congr (Finset.filter_congr fun k _ => ?_) fun _ _ => rfl
    cases hk : R.accept[k]? <;> simp [List.getD, hk]
  refine ⟨?_, key⟩
  have := key fun _ => 1
  rw [List.map_const', List.sum_replicate, Finset.sum_const, nsmul_eq_mul, nsmul_eq_mul, mul_one, mul_one] at this
  exact_mod_cast this

/-- The files: "DCI_output.dat" has one line for each sample in the order of the study, with its responses, its densities and its decision; with
rejection "accepted_data.dat" has the responses of exactly the accepted ones, in the same order; without, there is no such file and no decision. -/
theorem C147_files {o : Settings} {resp : List (List ℝ)} {checks : Nat → ℝ} {R : Result} (h : solve o resp checks = some R) :
    (outputFile o R).length = R.pred.n ∧
    (∀ i < R.pred.n, ∃ pr ob b, R.predDens[i]? = some pr ∧ R.obsDens[i]? = some ob ∧ R.accept[i]? = some b ∧
      (outputFile o R)[i]? = some ((List.range R.pred.dim).map (R.pred.val i), pr, ob, if o.reject then some b else none)) ∧
    (o.reject = false → acceptedFile o R = none) ∧
    (o.reject = true → acceptedFile o R = some (((outputFile o R).filter fun l => l.2.2.2 = some true).map (·.1))) := by
  obtain ⟨l3, la, hw, -⟩ := C147_weights h
  refine ⟨by simp [outputFile, l3], fun i hi => ?_, fun hr => by simp [acceptedFile, hr], fun hr => ?_⟩
  · obtain ⟨r, ob, pr, h1, h2, h3, -⟩ := hw i hi
    refine ⟨pr, ob, R.accept[i]'(by omega), h3, h2, List.getElem?_eq_getElem _, ?_⟩
    rw [outputFile, List.getElem?_map, List.getElem?_range (by omega), Option.map_some]
    simp only [row, List.getD, h2, h3, Option.getD_some, List.getElem?_eq_getElem (show i < R.accept.length by omega)]
  · rw [acceptedFile, if_pos hr, acceptedIdx, outputFile, List.filter_map, List.map_map]
    refine congrArg some ?_
    have : (List.range R.ratio.length).filter (fun r => R.accept.getD r false) = (List.range R.ratio.length).filter
        ((fun l : List ℝ × ℝ × ℝ × Option Bool => decide (l.2.2.2 = some true)) ∘ fun r => (row R.pred r, R.predDens.getD r 0, R.obsDens.getD r 0, if o.reject then some (R.accept.getD r false) else none)) := by
      refine List.filter_congr fun r _ => ?_
      simp [hr]
    rw [this]
    rfl

example : ∃ R, solve twoSettings [[0], [2]] (fun _ => 0) = some R ∧ (outputFile twoSettings R).length = R.pred.n := by
  obtain ⟨R, h⟩ := two_solve fun _ => 0
  exact ⟨R, h, (C147_files h).1⟩

/-- The statistics of the accepted samples: the rate in percent; the mean of each response if any was accepted; the sample variance if at least two were. -/
theorem C147_statistics_partial {o : Settings} {resp : List (List ℝ)} {checks : Nat → ℝ} {R : Result} (h : solve o resp checks = some R) :
    rate R * R.pred.n = 100 * (acceptedSet R).card ∧
    (acceptedSet R ≠ ∅ → ∀ j, ∃ m, accMean R j = some m ∧ m * (acceptedSet R).card = ∑ k ∈ acceptedSet R, R.pred.val k j) ∧
    (2 ≤ (acceptedSet R).card → ∀ j, ∃ m v, accMean R j = some m ∧ accVar R j = some v ∧
      v * ((acceptedSet R).card - 1) = ∑ k ∈ acceptedSet R, (R.pred.val k j - m) ^ 2) := by
  obtain ⟨hc, hs⟩ := accepted_set h
  have l3 := (C147_weights h).1
  obtain ⟨P, ob, -, -, hd, rfl, -⟩ := solve_some h
  have hn : (R.pred.n : ℝ) ≠ 0 := by exact_mod_cast hd.1.ne'
  have hmean : (acceptedSet R).card ≠ 0 → ∀ j, accMean R j = some ((∑ k ∈ acceptedSet R, R.pred.val k j) * (1 / ((acceptedSet R).card : ℝ))) := by
    intro h0 j
    rw [accMean, hc, if_neg h0, foldl_addN, hs, zero_add]
  refine ⟨?_, fun hne j => ⟨_, hmean (by simpa using hne) j, ?_⟩, fun h2 j => ⟨_,
    (∑ k ∈ acceptedSet R, (R.pred.val k j - (∑ k ∈ acceptedSet R, R.pred.val k j) * (1 / ((acceptedSet R).card : ℝ))) ^ 2) / ((acceptedSet R).card - 1),
    hmean (by omega) j, ?_, ?_⟩⟩
  · rw [rate, l3, hc]
    field_simp
  · have : ((acceptedSet R).card : ℝ) ≠ 0 := by simpa using hne
    field_simp
  · rw [accVar, hc, if_neg (by omega), if_neg (by omega), hmean (by omega) j, Option.map_some, foldl_addN, hs, zero_add, Finset.sum_div]
    refine congrArg some (Finset.sum_congr rfl fun k _ => ?_)
    ring
  · have : ((acceptedSet R).card : ℝ) - 1 ≠ 0 := by
      have : (2 : ℝ) ≤ (acceptedSet R).card := by exact_mod_cast h2
      intro h0
      linarith
    exact div_mul_cancel₀ _ this

example : ∃ R, solve twoSettings [[0], [2]] (fun _ => 0) = some R ∧ rate R * R.pred.n = 100 * (acceptedSet R).card := by
  obtain ⟨R, h⟩ := two_solve fun _ => 0
  exact ⟨R, h, (C147_statistics_partial h).1⟩

/-- C147 is false for the statistics of few accepted samples: with one, the variance is not a number (0/0); with none, the mean is not a number, while a variance of
zero is reported. -/
theorem C147_statistics_violated {o : Settings} {resp : List (List ℝ)} {checks : Nat → ℝ} {R : Result} (h : solve o resp checks = some R) (j : Nat) :
    ((acceptedSet R).card = 1 → accVar R j = none) ∧ ((acceptedSet R).card = 0 → accMean R j = none ∧ accVar R j = some 0) := by
  obtain ⟨hc, -⟩ := accepted_set h
  refine ⟨fun h1 => by rw [accVar, hc, if_pos h1], fun h0 => ⟨by rw [accMean, hc, if_pos h0], by rw [accVar, hc, if_neg (by omega), if_pos h0]⟩⟩

/-! ### The data are the predictions -/

theorem foldl_max_const (l : List (List ℝ)) (d a : Nat) (h : ∀ r ∈ l, r.length = d) (ha : a ≤ d) : l.foldl (fun m r => max m r.length) a = if l = [] then a else d := by
  induction l generalizing a with
  | nil => simp
  | cons r l ih =>
    rw [List.foldl_cons, ih _ (fun x hx => h x (List.mem_cons_of_mem _ hx)) (by rw [h r List.mem_cons_self]; omega), h r List.mem_cons_self]
    simp only [reduceCtorEq, if_false]
    split_ifs <;> omega

/-- If the observed data are the predicted responses themselves, nothing is to be learned: all ratios and their mean are one, the information is at most 1e-12, and every
sample is accepted (random numbers at most one). -/
theorem C147_same {o : Settings} {resp : List (List ℝ)} {checks : Nat → ℝ} {R : Result} (h : solve o resp checks = some R)
    (ht : o.type = some "data") (hf : o.file = some resp) (hrect : ∀ r ∈ resp, r.length = R.pred.dim) (hc : ∀ k, checks k ≤ 1) :
    R.ratio = List.replicate R.pred.n 1 ∧ R.meanRatio = 1 ∧ 0 ≤ R.info ∧ R.info ≤ 1e-12 ∧ R.accept = List.replicate R.pred.n true := by
  obtain ⟨l3, la, hw, hmean⟩ := C147_weights h
  obtain ⟨i1, i2, i3⟩ := C147_information h
  have hre : R.ratio = List.replicate R.pred.n 1 := by
    obtain ⟨P, ob, hp, ho, hd, rfl, rfl, hr, hq, -⟩ := solve_some h
    have himp : importData resp = R.pred := by
      unfold predicted at hp
      match resp, hp with
      | r0 :: rs, hp =>
        dsimp only at hp
        split_ifs at hp
        have e := Option.some.inj hp
        rw [← e]
        unfold importData
        have h0 : r0.length = R.pred.dim := hrect r0 List.mem_cons_self
        rw [foldl_max_const (r0 :: rs) R.pred.dim 0 hrect (by omega), if_neg (by simp), h0]
    have hob : R.obsDens = R.predDens := by
      rw [observed, ht, if_neg (by decide), if_neg (by decide), if_pos (by decide), hf, Option.bind_some, himp, kde, if_pos hd] at ho
      rw [hr]
      exact (Option.some.inj ho).symm
    refine List.eq_replicate_iff.2 ⟨l3, fun x hx => ?_⟩
    obtain ⟨i, hi, e⟩ := List.mem_iff_getElem.1 hx
    obtain ⟨r, ob', pr, h1, h2, h3, hp', he, -⟩ := hw i (by omega)
    rw [hob, h3] at h2
    rw [List.getElem?_eq_getElem hi, e] at h1
    rw [Option.some.inj h1]
    have h2' := Option.some.inj h2
    rw [← h2'] at he
    exact mul_right_cancel₀ hp'.ne' (he.trans (one_mul pr).symm)
  have hn : 0 < R.pred.n := by
    obtain ⟨P, ob, hp, ho, hd, rfl, -⟩ := solve_some h
    exact hd.1
  have hn' : (R.pred.n : ℝ) ≠ 0 := by exact_mod_cast hn.ne'
  have hm1 : R.meanRatio = 1 := by
    rw [hre, List.sum_replicate, nsmul_eq_mul, mul_one] at hmean
    exact mul_right_cancel₀ hn' (hmean.trans (one_mul _).symm)
  refine ⟨hre, hm1, by rw [hm1] at i3; linarith, ?_, ?_⟩
  · rw [hre] at i2
    simp only [List.map_replicate, Real.log_one, mul_zero, List.sum_replicate, smul_zero, zero_div, zero_add] at i2
    exact i2.trans (by norm_num)
  · refine List.eq_replicate_iff.2 ⟨la, fun b hb => ?_⟩
    obtain ⟨k, hk, e⟩ := List.mem_iff_getElem.1 hb
    have hmem : (1 : ℝ) ∈ R.ratio := by rw [hre]; exact List.mem_replicate.2 ⟨hn.ne', rfl⟩
    have := (rejection_iff h 1 (fun x hx => by rw [hre] at hx; exact (List.eq_of_mem_replicate hx).le) hmem one_pos k (by omega) 1
      (by rw [hre, List.getElem?_replicate, if_pos (by omega)])).2 (by linarith [hc k])
    rw [List.getElem?_eq_getElem hk, e] at this
    exact Option.some.inj this

example : ∃ R, solve ⟨some "data", none, none, none, none, some [[0], [2]], true⟩ [[0], [2]] (fun _ => 1) = some R ∧ R.accept = List.replicate R.pred.n true := by
  have hi : importData [[0], [2]] = twoPts := by simp [importData, twoPts]
  obtain ⟨R, h⟩ := exists_solve (o := ⟨some "data", none, none, none, none, some [[0], [2]], true⟩) (fun _ => 1) two_predicted
    (ob := (List.range 2).map fun i => densityAt twoPts 1 (twoPts.val i)) (by
      rw [observed, if_neg (by decide), if_neg (by decide), if_pos (by decide), Option.bind_some, hi, kde, if_pos two_defined]
      rfl) two_defined
  obtain ⟨P, ob, hp, -, -, rfl, -⟩ := solve_some h
  have e : R.pred = twoPts := Option.some.inj (hp.symm.trans two_predicted)
  exact ⟨R, h, (C147_same h rfl rfl (by rw [e]; simp [twoPts]) fun _ => le_refl _).2.2.2.2⟩

/-! ### Where it is false -/

/-- C147 is false for several responses with a "Gaussian" or "uniform" observation: only the first response enters the observed density, although the predicted one is that of all of them. -/
theorem C147_responses_violated (o : Settings) (h : o.type ≠ some "data") (P P' : Pts) (hn : P.n = P'.n) (hd : 0 < P.dim) (hd' : 0 < P'.dim)
    (h0 : ∀ i, P.val i 0 = P'.val i 0) : observed o P = observed o P' := by
  have e : o.type.getD "Gaussian" ≠ "data" := by
    cases ht : o.type with
    | none => decide
    | some t =>
      rw [ht] at h
      exact fun h' => h (congrArg some h')
  simp only [observed, if_neg e, hn, h0]
  have h1 : P.dim ≠ 0 := by omega
  have h2 : P'.dim ≠ 0 := by omega
  simp only [h1, h2, false_or, if_false]

example : observed ⟨none, none, none, none, none, none, true⟩ ⟨2, 2, fun i j => i + 7 * j⟩ = observed ⟨none, none, none, none, none, none, true⟩ ⟨2, 1, fun i _ => i⟩ :=
  C147_responses_violated _ (by simp) _ _ rfl (by norm_num) (by norm_num) (by simp)

/-- C147 is false for a misspelt type and for bounds in the wrong order: there is no error, the observed density is zero at every sample, all ratios are zero and no sample is accepted. -/
theorem C147_type_violated (o : Settings) {resp : List (List ℝ)} {P : Pts} (hp : predicted resp = some P) (hdef : defined P P.dim) (hdim : 0 < P.dim)
    (h : (∃ t, o.type = some t ∧ t ∉ ["Gaussian", "uniform", "data"]) ∨ (o.type = some "uniform" ∧ o.hi.getD 1 ≤ o.lo.getD 0)) (checks : Nat → ℝ) :
    ∃ R, solve o resp checks = some R ∧ R.obsDens = List.replicate P.n 0 ∧ R.meanRatio = 0 ∧ acceptedIdx R = [] := by
  have ho : observed o P = some (List.replicate P.n 0) := by
    rcases h with ⟨t, ht, hne⟩ | ⟨ht, hb⟩
    · simp only [List.mem_cons, List.not_mem_nil, or_false, not_or] at hne
      rw [observed, ht, Option.getD_some, if_neg hne.1, if_neg hne.2.1, if_neg hne.2.2]
      exact congrArg some (by rw [List.map_const', List.length_range])
    · rw [observed, ht, if_neg (by decide), if_pos (by decide), if_neg (by omega)]
      refine congrArg some (List.eq_replicate_iff.2 ⟨by simp, fun x hx => ?_⟩)
      obtain ⟨i, -, rfl⟩ := List.mem_map.1 hx
      rw [obsUniform, if_neg]
      rintro ⟨h1, h2⟩
      linarith
  obtain ⟨R, hs⟩ := exists_solve checks hp ho hdef
  obtain ⟨l3, la, hw, hmean⟩ := C147_weights hs
  obtain ⟨P', ob, hp', ho', hd, e1, e2, -, -, -, -, ha⟩ := solve_some hs
  obtain rfl : P = P' := Option.some.inj (hp.symm.trans hp')
  have hob : R.obsDens = List.replicate P.n 0 := e2.trans (Option.some.inj (ho'.symm.trans ho))
  have hz : ∀ x ∈ R.ratio, x = 0 := by
    intro x hx
    obtain ⟨i, hi, e⟩ := List.mem_iff_getElem.1 hx
    obtain ⟨r, ob, pr, h1, h2, h3, hpp, he, -⟩ := hw i (by rw [← l3]; exact hi)
    rw [List.getElem?_eq_getElem hi, e] at h1
    rw [Option.some.inj h1]
    have h2' := List.mem_of_getElem? h2
    rw [hob] at h2'
    rw [List.eq_of_mem_replicate h2'] at he
    exact (mul_eq_zero.1 he).resolve_right hpp.ne'
  have hn' : (R.pred.n : ℝ) ≠ 0 := by rw [e1]; exact_mod_cast hdef.1.ne'
  refine ⟨R, hs, hob, ?_, ?_⟩
  · rw [List.eq_replicate_iff.2 ⟨rfl, hz⟩, List.sum_replicate, smul_zero] at hmean
    exact (mul_eq_zero.1 hmean).resolve_right hn'
  · rw [acceptedIdx, List.filter_eq_nil_iff]
    intro r _
    have hall := C47_all_zero _ ((List.range P.n).map checks) hz
    rw [← ha] at hall
    simp only [List.getD, Bool.not_eq_true]
    cases hk : R.accept[r]? with
    | none => rfl
    | some b => rw [Option.getD_some]; exact hall b (List.mem_of_getElem? hk)

example : ∃ R, solve ⟨some "gaussian", none, none, none, none, none, true⟩ [[0], [2]] (fun _ => 0) = some R ∧ R.obsDens = List.replicate 2 0 ∧ R.meanRatio = 0 ∧ acceptedIdx R = [] :=
  C147_type_violated _ two_predicted two_defined (by norm_num [twoPts]) (Or.inl ⟨_, rfl, by decide⟩) _

/-- C147 is false when a response is the same for all samples (or there is only one sample): the width of the kernels is zero and there are no densities. -/
theorem C147_constant_violated (o : Settings) (resp : List (List ℝ)) (checks : Nat → ℝ) (P : Pts) (hp : predicted resp = some P) (d : Nat) (hd : d < P.dim) (c : ℝ)
    (hc : ∀ k < P.n, P.val k d = c) : solve o resp checks = none := by
  have hz : colVar P d = 0 := by
    by_cases h2 : 2 ≤ P.n
    · rw [colVar_eq P d h2, specVar, Finset.sum_eq_zero, zero_div]
      intro k hk
      have hn : (P.n : ℝ) ≠ 0 := by
        have : P.n ≠ 0 := by omega
        exact_mod_cast this
      have hm : specMean P d = c := by
        rw [specMean, Finset.sum_congr rfl fun k hk => hc k (Finset.mem_range.1 hk), Finset.sum_const, Finset.card_range, nsmul_eq_mul]
        field_simp
      rw [hm, hc k (Finset.mem_range.1 hk)]
      ring
    · exact colVar_few P d (by omega)
  have hnd : ¬ defined P P.dim := fun h => h.2.2 d hd hz
  rw [solve, hp, Option.bind_some]
  cases observed o P with
  | none => rfl
  | some ob => rw [Option.bind_some, kde, if_neg hnd]; rfl

example : solve ⟨none, none, none, none, none, none, true⟩ [[1, 5], [2, 5], [3, 5]] (fun _ => 0) = none := by
  refine C147_constant_violated _ _ _ ⟨3, 2, fun i j => (([[1, 5], [2, 5], [3, 5]] : List (List ℝ)).getD i []).getD j 0⟩ (by simp [predicted]) 1 (by norm_num) 5 ?_
  intro k hk
  interval_cases k <;> simp

/-- C147 is false for a blank line in the file of observed data: it counts as an observation of zeros.  And a file with fewer columns than there are responses is read out of range. -/
theorem C147_file_violated (lines : List (List ℝ)) :
    importData (lines ++ [[]]) = importData (lines ++ [List.replicate (importData lines).dim 0]) ∧
    ∀ P : Pts, (importData lines).dim < P.dim → kde (importData lines) P = none := by
  constructor
  · have hdim : ∀ (l : List ℝ), (importData (lines ++ [l])).dim = max (importData lines).dim l.length := by
      intro l
      simp [importData, List.foldl_append]
    have hval : ∀ i j, (importData (lines ++ [[]])).val i j = (importData (lines ++ [List.replicate (importData lines).dim 0])).val i j := by
      intro i j
      show ((lines ++ [[]]).getD i []).getD j 0 = ((lines ++ [List.replicate (importData lines).dim 0]).getD i []).getD j 0
      rcases lt_trichotomy i lines.length with hi | hi | hi
      · simp [List.getD, List.getElem?_append_left hi]
      · subst hi
        simp only [List.getD, List.getElem?_append_right (le_refl _), Nat.sub_self, List.getElem?_cons_zero, Option.getD_some, List.getElem?_nil, Option.getD_none,
          List.getElem?_replicate]
        split_ifs <;> rfl
      · have h1 : ∀ l : List ℝ, (lines ++ [l])[i]? = none := fun l => List.getElem?_eq_none (by simp; omega)
        simp [List.getD, h1]
    have hn : (importData (lines ++ [[]])).n = (importData (lines ++ [List.replicate (importData lines).dim 0])).n := by simp [importData]
    have hd : (importData (lines ++ [[]])).dim = (importData (lines ++ [List.replicate (importData lines).dim 0])).dim := by rw [hdim, hdim]; simp
    have ext : ∀ A B : Pts, A.n = B.n → A.dim = B.dim → (∀ i j, A.val i j = B.val i j) → A = B := by
      rintro ⟨a, b, c⟩ ⟨a', b', c'⟩ h1 h2 h3
      obtain rfl : a = a' := h1
      obtain rfl : b = b' := h2
      obtain rfl : c = c' := funext fun i => funext fun j => h3 i j
      rfl
    exact ext _ _ hn hd hval
  · intro P hP
    rw [kde, if_neg]
    intro h
    have := h.2.1
    omega

end MrHyDE.Analysis.Inversion
