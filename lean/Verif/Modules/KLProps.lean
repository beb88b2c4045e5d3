import Verif.Modules.KL

/-!
# Random permeability fields and wells (C120): properties
-/

set_option linter.unusedSectionVars false
set_option linter.unusedSimpArgs false

namespace MrHyDE.Modules.KL

variable {K : Type}

/-! ## The order of the terms -/

/-- C120: the table of indices holds every combination, at the place given by counting the first direction fastest, and
nothing else. -/
theorem C120_order (nx ny nz : Nat) :
    ((indices 1 nx ny nz).length = nx ∧ ∀ i : Nat, i < nx → (indices 1 nx ny nz)[i]? = some (i, 0, 0)) ∧
    ((indices 2 nx ny nz).length = nx * ny ∧
      ∀ i j : Nat, i < nx → j < ny → (indices 2 nx ny nz)[i + nx * j]? = some (i, j, 0)) ∧
    ((indices 3 nx ny nz).length = nx * ny * nz ∧
      ∀ i j k : Nat, i < nx → j < ny → k < nz →
        (indices 3 nx ny nz)[i + nx * j + nx * ny * k]? = some (i, j, k)) := by
  have hrow : ∀ j k : Nat, ((List.range nx).map fun i => (i, j, k)).length = nx := by simp
  have hpl : ∀ k : Nat, ((List.range ny).flatMap fun j => (List.range nx).map fun i => (i, j, k)).length = nx * ny :=
    fun k => length_block ny nx _ fun j => hrow j k
  have hget : ∀ i j k : Nat, i < nx → j < ny →
      ((List.range ny).flatMap fun j => (List.range nx).map fun i => (i, j, k))[i + nx * j]? = some (i, j, k) := by
    intro i j k hi hj
    rw [getElem?_block ny nx _ (fun j => hrow j k) hi hj]
    simp [hi]
  refine ⟨⟨by simp [indices], fun i hi => by simp [indices, hi]⟩, ⟨hpl 0, fun i j hi hj => hget i j 0 hi hj⟩,
    ⟨length_block nz (nx * ny) _ hpl, fun i j k hi hj hk => ?_⟩⟩
  have hin : i + nx * j < nx * ny := calc
    i + nx * j < nx + nx * j := by omega
    _ = nx * (j + 1) := by ring
    _ ≤ nx * ny := Nat.mul_le_mul_left nx hj
  have := getElem?_block nz (nx * ny) _ hpl hin hk
  exact this.trans (hget i j k hi hj)

/-! ## The field -/

section field
variable [Field K]

/-- The factor of the sum in the three exponents.  [specification, no code] -/
def weight (dim : Nat) (c : Nat) : K := if c < dim then 1 else 0

theorem stochStep_eq {dim : Nat} (h1 : 1 ≤ dim) (h3 : dim ≤ 3) (F : Field3 K) (prog : Nat) (coef : List K)
    {k : Nat} {c : K} {t : Nat × Nat × Nat} (hc : coef[k - prog]? = some c)
    (ht : (indices dim F.ex.num F.ey.num F.ez.num)[k]? = some t) (s : Exps K) :
    stochStep dim F (indices dim F.ex.num F.ey.num F.ez.num) prog coef s k =
      some ⟨s.xx + weight dim 0 * (c * mode dim F t), s.yy + weight dim 1 * (c * mode dim F t),
        s.zz + weight dim 2 * (c * mode dim F t)⟩ := by
  have hm := indices_mem (List.mem_of_getElem? ht)
  have hk : k < (indices dim F.ex.num F.ey.num F.ez.num).length := (List.getElem?_eq_some_iff.mp ht).1
  obtain ⟨i, j, l⟩ := t
  interval_cases dim
  · have hk' : k < F.ex.num := by simpa [indices] using hk
    have : i = k := by
      have := ((C120_order F.ex.num F.ey.num F.ez.num).1.2 k hk')
      rw [this] at ht
      simp at ht
      exact ht.1.symm
    subst this
    simp [stochStep, hc, Exp1.getEval, Exp1.getEvec, hk', weight, mode]
    ring
  · have a := hm.1
    have b := hm.2.1 (by omega)
    simp only at a b
    simp [stochStep, hc, ht, Exp1.getEval, Exp1.getEvec, a, b, weight, mode]
    ring_nf
  · have a := hm.1
    have b := hm.2.1 (by omega)
    have d := hm.2.2 (by omega)
    simp only at a b d
    simp [stochStep, hc, ht, Exp1.getEval, Exp1.getEvec, a, b, d, weight, mode]
    ring_nf

theorem uqStep_eq {dim : Nat} (h1 : 1 ≤ dim) (h2 : dim ≤ 2) (F : Field3 K) (coef : List K)
    {k : Nat} {c : K} {t : Nat × Nat × Nat} (hc : coef[k]? = some c)
    (ht : (indices dim F.ex.num F.ey.num F.ez.num)[k]? = some t) (s : Exps K) :
    uqStep dim F (indices dim F.ex.num F.ey.num F.ez.num) coef s k =
      some ⟨s.xx + weight dim 0 * (c * mode dim F t), s.yy + weight dim 1 * (c * mode dim F t),
        s.zz + weight dim 2 * (c * mode dim F t)⟩ := by
  rw [← stochStep_eq h1 (by omega) F 0 coef (by simpa using hc) ht s]
  interval_cases dim <;> rfl

/-- C120, the part that holds of "the logarithm of the factor is the expansion": with the coefficients of both parameters
one after the other, in one and two dimensions; in three if there are only coefficients of `KLStochcoeffs`.  Missing:
three dimensions with `KLUQcoeffs`, see `C120_three_violated`. -/
theorem C120_field_partial {dim : Nat} (h1 : 1 ≤ dim) (h3 : dim ≤ 3) (F : Field3 K) (uq stoch : List K)
    (h : dim ≤ 2 ∨ uq = []) :
    exponents dim F uq stoch = some
      ⟨weight dim 0 * series dim F (uq ++ stoch), weight dim 1 * series dim F (uq ++ stoch),
        weight dim 2 * series dim F (uq ++ stoch)⟩ := by
  set idx := indices dim F.ex.num F.ey.num F.ez.num with hidx
  let t : Nat → K := fun k => (uq ++ stoch).getD k 0 * mode dim F (idx.getD k (0, 0, 0))
  have hu : (List.range (min uq.length idx.length)).foldlM (uqStep dim F idx uq) ⟨0, 0, 0⟩ =
      some ⟨0 + weight dim 0 * ((List.range (min uq.length idx.length)).map t).sum,
        0 + weight dim 1 * ((List.range (min uq.length idx.length)).map t).sum,
        0 + weight dim 2 * ((List.range (min uq.length idx.length)).map t).sum⟩ := by
    rcases h with h2 | hnil
    · refine foldlM_add _ _ _ _ t _ (fun k hk s => ?_) _
      simp only [List.mem_range, lt_min_iff] at hk
      have e1 : uq[k]? = some ((uq ++ stoch).getD k 0) := by
        rw [List.getD_eq_getElem?_getD, List.getElem?_append_left hk.1, List.getElem?_eq_getElem hk.1]
        rfl
      have e2 : idx[k]? = some (idx.getD k (0, 0, 0)) := by
        rw [List.getD_eq_getElem?_getD, List.getElem?_eq_getElem hk.2]
        rfl
      exact uqStep_eq h1 h2 F uq e1 e2 s
    · subst hnil
      simp [pure]
  have hs : ∀ s : Exps K,
      (List.range' uq.length (min idx.length (uq.length + stoch.length) - uq.length)).foldlM
        (stochStep dim F idx uq.length stoch) s =
      some ⟨s.xx + weight dim 0 *
          ((List.range' uq.length (min idx.length (uq.length + stoch.length) - uq.length)).map t).sum,
        s.yy + weight dim 1 *
          ((List.range' uq.length (min idx.length (uq.length + stoch.length) - uq.length)).map t).sum,
        s.zz + weight dim 2 *
          ((List.range' uq.length (min idx.length (uq.length + stoch.length) - uq.length)).map t).sum⟩ := by
    refine foldlM_add _ _ _ _ t _ (fun k hk s => ?_)
    rw [List.mem_range'_1] at hk
    have hlt : k - uq.length < stoch.length := by omega
    have hki : k < idx.length := by omega
    have e1 : stoch[k - uq.length]? = some ((uq ++ stoch).getD k 0) := by
      rw [List.getD_eq_getElem?_getD, List.getElem?_append_right hk.1, List.getElem?_eq_getElem hlt]
      rfl
    have e2 : idx[k]? = some (idx.getD k (0, 0, 0)) := by
      rw [List.getD_eq_getElem?_getD, List.getElem?_eq_getElem hki]
      rfl
    exact stochStep_eq h1 h3 F uq.length stoch e1 e2 s
  have hsum : ((List.range (min uq.length idx.length)).map t).sum
      + ((List.range' uq.length (min idx.length (uq.length + stoch.length) - uq.length)).map t).sum
      = series dim F (uq ++ stoch) := by
    rw [← List.sum_append, ← List.map_append, series, ← hidx]
    have hl : List.range (min uq.length idx.length)
        ++ List.range' uq.length (min idx.length (uq.length + stoch.length) - uq.length)
        = List.range (min (uq ++ stoch).length idx.length) := by
      rw [List.range_eq_range', List.range_eq_range', List.length_append]
      rcases Nat.le_total uq.length idx.length with hle | hle
      · rw [Nat.min_eq_left hle]
        have := List.range'_append_1 (s := 0) (m := uq.length)
          (n := min idx.length (uq.length + stoch.length) - uq.length)
        rw [Nat.zero_add] at this
        rw [this]
        congr 1
        omega
      · have e : min idx.length (uq.length + stoch.length) - uq.length = 0 := by omega
        rw [e]
        simp only [List.range'_zero, List.append_nil]
        congr 1
        omega
    rw [hl]
    congr 1
    refine List.ext_getElem (by simp) fun n h1 h2 => ?_
    simp only [List.length_map, List.length_range] at h1
    have a : n < (uq ++ stoch).length := by omega
    have b : n < idx.length := by omega
    simp only [List.getElem_map, List.getElem_range, List.getElem_zipWith, t]
    simp [List.getD_eq_getElem?_getD, List.getElem?_eq_getElem a, List.getElem?_eq_getElem b]
  unfold exponents
  simp only [← hidx]
  rw [hu]
  simp only [Option.bind_eq_bind, Option.bind_some]
  rw [hs]
  simp only [Option.some.injEq, Exps.mk.injEq, ← hsum]
  refine ⟨by ring, by ring, by ring⟩

end field

/-- C120: the written permeability is the inverse of what is used in the equations, and it is the given permeability
times the exponential of the expansion. -/
theorem C120_written (kinv s : ℝ) (hk : kinv ≠ 0) :
    derived kinv s * newKinv kinv s = 1 ∧ derived kinv s = kinv⁻¹ * Real.exp s := by
  have he := (Real.exp_pos s).ne'
  unfold derived newKinv
  constructor
  · field_simp
  · field_simp

/-! ## The frequencies -/

/-- C120: the derivative used by Newton's method is the derivative of the characteristic function. -/
theorem C120_derivative (L eta om : ℝ) : HasDerivAt (chareqn L eta) (dchareqn L eta om) om := by
  unfold chareqn dchareqn
  have hl : HasDerivAt (fun om : ℝ => om * L) L om := by simpa using (hasDerivAt_id om).mul_const L
  have hid := hasDerivAt_id om
  have hq : HasDerivAt (fun om : ℝ => eta * eta * om * om - 1) (eta * eta * om + eta * eta * om) om := by
    have := ((hid.const_mul (eta * eta)).mul hid).sub_const 1
    exact this.congr_deriv (by simp)
  have hr : HasDerivAt (fun om : ℝ => 2 * eta * om) (2 * eta) om := by
    simpa using hid.const_mul (2 * eta)
  exact ((hq.mul hl.sin).sub (hr.mul hl.cos)).congr_deriv (by ring)

/-- The derivative of `evecOf`.  [helper] -/
noncomputable def dEvec (L eta om x : ℝ) : ℝ :=
  1 / Real.sqrt ((eta * eta * om * om + 1) * L / 2 + eta)
    * (-(eta * om * om) * Real.sin (om * x) + om * Real.cos (om * x))

theorem dEvec_deriv (L eta om x : ℝ) : HasDerivAt (dEvec L eta om) (-(om * om) * evecOf L eta om x) x :=
  evec_deriv2 _ eta om x

theorem evecOf_deriv (L eta om x : ℝ) : HasDerivAt (evecOf L eta om) (dEvec L eta om x) x := evec_deriv L eta om x

theorem evec_continuous (L eta om : ℝ) : Continuous (evecOf L eta om) :=
  continuous_iff_continuousAt.mpr fun x => (evecOf_deriv L eta om x).continuousAt

theorem evec_left (L eta om : ℝ) : eta * dEvec L eta om 0 = evecOf L eta om 0 := by
  simp [dEvec, evecOf]; ring

theorem evec_right {L eta om : ℝ} (h : chareqn L eta om = 0) : eta * dEvec L eta om L = - evecOf L eta om L := by
  unfold chareqn at h
  unfold dEvec evecOf
  linear_combination (-(1 / Real.sqrt ((eta * eta * om * om + 1) * L / 2 + eta))) * h

/-- C120: a root of the characteristic function gives an eigenvalue and an eigenfunction of the covariance
`sigma^2 exp(-|x-y|/eta)` on the interval: `getEval` and `getEvec` are the eigenpair. -/
theorem C120_eigenpair {L sigma eta om x : ℝ} (heta : 0 < eta) (h : chareqn L eta om = 0) (h0 : 0 ≤ x) (hL : x ≤ L) :
    ∫ y in (0 : ℝ)..L, sigma ^ 2 * Real.exp (-|x - y| / eta) * evecOf L eta om y =
      evalOf sigma eta om * evecOf L eta om x := by
  have hne : eta ≠ 0 := heta.ne'
  have hD : eta * eta * om * om + 1 ≠ 0 := by nlinarith [mul_self_nonneg (eta * om)]
  set φ := evecOf L eta om with hφ
  set ψ := dEvec L eta om with hψ
  have hcont : Continuous φ := evec_continuous L eta om
  have hce : ∀ s : ℝ, Continuous fun y : ℝ => sigma ^ 2 * Real.exp (s * (x - y) / eta) * φ y := by
    intro s
    have : Continuous fun y : ℝ => s * (x - y) / eta := by fun_prop
    exact (continuous_const.mul (Real.continuous_exp.comp this)).mul hcont
  -- the antiderivatives
  have hA : ∀ y : ℝ, HasDerivAt (fun y => sigma ^ 2 * eta / (eta * eta * om * om + 1)
      * (Real.exp (-1 * (x - y) / eta) * (φ y - eta * ψ y)))
      (sigma ^ 2 * Real.exp (-1 * (x - y) / eta) * φ y) y := by
    intro y
    have he : HasDerivAt (fun y : ℝ => -1 * (x - y) / eta) (1 / eta) y := by
      have := (((hasDerivAt_id y).const_sub x).const_mul (-1)).div_const eta
      exact this.congr_deriv (by simp)
    have := ((he.exp).mul ((evecOf_deriv L eta om y).sub ((dEvec_deriv L eta om y).const_mul eta))).const_mul
      (sigma ^ 2 * eta / (eta * eta * om * om + 1))
    refine this.congr_deriv ?_
    simp only [← hφ, ← hψ, Pi.sub_apply, Pi.add_apply]
    field_simp
    ring
  have hB : ∀ y : ℝ, HasDerivAt (fun y => -(sigma ^ 2 * eta / (eta * eta * om * om + 1))
      * (Real.exp (1 * (x - y) / eta) * (φ y + eta * ψ y)))
      (sigma ^ 2 * Real.exp (1 * (x - y) / eta) * φ y) y := by
    intro y
    have he : HasDerivAt (fun y : ℝ => 1 * (x - y) / eta) (-1 / eta) y := by
      have := (((hasDerivAt_id y).const_sub x).const_mul 1).div_const eta
      exact this.congr_deriv (by simp)
    have := ((he.exp).mul ((evecOf_deriv L eta om y).add ((dEvec_deriv L eta om y).const_mul eta))).const_mul
      (-(sigma ^ 2 * eta / (eta * eta * om * om + 1)))
    refine this.congr_deriv ?_
    simp only [← hφ, ← hψ, Pi.sub_apply, Pi.add_apply]
    field_simp
    ring
  have i1 : ∫ y in (0 : ℝ)..x, sigma ^ 2 * Real.exp (-|x - y| / eta) * φ y =
      ∫ y in (0 : ℝ)..x, sigma ^ 2 * Real.exp (-1 * (x - y) / eta) * φ y := by
    refine intervalIntegral.integral_congr fun y hy => ?_
    rw [Set.uIcc_of_le h0] at hy
    rw [abs_of_nonneg (by linarith [hy.2]), neg_one_mul]
  have i2 : ∫ y in x..L, sigma ^ 2 * Real.exp (-|x - y| / eta) * φ y =
      ∫ y in x..L, sigma ^ 2 * Real.exp (1 * (x - y) / eta) * φ y := by
    refine intervalIntegral.integral_congr fun y hy => ?_
    rw [Set.uIcc_of_le hL] at hy
    rw [abs_of_nonpos (by linarith [hy.1]), neg_neg, one_mul]
  have hcabs : Continuous fun y : ℝ => sigma ^ 2 * Real.exp (-|x - y| / eta) * φ y := by
    have : Continuous fun y : ℝ => -|x - y| / eta := by fun_prop
    exact (continuous_const.mul (Real.continuous_exp.comp this)).mul hcont
  rw [← intervalIntegral.integral_add_adjacent_intervals (hcabs.intervalIntegrable 0 x)
    (hcabs.intervalIntegrable x L), i1, i2,
    intervalIntegral.integral_eq_sub_of_hasDerivAt (fun y _ => hA y) ((hce (-1)).intervalIntegrable 0 x),
    intervalIntegral.integral_eq_sub_of_hasDerivAt (fun y _ => hB y) ((hce 1).intervalIntegrable x L)]
  have hl : eta * ψ 0 = φ 0 := evec_left L eta om
  have hr : eta * ψ L = - φ L := evec_right h
  simp only [hl, hr, sub_self, add_neg_cancel, mul_zero, zero_div, Real.exp_zero, one_mul]
  unfold evalOf
  field_simp
  ring

/-- C120: and the eigenfunction has norm one. -/
theorem C120_normalised {L eta om : ℝ} (heta : 0 < eta) (hL : 0 < L) (hom : om ≠ 0) (h : chareqn L eta om = 0) :
    ∫ y in (0 : ℝ)..L, evecOf L eta om y ^ 2 = 1 := by
  have hD : 0 < (eta * eta * om * om + 1) * L / 2 + eta := by
    have : 0 ≤ eta * eta * om * om := by nlinarith [mul_self_nonneg (eta * om)]
    positivity
  set c := 1 / Real.sqrt ((eta * eta * om * om + 1) * L / 2 + eta) with hc
  have hc2 : c ^ 2 = 1 / ((eta * eta * om * om + 1) * L / 2 + eta) := by
    rw [hc, div_pow, one_pow, Real.sq_sqrt hD.le]
  set a := eta * om with ha
  have hF : ∀ y : ℝ, HasDerivAt (fun y => c ^ 2 * ((a ^ 2 + 1) / 2 * y
      + (a ^ 2 - 1) / (2 * om) * (Real.sin (om * y) * Real.cos (om * y)) + a / om * Real.sin (om * y) ^ 2))
      (evecOf L eta om y ^ 2) y := by
    intro y
    have hl : HasDerivAt (fun x : ℝ => om * x) om y := by simpa using (hasDerivAt_id y).const_mul om
    have := ((((hasDerivAt_id y).const_mul ((a ^ 2 + 1) / 2)).add
      ((hl.sin.mul hl.cos).const_mul ((a ^ 2 - 1) / (2 * om)))).add
      ((hl.sin.pow 2).const_mul (a / om))).const_mul (c ^ 2)
    refine this.congr_deriv ?_
    have e : evecOf L eta om y = c * (a * Real.cos (om * y) + Real.sin (om * y)) := rfl
    rw [e]
    have hsc := Real.sin_sq_add_cos_sq (om * y)
    have hs : Real.sin (om * y) ^ 2 = 1 - Real.cos (om * y) ^ 2 := by linarith
    field_simp
    simp only [Nat.cast_ofNat, Nat.add_one_sub_one, pow_one]
    ring_nf
    rw [hs]
    ring
  rw [intervalIntegral.integral_eq_sub_of_hasDerivAt (fun y _ => hF y)
    (((evec_continuous L eta om).pow 2).intervalIntegrable 0 L)]
  simp only [mul_zero, Real.sin_zero, zero_mul, add_zero, zero_pow, ne_eq, OfNat.ofNat_ne_zero, not_false_eq_true,
    sub_zero]
  have hsc := Real.sin_sq_add_cos_sq (om * L)
  unfold chareqn at h
  rw [hc2, one_div, inv_mul_eq_one₀ hD.ne']
  field_simp
  rw [ha]
  linear_combination (-(2 * eta * om)) * hsc + (-Real.cos (om * L)) * h

/-- What is known of a stored frequency: Newton's method was started at a whole number at which the characteristic
function has the other sign than at a smaller one.  [specification, no code] -/
def Bracketed (f df : ℝ → ℝ) (nltol : ℝ) (r : Option ℝ) : Prop :=
  ∃ a b : Nat, 1 ≤ a ∧ a < b ∧ f b * f a < 0 ∧ r = newton f df nltol 10 b

theorem scan_spec (f df : ℝ → ℝ) (ctol nltol : ℝ) (num fuel : Nat) : ∀ (ig : Nat) (fprev : ℝ)
    (roots : List (Option ℝ)), (∃ a : Nat, 1 ≤ a ∧ a ≤ ig ∧ fprev = f a) → roots.length ≤ num →
    (∀ r, r ∈ roots → Bracketed f df nltol r) →
    roots.Pairwise (fun r q => ∀ x y : ℝ, r = some x → q = some y → ctol ≤ |y - x|) →
    (scan f df ctol nltol num fuel ig fprev roots).length ≤ num ∧
    (∀ r, r ∈ scan f df ctol nltol num fuel ig fprev roots → Bracketed f df nltol r) ∧
    (scan f df ctol nltol num fuel ig fprev roots).Pairwise
      (fun r q => ∀ x y : ℝ, r = some x → q = some y → ctol ≤ |y - x|) := by
  induction fuel with
  | zero => intro ig fprev roots _ h1 h2 h3; exact ⟨h1, h2, h3⟩
  | succ fuel ih =>
    intro ig fprev roots hp h1 h2 h3
    obtain ⟨a, ha1, ha2, rfl⟩ := hp
    unfold scan
    split
    · rename_i hlt
      simp only
      split
      · rename_i hneg
        have hb : Bracketed f df nltol (newton f df nltol 10 ((ig + 1 : Nat) : ℝ)) :=
          ⟨a, ig + 1, ha1, by omega, hneg, rfl⟩
        refine ih (ig + 1) _ _ ⟨ig + 1, by omega, le_refl _, rfl⟩ ?_ ?_ ?_
        · split
          · exact h1
          · simp; omega
        · split
          · exact h2
          · intro r hr
            rcases List.mem_append.mp hr with h | h
            · exact h2 r h
            · rw [List.mem_singleton.mp h]
              exact hb
        · split
          · exact h3
          · rename_i hf
            refine List.pairwise_append.mpr ⟨h3, List.pairwise_singleton _ _, ?_⟩
            intro r hr q hq x y hx hy
            rw [List.mem_singleton] at hq
            by_contra hc
            apply hf
            rw [found, List.any_eq_true]
            refine ⟨r, hr, ?_⟩
            rw [← hq, hx, hy]
            simpa using hc
      · exact ih (ig + 1) _ _ ⟨a, ha1, by omega, rfl⟩ h1 h2 h3
    · exact ⟨h1, h2, h3⟩

/-- What Newton's method returns: a value at which the function is small, unless all the steps were used.  [helper] -/
theorem newton_small (f df : ℝ → ℝ) (nltol : ℝ) (fuel : Nat) (om r : ℝ) (h : newton f df nltol fuel om = some r) :
    |f r| ≤ nltol ∨ ∃ xs : Nat → ℝ, xs 0 = om ∧ xs fuel = r ∧
      ∀ i : Nat, i < fuel → nltol < |f (xs i)| ∧ df (xs i) ≠ 0 ∧ xs (i + 1) = xs i - f (xs i) / df (xs i) := by
  induction fuel generalizing om with
  | zero =>
    simp only [newton, Option.some.injEq] at h
    exact Or.inr ⟨fun _ => om, rfl, h, fun i hi => absurd hi (by omega)⟩
  | succ fuel ih =>
    unfold newton at h
    split at h
    · rename_i hbig
      split at h
      · simp at h
      · rename_i hdf
        rcases ih _ h with h' | ⟨xs, h0, hn, hs⟩
        · exact Or.inl h'
        · refine Or.inr ⟨fun i => if i = 0 then om else xs (i - 1), by simp, by simp [hn], ?_⟩
          intro i hi
          rcases i with _ | i
          · simp only [if_true]
            refine ⟨hbig, hdf, ?_⟩
            simp [h0]
            ring
          · simpa using hs i (by omega)
    · rename_i hsm
      simp only [Option.some.injEq] at h
      exact Or.inl (h ▸ not_lt.mp hsm)

theorem scan_subset (f df : ℝ → ℝ) (ctol nltol : ℝ) (num fuel : Nat) : ∀ (ig : Nat) (fprev : ℝ)
    (roots : List (Option ℝ)), ∀ r, r ∈ roots → r ∈ scan f df ctol nltol num fuel ig fprev roots := by
  induction fuel with
  | zero => intro ig fprev roots r hr; exact hr
  | succ fuel ih =>
    intro ig fprev roots r hr
    unfold scan
    split
    · simp only
      split
      · refine ih _ _ _ _ ?_
        split
        · exact hr
        · exact List.mem_append_left _ hr
      · exact ih _ _ _ _ hr
    · exact hr

/-- A value is among the stored ones, or one closer than the tolerance is.  [specification, no code] -/
def Stored (ctol : ℝ) (roots : List (Option ℝ)) (r : Option ℝ) : Prop :=
  r ∈ roots ∨ ∃ x y : ℝ, r = some x ∧ some y ∈ roots ∧ |x - y| < ctol

theorem scan_complete (f df : ℝ → ℝ) (ctol nltol : ℝ) (num fuel : Nat) : ∀ (ig : Nat) (fprev : ℝ)
    (roots : List (Option ℝ)), fprev ≠ 0 → 0 ≤ fprev * f ig →
    (scan f df ctol nltol num fuel ig fprev roots).length < num → ∀ m : Nat, ig ≤ m → m < ig + fuel →
    f m * f ((m + 1 : Nat) : ℝ) < 0 →
    Stored ctol (scan f df ctol nltol num fuel ig fprev roots) (newton f df nltol 10 ((m + 1 : Nat) : ℝ)) := by
  induction fuel with
  | zero => intro ig fprev roots _ _ _ m h1 h2; omega
  | succ fuel ih =>
    intro ig fprev roots h0 hs hroom m h1 h2 hneg
    unfold scan at hroom ⊢
    by_cases hlt : roots.length < num
    · simp only [hlt, if_true] at hroom ⊢
      by_cases hc : f ((ig + 1 : Nat) : ℝ) * fprev < 0
      · simp only [hc, if_true] at hroom ⊢
        have hf0 : f ((ig + 1 : Nat) : ℝ) ≠ 0 := fun h => by rw [h] at hc; simp at hc
        rcases Nat.eq_or_lt_of_le h1 with rfl | hm
        · generalize newton f df nltol 10 ((ig + 1 : Nat) : ℝ) = r
          by_cases hfd : found ctol roots r = true
          · rw [if_pos hfd]
            right
            rw [found, List.any_eq_true] at hfd
            obtain ⟨q, hq, hqr⟩ := hfd
            cases q with
            | none => simp at hqr
            | some y =>
              cases r with
              | none => simp at hqr
              | some x =>
                refine ⟨x, y, rfl, scan_subset _ _ _ _ _ _ _ _ _ _ hq, ?_⟩
                simpa using hqr
          · rw [if_neg hfd]
            exact Or.inl (scan_subset _ _ _ _ _ _ _ _ _ _ (List.mem_append_right _ List.mem_cons_self))
        · exact ih (ig + 1) _ _ hf0 (mul_self_nonneg _) hroom m hm (by omega) hneg
      · simp only [hc, if_false] at hroom ⊢
        rcases Nat.eq_or_lt_of_le h1 with rfl | hm
        · exfalso
          apply hc
          rcases lt_or_gt_of_ne h0 with hp | hp
          · have : f ig ≤ 0 := by
              by_contra hx
              have := mul_neg_of_neg_of_pos hp (not_le.mp hx)
              linarith
            have h3 : 0 < f ((ig + 1 : Nat) : ℝ) := by
              by_contra hx
              have := mul_nonneg_of_nonpos_of_nonpos this (not_lt.mp hx)
              linarith
            exact mul_neg_of_pos_of_neg h3 hp
          · have : 0 ≤ f ig := by
              by_contra hx
              have := mul_neg_of_pos_of_neg hp (not_le.mp hx)
              linarith
            have h3 : f ((ig + 1 : Nat) : ℝ) < 0 := by
              by_contra hx
              have := mul_nonneg this (not_lt.mp hx)
              linarith
            exact mul_neg_of_neg_of_pos h3 hp
        · refine ih (ig + 1) _ _ h0 ?_ hroom m hm (by omega) hneg
          rw [mul_comm]
          exact not_lt.mp hc
    · simp only [hlt, if_false] at hroom

/-- C120, the part that holds of "the stored frequencies are the first roots": there are as many places as asked for;
every place that is not left at zero was found by Newton's method from a whole number behind a change of sign, so that a
root lies before that number; no two are closer than the tolerance; and if places are left, the value found behind every
change of sign between two of the first thousand whole numbers is stored, or one closer to it than the tolerance, unless
1 itself is a root (`C120_one_violated`).  Missing: that a root is stored, and that the roots are all found, see
`C120_roots_violated`. -/
theorem C120_roots_partial (L eta : ℝ) (num : Nat) :
    ∃ roots : List (Option ℝ), (omega L eta num).length = num ∧
      omega L eta num = roots ++ List.replicate (num - roots.length) (some 0) ∧
      (∀ r, r ∈ roots → ∃ b : Nat, r = newton (chareqn L eta) (dchareqn L eta) (1 / 10000000000) 10 b ∧
        ∃ z : ℝ, 1 < z ∧ z < b ∧ chareqn L eta z = 0) ∧
      roots.Pairwise (fun r q => ∀ x y : ℝ, r = some x → q = some y → 1 / 1000000 ≤ |y - x|) ∧
      (chareqn L eta 1 ≠ 0 → roots.length < num → ∀ m : Nat, 1 ≤ m → m ≤ 1000 →
        chareqn L eta m * chareqn L eta ((m + 1 : Nat) : ℝ) < 0 → Stored (1 / 1000000) roots
          (newton (chareqn L eta) (dchareqn L eta) (1 / 10000000000) 10 ((m + 1 : Nat) : ℝ))) := by
  have h := scan_spec (chareqn L eta) (dchareqn L eta) (1 / 1000000) (1 / 10000000000) num 1000 1 (chareqn L eta 1) []
    ⟨1, le_refl _, le_refl _, by simp⟩ (by simp) (by simp) List.Pairwise.nil
  refine ⟨scan (chareqn L eta) (dchareqn L eta) (1 / 1000000) (1 / 10000000000) num 1000 1 (chareqn L eta 1) [], ?_, rfl,
    ?_, h.2.2, fun h1 hroom m hm1 hm2 hneg => scan_complete _ _ _ _ _ _ _ _ _ h1
      (by simpa using mul_self_nonneg (chareqn L eta 1)) hroom m hm1 (by omega) hneg⟩
  · unfold omega
    simp only [List.length_append, List.length_replicate]
    have := h.1
    omega
  · intro r hr
    obtain ⟨a, b, ha, hab, hneg, hr⟩ := h.2.1 r hr
    refine ⟨b, hr, ?_⟩
    have hc : ContinuousOn (chareqn L eta) (Set.Icc (a : ℝ) b) := fun z _ =>
      (C120_derivative L eta z).continuousAt.continuousWithinAt
    have hle : (a : ℝ) ≤ b := by exact_mod_cast hab.le
    have ha1 : (1 : ℝ) ≤ a := by exact_mod_cast ha
    rcases mul_neg_iff.mp hneg with ⟨h1, h2⟩ | ⟨h1, h2⟩
    · obtain ⟨z, hz, hz0⟩ := intermediate_value_Ioo hle hc (⟨h2, h1⟩ : (0 : ℝ) ∈ Set.Ioo _ _)
      exact ⟨z, by linarith [hz.1], hz.2, hz0⟩
    · obtain ⟨z, hz, hz0⟩ := intermediate_value_Ioo' hle hc (⟨h1, h2⟩ : (0 : ℝ) ∈ Set.Ioo _ _)
      exact ⟨z, by linarith [hz.1], hz.2, hz0⟩

/-- C120: that the roots are found is false: on an interval of length `2 pi` the characteristic function has the same
sign at all whole numbers, no root is ever found, all frequencies stay zero and the field vanishes, although (for
`eta` above 2) there is a root between one half and three quarters. -/
theorem C120_roots_violated (eta : ℝ) (heta : 0 < eta) (num : Nat) :
    omega (2 * Real.pi) eta num = List.replicate num (some 0) ∧
    (∀ x : ℝ, evecOf (2 * Real.pi) eta 0 x = 0) ∧
    (2 < eta → ∃ z : ℝ, 1 / 2 < z ∧ z < 3 / 4 ∧ chareqn (2 * Real.pi) eta z = 0) := by
  have hval : ∀ n : Nat, chareqn (2 * Real.pi) eta n = -(2 * eta * n) := by
    intro n
    unfold chareqn
    have h1 : Real.sin ((n : ℝ) * (2 * Real.pi)) = 0 := by
      have := Real.sin_nat_mul_pi (n * 2)
      push_cast at this
      rw [← mul_assoc]
      exact this
    rw [h1, Real.cos_nat_mul_two_pi]
    ring
  have hscan : ∀ (fuel ig : Nat) (fprev : ℝ), fprev < 0 →
      scan (chareqn (2 * Real.pi) eta) (dchareqn (2 * Real.pi) eta) (1 / 1000000) (1 / 10000000000) num fuel ig fprev []
        = [] := by
    intro fuel
    induction fuel with
    | zero => intros; rfl
    | succ fuel ih =>
      intro ig fprev hf
      unfold scan
      split
      · simp only
        rw [if_neg, ih _ _ hf]
        rw [hval]
        have : (0 : ℝ) < 2 * eta * ((ig + 1 : Nat) : ℝ) := by positivity
        nlinarith
      · rfl
  refine ⟨?_, fun x => by simp [evecOf], fun h2 => ?_⟩
  · unfold omega
    rw [hscan 1000 1 _ (by have := hval 1; simp at this; rw [this]; linarith)]
    simp
  · have hc : ContinuousOn (chareqn (2 * Real.pi) eta) (Set.Icc (1 / 2 : ℝ) (3 / 4)) := fun z _ =>
      (C120_derivative (2 * Real.pi) eta z).continuousAt.continuousWithinAt
    have hl : chareqn (2 * Real.pi) eta (1 / 2) = eta := by
      unfold chareqn
      have : (1 / 2 : ℝ) * (2 * Real.pi) = Real.pi := by ring
      rw [this, Real.sin_pi, Real.cos_pi]
      ring
    have hr : chareqn (2 * Real.pi) eta (3 / 4) = -(9 / 16 * eta * eta - 1) := by
      unfold chareqn
      have : (3 / 4 : ℝ) * (2 * Real.pi) = Real.pi / 2 + Real.pi := by ring
      rw [this, Real.sin_add_pi, Real.cos_add_pi, Real.sin_pi_div_two, Real.cos_pi_div_two]
      ring
    obtain ⟨z, hz, hz0⟩ := intermediate_value_Ioo' (by norm_num) hc
      (⟨by rw [hr]; nlinarith, by rw [hl]; exact heta⟩ : (0 : ℝ) ∈ Set.Ioo _ _)
    exact ⟨z, hz.1, hz.2, hz0⟩

/-- C120: that the roots are found is false if 1 is one of them: the search compares with the value there, which is zero, and
never sees a change of sign; all frequencies stay zero. -/
theorem C120_one_violated (L eta : ℝ) (h : chareqn L eta 1 = 0) (num : Nat) :
    omega L eta num = List.replicate num (some 0) := by
  have hscan : ∀ (f df : ℝ → ℝ) (fuel ig : Nat), scan f df (1 / 1000000) (1 / 10000000000) num fuel ig 0 [] = [] := by
    intro f df fuel
    induction fuel with
    | zero => intros; rfl
    | succ fuel ih =>
      intro ig
      unfold scan
      split
      · simp only
        rw [if_neg (by simp), ih]
      · rfl
  unfold omega
  rw [h, hscan]
  simp

/-- [case] An interval of length `pi / 2` with correlation length 1. -/
example : chareqn (Real.pi / 2) 1 1 = 0 := by
  simp [chareqn]

/-- C120: that the field is the expansion in three dimensions is false for `KLUQcoeffs`: the exponent of the first
permeability is doubled, that of the third is missing, and the eigenvalue of the third direction is taken from the second;
with more terms in the third direction than in the second the table of the second is read after its end. -/
theorem C120_three_violated :
    let F : Field3 ℚ := ⟨⟨1, fun _ => 2, fun _ _ => 1⟩, ⟨1, fun _ => 3, fun _ _ => 1⟩, ⟨1, fun _ => 5, fun _ _ => 1⟩,
      id, 0, 0, 0⟩
    exponents 3 F [1] [] = some ⟨36, 18, 0⟩ ∧ exponents 3 F [] [1] = some ⟨30, 30, 30⟩ ∧ series 3 F [1] = 30 ∧
    exponents 3 { F with ez := ⟨2, fun _ => 5, fun _ _ => 1⟩ } [1, 1] [] = none := by
  refine ⟨?_, ?_, ?_, ?_⟩
  · norm_num [exponents, indices, uqStep, Exp1.getEval, Exp1.getEvec, List.foldlM]
  · norm_num [exponents, indices, stochStep, Exp1.getEval, Exp1.getEvec, List.foldlM]
  · norm_num [series, indices, mode]
  · simp [exponents, indices, uqStep, Exp1.getEval, Exp1.getEvec, List.foldlM, List.range_succ]

/-! ## Wells -/

theorem wellFold (h source : ℝ) (kinv : Nat → ℝ) (ws : List Well) : ∀ (n : Nat) (s : ℝ), 0 < n →
    ((ws.zipIdx n).foldl (fun s (wn : Well × Nat) =>
      let s := if wn.2 = 0 then source else s
      s + wellTerm h kinv wn.1) s) = s + (ws.map (wellTerm h kinv)).sum := by
  induction ws with
  | nil => intros; simp
  | cons w ws ih =>
    intro n s hn
    simp only [List.zipIdx_cons, List.foldl_cons, List.map_cons, List.sum_cons]
    rw [if_neg (by omega), ih (n + 1) _ (by omega)]
    ring

/-- C120, the part that holds of "wells are added to the source": if there is at least one.  Missing: no wells, see
`C120_nowells_violated`. -/
theorem C120_wells_partial (h source : ℝ) (kinv : Nat → ℝ) (data kl : Option ℝ) (ws : List Well) (hw : ws ≠ []) :
    sourceUsed true h source kinv data kl ws = source + (ws.map (wellTerm h kinv)).sum := by
  obtain ⟨w, ws, rfl⟩ := List.exists_cons_of_ne_nil hw
  simp only [sourceUsed, if_true, wellLoop, List.zipIdx_cons, List.foldl_cons, zero_add, List.map_cons, List.sum_cons]
  rw [wellFold h source kinv ws 1 _ (by omega)]
  ring

/-- C120: that wells are added to the source is false if none is listed: the source of the user is dropped. -/
theorem C120_nowells_violated :
    sourceUsed true 1 5 (fun _ => 1) none none [] = 0 ∧ sourceUsed false 1 5 (fun _ => 1) none none [] = 5 := by
  simp [sourceUsed, wellLoop]

/-- C120 (medium): the permeability of the velocity equation is that of the data where there are data, otherwise the inverse of
the function; the random field multiplies it by the exponential of the field. -/
theorem C120_medium (d s kinvFn : ℝ) :
    1 / kinvUsed (some d) none kinvFn = d ∧ 1 / kinvUsed (some d) (some s) kinvFn = d * Real.exp s ∧
    1 / kinvUsed none none kinvFn = 1 / kinvFn ∧ 1 / kinvUsed none (some s) kinvFn = 1 / kinvFn * Real.exp s := by
  have he := (Real.exp_pos s).ne'
  refine ⟨by simp [kinvUsed], ?_, rfl, ?_⟩
  · simp [kinvUsed, newKinv, mul_comm]
  · simp only [kinvUsed, newKinv]
    rw [one_div_div, mul_comm, one_div, ← div_eq_mul_inv]

/-- C120: that a well with given pressure uses the permeability of the medium is false: permeability data and the random
field change the velocity equation, the well keeps the function. -/
theorem C120_wellperm_violated :
    (∀ (h source : ℝ) (kinv : Nat → ℝ) (data data' kl kl' : Option ℝ) (ws : List Well),
      sourceUsed true h source kinv data kl ws = sourceUsed true h source kinv data' kl' ws) ∧
    kinvUsed (some 4) none 1 ≠ kinvUsed none none 1 := by
  refine ⟨fun _ _ _ _ _ _ _ _ => rfl, ?_⟩
  norm_num [kinvUsed]

/-- C120: that a well with given pressure injects for a positive function is false: the factor changes sign with the size
of the element, at `8 exp(0.5772)` (about 14.2) in the units of the mesh; finer elements take fluid out. -/
theorem C120_wellsign_violated (kinv : Nat → ℝ) (hk : kinv 0 ≠ 0) (v : ℝ) (hv : 0 < v) :
    (∀ h : ℝ, 0 < h → h < 8 * Real.exp 0.5772 → wellTerm h kinv ⟨false, v⟩ < 0) ∧
    (∀ h : ℝ, 8 * Real.exp 0.5772 < h → 0 < wellTerm h kinv ⟨false, v⟩) := by
  have hpos : 0 < Real.sqrt (1 / kinv 0 * (1 / kinv 0) + 1 / kinv 1 * (1 / kinv 1) + 1 / kinv 2 * (1 / kinv 2)) := by
    apply Real.sqrt_pos.mpr
    have h0 : 0 < 1 / kinv 0 * (1 / kinv 0) := mul_self_pos.mpr (one_div_ne_zero hk)
    nlinarith [mul_self_nonneg (1 / kinv 1), mul_self_nonneg (1 / kinv 2)]
  have harg : ∀ h : ℝ, 0.25 * Real.exp (-0.5772) * h / 2 = h / (8 * Real.exp 0.5772) := by
    intro h
    rw [Real.exp_neg]
    have := (Real.exp_pos 0.5772).ne'
    field_simp
    norm_num
    ring
  have he := Real.exp_pos 0.5772
  refine ⟨fun h h0 h1 => ?_, fun h h1 => ?_⟩
  · have hC : wellC h < 0 := by
      unfold wellC
      rw [harg]
      exact Real.log_neg (by positivity) (by rw [div_lt_one (by positivity)]; exact h1)
    have : 2 * Real.pi / wellC h < 0 := div_neg_of_pos_of_neg (by positivity) hC
    simp only [wellTerm, Bool.false_eq_true, if_false]
    exact mul_neg_of_neg_of_pos (mul_neg_of_neg_of_pos this hpos) hv
  · have hC : 0 < wellC h := by
      unfold wellC
      rw [harg]
      exact Real.log_pos (by rw [lt_div_iff₀ (by positivity)]; linarith)
    have : 0 < 2 * Real.pi / wellC h := div_pos (by positivity) hC
    simp only [wellTerm, Bool.false_eq_true, if_false]
    positivity

/-! ## Cases -/

/-- Two directions, two terms in the first and one in the second, [case]. -/
def twoField : Field3 ℚ :=
  ⟨⟨2, fun i => i + 1, fun i x => i + x⟩, ⟨1, fun _ => 3, fun _ y => y⟩, ⟨0, fun _ => 0, fun _ _ => 0⟩, id, 1, 2, 0⟩

example : series 2 twoField ([1] ++ [10]) = 246 := by
  norm_num [series, indices, mode, twoField, List.range_succ]

example : (indices 3 2 3 2)[1 + 2 * 2 + 2 * 3 * 1]? = some (1, 2, 1) := by decide

/-- On an interval of length `pi / 2` with `eta = 1` the number 1 is a root, [case]. -/
example : chareqn (Real.pi / 2) 1 1 = 0 := by simp [chareqn]

end MrHyDE.Modules.KL
