import Verif.Modules.Crystal

/-!
# Crystal elasticity: laws, parameters, temperature, angles, threads (C129)
-/

namespace MrHyDE.Modules.Crystal

open Finset

variable {K : Type} [Field K]

set_option linter.unusedSimpArgs false
set_option linter.unusedSectionVars false

/-- No active parameter. [specification, no code] -/
def noParams : String → Option K := fun _ => none

/-- The constants of a cubic crystal. [specification, no code] -/
def cubicConsts (a b c : K) : Consts K := ⟨a, a, a, c, c, c, b, b, b, 0, 0, 0, 0⟩

theorem entry (p s : String → Option K) (i j k l : Nat) (hi : i < 3) (hj : j < 3) (hk : k < 3) (hl : l < 3)
    (h : (i, j, k, l) ≠ (0, 2, 2, 0)) :
    (update p (construct s)).C i j k l = stiffness (update p (construct s)).c (voigt i j) (voigt k l) :=
  (C129_lattice_partial (update p (construct s)).c i j k l hi hj hk hl h).2 (construct s).c

theorem entry0 (p s : String → Option K) : (update p (construct s)).C 0 2 2 0 = 0 := rfl

theorem contract_one (dim : Nat) (C : Tensor K) (E : Nat → Nat → K) (i j : Nat) (hi : i < dim) (hj : j < dim) :
    contract dim (rotated dim one C) E i j = contract dim C E i j := by
  unfold contract
  refine Finset.sum_congr rfl fun k hk => Finset.sum_congr rfl fun l hl => ?_
  rw [C129_unrotated dim C i j k l hi hj (Finset.mem_range.1 hk) (Finset.mem_range.1 hl)]

/-- Without rotation, parameters and temperature the stress is that of a cubic crystal with the constants C11, C12, C44 of the user, in
every dimension; in three dimensions all components but (0,2). -/
theorem C129_law_partial [CharZero K] (s field : String → Option K) (a b c : K) (ha : s "C11" = some a) (hb : s "C12" = some b)
    (hc : s "C44" = some c) (dim : Nat) (hd : dim ∈ [1, 2, 3]) (g : Nat → Nat → K) :
    ∃ st σ, computeStress dim noParams false field one g (construct s) = some (st, σ) ∧
      ∀ i j, i < dim → j < dim → (i, j) ≠ (0, 2) → σ i j = cubic dim a b c g i j := by
  refine ⟨_, _, rfl, fun i j hi hj h => ?_⟩
  rw [contract_one dim _ _ i j hi hj]
  have e : (update noParams (construct s)).c = cubicConsts a b c := by
    simp [update, construct, noParams, ha, hb, hc, cubicConsts]
  have e1 : ∀ i j k l, i < 3 → j < 3 → k < 3 → l < 3 → (i, j, k, l) ≠ (0, 2, 2, 0) →
      (update noParams (construct s)).C i j k l = stiffness (cubicConsts a b c) (voigt i j) (voigt k l) := by
    intro i j k l h1 h2 h3 h4 h5
    rw [entry noParams s i j k l h1 h2 h3 h4 h5, e]
  simp only [List.mem_cons, List.not_mem_nil, or_false] at hd
  rcases hd with rfl | rfl | rfl
  · interval_cases i
    interval_cases j
    simp [contract, Finset.sum_range_succ, e1, cubicConsts, stiffness, voigt, strain, cubic, Finset.sum_filter]
  · interval_cases i <;> interval_cases j <;>
      simp [contract, Finset.sum_range_succ, e1, cubicConsts, stiffness, voigt, strain, cubic, Finset.sum_filter] <;> ring
  · interval_cases i <;> interval_cases j <;>
      first
        | exact absurd rfl h
        | simp [contract, Finset.sum_range_succ, e1, cubicConsts, stiffness, voigt, strain, cubic, Finset.sum_filter] <;> ring

example : ∃ st σ, computeStress 2 noParams false noParams one (fun i j => if i = 0 ∧ j = 1 then 1 else 0)
    (construct (K := ℚ) fun n => if n = "C11" then some 108 else if n = "C12" then some 61 else if n = "C44" then some 28 else none) = some (st, σ) ∧
      σ 0 1 = 28 ∧ σ 1 0 = 28 ∧ σ 0 0 = 0 := by
  obtain ⟨st, σ, h, h'⟩ := C129_law_partial (K := ℚ) (fun n => if n = "C11" then some 108 else if n = "C12" then some 61 else if n = "C44" then some 28 else none)
    noParams 108 61 28 (by simp) (by simp) (by simp) 2 (by simp) (fun i j => if i = 0 ∧ j = 1 then 1 else 0)
  refine ⟨st, σ, h, ?_, ?_, ?_⟩ <;> rw [h' _ _ (by norm_num) (by norm_num) (by simp)] <;> simp only [cubic, Finset.sum_filter, Finset.sum_range_succ, Finset.sum_range_zero] <;> norm_num

/-- C129 is false for the component (0,2) of the stress in three dimensions: it is half of what it should be, while (2,0) is
right; the stress is not symmetric. -/
theorem C129_shear_violated [CharZero K] (s field : String → Option K) (c : K) (hc : s "C44" = some c) (g : Nat → Nat → K)
    (hg : c * (g 0 2 + g 2 0) ≠ 0) :
    ∃ st σ, computeStress 3 noParams false field one g (construct s) = some (st, σ) ∧
      2 * σ 0 2 = c * (g 0 2 + g 2 0) ∧ σ 2 0 = c * (g 0 2 + g 2 0) ∧ σ 0 2 ≠ σ 2 0 := by
  have e : (update noParams (construct s)).c.c55 = c := by simp [update, construct, noParams, hc]
  have e' : (update noParams (construct s)).c.c15 = 0 ∧ (update noParams (construct s)).c.c25 = 0 ∧ (update noParams (construct s)).c.c35 = 0 :=
    ⟨rfl, rfl, rfl⟩
  have key : ∀ i j, i < 3 → j < 3 → contract 3 (rotated 3 one (update noParams (construct s)).C) (strain g) i j =
      contract 3 (update noParams (construct s)).C (strain g) i j := fun i j hi hj => contract_one 3 _ _ i j hi hj
  have h02 : contract 3 (rotated 3 one (update noParams (construct s)).C) (strain g) 0 2 = c * (1 / 2 * g 0 2 + 1 / 2 * g 2 0) := by
    rw [key 0 2 (by norm_num) (by norm_num)]
    simp [contract, Finset.sum_range_succ, entry, entry0, stiffness, voigt, strain, e, e']
  have h20 : contract 3 (rotated 3 one (update noParams (construct s)).C) (strain g) 2 0 = c * (g 0 2 + g 2 0) := by
    rw [key 2 0 (by norm_num) (by norm_num)]
    simp [contract, Finset.sum_range_succ, entry, stiffness, voigt, strain, e, e']
    ring
  refine ⟨_, _, rfl, ?_, h20, ?_⟩
  · rw [h02]; field_simp
  · rw [h02, h20]
    intro h
    apply hg
    have : c * (g 0 2 + g 2 0) = 2 * (c * (1 / 2 * g 0 2 + 1 / 2 * g 2 0)) := by field_simp
    rw [h] at this
    linear_combination -this

example : ∃ st σ, computeStress 3 noParams false noParams one (fun i j => if i = 0 ∧ j = 2 then 1 else 0)
    (construct (K := ℚ) fun n => if n = "C44" then some 28 else none) = some (st, σ) ∧ σ 2 0 = 28 ∧ 2 * σ 0 2 = 28 := by
  obtain ⟨st, σ, h, h1, h2, -⟩ := C129_shear_violated (K := ℚ) (fun n => if n = "C44" then some 28 else none) noParams 28 (by simp)
    (fun i j => if i = 0 ∧ j = 2 then 1 else 0) (by norm_num)
  exact ⟨st, σ, h, by rw [h2]; norm_num, by rw [h1]; norm_num⟩

/-- C129 is false for a material given by E and nu: the shear stress is twice that of the isotropic material, since C44 is set to 2 mu. -/
theorem C129_isotropic_violated [CharZero K] (s field : String → Option K) (E nu : K) (hE : s "E" = some E) (hn : s "nu" = some nu)
    (hc : s "C44" = none) (g : Nat → Nat → K) :
    ∃ st σ, computeStress 2 noParams false field one g (construct s) = some (st, σ) ∧
      σ 0 1 = 2 * (lameMu E nu * (g 0 1 + g 1 0)) := by
  have e : (update noParams (construct s)).c.c66 = 2 * lameMu E nu := by simp [update, construct, noParams, hE, hn, hc]
  refine ⟨_, _, rfl, ?_⟩
  rw [contract_one 2 _ _ 0 1 (by norm_num) (by norm_num)]
  simp [contract, Finset.sum_range_succ, entry, stiffness, voigt, strain, e]
  ring

example : ∃ st σ, computeStress 2 noParams false noParams one (fun i j => if i = 0 ∧ j = 1 then 1 else 0)
    (construct (K := ℚ) fun n => if n = "E" then some 1 else if n = "nu" then some (1 / 4) else none) = some (st, σ) ∧ σ 0 1 = 4 / 5 ∧
      lameMu (1 : ℚ) (1 / 4) = 2 / 5 := by
  obtain ⟨st, σ, h, h1⟩ := C129_isotropic_violated (K := ℚ) (fun n => if n = "E" then some 1 else if n = "nu" then some (1 / 4) else none) noParams 1 (1 / 4)
    (by simp) (by simp) (by simp) (fun i j => if i = 0 ∧ j = 1 then 1 else 0)
  exact ⟨st, σ, h, by rw [h1]; norm_num [lameMu], by norm_num [lameMu]⟩

/-- A bar pulled along the first axis: for a material given by E and nu, the strain that contracts by nu across when it extends along the axis gives
the stress E times the extension along the axis, and none across (in three dimensions; no shear). -/
theorem C129_uniaxial [CharZero K] (s field : String → Option K) (E nu e : K) (hE : s "E" = some E) (hn : s "nu" = some nu)
    (h11 : s "C11" = none) (h12 : s "C12" = none) (h1 : 1 + nu ≠ 0) (h2 : 1 - 2 * nu ≠ 0) :
    ∃ st σ, computeStress 3 noParams false field one (fun i j => if i = j then (if i = 0 then e else -nu * e) else 0) (construct s) = some (st, σ) ∧
      σ 0 0 = E * e ∧ σ 1 1 = 0 ∧ σ 2 2 = 0 := by
  have e1 : (update noParams (construct s)).c.c11 = 2 * lameMu E nu + lameLambda E nu ∧ (update noParams (construct s)).c.c12 = lameLambda E nu ∧
      (update noParams (construct s)).c.c22 = 2 * lameMu E nu + lameLambda E nu ∧ (update noParams (construct s)).c.c13 = lameLambda E nu ∧
      (update noParams (construct s)).c.c33 = 2 * lameMu E nu + lameLambda E nu ∧ (update noParams (construct s)).c.c23 = lameLambda E nu := by
    simp [update, construct, noParams, hE, hn, h11, h12]
  obtain ⟨a1, a2, a3, a4, a5, a6⟩ := e1
  have h2' : 1 - nu * 2 ≠ 0 := by rwa [mul_comm nu 2]
  have l1 : lameLambda E nu * (1 - 2 * nu) = 2 * lameMu E nu * nu := by
    unfold lameLambda lameMu
    field_simp
  have l2 : 2 * lameMu E nu * (1 + nu) = E := by
    unfold lameMu
    field_simp
  refine ⟨_, _, rfl, ?_, ?_, ?_⟩
  · rw [contract_one 3 _ _ 0 0 (by norm_num) (by norm_num)]
    simp only [contract, Finset.sum_range_succ, Finset.sum_range_zero, strain]
    simp [entry, stiffness, voigt, a1, a2, a3, a4, a5, a6]
    linear_combination e * l2 + e * l1
  · rw [contract_one 3 _ _ 1 1 (by norm_num) (by norm_num)]
    simp only [contract, Finset.sum_range_succ, Finset.sum_range_zero, strain]
    simp [entry, stiffness, voigt, a1, a2, a3, a4, a5, a6]
    linear_combination e * l1
  · rw [contract_one 3 _ _ 2 2 (by norm_num) (by norm_num)]
    simp only [contract, Finset.sum_range_succ, Finset.sum_range_zero, strain]
    simp [entry, stiffness, voigt, a1, a2, a3, a4, a5, a6]
    linear_combination e * l1

example : ∃ st σ, computeStress 3 noParams false noParams one (fun i j => if i = j then (if i = 0 then 2 else -(1 / 4) * 2) else 0)
    (construct (K := ℚ) fun n => if n = "E" then some 5 else if n = "nu" then some (1 / 4) else none) = some (st, σ) ∧ σ 0 0 = 5 * 2 ∧ σ 1 1 = 0 ∧ σ 2 2 = 0 :=
  C129_uniaxial _ noParams 5 (1 / 4) 2 (by simp) (by simp) (by simp) (by simp) (by norm_num) (by norm_num)

/-- Nothing given: the material is that of E = 1 and nu = 0.4, without coupling of shear and extension, at the ambient temperature 0 and with the
expansion 1e-6.  (An entry that is given is not touched by the others.) -/
theorem C129_defaults (s : String → Option K) :
    (s "E" = none → s "nu" = none → (construct s).c = (construct fun n => if n = "E" then some 1 else if n = "nu" then some (4 / 10) else s n).c) ∧
    (s "C15" = none → (construct s).c.c15 = 0) ∧ (s "C25" = none → (construct s).c.c25 = 0) ∧ (s "C35" = none → (construct s).c.c35 = 0) ∧
    (s "C46" = none → (construct s).c.c46 = 0) ∧ (s "alpha_T" = none → (construct s).alpha = 1 / 1000000) ∧
    (s "T_ambient" = none → (construct s).eref = 0) ∧
    (∀ v, s "C15" = some v → (construct s).c.c15 = v) ∧ (∀ v, s "C33" = some v → (construct s).c.c33 = v) ∧
    (∀ v, s "alpha_T" = some v → (construct s).alpha = v) ∧ (∀ v, s "T_ambient" = some v → (construct s).eref = v) := by
  refine ⟨fun h1 h2 => ?_, ?_⟩
  · simp [construct, h1, h2]
  · refine ⟨fun h => ?_, fun h => ?_, fun h => ?_, fun h => ?_, fun h => ?_, fun h => ?_, fun v h => ?_, fun v h => ?_, fun v h => ?_, fun v h => ?_⟩ <;>
      simp [construct, h]

example : (construct (K := ℚ) fun _ => none).c.c46 = 0 ∧ (construct (K := ℚ) fun _ => none).alpha = 1 / 1000000 :=
  ⟨(C129_defaults _).2.2.2.2.1 rfl, (C129_defaults _).2.2.2.2.2.1 rfl⟩

/-- C129 is false for crystals that are not cubic: before the first stress is computed, the constants of the user other than C11, C12, C44
are replaced by those of a cubic crystal.  Any two inputs that agree in the other entries give the same stress, in all situations. -/
theorem C129_constants_violated (s s' : String → Option K) (h : ∀ n ∈ ["E", "nu", "C11", "C12", "C44", "T_ambient", "alpha_T"], s n = s' n)
    (dim : Nat) (hd : dim ≤ 3) (p : String → Option K) (haveT : Bool) (field : String → Option K) (R g : Nat → Nat → K) (i j : Nat) :
    (computeStress dim p haveT field R g (construct s)).map (fun r => r.2 i j) =
      (computeStress dim p haveT field R g (construct s')).map (fun r => r.2 i j) := by
  have h1 := h "E" (by simp)
  have h2 := h "nu" (by simp)
  have h3 := h "C11" (by simp)
  have h4 := h "C12" (by simp)
  have h5 := h "C44" (by simp)
  have h6 := h "T_ambient" (by simp)
  have h7 := h "alpha_T" (by simp)
  have ec : (update p (construct s)).c = (update p (construct s')).c := by simp [update, construct, h1, h2, h3, h4, h5]
  have el : (update p (construct s)).lam = (update p (construct s')).lam := by simp [update, construct, h1, h2, h3, h4, h5]
  have em : (update p (construct s)).mu = (update p (construct s')).mu := by simp [update, construct, h1, h2, h3, h4, h5]
  have er : (update p (construct s)).eref = (update p (construct s')).eref := by simp [update, construct, h6]
  have ea : (update p (construct s)).alpha = (update p (construct s')).alpha := by simp [update, construct, h7]
  have eC : ∀ i j k l, i < 3 → j < 3 → k < 3 → l < 3 → (update p (construct s)).C i j k l = (update p (construct s')).C i j k l := by
    intro i j k l hi hj hk hl
    by_cases h0 : (i, j, k, l) = (0, 2, 2, 0)
    · simp only [Prod.mk.injEq] at h0
      obtain ⟨rfl, rfl, rfl, rfl⟩ := h0
      rw [entry0, entry0]
    · rw [entry p s i j k l hi hj hk hl h0, entry p s' i j k l hi hj hk hl h0, ec]
  have es : contract dim (rotated dim R (update p (construct s)).C) (strain g) i j =
      contract dim (rotated dim R (update p (construct s')).C) (strain g) i j := by
    unfold contract
    refine Finset.sum_congr rfl fun k _ => Finset.sum_congr rfl fun l _ => congrArg (· * _) ?_
    unfold rotated
    refine Finset.sum_congr rfl fun i1 h1 => Finset.sum_congr rfl fun j1 h2 => Finset.sum_congr rfl fun k1 h3 => Finset.sum_congr rfl fun l1 h4 => ?_
    rw [Finset.mem_range] at h1 h2 h3 h4
    rw [eC i1 j1 k1 l1 (by omega) (by omega) (by omega) (by omega)]
  unfold computeStress
  cases haveT
  · simp [es]
  · cases field "e" <;> simp [es, el, em, er, ea]

example : ∀ n ∈ ["E", "nu", "C11", "C12", "C44", "T_ambient", "alpha_T"],
    (fun n => if n = "C33" then some (7 : ℚ) else none) n = (fun _ => none) n := by simp

/-- C129 is false for the parameters "lambda" and "mu": without a temperature they have no effect on the stress, whatever their values (an
inversion for them sees a zero derivative). -/
theorem C129_lambda_violated (s field : String → Option K) (p : String → Option K) (h : p "youngs_mod" = none ∨ p "poisson_ratio" = none)
    (dim : Nat) (R g : Nat → Nat → K) (i j : Nat) :
    (computeStress dim p false field R g (construct s)).map (fun r => r.2 i j) =
      (computeStress dim noParams false field R g (construct s)).map (fun r => r.2 i j) := by
  have ec : (update p (construct s)).C = (update noParams (construct s)).C := by
    rcases h with h | h
    · simp [update, noParams, h]
    · cases hy : p "youngs_mod" <;> simp [update, noParams, h, hy]
  simp [computeStress, ec]

example : (fun n => if n = "lambda" ∨ n = "mu" then some (3 : ℚ) else none) "youngs_mod" = none ∨
    (fun n => if n = "lambda" ∨ n = "mu" then some (3 : ℚ) else none) "poisson_ratio" = none := by simp

/-- The parameters "youngs_mod" and "poisson_ratio", given together, replace E and nu of the settings. -/
theorem C129_youngs (s : String → Option K) (E nu : K) (p : String → Option K) (h1 : p "youngs_mod" = some E) (h2 : p "poisson_ratio" = some nu)
    (dim : Nat) (hd : dim ≤ 3) (haveT : Bool) (field : String → Option K) (R g : Nat → Nat → K) [CharZero K]
    (i j : Nat) :
    (computeStress dim p haveT field R g (construct s)).map (fun r => r.2 i j) =
      (computeStress dim noParams haveT field R g (construct fun n => if n = "E" then some E else if n = "nu" then some nu else
        if n = "C11" ∨ n = "C12" ∨ n = "C44" then none else s n)).map (fun r => r.2 i j) := by
  set s' : String → Option K := fun n => if n = "E" then some E else if n = "nu" then some nu else
        if n = "C11" ∨ n = "C12" ∨ n = "C44" then none else s n with hs'
  have ec : (update p (construct s)).c = (update noParams (construct s')).c := by simp [update, construct, h1, h2, noParams, hs']
  have el : (update p (construct s)).lam = (update noParams (construct s')).lam := by simp [update, construct, h1, h2, noParams, hs']
  have em : (update p (construct s)).mu = (update noParams (construct s')).mu := by simp [update, construct, h1, h2, noParams, hs']
  have er : (update p (construct s)).eref = (update noParams (construct s')).eref := by simp [update, construct, hs']
  have ea : (update p (construct s)).alpha = (update noParams (construct s')).alpha := by simp [update, construct, hs']
  have eC : ∀ i j k l, i < 3 → j < 3 → k < 3 → l < 3 → (update p (construct s)).C i j k l = (update noParams (construct s')).C i j k l := by
    intro i j k l hi hj hk hl
    by_cases h0 : (i, j, k, l) = (0, 2, 2, 0)
    · simp only [Prod.mk.injEq] at h0
      obtain ⟨rfl, rfl, rfl, rfl⟩ := h0
      rw [entry0, entry0]
    · rw [entry p s i j k l hi hj hk hl h0, entry noParams s' i j k l hi hj hk hl h0, ec]
  have es : contract dim (rotated dim R (update p (construct s)).C) (strain g) i j =
      contract dim (rotated dim R (update noParams (construct s')).C) (strain g) i j := by
    unfold contract
    refine Finset.sum_congr rfl fun k _ => Finset.sum_congr rfl fun l _ => congrArg (· * _) ?_
    unfold rotated
    refine Finset.sum_congr rfl fun i1 h1 => Finset.sum_congr rfl fun j1 h2 => Finset.sum_congr rfl fun k1 h3 => Finset.sum_congr rfl fun l1 h4 => ?_
    rw [Finset.mem_range] at h1 h2 h3 h4
    rw [eC i1 j1 k1 l1 (by omega) (by omega) (by omega) (by omega)]
  unfold computeStress
  cases haveT
  · simp [es]
  · cases field "e" <;> simp [es, el, em, er, ea]

/-! ## Temperature -/

/-- C129 is false with a temperature: the variable that switches the thermal stress on is called "T", the field that is read "e"; unless there
is a variable of that name too the read is past the end of the list of fields. -/
theorem C129_temperature_violated (dim : Nat) (p field : String → Option K) (he : field "e" = none) (R g : Nat → Nat → K) (st : State K) :
    computeStress dim p true field R g st = none := by
  simp [computeStress, he]

/-- A free expansion in three dimensions, with temperature field "e": the stress is that of the mismatch C11 - C12 - C44. -/
theorem C129_expansion_partial [CharZero K] (s field : String → Option K) (a b c T T0 alpha : K) (ha : s "C11" = some a) (hb : s "C12" = some b)
    (hc : s "C44" = some c) (h0 : s "T_ambient" = some T0) (hal : s "alpha_T" = some alpha) (he : field "e" = some T) :
    ∃ st σ, computeStress 3 noParams true field one (fun i j => if i = j then alpha * (T - T0) else 0) (construct s) = some (st, σ) ∧
      ∀ i j, i < 3 → j < 3 → σ i j = if i = j then alpha * (T - T0) * (a - b - c) else 0 := by
  refine ⟨_, _, by rw [computeStress]; simp only [if_true, he, Option.map_some]; rfl, fun i j hi hj => ?_⟩
  have e : (update noParams (construct s)).c = cubicConsts a b c := by
    simp [update, construct, noParams, ha, hb, hc, cubicConsts]
  have el : (update noParams (construct s)).lam = b := by simp [update, construct, noParams, hb]
  have em : (update noParams (construct s)).mu = c / 2 := by simp [update, construct, noParams, hc]
  have er : (update noParams (construct s)).eref = T0 := by simp [update, construct, h0]
  have ea : (update noParams (construct s)).alpha = alpha := by simp [update, construct, hal]
  rw [contract_one 3 _ _ i j hi hj, el, em, er, ea]
  interval_cases i <;> interval_cases j <;>
    simp [contract, Finset.sum_range_succ, entry, entry0, e, cubicConsts, stiffness, voigt, strain] <;> field_simp <;> ring

/-- With the default constants of a material given by E and nu a free expansion has no stress; it has none exactly when C11 = C12 + C44. -/
theorem C129_expansion [CharZero K] (s field : String → Option K) (a b c T T0 alpha : K) (ha : s "C11" = some a) (hb : s "C12" = some b)
    (hc : s "C44" = some c) (h0 : s "T_ambient" = some T0) (hal : s "alpha_T" = some alpha) (he : field "e" = some T)
    (hT : alpha * (T - T0) ≠ 0) :
    (∃ st σ, computeStress 3 noParams true field one (fun i j => if i = j then alpha * (T - T0) else 0) (construct s) = some (st, σ) ∧
      ∀ i j, i < 3 → j < 3 → σ i j = 0) ↔ a = b + c := by
  obtain ⟨st, σ, h1, h2⟩ := C129_expansion_partial s field a b c T T0 alpha ha hb hc h0 hal he
  constructor
  · rintro ⟨st', σ', h1', h2'⟩
    rw [h1] at h1'
    cases h1'
    have := (h2 0 0 (by norm_num) (by norm_num)).symm.trans (h2' 0 0 (by norm_num) (by norm_num))
    rw [if_pos rfl] at this
    rcases mul_eq_zero.1 this with h | h
    · exact absurd h hT
    · linear_combination h
  · intro h
    refine ⟨st, σ, h1, fun i j hi hj => ?_⟩
    rw [h2 i j hi hj]
    split
    · rw [h]; ring
    · rfl

/-- C129 is false for the thermal stress of a cubic crystal: with the constants of aluminium (108, 61, 28) a free expansion is not free of
stress. -/
theorem C129_expansion_violated : ∃ st σ, computeStress 3 noParams true (fun n => if n = "e" then some 1 else none) one
    (fun i j => if i = j then 1 / 1000 * (1 - 0) else 0)
    (construct (K := ℚ) fun n => if n = "C11" then some 108 else if n = "C12" then some 61 else if n = "C44" then some 28 else
      if n = "T_ambient" then some 0 else if n = "alpha_T" then some (1 / 1000) else none) = some (st, σ) ∧ σ 0 0 = 19 / 1000 := by
  obtain ⟨st, σ, h1, h2⟩ := C129_expansion_partial (K := ℚ) (fun n => if n = "C11" then some 108 else if n = "C12" then some 61 else if n = "C44" then some 28 else
      if n = "T_ambient" then some 0 else if n = "alpha_T" then some (1 / 1000) else none) (fun n => if n = "e" then some 1 else none)
      108 61 28 1 0 (1 / 1000) (by simp) (by simp) (by simp) (by simp) (by simp) (by simp)
  exact ⟨st, σ, h1, by rw [h2 0 0 (by norm_num) (by norm_num)]; norm_num⟩

/-! ## Rotations in the plane -/

/-- In two dimensions, a rotation that leaves the third axis alone gives the components of the tensor rotated in space. -/
theorem C129_plane_partial (R : Nat → Nat → K) (h0 : R 0 2 = 0) (h1 : R 1 2 = 0) (C : Tensor K) (i j k l : Nat)
    (hi : i < 2) (hj : j < 2) (hk : k < 2) (hl : l < 2) : rotated 2 R C i j k l = rotated 3 R C i j k l := by
  have hR : ∀ m < 2, R m 2 = 0 := by
    intro m hm
    interval_cases m
    · exact h0
    · exact h1
  have hs : ∀ (m : Nat) (f : Nat → K), m < 2 → ∑ x ∈ range 3, R m x * f x = ∑ x ∈ range 2, R m x * f x := by
    intro m f hm
    rw [Finset.sum_range_succ, hR m hm, zero_mul, add_zero]
  rw [rotated_nested, rotated_nested, hs i _ hi]
  simp only [hs j _ hj, hs k _ hk, hs l _ hl]

/-- C129 is false in the plane for other rotations: a quarter turn about the first axis carries a cubic crystal to itself, but in two
dimensions the loops end before the third axis, and the stress in the second direction is zero for every strain. -/
theorem C129_plane_violated (C : Tensor K) (E : Nat → Nat → K) (R : Nat → Nat → K)
    (hR : R = fun i j => match i, j with | 0, 0 => 1 | 1, 2 => -1 | 2, 1 => 1 | _, _ => 0) :
    contract 2 (rotated 2 R C) E 1 1 = 0 ∧ rotated 3 R C 1 1 1 1 = C 2 2 2 2 := by
  subst hR
  constructor
  · simp [contract, rotated, Finset.sum_range_succ]
  · simp [rotated, Finset.sum_range_succ]

/-! ## Angles -/

/-- Rotation about the third axis. [specification, no code] -/
noncomputable def rotZ (a : ℝ) : Matrix (Fin 3) (Fin 3) ℝ := !![Real.cos a, -Real.sin a, 0; Real.sin a, Real.cos a, 0; 0, 0, 1]

/-- Rotation about the first axis. [specification, no code] -/
noncomputable def rotX (a : ℝ) : Matrix (Fin 3) (Fin 3) ℝ := !![1, 0, 0; 0, Real.cos a, -Real.sin a; 0, Real.sin a, Real.cos a]

/-- The matrix of three angles in degrees is the product of the three elementary rotations, for all angles. -/
theorem C129_bunge (a b c : ℝ) : Matrix.of (fun i j : Fin 3 => bunge a b c i j) =
    rotZ (a * (Real.pi / 180)) * rotX (b * (Real.pi / 180)) * rotZ (c * (Real.pi / 180)) := by
  have hd : Real.arctan 1 / 45 = Real.pi / 180 := by rw [Real.arctan_one]; ring
  ext i j
  fin_cases i <;> fin_cases j <;>
    simp [bunge, hd, rotZ, rotX, Matrix.mul_apply, Fin.sum_univ_three] <;> ring

theorem rotZ_orth (a : ℝ) : rotZ a * (rotZ a).transpose = 1 := by
  have h := Real.sin_sq_add_cos_sq a
  ext i j
  fin_cases i <;> fin_cases j <;> simp [rotZ, Matrix.mul_apply, Fin.sum_univ_three] <;> first | ring1 | linear_combination h

theorem rotX_orth (a : ℝ) : rotX a * (rotX a).transpose = 1 := by
  have h := Real.sin_sq_add_cos_sq a
  ext i j
  fin_cases i <;> fin_cases j <;> simp [rotX, Matrix.mul_apply, Fin.sum_univ_three] <;> first | ring1 | linear_combination h

/-- It is a proper rotation. -/
theorem C129_bunge_rotation (a b c : ℝ) :
    Matrix.of (fun i j : Fin 3 => bunge a b c i j) * (Matrix.of (fun i j : Fin 3 => bunge a b c i j)).transpose = 1 ∧
    (Matrix.of (fun i j : Fin 3 => bunge a b c i j)).det = 1 := by
  rw [C129_bunge]
  constructor
  · rw [Matrix.transpose_mul, Matrix.transpose_mul]
    have e : ∀ A B C : Matrix (Fin 3) (Fin 3) ℝ, C * C.transpose = 1 → B * B.transpose = 1 → A * A.transpose = 1 →
        A * B * C * (C.transpose * (B.transpose * A.transpose)) = 1 := by
      intro A B C hC hB hA
      calc A * B * C * (C.transpose * (B.transpose * A.transpose)) = A * (B * (C * C.transpose) * B.transpose) * A.transpose := by
            simp only [Matrix.mul_assoc]
        _ = 1 := by rw [hC, Matrix.mul_one, hB, Matrix.mul_one, hA]
    exact e _ _ _ (rotZ_orth _) (rotX_orth _) (rotZ_orth _)
  · rw [Matrix.det_mul, Matrix.det_mul]
    have hz : ∀ a, (rotZ a).det = 1 := by
      intro a
      have h := Real.sin_sq_add_cos_sq a
      simp [rotZ, Matrix.det_fin_three]
      linear_combination h
    have hx : ∀ a, (rotX a).det = 1 := by
      intro a
      have h := Real.sin_sq_add_cos_sq a
      simp [rotX, Matrix.det_fin_three]
      linear_combination h
    rw [hz, hx, hz]
    norm_num

/-- Which matrix an element gets: its angles when there are angles, its matrix when there is one, the lattice frame otherwise and whenever
rotations are switched off. -/
theorem C129_choice (angles rotation : Nat → Nat → K) (usePhi useRotation : Bool) :
    frame true true useRotation angles rotation = angles ∧ frame true false true angles rotation = rotation ∧
    frame true false false angles rotation = one ∧ frame false usePhi useRotation angles rotation = one := ⟨rfl, rfl, rfl, rfl⟩

/-! ## Threads -/

theorem exec_append {R : Type} (rot : Nat → R) (a b : List Step) (s : R × (Nat → Option R)) :
    exec rot (a ++ b) s = exec rot b (exec rot a s) := by
  induction a generalizing s with
  | nil => rfl
  | cons x a ih => cases x <;> simp [exec, ih]

/-- When the elements are handled one after another, each uses its own matrix. -/
theorem C129_serial_partial {R : Type} (rot : Nat → R) (n : Nat) (s : R × (Nat → Option R)) :
    ∀ e < n, (exec rot ((List.range n).flatMap fun e => [.fill e, .use e]) s).2 e = some (rot e) := by
  induction n with
  | zero => intro e he; omega
  | succ n ih =>
    intro e he
    rw [List.range_succ, List.flatMap_append, exec_append]
    simp only [List.flatMap_cons, List.flatMap_nil, List.append_nil, exec]
    by_cases h : e = n
    · simp [h]
    · rw [if_neg h]
      exact ih e (by omega)

/-- C129 is false when elements are handled by several threads: they share one matrix, and in an order in which every thread does its own steps in
turn, element 0 uses the rotation of element 1. -/
theorem C129_threads_violated {R : Type} (rot : Nat → R) (s : R × (Nat → Option R)) :
    (exec rot [.fill 0, .fill 1, .use 0, .use 1] s).2 0 = some (rot 1) := by
  simp [exec]

end MrHyDE.Modules.Crystal
