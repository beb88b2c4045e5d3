import Verif.Modules.ShallowHybrid

/-!
# The shallow water equations, hybridised (C144): properties
-/

set_option linter.unusedSectionVars false
set_option linter.unusedSimpArgs false
set_option linter.unusedVariables false

namespace MrHyDE.Modules.ShallowHybrid

open MrHyDE.Modules.Euler (put putF Eig matVec spectral matVec_eq spectral_eq left_right lin_deriv quot_deriv)

variable {K : Type}

/-! ## Numbers and options -/

/-- C144 (numbers): when the module is the only one of its physics set its variables have the numbers of the components and all
accesses stay inside the storage.  Missing: a second module (`C144_numbers_violated`). -/
theorem C144_numbers_partial {dim : Nat} (hd : dim = 1 ∨ dim = 2) (init : Nat → Nat) :
    Own dim (setWorkset init (myvars dim)) ∧ (myvars dim).length = dim + 1 ∧
      inStorage dim (dim + 1) (setWorkset init (myvars dim)) = true := by
  rcases hd with rfl | rfl
  · refine ⟨fun c hc => ?_, rfl, ?_⟩
    · interval_cases c <;> simp [setWorkset, myvars, put, List.zipIdx]
    · simp [setWorkset, myvars, put, List.zipIdx, inStorage, numSources]
  · refine ⟨fun c hc => ?_, rfl, ?_⟩
    · interval_cases c <;> simp [setWorkset, myvars, put, List.zipIdx]
    · simp [setWorkset, myvars, put, List.zipIdx, inStorage, numSources]

/-- C144 is false when the physics set holds a variable of another module: the loops run over all variables of the set and
leave the storage of the module, whatever the numbers. -/
theorem C144_numbers_violated [Field K] [LinearOrder K] {dim nv : Nat} (hd : dim = 1 ∨ dim = 2) (hv : dim + 1 < nv) (n : Nat → Nat)
    (roe : Bool) (g : K) (ndof : Nat → Nat) (off : Nat → Nat → Nat) (pts : List (Pt K)) (spts : List (SidePt K)) (res : Nat → K) :
    volumeResidual dim nv n g ndof off pts res = none ∧ boundaryResidual dim nv n roe g ndof off spts res = none := by
  have h : inStorage dim nv n = false := by
    have : ¬ nv ≤ dim + 1 := by omega
    simp [inStorage, this]
  simp [volumeResidual, boundaryResidual, h]

/-- C144 (storage): the residuals are defined exactly when the physics set has no more variables than the module and the numbers of
its components are numbers of the set. -/
theorem C144_storage [Field K] [LinearOrder K] {dim nv : Nat} (hd : dim = 1 ∨ dim = 2) (n : Nat → Nat)
    (roe : Bool) (g : K) (ndof : Nat → Nat) (off : Nat → Nat → Nat) (pts : List (Pt K)) (spts : List (SidePt K)) (res : Nat → K) :
    ((volumeResidual dim nv n g ndof off pts res).isSome = true ↔ nv ≤ dim + 1 ∧ ∀ c ≤ dim, n c < nv) ∧
    ((boundaryResidual dim nv n roe g ndof off spts res).isSome = true ↔ nv ≤ dim + 1 ∧ ∀ c ≤ dim, n c < nv) := by
  have h : inStorage dim nv n = true ↔ nv ≤ dim + 1 ∧ ∀ c ≤ dim, n c < nv := by
    rcases hd with rfl | rfl
    · simp only [inStorage, numSources, Bool.and_eq_true, Bool.or_eq_true, decide_eq_true_eq]
      constructor
      · rintro ⟨⟨⟨⟨_, h1⟩, h2⟩, h3⟩, _⟩
        exact ⟨h1, fun c hc => by interval_cases c <;> assumption⟩
      · rintro ⟨h1, h2⟩
        exact ⟨⟨⟨⟨by simpa using h1, h1⟩, h2 0 (by omega)⟩, h2 1 (by omega)⟩, Or.inl (by omega)⟩
    · simp only [inStorage, numSources, Bool.and_eq_true, Bool.or_eq_true, decide_eq_true_eq]
      constructor
      · rintro ⟨⟨⟨⟨_, h1⟩, h2⟩, h3⟩, h4⟩
        have h4 : n 2 < nv := h4.resolve_left (by omega)
        exact ⟨h1, fun c hc => by interval_cases c <;> assumption⟩
      · rintro ⟨h1, h2⟩
        exact ⟨⟨⟨⟨by simpa using h1, h1⟩, h2 0 (by omega)⟩, h2 1 (by omega)⟩, Or.inr (h2 2 (by omega))⟩
  rw [← h]
  unfold volumeResidual boundaryResidual
  by_cases hi : inStorage dim nv n = true <;> simp [hi]

/-- [case] A transported concentration in the same physics set. -/
example : (myvars 1 ++ ["c"]).length = 3 ∧ setWorkset (fun _ => 0) ("c" :: myvars 1) 0 = 1 := by
  constructor
  · rfl
  · simp [setWorkset, myvars, put, List.zipIdx]

/-- C144 (options): the Roe-like matrix is used exactly when it is asked for, also together with the other; the message that no
stabilisation was chosen is printed exactly when neither is set. -/
theorem C144_options (maxEV roe : Option Bool) :
    ((options maxEV roe).2 = true ↔ roe = some true) ∧
    ((options maxEV roe).1 = true ↔ maxEV ≠ some true ∧ roe ≠ some true) := by
  rcases maxEV with _ | _ | _ <;> rcases roe with _ | _ | _ <;> simp [options]

/-- C144 is false for settings without a stabilisation: after the message "Error: No stabilization method chosen" the run
goes on, with the same method as with "max EV stabilization" (also when that is set to false). -/
theorem C144_neither_violated :
    (options none none).1 = true ∧ (options none none).2 = (options (some true) none).2 ∧
    (options (some false) (some false)).2 = (options (some true) none).2 := ⟨rfl, rfl, rfl⟩

/-! ## Flux -/

theorem own_cases {dim : Nat} (hd : dim = 1 ∨ dim = 2) {n : Nat → Nat} (hn : Own dim n) :
    n 0 = 0 ∧ n 1 = 1 ∧ (dim = 2 → n 2 = 2) :=
  ⟨hn 0 (by omega), hn 1 (by omega), fun h => hn 2 (by omega)⟩

section
variable [Field K] [CharZero K]

/-- C144 (flux): the flux of every equation is the one of the shallow water equations. -/
theorem C144_flux {dim : Nat} (hd : dim = 1 ∨ dim = 2) {n : Nat → Nat} (hn : Own dim n) (g : K) (s : Nat → K)
    (old : Nat → Nat → K) {c d : Nat} (hc : c ≤ dim) (hdd : d < dim) :
    fluxVector dim n g s old c d = physFlux g s d c := by
  obtain ⟨h0, h1, h2⟩ := own_cases hd hn
  have two : (2 : K) ≠ 0 := two_ne_zero
  rcases hd with rfl | rfl
  · interval_cases c <;> interval_cases d <;> simp [fluxVector, putF, h0, h1, physFlux] <;> ring
  · have h2 := h2 rfl
    interval_cases c <;> interval_cases d <;> simp [fluxVector, putF, h0, h1, h2, physFlux] <;> ring

/-- [case] Depth 2, discharge (4, 6), gravity 10: the second momentum in its own direction. -/
example : fluxVector 2 id (10 : ℚ) (fun i => if i = 0 then 2 else if i = 1 then 4 else 6) (fun _ _ => 0) 2 1 = 38 := by
  rw [C144_flux (n := id) (Or.inr rfl) (fun _ _ => rfl) _ _ _ (by omega) (by omega)]
  norm_num [physFlux]

end

/-- C144 is false in three dimensions: the module can be built there, with the variables `H`, `Hux` and `Huy`, but its residuals add
nothing to the entries, so that every state solves the equations. -/
theorem C144_three_violated [Field K] [LinearOrder K] (init : Nat → Nat) (roe : Bool) (g : K) (ndof : Nat → Nat)
    (off : Nat → Nat → Nat) (pts : List (Pt K)) (spts : List (SidePt K)) (res : Nat → K) :
    volumeResidual 3 (myvars 3).length (setWorkset init (myvars 3)) g ndof off pts res = some res ∧
    boundaryResidual 3 (myvars 3).length (setWorkset init (myvars 3)) roe g ndof off spts res = some res := by
  have hs : inStorage 3 (myvars 3).length (setWorkset init (myvars 3)) = true := by
    simp [setWorkset, myvars, put, List.zipIdx, inStorage, numSources]
  have hnil : ∀ {P : Type} (b : Nat) (ps : List P) (o : Nat → Nat) (r : Nat → K), ptLoop b ps o (fun _ _ => []) r = r := by
    intro P b ps o r
    have hb : ∀ (ds : List Nat) (q : Nat → K), ds.foldl (fun r d => bump r (o d) []) q = q := by
      intro ds
      induction ds with
      | nil => exact fun q => rfl
      | cons d ds ih =>
        intro q
        rw [List.foldl_cons, show bump q (o d) [] = q from by funext j; simp [bump, addAll], ih]
    unfold ptLoop
    induction ps generalizing r with
    | nil => rfl
    | cons p ps ih => rw [List.foldl_cons, ih, hb]
  have hrun : ∀ {P : Type} (ps : List P) (ls : List (Loop K P)) (r : Nat → K),
      (∀ l : Loop K P, l ∈ ls → l.dofFirst = false ∧ l.adds = fun _ _ => []) → runLoops off ps ls r = r := by
    intro P ps ls r h
    unfold runLoops
    induction ls generalizing r with
    | nil => rfl
    | cons l ls ih =>
      rw [List.foldl_cons, ih _ (fun m hm => h m (List.mem_cons_of_mem _ hm))]
      obtain ⟨h1, h2⟩ := h l List.mem_cons_self
      unfold Loop.run
      rw [h1, h2]
      simp [hnil]
  constructor
  · unfold volumeResidual
    rw [if_pos hs]
    congr 1
    refine hrun pts _ res fun l hl => ?_
    rw [List.mem_map] at hl
    obtain ⟨i, _, rfl⟩ := hl
    exact ⟨rfl, by funext p d; simp [volAdds]⟩
  · unfold boundaryResidual
    rw [if_pos hs]
    congr 1
    refine hrun spts _ res fun l hl => ?_
    rw [List.mem_map] at hl
    obtain ⟨i, _, rfl⟩ := hl
    exact ⟨rfl, by funext p d; simp [sideFlux]⟩

/-! ## Derivative of the flux -/

/-- Derivative of the normal flux, by velocity.  [helper] -/
noncomputable def jac (dim : Nat) (g : ℝ) (nrm t w : Nat → ℝ) : Nat → ℝ := fun i =>
  let un := ∑ d ∈ Finset.range dim, t (d + 1) / t 0 * nrm d
  let wn := ∑ d ∈ Finset.range dim, w (d + 1) * nrm d
  match i with
  | 0 => wn
  | c + 1 => w (c + 1) * un + t (c + 1) / t 0 * wn - t (c + 1) / t 0 * un * w 0 + g * t 0 * w 0 * nrm c

theorem flux_deriv {dim : Nat} (g : ℝ) (nrm : Nat → ℝ) {t : Nat → ℝ} (ht : t 0 ≠ 0) (w : Nat → ℝ) :
    FluxDeriv dim g nrm t w (jac dim g nrm t w) := by
  intro i hi
  cases i with
  | zero =>
    exact HasDerivAt.fun_sum fun d _ => (lin_deriv _ _).mul_const _
  | succ c =>
    have h1 := HasDerivAt.fun_sum (u := Finset.range dim) fun d _ =>
      ((quot_deriv (c := t (d + 1)) (d := w (d + 1)) (s := w 0) (lin_deriv (t (c + 1)) (w (c + 1))) ht)).mul_const (nrm d)
    have h2 : HasDerivAt (fun x : ℝ => g * (t 0 + x * w 0) ^ 2 / 2 * nrm c) (g * t 0 * w 0 * nrm c) 0 := by
      have h3 := ((((lin_deriv (t 0) (w 0)).fun_pow 2).const_mul g).div_const 2).mul_const (nrm c)
      refine h3.congr_deriv ?_
      push_cast
      rw [pow_one]
      ring
    have h := h1.fun_add h2
    have hf : (fun x : ℝ => normalFlux dim g nrm (fun k => t k + x * w k) (c + 1)) = fun x : ℝ =>
        (∑ d ∈ Finset.range dim, (t (c + 1) + x * w (c + 1)) * ((t (d + 1) + x * w (d + 1)) / (t 0 + x * w 0)) * nrm d) +
          g * (t 0 + x * w 0) ^ 2 / 2 * nrm c := by
      funext x
      unfold normalFlux
      have hs : ∀ d : Nat, d ∈ Finset.range dim → physFlux g (fun k => t k + x * w k) d (c + 1) * nrm d =
          (t (c + 1) + x * w (c + 1)) * ((t (d + 1) + x * w (d + 1)) / (t 0 + x * w 0)) * nrm d +
            (if c = d then g * (t 0 + x * w 0) ^ 2 / 2 * nrm d else 0) := by
        intro d _
        simp only [physFlux]
        split <;> ring
      rw [Finset.sum_congr rfl hs, Finset.sum_add_distrib, Finset.sum_ite_eq, if_pos (Finset.mem_range.mpr (by omega))]
    rw [hf]
    refine h.congr_deriv ?_
    simp only [jac]
    congr 1
    rw [Finset.mul_sum, Finset.mul_sum, Finset.mul_sum, Finset.sum_mul, ← Finset.sum_add_distrib, ← Finset.sum_sub_distrib]
    refine Finset.sum_congr rfl fun d _ => ?_
    field_simp
    ring

theorem deriv_unique {dim : Nat} {g : ℝ} {nrm t w D : Nat → ℝ} (ht : t 0 ≠ 0) (h : FluxDeriv dim g nrm t w D) {i : Nat}
    (hi : i ≤ dim) : D i = jac dim g nrm t w i := (h i hi).unique (flux_deriv g nrm ht w i hi)

/-! ## Matrices -/

/-- `R L = 1`.  [specification, no code] -/
def Inverse (m : Nat) (e : Eig ℝ) : Prop := ∀ (w : Nat → ℝ) (i : Nat), i < m →
  ∑ j ∈ Finset.range m, e.right i j * ∑ k ∈ Finset.range m, e.left j k * w k = w i

theorem inv1 {hux h a : ℝ} (ha : a ≠ 0) : Inverse 2 (eig1 hux h a) := by
  intro w i hi
  interval_cases i <;> simp [Finset.sum_range_succ, eig1] <;> field_simp <;> ring

theorem inv2 {hux huy h nx ny a : ℝ} (ha : a ≠ 0) (hh : h ≠ 0) (hn : nx ^ 2 + ny ^ 2 = 1) : Inverse 3 (eig2 hux huy h nx ny a) := by
  intro w i hi
  interval_cases i <;> simp only [Finset.sum_range_succ, Finset.sum_range_zero, eig2]
  · field_simp
    ring
  · field_simp
    linear_combination (2 * h * a * (h * w 1 - hux * w 0)) * hn
  · field_simp
    linear_combination (2 * h * a * (h * w 2 - huy * w 0)) * hn

theorem spec1 {g a : ℝ} {nrm t : Nat → ℝ} (h : IsCelerity g a t) (hn : nrm 0 = 1) (w : Nat → ℝ) {i : Nat} (hi : i < 2) :
    spectral 2 (eig1 (t 1) (t 0) a) (fun l => l) w i = jac 1 g nrm t w i := by
  obtain ⟨h0, h1, h2⟩ := h
  rw [spectral_eq]
  have hg : g = a ^ 2 / t 0 := by field_simp; linarith
  subst hg
  interval_cases i <;> simp [Finset.sum_range_succ, eig1, jac, hn] <;> field_simp <;> ring

theorem spec2 {g a : ℝ} {nrm t : Nat → ℝ} (h : IsCelerity g a t) (hn : UnitNormal 2 nrm) (w : Nat → ℝ) {i : Nat} (hi : i < 3) :
    spectral 3 (eig2 (t 1) (t 2) (t 0) (nrm 0) (nrm 1) a) (fun l => l) w i = jac 2 g nrm t w i := by
  obtain ⟨h0, h1, h2⟩ := h
  have hn' : nrm 0 ^ 2 + nrm 1 ^ 2 = 1 := by simpa [UnitNormal, Finset.sum_range_succ] using hn
  have hg : g = a ^ 2 / t 0 := by field_simp; linarith
  subst hg
  have hI := inv2 (hux := t 1) (huy := t 2) h1 h0 hn' w
  rw [spectral_eq]
  generalize hα : (fun j => ∑ k ∈ Finset.range 3, (eig2 (t 1) (t 2) (t 0) (nrm 0) (nrm 1) a).left j k * w k) = α
  have hα' : ∀ j : Nat, ∑ k ∈ Finset.range 3, (eig2 (t 1) (t 2) (t 0) (nrm 0) (nrm 1) a).left j k * w k = α j :=
    fun j => congrFun hα j
  simp only [hα'] at hI ⊢
  have w0 := hI 0 (by omega)
  have w1 := hI 1 (by omega)
  have w2 := hI 2 (by omega)
  simp only [Finset.sum_range_succ, Finset.sum_range_zero, eig2] at w0 w1 w2
  have wn : w 1 * nrm 0 + w 2 * nrm 1 = (t 1 / t 0 * nrm 0 + t 2 / t 0 * nrm 1) * (α 0 + α 2) + a * (α 0 - α 2) := by
    rw [← w1, ← w2]
    linear_combination (a * (α 0 - α 2)) * hn'
  interval_cases i
  · simp only [Finset.sum_range_succ, Finset.sum_range_zero, eig2, jac]
    simp only [zero_add]
    rw [wn]
    ring
  · simp only [Finset.sum_range_succ, Finset.sum_range_zero, eig2, jac]
    simp only [zero_add]
    rw [wn, ← w1, ← w0]
    field_simp
    ring
  · simp only [Finset.sum_range_succ, Finset.sum_range_zero, eig2, jac]
    simp only [zero_add]
    rw [show (1 + 1 : Nat) = 2 from rfl, wn, ← w2, ← w0]
    field_simp
    ring

/-- The normals the matrices are made for: in one dimension the right end of an element.  [specification, no code] -/
def GoodNormal (dim : Nat) (nrm : Nat → ℝ) : Prop := dim = 1 ∧ nrm 0 = 1 ∨ dim = 2 ∧ UnitNormal 2 nrm

theorem GoodNormal.dims {dim : Nat} {nrm : Nat → ℝ} (h : GoodNormal dim nrm) : dim = 1 ∨ dim = 2 := by
  rcases h with h | h
  · exact Or.inl h.1
  · exact Or.inr h.1

theorem eig_inv {dim : Nat} {g a : ℝ} {nrm t : Nat → ℝ} (h : IsCelerity g a t) (hn : dim = 1 ∨ dim = 2 ∧ UnitNormal 2 nrm) :
    Inverse (dim + 1) (eig dim t nrm a) := by
  rcases hn with rfl | ⟨rfl, hn⟩
  · exact inv1 h.2.1
  · exact inv2 h.2.1 h.1 (by simpa [UnitNormal, Finset.sum_range_succ] using hn)

theorem eig_jac {dim : Nat} {g a : ℝ} {nrm t : Nat → ℝ} (h : IsCelerity g a t) (hn : GoodNormal dim nrm) (w : Nat → ℝ) {i : Nat}
    (hi : i ≤ dim) : spectral (dim + 1) (eig dim t nrm a) (fun l => l) w i = jac dim g nrm t w i := by
  rcases hn with ⟨rfl, hn⟩ | ⟨rfl, hn⟩
  · exact spec1 h hn w (by omega)
  · exact spec2 h hn w (by omega)

/-- C144 (celerity): over positive depths and with positive gravity the square root of the code is the speed of gravity waves. -/
theorem C144_celerity {g : ℝ} {t : Nat → ℝ} (hg : 0 < g) (ht : 0 < t 0) :
    IsCelerity g (celerity g t) t ∧ 0 < celerity g t := by
  have hp : 0 < t 0 * g := mul_pos ht hg
  refine ⟨⟨ht.ne', (Real.sqrt_pos.mpr hp).ne', ?_⟩, Real.sqrt_pos.mpr hp⟩
  unfold celerity
  rw [Real.sq_sqrt hp.le, mul_comm]

/-- [case] Depth 4 and gravity 9: the speed is 6. -/
example : IsCelerity (9 : ℝ) 6 (fun i => if i = 0 then 4 else 1) := by norm_num [IsCelerity]

/-- C144 (Jacobian): `R Λ L` is the derivative of the flux of the trace through the side, and the two matrices are inverse to each
other, in both orders.  Missing: the left end of an element in one dimension (`C144_inflow_violated`). -/
theorem C144_jacobian_partial {dim : Nat} {g a : ℝ} {nrm t : Nat → ℝ} (h : IsCelerity g a t) (hn : GoodNormal dim nrm)
    (w : Nat → ℝ) :
    FluxDeriv dim g nrm t w (spectral (dim + 1) (eig dim t nrm a) (fun l => l) w) ∧
    (∀ i : Nat, i < dim + 1 → ∑ j ∈ Finset.range (dim + 1), (eig dim t nrm a).right i j *
      ∑ k ∈ Finset.range (dim + 1), (eig dim t nrm a).left j k * w k = w i) ∧
    (∀ i : Nat, i < dim + 1 → ∑ j ∈ Finset.range (dim + 1), (eig dim t nrm a).left i j *
      ∑ k ∈ Finset.range (dim + 1), (eig dim t nrm a).right j k * w k = w i) := by
  have hI := eig_inv h (hn.elim (fun h => Or.inl h.1) Or.inr)
  refine ⟨fun i hi => ?_, fun i hi => hI w i hi, fun i hi => left_right hI w hi⟩
  rw [eig_jac h hn w hi]
  exact flux_deriv g nrm h.1 w i hi

/-- A function of the eigenvalues acts on an eigenvector by its value at the eigenvalue. -/
theorem spectral_eigen {m : Nat} {e : Eig ℝ} (hI : Inverse m e) {w : Nat → ℝ} {μ : ℝ}
    (hw : ∀ i : Nat, i < m → spectral m e (fun l => l) w i = μ * w i) (f : ℝ → ℝ) {i : Nat} (hi : i < m) :
    spectral m e f w i = f μ * w i := by
  have hα : ∀ j : Nat, j < m → (e.lam j - μ) * (∑ k ∈ Finset.range m, e.left j k * w k) = 0 := by
    intro j hj
    have h1 := left_right hI (fun j => (∑ k ∈ Finset.range m, e.left j k * w k) * e.lam j) hj
    have h2 : ∑ q ∈ Finset.range m, e.left j q * ∑ k ∈ Finset.range m, e.right q k *
        ((∑ q ∈ Finset.range m, e.left k q * w q) * e.lam k) = μ * ∑ q ∈ Finset.range m, e.left j q * w q := by
      rw [Finset.mul_sum]
      refine Finset.sum_congr rfl fun q hq => ?_
      have h3 := hw q (Finset.mem_range.mp hq)
      rw [spectral_eq] at h3
      rw [h3]
      ring
    rw [h2] at h1
    linear_combination -h1
  rw [spectral_eq]
  have e' : ∀ j : Nat, j ∈ Finset.range m →
      e.right i j * ((∑ k ∈ Finset.range m, e.left j k * w k) * f (e.lam j)) =
      f μ * (e.right i j * ∑ k ∈ Finset.range m, e.left j k * w k) := by
    intro j hj
    rcases mul_eq_zero.mp (hα j (Finset.mem_range.mp hj)) with h | h
    · rw [sub_eq_zero.mp h]; ring
    · rw [h]; ring
  rw [Finset.sum_congr rfl e', ← Finset.mul_sum, hI w i hi]

theorem spectral_congr [Field K] {m : Nat} (e : Eig K) (f : K → K) {v w : Nat → K} (h : ∀ i : Nat, i < m → v i = w i) :
    spectral m e f v = spectral m e f w := by
  funext i
  unfold spectral
  rw [matVec_eq, matVec_eq]
  refine Finset.sum_congr rfl fun j _ => ?_
  rw [matVec_eq, matVec_eq, Finset.sum_congr rfl fun k hk => by rw [h k (Finset.mem_range.mp hk)]]

theorem delta_own [Field K] {dim : Nat} (hd : dim = 1 ∨ dim = 2) {n : Nat → Nat} (hn : Own dim n) (s t : Nat → K) {c : Nat}
    (hc : c ≤ dim) : delta dim n s t c = s c - t c := by
  obtain ⟨h0, h1, h2⟩ := own_cases hd hn
  rcases hd with rfl | rfl
  · interval_cases c <;> simp [delta, put, h0, h1]
  · have h2 := h2 rfl
    interval_cases c <;> simp [delta, put, h0, h1, h2]

/-! ## Stabilisation -/

theorem wave_sign {g : ℝ} {nrm t w : Nat → ℝ} {μ : ℝ} (ht : t 0 ≠ 0) (hn : nrm 0 = 1 ∨ nrm 0 = -1) (hw : IsWave 1 g nrm t w μ) :
    ∃ ν : ℝ, |ν| = |μ| ∧ ∀ i : Nat, i ≤ 1 → jac 1 g (fun _ => 1) t w i = ν * w i := by
  have h := fun i hi => deriv_unique ht hw (i := i) hi
  have hj : ∀ i : Nat, jac 1 g nrm t w i = nrm 0 * jac 1 g (fun _ => 1) t w i ∨ 2 ≤ i := by
    intro i
    rcases i with _ | _ | i
    · left; simp [jac]; ring
    · left; simp [jac]; ring
    · right; omega
  refine ⟨nrm 0 * μ, ?_, fun i hi => ?_⟩
  · rcases hn with hn | hn <;> simp [hn]
  · rcases hj i with h1 | h1
    · have h2 := h i hi
      rw [h1] at h2
      have hq : nrm 0 * nrm 0 = 1 := by rcases hn with hn | hn <;> simp [hn]
      linear_combination -nrm 0 * h2 - jac 1 g (fun _ => 1) t w i * hq
    · omega

/-- C144 (Roe): a jump between the state and the trace that is a wave of the trace is damped with the absolute value of its speed,
in two dimensions for every unit normal and in one dimension at both ends. -/
theorem C144_roe {dim : Nat} (hd : dim = 1 ∨ dim = 2) {n : Nat → Nat} (hn : Own dim n) {g a : ℝ} {nrm s t : Nat → ℝ}
    (h : IsCelerity g a t) (hu : UnitNormal dim nrm) {μ : ℝ} (hw : IsWave dim g nrm t (fun i => s i - t i) μ) {c : Nat}
    (hc : c ≤ dim) : stabTerm dim (dim + 1) n true a nrm s t c = |μ| * (s c - t c) := by
  simp only [stabTerm, if_true]
  rw [spectral_congr (w := fun i => s i - t i) _ _ fun i hi => delta_own hd hn s t (by omega)]
  rcases hd with rfl | rfl
  · have hn1 : nrm 0 = 1 ∨ nrm 0 = -1 := by
      have : nrm 0 ^ 2 = 1 := by simpa [UnitNormal] using hu
      exact mul_self_eq_one_iff.mp (by rw [← sq]; exact this)
    obtain ⟨ν, h1, h2⟩ := wave_sign h.1 hn1 hw
    rw [← h1]
    refine spectral_eigen (eig_inv h (Or.inl rfl)) (fun i hi => ?_) _ (by omega)
    have h3 := spec1 (nrm := fun _ => 1) h rfl (fun i => s i - t i) hi
    rw [h2 i (by omega)] at h3
    exact h3
  · refine spectral_eigen (eig_inv h (Or.inr ⟨rfl, hu⟩)) (fun i hi => ?_) _ (by omega)
    have h3 := spec2 h hu (fun i => s i - t i) hi
    rw [← deriv_unique h.1 hw (by omega)] at h3
    exact h3

theorem normalVel_eq [Field K] {dim : Nat} (hd : dim = 1 ∨ dim = 2) (s nrm : Nat → K) : normalVel dim s nrm = velN dim nrm s := by
  rcases hd with rfl | rfl <;> simp [normalVel, velN, Finset.sum_range_succ] <;> ring

/-- C144 (largest eigenvalue): the scalar stabilisation multiplies the jump of every equation by `|u·n| + a`, the largest absolute
value of a wave speed of the trace. -/
theorem C144_maxspeed [Field K] [LinearOrder K] [IsStrictOrderedRing K] {dim : Nat} (hd : dim = 1 ∨ dim = 2) {n : Nat → Nat}
    (hn : Own dim n) {a : K} (ha : 0 ≤ a) (nrm s t : Nat → K) (nv : Nat) {c : Nat} (hc : c ≤ dim) :
    stabTerm dim nv n false a nrm s t c = (|velN dim nrm t| + a) * (s c - t c) := by
  have hmax : ∀ v : K, max |v + a| |v - a| = |v| + a := by
    intro v
    rcases le_total 0 v with hv | hv
    · rw [abs_of_nonneg hv, abs_of_nonneg (add_nonneg hv ha)]
      refine max_eq_left ?_
      rw [abs_le]
      constructor <;> linarith
    · rw [abs_of_nonpos hv, abs_of_nonpos (by linarith : v - a ≤ 0)]
      rw [max_eq_right]
      · ring
      · rw [abs_le]
        constructor <;> linarith
  unfold stabTerm
  simp only [Bool.false_eq_true, if_false]
  rw [delta_own hd hn s t hc, hmax, normalVel_eq hd, mul_comm]

/-- C144 (waves): gravity waves with speed `u·n ± a`, in both dimensions and along every unit normal, so that `|u·n| + a` is
the speed of a wave. -/
theorem C144_fastest {dim : Nat} (hd : dim = 1 ∨ dim = 2) {g a : ℝ} {nrm t : Nat → ℝ} (h : IsCelerity g a t)
    (hu : UnitNormal dim nrm) :
    (∃ w : Nat → ℝ, w 0 = 1 ∧ IsWave dim g nrm t w (velN dim nrm t + a)) ∧
    (∃ w : Nat → ℝ, w 0 = 1 ∧ IsWave dim g nrm t w (velN dim nrm t - a)) ∧
    (0 < a → ∀ (w : Nat → ℝ) (μ : ℝ), IsWave dim g nrm t w μ → (∃ i : Nat, i ≤ dim ∧ w i ≠ 0) → |μ| ≤ |velN dim nrm t| + a) := by
  obtain ⟨h0, h1, h2⟩ := h
  have key : ∀ b : ℝ, b ^ 2 = g * t 0 → IsWave dim g nrm t (fun i => if i = 0 then 1 else t i / t 0 + b * nrm (i - 1))
      (velN dim nrm t + b) := by
    intro b hb i hi
    refine (flux_deriv g nrm h0 _ i hi).congr_deriv ?_
    have hwn : ∑ d ∈ Finset.range dim, (t (d + 1) / t 0 + b * nrm d) * nrm d = velN dim nrm t + b := by
      have : ∑ d ∈ Finset.range dim, (t (d + 1) / t 0 + b * nrm d) * nrm d =
          velN dim nrm t + b * ∑ d ∈ Finset.range dim, nrm d ^ 2 := by
        unfold velN
        rw [Finset.mul_sum, ← Finset.sum_add_distrib]
        exact Finset.sum_congr rfl fun d _ => by ring
      rw [this, show ∑ d ∈ Finset.range dim, nrm d ^ 2 = 1 from hu, mul_one]
    cases i with
    | zero => simpa [jac] using hwn
    | succ c =>
      simp only [jac, Nat.add_eq_zero_iff, one_ne_zero, and_false, if_false, if_true, Nat.add_sub_cancel]
      rw [hwn]
      change _ * velN dim nrm t + _ - _ * velN dim nrm t * 1 + _ = _
      linear_combination (-nrm c) * hb
  refine ⟨⟨fun i => if i = 0 then 1 else t i / t 0 + a * nrm (i - 1), if_pos rfl, key a h2⟩,
    ⟨fun i => if i = 0 then 1 else t i / t 0 + -a * nrm (i - 1), if_pos rfl, ?_⟩, ?_⟩
  · have := key (-a) (by rw [neg_sq, h2])
    rwa [← sub_eq_add_neg] at this
  · rintro ha w μ hw ⟨i, hi, hwi⟩
    have hj := fun i (hi : i ≤ dim) => deriv_unique h0 hw hi
    have e0 : μ * w 0 = ∑ d ∈ Finset.range dim, w (d + 1) * nrm d := hj 0 (by omega)
    have ec : ∀ c : Nat, c < dim → (μ - velN dim nrm t) * w (c + 1) =
        t (c + 1) / t 0 * (μ - velN dim nrm t) * w 0 + a ^ 2 * w 0 * nrm c := by
      intro c hc
      have h3 : μ * w (c + 1) = _ := hj (c + 1) (by omega)
      simp only [jac] at h3
      rw [← e0, ← show velN dim nrm t = ∑ d ∈ Finset.range dim, t (d + 1) / t 0 * nrm d from rfl] at h3
      rw [h2]
      linear_combination h3
    have hsum : (μ - velN dim nrm t) * (μ * w 0) = (μ - velN dim nrm t) * velN dim nrm t * w 0 + a ^ 2 * w 0 := by
      rw [e0, Finset.mul_sum]
      have : ∀ d ∈ Finset.range dim, (μ - velN dim nrm t) * (w (d + 1) * nrm d) =
          (μ - velN dim nrm t) * w 0 * (t (d + 1) / t 0 * nrm d) + a ^ 2 * w 0 * nrm d ^ 2 := by
        intro d hdd
        have := ec d (Finset.mem_range.mp hdd)
        linear_combination nrm d * this
      rw [Finset.sum_congr rfl this, Finset.sum_add_distrib, ← Finset.mul_sum, ← Finset.mul_sum,
        show ∑ d ∈ Finset.range dim, nrm d ^ 2 = 1 from hu,
        ← show velN dim nrm t = ∑ d ∈ Finset.range dim, t (d + 1) / t 0 * nrm d from rfl]
      ring
    have hz : ((μ - velN dim nrm t) ^ 2 - a ^ 2) * w 0 = 0 := by linear_combination hsum
    have hb : |μ - velN dim nrm t| ≤ a := by
      rcases mul_eq_zero.mp hz with hz | hz
      · have : (μ - velN dim nrm t) ^ 2 = a ^ 2 := by linarith
        rw [← abs_of_pos ha]
        exact (sq_eq_sq_iff_abs_eq_abs _ _).mp this |>.le
      · by_cases hv : μ - velN dim nrm t = 0
        · rw [hv, abs_zero]; exact ha.le
        · exfalso
          rcases i with _ | c
          · exact hwi hz
          · have h4 := ec c (by omega)
            rw [hz] at h4
            have : (μ - velN dim nrm t) * w (c + 1) = 0 := by linarith
            rcases mul_eq_zero.mp this with h5 | h5
            · exact hv h5
            · exact hwi h5
    have : |μ| ≤ |velN dim nrm t| + |μ - velN dim nrm t| := by
      have := abs_add_le (velN dim nrm t) (μ - velN dim nrm t)
      simpa using this
    linarith

/-- [case] Depth 4, gravity 9, discharge (8, 0) and the normal (3/5, 4/5): a jump that is the gravity wave with speed
`2 · 3/5 + 6` is damped with that speed. -/
example : ∃ w : Nat → ℝ, w 0 = 1 ∧ ∀ c : Nat, c ≤ 2 →
    stabTerm 2 3 id true 6 (fun d => if d = 0 then 3 / 5 else 4 / 5) (fun i => (if i = 0 then 4 else if i = 1 then 8 else 0) + w i)
      (fun i => if i = 0 then 4 else if i = 1 then 8 else 0) c = 36 / 5 * w c := by
  have h : IsCelerity (9 : ℝ) 6 (fun i => if i = 0 then 4 else if i = 1 then 8 else 0) := by norm_num [IsCelerity]
  have hu : UnitNormal (K := ℝ) 2 (fun d => if d = 0 then 3 / 5 else 4 / 5) := by norm_num [UnitNormal, Finset.sum_range_succ]
  obtain ⟨⟨w, hw0, hw⟩, _, _⟩ := C144_fastest (Or.inr rfl) h hu
  refine ⟨w, hw0, fun c hc => ?_⟩
  have hv : velN 2 (fun d => if d = 0 then (3 / 5 : ℝ) else 4 / 5) (fun i => if i = 0 then 4 else if i = 1 then 8 else 0) + 6 =
      36 / 5 := by norm_num [velN, Finset.sum_range_succ]
  rw [hv] at hw
  have := C144_roe (n := id) (Or.inr rfl) (fun _ _ => rfl) h hu
    (s := fun i => (if i = 0 then 4 else if i = 1 then 8 else 0) + w i) (μ := 36 / 5) (by simpa using hw) hc
  rw [this]
  norm_num

theorem spectral_zero [Field K] (m : Nat) (e : Eig K) (f : K → K) : spectral m e f (fun _ => 0) = fun _ => 0 := by
  funext i
  unfold spectral
  rw [matVec_eq]
  refine Finset.sum_eq_zero fun j _ => ?_
  rw [matVec_eq, Finset.sum_eq_zero fun k _ => mul_zero _, zero_mul, mul_zero]

theorem delta_self [Field K] (dim : Nat) (n : Nat → Nat) (s : Nat → K) : delta dim n s s = fun _ => 0 := by
  funext i
  simp only [delta, sub_self, put]
  split <;> simp [put]

/-- C144 (consistency): a trace equal to the state gets no stabilisation, and the far-field condition with that state vanishes,
for all dimensions, numbers and normals. -/
theorem C144_consistent [Field K] [LinearOrder K] (dim nv : Nat) (n : Nat → Nat) (roe : Bool) (a : K) (nrm s : Nat → K) :
    stabTerm dim nv n roe a nrm s s = (fun _ => 0) ∧ farField dim nv n a nrm s s s = fun _ => 0 := by
  constructor
  · funext i
    cases roe <;> simp [stabTerm, delta_self, spectral_zero]
  · funext i
    simp only [farField, delta_self, spectral_zero, sub_self]

/-! ## Far field -/

/-- C144 (far field): the condition on the trace holds exactly when every characteristic of the trace that leaves the domain has the
value of the state inside, and every one that enters has the value of the given state.  Missing: the left end of an element in one
dimension (`C144_inflow_violated`). -/
theorem C144_farfield_partial {dim : Nat} {n : Nat → Nat} (hn : Own dim n) {g a : ℝ} {nrm s t far : Nat → ℝ}
    (h : IsCelerity g a t) (hu : GoodNormal dim nrm) :
    (∀ c : Nat, c ≤ dim → farField dim (dim + 1) n a nrm s t far c = 0) ↔
    ∀ (ell : Nat → ℝ) (μ : ℝ), IsChar dim g nrm t ell μ →
      (0 < μ → ∑ i ∈ Finset.range (dim + 1), ell i * t i = ∑ i ∈ Finset.range (dim + 1), ell i * s i) ∧
      (μ < 0 → ∑ i ∈ Finset.range (dim + 1), ell i * t i = ∑ i ∈ Finset.range (dim + 1), ell i * far i) := by
  have hI := eig_inv h (hu.elim (fun h => Or.inl h.1) Or.inr)
  have hJ := fun (w : Nat → ℝ) (i : Nat) (hi : i ≤ dim) => eig_jac h hu w hi
  have hd := hu.dims
  generalize he : eig dim t nrm a = e at hI hJ
  have hL := fun (x : Nat → ℝ) (i : Nat) (hi : i < dim + 1) => left_right hI x hi
  have hfar : ∀ c : Nat, c ≤ dim → farField dim (dim + 1) n a nrm s t far c =
      ∑ j ∈ Finset.range (dim + 1), e.right c j *
        ((∑ k ∈ Finset.range (dim + 1), e.left j k * (s k - t k)) * ((e.lam j + |e.lam j|) / 2) -
         (∑ k ∈ Finset.range (dim + 1), e.left j k * (far k - t k)) * ((e.lam j - |e.lam j|) / 2)) := by
    intro c hc
    simp only [farField, he]
    rw [spectral_congr (w := fun i => s i - t i) _ _ fun i hi => delta_own hd hn s t (by omega),
      spectral_congr (w := fun i => far i - t i) _ _ fun i hi => delta_own hd hn far t (by omega),
      spectral_eq, spectral_eq, ← Finset.sum_sub_distrib]
    exact Finset.sum_congr rfl fun j _ => by ring
  constructor
  · intro hz ell μ hc
    have hr : ∀ j : Nat, j < dim + 1 → (e.lam j - μ) * ∑ i ∈ Finset.range (dim + 1), ell i * e.right i j = 0 := by
      intro j hj
      have h1 := hc (fun i => e.right i j) _ (flux_deriv g nrm h.1 _)
      have h2 : ∀ i ∈ Finset.range (dim + 1), ell i * jac dim g nrm t (fun i => e.right i j) i = e.lam j * (ell i * e.right i j) := by
        intro i hi
        rw [← hJ _ i (by have := Finset.mem_range.mp hi; omega), spectral_eq]
        have h3 := fun (m : Nat) (hm : m < dim + 1) => hL (fun q => if q = j then 1 else 0) m hm
        have h4 : ∀ m : Nat, m < dim + 1 → ∑ k ∈ Finset.range (dim + 1), e.left m k * e.right k j = if m = j then 1 else 0 := by
          intro m hm
          rw [← h3 m hm]
          refine Finset.sum_congr rfl fun k _ => ?_
          simp [hj]
        rw [Finset.sum_congr rfl fun m hm => by rw [h4 m (Finset.mem_range.mp hm)]]
        simp [hj]
        ring
      rw [Finset.sum_congr rfl h2, ← Finset.mul_sum] at h1
      linear_combination h1
    have hv : ∀ v : Nat → ℝ, ∑ j ∈ Finset.range (dim + 1), (∑ i ∈ Finset.range (dim + 1), ell i * e.right i j) *
        (∑ k ∈ Finset.range (dim + 1), e.left j k * v k) = ∑ i ∈ Finset.range (dim + 1), ell i * v i := by
      intro v
      have hx : ∑ i ∈ Finset.range (dim + 1), ell i * v i = ∑ i ∈ Finset.range (dim + 1), ell i *
          ∑ j ∈ Finset.range (dim + 1), e.right i j * ∑ k ∈ Finset.range (dim + 1), e.left j k * v k :=
        Finset.sum_congr rfl fun i hi => by rw [hI v i (Finset.mem_range.mp hi)]
      rw [hx, Finset.sum_congr rfl fun j _ => Finset.sum_mul _ _ _, Finset.sum_comm]
      refine Finset.sum_congr rfl fun i _ => ?_
      rw [Finset.mul_sum]
      exact Finset.sum_congr rfl fun j _ => by ring
    have hq : ∀ (f : ℝ → ℝ) (v : Nat → ℝ), ∑ j ∈ Finset.range (dim + 1), (∑ i ∈ Finset.range (dim + 1), ell i * e.right i j) *
        ((∑ k ∈ Finset.range (dim + 1), e.left j k * v k) * f (e.lam j)) = f μ * ∑ i ∈ Finset.range (dim + 1), ell i * v i := by
      intro f v
      rw [← hv v, Finset.mul_sum]
      refine Finset.sum_congr rfl fun j hj => ?_
      rcases mul_eq_zero.mp (hr j (Finset.mem_range.mp hj)) with h5 | h5
      · rw [sub_eq_zero.mp h5]; ring
      · rw [h5]; ring
    have hsum : ∑ c ∈ Finset.range (dim + 1), ell c * farField dim (dim + 1) n a nrm s t far c =
        (μ + |μ|) / 2 * ∑ i ∈ Finset.range (dim + 1), ell i * (s i - t i) -
        (μ - |μ|) / 2 * ∑ i ∈ Finset.range (dim + 1), ell i * (far i - t i) := by
      rw [← hq (fun l => (l + |l|) / 2), ← hq (fun l => (l - |l|) / 2), ← Finset.sum_sub_distrib]
      rw [Finset.sum_congr rfl fun c hc => by rw [hfar c (by have := Finset.mem_range.mp hc; omega)]]
      rw [Finset.sum_congr rfl fun c _ => Finset.mul_sum _ _ _, Finset.sum_comm]
      refine Finset.sum_congr rfl fun j _ => ?_
      generalize ∑ k ∈ Finset.range (dim + 1), e.left j k * (s k - t k) = X
      generalize ∑ k ∈ Finset.range (dim + 1), e.left j k * (far k - t k) = Y
      rw [← mul_sub, Finset.sum_mul]
      exact Finset.sum_congr rfl fun i _ => by ring
    rw [Finset.sum_eq_zero fun c hc => by rw [hz c (by have := Finset.mem_range.mp hc; omega), mul_zero]] at hsum
    have hsub : ∀ v : Nat → ℝ, ∑ i ∈ Finset.range (dim + 1), ell i * (v i - t i) =
        (∑ i ∈ Finset.range (dim + 1), ell i * v i) - ∑ i ∈ Finset.range (dim + 1), ell i * t i := by
      intro v
      rw [← Finset.sum_sub_distrib]
      exact Finset.sum_congr rfl fun i _ => by ring
    rw [hsub, hsub] at hsum
    constructor
    · intro hμ
      rw [abs_of_pos hμ] at hsum
      have : μ * ((∑ i ∈ Finset.range (dim + 1), ell i * s i) - ∑ i ∈ Finset.range (dim + 1), ell i * t i) = 0 := by
        linear_combination -hsum
      rcases mul_eq_zero.mp this with h6 | h6
      · exact absurd h6 hμ.ne'
      · linarith
    · intro hμ
      rw [abs_of_neg hμ] at hsum
      have : μ * ((∑ i ∈ Finset.range (dim + 1), ell i * far i) - ∑ i ∈ Finset.range (dim + 1), ell i * t i) = 0 := by
        linear_combination hsum
      rcases mul_eq_zero.mp this with h6 | h6
      · exact absurd h6 hμ.ne
      · linarith
  · intro hc c hcd
    rw [hfar c hcd]
    refine Finset.sum_eq_zero fun j hj => ?_
    have hj' := Finset.mem_range.mp hj
    have hchar : IsChar dim g nrm t (fun i => e.left j i) (e.lam j) := by
      intro w D hD
      have h1 : ∀ i ∈ Finset.range (dim + 1), e.left j i * D i = e.left j i * ∑ m ∈ Finset.range (dim + 1), e.right i m *
          ((∑ k ∈ Finset.range (dim + 1), e.left m k * w k) * e.lam m) := by
        intro i hi
        have hi' : i ≤ dim := by have := Finset.mem_range.mp hi; omega
        rw [deriv_unique h.1 hD hi', ← hJ w i hi', spectral_eq]
      rw [Finset.sum_congr rfl h1, hL _ j hj', mul_comm]
    obtain ⟨h1, h2⟩ := hc _ _ hchar
    have hsub : ∀ v : Nat → ℝ, ∑ k ∈ Finset.range (dim + 1), e.left j k * (v k - t k) =
        (∑ k ∈ Finset.range (dim + 1), e.left j k * v k) - ∑ k ∈ Finset.range (dim + 1), e.left j k * t k := by
      intro v
      rw [← Finset.sum_sub_distrib]
      exact Finset.sum_congr rfl fun i _ => by ring
    rw [hsub, hsub]
    rcases lt_trichotomy (e.lam j) 0 with h3 | h3 | h3
    · rw [h2 h3, abs_of_neg h3]; ring
    · rw [h3]; simp
    · rw [h1 h3, abs_of_pos h3]; ring

/-- [case] A normal the far-field theorem covers. -/
example : GoodNormal 2 (fun d => if d = 0 then 3 / 5 else 4 / 5) :=
  Or.inr ⟨rfl, by norm_num [UnitNormal, Finset.sum_range_succ]⟩

/-- C144 is false at the left end of an element in one dimension: the matrices ignore the normal, so that a fast inflow
(`g = 1`, depth 1, velocity 3: both speeds `-3 ± 1` along the normal `-1` are negative) should impose the given state, but the
condition is met for every given state when the trace equals the interior state. -/
theorem C144_inflow_violated (far : Nat → ℝ) : ∃ t : Nat → ℝ, IsCelerity 1 1 t ∧ velN 1 (fun _ => -1) t + 1 < 0 ∧
    ∀ c : Nat, c ≤ 1 → farField 1 2 id 1 (fun _ => -1) t t far c = 0 := by
  refine ⟨fun i => if i = 0 then 1 else 3, ?_, ?_, ?_⟩
  · norm_num [IsCelerity]
  · norm_num [velN]
  · intro c hc
    simp only [farField, delta_self, spectral_zero, eig, if_true]
    rw [zero_sub, neg_eq_zero, spectral_eq]
    refine Finset.sum_eq_zero fun j hj => ?_
    have hj' : j < 2 := Finset.mem_range.mp hj
    have : ((eig1 (3 : ℝ) 1 1).lam j - |(eig1 (3 : ℝ) 1 1).lam j|) / 2 = 0 := by
      interval_cases j <;> norm_num [eig1]
    simp only [one_ne_zero, if_false] at this ⊢
    rw [this]
    ring

/-! ## Slip -/

/-- C144 (slip): the slip condition vanishes exactly when the trace has the depth of the state and its velocity without the normal
component; then no water passes the wall. -/
theorem C144_slip [Field K] {dim : Nat} (hd : dim = 1 ∨ dim = 2) {n : Nat → Nat} (hn : Own dim n) {nrm : Nat → K}
    (hu : UnitNormal dim nrm) (s t old : Nat → K) :
    ((∀ c : Nat, c ≤ dim → slip dim n nrm s t old c = 0) ↔
      (t 0 = s 0 ∧ ∀ c : Nat, c < dim → t (c + 1) / t 0 = s (c + 1) / s 0 - velN dim nrm s * nrm c)) ∧
    ((∀ c : Nat, c ≤ dim → slip dim n nrm s t old c = 0) → velN dim nrm t = 0) := by
  obtain ⟨h0, h1, h2⟩ := own_cases hd hn
  have b0 : slip dim n nrm s t old 0 = s 0 - t 0 := by
    rcases hd with rfl | rfl
    · simp [slip, put, h0, h1]
    · simp [slip, put, h0, h1, h2 rfl]
  have b1 : ∀ c : Nat, c < dim → slip dim n nrm s t old (c + 1) = s (c + 1) / s 0 - velN dim nrm s * nrm c - t (c + 1) / t 0 := by
    intro c hc
    rw [← normalVel_eq hd]
    generalize hq : normalVel dim s nrm = q
    rcases hd with rfl | rfl
    · interval_cases c; simp [slip, put, h0, h1, hq]
    · interval_cases c <;> simp [slip, put, h0, h1, h2 rfl, hq]
  have key : (∀ c : Nat, c ≤ dim → slip dim n nrm s t old c = 0) ↔
      (t 0 = s 0 ∧ ∀ c : Nat, c < dim → t (c + 1) / t 0 = s (c + 1) / s 0 - velN dim nrm s * nrm c) := by
    constructor
    · intro h
      refine ⟨?_, fun c hc => ?_⟩
      · have := h 0 (by omega)
        rw [b0] at this
        exact (sub_eq_zero.mp this).symm
      · have := h (c + 1) (by omega)
        rw [b1 c hc] at this
        exact (sub_eq_zero.mp this).symm
    · rintro ⟨e0, e1⟩ c hc
      cases c with
      | zero => rw [b0, e0, sub_self]
      | succ c => rw [b1 c (by omega), e1 c (by omega), sub_self]
  refine ⟨key, fun h => ?_⟩
  obtain ⟨_, h3⟩ := key.mp h
  have e : ∀ d ∈ Finset.range dim, t (d + 1) / t 0 * nrm d = s (d + 1) / s 0 * nrm d - velN dim nrm s * nrm d ^ 2 := by
    intro d hdd
    rw [h3 d (Finset.mem_range.mp hdd)]
    ring
  have hv : velN dim nrm t = ∑ d ∈ Finset.range dim, t (d + 1) / t 0 * nrm d := rfl
  rw [hv, Finset.sum_congr rfl e, Finset.sum_sub_distrib, ← Finset.mul_sum, show ∑ c ∈ Finset.range dim, nrm c ^ 2 = 1 from hu]
  change velN dim nrm s - _ = 0
  ring

/-- [case] A wall along the diagonal `(3/5, 4/5)`: the velocity (1, 0) leaves (16/25, -12/25). -/
example : (16 / 25 : ℚ) = 1 / 1 - velN 2 (fun d => if d = 0 then 3 / 5 else 4 / 5) (fun i => if i ≤ 1 then 1 else 0) * (3 / 5) := by
  norm_num [velN, Finset.sum_range_succ]

/-! ## Sides -/

section
variable [Field K] [CharZero K]

theorem sideFlux_own {dim : Nat} (hd : dim = 1 ∨ dim = 2) {n : Nat → Nat} (hn : Own dim n) (g : K) (t nrm : Nat → K)
    (old : Nat → Nat → K) (stab : Nat → K) {c : Nat} (hc : c ≤ dim) :
    sideFlux dim (fluxVector dim n g t old) stab nrm c = some (normalFlux dim g nrm t c + stab c) := by
  have hf := fun (d : Nat) (hdd : d < dim) => C144_flux hd hn g t old hc hdd
  unfold normalFlux
  rw [Finset.sum_congr rfl fun d hdd => by rw [← hf d (Finset.mem_range.mp hdd)]]
  rcases hd with rfl | rfl <;> simp [sideFlux, Finset.sum_range_succ]

variable [LinearOrder K]

/-- C144 (interface): on a side between elements the flux is that of the trace through the side plus the chosen stabilisation. -/
theorem C144_interface {dim : Nat} (hd : dim = 1 ∨ dim = 2) {n : Nat → Nat} (hn : Own dim n) (roe : Bool) (g a : K)
    (nrm s t far : Nat → K) (oldF : Nat → Nat → K) (oldB old : Nat → K) {c : Nat} (hc : c ≤ dim) :
    computeFlux dim (dim + 1) n roe "interface" g a nrm s t far oldF oldB old c =
      normalFlux dim g nrm t c + stabTerm dim (dim + 1) n roe a nrm s t c := by
  unfold computeFlux
  simp only [show ("interface" = "Far-field") = False by simp, show ("interface" = "Slip") = False by simp, if_false,
    or_self, if_true]
  rw [if_pos (by omega), sideFlux_own hd hn g t nrm oldF _ hc]
  rfl

/-- C144 (conditions): on a side with a condition the flux is that condition, and only the entries of the module's own variables are
written. -/
theorem C144_conditions (dim nv : Nat) (n : Nat → Nat) (roe : Bool) (g a : K) (nrm s t far : Nat → K) (oldF : Nat → Nat → K)
    (oldB old : Nat → K) :
    (∀ i : Nat, i < nv →
      computeFlux dim nv n roe "Far-field" g a nrm s t far oldF oldB old i = farField dim nv n a nrm s t far i ∧
      computeFlux dim nv n roe "Slip" g a nrm s t far oldF oldB old i = slip dim n nrm s t oldB i) ∧
    (∀ (sidetype : String) (i : Nat), nv ≤ i →
      computeFlux dim nv n roe sidetype g a nrm s t far oldF oldB old i = old i) := by
  constructor
  · intro i hi
    simp [computeFlux, hi]
  · intro sidetype i hi
    have : ¬ i < nv := by omega
    by_cases h1 : sidetype = "Far-field" ∨ sidetype = "Slip" <;> by_cases h2 : sidetype = "interface" <;>
      simp [computeFlux, h1, h2, this]

/-- C144 is false on a side with any condition other than `Far-field`, `Slip` or `interface`, for instance `Dirichlet`: the flux
that was there before stays. -/
theorem C144_sides_violated (dim nv : Nat) (n : Nat → Nat) (roe : Bool) {sidetype : String}
    (h : sidetype ≠ "Far-field" ∧ sidetype ≠ "Slip" ∧ sidetype ≠ "interface") (g a : K) (nrm s t far : Nat → K)
    (oldF : Nat → Nat → K) (oldB old : Nat → K) :
    computeFlux dim nv n roe sidetype g a nrm s t far oldF oldB old = old := by
  unfold computeFlux
  simp only [h.1, h.2.1, h.2.2, if_false, or_self]

variable [IsStrictOrderedRing K]

/-- C144 (balance across a side): two elements share the trace of a side; with the scalar stabilisation what one loses is what the
other gains exactly when the trace is the average of the two states. -/
theorem C144_balance {dim : Nat} (hd : dim = 1 ∨ dim = 2) {n : Nat → Nat} (hn : Own dim n) (g : K) {a : K} (ha : 0 < a)
    (nrm s1 s2 t far : Nat → K) (oldF : Nat → Nat → K) (oldB old : Nat → K) {c : Nat} (hc : c ≤ dim) :
    computeFlux dim (dim + 1) n false "interface" g a nrm s1 t far oldF oldB old c +
      computeFlux dim (dim + 1) n false "interface" g a (fun d => -nrm d) s2 t far oldF oldB old c = 0 ↔
    t c = (s1 c + s2 c) / 2 := by
  rw [C144_interface hd hn, C144_interface hd hn, C144_maxspeed hd hn ha.le _ _ _ _ hc, C144_maxspeed hd hn ha.le _ _ _ _ hc]
  · have h1 : normalFlux dim g (fun d => -nrm d) t c = -normalFlux dim g nrm t c := by
      unfold normalFlux
      rw [← Finset.sum_neg_distrib]
      exact Finset.sum_congr rfl fun d _ => by ring
    have h2 : velN dim (fun d => -nrm d) t = -velN dim nrm t := by
      unfold velN
      rw [← Finset.sum_neg_distrib]
      exact Finset.sum_congr rfl fun d _ => by ring
    rw [h1, h2, abs_neg]
    have hpos : 0 < |velN dim nrm t| + a := add_pos_of_nonneg_of_pos (abs_nonneg _) ha
    generalize hS : |velN dim nrm t| + a = S at hpos ⊢
    have hsum : normalFlux dim g nrm t c + S * (s1 c - t c) + (-normalFlux dim g nrm t c + S * (s2 c - t c)) =
        S * (s1 c + s2 c - 2 * t c) := by ring
    rw [hsum, mul_eq_zero]
    constructor
    · rintro (h | h)
      · exact absurd h hpos.ne'
      · rw [eq_div_iff (by norm_num)]
        linear_combination -h
    · intro h
      right
      rw [h]
      ring
  · exact hc
  · exact hc

/-- [case] Depths 1 and 3 with the trace 2 between them. -/
example : (2 : ℚ) = (1 + 3) / 2 := by norm_num

end

/-! ## The residual -/

section
variable [Field K] [CharZero K]

theorem range_at {m i : Nat} (hi : i < m) (f : Nat → K) : ((List.range m).map (fun j => if j = i then f j else 0)).sum = f i := by
  rw [← List.sum_toFinset _ List.nodup_range, List.toFinset_range, Finset.sum_ite_eq' (Finset.range m) i f,
    if_pos (Finset.mem_range.mpr hi)]

theorem own_storage {dim : Nat} (hd : dim = 1 ∨ dim = 2) {n : Nat → Nat} (hn : Own dim n) : inStorage dim (dim + 1) n = true := by
  obtain ⟨h0, h1, h2⟩ := own_cases hd hn
  rcases hd with rfl | rfl
  · simp [inStorage, numSources, h0, h1]
  · simp [inStorage, numSources, h0, h1, h2 rfl]

/-- C144 (volume): the entry of every equation and basis function grows by the weak form of its conservation law,
`(∂S/∂t − source) φ − F(S)·∇φ`. -/
theorem C144_volume {dim : Nat} (hd : dim = 1 ∨ dim = 2) {n : Nat → Nat} (hn : Own dim n) (g : K) {ndof : Nat → Nat}
    {off : Nat → Nat → Nat} (hoff : DistinctAll (dim + 1) ndof off) (pts : List (Pt K)) (res : Nat → K) {c d : Nat}
    (hc : c ≤ dim) (hdd : d < ndof c) :
    ∃ r : Nat → K, volumeResidual dim (dim + 1) n g ndof off pts res = some r ∧ r (off c d) = res (off c d) +
      quad pts (fun p => p.wts * ((p.dt c - p.src c) * p.basis c d -
        ∑ k ∈ Finset.range dim, physFlux g p.st k c * p.grad c d k)) := by
  refine ⟨_, by unfold volumeResidual; rw [if_pos (own_storage hd hn)], ?_⟩
  rw [runLoops_at hoff pts _ ?_ res (by omega) hdd]
  · congr 1
    refine quad_congr pts fun p _ => ?_
    unfold termsAt
    rw [List.map_map]
    simp only [Function.comp_def]
    rw [range_at (by omega) (fun i => (volAdds dim n g i p d).sum)]
    have hf := fun (k : Nat) (hk : k < dim) => C144_flux hd hn g p.st (fun _ _ => 0) hc hk
    rw [Finset.sum_congr rfl fun k hk => by rw [← hf k (Finset.mem_range.mp hk)]]
    rcases hd with rfl | rfl <;> simp [volAdds, Finset.sum_range_succ] <;> ring
  · intro q hq
    rw [List.mem_map] at hq
    obtain ⟨i, hi, rfl⟩ := hq
    exact ⟨List.mem_range.mp hi, rfl⟩

/-- C144 (sides of an element): the entry of every equation and basis function grows by the flux of the trace through the side plus
the stabilisation, tested with the basis function, on every side whatever its condition. -/
theorem C144_boundary [LinearOrder K] {dim : Nat} (hd : dim = 1 ∨ dim = 2) {n : Nat → Nat} (hn : Own dim n) (roe : Bool) (g : K)
    {ndof : Nat → Nat} {off : Nat → Nat → Nat} (hoff : DistinctAll (dim + 1) ndof off) (pts : List (SidePt K)) (res : Nat → K)
    {c d : Nat} (hc : c ≤ dim) (hdd : d < ndof c) :
    ∃ r : Nat → K, boundaryResidual dim (dim + 1) n roe g ndof off pts res = some r ∧ r (off c d) = res (off c d) +
      quad pts (fun p => p.wts * p.basis c d *
        (normalFlux dim g p.nrm p.tr c + stabTerm dim (dim + 1) n roe p.cel p.nrm p.st p.tr c)) := by
  refine ⟨_, by unfold boundaryResidual; rw [if_pos (own_storage hd hn)], ?_⟩
  rw [runLoops_at hoff pts _ ?_ res (by omega) hdd]
  · congr 1
    refine quad_congr pts fun p _ => ?_
    unfold termsAt
    rw [List.map_map]
    simp only [Function.comp_def]
    refine (range_at (m := dim + 1) (i := c) (by omega) (fun i => (match sideFlux dim (fluxVector dim n g p.tr (fun _ _ => 0))
        (stabTerm dim (dim + 1) n roe p.cel p.nrm p.st p.tr) p.nrm i with
      | some x => [x * p.wts * p.basis i d]
      | none => []).sum)).trans ?_
    rw [sideFlux_own hd hn g p.tr p.nrm _ _ hc]
    simp
    ring
  · intro q hq
    rw [List.mem_map] at hq
    obtain ⟨i, hi, rfl⟩ := hq
    exact ⟨List.mem_range.mp hi, rfl⟩

/-- C144 (steady uniform flow): with state and trace constant, no sources and a quadrature that satisfies the divergence theorem for
the basis function (the gradient over the element is the basis function over its sides), element and sides together add nothing. -/
theorem C144_uniform [LinearOrder K] {dim : Nat} (hd : dim = 1 ∨ dim = 2) {n : Nat → Nat} (hn : Own dim n) (roe : Bool) (g : K)
    {ndof : Nat → Nat} {off : Nat → Nat → Nat} (hoff : DistinctAll (dim + 1) ndof off) (pts : List (Pt K)) (spts : List (SidePt K))
    (s : Nat → K) (hp : ∀ p ∈ pts, p.st = s ∧ p.dt = (fun _ => 0) ∧ p.src = fun _ => 0)
    (hq : ∀ q ∈ spts, q.st = s ∧ q.tr = s) {c d : Nat} (hc : c ≤ dim) (hdd : d < ndof c)
    (hdiv : ∀ k : Nat, k < dim → quad pts (fun p => p.wts * p.grad c d k) = quad spts (fun q => q.wts * q.basis c d * q.nrm k))
    (res : Nat → K) :
    ∃ r1 r2 : Nat → K, volumeResidual dim (dim + 1) n g ndof off pts res = some r1 ∧
      boundaryResidual dim (dim + 1) n roe g ndof off spts r1 = some r2 ∧ r2 (off c d) = res (off c d) := by
  obtain ⟨r1, h1, h2⟩ := C144_volume hd hn g hoff pts res hc hdd
  obtain ⟨r2, h3, h4⟩ := C144_boundary hd hn roe g hoff spts r1 hc hdd
  refine ⟨r1, r2, h1, h3, ?_⟩
  rw [h4, h2]
  have e1 : quad pts (fun p => p.wts * ((p.dt c - p.src c) * p.basis c d - ∑ k ∈ Finset.range dim, physFlux g p.st k c * p.grad c d k)) =
      -∑ k ∈ Finset.range dim, physFlux g s k c * quad pts (fun p => p.wts * p.grad c d k) := by
    rw [Finset.sum_congr rfl fun k _ => quad_mul_left pts (physFlux g s k c) _, quad_sum, ← quad_neg]
    refine quad_congr pts fun p hpp => ?_
    obtain ⟨a1, a2, a3⟩ := hp p hpp
    rw [a1, a2, a3]
    simp only [sub_self, zero_mul, zero_sub, mul_neg, Finset.mul_sum]
    congr 1
    exact Finset.sum_congr rfl fun k _ => by ring
  have e2 : quad spts (fun p => p.wts * p.basis c d * (normalFlux dim g p.nrm p.tr c +
      stabTerm dim (dim + 1) n roe p.cel p.nrm p.st p.tr c)) =
      ∑ k ∈ Finset.range dim, physFlux g s k c * quad spts (fun q => q.wts * q.basis c d * q.nrm k) := by
    rw [Finset.sum_congr rfl fun k _ => quad_mul_left spts (physFlux g s k c) _, quad_sum]
    refine quad_congr spts fun q hqq => ?_
    obtain ⟨a1, a2⟩ := hq q hqq
    rw [a1, a2, (C144_consistent dim (dim + 1) n roe q.cel q.nrm s).1]
    simp only [add_zero, normalFlux, Finset.mul_sum]
    exact Finset.sum_congr rfl fun k _ => by ring
  rw [e1, e2, Finset.sum_congr rfl fun k hk => by rw [hdiv k (Finset.mem_range.mp hk)]]
  ring

/-- [case] One element `[0,1]` in one dimension with the basis function `x`: gradient 1, and one at the right end. -/
example : quad [(1 : ℚ)] (fun w => w * 1) = quad [((1 : ℚ), (1 : ℚ), (1 : ℚ)), (1, 0, -1)] (fun q => q.1 * q.2.1 * q.2.2) := by
  norm_num [quad]

end

end MrHyDE.Modules.ShallowHybrid
