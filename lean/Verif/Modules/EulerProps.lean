import Verif.Modules.EulerLemmas

/-!
# The Euler equations, hybridised (C125): properties
-/

set_option linter.unusedSectionVars false
set_option linter.unusedSimpArgs false
set_option linter.unusedVariables false

namespace MrHyDE.Modules.Euler

variable {K : Type}

/-- The numbers are those of the module alone.  [specification, no code] -/
def Own (dim : Nat) (n : Nums) : Prop := ∀ l : Law, l.ok dim → n.of l = ownNums.of l

/-- The jump of two states by law, in the order of the matrices.  [specification, no code] -/
def jump [Sub K] (dim : Nat) (s t : State K) (i : Nat) : K := s.get (lawAt dim i) - t.get (lawAt dim i)

/-- `w` is an eigenvector, with eigenvalue `μ`, of the derivative of the flux through a side at the state `s`.
[specification, no code] -/
def IsWave (dim : Nat) (gamma : ℝ) (nrm : Nat → ℝ) (s : State ℝ) (w : Nat → ℝ) (μ : ℝ) : Prop :=
  ∀ i : Nat, i < dim + 2 →
    HasDerivAt (fun x : ℝ => normalFlux dim gamma nrm (s.move dim x w) (lawAt dim i)) (μ * w i) 0

/-! ## Numbers -/

theorem own_nums {dim : Nat} (hd : 1 ≤ dim) {n : Nums} (h : Own dim n) :
    n.rho = 0 ∧ n.rhoux = 1 ∧ n.rhoE = 2 ∧ (1 < dim → n.rhouy = 3) ∧ (2 < dim → n.rhouz = 4) := by
  have h0 := h .mass trivial
  have h1 := h (.momentum 0) (show 0 < dim by omega)
  have h2 := h .energy trivial
  simp only [Nums.of, ownNums, if_true] at h0 h1 h2
  refine ⟨h0, h1, h2, fun hx => ?_, fun hx => ?_⟩
  · simpa [Nums.of, ownNums] using h (.momentum 1) hx
  · simpa [Nums.of, ownNums] using h (.momentum 2) hx

/-- C125 (numbers): when the module is the only one of its physics set the numbers are those of its own variables and stay
inside its storage.  Missing: a second module before it (`C125_numbers_violated`). -/
theorem C125_numbers_partial {dim : Nat} (hd : 1 ≤ dim ∧ dim ≤ 3) (init : Nums) :
    Own dim (setWorkset init (myvars dim)) ∧ inStorage dim (setWorkset init (myvars dim)) = true := by
  obtain ⟨h1, h3⟩ := hd
  interval_cases dim <;>
  · refine ⟨fun l hl => ?_, by simp [setWorkset, myvars, inStorage, List.zipIdx]⟩
    cases l with
    | mass => simp [setWorkset, myvars, Nums.of, ownNums, List.zipIdx]
    | energy => simp [setWorkset, myvars, Nums.of, ownNums, List.zipIdx]
    | momentum c =>
      have hc : c < _ := hl
      interval_cases c <;> simp [setWorkset, myvars, Nums.of, ownNums, List.zipIdx]

/-- C125 violated: if the variable of another module comes first in the physics set, the number of the energy (one
dimension), of `rhouy` (two) or of `rhouz` (three) is beyond the storage of the fluxes, and the residual is undefined. -/
theorem C125_numbers_violated [Field K] [LinearOrder K] {dim : Nat} (hd : 1 ≤ dim ∧ dim ≤ 3) (init : Nums) (gamma : K)
    (roe : Bool) (ndof : Nat → Nat) (off : Nat → Nat → Nat) (pts : List (Pt K)) (sides : List (SidePt K)) (res : Nat → K) :
    volumeResidual dim (setWorkset init (["T"] ++ myvars dim)) gamma ndof off pts res = none ∧
    boundaryResidual dim (setWorkset init (["T"] ++ myvars dim)) roe gamma ndof off sides res = none := by
  obtain ⟨h1, h3⟩ := hd
  interval_cases dim <;>
    simp [setWorkset, myvars, inStorage, List.zipIdx, volumeResidual, boundaryResidual]

example : setWorkset { rho := 7, rhoux := 7, rhoE := 7, rhouy := 7, rhouz := 7 } (myvars 2) =
    { rho := 0, rhoux := 1, rhoE := 2, rhouy := 3, rhouz := 7 } := by decide

/-! ## Thermodynamics -/

/-- C125 (gas): the pressure is that of an ideal gas, and the speed of sound `a` satisfies `a² = gamma p / rho`, whatever the
reference Mach number. -/
theorem C125_gas {dim : Nat} (hd : 1 ≤ dim ∧ dim ≤ 3) {gamma mach : ℝ} (hm : 0 < mach) {s : State ℝ} (hr : 0 < s.rho)
    (hg : 0 ≤ gamma) (hp : 0 ≤ idealPressure dim gamma s) :
    pressure dim gamma s = idealPressure dim gamma s ∧ 0 ≤ sound dim gamma mach s ∧
    sound dim gamma mach s ^ 2 = gamma * idealPressure dim gamma s / s.rho := by
  have hpe := pressure_eq hd gamma hr.ne'
  refine ⟨hpe, div_nonneg (Real.sqrt_nonneg _) hm.le, ?_⟩
  unfold sound
  rw [div_pow, Real.sq_sqrt]
  · unfold temperature
    rw [hpe]
    field_simp
  · unfold temperature
    rw [hpe]
    positivity

/-- C125 (Mach number): positive reference values give a positive reference Mach number, so `C125_gas` applies. -/
theorem C125_mach {uRef gamma rGas tRef : ℝ} (h1 : 0 < uRef) (h2 : 0 < gamma) (h3 : 0 < rGas) (h4 : 0 < tRef) :
    0 < machRef uRef gamma rGas tRef ∧ machRef uRef gamma rGas tRef ^ 2 * (gamma * rGas * tRef) = uRef ^ 2 := by
  have hp : 0 < gamma * rGas * tRef := by positivity
  refine ⟨div_pos h1 (Real.sqrt_pos.mpr hp), ?_⟩
  unfold machRef
  rw [div_pow, Real.sq_sqrt hp.le]
  field_simp

/-! ## Fluxes -/

section
variable [Field K]

/-- C125 (fluxes): the stored fluxes are the fluxes of mass, momentum and energy of an ideal gas.  Missing: the third momentum
in three dimensions (`C125_flux_violated`). -/
theorem C125_flux_partial [CharZero K] {dim : Nat} (hd : 1 ≤ dim ∧ dim ≤ 3) {n : Nums} (hn : Own dim n) (gamma : K)
    {s : State K} (hr : s.rho ≠ 0) (old : Nat → Nat → K) {l : Law} (hl : l.ok dim) (hl3 : l ≠ .momentum 2) {d : Nat}
    (hdd : d < dim) : inviscid dim n gamma s old (n.of l) d = physFlux dim gamma s d l := by
  obtain ⟨e0, e1, e2, e3, e4⟩ := own_nums hd.1 hn
  have hp := pressure_eq hd gamma hr
  obtain ⟨h1, h3⟩ := hd
  cases l with
  | mass =>
    interval_cases dim <;> interval_cases d <;>
      simp [inviscid, putF, Nums.of, physFlux, State.mom, e0, e1, e2, e3, e4]
  | energy =>
    interval_cases dim <;> interval_cases d <;>
      simp [inviscid, putF, Nums.of, physFlux, State.mom, e0, e1, e2, e3, e4, hp] <;> ring
  | momentum c =>
    have hc : c < dim := hl
    have hc2 : c ≠ 2 := fun h => hl3 (by rw [h])
    interval_cases dim <;> interval_cases c <;> first | omega | skip
    all_goals interval_cases d <;>
      simp [inviscid, putF, Nums.of, physFlux, State.mom, e0, e1, e2, e3, e4, hp] <;> ring

/-- C125 violated: in three dimensions the flux of the third momentum is never computed; the storage keeps what it held, zero
from its allocation, in every state. -/
theorem C125_flux_violated {n : Nums} (hn : Own 3 n) (gamma : K) (s : State K) (d : Nat) (old : Nat → Nat → K) :
    inviscid 3 n gamma s old (n.of (.momentum 2)) d = old (n.of (.momentum 2)) d ∧
    inviscid 3 n gamma s (fun _ _ => 0) (n.of (.momentum 2)) d = 0 := by
  obtain ⟨e0, e1, e2, e3, e4⟩ := own_nums (by omega) hn
  have e4' := e4 (by omega)
  have e3' := e3 (by omega)
  constructor <;> simp [inviscid, putF, Nums.of, e0, e1, e2, e3', e4']

/-- [case] A gas at rest: the flux of the third momentum in the third direction is its pressure, not zero. -/
example : physFlux (K := ℚ) 3 (7 / 5) { rho := 1, mx := 0, my := 0, mz := 0, e := 5 / 2 } 2 (.momentum 2) = 1 := by
  norm_num [physFlux, idealPressure, State.mom, Finset.sum_range_succ]

/-- [case] Numbers and state for `C125_flux_partial`. -/
example : inviscid (K := ℚ) 2 ownNums (7 / 5) { rho := 1, mx := 1, my := 2, mz := 0, e := 5 } (fun _ _ => 9)
    (ownNums.of (.momentum 1)) 1 = 5 := by
  norm_num [inviscid, putF, ownNums, Nums.of, pressure]

end

/-! ## The eigendecomposition -/

theorem decomposition {dim : Nat} (hd : dim = 2 ∨ dim = 3) {gamma a : ℝ} {s : State ℝ} (h : IsSound dim gamma a s)
    {nrm : Nat → ℝ} (hn : UnitNormal dim nrm) :
    (∀ i j : Nat, i < dim + 2 → j < dim + 2 →
      jac dim gamma nrm s (fun k => (eig dim s nrm a gamma).right k j) (lawAt dim i) =
        (eig dim s nrm a gamma).lam j * (eig dim s nrm a gamma).right i j) ∧
    (∀ (w : Nat → ℝ) (i : Nat), i < dim + 2 →
      ∑ j ∈ Finset.range (dim + 2), (eig dim s nrm a gamma).right i j *
        ∑ k ∈ Finset.range (dim + 2), (eig dim s nrm a gamma).left j k * w k = w i) := by
  obtain ⟨t, b, hR, hL⟩ := eig_forms hd s hn a gamma
  exact ⟨fun i j hi hj => right_eigen h hn hR hi hj,
    fun w i hi => right_left (by omega) h.2.2.2.1 (sub_ne_zero.mpr h.2.2.1) hR hL w hi⟩

/-- C125 (Jacobian): in two and three dimensions `R Λ L` is the derivative of the flux through a side with the given unit
normal, at the state of which the momentum, the density and the speed of sound are given; laws in the order mass, momentum,
energy.  Missing: one dimension (`C125_left_violated`). -/
theorem C125_jacobian_partial {dim : Nat} (hd : dim = 2 ∨ dim = 3) {gamma a : ℝ} {s : State ℝ} (h : IsSound dim gamma a s)
    {nrm : Nat → ℝ} (hn : UnitNormal dim nrm) (w : Nat → ℝ) {i : Nat} (hi : i < dim + 2) :
    HasDerivAt (fun x : ℝ => normalFlux dim gamma nrm (s.move dim x w) (lawAt dim i))
      (spectral (dim + 2) (eig dim s nrm a gamma) (fun l => l) w i) 0 := by
  obtain ⟨hE, hI⟩ := decomposition hd h hn
  rw [← jac_spectral hE hI w hi (lawAt_ok hi)]
  exact flux_deriv (by omega) gamma nrm h.1 w (lawAt_ok hi)

/-- C125 (waves): in two and three dimensions every jump is a combination of eigenvectors of the derivative of the flux, and
`R f(Λ) L` multiplies an eigenvector with eigenvalue `μ` by `f μ`; so the absolute value, the positive and the negative part
of the Jacobian are what the code computes, for vectors in the order mass, momentum, energy. -/
theorem C125_waves_partial {dim : Nat} (hd : dim = 2 ∨ dim = 3) {gamma a : ℝ} {s : State ℝ} (h : IsSound dim gamma a s)
    {nrm : Nat → ℝ} (hn : UnitNormal dim nrm) :
    (∀ w : Nat → ℝ, ∃ (v : Nat → Nat → ℝ) (μ : Nat → ℝ), (∀ j : Nat, j < dim + 2 → IsWave dim gamma nrm s (v j) (μ j)) ∧
      ∀ i : Nat, i < dim + 2 → w i = ∑ j ∈ Finset.range (dim + 2), v j i) ∧
    (∀ (w : Nat → ℝ) (μ : ℝ), IsWave dim gamma nrm s w μ → ∀ (f : ℝ → ℝ) (i : Nat), i < dim + 2 →
      spectral (dim + 2) (eig dim s nrm a gamma) f w i = f μ * w i) := by
  obtain ⟨hE, hI⟩ := decomposition hd h hn
  refine ⟨fun w => ⟨fun j i => (∑ k ∈ Finset.range (dim + 2), (eig dim s nrm a gamma).left j k * w k) *
      (eig dim s nrm a gamma).right i j, (eig dim s nrm a gamma).lam, fun j hj i hi => ?_, fun i hi => ?_⟩, ?_⟩
  · have hfd := flux_deriv (by omega : dim ≤ 3) gamma nrm h.1 (fun i =>
      (∑ k ∈ Finset.range (dim + 2), (eig dim s nrm a gamma).left j k * w k) * (eig dim s nrm a gamma).right i j)
      (lawAt_ok hi)
    refine hfd.congr_deriv ?_
    have := jac_linear (m := 1) (dim := dim) gamma nrm s (fun _ k => (eig dim s nrm a gamma).right k j)
      (fun _ => ∑ k ∈ Finset.range (dim + 2), (eig dim s nrm a gamma).left j k * w k) (lawAt dim i)
    simp only [Finset.sum_range_one] at this
    rw [this, hE i j hi hj]
    ring
  · rw [← hI w i hi]
    exact Finset.sum_congr rfl fun j _ => by ring
  · intro w μ hw f i hi
    refine spectral_eigen hE hI (fun i hi => lawAt_ok hi) (fun i hi => ?_) f hi
    exact (flux_deriv (by omega) gamma nrm h.1 w (lawAt_ok hi)).unique (hw i hi)

/-- [case] A gas in two dimensions that meets the hypotheses: `gamma = 2`, `rho = 1`, velocity `(3, 4)`, sound speed `1`,
normal `(3/5, 4/5)`. -/
example : IsSound (K := ℝ) 2 2 1 { rho := 1, mx := 3, my := 4, mz := 0, e := 13 } ∧
    UnitNormal (K := ℝ) 2 (fun d => if d = 0 then 3 / 5 else 4 / 5) := by
  constructor
  · norm_num [IsSound, idealPressure, State.mom, Finset.sum_range_succ]
  · norm_num [UnitNormal, Finset.sum_range_succ]

theorem eig1_right {s : State ℝ} {a gamma : ℝ} :
    RightForm 1 (eig1 s.mx s.rho a gamma) s.vel (fun _ => 1) a (a ^ 2 / (gamma - 1)) (fun _ _ => 0) := by
  constructor
  case l3 => intro j hj; omega
  case m3 => intro j hj; omega
  case e3 => intro j hj; omega
  case tan => intro j hj; omega
  case c3 => intro j c hj; omega
  case c0 => intro c hc; obtain rfl : c = 0 := by omega
             simp [eig1, State.vel, State.mom]
  case c1 => intro c hc; obtain rfl : c = 0 := by omega
             simp [eig1, State.vel, State.mom]
  case c2 => intro c hc; obtain rfl : c = 0 := by omega
             simp [eig1, State.vel, State.mom]
  all_goals (simp only [eig1, State.vel, State.mom, Finset.sum_range_one, if_true]; try ring)

theorem eig1_id {mx rho a gamma : ℝ} (hr : rho ≠ 0) (ha : a ≠ 0) (hg : gamma - 1 ≠ 0) (h : mx = 0 ∨ a = 2)
    (w : Nat → ℝ) {i : Nat} (hi : i < 3) :
    ∑ j ∈ Finset.range 3, (eig1 mx rho a gamma).right i j *
      ∑ k ∈ Finset.range 3, (eig1 mx rho a gamma).left j k * w k = w i := by
  rcases h with rfl | rfl
  · interval_cases i <;> simp only [eig1, Finset.sum_range_succ, Finset.sum_range_zero] <;> field_simp <;> ring
  · interval_cases i <;> simp only [eig1, Finset.sum_range_succ, Finset.sum_range_zero] <;> field_simp <;> ring

/-- C125 violated (left eigenvectors in one dimension): the matrix `leftEV` is the inverse of `rightEV` only for a gas at rest or
with the speed of sound 2; the second column has `a³` in place of `2a²`. -/
theorem C125_left_violated {mx rho a gamma : ℝ} (hr : rho ≠ 0) (ha : a ≠ 0) (hg : gamma ≠ 1) :
    (∀ (w : Nat → ℝ) (i : Nat), i < 3 → ∑ j ∈ Finset.range 3, (eig1 mx rho a gamma).right i j *
      ∑ k ∈ Finset.range 3, (eig1 mx rho a gamma).left j k * w k = w i) ↔ (mx = 0 ∨ a = 2) := by
  have hg' : gamma - 1 ≠ 0 := sub_ne_zero.mpr hg
  refine ⟨fun h => ?_, fun h w i hi => eig1_id hr ha hg' h w hi⟩
  have h1 := h (fun k => if k = 1 then 1 else 0) 0 (by omega)
  have h2 : (gamma - 1) * mx * (a - 2) = 0 := by
    simp [eig1, Finset.sum_range_succ] at h1
    field_simp at h1
    linear_combination (1 / 2) * h1
  rcases mul_eq_zero.mp h2 with h3 | h3
  · rcases mul_eq_zero.mp h3 with h4 | h4
    · exact absurd h4 hg'
    · exact Or.inl h4
  · exact Or.inr (by linarith)

/-! ## Stabilisation -/

theorem delta_own [Field K] {dim : Nat} (hd : 1 ≤ dim ∧ dim ≤ 3) {n : Nums} (hn : Own dim n) (s t : State K) {l : Law}
    (hl : l.ok dim) : delta dim n s t (n.of l) = s.get l - t.get l := by
  obtain ⟨e0, e1, e2, e3, e4⟩ := own_nums hd.1 hn
  obtain ⟨h1, h3⟩ := hd
  cases l with
  | mass => interval_cases dim <;> simp [delta, put, Nums.of, State.get, e0, e1, e2, e3, e4]
  | energy => interval_cases dim <;> simp [delta, put, Nums.of, State.get, e0, e1, e2, e3, e4]
  | momentum c =>
    have hc : c < dim := hl
    interval_cases dim <;> interval_cases c <;>
      simp [delta, put, Nums.of, State.get, State.mom, e0, e1, e2, e3, e4]

theorem delta_self [Field K] (dim : Nat) (n : Nums) (s : State K) : delta dim n s s = fun _ => 0 := by
  funext i
  unfold delta put
  simp only [sub_self]
  by_cases h1 : dim > 1 <;> by_cases h2 : dim > 2 <;> simp [h1, h2]

theorem spectral_zero [Field K] (n : Nat) (g : Eig K) (f : K → K) : spectral n g f (fun _ => 0) = fun _ => 0 := by
  funext i
  unfold spectral
  rw [matVec_eq]
  refine Finset.sum_eq_zero fun j _ => ?_
  simp only [matVec_eq, mul_zero, Finset.sum_const_zero, zero_mul]

/-- C125 (consistency): without a jump there is no stabilisation, and a far-field condition met by the state and the trace adds
nothing; for both stabilisations, in every dimension. -/
theorem C125_consistent [Field K] [LinearOrder K] (dim : Nat) (n : Nums) (roe : Bool) (gamma a : K) (nrm : Nat → K)
    (s : State K) : stabTerm dim n roe gamma a nrm s s = (fun _ => 0) ∧ farField dim n gamma a nrm s s s = (fun _ => 0) := by
  constructor
  · funext i
    unfold stabTerm
    simp only [delta_self]
    cases roe
    · simp
    · simp only [if_true, spectral_zero]
  · funext i
    unfold farField
    simp only [delta_self, spectral_zero, sub_self]

/-- C125 (largest eigenvalue): the scalar stabilisation multiplies the jump of every law by `|u·n| + a`, the largest absolute
value of a wave speed of the trace. -/
theorem C125_maxspeed [Field K] [LinearOrder K] [IsStrictOrderedRing K] {dim : Nat} (hd : 1 ≤ dim ∧ dim ≤ 3) {n : Nums} (hn : Own dim n) (gamma : K)
    {a : K} (ha : 0 ≤ a) (nrm : Nat → K) (s t : State K) {l : Law} (hl : l.ok dim) :
    stabTerm dim n false gamma a nrm s t (n.of l) =
      (|∑ c ∈ Finset.range dim, t.vel c * nrm c| + a) * (s.get l - t.get l) := by
  have hv : normalVel dim t nrm = ∑ c ∈ Finset.range dim, t.vel c * nrm c := by
    obtain ⟨h1, h3⟩ := hd
    interval_cases dim <;> simp [normalVel, Finset.sum_range_succ, State.vel, State.mom] <;> ring
  have hmax : ∀ v : K, max |v + a| |v - a| = |v| + a := by
    intro v
    rcases le_total 0 v with hv | hv
    · rw [abs_of_nonneg hv, abs_of_nonneg (add_nonneg hv ha)]
      refine max_eq_left ?_
      rw [abs_le]
      constructor <;> linarith
    · rw [abs_of_nonpos hv, abs_of_nonpos (by linarith : v - a ≤ 0)]
      rw [max_eq_right]
      · ring
      · rw [abs_le]
        constructor <;> linarith
  unfold stabTerm
  simp only [Bool.false_eq_true, if_false]
  rw [delta_own hd hn s t hl, hmax, hv, mul_comm]

/-- C125 (Roe, one dimension): for a gas at rest, or with speed of sound 2, the stabilisation of a jump that is a wave of the trace
is the absolute value of its speed times the jump, at both ends of an element.  Missing: moving gases (`C125_roe1_violated`), two
and three dimensions (`C125_roe2_violated`). -/
theorem C125_roe_partial {n : Nums} (hn : Own 1 n) {gamma a : ℝ} {s t : State ℝ} (h : IsSound 1 gamma a t)
    (hm : t.mx = 0 ∨ a = 2) {nrm : Nat → ℝ} (hnrm : nrm 0 = 1 ∨ nrm 0 = -1) {μ : ℝ}
    (hw : IsWave 1 gamma nrm t (jump 1 s t) μ) {l : Law} (hl : l.ok 1) :
    stabTerm 1 n true gamma a nrm s t (n.of l) = |μ| * (s.get l - t.get l) := by
  obtain ⟨e0, e1, e2, _, _⟩ := own_nums (by omega) hn
  have hun : UnitNormal (K := ℝ) 1 (fun _ => 1) := by simp [UnitNormal]
  have hR := eig1_right (s := t) (a := a) (gamma := gamma)
  have hE : ∀ i j : Nat, i < 1 + 2 → j < 1 + 2 →
      jac 1 gamma (fun _ => 1) t (fun k => (eig1 t.mx t.rho a gamma).right k j) (lawAt 1 i) =
        (eig1 t.mx t.rho a gamma).lam j * (eig1 t.mx t.rho a gamma).right i j :=
    fun i j hi hj => right_eigen h hun hR hi hj
  have hI : ∀ (w : Nat → ℝ) (i : Nat), i < 1 + 2 → ∑ j ∈ Finset.range (1 + 2), (eig1 t.mx t.rho a gamma).right i j *
      ∑ k ∈ Finset.range (1 + 2), (eig1 t.mx t.rho a gamma).left j k * w k = w i :=
    fun w i hi => eig1_id h.1 h.2.2.2.1 (sub_ne_zero.mpr h.2.2.1) hm w hi
  have hf : ∀ l : Law, ∀ x : State ℝ, normalFlux 1 gamma nrm x l = nrm 0 * normalFlux 1 gamma (fun _ => 1) x l := by
    intro l x
    simp only [normalFlux, Finset.sum_range_one]
    ring
  have hnn : nrm 0 * nrm 0 = 1 := by rcases hnrm with h | h <;> rw [h] <;> ring
  have hw' : ∀ i : Nat, i < 1 + 2 → jac 1 gamma (fun _ => 1) t (jump 1 s t) (lawAt 1 i) =
      nrm 0 * μ * jump 1 s t i := by
    intro i hi
    have h1 := (hw i hi).const_mul (nrm 0)
    have h2 := flux_deriv (by omega : (1 : Nat) ≤ 3) gamma (fun _ => 1) h.1 (jump 1 s t) (lawAt_ok hi)
    have h3 : (fun x : ℝ => nrm 0 * normalFlux 1 gamma nrm (t.move 1 x (jump 1 s t)) (lawAt 1 i)) =
        fun x : ℝ => normalFlux 1 gamma (fun _ => 1) (t.move 1 x (jump 1 s t)) (lawAt 1 i) := by
      funext x
      rw [hf, ← mul_assoc, hnn, one_mul]
    rw [h3] at h1
    rw [h2.unique h1]
    ring
  have hd : ∀ i : Nat, i < 1 + 2 → delta 1 n s t i = jump 1 s t i := by
    intro i hi
    interval_cases i <;> simp [delta, put, jump, lawAt, State.get, State.mom, e0, e1, e2]
  have hsp : ∀ i : Nat, i < 1 + 2 → spectral (1 + 2) (eig1 t.mx t.rho a gamma) (fun l => |l|) (delta 1 n s t) i =
      |nrm 0 * μ| * jump 1 s t i := by
    intro i hi
    rw [← spectral_eigen hE hI (fun i hi => lawAt_ok hi) hw' (fun l => |l|) hi, spectral_eq, spectral_eq]
    refine Finset.sum_congr rfl fun j _ => ?_
    rw [Finset.sum_congr rfl fun k hk => by rw [hd k (Finset.mem_range.mp hk)]]
  have habs : |nrm 0 * μ| = |μ| := by
    rcases hnrm with h | h <;> rw [h] <;> simp
  unfold stabTerm
  simp only [if_true, eig]
  cases l with
  | mass =>
    have := hsp 0 (by omega)
    rw [habs] at this
    simpa [Nums.of, e0, jump, lawAt, State.get] using this
  | energy =>
    have := hsp 2 (by omega)
    rw [habs] at this
    simpa [Nums.of, e2, jump, lawAt, State.get] using this
  | momentum c =>
    have hc : c < 1 := hl
    obtain rfl : c = 0 := by omega
    have := hsp 1 (by omega)
    rw [habs] at this
    simpa [Nums.of, e1, jump, lawAt, State.get] using this

/-- [case] Gas at rest in one dimension with `gamma = 2`, `a = 1`. -/
example : IsSound (K := ℝ) 1 2 1 { rho := 1, mx := 0, my := 0, mz := 0, e := 1 / 2 } := by
  norm_num [IsSound, idealPressure, State.mom, Finset.sum_range_succ]

/-- The wave of `C125_roe1_violated`: a change of the density at constant pressure and velocity. -/
theorem entropy_wave : IsWave 1 2 (fun _ => 1) { rho := 1, mx := 1, my := 0, mz := 0, e := 1 }
    (jump 1 { rho := 2, mx := 2, my := 0, mz := 0, e := 3 / 2 } { rho := 1, mx := 1, my := 0, mz := 0, e := 1 }) 1 := by
  intro i hi
  refine (flux_deriv (by omega) 2 _ (by norm_num) _ (lawAt_ok hi)).congr_deriv ?_
  interval_cases i <;>
    norm_num [jac, lawAt, jump, State.get, State.mom, idealPressure, Finset.sum_range_succ]

/-- C125 violated (Roe, one dimension): `gamma = 2`, a trace with `rho = u = a = 1`, and a jump that is an entropy wave with
speed 1; the stabilisation of the mass should be the jump 1 and is 0. -/
theorem C125_roe1_violated : ∃ s t : State ℝ, IsSound 1 2 1 t ∧ IsWave 1 2 (fun _ => 1) t (jump 1 s t) 1 ∧
    s.rho - t.rho = 1 ∧ stabTerm 1 ownNums true 2 1 (fun _ => 1) s t (ownNums.of .mass) = 0 := by
  refine ⟨_, _, ?_, entropy_wave, ?_, ?_⟩
  · norm_num [IsSound, idealPressure, State.mom, Finset.sum_range_succ]
  · norm_num
  · simp only [stabTerm, if_true, eig]
    rw [spectral_eq]
    norm_num [eig1, Finset.sum_range_succ, delta, put, ownNums, Nums.of]

/-- The wave of `C125_roe2_violated`: a jump of the tangential momentum of a gas at rest. -/
theorem shear_wave : IsWave 2 2 (fun d => if d = 0 then 1 else 0) { rho := 1, mx := 0, my := 0, mz := 0, e := 1 / 2 }
    (jump 2 { rho := 1, mx := 0, my := 1, mz := 0, e := 1 / 2 } { rho := 1, mx := 0, my := 0, mz := 0, e := 1 / 2 }) 0 := by
  intro i hi
  refine (flux_deriv (by omega) 2 _ (by norm_num) _ (lawAt_ok hi)).congr_deriv ?_
  interval_cases i <;>
    norm_num [jac, lawAt, jump, State.get, State.mom, idealPressure, Finset.sum_range_succ]

/-- C125 violated (Roe, two dimensions): the vectors are in the order of the variables, density, first momentum, energy, second
momentum, but the matrices have the energy last.  A jump of the tangential momentum of a gas at rest is a wave with speed 0 and
needs no stabilisation; the mass equation receives 1. -/
theorem C125_roe2_violated : ∃ s t : State ℝ, IsSound 2 2 1 t ∧
    IsWave 2 2 (fun d => if d = 0 then 1 else 0) t (jump 2 s t) 0 ∧
    stabTerm 2 ownNums true 2 1 (fun d => if d = 0 then 1 else 0) s t (ownNums.of .mass) = 1 := by
  refine ⟨_, _, ?_, shear_wave, ?_⟩
  · norm_num [IsSound, idealPressure, State.mom, Finset.sum_range_succ]
  · simp only [stabTerm, if_true, eig]
    rw [if_neg (by norm_num), spectral_eq]
    norm_num [eig2, Finset.sum_range_succ, delta, put, ownNums, Nums.of]

/-! ## Conditions on the boundary of the domain -/

/-- C125 violated (far field): at the left end of an interval the decomposition is that of the flux to the right.  A supersonic
inflow (`gamma = 2`, `rho = 1`, `u = 3`, `a = 2`: all speeds `-u ± a`, `-u` along the normal `-1` are negative) should impose the
given state, but the condition is met for every given state when the trace equals the interior state. -/
theorem C125_inflow_violated (far : State ℝ) : ∃ t : State ℝ, IsSound 1 2 2 t ∧
    (∑ c ∈ Finset.range 1, t.vel c * (-1)) + 2 < 0 ∧
    ∀ l : Law, l.ok 1 → farField 1 ownNums 2 2 (fun _ => -1) t t far (ownNums.of l) = 0 := by
  refine ⟨{ rho := 1, mx := 3, my := 0, mz := 0, e := 13 / 2 }, ?_, ?_, ?_⟩
  · norm_num [IsSound, idealPressure, State.mom, Finset.sum_range_succ]
  · norm_num [State.vel, State.mom, Finset.sum_range_succ]
  · intro l hl
    simp only [farField, delta_self, spectral_zero, eig, if_true]
    rw [zero_sub, neg_eq_zero, spectral_eq]
    refine Finset.sum_eq_zero fun j hj => ?_
    have hj' : j < 3 := Finset.mem_range.mp hj
    have : ((eig1 (3 : ℝ) 1 2 2).lam j - |(eig1 (3 : ℝ) 1 2 2).lam j|) / 2 = 0 := by
      interval_cases j <;> norm_num [eig1]
    rw [this]
    ring

/-- C125 (far field, partial): in two and three dimensions, at a side where the trace leaves the domain faster than sound the
condition does not depend on the given state and is `R Λ L` applied to the interior state minus the trace; where it enters
faster than sound, it does not depend on the interior state and is minus `R Λ L` applied to the given state minus the trace.
Missing: subsonic sides, where the order of the variables is wrong (`C125_roe2_violated`), and one dimension
(`C125_inflow_violated`). -/
theorem C125_farfield_partial {dim : Nat} (hd : dim = 2 ∨ dim = 3) (n : Nums) (gamma : ℝ) {a : ℝ} (ha : 0 ≤ a)
    {nrm : Nat → ℝ} (hn : UnitNormal dim nrm) (s t far : State ℝ) :
    (a ≤ ∑ c ∈ Finset.range dim, t.vel c * nrm c →
      farField dim n gamma a nrm s t far = spectral (dim + 2) (eig dim t nrm a gamma) (fun l => l) (delta dim n s t)) ∧
    ((∑ c ∈ Finset.range dim, t.vel c * nrm c) + a ≤ 0 → ∀ i : Nat,
      farField dim n gamma a nrm s t far i =
        -spectral (dim + 2) (eig dim t nrm a gamma) (fun l => l) (delta dim n far t) i) := by
  obtain ⟨_, _, hR, _⟩ := eig_forms hd t hn a gamma
  have hlam : ∀ P : ℝ → Prop, P ((∑ c ∈ Finset.range dim, t.vel c * nrm c) - a) →
      P (∑ c ∈ Finset.range dim, t.vel c * nrm c) → P ((∑ c ∈ Finset.range dim, t.vel c * nrm c) + a) →
      ∀ j ∈ Finset.range (dim + 2), P ((eig dim t nrm a gamma).lam j) := by
    intro P h0 h1 h2 j hj
    have hj' := Finset.mem_range.mp hj
    match j, hj' with
    | 0, _ => rw [hR.l0]; exact h0
    | 1, _ => rw [hR.l1]; exact h1
    | 2, _ => rw [hR.l2]; exact h2
    | j + 3, hj' => rw [hR.l3 j hj']; exact h1
  constructor
  · intro h
    have hpos := hlam (fun l => 0 ≤ l) (by linarith) (by linarith) (by linarith)
    funext i
    simp only [farField, spectral_eq]
    rw [← Finset.sum_sub_distrib]
    refine Finset.sum_congr rfl fun j hj => ?_
    rw [abs_of_nonneg (hpos j hj)]
    ring
  · intro h i
    have hneg := hlam (fun l => l ≤ 0) (by linarith) (by linarith) (by linarith)
    simp only [farField, spectral_eq]
    rw [← Finset.sum_sub_distrib, ← Finset.sum_neg_distrib]
    refine Finset.sum_congr rfl fun j hj => ?_
    rw [abs_of_nonpos (hneg j hj)]
    ring

/-- [case] An outflow with Mach number 5 in the direction of the normal. -/
example : UnitNormal (K := ℝ) 2 (fun d => if d = 0 then 3 / 5 else 4 / 5) ∧
    (1 : ℝ) ≤ ∑ c ∈ Finset.range 2, ({ rho := 1, mx := 3, my := 4, mz := 0, e := 13 } : State ℝ).vel c *
      (if c = 0 then 3 / 5 else 4 / 5) := by
  constructor
  · norm_num [UnitNormal, Finset.sum_range_succ]
  · norm_num [State.vel, State.mom, Finset.sum_range_succ]

/-- C125 (storage): the residuals are defined exactly when the numbers of all laws of the dimension lie inside the storage for
`dim + 2` equations. -/
theorem C125_storage [Field K] {dim : Nat} (hd : 1 ≤ dim ∧ dim ≤ 3) (n : Nums) (gamma : K) (ndof : Nat → Nat)
    (off : Nat → Nat → Nat) (pts : List (Pt K)) (res : Nat → K) :
    (volumeResidual dim n gamma ndof off pts res).isSome ↔ ∀ l : Law, l.ok dim → n.of l < dim + 2 := by
  have hall : inStorage dim n = true ↔ ∀ l : Law, l.ok dim → n.of l < dim + 2 := by
    obtain ⟨h1, h3⟩ := hd
    constructor
    · intro h l hl
      unfold inStorage at h
      cases l with
      | mass => simp at h; simp [Nums.of]; omega
      | energy => simp at h; simp [Nums.of]; omega
      | momentum c =>
        have hc : c < dim := hl
        simp at h
        interval_cases dim <;> interval_cases c <;> simp [Nums.of] <;> omega
    · intro h
      have a0 := h .mass trivial
      have a1 := h .energy trivial
      have a2 := h (.momentum 0) (by show 0 < dim; omega)
      have a3 : 1 < dim → _ := fun hx => h (.momentum 1) hx
      have a4 : 2 < dim → _ := fun hx => h (.momentum 2) hx
      simp [Nums.of] at a0 a1 a2 a3 a4
      unfold inStorage
      simp
      refine ⟨⟨⟨⟨a0, a2⟩, a1⟩, ?_⟩, ?_⟩
      · by_cases hx : 1 < dim
        · exact Or.inr (a3 hx)
        · exact Or.inl (by omega)
      · by_cases hx : 2 < dim
        · exact Or.inr (a4 hx)
        · exact Or.inl (by omega)
  rw [← hall]
  unfold volumeResidual
  split_ifs with h <;> simp [h]

example : ¬ ∀ l : Law, l.ok 1 → ({ ownNums with rhoE := 3 } : Nums).of l < 1 + 2 := fun h => by
  have := h .energy trivial
  simp [Nums.of, ownNums] at this

/-- C125 (slip): the slip condition vanishes exactly when the trace has the density and the energy of the state and its velocity
without the normal component; then no gas passes the wall. -/
theorem C125_slip [Field K] {dim : Nat} (hd : 1 ≤ dim ∧ dim ≤ 3) {n : Nums} (hn : Own dim n) {nrm : Nat → K}
    (hu : UnitNormal dim nrm) (s t : State K) (old : Nat → K) :
    ((∀ l : Law, l.ok dim → slip dim n nrm s t old (n.of l) = 0) ↔
      (t.rho = s.rho ∧ t.e = s.e ∧ ∀ c : Nat, c < dim → t.vel c = s.vel c -
        (∑ d ∈ Finset.range dim, s.vel d * nrm d) * nrm c)) ∧
    ((∀ l : Law, l.ok dim → slip dim n nrm s t old (n.of l) = 0) → ∑ c ∈ Finset.range dim, t.vel c * nrm c = 0) := by
  have key : (∀ l : Law, l.ok dim → slip dim n nrm s t old (n.of l) = 0) ↔
      (t.rho = s.rho ∧ t.e = s.e ∧ ∀ c : Nat, c < dim → t.vel c = s.vel c -
        (∑ d ∈ Finset.range dim, s.vel d * nrm d) * nrm c) := by
    obtain ⟨e0, e1, e2, e3, e4⟩ := own_nums hd.1 hn
    have hv : normalVel dim s nrm = ∑ c ∈ Finset.range dim, s.vel c * nrm c := by
      obtain ⟨h1, h3⟩ := hd
      interval_cases dim <;> simp [normalVel, Finset.sum_range_succ, State.vel, State.mom] <;> ring
    have b0 : slip dim n nrm s t old (n.of .mass) = s.rho - t.rho := by
      obtain ⟨h1, h3⟩ := hd
      interval_cases dim <;> simp [slip, put, Nums.of, e0, e1, e2, e3, e4]
    have b1 : slip dim n nrm s t old (n.of .energy) = s.e - t.e := by
      obtain ⟨h1, h3⟩ := hd
      interval_cases dim <;> simp [slip, put, Nums.of, e0, e1, e2, e3, e4]
    have b2 : ∀ c : Nat, c < dim → slip dim n nrm s t old (n.of (.momentum c)) =
        s.vel c - normalVel dim s nrm * nrm c - t.vel c := by
      intro c hc
      obtain ⟨h1, h3⟩ := hd
      clear hv b0 b1
      generalize hq : normalVel dim s nrm = q
      interval_cases dim <;> interval_cases c <;>
        simp [slip, put, Nums.of, State.vel, State.mom, e0, e1, e2, e3, e4, hq]
    constructor
    · intro h
      refine ⟨?_, ?_, fun c hc => ?_⟩
      · have := h .mass trivial
        rw [b0] at this
        exact (sub_eq_zero.mp this).symm
      · have := h .energy trivial
        rw [b1] at this
        exact (sub_eq_zero.mp this).symm
      · have := h (.momentum c) hc
        rw [b2 c hc, hv] at this
        exact (sub_eq_zero.mp this).symm
    · rintro ⟨h1, h2, h3⟩ l hl
      cases l with
      | mass => rw [b0, h1, sub_self]
      | energy => rw [b1, h2, sub_self]
      | momentum c => rw [b2 c hl, hv, h3 c hl, sub_self]
  refine ⟨key, fun h => ?_⟩
  obtain ⟨_, _, h3⟩ := key.mp h
  rw [Finset.sum_congr rfl fun c hc => by rw [h3 c (Finset.mem_range.mp hc)]]
  have : ∑ c ∈ Finset.range dim, (s.vel c - (∑ d ∈ Finset.range dim, s.vel d * nrm d) * nrm c) * nrm c =
      (∑ d ∈ Finset.range dim, s.vel d * nrm d) - (∑ d ∈ Finset.range dim, s.vel d * nrm d) *
        ∑ c ∈ Finset.range dim, nrm c ^ 2 := by
    rw [Finset.mul_sum, ← Finset.sum_sub_distrib]
    exact Finset.sum_congr rfl fun c _ => by ring
  rw [this, show ∑ c ∈ Finset.range dim, nrm c ^ 2 = 1 from hu]
  ring

/-! ## Sides between elements -/

section
variable [Field K] [CharZero K]

theorem sideFlux_own {dim : Nat} (hd : 1 ≤ dim ∧ dim ≤ 3) {n : Nums} (hn : Own dim n) (gamma : K) {t : State K}
    (hr : t.rho ≠ 0) (nrm : Nat → K) (old : Nat → Nat → K) (stab : Nat → K) {l : Law} (hl : l.ok dim)
    (hl3 : l ≠ .momentum 2) :
    sideFlux dim (inviscid dim n gamma t old) stab nrm (n.of l) = normalFlux dim gamma nrm t l + stab (n.of l) := by
  have hf := fun (d : Nat) (hdd : d < dim) => C125_flux_partial hd hn gamma hr old hl hl3 hdd
  have hs : sideFlux dim (inviscid dim n gamma t old) stab nrm (n.of l) =
      (∑ d ∈ Finset.range dim, inviscid dim n gamma t old (n.of l) d * nrm d) + stab (n.of l) := by
    obtain ⟨h1, h3⟩ := hd
    clear hf
    interval_cases dim <;> simp [sideFlux, Finset.sum_range_succ]
  rw [hs]
  unfold normalFlux
  rw [Finset.sum_congr rfl fun d hdd => by rw [hf d (Finset.mem_range.mp hdd)]]

theorem of_lt {dim : Nat} (hd : 1 ≤ dim ∧ dim ≤ 3) {n : Nums} (hn : Own dim n) {l : Law} (hl : l.ok dim) :
    n.of l < dim + 2 := by
  rw [hn l hl]
  obtain ⟨h1, h3⟩ := hd
  cases l with
  | mass => simp [Nums.of, ownNums]
  | energy => simp [Nums.of, ownNums]; omega
  | momentum c =>
    have hc : c < dim := hl
    interval_cases dim <;> interval_cases c <;> simp [Nums.of, ownNums]

theorem of_inj {dim : Nat} (hd : 1 ≤ dim ∧ dim ≤ 3) {n : Nums} (hn : Own dim n) {l m : Law} (hl : l.ok dim) (hm : m.ok dim)
    (h : n.of l = n.of m) : l = m := by
  rw [hn l hl, hn m hm] at h
  obtain ⟨h1, h3⟩ := hd
  cases l with
  | mass =>
    cases m with
    | mass => rfl
    | energy => simp [Nums.of, ownNums] at h
    | momentum c => simp [Nums.of, ownNums] at h; split at h <;> (try split at h) <;> omega
  | energy =>
    cases m with
    | mass => simp [Nums.of, ownNums] at h
    | energy => rfl
    | momentum c => simp [Nums.of, ownNums] at h; split at h <;> (try split at h) <;> omega
  | momentum b =>
    have hb : b < dim := hl
    cases m with
    | mass => simp [Nums.of, ownNums] at h; split at h <;> (try split at h) <;> omega
    | energy => simp [Nums.of, ownNums] at h; split at h <;> (try split at h) <;> omega
    | momentum c =>
      have hc : c < dim := hm
      have : b = c := by
        interval_cases dim <;> interval_cases b <;> interval_cases c <;> simp [Nums.of, ownNums] at h <;> rfl
      rw [this]

variable [LinearOrder K] [IsStrictOrderedRing K]

/-- C125 (interface): on a side between elements the flux of a law through the side is that of the trace, plus the largest
wave speed times the jump.  Missing: the third momentum in three dimensions (`C125_flux_violated`). -/
theorem C125_interface_partial {dim : Nat} (hd : 1 ≤ dim ∧ dim ≤ 3) {n : Nums} (hn : Own dim n) (gamma : K) {a : K}
    (ha : 0 ≤ a) (nrm : Nat → K) (s : State K) {t : State K} (hr : t.rho ≠ 0) (far : State K) (oldF : Nat → Nat → K)
    (oldB old : Nat → K) {l : Law} (hl : l.ok dim) (hl3 : l ≠ .momentum 2) :
    computeFlux dim n false "interface" gamma a nrm s t far oldF oldB old (n.of l) =
      normalFlux dim gamma nrm t l +
        (|∑ c ∈ Finset.range dim, t.vel c * nrm c| + a) * (s.get l - t.get l) := by
  unfold computeFlux
  simp only [show ("interface" = "Far-field") = False by simp, show ("interface" = "Slip") = False by simp, if_false,
    or_self, if_true]
  rw [if_pos (of_lt hd hn hl), sideFlux_own hd hn gamma hr nrm oldF _ hl hl3, C125_maxspeed hd hn gamma ha nrm s t hl]

/-- C125 (balance across a side): two elements share the trace of a side; what one loses is what the other gains exactly when
the trace is the average of the two states, if the largest wave speed is not zero. -/
theorem C125_balance_partial {dim : Nat} (hd : 1 ≤ dim ∧ dim ≤ 3) {n : Nums} (hn : Own dim n) (gamma : K) {a : K}
    (ha : 0 < a) (nrm : Nat → K) (s1 s2 : State K) {t : State K} (hr : t.rho ≠ 0) (far : State K) (oldF : Nat → Nat → K)
    (oldB old : Nat → K) {l : Law} (hl : l.ok dim) (hl3 : l ≠ .momentum 2) :
    computeFlux dim n false "interface" gamma a nrm s1 t far oldF oldB old (n.of l) +
      computeFlux dim n false "interface" gamma a (fun d => -nrm d) s2 t far oldF oldB old (n.of l) = 0 ↔
    t.get l = (s1.get l + s2.get l) / 2 := by
  rw [C125_interface_partial hd hn gamma ha.le nrm s1 hr far oldF oldB old hl hl3,
    C125_interface_partial hd hn gamma ha.le _ s2 hr far oldF oldB old hl hl3]
  have h1 : normalFlux dim gamma (fun d => -nrm d) t l = -normalFlux dim gamma nrm t l := by
    unfold normalFlux
    rw [← Finset.sum_neg_distrib]
    exact Finset.sum_congr rfl fun d _ => by ring
  have h2 : ∑ c ∈ Finset.range dim, t.vel c * -nrm c = -∑ c ∈ Finset.range dim, t.vel c * nrm c := by
    rw [← Finset.sum_neg_distrib]
    exact Finset.sum_congr rfl fun d _ => by ring
  rw [h1, h2, abs_neg]
  have hpos : 0 < |∑ c ∈ Finset.range dim, t.vel c * nrm c| + a := add_pos_of_nonneg_of_pos (abs_nonneg _) ha
  generalize hS : |∑ c ∈ Finset.range dim, t.vel c * nrm c| + a = S at hpos ⊢
  have hsum : normalFlux dim gamma nrm t l + S * (s1.get l - t.get l) +
      (-normalFlux dim gamma nrm t l + S * (s2.get l - t.get l)) = S * (s1.get l + s2.get l - 2 * t.get l) := by ring
  rw [hsum, mul_eq_zero]
  constructor
  · rintro (h | h)
    · exact absurd h hpos.ne'
    · rw [eq_div_iff (by norm_num)]
      linear_combination -h
  · intro h
    right
    rw [h]
    ring

/-- C125 violated: a side with any condition other than `Far-field`, `Slip` or `interface`, for instance `Dirichlet`, keeps the
flux that was there before. -/
theorem C125_sides_violated (dim : Nat) (n : Nums) (roe : Bool) {sidetype : String}
    (h : sidetype ≠ "Far-field" ∧ sidetype ≠ "Slip" ∧ sidetype ≠ "interface") (gamma a : K) (nrm : Nat → K)
    (s t far : State K) (oldF : Nat → Nat → K) (oldB old : Nat → K) :
    computeFlux dim n roe sidetype gamma a nrm s t far oldF oldB old = old := by
  unfold computeFlux
  simp only [h.1, h.2.1, h.2.2, if_false, or_self]

/-- C125 (conditions): on a side with a condition the flux is that condition, and only the `dim + 2` entries of the module are
written. -/
theorem C125_conditions (dim : Nat) (n : Nums) (roe : Bool) (gamma a : K) (nrm : Nat → K) (s t far : State K)
    (oldF : Nat → Nat → K) (oldB old : Nat → K) :
    (∀ i : Nat, i < dim + 2 →
      computeFlux dim n roe "Far-field" gamma a nrm s t far oldF oldB old i = farField dim n gamma a nrm s t far i ∧
      computeFlux dim n roe "Slip" gamma a nrm s t far oldF oldB old i = slip dim n nrm s t oldB i) ∧
    (∀ (sidetype : String) (i : Nat), dim + 2 ≤ i →
      computeFlux dim n roe sidetype gamma a nrm s t far oldF oldB old i = old i) := by
  constructor
  · intro i hi
    simp [computeFlux, hi]
  · intro sidetype i hi
    have : ¬ i < dim + 2 := by omega
    by_cases h1 : sidetype = "Far-field" ∨ sidetype = "Slip" <;> by_cases h2 : sidetype = "interface" <;>
      simp [computeFlux, h1, h2, this]

end

/-! ## The residual -/

section
variable [Field K] [CharZero K]

theorem vol_at {dim : Nat} (hd : 1 ≤ dim ∧ dim ≤ 3) {n : Nums} (hn : Own dim n) (gamma : K) {ndof : Nat → Nat}
    {off : Nat → Nat → Nat} (hoff : DistinctAll (dim + 2) ndof off) (pts : List (Pt K)) (res : Nat → K) {l : Law}
    (hl : l.ok dim) {d : Nat} (hdd : d < ndof (n.of l)) :
    ∃ r : Nat → K, volumeResidual dim n gamma ndof off pts res = some r ∧ r (off (n.of l) d) = res (off (n.of l) d) +
      quad pts (fun p => p.wts * ((p.dt.get l - p.src.get l) * p.basis (n.of l) d -
        ∑ k ∈ Finset.range dim, inviscid dim n gamma p.st (fun _ _ => 0) (n.of l) k * p.grad (n.of l) d k)) := by
  have hlt := of_lt hd hn hl
  obtain ⟨e0, e1, e2, e3, e4⟩ := own_nums hd.1 hn
  have hst : inStorage dim n = true := by
    obtain ⟨h1, h3⟩ := hd
    interval_cases dim <;> simp [inStorage, e0, e1, e2, e3, e4]
  have hfit : Fits (dim + 2) ndof (volLoops dim n gamma ndof) := by
    intro q hq
    obtain ⟨h1, h3⟩ := hd
    interval_cases dim <;> simp [volLoops, e0, e1, e2, e3, e4] at hq <;>
      rcases hq with rfl | rfl | hq <;> (try (rcases hq with rfl | hq)) <;> (try (rcases hq with rfl | hq)) <;>
      (try subst hq) <;> simp
  refine ⟨_, by unfold volumeResidual; rw [if_pos hst], ?_⟩
  rw [runLoops_at hoff pts _ hfit res hlt hdd]
  congr 1
  refine quad_congr pts fun p _ => ?_
  have key : termsAt (volLoops dim n gamma ndof) (n.of l) d p =
      (volAdds dim n gamma (n.of l) (fun p => p.dt.get l) (fun p => p.src.get l) p d).sum := by
    obtain ⟨h1, h3⟩ := hd
    cases l with
    | mass => interval_cases dim <;> simp [termsAt, volLoops, Nums.of, State.get, e0, e1, e2, e3, e4]
    | energy => interval_cases dim <;> simp [termsAt, volLoops, Nums.of, State.get, e0, e1, e2, e3, e4]
    | momentum c =>
      have hc : c < dim := hl
      interval_cases dim <;> interval_cases c <;>
        simp [termsAt, volLoops, Nums.of, State.get, State.mom, e0, e1, e2, e3, e4]
  rw [key]
  clear key hfit hst
  obtain ⟨h1, h3⟩ := hd
  simp only [volAdds]
  generalize inviscid dim n gamma p.st (fun _ _ => 0) (n.of l) = f
  interval_cases dim <;> simp [Finset.sum_range_succ] <;> ring

/-- C125 (volume): the entry of every law and basis function grows by the weak form of its conservation law,
`(∂U/∂t − S) φ − F(U)·∇φ`.  Missing: the third momentum in three dimensions, whose flux is zero. -/
theorem C125_volume_partial {dim : Nat} (hd : 1 ≤ dim ∧ dim ≤ 3) {n : Nums} (hn : Own dim n) (gamma : K) {ndof : Nat → Nat}
    {off : Nat → Nat → Nat} (hoff : DistinctAll (dim + 2) ndof off) (pts : List (Pt K))
    (hr : ∀ p : Pt K, p ∈ pts → p.st.rho ≠ 0) (res : Nat → K) {l : Law} (hl : l.ok dim) (hl3 : l ≠ .momentum 2) {d : Nat}
    (hdd : d < ndof (n.of l)) :
    ∃ r : Nat → K, volumeResidual dim n gamma ndof off pts res = some r ∧ r (off (n.of l) d) = res (off (n.of l) d) +
      quad pts (fun p => p.wts * ((p.dt.get l - p.src.get l) * p.basis (n.of l) d -
        ∑ k ∈ Finset.range dim, physFlux dim gamma p.st k l * p.grad (n.of l) d k)) := by
  obtain ⟨r, h1, h2⟩ := vol_at hd hn gamma hoff pts res hl hdd
  refine ⟨r, h1, ?_⟩
  rw [h2]
  congr 1
  refine quad_congr pts fun p hp => ?_
  rw [Finset.sum_congr rfl fun k hk => by
    rw [C125_flux_partial hd hn gamma (hr p hp) _ hl hl3 (Finset.mem_range.mp hk)]]

/-- C125 (conservation in an element): where the basis functions of a law sum to one, its entries sum to the rate of change of
its content less the sources; this holds for every law, whatever the fluxes. -/
theorem C125_conservation {dim : Nat} (hd : 1 ≤ dim ∧ dim ≤ 3) {n : Nums} (hn : Own dim n) (gamma : K) {ndof : Nat → Nat}
    {off : Nat → Nat → Nat} (hoff : DistinctAll (dim + 2) ndof off) (pts : List (Pt K)) {l : Law} (hl : l.ok dim)
    (hs : ∀ p : Pt K, p ∈ pts → PartitionOfUnity (ndof (n.of l)) dim (p.basis (n.of l)) (p.grad (n.of l))) :
    ∃ r : Nat → K, volumeResidual dim n gamma ndof off pts (fun _ => 0) = some r ∧
      ∑ d ∈ Finset.range (ndof (n.of l)), r (off (n.of l) d) = quad pts (fun p => p.wts * (p.dt.get l - p.src.get l)) := by
  have hst : inStorage dim n = true := by
    obtain ⟨e0, e1, e2, e3, e4⟩ := own_nums hd.1 hn
    obtain ⟨h1, h3⟩ := hd
    interval_cases dim <;> simp [inStorage, e0, e1, e2, e3, e4]
  refine ⟨_, by unfold volumeResidual; rw [if_pos hst], ?_⟩
  have e : ∀ d ∈ Finset.range (ndof (n.of l)), runLoops off pts (volLoops dim n gamma ndof) (fun _ => 0) (off (n.of l) d) =
      quad pts (fun p => p.wts * ((p.dt.get l - p.src.get l) * p.basis (n.of l) d -
        ∑ k ∈ Finset.range dim, inviscid dim n gamma p.st (fun _ _ => 0) (n.of l) k * p.grad (n.of l) d k)) := by
    intro d hdd
    obtain ⟨r, h1, h2⟩ := vol_at hd hn gamma hoff pts (fun _ => 0) hl (Finset.mem_range.mp hdd)
    unfold volumeResidual at h1
    rw [if_pos hst] at h1
    rw [Option.some.inj h1, h2, zero_add]
  rw [Finset.sum_congr rfl e, quad_sum]
  refine quad_congr pts fun p hp => ?_
  have hz := (hs p hp).dot_right (inviscid dim n gamma p.st (fun _ _ => 0) (n.of l))
  rw [← Finset.mul_sum, Finset.sum_sub_distrib, ← Finset.mul_sum, (hs p hp).1]
  simp only [dot] at hz
  rw [hz]
  ring

/-- C125 (sides of an element): the entry of every law and basis function grows by the flux of the trace through the side plus the
stabilisation, tested with the basis function, on every side whatever its condition.  Missing: the third momentum in three
dimensions. -/
theorem C125_boundary_partial [LinearOrder K] {dim : Nat} (hd : 1 ≤ dim ∧ dim ≤ 3) {n : Nums} (hn : Own dim n) (roe : Bool)
    (gamma : K) {ndof : Nat → Nat} {off : Nat → Nat → Nat} (hoff : DistinctAll (dim + 2) ndof off) (pts : List (SidePt K))
    (hr : ∀ p : SidePt K, p ∈ pts → p.tr.rho ≠ 0) (res : Nat → K) {l : Law} (hl : l.ok dim) (hl3 : l ≠ .momentum 2) {d : Nat}
    (hdd : d < ndof (n.of l)) :
    ∃ r : Nat → K, boundaryResidual dim n roe gamma ndof off pts res = some r ∧
      r (off (n.of l) d) = res (off (n.of l) d) + quad pts (fun p => p.wts * p.basis (n.of l) d *
        (normalFlux dim gamma p.nrm p.tr l + stabTerm dim n roe gamma p.sound p.nrm p.st p.tr (n.of l))) := by
  have hlt := of_lt hd hn hl
  obtain ⟨e0, e1, e2, e3, e4⟩ := own_nums hd.1 hn
  have hst : inStorage dim n = true := by
    obtain ⟨h1, h3⟩ := hd
    interval_cases dim <;> simp [inStorage, e0, e1, e2, e3, e4]
  refine ⟨_, by unfold boundaryResidual; rw [if_pos hst], ?_⟩
  rw [runLoops_at hoff pts _ ?_ res hlt hdd]
  · congr 1
    refine quad_congr pts fun p hp => ?_
    unfold termsAt
    rw [List.map_map]
    simp only [Function.comp_def, List.sum_cons, List.sum_nil, add_zero]
    have hsum : ∀ (m : Nat) (g : Nat → K), n.of l < m →
        ((List.range m).map (fun i => if i = n.of l then g i else 0)).sum = g (n.of l) := by
      intro m g hm
      rw [← List.sum_toFinset _ List.nodup_range, List.toFinset_range, Finset.sum_ite_eq' (Finset.range m) (n.of l) g,
        if_pos (Finset.mem_range.mpr hm)]
    rw [hsum (dim + 2) _ hlt, sideFlux_own hd hn gamma (hr p hp) p.nrm _ _ hl hl3]
    ring
  · intro q hq
    rw [List.mem_map] at hq
    obtain ⟨i, hi, rfl⟩ := hq
    exact ⟨List.mem_range.mp hi, rfl⟩

/-- [case] One point, one function for each law, in one dimension: the mass equation of a state with momentum 2. -/
example : ∃ r : Nat → ℚ, volumeResidual (K := ℚ) 1 ownNums (7 / 5) (fun _ => 1) (fun e _ => e)
    [{ wts := 1, st := { rho := 1, mx := 2, my := 0, mz := 0, e := 5 }, dt := { rho := 3, mx := 0, my := 0, mz := 0, e := 0 },
       src := { rho := 1, mx := 0, my := 0, mz := 0, e := 0 }, basis := fun _ _ => 1, grad := fun _ _ _ => 1 }] (fun _ => 0) =
      some r ∧ r 0 = 0 := by
  obtain ⟨r, h1, h2⟩ := C125_volume_partial (K := ℚ) (dim := 1) (by omega) (n := ownNums) (fun _ _ => rfl) (7 / 5)
    (ndof := fun _ => 1) (off := fun e _ => e)
    (fun i a j b _ _ ha hb h => ⟨h, by simp at ha hb; omega⟩)
    [{ wts := 1, st := { rho := 1, mx := 2, my := 0, mz := 0, e := 5 }, dt := { rho := 3, mx := 0, my := 0, mz := 0, e := 0 },
       src := { rho := 1, mx := 0, my := 0, mz := 0, e := 0 }, basis := fun _ _ => 1, grad := fun _ _ _ => 1 }]
    (by simp) (fun _ => 0) (l := .mass) trivial (by simp) (d := 0) (by simp)
  refine ⟨r, h1, ?_⟩
  have h3 : r 0 = r (ownNums.of .mass) := rfl
  rw [h3, h2]
  norm_num [quad, State.get, State.mom, physFlux, Finset.sum_range_succ]

/-- [case] A trace that is the average of the two states. -/
example : ({ rho := 2, mx := 1, my := 0, mz := 0, e := 3 } : State ℚ).get .mass =
    (({ rho := 1, mx := 0, my := 0, mz := 0, e := 2 } : State ℚ).get .mass +
     ({ rho := 3, mx := 2, my := 0, mz := 0, e := 4 } : State ℚ).get .mass) / 2 := by
  norm_num [State.get]

/-- [case] A unit normal in two dimensions that is not along an axis. -/
example : UnitNormal (K := ℚ) 2 (fun d => if d = 0 then 3 / 5 else 4 / 5) := by
  norm_num [UnitNormal, Finset.sum_range_succ]

end

end MrHyDE.Modules.Euler
