import Verif.Modules.LowMach
import Mathlib.Algebra.CharZero.Defs
import Mathlib.Tactic.FieldSimp
import Mathlib.Tactic.IntervalCases
import Mathlib.Tactic.LinearCombination
import Mathlib.Tactic.NormNum
import Mathlib.Tactic.Positivity

/-!
# The variable-density module (C148): specification and properties
-/

set_option linter.unusedSectionVars false

namespace MrHyDE.Modules.LowMach

variable {K : Type}

/-! ## Specification -/

section
variable [Field K]

/-- The divergence of the velocity.  [specification, no code] -/
def divergence (dim : Nat) (p : Pt K) : K := ∑ c ∈ Finset.range dim, p.g c c

/-- The stress of a Newtonian gas without bulk viscosity.  [specification, no code] -/
def stress (dim i c : Nat) (p : Pt K) : K :=
  p.mu * (p.g i c + p.g c i) - (if c = i then 2 / 3 * p.mu * divergence dim p + p.pr else 0)

/-- The momentum equation `i` without its viscous part, zero for an inviscid solution.  [specification, no code] -/
def momentumResidual (dim i : Nat) (p : Pt K) : K :=
  p.rho * (p.ut i + dot dim p.u (p.g i)) + p.gp i - p.src i

/-- The energy equation without conduction.  [specification, no code] -/
def energyResidual (dim : Nat) (rate : K) (p : Pt K) : K :=
  p.rho * (p.Tt + dot dim p.u p.gT) - (rate + p.srcT) / p.cp

/-- The constraint on the divergence.  [specification, no code] -/
def constraint (dim : Nat) (bg : K × K) (p : Pt K) : K :=
  divergence dim p - ((p.Tt + dot dim p.u p.gT) / p.T - bg.2 / bg.1)

/-- The weak momentum equation at a point.  [specification, no code] -/
def weakMomentum (dim i : Nat) (p : Pt K) (d : Nat) : K :=
  (p.rho * (p.ut i + dot dim p.u (p.g i)) - p.src i) * p.basis i d + dot dim (fun c => stress dim i c p) (p.grad i d)

/-- The weak energy equation at a point.  [specification, no code] -/
def weakEnergy (dim : Nat) (rate : K) (p : Pt K) (d : Nat) : K :=
  energyResidual dim rate p * p.basis dim d + p.lam / p.cp * dot dim p.gT (p.grad dim d)

/-- The test function of the upwind stabilisation, `rho u . grad v`.  [specification, no code] -/
def along (dim e : Nat) (p : Pt K) (d : Nat) : K := p.rho * dot dim p.u (p.grad e d)

end

/-! ## Lemmas -/

section
variable [Field K]

theorem divu_eq {dim : Nat} (h1 : 1 ≤ dim) (h3 : dim ≤ 3) (p : Pt K) : divu dim p = divergence dim p := by
  interval_cases dim <;> simp [divu, divergence, Finset.sum_range_succ]

theorem moving_eq {dim : Nat} (h1 : 1 ≤ dim) (h3 : dim ≤ 3) (i : Nat) (p : Pt K) :
    moving dim i p = p.ut i + dot dim p.u (p.g i) := by
  interval_cases dim <;> simp [moving, dot_one, dot_two, dot_three, add_assoc]

theorem heating_eq {dim : Nat} (h1 : 1 ≤ dim) (h3 : dim ≤ 3) (p : Pt K) :
    heating dim p = p.Tt + dot dim p.u p.gT := by
  interval_cases dim <;> simp [heating, dot_one, dot_two, dot_three, add_assoc]

theorem strongMom_eq {dim : Nat} (h1 : 1 ≤ dim) (h3 : dim ≤ 3) (i : Nat) (p : Pt K) :
    strongMom dim i p = momentumResidual dim i p := by
  rw [strongMom, momentumResidual, moving_eq h1 h3]

theorem strongHeat_eq {dim : Nat} (h1 : 1 ≤ dim) (h3 : dim ≤ 3) (bg : K × K) (p : Pt K) :
    strongHeat dim bg p = energyResidual dim bg.2 p := by
  rw [strongHeat, energyResidual, heating_eq h1 h3]

theorem constraint_eq {dim : Nat} (h1 : 1 ≤ dim) (h3 : dim ≤ 3) (bg : K × K) (p : Pt K) :
    divu dim p - thermDiv dim bg p = constraint dim bg p := by
  rw [constraint, thermDiv, divu_eq h1 h3, heating_eq h1 h3]
  ring

theorem flux_eq [CharZero K] {dim : Nat} (h1 : 1 ≤ dim) (h3 : dim ≤ 3) {i c : Nat} (hi : i < dim) (hc : c < dim)
    (p : Pt K) : flux dim i c p = p.wts * stress dim i c p := by
  have h : (3 : K) ≠ 0 := by norm_num
  interval_cases dim <;> interval_cases i <;> interval_cases c <;>
    simp [flux, stress, divergence, Finset.sum_range_succ] <;> field_simp <;> ring

theorem momAdds_eq [CharZero K] {dim : Nat} (h1 : 1 ≤ dim) (h3 : dim ≤ 3) {i : Nat} (hi : i < dim) (p : Pt K)
    (d : Nat) : (momAdds dim i p d).sum = p.wts * weakMomentum dim i p d := by
  unfold momAdds weakMomentum
  simp only [moving_eq h1 h3]
  have hf : ∀ c : Nat, c < dim → flux dim i c p = p.wts * stress dim i c p := fun c hc => flux_eq h1 h3 hi hc p
  rcases (by omega : dim = 1 ∨ dim = 2 ∨ dim = 3) with h | h | h <;> subst h
  · simp [hf 0 (by omega), dot_one]
    ring
  · simp [hf 0 (by omega), hf 1 (by omega), dot_two]
    ring
  · simp [hf 0 (by omega), hf 1 (by omega), hf 2 (by omega), dot_three]
    ring

theorem supgAdds_eq {dim : Nat} (h1 : 1 ≤ dim) (h3 : dim ≤ 3) (e : Nat) (t r : K) (p : Pt K) (d : Nat) :
    (supgAdds dim e t r p d).sum = p.wts * (t * r * along dim e p d) := by
  interval_cases dim <;> simp [supgAdds, along, dot_one, dot_two, dot_three] <;> ring

theorem heatAdds_eq {dim : Nat} (h1 : 1 ≤ dim) (h3 : dim ≤ 3) (bg : K × K) (p : Pt K) (d : Nat) :
    (heatAdds dim bg p d).sum = p.wts * weakEnergy dim bg.2 p d := by
  unfold heatAdds weakEnergy energyResidual
  simp only [heating_eq h1 h3]
  interval_cases dim <;> simp [dot_one, dot_two, dot_three] <;> ring

theorem pspgAdds_eq (tau : Tau K) {dim : Nat} (h1 : 1 ≤ dim) (h3 : dim ≤ 3) (p : Pt K) (d : Nat) :
    (pspgAdds tau dim p d).sum =
      p.wts * (tauAt tau dim p.mu p * dot dim (fun j => momentumResidual dim j p) (p.grad (dim + 1) d)) := by
  unfold pspgAdds
  simp only [strongMom_eq h1 h3]
  interval_cases dim <;> simp [dot_one, dot_two, dot_three] <;> ring

theorem mem_momLoops {tau : Tau K} {dim : Nat} {ndof : Nat → Nat} {c : Cfg} {bg : K × K} {i : Nat}
    {l : Loop K (Pt K)} (h : l ∈ momLoops tau dim ndof c bg i) : l.eq = i ∧ l.ndof = ndof i := by
  unfold momLoops at h
  rcases List.mem_append.mp h with h | h
  · rcases List.mem_append.mp h with h | h
    · rw [List.mem_singleton] at h
      subst h
      exact ⟨rfl, rfl⟩
    · split at h
      · rw [List.mem_singleton] at h
        subst h
        exact ⟨rfl, rfl⟩
      · cases h
  · split at h
    · rw [List.mem_singleton] at h
      subst h
      exact ⟨rfl, rfl⟩
    · cases h

theorem mem_heatLoops {tau : Tau K} {dim : Nat} {ndof : Nat → Nat} {c : Cfg} {bg : K × K}
    {l : Loop K (Pt K)} (h : l ∈ heatLoops tau dim ndof c bg) : l.eq = dim ∧ l.ndof = ndof dim := by
  unfold heatLoops at h
  rcases List.mem_append.mp h with h | h
  · rw [List.mem_singleton] at h
    subst h
    exact ⟨rfl, rfl⟩
  · split at h
    · rw [List.mem_singleton] at h
      subst h
      exact ⟨rfl, rfl⟩
    · cases h

theorem mem_prLoops {tau : Tau K} {dim : Nat} {ndof : Nat → Nat} {c : Cfg} {bg : K × K}
    {l : Loop K (Pt K)} (h : l ∈ prLoops tau dim ndof c bg) : l.eq = dim + 1 ∧ l.ndof = ndof (dim + 1) := by
  unfold prLoops at h
  rcases List.mem_append.mp h with h | h
  · rw [List.mem_singleton] at h
    subst h
    exact ⟨rfl, rfl⟩
  · split at h
    · rw [List.mem_singleton] at h
      subst h
      exact ⟨rfl, rfl⟩
    · cases h

theorem loops_fit (tau : Tau K) (dim : Nat) (ndof : Nat → Nat) (c : Cfg) (bg : K × K) :
    Fits (dim + 2) ndof (loops tau dim ndof c bg) := by
  intro l hl
  unfold loops at hl
  rcases List.mem_append.mp hl with hl | hl
  · rcases List.mem_append.mp hl with hl | hl
    · obtain ⟨i, hi, hl⟩ := List.mem_flatMap.mp hl
      obtain ⟨h1, h2⟩ := mem_momLoops hl
      have := List.mem_range.mp hi
      exact ⟨by omega, by rw [h2, h1]⟩
    · obtain ⟨h1, h2⟩ := mem_heatLoops hl
      exact ⟨by omega, by rw [h2, h1]⟩
  · obtain ⟨h1, h2⟩ := mem_prLoops hl
    exact ⟨by omega, by rw [h2, h1]⟩

theorem termsAt_append (a b : List (Loop K (Pt K))) (e d : Nat) (p : Pt K) :
    termsAt (a ++ b) e d p = termsAt a e d p + termsAt b e d p := by
  simp [termsAt]

theorem termsAt_none (a : List (Loop K (Pt K))) (e d : Nat) (p : Pt K) (h : ∀ l : Loop K (Pt K), l ∈ a → l.eq ≠ e) :
    termsAt a e d p = 0 := by
  unfold termsAt
  refine List.sum_eq_zero ?_
  intro x hx
  obtain ⟨l, hl, rfl⟩ := List.mem_map.mp hx
  rw [if_neg (h l hl)]

theorem termsAt_flat (f : Nat → List (Loop K (Pt K))) (hf : ∀ i : Nat, ∀ l : Loop K (Pt K), l ∈ f i → l.eq = i)
    (n : Nat) (e d : Nat) (p : Pt K) :
    termsAt ((List.range n).flatMap f) e d p = if e < n then termsAt (f e) e d p else 0 := by
  induction n with
  | zero => simp [termsAt]
  | succ n ih =>
    rw [List.range_succ, List.flatMap_append, termsAt_append, ih]
    have h1 : List.flatMap f [n] = f n := by simp
    rw [h1]
    by_cases h : e < n
    · rw [if_pos h, if_pos (by omega), termsAt_none (f n) e d p (fun l hl => by rw [hf n l hl]; omega), add_zero]
    · rw [if_neg h, zero_add]
      by_cases h' : e = n
      · subst h'
        rw [if_pos (by omega)]
      · rw [if_neg (by omega), termsAt_none (f n) e d p (fun l hl => by rw [hf n l hl]; omega)]

/-- The terms of the momentum equation, before they are identified.  [helper] -/
theorem terms_mom (tau : Tau K) {dim : Nat} (ndof : Nat → Nat) (c : Cfg) (bg : K × K) {i : Nat} (hi : i < dim)
    (d : Nat) (p : Pt K) :
    termsAt (loops tau dim ndof c bg) i d p = (momAdds dim i p d).sum
      + (if c.supg = true then (supgAdds dim i (tauAt tau dim p.mu p) (strongMom dim i p) p d).sum else 0)
      + (if c.graddiv = true ∧ dim ≤ 2 then (graddivAdds tau dim bg i p d).sum else 0) := by
  unfold loops
  rw [termsAt_append, termsAt_append, termsAt_flat _ (fun i l hl => (mem_momLoops hl).1), if_pos hi,
    termsAt_none (heatLoops tau dim ndof c bg) i d p (fun l hl => by rw [(mem_heatLoops hl).1]; omega),
    termsAt_none (prLoops tau dim ndof c bg) i d p (fun l hl => by rw [(mem_prLoops hl).1]; omega), add_zero, add_zero]
  unfold momLoops
  rw [termsAt_append, termsAt_append]
  congr 1
  · congr 1
    · simp [termsAt]
    · by_cases h : c.supg = true <;> simp [termsAt, h]
  · by_cases h : c.graddiv = true ∧ dim ≤ 2 <;> simp [termsAt, h]

theorem terms_heat (tau : Tau K) {dim : Nat} (ndof : Nat → Nat) (c : Cfg) (bg : K × K) (d : Nat) (p : Pt K) :
    termsAt (loops tau dim ndof c bg) dim d p = (heatAdds dim bg p d).sum
      + (if c.supg = true then (supgAdds dim dim (tauAt tau dim (p.lam / p.cp) p) (strongHeat dim bg p) p d).sum
         else 0) := by
  unfold loops
  rw [termsAt_append, termsAt_append, termsAt_flat _ (fun i l hl => (mem_momLoops hl).1), if_neg (lt_irrefl dim),
    termsAt_none (prLoops tau dim ndof c bg) dim d p (fun l hl => by rw [(mem_prLoops hl).1]; omega), add_zero, zero_add]
  unfold heatLoops
  rw [termsAt_append]
  congr 1
  · simp [termsAt]
  · by_cases h : c.supg = true <;> simp [termsAt, h]

theorem terms_pr (tau : Tau K) {dim : Nat} (ndof : Nat → Nat) (c : Cfg) (bg : K × K) (d : Nat) (p : Pt K) :
    termsAt (loops tau dim ndof c bg) (dim + 1) d p = (prAdds dim bg p d).sum
      + (if c.pspg = true then (pspgAdds tau dim p d).sum else 0) := by
  unfold loops
  rw [termsAt_append, termsAt_append, termsAt_flat _ (fun i l hl => (mem_momLoops hl).1), if_neg (by omega),
    termsAt_none (heatLoops tau dim ndof c bg) (dim + 1) d p (fun l hl => by rw [(mem_heatLoops hl).1]; omega), zero_add,
    zero_add]
  unfold prLoops
  rw [termsAt_append]
  congr 1
  · simp [termsAt]
  · by_cases h : c.pspg = true <;> simp [termsAt, h]

theorem volumeResidual_some {tau : Tau K} {dim : Nat} {ndof : Nat → Nat} {off : Nat → Nat → Nat} {c : Cfg}
    {params : List (String × List K)} {bg : K × K} (hb : background params = some bg) (pts : List (Pt K))
    (res : Nat → K) :
    volumeResidual tau dim ndof off c params pts res = some (runLoops off pts (loops tau dim ndof c bg) res) := by
  unfold volumeResidual
  rw [hb]
  rfl

end

/-! ## Properties -/

section
variable [Field K]

/-- C148, the part that holds of the momentum equations, in one, two and three dimensions: equation `i` receives the
quadrature of its weak form with the full stress, plus, with SUPG, the strong residual against the derivative of the
test function along the mass flux, plus, with grad-div stabilisation in one dimension, the constraint against the
divergence of the test function.  Missing: grad-div stabilisation in two and three dimensions, see
`C148_graddiv_violated` and `C148_graddiv_3d_violated`. -/
theorem C148_momentum_partial [CharZero K] (tau : Tau K) {dim : Nat} (h1 : 1 ≤ dim) (h3 : dim ≤ 3) {ndof : Nat → Nat}
    {off : Nat → Nat → Nat} (hoff : DistinctAll (dim + 2) ndof off) (c : Cfg) (hg : c.graddiv = true → dim = 1)
    (params : List (String × List K)) {bg : K × K} (hb : background params = some bg) (pts : List (Pt K))
    (res : Nat → K) {i d : Nat} (hi : i < dim) (hd : d < ndof i) :
    (volumeResidual tau dim ndof off c params pts res).map (fun r => r (off i d)) =
      some (res (off i d) + quad pts (fun p => p.wts * (weakMomentum dim i p d
        + (if c.supg = true then tauAt tau dim p.mu p * momentumResidual dim i p * along dim i p d else 0)
        + (if c.graddiv = true then p.h ^ 2 / tauAt tau dim p.mu p * constraint dim bg p * p.grad i d i else 0)))) := by
  rw [volumeResidual_some hb, Option.map_some,
    runLoops_at hoff pts _ (loops_fit tau dim ndof c bg) res (by omega : i < dim + 2) hd]
  congr 2
  refine quad_congr pts (fun p _ => ?_)
  rw [terms_mom tau ndof c bg hi, momAdds_eq h1 h3 hi, supgAdds_eq h1 h3, strongMom_eq h1 h3, mul_add, mul_add]
  congr 1
  · congr 1
    by_cases h : c.supg = true <;> simp [h]
  · by_cases h : c.graddiv = true
    · have hd1 := hg h
      subst hd1
      rw [if_pos ⟨h, by omega⟩, if_pos h, ← constraint_eq h1 h3]
      simp [graddivAdds, divu]
      ring
    · simp [h]

/-- C148: the energy equation receives the quadrature of its weak form, plus, with SUPG, its strong residual against
the derivative of the test function along the mass flux, with the stabilisation parameter of the heat diffusion. -/
theorem C148_energy (tau : Tau K) {dim : Nat} (h1 : 1 ≤ dim) (h3 : dim ≤ 3) {ndof : Nat → Nat}
    {off : Nat → Nat → Nat} (hoff : DistinctAll (dim + 2) ndof off) (c : Cfg)
    (params : List (String × List K)) {bg : K × K} (hb : background params = some bg) (pts : List (Pt K))
    (res : Nat → K) {d : Nat} (hd : d < ndof dim) :
    (volumeResidual tau dim ndof off c params pts res).map (fun r => r (off dim d)) =
      some (res (off dim d) + quad pts (fun p => p.wts * (weakEnergy dim bg.2 p d
        + (if c.supg = true then tauAt tau dim (p.lam / p.cp) p * energyResidual dim bg.2 p * along dim dim p d
           else 0)))) := by
  rw [volumeResidual_some hb, Option.map_some,
    runLoops_at hoff pts _ (loops_fit tau dim ndof c bg) res (by omega : dim < dim + 2) hd]
  congr 2
  refine quad_congr pts (fun p _ => ?_)
  rw [terms_heat tau ndof c bg, heatAdds_eq h1 h3, supgAdds_eq h1 h3, strongHeat_eq h1 h3, mul_add]
  congr 1
  by_cases h : c.supg = true <;> simp [h]

/-- C148: the pressure equation receives the quadrature of the constraint on the divergence, plus, with PSPG, the
strong momentum residual against the gradient of the test function. -/
theorem C148_pressure (tau : Tau K) {dim : Nat} (h1 : 1 ≤ dim) (h3 : dim ≤ 3) {ndof : Nat → Nat}
    {off : Nat → Nat → Nat} (hoff : DistinctAll (dim + 2) ndof off) (c : Cfg)
    (params : List (String × List K)) {bg : K × K} (hb : background params = some bg) (pts : List (Pt K))
    (res : Nat → K) {d : Nat} (hd : d < ndof (dim + 1)) :
    (volumeResidual tau dim ndof off c params pts res).map (fun r => r (off (dim + 1) d)) =
      some (res (off (dim + 1) d) + quad pts (fun p => p.wts * (constraint dim bg p * p.basis (dim + 1) d
        + (if c.pspg = true then tauAt tau dim p.mu p
              * dot dim (fun j => momentumResidual dim j p) (p.grad (dim + 1) d) else 0)))) := by
  rw [volumeResidual_some hb, Option.map_some,
    runLoops_at hoff pts _ (loops_fit tau dim ndof c bg) res (by omega : dim + 1 < dim + 2) hd]
  congr 2
  refine quad_congr pts (fun p _ => ?_)
  rw [terms_pr tau ndof c bg, pspgAdds_eq tau h1 h3, prAdds, constraint_eq h1 h3, mul_add]
  congr 1
  · simp
    ring
  · by_cases h : c.pspg = true <;> simp [h]

/-- C148: entries of the residual that belong to no basis function of the module keep their values. -/
theorem C148_other (tau : Tau K) {dim : Nat} (ndof : Nat → Nat) (off : Nat → Nat → Nat) (c : Cfg)
    (params : List (String × List K)) {bg : K × K} (hb : background params = some bg) (pts : List (Pt K))
    (res : Nat → K) {j : Nat} (hj : ∀ e d : Nat, e < dim + 2 → d < ndof e → off e d ≠ j) :
    (volumeResidual tau dim ndof off c params pts res).map (fun r => r j) = some (res j) := by
  rw [volumeResidual_some hb, Option.map_some]
  congr 1
  refine runLoops_other pts _ res (fun l hl d hd => ?_)
  obtain ⟨h1, h2⟩ := loops_fit tau dim ndof c bg l hl
  exact hj l.eq d h1 (h2 ▸ hd)

/-- C148: the constraint is conservation of mass of the ideal gas: with the density `p0 / (R T)`, the density times the
constraint is the rate of the density plus the divergence of the mass flux, both by the quotient rule. -/
theorem C148_mass {dim : Nat} (bg : K × K) (R : K) (p : Pt K) (hT : p.T ≠ 0) (hp : bg.1 ≠ 0) (hR : R ≠ 0) :
    bg.1 / (R * p.T) * constraint dim bg p =
      (bg.2 * (R * p.T) - bg.1 * (R * p.Tt)) / (R * p.T) ^ 2
      + (dot dim p.u (fun c => - (bg.1 * (R * p.gT c)) / (R * p.T) ^ 2) + bg.1 / (R * p.T) * divergence dim p) := by
  have hd : dot dim p.u (fun c => - (bg.1 * (R * p.gT c)) / (R * p.T) ^ 2) =
      - (bg.1 * R) / (R * p.T) ^ 2 * dot dim p.u p.gT := by
    unfold dot
    rw [Finset.mul_sum]
    exact Finset.sum_congr rfl (fun c _ => by ring)
  rw [hd, constraint]
  field_simp
  ring

/-- C148: the stabilisations vanish for exact solutions without grad-div stabilisation or in one dimension: where the
strong residuals and the constraint are zero at the points, the residual is that without stabilisation. -/
theorem C148_consistent_partial [CharZero K] (tau : Tau K) {dim : Nat} (h1 : 1 ≤ dim) (h3 : dim ≤ 3)
    {ndof : Nat → Nat} {off : Nat → Nat → Nat} (hoff : DistinctAll (dim + 2) ndof off) (c : Cfg)
    (hg : c.graddiv = true → dim = 1) (params : List (String × List K)) {bg : K × K}
    (hb : background params = some bg) (pts : List (Pt K))
    (hm : ∀ p : Pt K, p ∈ pts → ∀ j : Nat, j < dim → momentumResidual dim j p = 0)
    (he : ∀ p : Pt K, p ∈ pts → energyResidual dim bg.2 p = 0)
    (hc : ∀ p : Pt K, p ∈ pts → constraint dim bg p = 0) (res : Nat → K) {e d : Nat} (hee : e < dim + 2)
    (hd : d < ndof e) :
    (volumeResidual tau dim ndof off c params pts res).map (fun r => r (off e d)) =
      (volumeResidual tau dim ndof off { c with supg := false, pspg := false, graddiv := false } params pts res).map
        (fun r => r (off e d)) := by
  rcases (by omega : e < dim ∨ e = dim ∨ e = dim + 1) with h | h | h
  · rw [C148_momentum_partial tau h1 h3 hoff c hg params hb pts res h hd,
      C148_momentum_partial tau h1 h3 hoff _ (by simp) params hb pts res h hd]
    congr 2
    refine quad_congr pts (fun p hp => ?_)
    simp [hm p hp e h, hc p hp]
  · subst h
    rw [C148_energy tau h1 h3 hoff c params hb pts res hd, C148_energy tau h1 h3 hoff _ params hb pts res hd]
    congr 2
    refine quad_congr pts (fun p hp => ?_)
    simp [he p hp]
  · subst h
    rw [C148_pressure tau h1 h3 hoff c params hb pts res hd, C148_pressure tau h1 h3 hoff _ params hb pts res hd]
    congr 2
    refine quad_congr pts (fun p hp => ?_)
    have hz : dot dim (fun j => momentumResidual dim j p) (p.grad (dim + 1) d) = 0 :=
      Finset.sum_eq_zero (fun j hj => by simp only [hm p hp j (Finset.mem_range.mp hj), zero_mul])
    simp [hz]

/-- C148 is false for the function "source pr", which the module offers: the residual does not depend on it. -/
theorem C148_source_violated (tau : Tau K) (dim : Nat) (ndof : Nat → Nat) (off : Nat → Nat → Nat) (c : Cfg)
    (params : List (String × List K)) (pts : List (Pt K)) (f : Pt K → K) (res : Nat → K) :
    volumeResidual tau dim ndof off c params (pts.map (fun p => { p with srcPr := f p })) res =
      volumeResidual tau dim ndof off c params pts res := by
  unfold volumeResidual
  cases background params with
  | none => rfl
  | some bg =>
    simp only [Option.map_some]
    congr 1
    have hrun : ∀ (l : Loop K (Pt K)) (r : Nat → K), l ∈ loops tau dim ndof c bg →
        l.run off (pts.map (fun p => { p with srcPr := f p })) r = l.run off pts r := by
      intro l r hl
      have hadds : ∀ (p : Pt K) (d : Nat), l.adds { p with srcPr := f p } d = l.adds p d := by
        intro p d
        unfold loops at hl
        rcases List.mem_append.mp hl with hl | hl
        · rcases List.mem_append.mp hl with hl | hl
          · obtain ⟨i, hi, hl⟩ := List.mem_flatMap.mp hl
            unfold momLoops at hl
            rcases List.mem_append.mp hl with hl | hl
            · rcases List.mem_append.mp hl with hl | hl
              · rw [List.mem_singleton] at hl
                subst hl
                rfl
              · split at hl
                · rw [List.mem_singleton] at hl
                  subst hl
                  rfl
                · cases hl
            · split at hl
              · rw [List.mem_singleton] at hl
                subst hl
                rfl
              · cases hl
          · unfold heatLoops at hl
            rcases List.mem_append.mp hl with hl | hl
            · rw [List.mem_singleton] at hl
              subst hl
              rfl
            · split at hl
              · rw [List.mem_singleton] at hl
                subst hl
                rfl
              · cases hl
        · unfold prLoops at hl
          rcases List.mem_append.mp hl with hl | hl
          · rw [List.mem_singleton] at hl
            subst hl
            rfl
          · split at hl
            · rw [List.mem_singleton] at hl
              subst hl
              rfl
            · cases hl
      unfold Loop.run dofLoop ptLoop
      simp only [List.foldl_map, hadds]
    unfold runLoops
    generalize loops tau dim ndof c bg = ls at hrun
    induction ls generalizing res with
    | nil => rfl
    | cons l ls ih =>
      rw [List.foldl_cons, List.foldl_cons, hrun l res List.mem_cons_self]
      exact ih (l.run off pts res) (fun l r hl => hrun l r (List.mem_cons_of_mem _ hl))

/-- C148 is false for grad-div stabilisation in three dimensions: the setting has no effect. -/
theorem C148_graddiv_3d_violated (tau : Tau K) (ndof : Nat → Nat) (off : Nat → Nat → Nat) (c : Cfg)
    (params : List (String × List K)) (pts : List (Pt K)) (res : Nat → K) :
    volumeResidual tau 3 ndof off { c with graddiv := true } params pts res =
      volumeResidual tau 3 ndof off { c with graddiv := false } params pts res := by
  have h : ∀ bg : K × K, loops tau 3 ndof { c with graddiv := true } bg = loops tau 3 ndof { c with graddiv := false } bg := by
    intro bg
    have hm : momLoops tau 3 ndof { c with graddiv := true } bg = momLoops tau 3 ndof { c with graddiv := false } bg := by
      funext i
      simp [momLoops]
    unfold loops
    rw [hm]
    rfl
  unfold volumeResidual
  simp only [h]

/-- C148, what is known of the residual without the background pressure among the parameters: nothing, the missing
values are read all the same.  With both parameters the residual is defined. -/
theorem C148_params (tau : Tau K) (dim : Nat) (ndof : Nat → Nat) (off : Nat → Nat → Nat) (c : Cfg)
    (params : List (String × List K)) (pts : List (Pt K)) (res : Nat → K) :
    (volumeResidual tau dim ndof off c params pts res).isSome = true ↔
      (∃ a l, getParameter params "p0" = some (a :: l)) ∧ ∃ b m, getParameter params "dp0dt" = some (b :: m) := by
  unfold volumeResidual background
  rcases h0 : getParameter params "p0" with _ | (_ | ⟨a, l⟩) <;>
    rcases h1 : getParameter params "dp0dt" with _ | (_ | ⟨b, m⟩) <;> simp

/-- C148: a parameter is found by its name, wherever it stands, and the first of several with that name counts. -/
theorem C148_named (before after : List (String × List K)) (name : String) (vals : List K)
    (h : ∀ p : String × List K, p ∈ before → p.1 ≠ name) :
    getParameter (before ++ (name, vals) :: after) name = some vals := by
  unfold getParameter
  rw [List.find?_append, List.find?_eq_none.mpr (by
    intro x hx
    simpa using h x hx)]
  simp

/-- C148: on a side, minus the integral of the Neumann data goes to each velocity component and to the temperature when
their condition is "Neumann", and nothing when it is another. -/
theorem C148_neumann {dim : Nat} {ndof : Nat → Nat} {off : Nat → Nat → Nat} (hoff : DistinctAll (dim + 2) ndof off)
    (bcs : Nat → String) (pts : List (SidePt K)) (res : Nat → K) {e d : Nat} (he : e < dim + 2) (hd : d < ndof e) :
    boundaryResidual dim ndof off bcs pts res (off e d) =
      res (off e d) - (if e < dim + 1 ∧ bcs e = "Neumann" then quad pts (fun p => p.wts * (p.neu e * p.basis e d))
        else 0) := by
  have hfit : Fits (dim + 2) ndof (sideLoops (K := K) dim ndof bcs) := by
    intro l hl
    obtain ⟨i, hi, hl⟩ := List.mem_flatMap.mp hl
    have := List.mem_range.mp hi
    split at hl
    · rw [List.mem_singleton] at hl
      subst hl
      exact ⟨by simp only; omega, rfl⟩
    · cases hl
  rw [boundaryResidual, runLoops_at hoff pts _ hfit res he hd, sub_eq_add_neg]
  congr 1
  have ht : ∀ (n : Nat) (p : SidePt K), termsAt ((List.range n).flatMap fun e =>
      if bcs e = "Neumann" then
        [({ eq := e, ndof := ndof e, adds := fun p d => [- (p.neu e * p.wts * p.basis e d)] } : Loop K (SidePt K))]
      else []) e d p = if e < n ∧ bcs e = "Neumann" then - (p.wts * (p.neu e * p.basis e d)) else 0 := by
    intro n p
    induction n with
    | zero => simp [termsAt]
    | succ n ih =>
      have happ : ∀ a b : List (Loop K (SidePt K)), termsAt (a ++ b) e d p = termsAt a e d p + termsAt b e d p := by
        intro a b
        simp [termsAt]
      rw [List.range_succ, List.flatMap_append, happ, ih]
      by_cases hn : bcs n = "Neumann"
      · by_cases h : e = n
        · subst h
          simp [termsAt, hn]
          ring
        · have h' : ¬ n = e := fun x => h x.symm
          have hlt : (e < n + 1) = (e < n) := by
            apply propext
            omega
          simp [termsAt, hn, h', hlt]
      · by_cases h : e = n
        · subst h
          simp [termsAt, hn]
        · have hlt : (e < n + 1) = (e < n) := by
            apply propext
            omega
          simp [termsAt, hn, hlt]
  unfold sideLoops
  rw [quad_congr pts (fun p _ => ht (dim + 1) p)]
  by_cases h : e < dim + 1 ∧ bcs e = "Neumann"
  · simp only [if_pos h]
    rw [quad_neg]
  · simp only [if_neg h]
    rw [quad_zero, neg_zero]

end

/-! ## The background pressure -/

section
variable [Field K] [DecidableEq K]

/-- C148: the module reserves room for as many values as it has integrands; an open system has none. -/
theorem C148_reserved (c : Cfg) (dim : Nat) : (integrands c dim).length = reserved c := by
  unfold integrands reserved
  by_cases h : c.openSystem = true <;> by_cases h' : c.inoutflow = true <;> simp [h, h']

/-- C148: in an open system the background pressure does not change. -/
theorem C148_open (c : Cfg) (h : c.openSystem = true) (start : Nat) (iq : Nat → K) (dt : K) (bg : K × K) :
    update c start iq dt bg = some bg := by
  simp [update, h]

/-- C148: in a closed system without inflow the new pressure reproduces the mass: it is the pressure for which the
integral of `p / T` is the given integral of `R rho`, and the rate is the backward difference over the step. -/
theorem C148_closed (c : Cfg) (h : c.openSystem = false) (hi : c.inoutflow = false) (start : Nat) (iq : Nat → K)
    (dt : K) (bg new : K × K) (hu : update c start iq dt bg = some new) :
    new.1 * iq (start + 1) = iq start ∧ bg.1 + dt * new.2 = new.1 := by
  unfold update at hu
  rw [h, hi] at hu
  simp only [Bool.false_eq_true, if_false] at hu
  split at hu
  · cases hu
  · rename_i hn
    push Not at hn
    obtain ⟨h1, h2⟩ := hn
    simp only [Option.some.injEq] at hu
    subst hu
    refine ⟨?_, ?_⟩
    · simp only
      field_simp
    · simp only
      field_simp
      ring

/-- C148: with inflow or outflow the pressure advances by the rate over the step. -/
theorem C148_advance (c : Cfg) (h : c.openSystem = false) (hi : c.inoutflow = true) (start : Nat) (iq : Nat → K)
    (dt : K) (bg new : K × K) (hu : update c start iq dt bg = some new) : new.1 = bg.1 + dt * new.2 := by
  unfold update at hu
  rw [h, hi] at hu
  simp only [Bool.false_eq_true, if_false, if_true] at hu
  split at hu
  · cases hu
  · simp only [Option.some.injEq] at hu
    subst hu
    rfl

/-- C148 is false for the rate of the pressure with inflow or outflow.  The integrals are the volume, the heat
released, the heat flux and the volume flux; the rate should satisfy `vol p0' + p0 volflux = heatflux + heat`.  The two
fluxes are exchanged: the rate satisfies the equation only when they are equal (for a positive pressure, or any
other than minus one). -/
theorem C148_inflow_violated (c : Cfg) (h : c.openSystem = false) (hi : c.inoutflow = true) (start : Nat)
    (vol heat heatflux volflux : K) (iq : Nat → K) (h0 : iq start = vol) (h1 : iq (start + 1) = heat)
    (h2 : iq (start + 2) = heatflux) (h3 : iq (start + 3) = volflux) (hv : vol ≠ 0) (dt : K) (bg new : K × K)
    (hp : bg.1 ≠ -1) (hu : update c start iq dt bg = some new) :
    vol * new.2 + bg.1 * volflux = heatflux + heat ↔ heatflux = volflux := by
  unfold update at hu
  rw [h, hi] at hu
  simp only [Bool.false_eq_true, if_false, if_true] at hu
  split at hu
  · cases hu
  · simp only [Option.some.injEq] at hu
    subst hu
    simp only [h0, h1, h2, h3]
    have hp' : bg.1 + 1 ≠ 0 := fun h' => hp (by linear_combination h')
    have hkey : vol * (1 / vol * (volflux + heat - bg.1 * heatflux)) = volflux + heat - bg.1 * heatflux := by
      field_simp
    rw [hkey]
    constructor
    · intro he
      have : (bg.1 + 1) * (heatflux - volflux) = 0 := by linear_combination - he
      rcases mul_eq_zero.mp this with h' | h'
      · exact absurd h' hp'
      · linear_combination h'
    · intro he
      rw [he]
      ring

/-- C148 is false for the mass of a closed system with the default density, the ideal gas law `p0 / (R T)`: the
integral of `R rho` is computed with the pressure of the previous step, so the new pressure is the old one and the rate
is zero, whatever the temperature has become; the mass follows the temperature.  `state` are the weights and
temperatures of the quadrature points. -/
theorem C148_closed_violated (c : Cfg) (h : c.openSystem = false) (hi : c.inoutflow = false) (start : Nat)
    (iq : Nat → K) (R : K) (hR : R ≠ 0) (state : List (K × K)) (dt : K) (hdt : dt ≠ 0) (bg : K × K)
    (h0 : iq start = (state.map (fun x => x.1 * (bg.1 / (R * x.2) * R))).sum)
    (h1 : iq (start + 1) = (state.map (fun x => x.1 * (1 / x.2))).sum) (hn : iq (start + 1) ≠ 0) :
    update c start iq dt bg = some (bg.1, 0) := by
  have hm : iq start = bg.1 * iq (start + 1) := by
    rw [h0, h1, ← List.sum_map_mul_left]
    congr 1
    refine List.map_congr_left (fun x _ => ?_)
    rw [div_mul_eq_mul_div, mul_comm R x.2, mul_div_mul_right _ _ hR]
    ring
  have hq : iq start / iq (start + 1) = bg.1 := by
    rw [hm]
    field_simp
  unfold update
  rw [h, hi]
  simp [hn, hdt, hq]

/-- C148: what the residuals of a run read, for every number of steps and every sequence of updates: the values given
in the input, of the index of the step for parameters that depend on it, and of index zero otherwise. -/
theorem C148_read (implicit dynamic : Bool) (first : K × K → K × K) (upds : List (K × K → K × K)) (v : Views K) :
    run implicit dynamic first upds v =
      (List.range upds.length).map (fun n => v.all (if dynamic then n else 0)) := by
  have hs : ∀ (upds : List (K × K → K × K)) (n : Nat) (w : Views K), w.all = v.all →
      steps implicit dynamic upds n w =
        (List.range upds.length).map (fun k => v.all (if dynamic then n + k else 0)) := by
    intro upds
    induction upds with
    | nil =>
      intro n w hw
      rfl
    | cons u us ih =>
      intro n w hw
      have ht := ih (n + 1) (record u (refresh dynamic n w)) (by simpa [record, refresh] using hw)
      unfold steps
      simp only
      rw [ht, List.length_cons, List.range_succ_eq_map, List.map_cons, List.map_map]
      congr 1
      · cases implicit <;> simp [refresh, hw]
      · refine List.map_congr_left (fun k _ => ?_)
        simp only [Function.comp]
        congr 2
        omega
  unfold run
  rw [hs upds 0 (record first v) rfl]
  simp

/-- C148 is false for the background pressure of a closed system: whatever the updates are, no residual of any step
reads them; a run with the updates is a run without. -/
theorem C148_background_violated (implicit dynamic : Bool) (first : K × K → K × K) (upds : List (K × K → K × K))
    (v : Views K) :
    run implicit dynamic first upds v = run implicit dynamic id (upds.map (fun _ => id)) v := by
  rw [C148_read, C148_read, List.length_map]

end

/-! ## The stabilisation parameter -/

/-- C148: the stabilisation parameter for a flow that is not at rest: the inverse of the root of the squares of the
diffusive, convective and, in a transient run, unsteady rates. -/
theorem C148_tau {dim : Nat} (h1 : 1 ≤ dim) (h3 : dim ≤ 3) (dt : ℝ) (transient : Bool) (p : Pt ℝ) (diff : ℝ)
    (hu : 1 / 10 ^ 12 < ∑ c ∈ Finset.range dim, p.u c ^ 2) :
    tauAt (computeTau dim dt transient) dim diff p =
      1 / Real.sqrt ((4 * diff / p.h ^ 2) ^ 2 + (2 * p.rho / p.h) ^ 2 * (∑ c ∈ Finset.range dim, p.u c ^ 2)
        + (if transient = true then (2 * p.rho / dt) ^ 2 else 0)) := by
  have hn : 0 ≤ ∑ c ∈ Finset.range dim, p.u c ^ 2 := Finset.sum_nonneg (fun c _ => sq_nonneg _)
  have hs := Real.sq_sqrt hn
  have e1 : (4 * diff / p.h / p.h) * (4 * diff / p.h / p.h) = (4 * diff / p.h ^ 2) ^ 2 := by
    rw [div_div, ← sq, ← sq]
  have e2 : ∀ x : ℝ, (2 * p.rho * x / p.h) * (2 * p.rho * x / p.h) = (2 * p.rho / p.h) ^ 2 * x ^ 2 := by
    intro x
    ring
  have e3 : ((if transient = true then (2 : ℝ) else 0) * p.rho / dt) * ((if transient = true then (2 : ℝ) else 0) * p.rho / dt)
      = (if transient = true then (2 * p.rho / dt) ^ 2 else 0) := by
    cases transient <;> simp
    ring
  interval_cases dim
  · simp only [Finset.sum_range_succ, Finset.sum_range_zero, zero_add] at hu hs ⊢
    have hu' : p.u 0 * p.u 0 > 1 / 10 ^ 12 := by nlinarith
    simp only [tauAt, computeTau, if_true, if_pos hu', e1, e2, e3]
    rw [← sq, hs]
  · simp only [Finset.sum_range_succ, Finset.sum_range_zero, zero_add] at hu hs ⊢
    have hu' : p.u 0 * p.u 0 + p.u 1 * p.u 1 > 1 / 10 ^ 12 := by nlinarith
    simp only [tauAt, computeTau, if_true, (by decide : ¬ (2 : Nat) = 1), if_false, if_pos hu', e1, e2, e3]
    rw [← sq, ← sq, hs]
  · simp only [Finset.sum_range_succ, Finset.sum_range_zero, zero_add] at hu hs ⊢
    have hu' : p.u 0 * p.u 0 + p.u 1 * p.u 1 + p.u 2 * p.u 2 > 1 / 10 ^ 12 := by nlinarith
    simp only [tauAt, computeTau, if_true, (by decide : ¬ (3 : Nat) = 1), (by decide : ¬ (3 : Nat) = 2), if_false,
      if_pos hu', e1, e2, e3]
    rw [← sq, ← sq, ← sq, hs]

/-- C148: the stabilisation parameter is positive for a positive diffusivity, and at most the diffusive time
`h^2 / (4 diff)`; in a transient run with a positive density it is at most half a step over the density. -/
theorem C148_tau_bounds (dim : Nat) {dt : ℝ} (transient : Bool) {diff rho h : ℝ} (x y z : ℝ) (hd : 0 < diff)
    (hh : 0 < h) :
    0 < computeTau dim dt transient diff x y z rho h ∧ computeTau dim dt transient diff x y z rho h ≤ h ^ 2 / (4 * diff) ∧
    (transient = true → 0 < rho → 0 < dt → computeTau dim dt transient diff x y z rho h ≤ dt / (2 * rho)) := by
  have key : ∀ (a b c : ℝ), 0 < a → 0 < 1 / Real.sqrt (a * a + b * b + c * c) ∧
      1 / Real.sqrt (a * a + b * b + c * c) ≤ 1 / a ∧ (0 < c → 1 / Real.sqrt (a * a + b * b + c * c) ≤ 1 / c) := by
    intro a b c ha
    have hb := mul_self_nonneg b
    have hc := mul_self_nonneg c
    have hpos : 0 < a * a + b * b + c * c := by positivity
    refine ⟨by positivity, ?_, ?_⟩
    · refine one_div_le_one_div_of_le ha (Real.le_sqrt_of_sq_le ?_)
      nlinarith
    · intro hc'
      refine one_div_le_one_div_of_le hc' (Real.le_sqrt_of_sq_le ?_)
      nlinarith
  have ha : 0 < 4 * diff / h / h := by positivity
  unfold computeTau
  simp only
  obtain ⟨k1, k2, -⟩ := key (4 * diff / h / h)
    (2 * rho * (if (if dim = 1 then x * x else if dim = 2 then x * x + y * y else
      if dim = 3 then x * x + y * y + z * z else 0) > 1 / 10 ^ 12 then Real.sqrt (if dim = 1 then x * x else
      if dim = 2 then x * x + y * y else if dim = 3 then x * x + y * y + z * z else 0) else
      (if dim = 1 then x * x else if dim = 2 then x * x + y * y else if dim = 3 then x * x + y * y + z * z else 0)) / h)
    ((if transient = true then 2 else 0) * rho / dt) ha
  refine ⟨k1, k2.trans (le_of_eq (by field_simp)), ?_⟩
  intro ht hr hdt
  have hc : 0 < (if transient = true then (2 : ℝ) else 0) * rho / dt := by
    rw [ht]
    simp only [if_true]
    positivity
  obtain ⟨-, -, k3⟩ := key (4 * diff / h / h)
    (2 * rho * (if (if dim = 1 then x * x else if dim = 2 then x * x + y * y else
      if dim = 3 then x * x + y * y + z * z else 0) > 1 / 10 ^ 12 then Real.sqrt (if dim = 1 then x * x else
      if dim = 2 then x * x + y * y else if dim = 3 then x * x + y * y + z * z else 0) else
      (if dim = 1 then x * x else if dim = 2 then x * x + y * y else if dim = 3 then x * x + y * y + z * z else 0)) / h)
    ((if transient = true then 2 else 0) * rho / dt) ha
  refine (k3 hc).trans (le_of_eq ?_)
  rw [ht]
  simp only [if_true]
  field_simp

/-! ## Cases and what does not hold -/

/-- A rotation about the origin (no divergence) of a gas of constant temperature, in balance with its source and
pressure gradient, at the point (1, 2), [case]. -/
def rotating : Pt ℚ :=
  { wts := 1 / 2, basis := fun _ _ => 1 / 2, grad := fun _ d c => if d = c then 1 else -1, rho := 2, mu := 3, lam := 1,
    cp := 4, u := fun i => if i = 0 then -2 else 1, ut := fun _ => 0,
    g := fun i c => if i = 0 ∧ c = 1 then -1 else if i = 1 ∧ c = 0 then 1 else 0, pr := 5,
    gp := fun i => if i = 0 then 2 else 3, T := 300, Tt := 0, gT := fun _ => 0,
    src := fun i => if i = 0 then 0 else -1, srcPr := 7, srcT := 0, h := 1 }

/-- All stabilisations, [case]. -/
def stabilised : Cfg := { supg := true, pspg := true, graddiv := true, openSystem := true, inoutflow := false }

/-- The parameters of the input file, [case]. -/
def listed : List (String × List ℚ) := [("wind", [4, 5]), ("dp0dt", [0]), ("p0", [100])]

/-- A stabilisation parameter, [case]. -/
def someTau : Tau ℚ := fun diff x y z rho h => 1 / (diff + x + y + z + rho + h + 10)

/-- The offsets of two basis functions for each of four variables, [case]. -/
def offsets (e d : Nat) : Nat := 2 * e + d

theorem offsets_distinct : DistinctAll 4 (fun _ => 2) offsets := by
  intro a b c d _ _ hb hd h
  unfold offsets at h
  simp only at hb hd
  omega

/-- C148 is false for grad-div stabilisation in two dimensions: the divergence is computed with the derivative of the
second component along the first axis.  For every rigid rotation this is not zero: an exact solution, for which all
strong residuals and the constraint vanish, gets another residual with the stabilisation than without. -/
theorem C148_graddiv_violated :
    momentumResidual 2 0 rotating = 0 ∧ momentumResidual 2 1 rotating = 0 ∧ energyResidual 2 0 rotating = 0 ∧
    constraint 2 (100, 0) rotating = 0 ∧
    (volumeResidual someTau 2 (fun _ => 2) offsets stabilised listed [rotating] (fun _ => 0)).map (fun r => r 0) ≠
      (volumeResidual someTau 2 (fun _ => 2) offsets { stabilised with graddiv := false } listed [rotating]
        (fun _ => 0)).map (fun r => r 0) := by
  refine ⟨?_, ?_, ?_, ?_, ?_⟩
  · norm_num [momentumResidual, rotating, dot_two]
  · norm_num [momentumResidual, rotating, dot_two]
  · norm_num [energyResidual, rotating, dot_two]
  · norm_num [constraint, divergence, rotating, dot_two, Finset.sum_range_succ]
  · decide +kernel

/-- What the two-dimensional grad-div nest adds instead, for all states: it is the stabilisation exactly when the two
derivatives of the second component agree or the test function does not vary.  [the exact deviation] -/
theorem C148_graddiv_2d (tau : Tau ℚ) (bg : ℚ × ℚ) (i : Nat) (p : Pt ℚ) (d : Nat) :
    (graddivAdds tau 2 bg i p d).sum = p.wts * (p.h ^ 2 / tauAt tau 2 p.mu p * (constraint 2 bg p + (p.g 1 0 - p.g 1 1))
      * p.grad i d i) := by
  rw [← constraint_eq (by decide) (by decide)]
  simp [graddivAdds, divu]
  ring

example : background listed = some (100, 0) := by decide +kernel

example : (volumeResidual someTau 2 (fun _ => 2) offsets { stabilised with graddiv := false } listed [rotating]
    (fun _ => 0)).map (fun r => [r 0, r 1, r 2, r 4, r 6]) = some [-3, 2, 7 / 4, 0, 0] := by decide +kernel

/-- The same rotation in a gas that is heated, which is not a solution: every stabilisation acts, [case]. -/
def heated : Pt ℚ := { rotating with Tt := 3, gT := fun _ => 6, srcT := 8, gp := fun _ => 1 }

example : (volumeResidual someTau 2 (fun _ => 2) offsets { stabilised with graddiv := false } listed [heated]
    (fun _ => 0)).map (fun r => (decide (r 4 = 0), decide (r 6 = 0), decide (r 0 = 0))) = some (false, false, false) := by
  decide +kernel

example : volumeResidual someTau 2 (fun _ => 2) offsets stabilised [("p0", [100])] [rotating] (fun _ => 0) = none := by
  rw [← Option.not_isSome_iff_eq_none, C148_params]
  rintro ⟨-, b, m, h⟩
  revert h
  simp [getParameter]

example : boundaryResidual 2 (fun _ => 2) offsets (fun e => if e = 1 ∨ e = 2 then "Neumann" else "Dirichlet")
    [({ wts := 1 / 2, basis := fun _ _ => 1, neu := fun e => e + 3 } : SidePt ℚ)] (fun _ => 0) 3 = -2 ∧
  boundaryResidual 2 (fun _ => 2) offsets (fun e => if e = 1 ∨ e = 2 then "Neumann" else "Dirichlet")
    [({ wts := 1 / 2, basis := fun _ _ => 1, neu := fun e => e + 3 } : SidePt ℚ)] (fun _ => 0) 0 = 0 := by
  constructor <;> decide +kernel

/-- A closed system, [case]. -/
def closedBox : Cfg := construct none none none (some false) none

example : closedBox.inoutflow = false ∧ (construct none none none none none).openSystem = true ∧
    (construct none none none none none).supg = false := ⟨rfl, rfl, rfl⟩

/-- The gas of the box is heated from 300 to 600 without leaving: the pressure should double from 3 to 6, the module
keeps it, and the mass of the default density halves.  [case of `C148_closed_violated`] -/
example : update closedBox 0 (fun k => if k = 0 then 3 * (1 / 600) else 1 / 600) (1 / 10) ((3 : ℚ), 0) = some (3, 0) ∧
    (3 : ℚ) / 300 ≠ 3 / 600 := by
  constructor
  · decide +kernel
  · norm_num

/-- With the mass of the initial state the same formula gives the doubled pressure.  [case of `C148_closed`] -/
example : update closedBox 0 (fun k => if k = 0 then 3 * (1 / 300) else 1 / 600) (1 / 10) ((3 : ℚ), 0) = some (6, 30) := by
  decide +kernel

/-- A duct with an outflow of volume 2 and no heat flux: the pressure 3 should fall at the rate 6, it rises at the
rate 2.  [case of `C148_inflow_violated`] -/
example : update (construct none none none (some false) (some true)) 0
    (fun k => if k = 0 then 1 else if k = 3 then 2 else 0) (1 / 10) ((3 : ℚ), 0) = some (16 / 5, 2) := by
  decide +kernel

example : integrands (construct none none none (some false) (some true)) 2 =
    [("1.", "volume"), ("source T*(gamma-1.)", "volume"),
     ("(gamma-1.)*lambda*(n[x]*grad(T)[x] + n[y]*grad(T)[y])", "boundary"),
     ("gamma*(n[x]*ux + n[y]*uy)", "boundary")] := by decide +kernel

/-- Two steps that would raise the pressure; the residuals of both read the input.  [case of
`C148_background_violated`] -/
example : run true false (fun b => (b.1 + 1, 1)) [fun b => (b.1 + 1, 1), fun b => (b.1 + 1, 1)]
    { all := fun _ => ((3 : ℚ), 0), plain := (3, 0), ad := (3, 0) } = [(3, 0), (3, 0)] := by decide +kernel

example : (1 : ℝ) / 10 ^ 12 < ∑ c ∈ Finset.range 2, (fun i : Nat => if i = 0 then (-2 : ℝ) else 1) c ^ 2 := by
  norm_num [Finset.sum_range_succ]

end MrHyDE.Modules.LowMach
