import Verif.Modules.Loops
import Verif.Modules.Elasticity
import Mathlib.Tactic.IntervalCases
import Mathlib.Tactic.NormNum

/-!
# The elastodynamics module (C109)

`elastodynamics` solves `rho d_t = v`, `v_t = div sigma(d) + f`.  The stress, the side terms and the fluxes are, line for
line, those of `linearelasticity` (`Verif.Modules.Elasticity`); the volume terms are modelled here.  Equations
`0 … dim - 1` are those of the displacements, `dim … 2 dim - 1` those of the velocities.
-/

set_option linter.unusedSectionVars false

namespace MrHyDE.Modules.Elastodynamics

variable {K : Type}

/-! ## Model -/

/-- What `volumeResidual` reads at one integration point, src/physics/elastodynamics.cpp:97-119; `stress` is the result of
`computeStress`, `basis e d` and `grad e d c` the basis functions of equation `e`. -/
structure Pt (K : Type) where
  wts : K
  rho : K
  stress : Nat → Nat → K
  src : Nat → K
  dt : Nat → K
  v : Nat → K
  vt : Nat → K
  basis : Nat → Nat → K
  grad : Nat → Nat → Nat → K

/-- The addition of the loop body of displacement component `i`, src/physics/elastodynamics.cpp:134, 172, 190, 246, 267
and 288. -/
def momAdds [CommRing K] (dim i : Nat) (p : Pt K) (d : Nat) : List K :=
  if dim = 1 then [(p.stress i 0 * p.grad i d 0 + (p.vt i - p.src i) * p.basis i d) * p.wts]
  else if dim = 2 then
    [(p.stress i 0 * p.grad i d 0 + p.stress i 1 * p.grad i d 1 + (p.vt i - p.src i) * p.basis i d) * p.wts]
  else
    [(p.stress i 0 * p.grad i d 0 + p.stress i 1 * p.grad i d 1 + p.stress i 2 * p.grad i d 2
      + (p.vt i - p.src i) * p.basis i d) * p.wts]

/-- The addition of the loop body of velocity component `i`, src/physics/elastodynamics.cpp:151, 207, 223, 305, 321 and
337. -/
def velAdds [CommRing K] (dim i : Nat) (p : Pt K) (d : Nat) : List K :=
  [(p.rho * p.dt i - p.v i) * p.basis (dim + i) d * p.wts]

/-- The equation whose offsets the block of velocity component `i` uses, src/physics/elastodynamics.cpp:143, 199, 215,
297, 313 and 329: in three dimensions the block of the second component uses those of the first. -/
def velEq (dim i : Nat) : Nat := if dim = 3 ∧ i = 1 then dim else dim + i

/-- The loop nests of `volumeResidual`, src/physics/elastodynamics.cpp:121-342: first the displacements (in three
dimensions over basis functions first), then the velocities. -/
def loops [CommRing K] (dim : Nat) (ndof : Nat → Nat) : List (Loop K (Pt K)) :=
  (List.range dim).map (fun i =>
    { eq := i, ndof := ndof i, dofFirst := decide (dim = 3), adds := momAdds dim i }) ++
  (List.range dim).map (fun i => { eq := velEq dim i, ndof := ndof (dim + i), adds := velAdds dim i })

/-- `volumeResidual` on one element, src/physics/elastodynamics.cpp:93-344. -/
def volumeResidual [CommRing K] (dim : Nat) (ndof : Nat → Nat) (off : Nat → Nat → Nat) (pts : List (Pt K))
    (res : Nat → K) : Nat → K :=
  runLoops off pts (loops dim ndof) res

/-! ## Specification -/

/-- The balance of momentum of component `i` tested with basis function `d`, at a point.  [specification, no code] -/
def momentum [CommRing K] (dim i d : Nat) (p : Pt K) : K :=
  (p.vt i - p.src i) * p.basis i d + dot dim (p.stress i) (p.grad i d)

/-- The relation of displacement and velocity tested with basis function `d`, at a point.  [specification, no code] -/
def kinematic [CommRing K] (dim i d : Nat) (p : Pt K) : K :=
  (p.rho * p.dt i - p.v i) * p.basis (dim + i) d

/-! ## Properties -/

section
variable [CommRing K]

theorem loops_fit {dim : Nat} (h1 : 1 ≤ dim) (h3 : dim ≤ 3) {ndof : Nat → Nat}
    (hsame : dim = 3 → ndof 3 = ndof 4) : Fits (2 * dim) ndof (loops dim ndof : List (Loop K (Pt K))) := by
  intro l hl
  interval_cases dim
  · simp [loops, velEq, List.range_succ] at hl
    rcases hl with rfl | rfl <;> exact ⟨by simp, rfl⟩
  · simp [loops, velEq, List.range_succ] at hl
    rcases hl with rfl | rfl | rfl | rfl <;> exact ⟨by simp, rfl⟩
  · simp [loops, velEq, List.range_succ] at hl
    rcases hl with rfl | rfl | rfl | rfl | rfl | rfl
    · exact ⟨by simp, rfl⟩
    · exact ⟨by simp, rfl⟩
    · exact ⟨by simp, rfl⟩
    · exact ⟨by simp, rfl⟩
    · exact ⟨by simp, (hsame rfl).symm⟩
    · exact ⟨by simp, rfl⟩

/-- C109: the equation of every displacement component is the balance of momentum, in one, two and three dimensions
(the two velocities that share offsets in three dimensions having equally many basis functions). -/
theorem C109_momentum {dim : Nat} (h1 : 1 ≤ dim) (h3 : dim ≤ 3) {ndof : Nat → Nat} (hsame : dim = 3 → ndof 3 = ndof 4)
    {off : Nat → Nat → Nat} (hoff : DistinctAll (2 * dim) ndof off) (pts : List (Pt K)) (res : Nat → K) {i d : Nat}
    (hi : i < dim) (hd : d < ndof i) :
    volumeResidual dim ndof off pts res (off i d) =
      res (off i d) + quad pts (fun p => p.wts * momentum dim i d p) := by
  unfold volumeResidual
  rw [runLoops_at hoff pts _ (loops_fit h1 h3 hsame) res (by omega) hd]
  refine congrArg _ (quad_congr pts fun p _ => ?_)
  interval_cases dim <;> interval_cases i <;>
    simp [termsAt, loops, velEq, momAdds, momentum, List.range_succ, dot_one, dot_two, dot_three] <;> ring

/-- C109, the part of the velocity equations that holds: all of them in one and two dimensions, the third in three
dimensions, relate displacement and velocity.  Missing: the first and the second in three dimensions, which are wrong
(`C109_velocity_violated`). -/
theorem C109_velocity_partial {dim : Nat} (h1 : 1 ≤ dim) (h3 : dim ≤ 3) {ndof : Nat → Nat}
    (hsame : dim = 3 → ndof 3 = ndof 4) {off : Nat → Nat → Nat} (hoff : DistinctAll (2 * dim) ndof off)
    (pts : List (Pt K)) (res : Nat → K) {i d : Nat} (hi : i < dim) (hz : dim = 3 → i = 2) (hd : d < ndof (dim + i)) :
    volumeResidual dim ndof off pts res (off (dim + i) d) =
      res (off (dim + i) d) + quad pts (fun p => p.wts * kinematic dim i d p) := by
  unfold volumeResidual
  rw [runLoops_at hoff pts _ (loops_fit h1 h3 hsame) res (by omega) hd]
  refine congrArg _ (quad_congr pts fun p _ => ?_)
  interval_cases dim
  · interval_cases i
    simp [termsAt, loops, velEq, velAdds, kinematic, List.range_succ]
    ring
  · interval_cases i <;> simp [termsAt, loops, velEq, velAdds, kinematic, List.range_succ] <;> ring
  · obtain rfl := hz rfl
    simp [termsAt, loops, velEq, velAdds, kinematic, List.range_succ]
    ring

/-- C109: that every velocity equation relates displacement and velocity is false in three dimensions, for every state:
the equation of the second velocity component receives nothing at all (its row of the Jacobian is zero), and that of the
first receives the terms of both. -/
theorem C109_velocity_violated {ndof : Nat → Nat} (hsame : ndof 3 = ndof 4) {off : Nat → Nat → Nat}
    (hoff : DistinctAll 6 ndof off) (pts : List (Pt K)) (res : Nat → K) {d : Nat} (hd : d < ndof 4) :
    volumeResidual 3 ndof off pts res (off 4 d) = res (off 4 d) ∧
    volumeResidual 3 ndof off pts res (off 3 d) =
      res (off 3 d) + quad pts (fun p => p.wts * (kinematic 3 0 d p + kinematic 3 1 d p)) := by
  unfold volumeResidual
  constructor
  · rw [runLoops_at hoff pts _ (loops_fit (by omega) (by omega) fun _ => hsame) res (by omega) hd]
    have : quad pts (termsAt (loops 3 ndof) 4 d) = quad pts (fun _ : Pt K => (0 : K)) :=
      quad_congr pts fun p _ => by simp [termsAt, loops, velEq, velAdds, List.range_succ]
    rw [this, quad_zero, add_zero]
  · rw [runLoops_at hoff pts _ (loops_fit (by omega) (by omega) fun _ => hsame) res (by omega) (hsame ▸ hd)]
    refine congrArg _ (quad_congr pts fun p _ => ?_)
    simp [termsAt, loops, velEq, velAdds, kinematic, List.range_succ]
    ring

/-- C109 (momentum): if the basis functions of a displacement component sum to one, the entries of its equation sum to
the rate of momentum less the volume force: internal stresses move no momentum out of the element. -/
theorem C109_balance {dim : Nat} (h1 : 1 ≤ dim) (h3 : dim ≤ 3) {ndof : Nat → Nat} (hsame : dim = 3 → ndof 3 = ndof 4)
    {off : Nat → Nat → Nat} (hoff : DistinctAll (2 * dim) ndof off) (pts : List (Pt K)) {i : Nat} (hi : i < dim)
    (hpu : ∀ p : Pt K, p ∈ pts → ∑ d ∈ Finset.range (ndof i), p.basis i d = 1 ∧
      ∀ c : Nat, c < dim → ∑ d ∈ Finset.range (ndof i), p.grad i d c = 0) :
    ∑ d ∈ Finset.range (ndof i), volumeResidual dim ndof off pts (fun _ => 0) (off i d) =
      quad pts (fun p => p.wts * (p.vt i - p.src i)) := by
  have : ∑ d ∈ Finset.range (ndof i), volumeResidual dim ndof off pts (fun _ => 0) (off i d) =
      ∑ d ∈ Finset.range (ndof i), quad pts (fun p => p.wts * momentum dim i d p) :=
    Finset.sum_congr rfl fun d hd => by
      rw [C109_momentum h1 h3 hsame hoff pts _ hi (Finset.mem_range.mp hd), zero_add]
  rw [this, quad_sum]
  refine quad_congr pts fun p hp => ?_
  obtain ⟨hb, hg⟩ := hpu p hp
  rw [← Finset.mul_sum]
  congr 1
  unfold momentum
  rw [Finset.sum_add_distrib, ← Finset.mul_sum, hb, mul_one]
  have hz : ∑ d ∈ Finset.range (ndof i), dot dim (p.stress i) (p.grad i d) = 0 := by
    unfold dot
    rw [Finset.sum_comm]
    refine Finset.sum_eq_zero fun c hc => ?_
    rw [← Finset.mul_sum, hg c (Finset.mem_range.mp hc), mul_zero]
  rw [hz, add_zero]

/-- C109 (energy): the momentum equations weighted with the coefficients `V` of the velocity sum to the rate of kinetic
energy less the power of the volume force plus the power of the stress. -/
theorem C109_energy {dim : Nat} (h1 : 1 ≤ dim) (h3 : dim ≤ 3) {ndof : Nat → Nat} (hsame : dim = 3 → ndof 3 = ndof 4)
    {off : Nat → Nat → Nat} (hoff : DistinctAll (2 * dim) ndof off) (pts : List (Pt K)) (V : Nat → Nat → K)
    (hV : ∀ p : Pt K, p ∈ pts → ∀ i : Nat, i < dim → p.v i = ∑ d ∈ Finset.range (ndof i), V i d * p.basis i d) :
    ∑ i ∈ Finset.range dim, ∑ d ∈ Finset.range (ndof i),
        V i d * volumeResidual dim ndof off pts (fun _ => 0) (off i d) =
      quad pts (fun p => p.wts * (dot dim (fun i => p.vt i - p.src i) p.v
        + Elasticity.contract dim p.stress (Elasticity.gradOf ndof V p.grad))) := by
  have h : ∀ i : Nat, i < dim → ∑ d ∈ Finset.range (ndof i),
      V i d * volumeResidual dim ndof off pts (fun _ => 0) (off i d) =
      quad pts (fun p => p.wts * ((p.vt i - p.src i) * p.v i
        + ∑ j ∈ Finset.range dim, p.stress i j * Elasticity.gradOf ndof V p.grad i j)) := by
    intro i hi
    have : ∑ d ∈ Finset.range (ndof i), V i d * volumeResidual dim ndof off pts (fun _ => 0) (off i d) =
        ∑ d ∈ Finset.range (ndof i), quad pts (fun p => V i d * (p.wts * momentum dim i d p)) :=
      Finset.sum_congr rfl fun d hd => by
        rw [C109_momentum h1 h3 hsame hoff pts _ hi (Finset.mem_range.mp hd), zero_add, quad_mul_left]
    rw [this, quad_sum]
    refine quad_congr pts fun p hp => ?_
    have e1 : ∑ d ∈ Finset.range (ndof i), V i d * (p.wts * momentum dim i d p) =
        p.wts * (∑ d ∈ Finset.range (ndof i), (p.vt i - p.src i) * (V i d * p.basis i d)
          + ∑ d ∈ Finset.range (ndof i), ∑ j ∈ Finset.range dim, p.stress i j * (V i d * p.grad i d j)) := by
      rw [← Finset.sum_add_distrib, Finset.mul_sum]
      refine Finset.sum_congr rfl fun d _ => ?_
      have e2 : ∑ j ∈ Finset.range dim, p.stress i j * (V i d * p.grad i d j) =
          V i d * dot dim (p.stress i) (p.grad i d) := by
        unfold dot
        rw [Finset.mul_sum]
        exact Finset.sum_congr rfl fun j _ => by ring
      rw [e2]
      unfold momentum
      ring
    rw [e1, ← Finset.mul_sum, ← hV p hp i hi, Finset.sum_comm]
    congr 2
    refine Finset.sum_congr rfl fun j _ => ?_
    rw [← Finset.mul_sum]
    rfl
  rw [Finset.sum_congr rfl fun i hi => h i (Finset.mem_range.mp hi), quad_sum]
  refine quad_congr pts fun p _ => ?_
  rw [← Finset.mul_sum, Finset.sum_add_distrib]
  rfl

end

/-! ## Cases -/

example : DistinctAll 6 (fun _ => 2) (fun e d => 2 * e + d) := by
  intro i a j b _ _ ha hb h
  simp only at ha hb h
  omega

/-- [case] A point with all fields non-zero: three components, two basis functions each that sum to one. -/
def busy : Pt ℚ :=
  { wts := 2, rho := 3, stress := fun i j => i + j + 1, src := fun i => i, dt := fun i => 2 * i + 1,
    v := fun i => (i + 1) / 4 * 3 + (i + 2) / 4 * 1, vt := fun i => 5 - i,
    basis := fun _ d => if d = 0 then 3 / 4 else 1 / 4, grad := fun _ d _ => if d = 0 then -1 else 1 }

example : ∀ i : Nat, i < 3 → busy.v i = ∑ d ∈ Finset.range 2, ((i : ℚ) + d + 1) * busy.basis i d := by
  intro i hi
  interval_cases i <;> norm_num [busy, Finset.sum_range_succ]

example : ∑ d ∈ Finset.range 2, busy.basis 0 d = 1 ∧ ∀ c : Nat, c < 3 → ∑ d ∈ Finset.range 2, busy.grad 0 d c = 0 := by
  constructor
  · norm_num [busy, Finset.sum_range_succ]
  · intro c _
    norm_num [busy, Finset.sum_range_succ]

example : volumeResidual 3 (fun _ => 2) (fun e d => 2 * e + d) [busy] (fun _ => 0) 6 ≠
    quad [busy] (fun p => p.wts * kinematic 3 0 0 p) := by
  decide +kernel

end MrHyDE.Modules.Elastodynamics
