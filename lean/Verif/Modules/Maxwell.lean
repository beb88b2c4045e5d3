import Verif.Modules.Loops
import Mathlib.Algebra.Field.Basic
import Mathlib.Algebra.Field.Rat
import Mathlib.Tactic.FieldSimp
import Mathlib.Tactic.IntervalCases
import Mathlib.Tactic.LinearCombination
import Mathlib.Tactic.NormNum

/-!
# The Maxwell module (C108)

`maxwell` solves `B_t + curl E = 0`, `eps n² E_t + sigma E + J - curl(B/mu) = 0` with the electric field in HCURL and
the magnetic field in HVOL (two dimensions) or HDIV (three dimensions).
-/

set_option linter.unusedSectionVars false

namespace MrHyDE.Modules.Maxwell

variable {K : Type}

/-! ## Model -/

/-- What `volumeResidual` reads at one integration point, src/physics/maxwell.cpp:86-307.  Equation 0 is that of the
electric field, equation 1 that of the magnetic field; the components of the magnetic field and of curls are one in two
dimensions and three in three dimensions. -/
structure Pt (K : Type) where
  wts : K
  eps : K
  rindex : K
  mu : K
  sigma : K
  cur : Nat → K
  E : Nat → K
  Et : Nat → K
  B : Nat → K
  Bt : Nat → K
  curlE : Nat → K
  basisE : Nat → Nat → K
  curlBasis : Nat → Nat → K
  basisB : Nat → Nat → K

/-- The terms of the magnetic equation, src/physics/maxwell.cpp:105-123 and 132-136 (two dimensions), 163-189 and 202-211
(three dimensions); `curl` tells whether the curl of the electric field is included. -/
def bAdds [Field K] (dim : Nat) (curl : Bool) (p : Pt K) (d : Nat) : List K :=
  let f := fun c => (if curl then p.Bt c + p.curlE c else p.Bt c) * p.wts
  if dim = 2 then [f 0 * p.basisB d 0]
  else if dim = 3 then [f 0 * p.basisB d 0, f 1 * p.basisB d 1, f 2 * p.basisB d 2]
  else []

/-- The terms of the electric equation, src/physics/maxwell.cpp:257-264 (two dimensions) and 289-303 (three
dimensions, divided by the permittivity). -/
def eAdds [Field K] (dim : Nat) (p : Pt K) (d : Nat) : List K :=
  if dim = 2 then
    let f := fun c => (p.eps * p.rindex * p.rindex * p.Et c + (p.sigma * p.E c + p.cur c)) * p.wts
    let c0 := -1 / p.mu * p.B 0 * p.wts
    [f 0 * p.basisE d 0 + c0 * p.curlBasis d 0 + f 1 * p.basisE d 1]
  else if dim = 3 then
    let f := fun c => (p.rindex * p.rindex * p.Et c + 1 / p.eps * (p.sigma * p.E c + p.cur c)) * p.wts
    let k := fun c => -1 / p.mu * 1 / p.eps * p.B c * p.wts
    [f 0 * p.basisE d 0 + k 0 * p.curlBasis d 0, f 1 * p.basisE d 1 + k 1 * p.curlBasis d 1,
      f 2 * p.basisE d 2 + k 2 * p.curlBasis d 2]
  else []

/-- The settings of the module, src/physics/maxwell.cpp:20-53, and the stage of the time integrator. -/
structure Setting where
  incE : Bool
  incB : Bool
  leapFrog : Bool
  stage : Nat

/-- The loop nests of `volumeResidual`, src/physics/maxwell.cpp:79-308: with leap frog the curl enters the magnetic
equation in stage 0 only and the electric equation is assembled in stage 1 only. -/
def loops [Field K] (dim : Nat) (ndof : Nat → Nat) (s : Setting) : List (Loop K (Pt K)) :=
  (if s.incB then [{ eq := 1, ndof := ndof 1, adds := bAdds dim (!s.leapFrog || s.stage == 0) }] else [])
  ++ (if s.incE && (!s.leapFrog || s.stage == 1) then [{ eq := 0, ndof := ndof 0, adds := eAdds dim }] else [])

/-- `volumeResidual` on one element, src/physics/maxwell.cpp:79-308. -/
def volumeResidual [Field K] (dim : Nat) (ndof : Nat → Nat) (off : Nat → Nat → Nat) (s : Setting)
    (pts : List (Pt K)) (res : Nat → K) : Nat → K :=
  runLoops off pts (loops dim ndof s) res

/-- What `boundaryResidual` reads at one point of a side, src/physics/maxwell.cpp:347-356. -/
structure SidePt (K : Type) where
  wts : K
  n : Nat → K
  E : Nat → K
  basisB : Nat → Nat → K

/-- The terms of the absorbing condition, src/physics/maxwell.cpp:362-372; `gamma` is the constant of line 343. -/
def sideAdds [Field K] (gamma : K) (q : SidePt K) (d : Nat) : List K :=
  let nceX := q.n 1 * q.E 2 - q.n 2 * q.E 1
  let nceY := q.n 2 * q.E 0 - q.n 0 * q.E 2
  let nceZ := q.n 0 * q.E 1 - q.n 1 * q.E 0
  let c0 := -(1 + gamma) * (q.n 1 * nceZ - q.n 2 * nceY) * q.wts
  let c1 := -(1 + gamma) * (q.n 2 * nceX - q.n 0 * nceZ) * q.wts
  let c2 := -(1 + gamma) * (q.n 0 * nceY - q.n 1 * nceX) * q.wts
  [c0 * q.basisB d 0 + c1 * q.basisB d 1 + c2 * q.basisB d 2]

/-- `boundaryResidual` on one element, src/physics/maxwell.cpp:313-403: in two dimensions the loop body for the absorbing
condition is empty (lines 333-337).  `absorbing` tells whether the condition of `B` on the side is "Neumann". -/
def boundaryResidual [Field K] (dim ndofB : Nat) (off : Nat → Nat → Nat) (incB absorbing : Bool) (gamma : K)
    (pts : List (SidePt K)) (res : Nat → K) : Nat → K :=
  if dim = 3 && incB && absorbing then ptLoop ndofB pts (off 1) (sideAdds gamma) res else res

/-! ## Specification -/

/-- Components of the electric field.  [specification, no code] -/
def ne (dim : Nat) : Nat := dim

/-- Components of the magnetic field and of a curl.  [specification, no code] -/
def nb (dim : Nat) : Nat := if dim = 2 then 1 else 3

/-- Faraday's law tested with a basis function, at a point.  [specification, no code] -/
def faraday [CommRing K] (dim : Nat) (p : Pt K) (d : Nat) : K := dot (nb dim) (fun c => p.Bt c + p.curlE c) (p.basisB d)

/-- Ampère's law tested with a basis function, at a point; `nu` is the inverse of the permeability.
[specification, no code] -/
def ampere [CommRing K] (dim : Nat) (nu : K) (p : Pt K) (d : Nat) : K :=
  dot dim (fun c => p.eps * p.rindex ^ 2 * p.Et c + p.sigma * p.E c + p.cur c) (p.basisE d)
    - nu * dot (nb dim) p.B (p.curlBasis d)

/-- The fields have the coefficients `X` (electric) and `Y` (magnetic).  [specification, no code] -/
def HasCoefs [CommRing K] (dim nE nB : Nat) (X Y : Nat → K) (p : Pt K) : Prop :=
  (∀ c : Nat, c < dim → p.E c = ∑ d ∈ Finset.range nE, X d * p.basisE d c) ∧
  (∀ c : Nat, c < nb dim → p.curlE c = ∑ d ∈ Finset.range nE, X d * p.curlBasis d c) ∧
  (∀ c : Nat, c < nb dim → p.B c = ∑ d ∈ Finset.range nB, Y d * p.basisB d c)

/-! ## Lemmas -/

section
variable [Field K]

theorem loops_fit (dim : Nat) (ndof : Nat → Nat) (s : Setting) :
    Fits 2 ndof (loops dim ndof s : List (Loop K (Pt K))) := by
  intro l hl
  unfold loops at hl
  rcases List.mem_append.mp hl with h | h
  · by_cases hb : s.incB = true
    · rw [if_pos hb, List.mem_singleton] at h
      subst h
      exact ⟨by simp, rfl⟩
    · rw [if_neg hb] at h
      cases h
  · by_cases hb : (s.incE && (!s.leapFrog || s.stage == 1)) = true
    · rw [if_pos hb, List.mem_singleton] at h
      subst h
      exact ⟨by simp, rfl⟩
    · rw [if_neg hb] at h
      cases h

theorem termsAt_E (dim : Nat) (ndof : Nat → Nat) (s : Setting) (d : Nat) (p : Pt K) :
    termsAt (loops dim ndof s) 0 d p =
      if s.incE && (!s.leapFrog || s.stage == 1) then (eAdds dim p d).sum else 0 := by
  unfold loops termsAt
  by_cases h1 : s.incB = true <;> by_cases h2 : (s.incE && (!s.leapFrog || s.stage == 1)) = true <;> simp [h1, h2]

theorem termsAt_B (dim : Nat) (ndof : Nat → Nat) (s : Setting) (d : Nat) (p : Pt K) :
    termsAt (loops dim ndof s) 1 d p =
      if s.incB then (bAdds dim (!s.leapFrog || s.stage == 0) p d).sum else 0 := by
  unfold loops termsAt
  by_cases h1 : s.incB = true <;> by_cases h2 : (s.incE && (!s.leapFrog || s.stage == 1)) = true <;> simp [h1, h2]

theorem bAdds_sum {dim : Nat} (hdim : dim = 2 ∨ dim = 3) (p : Pt K) (d : Nat) :
    (bAdds dim true p d).sum = p.wts * faraday dim p d := by
  rcases hdim with rfl | rfl <;> simp [bAdds, faraday, nb, dot_one, dot_three] <;> ring

theorem bAdds_sum' {dim : Nat} (hdim : dim = 2 ∨ dim = 3) (p : Pt K) (d : Nat) :
    (bAdds dim false p d).sum = p.wts * dot (nb dim) p.Bt (p.basisB d) := by
  rcases hdim with rfl | rfl <;> simp [bAdds, nb, dot_one, dot_three] <;> ring

theorem eAdds_sum2 (p : Pt K) (nu : K) (hnu : nu * p.mu = 1) (d : Nat) :
    (eAdds 2 p d).sum = p.wts * ampere 2 nu p d := by
  have hm : p.mu ≠ 0 := right_ne_zero_of_mul (hnu ▸ one_ne_zero)
  have hnu' : nu = 1 / p.mu := by field_simp; exact hnu
  simp [eAdds, ampere, nb, dot_one, dot_two, hnu']
  ring

theorem eAdds_sum3 (p : Pt K) (nu : K) (hnu : nu * p.mu = 1) (he : p.eps ≠ 0) (d : Nat) :
    p.eps * (eAdds 3 p d).sum = p.wts * ampere 3 nu p d := by
  have hm : p.mu ≠ 0 := right_ne_zero_of_mul (hnu ▸ one_ne_zero)
  have hnu' : nu = 1 / p.mu := by field_simp; exact hnu
  simp [eAdds, ampere, nb, dot_three, hnu']
  field_simp
  ring

end

/-! ## Properties -/

section
variable [Field K]

/-- C108: the magnetic equation is Faraday's law tested with the basis functions, in every setting in which the curl is
meant to enter: without leap frog, or in its stage 0. -/
theorem C108_faraday {dim : Nat} (hdim : dim = 2 ∨ dim = 3) {ndof : Nat → Nat} {off : Nat → Nat → Nat}
    (hoff : DistinctAll 2 ndof off) (s : Setting) (hB : s.incB = true) (hs : s.leapFrog = false ∨ s.stage = 0)
    (pts : List (Pt K)) (res : Nat → K) {d : Nat} (hd : d < ndof 1) :
    volumeResidual dim ndof off s pts res (off 1 d) =
      res (off 1 d) + quad pts (fun p => p.wts * faraday dim p d) := by
  unfold volumeResidual
  rw [runLoops_at hoff pts _ (loops_fit dim ndof s) res (by omega) hd]
  refine congrArg _ (quad_congr pts fun p _ => ?_)
  have hc : (!s.leapFrog || s.stage == 0) = true := by rcases hs with h | h <;> simp [h]
  rw [termsAt_B, if_pos hB, hc, bAdds_sum hdim]

/-- C108: in two dimensions the electric equation is Ampère's law tested with the basis functions, for any coefficients,
also discontinuous ones. -/
theorem C108_ampere_2d {ndof : Nat → Nat} {off : Nat → Nat → Nat} (hoff : DistinctAll 2 ndof off) (s : Setting)
    (hE : s.incE = true) (hs : s.leapFrog = false ∨ s.stage = 1) (nu : Pt K → K) (pts : List (Pt K))
    (hnu : ∀ p : Pt K, p ∈ pts → nu p * p.mu = 1) (res : Nat → K) {d : Nat} (hd : d < ndof 0) :
    volumeResidual 2 ndof off s pts res (off 0 d) =
      res (off 0 d) + quad pts (fun p => p.wts * ampere 2 (nu p) p d) := by
  unfold volumeResidual
  rw [runLoops_at hoff pts _ (loops_fit 2 ndof s) res (by omega) hd]
  refine congrArg _ (quad_congr pts fun p hp => ?_)
  have hc : (s.incE && (!s.leapFrog || s.stage == 1)) = true := by rcases hs with h | h <;> simp [h, hE]
  rw [termsAt_E, if_pos hc, eAdds_sum2 p (nu p) (hnu p hp)]

/-- C108: in three dimensions the electric equation is Ampère's law divided by the permittivity, if the permittivity is
the same at all points of the element.  Missing: a permittivity that varies, for which it is false
(`C108_permittivity_violated`). -/
theorem C108_ampere_3d_partial {ndof : Nat → Nat} {off : Nat → Nat → Nat} (hoff : DistinctAll 2 ndof off) (s : Setting)
    (hE : s.incE = true) (hs : s.leapFrog = false ∨ s.stage = 1) (nu : Pt K → K) (eps : K) (heps : eps ≠ 0)
    (pts : List (Pt K)) (hnu : ∀ p : Pt K, p ∈ pts → nu p * p.mu = 1 ∧ p.eps = eps) (res : Nat → K) {d : Nat}
    (hd : d < ndof 0) :
    eps * volumeResidual 3 ndof off s pts res (off 0 d) =
      eps * res (off 0 d) + quad pts (fun p => p.wts * ampere 3 (nu p) p d) := by
  unfold volumeResidual
  rw [runLoops_at hoff pts _ (loops_fit 3 ndof s) res (by omega) hd, mul_add, quad_mul_left]
  refine congrArg _ (quad_congr pts fun p hp => ?_)
  have hc : (s.incE && (!s.leapFrog || s.stage == 1)) = true := by rcases hs with h | h <;> simp [h, hE]
  rw [termsAt_E, if_pos hc, ← eAdds_sum3 p (nu p) (hnu p hp).1 (by rw [(hnu p hp).2]; exact heps), (hnu p hp).2]

/-- C108: leap frog: in stage 0 the electric equation receives nothing, in any later stage the magnetic equation is that
of a field that does not change. -/
theorem C108_leapfrog {dim : Nat} (hdim : dim = 2 ∨ dim = 3) {ndof : Nat → Nat} {off : Nat → Nat → Nat}
    (hoff : DistinctAll 2 ndof off) (s : Setting) (hB : s.incB = true) (hl : s.leapFrog = true)
    (pts : List (Pt K)) (res : Nat → K) :
    (s.stage = 0 → ∀ d : Nat, d < ndof 0 → volumeResidual dim ndof off s pts res (off 0 d) = res (off 0 d)) ∧
    (s.stage ≠ 0 → ∀ d : Nat, d < ndof 1 → volumeResidual dim ndof off s pts res (off 1 d) =
      res (off 1 d) + quad pts (fun p => p.wts * dot (nb dim) p.Bt (p.basisB d))) := by
  constructor
  · intro h0 d hd
    unfold volumeResidual
    rw [runLoops_at hoff pts _ (loops_fit dim ndof s) res (by omega) hd]
    have : quad pts (termsAt (loops dim ndof s) 0 d) = quad pts (fun _ : Pt K => (0 : K)) :=
      quad_congr pts fun p _ => by rw [termsAt_E]; simp [hl, h0]
    rw [this, quad_zero, add_zero]
  · intro h0 d hd
    unfold volumeResidual
    rw [runLoops_at hoff pts _ (loops_fit dim ndof s) res (by omega) hd]
    refine congrArg _ (quad_congr pts fun p _ => ?_)
    have hc : (!s.leapFrog || s.stage == 0) = false := by simp [hl, h0]
    rw [termsAt_B, if_pos hB, hc, bAdds_sum' hdim]

/-- The curl terms of both equations cancel when the equations are weighted with the fields. -/
theorem poynting_point {dim nE nB : Nat} {X Y : Nat → K} {p : Pt K}
    (h : HasCoefs dim nE nB X Y p) (nu : K) :
    (∑ d ∈ Finset.range nE, X d * ampere dim nu p d) + nu * ∑ d ∈ Finset.range nB, Y d * faraday dim p d =
      dot dim (fun c => p.eps * p.rindex ^ 2 * p.Et c + p.sigma * p.E c + p.cur c) p.E + nu * dot (nb dim) p.Bt p.B := by
  obtain ⟨hE, hC, hB⟩ := h
  have swap : ∀ (m n : Nat) (Z : Nat → K) (a : Nat → K) (b : Nat → Nat → K) (z : Nat → K),
      (∀ c : Nat, c < m → z c = ∑ d ∈ Finset.range n, Z d * b d c) →
      ∑ d ∈ Finset.range n, Z d * dot m a (b d) = dot m a z := by
    intro m n Z a b z hz
    unfold dot
    rw [Finset.sum_congr rfl fun d _ => Finset.mul_sum (Finset.range m) _ (Z d), Finset.sum_comm]
    refine Finset.sum_congr rfl fun c hc => ?_
    rw [hz c (Finset.mem_range.mp hc), Finset.mul_sum]
    exact Finset.sum_congr rfl fun d _ => by ring
  have e1 := swap dim nE X (fun c => p.eps * p.rindex ^ 2 * p.Et c + p.sigma * p.E c + p.cur c) p.basisE p.E hE
  have e2 := swap (nb dim) nE X p.B p.curlBasis p.curlE hC
  have e3 := swap (nb dim) nB Y (fun c => p.Bt c + p.curlE c) p.basisB p.B hB
  have s1 : ∑ d ∈ Finset.range nE, X d * ampere dim nu p d =
      dot dim (fun c => p.eps * p.rindex ^ 2 * p.Et c + p.sigma * p.E c + p.cur c) p.E
        - nu * dot (nb dim) p.B p.curlE := by
    rw [← e1, ← e2, Finset.mul_sum, ← Finset.sum_sub_distrib]
    exact Finset.sum_congr rfl fun d _ => by unfold ampere; ring
  have s2 : ∑ d ∈ Finset.range nB, Y d * faraday dim p d = dot (nb dim) p.Bt p.B + dot (nb dim) p.B p.curlE := by
    unfold faraday
    rw [e3]
    unfold dot
    rw [← Finset.sum_add_distrib]
    exact Finset.sum_congr rfl fun c _ => by ring
  rw [s1, s2]
  ring

/-- C108 (Poynting): with constant permeability, in two dimensions, the residuals weighted with the coefficients of the
fields sum to rate of energy plus ohmic loss plus work on the current; the exchange between the fields cancels exactly,
for every quadrature rule and every element. -/
theorem C108_energy_2d {nE nB : Nat} {ndof : Nat → Nat} (hE : ndof 0 = nE) (hB : ndof 1 = nB) {off : Nat → Nat → Nat}
    (hoff : DistinctAll 2 ndof off) (stage : Nat) (nu : K) (X Y : Nat → K) (pts : List (Pt K))
    (hp : ∀ p : Pt K, p ∈ pts → nu * p.mu = 1 ∧ HasCoefs 2 nE nB X Y p) :
    (∑ d ∈ Finset.range nE, X d * volumeResidual 2 ndof off ⟨true, true, false, stage⟩ pts (fun _ => 0) (off 0 d)) +
      nu * ∑ d ∈ Finset.range nB, Y d * volumeResidual 2 ndof off ⟨true, true, false, stage⟩ pts (fun _ => 0) (off 1 d) =
    quad pts (fun p => p.wts * (dot 2 (fun c => p.eps * p.rindex ^ 2 * p.Et c + p.sigma * p.E c + p.cur c) p.E
      + nu * dot 1 p.Bt p.B)) := by
  subst hE hB
  have h1 : ∑ d ∈ Finset.range (ndof 0),
      X d * volumeResidual 2 ndof off ⟨true, true, false, stage⟩ pts (fun _ => 0) (off 0 d) =
      quad pts (fun p => ∑ d ∈ Finset.range (ndof 0), X d * (p.wts * ampere 2 nu p d)) := by
    rw [← quad_sum]
    refine Finset.sum_congr rfl fun d hd => ?_
    rw [C108_ampere_2d hoff ⟨true, true, false, stage⟩ rfl (Or.inl rfl) (fun _ => nu) pts (fun p h => (hp p h).1) _
      (Finset.mem_range.mp hd), zero_add, quad_mul_left]
  have h2 : ∑ d ∈ Finset.range (ndof 1),
      Y d * volumeResidual 2 ndof off ⟨true, true, false, stage⟩ pts (fun _ => 0) (off 1 d) =
      quad pts (fun p => ∑ d ∈ Finset.range (ndof 1), Y d * (p.wts * faraday 2 p d)) := by
    rw [← quad_sum]
    refine Finset.sum_congr rfl fun d hd => ?_
    rw [C108_faraday (Or.inl rfl) hoff ⟨true, true, false, stage⟩ rfl (Or.inl rfl) pts _ (Finset.mem_range.mp hd),
      zero_add, quad_mul_left]
  rw [h1, h2, quad_mul_left, ← quad_add]
  refine quad_congr pts fun p h => ?_
  have hpt := poynting_point (hp p h).2 nu
  rw [show nb 2 = 1 from rfl] at hpt
  rw [← hpt, mul_add, Finset.mul_sum, Finset.mul_sum, Finset.mul_sum, Finset.mul_sum]
  congr 1
  · exact Finset.sum_congr rfl fun d _ => by ring
  · exact Finset.sum_congr rfl fun d _ => by ring

/-- C108 (Poynting): the same in three dimensions with constant permeability and permittivity. -/
theorem C108_energy_3d_partial {nE nB : Nat} {ndof : Nat → Nat} (hE : ndof 0 = nE) (hB : ndof 1 = nB)
    {off : Nat → Nat → Nat} (hoff : DistinctAll 2 ndof off) (stage : Nat) (nu eps : K) (heps : eps ≠ 0) (X Y : Nat → K)
    (pts : List (Pt K)) (hp : ∀ p : Pt K, p ∈ pts → nu * p.mu = 1 ∧ p.eps = eps ∧ HasCoefs 3 nE nB X Y p) :
    eps * (∑ d ∈ Finset.range nE,
        X d * volumeResidual 3 ndof off ⟨true, true, false, stage⟩ pts (fun _ => 0) (off 0 d)) +
      nu * ∑ d ∈ Finset.range nB, Y d * volumeResidual 3 ndof off ⟨true, true, false, stage⟩ pts (fun _ => 0) (off 1 d) =
    quad pts (fun p => p.wts * (dot 3 (fun c => p.eps * p.rindex ^ 2 * p.Et c + p.sigma * p.E c + p.cur c) p.E
      + nu * dot 3 p.Bt p.B)) := by
  subst hE hB
  have h1 : eps * ∑ d ∈ Finset.range (ndof 0),
      X d * volumeResidual 3 ndof off ⟨true, true, false, stage⟩ pts (fun _ => 0) (off 0 d) =
      quad pts (fun p => ∑ d ∈ Finset.range (ndof 0), X d * (p.wts * ampere 3 nu p d)) := by
    rw [← quad_sum, Finset.mul_sum]
    refine Finset.sum_congr rfl fun d hd => ?_
    rw [mul_left_comm, C108_ampere_3d_partial hoff ⟨true, true, false, stage⟩ rfl (Or.inl rfl) (fun _ => nu) eps heps pts
      (fun p h => ⟨(hp p h).1, (hp p h).2.1⟩) _ (Finset.mem_range.mp hd), mul_zero, zero_add, quad_mul_left]
  have h2 : ∑ d ∈ Finset.range (ndof 1),
      Y d * volumeResidual 3 ndof off ⟨true, true, false, stage⟩ pts (fun _ => 0) (off 1 d) =
      quad pts (fun p => ∑ d ∈ Finset.range (ndof 1), Y d * (p.wts * faraday 3 p d)) := by
    rw [← quad_sum]
    refine Finset.sum_congr rfl fun d hd => ?_
    rw [C108_faraday (Or.inr rfl) hoff ⟨true, true, false, stage⟩ rfl (Or.inl rfl) pts _ (Finset.mem_range.mp hd),
      zero_add, quad_mul_left]
  rw [h1, h2, quad_mul_left, ← quad_add]
  refine quad_congr pts fun p h => ?_
  have hpt := poynting_point (hp p h).2.2 nu
  rw [show nb 3 = 3 from rfl] at hpt
  rw [← hpt, mul_add, Finset.mul_sum, Finset.mul_sum, Finset.mul_sum, Finset.mul_sum]
  congr 1
  · exact Finset.sum_congr rfl fun d _ => by ring
  · exact Finset.sum_congr rfl fun d _ => by ring

/-- C108: in three dimensions the absorbing condition adds `1 + gamma` times the tangential part of the electric field,
for unit normals. -/
theorem C108_absorbing {ndofB : Nat} {off : Nat → Nat → Nat} (hoff : Distinct ndofB (off 1)) (gamma : K)
    (pts : List (SidePt K)) (hn : ∀ q : SidePt K, q ∈ pts → dot 3 q.n q.n = 1) (res : Nat → K) {d : Nat}
    (hd : d < ndofB) :
    boundaryResidual 3 ndofB off true true gamma pts res (off 1 d) = res (off 1 d) +
      quad pts (fun q => q.wts * ((1 + gamma) *
        dot 3 (fun c => q.E c - dot 3 q.n q.E * q.n c) (q.basisB d))) := by
  have hc : (decide (3 = 3) && true && true) = true := rfl
  unfold boundaryResidual
  rw [if_pos hc, ptLoop_at hoff pts _ res hd]
  refine congrArg _ (quad_congr pts fun q hq => ?_)
  have h1 := hn q hq
  simp only [dot_three] at h1
  simp only [sideAdds, List.sum_singleton, dot_three]
  linear_combination (-(1 + gamma) * q.wts *
    (q.E 0 * q.basisB d 0 + q.E 1 * q.basisB d 1 + q.E 2 * q.basisB d 2)) * (-h1)

end

/-! ## What does not hold -/

/-- [case] Two points with unit weights; the curl of the only basis function has opposite signs at them, the magnetic
field is uniform, nothing changes in time. -/
def still (c eps : ℚ) : Pt ℚ :=
  { wts := 1, eps := eps, rindex := 1, mu := 1, sigma := 0, cur := fun _ => 0, E := fun _ => 0, Et := fun _ => 0,
    B := fun k => if k = 0 then 1 else 0, Bt := fun _ => 0, curlE := fun _ => 0, basisE := fun _ _ => 0,
    curlBasis := fun _ k => if k = 0 then c else 0, basisB := fun _ _ => 0 }

/-- C108: that the electric equation is Ampère's law is false in three dimensions for a permittivity that varies: the
equation is divided by the permittivity under the curl.  A uniform magnetic field at rest solves Ampère's law exactly,
but with the permittivities 1 and 2 at the two points its residual is not zero; in two dimensions it is. -/
theorem C108_permittivity_violated :
    quad [still 1 1, still (-1) 2] (fun p => p.wts * ampere 3 1 p 0) = 0 ∧
    volumeResidual 3 (fun _ => 1) (fun e _ => e) ⟨true, true, false, 0⟩ [still 1 1, still (-1) 2] (fun _ => 0) 0 ≠ 0 ∧
    volumeResidual 2 (fun _ => 1) (fun e _ => e) ⟨true, true, false, 0⟩ [still 1 1, still (-1) 2] (fun _ => 0) 0 = 0 := by
  refine ⟨?_, ?_, ?_⟩ <;> decide +kernel

/-- C108: that the absorbing condition acts is false in two dimensions: the residual is not changed. -/
theorem C108_absorbing_2d_violated [Field K] (ndofB : Nat) (off : Nat → Nat → Nat) (incB absorbing : Bool) (gamma : K)
    (pts : List (SidePt K)) (res : Nat → K) :
    boundaryResidual 2 ndofB off incB absorbing gamma pts res = res := by
  unfold boundaryResidual
  rw [if_neg (by decide +revert)]

/-! ## Cases -/

example : DistinctAll 2 (fun _ => 1) (fun e _ => e) := by
  intro i a j b _ _ ha hb h
  exact ⟨h, by simp only at ha hb; omega⟩

/-- [case] A point with all fields non-zero, one basis function per field. -/
def wave : Pt ℚ :=
  { wts := 2, eps := 3, rindex := 2, mu := 1/2, sigma := 5, cur := fun _ => 1, E := fun c => if c = 0 then 2 else 4,
    Et := fun _ => 1, B := fun _ => 6, Bt := fun _ => 7, curlE := fun _ => 10,
    basisE := fun _ c => if c = 0 then 1 else 2, curlBasis := fun _ _ => 5, basisB := fun _ _ => 3 }

example : HasCoefs 2 1 1 (fun _ => 2) (fun _ => 2) wave ∧ (2 : ℚ) * wave.mu = 1 := by
  refine ⟨⟨fun c hc => ?_, fun c hc => ?_, fun c hc => ?_⟩, by norm_num [wave]⟩
  · interval_cases c <;> norm_num [wave]
  · have : c < 1 := hc
    interval_cases c; norm_num [wave]
  · have : c < 1 := hc
    interval_cases c; norm_num [wave]

example : volumeResidual 2 (fun _ => 1) (fun e _ => e) ⟨true, true, false, 0⟩ [wave] (fun _ => 0) 1 = 102 := by
  decide +kernel

end MrHyDE.Modules.Maxwell
