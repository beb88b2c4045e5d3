import Verif.Modules.Maxwell
import Mathlib.Algebra.Order.Field.Basic
import Mathlib.Algebra.Order.Field.Rat
import Mathlib.Algebra.Order.BigOperators.Ring.List
import Mathlib.Tactic.Linarith

/-!
# The Maxwell module for optimal control (C164)

`maxwell_control` is the Maxwell module with three more functions, the components of a control current.
-/

set_option linter.unusedSectionVars false

namespace MrHyDE.Modules.MaxwellControl

open MrHyDE.Modules (Loop runLoops termsAt Fits runLoops_at quad quad_congr quad_add quad_mul_left quad_sum dot dot_one
  dot_two dot_three DistinctAll Distinct ptLoop ptLoop_at quad_zero)

variable {K : Type}

/-! ## Model -/

/-- What `volumeResidual` reads at one integration point, src/physics/maxwell_control.cpp:82-317: that of the module
`maxwell` and the control current; in two dimensions only its first component is evaluated (line 234). -/
structure Pt (K : Type) extends Maxwell.Pt K where
  ctrl : Nat → K

/-- The terms of the magnetic equation, src/physics/maxwell_control.cpp:104-126 and 131-141 (two dimensions), 157-194
and 198-216 (three dimensions); the same statements as in `maxwell`. -/
def bAdds [Field K] (dim : Nat) (curl : Bool) (p : Pt K) (d : Nat) : List K :=
  let f := fun c => (if curl then p.Bt c + p.curlE c else p.Bt c) * p.wts
  if dim = 2 then [f 0 * p.basisB d 0]
  else if dim = 3 then [f 0 * p.basisB d 0, f 1 * p.basisB d 1, f 2 * p.basisB d 2]
  else []

/-- The terms of the electric equation, src/physics/maxwell_control.cpp:264-271 (two dimensions) and 298-312 (three
dimensions). -/
def eAdds [Field K] (dim : Nat) (p : Pt K) (d : Nat) : List K :=
  if dim = 2 then
    let f := fun c => (p.eps * p.rindex * p.rindex * p.Et c + (p.sigma * p.E c + p.cur c)) * p.wts
    let c0 := (p.ctrl 0 - 1 / p.mu * p.B 0) * p.wts
    [f 0 * p.basisE d 0 + c0 * p.curlBasis d 0 + f 1 * p.basisE d 1]
  else if dim = 3 then
    let f := fun c => (p.rindex * p.rindex * p.Et c + 1 / p.eps * (p.sigma * p.E c + p.cur c)) * p.wts
    let k := fun c => 1 / p.eps * (p.ctrl c - 1 / p.mu * p.B c) * p.wts
    [f 0 * p.basisE d 0 + k 0 * p.curlBasis d 0, f 1 * p.basisE d 1 + k 1 * p.curlBasis d 1,
      f 2 * p.basisE d 2 + k 2 * p.curlBasis d 2]
  else []

/-- The loop nests of `volumeResidual`, src/physics/maxwell_control.cpp:82-317: with leap frog the curl enters the magnetic
equation in stage 0 only and the electric equation is assembled in stage 1 only. -/
def loops [Field K] (dim : Nat) (ndof : Nat → Nat) (s : Maxwell.Setting) : List (Loop K (Pt K)) :=
  (if s.incB then [{ eq := 1, ndof := ndof 1, adds := bAdds dim (!s.leapFrog || s.stage == 0) }] else [])
  ++ (if s.incE && (!s.leapFrog || s.stage == 1) then [{ eq := 0, ndof := ndof 0, adds := eAdds dim }] else [])

/-- `volumeResidual` on one element, src/physics/maxwell_control.cpp:82-317. -/
def volumeResidual [Field K] (dim : Nat) (ndof : Nat → Nat) (off : Nat → Nat → Nat) (s : Maxwell.Setting)
    (pts : List (Pt K)) (res : Nat → K) : Nat → K :=
  runLoops off pts (loops dim ndof s) res

/-- What `boundaryResidual` reads at one point of a side, src/physics/maxwell_control.cpp:352-360. -/
structure SidePt (K : Type) where
  wts : K
  n : Nat → K
  E : Nat → K
  basisE : Nat → Nat → K

/-- The terms of the absorbing condition, src/physics/maxwell_control.cpp:370-379; `gamma` is the constant of line 362. -/
def sideAdds [Field K] (gamma : K) (q : SidePt K) (d : Nat) : List K :=
  let nceX := q.n 1 * q.E 2 - q.n 2 * q.E 1
  let nceY := q.n 2 * q.E 0 - q.n 0 * q.E 2
  let nceZ := q.n 0 * q.E 1 - q.n 1 * q.E 0
  let c0 := -(1 + gamma) * (q.n 1 * nceZ - q.n 2 * nceY) * q.wts
  let c1 := -(1 + gamma) * (q.n 2 * nceX - q.n 0 * nceZ) * q.wts
  let c2 := -(1 + gamma) * (q.n 0 * nceY - q.n 1 * nceX) * q.wts
  [c0 * q.basisE d 0 + c1 * q.basisE d 1 + c2 * q.basisE d 2]

/-- `boundaryResidual` on one element, src/physics/maxwell_control.cpp:323-411: rows of the electric field, when the
condition of `B` on the side is "Neumann" (`absorbing`); the loop body is empty in two dimensions (lines 343-347). -/
def boundaryResidual [Field K] (dim ndofE : Nat) (off : Nat → Nat → Nat) (absorbing : Bool) (gamma : K)
    (pts : List (SidePt K)) (res : Nat → K) : Nat → K :=
  if dim = 3 && absorbing then ptLoop ndofE pts (off 0) (sideAdds gamma) res else res

/-! ## Specification -/

/-- The point with the control current put into the current.  [specification, no code] -/
def asCurrent [Add K] (p : Pt K) : Maxwell.Pt K := { p.toPt with cur := fun c => p.cur c + p.ctrl c }

/-- The point with the control current as a magnetisation, `B - mu M`.  [specification, no code] -/
def asMagnetisation [Ring K] (p : Pt K) : Maxwell.Pt K := { p.toPt with B := fun c => p.B c - p.mu * p.ctrl c }

/-! ## Lemmas -/

section
variable [Field K]

theorem loops_fit (dim : Nat) (ndof : Nat → Nat) (s : Maxwell.Setting) :
    Fits 2 ndof (loops dim ndof s : List (Loop K (Pt K))) := by
  intro l hl
  unfold loops at hl
  rcases List.mem_append.mp hl with h | h
  · by_cases hb : s.incB = true
    · rw [if_pos hb, List.mem_singleton] at h
      subst h
      exact ⟨by simp, rfl⟩
    · rw [if_neg hb] at h
      cases h
  · by_cases hb : (s.incE && (!s.leapFrog || s.stage == 1)) = true
    · rw [if_pos hb, List.mem_singleton] at h
      subst h
      exact ⟨by simp, rfl⟩
    · rw [if_neg hb] at h
      cases h

theorem termsAt_E (dim : Nat) (ndof : Nat → Nat) (s : Maxwell.Setting) (d : Nat) (p : Pt K) :
    termsAt (loops dim ndof s) 0 d p =
      if s.incE && (!s.leapFrog || s.stage == 1) then (eAdds dim p d).sum else 0 := by
  unfold loops termsAt
  by_cases h1 : s.incB = true <;> by_cases h2 : (s.incE && (!s.leapFrog || s.stage == 1)) = true <;> simp [h1, h2]

theorem termsAt_B (dim : Nat) (ndof : Nat → Nat) (s : Maxwell.Setting) (d : Nat) (p : Pt K) :
    termsAt (loops dim ndof s) 1 d p =
      if s.incB then (bAdds dim (!s.leapFrog || s.stage == 0) p d).sum else 0 := by
  unfold loops termsAt
  by_cases h1 : s.incB = true <;> by_cases h2 : (s.incE && (!s.leapFrog || s.stage == 1)) = true <;> simp [h1, h2]

theorem eAdds_magnetisation (dim : Nat) (p : Pt K) (hm : p.mu ≠ 0) (d : Nat) :
    eAdds dim p d = Maxwell.eAdds dim (asMagnetisation p) d := by
  unfold eAdds Maxwell.eAdds asMagnetisation
  by_cases h2 : dim = 2
  · simp only [h2, if_true]
    congr 1
    field_simp
    ring
  · by_cases h3 : dim = 3
    · subst h3
      simp only [if_true]
      have hc : ∀ c : Nat, 1 / p.eps * (p.ctrl c - 1 / p.mu * p.B c) * p.wts =
          -1 / p.mu * 1 / p.eps * (p.B c - p.mu * p.ctrl c) * p.wts := by
        intro c
        have h1 : p.ctrl c - 1 / p.mu * p.B c = -1 / p.mu * (p.B c - p.mu * p.ctrl c) := by field_simp; ring
        rw [h1]
        ring
      simp only [hc]
      rfl
    · simp [h2, h3]

end

/-! ## Properties -/

section
variable [Field K]

/-- C164: the control current acts as a magnetisation: every row of the residual is that of the module `maxwell` with
the magnetic field `B - mu M` in Ampère's law, for all settings, stages and dimensions. -/
theorem C164_magnetisation (dim : Nat) {ndof : Nat → Nat} {off : Nat → Nat → Nat} (hoff : DistinctAll 2 ndof off)
    (s : Maxwell.Setting) (pts : List (Pt K)) (hmu : ∀ p : Pt K, p ∈ pts → p.mu ≠ 0) (res : Nat → K) {e : Nat}
    (he : e < 2) {d : Nat} (hd : d < ndof e) :
    volumeResidual dim ndof off s pts res (off e d) =
      Maxwell.volumeResidual dim ndof off s (pts.map asMagnetisation) res (off e d) := by
  have hq : ∀ (f : Maxwell.Pt K → K), quad (pts.map asMagnetisation) f = quad pts (fun p => f (asMagnetisation p)) := by
    intro f
    unfold quad
    rw [List.map_map]
    rfl
  unfold volumeResidual Maxwell.volumeResidual
  rw [runLoops_at hoff pts _ (loops_fit dim ndof s) res he hd,
    runLoops_at hoff _ _ (Maxwell.loops_fit dim ndof s) res he hd, hq]
  refine congrArg _ (quad_congr pts fun p hp => ?_)
  obtain rfl | rfl : e = 0 ∨ e = 1 := by omega
  · rw [termsAt_E, Maxwell.termsAt_E, eAdds_magnetisation dim p (hmu p hp)]
  · rw [termsAt_B, Maxwell.termsAt_B]
    rfl

/-- C164: without control the module is the module `maxwell`. -/
theorem C164_no_control (dim : Nat) {ndof : Nat → Nat} {off : Nat → Nat → Nat} (hoff : DistinctAll 2 ndof off)
    (s : Maxwell.Setting) (pts : List (Pt K)) (hmu : ∀ p : Pt K, p ∈ pts → p.mu ≠ 0 ∧ ∀ c : Nat, p.ctrl c = 0)
    (res : Nat → K) {e : Nat} (he : e < 2) {d : Nat} (hd : d < ndof e) :
    volumeResidual dim ndof off s pts res (off e d) =
      Maxwell.volumeResidual dim ndof off s (pts.map Pt.toPt) res (off e d) := by
  rw [C164_magnetisation dim hoff s pts (fun p hp => (hmu p hp).1) res he hd]
  have hm : pts.map asMagnetisation = pts.map Pt.toPt := List.map_congr_left fun p hp => ?_
  · rw [hm]
  have hB : (fun c => p.B c - p.mu * p.ctrl c) = p.B := by
    funext c
    rw [(hmu p hp).2 c, mul_zero, sub_zero]
  show ({ p.toPt with B := fun c => p.B c - p.mu * p.ctrl c } : Maxwell.Pt K) = p.toPt
  rw [hB]

/-- C164, partial: what the control adds to the electric equation in two dimensions is its first component tested with
the curls of the basis functions; the equation is Ampère's law otherwise.  Missing: the control as a current, tested with
the functions themselves, as the comment of the code announces (`C164_current_violated`). -/
theorem C164_ampere_2d_partial {ndof : Nat → Nat} {off : Nat → Nat → Nat} (hoff : DistinctAll 2 ndof off)
    (s : Maxwell.Setting) (hE : s.incE = true) (hs : s.leapFrog = false ∨ s.stage = 1) (nu : Pt K → K)
    (pts : List (Pt K)) (hnu : ∀ p : Pt K, p ∈ pts → nu p * p.mu = 1) (res : Nat → K) {d : Nat} (hd : d < ndof 0) :
    volumeResidual 2 ndof off s pts res (off 0 d) = res (off 0 d) +
      quad pts (fun p => p.wts * (Maxwell.ampere 2 (nu p) p.toPt d + p.ctrl 0 * p.curlBasis d 0)) := by
  unfold volumeResidual
  rw [runLoops_at hoff pts _ (loops_fit 2 ndof s) res (by omega) hd]
  refine congrArg _ (quad_congr pts fun p hp => ?_)
  have hc : (s.incE && (!s.leapFrog || s.stage == 1)) = true := by rcases hs with h | h <;> simp [h, hE]
  have hm : p.mu ≠ 0 := right_ne_zero_of_mul ((hnu p hp) ▸ one_ne_zero)
  have hn : nu p = 1 / p.mu := by field_simp; exact hnu p hp
  rw [termsAt_E, if_pos hc]
  simp [eAdds, Maxwell.ampere, Maxwell.nb, dot_one, dot_two, hn]
  ring

/-- C164, partial: the same in three dimensions, divided by a permittivity that is the same at all points. -/
theorem C164_ampere_3d_partial {ndof : Nat → Nat} {off : Nat → Nat → Nat} (hoff : DistinctAll 2 ndof off)
    (s : Maxwell.Setting) (hE : s.incE = true) (hs : s.leapFrog = false ∨ s.stage = 1) (nu : Pt K → K) (eps : K)
    (heps : eps ≠ 0) (pts : List (Pt K)) (hnu : ∀ p : Pt K, p ∈ pts → nu p * p.mu = 1 ∧ p.eps = eps) (res : Nat → K)
    {d : Nat} (hd : d < ndof 0) :
    eps * volumeResidual 3 ndof off s pts res (off 0 d) = eps * res (off 0 d) +
      quad pts (fun p => p.wts * (Maxwell.ampere 3 (nu p) p.toPt d + dot 3 p.ctrl (p.curlBasis d))) := by
  unfold volumeResidual
  rw [runLoops_at hoff pts _ (loops_fit 3 ndof s) res (by omega) hd, mul_add, quad_mul_left]
  refine congrArg _ (quad_congr pts fun p hp => ?_)
  have hc : (s.incE && (!s.leapFrog || s.stage == 1)) = true := by rcases hs with h | h <;> simp [h, hE]
  have hm : p.mu ≠ 0 := right_ne_zero_of_mul ((hnu p hp).1 ▸ one_ne_zero)
  have hn : nu p = 1 / p.mu := by field_simp; exact (hnu p hp).1
  have he : p.eps ≠ 0 := by rw [(hnu p hp).2]; exact heps
  rw [termsAt_E, if_pos hc, ← (hnu p hp).2]
  simp [eAdds, Maxwell.ampere, Maxwell.nb, dot_three, hn]
  field_simp
  ring

/-- C164, energy in two dimensions with constant permeability: the residuals weighted with the fields give rate of
energy, ohmic loss, work on the current and the work of the control on the curl of the electric field. -/
theorem C164_energy_2d {nE nB : Nat} {ndof : Nat → Nat} (hE : ndof 0 = nE) (hB : ndof 1 = nB) {off : Nat → Nat → Nat}
    (hoff : DistinctAll 2 ndof off) (stage : Nat) (nu : K) (X Y : Nat → K) (pts : List (Pt K))
    (hp : ∀ p : Pt K, p ∈ pts → nu * p.mu = 1 ∧ Maxwell.HasCoefs 2 nE nB X Y p.toPt) :
    (∑ d ∈ Finset.range nE, X d * volumeResidual 2 ndof off ⟨true, true, false, stage⟩ pts (fun _ => 0) (off 0 d)) +
      nu * ∑ d ∈ Finset.range nB, Y d * volumeResidual 2 ndof off ⟨true, true, false, stage⟩ pts (fun _ => 0) (off 1 d) =
    quad pts (fun p => p.wts * (dot 2 (fun c => p.eps * p.rindex ^ 2 * p.Et c + p.sigma * p.E c + p.cur c) p.E
      + nu * dot 1 p.Bt p.B + p.ctrl 0 * p.curlE 0)) := by
  subst hE hB
  have h1 : ∑ d ∈ Finset.range (ndof 0),
      X d * volumeResidual 2 ndof off ⟨true, true, false, stage⟩ pts (fun _ => 0) (off 0 d) =
      quad pts (fun p => ∑ d ∈ Finset.range (ndof 0),
        X d * (p.wts * (Maxwell.ampere 2 nu p.toPt d + p.ctrl 0 * p.curlBasis d 0))) := by
    rw [← quad_sum]
    refine Finset.sum_congr rfl fun d hd => ?_
    rw [C164_ampere_2d_partial hoff ⟨true, true, false, stage⟩ rfl (Or.inl rfl) (fun _ => nu) pts
      (fun p h => (hp p h).1) _ (Finset.mem_range.mp hd), zero_add, quad_mul_left]
  have h2 : ∑ d ∈ Finset.range (ndof 1),
      Y d * volumeResidual 2 ndof off ⟨true, true, false, stage⟩ pts (fun _ => 0) (off 1 d) =
      quad pts (fun p => ∑ d ∈ Finset.range (ndof 1), Y d * (p.wts * Maxwell.faraday 2 p.toPt d)) := by
    rw [← quad_sum]
    refine Finset.sum_congr rfl fun d hd => ?_
    unfold volumeResidual
    rw [runLoops_at hoff pts _ (loops_fit 2 ndof _) _ (by omega) (Finset.mem_range.mp hd), zero_add, quad_mul_left]
    refine quad_congr pts fun p _ => ?_
    rw [termsAt_B]
    have hb : (bAdds 2 true p d).sum = p.wts * Maxwell.faraday 2 p.toPt d := by
      simp [bAdds, Maxwell.faraday, Maxwell.nb, dot_one]
      ring
    simp [hb]
  rw [h1, h2, quad_mul_left, ← quad_add]
  refine quad_congr pts fun p h => ?_
  have hpt := Maxwell.poynting_point (hp p h).2 nu
  rw [show Maxwell.nb 2 = 1 from rfl] at hpt
  have hc := (hp p h).2.2.1 0 (by decide)
  rw [← hpt, hc]
  have e1 : ∑ d ∈ Finset.range (ndof 0), X d * (p.wts * (Maxwell.ampere 2 nu p.toPt d + p.ctrl 0 * p.curlBasis d 0)) =
      p.wts * (∑ d ∈ Finset.range (ndof 0), X d * Maxwell.ampere 2 nu p.toPt d) +
        p.wts * (p.ctrl 0 * ∑ d ∈ Finset.range (ndof 0), X d * p.curlBasis d 0) := by
    rw [Finset.mul_sum, Finset.mul_sum, Finset.mul_sum, ← Finset.sum_add_distrib]
    exact Finset.sum_congr rfl fun d _ => by ring
  have e2 : ∑ d ∈ Finset.range (ndof 1), Y d * (p.wts * Maxwell.faraday 2 p.toPt d) =
      p.wts * ∑ d ∈ Finset.range (ndof 1), Y d * Maxwell.faraday 2 p.toPt d := by
    rw [Finset.mul_sum]
    exact Finset.sum_congr rfl fun d _ => by ring
  rw [e1, e2]
  ring

/-- C164: the absorbing condition adds `1 + gamma` times the tangential electric field to the electric equation, for unit
normals in three dimensions. -/
theorem C164_absorbing {ndofE : Nat} {off : Nat → Nat → Nat} (hoff : Distinct ndofE (off 0)) (gamma : K)
    (pts : List (SidePt K)) (hn : ∀ q : SidePt K, q ∈ pts → dot 3 q.n q.n = 1) (res : Nat → K) {d : Nat}
    (hd : d < ndofE) :
    boundaryResidual 3 ndofE off true gamma pts res (off 0 d) = res (off 0 d) +
      quad pts (fun q => q.wts * ((1 + gamma) * dot 3 (fun c => q.E c - dot 3 q.n q.E * q.n c) (q.basisE d))) := by
  have hc : (decide (3 = 3) && true) = true := rfl
  unfold boundaryResidual
  rw [if_pos hc, ptLoop_at hoff pts _ res hd]
  refine congrArg _ (quad_congr pts fun q hq => ?_)
  have h1 := hn q hq
  simp only [dot_three] at h1
  simp only [sideAdds, List.sum_singleton, dot_three]
  linear_combination (-(1 + gamma) * q.wts *
    (q.E 0 * q.basisE d 0 + q.E 1 * q.basisE d 1 + q.E 2 * q.basisE d 2)) * (-h1)

end

theorem sum_nonneg' [Field K] [LinearOrder K] [IsStrictOrderedRing K] {l : List K} (h : ∀ x ∈ l, 0 ≤ x) : 0 ≤ l.sum := by
  induction l with
  | nil => simp
  | cons a l ih =>
    rw [List.sum_cons]
    exact add_nonneg (h a List.mem_cons_self) (ih fun x hx => h x (List.mem_cons_of_mem _ hx))

/-- C164: the absorbing condition takes energy out: weighted with the electric field it is not negative, for
`gamma ≥ -1` and weights that are not negative. -/
theorem C164_dissipates [Field K] [LinearOrder K] [IsStrictOrderedRing K] {ndofE : Nat} {off : Nat → Nat → Nat}
    (hoff : Distinct ndofE (off 0)) {gamma : K} (hg : -1 ≤ gamma) (X : Nat → K) (pts : List (SidePt K))
    (hn : ∀ q : SidePt K, q ∈ pts → dot 3 q.n q.n = 1 ∧ 0 ≤ q.wts ∧
      ∀ c : Nat, c < 3 → q.E c = ∑ d ∈ Finset.range ndofE, X d * q.basisE d c) :
    0 ≤ ∑ d ∈ Finset.range ndofE, X d * boundaryResidual 3 ndofE off true gamma pts (fun _ => 0) (off 0 d) := by
  have h1 : ∑ d ∈ Finset.range ndofE, X d * boundaryResidual 3 ndofE off true gamma pts (fun _ => 0) (off 0 d) =
      quad pts (fun q => q.wts * ((1 + gamma) * dot 3 (fun c => q.E c - dot 3 q.n q.E * q.n c) q.E)) := by
    have h2 : ∀ d ∈ Finset.range ndofE, X d * boundaryResidual 3 ndofE off true gamma pts (fun _ => 0) (off 0 d) =
        quad pts (fun q => X d * (q.wts * ((1 + gamma) *
          dot 3 (fun c => q.E c - dot 3 q.n q.E * q.n c) (q.basisE d)))) := by
      intro d hd
      rw [C164_absorbing hoff gamma pts (fun q hq => (hn q hq).1) _ (Finset.mem_range.mp hd), zero_add, quad_mul_left]
    rw [Finset.sum_congr rfl h2, quad_sum]
    refine quad_congr pts fun q hq => ?_
    have hE := (hn q hq).2.2
    have key : ∀ t : Nat → K, ∑ d ∈ Finset.range ndofE, X d * dot 3 t (q.basisE d) = dot 3 t q.E := by
      intro t
      rw [dot_three, hE 0 (by omega), hE 1 (by omega), hE 2 (by omega), Finset.mul_sum, Finset.mul_sum, Finset.mul_sum,
        ← Finset.sum_add_distrib, ← Finset.sum_add_distrib]
      exact Finset.sum_congr rfl fun d _ => by rw [dot_three]; ring
    rw [← key (fun c => q.E c - dot 3 q.n q.E * q.n c), Finset.mul_sum, Finset.mul_sum]
    exact Finset.sum_congr rfl fun d _ => by ring
  rw [h1]
  unfold quad
  refine sum_nonneg' fun x hx => ?_
  obtain ⟨q, hq, rfl⟩ := List.mem_map.mp hx
  obtain ⟨hn1, hw, -⟩ := hn q hq
  refine mul_nonneg hw (mul_nonneg (by linarith) ?_)
  have h3 : dot 3 (fun c => q.E c - dot 3 q.n q.E * q.n c) q.E =
      (q.E 0 - dot 3 q.n q.E * q.n 0) ^ 2 + (q.E 1 - dot 3 q.n q.E * q.n 1) ^ 2 +
        (q.E 2 - dot 3 q.n q.E * q.n 2) ^ 2 := by
    simp only [dot_three] at hn1 ⊢
    linear_combination (-(q.n 0 * q.E 0 + q.n 1 * q.E 1 + q.n 2 * q.E 2) ^ 2) * hn1
  rw [h3]
  positivity

/-! ## What does not hold -/

/-- [case] A point with a control current and one basis function whose curl is `c`. -/
def pushed (c : ℚ) : Pt ℚ :=
  { wts := 1, eps := 1, rindex := 1, mu := 1, sigma := 0, cur := fun _ => 0, E := fun _ => 0, Et := fun _ => 0,
    B := fun _ => 0, Bt := fun _ => 0, curlE := fun _ => 0, basisE := fun _ k => if k = 0 then 1 else 0,
    curlBasis := fun _ k => if k = 0 then c else 0, basisB := fun _ _ => 0, ctrl := fun k => if k = 0 then 5 else 0 }

/-- C164 is false: the control is not a current, as announced by the comment of the code.  A uniform control current of 5
on an element where the curl of the basis function is 1 and -1 has no effect, in two and three dimensions; as a current
it would add 10. -/
theorem C164_current_violated :
    volumeResidual 2 (fun _ => 1) (fun e _ => e) ⟨true, true, false, 0⟩ [pushed 1, pushed (-1)] (fun _ => 0) 0 = 0 ∧
    volumeResidual 3 (fun _ => 1) (fun e _ => e) ⟨true, true, false, 0⟩ [pushed 1, pushed (-1)] (fun _ => 0) 0 = 0 ∧
    quad [pushed 1, pushed (-1)] (fun p => p.wts * Maxwell.ampere 2 1 (asCurrent p) 0) = 10 ∧
    quad [pushed 1, pushed (-1)] (fun p => p.wts * Maxwell.ampere 3 1 (asCurrent p) 0) = 10 := by
  refine ⟨?_, ?_, ?_, ?_⟩ <;> decide +kernel

/-- C164 is false: in two dimensions the second component of the control has no effect. -/
theorem C164_component_violated [Field K] {ndof : Nat → Nat} {off : Nat → Nat → Nat} (hoff : DistinctAll 2 ndof off)
    (s : Maxwell.Setting) (pts : List (Pt K)) (g : Pt K → Nat → K) (hg : ∀ p : Pt K, g p 0 = p.ctrl 0) (res : Nat → K)
    {e : Nat} (he : e < 2) {d : Nat} (hd : d < ndof e) :
    volumeResidual 2 ndof off s (pts.map (fun p => { p with ctrl := g p })) res (off e d) =
      volumeResidual 2 ndof off s pts res (off e d) := by
  have hq : ∀ (f : Pt K → K), quad (pts.map (fun p => { p with ctrl := g p })) f =
      quad pts (fun p => f { p with ctrl := g p }) := by
    intro f
    unfold quad
    rw [List.map_map]
    rfl
  unfold volumeResidual
  rw [runLoops_at hoff pts _ (loops_fit 2 ndof s) res he hd, runLoops_at hoff _ _ (loops_fit 2 ndof s) res he hd, hq]
  refine congrArg _ (quad_congr pts fun p _ => ?_)
  obtain rfl | rfl : e = 0 ∨ e = 1 := by omega
  · rw [termsAt_E, termsAt_E]
    simp [eAdds, hg]
  · rw [termsAt_B, termsAt_B]
    rfl

/-- C164 is false: in two dimensions the absorbing condition does nothing. -/
theorem C164_absorbing_2d_violated [Field K] (ndofE : Nat) (off : Nat → Nat → Nat) (absorbing : Bool) (gamma : K)
    (pts : List (SidePt K)) (res : Nat → K) : boundaryResidual 2 ndofE off absorbing gamma pts res = res := by
  unfold boundaryResidual
  rw [if_neg (by decide +revert)]

/-! ## Cases -/

example : DistinctAll 2 (fun _ => 1) (fun e _ => e) ∧ (pushed 3).mu ≠ 0 ∧ (1 : ℚ) * (pushed 3).mu = 1 := by
  refine ⟨?_, by norm_num [pushed], by norm_num [pushed]⟩
  intro i a j b _ _ ha hb h
  exact ⟨h, by simp only at ha hb; omega⟩

/-- [case] A point with fields of one basis function each and a control. -/
def driven : Pt ℚ := { Maxwell.wave with ctrl := fun _ => 3 }

example : Maxwell.HasCoefs 2 1 1 (fun _ => 2) (fun _ => 2) driven.toPt ∧ (2 : ℚ) * driven.mu = 1 ∧
    volumeResidual 2 (fun _ => 1) (fun e _ => e) ⟨true, true, false, 0⟩ [driven] (fun _ => 0) 0 = 88 := by
  refine ⟨⟨fun c hc => ?_, fun c hc => ?_, fun c hc => ?_⟩, by norm_num [driven, Maxwell.wave], by decide +kernel⟩
  · interval_cases c <;> norm_num [driven, Maxwell.wave]
  · have : c < 1 := hc
    interval_cases c; norm_num [driven, Maxwell.wave]
  · have : c < 1 := hc
    interval_cases c; norm_num [driven, Maxwell.wave]

/-- [case] A point of a side with an oblique electric field. -/
def wall : SidePt ℚ :=
  { wts := 2, n := fun c => if c = 2 then 1 else 0, E := fun c => if c = 0 then 3 else if c = 2 then 4 else 0,
    basisE := fun _ c => if c = 0 then 3 else if c = 2 then 4 else 0 }

example : dot 3 wall.n wall.n = 1 ∧ 0 ≤ wall.wts ∧
    (∀ c : Nat, c < 3 → wall.E c = ∑ d ∈ Finset.range 1, (1 : ℚ) * wall.basisE d c) ∧
    boundaryResidual 3 1 (fun e _ => e) true (-9944 / 10000 : ℚ) [wall] (fun _ => 0) 0 = 63 / 625 := by
  refine ⟨by decide +kernel, by decide +kernel, fun c hc => ?_, by decide +kernel⟩
  simp [wall]

end MrHyDE.Modules.MaxwellControl
