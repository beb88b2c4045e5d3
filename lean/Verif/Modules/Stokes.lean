import Verif.Modules.Loops
import Mathlib.Algebra.Field.Basic
import Mathlib.Algebra.Field.Rat
import Mathlib.Algebra.Order.Field.Basic
import Mathlib.Algebra.Order.BigOperators.Group.List
import Mathlib.Algebra.Order.BigOperators.Ring.Finset
import Mathlib.Tactic.FieldSimp
import Mathlib.Tactic.IntervalCases
import Mathlib.Tactic.NormNum
import Mathlib.Tactic.Positivity
import Mathlib.Tactic.Linarith

/-!
# The Stokes module (C102)

`stokes` solves `- div(nu grad u) + grad p = f`, `div u = 0` with continuous velocity and pressure; pressure
stabilisation (PSPG) is needed for equal orders.
-/

set_option linter.unusedSectionVars false

namespace MrHyDE.Modules.Fluid

variable {K : Type}

/-- What the fluid modules read at one integration point, src/physics/stokes.cpp:70-110 and
src/physics/navierstokes.cpp:78-115.  Equations `0 .. dim-1` are the components of the velocity, equation `dim` is
the pressure; `basis e d`, `grad e d c` belong to basis function `d` of equation `e`; `g i c` is the derivative of
component `i` in direction `c`, `ut` the time derivative, `gp` the pressure gradient, `E` the field "e", `h` the
element size and `tau` the value of `computeTau`. -/
structure Pt (K : Type) where
  wts : K
  basis : Nat → Nat → K
  grad : Nat → Nat → Nat → K
  visc : K
  dens : K
  u : Nat → K
  ut : Nat → K
  g : Nat → Nat → K
  pr : K
  gp : Nat → K
  src : Nat → K
  srcPr : K
  E : K
  h : K
  tau : K

/-- `Fx`, `Fy`, `Fz` of the momentum equation `i`, src/physics/stokes.cpp:108-109, 193-196, 214-217, 312-317,
335-340, 358-363 and src/physics/navierstokes.cpp:121-122, 266-269, 355-358. -/
def flux [Ring K] (i c : Nat) (p : Pt K) : K :=
  (if c = i then p.visc * p.g i c - p.pr else p.visc * p.g i c) * p.wts

/-- The divergence of the velocity in `dim` dimensions, src/physics/stokes.cpp:128, 236 and 382. -/
def divu [Ring K] (dim : Nat) (p : Pt K) : K :=
  if dim = 1 then p.g 0 0 else if dim = 2 then p.g 0 0 + p.g 1 1 else p.g 0 0 + p.g 1 1 + p.g 2 2

end MrHyDE.Modules.Fluid

namespace MrHyDE.Modules.Stokes

open MrHyDE.Modules.Fluid

variable {K : Type}

/-! ## Model -/

/-- The terms of momentum equation `i`, src/physics/stokes.cpp:108-114, 193-201, 214-222, 312-322, 335-345 and
358-368. -/
def momAdds [Ring K] (dim i : Nat) (p : Pt K) (d : Nat) : List K :=
  let g := - p.src i * p.wts
  if dim = 1 then [flux i 0 p * p.grad i d 0 + g * p.basis i d]
  else if dim = 2 then [flux i 0 p * p.grad i d 0 + flux i 1 p * p.grad i d 1 + g * p.basis i d]
  else [flux i 0 p * p.grad i d 0 + flux i 1 p * p.grad i d 1 + flux i 2 p * p.grad i d 2 + g * p.basis i d]

/-- The terms of the pressure equation, src/physics/stokes.cpp:128-132, 236-240 and 382-386. -/
def prAdds [Ring K] (dim : Nat) (p : Pt K) (d : Nat) : List K :=
  [(divu dim p * p.wts) * p.basis dim d]

/-- The parameter of the pressure stabilisation, src/physics/stokes.cpp:146, 256 and 402; in two dimensions the
element size enters to the first power (the line above it, with the square, is a comment). -/
def tauP [Field K] (dim : Nat) (p : Pt K) : K :=
  if dim = 2 then 1 * p.h / (2 * p.visc) else 1 * p.h * p.h / (2 * p.visc)

/-- The pressure stabilisation, src/physics/stokes.cpp:136-154, 244-266 and 390-414. -/
def pspgAdds [Field K] (dim : Nat) (p : Pt K) (d : Nat) : List K :=
  let s := fun c => (p.gp c + p.src c) * (tauP dim p * p.wts)
  if dim = 1 then [s 0 * p.grad dim d 0]
  else if dim = 2 then [s 0 * p.grad dim d 0 + s 1 * p.grad dim d 1]
  else [s 0 * p.grad dim d 0 + s 1 * p.grad dim d 1 + s 2 * p.grad dim d 2]

/-- The term of the option "useLSIC", src/physics/stokes.cpp:156-174, 268-287 and 416-436. -/
def lsicAdds [Field K] (dim : Nat) (p : Pt K) (d : Nat) : List K :=
  let tau := 1 * p.h * p.h / (2 * p.visc)
  let s := tau * divu dim p * p.wts
  if dim = 1 then [s * p.grad dim d 0]
  else if dim = 2 then [s * (p.grad dim d 0 + p.grad dim d 1)]
  else [s * (p.grad dim d 0 + p.grad dim d 1 + p.grad dim d 2)]

/-- The loop nests of `volumeResidual`, src/physics/stokes.cpp:70-439. -/
def loops [Field K] (dim : Nat) (ndof : Nat → Nat) (pspg lsic : Bool) : List (Loop K (Pt K)) :=
  (List.range dim).map (fun i => { eq := i, ndof := ndof i, adds := momAdds dim i })
  ++ [{ eq := dim, ndof := ndof dim, adds := prAdds dim }]
  ++ (if pspg then [{ eq := dim, ndof := ndof dim, adds := pspgAdds dim }] else [])
  ++ (if lsic then [{ eq := dim, ndof := ndof dim, adds := lsicAdds dim }] else [])

/-- `volumeResidual` on one element, src/physics/stokes.cpp:70-439. -/
def volumeResidual [Field K] (dim : Nat) (ndof : Nat → Nat) (off : Nat → Nat → Nat) (pspg lsic : Bool)
    (pts : List (Pt K)) (res : Nat → K) : Nat → K :=
  runLoops off pts (loops dim ndof pspg lsic) res

/-- `boundaryResidual`, src/physics/stokes.cpp:444-447: empty.  `traction` are the values of the functions
"Neumann u. <side>" at the points of the side. -/
def boundaryResidual (_traction : Nat → List K) (res : Nat → K) : Nat → K := res

/-! ## Specification -/

/-- The weak momentum equation `i` at a point.  [specification, no code] -/
def momentum [CommRing K] (dim i : Nat) (p : Pt K) (d : Nat) : K :=
  p.visc * dot dim (p.g i) (p.grad i d) - p.pr * p.grad i d i - p.src i * p.basis i d

/-- The divergence of the velocity.  [specification, no code] -/
def divergence [CommRing K] (dim : Nat) (p : Pt K) : K := ∑ c ∈ Finset.range dim, p.g c c

/-- The strong residual of the momentum equation `c` for a velocity without second derivatives (linear elements):
pressure gradient minus source.  [specification, no code] -/
def strong [CommRing K] (p : Pt K) (c : Nat) : K := p.gp c - p.src c

/-- The state has the velocity with coefficients `U i d` and the pressure with coefficients `Q d`.
[specification, no code] -/
def HasCoefs [CommRing K] (dim : Nat) (ndof : Nat → Nat) (U : Nat → Nat → K) (Q : Nat → K) (p : Pt K) : Prop :=
  (∀ i c : Nat, i < dim → c < dim → p.g i c = ∑ d ∈ Finset.range (ndof i), U i d * p.grad i d c) ∧
  (∀ i : Nat, i < dim → p.u i = ∑ d ∈ Finset.range (ndof i), U i d * p.basis i d) ∧
  p.pr = ∑ d ∈ Finset.range (ndof dim), Q d * p.basis dim d

/-! ## Lemmas -/

section
variable [Field K]

theorem loops_fit (dim : Nat) (ndof : Nat → Nat) (pspg lsic : Bool) :
    Fits (dim + 1) ndof (loops (K := K) dim ndof pspg lsic) := by
  intro l hl
  unfold loops at hl
  rcases List.mem_append.mp hl with hl | hl
  · rcases List.mem_append.mp hl with hl | hl
    · rcases List.mem_append.mp hl with hl | hl
      · obtain ⟨i, hi, rfl⟩ := List.mem_map.mp hl
        exact ⟨Nat.lt_succ_of_lt (List.mem_range.mp hi), rfl⟩
      · rw [List.mem_singleton] at hl
        subst hl
        exact ⟨Nat.lt_succ_self _, rfl⟩
    · cases pspg
      · cases hl
      · rw [if_pos rfl, List.mem_singleton] at hl
        subst hl
        exact ⟨Nat.lt_succ_self _, rfl⟩
  · cases lsic
    · cases hl
    · rw [if_pos rfl, List.mem_singleton] at hl
      subst hl
      exact ⟨Nat.lt_succ_self _, rfl⟩

theorem divu_eq {dim : Nat} (h1 : 1 ≤ dim) (h3 : dim ≤ 3) (p : Pt K) : divu dim p = divergence dim p := by
  interval_cases dim <;> simp [divu, divergence, Finset.sum_range_succ]

theorem terms_mom {dim : Nat} (h1 : 1 ≤ dim) (h3 : dim ≤ 3) (ndof : Nat → Nat) (pspg lsic : Bool) {i : Nat}
    (hi : i < dim) (d : Nat) (p : Pt K) :
    termsAt (loops dim ndof pspg lsic) i d p = p.wts * momentum dim i p d := by
  interval_cases dim <;> interval_cases i <;> cases pspg <;> cases lsic <;>
    simp [termsAt, loops, List.range_succ, momAdds, flux, momentum, dot_one, dot_two, dot_three] <;> ring

theorem terms_pr {dim : Nat} (h1 : 1 ≤ dim) (h3 : dim ≤ 3) (ndof : Nat → Nat) (pspg lsic : Bool) (d : Nat)
    (p : Pt K) :
    termsAt (loops dim ndof pspg lsic) dim d p = p.wts * (divergence dim p * p.basis dim d
      + (if pspg = true then tauP dim p * dot dim (fun c => p.gp c + p.src c) (p.grad dim d) else 0)
      + (if lsic = true then p.h * p.h / (2 * p.visc) * divergence dim p * ∑ c ∈ Finset.range dim, p.grad dim d c
         else 0)) := by
  rw [← divu_eq h1 h3]
  interval_cases dim <;> cases pspg <;> cases lsic <;>
    simp [termsAt, loops, List.range_succ, prAdds, pspgAdds, lsicAdds, dot_one, dot_two, dot_three,
      Finset.sum_range_succ] <;> ring

end

/-! ## Properties -/

section
variable [Field K]

/-- C102: every momentum equation receives the quadrature of its weak form, with and without the options, in one,
two and three dimensions. -/
theorem C102_momentum {dim : Nat} (h1 : 1 ≤ dim) (h3 : dim ≤ 3) {ndof : Nat → Nat} {off : Nat → Nat → Nat}
    (hoff : DistinctAll (dim + 1) ndof off) (pspg lsic : Bool) (pts : List (Pt K)) (res : Nat → K) {i d : Nat}
    (hi : i < dim) (hd : d < ndof i) :
    volumeResidual dim ndof off pspg lsic pts res (off i d) =
      res (off i d) + quad pts (fun p => p.wts * momentum dim i p d) := by
  rw [volumeResidual, runLoops_at hoff pts _ (loops_fit dim ndof pspg lsic) res (Nat.lt_succ_of_lt hi) hd]
  congr 1
  exact quad_congr pts (fun p _ => terms_mom h1 h3 ndof pspg lsic hi d p)

/-- C102, the part that holds of the pressure equation: without the options it is the quadrature of the divergence;
a velocity without divergence at the points satisfies it, and the option "useLSIC" keeps it satisfied.  Missing:
the pressure stabilisation, see `C102_pspg_violated`. -/
theorem C102_divergence_partial {dim : Nat} (h1 : 1 ≤ dim) (h3 : dim ≤ 3) {ndof : Nat → Nat}
    {off : Nat → Nat → Nat} (hoff : DistinctAll (dim + 1) ndof off) (pts : List (Pt K)) (res : Nat → K) {d : Nat}
    (hd : d < ndof dim) :
    volumeResidual dim ndof off false false pts res (off dim d) =
      res (off dim d) + quad pts (fun p => p.wts * (divergence dim p * p.basis dim d)) ∧
    ((∀ p : Pt K, p ∈ pts → divergence dim p = 0) → ∀ lsic : Bool,
      volumeResidual dim ndof off false lsic pts res (off dim d) = res (off dim d)) := by
  have key : ∀ lsic : Bool, volumeResidual dim ndof off false lsic pts res (off dim d) =
      res (off dim d) + quad pts (fun p => p.wts * (divergence dim p * p.basis dim d
        + (if lsic = true then p.h * p.h / (2 * p.visc) * divergence dim p *
            ∑ c ∈ Finset.range dim, p.grad dim d c else 0))) := by
    intro lsic
    rw [volumeResidual, runLoops_at hoff pts _ (loops_fit dim ndof false lsic) res (Nat.lt_succ_self _) hd]
    congr 1
    refine quad_congr pts (fun p _ => ?_)
    rw [terms_pr h1 h3 ndof false lsic d p]
    simp
  refine ⟨?_, fun hz lsic => ?_⟩
  · rw [key false]
    simp
  · rw [key lsic, quad_congr pts (g := fun _ => (0 : K)) (fun p hp => by rw [hz p hp]; simp), quad_zero, add_zero]

theorem momentum_sum {dim : Nat} {ndof : Nat → Nat} {U : Nat → Nat → K} {Q : Nat → K} {p : Pt K}
    (hc : HasCoefs dim ndof U Q p) {i : Nat} (hi : i < dim) :
    ∑ d ∈ Finset.range (ndof i), U i d * momentum dim i p d =
      p.visc * dot dim (p.g i) (p.g i) - p.pr * p.g i i - p.src i * p.u i := by
  unfold momentum
  rw [hc.2.1 i hi]
  have h1 : ∑ d ∈ Finset.range (ndof i), U i d * dot dim (p.g i) (p.grad i d) = dot dim (p.g i) (p.g i) := by
    unfold dot
    simp only [Finset.mul_sum]
    rw [Finset.sum_comm]
    refine Finset.sum_congr rfl (fun c hcc => ?_)
    conv_rhs => rw [hc.1 i c hi (Finset.mem_range.mp hcc)]
    rw [← hc.1 i c hi (Finset.mem_range.mp hcc), Finset.sum_congr rfl (fun d _ => by
      rw [show U i d * (p.g i c * p.grad i d c) = p.g i c * (U i d * p.grad i d c) by ring]), ← Finset.mul_sum,
      ← hc.1 i c hi (Finset.mem_range.mp hcc)]
  rw [Finset.sum_congr rfl (fun d _ => by
    rw [show U i d * (p.visc * dot dim (p.g i) (p.grad i d) - p.pr * p.grad i d i - p.src i * p.basis i d) =
      p.visc * (U i d * dot dim (p.g i) (p.grad i d)) - p.pr * (U i d * p.grad i d i)
        - p.src i * (U i d * p.basis i d) by ring])]
  rw [Finset.sum_sub_distrib, Finset.sum_sub_distrib, ← Finset.mul_sum, ← Finset.mul_sum, ← Finset.mul_sum, h1,
    ← hc.1 i i hi hi]

/-- C102: energy balance: the residuals weighted with the coefficients of the solution itself (velocity in the
momentum equations, pressure in the pressure equation) sum to the dissipation minus the power of the source; the
pressure does no work. -/
theorem C102_energy {dim : Nat} (h1 : 1 ≤ dim) (h3 : dim ≤ 3) {ndof : Nat → Nat} {off : Nat → Nat → Nat}
    (hoff : DistinctAll (dim + 1) ndof off) (pts : List (Pt K)) (U : Nat → Nat → K) (Q : Nat → K)
    (hc : ∀ p : Pt K, p ∈ pts → HasCoefs dim ndof U Q p) :
    (∑ i ∈ Finset.range dim, ∑ d ∈ Finset.range (ndof i),
        U i d * volumeResidual dim ndof off false false pts (fun _ => 0) (off i d))
      + ∑ d ∈ Finset.range (ndof dim), Q d * volumeResidual dim ndof off false false pts (fun _ => 0) (off dim d) =
    quad pts (fun p => p.wts * ∑ i ∈ Finset.range dim, (p.visc * dot dim (p.g i) (p.g i) - p.src i * p.u i)) := by
  have hA : ∀ i : Nat, i ∈ Finset.range dim → ∑ d ∈ Finset.range (ndof i),
      U i d * volumeResidual dim ndof off false false pts (fun _ => 0) (off i d) =
      quad pts (fun p => p.wts * (p.visc * dot dim (p.g i) (p.g i) - p.pr * p.g i i - p.src i * p.u i)) := by
    intro i hi
    have hi' := Finset.mem_range.mp hi
    rw [Finset.sum_congr rfl (fun d hd => by
      rw [C102_momentum h1 h3 hoff false false pts _ hi' (Finset.mem_range.mp hd), zero_add, quad_mul_left]),
      quad_sum]
    refine quad_congr pts (fun p hp => ?_)
    rw [← momentum_sum (hc p hp) hi', Finset.mul_sum]
    exact Finset.sum_congr rfl (fun d _ => by ring)
  have hB : ∑ d ∈ Finset.range (ndof dim),
      Q d * volumeResidual dim ndof off false false pts (fun _ => 0) (off dim d) =
      quad pts (fun p => p.wts * (divergence dim p * p.pr)) := by
    rw [Finset.sum_congr rfl (fun d hd => by
      rw [(C102_divergence_partial h1 h3 hoff pts _ (Finset.mem_range.mp hd)).1, zero_add, quad_mul_left]), quad_sum]
    refine quad_congr pts (fun p hp => ?_)
    rw [(hc p hp).2.2, Finset.mul_sum, Finset.mul_sum]
    exact Finset.sum_congr rfl (fun d _ => by ring)
  rw [Finset.sum_congr rfl hA, quad_sum, hB, ← quad_add]
  refine quad_congr pts (fun p _ => ?_)
  rw [← Finset.mul_sum, ← mul_add]
  congr 1
  rw [divergence, Finset.sum_mul, ← Finset.sum_add_distrib]
  exact Finset.sum_congr rfl (fun i _ => by ring)

/-! ## What does not hold -/

/-- C102: that the pressure stabilisation vanishes for exact solutions is false: the source is added to the pressure
gradient instead of subtracted.  For a fluid at rest whose pressure gradient balances the source (zero strong
residual), the stabilised pressure equation receives twice the source. -/
theorem C102_pspg_violated {dim : Nat} (h1 : 1 ≤ dim) (h3 : dim ≤ 3) {ndof : Nat → Nat} {off : Nat → Nat → Nat}
    (hoff : DistinctAll (dim + 1) ndof off) (pts : List (Pt K))
    (hrest : ∀ p : Pt K, p ∈ pts → (∀ i c : Nat, p.g i c = 0) ∧ ∀ c : Nat, strong p c = 0) (res : Nat → K)
    {d : Nat} (hd : d < ndof dim) :
    volumeResidual dim ndof off true false pts res (off dim d) =
      res (off dim d) + quad pts (fun p => p.wts * (tauP dim p * (2 * dot dim p.src (p.grad dim d)))) := by
  rw [volumeResidual, runLoops_at hoff pts _ (loops_fit dim ndof true false) res (Nat.lt_succ_self _) hd]
  congr 1
  refine quad_congr pts (fun p hp => ?_)
  rw [terms_pr h1 h3 ndof true false d p]
  obtain ⟨hg, hs⟩ := hrest p hp
  have hdiv : divergence dim p = 0 := Finset.sum_eq_zero (fun c _ => hg c c)
  have hgp : ∀ c : Nat, p.gp c = p.src c := fun c => sub_eq_zero.mp (hs c)
  rw [hdiv]
  simp only [hgp, dot, Finset.mul_sum, zero_mul, zero_add, if_true, Bool.false_eq_true, if_false, add_zero]
  refine Finset.sum_congr rfl (fun c _ => by ring)

/-- A point of an element of size one tenth, [case]. -/
def tenth : Pt ℚ :=
  { wts := 1, basis := fun _ _ => 1, grad := fun _ _ _ => 1, visc := 1, dens := 1,
    u := fun _ => 0, ut := fun _ => 0, g := fun _ _ => 0, pr := 0, gp := fun _ => 0, src := fun _ => 0, srcPr := 0,
    E := 0, h := 1/10, tau := 0 }

/-- C102: that the stabilisation parameter is `h*h/(2 nu)` in every dimension is false in two dimensions, where it is
`h/(2 nu)`. -/
theorem C102_tau_violated : (∃ p : Pt ℚ, tauP 2 p ≠ p.h * p.h / (2 * p.visc)) ∧ ∀ p : Pt ℚ, p.visc ≠ 0 →
    tauP 2 p * (2 * p.visc) = p.h ∧ tauP 3 p * (2 * p.visc) = p.h * p.h ∧ tauP 1 p * (2 * p.visc) = p.h * p.h := by
  refine ⟨⟨tenth, ?_⟩, fun p hp => ?_⟩
  · norm_num [tauP, tenth]
  · have h2 : 2 * p.visc ≠ 0 := mul_ne_zero two_ne_zero hp
    simp [tauP, div_mul_cancel₀ _ h2]

/-- C102: that the source of the pressure equation, which the user can give as a function, acts is false: the residual
does not depend on it. -/
theorem C102_source_pr_violated (dim : Nat) (ndof : Nat → Nat) (off : Nat → Nat → Nat) (pspg lsic : Bool)
    (pts : List (Pt K)) (res : Nat → K) (s : Pt K → K) (j : Nat) :
    volumeResidual dim ndof off pspg lsic (pts.map (fun p => { p with srcPr := s p })) res j =
      volumeResidual dim ndof off pspg lsic pts res j := by
  unfold volumeResidual runLoops
  have h : ∀ (l : Loop K (Pt K)), l ∈ loops dim ndof pspg lsic → ∀ r : Nat → K,
      l.run off (pts.map (fun p => { p with srcPr := s p })) r = l.run off pts r := by
    intro l hl r
    have hadds : ∀ (p : Pt K) (d : Nat), l.adds { p with srcPr := s p } d = l.adds p d := by
      intro p d
      unfold loops at hl
      rcases List.mem_append.mp hl with hl | hl
      · rcases List.mem_append.mp hl with hl | hl
        · rcases List.mem_append.mp hl with hl | hl
          · obtain ⟨i, hi, rfl⟩ := List.mem_map.mp hl
            rfl
          · rw [List.mem_singleton] at hl
            subst hl
            rfl
        · cases pspg
          · cases hl
          · rw [if_pos rfl, List.mem_singleton] at hl
            subst hl
            rfl
      · cases lsic
        · cases hl
        · rw [if_pos rfl, List.mem_singleton] at hl
          subst hl
          rfl
    unfold Loop.run dofLoop ptLoop
    simp only [List.foldl_map, hadds]
  have hf : ∀ (ls : List (Loop K (Pt K))), (∀ l : Loop K (Pt K), l ∈ ls → l ∈ loops dim ndof pspg lsic) →
      ∀ r : Nat → K, ls.foldl (fun r l => l.run off (pts.map (fun p => { p with srcPr := s p })) r) r =
        ls.foldl (fun r l => l.run off pts r) r := by
    intro ls
    induction ls with
    | nil => intro _ r; rfl
    | cons l ls ih =>
      intro hm r
      rw [List.foldl_cons, List.foldl_cons, h l (hm l List.mem_cons_self), ih (fun m hm' => hm m (List.mem_cons_of_mem _ hm'))]
  rw [hf _ (fun l hl => hl) res]

/-- C102: that a traction given on a side acts is false: the boundary residual is the same for any two tractions. -/
theorem C102_traction_violated (t t' : Nat → List K) (res : Nat → K) :
    boundaryResidual t res = boundaryResidual t' res := rfl

/-- C102: that "useLSIC" penalises the divergence in the momentum equations is false: the momentum equations are the
same with and without it. -/
theorem C102_lsic_violated {dim : Nat} (h1 : 1 ≤ dim) (h3 : dim ≤ 3) {ndof : Nat → Nat} {off : Nat → Nat → Nat}
    (hoff : DistinctAll (dim + 1) ndof off) (pspg : Bool) (pts : List (Pt K)) (res : Nat → K) {i d : Nat}
    (hi : i < dim) (hd : d < ndof i) :
    volumeResidual dim ndof off pspg true pts res (off i d) =
      volumeResidual dim ndof off pspg false pts res (off i d) := by
  rw [C102_momentum h1 h3 hoff pspg true pts res hi hd, C102_momentum h1 h3 hoff pspg false pts res hi hd]

end

/-! ## Cases -/

/-- A point of a one-dimensional element with linear basis functions, [case]. -/
def casePt : Pt ℚ :=
  { wts := 1, basis := fun _ _ => 1/2, grad := fun _ d _ => if d = 0 then -1 else 1, visc := 3, dens := 1,
    u := fun _ => 1/2, ut := fun _ => 0, g := fun _ _ => 2, pr := 5, gp := fun _ => 7, src := fun _ => 7, srcPr := 1,
    E := 0, h := 1, tau := 1 }

example : volumeResidual 1 (fun _ => 2) (fun e d => 2 * e + d) false false [casePt] (fun _ => 0) 1 = -5/2 := by
  decide +kernel

example : volumeResidual 1 (fun _ => 2) (fun e d => 2 * e + d) false true [casePt] (fun _ => 0) 3 = 4/3 := by
  decide +kernel

example : DistinctAll 2 (fun _ => 2) (fun e d => 2 * e + d) := by
  intro i a j b hi hj ha hb h
  have ha' : a < 2 := ha
  have hb' : b < 2 := hb
  have h' : 2 * i + a = 2 * j + b := h
  constructor <;> omega

example : HasCoefs 1 (fun _ => 2) (fun _ d => if d = 0 then -1/2 else 3/2) (fun _ => 5) casePt := by
  refine ⟨?_, ?_, ?_⟩
  · intro i c _ _
    norm_num [casePt, Finset.sum_range_succ]
  · intro i _
    norm_num [casePt, Finset.sum_range_succ]
  · norm_num [casePt, Finset.sum_range_succ]

/-- The fluid at rest, [case]. -/
def restPt : Pt ℚ := { casePt with g := fun _ _ => 0, u := fun _ => 0 }

example : (∀ i c : Nat, restPt.g i c = 0) ∧ ∀ c : Nat, strong restPt c = 0 := by
  refine ⟨fun i c => rfl, fun c => ?_⟩
  norm_num [strong, restPt, casePt]

example : volumeResidual 1 (fun _ => 2) (fun e d => 2 * e + d) true false [restPt] (fun _ => 0) 3 = 7/3 := by
  decide +kernel

end MrHyDE.Modules.Stokes
