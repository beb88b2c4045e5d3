import Verif.Modules.Stokes

/-!
# The Navier-Stokes module (C103)

`navierstokes` solves `rho (u_t + u . grad u) - div(mu grad u) + grad p = rho f`, `div u = 0`, optionally with
SUPG and PSPG stabilisation and with buoyancy when an energy variable is present.
-/

set_option linter.unusedSectionVars false

namespace MrHyDE.Modules.NavierStokes

open MrHyDE.Modules.Fluid

variable {K : Type}

/-! ## Model -/

/-- Settings, src/physics/navierstokes.cpp:46-56: the two stabilisations, whether the block has the variable "e",
and the two model parameters. -/
structure Cfg (K : Type) where
  supg : Bool
  pspg : Bool
  energy : Bool
  Tambient : K
  beta : K

/-- `have_energy`, src/physics/navierstokes.cpp:1027-1046: the block has a variable named "e". -/
def haveEnergy (varlist : List String) : Bool := varlist.contains "e"

/-- `u . grad u_i`, src/physics/navierstokes.cpp:125, 274, 359, 520, 610 and 700. -/
def convect [Ring K] (dim i : Nat) (p : Pt K) : K :=
  if dim = 1 then p.u 0 * p.g i 0
  else if dim = 2 then p.u 0 * p.g i 0 + p.u 1 * p.g i 1
  else p.u 0 * p.g i 0 + p.u 1 * p.g i 1 + p.u 2 * p.g i 2

/-- The terms of momentum equation `i`, src/physics/navierstokes.cpp:122-130, 269-279, 354-364, 513-525, 603-615 and
693-705. -/
def momAdds [Ring K] (dim i : Nat) (p : Pt K) (d : Nat) : List K :=
  let F := (p.ut i + convect dim i p - p.src i) * (p.dens * p.wts)
  if dim = 1 then [flux i 0 p * p.grad i d 0 + F * p.basis i d]
  else if dim = 2 then [flux i 0 p * p.grad i d 0 + flux i 1 p * p.grad i d 1 + F * p.basis i d]
  else [flux i 0 p * p.grad i d 0 + flux i 1 p * p.grad i d 1 + flux i 2 p * p.grad i d 2 + F * p.basis i d]

/-- The buoyancy, src/physics/navierstokes.cpp:134-147, 283-296, 368-381, 529-542, 619-632 and 709-722. -/
def buoyAdds [Ring K] (c : Cfg K) (i : Nat) (p : Pt K) (d : Nat) : List K :=
  [(p.dens * c.beta * (p.E - c.Tambient) * p.src i * p.wts) * p.basis i d]

/-- `stabres`, src/physics/navierstokes.cpp:160, 309, 393, 554, 644 and 734. -/
def stabres [Ring K] (dim i : Nat) (p : Pt K) : K :=
  p.dens * p.ut i + p.dens * convect dim i p + p.gp i - p.dens * p.src i

/-- SUPG terms for a residual `r`, src/physics/navierstokes.cpp:161-164, 310-314, 394-398, 555-560, 645-650 and
735-740. -/
def supgTerm [Ring K] (dim i : Nat) (r : K) (p : Pt K) (d : Nat) : List K :=
  let s := fun c => p.tau * r * p.u c * p.wts
  if dim = 1 then [s 0 * p.grad i d 0]
  else if dim = 2 then [s 0 * p.grad i d 0 + s 1 * p.grad i d 1]
  else [s 0 * p.grad i d 0 + s 1 * p.grad i d 1 + s 2 * p.grad i d 2]

/-- The residual of the buoyancy in the stabilisations, src/physics/navierstokes.cpp:176, 326, 410, 572, 662 and
752. -/
def buoyRes [Ring K] (c : Cfg K) (i : Nat) (p : Pt K) : K :=
  p.dens * c.beta * (p.E - c.Tambient) * p.src i

/-- The terms of the pressure equation, src/physics/navierstokes.cpp:202-205, 438-441 and 782-785. -/
def prAdds [Ring K] (dim : Nat) (p : Pt K) (d : Nat) : List K := [(divu dim p * p.wts) * p.basis dim d]

/-- PSPG, src/physics/navierstokes.cpp:211-230, 445-470 and 789-823. -/
def pspgAdds [Field K] (dim : Nat) (p : Pt K) (d : Nat) : List K :=
  let s := fun c => stabres dim c p * (p.tau * p.wts / p.dens)
  if dim = 1 then [s 0 * p.grad dim d 0]
  else if dim = 2 then [s 0 * p.grad dim d 0 + s 1 * p.grad dim d 1]
  else [s 0 * p.grad dim d 0 + s 1 * p.grad dim d 1 + s 2 * p.grad dim d 2]

/-- The buoyancy in PSPG, src/physics/navierstokes.cpp:231-247, 471-490 and 824-845: not divided by the density. -/
def pspgBuoy [Field K] (c : Cfg K) (dim : Nat) (p : Pt K) (d : Nat) : List K :=
  let s := fun j => buoyRes c j p * (p.tau * p.wts)
  if dim = 1 then [s 0 * p.grad dim d 0]
  else if dim = 2 then [s 0 * p.grad dim d 0 + s 1 * p.grad dim d 1]
  else [s 0 * p.grad dim d 0 + s 1 * p.grad dim d 1 + s 2 * p.grad dim d 2]

/-- The variable whose offsets the momentum equation `i` uses, src/physics/navierstokes.cpp:116, 263, 349, 507, 598
and 688; line 688, in the block of `uz`, uses the offsets of `uy`. -/
def target (dim i : Nat) : Nat := if dim = 3 ∧ i = 2 then 1 else i

/-- The loop nests of momentum equation `i`, src/physics/navierstokes.cpp:104-186 and its copies. -/
def momLoops [Field K] (dim : Nat) (ndof : Nat → Nat) (c : Cfg K) (i : Nat) : List (Loop K (Pt K)) :=
  [{ eq := target dim i, ndof := ndof i, adds := momAdds dim i }]
  ++ (if c.energy then [{ eq := target dim i, ndof := ndof i, adds := buoyAdds c i }] else [])
  ++ (if c.supg then
        [{ eq := target dim i, ndof := ndof i, adds := fun p d => supgTerm dim i (stabres dim i p) p d }]
        ++ (if c.energy then
              [{ eq := target dim i, ndof := ndof i, adds := fun p d => supgTerm dim i (buoyRes c i p) p d }]
            else [])
      else [])

/-- The loop nests of the pressure equation, src/physics/navierstokes.cpp:189-249, 422-492 and 767-848. -/
def prLoops [Field K] (dim : Nat) (ndof : Nat → Nat) (c : Cfg K) : List (Loop K (Pt K)) :=
  [{ eq := dim, ndof := ndof dim, adds := prAdds dim }]
  ++ (if c.pspg then
        [{ eq := dim, ndof := ndof dim, adds := pspgAdds dim }]
        ++ (if c.energy then [{ eq := dim, ndof := ndof dim, adds := pspgBuoy c dim }] else [])
      else [])

/-- `volumeResidual` on one element, src/physics/navierstokes.cpp:78-850. -/
def volumeResidual [Field K] (dim : Nat) (ndof : Nat → Nat) (off : Nat → Nat → Nat) (c : Cfg K) (pts : List (Pt K))
    (res : Nat → K) : Nat → K :=
  runLoops off pts ((List.range dim).flatMap (momLoops dim ndof c) ++ prLoops dim ndof c) res

/-- What the boundary residual reads at a point of a side, src/physics/navierstokes.cpp:875-897. -/
structure SidePt (K : Type) where
  wts : K
  basis : Nat → Nat → K
  traction : Nat → K

/-- The loop nests of `boundaryResidual`, src/physics/navierstokes.cpp:856-1009; `neumann i` says that component `i`
has a Neumann condition on the side. -/
def sideLoops [Ring K] (dim : Nat) (ndof : Nat → Nat) (neumann : Nat → Bool) : List (Loop K (SidePt K)) :=
  (List.range dim).flatMap fun i =>
    if neumann i then [{ eq := i, ndof := ndof i, adds := fun p d => [(- p.traction i * p.basis i d) * p.wts] }]
    else []

/-- `boundaryResidual` on one side, src/physics/navierstokes.cpp:856-1009. -/
def boundaryResidual [Ring K] (dim : Nat) (ndof : Nat → Nat) (off : Nat → Nat → Nat) (neumann : Nat → Bool)
    (pts : List (SidePt K)) (res : Nat → K) : Nat → K :=
  runLoops off pts (sideLoops dim ndof neumann) res

/-! ## Specification -/

/-- The weak momentum equation `i` at a point, with buoyancy.  [specification, no code] -/
def momentum [CommRing K] (dim i : Nat) (c : Cfg K) (p : Pt K) (d : Nat) : K :=
  p.dens * (p.ut i + dot dim p.u (p.g i) - p.src i) * p.basis i d
  + p.visc * dot dim (p.g i) (p.grad i d) - p.pr * p.grad i d i
  + (if c.energy = true then p.dens * c.beta * (p.E - c.Tambient) * p.src i * p.basis i d else 0)

/-- The strong momentum residual of component `i` at a point, without second derivatives.
[specification, no code] -/
def strong [CommRing K] (dim i : Nat) (c : Cfg K) (p : Pt K) : K :=
  p.dens * (p.ut i + dot dim p.u (p.g i) - p.src i) + p.gp i
  + (if c.energy = true then p.dens * c.beta * (p.E - c.Tambient) * p.src i else 0)

/-- SUPG: the strong residual tested with the derivative of the test function along the flow.
[specification, no code] -/
def supgForm [CommRing K] (dim i : Nat) (c : Cfg K) (p : Pt K) (d : Nat) : K :=
  if c.supg = true then p.tau * strong dim i c p * dot dim p.u (p.grad i d) else 0

/-! ## Lemmas -/

section
variable [Field K]

theorem mem_momLoops {dim : Nat} {ndof : Nat → Nat} {c : Cfg K} {i : Nat} {l : Loop K (Pt K)}
    (h : l ∈ momLoops dim ndof c i) : l.eq = target dim i ∧ l.ndof = ndof i := by
  obtain ⟨su, ps, en, Ta, be⟩ := c
  cases su <;> cases en <;> simp [momLoops] at h
  · subst h; exact ⟨rfl, rfl⟩
  · rcases h with rfl | rfl <;> exact ⟨rfl, rfl⟩
  · rcases h with rfl | rfl <;> exact ⟨rfl, rfl⟩
  · rcases h with rfl | rfl | rfl | rfl <;> exact ⟨rfl, rfl⟩

theorem mem_prLoops {dim : Nat} {ndof : Nat → Nat} {c : Cfg K} {l : Loop K (Pt K)}
    (h : l ∈ prLoops dim ndof c) : l.eq = dim ∧ l.ndof = ndof dim := by
  obtain ⟨su, ps, en, Ta, be⟩ := c
  cases ps <;> cases en <;> simp [prLoops] at h
  · subst h; exact ⟨rfl, rfl⟩
  · subst h; exact ⟨rfl, rfl⟩
  · rcases h with rfl | rfl <;> exact ⟨rfl, rfl⟩
  · rcases h with rfl | rfl | rfl <;> exact ⟨rfl, rfl⟩

theorem loops_fit {dim : Nat} {ndof : Nat → Nat} (c : Cfg K) (h3 : dim = 3 → ndof 2 = ndof 1) :
    Fits (dim + 1) ndof ((List.range dim).flatMap (momLoops dim ndof c) ++ prLoops dim ndof c) := by
  intro l hl
  rcases List.mem_append.mp hl with hl | hl
  · obtain ⟨i, hi, hl⟩ := List.mem_flatMap.mp hl
    have hi' := List.mem_range.mp hi
    obtain ⟨h1, h2⟩ := mem_momLoops hl
    rw [h1, h2]
    unfold target
    by_cases h : dim = 3 ∧ i = 2
    · rw [if_pos h]
      obtain ⟨rfl, rfl⟩ := h
      exact ⟨by decide, h3 rfl⟩
    · rw [if_neg h]
      exact ⟨Nat.lt_succ_of_lt hi', rfl⟩
  · obtain ⟨h1, h2⟩ := mem_prLoops hl
    rw [h1, h2]
    exact ⟨Nat.lt_succ_self _, rfl⟩

theorem terms_mom {dim : Nat} (h1 : 1 ≤ dim) (ndof : Nat → Nat) (c : Cfg K) {i : Nat} (hi : i < dim)
    (hd : dim ≤ 2 ∨ dim = 3 ∧ i = 0) (d : Nat) (p : Pt K) :
    termsAt ((List.range dim).flatMap (momLoops dim ndof c) ++ prLoops dim ndof c) i d p =
      p.wts * (momentum dim i c p d + supgForm dim i c p d) := by
  obtain ⟨su, ps, en, Ta, be⟩ := c
  have h3 : dim ≤ 3 := by omega
  interval_cases dim
  · interval_cases i
    cases su <;> cases ps <;> cases en <;>
      simp [termsAt, List.range_succ, momLoops, prLoops, target, momAdds, buoyAdds, supgTerm, stabres, buoyRes,
        convect, flux, momentum, supgForm, strong, dot_one] <;> ring
  · interval_cases i <;> cases su <;> cases ps <;> cases en <;>
      simp [termsAt, List.range_succ, momLoops, prLoops, target, momAdds, buoyAdds, supgTerm, stabres, buoyRes,
        convect, flux, momentum, supgForm, strong, dot_two] <;> ring
  · have h0 : i = 0 := by omega
    subst h0
    cases su <;> cases ps <;> cases en <;>
      simp [termsAt, List.range_succ, momLoops, prLoops, target, momAdds, buoyAdds, supgTerm, stabres, buoyRes,
        convect, flux, momentum, supgForm, strong, dot_three] <;> ring

theorem terms_y (ndof : Nat → Nat) (c : Cfg K) (d : Nat) (p : Pt K) :
    termsAt ((List.range 3).flatMap (momLoops 3 ndof c) ++ prLoops 3 ndof c) 1 d p =
      p.wts * ((momentum 3 1 c p d + supgForm 3 1 c p d) + (momentum 3 2 c p d + supgForm 3 2 c p d)) := by
  obtain ⟨su, ps, en, Ta, be⟩ := c
  cases su <;> cases ps <;> cases en <;>
    simp [termsAt, List.range_succ, momLoops, prLoops, target, momAdds, buoyAdds, supgTerm, stabres, buoyRes,
      convect, flux, momentum, supgForm, strong, dot_three] <;> ring

theorem terms_z (ndof : Nat → Nat) (c : Cfg K) (d : Nat) (p : Pt K) :
    termsAt ((List.range 3).flatMap (momLoops 3 ndof c) ++ prLoops 3 ndof c) 2 d p = 0 := by
  obtain ⟨su, ps, en, Ta, be⟩ := c
  cases su <;> cases ps <;> cases en <;> simp [termsAt, List.range_succ, momLoops, prLoops, target]

theorem terms_pr {dim : Nat} (h1 : 1 ≤ dim) (h3 : dim ≤ 3) (ndof : Nat → Nat) (c : Cfg K) (d : Nat) (p : Pt K) :
    termsAt ((List.range dim).flatMap (momLoops dim ndof c) ++ prLoops dim ndof c) dim d p =
      p.wts * (Stokes.divergence dim p * p.basis dim d
        + (if c.pspg = true then p.tau / p.dens * dot dim (fun j => stabres dim j p) (p.grad dim d)
            + (if c.energy = true then p.tau * dot dim (fun j => buoyRes c j p) (p.grad dim d) else 0) else 0)) := by
  rw [← Stokes.divu_eq h1 h3]
  obtain ⟨su, ps, en, Ta, be⟩ := c
  interval_cases dim <;> cases su <;> cases ps <;> cases en <;>
    simp [termsAt, List.range_succ, momLoops, prLoops, target, prAdds, pspgAdds, pspgBuoy, dot_one, dot_two,
      dot_three] <;> ring

theorem stabres_eq {dim : Nat} (h1 : 1 ≤ dim) (h3 : dim ≤ 3) {c : Cfg K} (he : c.energy = false) (p : Pt K) (j : Nat) :
    stabres dim j p = strong dim j c p := by
  interval_cases dim <;> simp [stabres, strong, convect, dot_one, dot_two, dot_three, he] <;> ring

end

/-! ## Properties -/

section
variable [Field K]

/-- C103, the part that holds of the momentum equations: in one and two dimensions, and for the first component in
three, equation `i` receives the quadrature of its weak form (with buoyancy), plus, with SUPG, the strong residual
tested along the flow.  Missing: the other components in three dimensions, see `C103_3d_violated`. -/
theorem C103_momentum_partial {dim : Nat} (h1 : 1 ≤ dim) {ndof : Nat → Nat} {off : Nat → Nat → Nat}
    (hoff : DistinctAll (dim + 1) ndof off) (c : Cfg K) (pts : List (Pt K)) (res : Nat → K) {i d : Nat}
    (hi : i < dim) (hdim : dim ≤ 2 ∨ (dim = 3 ∧ i = 0) ∧ ndof 2 = ndof 1) (hd : d < ndof i) :
    volumeResidual dim ndof off c pts res (off i d) =
      res (off i d) + quad pts (fun p => p.wts * (momentum dim i c p d + supgForm dim i c p d)) := by
  have hf : dim = 3 → ndof 2 = ndof 1 := by
    intro h
    rcases hdim with h' | h'
    · omega
    · exact h'.2
  rw [volumeResidual, runLoops_at hoff pts _ (loops_fit c hf) res (Nat.lt_succ_of_lt hi) hd]
  congr 1
  refine quad_congr pts (fun p _ => terms_mom h1 ndof c hi ?_ d p)
  rcases hdim with h | h
  · exact Or.inl h
  · exact Or.inr h.1

/-- C103: that every momentum equation is assembled is false in three dimensions: the equation of the third component
receives nothing, and its terms are added to the equation of the second component, for every state and setting. -/
theorem C103_3d_violated {ndof : Nat → Nat} {off : Nat → Nat → Nat} (hoff : DistinctAll 4 ndof off)
    (hb : ndof 2 = ndof 1) (c : Cfg K) (pts : List (Pt K)) (res : Nat → K) {d : Nat} (hd : d < ndof 2) :
    volumeResidual 3 ndof off c pts res (off 2 d) = res (off 2 d) ∧
    volumeResidual 3 ndof off c pts res (off 1 d) =
      res (off 1 d) + quad pts (fun p => p.wts *
        ((momentum 3 1 c p d + supgForm 3 1 c p d) + (momentum 3 2 c p d + supgForm 3 2 c p d))) := by
  refine ⟨?_, ?_⟩
  · rw [volumeResidual, runLoops_at hoff pts _ (loops_fit c (fun _ => hb)) res (by decide) hd,
      quad_congr pts (fun p _ => terms_z ndof c d p), quad_zero, add_zero]
  · rw [volumeResidual, runLoops_at hoff pts _ (loops_fit c (fun _ => hb)) res (by decide) (hb ▸ hd),
      quad_congr pts (fun p _ => terms_y ndof c d p)]

/-- C103, the part that holds of the pressure equation: without an energy variable it is the quadrature of the
divergence plus, with PSPG, the strong momentum residual over the density against the gradient of the test function.
Missing: PSPG with buoyancy, see `C103_pspg_violated`. -/
theorem C103_pressure_partial {dim : Nat} (h1 : 1 ≤ dim) (h3 : dim ≤ 3) {ndof : Nat → Nat} {off : Nat → Nat → Nat}
    (hoff : DistinctAll (dim + 1) ndof off) (hb : dim = 3 → ndof 2 = ndof 1) (c : Cfg K) (he : c.energy = false)
    (pts : List (Pt K)) (res : Nat → K) {d : Nat} (hd : d < ndof dim) :
    volumeResidual dim ndof off c pts res (off dim d) =
      res (off dim d) + quad pts (fun p => p.wts * (Stokes.divergence dim p * p.basis dim d
        + (if c.pspg = true then p.tau / p.dens * dot dim (fun j => strong dim j c p) (p.grad dim d) else 0))) := by
  rw [volumeResidual, runLoops_at hoff pts _ (loops_fit c hb) res (Nat.lt_succ_self _) hd]
  congr 1
  refine quad_congr pts (fun p _ => ?_)
  rw [terms_pr h1 h3 ndof c d p]
  simp only [he, Bool.false_eq_true, if_false, add_zero, stabres_eq h1 h3 he]

/-- C103: the stabilisations vanish for exact solutions: when the strong momentum residual is zero at the points and
there is no energy variable, the residual with SUPG and PSPG is the residual without, in the equations that are
assembled. -/
theorem C103_consistent {dim : Nat} (h1 : 1 ≤ dim) (h2 : dim ≤ 2) {ndof : Nat → Nat} {off : Nat → Nat → Nat}
    (hoff : DistinctAll (dim + 1) ndof off) (c : Cfg K) (he : c.energy = false) (pts : List (Pt K))
    (hs : ∀ p : Pt K, p ∈ pts → ∀ j : Nat, j < dim → strong dim j c p = 0) (res : Nat → K) {e d : Nat}
    (hee : e < dim + 1) (hd : d < ndof e) :
    volumeResidual dim ndof off c pts res (off e d) =
      volumeResidual dim ndof off { c with supg := false, pspg := false } pts res (off e d) := by
  by_cases h : e < dim
  · rw [C103_momentum_partial h1 hoff c pts res h (Or.inl h2) hd,
      C103_momentum_partial h1 hoff { c with supg := false, pspg := false } pts res h (Or.inl h2) hd]
    congr 1
    refine quad_congr pts (fun p hp => ?_)
    simp only [supgForm, hs p hp e h, mul_zero, zero_mul, ite_self, Bool.false_eq_true, if_false]
    rfl
  · have h' : e = dim := by omega
    subst h'
    rw [C103_pressure_partial h1 (by omega) hoff (by omega) c he pts res hd,
      C103_pressure_partial h1 (by omega) hoff (by omega) { c with supg := false, pspg := false } he pts res hd]
    congr 1
    refine quad_congr pts (fun p hp => ?_)
    have hz : dot e (fun j => strong e j c p) (p.grad e d) = 0 :=
      Finset.sum_eq_zero (fun j hj => by simp only [hs p hp j (Finset.mem_range.mp hj), zero_mul])
    rw [hz]
    simp

theorem side_fit (dim : Nat) (ndof : Nat → Nat) (neumann : Nat → Bool) :
    Fits dim ndof (sideLoops (K := K) dim ndof neumann) := by
  intro l hl
  obtain ⟨i, hi, hl⟩ := List.mem_flatMap.mp hl
  by_cases h : neumann i = true
  · rw [if_pos h, List.mem_singleton] at hl
    subst hl
    exact ⟨List.mem_range.mp hi, rfl⟩
  · rw [if_neg h] at hl
    cases hl

/-- C103: a side contributes minus the integral of the traction to every component with a Neumann condition and
nothing to the others, in any combination. -/
theorem C103_traction {dim : Nat} (h1 : 1 ≤ dim) (h3 : dim ≤ 3) {ndof : Nat → Nat} {off : Nat → Nat → Nat}
    (hoff : DistinctAll dim ndof off) (neumann : Nat → Bool) (pts : List (SidePt K)) (res : Nat → K) {i d : Nat}
    (hi : i < dim) (hd : d < ndof i) :
    boundaryResidual dim ndof off neumann pts res (off i d) =
      res (off i d) - (if neumann i = true then quad pts (fun p => p.wts * (p.traction i * p.basis i d)) else 0) := by
  rw [boundaryResidual, runLoops_at hoff pts _ (side_fit dim ndof neumann) res hi hd, sub_eq_add_neg]
  congr 1
  have ht : ∀ p : SidePt K, termsAt (sideLoops dim ndof neumann) i d p =
      if neumann i = true then - (p.wts * (p.traction i * p.basis i d)) else 0 := by
    intro p
    interval_cases dim
    · interval_cases i
      by_cases h0 : neumann 0 = true <;> simp [termsAt, sideLoops, List.range_succ, h0] <;> ring
    · interval_cases i <;> by_cases h0 : neumann 0 = true <;> by_cases h1 : neumann 1 = true <;>
        simp [termsAt, sideLoops, List.range_succ, h0, h1] <;> ring
    · interval_cases i <;> by_cases h0 : neumann 0 = true <;> by_cases h1 : neumann 1 = true <;>
        by_cases h2 : neumann 2 = true <;> simp [termsAt, sideLoops, List.range_succ, h0, h1, h2] <;> ring
  rw [quad_congr pts (fun p _ => ht p)]
  by_cases h : neumann i = true
  · simp only [h, if_true]
    rw [quad_neg]
  · simp only [h]
    simp [quad_zero]

end

/-! ## What does not hold -/

/-- C103: that the buoyancy acts when the temperature is computed by the thermal module is false: the variable of that
module is named "T" (src/physics/thermal.cpp:26-31), the fluid module looks for a variable named "e". -/
theorem C103_buoyancy_violated (varlist : List String)
    (h : ∀ v : String, v ∈ varlist → v = "ux" ∨ v = "uy" ∨ v = "uz" ∨ v = "pr" ∨ v = "T") :
    haveEnergy varlist = false := by
  unfold haveEnergy
  rw [Bool.eq_false_iff]
  intro hc
  have hm : "e" ∈ varlist := by simpa using hc
  rcases h "e" hm with h | h | h | h | h <;> exact absurd h (by decide)

/-- A point at which source, buoyancy and pressure gradient are in balance, with density 2, [case]. -/
def balanced : Pt ℚ :=
  { wts := 1, basis := fun _ _ => 1/2, grad := fun _ d _ => if d = 0 then -1 else 1, visc := 3, dens := 2,
    u := fun _ => 0, ut := fun _ => 0, g := fun _ _ => 0, pr := 5, gp := fun _ => -2, src := fun _ => 1, srcPr := 0,
    E := 2, h := 1, tau := 1 }

/-- Settings with buoyancy and PSPG, [case]. -/
def buoyant : Cfg ℚ := { supg := false, pspg := true, energy := true, Tambient := 0, beta := 1 }

/-- C103: that PSPG vanishes for exact solutions is false with buoyancy and a density other than one: the buoyancy is
not divided by the density, the other terms are. -/
theorem C103_pspg_violated :
    strong 1 0 buoyant balanced = 0 ∧ Stokes.divergence 1 balanced = 0 ∧
      volumeResidual 1 (fun _ => 2) (fun e d => 2 * e + d) buoyant [balanced] (fun _ => 0) 3 ≠ 0 := by
  refine ⟨?_, ?_, ?_⟩
  · norm_num [strong, balanced, buoyant, dot_one]
  · norm_num [Stokes.divergence, balanced]
  · decide +kernel

/-! ## Cases -/

example : volumeResidual 1 (fun _ => 2) (fun e d => 2 * e + d) { buoyant with supg := true } [balanced]
    (fun _ => 0) 1 = -4 := by decide +kernel

example : (∀ v : String, v ∈ ["ux", "pr", "uy", "T"] → v = "ux" ∨ v = "uy" ∨ v = "uz" ∨ v = "pr" ∨ v = "T") ∧
    haveEnergy ["ux", "pr", "uy", "e"] = true := by
  refine ⟨?_, by decide⟩
  intro v hv
  simp at hv
  rcases hv with h | h | h | h <;> simp [h]

/-- The same point without the energy variable, in balance, [case]. -/
def still : Pt ℚ := { balanced with gp := fun _ => 2 }

example : strong 1 0 { buoyant with energy := false } still = 0 := by
  norm_num [strong, still, balanced, buoyant, dot_one]

example : boundaryResidual 2 (fun _ => 1) (fun e d => e + d) (fun i => i == 1)
    [({ wts := 2, basis := fun _ _ => 1, traction := fun i => i + 3 } : SidePt ℚ)] (fun _ => 0) 1 = -8 := by
  decide +kernel

end MrHyDE.Modules.NavierStokes
