import Verif.Modules.Weak
import Mathlib.Algebra.Field.Basic
import Mathlib.Algebra.Field.Rat
import Mathlib.Algebra.Order.Ring.Defs
import Mathlib.Algebra.Order.Field.Basic
import Mathlib.Algebra.Order.BigOperators.Group.List
import Mathlib.Tactic.FieldSimp
import Mathlib.Tactic.IntervalCases
import Mathlib.Tactic.NormNum
import Mathlib.Tactic.Positivity
import Mathlib.Tactic.Linarith

/-!
# The linear elasticity module (C101)

`linearelasticity` solves `- div sigma = f` with `sigma = lambda tr(eps) I + 2 mu eps`, optionally reduced by
thermal expansion (when the temperature is a variable of the block) and by the pore pressure (Biot), with traction
conditions and weakly imposed displacements.
-/

set_option linter.unusedSectionVars false

namespace MrHyDE.Modules.Elasticity

variable {K : Type}

/-! ## Model -/

/-- The settings of the module, src/physics/linearelasticity.cpp:44-60: `plane` is `incplanestress`, `thermal`
says that `T` is among the variables of the block (`e_num >= 0`, lines 877-878), `biot` is `addBiot`; the numbers
are the five model parameters. -/
structure Cfg (K : Type) where
  plane : Bool
  thermal : Bool
  biot : Bool
  formParam : K
  penalty : K
  biotAlpha : K
  Tambient : K
  alphaT : K

/-- What the module reads at one integration point, in the volume or on a side,
src/physics/linearelasticity.cpp:92-107, 261-289 and 936-999.  `basis i d` and `grad i d c` are the basis function
`d` of displacement component `i` and its derivatives, `g i j` is the derivative of component `i` in direction
`j`, `src i` the volume source of component `i`. -/
structure Pt (K : Type) where
  wts : K
  basis : Nat → Nat → K
  grad : Nat → Nat → Nat → K
  lambda : K
  mu : K
  g : Nat → Nat → K
  T : K
  pres : K
  src : Nat → K

/-- The stress at one point, an array of `dim` times `dim` entries,
src/physics/linearelasticity.cpp:80-84. -/
abbrev Stress (K : Type) := Nat → Nat → K

/-- `stress(e,k,i,j) = v`, src/physics/linearelasticity.cpp:943; writing outside the array is undefined (`none`)
when `checked`.  Simplified: without the check a write outside the array is dropped, while the code writes into the
memory of another point. -/
def put (checked : Bool) (dim : Nat) (s : Option (Stress K)) (w : Nat × Nat × K) : Option (Stress K) :=
  s.bind fun s =>
    if w.1 < dim ∧ w.2.1 < dim then some (fun i j => if i = w.1 ∧ j = w.2.1 then w.2.2 else s i j)
    else if checked then none else some s

/-- `stress(e,k,i,j) += v`, src/physics/linearelasticity.cpp:952; see `put`. -/
def plus [Add K] (checked : Bool) (dim : Nat) (s : Option (Stress K)) (w : Nat × Nat × K) : Option (Stress K) :=
  s.bind fun s =>
    if w.1 < dim ∧ w.2.1 < dim then some (fun i j => if i = w.1 ∧ j = w.2.1 then s i j + w.2.2 else s i j)
    else if checked then none else some s

/-- The elastic part, src/physics/linearelasticity.cpp:936-945, 957-964, 993-1003, 1016-1026 and 1062-1076 (sides),
1105-1114, 1126-1133, 1162-1172, 1185-1195 and 1231-1245 (volume; the same expressions). -/
def elastic [CommRing K] (dim : Nat) (plane : Bool) (p : Pt K) : List (Nat × Nat × K) :=
  if dim = 1 then
    if plane then [(0, 0, 4 * p.mu * p.g 0 0)] else [(0, 0, (2 * p.mu + p.lambda) * p.g 0 0)]
  else if dim = 2 then
    if plane then
      [(0, 0, 4 * p.mu * p.g 0 0 + 2 * p.mu * p.g 1 1), (0, 1, p.mu * (p.g 0 1 + p.g 1 0)),
       (1, 0, p.mu * (p.g 0 1 + p.g 1 0)), (1, 1, 4 * p.mu * p.g 1 1 + 2 * p.mu * p.g 0 0)]
    else
      [(0, 0, (2 * p.mu + p.lambda) * p.g 0 0 + p.lambda * p.g 1 1), (0, 1, p.mu * (p.g 0 1 + p.g 1 0)),
       (1, 0, p.mu * (p.g 0 1 + p.g 1 0)), (1, 1, (2 * p.mu + p.lambda) * p.g 1 1 + p.lambda * p.g 0 0)]
  else if dim = 3 then
    [(0, 0, (2 * p.mu + p.lambda) * p.g 0 0 + p.lambda * (p.g 1 1 + p.g 2 2)),
     (0, 1, p.mu * (p.g 0 1 + p.g 1 0)), (0, 2, p.mu * (p.g 0 2 + p.g 2 0)),
     (1, 0, p.mu * (p.g 0 1 + p.g 1 0)),
     (1, 1, (2 * p.mu + p.lambda) * p.g 1 1 + p.lambda * (p.g 0 0 + p.g 2 2)),
     (1, 2, p.mu * (p.g 1 2 + p.g 2 1)), (2, 0, p.mu * (p.g 0 2 + p.g 2 0)), (2, 1, p.mu * (p.g 1 2 + p.g 2 1)),
     (2, 2, (2 * p.mu + p.lambda) * p.g 2 2 + p.lambda * (p.g 0 0 + p.g 1 1))]
  else []

/-- The thermal part, src/physics/linearelasticity.cpp:946-955, 965-974, 1004-1014, 1027-1037 and 1077-1088
(sides), 1115-1124, 1134-1143, 1173-1183, 1196-1206 and 1246-1257 (volume). -/
def expansion [CommRing K] (dim : Nat) (c : Cfg K) (p : Pt K) : List (Nat × Nat × K) :=
  if c.thermal then
    let full := -c.alphaT * (p.T - c.Tambient) * (3 * p.lambda + 2 * p.mu)
    let five := -c.alphaT * (p.T - c.Tambient) * (5 * p.mu)
    if dim = 1 then if c.plane then [(0, 0, five)] else [(0, 0, full)]
    else if dim = 2 then if c.plane then [(0, 0, five), (1, 1, five)] else [(0, 0, full), (1, 1, full)]
    else if dim = 3 then [(0, 0, full), (1, 1, full), (2, 2, full)]
    else []
  else []

/-- The pore pressure inside the branches of the dimensions, src/physics/linearelasticity.cpp:976-985 and 1039-1049
(sides), 1145-1154 and 1208-1218 (volume). -/
def biotInner [CommRing K] (dim : Nat) (c : Cfg K) (p : Pt K) : List (Nat × Nat × K) :=
  if c.biot then
    if dim = 1 then [(0, 0, c.biotAlpha * p.pres)]
    else if dim = 2 then [(0, 0, -c.biotAlpha * p.pres), (1, 1, -c.biotAlpha * p.pres)]
    else []
  else []

/-- The pore pressure after the branches, src/physics/linearelasticity.cpp:1090-1101 (sides) and 1259-1270
(volume): executed in every dimension. -/
def biotOuter [CommRing K] (c : Cfg K) (p : Pt K) : List (Nat × Nat × K) :=
  if c.biot then
    [(0, 0, -c.biotAlpha * p.pres), (1, 1, -c.biotAlpha * p.pres), (2, 2, -c.biotAlpha * p.pres)]
  else []

/-- `computeStress` at one point, src/physics/linearelasticity.cpp:916-1273, without crystal elasticity
(`useCE` false); `s` is the content of the array before the call. -/
def computeStress [CommRing K] (checked : Bool) (dim : Nat) (c : Cfg K) (p : Pt K) (s : Stress K) :
    Option (Stress K) :=
  let s := (elastic dim c.plane p).foldl (put checked dim) (some s)
  let s := (expansion dim c p).foldl (plus checked dim) s
  let s := (biotInner dim c p).foldl (plus checked dim) s
  (biotOuter c p).foldl (plus checked dim) s

/-- The addition of the loop body of `volumeResidual` for component `i`, src/physics/linearelasticity.cpp:129, 148,
166, 189, 210 and 231. -/
def volAdds [CommRing K] (dim i : Nat) (q : Pt K × Stress K) (d : Nat) : List K :=
  let p := q.1
  let s := q.2
  if dim = 1 then [(s i 0 * p.grad i d 0 - p.src i * p.basis i d) * p.wts]
  else if dim = 2 then
    [(s i 0 * p.grad i d 0 + s i 1 * p.grad i d 1 - p.src i * p.basis i d) * p.wts]
  else
    [(s i 0 * p.grad i d 0 + s i 1 * p.grad i d 1 + s i 2 * p.grad i d 2 - p.src i * p.basis i d) * p.wts]

/-- `volumeResidual` on one element, src/physics/linearelasticity.cpp:92-238, once the stress is known at every
point: one loop nest per component, over points first in one and two dimensions, over basis functions first in
three. -/
def volumeResidual [CommRing K] (dim : Nat) (ndof : Nat → Nat) (off : Nat → Nat → Nat)
    (pts : List (Pt K × Stress K)) (res : Nat → K) : Nat → K :=
  (List.range dim).foldl (fun r i =>
    if dim = 3 then dofLoop (ndof i) pts (off i) (volAdds dim i) r
    else ptLoop (ndof i) pts (off i) (volAdds dim i) r) res

/-- The type of the condition of one component on the current side, src/physics/linearelasticity.cpp:251-259. -/
inductive Cond where
  | neumann
  | weakDirichlet
  | interface
  | dirichlet
  deriving DecidableEq

/-- What the boundary terms read in addition at one point of a side, src/physics/linearelasticity.cpp:261-299 and
449-459: the normal, the displacement, the values of the functions "Neumann d. <side>" and "Dirichlet d. <side>"
and the coarse-scale displacement. -/
structure SidePt (K : Type) extends Pt K where
  n : Nat → K
  u : Nat → K
  traction : Nat → K
  given : Nat → K
  aux : Nat → K

/-- `source_dx`, `source_dy`, `source_dz`, src/physics/linearelasticity.cpp:261-284: a view that is never assigned
when the component has another condition (`none`; reading it is undefined). -/
def source (c : Nat → Cond) (p : SidePt K) (i : Nat) : Option K :=
  match c i with
  | .neumann => some (p.traction i)
  | .weakDirichlet => some (p.given i)
  | _ => none

/-- The differences `deltadx`, `deltady`, `deltadz` in the equation of component `i`,
src/physics/linearelasticity.cpp:325, 341, 380-381, 401-402, 438-439, 458-459, 502-504, 526-528, 566-568, 590-592,
629-631 and 654-656. -/
def delta [Sub K] (c : Nat → Cond) (i : Nat) (p : SidePt K) (j : Nat) : Option K :=
  match c i with
  | .interface => some (p.u j - p.aux j)
  | _ => (source c p j).map (p.u j - ·)

/-- `bx`, `by`, `bz` in the equation of component `i`, src/physics/linearelasticity.cpp:326, 382-383, 440-441,
505-507, 569-571 and 632-634 (and the copies for "interface"); `dl` are the differences. -/
def bvec [CommRing K] (dim i : Nat) (p : SidePt K) (dl : Nat → K) (j : Nat) : K :=
  let lm := p.lambda + 2 * p.mu
  if dim = 1 then lm * dl 0 * p.n 0
  else if dim = 2 then
    if i = 0 then
      if j = 0 then lm * dl 0 * p.n 0 + p.lambda * dl 1 * p.n 1
      else p.mu * dl 1 * p.n 0 + p.mu * dl 0 * p.n 1
    else
      if j = 0 then p.mu * dl 1 * p.n 0 + p.mu * dl 0 * p.n 1
      else p.lambda * dl 0 * p.n 0 + lm * dl 1 * p.n 1
  else
    if i = 0 then
      if j = 0 then lm * dl 0 * p.n 0 + p.lambda * dl 1 * p.n 1 + p.lambda * dl 2 * p.n 2
      else if j = 1 then p.mu * dl 1 * p.n 0 + p.mu * dl 0 * p.n 1
      else p.mu * dl 2 * p.n 0 + p.mu * dl 0 * p.n 2
    else if i = 1 then
      if j = 0 then p.mu * dl 1 * p.n 0 + p.mu * dl 0 * p.n 1
      else if j = 1 then p.lambda * dl 0 * p.n 0 + lm * dl 1 * p.n 1 + p.lambda * dl 2 * p.n 2
      else p.mu * dl 2 * p.n 1 + p.mu * dl 1 * p.n 2
    else
      if j = 0 then p.mu * dl 2 * p.n 0 + p.mu * dl 0 * p.n 2
      else if j = 1 then p.mu * dl 2 * p.n 1 + p.mu * dl 1 * p.n 2
      else p.lambda * dl 0 * p.n 0 + p.lambda * dl 1 * p.n 1 + lm * dl 2 * p.n 2

/-- The term of a weakly imposed displacement for component `i`, basis function `d`,
src/physics/linearelasticity.cpp:328, 344, 386, 406, 443, 463, 509, 533, 573, 597, 636 and 661; `h` is the size of
the element, the penalty is on lines 324, 340, 379 and so on. -/
def weakTerm [Field K] (dim i : Nat) (c : Cfg K) (h : K) (p : SidePt K) (s : Stress K) (dl : Nat → K) (d : Nat) :
    K :=
  let pen := c.penalty * (p.lambda + 2 * p.mu) / h
  let b := bvec dim i p dl
  if dim = 1 then
    ((-s i 0 * p.n 0) * p.basis i d + pen * dl i * p.basis i d - c.formParam * b 0 * p.grad i d 0) * p.wts
  else if dim = 2 then
    ((-s i 0 * p.n 0 - s i 1 * p.n 1) * p.basis i d + pen * dl i * p.basis i d
      - c.formParam * (b 0 * p.grad i d 0 + b 1 * p.grad i d 1)) * p.wts
  else
    ((-s i 0 * p.n 0 - s i 1 * p.n 1 - s i 2 * p.n 2) * p.basis i d + pen * dl i * p.basis i d
      - c.formParam * (b 0 * p.grad i d 0 + b 1 * p.grad i d 1 + b 2 * p.grad i d 2)) * p.wts

/-- All differences the equation of component `i` reads, src/physics/linearelasticity.cpp:502-504; `none` when one
of them is undefined. -/
def deltas [Sub K] [Zero K] (dim : Nat) (c : Nat → Cond) (i : Nat) (p : SidePt K) : Option (Nat → K) :=
  if dim = 1 then (delta c i p 0).map fun a => fun _ => a
  else if dim = 2 then
    (delta c i p 0).bind fun a => (delta c i p 1).map fun b => fun j => if j = 0 then a else b
  else
    (delta c i p 0).bind fun a => (delta c i p 1).bind fun b => (delta c i p 2).map fun e =>
      fun j => if j = 0 then a else if j = 1 then b else e

/-- What `boundaryResidual` adds to basis function `d` of component `i` at one point,
src/physics/linearelasticity.cpp:301-667. -/
def sideTerm [Field K] (dim i : Nat) (cs : Nat → Cond) (c : Cfg K) (h : K) (q : SidePt K × Stress K) (d : Nat) :
    Option K :=
  match cs i with
  | .neumann => (source cs q.1 i).map fun t => (-t * q.1.basis i d) * q.1.wts
  | .dirichlet => some 0
  | _ => (deltas dim cs i q.1).map fun dl => weakTerm dim i c h q.1 q.2 dl d

/-- The sum of these terms over the points of a side for basis function `d` of component `i`,
src/physics/linearelasticity.cpp:311-315 and the other loops; `none` when an undefined value is read. -/
def sideSum [Field K] (dim i : Nat) (cs : Nat → Cond) (c : Cfg K) (h : K) (d : Nat) :
    List (SidePt K × Stress K) → Option K
  | [] => some 0
  | q :: qs => (sideTerm dim i cs c h q d).bind fun x => (sideSum dim i cs c h d qs).map (x + ·)

/-- `computeFlux` for component `i` on an interface, src/physics/linearelasticity.cpp:728-729, 767-769, 823-824,
835-836 and 847-848. -/
def computeFlux [Field K] (dim i : Nat) (c : Cfg K) (h : K) (q : SidePt K × Stress K) : K :=
  let p := q.1
  let s := q.2
  let pen := c.penalty / h * (p.lambda + 2 * p.mu)
  if dim = 1 then s i 0 * p.n 0 + pen * (p.aux i - p.u i)
  else if dim = 2 then (s i 0 * p.n 0 + s i 1 * p.n 1) + pen * (p.aux i - p.u i)
  else (s i 0 * p.n 0 + s i 1 * p.n 1 + s i 2 * p.n 2) + pen * (p.aux i - p.u i)

/-! ## Specification -/

/-- Hooke's law for a displacement gradient `g` in `dim` dimensions.  [specification, no code] -/
def hooke [CommRing K] (dim : Nat) (lam mu : K) (g : Nat → Nat → K) (i j : Nat) : K :=
  (if i = j then lam * ∑ k ∈ Finset.range dim, g k k else 0) + mu * (g i j + g j i)

/-- The first Lamé parameter that enters: `2 mu` in plane stress.  [specification, no code] -/
def lame [CommRing K] (dim : Nat) (c : Cfg K) (p : Pt K) : K :=
  if c.plane = true ∧ dim < 3 then 2 * p.mu else p.lambda

/-- The stress: Hooke's law, less thermal expansion, less pore pressure.  [specification, no code] -/
def stressOf [CommRing K] (dim : Nat) (c : Cfg K) (p : Pt K) (i j : Nat) : K :=
  hooke dim (lame dim c p) p.mu p.g i j
  - (if i = j ∧ c.thermal = true then c.alphaT * (p.T - c.Tambient) * (3 * p.lambda + 2 * p.mu) else 0)
  - (if i = j ∧ c.biot = true then c.biotAlpha * p.pres else 0)

/-- Contraction of two matrices.  [specification, no code] -/
def contract [CommRing K] (dim : Nat) (a b : Nat → Nat → K) : K :=
  ∑ i ∈ Finset.range dim, ∑ j ∈ Finset.range dim, a i j * b i j

/-- The gradient of the finite element displacement with coefficients `U`.  [specification, no code] -/
def gradOf [CommRing K] (ndof : Nat → Nat) (U : Nat → Nat → K) (grad : Nat → Nat → Nat → K) (i j : Nat) : K :=
  ∑ d ∈ Finset.range (ndof i), U i d * grad i d j

/-! ## Stress -/

section StressProps
variable [CommRing K]

/-- C101, the part that holds of the stress: without pore pressure, and not with plane stress and thermal
expansion together, the module computes Hooke's law less the thermal expansion in one, two and three dimensions,
whatever the array contained before.  Missing: see `C101_biot_violated` and `C101_plane_thermal_violated`. -/
theorem C101_stress_partial {dim : Nat} (h1 : 1 ≤ dim) (h3 : dim ≤ 3) (checked : Bool) (c : Cfg K)
    (hb : c.biot = false) (hp : dim = 3 ∨ c.plane = false ∨ c.thermal = false) (p : Pt K) (s0 : Stress K) :
    ∃ s : Stress K, computeStress checked dim c p s0 = some s ∧
      ∀ i j : Nat, i < dim → j < dim → s i j = stressOf dim c p i j := by
  obtain ⟨pl, th, bi, fp, pen, al, Ta, aT⟩ := c
  simp only at hb hp
  subst hb
  interval_cases dim
  · cases pl <;> cases th <;> simp at hp <;>
    · simp [computeStress, elastic, expansion, biotInner, biotOuter, put, plus]
      simp [stressOf, hooke, lame]
      try ring
  · cases pl <;> cases th <;> simp at hp <;>
    · simp [computeStress, elastic, expansion, biotInner, biotOuter, put, plus]
      intro i j hi hj
      interval_cases i <;> interval_cases j <;>
        simp [stressOf, hooke, lame, Finset.sum_range_succ] <;> ring
  · cases pl <;> cases th <;>
    · simp [computeStress, elastic, expansion, biotInner, biotOuter, put, plus]
      intro i j hi hj
      interval_cases i <;> interval_cases j <;>
        simp [stressOf, hooke, lame, Finset.sum_range_succ] <;> ring

/-- C101: in three dimensions the stress is Hooke's law less thermal expansion less pore pressure, for all
settings. -/
theorem C101_stress_3d (checked : Bool) (c : Cfg K) (p : Pt K) (s0 : Stress K) :
    ∃ s : Stress K, computeStress checked 3 c p s0 = some s ∧
      ∀ i j : Nat, i < 3 → j < 3 → s i j = stressOf 3 c p i j := by
  obtain ⟨pl, th, bi, fp, pen, al, Ta, aT⟩ := c
  cases pl <;> cases th <;> cases bi <;>
  · simp [computeStress, elastic, expansion, biotInner, biotOuter, put, plus]
    intro i j hi hj
    interval_cases i <;> interval_cases j <;>
      simp [stressOf, hooke, lame, Finset.sum_range_succ] <;> ring

/-- C101: a rigid rotation or translation (skew gradient) causes no stress. -/
theorem C101_rigid {dim : Nat} (lam mu : K) {g : Nat → Nat → K} (hg : ∀ i j : Nat, g i j = - g j i)
    (h0 : ∀ i : Nat, g i i = 0) (i j : Nat) : hooke dim lam mu g i j = 0 := by
  have hs : (∑ k ∈ Finset.range dim, g k k) = (0 : K) := Finset.sum_eq_zero (fun k _ => h0 k)
  rw [hooke, hs, hg i j]
  simp

/-- C101: free thermal expansion causes no stress in three dimensions. -/
theorem C101_free_expansion (checked : Bool) (c : Cfg K) (hb : c.biot = false) (ht : c.thermal = true) (p : Pt K)
    (hg : ∀ i j : Nat, p.g i j = if i = j then c.alphaT * (p.T - c.Tambient) else 0) (s0 : Stress K) :
    ∃ s : Stress K, computeStress checked 3 c p s0 = some s ∧ ∀ i j : Nat, i < 3 → j < 3 → s i j = 0 := by
  obtain ⟨s, hs, hv⟩ := C101_stress_3d checked c p s0
  refine ⟨s, hs, fun i j hi hj => ?_⟩
  rw [hv i j hi hj]
  simp only [stressOf, hooke, lame, hb, ht, hg, Finset.sum_range_succ, Finset.sum_range_zero]
  by_cases h : i = j
  · subst h
    simp
    ring
  · have h' : ¬ j = i := fun e => h e.symm
    simp [h, h']

/-- Contraction with Hooke's law, in components.  -/
theorem contract_hooke (dim : Nat) (lam mu : K) (g f : Nat → Nat → K) :
    contract dim (hooke dim lam mu g) f =
      lam * (∑ k ∈ Finset.range dim, g k k) * (∑ k ∈ Finset.range dim, f k k)
      + mu * ∑ i ∈ Finset.range dim, ∑ j ∈ Finset.range dim, (g i j + g j i) * f i j := by
  unfold contract hooke
  simp only [add_mul, Finset.sum_add_distrib, ite_mul, zero_mul]
  congr 1
  · rw [Finset.mul_sum (Finset.range dim) (fun k => f k k)]
    refine Finset.sum_congr rfl (fun i hi => ?_)
    rw [Finset.sum_ite_eq]
    simp [hi]
  · simp only [Finset.mul_sum, mul_add, add_mul, mul_assoc, Finset.sum_add_distrib]

/-- C101: reciprocity: the work of the stress of one displacement on the strain of another does not depend on
their order, so the stiffness matrix is symmetric. -/
theorem C101_reciprocal (dim : Nat) (lam mu : K) (g f : Nat → Nat → K) :
    contract dim (hooke dim lam mu g) f = contract dim (hooke dim lam mu f) g := by
  rw [contract_hooke, contract_hooke]
  have h : ∀ a b : Nat → Nat → K,
      ∑ i ∈ Finset.range dim, ∑ j ∈ Finset.range dim, (a i j + a j i) * b i j =
        ∑ i ∈ Finset.range dim, ∑ j ∈ Finset.range dim, a i j * b i j
        + ∑ i ∈ Finset.range dim, ∑ j ∈ Finset.range dim, a i j * b j i := by
    intro a b
    simp only [add_mul, Finset.sum_add_distrib]
    congr 1
    rw [Finset.sum_comm]
  rw [h g f, h f g]
  have h1 : ∑ i ∈ Finset.range dim, ∑ j ∈ Finset.range dim, g i j * f i j =
      ∑ i ∈ Finset.range dim, ∑ j ∈ Finset.range dim, f i j * g i j :=
    Finset.sum_congr rfl (fun i _ => Finset.sum_congr rfl (fun j _ => mul_comm _ _))
  have h2 : ∑ i ∈ Finset.range dim, ∑ j ∈ Finset.range dim, g i j * f j i =
      ∑ i ∈ Finset.range dim, ∑ j ∈ Finset.range dim, f i j * g j i := by
    rw [Finset.sum_comm]
    exact Finset.sum_congr rfl (fun i _ => Finset.sum_congr rfl (fun j _ => mul_comm _ _))
  rw [h1, h2]
  ring

end StressProps

/-- C101: with nonnegative Lamé parameters no displacement has negative energy. -/
theorem C101_energy [Field K] [LinearOrder K] [IsStrictOrderedRing K] (dim : Nat) {lam mu : K} (hl : 0 ≤ lam)
    (hm : 0 ≤ mu) (g : Nat → Nat → K) : 0 ≤ contract dim (hooke dim lam mu g) g := by
  rw [contract_hooke]
  have h : ∑ i ∈ Finset.range dim, ∑ j ∈ Finset.range dim, (g i j + g j i) * g i j =
      (∑ i ∈ Finset.range dim, ∑ j ∈ Finset.range dim, (g i j + g j i) * (g i j + g j i)) / 2 := by
    have h2 : ∑ i ∈ Finset.range dim, ∑ j ∈ Finset.range dim, (g i j + g j i) * g i j =
        ∑ i ∈ Finset.range dim, ∑ j ∈ Finset.range dim, (g i j + g j i) * g j i := by
      rw [Finset.sum_comm]
      exact Finset.sum_congr rfl (fun i _ => Finset.sum_congr rfl (fun j _ => by ring))
    have h3 : ∑ i ∈ Finset.range dim, ∑ j ∈ Finset.range dim, (g i j + g j i) * (g i j + g j i) =
        ∑ i ∈ Finset.range dim, ∑ j ∈ Finset.range dim, (g i j + g j i) * g i j
        + ∑ i ∈ Finset.range dim, ∑ j ∈ Finset.range dim, (g i j + g j i) * g j i := by
      simp only [mul_add, Finset.sum_add_distrib]
    rw [h3, ← h2]
    field_simp
    ring
  rw [h]
  have hs : 0 ≤ ∑ i ∈ Finset.range dim, ∑ j ∈ Finset.range dim, (g i j + g j i) * (g i j + g j i) :=
    Finset.sum_nonneg (fun i _ => Finset.sum_nonneg (fun j _ => mul_self_nonneg _))
  have ht : 0 ≤ lam * (∑ k ∈ Finset.range dim, g k k) * (∑ k ∈ Finset.range dim, g k k) := by
    rw [mul_assoc]
    exact mul_nonneg hl (mul_self_nonneg _)
  have hq := mul_nonneg hm (div_nonneg hs (by norm_num : (0 : K) ≤ 2))
  linarith

/-! ## Volume residual -/

section Volume
variable [CommRing K]

theorem volAdds_sum {dim : Nat} (h1 : 1 ≤ dim) (h3 : dim ≤ 3) (i : Nat) (q : Pt K × Stress K) (d : Nat) :
    (volAdds dim i q d).sum =
      q.1.wts * (dot dim (q.2 i) (q.1.grad i d) - q.1.src i * q.1.basis i d) := by
  interval_cases dim <;> simp [volAdds, dot_one, dot_two, dot_three] <;> ring

theorem loop_other {dim : Nat} {ndof : Nat → Nat} {off : Nat → Nat → Nat}
    (pts : List (Pt K × Stress K)) (is : List Nat) (res : Nat → K) {j : Nat}
    (h : ∀ i : Nat, i ∈ is → ∀ d : Nat, d < ndof i → off i d ≠ j) :
    is.foldl (fun r i => if dim = 3 then dofLoop (ndof i) pts (off i) (volAdds dim i) r
      else ptLoop (ndof i) pts (off i) (volAdds dim i) r) res j = res j := by
  induction is generalizing res with
  | nil => rfl
  | cons i is ih =>
    rw [List.foldl_cons, ih _ (fun k hk => h k (List.mem_cons_of_mem _ hk))]
    by_cases hd : dim = 3
    · rw [if_pos hd, dofLoop_other pts _ res (h i List.mem_cons_self)]
    · rw [if_neg hd, ptLoop_other pts _ res (h i List.mem_cons_self)]

theorem loop_at {dim : Nat} {ndof : Nat → Nat} {off : Nat → Nat → Nat} (hoff : DistinctAll dim ndof off)
    (pts : List (Pt K × Stress K)) (is : List Nat) (his : ∀ k : Nat, k ∈ is → k < dim) (hnd : is.Nodup)
    (res : Nat → K) {i d : Nat} (hi : i ∈ is) (hd : d < ndof i) :
    is.foldl (fun r i => if dim = 3 then dofLoop (ndof i) pts (off i) (volAdds dim i) r
      else ptLoop (ndof i) pts (off i) (volAdds dim i) r) res (off i d) =
      res (off i d) + quad pts (fun q => (volAdds dim i q d).sum) := by
  induction is generalizing res with
  | nil => cases hi
  | cons k is ih =>
    rw [List.foldl_cons]
    rcases List.nodup_cons.mp hnd with ⟨hk, hnd'⟩
    have hdist : Distinct (ndof k) (off k) := fun a b ha hb hab =>
      (hoff k a k b (his k List.mem_cons_self) (his k List.mem_cons_self) ha hb hab).2
    by_cases hki : k = i
    · subst hki
      rw [loop_other pts is _ (fun m hm e he heq => hk (by
        have := (hoff m e k d (his m (List.mem_cons_of_mem _ hm)) (his k List.mem_cons_self) he hd heq).1
        exact this ▸ hm))]
      by_cases h3 : dim = 3
      · rw [if_pos h3, dofLoop_at hdist pts _ res hd]
      · rw [if_neg h3, ptLoop_at hdist pts _ res hd]
    · have hi' : i ∈ is := by
        rcases List.mem_cons.mp hi with h | h
        · exact absurd h.symm hki
        · exact h
      rw [ih (fun m hm => his m (List.mem_cons_of_mem _ hm)) hnd' _ hi']
      congr 1
      have hne : ∀ e : Nat, e < ndof k → off k e ≠ off i d := fun e he heq =>
        hki (hoff k e i d (his k List.mem_cons_self) (his i hi) he hd heq).1
      by_cases h3 : dim = 3
      · rw [if_pos h3, dofLoop_other pts _ res hne]
      · rw [if_neg h3, ptLoop_other pts _ res hne]

/-- C101: the residual of basis function `d` of component `i` receives the quadrature of the stress against the
gradient of the basis function minus the source, in one, two and three dimensions. -/
theorem C101_volume {dim : Nat} (h1 : 1 ≤ dim) (h3 : dim ≤ 3) {ndof : Nat → Nat} {off : Nat → Nat → Nat}
    (hoff : DistinctAll dim ndof off) (pts : List (Pt K × Stress K)) (res : Nat → K) {i d : Nat} (hi : i < dim)
    (hd : d < ndof i) :
    volumeResidual dim ndof off pts res (off i d) =
      res (off i d) + quad pts (fun q => q.1.wts * (dot dim (q.2 i) (q.1.grad i d) - q.1.src i * q.1.basis i d)) := by
  rw [volumeResidual, loop_at hoff pts (List.range dim) (fun k hk => List.mem_range.mp hk) List.nodup_range res
    (List.mem_range.mpr hi) hd]
  congr 1
  exact quad_congr pts (fun q _ => volAdds_sum h1 h3 i q d)

/-- C101: virtual work: the residuals weighted with the coefficients `V` of any displacement sum to the work of the
stress on the strain of that displacement (for a state without sources). -/
theorem C101_virtual_work {dim : Nat} (h1 : 1 ≤ dim) (h3 : dim ≤ 3) {ndof : Nat → Nat} {off : Nat → Nat → Nat}
    (hoff : DistinctAll dim ndof off) (pts : List (Pt K × Stress K))
    (hsrc : ∀ q : Pt K × Stress K, q ∈ pts → ∀ i : Nat, q.1.src i = 0) (V : Nat → Nat → K) :
    ∑ i ∈ Finset.range dim, ∑ d ∈ Finset.range (ndof i),
      V i d * volumeResidual dim ndof off pts (fun _ => 0) (off i d) =
      quad pts (fun q => q.1.wts * contract dim q.2 (gradOf ndof V q.1.grad)) := by
  have hterm : ∀ i : Nat, i ∈ Finset.range dim → ∑ d ∈ Finset.range (ndof i),
      V i d * volumeResidual dim ndof off pts (fun _ => 0) (off i d) =
      quad pts (fun q => q.1.wts * ∑ j ∈ Finset.range dim, q.2 i j * gradOf ndof V q.1.grad i j) := by
    intro i hi
    rw [Finset.sum_congr rfl (fun d hd => by
      rw [C101_volume h1 h3 hoff pts _ (Finset.mem_range.mp hi) (Finset.mem_range.mp hd), zero_add,
        quad_mul_left])]
    rw [quad_sum]
    refine quad_congr pts (fun q hq => ?_)
    simp only [hsrc q hq i, zero_mul, sub_zero, dot, gradOf, Finset.mul_sum]
    rw [Finset.sum_comm]
    refine Finset.sum_congr rfl (fun j _ => Finset.sum_congr rfl (fun d _ => by ring))
  rw [Finset.sum_congr rfl hterm, quad_sum]
  refine quad_congr pts (fun q _ => ?_)
  rw [contract, Finset.mul_sum]

end Volume

/-! ## Sides -/

section Side
variable [Field K]

theorem weakTerm_eq {dim i : Nat} (h1 : 1 ≤ dim) (h3 : dim ≤ 3) (hi : i < dim) (c : Cfg K) (h : K) (p : SidePt K)
    (s : Stress K) (dl : Nat → K) (d : Nat) :
    weakTerm dim i c h p s dl d =
      p.wts * (- dot dim (s i) p.n * p.basis i d + c.penalty * (p.lambda + 2 * p.mu) / h * dl i * p.basis i d
        - c.formParam * dot dim (hooke dim p.lambda p.mu (fun a b => dl a * p.n b) i) (p.grad i d)) := by
  interval_cases dim <;> interval_cases i <;>
    simp [weakTerm, bvec, hooke, dot_one, dot_two, dot_three, Finset.sum_range_succ] <;> ring

/-- The sum of the boundary terms is a quadrature whenever every term is defined.  -/
theorem sideSum_eq (dim i : Nat) (cs : Nat → Cond) (c : Cfg K) (h : K) (d : Nat) (f : SidePt K × Stress K → K)
    (pts : List (SidePt K × Stress K))
    (hf : ∀ q : SidePt K × Stress K, q ∈ pts → sideTerm dim i cs c h q d = some (f q)) :
    sideSum dim i cs c h d pts = some (quad pts f) := by
  induction pts with
  | nil => simp [sideSum, quad]
  | cons q qs ih =>
    rw [sideSum, hf q List.mem_cons_self, ih (fun r hr => hf r (List.mem_cons_of_mem _ hr))]
    simp [quad]

/-- The integrand of a displacement `g` weakly imposed on component `i`: minus the traction, the penalty and the
term that makes the form symmetric.  [specification, no code] -/
def nitsche (dim i : Nat) (c : Cfg K) (h : K) (g : Nat → K) (q : SidePt K × Stress K) (d : Nat) : K :=
  - dot dim (q.2 i) q.1.n * q.1.basis i d
  + c.penalty * (q.1.lambda + 2 * q.1.mu) / h * (q.1.u i - g i) * q.1.basis i d
  - c.formParam * dot dim (hooke dim q.1.lambda q.1.mu (fun a b => (q.1.u a - g a) * q.1.n b) i) (q.1.grad i d)

theorem dot_congr (dim : Nat) {a a' b : Nat → K} (h : ∀ j : Nat, j < dim → a j = a' j) :
    dot dim a b = dot dim a' b :=
  Finset.sum_congr rfl (fun j hj => by rw [h j (Finset.mem_range.mp hj)])

theorem hooke_congr {dim : Nat} (lam mu : K) (n : Nat → K) {i : Nat} (hi : i < dim)
    {dl dl' : Nat → K} (h : ∀ j : Nat, j < dim → dl j = dl' j) {j : Nat} (hj : j < dim) :
    hooke dim lam mu (fun a b => dl a * n b) i j = hooke dim lam mu (fun a b => dl' a * n b) i j := by
  simp only [hooke]
  rw [h i hi, h j hj, Finset.sum_congr rfl (fun k hk => by rw [h k (Finset.mem_range.mp hk)])]

theorem weakTerm_nitsche {dim i : Nat} (h1 : 1 ≤ dim) (h3 : dim ≤ 3) (hi : i < dim) (c : Cfg K) (h : K)
    (q : SidePt K × Stress K) (g : Nat → K) {dl : Nat → K} (hdl : ∀ j : Nat, j < dim → dl j = q.1.u j - g j)
    (d : Nat) :
    weakTerm dim i c h q.1 q.2 dl d = q.1.wts * nitsche dim i c h g q d := by
  rw [weakTerm_eq h1 h3 hi, nitsche, hdl i hi]
  congr 3
  exact dot_congr dim (fun j hj => hooke_congr _ _ _ hi hdl hj)

/-- C101: when the displacement is imposed weakly on all components of a side, or all components are an interface,
every component receives the quadrature of the symmetric (or, with another form parameter, nonsymmetric) weak
imposition of the Dirichlet functions, respectively of the coarse-scale displacement; a side with tractions on all
components receives minus the integral of the tractions. -/
theorem C101_side {dim : Nat} (h1 : 1 ≤ dim) (h3 : dim ≤ 3) (c : Cfg K) (h : K)
    (pts : List (SidePt K × Stress K)) {i : Nat} (hi : i < dim) (d : Nat) :
    sideSum dim i (fun _ => .weakDirichlet) c h d pts =
      some (quad pts (fun q => q.1.wts * nitsche dim i c h q.1.given q d)) ∧
    sideSum dim i (fun _ => .interface) c h d pts =
      some (quad pts (fun q => q.1.wts * nitsche dim i c h q.1.aux q d)) ∧
    sideSum dim i (fun _ => .neumann) c h d pts =
      some (- quad pts (fun q => q.1.wts * (q.1.traction i * q.1.basis i d))) := by
  refine ⟨?_, ?_, ?_⟩
  · refine sideSum_eq dim i _ c h d _ pts (fun q _ => ?_)
    have hdl : ∃ dl : Nat → K, deltas dim (fun _ => Cond.weakDirichlet) i q.1 = some dl ∧
        ∀ j : Nat, j < dim → dl j = q.1.u j - q.1.given j := by
      interval_cases dim
      · exact ⟨_, by simp [deltas, delta, source]; rfl, fun j hj => by interval_cases j; simp⟩
      · exact ⟨_, by simp [deltas, delta, source]; rfl, fun j hj => by interval_cases j <;> simp⟩
      · exact ⟨_, by simp [deltas, delta, source]; rfl, fun j hj => by interval_cases j <;> simp⟩
    obtain ⟨dl, hs, hv⟩ := hdl
    simp only [sideTerm, hs, Option.map_some]
    rw [weakTerm_nitsche h1 h3 hi c h q q.1.given hv]
  · refine sideSum_eq dim i _ c h d _ pts (fun q _ => ?_)
    have hdl : ∃ dl : Nat → K, deltas dim (fun _ => Cond.interface) i q.1 = some dl ∧
        ∀ j : Nat, j < dim → dl j = q.1.u j - q.1.aux j := by
      interval_cases dim
      · exact ⟨_, by simp [deltas, delta]; rfl, fun j hj => by interval_cases j; simp⟩
      · exact ⟨_, by simp [deltas, delta]; rfl, fun j hj => by interval_cases j <;> simp⟩
      · exact ⟨_, by simp [deltas, delta]; rfl, fun j hj => by interval_cases j <;> simp⟩
    obtain ⟨dl, hs, hv⟩ := hdl
    simp only [sideTerm, hs, Option.map_some]
    rw [weakTerm_nitsche h1 h3 hi c h q q.1.aux hv]
  · rw [← quad_neg]
    refine sideSum_eq dim i _ c h d _ pts (fun q _ => ?_)
    simp [sideTerm, source]
    ring

theorem computeFlux_eq {dim i : Nat} (h1 : 1 ≤ dim) (h3 : dim ≤ 3) (c : Cfg K) (h : K)
    (q : SidePt K × Stress K) :
    computeFlux dim i c h q =
      dot dim (q.2 i) q.1.n + c.penalty / h * (q.1.lambda + 2 * q.1.mu) * (q.1.aux i - q.1.u i) := by
  interval_cases dim <;> simp [computeFlux, dot_one, dot_two, dot_three]

/-- C101: the force reported to the coarse scale balances the interface residual: when the basis functions sum to
one, the interface residuals of a component sum to minus the integral of the reported flux. -/
theorem C101_flux_balance {dim : Nat} (h1 : 1 ≤ dim) (h3 : dim ≤ 3) (c : Cfg K) (h : K)
    (pts : List (SidePt K × Stress K)) {i : Nat} (hi : i < dim) {ndof : Nat}
    (hpu : ∀ q : SidePt K × Stress K, q ∈ pts → PartitionOfUnity ndof dim (q.1.basis i) (q.1.grad i))
    (r : Nat → K) (hr : ∀ d : Nat, d < ndof → sideSum dim i (fun _ => .interface) c h d pts = some (r d)) :
    ∑ d ∈ Finset.range ndof, r d = - quad pts (fun q => q.1.wts * computeFlux dim i c h q) := by
  have hrd : ∀ d : Nat, d ∈ Finset.range ndof → r d =
      quad pts (fun q => q.1.wts * nitsche dim i c h q.1.aux q d) := by
    intro d hd
    have h' := hr d (Finset.mem_range.mp hd)
    rw [(C101_side h1 h3 c h pts hi d).2.1] at h'
    exact (Option.some.inj h').symm
  rw [Finset.sum_congr rfl hrd, quad_sum, ← quad_neg]
  refine quad_congr pts (fun q hq => ?_)
  have hp := hpu q hq
  rw [computeFlux_eq h1 h3]
  simp only [nitsche]
  rw [← Finset.mul_sum, Finset.sum_sub_distrib, Finset.sum_add_distrib, ← Finset.mul_sum, ← Finset.mul_sum,
    ← Finset.mul_sum, hp.1, hp.dot_right]
  ring

/-- The gradient of basis function `e` of component `k`, as a displacement gradient.
[specification, no code] -/
def unitGrad (grad : Nat → Nat → Nat → K) (k e : Nat) (i j : Nat) : K := if i = k then grad k e j else 0

/-- The state with the coefficient of basis function `e` of component `k` increased by one, with its stress for
the Lamé parameter `lam` used in the stress.  [specification, no code] -/
def raise (dim : Nat) (lam : K) (k e : Nat) (q : SidePt K × Stress K) : SidePt K × Stress K :=
  ({ q.1 with u := fun i => q.1.u i + (if i = k then q.1.basis k e else 0) },
   fun i j => q.2 i j + hooke dim lam q.1.mu (unitGrad q.1.grad k e) i j)

/-- Entry ((i,d),(k,e)) of the matrix of a weakly imposed displacement, as the difference of residuals of the two
states.  [specification, no code] -/
def entry (dim : Nat) (lam : SidePt K → K) (c : Cfg K) (h : K) (pts : List (SidePt K × Stress K))
    (i d k e : Nat) : Option K :=
  (sideSum dim i (fun _ => .weakDirichlet) c h d (pts.map (fun q => raise dim (lam q.1) k e q))).bind fun a =>
    (sideSum dim i (fun _ => .weakDirichlet) c h d pts).map fun b => a - b

theorem entry_eq {dim : Nat} (h1 : 1 ≤ dim) (h3 : dim ≤ 3) (lam : SidePt K → K) (c : Cfg K) (h : K)
    (pts : List (SidePt K × Stress K)) {i d k e : Nat} (hi : i < dim) :
    entry dim lam c h pts i d k e = some (quad pts (fun q => q.1.wts *
      (- dot dim (hooke dim (lam q.1) q.1.mu (unitGrad q.1.grad k e) i) q.1.n * q.1.basis i d
       + c.penalty * (q.1.lambda + 2 * q.1.mu) / h * (if i = k then q.1.basis k e else 0) * q.1.basis i d
       - c.formParam * dot dim (hooke dim q.1.lambda q.1.mu
          (fun a b => (if a = k then q.1.basis k e else 0) * q.1.n b) i) (q.1.grad i d)))) := by
  rw [entry, (C101_side h1 h3 c h _ hi d).1, (C101_side h1 h3 c h pts hi d).1]
  simp only [Option.bind_some, Option.map_some]
  congr 1
  have hm : quad (pts.map (fun q => raise dim (lam q.1) k e q))
      (fun q => q.1.wts * nitsche dim i c h q.1.given q d) =
      quad pts (fun q => (raise dim (lam q.1) k e q).1.wts *
        nitsche dim i c h (raise dim (lam q.1) k e q).1.given (raise dim (lam q.1) k e q) d) := by
    simp [quad, List.map_map, Function.comp_def]
  rw [hm, sub_eq_add_neg, ← quad_neg, ← quad_add]
  refine quad_congr pts (fun q _ => ?_)
  simp only [raise, nitsche]
  have hd1 : dot dim (fun j => q.2 i j + hooke dim (lam q.1) q.1.mu (unitGrad q.1.grad k e) i j) q.1.n =
      dot dim (q.2 i) q.1.n + dot dim (hooke dim (lam q.1) q.1.mu (unitGrad q.1.grad k e) i) q.1.n := by
    simp [dot, add_mul, Finset.sum_add_distrib]
  have hd2 : dot dim (hooke dim q.1.lambda q.1.mu
        (fun a b => (q.1.u a + (if a = k then q.1.basis k e else 0) - q.1.given a) * q.1.n b) i) (q.1.grad i d) =
      dot dim (hooke dim q.1.lambda q.1.mu (fun a b => (q.1.u a - q.1.given a) * q.1.n b) i) (q.1.grad i d)
      + dot dim (hooke dim q.1.lambda q.1.mu
          (fun a b => (if a = k then q.1.basis k e else 0) * q.1.n b) i) (q.1.grad i d) := by
    unfold dot
    rw [← Finset.sum_add_distrib]
    refine Finset.sum_congr rfl (fun j _ => ?_)
    rw [← add_mul]
    congr 1
    unfold hooke
    by_cases hij : i = j
    · subst hij
      simp only [if_true]
      rw [Finset.sum_congr rfl (fun x _ => by
        rw [show (q.1.u x + (if x = k then q.1.basis k e else 0) - q.1.given x) * q.1.n x =
          (q.1.u x - q.1.given x) * q.1.n x + (if x = k then q.1.basis k e else 0) * q.1.n x by ring]),
        Finset.sum_add_distrib]
      ring
    · simp only [hij, if_false]
      ring
  rw [hd1, hd2]
  ring

/-- C101, the part that holds of "the matrix of a weakly imposed displacement is symmetric with the default form
parameter 1": outside plane stress (where the stress uses `lambda`) the entry of ((i,d),(k,e)) equals the entry of
((k,e),(i,d)).  Missing: plane stress, see `C101_plane_side_violated`. -/
theorem C101_side_symmetric_partial {dim : Nat} (h1 : 1 ≤ dim) (h3 : dim ≤ 3) (c : Cfg K) (hf : c.formParam = 1)
    (h : K) (pts : List (SidePt K × Stress K)) {i d k e : Nat} (hi : i < dim) (hk : k < dim) :
    entry dim (fun p => p.lambda) c h pts i d k e = entry dim (fun p => p.lambda) c h pts k e i d := by
  rw [entry_eq h1 h3 _ c h pts hi, entry_eq h1 h3 _ c h pts hk, hf]
  congr 1
  refine quad_congr pts (fun q _ => ?_)
  congr 1
  interval_cases dim <;> interval_cases i <;> interval_cases k <;>
    simp [hooke, unitGrad, dot_one, dot_two, dot_three, Finset.sum_range_succ] <;> ring

/-- C101, the part that holds of "the boundary terms of one component depend on its own condition": on a side where
the equation of component `i` is a traction condition, the other conditions do not matter.  Missing: see
`C101_mixed_violated`. -/
theorem C101_traction_alone {dim i : Nat} (cs : Nat → Cond) (hc : cs i = .neumann) (c : Cfg K) (h : K) (d : Nat)
    (pts : List (SidePt K × Stress K)) :
    sideSum dim i cs c h d pts =
      some (- quad pts (fun q => q.1.wts * (q.1.traction i * q.1.basis i d))) := by
  rw [← quad_neg]
  refine sideSum_eq dim i _ c h d _ pts (fun q _ => ?_)
  simp only [sideTerm, source, hc, Option.map_some]
  congr 1
  ring

end Side

/-! ## What does not hold -/

/-- C101: that the pore pressure reduces the stress by `alpha p` is false below three dimensions: the block meant for
three dimensions is executed in all of them.  It writes outside the stress array (undefined); if those writes are
ignored, the pressure cancels in one dimension and counts twice in two. -/
theorem C101_biot_violated [CommRing K] (c : Cfg K) (hb : c.biot = true) (ht : c.thermal = false)
    (hp : c.plane = false) (p : Pt K) (s0 : Stress K) :
    computeStress true 1 c p s0 = none ∧ computeStress true 2 c p s0 = none ∧
    (∃ s : Stress K, computeStress false 1 c p s0 = some s ∧ s 0 0 = (2 * p.mu + p.lambda) * p.g 0 0) ∧
    (∃ s : Stress K, computeStress false 2 c p s0 = some s ∧
      s 0 0 = (2 * p.mu + p.lambda) * p.g 0 0 + p.lambda * p.g 1 1 - 2 * (c.biotAlpha * p.pres) ∧
      s 1 1 = (2 * p.mu + p.lambda) * p.g 1 1 + p.lambda * p.g 0 0 - 2 * (c.biotAlpha * p.pres)) := by
  obtain ⟨pl, th, bi, fp, pen, al, Ta, aT⟩ := c
  simp only at hb ht hp
  subst hb; subst ht; subst hp
  refine ⟨?_, ?_, ?_, ?_⟩
  · simp [computeStress, elastic, expansion, biotInner, biotOuter, put, plus]
  · simp [computeStress, elastic, expansion, biotInner, biotOuter, put, plus]
  · refine ⟨_, by simp [computeStress, elastic, expansion, biotInner, biotOuter, put, plus]; rfl, ?_⟩
    simp
  · refine ⟨_, by simp [computeStress, elastic, expansion, biotInner, biotOuter, put, plus]; rfl, ?_, ?_⟩
    · simp
      ring
    · simp
      ring

/-- A point with unit Lamé parameters, [case]. -/
def unitPt (g : Nat → Nat → ℚ) : Pt ℚ :=
  { wts := 1, basis := fun _ _ => 1, grad := fun _ _ _ => 1, lambda := 2, mu := 1, g := g, T := 1, pres := 1,
    src := fun _ => 0 }

/-- Settings, [case]. -/
def unitCfg (plane thermal biot : Bool) : Cfg ℚ :=
  { plane := plane, thermal := thermal, biot := biot, formParam := 1, penalty := 10, biotAlpha := 1, Tambient := 0,
    alphaT := 1 }

/-- C101: that a plate in plane stress expands freely under heating is false: with unit coefficients and
displacement gradient equal to the thermal expansion, a stress remains (the factor in the code is 5 mu, not 6 mu). -/
theorem C101_plane_thermal_violated :
    ∃ s : Stress ℚ, computeStress true 2 (unitCfg true true false) (unitPt (fun i j => if i = j then 1 else 0))
        (fun _ _ => 0) = some s ∧ s 0 0 = 1 := by
  refine ⟨_, rfl, ?_⟩
  decide +kernel

/-- A point of a side, [case]: normal in the first direction, with given displacement zero and traction `t`. -/
def unitSide (lam : ℚ) (t : ℚ) : SidePt ℚ :=
  { unitPt (fun _ _ => 0) with
    lambda := lam, grad := fun _ d c => if c = d then 1 else 0, basis := fun _ d => if d = 0 then 1 else 0,
    n := fun j => if j = 0 then 1 else 0,
    u := fun _ => 0, traction := fun _ => t, given := fun _ => 0, aux := fun _ => 0 }

/-- C101: that the conditions of the components are independent is false on a side with a weakly imposed
displacement in x and a traction in y (a roller): the traction enters the equation of x as if it were a
displacement; and with a strong Dirichlet condition in y an unassigned view is read. -/
theorem C101_mixed_violated :
    (∃ t t' : ℚ, sideSum 2 0 (fun i => if i = 0 then .weakDirichlet else .neumann) (unitCfg false false false) 1 1
        [(unitSide 2 t, fun _ _ => 0)] ≠
      sideSum 2 0 (fun i => if i = 0 then .weakDirichlet else .neumann) (unitCfg false false false) 1 1
        [(unitSide 2 t', fun _ _ => 0)]) ∧
    (∀ (c : Cfg ℚ) (h : ℚ) (d : Nat) (q : SidePt ℚ × Stress ℚ),
      sideSum 2 0 (fun i => if i = 0 then .weakDirichlet else .dirichlet) c h d [q] = none) := by
  refine ⟨⟨0, 1, by decide +kernel⟩, fun c h d q => ?_⟩
  simp [sideSum, sideTerm, deltas, delta, source]

/-- C101: that the matrix of a weakly imposed displacement is symmetric is false in plane stress: the stress uses
`2 mu` in place of `lambda`, the boundary term uses `lambda`. -/
theorem C101_plane_side_violated :
    ∃ (q : SidePt ℚ × Stress ℚ) (d e : Nat),
      entry 2 (fun p => 2 * p.mu) (unitCfg true false false) 1 [q] 0 d 1 e ≠
        entry 2 (fun p => 2 * p.mu) (unitCfg true false false) 1 [q] 1 e 0 d := by
  refine ⟨(unitSide 5 0, fun _ _ => 0), 0, 1, ?_⟩
  rw [entry_eq (by decide) (by decide) _ _ _ _ (by decide), entry_eq (by decide) (by decide) _ _ _ _ (by decide)]
  norm_num [quad, unitSide, unitPt, unitCfg, hooke, unitGrad, dot_two, Finset.sum_range_succ]

/-! ## Cases -/

example : ∃ s : Stress ℚ, computeStress true 2 (unitCfg false true false) (unitPt (fun i j => i + 2 * j))
    (fun _ _ => 7) = some s ∧ s 0 1 = 3 ∧ s 1 1 = 4 := by
  refine ⟨_, rfl, ?_⟩
  decide +kernel

example : hooke 2 (2 : ℚ) 1 (fun i j => if i = 0 ∧ j = 1 then 1 else if i = 1 ∧ j = 0 then -1 else 0) 0 1 = 0 := by
  decide +kernel

example : contract 2 (hooke 2 (2 : ℚ) 1 (fun i j => i + 2 * j)) (fun i j => i + 2 * j) = 45 := by decide +kernel

example : volumeResidual 1 (fun _ => 1) (fun i d => i + d) [((unitPt (fun _ _ => 3)), fun _ _ => 12)]
    (fun _ => (0 : ℚ)) 0 = 12 := by decide +kernel

example : DistinctAll 2 (fun _ => 3) (fun i d => 3 * i + d) := by
  intro i a j b hi hj ha hb h
  have ha' : a < 3 := ha
  have hb' : b < 3 := hb
  have h' : 3 * i + a = 3 * j + b := h
  constructor <;> omega

example : sideSum 2 0 (fun _ => .weakDirichlet) (unitCfg false false false) 1 0
    [({ unitSide 2 0 with u := fun _ => 1 }, fun _ _ => (0 : ℚ))] = some 36 := by decide +kernel

end MrHyDE.Modules.Elasticity
