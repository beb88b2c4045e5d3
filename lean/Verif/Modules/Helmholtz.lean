import Verif.Modules.Loops
import Mathlib.Analysis.Complex.Basic
import Mathlib.Algebra.Field.Rat
import Mathlib.Tactic.IntervalCases
import Mathlib.Tactic.Linarith
import Mathlib.Tactic.LinearCombination
import Mathlib.Tactic.NormNum

/-!
# The Helmholtz module (C126)

`helmholtz` solves `-ω² u - div(c² grad u) = s` for a complex `u`, stored as its real part `ureal` (equation 0) and its
imaginary part `uimag` (equation 1).
-/

set_option linter.unusedSectionVars false
set_option linter.unusedSimpArgs false

namespace MrHyDE.Modules.Helmholtz

variable {K : Type}

/-! ## Model -/

/-- What `volumeResidual` reads at one integration point, src/physics/helmholtz.cpp:83-129; the basis functions of variable 0
(`ureal`) and 1 (`uimag`) and their gradients. -/
structure Pt (K : Type) where
  wts : K
  ur : K
  ui : K
  gr : Nat → K
  gi : Nat → K
  o2r : K
  o2i : K
  c2r : Nat → K
  c2i : Nat → K
  sr : K
  si : K
  aHr : K
  aHi : K
  freq : K
  basis : Nat → Nat → K
  grad : Nat → Nat → Nat → K

/-- A component of a gradient, zero beyond the dimension, src/physics/helmholtz.cpp:143-151 and 158-171. -/
def comp [Zero K] (dim d : Nat) (x : K) : K := if d < dim then x else 0

section
variable [CommRing K]

/-- The products of the gradients: `du·dv` of real and imaginary parts in direction `d`, src/physics/helmholtz.cpp:176-178. -/
def same (dim : Nat) (p : Pt K) (i d : Nat) : K :=
  comp dim d (p.gr d) * comp dim d (p.grad 0 i d) + comp dim d (p.gi d) * comp dim d (p.grad 1 i d)

/-- The crossed products, src/physics/helmholtz.cpp:179-181. -/
def cross (dim : Nat) (p : Pt K) (i d : Nat) : K :=
  comp dim d (p.gi d) * comp dim d (p.grad 0 i d) - comp dim d (p.gr d) * comp dim d (p.grad 1 i d)

/-- The stiffness part of the equation of `ureal`, src/physics/helmholtz.cpp:176-181 (and 204-209). -/
def stiffR (dim : Nat) (p : Pt K) (i : Nat) : K :=
  p.c2r 0 * same dim p i 0 + p.c2r 1 * same dim p i 1 + p.c2r 2 * same dim p i 2
    - p.c2i 0 * cross dim p i 0 - p.c2i 1 * cross dim p i 1 - p.c2i 2 * cross dim p i 2

/-- The stiffness part of the equation of `uimag`, src/physics/helmholtz.cpp:187-192 (and 218-223). -/
def stiffI (dim : Nat) (p : Pt K) (i : Nat) : K :=
  p.c2r 0 * cross dim p i 0 + p.c2r 1 * cross dim p i 1 + p.c2r 2 * cross dim p i 2
    + p.c2i 0 * same dim p i 0 + p.c2i 1 * same dim p i 1 + p.c2i 2 * same dim p i 2

/-- The term of the equation of `ureal` without `fractional`, src/physics/helmholtz.cpp:174-182. -/
def plainR (dim : Nat) (p : Pt K) (i : Nat) : K :=
  let vr := p.basis 0 i
  let vi := p.basis 1 i
  (-p.o2r * (p.ur * vr + p.ui * vi) + p.o2i * (p.ui * vr - p.ur * vi) + stiffR dim p i - (p.sr * vr + p.si * vi)) * p.wts

/-- The term of the equation of `uimag` without `fractional`, src/physics/helmholtz.cpp:184-193. -/
def plainI (dim : Nat) (p : Pt K) (i : Nat) : K :=
  let vr := p.basis 0 i
  let vi := p.basis 1 i
  (-p.o2r * (p.ui * vr - p.ur * vi) - p.o2i * (p.ur * vr + p.ui * vi) + stiffI dim p i - (p.si * vr - p.sr * vi)) * p.wts

/-- The term of the equation of `ureal` with `fractional`, src/physics/helmholtz.cpp:196-210; `pw x f` is
`pow(sqrt(x), 2 f)`. -/
def fracR (pw : K → K → K) (dim : Nat) (p : Pt K) (i : Nat) : K :=
  let vr := p.basis 0 i
  let vi := p.basis 1 i
  (p.aHr * pw p.o2r p.freq * (p.ur * vr + p.ui * vi) + p.aHr * pw p.o2r p.freq * (-p.ui * vr + p.ur * vi)
    + p.aHi * pw p.o2i p.freq * (-p.ui * vr + p.ur * vi) + p.aHi * pw p.o2i p.freq * (-p.ur * vr - p.ui * vi)
    + stiffR dim p i - (p.sr * vr + p.si * vi)) * p.wts

/-- The term of the equation of `uimag` with `fractional`, src/physics/helmholtz.cpp:212-224. -/
def fracI (pw : K → K → K) (dim : Nat) (p : Pt K) (i : Nat) : K :=
  let vr := p.basis 0 i
  let vi := p.basis 1 i
  (p.aHr * pw p.o2r p.freq * (p.ui * vr - p.ur * vi) + p.aHr * pw p.o2r p.freq * (p.ur * vr + p.ui * vi)
    + p.aHi * pw p.o2i p.freq * (p.ur * vr + p.ui * vi) + p.aHi * pw p.o2i p.freq * (-p.ui * vr + p.ur * vi)
    + stiffI dim p i - (p.si * vr - p.sr * vi)) * p.wts

/-- The two additions in the loops, src/physics/helmholtz.cpp:155-244, as two loops over the functions of `ureal`: both
equations use the number of functions of `ureal`. -/
def volLoops (pw : K → K → K) (frac : Bool) (dim nr : Nat) : List (Loop K (Pt K)) :=
  [{ eq := 0, ndof := nr, adds := fun p i => [if frac then fracR pw dim p i else plainR dim p i] },
   { eq := 1, ndof := nr, adds := fun p i => [if frac then fracI pw dim p i else plainI dim p i] }]

/-- `volumeResidual` on one element, src/physics/helmholtz.cpp:77-249; `ndof v` is the number of basis functions of variable `v`.
Undefined if `uimag` has fewer than `ureal`: its functions are read with the numbers of the other (155-157). -/
def volumeResidual (pw : K → K → K) (frac : Bool) (dim : Nat) (ndof : Nat → Nat) (off : Nat → Nat → Nat) (pts : List (Pt K))
    (res : Nat → K) : Option (Nat → K) :=
  if ndof 1 < ndof 0 then none else some (pointLoops off pts (volLoops pw frac dim (ndof 0)) res)

/-- What `boundaryResidual` reads at one point of a side, src/physics/helmholtz.cpp:265-317. -/
structure SidePt (K : Type) where
  wts : K
  nrm : Nat → K
  ur : K
  ui : K
  gr : Nat → K
  gi : Nat → K
  c2r : Nat → K
  c2i : Nat → K
  ar : K
  ai : K
  sr : K
  si : K
  basis : Nat → Nat → K

/-- `durdn` or `duidn`, src/physics/helmholtz.cpp:328-344. -/
def dn (dim : Nat) (q : SidePt K) (g : Nat → K) : K :=
  let a := g 0 * q.nrm 0
  let a := if dim > 1 then a + g 1 * q.nrm 1 else a
  if dim > 2 then a + g 2 * q.nrm 2 else a

/-- `c2durdn`, src/physics/helmholtz.cpp:346-347, 353; two dimensions at least. -/
def c2dnR (dim : Nat) (q : SidePt K) : K :=
  let a := (q.c2r 0 * q.gr 0 - q.c2i 0 * q.gi 0) * q.nrm 0 + (q.c2r 1 * q.gr 1 - q.c2i 1 * q.gi 1) * q.nrm 1
  if dim > 2 then a + (q.c2r 2 * q.gr 2 - q.c2i 2 * q.gi 2) * q.nrm 2 else a

/-- `c2duidn`, src/physics/helmholtz.cpp:349-350, 354; two dimensions at least. -/
def c2dnI (dim : Nat) (q : SidePt K) : K :=
  let a := (q.c2r 0 * q.gi 0 + q.c2i 0 * q.gr 0) * q.nrm 0 + (q.c2r 1 * q.gi 1 + q.c2i 1 * q.gr 1) * q.nrm 1
  if dim > 2 then a + (q.c2r 2 * q.gi 2 + q.c2i 2 * q.gr 2) * q.nrm 2 else a

/-- The term of the equation of `ureal` on a side, src/physics/helmholtz.cpp:359-366. -/
def sideR (dim : Nat) (q : SidePt K) (i : Nat) : K :=
  let vr := q.basis 0 i
  let vi := q.basis 1 i
  (q.ar * (q.ur * vr + q.ui * vi) - q.ai * (q.ui * vr - q.ur * vi) + (dn dim q q.gr * vr + dn dim q q.gi * vi)
    - (q.sr * vr + q.si * vi) - (c2dnR dim q * vr + c2dnI dim q * vi)) * q.wts

/-- The term of the equation of `uimag` on a side, src/physics/helmholtz.cpp:368-373. -/
def sideI (dim : Nat) (q : SidePt K) (i : Nat) : K :=
  let vr := q.basis 0 i
  let vi := q.basis 1 i
  (q.ar * (q.ui * vr - q.ur * vi) + q.ai * (q.ur * vr + q.ui * vi) + (dn dim q q.gi * vr - dn dim q q.gr * vi)
    - (q.si * vr - q.sr * vi) - (c2dnI dim q * vr - c2dnR dim q * vi)) * q.wts

/-- `boundaryResidual` on one side of one element, src/physics/helmholtz.cpp:254-417; `bc v` is the condition of variable `v`,
of which only that of `ureal` is looked at (320).  Undefined with `Neumann` in one dimension, where the second component of the
normal is read though it was never set (347, 350), and with `fractional`, whose coefficients `alphaTr`, `alphaTi` are read
though they were never evaluated (269, 386-395). -/
def boundaryResidual (frac : Bool) (dim : Nat) (bc : Nat → String) (ndof : Nat → Nat) (off : Nat → Nat → Nat)
    (pts : List (SidePt K)) (res : Nat → K) : Option (Nat → K) :=
  if bc 0 = "Neumann" then
    if dim = 1 ∨ frac = true ∨ ndof 1 < ndof 0 then none
    else some (pointLoops off pts
      [{ eq := 0, ndof := ndof 0, adds := fun q i => [sideR dim q i] },
       { eq := 1, ndof := ndof 0, adds := fun q i => [sideI dim q i] }] res)
  else some res

end

/-! ## Specification -/

open ComplexConjugate

/-- The integrand of the weak form `-ω² u v̄ + Σ c_d² ∂_d u ∂_d v̄ - s v̄` for a complex test function `v` with gradient `dv`.
[specification, no code] -/
noncomputable def form (dim : Nat) (p : Pt ℝ) (v : ℂ) (dv : Nat → ℂ) : ℂ :=
  -(⟨p.o2r, p.o2i⟩ : ℂ) * ⟨p.ur, p.ui⟩ * conj v +
    ∑ d ∈ Finset.range dim, (⟨p.c2r d, p.c2i d⟩ : ℂ) * ⟨p.gr d, p.gi d⟩ * conj (dv d) - ⟨p.sr, p.si⟩ * conj v

/-- The integrand of the sides: `(α u + ∂_n u - s) v̄ - Σ c_d² ∂_d u n_d v̄`.  [specification, no code] -/
noncomputable def sideForm (dim : Nat) (q : SidePt ℝ) (v : ℂ) : ℂ :=
  ((⟨q.ar, q.ai⟩ : ℂ) * ⟨q.ur, q.ui⟩ + ∑ d ∈ Finset.range dim, (⟨q.gr d, q.gi d⟩ : ℂ) * (q.nrm d : ℂ) - ⟨q.sr, q.si⟩) * conj v
    - (∑ d ∈ Finset.range dim, (⟨q.c2r d, q.c2i d⟩ : ℂ) * ⟨q.gr d, q.gi d⟩ * (q.nrm d : ℂ)) * conj v

/-- The test function with function `i` of each of the two bases.  [specification, no code] -/
noncomputable def pair (b : Nat → Nat → ℝ) (i : Nat) : ℂ := ⟨b 0 i, b 1 i⟩

/-! ## Properties -/

theorem fits_vol (pw : ℝ → ℝ → ℝ) (frac : Bool) (dim n : Nat) : Fits 2 (fun _ => n) (volLoops pw frac dim n) := by
  intro l hl
  simp [volLoops] at hl
  rcases hl with rfl | rfl <;> exact ⟨by simp, rfl⟩

theorem quad_re {P : Type} (pts : List P) (f : P → ℂ) : (quad pts f).re = quad pts (fun p => (f p).re) := by
  unfold quad
  induction pts with
  | nil => simp
  | cons p ps ih => simp [ih]

theorem quad_im {P : Type} (pts : List P) (f : P → ℂ) : (quad pts f).im = quad pts (fun p => (f p).im) := by
  unfold quad
  induction pts with
  | nil => simp
  | cons p ps ih => simp [ih]

theorem re_sum (n : Nat) (f : Nat → ℂ) : (∑ d ∈ Finset.range n, f d).re = ∑ d ∈ Finset.range n, (f d).re := by
  induction n with
  | zero => simp
  | succ n ih => rw [Finset.sum_range_succ, Finset.sum_range_succ, Complex.add_re, ih]

theorem im_sum (n : Nat) (f : Nat → ℂ) : (∑ d ∈ Finset.range n, f d).im = ∑ d ∈ Finset.range n, (f d).im := by
  induction n with
  | zero => simp
  | succ n ih => rw [Finset.sum_range_succ, Finset.sum_range_succ, Complex.add_im, ih]

theorem plain_form {dim : Nat} (h1 : 1 ≤ dim) (h3 : dim ≤ 3) (p : Pt ℝ) (i : Nat) :
    plainR dim p i = p.wts * (form dim p (pair p.basis i) (fun d => pair (fun v k => p.grad v k d) i)).re ∧
    plainI dim p i = p.wts * (form dim p (pair p.basis i) (fun d => pair (fun v k => p.grad v k d) i)).im := by
  interval_cases dim <;>
    simp [plainR, plainI, stiffR, stiffI, same, cross, comp, form, pair, Finset.sum_range_succ] <;>
    constructor <;> ring

/-- C126 (weak form): without `fractional` the two equations of function `i` grow by the real and the imaginary part of the
complex weak form, tested with the function that has function `i` of `ureal` as its real and function `i` of `uimag` as its
imaginary part. -/
theorem C126_weak (pw : ℝ → ℝ → ℝ) {dim : Nat} (h1 : 1 ≤ dim) (h3 : dim ≤ 3) {ndof : Nat → Nat} {off : Nat → Nat → Nat}
    (hoff : DistinctAll 2 (fun _ => ndof 0) off) (hn : ndof 0 ≤ ndof 1) (pts : List (Pt ℝ)) (res : Nat → ℝ) {i : Nat}
    (hi : i < ndof 0) : ∃ r : Nat → ℝ, volumeResidual pw false dim ndof off pts res = some r ∧
      r (off 0 i) = res (off 0 i) +
        (quad pts fun p => (p.wts : ℂ) * form dim p (pair p.basis i) (fun d => pair (fun v k => p.grad v k d) i)).re ∧
      r (off 1 i) = res (off 1 i) +
        (quad pts fun p => (p.wts : ℂ) * form dim p (pair p.basis i) (fun d => pair (fun v k => p.grad v k d) i)).im := by
  refine ⟨_, by unfold volumeResidual; rw [if_neg (by omega)], ?_, ?_⟩
  · rw [pointLoops_at hoff pts _ (fits_vol pw false dim (ndof 0)) res (by omega) hi, quad_re]
    refine congrArg _ (quad_congr pts fun p _ => ?_)
    rw [Complex.re_ofReal_mul, ← (plain_form h1 h3 p i).1]
    simp [termsAt, volLoops]
  · rw [pointLoops_at hoff pts _ (fits_vol pw false dim (ndof 0)) res (by omega) hi, quad_im]
    refine congrArg _ (quad_congr pts fun p _ => ?_)
    rw [Complex.im_ofReal_mul, ← (plain_form h1 h3 p i).2]
    simp [termsAt, volLoops]

theorem form_pair (dim : Nat) (p : Pt ℝ) (i : Nat) (hb : p.basis 1 i = p.basis 0 i)
    (hg : ∀ d : Nat, d < dim → p.grad 1 i d = p.grad 0 i d) :
    form dim p (pair p.basis i) (fun d => pair (fun v k => p.grad v k d) i) =
      (1 - Complex.I) * form dim p (p.basis 0 i : ℂ) (fun d => (p.grad 0 i d : ℂ)) := by
  have e : ∀ x y : ℝ, y = x → conj (⟨x, y⟩ : ℂ) = (1 - Complex.I) * conj (x : ℂ) := by
    intro x y h
    subst h
    apply Complex.ext <;> simp
  unfold form pair
  rw [e _ _ hb, Finset.sum_congr rfl fun d hd => by rw [e _ _ (hg d (Finset.mem_range.mp hd))], mul_sub, mul_add,
    Finset.mul_sum]
  congr 1
  · congr 1
    · ring
    · exact Finset.sum_congr rfl fun d _ => by ring
  · ring

/-- C126 (solutions): if both parts have the same basis functions, the two equations of a function vanish exactly when the complex
weak form tested with that (real) function vanishes.  Missing: different functions, see `C126_bases_violated`, and a Dirichlet
condition on one part only, see `C126_mixed_violated`. -/
theorem C126_solutions_partial (pw : ℝ → ℝ → ℝ) {dim : Nat} (h1 : 1 ≤ dim) (h3 : dim ≤ 3) {ndof : Nat → Nat}
    {off : Nat → Nat → Nat} (hoff : DistinctAll 2 (fun _ => ndof 0) off) (hn : ndof 0 ≤ ndof 1) (pts : List (Pt ℝ)) {i : Nat}
    (hi : i < ndof 0) (hs : ∀ p : Pt ℝ, p ∈ pts → p.basis 1 i = p.basis 0 i ∧ ∀ d : Nat, d < dim → p.grad 1 i d = p.grad 0 i d) :
    ∃ r : Nat → ℝ, volumeResidual pw false dim ndof off pts (fun _ => 0) = some r ∧
      ((r (off 0 i) = 0 ∧ r (off 1 i) = 0) ↔
        (quad pts fun p => (p.wts : ℂ) * form dim p (p.basis 0 i : ℂ) (fun d => (p.grad 0 i d : ℂ))) = 0) := by
  obtain ⟨r, hr, e0, e1⟩ := C126_weak pw h1 h3 hoff hn pts (fun _ => 0) hi
  refine ⟨r, hr, ?_⟩
  have hq : (quad pts fun p => (p.wts : ℂ) * form dim p (pair p.basis i) (fun d => pair (fun v k => p.grad v k d) i)) =
      (1 - Complex.I) * quad pts fun p => (p.wts : ℂ) * form dim p (p.basis 0 i : ℂ) (fun d => (p.grad 0 i d : ℂ)) := by
    rw [quad_mul_left]
    refine quad_congr pts fun p hp => ?_
    rw [form_pair dim p i (hs p hp).1 (hs p hp).2]
    ring
  have hI : (1 - Complex.I : ℂ) ≠ 0 := by
    intro h
    have := congrArg Complex.re h
    simp at this
  rw [e0, e1, zero_add, zero_add, hq]
  constructor
  · intro h
    have : (1 - Complex.I) * (quad pts fun p => (p.wts : ℂ) *
        form dim p (p.basis 0 i : ℂ) (fun d => (p.grad 0 i d : ℂ))) = 0 := Complex.ext h.1 h.2
    exact (mul_eq_zero.mp this).resolve_left hI
  · intro h
    rw [h]
    simp

/-- C126 (combination): with the same basis functions the equation of `ureal` is the sum of the real and the imaginary part of the
weak form, that of `uimag` their difference. -/
theorem C126_combination (pw : ℝ → ℝ → ℝ) {dim : Nat} (h1 : 1 ≤ dim) (h3 : dim ≤ 3) {ndof : Nat → Nat}
    {off : Nat → Nat → Nat} (hoff : DistinctAll 2 (fun _ => ndof 0) off) (hn : ndof 0 ≤ ndof 1) (pts : List (Pt ℝ)) {i : Nat}
    (hi : i < ndof 0) (hs : ∀ p : Pt ℝ, p ∈ pts → p.basis 1 i = p.basis 0 i ∧ ∀ d : Nat, d < dim → p.grad 1 i d = p.grad 0 i d)
    (res : Nat → ℝ) :
    ∃ (r : Nat → ℝ) (B : ℂ), volumeResidual pw false dim ndof off pts res = some r ∧
      B = (quad pts fun p => (p.wts : ℂ) * form dim p (p.basis 0 i : ℂ) (fun d => (p.grad 0 i d : ℂ))) ∧
      r (off 0 i) = res (off 0 i) + (B.re + B.im) ∧ r (off 1 i) = res (off 1 i) + (B.im - B.re) := by
  obtain ⟨r, hr, e0, e1⟩ := C126_weak pw h1 h3 hoff hn pts res hi
  have hq : (quad pts fun p => (p.wts : ℂ) * form dim p (pair p.basis i) (fun d => pair (fun v k => p.grad v k d) i)) =
      (1 - Complex.I) * quad pts fun p => (p.wts : ℂ) * form dim p (p.basis 0 i : ℂ) (fun d => (p.grad 0 i d : ℂ)) := by
    rw [quad_mul_left]
    refine quad_congr pts fun p hp => ?_
    rw [form_pair dim p i (hs p hp).1 (hs p hp).2]
    ring
  refine ⟨r, _, hr, rfl, ?_, ?_⟩
  · rw [e0, hq]
    simp [Complex.mul_re]
  · rw [e1, hq]
    simp [Complex.mul_im]
    ring

/-- [case] A point in one dimension with the solution `u = 1`, one function for each part. -/
noncomputable def exPt (b : Nat → Nat → ℝ) (s : ℂ) : Pt ℝ :=
  { wts := 1, ur := 1, ui := 0, gr := fun _ => 0, gi := fun _ => 0, o2r := 1, o2i := 0, c2r := fun _ => 1, c2i := fun _ => 0,
    sr := s.re, si := s.im, aHr := -1, aHi := 0, freq := 1, basis := b, grad := fun _ _ _ => 0 }

/-- C126 violated: a Dirichlet condition on `ureal` replaces its equation; what is left for `uimag` is the difference of the
imaginary and the real part of the weak form, so it vanishes although the imaginary part does not. -/
theorem C126_mixed_violated (pw : ℝ → ℝ → ℝ) : ∃ (pts : List (Pt ℝ)) (r : Nat → ℝ),
    (∀ p : Pt ℝ, p ∈ pts → p.basis 1 0 = p.basis 0 0) ∧
    volumeResidual pw false 1 (fun _ => 1) (fun e _ => e) pts (fun _ => 0) = some r ∧ r 1 = 0 ∧
    (quad pts fun p => (p.wts : ℂ) * form 1 p (p.basis 0 0 : ℂ) (fun d => (p.grad 0 0 d : ℂ))).im = 1 := by
  refine ⟨[exPt (fun _ _ => 1) (-2 - Complex.I)], ?_⟩
  obtain ⟨r, B, hr, hB, _, e1⟩ := C126_combination pw (dim := 1) (by omega) (by omega) (ndof := fun _ => 1)
    (off := fun e _ => e) (fun i a j b _ _ ha hb h => ⟨h, by simp at ha hb; omega⟩) (by simp)
    [exPt (fun _ _ => 1) (-2 - Complex.I)] (i := 0) (by simp) (by simp [exPt]) (fun _ => 0)
  have hv : B = 1 + Complex.I := by
    rw [hB]
    apply Complex.ext <;> simp [quad, form, exPt] <;> norm_num
  refine ⟨r, by simp [exPt], hr, ?_, ?_⟩
  · have : r 1 = 0 + (B.im - B.re) := e1
    rw [this, hv]
    simp
  · rw [← hB, hv]
    simp

/-- C126 violated: with different basis functions the equations do not vanish together with the weak form: at one point with
`u = 1`, `ω² = 1` and the source `-1 - i` the form tested with any real function is `i` times that function, and the equation of `ureal`
with the functions 1 and `b` has the value `b`. -/
theorem C126_bases_violated (pw : ℝ → ℝ → ℝ) (b : ℝ) : ∃ (p : Pt ℝ) (r : Nat → ℝ), p.basis 0 0 = 1 ∧ p.basis 1 0 = b ∧
    (∀ v : ℝ, form 1 p (v : ℂ) (fun _ => 0) = Complex.I * v) ∧
    volumeResidual pw false 1 (fun _ => 1) (fun e _ => e) [p] (fun _ => 0) = some r ∧ r 0 = b ∧ r 1 = 1 := by
  refine ⟨exPt (fun v _ => if v = 0 then 1 else b) (-1 - Complex.I), ?_⟩
  obtain ⟨r, hr, e0, e1⟩ := C126_weak pw (dim := 1) (by omega) (by omega) (ndof := fun _ => 1) (off := fun e _ => e)
    (fun i a j b _ _ ha hb h => ⟨h, by simp at ha hb; omega⟩) (by simp)
    [exPt (fun v _ => if v = 0 then 1 else b) (-1 - Complex.I)] (fun _ => 0) (i := 0) (by simp)
  refine ⟨r, by simp [exPt], by simp [exPt], fun v => ?_, hr, ?_, ?_⟩
  · apply Complex.ext <;> simp [form, exPt]
  · have h : r 0 = _ := e0
    rw [h]
    simp [quad, form, exPt, pair]
  · have h : r 1 = _ := e1
    rw [h]
    simp [quad, form, exPt, pair]

/-- C126 violated: with fewer functions for `uimag` than for `ureal` the residual is undefined; with more, the equations of the
further functions of `uimag` stay empty whatever the solution and the source. -/
theorem C126_orders_violated (pw : ℝ → ℝ → ℝ) (frac : Bool) (dim : Nat) {ndof : Nat → Nat} {off : Nat → Nat → Nat}
    (hoff : DistinctAll 2 ndof off) (pts : List (Pt ℝ)) (res : Nat → ℝ) :
    (ndof 1 < ndof 0 → volumeResidual pw frac dim ndof off pts res = none) ∧
    ∀ i : Nat, ndof 0 ≤ i → i < ndof 1 →
      ∃ r : Nat → ℝ, volumeResidual pw frac dim ndof off pts res = some r ∧ r (off 1 i) = res (off 1 i) := by
  refine ⟨fun h => by unfold volumeResidual; rw [if_pos h], fun i h1 h2 => ?_⟩
  refine ⟨_, by unfold volumeResidual; rw [if_neg (by omega)], ?_⟩
  refine pointLoops_other pts _ res fun l hl d hd hx => ?_
  simp [volLoops] at hl
  rcases hl with rfl | rfl
  · exact absurd (hoff 0 d 1 i (by omega) (by omega) hd h2 hx).1 (by omega)
  · have hd' : d < ndof 0 := hd
    have := (hoff 1 d 1 i (by omega) (by omega) (by omega) h2 hx).2
    omega

/-- C126 (fractional): with `fractional` the mass term is `(1 + i)(αr ωr + i αi ωi) u v̄`, with `ωr`, `ωi` the powers of the two parts
of `ω²`; real and imaginary part as in `C126_weak`. -/
theorem C126_fractional (pw : ℝ → ℝ → ℝ) {dim : Nat} (h1 : 1 ≤ dim) (h3 : dim ≤ 3) (p : Pt ℝ) (i : Nat) :
    let v := pair p.basis i
    let m := (1 + Complex.I) * (⟨p.aHr * pw p.o2r p.freq, p.aHi * pw p.o2i p.freq⟩ : ℂ) * ⟨p.ur, p.ui⟩ * conj v
    let f := form dim { p with o2r := 0, o2i := 0 } v (fun d => pair (fun v k => p.grad v k d) i)
    fracR pw dim p i = p.wts * (m + f).re ∧ fracI pw dim p i = p.wts * (m + f).im := by
  have e : (⟨0, 0⟩ : ℂ) = 0 := rfl
  interval_cases dim <;>
    simp [fracR, fracI, stiffR, stiffI, same, cross, comp, form, pair, Finset.sum_range_succ, e] <;>
    constructor <;> ring

/-- C126 violated: the exponent one with the coefficient `-1` should give back the Helmholtz equation with a real `ω²`; instead the
mass term has the factor `1 + i`.  Without gradient and source, for `u = 1` and equal basis functions, the equation of `ureal` is
`-2 ω²` in place of `-ω²` and that of `uimag` is 0 in place of `ω²`. -/
theorem C126_fractional_violated (pw : ℝ → ℝ → ℝ) (hpw : ∀ x : ℝ, 0 ≤ x → pw x 1 = x) : ∃ p : Pt ℝ, p.aHr = -1 ∧ p.aHi = 0 ∧
    p.freq = 1 ∧ p.o2r = 1 ∧ p.o2i = 0 ∧ p.basis 1 0 = p.basis 0 0 ∧
    plainR 1 p 0 = -1 ∧ fracR pw 1 p 0 = -2 ∧ plainI 1 p 0 = 1 ∧ fracI pw 1 p 0 = 0 := by
  refine ⟨exPt (fun _ _ => 1) 0, rfl, rfl, rfl, rfl, rfl, rfl, ?_, ?_, ?_, ?_⟩ <;>
    simp [plainR, plainI, fracR, fracI, stiffR, stiffI, same, cross, comp, exPt, hpw 1 zero_le_one] <;> norm_num

/-! ### Sides -/

theorem side_form {dim : Nat} (h1 : 2 ≤ dim) (h3 : dim ≤ 3) (q : SidePt ℝ) (i : Nat) :
    sideR dim q i = q.wts * (sideForm dim q (pair q.basis i)).re ∧
    sideI dim q i = q.wts * (sideForm dim q (pair q.basis i)).im := by
  interval_cases dim <;>
    simp [sideR, sideI, dn, c2dnR, c2dnI, sideForm, pair, Finset.sum_range_succ] <;> constructor <;> ring

/-- C126 (sides): in two and three dimensions a side where `ureal` has the condition Neumann adds the real and the imaginary part of
the Robin form, without the conormal derivative.  Missing: one dimension and `fractional` (`C126_sides_violated`), and the
condition of `uimag` (`C126_condition_violated`). -/
theorem C126_sides_partial {dim : Nat} (h1 : 2 ≤ dim) (h3 : dim ≤ 3) {bc : Nat → String} (hbc : bc 0 = "Neumann")
    {ndof : Nat → Nat} {off : Nat → Nat → Nat} (hoff : DistinctAll 2 (fun _ => ndof 0) off) (hn : ndof 0 ≤ ndof 1)
    (pts : List (SidePt ℝ)) (res : Nat → ℝ) {i : Nat} (hi : i < ndof 0) :
    ∃ r : Nat → ℝ, boundaryResidual false dim bc ndof off pts res = some r ∧
      r (off 0 i) = res (off 0 i) + (quad pts fun q => (q.wts : ℂ) * sideForm dim q (pair q.basis i)).re ∧
      r (off 1 i) = res (off 1 i) + (quad pts fun q => (q.wts : ℂ) * sideForm dim q (pair q.basis i)).im := by
  have hfit : Fits 2 (fun _ => ndof 0) ([{ eq := 0, ndof := ndof 0, adds := fun q i => [sideR dim q i] },
      { eq := 1, ndof := ndof 0, adds := fun q i => [sideI dim q i] }] : List (Loop ℝ (SidePt ℝ))) := by
    intro l hl
    simp at hl
    rcases hl with rfl | rfl <;> exact ⟨by simp, rfl⟩
  refine ⟨_, by
    unfold boundaryResidual
    rw [if_pos hbc, if_neg]
    rintro (h | h | h)
    · omega
    · cases h
    · omega, ?_, ?_⟩
  · rw [pointLoops_at hoff pts _ hfit res (by omega) hi, quad_re]
    refine congrArg _ (quad_congr pts fun q _ => ?_)
    rw [Complex.re_ofReal_mul, ← (side_form h1 h3 q i).1]
    simp [termsAt]
  · rw [pointLoops_at hoff pts _ hfit res (by omega) hi, quad_im]
    refine congrArg _ (quad_congr pts fun q _ => ?_)
    rw [Complex.im_ofReal_mul, ← (side_form h1 h3 q i).2]
    simp [termsAt]

/-- The Robin condition `α u + ∂_n u = s`.  [specification, no code] -/
def Robin (dim : Nat) (q : SidePt ℝ) : Prop :=
  (⟨q.ar, q.ai⟩ : ℂ) * ⟨q.ur, q.ui⟩ + ∑ d ∈ Finset.range dim, (⟨q.gr d, q.gi d⟩ : ℂ) * (q.nrm d : ℂ) = ⟨q.sr, q.si⟩

/-- C126 (Robin): where the solution meets the condition `α u + ∂_n u = s`, what is left on the side is minus the conormal
derivative, which the integration by parts of the volume form cancels; and where `c² = 1` the normal derivative drops out, so that
the condition is a natural one. -/
theorem C126_robin (dim : Nat) (q : SidePt ℝ) (v : ℂ) :
    (Robin dim q → sideForm dim q v =
      -((∑ d ∈ Finset.range dim, (⟨q.c2r d, q.c2i d⟩ : ℂ) * ⟨q.gr d, q.gi d⟩ * (q.nrm d : ℂ)) * conj v)) ∧
    ((∀ d : Nat, d < dim → q.c2r d = 1 ∧ q.c2i d = 0) → sideForm dim q v =
      ((⟨q.ar, q.ai⟩ : ℂ) * ⟨q.ur, q.ui⟩ - ⟨q.sr, q.si⟩) * conj v) := by
  constructor
  · intro h
    unfold sideForm
    unfold Robin at h
    rw [h]
    ring
  · intro h
    unfold sideForm
    have e : ∑ d ∈ Finset.range dim, (⟨q.c2r d, q.c2i d⟩ : ℂ) * ⟨q.gr d, q.gi d⟩ * (q.nrm d : ℂ) =
        ∑ d ∈ Finset.range dim, (⟨q.gr d, q.gi d⟩ : ℂ) * (q.nrm d : ℂ) := by
      refine Finset.sum_congr rfl fun d hd => ?_
      obtain ⟨h1, h2⟩ := h d (Finset.mem_range.mp hd)
      have : (⟨q.c2r d, q.c2i d⟩ : ℂ) = 1 := by rw [h1, h2]; rfl
      rw [this, one_mul]
    rw [e]
    ring

/-- [case] A point of a side that meets the condition: `α = i`, `u = 1`, `∂_n u = 2`, `s = 2 + i`. -/
noncomputable def exSide : SidePt ℝ :=
  { wts := 1, nrm := fun d => if d = 0 then 1 else 0, ur := 1, ui := 0, gr := fun d => if d = 0 then 2 else 5, gi := fun _ => 0,
    c2r := fun _ => 1, c2i := fun _ => 0, ar := 0, ai := 1, sr := 2, si := 1, basis := fun _ _ => 1 }

example : Robin 2 exSide := by
  unfold Robin exSide
  apply Complex.ext <;> simp [Finset.sum_range_succ]

/-- C126 violated: a Neumann (Robin) side in one dimension, or with `fractional` in any dimension, is undefined. -/
theorem C126_sides_violated {bc : Nat → String} (hbc : bc 0 = "Neumann") (ndof : Nat → Nat) (off : Nat → Nat → Nat)
    (pts : List (SidePt ℝ)) (res : Nat → ℝ) :
    (∀ frac : Bool, boundaryResidual frac 1 bc ndof off pts res = none) ∧
    (∀ dim : Nat, boundaryResidual true dim bc ndof off pts res = none) := by
  constructor
  · intro frac
    unfold boundaryResidual
    rw [if_pos hbc, if_pos (Or.inl rfl)]
  · intro dim
    unfold boundaryResidual
    rw [if_pos hbc, if_pos (Or.inr (Or.inl rfl))]

/-- C126 violated: the condition of `uimag` is never looked at: with another condition on `ureal` nothing is added to the
equation of `uimag`, although it is Neumann and the form of the side does not vanish. -/
theorem C126_condition_violated {bc : Nat → String} (hr : bc 0 = "Dirichlet") (_hi : bc 1 = "Neumann") (frac : Bool) (dim : Nat)
    (ndof : Nat → Nat) (off : Nat → Nat → Nat) (res : Nat → ℝ) :
    boundaryResidual frac dim bc ndof off [{ exSide with si := 0 }] res = some res ∧
    (sideForm 2 { exSide with si := 0 } 1).im = 1 := by
  constructor
  · unfold boundaryResidual
    rw [if_neg (by rw [hr]; decide)]
  · simp [sideForm, exSide, Finset.sum_range_succ]

end MrHyDE.Modules.Helmholtz
