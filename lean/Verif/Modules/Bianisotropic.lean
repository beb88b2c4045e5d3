import Verif.Modules.Loops
import Mathlib.Algebra.Order.Field.Basic
import Mathlib.Algebra.Order.Ring.Rat
import Mathlib.Algebra.Field.Rat
import Mathlib.Tactic.FinCases
import Mathlib.Tactic.IntervalCases
import Mathlib.Tactic.LinearCombination
import Mathlib.Tactic.NormNum
import Mathlib.Tactic.Positivity
import Mathlib.Tactic.Linarith

/-!
# Electromagnetic waves in bianisotropic media (C138)

`maxwell_bianisotropic` solves, with tensors `eps`, `mu^-1`, `xi`, `zeta`, `sigma`,
`1/c0 B_t + curl E = 0` and
`1/c0 (eps - xi mu^-1 zeta) E_t + 1/c0 xi mu^-1 B_t - curl (mu^-1 (B - zeta E)) + eta0 sigma E = -eta0 J`.
-/

set_option linter.unusedSectionVars false
set_option linter.unusedSimpArgs false

namespace MrHyDE.Modules.Bianisotropic

variable {K : Type}

/-! ## Model -/

/-- Tensors that are named in the module, src/physics/maxwell_bianisotropic.cpp:73-121, 243-297. -/
inductive Tensor where
  | epsr | invepsr | mur | invmur | xir | zetar | sigma
  deriving DecidableEq

/-- Names of functions, src/physics/maxwell_bianisotropic.cpp:64-121, 235-241. -/
inductive Name where
  /-- a component of a tensor, lines 73-121 -/
  | comp (t : Tensor) (i j : Nat)
  /-- `current x`, `current y`, `current z`, lines 64-66 -/
  | current (c : Nat)
  /-- `permeability`, line 67 -/
  | permeability
  /-- `permittivity`, line 71 -/
  | permittivity
  /-- `mu0`, lines 67, 238 -/
  | mu0
  /-- `epsilon0`, lines 71, 239 -/
  | epsilon0
  /-- `eta0`, lines 69, 241 -/
  | eta0
  /-- `refractive index`, lines 70, 240 -/
  | rindex
  deriving DecidableEq

/-- The list `Functions` of the user: values at integration points (given by a number), src/physics/maxwell_bianisotropic.cpp:59-60. -/
abbrev Functions (K : Type) := Name → Option (Nat → K)

section
variable [Field K]

/-- One on the diagonal, zero beside it: the defaults of most tensors, src/physics/maxwell_bianisotropic.cpp:73-111. -/
def unit' (i j : Nat) : K := if i = j then 1 else 0

/-- What `evaluate` finds under a name; src/physics/maxwell_bianisotropic.cpp:63-120: the module registers its names first, with the text
of the user or a default; further names are there only if the user gave them
(src/interfaces/physics/physicsInterface_functions.hpp:149, 531-538); evaluating a name that is not there throws (`none`,
src/managers/function/functionManager_evaluate.hpp:42-44). -/
def lookup (fs : Functions K) : Name → Option (Nat → K)
  | .comp .epsr i j => some ((fs (.comp .epsr i j)).getD (fun _ => unit' i j))
  | .comp .invmur i j => some ((fs (.comp .invmur i j)).getD (fun _ => unit' i j))
  | .comp .xir i j => some ((fs (.comp .xir i j)).getD (fun _ => unit' i j))
  | .comp .zetar i j => some ((fs (.comp .zetar i j)).getD (fun _ => unit' i j))
  | .comp .sigma i j => some ((fs (.comp .sigma i j)).getD (fun _ => 0))
  | .comp .invepsr i j => fs (.comp .invepsr i j)
  | .comp .mur i j => fs (.comp .mur i j)
  | .current c => some ((fs (.current c)).getD (fun _ => 0))
  | .mu0 => some ((fs .permeability).getD (fun _ => 1))
  | .epsilon0 => some ((fs .permittivity).getD (fun _ => 1))
  | .eta0 => some ((fs .eta0).getD (fun _ => 1))
  | .rindex => some ((fs .rindex).getD (fun _ => 1))
  | .permeability => fs .permeability
  | .permittivity => fs .permittivity

/-- The coefficients at a point, src/physics/maxwell_bianisotropic.cpp:224-230. -/
structure Coef (K : Type) where
  eps : Nat → Nat → K
  invmu : Nat → Nat → K
  xi : Nat → Nat → K
  zeta : Nat → Nat → K
  sigma : Nat → Nat → K
  current : Nat → K
  mu0 : K
  epsilon0 : K
  eta0 : K

/-- A tensor is read component by component, `none` if one of the names is not there,
src/physics/maxwell_bianisotropic.cpp:243-297: `name i j` is the name that is evaluated for component `i j`. -/
def readTensor (fs : Functions K) (name : Nat → Nat → Name) (x : Nat) : Option (Nat → Nat → K) :=
  if (List.range 3).all (fun i => (List.range 3).all (fun j => (lookup fs (name i j)).isSome)) then
    some (fun i j => ((lookup fs (name i j)).getD (fun _ => 0)) x)
  else none

/-- The functions evaluated for the equation of `E`, with the names as they are in the code,
src/physics/maxwell_bianisotropic.cpp:234-299: `epsr` from `invepsr`, `invmur` from `mur`, and `zy` of `epsr`, `yx` of `xir` and
`zetar` from `yz`. -/
def coefs (fs : Functions K) (x : Nat) : Option (Coef K) := do
  let eps ← readTensor fs (fun i j => if i = 2 ∧ j = 1 then .comp .invepsr 1 2 else .comp .invepsr i j) x
  let invmu ← readTensor fs (fun i j => .comp .mur i j) x
  let xi ← readTensor fs (fun i j => if i = 1 ∧ j = 0 then .comp .xir 1 2 else .comp .xir i j) x
  let zeta ← readTensor fs (fun i j => if i = 1 ∧ j = 0 then .comp .zetar 1 2 else .comp .zetar i j) x
  let sigma ← readTensor fs (fun i j => .comp .sigma i j) x
  let mu0 ← lookup fs .mu0
  let epsilon0 ← lookup fs .epsilon0
  let eta0 ← lookup fs .eta0
  some { eps := eps, invmu := invmu, xi := xi, zeta := zeta, sigma := sigma,
         current := fun c => ((lookup fs (.current c)).getD (fun _ => 0)) x, mu0 := mu0 x, epsilon0 := epsilon0 x, eta0 := eta0 x }

/-- What is read at one integration point, src/physics/maxwell_bianisotropic.cpp:145-149, 156-158, 303-314: number of the point, fields,
time derivatives, curl, weight, bases of the two variables and curl of the one of `E`. -/
structure Pt (K : Type) where
  x : Nat
  E : Nat → K
  Et : Nat → K
  B : Nat → K
  Bt : Nat → K
  curlE : Nat → K
  wts : K
  basisB : Nat → Nat → K
  basisE : Nat → Nat → K
  curlBasis : Nat → Nat → K

/-- Component `c` of a tensor times a vector, src/physics/maxwell_bianisotropic.cpp:323-325. -/
def apply' (m : Nat → Nat → K) (v : Nat → K) (c : Nat) : K := m c 0 * v 0 + m c 1 * v 1 + m c 2 * v 2

/-- `c0`, src/physics/maxwell_bianisotropic.cpp:164, 320; `root` is the square root. -/
def c0 (root : K → K) (mu0 epsilon0 : K) : K := 1 / root (mu0 * epsilon0)

/-- The terms of the equation of `B`, src/physics/maxwell_bianisotropic.cpp:163-173, 181-191, 204-214: without the curl in stages of the
leap frog other than the first. -/
def addsB (root : K → K) (mu0 epsilon0 : Nat → K) (curl : Bool) (q : Pt K) (d : Nat) : List K :=
  let f c := if curl then (1 / c0 root (mu0 q.x) (epsilon0 q.x) * q.Bt c + q.curlE c) * q.wts
    else 1 / c0 root (mu0 q.x) (epsilon0 q.x) * q.Bt c * q.wts
  [f 0 * q.basisB d 0, f 1 * q.basisB d 1, f 2 * q.basisB d 2]

/-- The terms of the equation of `E`, src/physics/maxwell_bianisotropic.cpp:319-386. -/
def addsE (root : K → K) (k : Coef K) (q : Pt K) (d : Nat) : List K :=
  let epsEt := apply' k.eps q.Et
  let zetaEt := apply' k.zeta q.Et
  let invmuZetaEt := apply' k.invmu zetaEt
  let xiInvmuZetaEt := apply' k.xi invmuZetaEt
  let invmuBt := apply' k.invmu q.Bt
  let xiInvmuBt := apply' k.xi invmuBt
  let sigmaE := apply' k.sigma q.E
  let f c := (1 / c0 root k.epsilon0 k.mu0 * (epsEt c - xiInvmuZetaEt c + xiInvmuBt c) + k.eta0 * sigmaE c + k.eta0 * k.current c) * q.wts
  let invmuB := apply' k.invmu q.B
  let zetaE := apply' k.zeta q.E
  let invmuZetaE := apply' k.invmu zetaE
  let g c := (-(invmuB c) + invmuZetaE c) * q.wts
  [f 0 * q.basisE d 0 + g 0 * q.curlBasis d 0, f 1 * q.basisE d 1 + g 1 * q.curlBasis d 1, f 2 * q.basisE d 2 + g 2 * q.curlBasis d 2]

/-- Settings of the module, src/physics/maxwell_bianisotropic.cpp:23-51: which equations there are, leap frog. -/
structure Opts where
  hasB : Bool
  hasE : Bool
  leap : Bool

/-- The constructor, src/physics/maxwell_bianisotropic.cpp:19-51: throws (`none`) below three dimensions; `active` is the text of
`active variables`, searched for the letters. -/
def construct (dim : Nat) (active : Option (List Char)) (leap : Bool) : Option Opts :=
  if dim < 3 then none
  else match active with
    | none => some ⟨true, true, leap⟩
    | some s => some ⟨s.contains 'B', s.contains 'E', leap⟩

/-- `volumeResidual` on one element, src/physics/maxwell_bianisotropic.cpp:128-392: `numB`, `numE` are the positions of the variables;
the equation of `E` reads fields of `B` and the other way round; a field of a variable that is not there is read past the end of the
list of fields (`none`).  The points of the element are numbered `q.x`. -/
def volumeResidual (root : K → K) (o : Opts) (stage : Nat) (fs : Functions K) (numB numE : Nat) (ndof : Nat → Nat)
    (off : Nat → Nat → Nat) (pts : List (Pt K)) (res : Nat → K) : Option (Nat → K) := do
  let withCurl := !o.leap || stage == 0
  let mu0 ← lookup fs .mu0
  let epsilon0 ← lookup fs .epsilon0
  let res ← if o.hasB then
      if withCurl && !o.hasE then none
      else some (runLoops off pts [{ eq := numB, ndof := ndof numB, adds := addsB root mu0 epsilon0 withCurl }] res)
    else some res
  if o.hasE then
    let _ ← coefs fs 0
    if !o.leap || stage == 1 then
      if !o.hasB then none
      else some (runLoops off pts [{ eq := numE, ndof := ndof numE,
                                     adds := fun q d => match coefs fs q.x with
                                       | some k => addsE root k q d
                                       | none => [] }] res)
    else some res
  else some res

/-- A point of a side, src/physics/maxwell_bianisotropic.cpp:412-421: normal, field, weight, basis of `B`. -/
structure SidePt (K : Type) where
  n : Nat → K
  E : Nat → K
  wts : K
  basis : Nat → Nat → K

/-- Cross product as it is written out, src/physics/maxwell_bianisotropic.cpp:428-430. -/
def cross (a b : Nat → K) (c : Nat) : K :=
  if c = 0 then a 1 * b 2 - a 2 * b 1 else if c = 1 then a 2 * b 0 - a 0 * b 2 else a 0 * b 1 - a 1 * b 0

/-- `gamma`, src/physics/maxwell_bianisotropic.cpp:408. -/
def gamma : K := -(9944 / 10000)

/-- The term on the boundary, src/physics/maxwell_bianisotropic.cpp:427-437. -/
def addsSide (q : SidePt K) (d : Nat) : List K :=
  let nce := cross q.n q.E
  let f c := -(1 + gamma) * cross q.n nce c * q.wts
  [f 0 * q.basis d 0 + f 1 * q.basis d 1 + f 2 * q.basis d 2]

/-- `boundaryResidual` on one side, src/physics/maxwell_bianisotropic.cpp:398-441: only where the condition of `B` is `Neumann`. -/
def boundaryResidual (o : Opts) (neumann : Bool) (ndof : Nat) (off : Nat → Nat) (pts : List (SidePt K)) (res : Nat → K) : Nat → K :=
  if o.hasB && neumann then ptLoop ndof pts off addsSide res else res

/-! ## Specification -/

/-- Product of tensors. [specification, no code] -/
def mul (m n : Nat → Nat → K) (i j : Nat) : K := ∑ k ∈ Finset.range 3, m i k * n k j

/-- Tensor times vector. [specification, no code] -/
def mv (m : Nat → Nat → K) (v : Nat → K) (i : Nat) : K := dot 3 (m i) v

/-- Integrand of the weak form of Faraday's law, `s` is one over the speed of light. [specification, no code] -/
def faraday (s : K) (q : Pt K) (d : Nat) : K := (s * dot 3 q.Bt (q.basisB d) + dot 3 q.curlE (q.basisB d)) * q.wts

/-- Integrand of the weak form of Ampere's law. [specification, no code] -/
def ampere (s : K) (k : Coef K) (q : Pt K) (d : Nat) : K :=
  (s * (dot 3 (mv (fun i j => k.eps i j - mul (mul k.xi k.invmu) k.zeta i j) q.Et) (q.basisE d) +
      dot 3 (mv (mul k.xi k.invmu) q.Bt) (q.basisE d)) -
    dot 3 (fun c => mv k.invmu q.B c - mv (mul k.invmu k.zeta) q.E c) (q.curlBasis d) +
    k.eta0 * (dot 3 (mv k.sigma q.E) (q.basisE d) + dot 3 k.current (q.basisE d))) * q.wts

/-! ## Lemmas -/

theorem one_div_c0 (root : K → K) (a b : K) : 1 / c0 root a b = root (a * b) := by unfold c0; simp

theorem addsB_sum (root : K → K) (mu0 epsilon0 : Nat → K) (q : Pt K) (d : Nat) :
    (addsB root mu0 epsilon0 true q d).sum = faraday (root (mu0 q.x * epsilon0 q.x)) q d := by
  unfold addsB faraday
  simp only [if_true, one_div_c0, dot, Finset.sum_range_succ, Finset.sum_range_zero, List.sum_cons, List.sum_nil]
  ring

theorem addsE_sum (root : K → K) (k : Coef K) (q : Pt K) (d : Nat) :
    (addsE root k q d).sum = ampere (root (k.epsilon0 * k.mu0)) k q d := by
  unfold addsE ampere
  simp only [one_div_c0, apply', mv, mul, dot, Finset.sum_range_succ, Finset.sum_range_zero, List.sum_cons, List.sum_nil]
  ring

theorem readTensor_some (fs : Functions K) (name : Nat → Nat → Name) (m : Nat → Nat → Nat → K)
    (h : ∀ i < 3, ∀ j < 3, lookup fs (name i j) = some (m i j)) (x : Nat) :
    ∃ t, readTensor fs name x = some t ∧ ∀ i < 3, ∀ j < 3, t i j = m i j x := by
  refine ⟨fun i j => ((lookup fs (name i j)).getD (fun _ => 0)) x, ?_, fun i hi j hj => by simp only [h i hi j hj]; rfl⟩
  unfold readTensor
  rw [if_pos]
  simp only [List.all_eq_true, List.mem_range]
  intro i hi j hj
  rw [h i hi j hj]
  rfl

/-- Tensors that agree on the components that exist. [specification, no code] -/
def Agree (a b : Coef K) : Prop :=
  (∀ i < 3, ∀ j < 3, a.eps i j = b.eps i j ∧ a.invmu i j = b.invmu i j ∧ a.xi i j = b.xi i j ∧ a.zeta i j = b.zeta i j ∧
    a.sigma i j = b.sigma i j) ∧ (∀ i < 3, a.current i = b.current i) ∧ a.mu0 = b.mu0 ∧ a.epsilon0 = b.epsilon0 ∧ a.eta0 = b.eta0

theorem mul_congr {m n m' n' : Nat → Nat → K} (h : ∀ i < 3, ∀ j < 3, m i j = m' i j) (h' : ∀ i < 3, ∀ j < 3, n i j = n' i j) :
    ∀ i < 3, ∀ j < 3, mul m n i j = mul m' n' i j := fun i hi j hj =>
  Finset.sum_congr rfl (fun k hk => by rw [h i hi k (Finset.mem_range.1 hk), h' k (Finset.mem_range.1 hk) j hj])

theorem mv_congr {m m' : Nat → Nat → K} (h : ∀ i < 3, ∀ j < 3, m i j = m' i j) (v : Nat → K) : ∀ i < 3, mv m v i = mv m' v i :=
  fun i hi => by
    unfold mv dot
    exact Finset.sum_congr rfl (fun k hk => by rw [h i hi k (Finset.mem_range.1 hk)])

theorem dot_congr {a b : Nat → K} (h : ∀ i < 3, a i = b i) (v : Nat → K) : dot 3 a v = dot 3 b v :=
  Finset.sum_congr rfl (fun k hk => by rw [h k (Finset.mem_range.1 hk)])

theorem ampere_congr (s : K) {a b : Coef K} (h : Agree a b) (q : Pt K) (d : Nat) : ampere s a q d = ampere s b q d := by
  obtain ⟨h1, h2, _, _, h5⟩ := h
  have x1 := mul_congr (fun i hi j hj => (h1 i hi j hj).2.2.1) (fun i hi j hj => (h1 i hi j hj).2.1)
  have x2 := mul_congr x1 (fun i hi j hj => (h1 i hi j hj).2.2.2.1)
  have x3 := mul_congr (fun i hi j hj => (h1 i hi j hj).2.1) (fun i hi j hj => (h1 i hi j hj).2.2.2.1)
  unfold ampere
  have y1 : ∀ v, dot 3 (mv (fun i j => a.eps i j - mul (mul a.xi a.invmu) a.zeta i j) q.Et) v =
      dot 3 (mv (fun i j => b.eps i j - mul (mul b.xi b.invmu) b.zeta i j) q.Et) v :=
    dot_congr (mv_congr (fun i hi j hj => by rw [(h1 i hi j hj).1, x2 i hi j hj]) q.Et)
  have y2 : ∀ v, dot 3 (fun c => mv a.invmu q.B c - mv (mul a.invmu a.zeta) q.E c) v =
      dot 3 (fun c => mv b.invmu q.B c - mv (mul b.invmu b.zeta) q.E c) v :=
    dot_congr (fun i hi => by rw [mv_congr (fun i hi j hj => (h1 i hi j hj).2.1) q.B i hi, mv_congr x3 q.E i hi])
  rw [y1, dot_congr (mv_congr x1 q.Bt), y2, dot_congr (mv_congr (fun i hi j hj => (h1 i hi j hj).2.2.2.2) q.E), dot_congr h2, h5]

/-! ## Theorems -/

/-- C138, Faraday's law: every entry of `B` grows by the weak form of `1/c0 B_t + curl E = 0`, and no other; if only the equation of
`B` is solved, or before the one of `E` in the first stage of the leap frog.  Nothing else is added then. -/
theorem C138_faraday (root : K → K) (fs : Functions K) (numB numE n : Nat) (ndof : Nat → Nat) (off : Nat → Nat → Nat)
    (hoff : DistinctAll n ndof off) (hB : numB < n) (pts : List (Pt K)) (res : Nat → K) (k : Coef K) (hk : coefs fs 0 = some k) :
    ∃ r mu eps, lookup fs .mu0 = some mu ∧ lookup fs .epsilon0 = some eps ∧
      volumeResidual root ⟨true, true, true⟩ 0 fs numB numE ndof off pts res = some r ∧
      (∀ d < ndof numB, r (off numB d) = res (off numB d) + quad pts (fun q => faraday (root (mu q.x * eps q.x)) q d)) ∧
      ∀ p, (∀ d < ndof numB, off numB d ≠ p) → r p = res p := by
  refine ⟨_, _, _, rfl, rfl, by simp [volumeResidual, hk, lookup]; rfl, ?_, ?_⟩
  · intro d hd
    rw [runLoops_at hoff pts _ (by simp [Fits, hB]) res hB hd]
    congr 1
    refine quad_congr _ (fun q _ => ?_)
    simp [termsAt, addsB_sum]
  · intro p hp
    exact runLoops_other pts _ res (by simpa using hp)

/-- The tensors of the user under the names that are read. [specification, no code] -/
structure Given (fs : Functions K) (eps invmu xi zeta sigma : Nat → Nat → Nat → K) (J : Nat → Nat → K) (mu epsilon eta : Nat → K) :
    Prop where
  eps : ∀ i < 3, ∀ j < 3, fs (.comp .invepsr i j) = some (eps i j)
  invmu : ∀ i < 3, ∀ j < 3, fs (.comp .mur i j) = some (invmu i j)
  xi : ∀ i < 3, ∀ j < 3, fs (.comp .xir i j) = some (xi i j)
  zeta : ∀ i < 3, ∀ j < 3, fs (.comp .zetar i j) = some (zeta i j)
  sigma : ∀ i < 3, ∀ j < 3, fs (.comp .sigma i j) = some (sigma i j)
  current : ∀ i < 3, fs (.current i) = some (J i)
  mu : fs .permeability = some mu
  epsilon : fs .permittivity = some epsilon
  eta : fs .eta0 = some eta

/-- The coefficients at point `x`. [specification, no code] -/
def at' (eps invmu xi zeta sigma : Nat → Nat → Nat → K) (J : Nat → Nat → K) (mu epsilon eta : Nat → K) (x : Nat) : Coef K :=
  ⟨fun i j => eps i j x, fun i j => invmu i j x, fun i j => xi i j x, fun i j => zeta i j x, fun i j => sigma i j x, fun c => J c x,
    mu x, epsilon x, eta x⟩

theorem coefs_given {fs : Functions K} {eps invmu xi zeta sigma : Nat → Nat → Nat → K} {J : Nat → Nat → K} {mu epsilon eta : Nat → K}
    (h : Given fs eps invmu xi zeta sigma J mu epsilon eta) (he : eps 2 1 = eps 1 2) (hx : xi 1 0 = xi 1 2) (hz : zeta 1 0 = zeta 1 2)
    (x : Nat) : ∃ k, coefs fs x = some k ∧ Agree k (at' eps invmu xi zeta sigma J mu epsilon eta x) := by
  obtain ⟨t1, a1, b1⟩ := readTensor_some fs (fun i j => if i = 2 ∧ j = 1 then .comp .invepsr 1 2 else .comp .invepsr i j) eps (by
    intro i hi j hj
    by_cases hc : i = 2 ∧ j = 1
    · obtain ⟨rfl, rfl⟩ := hc
      simp [lookup, h.eps 1 (by norm_num) 2 (by norm_num), he]
    · simp [hc, lookup, h.eps i hi j hj]) x
  obtain ⟨t2, a2, b2⟩ := readTensor_some fs (fun i j => .comp .mur i j) invmu (fun i hi j hj => by simp [lookup, h.invmu i hi j hj]) x
  obtain ⟨t3, a3, b3⟩ := readTensor_some fs (fun i j => if i = 1 ∧ j = 0 then .comp .xir 1 2 else .comp .xir i j) xi (by
    intro i hi j hj
    by_cases hc : i = 1 ∧ j = 0
    · obtain ⟨rfl, rfl⟩ := hc
      simp [lookup, h.xi 1 (by norm_num) 2 (by norm_num), hx]
    · simp [hc, lookup, h.xi i hi j hj]) x
  obtain ⟨t4, a4, b4⟩ := readTensor_some fs (fun i j => if i = 1 ∧ j = 0 then .comp .zetar 1 2 else .comp .zetar i j) zeta (by
    intro i hi j hj
    by_cases hc : i = 1 ∧ j = 0
    · obtain ⟨rfl, rfl⟩ := hc
      simp [lookup, h.zeta 1 (by norm_num) 2 (by norm_num), hz]
    · simp [hc, lookup, h.zeta i hi j hj]) x
  obtain ⟨t5, a5, b5⟩ := readTensor_some fs (fun i j => .comp .sigma i j) sigma (fun i hi j hj => by simp [lookup, h.sigma i hi j hj]) x
  refine ⟨⟨t1, t2, t3, t4, t5, fun c => ((lookup fs (.current c)).getD (fun _ => 0)) x, mu x, epsilon x, eta x⟩, ?_, ?_⟩
  · unfold coefs
    rw [a1, a2, a3, a4, a5]
    simp [lookup, h.mu, h.epsilon, h.eta]
  · refine ⟨fun i hi j hj => ⟨b1 i hi j hj, b2 i hi j hj, b3 i hi j hj, b4 i hi j hj, b5 i hi j hj⟩, fun i hi => ?_, rfl, rfl, rfl⟩
    simp [lookup, h.current i hi, at']

/-- C138, partial: if the user gives the tensor `eps` under the names `invepsr`, `mu^-1` under `mur`, and `eps_zy = eps_yz`,
`xi_yx = xi_yz`, `zeta_yx = zeta_yz`, then every entry of `B` grows by the weak form of Faraday's law and every entry of `E` by the
one of Ampere's law in the medium.  Missing: the names that the module announces (`C138_names_violated`), other tensors
(`C138_components_violated`), defaults (`C138_default_violated`). -/
theorem C138_weak_partial (root : K → K) (fs : Functions K) (eps invmu xi zeta sigma : Nat → Nat → Nat → K) (J : Nat → Nat → K)
    (mu epsilon eta : Nat → K) (h : Given fs eps invmu xi zeta sigma J mu epsilon eta) (he : eps 2 1 = eps 1 2)
    (hx : xi 1 0 = xi 1 2) (hz : zeta 1 0 = zeta 1 2) (numB numE n : Nat) (ndof : Nat → Nat) (off : Nat → Nat → Nat)
    (hoff : DistinctAll n ndof off) (hB : numB < n) (hE : numE < n) (hne : numB ≠ numE) (stage : Nat) (pts : List (Pt K))
    (res : Nat → K) : ∃ r, volumeResidual root ⟨true, true, false⟩ stage fs numB numE ndof off pts res = some r ∧
      (∀ d < ndof numB, r (off numB d) = res (off numB d) + quad pts (fun q => faraday (root (mu q.x * epsilon q.x)) q d)) ∧
      (∀ d < ndof numE, r (off numE d) = res (off numE d) + quad pts (fun q => ampere (root (mu q.x * epsilon q.x))
        (at' eps invmu xi zeta sigma J mu epsilon eta q.x) q d)) ∧
      ∀ p, (∀ d < ndof numB, off numB d ≠ p) → (∀ d < ndof numE, off numE d ≠ p) → r p = res p := by
  obtain ⟨k0, hk0, _⟩ := coefs_given h he hx hz 0
  refine ⟨runLoops off pts [{ eq := numE, ndof := ndof numE, adds := fun q d => match coefs fs q.x with
      | some k => addsE root k q d
      | none => [] }]
    (runLoops off pts [{ eq := numB, ndof := ndof numB, adds := addsB root mu epsilon true }] res), ?_, ?_, ?_, ?_⟩
  · simp [volumeResidual, hk0, lookup, h.mu, h.epsilon]
  · intro d hd
    rw [runLoops_other]
    · rw [runLoops_at hoff pts _ (by simp [Fits, hB]) res hB hd]
      congr 1
      refine quad_congr _ (fun q _ => ?_)
      simp [termsAt, addsB_sum]
    · intro l hl d' hd'
      rw [List.mem_singleton] at hl
      subst hl
      intro e
      exact hne (hoff numE d' numB d hE hB hd' hd e).1.symm
  · intro d hd
    rw [runLoops_at hoff pts _ (by simp [Fits, hE]) _ hE hd, runLoops_other]
    · congr 1
      refine quad_congr _ (fun q _ => ?_)
      obtain ⟨k, hk, ha⟩ := coefs_given h he hx hz q.x
      simp only [termsAt, List.map_cons, List.map_nil, if_true, List.sum_cons, List.sum_nil, add_zero, hk]
      rw [addsE_sum, ampere_congr _ ha, ha.2.2.1, ha.2.2.2.1]
      simp [at', mul_comm]
    · intro l hl d' hd'
      rw [List.mem_singleton] at hl
      subst hl
      intro e
      exact hne (hoff numB d' numE d hB hE hd' hd e).1
  · intro p hp1 hp2
    rw [runLoops_other, runLoops_other]
    · simpa using hp1
    · simpa using hp2

/-- C138 is false for every user who gives the tensors under the names the module announces: the components of `epsr` are looked up as
`invepsr` and those of `invmur` as `mur`, names that the module does not register; unless the user happens to define functions of these
names too, the first evaluation of the equation of `E` fails, in every stage. -/
theorem C138_names_violated (root : K → K) (fs : Functions K) (i j : Nat) (hi : i < 3) (hj : j < 3)
    (h : (fs (.comp .invepsr i j) = none ∧ ¬ (i = 2 ∧ j = 1)) ∨ fs (.comp .mur i j) = none) (leap hasB : Bool) (stage numB numE : Nat)
    (ndof : Nat → Nat) (off : Nat → Nat → Nat) (pts : List (Pt K)) (res : Nat → K) :
    volumeResidual root ⟨hasB, true, leap⟩ stage fs numB numE ndof off pts res = none := by
  have rt : ∀ (name : Nat → Nat → Name), lookup fs (name i j) = none → readTensor fs name 0 = none := by
    intro name hn
    unfold readTensor
    rw [if_neg]
    intro hc
    simp only [List.all_eq_true, List.mem_range] at hc
    have := hc i hi j hj
    rw [hn] at this
    exact absurd this (by simp)
  have hc : coefs fs 0 = none := by
    unfold coefs
    rcases h with ⟨h, hn⟩ | h
    · rw [rt _ (by simp [hn, lookup, h])]; rfl
    · rw [rt (fun i j => .comp .mur i j) (by simp [lookup, h])]
      cases readTensor fs (fun i j => if i = 2 ∧ j = 1 then .comp .invepsr 1 2 else .comp .invepsr i j) 0 <;> rfl
  unfold volumeResidual
  simp only [hc]
  cases hasB <;> simp [lookup]

/-- C138 is false for general tensors: the components `epsr_zy`, `xir_yx`, `zetar_yx` of the user, and everything the user gives as
`epsr`, `invmur` or `refractive index`, have no effect at all. -/
theorem C138_components_violated (root : K → K) (fs fs' : Functions K)
    (h : ∀ nm, (nm ≠ .comp .invepsr 2 1 ∧ nm ≠ .comp .xir 1 0 ∧ nm ≠ .comp .zetar 1 0 ∧ nm ≠ .rindex ∧
      (∀ i j, nm ≠ .comp .epsr i j ∧ nm ≠ .comp .invmur i j)) → fs nm = fs' nm)
    (o : Opts) (stage numB numE : Nat) (ndof : Nat → Nat) (off : Nat → Nat → Nat) (pts : List (Pt K)) (res : Nat → K) :
    volumeResidual root o stage fs numB numE ndof off pts res = volumeResidual root o stage fs' numB numE ndof off pts res := by
  have l1 : ∀ i j, ¬ (i = 2 ∧ j = 1) → lookup fs (.comp .invepsr i j) = lookup fs' (.comp .invepsr i j) := fun i j hn =>
    h _ (by simp; exact fun e => fun e' => hn ⟨e, e'⟩)
  have l2 : ∀ i j, lookup fs (.comp .mur i j) = lookup fs' (.comp .mur i j) := fun i j => h _ (by simp)
  have l3 : ∀ i j, ¬ (i = 1 ∧ j = 0) → lookup fs (.comp .xir i j) = lookup fs' (.comp .xir i j) := fun i j hn => by
    simp only [lookup]; rw [h (.comp .xir i j) (by simp; exact fun e => fun e' => hn ⟨e, e'⟩)]
  have l4 : ∀ i j, ¬ (i = 1 ∧ j = 0) → lookup fs (.comp .zetar i j) = lookup fs' (.comp .zetar i j) := fun i j hn => by
    simp only [lookup]; rw [h (.comp .zetar i j) (by simp; exact fun e => fun e' => hn ⟨e, e'⟩)]
  have l5 : ∀ i j, lookup fs (.comp .sigma i j) = lookup fs' (.comp .sigma i j) := fun i j => by
    simp only [lookup]; rw [h (.comp .sigma i j) (by simp)]
  have l6 : ∀ c, lookup fs (.current c) = lookup fs' (.current c) := fun c => by simp only [lookup]; rw [h (.current c) (by simp)]
  have l7 : lookup fs .mu0 = lookup fs' .mu0 := by simp only [lookup]; rw [h .permeability (by simp)]
  have l8 : lookup fs .epsilon0 = lookup fs' .epsilon0 := by simp only [lookup]; rw [h .permittivity (by simp)]
  have l9 : lookup fs .eta0 = lookup fs' .eta0 := by simp only [lookup]; rw [h .eta0 (by simp)]
  have rt : ∀ (name : Nat → Nat → Name) x, (∀ i j, lookup fs (name i j) = lookup fs' (name i j)) →
      readTensor fs name x = readTensor fs' name x := by
    intro name x hn
    unfold readTensor
    simp only [hn]
  have hc : coefs fs = coefs fs' := by
    funext x
    unfold coefs
    rw [rt (fun i j => if i = 2 ∧ j = 1 then .comp .invepsr 1 2 else .comp .invepsr i j) x, rt (fun i j => .comp .mur i j) x l2,
      rt (fun i j => if i = 1 ∧ j = 0 then .comp .xir 1 2 else .comp .xir i j) x,
      rt (fun i j => if i = 1 ∧ j = 0 then .comp .zetar 1 2 else .comp .zetar i j) x, rt (fun i j => .comp .sigma i j) x l5, l7, l8, l9]
    · simp only [l6]
    · intro i j
      by_cases hij : i = 1 ∧ j = 0
      · simp only [hij, and_self, if_true]; exact l4 1 2 (by simp)
      · simp only [hij, if_false]; exact l4 i j hij
    · intro i j
      by_cases hij : i = 1 ∧ j = 0
      · simp only [hij, and_self, if_true]; exact l3 1 2 (by simp)
      · simp only [hij, if_false]; exact l3 i j hij
    · intro i j
      by_cases hij : i = 2 ∧ j = 1
      · simp only [hij, and_self, if_true]; exact l1 1 2 (by simp)
      · simp only [hij, if_false]; exact l1 i j hij
  unfold volumeResidual
  rw [l7, l8, hc]

/-- C138 is false for media given by `eps` and `mu` alone: the tensors that couple the fields are the identity by default, not zero, and
with relative permittivity and permeability one the time derivative of `E` drops out of the equations: the residual is the same
whatever it is. -/
theorem C138_default_violated (root : K → K) (fs : Functions K)
    (h : ∀ i < 3, ∀ j < 3, fs (.comp .invepsr i j) = some (fun _ => unit' i j) ∧ fs (.comp .mur i j) = some (fun _ => unit' i j) ∧
      fs (.comp .xir i j) = none ∧ fs (.comp .zetar i j) = none) (Et : Pt K → Nat → K)
    (o : Opts) (stage numB numE : Nat) (ndof : Nat → Nat) (off : Nat → Nat → Nat) (pts : List (Pt K)) (res : Nat → K) :
    volumeResidual root o stage fs numB numE ndof off (pts.map (fun q => { q with Et := Et q })) res =
      volumeResidual root o stage fs numB numE ndof off pts res := by
  have un : ∀ (name : Nat → Nat → Name) (x : Nat) (t : Nat → Nat → K), (∀ i < 3, ∀ j < 3, lookup fs (name i j) = some (fun _ => unit' i j)) →
      readTensor fs name x = some t → ∀ i < 3, ∀ j < 3, t i j = unit' i j := by
    intro name x t hn ht i hi j hj
    obtain ⟨t', h1, h2⟩ := readTensor_some fs name (fun i j _ => unit' i j) hn x
    rw [h1] at ht
    rw [← Option.some.inj ht]
    exact h2 i hi j hj
  have hu : ∀ (x : Nat) (k : Coef K), coefs fs x = some k → ∀ i < 3, ∀ j < 3, k.eps i j = unit' i j ∧ k.invmu i j = unit' i j ∧
      k.xi i j = unit' i j ∧ k.zeta i j = unit' i j := by
    intro x k hk
    unfold coefs at hk
    obtain ⟨t1, g1, hk⟩ := Option.bind_eq_some_iff.1 hk
    obtain ⟨t2, g2, hk⟩ := Option.bind_eq_some_iff.1 hk
    obtain ⟨t3, g3, hk⟩ := Option.bind_eq_some_iff.1 hk
    obtain ⟨t4, g4, hk⟩ := Option.bind_eq_some_iff.1 hk
    obtain ⟨t5, g5, hk⟩ := Option.bind_eq_some_iff.1 hk
    obtain ⟨_, _, hk⟩ := Option.bind_eq_some_iff.1 hk
    obtain ⟨_, _, hk⟩ := Option.bind_eq_some_iff.1 hk
    obtain ⟨_, _, hk⟩ := Option.bind_eq_some_iff.1 hk
    have hk := Option.some.inj hk
    subst hk
    intro i hi j hj
    have ux := fun i hi j hj => (h i hi j hj).2.2.1
    have uz := fun i hi j hj => (h i hi j hj).2.2.2
    refine ⟨un _ x t1 ?_ g1 i hi j hj, un (fun i j => .comp .mur i j) x t2 (fun i hi j hj => (h i hi j hj).2.1) g2 i hi j hj, un _ x t3 ?_ g3 i hi j hj,
      un _ x t4 ?_ g4 i hi j hj⟩
    · intro i hi j hj
      by_cases hc : i = 2 ∧ j = 1
      · obtain ⟨rfl, rfl⟩ := hc
        simp [lookup, (h 1 (by norm_num) 2 (by norm_num)).1, unit']
      · simp [hc, lookup, (h i hi j hj).1]
    · intro i hi j hj
      by_cases hc : i = 1 ∧ j = 0
      · obtain ⟨rfl, rfl⟩ := hc
        simp [lookup, ux 1 (by norm_num) 2 (by norm_num), unit']
      · simp [hc, lookup, ux i hi j hj]
    · intro i hi j hj
      by_cases hc : i = 1 ∧ j = 0
      · obtain ⟨rfl, rfl⟩ := hc
        simp [lookup, uz 1 (by norm_num) 2 (by norm_num), unit']
      · simp [hc, lookup, uz i hi j hj]
  have ap : ∀ (m : Nat → Nat → K) (v : Nat → K), (∀ i < 3, ∀ j < 3, m i j = unit' i j) → ∀ c < 3, apply' m v c = v c := by
    intro m v hm c hc
    unfold apply'
    rw [hm c hc 0 (by norm_num), hm c hc 1 (by norm_num), hm c hc 2 (by norm_num)]
    unfold unit'
    interval_cases c <;> simp
  have same : ∀ (x : Nat) (k : Coef K) (q : Pt K) (d : Nat), coefs fs x = some k →
      addsE root k { q with Et := Et q } d = addsE root k q d := by
    intro x k q d hk
    have hh := hu x k hk
    have drop : ∀ v : Nat → K, ∀ c < 3, apply' k.eps v c - apply' k.xi (apply' k.invmu (apply' k.zeta v)) c = 0 := by
      intro v c hc
      rw [ap k.eps v (fun i hi j hj => (hh i hi j hj).1) c hc, ap k.xi _ (fun i hi j hj => (hh i hi j hj).2.2.1) c hc,
        ap k.invmu _ (fun i hi j hj => (hh i hi j hj).2.1) c hc, ap k.zeta _ (fun i hi j hj => (hh i hi j hj).2.2.2) c hc, sub_self]
    unfold addsE
    simp only [drop _ 0 (by norm_num), drop _ 1 (by norm_num), drop _ 2 (by norm_num)]
  have hloop : ∀ (l : Loop K (Pt K)) (res : Nat → K), (∀ q d, l.adds { q with Et := Et q } d = l.adds q d) → l.dofFirst = false →
      runLoops off (pts.map (fun q => { q with Et := Et q })) [l] res = runLoops off pts [l] res := by
    intro l res hl hf
    simp only [runLoops, List.foldl_cons, List.foldl_nil, Loop.run, hf, Bool.false_eq_true, if_false, ptLoop, List.foldl_map, hl]
  unfold volumeResidual
  have hE : ∀ q : Pt K, ∀ d : Nat, (match coefs fs q.x with
      | some k => addsE root k { q with Et := Et q } d
      | none => []) = (match coefs fs q.x with
      | some k => addsE root k q d
      | none => []) := by
    intro q d
    cases hk : coefs fs q.x with
    | none => rfl
    | some k => exact same q.x k q d hk
  have h1 : ∀ (mu epsilon : Nat → K) (w : Bool) (res : Nat → K), runLoops off (pts.map (fun q => { q with Et := Et q }))
      [{ eq := numB, ndof := ndof numB, adds := addsB root mu epsilon w }] res =
        runLoops off pts [{ eq := numB, ndof := ndof numB, adds := addsB root mu epsilon w }] res :=
    fun mu epsilon w res => hloop _ res (fun q d => rfl) rfl
  have h2 : ∀ res : Nat → K, runLoops off (pts.map (fun q => { q with Et := Et q }))
      [{ eq := numE, ndof := ndof numE, adds := fun q d => match coefs fs q.x with
          | some k => addsE root k q d
          | none => [] }] res = runLoops off pts [{ eq := numE, ndof := ndof numE, adds := fun q d => match coefs fs q.x with
          | some k => addsE root k q d
          | none => [] }] res := fun res => hloop _ res hE rfl
  simp only [h1, h2]

/-- C138 is false when one of the fields is switched off: with only `E` active, fields of `B` are read that do not exist, and with only
`B` active the curl of `E`. -/
theorem C138_active_violated (root : K → K) (fs : Functions K) (k : Coef K) (hk : coefs fs 0 = some k) (stage numB numE : Nat)
    (ndof : Nat → Nat) (off : Nat → Nat → Nat) (pts : List (Pt K)) (res : Nat → K) :
    construct 3 (some ['E']) false = some ⟨false, true, false⟩ ∧ construct 3 (some ['B']) false = some ⟨true, false, false⟩ ∧
    volumeResidual root ⟨false, true, false⟩ stage fs numB numE ndof off pts res = none ∧
    volumeResidual root ⟨true, false, false⟩ stage fs numB numE ndof off pts res = none := by
  refine ⟨rfl, rfl, ?_, ?_⟩
  · simp [volumeResidual, lookup, hk]
  · simp [volumeResidual, lookup]

/-- C138, defaults: where the user gives neither conductivity, current nor constants of the vacuum, there is no conductivity and no
current, and all constants (also the index of refraction) are one; what the user gives is used. -/
theorem C138_defaults (fs : Functions K) (x : Nat) (k : Coef K) (hk : coefs fs x = some k) :
    (∀ i < 3, ∀ j < 3, k.sigma i j = match fs (.comp .sigma i j) with | some f => f x | none => 0) ∧
    (∀ c, k.current c = match fs (.current c) with | some f => f x | none => 0) ∧
    (k.mu0 = match fs .permeability with | some f => f x | none => 1) ∧
    (k.epsilon0 = match fs .permittivity with | some f => f x | none => 1) ∧
    (k.eta0 = match fs .eta0 with | some f => f x | none => 1) ∧
    (lookup fs .rindex).map (fun f => f x) = some (match fs .rindex with | some f => f x | none => 1) := by
  simp only [coefs, Option.bind_eq_bind, Option.bind_eq_some_iff] at hk
  obtain ⟨e, -, m, -, xi, -, z, -, s, hs, mu, hmu, ep, hep, et, het, h⟩ := hk
  simp only [lookup, Option.some.injEq] at hmu hep het h
  subst hmu hep het h
  refine ⟨fun i hi j hj => ?_, fun c => ?_, ?_, ?_, ?_, ?_⟩
  · simp only [readTensor] at hs
    split at hs
    · simp only [Option.some.injEq] at hs
      subst hs
      simp only [lookup, Option.getD_some]
      cases fs (.comp .sigma i j) <;> rfl
    · exact absurd hs (by simp)
  · simp only [lookup, Option.getD_some]; cases fs (.current c) <;> rfl
  · cases fs .permeability <;> rfl
  · cases fs .permittivity <;> rfl
  · cases fs .eta0 <;> rfl
  · cases h : fs .rindex <;> simp [lookup, h]

/-- [case] The tensors under the names that are read, nothing else: the coefficients exist. -/
example : ∃ k : Coef ℚ, coefs (fun nm => match nm with
    | .comp .invepsr i j => some (fun _ => if i = j then (2 : ℚ) else 0)
    | .comp .mur i j => some (fun _ => if i = j then (3 : ℚ) else 0) | _ => none) 5 = some k ∧ k.sigma 1 1 = 0 ∧ k.mu0 = 1 ∧ k.eps 1 1 = 2 := ⟨_, rfl, rfl, rfl, rfl⟩

/-- C138, settings: below three dimensions the module is refused; otherwise without a choice both fields are there, else those whose
letter is in the text. -/
theorem C138_settings (dim : Nat) (active : List Char) (leap : Bool) :
    (dim < 3 → ∀ a, construct dim a leap = none) ∧ (3 ≤ dim → construct dim none leap = some ⟨true, true, leap⟩) ∧
    (3 ≤ dim → ∃ o, construct dim (some active) leap = some o ∧ (o.hasB = true ↔ 'B' ∈ active) ∧ (o.hasE = true ↔ 'E' ∈ active) ∧
      o.leap = leap) := by
  refine ⟨fun h a => if_pos h, fun h => if_neg (by omega), fun h => ⟨_, if_neg (by omega), by simp, by simp, rfl⟩⟩

end

/-- C138, boundary: for unit normals the term on the boundary is a positive multiple of the tangential part of `E`: tested with the field
itself it is not negative, so no energy enters; it vanishes exactly for fields along the normal. -/
theorem C138_absorbing [Field K] [LinearOrder K] [IsStrictOrderedRing K] (q : SidePt K) (d : Nat) (hn : dot 3 q.n q.n = 1)
    (hw : 0 < q.wts) : (addsSide q d).sum = 56 / 10000 * dot 3 (fun c => q.E c - dot 3 q.n q.E * q.n c) (q.basis d) * q.wts ∧
      (q.basis d = q.E → 0 ≤ (addsSide q d).sum) ∧
      (q.basis d = q.E → ((addsSide q d).sum = 0 ↔ ∀ c < 3, q.E c = dot 3 q.n q.E * q.n c)) := by
  have h1 : (addsSide q d).sum = 56 / 10000 * dot 3 (fun c => q.E c - dot 3 q.n q.E * q.n c) (q.basis d) * q.wts := by
    simp only [dot, Finset.sum_range_succ, Finset.sum_range_zero, zero_add] at hn ⊢
    simp only [addsSide, cross, gamma, List.sum_cons, List.sum_nil]
    norm_num
    linear_combination (-(q.wts * (7 / 1250)) * (q.E 0 * q.basis d 0 + q.E 1 * q.basis d 1 + q.E 2 * q.basis d 2)) * (1 - 1) +
      (7 / 1250) * q.wts * (q.E 0 * q.basis d 0 + q.E 1 * q.basis d 1 + q.E 2 * q.basis d 2) * hn
  have h2 : q.basis d = q.E → dot 3 (fun c => q.E c - dot 3 q.n q.E * q.n c) (q.basis d) =
      (q.E 0 - dot 3 q.n q.E * q.n 0) ^ 2 + (q.E 1 - dot 3 q.n q.E * q.n 1) ^ 2 + (q.E 2 - dot 3 q.n q.E * q.n 2) ^ 2 := by
    intro he
    rw [he]
    simp only [dot, Finset.sum_range_succ, Finset.sum_range_zero, zero_add] at hn ⊢
    linear_combination -(q.n 0 * q.E 0 + q.n 1 * q.E 1 + q.n 2 * q.E 2) ^ 2 * hn
  refine ⟨h1, fun he => ?_, fun he => ?_⟩
  · rw [h1, h2 he]; positivity
  · rw [h1, h2 he]
    constructor
    · intro h
      have h3 : (q.E 0 - dot 3 q.n q.E * q.n 0) ^ 2 + (q.E 1 - dot 3 q.n q.E * q.n 1) ^ 2 + (q.E 2 - dot 3 q.n q.E * q.n 2) ^ 2 = 0 := by
        rcases mul_eq_zero.1 h with h | h
        · rcases mul_eq_zero.1 h with h | h
          · norm_num at h
          · exact h
        · exact absurd h hw.ne'
      intro c hc
      have a0 := sq_nonneg (q.E 0 - dot 3 q.n q.E * q.n 0)
      have a1 := sq_nonneg (q.E 1 - dot 3 q.n q.E * q.n 1)
      have a2 := sq_nonneg (q.E 2 - dot 3 q.n q.E * q.n 2)
      have : (q.E c - dot 3 q.n q.E * q.n c) ^ 2 = 0 := by interval_cases c <;> linarith
      have := pow_eq_zero_iff (two_ne_zero) |>.1 this
      linear_combination this
    · intro h
      rw [sub_eq_zero.2 (h 0 (by norm_num)), sub_eq_zero.2 (h 1 (by norm_num)), sub_eq_zero.2 (h 2 (by norm_num))]
      simp

/-- C138, boundary: where the condition of `B` is of the type `Neumann` every entry of `B` grows by the absorbing term; otherwise, and
without an equation for `B`, nothing is added. -/
theorem C138_boundary [Field K] [LinearOrder K] [IsStrictOrderedRing K] (o : Opts) (neumann : Bool) (ndof : Nat) (off : Nat → Nat)
    (hoff : Distinct ndof off) (pts : List (SidePt K)) (hn : ∀ q ∈ pts, dot 3 q.n q.n = 1 ∧ 0 < q.wts) (res : Nat → K) :
    (o.hasB = true → neumann = true → ∀ d < ndof, boundaryResidual o neumann ndof off pts res (off d) = res (off d) +
      quad pts (fun q => 56 / 10000 * dot 3 (fun c => q.E c - dot 3 q.n q.E * q.n c) (q.basis d) * q.wts)) ∧
    (o.hasB = false ∨ neumann = false → boundaryResidual o neumann ndof off pts res = res) := by
  constructor
  · intro h1 h2 d hd
    unfold boundaryResidual
    rw [h1, h2]
    simp only [Bool.and_self, if_true]
    rw [ptLoop_at hoff pts addsSide res hd]
    congr 1
    exact quad_congr _ (fun q hq => (C138_absorbing q d (hn q hq).1 (hn q hq).2).1)
  · intro h
    unfold boundaryResidual
    rw [if_neg]
    rcases h with h | h <;> simp [h]

section
variable [Field K]

/-- C138, leap frog: in stages after the first, entries of `B` grow by the mass term alone; in the second stage entries of `E` grow by
the weak form of Ampere's law, in later ones nothing is added to them. -/
theorem C138_leap (root : K → K) (fs : Functions K) (eps invmu xi zeta sigma : Nat → Nat → Nat → K) (J : Nat → Nat → K)
    (mu epsilon eta : Nat → K) (h : Given fs eps invmu xi zeta sigma J mu epsilon eta) (he : eps 2 1 = eps 1 2)
    (hx : xi 1 0 = xi 1 2) (hz : zeta 1 0 = zeta 1 2) (numB numE n : Nat) (ndof : Nat → Nat) (off : Nat → Nat → Nat)
    (hoff : DistinctAll n ndof off) (hB : numB < n) (hE : numE < n) (hne : numB ≠ numE) (stage : Nat) (hs : stage ≠ 0) (pts : List (Pt K))
    (res : Nat → K) : ∃ r, volumeResidual root ⟨true, true, true⟩ stage fs numB numE ndof off pts res = some r ∧
      (∀ d < ndof numB, r (off numB d) = res (off numB d) +
        quad pts (fun q => faraday (root (mu q.x * epsilon q.x)) { q with curlE := fun _ => 0 } d)) ∧
      (∀ d < ndof numE, r (off numE d) = res (off numE d) + if stage = 1 then quad pts (fun q => ampere (root (mu q.x * epsilon q.x))
        (at' eps invmu xi zeta sigma J mu epsilon eta q.x) q d) else 0) := by
  obtain ⟨k0, hk0, _⟩ := coefs_given h he hx hz 0
  have sumB : ∀ (q : Pt K) d, (addsB root mu epsilon false q d).sum = faraday (root (mu q.x * epsilon q.x)) { q with curlE := fun _ => 0 } d := by
    intro q d
    unfold addsB faraday
    simp only [Bool.false_eq_true, if_false, one_div_c0, dot, Finset.sum_range_succ, Finset.sum_range_zero, List.sum_cons, List.sum_nil]
    ring
  have sumE : ∀ (q : Pt K) d, ((match coefs fs q.x with
      | some k => addsE root k q d
      | none => [] : List K)).sum = ampere (root (mu q.x * epsilon q.x)) (at' eps invmu xi zeta sigma J mu epsilon eta q.x) q d := by
    intro q d
    obtain ⟨k, hk, ha⟩ := coefs_given h he hx hz q.x
    simp only [hk]
    rw [addsE_sum, ampere_congr _ ha, ha.2.2.1, ha.2.2.2.1]
    simp [at', mul_comm]
  have sB : ∀ d < ndof numB, runLoops off pts [{ eq := numB, ndof := ndof numB, adds := addsB root mu epsilon false }] res (off numB d) =
      res (off numB d) + quad pts (fun q => faraday (root (mu q.x * epsilon q.x)) { q with curlE := fun _ => 0 } d) := by
    intro d hd
    rw [runLoops_at hoff pts _ (by simp [Fits, hB]) res hB hd]
    congr 1
    refine quad_congr _ (fun q _ => ?_)
    simp [termsAt, sumB]
  have oB : ∀ d < ndof numE, runLoops off pts [{ eq := numB, ndof := ndof numB, adds := addsB root mu epsilon false }] res (off numE d) =
      res (off numE d) := by
    intro d hd
    rw [runLoops_other]
    intro l hl d' hd'
    rw [List.mem_singleton] at hl
    subst hl
    intro e
    exact hne (hoff numB d' numE d hB hE hd' hd e).1
  by_cases h1 : stage = 1
  · subst h1
    refine ⟨runLoops off pts [{ eq := numE, ndof := ndof numE, adds := fun q d => match coefs fs q.x with
        | some k => addsE root k q d
        | none => [] }] (runLoops off pts [{ eq := numB, ndof := ndof numB, adds := addsB root mu epsilon false }] res), ?_, ?_, ?_⟩
    · simp [volumeResidual, hk0, lookup, h.mu, h.epsilon]
    · intro d hd
      rw [runLoops_other, sB d hd]
      intro l hl d' hd'
      rw [List.mem_singleton] at hl
      subst hl
      intro e
      exact hne (hoff numE d' numB d hE hB hd' hd e).1.symm
    · intro d hd
      rw [runLoops_at hoff pts _ (by simp [Fits, hE]) _ hE hd, oB d hd, if_pos rfl]
      congr 1
      refine quad_congr _ (fun q _ => ?_)
      simp only [termsAt, List.map_cons, List.map_nil, if_true, List.sum_cons, List.sum_nil, add_zero]
      exact sumE q d
  · refine ⟨_, ?_, sB, fun d hd => by rw [oB d hd, if_neg h1, add_zero]⟩
    have hs' : (stage == 0) = false := by simpa using hs
    have h1' : (stage == 1) = false := by simpa using h1
    unfold volumeResidual
    simp only [hk0, lookup, h.mu, h.epsilon, hs', h1', Option.getD_some, Bool.not_true, Bool.or_self, Bool.false_and,
      Bool.false_eq_true, if_false, if_true, Option.bind_eq_bind, Option.bind_some]

end

/-! ## Cases -/

/-- A user who gives the tensors under the names that are read; the tensors are the identity, `xi` and `zeta` coupling `x` and `y`.
[case] -/
def user : Functions ℚ
  | .comp .invepsr i j => some (fun x => if i = j then 2 + x else 0)
  | .comp .mur i j => some (fun _ => if i = j then 1 else 0)
  | .comp .xir i j => some (fun _ => if i = 0 ∧ j = 1 then 1 / 2 else 0)
  | .comp .zetar i j => some (fun _ => if i = 0 ∧ j = 1 then 1 / 4 else 0)
  | .comp .sigma _ _ => some (fun _ => 0)
  | .current _ => some (fun _ => 1)
  | .permeability => some (fun _ => 1)
  | .permittivity => some (fun _ => 4)
  | .eta0 => some (fun _ => 3)
  | _ => none

example : Given user (fun i j x => if i = j then 2 + x else 0) (fun i j _ => if i = j then 1 else 0)
    (fun i j _ => if i = 0 ∧ j = 1 then 1 / 2 else 0) (fun i j _ => if i = 0 ∧ j = 1 then 1 / 4 else 0) (fun _ _ _ => 0) (fun _ _ => 1)
    (fun _ => 1) (fun _ => 4) (fun _ => 3) := by
  constructor <;> (intros; rfl)

example : (coefs user 0).isSome = true := by decide +kernel

/-- A user who gives `epsr` and `invmur` as announced: the evaluation fails. -/
example (root : ℚ → ℚ) (pts : List (Pt ℚ)) (res : Nat → ℚ) : volumeResidual root ⟨true, true, false⟩ 0
    (fun n => match n with
      | .comp .epsr i j => some (fun _ => if i = j then 2 else 0)
      | .comp .invmur i j => some (fun _ => if i = j then 1 else 0)
      | _ => none) 0 1 (fun _ => 1) (fun e _ => e) pts res = none :=
  C138_names_violated root _ 0 0 (by norm_num) (by norm_num) (Or.inr rfl) false true 0 0 1 _ _ pts res

/-- A side with a unit normal; the field has a tangential part. [case] -/
def side : SidePt ℚ := ⟨fun c => if c = 0 then 3 / 5 else if c = 1 then 4 / 5 else 0, fun c => if c = 0 then 1 else 2, 2, fun _ c =>
  if c = 0 then 1 else 2⟩

example : dot 3 side.n side.n = 1 ∧ 0 < side.wts ∧ side.basis 0 = side.E := by
  refine ⟨by norm_num [dot, Finset.sum_range_succ, side], by norm_num [side], rfl⟩

end MrHyDE.Modules.Bianisotropic
