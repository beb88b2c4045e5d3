import Mathlib.LinearAlgebra.Matrix.NonsingularInverse
import Mathlib.LinearAlgebra.CrossProduct
import Mathlib.Tactic.Ring
import Mathlib.Tactic.FieldSimp
import Mathlib.Tactic.LinearCombination
import Mathlib.Tactic.NormNum

/-!
# Basis functions on elements, faces, boundaries and at points (C117)

src/interfaces/discretization/discretizationInterface_basis.hpp.  The reference values of the basis
functions are turned into values on a physical element by the transformations of Intrepid, and then
combined by the orientation of the element.

Trusted (library Intrepid, not part of /repo): `setJacobianDet` is the determinant, `setJacobianInv`
the inverse, the transformations act point by point as written in `gradT`, `divT`, `divDiv`,
`curlT`, `curlCurl` below, and `modifyBasisByOrientation` replaces the basis functions of an element
by fixed linear combinations of them (the matrix `M`).

One element is modelled (all loops over elements treat them separately); `d` is the dimension, `nb`
the number of basis functions, `np` the number of points.
-/

set_option linter.unusedSectionVars false

namespace MrHyDE.Disc

open Matrix

variable {K : Type} [Field K] {d nb np : ℕ}

/-! ## Model -/

/-- The cases that the code distinguishes by the first letters of the type of a basis.
/repo/src/interfaces/discretization/discretizationInterface_basis.hpp:433, 484, 495, 549, 1092. -/
inductive Kind
  | hgrad | hvol | hdiv | hcurl | hface | other
  deriving DecidableEq

/-- `substr(0,5) == "HGRAD"` and so on, in the order of the tests.
/repo/src/interfaces/discretization/discretizationInterface_basis.hpp:1012, 1047, 1057, 1075, 1092. -/
def kindOf (type : String) : Kind :=
  if type.toList.take 5 = "HGRAD".toList then .hgrad
  else if type.toList.take 4 = "HVOL".toList then .hvol
  else if type.toList.take 4 = "HDIV".toList then .hdiv
  else if type.toList.take 5 = "HCURL".toList then .hcurl
  else if type.toList.take 5 = "HFACE".toList then .hface
  else .other

/-- Reference data of one basis: its type, whether Intrepid asks for orientations, and the values,
gradients, divergences and curls at the points.
/repo/src/interfaces/discretization/discretizationInterface_basis.hpp:34-98 (points in the element),
102-138 (points on a side).  The curl is the vector of three dimensions; the single number of two
dimensions is not modelled. -/
structure Ref (K : Type) (d nb np : ℕ) where
  type : String
  oriented : Bool
  val : Fin nb → Fin np → K
  vec : Fin nb → Fin np → Fin d → K
  grad : Fin nb → Fin np → Fin d → K
  div : Fin nb → Fin np → K
  curl : Fin nb → Fin np → Fin d → K

/-- What is handed out for one basis.  `none` stands for the view of size one that is created first
and kept when no case applies.
/repo/src/interfaces/discretization/discretizationInterface_basis.hpp:426-431. -/
structure Table (K : Type) (d nb np : ℕ) where
  val : Option (Fin nb → Fin np → K) := none
  vec : Option (Fin nb → Fin np → Fin d → K) := none
  grad : Option (Fin nb → Fin np → Fin d → K) := none
  div : Option (Fin nb → Fin np → K) := none
  curl : Option (Fin nb → Fin np → Fin d → K) := none

/-- `HGRADtransformGRAD` and `HCURLtransformVALUE`: multiply by the transposed inverse.
Library; called at /repo/src/interfaces/discretization/discretizationInterface_basis.hpp:455, 557. -/
noncomputable def gradT (J : Fin np → Matrix (Fin d) (Fin d) K) (f : Fin nb → Fin np → Fin d → K) :
    Fin nb → Fin np → Fin d → K :=
  fun i p => (J p)⁻¹ᵀ *ᵥ f i p

/-- `HDIVtransformVALUE` and (three dimensions) `HCURLtransformCURL`: multiply by the Jacobian and
divide by its determinant.
Library; called at /repo/src/interfaces/discretization/discretizationInterface_basis.hpp:503, 592. -/
def divT (J : Fin np → Matrix (Fin d) (Fin d) K) (f : Fin nb → Fin np → Fin d → K) :
    Fin nb → Fin np → Fin d → K :=
  fun i p => (J p).det⁻¹ • (J p *ᵥ f i p)

/-- `HDIVtransformDIV`: divide by the determinant.
Library; called at /repo/src/interfaces/discretization/discretizationInterface_basis.hpp:537. -/
def divDiv (J : Fin np → Matrix (Fin d) (Fin d) K) (f : Fin nb → Fin np → K) :
    Fin nb → Fin np → K :=
  fun i p => (J p).det⁻¹ * f i p

/-- `modifyBasisByOrientation`: the functions of the element are combinations of the local ones.
Library; called at /repo/src/interfaces/discretization/discretizationInterface_basis.hpp:441. -/
def combine {V : Type} [AddCommMonoid V] [Module K V] (M : Matrix (Fin nb) (Fin nb) K)
    (f : Fin nb → Fin np → V) : Fin nb → Fin np → V :=
  fun i p => ∑ j, M i j • f j p

/-- The step after each transformation: combine if wanted and needed, else take the values as they
are.  /repo/src/interfaces/discretization/discretizationInterface_basis.hpp:440-446. -/
def orient {V : Type} [AddCommMonoid V] [Module K V] (apply : Bool) (M : Matrix (Fin nb) (Fin nb) K)
    (f : Fin nb → Fin np → V) : Fin nb → Fin np → V :=
  if apply then combine M f else f

/-- `getPhysicalVolumetricBasis` for one basis; `apply` is `apply_orientations`.
/repo/src/interfaces/discretization/discretizationInterface_basis.hpp:433-608. -/
noncomputable def volume (apply : Bool) (J : Fin np → Matrix (Fin d) (Fin d) K)
    (M : Matrix (Fin nb) (Fin nb) K) (b : Ref K d nb np) : Table K d nb np :=
  let a := apply && b.oriented
  match kindOf b.type with
  | .hgrad => { val := some (orient a M b.val), grad := some (orient a M (gradT J b.grad)) }
  | .hvol => { val := some b.val }
  | .hdiv => { vec := some (orient a M (divT J b.vec)), div := some (orient a M (divDiv J b.div)) }
  | .hcurl => { vec := some (orient a M (gradT J b.vec)), curl := some (orient a M (divT J b.curl)) }
  | _ => {}

/-- `getPhysicalFaceBasis` for one basis.  After the gradients are transformed the branch without
orientation assigns the values again (`bvals2 = bvals1`) instead of the gradients, so that the
array `bgrad2`, which was created filled with zeros, is stored.
/repo/src/interfaces/discretization/discretizationInterface_basis.hpp:1012-1111 (1040-1042). -/
noncomputable def face (J : Fin np → Matrix (Fin d) (Fin d) K) (M : Matrix (Fin nb) (Fin nb) K)
    (b : Ref K d nb np) : Table K d nb np :=
  match kindOf b.type with
  | .hgrad =>
    { val := some (orient b.oriented M b.val)
      grad := some (if b.oriented then combine M (gradT J b.grad) else fun _ _ _ => 0) }
  | .hvol => { val := some b.val }
  | .hdiv => { vec := some (orient b.oriented M (divT J b.vec)) }
  | .hcurl => { vec := some (orient b.oriented M (gradT J b.vec)) }
  | .hface => { val := some (orient b.oriented M b.val) }
  | .other => {}

/-- `getPhysicalBoundaryBasis` for one basis.
/repo/src/interfaces/discretization/discretizationInterface_basis.hpp:1180-1274. -/
noncomputable def boundary (J : Fin np → Matrix (Fin d) (Fin d) K) (M : Matrix (Fin nb) (Fin nb) K)
    (b : Ref K d nb np) : Table K d nb np :=
  match kindOf b.type with
  | .hgrad =>
    { val := some (orient b.oriented M b.val), grad := some (orient b.oriented M (gradT J b.grad)) }
  | .hvol => { val := some b.val }
  | .hface => { val := some (orient b.oriented M b.val) }
  | .hdiv => { vec := some (orient b.oriented M (divT J b.vec)) }
  | .hcurl => { vec := some (orient b.oriented M (gradT J b.vec)) }
  | .other => {}

/-- The shorter `getPhysicalVolumetricBasis` that only computes values.
/repo/src/interfaces/discretization/discretizationInterface_basis.hpp:816-924. -/
noncomputable def volumeVals (J : Fin np → Matrix (Fin d) (Fin d) K)
    (M : Matrix (Fin nb) (Fin nb) K) (b : Ref K d nb np) : Table K d nb np :=
  match kindOf b.type with
  | .hgrad => { val := some (orient b.oriented M b.val) }
  | .hvol => { val := some b.val }
  | .hdiv => { vec := some (orient b.oriented M (divT J b.vec)) }
  | .hcurl => { vec := some (orient b.oriented M (gradT J b.vec)) }
  | _ => {}

/-- `evaluateBasis` at given points, with orientations: the type is compared as a whole.
/repo/src/interfaces/discretization/discretizationInterface_basis.hpp:1339-1413. -/
noncomputable def pointBasis (J : Fin np → Matrix (Fin d) (Fin d) K) (M : Matrix (Fin nb) (Fin nb) K)
    (b : Ref K d nb np) : Table K d nb np :=
  if b.type = "HGRAD" ∨ b.type = "HVOL" then { val := some (orient b.oriented M b.val) }
  else if b.type = "HDIV" then { vec := some (orient b.oriented M (divT J b.vec)) }
  else if b.type = "HCURL" then { vec := some (orient b.oriented M (gradT J b.vec)) }
  else {}

/-- `evaluateBasisGrads2`: gradients at given points, with orientations.
/repo/src/interfaces/discretization/discretizationInterface_basis.hpp:1616-1645. -/
noncomputable def pointGrads (J : Fin np → Matrix (Fin d) (Fin d) K) (M : Matrix (Fin nb) (Fin nb) K)
    (b : Ref K d nb np) : Fin nb → Fin np → Fin d → K :=
  orient b.oriented M (gradT J b.grad)

/-- `evaluateBasisGrads`: the same without orientations.
/repo/src/interfaces/discretization/discretizationInterface_basis.hpp:1577-1596. -/
noncomputable def pointGradsPlain (J : Fin np → Matrix (Fin d) (Fin d) K) (b : Ref K d nb np) :
    Fin nb → Fin np → Fin d → K :=
  gradT J b.grad

/-- Vector values at the nodes of an element: `f` holds the reference values at the `nn` nodes, and
the Jacobians (`J`, at the `np` integration points) are read with the number of the node.  `none`
where there is no Jacobian with that number (read past the end).
/repo/src/interfaces/discretization/discretizationInterface_basis.hpp:515-528 (`HDIV`),
569-582 (`HCURL`). -/
noncomputable def nodeVec {nn : ℕ} (type : String) (a : Bool)
    (J : Fin np → Matrix (Fin d) (Fin d) K) (M : Matrix (Fin nb) (Fin nb) K)
    (f : Fin nb → Fin nn → Fin d → K) : Fin nb → Fin nn → Option (Fin d → K) :=
  fun i n =>
    if h : n.val < np then
      let Jn : Fin nn → Matrix (Fin d) (Fin d) K := fun _ => J ⟨n.val, h⟩
      match kindOf type with
      | .hdiv => some (orient a M (divT Jn f) i n)
      | .hcurl => some (orient a M (gradT Jn f) i n)
      | _ => none
    else none

/-! ## Specification

`J` is the matrix of the map from the reference element to the element at a point: a small step `t`
on the reference element becomes the step `J t`.  Nothing below uses an inverse, a determinant or
the transformations of the model. -/

/-- A gradient `g` on the element belongs to the gradient `gref` on the reference element when both
predict the same change along every step. [specification, no code] -/
def Covariant (J : Matrix (Fin d) (Fin d) K) (g gref : Fin d → K) : Prop :=
  ∀ t, g ⬝ᵥ (J *ᵥ t) = gref ⬝ᵥ t

/-- The step turned by a right angle: the length vector across it. [specification, no code] -/
def across (t : Fin 2 → K) : Fin 2 → K := ![t 1, -t 0]

/-- Same flow through every segment, two dimensions. [specification, no code] -/
def SameFlux2 (J : Matrix (Fin 2) (Fin 2) K) (v vref : Fin 2 → K) : Prop :=
  ∀ t, v ⬝ᵥ across (J *ᵥ t) = vref ⬝ᵥ across t

/-- Same flow through every parallelogram, three dimensions. [specification, no code] -/
def SameFlux3 (J : Matrix (Fin 3) (Fin 3) K) (v vref : Fin 3 → K) : Prop :=
  ∀ s t, v ⬝ᵥ ((J *ᵥ s) ⨯₃ (J *ᵥ t)) = vref ⬝ᵥ (s ⨯₃ t)

/-- The reference function that basis function `i` of the element stands for: a combination with the
orientation coefficients when the basis needs them, otherwise the local function itself.
[specification, no code] -/
def shape {V : Type} [AddCommMonoid V] [Module K V] (needed : Bool) (M : Matrix (Fin nb) (Fin nb) K)
    (f : Fin nb → Fin np → V) (i : Fin nb) (p : Fin np) : V :=
  ∑ j, (if needed then M i j else if i = j then 1 else 0) • f j p

/-! ## Lemmas -/

theorem orient_eq_shape {V : Type} [AddCommMonoid V] [Module K V] (a : Bool)
    (M : Matrix (Fin nb) (Fin nb) K) (f : Fin nb → Fin np → V) :
    orient a M f = shape a M f := by
  funext i p
  cases a
  · simp [orient, shape]
  · simp [orient, shape, combine]

theorem shape_map {V W : Type} [AddCommMonoid V] [Module K V] [AddCommMonoid W] [Module K W]
    (a : Bool) (M : Matrix (Fin nb) (Fin nb) K) (f : Fin nb → Fin np → V) (L : Fin np → V →ₗ[K] W)
    (i : Fin nb) (p : Fin np) :
    shape a M (fun i p => L p (f i p)) i p = L p (shape a M f i p) := by
  simp only [shape, map_sum, map_smul]

theorem shape_gradT (a : Bool) (M : Matrix (Fin nb) (Fin nb) K)
    (J : Fin np → Matrix (Fin d) (Fin d) K) (f : Fin nb → Fin np → Fin d → K) (i p) :
    shape a M (gradT J f) i p = (J p)⁻¹ᵀ *ᵥ shape a M f i p :=
  shape_map a M f (fun p => Matrix.mulVecLin (J p)⁻¹ᵀ) i p

theorem shape_divT (a : Bool) (M : Matrix (Fin nb) (Fin nb) K)
    (J : Fin np → Matrix (Fin d) (Fin d) K) (f : Fin nb → Fin np → Fin d → K) (i p) :
    shape a M (divT J f) i p = (J p).det⁻¹ • (J p *ᵥ shape a M f i p) :=
  shape_map a M f (fun p => (J p).det⁻¹ • Matrix.mulVecLin (J p)) i p

theorem shape_divDiv (a : Bool) (M : Matrix (Fin nb) (Fin nb) K)
    (J : Fin np → Matrix (Fin d) (Fin d) K) (f : Fin nb → Fin np → K) (i p) :
    shape a M (divDiv J f) i p = (J p).det⁻¹ * shape a M f i p := by
  have h := shape_map a M f (fun p => (J p).det⁻¹ • (LinearMap.id : K →ₗ[K] K)) i p
  simp only [LinearMap.smul_apply, LinearMap.id_apply, smul_eq_mul] at h
  exact h

theorem covariant_gradT {J : Matrix (Fin d) (Fin d) K} (hJ : J.det ≠ 0) (g : Fin d → K) :
    Covariant J (J⁻¹ᵀ *ᵥ g) g := by
  intro t
  rw [Matrix.mulVec_transpose, ← Matrix.dotProduct_mulVec, Matrix.mulVec_mulVec,
    Matrix.nonsing_inv_mul _ (isUnit_iff_ne_zero.mpr hJ), Matrix.one_mulVec]

theorem covariant_unique {J : Matrix (Fin d) (Fin d) K} (hJ : J.det ≠ 0) {g g' gref : Fin d → K}
    (h : Covariant J g gref) (h' : Covariant J g' gref) : g = g' := by
  funext i
  have e : J *ᵥ (J⁻¹ *ᵥ Pi.single i 1) = Pi.single i 1 := by
    rw [Matrix.mulVec_mulVec, Matrix.mul_nonsing_inv _ (isUnit_iff_ne_zero.mpr hJ),
      Matrix.one_mulVec]
  have a := h (J⁻¹ *ᵥ Pi.single i 1)
  have b := h' (J⁻¹ *ᵥ Pi.single i 1)
  rw [e] at a b
  simpa using a.trans b.symm

theorem sameFlux2_divT {J : Matrix (Fin 2) (Fin 2) K} (hJ : J.det ≠ 0) (v : Fin 2 → K) :
    SameFlux2 J (J.det⁻¹ • (J *ᵥ v)) v := by
  intro t
  rw [smul_dotProduct, smul_eq_mul]
  have : (J *ᵥ v) ⬝ᵥ across (J *ᵥ t) = J.det * (v ⬝ᵥ across t) := by
    simp [across, dotProduct, Matrix.mulVec, Fin.sum_univ_two, Matrix.det_fin_two]
    ring
  rw [this, ← mul_assoc, inv_mul_cancel₀ hJ, one_mul]

theorem sameFlux3_divT {J : Matrix (Fin 3) (Fin 3) K} (hJ : J.det ≠ 0) (v : Fin 3 → K) :
    SameFlux3 J (J.det⁻¹ • (J *ᵥ v)) v := by
  intro s t
  rw [smul_dotProduct, smul_eq_mul]
  have : (J *ᵥ v) ⬝ᵥ ((J *ᵥ s) ⨯₃ (J *ᵥ t)) = J.det * (v ⬝ᵥ (s ⨯₃ t)) := by
    simp [cross_apply, dotProduct, Matrix.mulVec, Fin.sum_univ_three, Matrix.det_fin_three]
    ring
  rw [this, ← mul_assoc, inv_mul_cancel₀ hJ, one_mul]

end MrHyDE.Disc
