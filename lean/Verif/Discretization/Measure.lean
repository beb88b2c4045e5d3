import Mathlib.LinearAlgebra.Matrix.NonsingularInverse
import Mathlib.LinearAlgebra.CrossProduct
import Mathlib.Analysis.SpecialFunctions.Pow.Real
import Mathlib.Tactic.Ring
import Mathlib.Tactic.FieldSimp
import Mathlib.Tactic.LinearCombination
import Mathlib.Tactic.NormNum
import Mathlib.Tactic.FinCases
import Verif.Discretization.Basis

/-!
# Integration points, weights and normals (C118): model

src/interfaces/discretization/discretizationInterface_integration.hpp.

Trusted (library Intrepid and the cell topologies of shards, not part of /repo):
`setJacobian` differentiates the usual linear, bilinear or trilinear map of the element (`jac`),
`mapToReferenceSubcell` and `getReferenceEdgeTangent` / `getReferenceFaceTangents` use the
parametrisation of a side by its corners (`edgePoint`, `quadPoint` and so on), `matvec`,
`vecprod`, `vectorNorm` and `scalarMultiplyDataData` are the products and the length they are named
after, and `computeCellMeasure` multiplies determinants and weights, with the sign of the first
determinant of the element taken out.  Square roots are exact.
-/

set_option linter.unusedSectionVars false

namespace MrHyDE.Disc

open Matrix

/-! ## Weights and normals at one point of a side -/

/-- The length of a vector.  Library `vectorNorm` with `NORM_TWO`; written out for the normals.
/repo/src/interfaces/discretization/discretizationInterface_integration.hpp:513, 530, 542-546. -/
noncomputable def len {d : ℕ} (v : Fin d → ℝ) : ℝ := Real.sqrt (∑ i, v i * v i)

/-- Division of a vector by its length; `none` where that is a division by zero.
/repo/src/interfaces/discretization/discretizationInterface_integration.hpp:542-549 (faces),
755-768 (boundaries, where the reciprocal is multiplied). -/
noncomputable def unit {d : ℕ} (v : Fin d → ℝ) : Option (Fin d → ℝ) :=
  if len v = 0 then none else some fun i => v i / len v

/-- What a side stores at one point.
/repo/src/interfaces/discretization/discretizationInterface_integration.hpp:592-596. -/
structure SideData (d : ℕ) where
  wt : ℝ
  normal : Option (Fin d → ℝ)
  tangent : Fin d → ℝ

/-- The matrix called `rotation`.
/repo/src/interfaces/discretization/discretizationInterface_integration.hpp:508-510, 668-672. -/
def rotation : Matrix (Fin 2) (Fin 2) ℝ := !![0, 1; -1, 0]

/-- Two dimensions, faces and boundaries: tangent, normal and weight from the reference tangent `t`
and the reference weight `w`.
/repo/src/interfaces/discretization/discretizationInterface_integration.hpp:504-514, 664-676. -/
noncomputable def side2 (J : Matrix (Fin 2) (Fin 2) ℝ) (t : Fin 2 → ℝ) (w : ℝ) : SideData 2 where
  wt := len (J *ᵥ t) * w
  normal := unit (rotation *ᵥ (J *ᵥ t))
  tangent := J *ᵥ t

/-- Three dimensions, faces and boundaries: normal and weight from the two reference tangents.  The
tangent that boundaries hand out keeps its initial zeros.
/repo/src/interfaces/discretization/discretizationInterface_integration.hpp:517-531, 679-693, 617
(`tmptangents`), 716-730. -/
noncomputable def side3 (J : Matrix (Fin 3) (Fin 3) ℝ) (U V : Fin 3 → ℝ) (w : ℝ) : SideData 3 where
  wt := len ((J *ᵥ U) ⨯₃ (J *ᵥ V)) * w
  normal := unit ((J *ᵥ U) ⨯₃ (J *ᵥ V))
  tangent := 0

/-- One dimension, boundaries: weight one and the reference normal (-1 on the left, 1 on the right).
/repo/src/interfaces/discretization/discretizationInterface_integration.hpp:43-48, 654-661. -/
noncomputable def boundary1 (left : Bool) : SideData 1 where
  wt := 1
  normal := unit (fun _ => if left then -1 else 1)
  tangent := 0

/-- One dimension, faces: there is no case for it, so that weight and normal keep their initial
zeros, and the normal is then divided by its length.
/repo/src/interfaces/discretization/discretizationInterface_integration.hpp:468-470, 504-531,
542-549. -/
noncomputable def face1 : SideData 1 where
  wt := 0
  normal := unit (fun _ => 0)
  tangent := 0

/-! ## Weights in the element -/

/-- `computeCellMeasure`: the weights of one element from the determinants and the reference weights
at its points.  Library; called at
/repo/src/interfaces/discretization/discretizationInterface_integration.hpp:259, 370, 400. -/
noncomputable def cellWeights (dets ws : List ℝ) : List ℝ :=
  let s : ℝ := if dets.headD 1 < 0 then -1 else 1
  List.zipWith (fun D w => s * D * w) dets ws

/-- `getMeasure`: the sum of the weights (`measure` is created filled with zeros by the callers,
assemblyManager_database.hpp:148, 302, 1138).
/repo/src/interfaces/discretization/discretizationInterface_integration.hpp:392-410. -/
noncomputable def measure (dets ws : List ℝ) : ℝ := (cellWeights dets ws).sum

/-- `getElementSize`: the measure to the power one over the dimension.
/repo/src/tools/workset.cpp:2699-2711. -/
noncomputable def elementSize (dim : ℕ) (wts : List ℝ) : ℝ := wts.sum ^ (1 / (dim : ℝ))

/-- `computeSize`, `computeFaceSize` and `getSideElementSize`: the measure of the side to the power
one over the dimension less one; `none` in one dimension, where the exponent is infinite.
/repo/src/tools/boundaryGroup.cpp:106-120, /repo/src/tools/group.cpp:97-115,
/repo/src/tools/workset.cpp:2719-2732. -/
noncomputable def sideSize (dim : ℕ) (wts : List ℝ) : Option ℝ :=
  if (dim : ℝ) - 1 = 0 then none else some (wts.sum ^ (1 / ((dim : ℝ) - 1)))

/-! ## The maps of the elements -/

/-- `setJacobian` for an element with nodes `P`, where `dN x n j` is the derivative of the shape
function of node `n` in direction `j`.  Library; called at
/repo/src/interfaces/discretization/discretizationInterface_integration.hpp:257, 498, 643. -/
def jac {d n : ℕ} (dN : (Fin d → ℝ) → Fin n → Fin d → ℝ) (P : Fin n → Fin d → ℝ) (x : Fin d → ℝ) :
    Matrix (Fin d) (Fin d) ℝ :=
  fun i j => ∑ k, P k i * dN x k j

/-- Nodes of the reference triangle. Library (shards `Triangle<3>`), used through
/repo/src/interfaces/discretization/discretizationInterface_basis.hpp:23-25. -/
def triNode : Fin 3 → Fin 2 → ℝ := ![![0, 0], ![1, 0], ![0, 1]]

/-- Shape function derivatives on the triangle. Library, as `jac`
(discretizationInterface_integration.hpp:257). -/
def triD (_x : Fin 2 → ℝ) : Fin 3 → Fin 2 → ℝ := ![![-1, -1], ![1, 0], ![0, 1]]

/-- Nodes of the reference quadrilateral. Library (shards `Quadrilateral<4>`), used through
/repo/src/interfaces/discretization/discretizationInterface_basis.hpp:23-25. -/
def quadNode : Fin 4 → Fin 2 → ℝ := ![![-1, -1], ![1, -1], ![1, 1], ![-1, 1]]

/-- Shape function derivatives on the quadrilateral. Library, as `jac`
(discretizationInterface_integration.hpp:257). -/
noncomputable def quadD (x : Fin 2 → ℝ) (k : Fin 4) : Fin 2 → ℝ :=
  ![quadNode k 0 * (1 + quadNode k 1 * x 1) / 4, (1 + quadNode k 0 * x 0) * quadNode k 1 / 4]

/-- Nodes of the reference tetrahedron. Library (shards `Tetrahedron<4>`), used through
/repo/src/interfaces/discretization/discretizationInterface_basis.hpp:23-25. -/
def tetNode : Fin 4 → Fin 3 → ℝ := ![![0, 0, 0], ![1, 0, 0], ![0, 1, 0], ![0, 0, 1]]

/-- Shape function derivatives on the tetrahedron. Library, as `jac`
(discretizationInterface_integration.hpp:257). -/
def tetD (_x : Fin 3 → ℝ) : Fin 4 → Fin 3 → ℝ :=
  ![![-1, -1, -1], ![1, 0, 0], ![0, 1, 0], ![0, 0, 1]]

/-- Nodes of the reference hexahedron. Library (shards `Hexahedron<8>`), used through
/repo/src/interfaces/discretization/discretizationInterface_basis.hpp:23-25. -/
def hexNode : Fin 8 → Fin 3 → ℝ :=
  ![![-1, -1, -1], ![1, -1, -1], ![1, 1, -1], ![-1, 1, -1],
    ![-1, -1, 1], ![1, -1, 1], ![1, 1, 1], ![-1, 1, 1]]

/-- Shape function derivatives on the hexahedron. Library, as `jac`
(discretizationInterface_integration.hpp:257). -/
noncomputable def hexD (x : Fin 3 → ℝ) (k : Fin 8) : Fin 3 → ℝ :=
  ![hexNode k 0 * (1 + hexNode k 1 * x 1) * (1 + hexNode k 2 * x 2) / 8,
    (1 + hexNode k 0 * x 0) * hexNode k 1 * (1 + hexNode k 2 * x 2) / 8,
    (1 + hexNode k 0 * x 0) * (1 + hexNode k 1 * x 1) * hexNode k 2 / 8]

/-- Corners of the edges of a triangle and a quadrilateral. Library (shards), used at
/repo/src/interfaces/discretization/discretizationInterface_integration.hpp:53-54. -/
def triEdge : Fin 3 → Fin 3 × Fin 3 := ![(0, 1), (1, 2), (2, 0)]

/-- Corners of the edges of a quadrilateral. Library (shards), used at
/repo/src/interfaces/discretization/discretizationInterface_integration.hpp:53-54. -/
def quadEdge : Fin 4 → Fin 4 × Fin 4 := ![(0, 1), (1, 2), (2, 3), (3, 0)]

/-- Corners of the faces of a tetrahedron. Library (shards), used at
/repo/src/interfaces/discretization/discretizationInterface_integration.hpp:53-54. -/
def tetFace : Fin 4 → Fin 3 → Fin 4 := ![![0, 1, 3], ![1, 2, 3], ![0, 3, 2], ![0, 2, 1]]

/-- Corners of the faces of a hexahedron. Library (shards), used at
/repo/src/interfaces/discretization/discretizationInterface_integration.hpp:53-54. -/
def hexFace : Fin 6 → Fin 4 → Fin 8 :=
  ![![0, 1, 5, 4], ![1, 2, 6, 5], ![2, 3, 7, 6], ![0, 4, 7, 3], ![0, 3, 2, 1], ![4, 5, 6, 7]]

/-- A point of an edge: `mapToReferenceSubcell` on `[-1, 1]`.
/repo/src/interfaces/discretization/discretizationInterface_integration.hpp:53-54. -/
noncomputable def edgePoint {d : ℕ} (a b : Fin d → ℝ) (u : ℝ) : Fin d → ℝ :=
  fun i => ((1 - u) * a i + (1 + u) * b i) / 2

/-- `getReferenceEdgeTangent`.
/repo/src/interfaces/discretization/discretizationInterface_integration.hpp:65. -/
noncomputable def edgeTangent {d : ℕ} (a b : Fin d → ℝ) : Fin d → ℝ := fun i => (b i - a i) / 2

/-- A point of a triangular face.
/repo/src/interfaces/discretization/discretizationInterface_integration.hpp:53-54. -/
def triPoint (a b c : Fin 3 → ℝ) (u v : ℝ) : Fin 3 → ℝ :=
  fun i => a i + u * (b i - a i) + v * (c i - a i)

/-- A point of a quadrilateral face.
/repo/src/interfaces/discretization/discretizationInterface_integration.hpp:53-54. -/
noncomputable def quadPoint (a b c e : Fin 3 → ℝ) (u v : ℝ) : Fin 3 → ℝ :=
  fun i => ((1 - u) * (1 - v) * a i + (1 + u) * (1 - v) * b i + (1 + u) * (1 + v) * c i
    + (1 - u) * (1 + v) * e i) / 4

/-- The data of edge `s` of a triangle with corners `P`, at the point `u` with weight `w`.
/repo/src/interfaces/discretization/discretizationInterface_integration.hpp:592-696. -/
noncomputable def triSide (P : Fin 3 → Fin 2 → ℝ) (s : Fin 3) (u w : ℝ) : SideData 2 :=
  let a := triNode (triEdge s).1
  let b := triNode (triEdge s).2
  side2 (jac triD P (edgePoint a b u)) (edgeTangent a b) w

/-- The data of edge `s` of a quadrilateral.
/repo/src/interfaces/discretization/discretizationInterface_integration.hpp:592-696. -/
noncomputable def quadSide (P : Fin 4 → Fin 2 → ℝ) (s : Fin 4) (u w : ℝ) : SideData 2 :=
  let a := quadNode (quadEdge s).1
  let b := quadNode (quadEdge s).2
  side2 (jac quadD P (edgePoint a b u)) (edgeTangent a b) w

/-- The data of face `s` of a tetrahedron.
/repo/src/interfaces/discretization/discretizationInterface_integration.hpp:592-696. -/
noncomputable def tetSide (P : Fin 4 → Fin 3 → ℝ) (s : Fin 4) (u v w : ℝ) : SideData 3 :=
  let a := tetNode (tetFace s 0)
  let b := tetNode (tetFace s 1)
  let c := tetNode (tetFace s 2)
  side3 (jac tetD P (triPoint a b c u v)) (fun i => b i - a i) (fun i => c i - a i) w

/-- The data of face `s` of a hexahedron.
/repo/src/interfaces/discretization/discretizationInterface_integration.hpp:592-696. -/
noncomputable def hexSide (P : Fin 8 → Fin 3 → ℝ) (s : Fin 6) (u v w : ℝ) : SideData 3 :=
  let a := hexNode (hexFace s 0)
  let b := hexNode (hexFace s 1)
  let c := hexNode (hexFace s 2)
  let e := hexNode (hexFace s 3)
  side3 (jac hexD P (quadPoint a b c e u v)) (edgeTangent a b) (edgeTangent a e) w

/-! ## Lemmas -/

theorem len_nonneg {d : ℕ} (v : Fin d → ℝ) : 0 ≤ len v := Real.sqrt_nonneg _

theorem len_sq {d : ℕ} (v : Fin d → ℝ) : len v * len v = ∑ i, v i * v i :=
  Real.mul_self_sqrt (Finset.sum_nonneg fun i _ => mul_self_nonneg _)

theorem len_eq_zero {d : ℕ} (v : Fin d → ℝ) : len v = 0 ↔ v = 0 := by
  constructor
  · intro h
    have h2 := len_sq v
    rw [h, mul_zero] at h2
    have := (Finset.sum_eq_zero_iff_of_nonneg (fun i _ => mul_self_nonneg (v i))).mp h2.symm
    funext i
    exact mul_self_eq_zero.mp (this i (Finset.mem_univ i))
  · rintro rfl
    simp [len]

theorem rotation_across (v : Fin 2 → ℝ) : rotation *ᵥ v = across v := by
  funext i
  fin_cases i <;> simp [rotation, across, Matrix.mulVec, dotProduct, Fin.sum_univ_two]

theorem len_across (v : Fin 2 → ℝ) : len (across v) = len v := by
  simp only [len, across, Fin.sum_univ_two]
  congr 1
  simp
  ring

theorem unit_some {d : ℕ} {v n : Fin d → ℝ} (h : unit v = some n) :
    len v ≠ 0 ∧ ∀ i, len v * n i = v i := by
  unfold unit at h
  by_cases h0 : len v = 0
  · simp [h0] at h
  · rw [if_neg h0] at h
    simp only [Option.some.injEq] at h
    refine ⟨h0, fun i => ?_⟩
    rw [← h]
    field_simp

theorem unit_isSome {d : ℕ} (v : Fin d → ℝ) : (∃ n, unit v = some n) ↔ v ≠ 0 := by
  constructor
  · rintro ⟨n, h⟩ h0
    exact (unit_some h).1 ((len_eq_zero v).mpr h0)
  · intro h
    exact ⟨_, by unfold unit; rw [if_neg (fun h0 => h ((len_eq_zero v).mp h0))]⟩

theorem unit_len {d : ℕ} {v n : Fin d → ℝ} (h : unit v = some n) : ∑ i, n i * n i = 1 := by
  obtain ⟨h0, h1⟩ := unit_some h
  have e : len v * len v * ∑ i, n i * n i = len v * len v := by
    rw [Finset.mul_sum]
    conv_rhs => rw [len_sq]
    refine Finset.sum_congr rfl fun i _ => ?_
    rw [← h1 i]
    ring
  have h2 : len v * len v ≠ 0 := mul_ne_zero h0 h0
  exact mul_left_cancel₀ h2 (by rw [e, mul_one])

theorem unit_dot {d : ℕ} {v n : Fin d → ℝ} (h : unit v = some n) (a : Fin d → ℝ) :
    len v * (a ⬝ᵥ n) = a ⬝ᵥ v := by
  obtain ⟨_, h1⟩ := unit_some h
  simp only [dotProduct, Finset.mul_sum]
  refine Finset.sum_congr rfl fun i _ => ?_
  rw [← h1 i]
  ring

end MrHyDE.Disc
