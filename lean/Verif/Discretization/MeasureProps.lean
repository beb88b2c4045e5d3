import Mathlib.LinearAlgebra.Matrix.Nondegenerate
import Verif.Discretization.Measure

/-!
# C118: weights and normals of elements and their sides

The weights of a side with its unit normals are the surface element of the mapped side.
-/

set_option linter.unusedSectionVars false
set_option linter.unusedSimpArgs false

namespace MrHyDE.Disc

open Matrix

/-! ## One point of a side -/

/-- Weight times normal is the reference weight times the length vector across the mapped edge:
for every vector `a`, the flow `a · n` weighted is the flow through the mapped edge. -/
theorem C118_weighted2 (J : Matrix (Fin 2) (Fin 2) ℝ) (t : Fin 2 → ℝ) (w : ℝ) (n : Fin 2 → ℝ)
    (h : (side2 J t w).normal = some n) (a : Fin 2 → ℝ) :
    (side2 J t w).wt * (a ⬝ᵥ n) = w * (a ⬝ᵥ across (J *ᵥ t)) := by
  simp only [side2, rotation_across] at h ⊢
  have := unit_dot h a
  rw [len_across] at this
  linear_combination w * this

/-- Weight times normal is the reference weight times the area vector of the mapped
parallelogram. -/
theorem C118_weighted3 (J : Matrix (Fin 3) (Fin 3) ℝ) (U V : Fin 3 → ℝ) (w : ℝ) (n : Fin 3 → ℝ)
    (h : (side3 J U V w).normal = some n) (a : Fin 3 → ℝ) :
    (side3 J U V w).wt * (a ⬝ᵥ n) = w * (a ⬝ᵥ ((J *ᵥ U) ⨯₃ (J *ᵥ V))) := by
  simp only [side3] at h ⊢
  have := unit_dot h a
  linear_combination w * this

/-- Normals have length one and are perpendicular to the mapped tangents. -/
theorem C118_unit :
    (∀ J t w n, (side2 J t w).normal = some n → n ⬝ᵥ n = 1 ∧ n ⬝ᵥ (J *ᵥ t) = 0) ∧
    (∀ J U V w n, (side3 J U V w).normal = some n →
      n ⬝ᵥ n = 1 ∧ n ⬝ᵥ (J *ᵥ U) = 0 ∧ n ⬝ᵥ (J *ᵥ V) = 0) ∧
    ∀ l n, (boundary1 l).normal = some n → n ⬝ᵥ n = 1 := by
  refine ⟨fun J t w n h => ⟨unit_len h, ?_⟩, fun J U V w n h => ⟨unit_len h, ?_, ?_⟩,
    fun l n h => unit_len h⟩
  · simp only [side2, rotation_across] at h
    have h0 := (unit_some h).1
    have := unit_dot h (J *ᵥ t)
    refine mul_left_cancel₀ h0 ?_
    rw [dotProduct_comm, this, mul_zero]
    simp [across, dotProduct, Fin.sum_univ_two]
    ring
  · simp only [side3] at h
    have h0 := (unit_some h).1
    have := unit_dot h (J *ᵥ U)
    refine mul_left_cancel₀ h0 ?_
    rw [dotProduct_comm, this, mul_zero]
    exact dot_self_cross _ _
  · simp only [side3] at h
    have h0 := (unit_some h).1
    have := unit_dot h (J *ᵥ V)
    refine mul_left_cancel₀ h0 ?_
    rw [dotProduct_comm, this, mul_zero]
    exact dot_cross_self _ _

/-- On an element whose map is invertible there is always a normal. -/
theorem C118_defined :
    (∀ (J : Matrix (Fin 2) (Fin 2) ℝ) (t : Fin 2 → ℝ) (w : ℝ), J.det ≠ 0 → t ≠ 0 →
      ∃ n, (side2 J t w).normal = some n) ∧
    (∀ (J : Matrix (Fin 3) (Fin 3) ℝ) (U V : Fin 3 → ℝ) (w : ℝ), J.det ≠ 0 → U ⨯₃ V ≠ 0 →
      ∃ n, (side3 J U V w).normal = some n) ∧
    ∀ l, ∃ n, (boundary1 l).normal = some n := by
  refine ⟨fun J t w hJ ht => ?_, fun J U V w hJ hUV => ?_, fun l => ?_⟩
  · simp only [side2, rotation_across]
    rw [unit_isSome]
    intro h0
    apply ht
    have h1 : J *ᵥ t = 0 := by
      have a := congrFun h0 0
      have b := congrFun h0 1
      simp only [across] at a b
      funext i
      fin_cases i
      · simpa using b
      · simpa using a
    exact Matrix.eq_zero_of_mulVec_eq_zero hJ h1
  · simp only [side3]
    rw [unit_isSome]
    intro h0
    apply hUV
    have hs := fun v => sameFlux3_divT hJ v U V
    funext i
    have := hs (Pi.single i 1)
    rw [h0, dotProduct_zero] at this
    simpa using this.symm
  · simp only [boundary1]
    rw [unit_isSome]
    intro h0
    have := congrFun h0 0
    cases l <;> simp at this

/-- The normal points away from the element: if `o` leads out of the reference element across the
side, its image leads out along the normal, on every element with positive determinant. -/
theorem C118_outward :
    (∀ (J : Matrix (Fin 2) (Fin 2) ℝ) (t o : Fin 2 → ℝ) (w : ℝ) (n : Fin 2 → ℝ), 0 < J.det →
      0 < across t ⬝ᵥ o → (side2 J t w).normal = some n → 0 < n ⬝ᵥ (J *ᵥ o)) ∧
    (∀ (J : Matrix (Fin 3) (Fin 3) ℝ) (U V o : Fin 3 → ℝ) (w : ℝ) (n : Fin 3 → ℝ), 0 < J.det →
      0 < (U ⨯₃ V) ⬝ᵥ o → (side3 J U V w).normal = some n → 0 < n ⬝ᵥ (J *ᵥ o)) := by
  constructor
  · intro J t o w n hJ ho h
    simp only [side2, rotation_across] at h
    have h0 : 0 < len (across (J *ᵥ t)) :=
      lt_of_le_of_ne (len_nonneg _) (Ne.symm (unit_some h).1)
    have h1 := unit_dot h (J *ᵥ o)
    have h2 : (J *ᵥ o) ⬝ᵥ across (J *ᵥ t) = J.det * (across t ⬝ᵥ o) := by
      simp [across, dotProduct, Matrix.mulVec, Fin.sum_univ_two, Matrix.det_fin_two]
      ring
    rw [dotProduct_comm]
    refine pos_of_mul_pos_right (a := len (across (J *ᵥ t))) ?_ h0.le
    rw [h1, h2]
    exact mul_pos hJ ho
  · intro J U V o w n hJ ho h
    simp only [side3] at h
    have h0 : 0 < len ((J *ᵥ U) ⨯₃ (J *ᵥ V)) :=
      lt_of_le_of_ne (len_nonneg _) (Ne.symm (unit_some h).1)
    have h1 := unit_dot h (J *ᵥ o)
    have h2 := sameFlux3_divT hJ.ne' o U V
    rw [smul_dotProduct, smul_eq_mul] at h2
    have h3 : (J *ᵥ o) ⬝ᵥ ((J *ᵥ U) ⨯₃ (J *ᵥ V)) = J.det * ((U ⨯₃ V) ⬝ᵥ o) := by
      rw [dotProduct_comm (U ⨯₃ V), ← h2, ← mul_assoc, mul_inv_cancel₀ hJ.ne', one_mul]
    rw [dotProduct_comm]
    refine pos_of_mul_pos_right (a := len ((J *ᵥ U) ⨯₃ (J *ᵥ V))) ?_ h0.le
    rw [h1, h3]
    exact mul_pos hJ ho

/-- Weighted normal flows of functions that carry fluxes (C117) do not depend on the shape of the
element: they are the reference weight times the reference flow. -/
theorem C118_flux :
    (∀ (J : Matrix (Fin 2) (Fin 2) ℝ) (t v vref : Fin 2 → ℝ) (w : ℝ) (n : Fin 2 → ℝ),
      SameFlux2 J v vref → (side2 J t w).normal = some n →
      (side2 J t w).wt * (v ⬝ᵥ n) = w * (vref ⬝ᵥ across t)) ∧
    (∀ (J : Matrix (Fin 3) (Fin 3) ℝ) (U V v vref : Fin 3 → ℝ) (w : ℝ) (n : Fin 3 → ℝ),
      SameFlux3 J v vref → (side3 J U V w).normal = some n →
      (side3 J U V w).wt * (v ⬝ᵥ n) = w * (vref ⬝ᵥ (U ⨯₃ V))) := by
  constructor
  · intro J t v vref w n hv h
    rw [C118_weighted2 J t w n h, hv t]
  · intro J U V v vref w n hv h
    rw [C118_weighted3 J U V w n h, hv U V]

/-! ## A whole side and a whole element -/

theorem edge_jac_tri (P : Fin 3 → Fin 2 → ℝ) (s : Fin 3) (x : Fin 2 → ℝ) :
    jac triD P x *ᵥ edgeTangent (triNode (triEdge s).1) (triNode (triEdge s).2)
      = edgeTangent (P (triEdge s).1) (P (triEdge s).2) := by
  funext i
  fin_cases s <;>
    simp [jac, triD, Matrix.mulVec, dotProduct, edgeTangent, triNode, triEdge, Fin.sum_univ_two,
      Fin.sum_univ_three] <;> ring

theorem edge_jac_quad (P : Fin 4 → Fin 2 → ℝ) (s : Fin 4) (u : ℝ) :
    jac quadD P (edgePoint (quadNode (quadEdge s).1) (quadNode (quadEdge s).2) u)
        *ᵥ edgeTangent (quadNode (quadEdge s).1) (quadNode (quadEdge s).2)
      = edgeTangent (P (quadEdge s).1) (P (quadEdge s).2) := by
  funext i
  fin_cases s <;>
    simp [jac, quadD, Matrix.mulVec, dotProduct, edgeTangent, edgePoint, quadNode, quadEdge,
      Fin.sum_univ_two, Fin.sum_univ_four] <;> ring

theorem face_jac_tet (P : Fin 4 → Fin 3 → ℝ) (x : Fin 3 → ℝ) (a b : Fin 4) :
    jac tetD P x *ᵥ (fun i => tetNode b i - tetNode a i) = fun i => P b i - P a i := by
  funext i
  fin_cases a <;> fin_cases b <;>
    simp [jac, tetD, Matrix.mulVec, dotProduct, tetNode, Fin.sum_univ_three,
      Fin.sum_univ_four] <;> ring

/-- Derivative of a bilinear patch in its first and second parameter. [helper] -/
noncomputable def patchU (a b c e : Fin 3 → ℝ) (v : ℝ) : Fin 3 → ℝ :=
  fun i => ((1 - v) * (b i - a i) + (1 + v) * (c i - e i)) / 4

/-- See `patchU`. [helper] -/
noncomputable def patchV (a b c e : Fin 3 → ℝ) (u : ℝ) : Fin 3 → ℝ :=
  fun i => ((1 - u) * (e i - a i) + (1 + u) * (c i - b i)) / 4

set_option maxHeartbeats 1000000 in
theorem face_jac_hex (P : Fin 8 → Fin 3 → ℝ) (s : Fin 6) (u v : ℝ) :
    jac hexD P (quadPoint (hexNode (hexFace s 0)) (hexNode (hexFace s 1)) (hexNode (hexFace s 2))
        (hexNode (hexFace s 3)) u v) *ᵥ edgeTangent (hexNode (hexFace s 0)) (hexNode (hexFace s 1))
      = patchU (P (hexFace s 0)) (P (hexFace s 1)) (P (hexFace s 2)) (P (hexFace s 3)) v ∧
    jac hexD P (quadPoint (hexNode (hexFace s 0)) (hexNode (hexFace s 1)) (hexNode (hexFace s 2))
        (hexNode (hexFace s 3)) u v) *ᵥ edgeTangent (hexNode (hexFace s 0)) (hexNode (hexFace s 3))
      = patchV (P (hexFace s 0)) (P (hexFace s 1)) (P (hexFace s 2)) (P (hexFace s 3)) u := by
  constructor <;> funext i <;> fin_cases s <;>
    simp [jac, hexD, Matrix.mulVec, dotProduct, edgeTangent, quadPoint, hexNode, hexFace, patchU,
      patchV, Fin.sum_univ_three, Fin.sum_univ_eight] <;> ring

theorem len_edge {a b : Fin 2 → ℝ} :
    len (edgeTangent a b) = Real.sqrt ((b 0 - a 0) ^ 2 + (b 1 - a 1) ^ 2) / 2 := by
  have h : (0:ℝ) ≤ 2 := by norm_num
  rw [eq_div_iff (by norm_num), len, ← Real.sqrt_sq h, ← Real.sqrt_mul']
  · congr 1
    simp only [edgeTangent, Fin.sum_univ_two]
    ring
  · positivity

/-- The weights of an edge add up to its length, whatever the element, when those of the reference
edge add up to two. -/
theorem C118_length (q : List (ℝ × ℝ)) (hq : (q.map Prod.snd).sum = 2) :
    (∀ (P : Fin 4 → Fin 2 → ℝ) (s : Fin 4),
      (q.map fun p => (quadSide P s p.1 p.2).wt).sum =
        Real.sqrt ((P (s + 1) 0 - P s 0) ^ 2 + (P (s + 1) 1 - P s 1) ^ 2)) ∧
    (∀ (P : Fin 3 → Fin 2 → ℝ) (s : Fin 3),
      (q.map fun p => (triSide P s p.1 p.2).wt).sum =
        Real.sqrt ((P (s + 1) 0 - P s 0) ^ 2 + (P (s + 1) 1 - P s 1) ^ 2)) := by
  have key : ∀ c : ℝ, (q.map fun p => c * p.2).sum = c * 2 := by
    intro c
    rw [← hq, ← List.sum_map_mul_left]
  constructor
  · intro P s
    simp only [quadSide, side2, edge_jac_quad]
    rw [key, len_edge]
    fin_cases s <;> simp [quadEdge]
  · intro P s
    simp only [triSide, side2, edge_jac_tri]
    rw [key, len_edge]
    fin_cases s <;> simp [triEdge]

/-- The weighted normals of a closed element cancel: a constant field flows through it without gain,
on every quadrilateral and every triangle. -/
theorem C118_closed2 (q : List (ℝ × ℝ)) (hq : (q.map Prod.snd).sum = 2) (a : Fin 2 → ℝ) :
    (∀ (P : Fin 4 → Fin 2 → ℝ) (n : Fin 4 → ℝ → ℝ → Fin 2 → ℝ),
      (∀ s, ∀ p ∈ q, (quadSide P s p.1 p.2).normal = some (n s p.1 p.2)) →
      ∑ s, (q.map fun p => (quadSide P s p.1 p.2).wt * (a ⬝ᵥ n s p.1 p.2)).sum = 0) ∧
    (∀ (P : Fin 3 → Fin 2 → ℝ) (n : Fin 3 → ℝ → ℝ → Fin 2 → ℝ),
      (∀ s, ∀ p ∈ q, (triSide P s p.1 p.2).normal = some (n s p.1 p.2)) →
      ∑ s, (q.map fun p => (triSide P s p.1 p.2).wt * (a ⬝ᵥ n s p.1 p.2)).sum = 0) := by
  have key : ∀ c : ℝ, (q.map fun p => p.2 * c).sum = 2 * c := by
    intro c
    rw [← hq, List.sum_map_mul_right]
  constructor
  · intro P n h
    have e : ∀ s, (q.map fun p => (quadSide P s p.1 p.2).wt * (a ⬝ᵥ n s p.1 p.2)).sum
        = 2 * (a ⬝ᵥ across (edgeTangent (P (quadEdge s).1) (P (quadEdge s).2))) := by
      intro s
      rw [← key]
      congr 1
      refine List.map_congr_left fun p hp => ?_
      simp only [quadSide] at h ⊢
      rw [C118_weighted2 _ _ _ _ (h s p hp), edge_jac_quad]
    rw [Finset.sum_congr rfl fun s _ => e s]
    simp [Fin.sum_univ_four, across, edgeTangent, quadEdge, dotProduct, Fin.sum_univ_two]
    ring
  · intro P n h
    have e : ∀ s, (q.map fun p => (triSide P s p.1 p.2).wt * (a ⬝ᵥ n s p.1 p.2)).sum
        = 2 * (a ⬝ᵥ across (edgeTangent (P (triEdge s).1) (P (triEdge s).2))) := by
      intro s
      rw [← key]
      congr 1
      refine List.map_congr_left fun p hp => ?_
      simp only [triSide] at h ⊢
      rw [C118_weighted2 _ _ _ _ (h s p hp), edge_jac_tri]
    rw [Finset.sum_congr rfl fun s _ => e s]
    simp [Fin.sum_univ_three, across, edgeTangent, triEdge, dotProduct, Fin.sum_univ_two]
    ring

/-- The same on every tetrahedron (weights of the reference triangle adding up to a half). -/
theorem C118_closed_tet (q : List (ℝ × ℝ × ℝ)) (hq : (q.map fun p => p.2.2).sum = 1 / 2)
    (a : Fin 3 → ℝ) (P : Fin 4 → Fin 3 → ℝ) (n : Fin 4 → ℝ → ℝ → ℝ → Fin 3 → ℝ)
    (h : ∀ s, ∀ p ∈ q, (tetSide P s p.1 p.2.1 p.2.2).normal = some (n s p.1 p.2.1 p.2.2)) :
    ∑ s, (q.map fun p => (tetSide P s p.1 p.2.1 p.2.2).wt
      * (a ⬝ᵥ n s p.1 p.2.1 p.2.2)).sum = 0 := by
  have key : ∀ c : ℝ, (q.map fun p => p.2.2 * c).sum = 1 / 2 * c := by
    intro c
    rw [← hq, List.sum_map_mul_right]
  have e : ∀ s, (q.map fun p => (tetSide P s p.1 p.2.1 p.2.2).wt
      * (a ⬝ᵥ n s p.1 p.2.1 p.2.2)).sum
      = 1 / 2 * (a ⬝ᵥ ((fun i => P (tetFace s 1) i - P (tetFace s 0) i) ⨯₃
          (fun i => P (tetFace s 2) i - P (tetFace s 0) i))) := by
    intro s
    rw [← key]
    congr 1
    refine List.map_congr_left fun p hp => ?_
    simp only [tetSide] at h ⊢
    rw [C118_weighted3 _ _ _ _ _ (h s p hp), face_jac_tet, face_jac_tet]
  rw [Finset.sum_congr rfl fun s _ => e s]
  simp [Fin.sum_univ_four, tetFace, dotProduct, Fin.sum_univ_three, cross_apply]
  ring

theorem patch_area (q : List (ℝ × ℝ × ℝ)) (h0 : (q.map fun p => p.2.2).sum = 4)
    (h1 : (q.map fun p => p.2.2 * p.1).sum = 0) (h2 : (q.map fun p => p.2.2 * p.2.1).sum = 0)
    (g b c e f : Fin 3 → ℝ) :
    (q.map fun p => p.2.2 * (g ⬝ᵥ (patchU b c e f p.2.1 ⨯₃ patchV b c e f p.1))).sum
      = 1 / 2 * (g ⬝ᵥ ((fun i => e i - b i) ⨯₃ (fun i => f i - c i))) := by
  have e1 : ∀ p : ℝ × ℝ × ℝ, p.2.2 * (g ⬝ᵥ (patchU b c e f p.2.1 ⨯₃ patchV b c e f p.1))
      = p.2.2 * (g ⬝ᵥ (patchU b c e f 0 ⨯₃ patchV b c e f 0))
        + p.2.2 * p.1 * (g ⬝ᵥ (patchU b c e f 0 ⨯₃ patchV b c e f 1)
            - g ⬝ᵥ (patchU b c e f 0 ⨯₃ patchV b c e f 0))
        + p.2.2 * p.2.1 * (g ⬝ᵥ (patchU b c e f 1 ⨯₃ patchV b c e f 0)
            - g ⬝ᵥ (patchU b c e f 0 ⨯₃ patchV b c e f 0)) := by
    intro p
    simp only [dotProduct, Fin.sum_univ_three, cross_apply, patchU, patchV]
    simp
    ring
  simp only [e1]
  rw [List.sum_map_add, List.sum_map_add, List.sum_map_mul_right, List.sum_map_mul_right,
    List.sum_map_mul_right, h0, h1, h2]
  simp only [dotProduct, Fin.sum_univ_three, cross_apply, patchU, patchV]
  simp
  ring

/-- The same on every hexahedron, also with twisted faces (weights of the reference square adding up
to four and symmetric points). -/
theorem C118_closed_hex (q : List (ℝ × ℝ × ℝ)) (h0 : (q.map fun p => p.2.2).sum = 4)
    (h1 : (q.map fun p => p.2.2 * p.1).sum = 0) (h2 : (q.map fun p => p.2.2 * p.2.1).sum = 0)
    (a : Fin 3 → ℝ) (P : Fin 8 → Fin 3 → ℝ) (n : Fin 6 → ℝ → ℝ → ℝ → Fin 3 → ℝ)
    (h : ∀ s, ∀ p ∈ q, (hexSide P s p.1 p.2.1 p.2.2).normal = some (n s p.1 p.2.1 p.2.2)) :
    ∑ s, (q.map fun p => (hexSide P s p.1 p.2.1 p.2.2).wt
      * (a ⬝ᵥ n s p.1 p.2.1 p.2.2)).sum = 0 := by
  have e : ∀ s, (q.map fun p => (hexSide P s p.1 p.2.1 p.2.2).wt
      * (a ⬝ᵥ n s p.1 p.2.1 p.2.2)).sum
      = 1 / 2 * (a ⬝ᵥ ((fun i => P (hexFace s 2) i - P (hexFace s 0) i) ⨯₃
          (fun i => P (hexFace s 3) i - P (hexFace s 1) i))) := by
    intro s
    rw [← patch_area q h0 h1 h2]
    congr 1
    refine List.map_congr_left fun p hp => ?_
    simp only [hexSide] at h ⊢
    rw [C118_weighted3 _ _ _ _ _ (h s p hp), (face_jac_hex P s _ _).1, (face_jac_hex P s _ _).2]
  rw [Finset.sum_congr rfl fun s _ => e s]
  simp [Fin.sum_univ_six, hexFace, dotProduct, Fin.sum_univ_three, cross_apply]
  ring

/-- In one dimension the two ends cancel as well. -/
theorem C118_closed_line (n : Bool → Fin 1 → ℝ)
    (h : ∀ l, (boundary1 l).normal = some (n l)) (a : Fin 1 → ℝ) :
    (boundary1 true).wt * (a ⬝ᵥ n true) + (boundary1 false).wt * (a ⬝ᵥ n false) = 0 := by
  have h1 := unit_dot (h true) a
  have h2 := unit_dot (h false) a
  simp [len, dotProduct] at h1 h2
  simp [boundary1, dotProduct, h1, h2]

/-! ## Measures -/

theorem measure_eq (dets ws : List ℝ) (hd : 0 ≤ dets.headD 1) :
    measure dets ws = (List.zipWith (fun D w => D * w) dets ws).sum := by
  unfold measure cellWeights
  rw [if_neg (not_lt.mpr hd)]
  simp

/-- Weights are positive on every element whose determinants have one sign. -/
theorem C118_positive (dets ws : List ℝ)
    (hd : (∀ D ∈ dets, 0 < D) ∨ ∀ D ∈ dets, D < 0) (hw : ∀ w ∈ ws, 0 < w) :
    ∀ x ∈ cellWeights dets ws, 0 < x := by
  intro x hx
  unfold cellWeights at hx
  simp only at hx
  obtain ⟨i, hi, rfl⟩ := List.getElem_of_mem hx
  rw [List.getElem_zipWith]
  have hi1 : i < dets.length := by simp at hi; omega
  have hi2 : i < ws.length := by simp at hi; omega
  have w0 := hw _ (List.getElem_mem hi2)
  have hne : dets ≠ [] := by rintro rfl; simp at hi1
  obtain ⟨D0, ds, rfl⟩ := List.exists_cons_of_ne_nil hne
  rcases hd with hd | hd
  · have d0 := hd _ (List.getElem_mem hi1)
    have hh : ¬ (D0 < 0) := not_lt.mpr (hd D0 (by simp)).le
    have e : (List.headD (D0 :: ds) 1) = D0 := rfl
    simp only [e, if_neg hh, one_mul]
    exact mul_pos d0 w0
  · have d0 := hd _ (List.getElem_mem hi1)
    have hh : D0 < 0 := hd D0 (by simp)
    have e : (List.headD (D0 :: ds) 1) = D0 := rfl
    simp only [e, if_pos hh, neg_one_mul]
    exact mul_pos (neg_pos.mpr d0) w0

/-- The measure of a quadrilateral is its area (half the cross product of the diagonals), for any
rule with weights adding up to four and symmetric points, also when its sides are not parallel. -/
theorem C118_area_quad (q : List ((Fin 2 → ℝ) × ℝ)) (h0 : (q.map Prod.snd).sum = 4)
    (h1 : (q.map fun p => p.2 * p.1 0).sum = 0) (h2 : (q.map fun p => p.2 * p.1 1).sum = 0)
    (P : Fin 4 → Fin 2 → ℝ) (hd : ∀ p ∈ q, 0 < (jac quadD P p.1).det) :
    measure (q.map fun p => (jac quadD P p.1).det) (q.map Prod.snd)
      = ((P 2 0 - P 0 0) * (P 3 1 - P 1 1) - (P 2 1 - P 0 1) * (P 3 0 - P 1 0)) / 2 := by
  rw [measure_eq]
  · rw [List.zipWith_map, List.zipWith_self]
    have e : ∀ p : (Fin 2 → ℝ) × ℝ, (jac quadD P p.1).det * p.2
        = p.2 * (jac quadD P 0).det
          + p.2 * p.1 0 * ((jac quadD P ![1, 0]).det - (jac quadD P 0).det)
          + p.2 * p.1 1 * ((jac quadD P ![0, 1]).det - (jac quadD P 0).det) := by
      intro p
      simp [Matrix.det_fin_two, jac, quadD, quadNode, Fin.sum_univ_four]
      ring
    simp only [e]
    rw [List.sum_map_add, List.sum_map_add, List.sum_map_mul_right, List.sum_map_mul_right,
      List.sum_map_mul_right, h1, h2]
    have h0' : (q.map fun p => p.2).sum = 4 := h0
    rw [h0']
    simp [Matrix.det_fin_two, jac, quadD, quadNode, Fin.sum_univ_four]
    ring
  · cases q with
    | nil => simp
    | cons p q => simpa using (hd p (by simp)).le

/-- The measure of a triangle is its area, that of a tetrahedron its volume, whichever way its
corners are numbered. -/
theorem C118_volume_simplex :
    (∀ (q : List ((Fin 2 → ℝ) × ℝ)) (P : Fin 3 → Fin 2 → ℝ), (q.map Prod.snd).sum = 1 / 2 →
      measure (q.map fun p => (jac triD P p.1).det) (q.map Prod.snd)
        = |(P 1 0 - P 0 0) * (P 2 1 - P 0 1) - (P 1 1 - P 0 1) * (P 2 0 - P 0 0)| / 2) ∧
    (∀ (q : List ((Fin 3 → ℝ) × ℝ)) (P : Fin 4 → Fin 3 → ℝ), (q.map Prod.snd).sum = 1 / 6 →
      measure (q.map fun p => (jac tetD P p.1).det) (q.map Prod.snd)
        = |(fun i => P 1 i - P 0 i) ⬝ᵥ ((fun i => P 2 i - P 0 i) ⨯₃ (fun i => P 3 i - P 0 i))|
          / 6) := by
  have key : ∀ (d : ℕ) (q : List ((Fin d → ℝ) × ℝ)) (D : ℝ), q ≠ [] →
      measure (q.map fun _ => D) (q.map Prod.snd) = |D| * (q.map Prod.snd).sum := by
    intro d q D hq
    unfold measure cellWeights
    rw [List.zipWith_map, List.zipWith_self]
    obtain ⟨p, r, rfl⟩ := List.exists_cons_of_ne_nil hq
    have : (List.map (fun _ => D) (p :: r)).headD 1 = D := rfl
    simp only [this]
    rw [List.sum_map_mul_left]
    by_cases hD : D < 0
    · rw [if_pos hD, abs_of_neg hD]; ring
    · rw [if_neg hD, abs_of_nonneg (not_lt.mp hD)]; ring
  constructor
  · intro q P hq
    have hne : q ≠ [] := by rintro rfl; norm_num at hq
    have e : ∀ p : (Fin 2 → ℝ) × ℝ, (jac triD P p.1).det
        = (P 1 0 - P 0 0) * (P 2 1 - P 0 1) - (P 1 1 - P 0 1) * (P 2 0 - P 0 0) := by
      intro p
      simp [Matrix.det_fin_two, jac, triD, Fin.sum_univ_three]
      ring
    simp only [e]
    rw [key 2 q _ hne, hq]
    ring
  · intro q P hq
    have hne : q ≠ [] := by rintro rfl; norm_num at hq
    have e : ∀ p : (Fin 3 → ℝ) × ℝ, (jac tetD P p.1).det
        = (fun i => P 1 i - P 0 i) ⬝ᵥ ((fun i => P 2 i - P 0 i) ⨯₃ (fun i => P 3 i - P 0 i)) := by
      intro p
      simp [Matrix.det_fin_three, jac, tetD, Fin.sum_univ_four, dotProduct, Fin.sum_univ_three,
        cross_apply]
      ring
    simp only [e]
    rw [key 3 q _ hne, hq]
    ring

/-- Sizes: an element or a side of positive measure has a positive size whose power of the dimension
is the measure. -/
theorem C118_size (wts : List ℝ) (hw : 0 < wts.sum) (dim : ℕ) :
    (1 ≤ dim → 0 < elementSize dim wts ∧ elementSize dim wts ^ dim = wts.sum) ∧
    (2 ≤ dim → ∃ h, sideSize dim wts = some h ∧ 0 < h ∧ h ^ (dim - 1) = wts.sum) := by
  constructor
  · intro h
    refine ⟨Real.rpow_pos_of_pos hw _, ?_⟩
    unfold elementSize
    rw [one_div]
    exact Real.rpow_inv_natCast_pow hw.le (by omega)
  · intro h
    have hne : ((dim : ℝ) - 1) ≠ 0 := by
      have : (2:ℝ) ≤ dim := by exact_mod_cast h
      linarith
    refine ⟨_, by unfold sideSize; rw [if_neg hne], Real.rpow_pos_of_pos hw _, ?_⟩
    have : ((dim : ℝ) - 1) = ((dim - 1 : ℕ) : ℝ) := by
      rw [Nat.cast_sub (by omega)]; simp
    rw [this, one_div]
    exact Real.rpow_inv_natCast_pow hw.le (by omega)

/-! ## What does not hold -/

/-- Interior faces in one dimension have weight zero and no normal, so that nothing integrated over
them counts, while the ends of the same elements as boundaries have weight one. -/
theorem C118_face1_violated :
    face1.wt = 0 ∧ face1.normal = none ∧ face1.tangent = 0 ∧ ∀ l, (boundary1 l).wt = 1 := by
  refine ⟨rfl, ?_, rfl, fun _ => rfl⟩
  simp [face1, unit, len]

/-- C118: the points of a side are those of the reference side carried over with its corners: the centre
of gravity of the corners with the weights of the reference point. -/
theorem C118_points {d : ℕ} (a b : Fin d → ℝ) (p q r s : Fin 3 → ℝ) (u v : ℝ) :
    edgePoint a b u = ((1 - u) / 2) • a + ((1 + u) / 2) • b ∧
    triPoint p q r u v = (1 - u - v) • p + u • q + v • r ∧
    quadPoint p q r s u v = ((1 - v) / 2) • edgePoint p q u + ((1 + v) / 2) • edgePoint s r u := by
  refine ⟨?_, ?_, ?_⟩ <;> funext i <;> simp [edgePoint, triPoint, quadPoint] <;> ring

/-- The tangent fields of a boundary are not unit vectors: in two dimensions the tangent has half the
length of the side (in the mapped direction), in three dimensions it is zero. -/
theorem C118_tangent_violated :
    (∃ P : Fin 4 → Fin 2 → ℝ, ∀ u w, len (quadSide P 0 u w).tangent = 2) ∧
    ∀ J U V w, (side3 J U V w).tangent = 0 := by
  refine ⟨⟨![![0, 0], ![4, 0], ![4, 1], ![0, 1]], fun u w => ?_⟩, fun _ _ _ _ => rfl⟩
  simp only [quadSide, side2, edge_jac_quad]
  rw [len_edge]
  simp [quadEdge]
  norm_num

/-! ## Cases -/

/-- A rectangle of sides two and six: weight of the right side and its normal. -/
example : (side2 !![1, 0; 0, 3] ![0, 1] 2).wt = 6 ∧
    (side2 !![1, 0; 0, 3] ![0, 1] 2).normal = some ![1, 0] := by
  have h : len ![(0:ℝ), 3] = 3 := by
    simp [len, Fin.sum_univ_two]
  have hv : (!![1, 0; 0, 3] : Matrix (Fin 2) (Fin 2) ℝ) *ᵥ ![0, 1] = ![0, 3] := by
    funext i; fin_cases i <;> simp [Matrix.mulVec, dotProduct, Fin.sum_univ_two]
  have ha : across ![(0:ℝ), 3] = ![3, 0] := by
    funext i; fin_cases i <;> simp [across]
  constructor
  · simp only [side2, hv, h]; norm_num
  · simp only [side2, hv, rotation_across, unit, len_across, h]
    rw [if_neg (by norm_num), ha]
    congr 1
    funext i; fin_cases i <;> norm_num

/-- The conditions on the rules hold for the one point rules and for any symmetric pair. -/
example (g : ℝ) : ([(g, 1), (-g, 1)].map Prod.snd).sum = (2:ℝ) ∧
    ([(g, g, 1), (-g, g, 1), (g, -g, 1), (-g, -g, 1)].map fun p => p.2.2).sum = (4:ℝ) ∧
    ([(g, g, 1), (-g, g, 1), (g, -g, 1), (-g, -g, 1)].map fun p => p.2.2 * p.1).sum = (0:ℝ) := by
  refine ⟨by norm_num, by norm_num, by norm_num⟩

/-- A quadrilateral with no parallel sides and the one point rule. -/
example : measure ([((0 : Fin 2 → ℝ), (4:ℝ))].map fun p =>
      (jac quadD ![![0, 0], ![4, 0], ![3, 3], ![0, 2]] p.1).det)
    ([((0 : Fin 2 → ℝ), (4:ℝ))].map Prod.snd) = 9 := by
  rw [C118_area_quad _ (by norm_num) (by norm_num) (by norm_num)]
  · simp; norm_num
  · simp [Matrix.det_fin_two, jac, quadD, quadNode, Fin.sum_univ_four]; norm_num

/-- The reference hexahedron has a normal on every side. -/
example (s : Fin 6) (u v w : ℝ) : ∃ n, (hexSide hexNode s u v w).normal = some n := by
  simp only [hexSide, side3, (face_jac_hex hexNode s u v).1, (face_jac_hex hexNode s u v).2]
  rw [unit_isSome]
  intro h
  have a := congrFun h 0
  have b := congrFun h 1
  have c := congrFun h 2
  fin_cases s <;>
    simp [patchU, patchV, hexNode, hexFace, cross_apply] at a b c <;>
    (first
      | (rcases a with a | a <;> linarith)
      | (rcases b with b | b <;> linarith)
      | (rcases c with c | c <;> linarith))

end MrHyDE.Disc
