import Verif.Discretization.Basis
import Mathlib.Tactic.FinCases

/-!
# Basis functions on elements, faces, boundaries and at points: C117

**C117.** For every element with an invertible map, the values handed out for a basis function are
the values on the element of the reference function it stands for: scalar values are unchanged,
gradients and edge functions give the same change (circulation) along every mapped step, face
functions and curls give the same flow through every mapped segment or parallelogram, and divergences
keep their integral.  The same holds on faces, on boundary sides, at nodes and at given points.

The code violates it for gradients on faces (`C117_face_violated`), for vector functions at nodes
(`C117_nodes_violated`, `C117_nodes_end_violated`), and for the `HDIV_AC` and `HFACE` types at given
points (`C117_point_violated`).
-/

set_option linter.unusedSectionVars false

namespace MrHyDE.Disc

open Matrix

variable {K : Type} [Field K] {d nb np : ℕ}

/-! ## What holds -/

/-- Gradient spaces, in the element and on boundary sides: the values are those of the reference
function, and the gradient predicts the change along every step. -/
theorem C117_gradient_partial (J : Fin np → Matrix (Fin d) (Fin d) K) (hJ : ∀ p, (J p).det ≠ 0)
    (M : Matrix (Fin nb) (Fin nb) K) (b : Ref K d nb np) (hb : kindOf b.type = .hgrad) :
    ∀ T ∈ [volume true J M b, boundary J M b], ∃ v g, T.val = some v ∧ T.grad = some g ∧
      ∀ i p, v i p = shape b.oriented M b.val i p ∧
        Covariant (J p) (g i p) (shape b.oriented M b.grad i p) := by
  intro T hT
  simp only [List.mem_cons, List.not_mem_nil, or_false] at hT
  rcases hT with rfl | rfl
  · simp only [volume, hb, Bool.true_and]
    refine ⟨_, _, rfl, rfl, fun i p => ⟨?_, ?_⟩⟩
    · rw [orient_eq_shape]
    · rw [orient_eq_shape, shape_gradT]
      exact covariant_gradT (hJ p) _
  · simp only [boundary, hb]
    refine ⟨_, _, rfl, rfl, fun i p => ⟨?_, ?_⟩⟩
    · rw [orient_eq_shape]
    · rw [orient_eq_shape, shape_gradT]
      exact covariant_gradT (hJ p) _

/-- On faces the same holds for gradient spaces that need orientations (order two and up). -/
theorem C117_gradient_face_partial (J : Fin np → Matrix (Fin d) (Fin d) K)
    (hJ : ∀ p, (J p).det ≠ 0) (M : Matrix (Fin nb) (Fin nb) K) (b : Ref K d nb np)
    (hb : kindOf b.type = .hgrad) (ho : b.oriented = true) :
    ∃ v g, (face J M b).val = some v ∧ (face J M b).grad = some g ∧
      ∀ i p, v i p = shape true M b.val i p ∧
        Covariant (J p) (g i p) (shape true M b.grad i p) := by
  simp only [face, hb, ho, if_true]
  refine ⟨_, _, rfl, rfl, fun i p => ⟨?_, ?_⟩⟩
  · rw [orient_eq_shape]
  · have : combine M (gradT J b.grad) = shape true M (gradT J b.grad) := orient_eq_shape true M _
    rw [this, shape_gradT]
    exact covariant_gradT (hJ p) _

/-- Gradients at given points (used for sensors). -/
theorem C117_gradient_points (J : Fin np → Matrix (Fin d) (Fin d) K)
    (hJ : ∀ p, (J p).det ≠ 0) (M : Matrix (Fin nb) (Fin nb) K) (b : Ref K d nb np) (i : Fin nb)
    (p : Fin np) :
    Covariant (J p) (pointGrads J M b i p) (shape b.oriented M b.grad i p) ∧
      Covariant (J p) (pointGradsPlain J b i p) (b.grad i p) := by
  constructor
  · rw [pointGrads, orient_eq_shape, shape_gradT]
    exact covariant_gradT (hJ p) _
  · exact covariant_gradT (hJ p) _

/-- Edge spaces: same circulation along every mapped step, everywhere. -/
theorem C117_circulation (J : Fin np → Matrix (Fin d) (Fin d) K)
    (hJ : ∀ p, (J p).det ≠ 0) (M : Matrix (Fin nb) (Fin nb) K) (b : Ref K d nb np)
    (hb : kindOf b.type = .hcurl) :
    ∀ T ∈ [volume true J M b, volumeVals J M b, face J M b, boundary J M b],
      ∃ v, T.vec = some v ∧
        ∀ i p, Covariant (J p) (v i p) (shape b.oriented M b.vec i p) := by
  intro T hT
  simp only [List.mem_cons, List.not_mem_nil, or_false] at hT
  have key : ∀ i p, Covariant (J p) (orient b.oriented M (gradT J b.vec) i p)
      (shape b.oriented M b.vec i p) := by
    intro i p
    rw [orient_eq_shape, shape_gradT]
    exact covariant_gradT (hJ p) _
  rcases hT with rfl | rfl | rfl | rfl
  · exact ⟨_, by simp only [volume, hb]; rfl, key⟩
  · exact ⟨_, by simp only [volumeVals, hb], key⟩
  · exact ⟨_, by simp only [face, hb], key⟩
  · exact ⟨_, by simp only [boundary, hb], key⟩

/-- Face spaces in two dimensions: same flow through every mapped segment. -/
theorem C117_flux2 (J : Fin np → Matrix (Fin 2) (Fin 2) K)
    (hJ : ∀ p, (J p).det ≠ 0) (M : Matrix (Fin nb) (Fin nb) K) (b : Ref K 2 nb np)
    (hb : kindOf b.type = .hdiv) :
    ∀ T ∈ [volume true J M b, volumeVals J M b, face J M b, boundary J M b],
      ∃ v, T.vec = some v ∧
        ∀ i p, SameFlux2 (J p) (v i p) (shape b.oriented M b.vec i p) := by
  intro T hT
  simp only [List.mem_cons, List.not_mem_nil, or_false] at hT
  have key : ∀ i p, SameFlux2 (J p) (orient b.oriented M (divT J b.vec) i p)
      (shape b.oriented M b.vec i p) := by
    intro i p
    rw [orient_eq_shape, shape_divT]
    exact sameFlux2_divT (hJ p) _
  rcases hT with rfl | rfl | rfl | rfl
  · exact ⟨_, by simp only [volume, hb]; rfl, key⟩
  · exact ⟨_, by simp only [volumeVals, hb], key⟩
  · exact ⟨_, by simp only [face, hb], key⟩
  · exact ⟨_, by simp only [boundary, hb], key⟩

/-- Face spaces in three dimensions: same flow through every mapped parallelogram. -/
theorem C117_flux3 (J : Fin np → Matrix (Fin 3) (Fin 3) K)
    (hJ : ∀ p, (J p).det ≠ 0) (M : Matrix (Fin nb) (Fin nb) K) (b : Ref K 3 nb np)
    (hb : kindOf b.type = .hdiv) :
    ∀ T ∈ [volume true J M b, volumeVals J M b, face J M b, boundary J M b],
      ∃ v, T.vec = some v ∧
        ∀ i p, SameFlux3 (J p) (v i p) (shape b.oriented M b.vec i p) := by
  intro T hT
  simp only [List.mem_cons, List.not_mem_nil, or_false] at hT
  have key : ∀ i p, SameFlux3 (J p) (orient b.oriented M (divT J b.vec) i p)
      (shape b.oriented M b.vec i p) := by
    intro i p
    rw [orient_eq_shape, shape_divT]
    exact sameFlux3_divT (hJ p) _
  rcases hT with rfl | rfl | rfl | rfl
  · exact ⟨_, by simp only [volume, hb]; rfl, key⟩
  · exact ⟨_, by simp only [volumeVals, hb], key⟩
  · exact ⟨_, by simp only [face, hb], key⟩
  · exact ⟨_, by simp only [boundary, hb], key⟩

/-- Curls of edge functions in three dimensions: same flow of the curl through every mapped
parallelogram (Stokes' theorem is kept). -/
theorem C117_curl3 (J : Fin np → Matrix (Fin 3) (Fin 3) K) (hJ : ∀ p, (J p).det ≠ 0)
    (M : Matrix (Fin nb) (Fin nb) K) (b : Ref K 3 nb np) (hb : kindOf b.type = .hcurl) :
    ∃ c, (volume true J M b).curl = some c ∧
      ∀ i p, SameFlux3 (J p) (c i p) (shape b.oriented M b.curl i p) := by
  refine ⟨_, by simp only [volume, hb]; rfl, fun i p => ?_⟩
  simp only [Bool.true_and]
  rw [orient_eq_shape, shape_divT]
  exact sameFlux3_divT (hJ p) _

/-- Divergences of face functions: the weighted divergence of the element is that of the reference
element (the physical weight of a point is the determinant times the reference weight). -/
theorem C117_divergence (J : Fin np → Matrix (Fin d) (Fin d) K) (hJ : ∀ p, (J p).det ≠ 0)
    (M : Matrix (Fin nb) (Fin nb) K) (b : Ref K d nb np) (hb : kindOf b.type = .hdiv) :
    ∃ c, (volume true J M b).div = some c ∧
      ∀ (w : Fin np → K) i, ∑ p, (J p).det * w p * c i p =
        ∑ p, w p * shape b.oriented M b.div i p := by
  refine ⟨_, by simp only [volume, hb]; rfl, fun w i => Finset.sum_congr rfl fun p _ => ?_⟩
  simp only [Bool.true_and]
  rw [orient_eq_shape, shape_divDiv]
  field_simp [hJ p]

/-- The conditions determine the values: no other vector on the element has the same changes along
all steps, or the same flow through all segments or parallelograms. -/
theorem C117_determined :
    (∀ (J : Matrix (Fin d) (Fin d) K), J.det ≠ 0 → ∀ g g' gref : Fin d → K,
      Covariant J g gref → Covariant J g' gref → g = g') ∧
    (∀ (J : Matrix (Fin 2) (Fin 2) K), J.det ≠ 0 → ∀ v v' vref : Fin 2 → K,
      SameFlux2 J v vref → SameFlux2 J v' vref → v = v') ∧
    (∀ (J : Matrix (Fin 3) (Fin 3) K), J.det ≠ 0 → ∀ v v' vref : Fin 3 → K,
      SameFlux3 J v vref → SameFlux3 J v' vref → v = v') := by
  refine ⟨fun J hJ g g' gref => covariant_unique hJ, fun J hJ v v' vref h h' => ?_,
    fun J hJ v v' vref h h' => ?_⟩
  · have e : ∀ x, J *ᵥ (J⁻¹ *ᵥ x) = x := fun x => by
      rw [Matrix.mulVec_mulVec, Matrix.mul_nonsing_inv _ (isUnit_iff_ne_zero.mpr hJ),
        Matrix.one_mulVec]
    have a := fun x => (h (J⁻¹ *ᵥ x)).trans (h' (J⁻¹ *ᵥ x)).symm
    simp only [e] at a
    have a0 := a ![0, 1]
    have a1 := a ![-1, 0]
    simp [across, dotProduct, Fin.sum_univ_two] at a0 a1
    funext i
    fin_cases i
    · exact a0
    · exact a1
  · have e : ∀ x, J *ᵥ (J⁻¹ *ᵥ x) = x := fun x => by
      rw [Matrix.mulVec_mulVec, Matrix.mul_nonsing_inv _ (isUnit_iff_ne_zero.mpr hJ),
        Matrix.one_mulVec]
    have a := fun x y => (h (J⁻¹ *ᵥ x) (J⁻¹ *ᵥ y)).trans (h' (J⁻¹ *ᵥ x) (J⁻¹ *ᵥ y)).symm
    simp only [e] at a
    have a0 := a ![0, 1, 0] ![0, 0, 1]
    have a1 := a ![0, 0, 1] ![1, 0, 0]
    have a2 := a ![1, 0, 0] ![0, 1, 0]
    simp [cross_apply, dotProduct, Fin.sum_univ_three] at a0 a1 a2
    funext i
    fin_cases i
    · exact a0
    · exact a1
    · exact a2

/-- Scalar values of cell-wise and face spaces are unchanged; the short routine and the point
evaluation agree with the full one for the types they know. -/
theorem C117_values (J : Fin np → Matrix (Fin d) (Fin d) K) (M : Matrix (Fin nb) (Fin nb) K)
    (b : Ref K d nb np) :
    ((kindOf b.type = .hvol) → (volume true J M b).val = some b.val ∧
      (face J M b).val = some b.val ∧ (boundary J M b).val = some b.val) ∧
    ((kindOf b.type = .hface) → (face J M b).val = some (shape b.oriented M b.val) ∧
      (boundary J M b).val = some (shape b.oriented M b.val)) ∧
    ((volumeVals J M b).val = (volume true J M b).val ∧
      (volumeVals J M b).vec = (volume true J M b).vec) ∧
    (b.type ∈ ["HGRAD", "HDIV", "HCURL"] → (pointBasis J M b).val = (volume true J M b).val ∧
      (pointBasis J M b).vec = (volume true J M b).vec) := by
  refine ⟨fun h => ?_, fun h => ?_, ?_, fun h => ?_⟩
  · simp [volume, face, boundary, h]
  · simp [face, boundary, h, orient_eq_shape]
  · unfold volumeVals volume
    cases kindOf b.type <;> simp
  · have k1 : kindOf "HGRAD" = .hgrad := by decide
    have k2 : kindOf "HDIV" = .hdiv := by decide
    have k3 : kindOf "HCURL" = .hcurl := by decide
    simp only [List.mem_cons, List.not_mem_nil, or_false] at h
    rcases h with h | h | h
    · simp [pointBasis, volume, h, k1]
    · simp [pointBasis, volume, h, k2]
    · simp [pointBasis, volume, h, k3]

/-- Without orientations the volume routine hands out the plain transformed functions. -/
theorem C117_plain (J : Fin np → Matrix (Fin d) (Fin d) K) (hJ : ∀ p, (J p).det ≠ 0)
    (M : Matrix (Fin nb) (Fin nb) K) (b : Ref K d nb np) (hb : kindOf b.type = .hgrad) :
    ∃ v g, (volume false J M b).val = some v ∧ (volume false J M b).grad = some g ∧
      ∀ i p, v i p = b.val i p ∧ Covariant (J p) (g i p) (b.grad i p) := by
  simp only [volume, hb, Bool.false_and]
  refine ⟨_, _, rfl, rfl, fun i p => ⟨rfl, ?_⟩⟩
  exact covariant_gradT (hJ p) _

/-- Vector functions at the nodes are right when the map of the element is affine and there are at
least as many integration points as nodes. -/
theorem C117_nodes_partial {nn : ℕ} (J₀ : Matrix (Fin 2) (Fin 2) K) (hJ : J₀.det ≠ 0)
    (hn : nn ≤ np) (a : Bool) (M : Matrix (Fin nb) (Fin nb) K)
    (f : Fin nb → Fin nn → Fin 2 → K) (i : Fin nb) (n : Fin nn) :
    (∃ v, nodeVec "HDIV" a (fun _ : Fin np => J₀) M f i n = some v ∧
      SameFlux2 J₀ v (shape a M f i n)) ∧
    (∃ v, nodeVec "HCURL" a (fun _ : Fin np => J₀) M f i n = some v ∧
      Covariant J₀ v (shape a M f i n)) := by
  have k2 : kindOf "HDIV" = .hdiv := by decide
  have k3 : kindOf "HCURL" = .hcurl := by decide
  have h : n.val < np := lt_of_lt_of_le n.isLt hn
  constructor
  · refine ⟨_, by simp only [nodeVec, h, k2, dif_pos]; rfl, ?_⟩
    rw [orient_eq_shape, shape_divT]
    exact sameFlux2_divT hJ _
  · refine ⟨_, by simp only [nodeVec, h, k3, dif_pos]; rfl, ?_⟩
    rw [orient_eq_shape, shape_gradT]
    exact covariant_gradT hJ _

/-! ## What the code violates -/

/-- On faces the gradient of every gradient space that needs no orientations (order one, where
no unknown sits inside an edge or a face) is handed out as zero, whatever the basis and the element. -/
theorem C117_face_violated :
    (∀ (J : Fin np → Matrix (Fin d) (Fin d) K) (M : Matrix (Fin nb) (Fin nb) K) (b : Ref K d nb np),
      kindOf b.type = .hgrad → b.oriented = false →
        (face J M b).grad = some (fun _ _ _ => 0)) ∧
    ¬ ∀ (J : Fin 1 → Matrix (Fin 1) (Fin 1) ℚ) (M : Matrix (Fin 1) (Fin 1) ℚ) (b : Ref ℚ 1 1 1),
      (∀ p, (J p).det ≠ 0) → kindOf b.type = .hgrad → ∃ g, (face J M b).grad = some g ∧
        ∀ i p, Covariant (J p) (g i p) (shape b.oriented M b.grad i p) := by
  constructor
  · intro J M b hb ho
    simp [face, hb, ho]
  · intro h
    obtain ⟨g, hg, hc⟩ := h (fun _ => 1) 1
      ⟨"HGRAD", false, fun _ _ => 0, fun _ _ _ => 0, fun _ _ _ => 1, fun _ _ => 0, fun _ _ _ => 0⟩
      (by simp) (by decide)
    have k1 : kindOf "HGRAD" = .hgrad := by decide
    simp [face, k1] at hg
    have := hc 0 0 (fun _ => 1)
    simp [← hg, shape, dotProduct] at this

/-- On a quadrilateral that is not a parallelogram the face functions at a node are computed with the
Jacobian of an integration point.  The element is the image of the map
`(ξ, η) ↦ (ξ (2 + η), η)`; the first node is `(-1, -1)` and the first integration point `(-a, -a)`. -/
theorem C117_nodes_violated (a : ℚ) (h1 : a ≠ 1) (h2 : a ≠ 2)
    (J : Fin 4 → Matrix (Fin 2) (Fin 2) ℚ) (hJ : J 0 = !![2 - a, -a; 0, 1]) :
    ∃ f : Fin 1 → Fin 4 → Fin 2 → ℚ, ∃ v, nodeVec "HDIV" false J 1 f 0 0 = some v ∧
      ¬ SameFlux2 !![2 + (-1), -1; 0, 1] v (f 0 0) := by
  have k2 : kindOf "HDIV" = .hdiv := by decide
  refine ⟨fun _ _ => ![0, 1], _, by simp [nodeVec, k2, orient]; rfl, fun h => ?_⟩
  have := h ![1, 0]
  simp [divT, hJ, across, dotProduct, Matrix.mulVec, Fin.sum_univ_two, Matrix.det_fin_two] at this
  norm_num at this
  have h3 : (2 : ℚ) - a ≠ 0 := sub_ne_zero.mpr (Ne.symm h2)
  apply h1
  linarith

/-- With fewer integration points than nodes (one point on a quadrilateral) the Jacobians are read
past their end. -/
theorem C117_nodes_end_violated {nn : ℕ} (type : String) (a : Bool)
    (J : Fin np → Matrix (Fin d) (Fin d) K) (M : Matrix (Fin nb) (Fin nb) K)
    (f : Fin nb → Fin nn → Fin d → K) (i : Fin nb) (n : Fin nn) (h : np ≤ n.val) :
    nodeVec type a J M f i n = none := by
  simp [nodeVec, Nat.not_lt.mpr h]

/-- The type `HDIV_AC` (and `HFACE`) yields values in the element or on its sides but nothing at
given points (sensors). -/
theorem C117_point_violated (J : Fin np → Matrix (Fin d) (Fin d) K) (M : Matrix (Fin nb) (Fin nb) K)
    (b : Ref K d nb np) :
    (b.type = "HDIV_AC" → (volume true J M b).vec ≠ none ∧ (pointBasis J M b).vec = none ∧
      (pointBasis J M b).val = none) ∧
    (b.type = "HFACE" → (face J M b).val ≠ none ∧ (pointBasis J M b).val = none ∧
      (pointBasis J M b).vec = none) := by
  have k1 : kindOf "HDIV_AC" = .hdiv := by decide
  have k2 : kindOf "HFACE" = .hface := by decide
  constructor
  · intro h
    simp [volume, pointBasis, h, k1]
  · intro h
    simp [face, pointBasis, h, k2]

/-! ## Cases -/

/-- [case] An element of the plane with an invertible map, and the gradient of `x` on it. -/
example : ((!![2, 1; 0, 3] : Matrix (Fin 2) (Fin 2) ℚ)).det ≠ 0 ∧
    Covariant (!![2, 1; 0, 3] : Matrix (Fin 2) (Fin 2) ℚ) ![1, 0] ![2, 1] := by
  refine ⟨by simp [Matrix.det_fin_two], fun t => ?_⟩
  simp [dotProduct, Matrix.mulVec, Fin.sum_univ_two]

/-- [case] Types that reach each of the cases. -/
example : kindOf "HGRAD" = .hgrad ∧ kindOf "HDIV_AC" = .hdiv ∧ kindOf "HCURL" = .hcurl ∧
    kindOf "HFACE" = .hface ∧ kindOf "HVOL" = .hvol ∧ kindOf "VERTEX" = .other := by decide

/-- [case] The flow of a constant field through a mapped segment. -/
example : SameFlux2 (!![2, 0; 0, 3] : Matrix (Fin 2) (Fin 2) ℚ) ![1/3, 0] ![1, 0] := by
  intro t
  simp [across, dotProduct, Matrix.mulVec, Fin.sum_univ_two]

end MrHyDE.Disc
