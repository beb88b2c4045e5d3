import Verif.Opt.Lemmas
import Mathlib.Tactic.NormNum
import Mathlib.Algebra.Order.Ring.Rat
import Mathlib.Algebra.Field.Rat

/-!
# Optimisation vectors: C30 and C55
-/

set_option linter.unusedSectionVars false

namespace MrHyDE.Opt

variable {K : Type}

section
variable [Field K]

/-! ### C30 -/

/-- **C30, entrywise operations.**  For two vectors with the same components, `set`, `plus`, `axpy`, `scale`,
`putScalar` and `zero` act on the list of all numbers entry by entry, and keep the components and the metric. -/
theorem C30_entrywise {x y : OptVec K} (h : Same x y) (a : K) :
    (∃ r, x.set y = some r ∧ Same r x ∧ SameMetric r x ∧ r.entries = y.entries) ∧
    (∃ r, x.plus y = some r ∧ Same r x ∧ SameMetric r x ∧ r.entries = List.zipWith (· + ·) x.entries y.entries) ∧
    (∃ r, x.axpy a y = some r ∧ Same r x ∧ SameMetric r x ∧
      r.entries = List.zipWith (fun p q => p + a * q) x.entries y.entries) ∧
    (Same (x.scale a) x ∧ SameMetric (x.scale a) x ∧ (x.scale a).entries = x.entries.map (a * ·)) ∧
    (Same (x.putScalar a) x ∧ SameMetric (x.putScalar a) x ∧ (x.putScalar a).entries = x.entries.map (fun _ => a)) ∧
    (Same x.zero x ∧ SameMetric x.zero x ∧ ∀ e ∈ x.zero.entries, e = 0) := by
  have hput : ∀ b : K, Same (x.putScalar b) x ∧ SameMetric (x.putScalar b) x ∧
      (x.putScalar b).entries = x.entries.map (fun _ => b) := by
    intro b
    refine ⟨⟨mapC_same _ _, mapC_same _ _⟩, ⟨rfl, rfl, rfl, rfl⟩, ?_⟩
    simp only [OptVec.putScalar, OptVec.entries, (mapC_spec _ _).2, List.map_append]
  refine ⟨set_spec h, update_spec _ h, update_spec _ h, ⟨⟨mapC_same _ _, mapC_same _ _⟩, ⟨rfl, rfl, rfl, rfl⟩, ?_⟩,
    hput a, (hput 0).1, (hput 0).2.1, ?_⟩
  · simp only [OptVec.scale, OptVec.entries, (mapC_spec _ _).2, List.map_append]
  · intro e he
    have : x.zero.entries = x.entries.map (fun _ => 0) := (hput 0).2.2
    rw [this, List.mem_map] at he
    obtain ⟨_, _, rfl⟩ := he
    rfl

/-- **C30, symmetry.**  The inner product of two vectors of the same space with the same metric is symmetric. -/
theorem C30_symm {x y : OptVec K} (h : Same x y) (hm : SameMetric x y) (hf : Fits y) (hg : HasMetric y) :
    ∃ s, x.dot y = some s ∧ y.dot x = some s := by
  have e1 := dot_eq h hm.1 (hf.congr hm h) (hg.congr hm)
  have e2 := dot_eq h.symm hm.1.symm hf hg
  refine ⟨_, e1, ?_⟩
  rw [e2, weights_congr hm h, wsum_comm]

/-- **C30, linearity.**  The inner product is linear in each argument: adding a multiple of a vector to either
argument changes it by that multiple of the inner product with the vector added. -/
theorem C30_bilinear {x y z : OptVec K} (hxy : Same x y) (hxz : Same x z) (mxy : SameMetric x y)
    (mxz : SameMetric x z) (hf : Fits x) (hg : HasMetric x) (a : K) :
    ∃ r p q, x.axpy a y = some r ∧ x.dot z = some p ∧ y.dot z = some q ∧
      r.dot z = some (p + a * q) ∧ z.dot r = some (p + a * q) := by
  obtain ⟨r, r1, r2, r3, r4⟩ := update_spec (fun p q => p + a * q) hxy
  have hy : Same y z := hxy.symm.trans hxz
  have m1 : SameMetric y x := ⟨mxy.1.symm, mxy.2.1.symm, mxy.2.2.1.symm, mxy.2.2.2.symm⟩
  have m2 : SameMetric z x := ⟨mxz.1.symm, mxz.2.1.symm, mxz.2.2.1.symm, mxz.2.2.2.symm⟩
  have hz : Same z r := hxz.symm.trans r2.symm
  have e1 := dot_eq hxz mxz.1 hf hg
  have e2 := dot_eq hy (mxy.1.symm.trans mxz.1) (hf.congr m1 hxy.symm) (hg.congr m1)
  have e3 := dot_eq (r2.trans hxz) (r3.1.trans mxz.1) (hf.congr r3 r2) (hg.congr r3)
  have e4 := dot_eq hz (m2.1.trans r3.1.symm) (hf.congr m2 hxz.symm) (hg.congr m2)
  refine ⟨r, _, _, r1, e1, e2, ?_, ?_⟩
  · rw [e3, weights_congr r3 r2, weights_congr m1 hxy.symm, r4, wsum_axpy _ _ _ _ _ hxy.length]
  · rw [e4, weights_congr m2 hxz.symm, weights_congr m1 hxy.symm, r4, wsum_comm, wsum_axpy _ _ _ _ _ hxy.length]

/-- **C30, positivity.**  With positive weights the inner product of a vector with itself is not negative, and zero
only for the zero vector. -/
theorem C30_positive [LinearOrder K] [IsStrictOrderedRing K] (x : OptVec K) (hf : Fits x) (hg : HasMetric x)
    (hs : 0 < x.dscale) (hD : ∀ D, x.diag = some D → ∀ d ∈ D, 0 < d) :
    ∃ s, x.dot x = some s ∧ 0 ≤ s ∧ (s = 0 ↔ ∀ e ∈ x.entries, e = 0) := by
  have hw := weights_pos x hs hD
  refine ⟨_, dot_eq (Same.refl x) rfl hf hg, wsum_nonneg _ _ (fun w h => (hw w h).le), ?_, ?_⟩
  · exact wsum_eq_zero _ _ (weights_length x hf) hw
  · intro h; exact wsum_zero _ _ h _

/-- **C30, norm.**  The norm, the square root of the inner product with itself, squares to it (for every function that
is a square root on non-negative numbers). -/
theorem C30_norm [LinearOrder K] [IsStrictOrderedRing K] (sqrt : K → K) (hsq : ∀ a, 0 ≤ a → sqrt a * sqrt a = a)
    (x : OptVec K) (hf : Fits x) (hg : HasMetric x) (hs : 0 < x.dscale)
    (hD : ∀ D, x.diag = some D → ∀ d ∈ D, 0 < d) (n : K) (hn : (x.dot x).map sqrt = some n) :
    x.dot x = some (n * n) := by
  obtain ⟨s, h1, h2, _⟩ := C30_positive x hf hg hs hD
  rw [h1] at hn ⊢
  simp only [Option.map_some, Option.some.injEq] at hn
  rw [← hn, hsq s h2]

/-- **C30, copies.**  A clone set from a primal vector with scale one has the same numbers and the same metric, so its
inner products agree with the original's. -/
theorem C30_clone (x y : OptVec K) (h : Same x y) (h1 : x.isDual = false) (h2 : x.dscale = 1)
    (hy : y.isDual = false) (hf : Fits x) (hg : HasMetric x) :
    ∃ d, x.clone.set x = some d ∧ d.entries = x.entries ∧ d.dot y = x.dot y := by
  obtain ⟨d, d1, d2, d3, d4⟩ := clone_set x
  have m : SameMetric d x := by
    obtain ⟨a, b, c, e⟩ := clone_metric x h1 h2
    exact ⟨d3.1.trans a, d3.2.1.trans b, d3.2.2.1.trans c, d3.2.2.2.trans e⟩
  refine ⟨d, d1, d4, ?_⟩
  rw [dot_eq (d2.trans h) (m.1.trans (h1.trans hy.symm)) (hf.congr m d2) (hg.congr m),
    dot_eq h (h1.trans hy.symm) hf hg, weights_congr m d2, d4]

/-- **C30, violated (a).**  With a mass matrix and no diagonal the fields contribute nothing: for two primal vectors
without scalars the inner product is zero, whatever their entries. -/
theorem C30_mass_violated (x y : OptVec K) (hm : x.haveMass = true) (hd : x.diag = none) (hp : x.isDual = y.isDual)
    (hs : x.scalar = []) : x.dot y = some 0 := by
  simp [OptVec.dot, OptVec.fieldDot, hp, hd, hm, hs, dotC]

/-- **C30, violated (b).**  A clone loses the scale: with scale two the inner product of a vector and its copy depends
on the order. -/
theorem C30_clone_violated : ∃ x d : OptVec ℚ, x.clone.set x = some d ∧ x.dot d = some 2 ∧ d.dot x = some 1 :=
  ⟨⟨[some [1]], [some []], false, 2, none, false⟩, ⟨[some [1]], [some []], false, 1, none, false⟩, by decide +kernel,
    by decide +kernel, by decide +kernel⟩

/-- Two field levels with a diagonal mass, and one scalar vector: the hypotheses hold and the numbers are as
expected. -/
example :
    let x : OptVec ℚ := ⟨[some [1, 2], some [3, 4]], [some [5]], false, 1, some [2, 3], true⟩
    let y : OptVec ℚ := ⟨[some [1, 0], some [0, 1]], [some [2]], false, 1, some [2, 3], true⟩
    Fits x ∧ HasMetric x ∧ SameMetric x y ∧ x.dot y = some 24 ∧ y.dot x = some 24 ∧ x.dot x = some 105 ∧
    (x.axpy 2 y).bind (·.dot y) = some (24 + 2 * 9) := by
  refine ⟨?_, ?_, ⟨rfl, rfl, rfl, rfl⟩, by decide +kernel, by decide +kernel, by decide +kernel, by decide +kernel⟩
  · intro D hD u hu
    simp at hD hu
    subst hD
    rcases hu with rfl | rfl <;> rfl
  · intro h; simp at h

/-! ### C55 -/

/-- **C55** (partial: without mass and scale).  The dual of a vector represents the inner product with it: applying
the dual to a vector gives the inner product. -/
theorem C55_partial {x y : OptVec K} (h : Same x y) (h1 : x.isDual = y.isDual) (h2 : x.dscale = 1)
    (h3 : x.diag = none) (h4 : x.haveMass = false) :
    ∃ s, x.dual.apply y = some s ∧ x.dot y = some s := by
  have hf : Fits x := by intro D hD; rw [h3] at hD; cases hD
  have e := dot_eq h h1 hf (fun _ => h4)
  refine ⟨_, ?_, e⟩
  unfold OptVec.apply OptVec.dual weights OptVec.entries
  rw [wsum_append _ _ _ _ _ _ (fieldWeights_length x x.field hf) h.1.length, fieldWeights_none x h3]
  simp only [dotC_plain h.1, dotC_plain h.2, h2, inv_one, ite_self]
  rfl

/-- **C55, violated.**  With a diagonal mass the dual is applied without weights: for one field entry 1 with weight 4
the inner product is 4 and the dual applied gives 1; and the squared norm of the dual is 4 although the norm of a dual
vector is the one with inverse weights. -/
theorem C55_violated : ∃ x : OptVec ℚ, x.dot x = some 4 ∧ x.dual.apply x = some 1 ∧ x.dual.dot x.dual = some 4 :=
  ⟨⟨[some [1]], [], false, 1, some [4], true⟩, by decide +kernel, by decide +kernel, by decide +kernel⟩

/-- **C55, violated** (the other direction).  The dual of a dual vector is a vector whose inner product with `y` should
be the value of the dual vector at `y`: for one field entry 1 with weight 4 the dual vector applied to `y` gives 1 and
its dual, which is taken as an ordinary vector again, has inner product 4 with `y`. -/
theorem C55_back_violated : ∃ x y : OptVec ℚ, x.isDual = true ∧ y.isDual = false ∧ Same x y ∧
    x.apply y = some 1 ∧ x.dual.dot y = some 4 :=
  ⟨⟨[some [1]], [], true, 1, some [4], true⟩, ⟨[some [1]], [], false, 1, some [4], true⟩, rfl, rfl,
    ⟨SameC.refl _, SameC.refl _⟩, by decide +kernel, by decide +kernel⟩

example : ∃ s, (OptVec.dual (⟨[some [1, 2]], [some [3]], false, 1, none, false⟩ : OptVec ℚ)).apply
    ⟨[some [1, 1]], [some [2]], false, 1, none, false⟩ = some s ∧ s = 9 := ⟨9, by decide +kernel, rfl⟩

end

end MrHyDE.Opt
