import Verif.Solver.Model
import Mathlib.LinearAlgebra.Dimension.Constructions
import Mathlib.LinearAlgebra.Dimension.StrongRankCondition
import Mathlib.LinearAlgebra.Dimension.Finite
import Mathlib.LinearAlgebra.FiniteDimensional.Defs
import Mathlib.LinearAlgebra.Matrix.DotProduct
import Mathlib.Tactic.Ring
import Mathlib.Tactic.FieldSimp
import Mathlib.Tactic.Linarith
import Mathlib.Tactic.Module

/-!
# Lemmas on conjugate gradients
-/

namespace MrHyDE.Solver

set_option linter.unusedSectionVars false

variable {K : Type} [Field K] [LinearOrder K] [IsStrictOrderedRing K] {n : Nat}

theorem dot_comm (u v : Vec K n) : dot u v = dot v u := by
  unfold dot
  exact Finset.sum_congr rfl (fun i _ => mul_comm _ _)

theorem dot_add (u v w : Vec K n) : dot u (v + w) = dot u v + dot u w := by
  unfold dot
  rw [← Finset.sum_add_distrib]
  exact Finset.sum_congr rfl (fun i _ => by simp [mul_add])

theorem dot_smul (c : K) (u v : Vec K n) : dot u (c • v) = c * dot u v := by
  unfold dot
  rw [Finset.mul_sum]
  exact Finset.sum_congr rfl (fun i _ => by simp; ring)

theorem add_dot (u v w : Vec K n) : dot (u + v) w = dot u w + dot v w := by
  rw [dot_comm, dot_add, dot_comm w u, dot_comm w v]

theorem smul_dot (c : K) (u v : Vec K n) : dot (c • u) v = c * dot u v := by
  rw [dot_comm, dot_smul, dot_comm v u]

theorem zero_dot (v : Vec K n) : dot (0 : Vec K n) v = 0 := by simp [dot]

theorem dot_prec (M u v : Vec K n) : dot u (prec M v) = dot (prec M u) v := by
  unfold dot prec
  exact Finset.sum_congr rfl (fun i _ => by ring)

theorem dot_prec_pos (M : Vec K n) (hM : ∀ k, 0 < M k) (v : Vec K n) (hv : v ≠ 0) :
    0 < dot v (prec M v) := by
  unfold dot prec
  obtain ⟨i, hi⟩ : ∃ i, v i ≠ 0 := by
    by_contra h
    push Not at h
    exact hv (funext h)
  have nonneg : ∀ k, 0 ≤ v k * (v k / M k) := by
    intro k
    have : v k * (v k / M k) = v k * v k / M k := by ring
    rw [this]
    exact div_nonneg (mul_self_nonneg _) (le_of_lt (hM k))
  apply Finset.sum_pos' (fun k _ => nonneg k)
  refine ⟨i, Finset.mem_univ _, ?_⟩
  have : v i * (v i / M i) = v i * v i / M i := by ring
  rw [this]
  exact div_pos (mul_self_pos.mpr hi) (hM i)

/-- A symmetric positive definite operator. -/
structure SPD (A : Vec K n →ₗ[K] Vec K n) : Prop where
  symm : ∀ u v, dot u (A v) = dot (A u) v
  pos : ∀ v, v ≠ 0 → 0 < dot v (A v)

section
variable (A : Vec K n →ₗ[K] Vec K n) (M : Vec K n) (s0 : CGState K n)

/-- States of the loop without its test. -/
def seq : Nat → CGState K n
  | 0 => s0
  | k + 1 => (cgStep A M k (seq k)).getD (seq k)

/-- Residual. -/
def rr (k : Nat) : Vec K n := (seq A M s0 k).r

/-- Preconditioned residual. -/
def zz (k : Nat) : Vec K n := prec M (rr A M s0 k)

/-- `rho` of iteration `k`. -/
def rh (k : Nat) : K := dot (rr A M s0 k) (zz A M s0 k)

/-- Search direction of iteration `k`. -/
def dir (k : Nat) : Vec K n :=
  if k = 0 then zz A M s0 k
  else zz A M s0 k + (rh A M s0 k / (seq A M s0 k).rho) • (seq A M s0 k).p

/-- `pq` of iteration `k`. -/
def pq (k : Nat) : K := dot (dir A M s0 k) (A (dir A M s0 k))

theorem step_some (hM : ∀ k, 0 < M k) (k : Nat) (h1 : k ≠ 0 → (seq A M s0 k).rho ≠ 0)
    (h2 : pq A M s0 k ≠ 0) :
    cgStep A M k (seq A M s0 k) = some
      { x := (seq A M s0 k).x + (rh A M s0 k / pq A M s0 k) • dir A M s0 k
        r := rr A M s0 k + (-1 * (rh A M s0 k / pq A M s0 k)) • A (dir A M s0 k)
        p := dir A M s0 k
        rho := rh A M s0 k } := by
  unfold cgStep
  have hm : ¬ ∃ k, M k = 0 := by
    rintro ⟨k, hk⟩
    exact absurd hk (ne_of_gt (hM k))
  rw [if_neg hm]
  dsimp only
  have hr : ¬ (k ≠ 0 ∧ (seq A M s0 k).rho = 0) := by
    rintro ⟨a, b⟩
    exact h1 a b
  rw [if_neg hr]
  have hd : (if k = 0 then prec M (seq A M s0 k).r else prec M (seq A M s0 k).r +
      (dot (seq A M s0 k).r (prec M (seq A M s0 k).r) / (seq A M s0 k).rho) • (seq A M s0 k).p)
      = dir A M s0 k := rfl
  rw [hd]
  have hp : dot (dir A M s0 k) (A (dir A M s0 k)) ≠ 0 := h2
  rw [if_neg hp]
  rfl

/-- What holds in iteration `k` if no residual up to `k` vanishes. -/
structure Good (k : Nat) : Prop where
  prevP : ∀ j, k = j + 1 → (seq A M s0 k).p = dir A M s0 j
  prevRho : ∀ j, k = j + 1 → (seq A M s0 k).rho = rh A M s0 j
  prevR : ∀ j, k = j + 1 → rr A M s0 k = rr A M s0 j + (-1 * (rh A M s0 j / pq A M s0 j)) • A (dir A M s0 j)
  orthP : ∀ i < k, dot (rr A M s0 k) (dir A M s0 i) = 0
  orthZ : ∀ i < k, dot (rr A M s0 k) (zz A M s0 i) = 0
  conj : ∀ i < k, dot (dir A M s0 k) (A (dir A M s0 i)) = 0
  rp : dot (rr A M s0 k) (dir A M s0 k) = rh A M s0 k
  rhPos : 0 < rh A M s0 k
  pqPos : 0 < pq A M s0 k

theorem good (hA : SPD A) (hM : ∀ k, 0 < M k) (k : Nat) :
    (∀ j ≤ k, rr A M s0 j ≠ 0) → Good A M s0 k := by
  induction k using Nat.strong_induction_on with
  | _ k ih =>
    intro hne
    have rhPos : 0 < rh A M s0 k := dot_prec_pos M hM _ (hne k (Nat.le_refl _))
    have pqPos : ∀ (h : dot (rr A M s0 k) (dir A M s0 k) = rh A M s0 k), 0 < pq A M s0 k := by
      intro h
      apply hA.pos
      intro h0
      rw [h0, dot_comm, zero_dot] at h
      linarith
    cases k with
    | zero =>
      have rp : dot (rr A M s0 0) (dir A M s0 0) = rh A M s0 0 := by simp [dir, rh]
      exact
        { prevP := fun j hj => by omega
          prevRho := fun j hj => by omega
          prevR := fun j hj => by omega
          orthP := fun i hi => by omega
          orthZ := fun i hi => by omega
          conj := fun i hi => by omega
          rp := rp
          rhPos := rhPos
          pqPos := pqPos rp }
    | succ m =>
      have G : ∀ j ≤ m, Good A M s0 j := fun j hj => ih j (by omega) (fun i hi => hne i (by omega))
      have Gm := G m (Nat.le_refl _)
      have hstep := step_some A M s0 hM m
        (by
          intro h0
          obtain ⟨l, rfl⟩ : ∃ l, m = l + 1 := ⟨m - 1, by omega⟩
          rw [Gm.prevRho l rfl]
          exact ne_of_gt (G l (by omega)).rhPos)
        (ne_of_gt Gm.pqPos)
      have hseq : seq A M s0 (m+1) =
          { x := (seq A M s0 m).x + (rh A M s0 m / pq A M s0 m) • dir A M s0 m
            r := rr A M s0 m + (-1 * (rh A M s0 m / pq A M s0 m)) • A (dir A M s0 m)
            p := dir A M s0 m
            rho := rh A M s0 m } := by
        show (cgStep A M m (seq A M s0 m)).getD (seq A M s0 m) = _
        rw [hstep]; rfl
      have hP : (seq A M s0 (m+1)).p = dir A M s0 m := by rw [hseq]
      have hRho : (seq A M s0 (m+1)).rho = rh A M s0 m := by rw [hseq]
      have hR : rr A M s0 (m+1) = rr A M s0 m + (-1 * (rh A M s0 m / pq A M s0 m)) • A (dir A M s0 m) := by
        unfold rr; rw [hseq]; rfl
      have hDir : dir A M s0 (m+1) = zz A M s0 (m+1) + (rh A M s0 (m+1) / rh A M s0 m) • dir A M s0 m := by
        have : dir A M s0 (m+1) = zz A M s0 (m+1) +
            (rh A M s0 (m+1) / (seq A M s0 (m+1)).rho) • (seq A M s0 (m+1)).p := by simp [dir]
        rw [this, hP, hRho]
      have pqne := ne_of_gt Gm.pqPos
      have rhne := ne_of_gt Gm.rhPos
      -- residual orthogonal to all earlier directions
      have orthP : ∀ i < m+1, dot (rr A M s0 (m+1)) (dir A M s0 i) = 0 := by
        intro i hi
        rw [hR, add_dot, smul_dot]
        by_cases e : i = m
        · subst e
          rw [Gm.rp]
          have : dot (A (dir A M s0 i)) (dir A M s0 i) = pq A M s0 i := dot_comm _ _
          rw [this]
          field_simp
          ring
        · rw [Gm.orthP i (by omega), ← hA.symm, Gm.conj i (by omega)]
          ring
      -- and to all earlier preconditioned residuals
      have orthZ : ∀ i < m+1, dot (rr A M s0 (m+1)) (zz A M s0 i) = 0 := by
        intro i hi
        cases i with
        | zero =>
          have := orthP 0 hi
          simpa [dir] using this
        | succ l =>
          have Gl := G (l+1) (by omega)
          have hd : dir A M s0 (l+1) = zz A M s0 (l+1) +
              (rh A M s0 (l+1) / (seq A M s0 (l+1)).rho) • (seq A M s0 (l+1)).p := by simp [dir]
          have h1 := orthP (l+1) hi
          rw [hd, dot_add, dot_smul, Gl.prevP l rfl, orthP l (by omega)] at h1
          simpa using h1
      -- A dir i from two residuals
      have hAd : ∀ i ≤ m, A (dir A M s0 i) = (pq A M s0 i / rh A M s0 i) •
          (rr A M s0 i + (-1 : K) • rr A M s0 (i+1)) := by
        intro i hi
        have hr' : rr A M s0 (i+1) = rr A M s0 i + (-1 * (rh A M s0 i / pq A M s0 i)) • A (dir A M s0 i) := by
          by_cases e : i = m
          · subst e; exact hR
          · exact (G (i+1) (by omega)).prevR i rfl
        have a1 := ne_of_gt (G i hi).pqPos
        have a2 := ne_of_gt (G i hi).rhPos
        have e1 : ∀ (u v : Vec K n) (c : K), u + (-1 : K) • (u + (-1 * c) • v) = c • v := by
          intro u v c; module
        rw [hr', e1, smul_smul]
        have : pq A M s0 i / rh A M s0 i * (rh A M s0 i / pq A M s0 i) = 1 := by
          field_simp
        rw [this, one_smul]
      have zr : ∀ i ≤ m, dot (zz A M s0 (m+1)) (rr A M s0 i) = 0 := by
        intro i hi
        rw [show zz A M s0 (m+1) = prec M (rr A M s0 (m+1)) from rfl, ← dot_prec]
        exact orthZ i (by omega)
      have conj : ∀ i < m+1, dot (dir A M s0 (m+1)) (A (dir A M s0 i)) = 0 := by
        intro i hi
        rw [hDir, add_dot, smul_dot]
        by_cases e : i = m
        · subst e
          have : dot (dir A M s0 i) (A (dir A M s0 i)) = pq A M s0 i := rfl
          rw [this, hAd i (Nat.le_refl _), dot_smul, dot_add, dot_smul, zr i (Nat.le_refl _)]
          have : dot (zz A M s0 (i+1)) (rr A M s0 (i+1)) = rh A M s0 (i+1) := dot_comm _ _
          rw [this]
          field_simp
          ring
        · rw [Gm.conj i (by omega), hAd i (by omega), dot_smul, dot_add, dot_smul, zr i (by omega),
            zr (i+1) (by omega)]
          ring
      have rp : dot (rr A M s0 (m+1)) (dir A M s0 (m+1)) = rh A M s0 (m+1) := by
        rw [hDir, dot_add, dot_smul, orthP m (by omega)]
        simp [rh]
      exact
        { prevP := fun j hj => by obtain rfl : m = j := by omega
                                  exact hP
          prevRho := fun j hj => by obtain rfl : m = j := by omega
                                    exact hRho
          prevR := fun j hj => by obtain rfl : m = j := by omega
                                  exact hR
          orthP := orthP
          orthZ := orthZ
          conj := conj
          rp := rp
          rhPos := rhPos
          pqPos := pqPos rp }

/-- Some residual among the first `n + 1` vanishes. -/
theorem residual_vanishes (hA : SPD A) (hM : ∀ k, 0 < M k) : ∃ j ≤ n, rr A M s0 j = 0 := by
  by_contra hcon
  push Not at hcon
  have G : ∀ k ≤ n, Good A M s0 k := fun k hk => good A M s0 hA hM k (fun j hj => hcon j (by omega))
  have li : LinearIndependent K (fun i : Fin (n+1) => rr A M s0 i.val) := by
    rw [Fintype.linearIndependent_iff]
    intro g hg i
    have h1 : dot (∑ j, g j • rr A M s0 j.val) (zz A M s0 i.val) = 0 := by rw [hg, zero_dot]
    have h2 : dot (∑ j, g j • rr A M s0 j.val) (zz A M s0 i.val) = g i * rh A M s0 i.val := by
      have hs : ∀ (S : Finset (Fin (n+1))), dot (∑ j ∈ S, g j • rr A M s0 j.val) (zz A M s0 i.val)
          = ∑ j ∈ S, g j * dot (rr A M s0 j.val) (zz A M s0 i.val) := by
        intro S
        induction S using Finset.induction_on with
        | empty => simp [zero_dot]
        | insert a S ha ihS => rw [Finset.sum_insert ha, Finset.sum_insert ha, add_dot, smul_dot, ihS]
      rw [hs, Finset.sum_eq_single i]
      · rfl
      · intro j _ hj
        have hne : j.val ≠ i.val := fun h => hj (Fin.ext h)
        rcases Nat.lt_or_gt_of_ne hne with h | h
        · have := (G i.val (by omega)).orthZ j.val h
          rw [dot_comm, show zz A M s0 i.val = prec M (rr A M s0 i.val) from rfl, ← dot_prec]
          rw [show prec M (rr A M s0 j.val) = zz A M s0 j.val from rfl, this, mul_zero]
        · rw [(G j.val (by omega)).orthZ i.val h, mul_zero]
      · intro h; exact absurd (Finset.mem_univ _) h
    rw [h2] at h1
    rcases mul_eq_zero.mp h1 with h | h
    · exact h
    · exact absurd h (ne_of_gt (G i.val (by omega)).rhPos)
  have := li.fintype_card_le_finrank
  simp at this

end

end MrHyDE.Solver
