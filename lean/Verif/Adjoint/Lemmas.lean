import Verif.Adjoint.Spec
import Mathlib.Tactic.Linarith
import Mathlib.Tactic.Ring
import Mathlib.Tactic.Abel
import Mathlib.Tactic.FieldSimp
import Mathlib.Tactic.NormNum

namespace MrHyDE.Adjoint

open Matrix

variable {K : Type} [Field K] [LinearOrder K] [IsStrictOrderedRing K] {ι π : Type} [Fintype ι] [Fintype π]

theorem Uniform.time {c : Cfg K} (h : Uniform c) : ∀ n, n ≤ c.N → c.times n = c.times 0 + n * c.deltat := by
  intro n
  induction n with
  | zero => intro _; simp
  | succ n ih =>
    intro hn
    rw [h.step n (by omega), ih (by omega)]
    push_cast
    ring

theorem Uniform.time_pos {c : Cfg K} (h : Uniform c) (n : Nat) (h1 : 1 ≤ n) (hn : n ≤ c.N) : 0 < c.times n := by
  rw [h.time n hn]
  have : (1 : K) ≤ n := by exact_mod_cast h1
  have := mul_le_mul_of_nonneg_right this h.pos.le
  have := h.pos
  have := h.start
  linarith

theorem Uniform.same_iff {c : Cfg K} (h : Uniform c) (n t : Nat) (h1 : 1 ≤ n) (hn : n ≤ c.N) (ht : t ≤ c.N) :
    sameTime c.tol (c.times t) (c.times n) ↔ t = n := by
  have hp := h.time_pos n h1 hn
  constructor
  · rintro ⟨-, h2⟩
    by_contra hne
    rw [div_lt_iff₀ hp] at h2
    have e : c.times t - c.times n = ((t : K) - n) * c.deltat := by rw [h.time t ht, h.time n hn]; ring
    have big : c.deltat ≤ |c.times t - c.times n| := by
      rw [e, abs_mul, abs_of_pos h.pos]
      have : (1 : K) ≤ |(t : K) - n| := by
        rcases Nat.lt_or_gt_of_ne hne with hlt | hgt
        · have : (t : K) + 1 ≤ n := by exact_mod_cast hlt
          rw [abs_sub_comm]
          exact le_trans (by linarith) (le_abs_self _)
        · have : (n : K) + 1 ≤ t := by exact_mod_cast hgt
          exact le_trans (by linarith) (le_abs_self _)
      have := mul_le_mul_of_nonneg_right this h.pos.le
      linarith
    have mono : c.times n ≤ c.times c.N := by
      rw [h.time n hn, h.time c.N le_rfl]
      have : (n : K) ≤ c.N := by exact_mod_cast hn
      have := mul_le_mul_of_nonneg_right this h.pos.le
      linarith
    have := mul_le_mul_of_nonneg_left mono h.tolPos.le
    have := h.fine
    linarith
  · rintro rfl
    refine ⟨hp.ne', ?_⟩
    simpa using h.tolPos

theorem fold_pick (n : Nat) (P : Nat → Prop) [DecidablePred P] (f : Nat → K) : ∀ (l : List Nat) (w : K),
    (∀ t ∈ l, P t ↔ t = n) → l.foldl (fun w t => if P t then f t else w) w = if n ∈ l then f n else w := by
  intro l
  induction l with
  | nil => intro w _; simp
  | cons a t ih =>
    intro w h
    rw [List.foldl_cons, ih _ (fun x hx => h x (List.mem_cons_of_mem _ hx))]
    by_cases ha : a = n
    · subst ha
      have : P a := (h a List.mem_cons_self).mpr rfl
      simp [this]
    · have hp : ¬ P a := fun hh => ha ((h a List.mem_cons_self).mp hh)
      have : ¬ n = a := fun hh => ha hh.symm
      simp [hp, this]

theorem Uniform.weight_eq {c : Cfg K} (h : Uniform c) (n : Nat) (h1 : 1 ≤ n) (hn : n ≤ c.N) :
    weight c (c.times (n - 1) + c.deltat) = c.deltat := by
  have e : c.times (n - 1) + c.deltat = c.times n := by
    have := h.step (n - 1) (by omega)
    rw [Nat.sub_add_cancel h1] at this
    exact this.symm
  rw [e]
  unfold weight
  rw [fold_pick n (fun t => sameTime c.tol (c.times t) (c.times n)) (fun t => c.times t - c.times (t - 1))]
  · rw [if_pos]
    · rw [← e]; ring
    · simp only [List.mem_map, List.mem_range]
      exact ⟨n - 1, by omega, by omega⟩
  · intro t ht
    simp only [List.mem_map, List.mem_range] at ht
    obtain ⟨a, ha, rfl⟩ := ht
    exact h.same_iff n (a + 1) h1 hn (by omega)

theorem Uniform.dts_eq {c : Cfg K} (h : Uniform c) (n : Nat) (h1 : 1 ≤ n) (hn : n ≤ c.N) : dts c.times n = c.deltat := by
  unfold dts
  have := h.step (n - 1) (by omega)
  rw [Nat.sub_add_cancel h1] at this
  rw [this]; ring

/-- Sum of the contributions of the steps after `n`. -/
def tail (L : Lin K ι π) (N : Nat) (times : Nat → K) (dp : π → K) (du : Nat → ι → K) (n : Nat) : K :=
  ((List.range (N - n)).map (fun i => dts times (n + i + 1) * (L.q (n + i + 1) ⬝ᵥ du (n + i + 1) + L.r (n + i + 1) ⬝ᵥ dp))).sum

theorem tail_zero (L : Lin K ι π) (N : Nat) (times : Nat → K) (dp : π → K) (du : Nat → ι → K) :
    tail L N times dp du 0 = change L N times dp du := by
  unfold tail change
  simp only [Nat.zero_add, Nat.sub_zero]

theorem tail_step (L : Lin K ι π) (N : Nat) (times : Nat → K) (dp : π → K) (du : Nat → ι → K) (n : Nat) (hn : n < N) :
    tail L N times dp du n = dts times (n + 1) * (L.q (n + 1) ⬝ᵥ du (n + 1) + L.r (n + 1) ⬝ᵥ dp) +
      tail L N times dp du (n + 1) := by
  unfold tail
  obtain ⟨m, hm⟩ : ∃ m, N - n = m + 1 := ⟨N - n - 1, by omega⟩
  have hm' : N - (n + 1) = m := by omega
  rw [hm, hm', List.range_succ_eq_map, List.map_cons, List.sum_cons, List.map_map]
  congr 1
  congr 1
  apply List.map_congr_left
  intro i _
  simp only [Function.comp_apply]
  rw [show n + Nat.succ i + 1 = n + 1 + i + 1 by omega]

theorem tail_end (L : Lin K ι π) (N : Nat) (times : Nat → K) (dp : π → K) (du : Nat → ι → K) :
    tail L N times dp du N = 0 := by
  unfold tail
  simp

theorem backStep_one (L : Lin K ι π) (solve : Matrix ι ι K → (ι → K) → ι → K) (c : Cfg K) (h1 : c.stages = 1)
    (h2 : c.steps = 1) (h3 : 1 ≤ c.sets) (n : Nat) (s : St K ι π) :
    ∃ phi, phi = s.phiStage + solve (L.A n c.deltat)ᵀ
        (-(weight c (c.times (n - 1) + c.deltat) • L.q n) - (L.A n c.deltat)ᵀ *ᵥ s.phiStage - s.prev) ∧
      backStep L solve c n s = some ⟨phi, phi, (L.B n c.deltat 0)ᵀ *ᵥ phi,
        s.grad + (c.deltat • L.rl n - (-(L.C n c.deltat))ᵀ *ᵥ phi)⟩ := by
  refine ⟨_, rfl, ?_⟩
  unfold backStep solveStep diagonalReads addSens
  rw [if_pos h1, if_pos (by omega : c.steps ≤ c.sets)]
  simp [h2]

theorem loop_gradient (L : Lin K ι π) (solve : Matrix ι ι K → (ι → K) → ι → K) (c : Cfg K) (h1 : c.stages = 1)
    (h2 : c.steps = 1) (h3 : 1 ≤ c.sets) (hex : Exact L solve c) (hu : Uniform c) (hf : ∀ n, L.rf n = 0) (dp : π → K) (du : Nat → ι → K)
    (ht : Tangent L 1 c.N c.times dp du) : ∀ (n : Nat) (s : St K ι π), n ≤ c.N →
    s.grad ⬝ᵥ dp = tail L c.N c.times dp du n - s.prev ⬝ᵥ du n →
    ∃ t, backLoop L solve c n s = some t ∧ t.grad ⬝ᵥ dp = tail L c.N c.times dp du 0 := by
  intro n
  induction n with
  | zero =>
    intro s _ hs
    refine ⟨s, rfl, ?_⟩
    rw [hs, ht.init]
    simp
  | succ n ih =>
    intro s hn hs
    obtain ⟨phi, hphi, hb⟩ := backStep_one L solve c h1 h2 h3 (n + 1) s
    have hstep := ht.step (n + 1) (by omega) hn
    have hd := hu.dts_eq (n + 1) (by omega) hn
    rw [hd] at hstep
    have hw := hu.weight_eq (n + 1) (by omega) hn
    rw [hw] at hphi
    have heq : (L.A (n + 1) c.deltat)ᵀ *ᵥ phi = -(c.deltat • L.q (n + 1)) - s.prev := by
      rw [hphi, Matrix.mulVec_add, hex (n + 1) (by omega) hn]
      abel
    obtain ⟨t, ht1, ht2⟩ := ih ⟨phi, phi, (L.B (n + 1) c.deltat 0)ᵀ *ᵥ phi,
        s.grad + (c.deltat • L.rl (n + 1) - (-(L.C (n + 1) c.deltat))ᵀ *ᵥ phi)⟩ (by omega) (by
      have e1 : phi ⬝ᵥ (L.A (n + 1) c.deltat *ᵥ du (n + 1)) = -(c.deltat * (L.q (n + 1) ⬝ᵥ du (n + 1))) - s.prev ⬝ᵥ du (n + 1) := by
        rw [Matrix.dotProduct_mulVec, ← Matrix.mulVec_transpose, heq, sub_dotProduct, neg_dotProduct, smul_dotProduct,
          smul_eq_mul]
      have e2 : phi ⬝ᵥ (L.B (n + 1) c.deltat 0 *ᵥ du n) = ((L.B (n + 1) c.deltat 0)ᵀ *ᵥ phi) ⬝ᵥ du n := by
        rw [Matrix.dotProduct_mulVec, ← Matrix.mulVec_transpose]
      have e3 : phi ⬝ᵥ (L.C (n + 1) c.deltat *ᵥ dp) = ((L.C (n + 1) c.deltat)ᵀ *ᵥ phi) ⬝ᵥ dp := by
        rw [Matrix.dotProduct_mulVec, ← Matrix.mulVec_transpose]
      have e4 := congrArg (fun v => phi ⬝ᵥ v) hstep
      have hmin : min 1 (n + 1) = 1 := by omega
      simp only [hmin, List.range_one, List.map_cons, List.map_nil, List.sum_cons, List.sum_nil, add_zero, zero_add,
        Nat.add_sub_cancel, dotProduct_add, dotProduct_zero] at e4
      rw [e1, e2, e3] at e4
      have hrl : L.r (n + 1) = L.rl (n + 1) := by rw [Lin.r, hf, zero_add]
      rw [tail_step L c.N c.times dp du n (by omega), hd, hrl]
      simp only
      rw [Matrix.transpose_neg, Matrix.neg_mulVec, sub_neg_eq_add, add_dotProduct, add_dotProduct, smul_dotProduct,
        smul_eq_mul, hs]
      linarith)
    refine ⟨t, ?_, ht2⟩
    show (match backStep L solve c (n + 1) s with
      | none => none
      | some t => backLoop L solve c n t) = _
    rw [hb]
    exact ht1

end MrHyDE.Adjoint
