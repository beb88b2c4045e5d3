import Verif.UQ.Model
import Mathlib.Algebra.BigOperators.Group.Finset.Basic
import Mathlib.Algebra.Order.BigOperators.Group.List
import Mathlib.Algebra.Order.Field.Rat
import Mathlib.Data.List.Range
import Mathlib.Data.Nat.Cast.Order.Field
import Mathlib.Tactic.Linarith
import Mathlib.Tactic.NormNum
import Mathlib.Tactic.FieldSimp
import Mathlib.Tactic.Ring

/-
Property theorems C14 - C17, C47, C48.
-/

namespace MrHyDE.UQ

set_option linter.unusedSectionVars false

/-! ### C14 -/

theorem myCount_iff (n P r i : Nat) (hr : r < P) : i < myCount n P r ↔ i * P + r < n := by
  have hP : 0 < P := by omega
  have hn : P * (n / P) + n % P = n := Nat.div_add_mod n P
  have hm : n % P < P := Nat.mod_lt _ hP
  unfold myCount
  by_cases h : r < n % P
  · rw [if_pos h]
    constructor
    · intro hi
      have : i * P ≤ (n / P) * P := Nat.mul_le_mul_right P (by omega)
      rw [Nat.mul_comm (n / P)] at this
      omega
    · intro hi
      by_contra hc
      have : (n / P + 1) * P ≤ i * P := Nat.mul_le_mul_right P (by omega)
      rw [Nat.add_mul, Nat.mul_comm (n / P)] at this
      omega
  · rw [if_neg h]
    constructor
    · intro hi
      have : (i + 1) * P ≤ (n / P) * P := Nat.mul_le_mul_right P (by omega)
      rw [Nat.add_mul, Nat.mul_comm (n / P)] at this
      omega
    · intro hi
      by_contra hc
      have : (n / P) * P ≤ i * P := Nat.mul_le_mul_right P (by omega)
      rw [Nat.mul_comm (n / P)] at this
      omega

/-- C14: for every number of samples and processes, every sample is held by exactly one process, at exactly one place,
    all indices held are samples, and the loads of two processes differ by at most one. -/
theorem C14_exact_cover (n P : Nat) (hP : 0 < P) :
    (∀ s, s < n → ∃ r, r < P ∧ s ∈ myIndices n P r ∧ ∀ r', r' < P → s ∈ myIndices n P r' → r' = r) ∧
    (∀ r, r < P → (myIndices n P r).Nodup) ∧
    (∀ r s, r < P → s ∈ myIndices n P r → s < n) ∧
    (∀ r r', r < P → r' < P → (myIndices n P r).length ≤ (myIndices n P r').length + 1) := by
  refine ⟨?_, ?_, ?_, ?_⟩
  · intro s hs
    refine ⟨s % P, Nat.mod_lt _ hP, ?_, ?_⟩
    · unfold myIndices
      rw [List.mem_map]
      refine ⟨s / P, ?_, ?_⟩
      · rw [List.mem_range, myCount_iff n P _ _ (Nat.mod_lt _ hP), Nat.div_add_mod']; exact hs
      · exact Nat.div_add_mod' s P
    · intro r' hr' h
      unfold myIndices at h
      rw [List.mem_map] at h
      obtain ⟨i, _, rfl⟩ := h
      rw [Nat.add_comm, Nat.add_mul_mod_self_right, Nat.mod_eq_of_lt hr']
  · intro r _
    unfold myIndices
    apply List.Nodup.map _ List.nodup_range
    intro a b h
    exact Nat.eq_of_mul_eq_mul_right hP (by simpa using h)
  · intro r s hr h
    unfold myIndices at h
    rw [List.mem_map] at h
    obtain ⟨i, hi, rfl⟩ := h
    exact (myCount_iff n P r i hr).mp (List.mem_range.mp hi)
  · intro r r' _ _
    simp only [myIndices, List.length_map, List.length_range, myCount]
    split <;> split <;> omega

/-- C14, data: each process obtains, without reading out of range, the points with its indices. -/
theorem C14_samples {A : Type} (pts : List A) (P rank : Nat) (hr : rank < P) :
    ∃ l, mySamples pts P rank = some l ∧ l.map some = (myIndices pts.length P rank).map (fun i => pts[i]?) := by
  have hin := (C14_exact_cover pts.length P (by omega)).2.2.1 rank
  unfold mySamples
  generalize myIndices pts.length P rank = idx at *
  have hin' : ∀ s ∈ idx, s < pts.length := fun s hs => hin s hr hs
  clear hin
  induction idx with
  | nil => exact ⟨[], rfl, rfl⟩
  | cons a idx ih =>
    obtain ⟨l, h1, h2⟩ := ih (fun s hs => hin' s (by simp [hs]))
    have ha : a < pts.length := hin' a (by simp)
    refine ⟨pts[a] :: l, ?_, ?_⟩
    · rw [List.mapM_cons, List.getElem?_eq_getElem ha, h1]; rfl
    · rw [List.map_cons, List.map_cons, h2, List.getElem?_eq_getElem ha]

/-- Seven samples on three processes. -/
example : (List.range 3).map (myIndices 7 3) = [[0, 3, 6], [1, 4], [2, 5]] := by decide

/-! ### C15 -/

/-- What the user expects of a split of `P` ranks into groups of `M`. -/
structure GoodSplit (P M : Nat) (res : Nat → SplitRes) : Prop where
  ok : ∀ r, r < P → ∃ la s, res r = .ok ⟨la, some s⟩ ∧ r ∈ la ∧ r ∈ s ∧ la.length = M ∧ la.Nodup ∧ s.Nodup ∧
    (∀ q ∈ la, q < P) ∧ (∀ q ∈ s, q < P)
  /-- communicators of two ranks are equal or disjoint -/
  partition : ∀ r r' la la' s s', r < P → r' < P → res r = .ok ⟨la, some s⟩ → res r' = .ok ⟨la', some s'⟩ →
    (la = la' ∨ ∀ q ∈ la, q ∉ la') ∧ (s = s' ∨ ∀ q ∈ s, q ∉ s')
  /-- a sampling communicator consists of the ranks with the same position in their groups -/
  position : ∀ r la s, r < P → res r = .ok ⟨la, some s⟩ → ∀ q, q < P → (q ∈ s ↔
    ∃ la' s', res q = .ok ⟨la', some s'⟩ ∧ la'.idxOf q = la.idxOf r)

theorem laGroup_eq (M G r : Nat) (hM : 0 < M) (hr : r < M * G) :
    laGroup (M * G) M r = (List.range M).map (fun j => r / M * M + j) := by
  unfold laGroup
  have hq : r / M < G := Nat.div_lt_of_lt_mul hr
  -- both lists are strictly increasing with the same members
  apply List.Perm.eq_of_pairwise (le := (· < ·))
  · intro a b _ _ h1 h2; omega
  · exact List.Pairwise.filter _ (List.pairwise_lt_range)
  · rw [List.pairwise_map]
    exact (List.pairwise_lt_range (n := M)).imp (by intro a b h; omega)
  · rw [List.perm_ext_iff_of_nodup (List.Nodup.filter _ List.nodup_range)
      (List.Nodup.map (by intro a b h; simpa using h) List.nodup_range)]
    intro a
    simp only [List.mem_filter, List.mem_range, List.mem_map, decide_eq_true_eq]
    constructor
    · rintro ⟨h1, h2⟩
      refine ⟨a % M, Nat.mod_lt _ hM, ?_⟩
      rw [← h2]; exact Nat.div_add_mod' a M
    · rintro ⟨j, hj, rfl⟩
      constructor
      · have : (r / M + 1) * M ≤ G * M := Nat.mul_le_mul_right M hq
        rw [Nat.add_mul, Nat.mul_comm G] at this
        omega
      · rw [Nat.add_comm, Nat.add_mul_div_right _ _ hM, Nat.div_eq_of_lt hj, Nat.zero_add]

theorem idxOf_shift (M c j : Nat) (hj : j < M) : ((List.range M).map (fun j => c + j)).idxOf (c + j) = j := by
  have hnd : ((List.range M).map (fun j => c + j)).Nodup :=
    List.Nodup.map (by intro a b h; simpa using h) List.nodup_range
  have hget : ((List.range M).map (fun j => c + j))[j]'(by simpa using hj) = c + j := by simp
  have := hnd.idxOf_getElem j (by simpa using hj)
  rwa [hget] at this

theorem laRank_eq (M G r : Nat) (hM : 0 < M) (hr : r < M * G) : laRank (M * G) M r = r % M := by
  unfold laRank
  rw [laGroup_eq M G r hM hr]
  have := idxOf_shift M (r / M * M) (r % M) (Nat.mod_lt _ hM)
  rwa [Nat.div_add_mod'] at this

theorem splitBy_eq (M G r : Nat) (hM : 0 < M) (hr : r < M * G) :
    splitBy (M * G) M G r = .ok ⟨(List.range M).map (fun j => r / M * M + j),
      some ((List.range G).map (fun i => r % M + i * M))⟩ := by
  unfold splitBy
  rw [if_neg (by omega)]
  simp only [laRank_eq M G r hM hr, laGroup_eq M G r hM hr]
  have h1 : ((List.range G).map (fun i => r % M + i * M)).all (fun q => decide (q < M * G)) = true := by
    simp only [List.all_eq_true, List.mem_map, List.mem_range, decide_eq_true_eq]
    rintro q ⟨i, hi, rfl⟩
    have hm := Nat.mod_lt r hM
    have : (i + 1) * M ≤ G * M := Nat.mul_le_mul_right M hi
    rw [Nat.add_mul, Nat.mul_comm G] at this
    omega
  have h2 : ((List.range G).map (fun i => r % M + i * M)).contains r = true := by
    simp only [List.contains_iff_mem, List.mem_map, List.mem_range]
    refine ⟨r / M, Nat.div_lt_of_lt_mul hr, ?_⟩
    rw [Nat.add_comm]; exact Nat.div_add_mod' r M
  rw [h1, h2]
  rfl

theorem mem_shift (M c q : Nat) : q ∈ (List.range M).map (fun j => c + j) ↔ c ≤ q ∧ q < c + M := by
  simp only [List.mem_map, List.mem_range]
  constructor
  · rintro ⟨j, hj, rfl⟩; omega
  · rintro ⟨h1, h2⟩; exact ⟨q - c, by omega, by omega⟩

theorem mem_stride (M G c q : Nat) (hM : 0 < M) (hc : c < M) (hq : q < M * G) :
    q ∈ (List.range G).map (fun i => c + i * M) ↔ q % M = c := by
  simp only [List.mem_map, List.mem_range]
  constructor
  · rintro ⟨i, _, rfl⟩; rw [Nat.add_mul_mod_self_right, Nat.mod_eq_of_lt hc]
  · intro h
    refine ⟨q / M, Nat.div_lt_of_lt_mul hq, ?_⟩
    rw [← h, Nat.add_comm]; exact Nat.div_add_mod' q M

/-- C15: if the requested group size divides the number of ranks, the split is as expected. -/
theorem C15_split_partial (M G : Nat) (hM : 0 < M) (hG : 0 < G) : GoodSplit (M * G) M (splitSOL (M * G) M) := by
  have hsol : ∀ r, r < M * G → splitSOL (M * G) M r = .ok ⟨(List.range M).map (fun j => r / M * M + j),
      some ((List.range G).map (fun i => r % M + i * M))⟩ := by
    intro r hr
    unfold splitSOL
    rw [if_neg (by omega)]
    simp only [Nat.mul_mod_right, ne_eq, not_true_eq_false, if_false, Nat.mul_div_cancel_left G hM]
    exact splitBy_eq M G r hM hr
  have hla : ∀ r, (fun j => r / M * M + j) = (fun j => r / M * M + j) := fun _ => rfl
  refine ⟨?_, ?_, ?_⟩
  · intro r hr
    refine ⟨_, _, hsol r hr, ?_, ?_, by simp, ?_, ?_, ?_, ?_⟩
    · rw [mem_shift]; have := Nat.div_add_mod' r M; have := Nat.mod_lt r hM; omega
    · rw [mem_stride M G _ r hM (Nat.mod_lt _ hM) hr]
    · exact List.Nodup.map (by intro a b h; simpa using h) List.nodup_range
    · refine List.Nodup.map ?_ List.nodup_range
      intro a b h
      exact Nat.eq_of_mul_eq_mul_right hM (by simpa using h)
    · intro q hq
      rw [mem_shift] at hq
      have : (r / M + 1) * M ≤ G * M := Nat.mul_le_mul_right M (Nat.div_lt_of_lt_mul hr)
      rw [Nat.add_mul, Nat.mul_comm G] at this
      omega
    · intro q hq
      simp only [List.mem_map, List.mem_range] at hq
      obtain ⟨i, hi, rfl⟩ := hq
      have hm := Nat.mod_lt r hM
      have : (i + 1) * M ≤ G * M := Nat.mul_le_mul_right M hi
      rw [Nat.add_mul, Nat.mul_comm G] at this
      omega
  · intro r r' la la' s s' hr hr' h h'
    rw [hsol r hr] at h
    rw [hsol r' hr'] at h'
    simp only [SplitRes.ok.injEq, Comms.mk.injEq, Option.some.injEq] at h h'
    obtain ⟨rfl, rfl⟩ := h
    obtain ⟨rfl, rfl⟩ := h'
    constructor
    · by_cases hc : r / M = r' / M
      · left; rw [hc]
      · right
        intro q hq hq'
        rw [mem_shift] at hq hq'
        apply hc
        rcases Nat.lt_trichotomy (r / M) (r' / M) with hlt | heq | hlt
        · have : (r / M + 1) * M ≤ r' / M * M := Nat.mul_le_mul_right M hlt
          rw [Nat.add_mul] at this; omega
        · exact heq
        · have : (r' / M + 1) * M ≤ r / M * M := Nat.mul_le_mul_right M hlt
          rw [Nat.add_mul] at this; omega
    · by_cases hc : r % M = r' % M
      · left; rw [hc]
      · right
        intro q hq hq'
        simp only [List.mem_map, List.mem_range] at hq hq'
        obtain ⟨i, _, rfl⟩ := hq
        obtain ⟨i', _, h⟩ := hq'
        apply hc
        have := congrArg (· % M) h
        simp only [Nat.add_mul_mod_self_right, Nat.mod_mod] at this
        exact this.symm
  · intro r la s hr h q hq
    rw [hsol r hr] at h
    simp only [SplitRes.ok.injEq, Comms.mk.injEq, Option.some.injEq] at h
    obtain ⟨rfl, rfl⟩ := h
    have hidx : ∀ q, ((List.range M).map (fun j => q / M * M + j)).idxOf q = q % M := by
      intro q
      have := idxOf_shift M (q / M * M) (q % M) (Nat.mod_lt _ hM)
      rwa [Nat.div_add_mod'] at this
    rw [mem_stride M G _ q hM (Nat.mod_lt _ hM) hq, hidx r]
    constructor
    · intro h; exact ⟨_, _, hsol q hq, by rw [hidx q, h]⟩
    · rintro ⟨la', s', h1, h2⟩
      rw [hsol q hq] at h1
      simp only [SplitRes.ok.injEq, Comms.mk.injEq, Option.some.injEq] at h1
      obtain ⟨rfl, rfl⟩ := h1
      rw [hidx q] at h2; exact h2

/-- Six ranks in groups of two. -/
example : splitSOL 6 2 3 = .ok ⟨[2, 3], some [1, 3, 5]⟩ := by decide

/-- The default split: one group of all ranks, every rank alone in its sampling communicator. -/
theorem C15_default (P r : Nat) (hr : r < P) : splitDefault P r = .ok ⟨List.range P, some [r]⟩ := by
  have h := splitBy_eq P 1 r (by omega) (by omega)
  rw [Nat.mul_one] at h
  unfold splitDefault
  rw [h, Nat.div_eq_of_lt hr, Nat.mod_eq_of_lt hr]
  simp

/-- C15 fails whenever the requested size does not divide the number of ranks and is at most half of it: the code announces that
    it falls back to one group, but then asks for ranks that do not exist. -/
theorem C15_indivisible_violated (P M r : Nat) (hM : 0 < M) (hnd : P % M ≠ 0) (h2 : 2 * M ≤ P) :
    splitSOL P M r = .invalid := by
  unfold splitSOL
  rw [if_neg (by omega)]
  simp only [ne_eq, hnd, not_false_eq_true, if_true]
  unfold splitBy
  rw [if_neg (by omega)]
  have hG : 2 ≤ P / M := by rw [Nat.le_div_iff_mul_le hM]; exact h2
  have : ((List.range (P / M)).map (fun i => laRank P P r + i * P)).all (fun q => decide (q < P)) = false := by
    rw [List.all_eq_false]
    refine ⟨laRank P P r + 1 * P, List.mem_map.mpr ⟨1, List.mem_range.mpr (by omega), rfl⟩, ?_⟩
    simp
  simp only [this, Bool.false_and]
  rfl

example : (5 : Nat) % 2 ≠ 0 ∧ 2 * 2 ≤ 5 := by decide

/-- C15 fails for the multiscale split: the sampling communicator is never created, for any request. -/
theorem C15_multiscale_violated (P M r : Nat) : ∀ c, splitMultiscale P M r = .ok c → c.sampling = none := by
  intro c h
  unfold splitMultiscale at h
  by_cases hM : M = 0
  · rw [if_pos hM] at h; cases h
  · rw [if_neg hM] at h
    simp only at h
    generalize (if P % M ≠ 0 then P else M) = nm at h
    generalize (if P % nm ≠ 0 then 1 else P / nm) = per at h
    by_cases hp : per = 0
    · rw [if_pos hp] at h; cases h
    · rw [if_neg hp] at h; cases h; rfl

/-! ### C16 -/

section
variable {K : Type} [Field K] [LinearOrder K] [IsStrictOrderedRing K]

theorem foldl_sum {A : Type} (l : List A) (f : A → K) (a : K) : l.foldl (fun b x => b + f x) a = a + (l.map f).sum := by
  induction l generalizing a with
  | nil => simp
  | cons x l ih => rw [List.foldl_cons, ih]; simp [add_assoc]

theorem sum_bounds (l : List K) (lo hi : K) (h : ∀ x ∈ l, lo ≤ x ∧ x ≤ hi) :
    (l.length : K) * lo ≤ l.sum ∧ l.sum ≤ (l.length : K) * hi := by
  induction l with
  | nil => simp
  | cons a l ih =>
    obtain ⟨h1, h2⟩ := ih (fun x hx => h x (by simp [hx]))
    obtain ⟨g1, g2⟩ := h a (by simp)
    simp only [List.length_cons, List.sum_cons, Nat.cast_add, Nat.cast_one]
    constructor <;> nlinarith

theorem sum_sq_nonneg (l : List K) (m : K) : 0 ≤ (l.map (fun x => (x - m) * (x - m))).sum := by
  apply List.sum_nonneg
  intro x hx
  obtain ⟨y, _, rfl⟩ := List.mem_map.mp hx
  exact mul_self_nonneg _

/-- C16, mean: it is the average, and lies between any bounds of the samples. -/
theorem C16_mean (vals : List K) (hne : vals ≠ []) :
    ∃ m, mean vals = some m ∧ m * (vals.length : K) = vals.sum ∧
      ∀ lo hi, (∀ x ∈ vals, lo ≤ x ∧ x ≤ hi) → lo ≤ m ∧ m ≤ hi := by
  have hpos : (0 : K) < (vals.length : K) := by
    exact_mod_cast List.length_pos_of_ne_nil hne
  have hl : vals.length ≠ 0 := by simpa using hne
  have hs : vals.foldl (· + ·) 0 = vals.sum := by
    have := foldl_sum vals (fun x : K => x) 0
    simpa using this
  refine ⟨vals.sum / (vals.length : K), ?_, by field_simp, ?_⟩
  · unfold mean; rw [if_neg hl, hs]
  · intro lo hi h
    obtain ⟨h1, h2⟩ := sum_bounds vals lo hi h
    constructor
    · rw [le_div_iff₀ hpos]; linarith
    · rw [div_le_iff₀ hpos]; linarith

/-- C16, variance reported by `computeStatistics`: it is non-negative and the mean squared deviation from the
    mean.  The divisor is the number of samples. -/
theorem C16_variance_partial (vals : List K) (hne : vals ≠ []) :
    ∃ m v, mean vals = some m ∧ variance vals = some v ∧ 0 ≤ v ∧
      v * (vals.length : K) = (vals.map (fun x => (x - m) * (x - m))).sum := by
  obtain ⟨m, hm, _, _⟩ := C16_mean vals hne
  have hpos : (0 : K) < (vals.length : K) := by exact_mod_cast List.length_pos_of_ne_nil hne
  refine ⟨m, (vals.map (fun x => (x - m) * (x - m))).sum / (vals.length : K), hm, ?_, ?_, by field_simp⟩
  · unfold variance
    rw [hm]
    simp only
    rw [foldl_sum vals (fun x => (x - m) * (x - m)) 0, zero_add]
  · exact div_nonneg (sum_sq_nonneg vals m) (le_of_lt hpos)

theorem sum_div (l : List K) (c : K) : (l.map (fun x => x / c)).sum = l.sum / c := by
  induction l with
  | nil => simp
  | cons a l ih => simp [ih, add_div]

/-- C16, variance used by the density estimate: the unbiased sample variance, for at least two samples. -/
theorem C16_variance_unbiased (vals : List K) (h2 : 2 ≤ vals.length) :
    ∃ m v, mean vals = some m ∧ variance1 vals = some v ∧ 0 ≤ v ∧
      v * ((vals.length : K) - 1) = (vals.map (fun x => (x - m) * (x - m))).sum := by
  have hne : vals ≠ [] := by intro h; rw [h] at h2; simp at h2
  obtain ⟨m, hm, hmean, _⟩ := C16_mean vals hne
  have hpos : (0 : K) < (vals.length : K) := by exact_mod_cast List.length_pos_of_ne_nil hne
  have hpos1 : (0 : K) < (vals.length : K) - 1 := by
    have : (2 : K) ≤ (vals.length : K) := by exact_mod_cast h2
    linarith
  have hm' : vals.foldl (fun a x => a + x / (vals.length : K)) 0 = m := by
    rw [foldl_sum vals (fun x => x / (vals.length : K)) 0, zero_add, sum_div, ← hmean]
    field_simp
  refine ⟨m, (vals.map (fun x => (x - m) * (x - m))).sum / ((vals.length : K) - 1), hm, ?_, ?_, by field_simp⟩
  · unfold variance1
    rw [if_neg (by omega)]
    simp only [hm']
    rw [foldl_sum vals (fun x => (x - m) * (x - m) / ((vals.length : K) - 1)) 0, zero_add]
    congr 1
    have := sum_div (vals.map (fun x => (x - m) * (x - m))) ((vals.length : K) - 1)
    rw [List.map_map] at this
    exact this
  · exact div_nonneg (sum_sq_nonneg vals m) (le_of_lt hpos1)

theorem countBelow_eq (vals : List K) (t : K) : countBelow vals t = (vals.filter (fun x => x ≤ t)).length := by
  unfold countBelow
  have : ∀ (l : List K) (c : Nat), l.foldl (fun c x => if x ≤ t then c + 1 else c) c = c + (l.filter (fun x => x ≤ t)).length := by
    intro l
    induction l with
    | nil => intro c; rfl
    | cons a l ih =>
      intro c
      rw [List.foldl_cons, ih]
      by_cases h : a ≤ t
      · simp [h]; omega
      · simp [h]
  rw [this, Nat.zero_add]

/-- C16, probability levels: the fraction of the samples not above the level, in [0,1], never smaller for a larger
    level; zero below all samples and one from the largest sample on. -/
theorem C16_probability (vals : List K) (hne : vals ≠ []) (t : K) :
    ∃ p, probability vals t = some p ∧ p * (vals.length : K) = ((vals.filter (fun x => x ≤ t)).length : K) ∧ 0 ≤ p ∧ p ≤ 1 ∧
      (∀ t' p', t ≤ t' → probability vals t' = some p' → p ≤ p') ∧
      ((∀ x ∈ vals, t < x) → p = 0) ∧ ((∀ x ∈ vals, x ≤ t) → p = 1) := by
  have hpos : (0 : K) < (vals.length : K) := by exact_mod_cast List.length_pos_of_ne_nil hne
  have hl : vals.length ≠ 0 := by simpa using hne
  have hp : ∀ t, probability vals t = some (((vals.filter (fun x => x ≤ t)).length : K) / (vals.length : K)) := by
    intro t; unfold probability; rw [if_neg hl, countBelow_eq]
  refine ⟨_, hp t, by field_simp, div_nonneg (Nat.cast_nonneg _) (le_of_lt hpos), ?_, ?_, ?_, ?_⟩
  · rw [div_le_one hpos]; exact_mod_cast List.length_filter_le _ _
  · intro t' p' htt h
    rw [hp t'] at h
    rw [← Option.some.inj h]
    apply div_le_div_of_nonneg_right _ (le_of_lt hpos)
    have : (vals.filter (fun x => x ≤ t)).length ≤ (vals.filter (fun x => x ≤ t')).length := by
      rw [← List.countP_eq_length_filter, ← List.countP_eq_length_filter]
      apply List.countP_mono_left
      intro x _ hx
      simp only [decide_eq_true_eq] at hx ⊢
      exact le_trans hx htt
    exact_mod_cast this
  · intro h
    have : vals.filter (fun x => x ≤ t) = [] := by
      rw [List.filter_eq_nil_iff]; intro x hx; simpa using h x hx
    rw [this]; simp
  · intro h
    have : vals.filter (fun x => x ≤ t) = vals := by
      rw [List.filter_eq_self]; intro x hx; simpa using h x hx
    rw [this, div_self (ne_of_gt hpos)]

end

example : mean [1, 2, (6 : ℚ)] = some 3 ∧ variance [1, 2, (6 : ℚ)] = some (14/3) ∧ variance1 [1, 2, (6 : ℚ)] = some 7 ∧
    probability [1, 2, (6 : ℚ)] 2 = some (2/3) := by decide +kernel

/-- C16 fails: the variance reported to the user is not the unbiased sample variance. -/
theorem C16_variance_violated : ∃ (vals : List ℚ) (v w : ℚ), variance vals = some v ∧ variance1 vals = some w ∧ v < w :=
  ⟨[1, 2, 6], 14/3, 7, by decide +kernel, by decide +kernel, by norm_num⟩

/-- C16 fails for the label "probability the response is less than": a constant response equal to the level is
    reported to be less than it with probability one. -/
theorem C16_less_than_violated : ∃ (vals : List ℚ) (t : ℚ), probability vals t = some 1 ∧ ∀ x ∈ vals, ¬ x < t :=
  ⟨[2, 2], 2, by decide +kernel, by simp⟩

/-! ### C47: rejection sampling -/

section
variable {K : Type} [Field K] [LinearOrder K] [IsStrictOrderedRing K]

theorem foldMaxAbs (l : List K) (m : K) :
    m ≤ l.foldl (fun c r => if |r| > c then |r| else c) m ∧
    (∀ x ∈ l, |x| ≤ l.foldl (fun c r => if |r| > c then |r| else c) m) ∧
    (l.foldl (fun c r => if |r| > c then |r| else c) m = m ∨ ∃ x ∈ l, l.foldl (fun c r => if |r| > c then |r| else c) m = |x|) := by
  induction l generalizing m with
  | nil => simp
  | cons a l ih =>
    rw [List.foldl_cons]
    obtain ⟨h1, h2, h3⟩ := ih (if |a| > m then |a| else m)
    have hm : m ≤ (if |a| > m then |a| else m) ∧ |a| ≤ (if |a| > m then |a| else m) := by
      by_cases h : |a| > m
      · rw [if_pos h]; exact ⟨le_of_lt h, le_refl _⟩
      · rw [if_neg h]; exact ⟨le_refl _, not_lt.mp h⟩
    refine ⟨le_trans hm.1 h1, ?_, ?_⟩
    · intro x hx
      rcases List.mem_cons.mp hx with rfl | hx
      · exact le_trans hm.2 h1
      · exact h2 x hx
    · rcases h3 with h3 | ⟨x, hx, h3⟩
      · rw [h3]
        by_cases h : |a| > m
        · right; exact ⟨a, by simp, by rw [if_pos h]⟩
        · left; rw [if_neg h]
      · right; exact ⟨x, by simp [hx], h3⟩

/-- C47: one decision per ratio; sample `k` is accepted exactly when its random number times the
    largest magnitude `C` does not exceed the magnitude of its ratio, so a sample with the largest ratio is always
    accepted (random numbers at most one, ratios not all zero). -/
theorem C47_rejection (ratios checks : List K) (hlen : ratios.length = checks.length) (C : K)
    (hC : ∀ x ∈ ratios, |x| ≤ C) (hmax : ∃ x ∈ ratios, |x| = C) (hpos : 0 < C) :
    (rejection ratios checks).length = ratios.length ∧
    (∀ (k : Nat) (r c : K), ratios[k]? = some r → checks[k]? = some c →
      ((rejection ratios checks)[k]? = some true ↔ c * C ≤ |r|)) ∧
    (∀ (k : Nat) (r c : K), ratios[k]? = some r → checks[k]? = some c → |r| = C → c ≤ 1 → (rejection ratios checks)[k]? = some true) := by
  have hCeq : ratios.foldl (fun c r => if |r| > c then |r| else c) 0 = C := by
    obtain ⟨_, h2, h3⟩ := foldMaxAbs ratios (0 : K)
    obtain ⟨x, hx, hxC⟩ := hmax
    apply le_antisymm
    · rcases h3 with h3 | ⟨y, hy, h3⟩
      · rw [h3]; exact le_of_lt hpos
      · rw [h3]; exact hC y hy
    · rw [← hxC]; exact h2 x hx
  have key : ∀ (k : Nat) (r c : K), ratios[k]? = some r → checks[k]? = some c →
      ((rejection ratios checks)[k]? = some true ↔ c * C ≤ |r|) := by
    intro k r c hr hc
    unfold rejection
    simp only [hCeq]
    have hz : (ratios.zip checks)[k]? = some (r, c) := List.getElem?_zip_eq_some.mpr ⟨hr, hc⟩
    rw [List.getElem?_map, hz]
    simp only [Option.map_some, Option.some.injEq, decide_eq_true_eq, ge_iff_le]
    rw [le_div_iff₀ hpos]
    exact ⟨fun h => h.2, fun h => ⟨ne_of_gt hpos, h⟩⟩
  refine ⟨by unfold rejection; simp [hlen], key, ?_⟩
  intro k r c hr hc hrC hc1
  rw [key k r c hr hc, hrC]
  nlinarith

/-- C47, degenerate: if all ratios are zero no sample is accepted. -/
theorem C47_all_zero (ratios checks : List K) (h0 : ∀ x ∈ ratios, x = 0) : ∀ b ∈ rejection ratios checks, b = false := by
  have hCeq : ratios.foldl (fun c r => if |r| > c then |r| else c) 0 = (0 : K) := by
    rcases (foldMaxAbs ratios (0 : K)).2.2 with h | ⟨x, hx, h⟩
    · exact h
    · rw [h, h0 x hx, abs_zero]
  intro b hb
  unfold rejection at hb
  simp only [hCeq] at hb
  obtain ⟨p, _, rfl⟩ := List.mem_map.mp hb
  simp

end

example : rejection [1, -4, (2 : ℚ)] [1/2, 9/10, 1/2] = [false, true, true] := by decide +kernel

/-! ### C48: requested distributions -/

/-- C48: the view-returning sampler draws Gaussian parameters with standard deviation the square root of the
    requested variance, and uniform ones between the requested bounds. -/
theorem C48_draw {K : Type} [Field K] [LinearOrder K] (sq : K → K) (m v lo hi : K) :
    draw sq "Gaussian" m v lo hi = .normal m (sq v) ∧ draw sq "uniform" m v lo hi = .uniform lo hi := by
  constructor <;> rfl

/-- C48 fails for the sampler that fills views: it passes the variance as standard deviation, so for every true square
    root and every variance other than 0 and 1 the two samplers draw from different distributions. -/
theorem C48_fill_violated {K : Type} [Field K] [LinearOrder K] (sq : K → K) (m v lo hi : K) (hsq : sq v * sq v = v)
    (h0 : v ≠ 0) (h1 : v ≠ 1) : drawInto "Gaussian" m v lo hi ≠ draw sq "Gaussian" m v lo hi := by
  intro h
  have h2 : (Draw.normal m v : Draw K) = .normal m (sq v) := h
  simp only [Draw.normal.injEq, true_and] at h2
  rw [← h2] at hsq
  exact h1 (mul_right_cancel₀ h0 (by rw [hsq, one_mul]))

example : ((4 : ℚ) = 2 * 2) ∧ (4 : ℚ) ≠ 0 ∧ (4 : ℚ) ≠ 1 := by norm_num

/-! ### C17 -/

section
variable {K : Type} [Field K] [LinearOrder K] [IsStrictOrderedRing K]

/-- All entries are numbers and differ pairwise by at least the tolerance. -/
def Apart (ctol : K) (l : List (Option K)) : Prop :=
  (∀ r ∈ l, r ≠ none) ∧ l.Pairwise (fun a b => ∀ x y, a = some x → b = some y → ctol ≤ |x - y|)

theorem newton_some (f df : K → K) (nltol : K) (n : Nat) (om : K) (hdf : ∀ x, df x ≠ 0) :
    ∃ r, newton f df nltol n om = some r := by
  induction n generalizing om with
  | zero => exact ⟨om, rfl⟩
  | succ n ih =>
    rw [newton]
    by_cases h : |f om| > nltol
    · rw [if_pos h, if_neg (hdf om)]; exact ih _
    · rw [if_neg h]; exact ⟨om, rfl⟩

theorem rootLoop_length (f df : K → K) (step ctol nltol : K) (N maxnl n : Nat) (ig fprev : K) (roots : List (Option K))
    (h : roots.length ≤ N) : (rootLoop f df step ctol nltol N maxnl n ig fprev roots).length ≤ N := by
  induction n generalizing ig fprev roots with
  | zero => exact h
  | succ n ih =>
    rw [rootLoop]
    by_cases hl : roots.length < N
    · rw [if_pos hl]
      simp only
      by_cases hs : f (ig + step) * fprev < 0
      · rw [if_pos hs]
        apply ih
        by_cases hk : known ctol roots (newton f df nltol maxnl (ig + step)) = true
        · rw [if_pos hk]; exact h
        · rw [if_neg hk]; simp; omega
      · rw [if_neg hs]; exact ih _ _ _ h
    · rw [if_neg hl]; exact h

theorem rootLoop_apart (f df : K → K) (step ctol nltol : K) (N maxnl n : Nat) (ig fprev : K) (roots : List (Option K))
    (hdf : ∀ x, df x ≠ 0) (h : Apart ctol roots) : Apart ctol (rootLoop f df step ctol nltol N maxnl n ig fprev roots) := by
  induction n generalizing ig fprev roots with
  | zero => exact h
  | succ n ih =>
    rw [rootLoop]
    by_cases hl : roots.length < N
    · rw [if_pos hl]
      simp only
      by_cases hs : f (ig + step) * fprev < 0
      · rw [if_pos hs]
        apply ih
        by_cases hk : known ctol roots (newton f df nltol maxnl (ig + step)) = true
        · rw [if_pos hk]; exact h
        · rw [if_neg hk]
          obtain ⟨r, hr⟩ := newton_some f df nltol maxnl (ig + step) hdf
          rw [hr] at hk ⊢
          refine ⟨?_, ?_⟩
          · intro x hx
            rcases List.mem_append.mp hx with hx | hx
            · exact h.1 x hx
            · simp at hx; rw [hx]; simp
          · rw [List.pairwise_append]
            refine ⟨h.2, by simp, ?_⟩
            intro a ha b hb x y hax hby
            simp at hb
            rw [hb] at hby
            cases hby
            subst hax
            by_contra hlt
            apply hk
            unfold known
            rw [List.any_eq_true]
            refine ⟨some x, ha, ?_⟩
            rw [abs_sub_comm] at hlt
            simpa using not_le.mp hlt
      · rw [if_neg hs]; exact ih _ _ _ h
    · rw [if_neg hl]; exact h

/-- C17: for every characteristic function, at most the requested number of roots is returned.  If its derivative never vanishes,
    all returned roots are numbers that differ pairwise by at least the merge tolerance. -/
theorem C17_distinct_partial (f df : K → K) (ctol nltol : K) (N : Nat) :
    (computeRoots f df ctol nltol N).length ≤ N ∧
    ((∀ x, df x ≠ 0) → Apart ctol (computeRoots f df ctol nltol N)) :=
  ⟨rootLoop_length f df 1 ctol nltol N 10 1000 1 (f 1) [] (by simp),
    fun hdf => rootLoop_apart f df 1 ctol nltol N 10 1000 1 (f 1) [] hdf ⟨by simp, by simp⟩⟩

end

/-- Roots 5/2 of a line: found once. -/
example : computeRoots (fun x : ℚ => x - 5/2) (fun _ => 1) (1/10^6) (1/10^10) 1 = [some (5/2)] := by decide +kernel

/-- C17 fails where the derivative vanishes at an iterate: the search for the root of `1/2 - (x-2)^2` in (1,2) starts at
    the extremum 2, divides by zero, and an infinite "root" is returned. -/
theorem C17_infinite_violated : ∃ (f df : ℚ → ℚ), (∀ x, f x = 1/2 - (x - 2)^2) ∧ (∀ x, df x = -2 * (x - 2)) ∧
    computeRoots f df (1/10^6) (1/10^10) 1 = [none] :=
  ⟨fun x => 1/2 - (x - 2)^2, fun x => -2 * (x - 2), fun _ => rfl, fun _ => rfl, by decide +kernel⟩

/-- C17, quality: a returned value need not be a root.  The search for the triple root 5/2 stops after ten Newton steps
    and returns a value at which the function is far above the tolerance. -/
theorem C17_not_a_root_violated : ∃ (f df : ℚ → ℚ) (r : ℚ), (∀ x, f x = (x - 5/2)^3) ∧ (∀ x, df x = 3 * (x - 5/2)^2) ∧
    computeRoots f df (1/10^6) (1/10^10) 1 = [some r] ∧ 1/10^7 < |f r| :=
  ⟨fun x => (x - 5/2)^3, fun x => 3 * (x - 5/2)^2, 5/2 + 1/2 * (2/3)^10, fun _ => rfl, fun _ => rfl, by decide +kernel, by decide +kernel⟩

end MrHyDE.UQ
