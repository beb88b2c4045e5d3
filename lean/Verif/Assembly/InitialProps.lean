import Verif.Assembly.InitialLemmas
import Mathlib.Tactic.NormNum
import Mathlib.Algebra.Order.BigOperators.Group.Finset
import Mathlib.Tactic.Linarith
import Mathlib.Tactic.IntervalCases
import Mathlib.Tactic.LinearCombination

set_option linter.unusedSectionVars false

/-! # C127: the initial state is the one asked for -/

namespace MrHyDE.Initial

open MrHyDE.Mass

variable {K : Type}

section
variable [Field K] [LinearOrder K] [IsStrictOrderedRing K]

/-- `x` solves the `n` by `n` system. [specification, no code] -/
def Solves (n : Nat) (s : (Nat → Nat → K) × (Nat → K)) (x : Nat → K) : Prop :=
  ∀ r < n, ∑ q ∈ Finset.range n, s.1 r q * x q = s.2 r

/-- The difference of the finite element function with coefficients `x` and the data, at a point. [specification, no code] -/
def gap (D : Data K) (x : Nat → K) (n k d : Nat) : K := field D.elem n ((D.elem.vars[n]?).getD []) x k d - D.init n k d

/-- The squared distance between data and the function with coefficients `x`, by quadrature. [specification, no code] -/
def distance (D : Data K) (x : Nat → K) : K :=
  ((enum D.elem.vars).map (fun v => ((List.range D.elem.points).map (fun k => D.elem.wts k *
    ((List.range (D.elem.comps v.2)).map (fun d => gap D x v.2 k d * gap D x v.2 k d)).sum)).sum)).sum

/-- C127, partial: if no row is mistaken for a zero row after any block, a vector solves the system of the projection exactly when
the difference of its function and the data is orthogonal to all finite element functions: it is the projection; for all meshes,
bases, data and numbers of blocks.  Missing: several blocks in general (`C127_blocks_violated`), small elements
(`C127_small_violated`), variables on faces (`C127_hface_violated`), blocks without data (`C127_missing_violated`). -/
theorem C127_projection_partial (tol : K) (n : Nat) (arg : Bool) (blocks : List (Bool × List (Data K)))
    (hN : ∀ D ∈ elementsOf blocks, Below n D.elem) (hd : ∀ b ∈ blocks, ∀ D ∈ b.2, Distinct D.elem.vars)
    (hr : RowsSeen tol n blocks) (x : Nat → K) :
    Solves n (system tol n false arg blocks) x ↔
      ∀ z : Nat → K, ((elementsOf blocks).map (fun D => pairing D.elem (gap D x) z)).sum = 0 := by
  have hd' : ∀ D ∈ elementsOf blocks, Distinct D.elem.vars := by
    intro D hD
    unfold elementsOf at hD
    rw [List.mem_flatMap] at hD
    obtain ⟨b, hb, hD⟩ := hD
    exact hd b (List.mem_filter.1 hb).1 D hD
  rw [system_clean tol n arg blocks hd hr]
  have key : ∀ z : Nat → K, ((elementsOf blocks).map (fun D => pairing D.elem (gap D x) z)).sum =
      ∑ p ∈ Finset.range n, z p * (∑ q ∈ Finset.range n, massOf (elementsOf blocks) p q * x q - rhsOf (elementsOf blocks) p) := by
    intro z
    simp only [mul_sub, Finset.sum_sub_distrib]
    rw [massOf_pairing _ n hN hd', rhsOf_pairing _ n hN]
    unfold gap
    simp only [pairing_sub]
    generalize elementsOf blocks = l
    induction l with
    | nil => simp
    | cons D t ih => simp only [List.map_cons, List.sum_cons, ih]; ring
  unfold Solves
  constructor
  · intro h z
    rw [key]
    apply Finset.sum_eq_zero
    intro p hp
    rw [h p (Finset.mem_range.1 hp), sub_self, mul_zero]
  · intro h r hr'
    have := h (fun p => if p = r then 1 else 0)
    rw [key] at this
    simp only [ite_mul, one_mul, zero_mul] at this
    rw [Finset.sum_ite_eq' (Finset.range n) r, if_pos (Finset.mem_range.2 hr')] at this
    exact sub_eq_zero.1 this

theorem field_sub (E : Elem K) (n : Nat) (off : List Nat) (x z : Nat → K) (k d : Nat) :
    field E n off (fun r => x r - z r) k d = field E n off x k d - field E n off z k d := by
  unfold field
  induction enum off with
  | nil => simp
  | cons a t ih => simp only [List.map_cons, List.sum_cons, ih]; ring

theorem distance_split (D : Data K) (x v : Nat → K) :
    distance D v = distance D x + 2 * pairing D.elem (gap D x) (fun r => v r - x r) +
      inner (fun _ => 1) D.elem (fun r => v r - x r) (fun r => v r - x r) := by
  have key3 : ∀ {A : Type} (l : List A) (f g h : A → K), (l.map (fun a => f a + 2 * g a + h a)).sum =
      (l.map f).sum + 2 * (l.map g).sum + (l.map h).sum := by
    intro A l f g h
    induction l with
    | nil => simp
    | cons a t ih => simp only [List.map_cons, List.sum_cons, ih]; ring
  unfold distance pairing inner
  rw [← key3]
  congr 1
  apply List.map_congr_left
  intro w hw
  have e := mem_enum _ _ _ hw
  rw [one_mul, ← key3]
  congr 1
  apply List.map_congr_left
  intro k _
  rw [show ∀ a b c : K, D.elem.wts k * a + 2 * (D.elem.wts k * b) + D.elem.wts k * c = D.elem.wts k * (a + 2 * b + c) by
    intros; ring, ← key3]
  congr 2
  apply List.map_congr_left
  intro d _
  unfold gap
  rw [field_sub, e]
  simp only [Option.getD_some]
  ring

theorem inner_self_nonneg (E : Elem K) (hw : ∀ k < E.points, 0 ≤ E.wts k) (z : Nat → K) :
    0 ≤ inner (fun _ => 1) E z z := by
  unfold inner
  apply List.sum_nonneg
  intro y hy
  obtain ⟨v, _, rfl⟩ := List.mem_map.1 hy
  rw [one_mul]
  apply List.sum_nonneg
  intro y hy
  obtain ⟨k, hk, rfl⟩ := List.mem_map.1 hy
  apply mul_nonneg (hw k (List.mem_range.1 hk))
  apply List.sum_nonneg
  intro y hy
  obtain ⟨d, _, rfl⟩ := List.mem_map.1 hy
  exact mul_self_nonneg _

theorem sum_split (l : List (Data K)) (x v : Nat → K) :
    (l.map (fun D => distance D v)).sum = (l.map (fun D => distance D x)).sum +
      2 * (l.map (fun D => pairing D.elem (gap D x) (fun r => v r - x r))).sum +
      (l.map (fun D => inner (fun _ => 1) D.elem (fun r => v r - x r) (fun r => v r - x r))).sum := by
  induction l with
  | nil => simp
  | cons D t ih => simp only [List.map_cons, List.sum_cons, ih]; rw [distance_split D x v]; ring

/-- C127, partial: under the same conditions and with weights that are not negative, no finite element function is closer to the data
than the solution of the system.  Missing: as in `C127_projection_partial`. -/
theorem C127_closest_partial (tol : K) (n : Nat) (arg : Bool) (blocks : List (Bool × List (Data K)))
    (hN : ∀ D ∈ elementsOf blocks, Below n D.elem) (hd : ∀ b ∈ blocks, ∀ D ∈ b.2, Distinct D.elem.vars)
    (hr : RowsSeen tol n blocks) (hw : ∀ D ∈ elementsOf blocks, ∀ k < D.elem.points, 0 ≤ D.elem.wts k) (x : Nat → K)
    (hx : Solves n (system tol n false arg blocks) x) (v : Nat → K) :
    ((elementsOf blocks).map (fun D => distance D x)).sum ≤ ((elementsOf blocks).map (fun D => distance D v)).sum := by
  have h := (C127_projection_partial tol n arg blocks hN hd hr x).1 hx (fun r => v r - x r)
  rw [sum_split _ x v, h, mul_zero, add_zero]
  apply le_add_of_nonneg_right
  apply List.sum_nonneg
  intro y hy
  obtain ⟨D, hD, rfl⟩ := List.mem_map.1 hy
  exact inner_self_nonneg _ (hw D hD) _

/-- A function that vanishes at all points has the coefficients zero. [specification, no code] -/
def Unisolvent (n : Nat) (ds : List (Data K)) : Prop :=
  ∀ z : Nat → K, (∀ D ∈ ds, ∀ v ∈ enum D.elem.vars, ∀ k < D.elem.points, ∀ d < D.elem.comps v.2, field D.elem v.2 v.1 z k d = 0) →
    ∀ r < n, z r = 0

theorem inner_zero (E : Elem K) (hw : ∀ k < E.points, 0 < E.wts k) (z : Nat → K) (h : inner (fun _ => 1) E z z = 0) :
    ∀ v ∈ enum E.vars, ∀ k < E.points, ∀ d < E.comps v.2, field E v.2 v.1 z k d = 0 := by
  intro v hv k hk d hd
  have h3 : ∀ (v : List Nat × Nat) (k : Nat),
      0 ≤ ((List.range (E.comps v.2)).map (fun d => field E v.2 v.1 z k d * field E v.2 v.1 z k d)).sum := by
    intro v k
    apply List.sum_nonneg
    intro y hy
    obtain ⟨d, _, rfl⟩ := List.mem_map.1 hy
    exact mul_self_nonneg _
  have h2 : ∀ v : List Nat × Nat, 0 ≤ ((List.range E.points).map (fun k => E.wts k *
      ((List.range (E.comps v.2)).map (fun d => field E v.2 v.1 z k d * field E v.2 v.1 z k d)).sum)).sum := by
    intro v
    apply List.sum_nonneg
    intro y hy
    obtain ⟨k, hk, rfl⟩ := List.mem_map.1 hy
    exact mul_nonneg (le_of_lt (hw k (List.mem_range.1 hk))) (h3 v k)
  have zero_of : ∀ {A : Type} (l : List A) (f : A → K), (∀ a ∈ l, 0 ≤ f a) → (l.map f).sum = 0 → ∀ a ∈ l, f a = 0 := by
    intro A l f hf hs a ha
    have hle : f a ≤ (l.map f).sum :=
      List.single_le_sum (by intro y hy; obtain ⟨b, hb, rfl⟩ := List.mem_map.1 hy; exact hf b hb) _ (List.mem_map.2 ⟨a, ha, rfl⟩)
    rw [hs] at hle
    exact le_antisymm hle (hf a ha)
  unfold inner at h
  simp only [one_mul] at h
  have a1 := zero_of _ _ (fun v _ => h2 v) h v hv
  have a2 := zero_of _ _ (fun k hk => mul_nonneg (le_of_lt (hw k (List.mem_range.1 hk))) (h3 v k)) a1 k (List.mem_range.2 hk)
  have a3 := (mul_eq_zero.1 a2).resolve_left (ne_of_gt (hw k hk))
  have a4 := zero_of _ _ (fun d _ => mul_self_nonneg _) a3 d (List.mem_range.2 hd)
  exact mul_self_eq_zero.1 a4

/-- C127, partial: data that is itself a finite element function is reproduced, if the weights are positive and the points tell
functions apart.  Missing: as in `C127_projection_partial`. -/
theorem C127_reproduces_partial (tol : K) (n : Nat) (arg : Bool) (blocks : List (Bool × List (Data K)))
    (hN : ∀ D ∈ elementsOf blocks, Below n D.elem) (hd : ∀ b ∈ blocks, ∀ D ∈ b.2, Distinct D.elem.vars)
    (hr : RowsSeen tol n blocks) (hw : ∀ D ∈ elementsOf blocks, ∀ k < D.elem.points, 0 < D.elem.wts k)
    (hu : Unisolvent n (elementsOf blocks)) (c : Nat → K)
    (hc : ∀ D ∈ elementsOf blocks, ∀ m k d, D.init m k d = field D.elem m ((D.elem.vars[m]?).getD []) c k d) (x : Nat → K)
    (hx : Solves n (system tol n false arg blocks) x) : ∀ r < n, x r = c r := by
  have h0 : (((elementsOf blocks).map (fun D => distance D c))).sum = 0 := by
    apply List.sum_eq_zero
    intro y hy
    obtain ⟨D, hD, rfl⟩ := List.mem_map.1 hy
    unfold distance gap
    simp [hc D hD]
  have h := (C127_projection_partial tol n arg blocks hN hd hr x).1 hx (fun r => c r - x r)
  have hs := sum_split (elementsOf blocks) x c
  rw [h, h0, mul_zero, add_zero] at hs
  have n1 : 0 ≤ ((elementsOf blocks).map (fun D => distance D x)).sum := by
    apply List.sum_nonneg
    intro y hy
    obtain ⟨D, hD, rfl⟩ := List.mem_map.1 hy
    unfold distance
    apply List.sum_nonneg
    intro y hy
    obtain ⟨v, _, rfl⟩ := List.mem_map.1 hy
    apply List.sum_nonneg
    intro y hy
    obtain ⟨k, hk, rfl⟩ := List.mem_map.1 hy
    apply mul_nonneg (le_of_lt (hw D hD k (List.mem_range.1 hk)))
    apply List.sum_nonneg
    intro y hy
    obtain ⟨d, _, rfl⟩ := List.mem_map.1 hy
    exact mul_self_nonneg _
  have n2 : ∀ D ∈ elementsOf blocks, 0 ≤ inner (fun _ => 1) D.elem (fun r => c r - x r) (fun r => c r - x r) :=
    fun D hD => inner_self_nonneg _ (fun k hk => le_of_lt (hw D hD k hk)) _
  have n3 : 0 ≤ ((elementsOf blocks).map (fun D => inner (fun _ => 1) D.elem (fun r => c r - x r) (fun r => c r - x r))).sum := by
    apply List.sum_nonneg
    intro y hy
    obtain ⟨D, hD, rfl⟩ := List.mem_map.1 hy
    exact n2 D hD
  have n4 : ((elementsOf blocks).map (fun D => inner (fun _ => 1) D.elem (fun r => c r - x r) (fun r => c r - x r))).sum = 0 := by
    linarith
  intro r hr'
  have := hu (fun r => c r - x r) (fun D hD => inner_zero D.elem (hw D hD) _ (by
    have hle : inner (fun _ => 1) D.elem (fun r => c r - x r) (fun r => c r - x r) ≤
        ((elementsOf blocks).map (fun D => inner (fun _ => 1) D.elem (fun r => c r - x r) (fun r => c r - x r))).sum :=
      List.single_le_sum (by intro y hy; obtain ⟨b, hb, rfl⟩ := List.mem_map.1 hy; exact n2 b hb) _ (List.mem_map.2 ⟨D, hD, rfl⟩)
    rw [n4] at hle
    exact le_antisymm hle (n2 D hD))) r hr'
  linarith

/-! ### Several blocks, small elements -/

theorem massEntry_other (E : Elem K) (r : Nat) (h : ∀ a ∈ positions E.vars, E.lids a ≠ r) (q : Nat) : massEntry E r q = 0 := by
  unfold massEntry entry
  apply List.sum_eq_zero
  intro y hy
  obtain ⟨t, ht, rfl⟩ := List.mem_map.1 hy
  obtain ⟨v, h1, h2, _⟩ := mem_pairs _ _ ht
  exact if_neg (fun e => h _ (pos_mem _ _ _ _ _ h1 h2) e.1)

/-- C127 is false on several blocks: an unknown that the first block does not touch is given a one on the diagonal, and the second
block adds its entries to that: the diagonal is one plus the mass, the right-hand side is not changed, so the state is not the
projection; for all meshes with two blocks. -/
theorem C127_blocks_violated (tol : K) (ht : 0 < tol) (ht1 : tol ≤ 1) (n : Nat) (arg : Bool) (b0 b1 : List (Data K))
    (hd : ∀ D ∈ b0 ++ b1, Distinct D.elem.vars) (r : Nat) (hr : r < n)
    (h0 : ∀ D ∈ b0, ∀ a ∈ positions D.elem.vars, D.elem.lids a ≠ r) (hm : 0 ≤ massOf b1 r r) :
    (system tol n false arg [(true, b0), (true, b1)]).1 r r = 1 + massOf b1 r r ∧
      (system tol n false arg [(true, b0), (true, b1)]).2 r = rhsOf (b0 ++ b1) r := by
  have z0 : ∀ q, massOf b0 r q = 0 := by
    intro q
    unfold massOf
    apply List.sum_eq_zero
    intro y hy
    obtain ⟨D, hD, rfl⟩ := List.mem_map.1 hy
    exact massEntry_other _ _ (h0 D hD) q
  unfold system
  rw [List.foldl_cons, List.foldl_cons, List.foldl_nil, if_pos rfl, if_pos rfl,
    blockPart_eq _ _ _ (fun D hD => hd D (List.mem_append_left _ hD)),
    blockPart_eq _ _ _ (fun D hD => hd D (List.mem_append_right _ hD))]
  have d0 : fixRows tol n (fun p q => 0 + massOf b0 p q) r r = 1 := by
    unfold fixRows
    rw [if_pos]
    refine ⟨hr, ?_, rfl⟩
    rw [rowAbs_eq]
    simp only [z0, add_zero, abs_zero, Finset.sum_const_zero]
    exact ht
  constructor
  · simp only
    generalize fixRows tol n (fun p q => 0 + massOf b0 p q) = F at d0
    unfold fixRows
    rw [if_neg]
    · simp only [d0]
    rintro ⟨_, h2, _⟩
    rw [rowAbs_eq] at h2
    have := Finset.single_le_sum (f := fun c => |F r c + massOf b1 r c|) (fun _ _ => abs_nonneg _) (Finset.mem_range.2 hr)
    simp only [d0] at this
    rw [abs_of_nonneg (by linarith)] at this
    linarith
  · simp only
    rw [rhsOf_append, zero_add]

/-- A cell with one constant function of volume `w`, number `r`, and constant data. [case] -/
def cell (w f : ℚ) (r : Nat) : Data ℚ where
  elem := { vars := [[0]], lids := fun _ => r, basis := fun _ _ _ _ => 1, points := 1, comps := fun _ => 1, wts := fun _ => w }
  init := fun _ _ _ => f

/-- C127 is false on several blocks, in numbers: with data 1 on two cells of volume 1/2, each a block, the state is 1 on the first
and 1/3 on the second; in one block it is 1 on both. -/
theorem C127_two_blocks_violated :
    (∀ x, Solves 2 (system (1 / 10 ^ 14) 2 false false [(true, [cell (1/2) 1 0]), (true, [cell (1/2) 1 1])]) x → x 0 = 1 ∧ x 1 = 1/3) ∧
    (∀ x, Solves 2 (system (1 / 10 ^ 14) 2 false false [(true, [cell (1/2) 1 0, cell (1/2) 1 1])]) x → x 0 = 1 ∧ x 1 = 1) := by
  have e : ∀ s : (Nat → Nat → ℚ) × (Nat → ℚ), ∀ x : Nat → ℚ, Solves 2 s x →
      s.1 0 0 * x 0 + s.1 0 1 * x 1 = s.2 0 ∧ s.1 1 0 * x 0 + s.1 1 1 * x 1 = s.2 1 := by
    intro s x h
    have a := h 0 (by omega)
    have b := h 1 (by omega)
    simp only [Finset.sum_range_succ, Finset.sum_range_zero, zero_add] at a b
    exact ⟨a, b⟩
  constructor
  · intro x hx
    obtain ⟨a, b⟩ := e _ x hx
    rw [show (system (1 / 10 ^ 14) 2 false false [(true, [cell (1/2) 1 0]), (true, [cell (1/2) 1 1])]).1 0 0 = 1/2 by decide +kernel,
      show (system (1 / 10 ^ 14) 2 false false [(true, [cell (1/2) 1 0]), (true, [cell (1/2) 1 1])]).1 0 1 = 0 by decide +kernel,
      show (system (1 / 10 ^ 14) 2 false false [(true, [cell (1/2) 1 0]), (true, [cell (1/2) 1 1])]).2 0 = 1/2 by decide +kernel] at a
    rw [show (system (1 / 10 ^ 14) 2 false false [(true, [cell (1/2) 1 0]), (true, [cell (1/2) 1 1])]).1 1 0 = 0 by decide +kernel,
      show (system (1 / 10 ^ 14) 2 false false [(true, [cell (1/2) 1 0]), (true, [cell (1/2) 1 1])]).1 1 1 = 3/2 by decide +kernel,
      show (system (1 / 10 ^ 14) 2 false false [(true, [cell (1/2) 1 0]), (true, [cell (1/2) 1 1])]).2 1 = 1/2 by decide +kernel] at b
    constructor <;> linarith
  · intro x hx
    obtain ⟨a, b⟩ := e _ x hx
    rw [show (system (1 / 10 ^ 14) 2 false false [(true, [cell (1/2) 1 0, cell (1/2) 1 1])]).1 0 0 = 1/2 by decide +kernel,
      show (system (1 / 10 ^ 14) 2 false false [(true, [cell (1/2) 1 0, cell (1/2) 1 1])]).1 0 1 = 0 by decide +kernel,
      show (system (1 / 10 ^ 14) 2 false false [(true, [cell (1/2) 1 0, cell (1/2) 1 1])]).2 0 = 1/2 by decide +kernel] at a
    rw [show (system (1 / 10 ^ 14) 2 false false [(true, [cell (1/2) 1 0, cell (1/2) 1 1])]).1 1 0 = 0 by decide +kernel,
      show (system (1 / 10 ^ 14) 2 false false [(true, [cell (1/2) 1 0, cell (1/2) 1 1])]).1 1 1 = 1/2 by decide +kernel,
      show (system (1 / 10 ^ 14) 2 false false [(true, [cell (1/2) 1 0, cell (1/2) 1 1])]).2 1 = 1/2 by decide +kernel] at b
    constructor <;> linarith

/-- C127 is false for small elements: a row whose entries sum to less than the tolerance gets a one on the diagonal, whatever its
mass; on a block of its own with one function the state is the integral of the data instead of its mean. -/
theorem C127_small_violated (tol : K) (n : Nat) (arg : Bool) (ds : List (Data K)) (hd : ∀ D ∈ ds, Distinct D.elem.vars)
    (r : Nat) (hr : r < n) (hs : rowAbs n (massOf ds) r < tol) :
    (system tol n false arg [(true, ds)]).1 r r = 1 ∧ (system tol n false arg [(true, ds)]).2 r = rhsOf ds r := by
  unfold system
  rw [List.foldl_cons, List.foldl_nil, if_pos rfl, blockPart_eq _ _ _ hd]
  simp only [zero_add]
  refine ⟨?_, trivial⟩
  unfold fixRows
  exact if_pos ⟨hr, hs, rfl⟩

/-- A cell of edge 10⁻⁵ has volume 10⁻¹⁵: data 1 becomes 10⁻¹⁵. -/
example : ∀ x, Solves 1 (system (1 / 10 ^ 14) 1 false false [(true, [cell (1 / 10 ^ 15) 1 0])]) x → x 0 = 1 / 10 ^ 15 := by
  intro x hx
  have a := hx 0 (by omega)
  simp only [Finset.sum_range_succ, Finset.sum_range_zero, zero_add] at a
  rw [show (system (1 / 10 ^ 14) 1 false false [(true, [cell (1 / 10 ^ 15) 1 0])]).1 0 0 = 1 by decide +kernel,
    show (system (1 / 10 ^ 14) 1 false false [(true, [cell (1 / 10 ^ 15) 1 0])]).2 0 = 1 / 10 ^ 15 by decide +kernel] at a
  linarith

theorem nil_sum {A : Type} (f : A → Nat → K) : ∀ l : List A, (l.flatMap (fun k => (List.range 0).map (f k))).sum = 0
  | [] => rfl
  | a :: t => by rw [List.flatMap_cons, List.range_zero, List.map_nil, List.nil_append]; exact nil_sum f t

/-- C127 is false for variables on faces in the projection over elements: their bases are skipped, so the state is zero whatever the
data is. -/
theorem C127_hface_violated (tol : K) (ht : 0 < tol) (n : Nat) (arg : Bool) (ds : List (Data K))
    (hd : ∀ D ∈ ds, Distinct D.elem.vars) (r : Nat) (hr : r < n)
    (hf : ∀ D ∈ ds, ∀ t ∈ dofs D.elem.vars, D.elem.lids t.2.2 = r → D.elem.comps t.1 = 0) (x : Nat → K)
    (hx : Solves n (system tol n false arg [(true, ds)]) x) : x r = 0 := by
  have zm : ∀ q, massOf ds r q = 0 := by
    intro q
    unfold massOf
    apply List.sum_eq_zero
    intro y hy
    obtain ⟨D, hD, rfl⟩ := List.mem_map.1 hy
    unfold massEntry entry
    apply List.sum_eq_zero
    intro y hy
    obtain ⟨t, ht', rfl⟩ := List.mem_map.1 hy
    simp only
    by_cases h : D.elem.lids t.2.2.2.1 = r ∧ D.elem.lids t.2.2.2.2 = q
    · rw [if_pos h, localMass_entry _ _ (hd D hD) t ht']
      have hmem : (t.1, t.2.1, t.2.2.2.1) ∈ dofs D.elem.vars := by
        unfold pairs at ht'
        unfold dofs
        rw [List.mem_flatMap] at ht' ⊢
        obtain ⟨v, hv, ht'⟩ := ht'
        rw [List.mem_flatMap] at ht'
        obtain ⟨a, ha, ht'⟩ := ht'
        obtain ⟨b, _, rfl⟩ := List.mem_map.1 ht'
        exact ⟨v, hv, List.mem_map.2 ⟨a, ha, rfl⟩⟩
      unfold terms
      rw [hf D hD _ hmem h.1]
      exact nil_sum (K := K) _ _
    · exact if_neg h
  have zr : rhsOf ds r = 0 := by
    unfold rhsOf
    apply List.sum_eq_zero
    intro y hy
    obtain ⟨D, hD, rfl⟩ := List.mem_map.1 hy
    unfold rhsEntry
    apply List.sum_eq_zero
    intro y hy
    obtain ⟨t, ht', rfl⟩ := List.mem_map.1 hy
    by_cases h : D.elem.lids t.2.2 = r
    · rw [if_pos h]
      unfold rhsTerms
      rw [hf D hD t ht' h]
      exact nil_sum (K := K) _ _
    · exact if_neg h
  have hs : rowAbs n (massOf ds) r < tol := by
    rw [rowAbs_eq]
    simp only [zm, abs_zero, Finset.sum_const_zero]
    exact ht
  have h := hx r hr
  unfold system at h
  rw [List.foldl_cons, List.foldl_nil, if_pos rfl, blockPart_eq _ _ _ hd] at h
  simp only [zero_add] at h
  rw [zr] at h
  rw [Finset.sum_eq_single r] at h
  · unfold fixRows at h
    rw [if_pos ⟨hr, hs, rfl⟩, one_mul] at h
    exact h
  · intro q _ hq
    unfold fixRows
    rw [if_neg (fun e => hq e.2.2)]
    simp only [zm, zero_mul]
  · intro hn
    exact absurd (Finset.mem_range.2 hr) hn

/-! ### Lumping -/

theorem elements_fold_lumped (n : Nat) (ds : List (Data K)) (hN : ∀ D ∈ ds, Below n D.elem) (hd : ∀ D ∈ ds, Distinct D.elem.vars) :
    ∀ (s : (Nat → Nat → K) × (Nat → K)),
    ds.foldl (fun s D => (addMass true (localMass (fun _ => 1) D.elem) D.elem s.1, addRhs (localRhs D) D.elem s.2)) s =
      (fun p q => s.1 p q + if p = q then ∑ c ∈ Finset.range n, massOf ds p c else 0, fun p => s.2 p + rhsOf ds p) := by
  induction ds with
  | nil => intro s; simp [massOf, rhsOf]
  | cons D t ih =>
    intro s
    rw [List.foldl_cons, ih (fun D hD => hN D (List.mem_cons_of_mem _ hD)) (fun D hD => hd D (List.mem_cons_of_mem _ hD))]
    refine Prod.ext ?_ ?_
    · funext p q
      simp only
      rw [addMass_apply, add_assoc]
      congr 1
      have e := mass_pos (fun _ => 1) D.elem (hd D (by simp)) (fun a _ => if D.elem.lids a = p then 1 else 0)
      have hs : ∑ c ∈ Finset.range n, massEntry D.elem p c =
          ((pairs D.elem.vars).map (fun t => (if D.elem.lids t.2.2.2.1 = p then 1 else 0) *
            (terms (fun _ => 1) D.elem t.1 t.2.1 t.2.2.1).sum)).sum := by
        have := triples_product (fun t : Nat × Nat × Nat × Nat × Nat => D.elem.lids t.2.2.2.1) (fun t => D.elem.lids t.2.2.2.2)
          (fun t => localMass (fun _ => 1) D.elem t.2.2.2.1 t.2.2.2.2) n (fun _ => 1) (pairs D.elem.vars)
          (fun t ht => (below_pairs n D.elem (hN D (by simp)) t ht).2) p
        simp only [mul_one] at this
        unfold massEntry entry
        rw [this]
        congr 1
        apply List.map_congr_left
        intro t ht
        rw [localMass_entry _ _ (hd D (by simp)) t ht, ite_mul, one_mul, zero_mul]
      by_cases h : p = q
      · subst h
        rw [if_pos rfl, if_pos rfl]
        have h1 : ∀ c, massOf (D :: t) p c = massEntry D.elem p c + massOf t p c := fun c => by
          unfold massOf; rw [List.map_cons, List.sum_cons]
        simp only [h1, Finset.sum_add_distrib]
        rw [hs, ← e]
        congr 3
        funext a
        congr 2
        funext b
        by_cases h : D.elem.lids a = p
        · simp [h]
        · simp [h]
      · rw [if_neg h, if_neg h, add_zero]
        apply List.sum_eq_zero
        intro y hy
        obtain ⟨a, _, rfl⟩ := List.mem_map.1 hy
        apply List.sum_eq_zero
        intro y hy
        obtain ⟨b, _, rfl⟩ := List.mem_map.1 hy
        rw [if_neg]
        rintro ⟨h1, h2⟩
        rw [if_pos rfl] at h2
        exact h (h1.symm.trans h2)
    · funext p
      simp only
      rw [addRhs_entry _ (hd D (by simp))]
      unfold rhsOf
      rw [List.map_cons, List.sum_cons]; ring

/-- C127, partial: with the solver's option for lumped masses, on one block, the matrix is diagonal and holds the row sums of the
mass matrix; data that is a finite element function whose coefficients agree for coupled unknowns (a constant) is reproduced.
Missing: as in `C127_projection_partial`; the argument for lumping (`C127_argument_violated`). -/
theorem C127_lumped_partial (tol : K) (n : Nat) (arg : Bool) (ds : List (Data K)) (hN : ∀ D ∈ ds, Below n D.elem)
    (hd : ∀ D ∈ ds, Distinct D.elem.vars) (hr : ∀ r < n, tol ≤ |∑ c ∈ Finset.range n, massOf ds r c|) (ht : 0 < tol) :
    (∀ p q, (system tol n true arg [(true, ds)]).1 p q = if p = q then ∑ c ∈ Finset.range n, massOf ds p c else 0) ∧
    (system tol n true arg [(true, ds)]).2 = rhsOf ds ∧
    ∀ c : Nat → K, (∀ D ∈ ds, ∀ m k d, D.init m k d = field D.elem m ((D.elem.vars[m]?).getD []) c k d) →
      (∀ p q, massOf ds p q ≠ 0 → c p = c q) → ∀ x, Solves n (system tol n true arg [(true, ds)]) x → ∀ r < n, x r = c r := by
  have hsys : system tol n true arg [(true, ds)] =
      (fun p q => if p = q then ∑ c ∈ Finset.range n, massOf ds p c else 0, rhsOf ds) := by
    unfold system
    rw [List.foldl_cons, List.foldl_nil, if_pos rfl]
    unfold blockPart
    simp only [elements_fold_lumped n ds hN hd, zero_add]
    refine Prod.ext ?_ rfl
    apply fixRows_clean
    intro r hr'
    refine le_trans (hr r hr') ?_
    rw [rowAbs_eq]
    have := Finset.single_le_sum (f := fun c => |(if r = c then ∑ c ∈ Finset.range n, massOf ds r c else 0 : K)|)
      (fun _ _ => abs_nonneg _) (Finset.mem_range.2 hr')
    simpa using this
  rw [hsys]
  refine ⟨fun _ _ => rfl, rfl, ?_⟩
  intro c hc hcoup x hx r hr'
  have h := hx r hr'
  simp only [ite_mul, zero_mul] at h
  rw [Finset.sum_ite_eq (Finset.range n) r, if_pos (Finset.mem_range.2 hr')] at h
  have hrhs : rhsOf ds r = ∑ q ∈ Finset.range n, massOf ds r q * c q := by
    have a := rhsOf_pairing ds n hN (fun p => if p = r then 1 else 0)
    have b := massOf_pairing ds n hN hd c (fun p => if p = r then 1 else 0)
    simp only [ite_mul, one_mul, zero_mul] at a b
    rw [Finset.sum_ite_eq' (Finset.range n) r, if_pos (Finset.mem_range.2 hr')] at a b
    rw [a, b]
    congr 1
    apply List.map_congr_left
    intro D hD
    congr 1
    funext m k d
    exact hc D hD m k d
  have hq : ∀ q ∈ Finset.range n, massOf ds r q * c q = massOf ds r q * c r := by
    intro q _
    by_cases hz : massOf ds r q = 0
    · rw [hz, zero_mul, zero_mul]
    · rw [hcoup r q hz]
  rw [hrhs, Finset.sum_congr rfl hq, ← Finset.sum_mul] at h
  refine mul_left_cancel₀ ?_ h
  intro hz
  have := hr r hr'
  rw [hz, abs_zero] at this
  linarith

/-- A line of elements with the two linear functions, and data. [case] -/
def seg (a b : Nat) (f : Nat → ℚ) : Data ℚ where
  elem := exElem a b
  init := fun _ k _ => f k

/-- C127 is false for the argument that asks for lumping: it has no effect. -/
theorem C127_argument_violated :
    (system (1 / 10 ^ 14) 2 false true [(true, [seg 0 1 (fun _ => 1)])]).1 0 1 = 1/6 ∧
    (system (1 / 10 ^ 14) 2 true false [(true, [seg 0 1 (fun _ => 1)])]).1 0 1 = 0 := by decide +kernel

/-! ### Faces -/

theorem addFace_forward (width : Nat) (m : Nat → Nat → K) (E : Elem K) (hp : (positions E.vars).Perm (List.range width))
    (M : Nat → Nat → K) (p q : Nat) : addFace false width m E M p q = addMass false m E M p q := by
  rw [addMass_apply]
  unfold addFace
  rw [foldl_at (fun a => ((List.range width).map (fun b => if E.lids a = p ∧ E.lids b = q then m a b else 0)).sum)]
  · congr 1
    rw [← (hp.map _).sum_eq]
    congr 1
    apply List.map_congr_left
    intro a _
    rw [← (hp.map _).sum_eq]
    simp
  · intro M a
    rw [if_neg (by simp)]
    exact foldl_addTo (fun _ => E.lids a) (fun b => E.lids b) (fun b => m a b) _ M p q

/-- C127, partial: on faces, in a forward run, when the positions of the unknowns fill the element and no row is mistaken for a zero
row, the system is that of the projection on the faces.  Missing: adjoint runs (`C127_face_adjoint_violated`). -/
theorem C127_face_partial (tol : K) (n width : Nat) (ds : List (Data K)) (hN : ∀ D ∈ ds, Below n D.elem)
    (hd : ∀ D ∈ ds, Distinct D.elem.vars) (hp : ∀ D ∈ ds, (positions D.elem.vars).Perm (List.range width))
    (hr : ∀ r < n, tol ≤ rowAbs n (massOf ds) r) (x : Nat → K) :
    Solves n (solverFaceSystem tol n false width ds) x ↔
      ∀ z : Nat → K, (ds.map (fun D => pairing D.elem (gap D x) z)).sum = 0 := by
  have key : ∀ (ds : List (Data K)) (_ : ∀ D ∈ ds, (positions D.elem.vars).Perm (List.range width))
      (s : (Nat → Nat → K) × (Nat → K)),
      ds.foldl (fun s D => (addFace false width (localMass (fun _ => 1) D.elem) D.elem s.1,
        (List.range width).foldl (fun y a => addV y (D.elem.lids a) (localRhs D a)) s.2)) s =
      ds.foldl (fun s D => (addMass false (localMass (fun _ => 1) D.elem) D.elem s.1, addRhs (localRhs D) D.elem s.2)) s := by
    intro ds
    induction ds with
    | nil => intro _ s; rfl
    | cons D t ih =>
      intro hp s
      rw [List.foldl_cons, List.foldl_cons, ih (fun D hD => hp D (List.mem_cons_of_mem _ hD))]
      congr 1
      refine Prod.ext ?_ ?_
      · funext p q
        exact addFace_forward _ _ _ (hp D (by simp)) _ _ _
      · funext p
        simp only
        rw [addRhs_apply, foldl_addV (fun a => D.elem.lids a) (localRhs D)]
        congr 1
        rw [← ((hp D (by simp)).map _).sum_eq]
  have he : solverFaceSystem tol n false width ds = system tol n false false [(true, ds)] := by
    unfold solverFaceSystem faceSystem system
    rw [List.foldl_cons, List.foldl_nil, if_pos rfl]
    unfold blockPart
    simp only [key ds hp]
  have h1 : elementsOf [(true, ds)] = ds := by simp [elementsOf]
  rw [he, C127_projection_partial tol n false [(true, ds)] (by rw [h1]; exact hN) (by
    intro b hb D hD
    rw [List.mem_singleton] at hb
    subst hb
    exact hd D hD) (by
    intro k hk _ r hr'
    have hk' : k = 0 := by simpa using hk
    subst hk'
    have : elementsOf ([(true, ds)].take 1) = ds := h1
    rw [this]
    exact hr r hr') x, h1]

/-- C127 is false on faces in an adjoint run: the solver passes the flag of the adjoint run as the flag for lumping, and the sum of
each row goes to the column of the last unknown of the element; an unknown that is not the last of any element has a zero on the
diagonal unless its row is zero.  For all meshes. -/
theorem C127_face_adjoint_violated (tol : K) (n width : Nat) (ds : List (Data K)) (r : Nat)
    (hl : ∀ D ∈ ds, D.elem.lids (width - 1) ≠ r) (hs : ¬ ((solverFaceSystem tol n true width ds).1 r r = 1)) :
    (solverFaceSystem tol n true width ds).1 r r = 0 := by
  have key : ∀ (ds : List (Data K)) (_ : ∀ D ∈ ds, D.elem.lids (width - 1) ≠ r) (s : (Nat → Nat → K) × (Nat → K)),
      (ds.foldl (fun s D => (addFace true width (localMass (fun _ => 1) D.elem) D.elem s.1,
        (List.range width).foldl (fun y a => addV y (D.elem.lids a) (localRhs D a)) s.2)) s).1 r r = s.1 r r := by
    intro ds
    induction ds with
    | nil => intro _ s; rfl
    | cons D t ih =>
      intro hl s
      rw [List.foldl_cons, ih (fun D hD => hl D (List.mem_cons_of_mem _ hD))]
      simp only
      unfold addFace
      rw [foldl_at (fun _ => 0)]
      · simp
      · intro M a
        rw [if_pos rfl, add_zero]
        unfold addTo
        exact if_neg (fun e => hl D (by simp) e.2.symm)
  unfold solverFaceSystem faceSystem at hs ⊢
  simp only at hs ⊢
  unfold fixRows at hs ⊢
  by_cases h : r < n ∧ rowAbs n (ds.foldl (fun s D => (addFace true width (localMass (fun _ => 1) D.elem) D.elem s.1,
        (List.range width).foldl (fun y a => addV y (D.elem.lids a) (localRhs D a)) s.2)) (fun _ _ => 0, fun _ => 0)).1 r < tol ∧ r = r
  · rw [if_pos h] at hs
    exact absurd rfl hs
  · rw [if_neg h]
    exact key ds hl _

theorem sum_addTo (n : Nat) (M : Nat → Nat → K) (i j : Nat) (v : K) (hj : j < n) (r : Nat) :
    ∑ c ∈ Finset.range n, addTo M i j v r c = ∑ c ∈ Finset.range n, M r c + (if r = i then v else 0) := by
  have h : ∀ c, addTo M i j v r c = M r c + (if c = j then (if r = i then v else 0) else 0) := by
    intro c
    unfold addTo
    by_cases h1 : r = i <;> by_cases h2 : c = j <;> simp [h1, h2]
  simp only [h, Finset.sum_add_distrib, Finset.sum_ite_eq', Finset.mem_range, hj, if_true]

theorem sum_foldl {A : Type} (n r : Nat) (g : A → K) (f : (Nat → Nat → K) → A → Nat → Nat → K) : ∀ (l : List A)
    (_ : ∀ a ∈ l, ∀ M, ∑ c ∈ Finset.range n, f M a r c = ∑ c ∈ Finset.range n, M r c + g a) (M : Nat → Nat → K),
    ∑ c ∈ Finset.range n, l.foldl f M r c = ∑ c ∈ Finset.range n, M r c + (l.map g).sum := by
  intro l
  induction l with
  | nil => intro _ M; simp
  | cons a t ih =>
    intro h M
    rw [List.foldl_cons, ih (fun b hb => h b (List.mem_cons_of_mem _ hb)), h a (by simp), List.map_cons, List.sum_cons]
    ring

theorem foldl_sum (g : Nat → K) : ∀ (l : List Nat) (s : K), l.foldl (fun s b => s + g b) s = s + (l.map g).sum := by
  intro l
  induction l with
  | nil => intro s; simp
  | cons a t ih => intro s; rw [List.foldl_cons, ih, List.map_cons, List.sum_cons]; ring

/-- C127, on faces in an adjoint run: lumping keeps the sum of every row; what is added to a row is what the projection would add to
it, only in another column.  For all elements and local matrices. -/
theorem C127_face_rows (lump : Bool) (n width : Nat) (m : Nat → Nat → K) (E : Elem K) (M : Nat → Nat → K)
    (hE : ∀ a < width, E.lids a < n) (r : Nat) :
    ∑ c ∈ Finset.range n, addFace lump width m E M r c = ∑ c ∈ Finset.range n, M r c +
      ((List.range width).map (fun a => if r = E.lids a then ((List.range width).map (m a)).sum else 0)).sum := by
  unfold addFace
  apply sum_foldl
  intro a ha M
  rw [List.mem_range] at ha
  cases lump with
  | true =>
    rw [if_pos rfl, sum_addTo n _ _ _ _ (hE _ (by omega)), foldl_sum, zero_add]
  | false =>
    rw [if_neg (by simp), sum_foldl n r (fun b => if r = E.lids a then m a b else 0)]
    · by_cases h : r = E.lids a
      · simp [h]
      · simp [h]
    · intro b hb M
      rw [List.mem_range] at hb
      exact sum_addTo n _ _ _ _ (hE _ hb) r

/-- Two functions on one side, rows with sums 3 and 7. -/
example : ∑ c ∈ Finset.range 2, addFace true 2 (fun a b => if a = 0 then (if b = 0 then 1 else 2) else (if b = 0 then 3 else (4 : ℚ)))
    (seg 0 1 (fun _ => 1)).elem (fun _ _ => 0) 1 c = 7 ∧ ∀ a < 2, (seg 0 1 (fun _ => 1)).elem.lids a < 2 := by decide +kernel

/-- One side with two functions: in the adjoint run the matrix is singular (both rows are in the last column), in the forward run it
is the mass matrix. -/
example : (solverFaceSystem (1 / 10 ^ 14) 2 true 2 [seg 0 1 (fun _ => 1)]).1 0 0 = 0 ∧
    (solverFaceSystem (1 / 10 ^ 14) 2 true 2 [seg 0 1 (fun _ => 1)]).1 0 1 = 1/2 ∧
    (solverFaceSystem (1 / 10 ^ 14) 2 true 2 [seg 0 1 (fun _ => 1)]).1 1 0 = 0 ∧
    (solverFaceSystem (1 / 10 ^ 14) 2 false 2 [seg 0 1 (fun _ => 1)]).1 0 0 = 1/3 := by decide +kernel

/-- On one element the two functions are told apart by the points. -/
example : Unisolvent 2 [seg 0 1 (fun _ => 1)] := by
  intro z h r hr
  have h0 := h (seg 0 1 (fun _ => 1)) (by simp) ([0, 1], 0) (by decide) 0 (by decide) 0 (by decide)
  have h1 := h (seg 0 1 (fun _ => 1)) (by simp) ([0, 1], 0) (by decide) 2 (by decide) 0 (by decide)
  simp [field, enum, seg, exElem, List.range_succ] at h0 h1
  interval_cases r <;> assumption

/-- Lumping on a line of two elements: row sums 1/2, 1, 1/2. -/
example : (∀ r < 3, (1 / 10 ^ 14 : ℚ) ≤ |∑ c ∈ Finset.range 3, massOf [seg 0 1 (fun _ => 1), seg 1 2 (fun _ => 1)] r c|) ∧
    (system (1 / 10 ^ 14) 3 true false [(true, [seg 0 1 (fun _ => 1), seg 1 2 (fun _ => 1)])]).1 1 1 = 1 ∧
    (system (1 / 10 ^ 14) 3 true false [(true, [seg 0 1 (fun _ => 1), seg 1 2 (fun _ => 1)])]).2 1 = 1 := by decide +kernel

/-- An element with a variable on faces. -/
example : ∀ x, Solves 1 (system (1 / 10 ^ 14) 1 false false [(true, [{ cell 1 5 0 with elem := { (cell 1 5 0).elem with
    comps := fun _ => 0 } }])]) x → x 0 = 0 := by
  intro x hx
  refine C127_hface_violated (1 / 10 ^ 14 : ℚ) (by norm_num) 1 false _ ?_ 0 (by omega) ?_ x hx
  · intro D hD
    rw [List.mem_singleton] at hD
    subst hD
    unfold Distinct cell
    decide
  · intro D hD t _ _
    rw [List.mem_singleton] at hD
    subst hD
    rfl

/-- A line of two elements with linear data meets the conditions of the theorems above. -/
example : RowsSeen (1 / 10 ^ 14 : ℚ) 3 [(true, [seg 0 1 (fun k => k), seg 1 2 (fun k => 2 + k)])] ∧
    (∀ D ∈ elementsOf [(true, [seg 0 1 (fun k => k), seg 1 2 (fun k => 2 + k)])], Below 3 D.elem ∧ Distinct D.elem.vars ∧
      (positions D.elem.vars).Perm (List.range 2) ∧ ∀ k < D.elem.points, 0 < D.elem.wts k) ∧
    Solves 3 (system (1 / 10 ^ 14) 3 false false [(true, [seg 0 1 (fun k => k), seg 1 2 (fun k => 2 + k)])]) (fun r => 2 * r) := by
  refine ⟨?_, ?_, ?_⟩
  · intro k hk _
    have : k = 0 := by simpa using hk
    subst this
    decide +kernel
  · intro D hD
    have : D = seg 0 1 (fun k => k) ∨ D = seg 1 2 (fun k => 2 + k) := by simpa [elementsOf] using hD
    rcases this with rfl | rfl <;>
    · refine ⟨by unfold Below seg exElem; decide, by unfold Distinct seg exElem; decide, by unfold positions seg exElem; decide, ?_⟩
      intro k _
      unfold seg exElem
      simp only
      split_ifs <;> norm_num
  · unfold Solves
    decide +kernel

end

/-! ### Numbers -/

section
variable [Zero K]

theorem table_push (nvars : Nat) : ∀ (sets : List (List (BlockCond K))) (t : List (List (List K))),
    (∀ bs ∈ sets, flags bs = (true, true)) →
    sets.foldlM (fun t bs => if (flags bs).1 && (flags bs).2 then do some (t ++ [← bs.mapM (blockValues nvars)]) else some t) t =
      (sets.mapM (fun bs : List (BlockCond K) => bs.mapM (blockValues nvars))).map (fun l => t ++ l) := by
  intro sets
  induction sets with
  | nil => intro t _; simp
  | cons bs rest ih =>
    intro t h
    rw [List.foldlM_cons, h bs (by simp), List.mapM_cons]
    simp only [Bool.and_self, if_true]
    cases hb : bs.mapM (blockValues nvars) with
    | none => rfl
    | some v =>
      refine (ih (t ++ [v]) (fun b hb => h b (List.mem_cons_of_mem _ hb))).trans ?_
      cases hr : rest.mapM (fun bs : List (BlockCond K) => bs.mapM (blockValues nvars)) with
      | none => rfl
      | some l => simp

theorem mapM_get {A B : Type} (f : A → Option B) : ∀ (l : List A) (r : List B), l.mapM f = some r → ∀ (i : Nat) (a : A), l[i]? = some a →
    ∃ b, f a = some b ∧ r[i]? = some b := by
  intro l
  induction l with
  | nil => intro r _ i a h; simp at h
  | cons c t ih =>
    intro r h i a hi
    rw [List.mapM_cons] at h
    cases hc : f c with
    | none => rw [hc] at h; simp at h
    | some b =>
      rw [hc] at h
      cases ht : t.mapM f with
      | none => rw [ht] at h; simp at h
      | some l =>
        rw [ht] at h
        simp at h
        subst h
        cases i with
        | zero =>
          simp at hi
          subst hi
          exact ⟨b, hc, by simp⟩
        | succ i =>
          simp at hi
          obtain ⟨b', h1, h2⟩ := ih l ht i a hi
          exact ⟨b', h1, by simpa using h2⟩

/-- C127, partial: if all sets of equations have numbers as initial data, the numbers used for a block of a set are those given for
it, and zero where none is given.  Missing: sets with functions beside sets with numbers (`C127_sets_violated`). -/
theorem C127_numbers_partial (nvars : Nat) (sets : List (List (BlockCond K))) (h : ∀ bs ∈ sets, flags bs = (true, true))
    (hv : ∀ bs ∈ sets, ∀ b ∈ bs, ∀ n < nvars, b.entry n ≠ some none) (set block : Nat) (bs : List (BlockCond K)) (b : BlockCond K)
    (hs : sets[set]? = some bs) (hb : bs[block]? = some b) :
    ∃ l, valuesUsed nvars sets set block = some l ∧ l.length = nvars ∧
      ∀ n < nvars, l[n]? = some ((b.entry n).elim 0 (fun v => v.getD 0)) := by
  have bv : ∀ bs ∈ sets, ∀ b ∈ bs, blockValues nvars b = some ((List.range nvars).map (fun n => (b.entry n).elim 0 (fun v => v.getD 0))) := by
    intro bs hbs b hb
    unfold blockValues
    have : ∀ l : List Nat, (∀ n ∈ l, n < nvars) → l.mapM (fun n => match b.entry n with
        | none => some 0
        | some v => v) = some (l.map (fun n => (b.entry n).elim 0 (fun v => v.getD 0))) := by
      intro l
      induction l with
      | nil => intro _; rfl
      | cons n t ih =>
        intro hl
        rw [List.mapM_cons, ih (fun m hm => hl m (List.mem_cons_of_mem _ hm)), List.map_cons]
        have hn := hv bs hbs b hb n (hl n (by simp))
        cases he : b.entry n with
        | none => simp
        | some v =>
          cases v with
          | none => exact absurd he hn
          | some v => simp
    exact this _ (fun n hn => List.mem_range.1 hn)
  have all : ∀ {A B : Type} (f : A → Option B) (l : List A), (∀ a ∈ l, ∃ b, f a = some b) → ∃ r, l.mapM f = some r := by
    intro A B f l
    induction l with
    | nil => intro _; exact ⟨[], rfl⟩
    | cons a t ih =>
      intro hl
      obtain ⟨b, hb⟩ := hl a (by simp)
      obtain ⟨r, hr⟩ := ih (fun a ha => hl a (List.mem_cons_of_mem _ ha))
      exact ⟨b :: r, by rw [List.mapM_cons, hb, hr]; rfl⟩
  obtain ⟨t, ht⟩ := all (fun bs : List (BlockCond K) => bs.mapM (blockValues nvars)) sets (fun bs hbs =>
    all _ bs (fun b hb => ⟨_, bv bs hbs b hb⟩))
  obtain ⟨s, h1, h2⟩ := mapM_get _ _ _ ht set bs hs
  obtain ⟨l, h3, h4⟩ := mapM_get _ _ _ h1 block b hb
  rw [bv bs (List.mem_of_getElem? hs) b (List.mem_of_getElem? hb)] at h3
  have h3 := (Option.some.inj h3).symm
  subst h3
  refine ⟨(List.range nvars).map (fun n => (b.entry n).elim 0 (fun v => v.getD 0)), ?_, by simp, ?_⟩
  · unfold valuesUsed scalarTable
    rw [table_push nvars sets [] h, ht]
    simp [h2, h4]
  · intro n hn
    simp [hn]

/-- C127, what counts as given: a set none of whose blocks has a list of initial conditions is marked as having none, and makes no entry
in the table of numbers; otherwise the last block with a list decides whether they are numbers. -/
theorem C127_last (bs : List (BlockCond K)) :
    ((∀ b ∈ bs, b.given = false) → flags bs = (false, false)) ∧
    (∀ pre b post, bs = pre ++ b :: post → b.given = true → (∀ c ∈ post, c.given = false) → flags bs = (true, b.scalar)) ∧
    ∀ nvars, (∀ b ∈ bs, b.given = false) → ∀ pre post, scalarTable nvars (pre ++ bs :: post) = scalarTable nvars (pre ++ post) := by
  have none_given : ∀ (l : List (BlockCond K)) (s : Bool × Bool), (∀ b ∈ l, b.given = false) →
      l.foldl (fun s b => if b.given then (true, b.scalar) else s) s = s := by
    intro l
    induction l with
    | nil => intro s _; rfl
    | cons a t ih =>
      intro s h
      rw [List.foldl_cons, h a (by simp)]
      exact ih s (fun b hb => h b (List.mem_cons_of_mem _ hb))
  refine ⟨fun h => none_given bs _ h, ?_, ?_⟩
  · intro pre b post e hb hp
    subst e
    unfold flags
    rw [List.foldl_append, List.foldl_cons, hb, if_pos rfl]
    exact none_given post _ hp
  · intro nvars h pre post
    have hf : flags bs = (false, false) := none_given bs _ h
    unfold scalarTable
    rw [List.foldlM_append, List.foldlM_append]
    congr 1
    funext t
    rw [List.foldlM_cons, hf]
    rfl

example : flags [⟨true, true, fun _ => some (some (1 : ℚ))⟩, ⟨false, true, fun _ => none⟩] = (true, true) ∧
    flags [⟨false, true, fun _ => some (some (1 : ℚ))⟩] = (false, false) := ⟨rfl, rfl⟩

/-- Two sets with numbers on two blocks. -/
example : valuesUsed 2 [[⟨true, true, fun n => if n = 0 then some (some 3) else none⟩, ⟨false, false, fun _ => none⟩],
    [⟨true, true, fun _ => some (some 4)⟩, ⟨true, true, fun _ => some (some (5 : ℚ))⟩]] 1 1 = some [5, 5] ∧
    valuesUsed 2 [[⟨true, true, fun n => if n = 0 then some (some 3) else none⟩, ⟨false, false, fun _ => none⟩],
    [⟨true, true, fun _ => some (some 4)⟩, ⟨true, true, fun _ => some (some (5 : ℚ))⟩]] 0 0 = some [3, 0] := by
  constructor <;> rfl

/-- C127 is false when sets with functions come before sets with numbers: the numbers are looked up under the wrong set: with a set
of functions, then numbers 1 and then 2, the second set gets 2, and reading for the third is undefined. -/
theorem C127_sets_violated (v : Nat → ℚ) :
    let f : BlockCond ℚ := ⟨true, false, fun _ => some none⟩
    let g (n : Nat) : BlockCond ℚ := ⟨true, true, fun _ => some (some (v n))⟩
    valuesUsed 1 [[f], [g 1], [g 2]] 1 0 = some [v 2] ∧ valuesUsed 1 [[f], [g 1], [g 2]] 2 0 = none := by
  constructor <;> rfl

/-- C127 is false when blocks differ: whether numbers are given is decided by the last block; if a block before has texts, reading
them as numbers fails. -/
theorem C127_mixed_violated (v : ℚ) :
    let f : BlockCond ℚ := ⟨true, false, fun _ => some none⟩
    let g : BlockCond ℚ := ⟨true, true, fun _ => some (some v)⟩
    flags [f, g] = (true, true) ∧ scalarTable 1 [[f, g]] = none ∧ flags [g, f] = (true, false) := by
  refine ⟨rfl, rfl, rfl⟩

end

/-- The variable of an unknown. [specification, no code] -/
def Owned (owner : Nat → Nat) (es : List (Elem K)) : Prop :=
  ∀ E ∈ es, ∀ v ∈ enum E.vars, ∀ a ∈ v.1, owner (E.lids a) = v.2

theorem fill_const (x : Nat → K) (E : Elem K) (c : K) (r : Nat) : ∀ (l : List Nat),
    l.foldl (fun x a => setV x (E.lids a) c) x r = if ∃ a ∈ l, E.lids a = r then c else x r := by
  intro l
  induction l using List.reverseRecOn with
  | nil => simp
  | append_singleton l a ih =>
    rw [List.foldl_append, List.foldl_cons, List.foldl_nil]
    unfold setV at ih ⊢
    by_cases h : r = E.lids a
    · rw [if_pos h, if_pos ⟨a, by simp, h.symm⟩]
    · rw [if_neg h, ih]
      have : (∃ b ∈ l ++ [a], E.lids b = r) ↔ ∃ b ∈ l, E.lids b = r := by
        constructor
        · rintro ⟨b, hb, e⟩
          rcases List.mem_append.1 hb with hb | hb
          · exact ⟨b, hb, e⟩
          · rw [List.mem_singleton] at hb
            subst hb
            exact absurd e.symm h
        · rintro ⟨b, hb, e⟩
          exact ⟨b, List.mem_append_left _ hb, e⟩
      simp only [this]

/-- C127: with numbers every unknown of a variable gets the number of the variable and no other entry changes; with functions that
add up to one the field is the number at every point. -/
theorem C127_constant [CommRing K] (idata : Nat → K) (es : List (Elem K)) (owner : Nat → Nat) (ho : Owned owner es) (x : Nat → K) :
    (∀ E ∈ es, ∀ v ∈ enum E.vars, ∀ a ∈ v.1, fillScalar idata es x (E.lids a) = idata v.2) ∧
    (∀ r, (∀ E ∈ es, ∀ v ∈ enum E.vars, ∀ a ∈ v.1, E.lids a ≠ r) → fillScalar idata es x r = x r) ∧
    ∀ E ∈ es, ∀ v ∈ enum E.vars, ∀ k d, ((enum v.1).map (fun a => E.basis v.2 a.2 k d)).sum = 1 →
      field E v.2 v.1 (fillScalar idata es x) k d = idata v.2 := by
  have key : ∀ r, ((∃ E ∈ es, ∃ v ∈ enum E.vars, ∃ a ∈ v.1, E.lids a = r) → fillScalar idata es x r = idata (owner r)) ∧
      ((¬ ∃ E ∈ es, ∃ v ∈ enum E.vars, ∃ a ∈ v.1, E.lids a = r) → fillScalar idata es x r = x r) := by
    intro r
    unfold fillScalar
    have : ∀ (es : List (Elem K)), Owned owner es → ∀ x : Nat → K,
        ((∃ E ∈ es, ∃ v ∈ enum E.vars, ∃ a ∈ v.1, E.lids a = r) → es.foldl (fun x E => (enum E.vars).foldl (fun x v =>
          v.1.foldl (fun x a => setV x (E.lids a) (idata v.2)) x) x) x r = idata (owner r)) ∧
        ((¬ ∃ E ∈ es, ∃ v ∈ enum E.vars, ∃ a ∈ v.1, E.lids a = r) → es.foldl (fun x E => (enum E.vars).foldl (fun x v =>
          v.1.foldl (fun x a => setV x (E.lids a) (idata v.2)) x) x) x r = x r) := by
      intro es
      induction es using List.reverseRecOn with
      | nil => intro _ x; simp
      | append_singleton es E ih =>
        intro ho x
        rw [List.foldl_append, List.foldl_cons, List.foldl_nil]
        have ihx := ih (fun E hE => ho E (List.mem_append_left _ hE)) x
        generalize es.foldl (fun x E => (enum E.vars).foldl (fun x v =>
          v.1.foldl (fun x a => setV x (E.lids a) (idata v.2)) x) x) x = y at ihx
        have hE := ho E (by simp)
        have inner : ∀ (l : List (List Nat × Nat)), (∀ v ∈ l, ∀ a ∈ v.1, owner (E.lids a) = v.2) →
            ((∃ v ∈ l, ∃ a ∈ v.1, E.lids a = r) → l.foldl (fun x v => v.1.foldl (fun x a => setV x (E.lids a) (idata v.2)) x) y r =
              idata (owner r)) ∧
            ((¬ ∃ v ∈ l, ∃ a ∈ v.1, E.lids a = r) → l.foldl (fun x v => v.1.foldl (fun x a => setV x (E.lids a) (idata v.2)) x) y r =
              y r) := by
          intro l
          induction l using List.reverseRecOn with
          | nil => intro _; simp
          | append_singleton l v ihl =>
            intro hl
            have ihl := ihl (fun v hv => hl v (List.mem_append_left _ hv))
            rw [List.foldl_append, List.foldl_cons, List.foldl_nil, fill_const]
            by_cases h : ∃ a ∈ v.1, E.lids a = r
            · rw [if_pos h]
              refine ⟨fun _ => ?_, fun hn => absurd ⟨v, by simp, h⟩ hn⟩
              obtain ⟨a, ha, e⟩ := h
              rw [← hl v (by simp) a ha, e]
            · rw [if_neg h]
              refine ⟨fun hh => ihl.1 ?_, fun hn => ihl.2 ?_⟩
              · obtain ⟨w, hw, e⟩ := hh
                rcases List.mem_append.1 hw with hw | hw
                · exact ⟨w, hw, e⟩
                · rw [List.mem_singleton] at hw
                  subst hw
                  exact absurd e h
              · rintro ⟨w, hw, e⟩
                exact hn ⟨w, List.mem_append_left _ hw, e⟩
        have inn := inner (enum E.vars) hE
        by_cases h : ∃ v ∈ enum E.vars, ∃ a ∈ v.1, E.lids a = r
        · exact ⟨fun _ => inn.1 h, fun hn => absurd ⟨E, by simp, h⟩ hn⟩
        · rw [inn.2 h]
          refine ⟨fun hh => ihx.1 ?_, fun hn => ihx.2 ?_⟩
          · obtain ⟨F, hF, e⟩ := hh
            rcases List.mem_append.1 hF with hF | hF
            · exact ⟨F, hF, e⟩
            · rw [List.mem_singleton] at hF
              subst hF
              exact absurd e h
          · rintro ⟨F, hF, e⟩
            exact hn ⟨F, List.mem_append_left _ hF, e⟩
    exact this es ho x
  have first : ∀ E ∈ es, ∀ v ∈ enum E.vars, ∀ a ∈ v.1, fillScalar idata es x (E.lids a) = idata v.2 := by
    intro E hE v hv a ha
    rw [(key (E.lids a)).1 ⟨E, hE, v, hv, a, ha, rfl⟩, ho E hE v hv a ha]
  refine ⟨first, ?_, ?_⟩
  · intro r hr
    apply (key r).2
    rintro ⟨E, hE, v, hv, a, ha, e⟩
    exact hr E hE v hv a ha e
  · intro E hE v hv k d hs
    unfold field
    have : ∀ a ∈ enum v.1, fillScalar idata es x (E.lids a.1) * E.basis v.2 a.2 k d = idata v.2 * E.basis v.2 a.2 k d := by
      intro a ha
      rw [first E hE v hv a.1 (List.mem_of_getElem? (mem_enum _ _ _ ha))]
    rw [List.map_congr_left this, List.sum_map_mul_left, hs, mul_one]

/-- Two elements of a line: the two functions add up to one. -/
example : fillScalar (fun _ => (7 : ℚ)) [exElem 0 1, exElem 1 2] (fun _ => 0) 2 = 7 ∧
    Owned (fun _ => 0) [exElem 0 1, exElem 1 2] := by
  refine ⟨by decide +kernel, ?_⟩
  unfold Owned exElem
  decide

/-! ### Blocks without data -/

/-- C127, partial: the projection is carried out when every block with elements has a list of initial conditions; it fails when one
does not, although the set has initial conditions.  Missing: such blocks (`C127_missing_violated`). -/
theorem C127_given_partial [Field K] [LinearOrder K] [IsStrictOrderedRing K] (tol : K) (n : Nat) (lumpMass : Bool)
    (blocks : List (BlockCond K × Bool × List (Data K))) (h : ∀ b ∈ blocks, b.2.1 = true → b.2.2 ≠ [] → b.1.given = true) :
    projection tol n lumpMass blocks = some (system tol n lumpMass false (blocks.map (·.2))) := by
  unfold projection
  have : forIn blocks PUnit.unit (fun (b : BlockCond K × Bool × List (Data K)) (_ : PUnit) => (do
      if b.2.1 && !b.2.2.isEmpty then evaluates b.1
      pure (ForInStep.yield PUnit.unit) : Option (ForInStep PUnit))) = some PUnit.unit := by
    induction blocks with
    | nil => rfl
    | cons b t ih =>
      rw [List.forIn_cons]
      have hb : (do
          if b.2.1 && !b.2.2.isEmpty then evaluates b.1
          pure (ForInStep.yield PUnit.unit) : Option (ForInStep PUnit)) = some (ForInStep.yield PUnit.unit) := by
        by_cases hc : (b.2.1 && !b.2.2.isEmpty) = true
        · rw [if_pos hc]
          simp only [Bool.and_eq_true, Bool.not_eq_true', List.isEmpty_eq_false_iff] at hc
          unfold evaluates
          rw [if_pos (h b (by simp) hc.1 hc.2)]
          rfl
        · rw [if_neg hc]; rfl
      rw [hb]
      exact ih (fun b hb => h b (List.mem_cons_of_mem _ hb))
  rw [this]
  rfl

/-- C127 is false when only some blocks have initial conditions: the set is marked as having them, and evaluating them on the other
block fails. -/
theorem C127_missing_violated :
    let yes : BlockCond ℚ := ⟨true, false, fun _ => some none⟩
    let no : BlockCond ℚ := ⟨false, false, fun _ => none⟩
    flags [yes, no] = (true, false) ∧
      projection (1 / 10 ^ 14) 2 false [(yes, true, [cell (1/2) 1 0]), (no, true, [cell (1/2) 1 1])] = none := by
  exact ⟨rfl, rfl⟩

/-! ### Interpolation -/

theorem foldl_set {A : Type} (f : (Nat → K) → A → Nat → K) (P : A → Prop) (c : K) (r : Nat) : ∀ (l : List A)
    (_ : ∀ a ∈ l, P a → ∀ x, f x a r = c) (_ : ∀ a ∈ l, ¬ P a → ∀ x, f x a r = x r) (x : Nat → K),
    ((∃ a ∈ l, P a) → l.foldl f x r = c) ∧ ((¬ ∃ a ∈ l, P a) → l.foldl f x r = x r) := by
  intro l
  induction l using List.reverseRecOn with
  | nil => intro _ _ x; simp
  | append_singleton l a ih =>
    intro h1 h2 x
    have ih := ih (fun a ha => h1 a (List.mem_append_left _ ha)) (fun a ha => h2 a (List.mem_append_left _ ha))
    rw [List.foldl_append, List.foldl_cons, List.foldl_nil]
    by_cases h : P a
    · exact ⟨fun _ => h1 a (by simp) h _, fun hn => absurd ⟨a, by simp, h⟩ hn⟩
    · rw [h2 a (by simp) h]
      refine ⟨fun hh => (ih x).1 ?_, fun hn => (ih x).2 ?_⟩
      · obtain ⟨b, hb, e⟩ := hh
        rcases List.mem_append.1 hb with hb | hb
        · exact ⟨b, hb, e⟩
        · rw [List.mem_singleton] at hb
          subst hb
          exact absurd e h
      · rintro ⟨b, hb, e⟩
        exact hn ⟨b, List.mem_append_left _ hb, e⟩

theorem foldlM_some {A B : Type} (f : B → A → Option B) (g : B → A → B) : ∀ (l : List A) (b : B), (∀ b, ∀ a ∈ l, f b a = some (g b a)) →
    l.foldlM f b = some (l.foldl g b) := by
  intro l
  induction l with
  | nil => intro b _; rfl
  | cons a t ih =>
    intro b h
    rw [List.foldlM_cons, h b a (by simp), List.foldl_cons]
    exact ih _ (fun b a ha => h b a (List.mem_cons_of_mem _ ha))

theorem offset_some (vars : List (List Nat)) (nodes : Nat) (hl : ∀ v ∈ vars, v.length = nodes) (n dof : Nat) (hn : n < vars.length)
    (hd : dof < nodes) : offset vars n dof = some (((vars[n]?).getD []).getD dof 0) := by
  unfold offset
  rw [if_pos]
  have key : ∀ (l : List (List Nat)) (m : Nat), (∃ v ∈ l, dof < v.length) ∨ dof < m → dof < (l.map List.length).foldl max m := by
    intro l
    induction l with
    | nil => intro m h; simpa using h
    | cons v t ih =>
      intro m h
      rw [List.map_cons, List.foldl_cons]
      apply ih
      rcases h with ⟨w, hw, h⟩ | h
      · rcases List.mem_cons.1 hw with rfl | hw
        · exact Or.inr (lt_of_lt_of_le h (le_max_right _ _))
        · exact Or.inl ⟨w, hw, h⟩
      · exact Or.inr (lt_of_lt_of_le h (le_max_left _ _))
  exact key _ _ (Or.inl ⟨vars[n], List.getElem_mem hn, by rw [hl _ (List.getElem_mem hn)]; exact hd⟩)

theorem localInterp_at [Zero K] (vars : List (List Nat)) (nodes : Nat) (vals : Nat → Nat → K) (hl : ∀ v ∈ vars, v.length = nodes)
    (hd : Distinct vars) : ∃ l, localInterp vars nodes vals = some l ∧
      ∀ (n dof : Nat) (v : List Nat) (a : Nat), vars[n]? = some v → v[dof]? = some a → l a = vals n dof := by
  have hi : ∀ n ∈ List.range vars.length, ∀ l : Nat → K, (List.range nodes).foldlM (fun l dof => do
      some (setV l (← offset vars n dof) (vals n dof))) l =
      some ((List.range nodes).foldl (fun l dof => setV l (((vars[n]?).getD []).getD dof 0) (vals n dof)) l) := by
    intro n hn l
    apply foldlM_some
    intro b dof hdof
    rw [offset_some vars nodes hl n dof (List.mem_range.1 hn) (List.mem_range.1 hdof)]
    rfl
  unfold localInterp
  rw [foldlM_some _ _ _ _ (fun b n hn => hi n hn b)]
  refine ⟨_, rfl, ?_⟩
  intro n dof v a hv ha
  have hpos : ∀ n', n' < vars.length → ∀ dof' < nodes, ((vars[n']?).getD []).getD dof' 0 = a → n' = n ∧ dof' = dof := by
    intro n' hn' dof' hdof' e
    have e1 : vars[n']? = some vars[n'] := List.getElem?_eq_getElem hn'
    have hlen := hl _ (List.getElem_mem hn')
    rw [e1] at e
    simp only [Option.getD_some] at e
    have e2 : vars[n'][dof']? = some a := by
      rw [List.getElem?_eq_getElem (by rw [hlen]; exact hdof')]
      rw [List.getD_eq_getElem?_getD, List.getElem?_eq_getElem (by rw [hlen]; exact hdof'), Option.getD_some] at e
      rw [e]
    exact distinct_pos vars hd n' n dof' dof _ _ a e1 e2 hv ha
  have hnl : n < vars.length := (List.getElem?_eq_some_iff.1 hv).1
  have hdl : dof < nodes := by
    rw [← hl v (List.mem_of_getElem? hv)]
    exact (List.getElem?_eq_some_iff.1 ha).1
  have hself : ((vars[n]?).getD []).getD dof 0 = a := by
    rw [hv]
    simp [ha]
  refine (foldl_set _ (fun n' => n' = n) (vals n dof) a (List.range vars.length) ?_ ?_ _).1 ⟨n, List.mem_range.2 hnl, rfl⟩
  · intro n' _ e x
    subst e
    refine (foldl_set _ (fun d => d = dof) (vals n' dof) a (List.range nodes) ?_ ?_ _).1 ⟨dof, List.mem_range.2 hdl, rfl⟩
    · intro d _ e x
      subst e
      unfold setV
      rw [if_pos hself.symm]
    · intro d hd' e x
      unfold setV
      rw [if_neg]
      intro h
      exact e (hpos n' hnl d (List.mem_range.1 hd') h.symm).2
  · intro n' hn' e x
    refine (foldl_set _ (fun _ => False) (vals n dof) a (List.range nodes) (fun _ _ h => h.elim) ?_ x).2 (by simp)
    intro d hd' _ x
    unfold setV
    rw [if_neg]
    intro h
    exact e (hpos n' (List.mem_range.1 hn') d (List.mem_range.1 hd') h.symm).1

/-- C127, partial: interpolation gives every unknown the value of the data at its node, if each variable has one function for each
vertex and the positions fill the element.  `g` is the data at the node of an unknown.  Missing: functions that do not sit at vertices
(`C127_order_violated`), other numbers of functions (`C127_padding_violated`). -/
theorem C127_nodes_partial [Zero K] (width nodes : Nat) (es : List (List (List Nat) × (Nat → Nat) × (Nat → Nat → K))) (g : Nat → K)
    (hl : ∀ e ∈ es, ∀ v ∈ e.1, v.length = nodes) (hd : ∀ e ∈ es, Distinct e.1)
    (hw : ∀ e ∈ es, ∀ row < width, row ∈ positions e.1)
    (hg : ∀ e ∈ es, ∀ (n dof : Nat) (v : List Nat) (a : Nat), e.1[n]? = some v → v[dof]? = some a → e.2.2 n dof = g (e.2.1 a))
    (x : Nat → K) :
    ∃ y, interpolate width nodes es x = some y ∧ (∀ e ∈ es, ∀ row < width, y (e.2.1 row) = g (e.2.1 row)) ∧
      ∀ r, (∀ e ∈ es, ∀ row < width, e.2.1 row ≠ r) → y r = x r := by
  have hrow : ∀ e ∈ es, ∃ l, localInterp e.1 nodes e.2.2 = some l ∧ ∀ row < width, l row = g (e.2.1 row) := by
    intro e he
    obtain ⟨l, h1, h2⟩ := localInterp_at e.1 nodes e.2.2 (hl e he) (hd e he)
    refine ⟨l, h1, ?_⟩
    intro row hr
    have hm := hw e he row hr
    rw [positions_eq, List.mem_flatten] at hm
    obtain ⟨v, hv, ha⟩ := hm
    obtain ⟨n, hn⟩ := List.getElem?_of_mem hv
    obtain ⟨dof, hdof⟩ := List.getElem?_of_mem ha
    rw [h2 n dof v row hn hdof, hg e he n dof v row hn hdof]
  unfold interpolate
  rw [foldlM_some _ (fun x e => (List.range width).foldl (fun x row => setV x (e.2.1 row) (((localInterp e.1 nodes e.2.2).getD
    (fun _ => 0)) row)) x) es x (by
      intro b e he
      obtain ⟨l, h1, _⟩ := hrow e he
      rw [h1]
      rfl)]
  have step : ∀ r, ∀ e ∈ es, (((∃ row < width, e.2.1 row = r) → ∀ x : Nat → K, (List.range width).foldl (fun x row =>
      setV x (e.2.1 row) (((localInterp e.1 nodes e.2.2).getD (fun _ => 0)) row)) x r = g r) ∧
      ((¬ ∃ row < width, e.2.1 row = r) → ∀ x : Nat → K, (List.range width).foldl (fun x row =>
      setV x (e.2.1 row) (((localInterp e.1 nodes e.2.2).getD (fun _ => 0)) row)) x r = x r)) := by
    intro r e he
    obtain ⟨l, h1, h2⟩ := hrow e he
    rw [h1]
    simp only [Option.getD_some]
    have f := foldl_set (fun (x : Nat → K) row => setV x (e.2.1 row) (l row)) (fun row => e.2.1 row = r) (g r) r (List.range width)
      (by
        intro row hrw hp x
        unfold setV
        rw [if_pos hp.symm, h2 row (List.mem_range.1 hrw), hp])
      (by
        intro row _ hp x
        unfold setV
        rw [if_neg (fun h => hp h.symm)])
    refine ⟨fun ⟨row, hrw, e⟩ x => (f x).1 ⟨row, List.mem_range.2 hrw, e⟩, fun hn x => (f x).2 ?_⟩
    rintro ⟨row, hrw, e⟩
    exact hn ⟨row, List.mem_range.1 hrw, e⟩
  refine ⟨_, rfl, ?_, ?_⟩
  · intro e he row hr
    exact (foldl_set _ (fun e : List (List Nat) × (Nat → Nat) × (Nat → Nat → K) => ∃ row' < width, e.2.1 row' = (_ : Nat)) (g _) _ es
      (fun e he hp x => (step _ e he).1 hp x) (fun e he hp x => (step _ e he).2 hp x) x).1 ⟨e, he, row, hr, rfl⟩
  · intro r hr
    refine (foldl_set _ (fun e : List (List Nat) × (Nat → Nat) × (Nat → Nat → K) => ∃ row' < width, e.2.1 row' = r) (g r) r es
      (fun e he hp x => (step r e he).1 hp x) (fun e he hp x => (step r e he).2 hp x) x).2 ?_
    rintro ⟨e, he, row, hrw, h⟩
    exact hr e he row hrw h

/-- Two linear elements of a line with nodes 0, 1, 2 and the data `g`. -/
example (g : Nat → ℚ) : (interpolate 2 2 [([[0, 1]], fun a => a, fun _ i => g i), ([[0, 1]], fun a => a + 1, fun _ i => g (i + 1))]
    (fun _ => 5)).map (fun x => (x 0, x 1, x 2, x 3)) = some (g 0, g 1, g 2, 5) := by rfl

/-- C127 is false for functions that do not sit at vertices: with quadratic functions on a line the unknown in the middle gets zero
whatever the data is. -/
theorem C127_order_violated (f : Nat → ℚ) :
    (interpolate 3 2 [([[0, 1, 2]], id, fun _ i => f i)] (fun _ => 5)).map (fun x => (x 0, x 1, x 2)) = some (f 0, f 1, 0) := by
  rfl

/-- C127 is false beside variables with fewer functions than nodes: with a linear variable and one constant on each cell, the value of
the constant at the second node is put at the first position, which belongs to the linear variable.  Alone, the position read is
outside the table. -/
theorem C127_padding_violated (f g : Nat → ℚ) :
    (interpolate 3 2 [([[0, 1], [2]], id, fun n i => if n = 0 then f i else g i)] (fun _ => 5)).map (fun x => (x 0, x 1, x 2)) =
      some (g 1, f 1, g 0) ∧
    (interpolate 1 2 [([[0]], id, fun _ i => g i)] (fun _ => 5)).isNone = true := by
  constructor <;> rfl

theorem foldl_max_lt (l : List Nat) (m d : Nat) : d < l.foldl max m ↔ d < m ∨ ∃ x : Nat, x ∈ l ∧ d < x := by
  induction l generalizing m with
  | nil => simp
  | cons a l ih =>
    rw [List.foldl_cons, ih]
    simp [or_assoc]

theorem foldlM_isSome {α β : Type} (f : β → α → Option β) (l : List α) (good : α → Prop)
    (h : ∀ (b : β) (a : α), (f b a).isSome ↔ good a) (b : β) : (l.foldlM f b).isSome ↔ ∀ a : α, a ∈ l → good a := by
  induction l generalizing b with
  | nil => simp
  | cons a l ih =>
    rw [List.foldlM_cons]
    cases hf : f b a with
    | none =>
      have : ¬ good a := fun hg => by simpa [hf] using (h b a).2 hg
      simp [this]
    | some c =>
      have : good a := (h b a).1 (by simp [hf])
      simp [this, ih]

/-- C127, when the interpolation is defined: exactly if the element has no variable or no node, or some variable has at least
as many functions as the element has nodes (the table of positions is as wide as the largest variable).  In particular with
nodes and variables but no function at all it is undefined. -/
theorem C127_interp_defined {K : Type} [Zero K] (vars : List (List Nat)) (nodes : Nat) (vals : Nat → Nat → K) :
    (localInterp vars nodes vals).isSome ↔ vars = [] ∨ nodes = 0 ∨ ∃ v : List Nat, v ∈ vars ∧ nodes ≤ v.length := by
  have hoff : ∀ n d : Nat, (offset vars n d).isSome ↔ ∃ v : List Nat, v ∈ vars ∧ d < v.length := by
    intro n d
    have := foldl_max_lt (vars.map List.length) 0 d
    unfold offset
    by_cases hc : d < (vars.map List.length).foldl max 0
    · rw [if_pos hc]
      simpa using this.1 hc
    · rw [if_neg hc]
      simpa using fun v hv hd => hc (this.2 (Or.inr ⟨v.length, List.mem_map.2 ⟨v, hv, rfl⟩, hd⟩))
  unfold localInterp
  rw [foldlM_isSome _ _ (fun _ => ∀ d : Nat, d ∈ List.range nodes → ∃ v : List Nat, v ∈ vars ∧ d < v.length)]
  · constructor
    · intro h
      cases vars with
      | nil => exact Or.inl rfl
      | cons w ws =>
        cases nodes with
        | zero => exact Or.inr (Or.inl rfl)
        | succ m =>
          obtain ⟨v, hv, hm⟩ := h 0 (by simp) m (by simp)
          exact Or.inr (Or.inr ⟨v, hv, hm⟩)
    · rintro (rfl | rfl | ⟨v, hv, hn⟩) a ha d hd
      · simp at ha
      · simp at hd
      · exact ⟨v, hv, lt_of_lt_of_le (List.mem_range.1 hd) hn⟩
  · intro l n
    refine foldlM_isSome _ _ _ (fun l d => ?_) l
    rw [← hoff n d]
    cases offset vars n d <;> simp

example : (localInterp [[], []] 1 (fun _ _ => (1 : Rat))).isSome = false ∧
    (localInterp [[0, 1], [2]] 2 (fun _ _ => (1 : Rat))).isSome = true := by
  decide +kernel

end MrHyDE.Initial
