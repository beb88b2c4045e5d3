import Verif.Assembly.Initial
import Verif.Mass.Props
import Mathlib.Tactic.Ring
import Mathlib.Algebra.BigOperators.Ring.Finset

set_option linter.unusedSectionVars false

/-! # Lemmas for the initial conditions -/

namespace MrHyDE.Initial

open MrHyDE.Mass

variable {K : Type}

theorem positions_eq (vars : List (List Nat)) : positions vars = vars.flatten := by
  unfold positions
  induction vars with
  | nil => rfl
  | cons v t ih => rw [List.flatMap_cons, ih, List.flatten_cons]

theorem mem_dofs (vars : List (List Nat)) (t : Nat × Nat × Nat) (h : t ∈ dofs vars) :
    ∃ v, vars[t.1]? = some v ∧ v[t.2.1]? = some t.2.2 := by
  unfold dofs at h
  rw [List.mem_flatMap] at h
  obtain ⟨v, hv, h⟩ := h
  rw [List.mem_map] at h
  obtain ⟨a, ha, rfl⟩ := h
  exact ⟨v.1, mem_enum _ _ _ hv, mem_enum _ _ _ ha⟩

theorem pos_mem (vars : List (List Nat)) (v : List Nat) (n i a : Nat) (h : vars[n]? = some v) (h' : v[i]? = some a) :
    a ∈ positions vars := by
  rw [positions_eq, List.mem_flatten]
  exact ⟨v, List.mem_of_getElem? h, List.mem_of_getElem? h'⟩

section
variable [CommRing K]

theorem foldl_at {A : Type} (g : A → K) (f : (Nat → Nat → K) → A → Nat → Nat → K) (p q : Nat)
    (h : ∀ M a, f M a p q = M p q + g a) : ∀ (l : List A) (M : Nat → Nat → K), l.foldl f M p q = M p q + (l.map g).sum := by
  intro l
  induction l with
  | nil => intro M; simp
  | cons a t ih => intro M; rw [List.foldl_cons, ih, h, List.map_cons, List.sum_cons]; ring

theorem foldl_atV {A : Type} (g : A → K) (f : (Nat → K) → A → Nat → K) (p : Nat)
    (h : ∀ M a, f M a p = M p + g a) : ∀ (l : List A) (M : Nat → K), l.foldl f M p = M p + (l.map g).sum := by
  intro l
  induction l with
  | nil => intro M; simp
  | cons a t ih => intro M; rw [List.foldl_cons, ih, h, List.map_cons, List.sum_cons]; ring

theorem picked (P : List Nat) (hP : P.Nodup) (a : Nat) (ha : a ∈ P) (f : Nat → K) :
    (P.map (fun b => if a = b then f b else 0)).sum = f a :=
  sum_single f (fun b => a = b) P a hP ha rfl (fun _ _ h => h.symm)

theorem addMass_apply (lump : Bool) (m : Nat → Nat → K) (E : Elem K) (M : Nat → Nat → K) (p q : Nat) :
    addMass lump m E M p q = M p q + ((positions E.vars).map (fun a => ((positions E.vars).map (fun b =>
      if E.lids a = p ∧ (if lump then E.lids a else E.lids b) = q then m a b else 0)).sum)).sum := by
  unfold addMass
  refine foldl_at _ _ p q (fun M a => ?_) _ M
  exact foldl_addTo (fun _ => E.lids a) (fun b => if lump then E.lids a else E.lids b) (fun b => m a b) _ M p q

theorem addRhs_apply (l : Nat → K) (E : Elem K) (y : Nat → K) (p : Nat) :
    addRhs l E y p = y p + ((positions E.vars).map (fun a => if E.lids a = p then l a else 0)).sum := by
  unfold addRhs
  exact foldl_addV (fun a => E.lids a) l _ y p

theorem localRhs_apply (D : Data K) (p : Nat) :
    localRhs D p = ((dofs D.elem.vars).map (fun t => if t.2.2 = p then (rhsTerms D t.1 t.2.1).sum else 0)).sum := by
  unfold localRhs
  rw [foldl_atV (fun t : Nat × Nat × Nat => if t.2.2 = p then (rhsTerms D t.1 t.2.1).sum else 0), zero_add]
  intro y t
  rw [foldl_addV (fun _ => t.2.2) (fun v : K => v)]
  congr 1
  by_cases h : t.2.2 = p
  · simp [h]
  · simp [h]

/-- Sums over positions against the local right-hand side are sums over variables and functions. -/
theorem rhs_pos (D : Data K) (hd : Distinct D.elem.vars) (z : Nat → K) :
    ((positions D.elem.vars).map (fun a => z a * localRhs D a)).sum =
      ((dofs D.elem.vars).map (fun t => z t.2.2 * (rhsTerms D t.1 t.2.1).sum)).sum := by
  simp only [localRhs_apply, ← List.sum_map_mul_left]
  rw [sum_map_comm]
  congr 1
  apply List.map_congr_left
  intro t ht
  obtain ⟨v, h1, h2⟩ := mem_dofs _ _ ht
  have hP : (positions D.elem.vars).Nodup := by rw [positions_eq]; exact hd
  have := picked (positions D.elem.vars) hP t.2.2 (pos_mem _ _ _ _ _ h1 h2) (fun b => z b * (rhsTerms D t.1 t.2.1).sum)
  rw [← this]
  congr 1
  apply List.map_congr_left
  intro a _
  by_cases h : t.2.2 = a
  · rw [if_pos h, if_pos h]
  · rw [if_neg h, if_neg h, mul_zero]

/-- Sums over pairs of positions against the local matrix are sums over pairs of functions of a variable. -/
theorem mass_pos (mwt : Nat → K) (E : Elem K) (hd : Distinct E.vars) (w : Nat → Nat → K) :
    ((positions E.vars).map (fun a => ((positions E.vars).map (fun b => w a b * localMass mwt E a b)).sum)).sum =
      ((pairs E.vars).map (fun t => w t.2.2.2.1 t.2.2.2.2 * (terms mwt E t.1 t.2.1 t.2.2.1).sum)).sum := by
  have hP : (positions E.vars).Nodup := by rw [positions_eq]; exact hd
  have e1 : ∀ a b, w a b * localMass mwt E a b = ((pairs E.vars).map (fun t =>
      if t.2.2.2.1 = a then (if t.2.2.2.2 = b then w a b * (terms mwt E t.1 t.2.1 t.2.2.1).sum else 0) else 0)).sum := by
    intro a b
    rw [localMass_apply, ← List.sum_map_mul_left]
    congr 1
    apply List.map_congr_left
    intro t _
    by_cases h1 : t.2.2.2.1 = a
    · by_cases h2 : t.2.2.2.2 = b
      · rw [if_pos ⟨h1, h2⟩, if_pos h1, if_pos h2]
      · rw [if_neg (fun e => h2 e.2), if_pos h1, if_neg h2, mul_zero]
    · rw [if_neg (fun e => h1 e.1), if_neg h1, mul_zero]
  simp only [e1]
  have e2 : ∀ a, ((positions E.vars).map (fun b => ((pairs E.vars).map (fun t =>
      if t.2.2.2.1 = a then (if t.2.2.2.2 = b then w a b * (terms mwt E t.1 t.2.1 t.2.2.1).sum else 0) else 0)).sum)).sum =
      ((pairs E.vars).map (fun t => if t.2.2.2.1 = a then w a t.2.2.2.2 * (terms mwt E t.1 t.2.1 t.2.2.1).sum else 0)).sum := by
    intro a
    rw [sum_map_comm]
    congr 1
    apply List.map_congr_left
    intro t ht
    obtain ⟨v, h1, _, h3⟩ := mem_pairs _ _ ht
    by_cases h : t.2.2.2.1 = a
    · simp only [if_pos h]
      exact picked _ hP _ (pos_mem _ _ _ _ _ h1 h3) (fun b => w a b * (terms mwt E t.1 t.2.1 t.2.2.1).sum)
    · simp [h]
  simp only [e2]
  rw [sum_map_comm]
  congr 1
  apply List.map_congr_left
  intro t ht
  obtain ⟨v, h1, h2, _⟩ := mem_pairs _ _ ht
  exact picked _ hP _ (pos_mem _ _ _ _ _ h1 h2) (fun a => w a t.2.2.2.2 * (terms mwt E t.1 t.2.1 t.2.2.1).sum)

/-- Additions of one element to an entry of the matrix. [helper] -/
def massEntry (E : Elem K) (p q : Nat) : K := entry (E, localMass (fun _ => 1) E) p q

theorem addMass_entry (E : Elem K) (hd : Distinct E.vars) (M : Nat → Nat → K) (p q : Nat) :
    addMass false (localMass (fun _ => 1) E) E M p q = M p q + massEntry E p q := by
  rw [addMass_apply]
  congr 1
  have e := mass_pos (fun _ => 1) E hd (fun a b => if E.lids a = p ∧ E.lids b = q then 1 else 0)
  have l : ∀ a b, (if E.lids a = p ∧ (if false = true then E.lids a else E.lids b) = q then localMass (fun _ => 1) E a b else 0) =
      (if E.lids a = p ∧ E.lids b = q then 1 else 0) * localMass (fun _ => 1) E a b := by
    intro a b
    by_cases h : E.lids a = p ∧ E.lids b = q
    · simp [h]
    · simp [h]
  simp only [l]
  rw [e]
  unfold massEntry entry
  congr 1
  apply List.map_congr_left
  intro t ht
  simp only
  rw [localMass_entry _ _ hd t ht]
  by_cases h : E.lids t.2.2.2.1 = p ∧ E.lids t.2.2.2.2 = q
  · rw [if_pos h, if_pos h, one_mul]
  · rw [if_neg h, if_neg h, zero_mul]

/-- Additions of one element to an entry of the right-hand side. [helper] -/
def rhsEntry (D : Data K) (p : Nat) : K :=
  ((dofs D.elem.vars).map (fun t => if D.elem.lids t.2.2 = p then (rhsTerms D t.1 t.2.1).sum else 0)).sum

theorem addRhs_entry (D : Data K) (hd : Distinct D.elem.vars) (y : Nat → K) (p : Nat) :
    addRhs (localRhs D) D.elem y p = y p + rhsEntry D p := by
  rw [addRhs_apply]
  congr 1
  have e := rhs_pos D hd (fun a => if D.elem.lids a = p then 1 else 0)
  simp only [ite_mul, one_mul, zero_mul] at e
  rw [e]
  rfl

/-- The projection's matrix and right-hand side without the treatment of zero rows. [specification, no code] -/
def massOf (ds : List (Data K)) (p q : Nat) : K := (ds.map (fun D => massEntry D.elem p q)).sum

/-- The integrals of the data against the functions. [specification, no code] -/
def rhsOf (ds : List (Data K)) (p : Nat) : K := (ds.map (fun D => rhsEntry D p)).sum

theorem massOf_assemble (ds : List (Data K)) (p q : Nat) :
    massOf ds p q = assemble false ((ds.map (·.elem)).map (fun E => (E, localMass (fun _ => 1) E))) p q := by
  rw [assemble_apply, List.map_map, List.map_map]
  rfl

theorem massOf_append (a b : List (Data K)) (p q : Nat) : massOf (a ++ b) p q = massOf a p q + massOf b p q := by
  unfold massOf; rw [List.map_append, List.sum_append]

theorem rhsOf_append (a b : List (Data K)) (p : Nat) : rhsOf (a ++ b) p = rhsOf a p + rhsOf b p := by
  unfold rhsOf; rw [List.map_append, List.sum_append]

/-- The integral of data `g` times the finite element function with coefficients `z`, by quadrature. [specification, no code] -/
def pairing (E : Elem K) (g : Nat → Nat → Nat → K) (z : Nat → K) : K :=
  ((enum E.vars).map (fun v => ((List.range E.points).map (fun k => E.wts k *
    ((List.range (E.comps v.2)).map (fun d => g v.2 k d * field E v.2 v.1 z k d)).sum)).sum)).sum

theorem rhs_pairing (D : Data K) (z : Nat → K) :
    ((dofs D.elem.vars).map (fun t => z (D.elem.lids t.2.2) * (rhsTerms D t.1 t.2.1).sum)).sum = pairing D.elem D.init z := by
  unfold dofs pairing
  rw [sum_flatMap]
  congr 1
  apply List.map_congr_left
  intro v _
  rw [List.map_map]
  have e : ∀ a : Nat × Nat, ((fun t : Nat × Nat × Nat => z (D.elem.lids t.2.2) * (rhsTerms D t.1 t.2.1).sum) ∘
      fun a => (v.2, a.2, a.1)) a = ((List.range D.elem.points).map (fun k => ((List.range (D.elem.comps v.2)).map (fun d =>
        D.elem.wts k * (D.init v.2 k d * (z (D.elem.lids a.1) * D.elem.basis v.2 a.2 k d)))).sum)).sum := by
    intro a
    simp only [Function.comp_apply]
    unfold rhsTerms
    have := sum_flatMap (fun y : K => y) (fun k => (List.range (D.elem.comps v.2)).map (fun d =>
      D.init v.2 k d * D.elem.basis v.2 a.2 k d * D.elem.wts k)) (List.range D.elem.points)
    simp only [List.map_id'] at this
    rw [this, ← List.sum_map_mul_left]
    congr 1
    apply List.map_congr_left
    intro k _
    rw [← List.sum_map_mul_left]
    congr 1
    apply List.map_congr_left
    intro d _
    ring
  rw [List.map_congr_left (fun a _ => e a), sum_map_comm]
  congr 1
  apply List.map_congr_left
  intro k _
  rw [sum_map_comm, ← List.sum_map_mul_left]
  congr 1
  apply List.map_congr_left
  intro d _
  unfold field
  rw [← List.sum_map_mul_left, ← List.sum_map_mul_left]

theorem rhsOf_pairing (ds : List (Data K)) (N : Nat) (hN : ∀ D ∈ ds, Below N D.elem) (z : Nat → K) :
    ∑ p ∈ Finset.range N, z p * rhsOf ds p = (ds.map (fun D => pairing D.elem D.init z)).sum := by
  induction ds with
  | nil => simp [rhsOf]
  | cons D t ih =>
    have h1 : ∀ p, rhsOf (D :: t) p = rhsEntry D p + rhsOf t p := fun p => by unfold rhsOf; rw [List.map_cons, List.sum_cons]
    simp only [h1, mul_add, Finset.sum_add_distrib, List.map_cons, List.sum_cons]
    rw [ih (fun D hD => hN D (List.mem_cons_of_mem _ hD))]
    congr 1
    rw [← rhs_pairing]
    unfold rhsEntry
    have hlt : ∀ t ∈ dofs D.elem.vars, D.elem.lids t.2.2 < N := by
      intro t ht
      obtain ⟨v, a1, a2⟩ := mem_dofs _ _ ht
      exact hN D (by simp) v (List.mem_of_getElem? a1) _ (List.mem_of_getElem? a2)
    clear ih h1
    generalize dofs D.elem.vars = l at hlt
    induction l with
    | nil => simp
    | cons s l ihl =>
      simp only [List.map_cons, List.sum_cons, mul_add, Finset.sum_add_distrib]
      rw [ihl (fun t ht => hlt t (List.mem_cons_of_mem _ ht))]
      congr 1
      rw [Finset.sum_eq_single (D.elem.lids s.2.2)]
      · rw [if_pos rfl]
      · intro p _ hp
        rw [if_neg (fun e => hp e.symm), mul_zero]
      · intro hn
        exact absurd (Finset.mem_range.2 (hlt s (by simp))) hn

theorem inner_pairing (E : Elem K) (x z : Nat → K) :
    inner (fun _ => 1) E x z = pairing E (fun n k d => field E n ((E.vars[n]?).getD []) x k d) z := by
  unfold inner pairing
  congr 1
  apply List.map_congr_left
  intro v hv
  rw [one_mul]
  simp only [mem_enum _ _ _ hv, Option.getD_some]

theorem massOf_pairing (ds : List (Data K)) (N : Nat) (hN : ∀ D ∈ ds, Below N D.elem) (hd : ∀ D ∈ ds, Distinct D.elem.vars)
    (x z : Nat → K) :
    ∑ p ∈ Finset.range N, z p * ∑ q ∈ Finset.range N, massOf ds p q * x q =
      (ds.map (fun D => pairing D.elem (fun n k d => field D.elem n ((D.elem.vars[n]?).getD []) x k d) z)).sum := by
  have := C79_inner_product (fun _ => (1 : K)) (ds.map (·.elem)) N
    (by intro E hE; obtain ⟨D, hD, rfl⟩ := List.mem_map.1 hE; exact hN D hD)
    (by intro E hE; obtain ⟨D, hD, rfl⟩ := List.mem_map.1 hE; exact hd D hD) z x
  simp only [Finset.mul_sum, massOf_assemble]
  rw [this, List.map_map]
  congr 1
  apply List.map_congr_left
  intro D _
  simp only [Function.comp_apply]
  rw [← inner_pairing]
  unfold inner
  congr 1
  apply List.map_congr_left
  intro v _
  congr 2
  apply List.map_congr_left
  intro k _
  congr 2
  apply List.map_congr_left
  intro d _
  ring

theorem pairing_sub (E : Elem K) (g h : Nat → Nat → Nat → K) (z : Nat → K) :
    pairing E (fun n k d => g n k d - h n k d) z = pairing E g z - pairing E h z := by
  have key : ∀ {A : Type} (l : List A) (f g : A → K), (l.map (fun a => f a - g a)).sum = (l.map f).sum - (l.map g).sum := by
    intro A l f g
    induction l with
    | nil => simp
    | cons a t ih => simp only [List.map_cons, List.sum_cons, ih]; ring
  unfold pairing
  simp only [sub_mul, mul_sub, key]

end

section
variable [Field K] [LinearOrder K] [IsStrictOrderedRing K]

theorem rowAbs_eq (n : Nat) (M : Nat → Nat → K) (r : Nat) : rowAbs n M r = ∑ c ∈ Finset.range n, |M r c| := by
  unfold rowAbs
  rw [foldl_sum, zero_add]
  induction n with
  | zero => simp
  | succ n ih => rw [List.range_succ, List.map_append, List.sum_append, Finset.sum_range_succ, ih]; simp

theorem fixRows_clean (tol : K) (n : Nat) (M : Nat → Nat → K) (h : ∀ r < n, tol ≤ rowAbs n M r) : fixRows tol n M = M := by
  funext r c
  unfold fixRows
  rw [if_neg]
  rintro ⟨h1, h2, _⟩
  exact absurd h2 (not_lt.2 (h r h1))

theorem elements_fold (ds : List (Data K)) (hd : ∀ D ∈ ds, Distinct D.elem.vars) : ∀ (s : (Nat → Nat → K) × (Nat → K)),
    ds.foldl (fun s D => (addMass false (localMass (fun _ => 1) D.elem) D.elem s.1, addRhs (localRhs D) D.elem s.2)) s =
      (fun p q => s.1 p q + massOf ds p q, fun p => s.2 p + rhsOf ds p) := by
  induction ds with
  | nil => intro s; simp [massOf, rhsOf]
  | cons D t ih =>
    intro s
    rw [List.foldl_cons, ih (fun D hD => hd D (List.mem_cons_of_mem _ hD))]
    refine Prod.ext ?_ ?_
    · funext p q
      simp only
      rw [addMass_entry _ (hd D (by simp))]
      unfold massOf
      rw [List.map_cons, List.sum_cons]; ring
    · funext p
      simp only
      rw [addRhs_entry _ (hd D (by simp))]
      unfold rhsOf
      rw [List.map_cons, List.sum_cons]; ring

/-- All elements of the blocks that take part. [specification, no code] -/
def elementsOf (blocks : List (Bool × List (Data K))) : List (Data K) := (blocks.filter (·.1)).flatMap (·.2)

/-- After each block every row of the mass matrix of the blocks up to it is above the tolerance. [specification, no code] -/
def RowsSeen (tol : K) (n : Nat) (blocks : List (Bool × List (Data K))) : Prop :=
  ∀ k < blocks.length, ((blocks[k]?).map (·.1)) = some true → ∀ r < n, tol ≤ rowAbs n (massOf (elementsOf (blocks.take (k + 1)))) r

theorem blockPart_eq (tol : K) (n : Nat) (ds : List (Data K)) (hd : ∀ D ∈ ds, Distinct D.elem.vars)
    (s : (Nat → Nat → K) × (Nat → K)) :
    blockPart tol n false ds s = (fixRows tol n (fun p q => s.1 p q + massOf ds p q), fun p => s.2 p + rhsOf ds p) := by
  unfold blockPart
  simp only [elements_fold ds hd]

theorem system_clean (tol : K) (n : Nat) (arg : Bool) (blocks : List (Bool × List (Data K)))
    (hd : ∀ b ∈ blocks, ∀ D ∈ b.2, Distinct D.elem.vars) (hr : RowsSeen tol n blocks) :
    system tol n false arg blocks = (massOf (elementsOf blocks), rhsOf (elementsOf blocks)) := by
  unfold system
  induction blocks using List.reverseRecOn with
  | nil => rfl
  | append_singleton bs b ih =>
    rw [List.foldl_append, ih (fun b hb => hd b (List.mem_append_left _ hb)) ?_]
    · rw [List.foldl_cons, List.foldl_nil]
      by_cases hb : b.1 = true
      · have he : elementsOf (bs ++ [b]) = elementsOf bs ++ b.2 := by
          unfold elementsOf
          rw [List.filter_append, List.flatMap_append]
          simp [hb]
        rw [if_pos hb, blockPart_eq _ _ _ (hd b (by simp))]
        have hm : (fun p q => massOf (elementsOf bs) p q + massOf b.2 p q) = massOf (elementsOf (bs ++ [b])) := by
          funext p q
          rw [he, massOf_append]
        refine Prod.ext ?_ ?_
        · simp only [hm]
          apply fixRows_clean
          have := hr bs.length (by simp) (by simp [hb])
          rwa [List.take_of_length_le (by simp)] at this
        · funext p
          simp only
          rw [he, rhsOf_append]
      · have he : elementsOf (bs ++ [b]) = elementsOf bs := by
          unfold elementsOf
          rw [List.filter_append]
          simp [hb]
        rw [if_neg hb, he]
    · intro k hk hb r hr'
      have := hr k (by simp; omega) (by rw [List.getElem?_append_left hk]; exact hb) r hr'
      rwa [List.take_append_of_le_length (by omega)] at this

end

end MrHyDE.Initial
