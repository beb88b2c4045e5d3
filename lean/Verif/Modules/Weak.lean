import Mathlib.Algebra.BigOperators.Group.Finset.Basic
import Mathlib.Algebra.BigOperators.Ring.Finset
import Mathlib.Algebra.BigOperators.Group.List.Basic
import Mathlib.Algebra.Ring.Defs
import Mathlib.Algebra.BigOperators.Intervals
import Mathlib.Tactic.Ring

/-!
# The loops of the physics modules, and quadrature

Every physics module adds to the residual of an element with two nested loops, one over the integration points
and one over the basis functions of a variable, in one of the two orders.  This file holds a model of the two
loops and the fact used by all modules: the entry of basis function `d` grows by the sum over the points of the
terms the body of the loop adds, and no other entry changes.
-/

set_option linter.unusedSectionVars false

namespace MrHyDE.Modules

variable {K P : Type}

/-! ## Model -/

/-- One entry of the residual receives several `+=` in sequence; src/physics/thermal.cpp:131-160 is an example of
a loop body with more than one. -/
def addAll [Add K] (r : K) (xs : List K) : K := xs.foldl (· + ·) r

/-- The statement `res(elem,off(dof)) += x` (repeated for every `x` of the list), src/physics/thermal.cpp:131;
the residual of one element as a function of the position. -/
def bump [Add K] (res : Nat → K) (i : Nat) (xs : List K) : Nat → K :=
  fun j => if j = i then addAll (res j) xs else res j

/-- Loop over the basis functions outside, over the points inside, src/physics/thermal.cpp:128-162.  Simplified:
the threads of a team take the basis functions in any order; here in increasing order. -/
def dofLoop [Add K] (ndof : Nat) (pts : List P) (off : Nat → Nat) (f : P → Nat → List K) (res : Nat → K) :
    Nat → K :=
  (List.range ndof).foldl (fun r d => pts.foldl (fun r p => bump r (off d) (f p d)) r) res

/-- Loop over the points outside, over the basis functions inside, src/physics/cdr.cpp:104-110. -/
def ptLoop [Add K] (ndof : Nat) (pts : List P) (off : Nat → Nat) (f : P → Nat → List K) (res : Nat → K) :
    Nat → K :=
  pts.foldl (fun r p => (List.range ndof).foldl (fun r d => bump r (off d) (f p d)) r) res

/-! ## Specification -/

/-- Sum of an integrand over the points.  [specification, no code] -/
def quad [AddMonoid K] (pts : List P) (f : P → K) : K := (pts.map f).sum

/-- Scalar product of the first `n` components.  [specification, no code] -/
def dot [Semiring K] (n : Nat) (a b : Nat → K) : K := ∑ c ∈ Finset.range n, a c * b c

/-- The offsets of the basis functions of a variable are pairwise different.  [specification, no code] -/
def Distinct (ndof : Nat) (off : Nat → Nat) : Prop :=
  ∀ a b : Nat, a < ndof → b < ndof → off a = off b → a = b

/-- The basis functions sum to one, their gradients to zero.  [specification, no code] -/
def PartitionOfUnity [Semiring K] (ndof dim : Nat) (basis : Nat → K) (grad : Nat → Nat → K) : Prop :=
  (∑ d ∈ Finset.range ndof, basis d) = 1 ∧ ∀ c : Nat, c < dim → ∑ d ∈ Finset.range ndof, grad d c = 0

/-- Offsets of all basis functions of all `n` equations are pairwise different.  [specification, no code] -/
def DistinctAll (n : Nat) (ndof : Nat → Nat) (off : Nat → Nat → Nat) : Prop :=
  ∀ i a j b : Nat, i < n → j < n → a < ndof i → b < ndof j → off i a = off j b → i = j ∧ a = b

/-! ## Lemmas -/

section
variable [AddCommMonoid K]

theorem addAll_eq (r : K) (xs : List K) : addAll r xs = r + xs.sum := by
  induction xs generalizing r with
  | nil => simp [addAll]
  | cons x xs ih =>
    have h := ih (r + x)
    simp only [addAll, List.foldl_cons, List.sum_cons] at h ⊢
    rw [h, add_assoc]

theorem bump_self (res : Nat → K) (i : Nat) (xs : List K) : bump res i xs i = res i + xs.sum := by
  simp [bump, addAll_eq]

theorem bump_other (res : Nat → K) {i j : Nat} (xs : List K) (h : j ≠ i) : bump res i xs j = res j := by
  simp [bump, h]

theorem ptFold_self (pts : List P) (i : Nat) (g : P → List K) (res : Nat → K) :
    pts.foldl (fun r p => bump r i (g p)) res i = res i + quad pts (fun p => (g p).sum) := by
  induction pts generalizing res with
  | nil => simp [quad]
  | cons p ps ih =>
    rw [List.foldl_cons, ih, bump_self]
    simp [quad, add_assoc]

theorem ptFold_other (pts : List P) {i j : Nat} (g : P → List K) (res : Nat → K) (h : j ≠ i) :
    pts.foldl (fun r p => bump r i (g p)) res j = res j := by
  induction pts generalizing res with
  | nil => rfl
  | cons p ps ih => rw [List.foldl_cons, ih, bump_other _ _ h]

theorem dofFold_other (ds : List Nat) (off : Nat → Nat) (g : Nat → List K) (res : Nat → K) {j : Nat}
    (h : ∀ d : Nat, d ∈ ds → off d ≠ j) :
    ds.foldl (fun r d => bump r (off d) (g d)) res j = res j := by
  induction ds generalizing res with
  | nil => rfl
  | cons d ds ih =>
    rw [List.foldl_cons, ih _ (fun e he => h e (List.mem_cons_of_mem _ he)),
      bump_other _ _ (fun hj => h d List.mem_cons_self hj.symm)]

theorem dofFold_self (ds : List Nat) (off : Nat → Nat) (g : Nat → List K) (res : Nat → K) {d : Nat}
    (hd : d ∈ ds) (hnd : ds.Nodup) (hinj : ∀ e : Nat, e ∈ ds → off e = off d → e = d) :
    ds.foldl (fun r d => bump r (off d) (g d)) res (off d) = res (off d) + (g d).sum := by
  induction ds generalizing res with
  | nil => cases hd
  | cons e ds ih =>
    rw [List.foldl_cons]
    rcases List.nodup_cons.mp hnd with ⟨hne, hnd'⟩
    by_cases h : e = d
    · subst h
      rw [dofFold_other _ _ _ _ (fun x hx hxo => hne ((hinj x (List.mem_cons_of_mem _ hx) hxo) ▸ hx)), bump_self]
    · have hd' : d ∈ ds := by
        rcases List.mem_cons.mp hd with h' | h'
        · exact absurd h'.symm h
        · exact h'
      rw [ih _ hd' hnd' (fun x hx => hinj x (List.mem_cons_of_mem _ hx)),
        bump_other _ _ (fun ho => h (hinj e List.mem_cons_self ho.symm))]

theorem ptLoop_at {ndof : Nat} {off : Nat → Nat} (hd : Distinct ndof off) (pts : List P)
    (f : P → Nat → List K) (res : Nat → K) {d : Nat} (h : d < ndof) :
    ptLoop ndof pts off f res (off d) = res (off d) + quad pts (fun p => (f p d).sum) := by
  unfold ptLoop
  induction pts generalizing res with
  | nil => simp [quad]
  | cons p ps ih =>
    rw [List.foldl_cons, ih,
      dofFold_self (List.range ndof) off (f p) res (List.mem_range.mpr h) List.nodup_range
        (fun e he heq => hd e d (List.mem_range.mp he) h heq)]
    simp [quad, add_assoc]

theorem ptLoop_other {ndof : Nat} {off : Nat → Nat} (pts : List P)
    (f : P → Nat → List K) (res : Nat → K) {j : Nat} (h : ∀ d : Nat, d < ndof → off d ≠ j) :
    ptLoop ndof pts off f res j = res j := by
  unfold ptLoop
  induction pts generalizing res with
  | nil => rfl
  | cons p ps ih =>
    rw [List.foldl_cons, ih, dofFold_other _ _ _ _ (fun d hd => h d (List.mem_range.mp hd))]

theorem dofLoop_fold_other (ds : List Nat) {off : Nat → Nat} (pts : List P)
    (f : P → Nat → List K) (res : Nat → K) {j : Nat} (h : ∀ d : Nat, d ∈ ds → off d ≠ j) :
    ds.foldl (fun r d => pts.foldl (fun r p => bump r (off d) (f p d)) r) res j = res j := by
  induction ds generalizing res with
  | nil => rfl
  | cons d ds ih =>
    rw [List.foldl_cons, ih _ (fun e he => h e (List.mem_cons_of_mem _ he)),
      ptFold_other pts (fun p => f p d) res (fun hj => h d List.mem_cons_self hj.symm)]

theorem dofLoop_other {ndof : Nat} {off : Nat → Nat} (pts : List P)
    (f : P → Nat → List K) (res : Nat → K) {j : Nat} (h : ∀ d : Nat, d < ndof → off d ≠ j) :
    dofLoop ndof pts off f res j = res j :=
  dofLoop_fold_other _ pts f res (fun d hd => h d (List.mem_range.mp hd))

theorem dofLoop_at {ndof : Nat} {off : Nat → Nat} (hd : Distinct ndof off) (pts : List P)
    (f : P → Nat → List K) (res : Nat → K) {d : Nat} (h : d < ndof) :
    dofLoop ndof pts off f res (off d) = res (off d) + quad pts (fun p => (f p d).sum) := by
  have key : ∀ (ds : List Nat) (res : Nat → K), d ∈ ds → ds.Nodup →
      (∀ e : Nat, e ∈ ds → off e = off d → e = d) →
      ds.foldl (fun r d => pts.foldl (fun r p => bump r (off d) (f p d)) r) res (off d) =
        res (off d) + quad pts (fun p => (f p d).sum) := by
    intro ds
    induction ds with
    | nil => intro _ hm; cases hm
    | cons e ds ih =>
      intro res hm hnd hinj
      rw [List.foldl_cons]
      rcases List.nodup_cons.mp hnd with ⟨hne, hnd'⟩
      by_cases he : e = d
      · subst he
        rw [dofLoop_fold_other ds pts f _
          (fun x hx hxo => hne ((hinj x (List.mem_cons_of_mem _ hx) hxo) ▸ hx)),
          ptFold_self pts (off e) (fun p => f p e) res]
      · have hm' : d ∈ ds := by
          rcases List.mem_cons.mp hm with h' | h'
          · exact absurd h'.symm he
          · exact h'
        rw [ih _ hm' hnd' (fun x hx => hinj x (List.mem_cons_of_mem _ hx)),
          ptFold_other pts (fun p => f p e) res (fun ho => he (hinj e List.mem_cons_self ho.symm))]
  exact key _ res (List.mem_range.mpr h) List.nodup_range
    (fun e he heq => hd e d (List.mem_range.mp he) h heq)

theorem quad_congr (pts : List P) {f g : P → K} (h : ∀ p : P, p ∈ pts → f p = g p) :
    quad pts f = quad pts g := by
  unfold quad
  rw [List.map_congr_left h]

theorem quad_add (pts : List P) (f g : P → K) :
    quad pts (fun p => f p + g p) = quad pts f + quad pts g := by
  induction pts with
  | nil => simp [quad]
  | cons p ps ih =>
    have ih' : (ps.map (fun p => f p + g p)).sum = (ps.map f).sum + (ps.map g).sum := ih
    simp only [quad, List.map_cons, List.sum_cons, ih']
    exact add_add_add_comm _ _ _ _

theorem quad_sum (pts : List P) (n : Nat) (f : P → Nat → K) :
    ∑ d ∈ Finset.range n, quad pts (fun p => f p d) = quad pts (fun p => ∑ d ∈ Finset.range n, f p d) := by
  induction pts with
  | nil => simp [quad]
  | cons p ps ih =>
    have ih' : ∑ d ∈ Finset.range n, (ps.map (fun p => f p d)).sum =
        (ps.map (fun p => ∑ d ∈ Finset.range n, f p d)).sum := ih
    simp only [quad, List.map_cons, List.sum_cons, Finset.sum_add_distrib, ih']

theorem quad_zero (pts : List P) : quad pts (fun _ : P => (0 : K)) = 0 := by
  induction pts with
  | nil => simp [quad]
  | cons p ps ih =>
    have ih' : (ps.map (fun _ : P => (0 : K))).sum = 0 := ih
    simp [quad]

end

theorem quad_neg [Ring K] (pts : List P) (f : P → K) : quad pts (fun p => - f p) = - quad pts f := by
  induction pts with
  | nil => simp [quad]
  | cons p ps ih =>
    have ih' : (ps.map (fun p => - f p)).sum = - (ps.map f).sum := ih
    simp only [quad, List.map_cons, List.sum_cons, ih', neg_add]

theorem quad_mul_left [Semiring K] (pts : List P) (a : K) (f : P → K) :
    a * quad pts f = quad pts (fun p => a * f p) := by
  induction pts with
  | nil => simp [quad]
  | cons p ps ih =>
    have ih' : a * (ps.map f).sum = (ps.map (fun p => a * f p)).sum := ih
    simp only [quad, List.map_cons, List.sum_cons, mul_add, ih']

theorem PartitionOfUnity.dot_right [CommSemiring K] {ndof dim : Nat} {basis : Nat → K} {grad : Nat → Nat → K}
    (h : PartitionOfUnity ndof dim basis grad) (a : Nat → K) :
    ∑ d ∈ Finset.range ndof, dot dim a (grad d) = 0 := by
  unfold dot
  rw [Finset.sum_comm]
  refine Finset.sum_eq_zero (fun c hc => ?_)
  rw [← Finset.mul_sum, h.2 c (Finset.mem_range.mp hc), mul_zero]

theorem PartitionOfUnity.dot_left [CommSemiring K] {ndof dim : Nat} {basis : Nat → K} {grad : Nat → Nat → K}
    (h : PartitionOfUnity ndof dim basis grad) (a : Nat → K) :
    ∑ d ∈ Finset.range ndof, dot dim (grad d) a = 0 := by
  unfold dot
  rw [Finset.sum_comm]
  refine Finset.sum_eq_zero (fun c hc => ?_)
  rw [← Finset.sum_mul, h.2 c (Finset.mem_range.mp hc), zero_mul]

theorem dot_one [Semiring K] (a b : Nat → K) : dot 1 a b = a 0 * b 0 := by
  simp [dot]

theorem dot_two [Semiring K] (a b : Nat → K) : dot 2 a b = a 0 * b 0 + a 1 * b 1 := by
  simp [dot, Finset.sum_range_succ]

theorem dot_three [Semiring K] (a b : Nat → K) : dot 3 a b = a 0 * b 0 + a 1 * b 1 + a 2 * b 2 := by
  simp [dot, Finset.sum_range_succ]

theorem dot_comm [CommSemiring K] (n : Nat) (a b : Nat → K) : dot n a b = dot n b a := by
  unfold dot
  exact Finset.sum_congr rfl (fun _ _ => mul_comm _ _)

end MrHyDE.Modules
