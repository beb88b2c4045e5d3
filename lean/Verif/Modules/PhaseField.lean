import Verif.Modules.Weak
import Mathlib.Algebra.Order.Field.Basic
import Mathlib.Algebra.Order.Ring.Rat
import Mathlib.Algebra.Field.Rat
import Mathlib.Algebra.DualNumber
import Mathlib.Algebra.BigOperators.Fin
import Mathlib.Tactic.FinCases
import Mathlib.Tactic.IntervalCases
import Mathlib.Tactic.LinearCombination
import Mathlib.Tactic.NormNum
import Mathlib.Tactic.Positivity
import Mathlib.Tactic.Linarith
import Mathlib.Tactic.FieldSimp

/-!
# Fields of several phases (C137)

`msphasefield` evolves fields `phi1, ..., phin` of several phases by a gradient flow:
`phi_j' = -L (16 A phi_j (-phi_j + sum_i phi_i^2) - d^2 laplace phi_j)`.
-/

set_option linter.unusedSectionVars false
set_option linter.unusedSimpArgs false

namespace MrHyDE.Modules.PhaseField

variable {K : Type}

/-! ## Model -/

/-- What `volumeResidual` reads at one integration point, src/physics/msphasefield.cpp:216-235, 270-281, 313-317: fields of the phases,
their time derivatives and gradients, weight, and the basis (the one of the first phase for all of them, 195, 230-231). -/
structure Pt (K : Type) where
  phi : Nat → K
  dt : Nat → K
  dphi : Nat → Nat → K
  wts : K
  basis : Nat → K
  grad : Nat → Nat → K

/-- The parameters, src/physics/msphasefield.cpp:237-262: `d` is `thermal_diff`; each is one unless the user gives a parameter of the
name; `mobile` is `variableMobility`, line 32. -/
structure Par (K : Type) where
  d : K
  L : K
  A : K
  mobile : Bool

/-- A parameter of the user, or one, src/physics/msphasefield.cpp:237-244: the first entry of the vector of the name. -/
def parameter [One K] (user : Option (List K)) : Option K :=
  match user with
  | none => some 1
  | some v => v.head?

/-- The vectors of values, declared outside the loops and never emptied, src/physics/msphasefield.cpp:208-213. -/
structure Vecs (K : Type) where
  phi : List K := []
  dt : List K := []
  dx : List K := []
  dy : List K := []
  dz : List K := []

/-- Values at a point are appended, src/physics/msphasefield.cpp:269-283. -/
def Vecs.push (dim n : Nat) (q : Pt K) (v : Vecs K) : Vecs K where
  phi := v.phi ++ (List.range n).map q.phi
  dt := v.dt ++ (List.range n).map q.dt
  dx := v.dx ++ (List.range n).map (fun j => q.dphi j 0)
  dy := v.dy ++ (if 1 < dim then (List.range n).map (fun j => q.dphi j 1) else [])
  dz := v.dz ++ (if 2 < dim then (List.range n).map (fun j => q.dphi j 2) else [])

/-- Reading `v[j]`; src/physics/msphasefield.cpp:282.  Simplified: past the end of the vector (which does not occur) it is zero. -/
def at' [Zero K] (v : List K) (j : Nat) : K := v.getD j 0

section
variable [Field K] [LinearOrder K]

/-- Sum of the squares, src/physics/msphasefield.cpp:268, 282: entry `j` was there when it was read. -/
def sumphi (n : Nat) (v : Vecs K) : K := (List.range n).foldl (fun s j => s + at' v.phi j * at' v.phi j) 0

/-- The mobility, src/physics/msphasefield.cpp:285-310. -/
def mobility (p : Par K) (n : Nat) (v : Vecs K) : K :=
  let f := at' v.phi
  let num := (List.range n).foldl (fun s i => (List.range n).foldl (fun s j => s + p.L * f i * f i * f j * f j) s) 0
  let den := (List.range n).foldl (fun s i => (List.range n).foldl (fun s j => s + f i * f i * f j * f j) s) 0
  if p.mobile then (if den < 1 / 10 ^ 8 then 1 / 100 else num / den) else 0

/-- The terms added for phase `j` and function `i` at a point, src/physics/msphasefield.cpp:320-342. -/
def adds (p : Par K) (dim n : Nat) (v : Vecs K) (q : Pt K) (i j : Nat) : List K :=
  (if dim = 2 then
    [((if p.mobile then mobility p n v else p.L) * (16 * p.A * at' v.phi j * (-(at' v.phi j) + sumphi n v) * q.basis i +
      p.d * p.d * (at' v.dx j * q.grad i 0 + at' v.dy j * q.grad i 1))) * q.wts]
  else []) ++
  (if dim = 3 then
    [(p.L * (4 * p.A * at' v.phi j * (-(at' v.phi j) + sumphi n v) * q.basis i +
      p.d * p.d * (at' v.dx j * q.grad i 0 + at' v.dy j * q.grad i 1 + at' v.dz j * q.grad i 2))) * q.wts]
  else []) ++
  [at' v.dt j * q.basis i * q.wts]

/-- The loops over functions and phases at a point, src/physics/msphasefield.cpp:312-344. -/
def pointPart (p : Par K) (dim n ndof : Nat) (off : Nat → Nat → Nat) (v : Vecs K) (q : Pt K) (res : Nat → K) : Nat → K :=
  (List.range ndof).foldl (fun r i => (List.range n).foldl (fun r j => bump r (off j i) (adds p dim n v q i j)) r) res

/-- One element, src/physics/msphasefield.cpp:265-345: the vectors are handed on from point to point. -/
def element (p : Par K) (dim n ndof : Nat) (off : Nat → Nat → Nat) (pts : List (Pt K)) (s : Vecs K × (Nat → K)) :
    Vecs K × (Nat → K) :=
  pts.foldl (fun s q => let v := s.1.push dim n q; (v, pointPart p dim n ndof off v q s.2)) s

/-- `volumeResidual` on the elements of a group, src/physics/msphasefield.cpp:186-348: the vectors are handed on from element to
element.  In one dimension the second component of the gradient of a basis function is read (315), which does not exist: `none`. -/
def volumeResidual (p : Par K) (dim n ndof : Nat) (off : Nat → Nat → Nat) (els : List (List (Pt K) × (Nat → K))) :
    Option (List (Nat → K)) :=
  if dim < 2 then none
  else some (els.foldl (fun s e => let t := element p dim n ndof off e.1 (s.1, e.2); (t.1, s.2 ++ [t.2])) (({} : Vecs K), [])).2

/-- Positions of the phases among the variables of the workset, src/physics/msphasefield.cpp:464-477: a variable is `some j` if it
is named `phi` followed by the number `j`. -/
def phiNum (n : Nat) (vars : List (Option Nat)) : List Nat :=
  vars.zipIdx.flatMap (fun v => (List.range n).flatMap (fun j => if v.1 = some (j + 1) then [v.2] else []))

/-! ## Specification -/

/-- The derivative of the energy `16 A (1/4 (sum phi_i^2)^2 - 1/3 sum phi_i^3)` with respect to `phi_j`. [specification, no code] -/
def reaction (A : K) (n : Nat) (phi : Nat → K) (j : Nat) : K := 16 * A * phi j * (∑ i ∈ Finset.range n, phi i ^ 2 - phi j)

/-- The integrand of the weak form of the gradient flow. [specification, no code] -/
def weak (p : Par K) (dim n : Nat) (q : Pt K) (i j : Nat) : K :=
  (p.L * (reaction p.A n q.phi j * q.basis i + p.d ^ 2 * dot dim (q.dphi j) (q.grad i)) + q.dt j * q.basis i) * q.wts

/-- The same values of the fields. [specification, no code] -/
def Same (dim n : Nat) (q r : Pt K) : Prop :=
  ∀ j < n, q.phi j = r.phi j ∧ q.dt j = r.dt j ∧ ∀ c < dim, q.dphi j c = r.dphi j c

/-! ## Lemmas -/

theorem at_first {v w : List K} {n j : Nat} (f : Nat → K) (h : v = (List.range n).map f ++ w) (hj : j < n) : at' v j = f j := by
  subst h
  unfold at'
  rw [List.getD_eq_getElem?_getD, List.getElem?_append_left (by simpa using hj)]
  simp [hj]

/-- The vectors begin with the values at point `q`. [specification, no code] -/
def Begins (dim n : Nat) (q : Pt K) (v : Vecs K) : Prop :=
  ∀ j < n, at' v.phi j = q.phi j ∧ at' v.dt j = q.dt j ∧ at' v.dx j = q.dphi j 0 ∧ (1 < dim → at' v.dy j = q.dphi j 1) ∧
    (2 < dim → at' v.dz j = q.dphi j 2)

/-- At least `n` values are there. [specification, no code] -/
def Long (dim n : Nat) (v : Vecs K) : Prop :=
  n ≤ v.phi.length ∧ n ≤ v.dt.length ∧ n ≤ v.dx.length ∧ (1 < dim → n ≤ v.dy.length) ∧ (2 < dim → n ≤ v.dz.length)

theorem at_append {v w : List K} {j n : Nat} (hv : n ≤ v.length) (hj : j < n) : at' (v ++ w) j = at' v j := by
  unfold at'
  rw [List.getD_eq_getElem?_getD, List.getElem?_append_left (by omega), ← List.getD_eq_getElem?_getD]

theorem push_empty (dim n : Nat) (q : Pt K) : Begins dim n q (Vecs.push dim n q {}) ∧ Long dim n (Vecs.push dim n q {}) := by
  refine ⟨fun j hj => ⟨at_first (w := []) q.phi (by simp [Vecs.push]) hj, at_first (w := []) q.dt (by simp [Vecs.push]) hj,
    at_first (w := []) (fun j => q.dphi j 0) (by simp [Vecs.push]) hj,
    fun h => at_first (w := []) (fun j => q.dphi j 1) (by simp [Vecs.push, h]) hj,
    fun h => at_first (w := []) (fun j => q.dphi j 2) (by simp [Vecs.push, h]) hj⟩, by simp [Vecs.push], by simp [Vecs.push],
    by simp [Vecs.push], fun h => by simp [Vecs.push, h], fun h => by simp [Vecs.push, h]⟩

theorem push_long {dim n : Nat} {q r : Pt K} {v : Vecs K} (h : Begins dim n q v) (hl : Long dim n v) :
    Begins dim n q (v.push dim n r) ∧ Long dim n (v.push dim n r) := by
  obtain ⟨l1, l2, l3, l4, l5⟩ := hl
  refine ⟨fun j hj => ?_, by simp [Vecs.push] <;> omega, by simp [Vecs.push] <;> omega, by simp [Vecs.push] <;> omega,
    fun h => by have := l4 h; simp [Vecs.push, h] <;> omega, fun h => by have := l5 h; simp [Vecs.push, h] <;> omega⟩
  obtain ⟨h1, h2, h3, h4, h5⟩ := h j hj
  exact ⟨by rw [← h1]; exact at_append l1 hj, by rw [← h2]; exact at_append l2 hj, by rw [← h3]; exact at_append l3 hj,
    fun hd => by rw [← h4 hd]; exact at_append (l4 hd) hj, fun hd => by rw [← h5 hd]; exact at_append (l5 hd) hj⟩

theorem range_sum (f : Nat → K) : ∀ (n : Nat) (s : K),
    (List.range n).foldl (fun s j => s + f j) s = s + ∑ j ∈ Finset.range n, f j := by
  intro n
  induction n with
  | zero => intro s; simp
  | succ n ih => intro s; rw [List.range_succ, List.foldl_append, ih, Finset.sum_range_succ]; simp [add_assoc]

theorem sumphi_eq (n : Nat) (v : Vecs K) (phi : Nat → K) (h : ∀ j < n, at' v.phi j = phi j) :
    sumphi n v = ∑ i ∈ Finset.range n, phi i ^ 2 := by
  unfold sumphi
  rw [range_sum, zero_add]
  exact Finset.sum_congr rfl (fun i hi => by rw [h i (Finset.mem_range.1 hi)]; ring)

theorem double_sum (f : Nat → Nat → K) (m : Nat) : ∀ (n : Nat) (s : K),
    (List.range n).foldl (fun s i => (List.range m).foldl (fun s j => s + f i j) s) s =
      s + ∑ i ∈ Finset.range n, ∑ j ∈ Finset.range m, f i j := by
  intro n s
  have : (fun (s : K) i => (List.range m).foldl (fun s j => s + f i j) s) = fun s i => s + ∑ j ∈ Finset.range m, f i j := by
    funext s i
    exact range_sum (f i) m s
  rw [this, range_sum]

theorem bump_at (res : Nat → K) (i k : Nat) (xs : List K) : bump res i xs k = res k + if k = i then xs.sum else 0 := by
  by_cases h : k = i
  · subst h; rw [bump_self, if_pos rfl]
  · rw [bump_other _ _ h, if_neg h, add_zero]

theorem fold_at (f : (Nat → K) → Nat → Nat → K) (g : Nat → K) (k : Nat) (h : ∀ r a, f r a k = r k + g a) : ∀ (n : Nat) (r : Nat → K),
    (List.range n).foldl f r k = r k + ∑ a ∈ Finset.range n, g a := by
  intro n
  induction n with
  | zero => intro r; simp
  | succ n ih => intro r; rw [List.range_succ, List.foldl_append, Finset.sum_range_succ, ← add_assoc, ← ih]; simp [h]

theorem pointPart_at (p : Par K) (dim n ndof : Nat) (off : Nat → Nat → Nat) (hoff : DistinctAll n (fun _ => ndof) off) (v : Vecs K)
    (q : Pt K) (res : Nat → K) {j i : Nat} (hj : j < n) (hi : i < ndof) :
    pointPart p dim n ndof off v q res (off j i) = res (off j i) + (adds p dim n v q i j).sum := by
  unfold pointPart
  rw [fold_at _ (fun a => ∑ b ∈ Finset.range n, if off j i = off b a then (adds p dim n v q a b).sum else 0) (off j i)
    (fun r a => fold_at _ (fun b => if off j i = off b a then (adds p dim n v q a b).sum else 0) (off j i)
      (fun r b => bump_at r (off b a) (off j i) _) n r)]
  congr 1
  rw [Finset.sum_eq_single i, Finset.sum_eq_single j]
  · simp
  · intro b hb hne
    rw [if_neg]
    intro he
    exact hne (hoff j i b i hj (Finset.mem_range.1 hb) hi hi he).1.symm
  · intro h
    exact absurd (Finset.mem_range.2 hj) h
  · intro a ha hne
    refine Finset.sum_eq_zero (fun b hb => if_neg (fun he => hne ?_))
    exact (hoff j i b a hj (Finset.mem_range.1 hb) hi (Finset.mem_range.1 ha) he).2.symm
  · intro h
    exact absurd (Finset.mem_range.2 hi) h

/-- What is added at point `q` when the vectors begin with the values at point `q0`. [specification, no code] -/
def used (p : Par K) (dim n : Nat) (q0 q : Pt K) (i j : Nat) : K :=
  (adds p dim n (Vecs.push dim n q0 {}) q i j).sum

theorem adds_begins (p : Par K) (dim n : Nat) (hd : dim = 2 ∨ dim = 3) (q0 q : Pt K) (v : Vecs K) (h : Begins dim n q0 v) (i j : Nat)
    (hj : j < n) : (adds p dim n v q i j).sum = used p dim n q0 q i j := by
  have he := (push_empty dim n q0).1
  have e1 : ∀ j < n, at' v.phi j = at' (Vecs.push dim n q0 {}).phi j := fun j hj => by rw [(h j hj).1, (he j hj).1]
  have e2 : at' v.dt j = at' (Vecs.push dim n q0 {}).dt j := by rw [(h j hj).2.1, (he j hj).2.1]
  have e3 : at' v.dx j = at' (Vecs.push dim n q0 {}).dx j := by rw [(h j hj).2.2.1, (he j hj).2.2.1]
  have e4 : at' v.dy j = at' (Vecs.push dim n q0 {}).dy j := by
    rw [(h j hj).2.2.2.1 (by omega), (he j hj).2.2.2.1 (by omega)]
  have e5 : dim = 3 → at' v.dz j = at' (Vecs.push dim n q0 {}).dz j := fun hd => by
    rw [(h j hj).2.2.2.2 (by omega), (he j hj).2.2.2.2 (by omega)]
  have s1 : sumphi n v = sumphi n (Vecs.push dim n q0 {}) := by
    rw [sumphi_eq n v _ (fun j hj => (h j hj).1), sumphi_eq n _ _ (fun j hj => (he j hj).1)]
  have m1 : mobility p n v = mobility p n (Vecs.push dim n q0 {}) := by
    unfold mobility
    simp only
    rw [double_sum, double_sum, double_sum, double_sum]
    have c1 : ∑ i ∈ Finset.range n, ∑ j ∈ Finset.range n, p.L * at' v.phi i * at' v.phi i * at' v.phi j * at' v.phi j =
        ∑ i ∈ Finset.range n, ∑ j ∈ Finset.range n, p.L * at' (Vecs.push dim n q0 {}).phi i * at' (Vecs.push dim n q0 {}).phi i *
          at' (Vecs.push dim n q0 {}).phi j * at' (Vecs.push dim n q0 {}).phi j :=
      Finset.sum_congr rfl (fun i hi => Finset.sum_congr rfl (fun j hj => by
        rw [e1 i (Finset.mem_range.1 hi), e1 j (Finset.mem_range.1 hj)]))
    have c2 : ∑ i ∈ Finset.range n, ∑ j ∈ Finset.range n, at' v.phi i * at' v.phi i * at' v.phi j * at' v.phi j =
        ∑ i ∈ Finset.range n, ∑ j ∈ Finset.range n, at' (Vecs.push dim n q0 {}).phi i * at' (Vecs.push dim n q0 {}).phi i *
          at' (Vecs.push dim n q0 {}).phi j * at' (Vecs.push dim n q0 {}).phi j :=
      Finset.sum_congr rfl (fun i hi => Finset.sum_congr rfl (fun j hj => by
        rw [e1 i (Finset.mem_range.1 hi), e1 j (Finset.mem_range.1 hj)]))
    rw [c1, c2]
  unfold used adds
  rw [s1, m1, e1 j hj, e2, e3, e4]
  rcases hd with rfl | rfl
  · simp
  · simp [e5 rfl]

theorem element_at (p : Par K) (dim n ndof : Nat) (hd : dim = 2 ∨ dim = 3) (off : Nat → Nat → Nat)
    (hoff : DistinctAll n (fun _ => ndof) off) (q0 : Pt K) : ∀ (pts : List (Pt K)) (v : Vecs K) (res : Nat → K)
    (_ : Begins dim n q0 v) (_ : Long dim n v),
    (Begins dim n q0 (element p dim n ndof off pts (v, res)).1 ∧ Long dim n (element p dim n ndof off pts (v, res)).1) ∧
    ∀ j < n, ∀ i < ndof, (element p dim n ndof off pts (v, res)).2 (off j i) =
      res (off j i) + quad pts (fun q => used p dim n q0 q i j) := by
  intro pts
  induction pts with
  | nil => intro v res h hl; exact ⟨⟨h, hl⟩, fun j _ i _ => by simp [element, quad]⟩
  | cons q t ih =>
    intro v res h hl
    have h' := push_long (r := q) h hl
    have hi := ih (v.push dim n q) (pointPart p dim n ndof off (v.push dim n q) q res) h'.1 h'.2
    refine ⟨hi.1, fun j hj i hi' => ?_⟩
    have := hi.2 j hj i hi'
    show (element p dim n ndof off t (v.push dim n q, pointPart p dim n ndof off (v.push dim n q) q res)).2 (off j i) = _
    rw [this, pointPart_at p dim n ndof off hoff _ q res hj hi', adds_begins p dim n hd q0 q _ h'.1 i j hj, add_assoc]
    simp [quad]

theorem element_first (p : Par K) (dim n ndof : Nat) (hd : dim = 2 ∨ dim = 3) (off : Nat → Nat → Nat)
    (hoff : DistinctAll n (fun _ => ndof) off) (q0 : Pt K) (t : List (Pt K)) (res : Nat → K) :
    (Begins dim n q0 (element p dim n ndof off (q0 :: t) ({}, res)).1 ∧ Long dim n (element p dim n ndof off (q0 :: t) ({}, res)).1) ∧
    ∀ j < n, ∀ i < ndof, (element p dim n ndof off (q0 :: t) ({}, res)).2 (off j i) =
      res (off j i) + quad (q0 :: t) (fun q => used p dim n q0 q i j) := by
  have h0 := push_empty dim n q0
  have hi := element_at p dim n ndof hd off hoff q0 t (Vecs.push dim n q0 {})
    (pointPart p dim n ndof off (Vecs.push dim n q0 {}) q0 res) h0.1 h0.2
  refine ⟨hi.1, fun j hj i hi' => ?_⟩
  have := hi.2 j hj i hi'
  show (element p dim n ndof off t (Vecs.push dim n q0 {}, pointPart p dim n ndof off (Vecs.push dim n q0 {}) q0 res)).2 (off j i) = _
  rw [this, pointPart_at p dim n ndof off hoff _ q0 res hj hi', adds_begins p dim n hd q0 q0 _ h0.1 i j hj, add_assoc]
  simp [quad]

theorem group_at (p : Par K) (dim n ndof : Nat) (hd : dim = 2 ∨ dim = 3) (off : Nat → Nat → Nat)
    (hoff : DistinctAll n (fun _ => ndof) off) (q0 : Pt K) : ∀ (els : List (List (Pt K) × (Nat → K))) (v : Vecs K) (acc : List (Nat → K))
    (_ : Begins dim n q0 v) (_ : Long dim n v),
    ∃ out : List (Nat → K), (els.foldl (fun s e => let t := element p dim n ndof off e.1 (s.1, e.2); (t.1, s.2 ++ [t.2])) (v, acc)).2 =
        acc ++ out ∧ out.length = els.length ∧
      ∀ (e : Nat) (pr : List (Pt K) × (Nat → K)) (r : Nat → K), els[e]? = some pr → out[e]? = some r → ∀ j < n, ∀ i < ndof,
        r (off j i) = pr.2 (off j i) + quad pr.1 (fun q => used p dim n q0 q i j) := by
  intro els
  induction els with
  | nil => intro v acc _ _; exact ⟨[], by simp, rfl, by simp⟩
  | cons e t ih =>
    intro v acc h hl
    have he := element_at p dim n ndof hd off hoff q0 e.1 v e.2 h hl
    obtain ⟨out, h1, h2, h3⟩ := ih (element p dim n ndof off e.1 (v, e.2)).1 (acc ++ [(element p dim n ndof off e.1 (v, e.2)).2])
      he.1.1 he.1.2
    refine ⟨(element p dim n ndof off e.1 (v, e.2)).2 :: out, ?_, by simp [h2], ?_⟩
    · rw [List.foldl_cons]
      simp only at h1 ⊢
      rw [h1]
      simp
    · intro k pr r hk hr
      cases k with
      | zero =>
        have e1 : e = pr := by simpa using hk
        have e2 : (element p dim n ndof off e.1 (v, e.2)).2 = r := by simpa using hr
        subst e1 e2
        exact he.2
      | succ k => exact h3 k pr r (by simpa using hk) (by simpa using hr)

/-! ## Theorems -/

/-- What the code computes: at every point of every element of the group, the terms are those of the fields at the first point of
the first element. -/
theorem residual_eq (p : Par K) (dim n ndof : Nat) (hd : dim = 2 ∨ dim = 3) (off : Nat → Nat → Nat)
    (hoff : DistinctAll n (fun _ => ndof) off) (q0 : Pt K) (t0 : List (Pt K)) (res0 : Nat → K)
    (els : List (List (Pt K) × (Nat → K))) : ∃ out, volumeResidual p dim n ndof off ((q0 :: t0, res0) :: els) = some out ∧
      out.length = els.length + 1 ∧ ∀ (e : Nat) (pr : List (Pt K) × (Nat → K)) (r : Nat → K), ((q0 :: t0, res0) :: els)[e]? = some pr → out[e]? = some r → ∀ j < n, ∀ i < ndof,
        r (off j i) = pr.2 (off j i) + quad pr.1 (fun q => used p dim n q0 q i j) := by
  have he := element_first p dim n ndof hd off hoff q0 t0 res0
  obtain ⟨out, h1, h2, h3⟩ := group_at p dim n ndof hd off hoff q0 els (element p dim n ndof off (q0 :: t0) ({}, res0)).1
    ([] ++ [(element p dim n ndof off (q0 :: t0) ({}, res0)).2]) he.1.1 he.1.2
  refine ⟨(element p dim n ndof off (q0 :: t0) ({}, res0)).2 :: out, ?_, by simp [h2], ?_⟩
  · unfold volumeResidual
    rw [if_neg (by omega), List.foldl_cons]
    simp only at h1 ⊢
    rw [h1]
    simp
  · intro k pr r hk hr
    cases k with
    | zero =>
      have e1 : (q0 :: t0, res0) = pr := by simpa using hk
      have e2 : (element p dim n ndof off (q0 :: t0) ({}, res0)).2 = r := by simpa using hr
      subst e1 e2
      exact he.2
    | succ k => exact h3 k pr r (by simpa using hk) (by simpa using hr)

theorem used_two (p : Par K) (n : Nat) (q0 q : Pt K) (i j : Nat) (hj : j < n) (hs : Same 2 n q q0) :
    used p 2 n q0 q i j = ((if p.mobile then mobility p n (Vecs.push 2 n q0 {}) else p.L) *
      (reaction p.A n q.phi j * q.basis i + p.d ^ 2 * dot 2 (q.dphi j) (q.grad i)) + q.dt j * q.basis i) * q.wts := by
  obtain ⟨h1, h2, h3, h4, _⟩ := (push_empty 2 n q0).1 j hj
  have hs' := sumphi_eq n (Vecs.push 2 n q0 {}) q.phi (fun j hj => by rw [((push_empty 2 n q0).1 j hj).1, (hs j hj).1])
  unfold used adds
  rw [h1, h2, h3, h4 (by norm_num), hs']
  obtain ⟨s1, s2, s3⟩ := hs j hj
  rw [← s1, ← s2, ← s3 0 (by norm_num), ← s3 1 (by norm_num)]
  by_cases hm : p.mobile = true
  · simp only [hm, if_true, reaction, dot, Finset.sum_range_succ, Finset.sum_range_zero, List.sum_append, List.sum_cons, List.sum_nil,
      if_neg (show ¬ (2 : Nat) = 3 by norm_num)]
    ring
  · simp only [hm, if_true, reaction, dot, Finset.sum_range_succ, Finset.sum_range_zero, List.sum_append, List.sum_cons, List.sum_nil,
      if_neg (show ¬ (2 : Nat) = 3 by norm_num), Bool.false_eq_true, if_false]
    ring

theorem used_three (p : Par K) (n : Nat) (q0 q : Pt K) (i j : Nat) (hj : j < n) (hs : Same 3 n q q0) :
    used p 3 n q0 q i j = weak p 3 n q i j - p.L * (12 * p.A * q.phi j * (∑ i ∈ Finset.range n, q.phi i ^ 2 - q.phi j)) *
      q.basis i * q.wts := by
  obtain ⟨h1, h2, h3, h4, h5⟩ := (push_empty 3 n q0).1 j hj
  have hs' := sumphi_eq n (Vecs.push 3 n q0 {}) q.phi (fun j hj => by rw [((push_empty 3 n q0).1 j hj).1, (hs j hj).1])
  unfold used adds weak
  rw [h1, h2, h3, h4 (by norm_num), h5 (by norm_num), hs']
  obtain ⟨s1, s2, s3⟩ := hs j hj
  rw [← s1, ← s2, ← s3 0 (by norm_num), ← s3 1 (by norm_num), ← s3 2 (by norm_num)]
  simp only [reaction, dot, Finset.sum_range_succ, Finset.sum_range_zero, List.sum_append, List.sum_cons, List.sum_nil,
      if_neg (show ¬ (3 : Nat) = 2 by norm_num), if_true]
  ring

/-- C137, mobility: with the option for variable mobility, the mobility is `L` unless the fields of all phases are small, and 0.01
there. -/
theorem C137_mobility [IsStrictOrderedRing K] (p : Par K) (dim n : Nat) (q : Pt K) (hm : p.mobile = true) :
    (1 / 10 ^ 8 ≤ (∑ i ∈ Finset.range n, q.phi i ^ 2) ^ 2 → mobility p n (Vecs.push dim n q {}) = p.L) ∧
    ((∑ i ∈ Finset.range n, q.phi i ^ 2) ^ 2 < 1 / 10 ^ 8 → mobility p n (Vecs.push dim n q {}) = 1 / 100) := by
  have hb := (push_empty dim n q).1
  have c2 : ∑ i ∈ Finset.range n, ∑ j ∈ Finset.range n, at' (Vecs.push dim n q {}).phi i * at' (Vecs.push dim n q {}).phi i *
          at' (Vecs.push dim n q {}).phi j * at' (Vecs.push dim n q {}).phi j = (∑ i ∈ Finset.range n, q.phi i ^ 2) ^ 2 := by
    rw [sq, Finset.sum_mul_sum]
    refine Finset.sum_congr rfl (fun i hi => Finset.sum_congr rfl (fun j hj => ?_))
    rw [(hb i (Finset.mem_range.1 hi)).1, (hb j (Finset.mem_range.1 hj)).1]
    ring
  have c1 : ∑ i ∈ Finset.range n, ∑ j ∈ Finset.range n, p.L * at' (Vecs.push dim n q {}).phi i * at' (Vecs.push dim n q {}).phi i *
          at' (Vecs.push dim n q {}).phi j * at' (Vecs.push dim n q {}).phi j = p.L * (∑ i ∈ Finset.range n, q.phi i ^ 2) ^ 2 := by
    rw [sq, Finset.sum_mul_sum, Finset.mul_sum]
    refine Finset.sum_congr rfl (fun i hi => ?_)
    rw [Finset.mul_sum]
    refine Finset.sum_congr rfl (fun j hj => ?_)
    rw [(hb i (Finset.mem_range.1 hi)).1, (hb j (Finset.mem_range.1 hj)).1]
    ring
  unfold mobility
  simp only
  rw [double_sum, double_sum, zero_add, zero_add, c1, c2, if_pos hm]
  constructor
  · intro h
    rw [if_neg (not_lt.2 h)]
    have : (0 : K) < (∑ i ∈ Finset.range n, q.phi i ^ 2) ^ 2 := lt_of_lt_of_le (by positivity) h
    exact mul_div_cancel_right₀ _ this.ne'
  · intro h
    rw [if_pos h]

example : (1 : ℚ) / 10 ^ 8 ≤ (∑ i ∈ Finset.range 2, (fun _ => (1 / 2 : ℚ)) i ^ 2) ^ 2 := by norm_num [Finset.sum_range_succ]

/-- C137, partial: in two dimensions, where the fields, their time derivatives and gradients are the same at all points of all elements
of the group, every entry grows by the weak form of the gradient flow, with mobility `L` (with the option for variable mobility, if
the fields are not all small).  Missing: fields that vary (`C137_stale_violated`), other dimensions (`C137_line_violated`,
`C137_space_violated`), small fields (`C137_mobility`). -/
theorem C137_weak_partial [IsStrictOrderedRing K] (p : Par K) (n ndof : Nat) (off : Nat → Nat → Nat)
    (hoff : DistinctAll n (fun _ => ndof) off) (q0 : Pt K) (t0 : List (Pt K)) (res0 : Nat → K) (els : List (List (Pt K) × (Nat → K)))
    (hm : p.mobile = true → 1 / 10 ^ 8 ≤ (∑ i ∈ Finset.range n, q0.phi i ^ 2) ^ 2)
    (hs : ∀ e ∈ (q0 :: t0, res0) :: els, ∀ q ∈ e.1, Same 2 n q q0) :
    ∃ out, volumeResidual p 2 n ndof off ((q0 :: t0, res0) :: els) = some out ∧ out.length = els.length + 1 ∧
      ∀ (e : Nat) (pr : List (Pt K) × (Nat → K)) (r : Nat → K), ((q0 :: t0, res0) :: els)[e]? = some pr → out[e]? = some r →
        ∀ j < n, ∀ i < ndof, r (off j i) = pr.2 (off j i) + quad pr.1 (fun q => weak p 2 n q i j) := by
  obtain ⟨out, h1, h2, h3⟩ := residual_eq p 2 n ndof (Or.inl rfl) off hoff q0 t0 res0 els
  refine ⟨out, h1, h2, fun e pr r he hr j hj i hi => ?_⟩
  rw [h3 e pr r he hr j hj i hi]
  congr 1
  refine quad_congr _ (fun q hq => ?_)
  rw [used_two p n q0 q i j hj (hs pr (List.mem_of_getElem? he) q hq)]
  unfold weak
  by_cases h : p.mobile = true
  · rw [if_pos h, (C137_mobility p 2 n q0 h).1 (hm h)]
  · rw [if_neg h]

/-- C137 is false when the fields vary: the vectors into which the values are appended are never emptied, and the first entries are
read; the residual of every element of the group does not depend on the fields at any point but the first point of the first element.
For all groups and all changes of the fields elsewhere. -/
theorem C137_stale_violated (p : Par K) (dim n ndof : Nat) (hd : dim = 2 ∨ dim = 3) (off : Nat → Nat → Nat)
    (hoff : DistinctAll n (fun _ => ndof) off) (q0 : Pt K) (t0 : List (Pt K)) (res0 : Nat → K) (els : List (List (Pt K) × (Nat → K)))
    (g : Pt K → Pt K) (hg : ∀ q, (g q).wts = q.wts ∧ (g q).basis = q.basis ∧ (g q).grad = q.grad) :
    ∃ out out', volumeResidual p dim n ndof off ((q0 :: t0, res0) :: els) = some out ∧
      volumeResidual p dim n ndof off ((q0 :: t0.map g, res0) :: els.map (fun e => (e.1.map g, e.2))) = some out' ∧
      ∀ (e : Nat) (r r' : Nat → K), out[e]? = some r → out'[e]? = some r' → ∀ j < n, ∀ i < ndof, r (off j i) = r' (off j i) := by
  obtain ⟨out, h1, h2, h3⟩ := residual_eq p dim n ndof hd off hoff q0 t0 res0 els
  obtain ⟨out', h1', h2', h3'⟩ := residual_eq p dim n ndof hd off hoff q0 (t0.map g) res0 (els.map (fun e => (e.1.map g, e.2)))
  have hu : ∀ q i j, used p dim n q0 (g q) i j = used p dim n q0 q i j := by
    intro q i j
    obtain ⟨w, b, d⟩ := hg q
    unfold used adds
    rw [w, b, d]
  refine ⟨out, out', h1, h1', fun e r r' hr hr' j hj i hi => ?_⟩
  cases e with
  | zero =>
    rw [h3 0 (q0 :: t0, res0) r rfl hr j hj i hi, h3' 0 (q0 :: t0.map g, res0) r' rfl hr' j hj i hi]
    simp [quad, hu, Function.comp_def]
  | succ e =>
    have hl : e < els.length := by
      have := (List.getElem?_eq_some_iff.1 hr).1
      omega
    rw [h3 (e + 1) els[e] r (by simp [hl]) hr j hj i hi,
      h3' (e + 1) (els[e].1.map g, els[e].2) r' (by simp [hl]) hr' j hj i hi]
    simp [quad, hu, Function.comp_def]

/-- C137 is false in three dimensions: even for fields that do not vary, the factor of the reaction is four instead of sixteen; and the
option for variable mobility is ignored. -/
theorem C137_space_violated (p : Par K) (n ndof : Nat) (off : Nat → Nat → Nat)
    (hoff : DistinctAll n (fun _ => ndof) off) (q0 : Pt K) (t0 : List (Pt K)) (res0 : Nat → K) (els : List (List (Pt K) × (Nat → K)))
    (hs : ∀ e ∈ (q0 :: t0, res0) :: els, ∀ q ∈ e.1, Same 3 n q q0) :
    ∃ out, volumeResidual p 3 n ndof off ((q0 :: t0, res0) :: els) = some out ∧ out.length = els.length + 1 ∧
      ∀ (e : Nat) (pr : List (Pt K) × (Nat → K)) (r : Nat → K), ((q0 :: t0, res0) :: els)[e]? = some pr → out[e]? = some r →
        ∀ j < n, ∀ i < ndof, r (off j i) = pr.2 (off j i) + quad pr.1 (fun q => weak p 3 n q i j -
          p.L * (12 * p.A * q.phi j * (∑ i ∈ Finset.range n, q.phi i ^ 2 - q.phi j)) * q.basis i * q.wts) := by
  obtain ⟨out, h1, h2, h3⟩ := residual_eq p 3 n ndof (Or.inr rfl) off hoff q0 t0 res0 els
  refine ⟨out, h1, h2, fun e pr r he hr j hj i hi => ?_⟩
  rw [h3 e pr r he hr j hj i hi]
  congr 1
  exact quad_congr _ (fun q hq => used_three p n q0 q i j hj (hs pr (List.mem_of_getElem? he) q hq))

/-- C137 is false in one dimension: the second component of the gradient of a basis function is read, which does not exist. -/
theorem C137_line_violated (p : Par K) (n ndof : Nat) (off : Nat → Nat → Nat) (els : List (List (Pt K) × (Nat → K))) :
    volumeResidual p 1 n ndof off els = none := if_pos (by norm_num)

/-- C137, pure phases: where one phase is one and the others zero, without gradients, nothing is added: it is a steady state, in two and
three dimensions. -/
theorem C137_pure (p : Par K) (dim n ndof : Nat) (hd : dim = 2 ∨ dim = 3) (off : Nat → Nat → Nat)
    (hoff : DistinctAll n (fun _ => ndof) off) (q0 : Pt K) (t0 : List (Pt K)) (res0 : Nat → K) (els : List (List (Pt K) × (Nat → K)))
    (m : Nat) (hm : m < n) (hs : ∀ e ∈ (q0 :: t0, res0) :: els, ∀ q ∈ e.1, ∀ j < n, q.phi j = (if j = m then 1 else 0) ∧ q.dt j = 0 ∧
      ∀ c < dim, q.dphi j c = 0) :
    ∃ out, volumeResidual p dim n ndof off ((q0 :: t0, res0) :: els) = some out ∧ out.length = els.length + 1 ∧
      ∀ (e : Nat) (pr : List (Pt K) × (Nat → K)) (r : Nat → K), ((q0 :: t0, res0) :: els)[e]? = some pr → out[e]? = some r →
        ∀ j < n, ∀ i < ndof, r (off j i) = pr.2 (off j i) := by
  obtain ⟨out, h1, h2, h3⟩ := residual_eq p dim n ndof hd off hoff q0 t0 res0 els
  refine ⟨out, h1, h2, fun e pr r he hr j hj i hi => ?_⟩
  rw [h3 e pr r he hr j hj i hi]
  have h0 := hs (q0 :: t0, res0) (by simp) q0 (by simp)
  have hsum : ∀ q : Pt K, (∀ j < n, q.phi j = (if j = m then 1 else 0)) → ∑ i ∈ Finset.range n, q.phi i ^ 2 = 1 := by
    intro q hq
    rw [Finset.sum_congr rfl (fun i hi => by rw [hq i (Finset.mem_range.1 hi)]), Finset.sum_eq_single m]
    · simp
    · intro b _ hb; simp [hb]
    · intro h; exact absurd (Finset.mem_range.2 hm) h
  have hz : ∀ q ∈ pr.1, used p dim n q0 q i j = (fun _ => (0 : K)) q := by
    intro q hq
    have hq' := hs pr (List.mem_of_getElem? he) q hq
    have hsame : Same dim n q q0 := fun j hj => ⟨by rw [(hq' j hj).1, (h0 j hj).1], by rw [(hq' j hj).2.1, (h0 j hj).2.1],
      fun c hc => by rw [(hq' j hj).2.2 c hc, (h0 j hj).2.2 c hc]⟩
    have hs1 := hsum q (fun j hj => (hq' j hj).1)
    obtain ⟨g1, g2, g3⟩ := hq' j hj
    have hr : q.phi j * (1 - q.phi j) = 0 := by
      rw [g1]
      by_cases hjm : j = m <;> simp [hjm]
    rcases hd with rfl | rfl
    · rw [used_two p n q0 q i j hj hsame]
      have hdot : dot 2 (q.dphi j) (q.grad i) = 0 := by
        unfold dot; exact Finset.sum_eq_zero (fun c hc => by rw [g3 c (Finset.mem_range.1 hc), zero_mul])
      unfold reaction
      rw [hs1, hdot, g2, mul_assoc (16 * p.A), hr]
      ring
    · rw [used_three p n q0 q i j hj hsame]
      have hdot : dot 3 (q.dphi j) (q.grad i) = 0 := by
        unfold dot; exact Finset.sum_eq_zero (fun c hc => by rw [g3 c (Finset.mem_range.1 hc), zero_mul])
      unfold weak reaction
      rw [hs1, hdot, g2, mul_assoc (16 * p.A), mul_assoc (12 * p.A), hr]
      ring
  rw [quad_congr _ hz, quad_zero, add_zero]

end

/-- The energy of the phases without the part of the gradients. [specification, no code] -/
def energy [Field K] (A : K) (n : Nat) (phi : Nat → K) : K :=
  16 * A * ((∑ i ∈ Finset.range n, phi i ^ 2) ^ 2 / 4 - (∑ i ∈ Finset.range n, phi i ^ 3) / 3)

/-- C137, gradient flow: the reaction in the weak form is the derivative of the energy: changing the field of phase `j` by `s` changes
the energy by `s` times the reaction, up to a multiple of `s^2`.  For all numbers of phases. -/
theorem C137_energy [Field K] [CharZero K] (A : K) (n : Nat) (phi : Nat → K) (j : Nat) (hj : j < n) (s : K) :
    ∃ c : K, energy A n (fun i => if i = j then phi i + s else phi i) = energy A n phi + s * reaction A n phi j + s ^ 2 * c ∧
      c = 4 * A * ((2 * phi j + s) ^ 2 + 2 * ∑ i ∈ Finset.range n, phi i ^ 2) - 16 * A * (phi j + s / 3) := by
  have h2 : ∑ i ∈ Finset.range n, (if i = j then phi i + s else phi i) ^ 2 = ∑ i ∈ Finset.range n, phi i ^ 2 + (2 * phi j * s + s ^ 2) := by
    rw [← Finset.add_sum_erase _ _ (Finset.mem_range.2 hj), ← Finset.add_sum_erase (Finset.range n) (fun i => phi i ^ 2)
      (Finset.mem_range.2 hj), Finset.sum_congr rfl (fun i hi => by rw [if_neg (Finset.ne_of_mem_erase hi)]), if_pos rfl]
    ring
  have h3 : ∑ i ∈ Finset.range n, (if i = j then phi i + s else phi i) ^ 3 = ∑ i ∈ Finset.range n, phi i ^ 3 +
      (3 * phi j ^ 2 * s + 3 * phi j * s ^ 2 + s ^ 3) := by
    rw [← Finset.add_sum_erase _ _ (Finset.mem_range.2 hj), ← Finset.add_sum_erase (Finset.range n) (fun i => phi i ^ 3)
      (Finset.mem_range.2 hj), Finset.sum_congr rfl (fun i hi => by rw [if_neg (Finset.ne_of_mem_erase hi)]), if_pos rfl]
    ring
  refine ⟨_, ?_, rfl⟩
  unfold energy reaction
  rw [h2, h3]
  field_simp
  ring

/-- C137, parameters: one by default, the first entry of the parameter of the user otherwise; a parameter without entries is read past
its end. -/
theorem C137_parameters [One K] (x : K) (v : List K) :
    parameter (none : Option (List K)) = some 1 ∧ parameter (some (x :: v)) = some x ∧ parameter (some ([] : List K)) = none :=
  ⟨rfl, rfl, rfl⟩

theorem inner_eq (n : Nat) (v : Option Nat × Nat) :
    (List.range n).flatMap (fun j => if v.1 = some (j + 1) then [v.2] else []) =
      if v.1.any (fun j => decide (1 ≤ j ∧ j ≤ n)) then [v.2] else [] := by
  induction n with
  | zero =>
    cases h : v.1 with
    | none => simp
    | some j =>
      simp
      omega
  | succ n ih =>
    rw [List.range_succ, List.flatMap_append, ih]
    cases h : v.1 with
    | none => simp
    | some j =>
      by_cases h1 : j = n + 1
      · subst h1; simp
      · by_cases h2 : 1 ≤ j ∧ j ≤ n
        · have : 1 ≤ j ∧ j ≤ n + 1 := by omega
          simp [h1, h2, this]
        · have : ¬ (1 ≤ j ∧ j ≤ n + 1) := by omega
          simp [h1, h2, this]

/-- C137, equations: the positions found are those of the variables that are phases, in the order of the workset; if the phases are
there in the order of their numbers (other variables may stand between them), entry `j` is the position of phase `j + 1`. -/
theorem C137_numbers (n : Nat) (vars : List (Option Nat))
    (h : vars.filter (fun v => v.any (fun j => decide (1 ≤ j ∧ j ≤ n))) = (List.range n).map (fun j => some (j + 1))) :
    (phiNum n vars).length = n ∧ ∀ j < n, ∃ k, (phiNum n vars)[j]? = some k ∧ vars[k]? = some (some (j + 1)) := by
  have key : ∀ (vars : List (Option Nat)) (g : Nat → Option (Option Nat)) (k : Nat), (∀ i, i < vars.length → g (k + i) = vars[i]?) →
      ((vars.zipIdx k).flatMap (fun v => (List.range n).flatMap (fun j => if v.1 = some (j + 1) then [v.2] else []))).map g =
        (vars.filter (fun v => v.any (fun j => decide (1 ≤ j ∧ j ≤ n)))).map some := by
    intro vars
    induction vars with
    | nil => intro g k _; rfl
    | cons v t ih =>
      intro g k hg
      rw [List.zipIdx_cons, List.flatMap_cons, inner_eq, List.map_append, ih g (k + 1) (fun i hi => by
        have := hg (i + 1) (by simpa using hi)
        rw [show k + 1 + i = k + (i + 1) by omega, this]; simp)]
      have h0 : g k = some v := by simpa using hg 0 (by simp)
      by_cases hv : v.any (fun j => decide (1 ≤ j ∧ j ≤ n)) = true
      · rw [if_pos hv, List.filter_cons_of_pos hv]; simp [h0]
      · rw [if_neg hv, List.filter_cons_of_neg hv]; simp
  have hk := key vars (fun i => vars[i]?) 0 (fun i _ => by simp)
  rw [h] at hk
  have hk : (phiNum n vars).map (fun i => vars[i]?) = ((List.range n).map (fun j => some (j + 1))).map some := hk
  have hl : (phiNum n vars).length = n := by simpa using congrArg List.length hk
  refine ⟨hl, fun j hj => ?_⟩
  have := congrArg (fun l => l[j]?) hk
  simp [hj] at this
  obtain ⟨k, h1, h2⟩ := this
  exact ⟨k, h1, h2⟩

/-! ## Cases -/

/-- A point with two phases: values, gradients along the first axis, weight. [case] -/
def pt (a b g w : ℚ) : Pt ℚ where
  phi j := if j = 0 then a else b
  dt _ := 0
  dphi j c := if j = 0 ∧ c = 0 then g else 0
  wts := w
  basis i := if i = 0 then 1 / 3 else 2 / 3
  grad i _ := if i = 0 then -1 else 1

/-- The parameters by default. [case] -/
def par : Par ℚ := ⟨1, 1, 1, false⟩

/-- Two phases, two functions. [case] -/
def offs (j i : Nat) : Nat := 2 * j + i

theorem offs_distinct : DistinctAll 2 (fun _ => 2) offs := by
  intro i a j b hi hj ha hb h
  unfold offs at h
  simp only at ha hb
  omega

/-- Two elements with one point each; the second has other fields than the first, but its residual is computed with those of the first:
weak form 16 * 1/2 * (1/4 - 1/2) * 1/3 = -2/3, instead of 16 * 1 * (1 - 1) * 1/3 = 0. -/
example : (volumeResidual par 2 2 2 offs [([pt (1/2) 0 0 1], fun _ => 0), ([pt 1 0 0 1], fun _ => 0)]).map
      (fun l => l.map (fun r => r 0)) = some [-2/3, -2/3] ∧
    weak par 2 2 (pt (1/2) 0 0 1) 0 0 = -2/3 ∧ weak par 2 2 (pt 1 0 0 1) 0 0 = 0 := by decide +kernel

example : ∀ q ∈ [pt (1/2) 0 0 1, { pt (1/2) 0 0 (1/4) with basis := fun _ => 1 }], Same 2 2 q (pt (1/2) 0 0 1) := by
  intro q hq
  simp only [List.mem_cons, List.not_mem_nil, or_false] at hq
  rcases hq with rfl | rfl <;> exact fun j _ => ⟨rfl, rfl, fun c _ => rfl⟩

/-- In three dimensions: -1/6 instead of -2/3. -/
example : (volumeResidual par 3 2 2 offs [([pt (1/2) 0 0 1], fun _ => 0)]).map (fun l => l.map (fun r => r 0)) = some [-1/6] ∧
    weak par 3 2 (pt (1/2) 0 0 1) 0 0 = -2/3 := by decide +kernel

/-- A pure phase. -/
example : ∀ j < 2, (pt 0 1 0 1).phi j = (if j = 1 then 1 else 0) ∧ (pt 0 1 0 1).dt j = 0 ∧ ∀ c < 2, (pt 0 1 0 1).dphi j c = 0 := by
  decide +kernel

example : phiNum 2 [none, some 1, none, some 2, some 7] = [1, 3] := rfl

end MrHyDE.Modules.PhaseField
