import Verif.Mass.Model
import Mathlib.Algebra.BigOperators.Ring.List
import Mathlib.Algebra.BigOperators.Ring.Finset
import Mathlib.Tactic.Ring
import Mathlib.Data.List.Nodup

set_option linter.unusedSectionVars false

namespace MrHyDE.Mass

variable {K : Type}

theorem mem_enum {A : Type} (l : List A) (a : A) (i : Nat) (h : (a, i) ∈ enum l) : l[i]? = some a := by
  unfold enum at h
  rw [List.mem_iff_getElem] at h
  obtain ⟨k, hk, e⟩ := h
  simp only [List.getElem_zip, List.getElem_range, Prod.mk.injEq] at e
  obtain ⟨e1, rfl⟩ := e
  rw [← e1]
  exact List.getElem?_eq_getElem _

theorem enum_map_fst {A : Type} (l : List A) : (enum l).map (·.1) = l := by
  unfold enum
  rw [List.map_fst_zip]
  simp

section
variable [CommRing K]

theorem foldl_sum {A : Type} (f : A → K) : ∀ (l : List A) (s : K), l.foldl (fun s a => s + f a) s = s + (l.map f).sum := by
  intro l
  induction l with
  | nil => intro s; simp
  | cons a t ih => intro s; rw [List.foldl_cons, ih, List.map_cons, List.sum_cons]; ring

theorem foldl_plain (l : List K) (s : K) : l.foldl (fun s v => s + v) s = s + l.sum := by
  have := foldl_sum (fun v : K => v) l s
  simpa using this

theorem foldl_addV {A : Type} (r : A → Nat) (f : A → K) : ∀ (l : List A) (y : Nat → K) (q : Nat),
    l.foldl (fun y a => addV y (r a) (f a)) y q = y q + (l.map (fun a => if r a = q then f a else 0)).sum := by
  intro l
  induction l with
  | nil => intro y q; simp
  | cons a t ih =>
    intro y q
    rw [List.foldl_cons, ih, List.map_cons, List.sum_cons]
    unfold addV
    by_cases h : q = r a
    · rw [if_pos h, if_pos h.symm]; ring
    · rw [if_neg h, if_neg (fun e => h e.symm)]; ring

theorem foldl_addTo {A : Type} (r c : A → Nat) (f : A → K) : ∀ (l : List A) (m : Nat → Nat → K) (p q : Nat),
    l.foldl (fun m a => addTo m (r a) (c a) (f a)) m p q = m p q + (l.map (fun a => if r a = p ∧ c a = q then f a else 0)).sum := by
  intro l
  induction l with
  | nil => intro m p q; simp
  | cons a t ih =>
    intro m p q
    rw [List.foldl_cons, ih, List.map_cons, List.sum_cons]
    unfold addTo
    by_cases h : p = r a ∧ q = c a
    · rw [if_pos h, if_pos ⟨h.1.symm, h.2.symm⟩]; ring
    · rw [if_neg h, if_neg (fun e => h ⟨e.1.symm, e.2.symm⟩)]; ring

theorem foldl_addTo_terms (m : Nat → Nat → K) (r c : Nat) (l : List K) :
    l.foldl (fun m v => addTo m r c v) m = addTo m r c l.sum := by
  funext p q
  rw [foldl_addTo (fun _ => r) (fun _ => c) (fun v : K => v)]
  unfold addTo
  by_cases h : p = r ∧ q = c
  · rw [if_pos h]
    simp [h]
  · rw [if_neg h]
    have : ∀ v ∈ l, (if r = p ∧ c = q then v else 0) = (0 : K) := by
      intro v _
      rw [if_neg (fun e => h ⟨e.1.symm, e.2.symm⟩)]
    rw [List.map_congr_left this]
    simp

/-- Entries of the local matrix. -/
theorem localMass_apply (mwt : Nat → K) (E : Elem K) (p q : Nat) :
    localMass mwt E p q = ((pairs E.vars).map (fun t => if t.2.2.2.1 = p ∧ t.2.2.2.2 = q then (terms mwt E t.1 t.2.1 t.2.2.1).sum
      else 0)).sum := by
  unfold localMass
  have : (fun (m : Nat → Nat → K) (p : Nat × Nat × Nat × Nat × Nat) =>
      (terms mwt E p.1 p.2.1 p.2.2.1).foldl (fun m v => addTo m p.2.2.2.1 p.2.2.2.2 v) m) =
      fun m p => addTo m p.2.2.2.1 p.2.2.2.2 (terms mwt E p.1 p.2.1 p.2.2.1).sum := by
    funext m p
    exact foldl_addTo_terms _ _ _ _
  rw [this, foldl_addTo]
  ring

theorem mem_pairs (vars : List (List Nat)) (t : Nat × Nat × Nat × Nat × Nat) (h : t ∈ pairs vars) :
    ∃ v, vars[t.1]? = some v ∧ v[t.2.1]? = some t.2.2.2.1 ∧ v[t.2.2.1]? = some t.2.2.2.2 := by
  unfold pairs at h
  rw [List.mem_flatMap] at h
  obtain ⟨v, hv, h⟩ := h
  rw [List.mem_flatMap] at h
  obtain ⟨a, ha, h⟩ := h
  rw [List.mem_map] at h
  obtain ⟨b, hb, rfl⟩ := h
  exact ⟨v.1, mem_enum _ _ _ hv, mem_enum _ _ _ ha, mem_enum _ _ _ hb⟩

theorem enum_nodup {A : Type} (l : List A) : (enum l).Nodup := by
  unfold enum
  have : ((l.zip (List.range l.length)).map (·.2)).Nodup := by
    rw [List.map_snd_zip (by simp)]
    exact List.nodup_range
  exact List.Nodup.of_map _ this

theorem pairs_nodup (vars : List (List Nat)) : (pairs vars).Nodup := by
  unfold pairs
  rw [List.nodup_flatMap]
  constructor
  · intro v _
    rw [List.nodup_flatMap]
    constructor
    · intro a _
      refine List.Nodup.map ?_ (enum_nodup _)
      intro b b' h
      simp only [Prod.mk.injEq] at h
      exact Prod.ext h.2.2.2.2 h.2.2.1
    · refine List.Pairwise.imp ?_ (enum_nodup v.1)
      intro a a' hne t h1 h2
      rw [List.mem_map] at h1 h2
      obtain ⟨b, _, rfl⟩ := h1
      obtain ⟨b', _, e⟩ := h2
      simp only [Prod.mk.injEq] at e
      exact hne (Prod.ext e.2.2.2.1.symm e.2.1.symm)
  · have h : ((enum vars).map (·.2)).Nodup := by
      unfold enum
      rw [List.map_snd_zip (by simp)]
      exact List.nodup_range
    have h' : (enum vars).Pairwise (fun a b => a.2 ≠ b.2) := List.pairwise_map.1 h
    refine List.Pairwise.imp ?_ h'
    intro v v' hne t h1 h2
    rw [List.mem_flatMap] at h1 h2
    obtain ⟨a, _, h1⟩ := h1
    obtain ⟨a', _, h2⟩ := h2
    rw [List.mem_map] at h1 h2
    obtain ⟨b, _, rfl⟩ := h1
    obtain ⟨b', _, e⟩ := h2
    simp only [Prod.mk.injEq] at e
    exact hne e.1.symm

/-- Positions of different degrees of freedom differ. [specification, no code] -/
def Distinct (vars : List (List Nat)) : Prop := vars.flatten.Nodup

theorem distinct_pos (vars : List (List Nat)) (h : Distinct vars) (n n' i i' : Nat) (v v' : List Nat) (a : Nat)
    (h1 : vars[n]? = some v) (h2 : v[i]? = some a) (h1' : vars[n']? = some v') (h2' : v'[i']? = some a) :
    n = n' ∧ i = i' := by
  unfold Distinct at h
  rw [List.nodup_flatten] at h
  have hn : n = n' := by
    by_contra hne
    have hd : ∀ (n n' : Nat) (v v' : List Nat), vars[n]? = some v → vars[n']? = some v' → n < n' → List.Disjoint v v' := by
      intro n n' v v' e e' hlt
      rw [List.getElem?_eq_some_iff] at e e'
      obtain ⟨l1, rfl⟩ := e
      obtain ⟨l2, rfl⟩ := e'
      exact List.pairwise_iff_getElem.1 h.2 n n' l1 l2 hlt
    rcases Nat.lt_or_gt_of_ne hne with hlt | hlt
    · exact hd n n' v v' h1 h1' hlt (List.mem_of_getElem? h2) (List.mem_of_getElem? h2')
    · exact hd n' n v' v h1' h1 hlt (List.mem_of_getElem? h2') (List.mem_of_getElem? h2)
  subst hn
  rw [h1] at h1'
  have := Option.some.inj h1'
  subst this
  refine ⟨rfl, ?_⟩
  have hv := h.1 v (List.mem_of_getElem? h1)
  rw [List.getElem?_eq_some_iff] at h2 h2'
  obtain ⟨l1, e1⟩ := h2
  obtain ⟨l2, e2⟩ := h2'
  exact (List.Nodup.getElem_inj_iff hv).1 (e1.trans e2.symm)

theorem sum_single {A : Type} (f : A → K) (P : A → Prop) [DecidablePred P] : ∀ (l : List A) (a : A), l.Nodup → a ∈ l → P a →
    (∀ b ∈ l, P b → b = a) → (l.map (fun x => if P x then f x else 0)).sum = f a := by
  intro l
  induction l with
  | nil => intro a _ h; simp at h
  | cons b t ih =>
    intro a hn hm hp hu
    rw [List.map_cons, List.sum_cons]
    rw [List.nodup_cons] at hn
    by_cases hb : b = a
    · subst hb
      rw [if_pos hp]
      have : ∀ x ∈ t, (if P x then f x else 0) = (0 : K) := by
        intro x hx
        rw [if_neg]
        intro hpx
        have := hu x (List.mem_cons_of_mem _ hx) hpx
        rw [this] at hx
        exact hn.1 hx
      rw [List.map_congr_left this]
      simp
    · have hnp : ¬ P b := fun h => hb (hu b (by simp) h)
      rw [if_neg hnp, zero_add]
      rcases List.mem_cons.1 hm with rfl | hm
      · exact absurd rfl hb
      · exact ih a hn.2 hm hp (fun c hc => hu c (List.mem_cons_of_mem _ hc))

/-- With distinct positions an entry of the local matrix is the sum over points and components. -/
theorem localMass_entry (mwt : Nat → K) (E : Elem K) (hd : Distinct E.vars) (t : Nat × Nat × Nat × Nat × Nat)
    (ht : t ∈ pairs E.vars) : localMass mwt E t.2.2.2.1 t.2.2.2.2 = (terms mwt E t.1 t.2.1 t.2.2.1).sum := by
  rw [localMass_apply]
  refine sum_single (fun t => (terms mwt E t.1 t.2.1 t.2.2.1).sum) (fun s => s.2.2.2.1 = t.2.2.2.1 ∧ s.2.2.2.2 = t.2.2.2.2)
    _ t (pairs_nodup _) ht ⟨rfl, rfl⟩ ?_
  intro s hs ⟨e1, e2⟩
  obtain ⟨v, a1, a2, a3⟩ := mem_pairs _ _ hs
  obtain ⟨v', b1, b2, b3⟩ := mem_pairs _ _ ht
  rw [e1] at a2
  rw [e2] at a3
  obtain ⟨c1, c2⟩ := distinct_pos _ hd _ _ _ _ _ _ _ a1 a2 b1 b2
  obtain ⟨_, c3⟩ := distinct_pos _ hd _ _ _ _ _ _ _ a1 a3 b1 b3
  exact Prod.ext c1 (Prod.ext c2 (Prod.ext c3 (Prod.ext e1 e2)))

/-- Product of a list of additions with a vector. -/
theorem triples_product {A : Type} (r c : A → Nat) (f : A → K) (N : Nat) (x : Nat → K) (l : List A) (hc : ∀ a ∈ l, c a < N) (p : Nat) :
    ∑ q ∈ Finset.range N, (l.map (fun a => if r a = p ∧ c a = q then f a else 0)).sum * x q =
      (l.map (fun a => if r a = p then f a * x (c a) else 0)).sum := by
  induction l with
  | nil => simp
  | cons a t ih =>
    simp only [List.map_cons, List.sum_cons, add_mul]
    rw [Finset.sum_add_distrib, ih (fun b hb => hc b (List.mem_cons_of_mem _ hb))]
    congr 1
    by_cases h : r a = p
    · rw [if_pos h]
      rw [Finset.sum_eq_single (c a)]
      · rw [if_pos ⟨h, rfl⟩]
      · intro b _ hb
        rw [if_neg (fun e => hb e.2.symm), zero_mul]
      · intro hn
        exact absurd (Finset.mem_range.2 (hc a (by simp))) hn
    · rw [if_neg h]
      apply Finset.sum_eq_zero
      intro q _
      rw [if_neg (fun e => h e.1), zero_mul]

end

end MrHyDE.Mass
