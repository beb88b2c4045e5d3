import Verif.Subgrid.Refine.Model
import Mathlib.Algebra.Order.BigOperators.Ring.Finset
import Mathlib.Tactic.FieldSimp
import Mathlib.Tactic.Linarith
import Mathlib.Tactic.Ring
import Mathlib.Tactic.Positivity

/-!
# Uniform refinement: lemmas

Nodes on a grid coarser than the tolerance are found exactly, so the arrays of the code describe the elements one gets
from the vertices alone (`childrenOf`).
-/

set_option linter.unusedSectionVars false

namespace MrHyDE.Subgrid.Refine

variable {K : Type} {n : Nat} [Field K] [LinearOrder K] [IsStrictOrderedRing K]

/-- The coordinates are multiples of `h`.  [specification, no code] -/
def OnGrid (h : K) (p : Pt K n) : Prop := ∀ i, ∃ z : ℤ, p i = z * h

theorem near_eq {h : K} (_hh : 0 < h) {p q : Pt K n} (hp : OnGrid h p) (hq : OnGrid h q) (hd : distSq q p < h * h) :
    q = p := by
  by_contra hne
  obtain ⟨i, hi⟩ : ∃ i, q i ≠ p i := by
    by_contra hall
    push Not at hall
    exact hne (funext hall)
  obtain ⟨a, ha⟩ := hq i
  obtain ⟨b, hb⟩ := hp i
  have hab : a ≠ b := fun h => hi (by rw [ha, hb, h])
  have h1 : (q i - p i) * (q i - p i) ≤ distSq q p :=
    Finset.single_le_sum (f := fun i => (q i - p i) * (q i - p i)) (fun j _ => mul_self_nonneg _) (Finset.mem_univ i)
  have h2 : h * h ≤ (q i - p i) * (q i - p i) := by
    have e : (q i - p i) * (q i - p i) = ((a - b : ℤ) : K) * ((a - b : ℤ) : K) * (h * h) := by
      rw [ha, hb]
      push_cast
      ring
    rw [e]
    have hz : (1 : ℤ) ≤ (a - b) * (a - b) := by
      have : a - b ≠ 0 := sub_ne_zero.mpr hab
      have h0 : 0 < (a - b) * (a - b) := by
        rcases lt_or_gt_of_ne this with h | h
        · exact mul_pos_of_neg_of_neg h h
        · exact mul_pos h h
      omega
    have hz' : (1 : K) ≤ ((a - b : ℤ) : K) * ((a - b : ℤ) : K) := by exact_mod_cast hz
    nlinarith [mul_pos _hh _hh]
  exact absurd (lt_of_le_of_lt (h2.trans h1) hd) (lt_irrefl _)

/-- Nodes that are on the grid and pairwise different.  [specification, no code] -/
def Good (h : K) (nodes : List (Pt K n)) : Prop := nodes.Nodup ∧ ∀ p : Pt K n, p ∈ nodes → OnGrid h p

theorem distSq_self (p : Pt K n) : distSq p p = 0 := by simp [distSq]

theorem addNode_spec {h tol : K} (ht : 0 < tol) (hth : tol ≤ h) {nodes : List (Pt K n)} (hg : Good h nodes) {p : Pt K n}
    (hp : OnGrid h p) :
    Good h (addNode tol nodes p).1 ∧ nodes <+: (addNode tol nodes p).1 ∧
      (addNode tol nodes p).1[(addNode tol nodes p).2]? = some p := by
  have hh : 0 < h := lt_of_lt_of_le ht hth
  have htt : tol * tol ≤ h * h := mul_self_le_mul_self ht.le hth
  unfold addNode
  cases hc : checkExisting tol nodes p with
  | some k =>
    unfold checkExisting at hc
    obtain ⟨hk, h1, -⟩ := List.findIdx?_eq_some_iff_getElem.mp hc
    refine ⟨hg, List.prefix_refl _, ?_⟩
    have h2 : distSq nodes[k] p < tol * tol := by simpa using h1
    have := near_eq hh hp (hg.2 _ (List.getElem_mem hk)) (lt_of_lt_of_le h2 htt)
    simp only
    rw [List.getElem?_eq_getElem hk, this]
  | none =>
    refine ⟨⟨?_, ?_⟩, List.prefix_append _ _, by simp⟩
    · simp only
      rw [List.nodup_append]
      refine ⟨hg.1, List.nodup_singleton _, ?_⟩
      intro a ha b hb
      rw [List.mem_singleton] at hb
      subst hb
      intro hab
      subst hab
      unfold checkExisting at hc
      have := List.findIdx?_eq_none_iff.mp hc a ha
      rw [distSq_self] at this
      simp at this
      exact absurd this ht.ne'
    · intro q hq
      rcases List.mem_append.mp hq with hq | hq
      · exact hg.2 q hq
      · rw [List.mem_singleton] at hq
        exact hq ▸ hp

theorem addNodes_spec {h tol : K} (ht : 0 < tol) (hth : tol ≤ h) (ps : List (Pt K n)) {nodes : List (Pt K n)}
    (hg : Good h nodes) (hps : ∀ p : Pt K n, p ∈ ps → OnGrid h p) :
    Good h (addNodes tol nodes ps).1 ∧ nodes <+: (addNodes tol nodes ps).1 ∧
      ∀ (j : Nat) (p : Pt K n), ps[j]? = some p →
        ∃ k : Nat, (addNodes tol nodes ps).2[j]? = some k ∧ (addNodes tol nodes ps).1[k]? = some p := by
  induction ps generalizing nodes with
  | nil => exact ⟨hg, List.prefix_refl _, fun j p h => by simp at h⟩
  | cons q ps ih =>
    obtain ⟨a1, a2, a3⟩ := addNode_spec ht hth hg (hps q List.mem_cons_self)
    obtain ⟨b1, b2, b3⟩ := ih a1 (fun p hp => hps p (List.mem_cons_of_mem _ hp))
    refine ⟨b1, a2.trans b2, ?_⟩
    intro j p hj
    cases j with
    | zero =>
      simp only [List.getElem?_cons_zero, Option.some.injEq] at hj
      subst hj
      refine ⟨_, rfl, ?_⟩
      obtain ⟨t, ht'⟩ := b2
      simp only [addNodes]
      have hk : (addNode tol nodes q).2 < (addNode tol nodes q).1.length := by
        by_contra hc
        rw [List.getElem?_eq_none (by omega)] at a3
        simp at a3
      rw [← ht', List.getElem?_append_left hk, a3]
    | succ j =>
      simp only [List.getElem?_cons_succ] at hj
      exact b3 j p hj

theorem addNodes_sub (tol : K) (ps nodes : List (Pt K n)) (p : Pt K n) (hp : p ∈ (addNodes tol nodes ps).1) :
    p ∈ nodes ∨ p ∈ ps := by
  induction ps generalizing nodes with
  | nil => exact Or.inl hp
  | cons q ps ih =>
    rcases ih _ hp with h | h
    · unfold addNode at h
      cases hc : checkExisting tol nodes q with
      | some k => rw [hc] at h; exact Or.inl h
      | none =>
        rw [hc] at h
        rcases List.mem_append.mp h with h | h
        · exact Or.inl h
        · rw [List.mem_singleton] at h
          exact Or.inr (h ▸ List.mem_cons_self)
    · exact Or.inr (List.mem_cons_of_mem _ h)

/-- The node with a name, from the vertices of the parent.  [helper] -/
def node (vs : List (Pt K n)) (r : List Nat) : Pt K n := avg (r.map (fun i => vs.getD i 0))

theorem mapM_getElem {α : Type} (xs : List α) (d : α) (r : List Nat) (hr : ∀ i : Nat, i ∈ r → i < xs.length) :
    r.mapM (fun i => xs[i]?) = some (r.map (fun i => xs.getD i d)) := by
  induction r with
  | nil => rfl
  | cons i r ih =>
    have hi := hr i List.mem_cons_self
    rw [List.mapM_cons, ih (fun j hj => hr j (List.mem_cons_of_mem _ hj)), List.getElem?_eq_getElem hi]
    simp [List.getD, List.getElem?_eq_getElem hi]

theorem named_eq (vs : List (Pt K n)) (r : List Nat) (hr : ∀ i : Nat, i ∈ r → i < vs.length) :
    named vs r = some (node vs r) := by
  unfold named node
  rw [mapM_getElem vs 0 r hr]
  rfl

theorem node_single (vs : List (Pt K n)) (i : Nat) : node vs [i] = vs.getD i 0 := by
  funext j
  simp [node, avg]

/-- A table is well formed: `m` vertices, numbers of averaged vertices that divide `D`, every node of a child is a vertex
or one of the nodes added, and there is a side list for every child.  [helper] -/
def Scheme.ok (s : Scheme) (m D : Nat) : Bool :=
  s.added.all (fun r => r.all (· < m) && decide (2 ≤ r.length) && decide (r.length ∣ D)) &&
  s.children.all (fun c => decide (c.length = m) &&
    c.all (fun r => s.added.contains r || (decide (r.length = 1) && r.all (· < m)))) &&
  decide (s.cleared.length = s.children.length) && decide (0 < D)

/-- Coordinates and side maps of the children, from those of the parent.  [helper] -/
def childrenOf (s : Scheme) (c : List (Pt K n) × SideMap) : List (List (Pt K n) × SideMap) :=
  (s.children.zip s.cleared).map (fun p => (p.1.map (node c.1), clear c.2 p.2))

/-- The arrays hold an element with these vertices and this side map.  [helper] -/
def Holds (nodes : List (Pt K n)) (el : Elem) (c : List (Pt K n) × SideMap) : Prop :=
  el.conn.mapM (fun i => nodes[i]?) = some c.1 ∧ el.map = c.2

theorem mapM_prefix {α : Type} {xs ys : List α} (hp : xs <+: ys) (r : List Nat) {vs : List α}
    (h : r.mapM (fun i => xs[i]?) = some vs) : r.mapM (fun i => ys[i]?) = some vs := by
  induction r generalizing vs with
  | nil => exact h
  | cons i r ih =>
    rw [List.mapM_cons] at h ⊢
    cases hx : xs[i]? with
    | none => rw [hx] at h; simp at h
    | some x =>
      rw [hx] at h
      obtain ⟨t, rfl⟩ := hp
      have hi : i < xs.length := by
        by_contra hc
        rw [List.getElem?_eq_none (by omega)] at hx
        simp at hx
      rw [List.getElem?_append_left hi, hx]
      cases hr : r.mapM (fun i => xs[i]?) with
      | none => rw [hr] at h; simp at h
      | some ws =>
        rw [hr] at h
        rw [ih hr]
        exact h

theorem Holds.mono {xs ys : List (Pt K n)} (hp : xs <+: ys) {el : Elem} {c : List (Pt K n) × SideMap}
    (h : Holds xs el c) : Holds ys el c := ⟨mapM_prefix hp _ h.1, h.2⟩

theorem mapM_length {α β : Type} {f : α → Option β} {xs : List α} {ys : List β} (h : xs.mapM f = some ys) :
    ys.length = xs.length ∧ ∀ i : Nat, ∀ x : α, xs[i]? = some x → f x = ys[i]? := by
  induction xs generalizing ys with
  | nil =>
    simp at h
    subst h
    exact ⟨rfl, fun i x hx => by simp at hx⟩
  | cons a xs ih =>
    rw [List.mapM_cons] at h
    cases ha : f a with
    | none => rw [ha] at h; simp at h
    | some b =>
      cases hr : xs.mapM f with
      | none => rw [ha, hr] at h; simp at h
      | some bs =>
        rw [ha, hr] at h
        simp at h
        subst h
        obtain ⟨h1, h2⟩ := ih hr
        refine ⟨by simp [h1], ?_⟩
        intro i x hx
        cases i with
        | zero => simp at hx; subst hx; simpa using ha
        | succ i => simpa using h2 i x (by simpa using hx)

theorem mapM_some_of {α β : Type} (f : α → Option β) (g : α → β) (xs : List α) (h : ∀ x : α, x ∈ xs → f x = some (g x)) :
    xs.mapM f = some (xs.map g) := by
  induction xs with
  | nil => rfl
  | cons a xs ih =>
    rw [List.mapM_cons, h a List.mem_cons_self, ih (fun x hx => h x (List.mem_cons_of_mem _ hx))]
    rfl

theorem mapM_exists {α β : Type} (f : α → Option β) (R : α → β → Prop) (xs : List α)
    (h : ∀ x : α, x ∈ xs → ∃ y : β, f x = some y ∧ R x y) :
    ∃ ys : List β, xs.mapM f = some ys ∧ List.Forall₂ R xs ys := by
  induction xs with
  | nil => exact ⟨[], rfl, List.Forall₂.nil⟩
  | cons a xs ih =>
    obtain ⟨y, hy, hR⟩ := h a List.mem_cons_self
    obtain ⟨ys, hys, hRs⟩ := ih (fun x hx => h x (List.mem_cons_of_mem _ hx))
    refine ⟨y :: ys, ?_, List.Forall₂.cons hR hRs⟩
    rw [List.mapM_cons, hy, hys]
    rfl

theorem forall₂_mapM {γ : Type} {xs : List (List Nat)} {ys : List Nat} {f : Nat → Option γ} {g : List Nat → γ}
    (h : List.Forall₂ (fun r k => f k = some (g r)) xs ys) : ys.mapM f = some (xs.map g) := by
  induction h with
  | nil => rfl
  | cons h1 h2 ih =>
    rw [List.mapM_cons, h1, ih]
    rfl

theorem avg_grid {h : K} {D : Nat} (ps : List (Pt K n)) (hl : ps.length ∣ D) (h0 : 0 < D)
    (hps : ∀ p : Pt K n, p ∈ ps → OnGrid (D * h) p) : OnGrid h (avg ps) := by
  intro i
  obtain ⟨c, hc⟩ := hl
  have hsum : ∀ qs : List (Pt K n), (∀ p : Pt K n, p ∈ qs → OnGrid (D * h) p) →
      ∃ z : ℤ, (qs.map (fun p => p i)).sum = z * (D * h) := by
    intro qs
    induction qs with
    | nil => intro _; exact ⟨0, by simp⟩
    | cons q qs ih =>
      intro hq
      obtain ⟨a, ha⟩ := hq q List.mem_cons_self i
      obtain ⟨b, hb⟩ := ih (fun p hp => hq p (List.mem_cons_of_mem _ hp))
      refine ⟨a + b, ?_⟩
      rw [List.map_cons, List.sum_cons, ha, hb]
      push_cast
      ring
  obtain ⟨z, hz⟩ := hsum ps hps
  refine ⟨z * c, ?_⟩
  have hne : (ps.length : K) ≠ 0 := by
    have : ps.length ≠ 0 := by
      rintro h
      rw [h, zero_mul] at hc
      omega
    exact_mod_cast this
  unfold avg
  rw [hz, hc]
  push_cast
  field_simp

theorem grid_coarse {h : K} {D : Nat} {p : Pt K n} (hp : OnGrid (D * h) p) : OnGrid h p := by
  intro i
  obtain ⟨z, hz⟩ := hp i
  exact ⟨z * D, by rw [hz]; push_cast; ring⟩

theorem ok_spec {s : Scheme} {m D : Nat} (h : s.ok m D = true) :
    (∀ r : List Nat, r ∈ s.added → (∀ i : Nat, i ∈ r → i < m) ∧ 2 ≤ r.length ∧ r.length ∣ D) ∧
    (∀ c : List (List Nat), c ∈ s.children → c.length = m ∧
      ∀ r : List Nat, r ∈ c → r ∈ s.added ∨ ∃ i : Nat, r = [i] ∧ i < m) ∧
    s.cleared.length = s.children.length ∧ 0 < D := by
  unfold Scheme.ok at h
  simp only [Bool.and_eq_true, List.all_eq_true, decide_eq_true_eq, Bool.or_eq_true, List.contains_iff_mem] at h
  obtain ⟨⟨⟨h1, h2⟩, h3⟩, h4⟩ := h
  refine ⟨fun r hr => ⟨(h1 r hr).1.1, (h1 r hr).1.2, (h1 r hr).2⟩, fun c hc => ⟨(h2 c hc).1, fun r hr => ?_⟩, h3, h4⟩
  rcases (h2 c hc).2 r hr with h | ⟨h5, h6⟩
  · exact Or.inl h
  · obtain ⟨i, rfl⟩ := List.length_eq_one_iff.mp h5
    exact Or.inr ⟨i, rfl, h6 i (by simp)⟩

/-- What one call does: the nodes stay good, and the new elements are the children. -/
theorem refineSubCell_spec {s : Scheme} {mv D : Nat} (hs : s.ok mv D = true) {h tol : K} (ht : 0 < tol) (hth : tol ≤ h)
    {m : Mesh K n} {e : Nat} {el : Elem} {c : List (Pt K n) × SideMap} (he : m.elems[e]? = some el)
    (hc : Holds m.nodes el c) (hl : c.1.length = mv) (hgrid : ∀ p : Pt K n, p ∈ c.1 → OnGrid (D * h) p)
    (hg : Good h m.nodes) :
    ∃ (ns : List (Pt K n)) (els : List Elem), refineSubCell s tol m e = some ⟨ns, m.elems ++ els⟩ ∧
      m.nodes <+: ns ∧ Good h ns ∧ List.Forall₂ (Holds ns) els (childrenOf s c) ∧
      ∀ p : Pt K n, p ∈ ns → p ∈ m.nodes ∨ p ∈ s.added.map (node c.1) := by
  obtain ⟨hadd, hch, hlen, hD⟩ := ok_spec hs
  have hcand : s.added.mapM (named c.1) = some (s.added.map (node c.1)) :=
    mapM_some_of _ _ _ fun r hr => named_eq _ _ fun i hi => hl ▸ (hadd r hr).1 i hi
  have hgetD : ∀ i : Nat, i < mv → c.1.getD i 0 ∈ c.1 := by
    intro i hi
    rw [List.getD_eq_getElem?_getD, List.getElem?_eq_getElem (hl ▸ hi)]
    exact List.getElem_mem _
  have hcg : ∀ p : Pt K n, p ∈ s.added.map (node c.1) → OnGrid h p := by
    intro p hp
    obtain ⟨r, hr, rfl⟩ := List.mem_map.mp hp
    refine avg_grid (D := D) _ (by simpa using (hadd r hr).2.2) hD ?_
    intro q hq
    obtain ⟨i, hi, rfl⟩ := List.mem_map.mp hq
    exact hgrid _ (hgetD i ((hadd r hr).1 i hi))
  obtain ⟨a1, a2, a3⟩ := addNodes_spec ht hth (s.added.map (node c.1)) hg hcg
  set A := addNodes tol m.nodes (s.added.map (node c.1)) with hA
  obtain ⟨hvl, hvi⟩ := mapM_length hc.1
  -- references
  have href : ∀ r : List Nat, (r ∈ s.added ∨ ∃ i : Nat, r = [i] ∧ i < mv) →
      ∃ k : Nat, ref s el.conn A.2 r = some k ∧ A.1[k]? = some (node c.1 r) := by
    intro r hr
    rcases hr with hr | ⟨i, rfl, hi⟩
    · have hlt : s.added.idxOf r < s.added.length := List.idxOf_lt_length_iff.mpr hr
      have hget : (s.added.map (node c.1))[s.added.idxOf r]? = some (node c.1 r) := by
        rw [List.getElem?_map, List.getElem?_eq_getElem hlt, List.getElem_idxOf]
        rfl
      obtain ⟨k, h1, h2⟩ := a3 _ _ hget
      refine ⟨k, ?_, h2⟩
      have h3 : ref s el.conn A.2 r = A.2[s.added.idxOf r]? := by
        have h2r := (hadd r hr).2.1
        match r, h2r with
        | a :: b :: r, _ => rfl
      rw [h3, h1]
    · have hi' : i < el.conn.length := by omega
      refine ⟨el.conn[i], ?_, ?_⟩
      · simp [ref, List.getElem?_eq_getElem hi']
      · have h1 := hvi i el.conn[i] (List.getElem?_eq_getElem hi')
        have hk : el.conn[i] < m.nodes.length := by
          by_contra hcon
          rw [List.getElem?_eq_none (by omega), List.getElem?_eq_getElem (by omega)] at h1
          simp at h1
        obtain ⟨t, ht'⟩ := a2
        rw [← ht', List.getElem?_append_left hk, h1, node_single, List.getD_eq_getElem?_getD,
          List.getElem?_eq_getElem (by omega)]
        rfl
  obtain ⟨conns, hconns, hR⟩ := mapM_exists (fun cc => cc.mapM (ref s el.conn A.2))
    (fun (cc : List (List Nat)) (cn : List Nat) => cn.mapM (fun i => A.1[i]?) = some (cc.map (node c.1)))
    s.children (by
      intro cc hcc
      obtain ⟨ks, h1, h2⟩ := mapM_exists (ref s el.conn A.2) (fun r k => A.1[k]? = some (node c.1 r)) cc
        (fun r hr => href r ((hch cc hcc).2 r hr))
      exact ⟨ks, h1, forall₂_mapM h2⟩)
  refine ⟨A.1, (conns.zip (s.cleared.map (clear el.map))).map (fun p => ⟨p.1, p.2⟩), ?_, a2, a1, ?_,
    fun p hp => addNodes_sub _ _ _ p hp⟩
  · unfold refineSubCell
    simp only [he, Option.bind_eq_bind, Option.bind_some, hc.1, hcand]
    rw [← hA, hconns]
    rfl
  · unfold childrenOf
    have hmap := hc.2
    clear hconns hcand hA
    have : ∀ (cs : List (List (List Nat))) (cl : List (List Nat)) (cn : List (List Nat)), cl.length = cs.length →
        List.Forall₂ (fun (cc : List (List Nat)) (cn : List Nat) =>
          cn.mapM (fun i => A.1[i]?) = some (cc.map (node c.1))) cs cn →
        List.Forall₂ (Holds A.1) ((cn.zip (cl.map (clear el.map))).map (fun p => (⟨p.1, p.2⟩ : Elem)))
          ((cs.zip cl).map (fun p => (p.1.map (node c.1), clear c.2 p.2))) := by
      intro cs
      induction cs with
      | nil => intro cl cn h1 h2; cases h2; simp
      | cons a cs ih =>
        intro cl cn h1 h2
        cases h2 with
        | cons h3 h4 =>
          cases cl with
          | nil => simp at h1
          | cons b cl =>
            simp only [List.map_cons, List.zip_cons_cons]
            exact List.Forall₂.cons ⟨h3, by rw [hmap]⟩ (ih cl _ (by simpa using h1) h4)
    exact this _ _ _ hlen hR

/-- The elements of a list are described by vertices with the right number and on the grid.  [helper] -/
def Described (h : K) (mv : Nat) (nodes : List (Pt K n)) (els : List Elem) (L : List (List (Pt K n) × SideMap)) : Prop :=
  List.Forall₂ (Holds nodes) els L ∧ ∀ c : List (Pt K n) × SideMap, c ∈ L → c.1.length = mv ∧
    ∀ p : Pt K n, p ∈ c.1 → OnGrid h p

theorem childrenOf_good {s : Scheme} {mv D : Nat} (hs : s.ok mv D = true) {h : K} {c : List (Pt K n) × SideMap}
    (hl : c.1.length = mv) (hgrid : ∀ p : Pt K n, p ∈ c.1 → OnGrid (D * h) p) :
    ∀ c' : List (Pt K n) × SideMap, c' ∈ childrenOf s c → c'.1.length = mv ∧ ∀ p : Pt K n, p ∈ c'.1 → OnGrid h p := by
  obtain ⟨hadd, hch, hlen, hD⟩ := ok_spec hs
  intro c' hc'
  obtain ⟨p, hp, rfl⟩ := List.mem_map.mp hc'
  have hp1 := (List.of_mem_zip hp).1
  refine ⟨by simpa using (hch _ hp1).1, ?_⟩
  intro q hq
  obtain ⟨r, hr, rfl⟩ := List.mem_map.mp hq
  have hgetD : ∀ i : Nat, i < mv → c.1.getD i 0 ∈ c.1 := by
    intro i hi
    rw [List.getD_eq_getElem?_getD, List.getElem?_eq_getElem (hl ▸ hi)]
    exact List.getElem_mem _
  rcases (hch _ hp1).2 r hr with h1 | ⟨i, rfl, hi⟩
  · refine avg_grid (D := D) _ (by simpa using (hadd r h1).2.2) hD ?_
    intro q hq
    obtain ⟨i, hi, rfl⟩ := List.mem_map.mp hq
    exact hgrid _ (hgetD i ((hadd r h1).1 i hi))
  · rw [node_single]
    exact grid_coarse (hgrid _ (hgetD i hi))

theorem forall₂_mono {xs ys : List (Pt K n)} (hp : xs <+: ys) {els : List Elem} {L : List (List (Pt K n) × SideMap)}
    (h : List.Forall₂ (Holds xs) els L) : List.Forall₂ (Holds ys) els L := h.imp fun _ _ h => h.mono hp

theorem refineAll_spec {s : Scheme} {mv D : Nat} (hs : s.ok mv D = true) {h tol : K} (ht : 0 < tol) (hth : tol ≤ h)
    {m : Mesh K n} {L : List (List (Pt K n) × SideMap)} (hd : Described (D * h) mv m.nodes m.elems L)
    (hg : Good (D * h) m.nodes) :
    ∃ m' : Mesh K n, refineAll s tol m = some m' ∧ m.nodes <+: m'.nodes ∧ Good h m'.nodes ∧
      Described h mv m'.nodes m'.elems (L.flatMap (childrenOf s)) ∧
      ∀ p : Pt K n, p ∈ m'.nodes → p ∈ m.nodes ∨ ∃ c : List (Pt K n) × SideMap, c ∈ L ∧ p ∈ s.added.map (node c.1) := by
  have hg' : Good h m.nodes := ⟨hg.1, fun p hp => grid_coarse (hg.2 p hp)⟩
  have hlenL : m.elems.length = L.length := hd.1.length_eq
  have key : ∀ k : Nat, k ≤ m.elems.length → ∃ (ns : List (Pt K n)) (out : List Elem),
      (List.range k).foldlM (refineSubCell s tol) m = some ⟨ns, m.elems ++ out⟩ ∧ m.nodes <+: ns ∧ Good h ns ∧
      List.Forall₂ (Holds ns) out ((L.take k).flatMap (childrenOf s)) ∧
      ∀ p : Pt K n, p ∈ ns → p ∈ m.nodes ∨ ∃ c : List (Pt K n) × SideMap, c ∈ L ∧ p ∈ s.added.map (node c.1) := by
    intro k
    induction k with
    | zero =>
      intro _
      refine ⟨m.nodes, [], ?_, List.prefix_refl _, hg', by simp, fun p hp => Or.inl hp⟩
      simp
    | succ k ih =>
      intro hk
      obtain ⟨ns, out, h1, h2, h3, h4, h5⟩ := ih (by omega)
      have hkL : k < L.length := by omega
      have hHolds : Holds ns m.elems[k] L[k] :=
        ((List.forall₂_iff_get.mp hd.1).2 k (by omega) hkL).mono h2
      have hmem : L[k] ∈ L := List.getElem_mem _
      obtain ⟨ns', els, g1, g2, g3, g4, g5⟩ := refineSubCell_spec hs ht hth (m := ⟨ns, m.elems ++ out⟩) (e := k)
        (by simp only; rw [List.getElem?_append_left (by omega), List.getElem?_eq_getElem (by omega)]) hHolds
        (hd.2 _ hmem).1 (hd.2 _ hmem).2 h3
      refine ⟨ns', out ++ els, ?_, h2.trans g2, g3, ?_, ?_⟩
      · rw [List.range_succ, List.foldlM_append, h1]
        simp only [Option.bind_eq_bind, Option.bind_some, List.foldlM_cons, List.foldlM_nil, g1, List.append_assoc]
        rfl
      · rw [List.take_succ_eq_append_getElem hkL, List.flatMap_append, List.flatMap_singleton]
        exact List.rel_append (forall₂_mono g2 h4) g4
      · intro p hp
        rcases g5 p hp with h | h
        · exact h5 p h
        · exact Or.inr ⟨_, hmem, h⟩
  obtain ⟨ns, out, h1, h2, h3, h4, h5⟩ := key _ le_rfl
  rw [hlenL, List.take_length] at h4
  refine ⟨⟨ns, out⟩, ?_, h2, h3, ⟨h4, ?_⟩, h5⟩
  · unfold refineAll
    rw [h1]
    simp
  · intro c hc
    obtain ⟨p, hp, hcp⟩ := List.mem_flatMap.mp hc
    exact childrenOf_good hs (hd.2 p hp).1 (hd.2 p hp).2 c hcp

/-- Every vertex and every added node is a node of some child.  [helper] -/
def Scheme.uses (s : Scheme) (m : Nat) : Bool :=
  (List.range m).all (fun i => s.children.any (fun c => c.contains [i])) &&
  s.added.all (fun r => s.children.any (fun c => c.contains r))

/-- Every node is a vertex of an element.  [specification, no code] -/
def NoOrphans (nodes : List (Pt K n)) (L : List (List (Pt K n) × SideMap)) : Prop :=
  ∀ p : Pt K n, p ∈ nodes → ∃ c : List (Pt K n) × SideMap, c ∈ L ∧ p ∈ c.1

theorem child_of_mem {s : Scheme} (hlen : s.cleared.length = s.children.length) {c : List (Pt K n) × SideMap}
    {r : List Nat} (h : s.children.any (fun c => c.contains r) = true) :
    ∃ c' : List (Pt K n) × SideMap, c' ∈ childrenOf s c ∧ node c.1 r ∈ c'.1 := by
  obtain ⟨cc, hcc, hr⟩ := List.any_eq_true.mp h
  rw [List.contains_iff_mem] at hr
  obtain ⟨i, hi, rfl⟩ := List.mem_iff_getElem.mp hcc
  have hz : i < (s.children.zip s.cleared).length := by
    rw [List.length_zip]
    omega
  refine ⟨_, List.mem_map.mpr ⟨(s.children.zip s.cleared)[i], List.getElem_mem hz, rfl⟩, ?_⟩
  rw [List.getElem_zip]
  exact List.mem_map.mpr ⟨r, hr, rfl⟩

theorem noOrphans_step {s : Scheme} {mv D : Nat} (hs : s.ok mv D = true) (hu : s.uses mv = true)
    {nodes nodes' : List (Pt K n)} {L : List (List (Pt K n) × SideMap)}
    (hl : ∀ c : List (Pt K n) × SideMap, c ∈ L → c.1.length = mv) (h0 : NoOrphans nodes L)
    (h : ∀ p : Pt K n, p ∈ nodes' → p ∈ nodes ∨ ∃ c : List (Pt K n) × SideMap, c ∈ L ∧ p ∈ s.added.map (node c.1)) :
    NoOrphans nodes' (L.flatMap (childrenOf s)) := by
  have hlen := (ok_spec hs).2.2.1
  unfold Scheme.uses at hu
  rw [Bool.and_eq_true, List.all_eq_true, List.all_eq_true] at hu
  intro p hp
  rcases h p hp with h1 | ⟨c, hc, h1⟩
  · obtain ⟨c, hc, h2⟩ := h0 p h1
    obtain ⟨i, hi, rfl⟩ := List.mem_iff_getElem.mp h2
    obtain ⟨c', h3, h4⟩ := child_of_mem hlen (c := c) (hu.1 i (List.mem_range.mpr (hl c hc ▸ hi)))
    refine ⟨c', List.mem_flatMap.mpr ⟨c, hc, h3⟩, ?_⟩
    rw [node_single, List.getD_eq_getElem?_getD, List.getElem?_eq_getElem hi] at h4
    exact h4
  · obtain ⟨r, hr, rfl⟩ := List.mem_map.mp h1
    obtain ⟨c', h3, h4⟩ := child_of_mem hlen (c := c) (hu.2 r hr)
    exact ⟨c', List.mem_flatMap.mpr ⟨c, hc, h3⟩, h4⟩

/-- The elements after some refinements.  [helper] -/
def levels (s : Scheme) : Nat → List (List (Pt K n) × SideMap) → List (List (Pt K n) × SideMap)
  | 0, L => L
  | r + 1, L => levels s r (L.flatMap (childrenOf s))

theorem levels_succ (s : Scheme) (r : Nat) (L : List (List (Pt K n) × SideMap)) :
    levels s (r + 1) L = (levels s r L).flatMap (childrenOf s) := by
  induction r generalizing L with
  | zero => rfl
  | succ r ih => rw [levels, ih]; rfl

theorem refineTimes_spec {s : Scheme} {mv D : Nat} (hs : s.ok mv D = true) {tol : K} (ht : 0 < tol) (r : Nat) {h : K}
    (hth : tol ≤ h) {m : Mesh K n} {L : List (List (Pt K n) × SideMap)}
    (hd : Described ((D : K) ^ r * h) mv m.nodes m.elems L) (hg : Good ((D : K) ^ r * h) m.nodes) :
    ∃ m' : Mesh K n, refineTimes s tol r m = some m' ∧ m.nodes <+: m'.nodes ∧ Good h m'.nodes ∧
      Described h mv m'.nodes m'.elems (levels s r L) ∧
      (s.uses mv = true → NoOrphans m.nodes L → NoOrphans m'.nodes (levels s r L)) := by
  have hD : 1 ≤ D := (ok_spec hs).2.2.2
  induction r generalizing m L with
  | zero =>
    rw [pow_zero, one_mul] at hd hg
    exact ⟨m, rfl, List.prefix_refl _, hg, hd, fun _ h => h⟩
  | succ r ih =>
    have e : (D : K) ^ (r + 1) * h = D * ((D : K) ^ r * h) := by ring
    rw [e] at hd hg
    have hle : tol ≤ (D : K) ^ r * h := by
      have h1 : (1 : K) ≤ (D : K) ^ r := one_le_pow₀ (by exact_mod_cast hD)
      have h0 : 0 ≤ h := ht.le.trans hth
      nlinarith
    obtain ⟨m1, a1, a2, a3, a4, a5⟩ := refineAll_spec hs ht hle hd hg
    obtain ⟨m2, b1, b2, b3, b4, b5⟩ := ih a4 a3
    refine ⟨m2, ?_, a2.trans b2, b3, b4,
      fun hu h0 => b5 hu (noOrphans_step hs hu (fun c hc => (hd.2 c hc).1) h0 a5)⟩
    unfold refineTimes
    rw [a1]
    exact b1

end MrHyDE.Subgrid.Refine
