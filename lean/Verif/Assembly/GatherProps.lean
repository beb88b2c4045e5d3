import Verif.Assembly.GatherLemmas
import Mathlib.Algebra.Field.Rat
import Mathlib.Tactic.NormNum

/-! # Gather: properties -/

namespace MrHyDE.Assembly.Gather

open MrHyDE.Time

/-- C38, gather: whatever the tables held before and in whatever order the elements are treated, after the gather of a
group the table of every physics set holds the entries of the vector meant for it at the local numbers of this group:
the stage solution for the current set, the solution for the others, and for the current set all earlier stages and all
previous steps. -/
theorem C38_gather {K : Type} [Zero K] (L : Layout) (g : Group) (order : List Nat) (cur stage : Nat) (V : Vecs K)
    (ho : order.Perm (List.range g.nelem)) (hfit : Fits L cur V g) (hs : stage < V.stages.length) (D : Data K) :
    ∃ D', gatherAll L g order cur stage V D = some D' ∧
      (∀ i vec, i ≠ cur → V.sol[i]? = some vec → Holds L i g vec (D'.sol i)) ∧
      Holds L cur g V.stages[stage] (D'.sol cur) ∧
      (∀ j vec, j < stage → V.stages[j]? = some vec → Holds L cur g vec (D'.stage cur j)) ∧
      (∀ j vec, V.prevs[j]? = some vec → Holds L cur g vec (D'.prev cur j)) :=
  gatherAll_spec L g order cur stage V ho hfit hs D

/-- C38, steady gather. -/
theorem C38_gather_steady {K : Type} [Zero K] (L : Layout) (g : Group) (order : List Nat) (V : Vecs K)
    (ho : order.Perm (List.range g.nelem)) (hfit : ∀ i vec, V.sol[i]? = some vec → InRange L i g vec) (D : Data K) :
    ∃ D', gatherSteady L g order V D = some D' ∧ ∀ i vec, V.sol[i]? = some vec → Holds L i g vec (D'.sol i) := by
  obtain ⟨D', h1, h2, _⟩ := loop_sol L g order ho (indexed V.sol) D (indexed_nodup _) (by
    rintro ⟨i, vec⟩ hx
    exact hfit i vec ((mem_indexed _ _ _).1 hx))
  exact ⟨D', h1, fun i vec hv => h2 (i, vec) ((mem_indexed _ _ _).2 hv)⟩

/-- C38: a local number outside the vector is an access out of bounds, never a wrong value. -/
theorem C38_out_of_range {K : Type} (L : Layout) (set : Nat) (g : Group) (vec : List K) (order : List Nat)
    (ho : order.Perm (List.range g.nelem)) (t : Table K) (h : ¬ InRange L set g vec) :
    gather L set g vec order t = none := by
  unfold InRange at h
  push Not at h
  obtain ⟨e, v, d, he, hv, hd, hb⟩ := h
  exact gather_out L set g vec order ho t e v d he hv hd hb

variable {K : Type} [Field K]

/-- C38, partial: after preparing a group the coefficients of every variable of every set, and the time derivatives of
the variables of the current set, are those of the elements of this group, whatever was there before.  Missing: the time
derivatives of the other sets (`C38_other_set_derivative`). -/
theorem C38_coefficients_partial (L : Layout) (T : Tableau K) (bdf : List K) (dt : K) (cur stage : Nat) (V : Vecs K)
    (g : Group) (order : List Nat) (ho : order.Perm (List.range g.nelem)) (hfit : Fits L cur V g)
    (hs : stage < V.stages.length) (hp : 1 ≤ V.prevs.length) (hb : bdf.length - 1 ≤ V.prevs.length)
    (hn : V.sol.length = L.nsets) (hc : cur < L.nsets) (S : Data K × Coef K) :
    ∃ S', prepare L T bdf dt cur stage V S (g, order) = some S' ∧
      ∀ e v d, e < g.nelem →
        (∀ s vec, s ≠ cur → V.sol[s]? = some vec → v < L.nvars s → d < L.ndof s v →
          S'.2.u s e v d = entry L s g vec e v d) ∧
        (v < L.nvars cur → d < L.ndof cur v →
          S'.2.u cur e v d = evalPoint T stage (entry L cur g V.prevs[0] e v d)
            (fun j => entry L cur g (V.stages.getD j []) e v d) (entry L cur g V.stages[stage] e v d) ∧
          S'.2.udot cur e v d = timeDeriv T bdf dt stage (fun j => entry L cur g (V.prevs.getD j []) e v d)
            (entry L cur g V.stages[stage] e v d)) := by
  obtain ⟨D', h1, h2, h3, h4, h5⟩ := gatherAll_spec L g order cur stage V ho hfit hs S.1
  refine ⟨(D', computeAll L T bdf dt cur stage D' S.2), ?_, ?_⟩
  · unfold prepare
    simp only [h1, Option.map_some]
  · intro e v d he
    obtain ⟨k1, k2⟩ := computeFold T bdf dt cur stage D' (List.range L.nsets) S.2 List.nodup_range
    constructor
    · intro s vec hsc hv hvv hdd
      have hlt : s < L.nsets := by rw [← hn]; exact (List.getElem?_eq_some_iff.1 hv).1
      show (computeAll L T bdf dt cur stage D' S.2).u s e v d = _
      unfold computeAll
      rw [k1 s, if_pos (List.mem_range.2 hlt), if_neg hsc]
      exact h2 s vec hsc hv e v d he hvv hdd
    · intro hv hd
      constructor
      · show (computeAll L T bdf dt cur stage D' S.2).u cur e v d = _
        unfold computeAll
        rw [k1 cur, if_pos (List.mem_range.2 hc), if_pos rfl]
        rw [h3 e v d he hv hd, h5 0 V.prevs[0] (List.getElem?_eq_getElem _) e v d he hv hd]
        apply evalPoint_congr
        intro j hj
        have hjl : j < V.stages.length := lt_trans hj hs
        rw [h4 j V.stages[j] hj (List.getElem?_eq_getElem _) e v d he hv hd, List.getD_eq_getElem?_getD, List.getElem?_eq_getElem hjl, Option.getD_some]
      · show (computeAll L T bdf dt cur stage D' S.2).udot cur e v d = _
        unfold computeAll
        rw [k2 cur, if_pos ⟨List.mem_range.2 hc, rfl⟩]
        rw [h3 e v d he hv hd]
        apply timeDeriv_congr
        intro j hj
        have hjl : j < V.prevs.length := lt_of_lt_of_le hj hb
        rw [h5 j V.prevs[j] (List.getElem?_eq_getElem _) e v d he hv hd, List.getD_eq_getElem?_getD, List.getElem?_eq_getElem hjl, Option.getD_some]

/-- C38 is false for the time derivatives of the sets that are not being solved: they stay as the last group left them
when that set was solved.  After any number of groups prepared for set `s`, the last one being `last`, preparing a group
`g` for another set leaves in the time derivative of `s` the values of `last`, not of `g`. -/
theorem C38_other_set_derivative (L : Layout) (T T' : Tableau K) (bdf bdf' : List K) (dt dt' : K) (s cur stage stage' : Nat)
    (V V' : Vecs K) (hsc : s ≠ cur) (last g : Group) (order order' : List Nat) (ho : order.Perm (List.range last.nelem))
    (hfit : Fits L s V last) (hs : stage < V.stages.length) (hb : bdf.length - 1 ≤ V.prevs.length) (hsn : s < L.nsets)
    (before : List (Group × List Nat)) (S S1 S2 : Data K × Coef K)
    (h1 : (before ++ [(last, order)]).foldlM (prepare L T bdf dt s stage V) S = some S1)
    (h2 : prepare L T' bdf' dt' cur stage' V' S1 (g, order') = some S2) (e v d : Nat) (he : e < last.nelem)
    (hv : v < L.nvars s) (hd : d < L.ndof s v) :
    S2.2.udot s e v d = timeDeriv T bdf dt stage (fun j => entry L s last (V.prevs.getD j []) e v d)
      (entry L s last V.stages[stage] e v d) := by
  rw [List.foldlM_append] at h1
  cases hb0 : before.foldlM (prepare L T bdf dt s stage V) S with
  | none => rw [hb0] at h1; simp at h1
  | some S0 =>
    rw [hb0] at h1
    simp only [Option.bind_eq_bind, Option.bind_some, List.foldlM_cons, List.foldlM_nil] at h1
    obtain ⟨D', a1, a2, a3, a4, a5⟩ := gatherAll_spec L last order s stage V ho hfit hs S0.1
    have hS1 : S1.2 = computeAll L T bdf dt s stage D' S0.2 := by
      unfold prepare at h1
      simp only [a1, Option.map_some, Option.bind_some] at h1
      have := Option.some.inj h1
      rw [← this]
    have hkeep : S2.2.udot s = S1.2.udot s := by
      unfold prepare at h2
      simp only at h2
      cases hg : gatherAll L g order' cur stage' V' S1.1 with
      | none => rw [hg] at h2; simp at h2
      | some D2 =>
        rw [hg] at h2
        simp only [Option.map_some] at h2
        have := Option.some.inj h2
        rw [← this]
        show (computeAll L T' bdf' dt' cur stage' D2 S1.2).udot s = _
        unfold computeAll
        rw [(computeFold T' bdf' dt' cur stage' D2 (List.range L.nsets) S1.2 List.nodup_range).2 s,
          if_neg (by simp [hsc])]
    rw [hkeep, hS1]
    unfold computeAll
    rw [(computeFold T bdf dt s stage D' (List.range L.nsets) S0.2 List.nodup_range).2 s, if_pos ⟨List.mem_range.2 hsn, rfl⟩]
    rw [a3 e v d he hv hd]
    apply timeDeriv_congr
    intro j hj
    have hjl : j < V.prevs.length := lt_of_lt_of_le hj hb
    rw [a5 j V.prevs[j] (List.getElem?_eq_getElem _) e v d he hv hd, List.getD_eq_getElem?_getD, List.getElem?_eq_getElem hjl, Option.getD_some]

/-! ### Cases -/

/-- Two sets with one unknown per element; group `k` consists of element `k`. -/
def exLayout : Layout := ⟨2, fun _ => 1, fun _ _ => 1, fun _ _ _ => 0⟩

/-- Group with the single element `k`. -/
def exGroup (k : Nat) : Group := ⟨1, fun _ _ _ => k⟩

/-- Backward Euler. -/
def exTab : Tableau ℚ := { A := [[1]], b := [1], c := [1] }

/-- Vectors over two elements. -/
def exVecs : Vecs ℚ := ⟨[[1, 2], [3, 4]], [[3, 4]], [[1, 1]]⟩

theorem exFits (cur k : Nat) (hk : k < 2) : Fits exLayout cur exVecs (exGroup k) := by
  refine ⟨?_, ?_, ?_⟩
  · intro i vec hv e v d _ _ _
    match i with
    | 0 => simp [exVecs] at hv; subst hv; simpa [exGroup] using hk
    | 1 => simp [exVecs] at hv; subst hv; simpa [exGroup] using hk
    | n + 2 => simp [exVecs] at hv
  · intro vec hv e v d _ _ _
    simp [exVecs] at hv; subst hv; simpa [exGroup] using hk
  · intro vec hv e v d _ _ _
    simp [exVecs] at hv; subst hv; simpa [exGroup] using hk

/-- Set 1 solved on groups 0 and 1, then set 0 on group 0: the coefficient of set 1 is that of element 0 (3), but its time
derivative is that of element 1, (4 - 1) / 1 = 3, instead of (3 - 1) / 1 = 2. -/
example (S S1 S2 : Data ℚ × Coef ℚ)
    (h1 : ([(exGroup 0, [0])] ++ [(exGroup 1, [0])]).foldlM (prepare exLayout exTab [1, -1] 1 1 0 exVecs) S = some S1)
    (h2 : prepare exLayout exTab [1, -1] 1 0 0 exVecs S1 (exGroup 0, [0]) = some S2) :
    S2.2.u 1 0 0 0 = 3 ∧ S2.2.udot 1 0 0 0 = 3 ∧
    timeDeriv exTab [1, -1] 1 0 (fun j => entry exLayout 1 (exGroup 0) (exVecs.prevs.getD j []) 0 0 0)
      (entry exLayout 1 (exGroup 0) [3, 4] 0 0 0) = 2 := by
  refine ⟨?_, ?_, ?_⟩
  · obtain ⟨S', p1, p2⟩ := C38_coefficients_partial exLayout exTab [1, -1] 1 0 0 exVecs (exGroup 0) [0] (List.Perm.refl _)
      (exFits 0 0 (by decide)) (by decide) (by decide) (by decide) rfl (by decide) S1
    rw [h2] at p1
    injection p1 with p1
    subst p1
    rw [(p2 0 0 0 (by decide)).1 1 [3, 4] (by decide) rfl (by decide) (by decide)]
    rfl
  · rw [C38_other_set_derivative exLayout exTab exTab [1, -1] [1, -1] 1 1 1 0 0 0 exVecs exVecs (by decide) (exGroup 1)
      (exGroup 0) [0] [0] (List.Perm.refl _) (exFits 1 1 (by decide)) (by decide) (by decide) (by decide) _ S S1 S2 h1 h2 0 0 0
      (by decide) (by decide) (by decide)]
    norm_num [timeDeriv, exTab, exVecs, entry, exGroup, Tableau.w, List.range_succ]
  · norm_num [timeDeriv, exTab, exVecs, entry, exGroup, Tableau.w, List.range_succ]

/-- Elements in reverse order, and a vector that is too short. -/
example : ∃ D', gatherSteady exLayout ⟨2, fun _ e _ => e⟩ [1, 0] exVecs ⟨fun _ _ _ _ => (7 : ℚ), fun _ _ _ _ _ => 7,
    fun _ _ _ _ _ => 7⟩ = some D' ∧ D'.sol 1 0 0 0 = 3 ∧ D'.sol 1 1 0 0 = 4 := by
  obtain ⟨D', h1, h2⟩ := C38_gather_steady exLayout ⟨2, fun _ e _ => e⟩ [1, 0] exVecs (List.Perm.swap _ _ _) (by
    intro i vec hv e v d he _ _
    match i with
    | 0 => simp [exVecs] at hv; subst hv; simpa using he
    | 1 => simp [exVecs] at hv; subst hv; simpa using he
    | n + 2 => simp [exVecs] at hv) ⟨fun _ _ _ _ => (7 : ℚ), fun _ _ _ _ _ => 7, fun _ _ _ _ _ => 7⟩
  refine ⟨D', h1, ?_, ?_⟩
  · rw [h2 1 [3, 4] rfl 0 0 0 (by decide) (by decide) (by decide)]; rfl
  · rw [h2 1 [3, 4] rfl 1 0 0 (by decide) (by decide) (by decide)]; rfl

example : gather exLayout 0 (exGroup 5) [1, 2, (3 : ℚ)] [0] (fun _ _ _ => 0) = none :=
  C38_out_of_range exLayout 0 (exGroup 5) _ [0] (List.Perm.refl _) _ (by
    intro h
    have := h 0 0 0 (by decide) (by decide) (by decide)
    simp [exGroup] at this)

end MrHyDE.Assembly.Gather
