import Verif.Assembly.GatherProps

/-! # C69: sensitivities with respect to discretised parameters in a transient run

`PostprocessManager::computeDiscreteSensitivities`
(/repo/src/managers/postprocess/postprocessManager_objective_gradient.hpp:1661-1718) assembles with empty vectors of stage and
previous solutions (1700-1702).  `assembleJacRes` then gathers the solution only (assemblyManager_jacres.hpp:208-211,
assemblyManager_gather.hpp:22-25), while `updateWorkset` still combines the solution with the shared table of previous
solutions (assemblyManager_workset.hpp:1018-1029). -/

namespace MrHyDE.Assembly.Gather

open MrHyDE.Time

variable {K : Type} [Field K]

/-- What happens for one group with `use_only_sol` in a transient run; assemblyManager_jacres.hpp:208-211, 336-381,
assemblyManager_gather.hpp:22-25. -/
def prepareOnlySol (L : Layout) (T : Tableau K) (bdf : List K) (dt : K) (cur stage : Nat) (V : Vecs K)
    (S : Data K × Coef K) (x : Group × List Nat) : Option (Data K × Coef K) :=
  (gatherSteady L x.1 x.2 V S.1).map (fun D => (D, computeAll L T bdf dt cur stage D S.2))

/-- The time derivative used for the sensitivity on group `g`: the solution is that of `g`, the previous solutions are those
of the group `last` that was gathered last before. -/
theorem onlySol_udot (L : Layout) (T : Tableau K) (bdf : List K) (dt : K) (cur stage : Nat)
    (V : Vecs K) (last g : Group) (order order' : List Nat) (ho : order.Perm (List.range last.nelem))
    (ho' : order'.Perm (List.range g.nelem))
    (hfit : Fits L cur V last) (hfit' : Fits L cur V g) (hs : stage < V.stages.length)
    (hb : bdf.length - 1 ≤ V.prevs.length) (hc : cur < L.nsets)
    (before : List (Group × List Nat)) (S S1 : Data K × Coef K) (u : List K) (hu : V.sol[cur]? = some u)
    (h1 : (before ++ [(last, order)]).foldlM (prepare L T bdf dt cur stage V) S = some S1) :
    ∃ S2, prepareOnlySol L T bdf dt cur stage V S1 (g, order') = some S2 ∧
      ∀ e v d, e < last.nelem → e < g.nelem → v < L.nvars cur → d < L.ndof cur v →
        S2.2.udot cur e v d = timeDeriv T bdf dt stage (fun j => entry L cur last (V.prevs.getD j []) e v d)
          (entry L cur g u e v d) := by
  rw [List.foldlM_append] at h1
  cases hb0 : before.foldlM (prepare L T bdf dt cur stage V) S with
  | none => rw [hb0] at h1; simp at h1
  | some S0 =>
    rw [hb0] at h1
    simp only [Option.bind_eq_bind, Option.bind_some, List.foldlM_cons, List.foldlM_nil] at h1
    obtain ⟨D', a1, a2, a3, a4, a5⟩ := gatherAll_spec L last order cur stage V ho hfit hs S0.1
    have hS1 : S1.1 = D' := by
      unfold prepare at h1
      simp only [a1, Option.map_some, Option.bind_some] at h1
      have := Option.some.inj h1
      rw [← this]
    obtain ⟨D2, b1, b2, -, b4⟩ := loop_sol L g order' ho' (indexed V.sol) S1.1 (indexed_nodup _) (by
      rintro ⟨i, vec⟩ hx
      exact hfit'.1 i vec ((mem_indexed _ _ _).1 hx))
    refine ⟨(D2, computeAll L T bdf dt cur stage D2 S1.2), ?_, ?_⟩
    · unfold prepareOnlySol gatherSteady
      simp only [b1, Option.map_some]
    · intro e v d he he' hv hd
      show (computeAll L T bdf dt cur stage D2 S1.2).udot cur e v d = _
      unfold computeAll
      rw [(computeFold T bdf dt cur stage D2 (List.range L.nsets) S1.2 List.nodup_range).2 cur,
        if_pos ⟨List.mem_range.2 hc, rfl⟩]
      have hsol := b2 (cur, u) ((mem_indexed _ _ _).2 hu) e v d he' hv hd
      simp only at hsol
      rw [hsol, b4.1, hS1]
      apply timeDeriv_congr
      intro j hj
      have hjl : j < V.prevs.length := lt_of_lt_of_le hj hb
      rw [a5 j V.prevs[j] (List.getElem?_eq_getElem _) e v d he hv hd, List.getD_eq_getElem?_getD,
        List.getElem?_eq_getElem hjl, Option.getD_some]

/-- C69, partial: if the group is the one gathered last before (a block with a single group and no boundary groups), the
sensitivity with respect to discretised parameters is evaluated with the time derivative of the recorded states.  Missing:
every other group (`C69_stale_previous`). -/
theorem C69_single_group_partial (L : Layout) (T : Tableau K) (bdf : List K) (dt : K) (cur stage : Nat)
    (V : Vecs K) (g : Group) (order order' : List Nat) (ho : order.Perm (List.range g.nelem))
    (ho' : order'.Perm (List.range g.nelem)) (hfit : Fits L cur V g) (hs : stage < V.stages.length)
    (hb : bdf.length - 1 ≤ V.prevs.length) (hc : cur < L.nsets)
    (S S1 : Data K × Coef K) (u : List K) (hu : V.sol[cur]? = some u)
    (h1 : [(g, order)].foldlM (prepare L T bdf dt cur stage V) S = some S1) :
    ∃ S2, prepareOnlySol L T bdf dt cur stage V S1 (g, order') = some S2 ∧
      ∀ e v d, e < g.nelem → v < L.nvars cur → d < L.ndof cur v →
        S2.2.udot cur e v d = timeDeriv T bdf dt stage (fun j => entry L cur g (V.prevs.getD j []) e v d)
          (entry L cur g u e v d) := by
  obtain ⟨S2, h, k⟩ := onlySol_udot L T bdf dt cur stage V g g order order' ho ho' hfit hfit hs hb hc [] S S1 u hu h1
  exact ⟨S2, h, fun e v d he hv hd => k e v d he he hv hd⟩

/-- C69 is false in every group but the last: the time derivative combines the state of the elements of `g` with the previous
states of the elements of another group. -/
theorem C69_stale_previous (L : Layout) (T : Tableau K) (bdf : List K) (dt : K) (cur stage : Nat)
    (V : Vecs K) (last g : Group) (order order' : List Nat) (ho : order.Perm (List.range last.nelem))
    (ho' : order'.Perm (List.range g.nelem))
    (hfit : Fits L cur V last) (hfit' : Fits L cur V g) (hs : stage < V.stages.length)
    (hb : bdf.length - 1 ≤ V.prevs.length) (hc : cur < L.nsets)
    (before : List (Group × List Nat)) (S S1 : Data K × Coef K) (u : List K) (hu : V.sol[cur]? = some u)
    (h1 : (before ++ [(last, order)]).foldlM (prepare L T bdf dt cur stage V) S = some S1) (e v d : Nat)
    (he : e < last.nelem) (he' : e < g.nelem) (hv : v < L.nvars cur) (hd : d < L.ndof cur v)
    (hdiff : timeDeriv T bdf dt stage (fun j => entry L cur last (V.prevs.getD j []) e v d) (entry L cur g u e v d) ≠
      timeDeriv T bdf dt stage (fun j => entry L cur g (V.prevs.getD j []) e v d) (entry L cur g u e v d)) :
    ∃ S2, prepareOnlySol L T bdf dt cur stage V S1 (g, order') = some S2 ∧
      S2.2.udot cur e v d ≠ timeDeriv T bdf dt stage (fun j => entry L cur g (V.prevs.getD j []) e v d)
        (entry L cur g u e v d) := by
  obtain ⟨S2, h, k⟩ := onlySol_udot L T bdf dt cur stage V last g order order' ho ho' hfit hfit' hs hb hc before S S1 u hu h1
  exact ⟨S2, h, by rw [k e v d he he' hv hd]; exact hdiff⟩

/-- Vectors over two elements: previous states 1 and 5. [case] -/
def exVecs2 : Vecs ℚ := ⟨[[3, 4], [0, 0]], [[3, 4]], [[1, 5]]⟩

theorem exFits2 (k : Nat) (hk : k < 2) : Fits exLayout 0 exVecs2 (exGroup k) := by
  refine ⟨?_, ?_, ?_⟩
  · intro i vec hv e v d _ _ _
    match i with
    | 0 => simp [exVecs2] at hv; subst hv; simpa [exGroup] using hk
    | 1 => simp [exVecs2] at hv; subst hv; simpa [exGroup] using hk
    | n + 2 => simp [exVecs2] at hv
  · intro vec hv e v d _ _ _
    simp [exVecs2] at hv; subst hv; simpa [exGroup] using hk
  · intro vec hv e v d _ _ _
    simp [exVecs2] at hv; subst hv; simpa [exGroup] using hk

/-- Case: groups 0 and 1 assembled, then the sensitivity on group 0 uses (3 - 5) / 1 = -2 where (3 - 1) / 1 = 2 was meant. -/
example (S S1 : Data ℚ × Coef ℚ)
    (h1 : ([(exGroup 0, [0])] ++ [(exGroup 1, [0])]).foldlM (prepare exLayout exTab [1, -1] 1 0 0 exVecs2) S = some S1) :
    ∃ S2, prepareOnlySol exLayout exTab [1, -1] 1 0 0 exVecs2 S1 (exGroup 0, [0]) = some S2 ∧ S2.2.udot 0 0 0 0 = -2 ∧
      timeDeriv exTab [1, -1] 1 0 (fun j => entry exLayout 0 (exGroup 0) (exVecs2.prevs.getD j []) 0 0 0)
        (entry exLayout 0 (exGroup 0) [3, 4] 0 0 0) = 2 := by
  obtain ⟨S2, p1, p2⟩ := onlySol_udot exLayout exTab [1, -1] 1 0 0 exVecs2 (exGroup 1) (exGroup 0) [0] [0] (List.Perm.refl _)
    (List.Perm.refl _) (exFits2 1 (by decide)) (exFits2 0 (by decide)) (by decide) (by decide) (by decide) _ S S1 [3, 4] rfl h1
  refine ⟨S2, p1, ?_, by decide +kernel⟩
  rw [p2 0 0 0 (by decide) (by decide) (by decide) (by decide)]
  decide +kernel

end MrHyDE.Assembly.Gather
