import Verif.Assembly.GatherProps
import Verif.Multiscale.Props

/-! # C71: the data seen by the choice of subgrid models

`identifySubgridModels` (/repo/src/managers/assembly/assemblyManager_util.hpp:293-361), called before every step
(/repo/src/managers/solver/solverManager_solvers.hpp:125), evaluates the usage functions after `updateWorkset` (312) without a
gather; so does `MultiscaleManager::updateMacroWorkset` (/repo/src/managers/multiscale/multiscaleManager.cpp:1239-1320), called for
every group at 464. -/

namespace MrHyDE.Assembly.Gather

open MrHyDE.Time

variable {K : Type} [Field K]

/-- `updateWorkset` for a group without a gather before it; assemblyManager_util.hpp:312, multiscaleManager.cpp:464.  The group
does not matter for the solution fields: the tables belong to the block. -/
def choose (L : Layout) (T : Tableau K) (bdf : List K) (dt : K) (cur stage : Nat)
    (S : Data K × Coef K) (_ : Group) : Data K × Coef K :=
  (S.1, computeAll L T bdf dt cur stage S.1 S.2)

/-- The votes for a group of `nelem` elements with usage functions of the solution at one unknown per point;
assemblyManager_util.hpp:314-344. -/
def ballots {n : Nat} [LinearOrder K] (L : Layout) (T : Tableau K) (bdf : List K) (dt : K) (cur stage : Nat)
    (S : Data K × Coef K) (mb : Fin n → Nat) (usage : Nat → K → K) (v b nip : Nat) (g : Group) : List Int :=
  let C := (choose L T bdf dt cur stage S g).2
  Multiscale.votes (List.ofFn mb) (fun s => Multiscale.countVotes (fun p j => usage s (C.u cur p v j)) g.nelem nip) b

/-- After an assembly whose last group was `last`, the choice sees for every group the state on the elements of `last`. -/
theorem choose_sees_last (L : Layout) (T : Tableau K) (bdf : List K) (dt : K) (cur stage : Nat)
    (V : Vecs K) (last g : Group) (order : List Nat) (ho : order.Perm (List.range last.nelem))
    (hfit : Fits L cur V last) (hs : stage < V.stages.length) (hp : 1 ≤ V.prevs.length)
    (hb : bdf.length - 1 ≤ V.prevs.length) (hn : V.sol.length = L.nsets) (hc : cur < L.nsets)
    (before : List (Group × List Nat)) (S S1 : Data K × Coef K)
    (h1 : (before ++ [(last, order)]).foldlM (prepare L T bdf dt cur stage V) S = some S1) (e v d : Nat)
    (he : e < last.nelem) (hv : v < L.nvars cur) (hd : d < L.ndof cur v) :
    (choose L T bdf dt cur stage S1 g).2.u cur e v d =
      evalPoint T stage (entry L cur last V.prevs[0] e v d)
        (fun j => entry L cur last (V.stages.getD j []) e v d) (entry L cur last V.stages[stage] e v d) := by
  rw [List.foldlM_append] at h1
  cases hb0 : before.foldlM (prepare L T bdf dt cur stage V) S with
  | none => rw [hb0] at h1; simp at h1
  | some S0 =>
    rw [hb0] at h1
    simp only [Option.bind_eq_bind, Option.bind_some, List.foldlM_cons, List.foldlM_nil] at h1
    obtain ⟨D', h1', h2, h3, h4, h5⟩ := gatherAll_spec L last order cur stage V ho hfit hs S0.1
    have hS1 : S1.1 = D' := by
      unfold prepare at h1
      simp only [h1', Option.map_some, Option.bind_some] at h1
      have := Option.some.inj h1
      rw [← this]
    show (computeAll L T bdf dt cur stage S1.1 S1.2).u cur e v d = _
    unfold computeAll
    rw [(computeFold T bdf dt cur stage S1.1 (List.range L.nsets) S1.2 List.nodup_range).1 cur,
      if_pos (List.mem_range.2 hc), if_pos rfl, hS1, h3 e v d he hv hd,
      h5 0 V.prevs[0] (List.getElem?_eq_getElem _) e v d he hv hd]
    apply evalPoint_congr
    intro j hj
    have hjl : j < V.stages.length := lt_trans hj hs
    rw [h4 j V.stages[j] hj (List.getElem?_eq_getElem _) e v d he hv hd, List.getD_eq_getElem?_getD, List.getElem?_eq_getElem hjl, Option.getD_some]

/-- C71, partial: in a block with a single group the usage functions see the state on the elements of the group (the one of
the last assembly).  Missing: blocks with several groups (`C71_other_group`). -/
theorem C71_single_group_partial (L : Layout) (T : Tableau K) (bdf : List K) (dt : K) (cur stage : Nat)
    (V : Vecs K) (g : Group) (order : List Nat) (ho : order.Perm (List.range g.nelem))
    (hfit : Fits L cur V g) (hs : stage < V.stages.length) (hp : 1 ≤ V.prevs.length)
    (hb : bdf.length - 1 ≤ V.prevs.length) (hn : V.sol.length = L.nsets) (hc : cur < L.nsets)
    (S S1 : Data K × Coef K)
    (h1 : [(g, order)].foldlM (prepare L T bdf dt cur stage V) S = some S1) (e v d : Nat)
    (he : e < g.nelem) (hv : v < L.nvars cur) (hd : d < L.ndof cur v) :
    (choose L T bdf dt cur stage S1 g).2.u cur e v d =
      evalPoint T stage (entry L cur g V.prevs[0] e v d)
        (fun j => entry L cur g (V.stages.getD j []) e v d) (entry L cur g V.stages[stage] e v d) :=
  choose_sees_last L T bdf dt cur stage V g g order ho hfit hs hp hb hn hc [] S S1 h1 e v d he hv hd

/-- C71 is false with several groups: groups of equal size get the same model, however different their states are. -/
theorem C71_other_group [LinearOrder K] {n : Nat} (L : Layout) (T : Tableau K) (bdf : List K) (dt : K) (cur stage : Nat)
    (S : Data K × Coef K) (mb : Fin n → Nat) (usage : Nat → K → K) (v b nip : Nat) (g g' : Group) (hsize : g.nelem = g'.nelem) :
    Multiscale.winner (ballots L T bdf dt cur stage S mb usage v b nip g) =
      Multiscale.winner (ballots L T bdf dt cur stage S mb usage v b nip g') := by
  unfold ballots choose
  simp only
  rw [hsize]

/-- Case: groups 0 and 1 assembled with states 3 and 4; the choice for group 0 sees 4. -/
example (S S1 : Data ℚ × Coef ℚ)
    (h1 : ([(exGroup 0, [0])] ++ [(exGroup 1, [0])]).foldlM (prepare exLayout exTab [1, -1] 1 0 0 exVecs) S = some S1) :
    (choose exLayout exTab [1, -1] 1 0 0 S1 (exGroup 0)).2.u 0 0 0 0 = 4 ∧
      evalPoint exTab 0 (entry exLayout 0 (exGroup 0) [1, 1] 0 0 0)
        (fun j => entry exLayout 0 (exGroup 0) (exVecs.stages.getD j []) 0 0 0) (entry exLayout 0 (exGroup 0) [3, 4] 0 0 0) = 3 := by
  refine ⟨?_, by decide +kernel⟩
  rw [choose_sees_last exLayout exTab [1, -1] 1 0 0 exVecs (exGroup 1) (exGroup 0) [0] (List.Perm.refl _)
    (exFits 0 1 (by decide)) (by decide) (by decide) (by decide) rfl (by decide) _ S S1 h1 0 0 0 (by decide) (by decide) (by decide)]
  decide +kernel

end MrHyDE.Assembly.Gather
