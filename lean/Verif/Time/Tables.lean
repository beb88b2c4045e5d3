import Verif.Time.Settings
import Mathlib.Algebra.Field.Rat

/-!
# C177: the tables of earlier steps and stages are large enough, whatever integrator is in place

The number of stored steps and stages (`setBackwardDifference`, `setButcherTableau`,
src/managers/solver/solverManager_setup.hpp:181-528), the tables allocated from them
(src/tools/groupMetaData.cpp:136-207, src/tools/group.cpp:318-398), the vectors handed to an assembly
(src/managers/solver/solverManager_solvers.hpp:64-112), the gather into the tables
(src/managers/assembly/assemblyManager_gather.hpp:32-49) and what is read from them (src/tools/workset.cpp:520-595), with the
change of the integrator during a run; then the tables a fine group keeps itself (src/tools/group.cpp:444-561,
src/tools/boundaryGroup.cpp:314-426).

One physics set.  A table is the list of its entries along the last index (one state of the unknowns of a group each); the
other three indices are in `Assembly/Gather`.  Access outside a table, a vector or the weights is `none`.
-/

namespace MrHyDE.Time.Tables

set_option linter.unusedSectionVars false

variable {K V : Type}

/-! ## Model -/

/-- The integrator in place and the counts: `BDF_wts`, the tableau, `numsteps`, `numstages`, `maxnumsteps`, `maxnumstages`.
[src/managers/solver/solverManager.hpp:243-248] -/
structure Sizes (K : Type) where
  bdf : List K
  tab : Tableau K
  numsteps : Int
  numstages : Nat
  maxsteps : Int
  maxstages : Nat

/-- The counts before the first call, src/managers/solver/solverManager_construct.hpp:211-214. -/
def fresh : Sizes K := ⟨[], ⟨[], [], []⟩, 0, 0, 0, 0⟩

/-- `setBackwardDifference` in a transient run, solverManager_setup.hpp:443-528: an order outside 1..6 leaves the weights empty and
counts minus one step (502). -/
def setBDF [Field K] (order : Int) (z : Sizes K) : Sizes K :=
  let w : List K := bdfWeights order.toNat
  let n : Int := (w.length : Int) - 1
  { z with bdf := w, numsteps := n, maxsteps := max z.maxsteps n }

/-- End of `setButcherTableau`, solverManager_setup.hpp:417-435: the largest number is taken against the number in place, not
against the largest so far. -/
def setTableau (T : Tableau K) (z : Sizes K) : Sizes K :=
  { z with tab := T, maxstages := max z.numstages T.stages, numstages := T.stages }

/-- Settings of the set: order and tableau of the main and of the start-up integrator, and the number of start-up steps;
src/managers/solver/solverManager_construct.hpp:135-196. -/
structure Cfg (K : Type) where
  order : Int
  tab : Tableau K
  startOrder : Int
  startTab : Tableau K
  startSteps : Int

/-- The constructor of the solver manager, solverManager_construct.hpp:211-224. -/
def construct [Field K] (c : Cfg K) : Sizes K :=
  let z := setTableau c.tab (setBDF c.order fresh)
  if c.order > 1 then setTableau c.startTab (setBDF c.startOrder z) else z

/-- The integrator at an attempt of step `k`, solverManager_solvers.hpp:93-97. -/
def select [Field K] (c : Cfg K) (k : Nat) (z : Sizes K) : Sizes K :=
  if c.order > 1 ∧ (k : Int) = c.startSteps then setTableau c.tab (setBDF c.order z) else z

/-- The tables `sol_prev` and `sol_stage` of a block. [src/tools/groupMetaData.hpp:129] -/
structure Tab (V : Type) where
  prev : List V
  stage : List V

/-- `setSolutionFields`, src/tools/groupMetaData.cpp:175-177, for a transient run: `maxnumsteps` entries and
`maxnumstages - 1` entries, zero.  `none`: a negative number of entries. -/
def allocate [Zero V] (z : Sizes K) : Option (Tab V) :=
  if 0 ≤ z.maxsteps ∧ 1 ≤ z.maxstages then
    some ⟨List.replicate z.maxsteps.toNat 0, List.replicate (z.maxstages - 1) 0⟩
  else none

/-- Gather into one entry of a table, assemblyManager_gather.hpp:280-289. -/
def put (t : List V) (i : Nat) (v : V) : Option (List V) := if i < t.length then some (t.set i v) else none

/-- Gather of several vectors into the entries from `i` on, assemblyManager_gather.hpp:42-49. -/
def putAll : List V → Nat → List V → Option (List V)
  | t, _, [] => some t
  | t, i, v :: vs => (put t i v).bind fun t' => putAll t' (i + 1) vs

/-- What the workset computes for stage `s` from the tables and the gathered stage value, src/tools/workset.cpp:553-576: value and
derivative in time.  `none`: entries read that do not exist (weights 558, entry 0 of the earlier steps 563, the stages
before `s` 564-566, one earlier step for every further weight 571-573, the row of the tableau 556). -/
def value [Field K] [AddCommGroup V] [Module K V] (z : Sizes K) (dt : K) (s : Nat) (t : Tab V) (sv : V) : Option (V × V) :=
  if z.bdf ≠ [] ∧ 1 ≤ t.prev.length ∧ z.bdf.length - 1 ≤ t.prev.length ∧ s ≤ t.stage.length ∧ s < z.tab.stages then
    some (evalPoint z.tab s (t.prev.getD 0 0) (fun j => t.stage.getD j 0) sv,
      timeDeriv z.tab z.bdf dt s (fun j => t.prev.getD j 0) sv)
  else none

/-- One assembly of a group in stage `s`: gather (assemblyManager_gather.hpp:40-49), then the values.  `prevs` and `stages` are
the vectors of earlier steps and of the stages, seen by the group.  The tables afterwards stay for the next group. -/
def assemble [Field K] [AddCommGroup V] [Module K V] (z : Sizes K) (dt : K) (s : Nat) (prevs stages : List V) (t : Tab V) :
    Option (Tab V × (V × V)) := do
  let sv ← stages[s]?
  let st ← putAll t.stage 0 (stages.take s)
  let pr ← putAll t.prev 0 prevs
  let r ← value z dt s ⟨pr, st⟩ sv
  some (⟨pr, st⟩, r)

/-- The assemblies of one attempt, in the order in which they happen: stage, and what the group sees of the vectors of earlier
steps and of stages. [solverManager_solvers.hpp:128-156] -/
abbrev Asm (V : Type) := Nat × (Nat → V) × (Nat → V)

/-- The assemblies of an attempt with `P` vectors of earlier steps (64-71); the number of vectors of stages is that of
`maxnumstages` at the attempt, solverManager_solvers.hpp:103-112.  Assemblies of stages that the loop at 128 does not reach are
left out. -/
def assembleAll [Field K] [AddCommGroup V] [Module K V] (z : Sizes K) (dt : K) (P : Nat) :
    List (Asm V) → Tab V → Option (Tab V × List (V × V))
  | [], t => some (t, [])
  | a :: as, t =>
    if a.1 < z.numstages then do
      let (t', r) ← assemble z dt a.1 ((List.range P).map a.2.1) ((List.range z.maxstages).map a.2.2) t
      let (t'', rs) ← assembleAll z dt P as t'
      some (t'', r :: rs)
    else assembleAll z dt P as t

/-- An attempt of a step: number of accepted steps before, length, assemblies.  [solverManager_solvers.hpp:78-182] -/
structure Attempt (K V : Type) where
  k : Nat
  dt : K
  asm : List (Asm V)

/-- The loop of one run, solverManager_solvers.hpp:78-182; `P` was fixed before it (67).  Line 119 writes the first of the vectors
of earlier steps. -/
def attempts [Field K] [AddCommGroup V] [Module K V] (c : Cfg K) (P : Nat) :
    List (Attempt K V) → Sizes K × Tab V → Option ((Sizes K × Tab V) × List (V × V))
  | [], x => some (x, [])
  | a :: as, x =>
    let z := select c a.k x.1
    if 1 ≤ P then do
      let (t, rs) ← assembleAll z a.dt P a.asm x.2
      let (y, rs') ← attempts c P as (z, t)
      some (y, rs ++ rs')
    else none

/-- Several transient runs one after the other (samples, iterations of an optimisation): the integrator and the tables stay,
solverManager_solvers.hpp:64-71. -/
def runs [Field K] [AddCommGroup V] [Module K V] (c : Cfg K) :
    List (List (Attempt K V)) → Sizes K × Tab V → Option (List (V × V))
  | [], _ => some []
  | r :: rs, x => do
    let (y, vs) ← attempts c x.1.maxsteps.toNat r x
    let vs' ← runs c rs y
    some (vs ++ vs')

/-- The program: construction, allocation (solverManager_setup.hpp:660), runs.  [src/driver.cpp:151-231] -/
def program [Field K] [AddCommGroup V] [Module K V] (c : Cfg K) (rs : List (List (Attempt K V))) : Option (List (V × V)) :=
  (allocate (V := V) (construct c)).bind fun t => runs c rs (construct c, t)

/-! ## Specification -/

/-- [specification, no code] Weights and tableau. -/
abbrev Integ (K : Type) := List K × Tableau K

/-- [specification, no code] The integrator in place after attempts of steps with these numbers: the start-up one until the step
numbered `startSteps` is attempted. -/
def inPlace [Field K] (c : Cfg K) : List Nat → Integ K
  | [] => if c.order > 1 then (bdfWeights c.startOrder.toNat, c.startTab) else (bdfWeights c.order.toNat, c.tab)
  | k :: ks => if c.order > 1 ∧ (k : Int) = c.startSteps then (bdfWeights c.order.toNat, c.tab) else inPlace c ks

/-- [specification, no code] The values of the assemblies of an attempt with integrator `m`: the formulas with the vectors
themselves. -/
def values [Field K] [AddCommGroup V] [Module K V] (m : Integ K) (dt : K) (as : List (Asm V)) : List (V × V) :=
  (as.filter fun a => a.1 < m.2.stages).map fun a =>
    (evalPoint m.2 a.1 (a.2.1 0) a.2.2 (a.2.2 a.1), timeDeriv m.2 m.1 dt a.1 a.2.1 (a.2.2 a.1))

/-- [specification, no code] The values of all attempts, after attempts with the numbers `before` (latest first). -/
def allValues [Field K] [AddCommGroup V] [Module K V] (c : Cfg K) : List Nat → List (Attempt K V) → List (V × V)
  | _, [] => []
  | before, a :: as => values (inPlace c (a.k :: before)) a.dt a.asm ++ allValues c (a.k :: before) as

/-- [specification, no code] Orders with weights, and tableaux with a stage. -/
structure Good (c : Cfg K) : Prop where
  order : 1 ≤ c.order ∧ c.order ≤ 6
  start : 1 < c.order → 1 ≤ c.startOrder ∧ c.startOrder ≤ 6
  tab : 1 ≤ c.tab.stages
  startTab : 1 ≤ c.startTab.stages

/-! ## Proofs -/

theorem weights_length [Field K] (o : Int) (h : 1 ≤ o ∧ o ≤ 6) : ((bdfWeights o.toNat : List K).length : Int) = o + 1 := by
  obtain ⟨h1, h2⟩ := h
  have : o = 1 ∨ o = 2 ∨ o = 3 ∨ o = 4 ∨ o = 5 ∨ o = 6 := by omega
  rcases this with rfl | rfl | rfl | rfl | rfl | rfl <;> rfl

theorem weights_none [Field K] (o : Int) (h : o < 1 ∨ 6 < o) : (bdfWeights o.toNat : List K) = [] := by
  have h' : o.toNat = 0 ∨ 7 ≤ o.toNat := by omega
  generalize o.toNat = n at h'
  match n, h' with
  | 0, _ => rfl
  | n + 7, _ => rfl

theorem putAll_some : ∀ (vs t : List V) (i : Nat), i + vs.length ≤ t.length →
    ∃ t', putAll t i vs = some t' ∧ t'.length = t.length ∧ (∀ j, j < i → t'[j]? = t[j]?) ∧
      (∀ j, j < vs.length → t'[i + j]? = vs[j]?)
  | [], t, i, _ => ⟨t, rfl, rfl, fun _ _ => rfl, fun j h => absurd h (by simp)⟩
  | v :: vs, t, i, h => by
    simp only [List.length_cons] at h
    have hi : i < t.length := by omega
    obtain ⟨t', e, l, lo, hiq⟩ := putAll_some vs (t.set i v) (i + 1) (by simp; omega)
    refine ⟨t', ?_, by simpa using l, ?_, ?_⟩
    · simp only [putAll, put, if_pos hi, Option.bind_some, e]
    · intro j hj
      rw [lo j (by omega), List.getElem?_set_ne (by omega)]
    · intro j hj
      match j with
      | 0 => rw [Nat.add_zero, lo i (by omega), List.getElem?_set_self hi]; rfl
      | j + 1 =>
        have := hiq j (by simp at hj; omega)
        rw [show i + (j + 1) = i + 1 + j by omega, this]; rfl

theorem putAll_none : ∀ (vs t : List V) (i : Nat), vs ≠ [] → t.length < i + vs.length → putAll t i vs = none
  | v :: vs, t, i, _, h => by
    simp only [putAll, put]
    by_cases hi : i < t.length
    · rw [if_pos hi, Option.bind_some]
      apply putAll_none vs _ (i + 1)
      · rintro rfl; simp at h; omega
      · simp at h ⊢; omega
    · rw [if_neg hi]; rfl

section
variable [Field K] [AddCommGroup V] [Module K V]

theorem foldl_congr_range {A : Type} (f g : A → Nat → A) : ∀ (n : Nat) (a : A),
    (∀ b j, j < n → f b j = g b j) → (List.range n).foldl f a = (List.range n).foldl g a := by
  intro n a h
  apply List.foldl_ext
  intro b j hj
  exact h b j (List.mem_range.mp hj)

theorem evalPoint_congr (T : Tableau K) (s : Nat) (un : V) (st st' : Nat → V) (x : V) (h : ∀ j, j < s → st j = st' j) :
    evalPoint T s un st x = evalPoint T s un st' x := by
  unfold evalPoint
  dsimp only
  rw [foldl_congr_range _ (fun acc j => acc + (T.a s j / T.w j) • (st' j - un)) s _
    (fun b j hj => by rw [h j hj])]

theorem timeDeriv_congr (T : Tableau K) (w : List K) (dt : K) (s : Nat) (p p' : Nat → V) (x : V)
    (h : ∀ j, j < w.length - 1 → p j = p' j) : timeDeriv T w dt s p x = timeDeriv T w dt s p' x := by
  unfold timeDeriv
  dsimp only
  rw [foldl_congr_range _ (fun acc j => acc + w.getD (j + 1) 0 • p' j) (w.length - 1) _
    (fun b j hj => by rw [h j hj])]

/-- An assembly whose vectors fit the tables reads only what it gathered itself. -/
theorem assemble_fits (z : Sizes K) (dt : K) (s P M : Nat) (p q : Nat → V) (t : Tab V)
    (hb : z.bdf ≠ []) (hP : 1 ≤ P) (hw : z.bdf.length - 1 ≤ P) (hp : P ≤ t.prev.length) (hs : s < z.tab.stages) (hM : s < M)
    (ht : s ≤ t.stage.length) :
    ∃ t', assemble z dt s ((List.range P).map p) ((List.range M).map q) t =
        some (t', (evalPoint z.tab s (p 0) q (q s), timeDeriv z.tab z.bdf dt s p (q s))) ∧
      t'.prev.length = t.prev.length ∧ t'.stage.length = t.stage.length := by
  obtain ⟨st, e1, l1, _, r1⟩ := putAll_some (((List.range M).map q).take s) t.stage 0 (by simp; omega)
  obtain ⟨pr, e2, l2, _, r2⟩ := putAll_some ((List.range P).map p) t.prev 0 (by simpa using hp)
  have hpr : ∀ j, j < P → pr.getD j 0 = p j := by
    intro j hj
    have := r2 j (by simpa using hj)
    rw [Nat.zero_add] at this
    rw [List.getD_eq_getElem?_getD, this]
    simp [hj]
  have hst : ∀ j, j < s → st.getD j 0 = q j := by
    intro j hj
    have := r1 j (by simp; omega)
    rw [Nat.zero_add] at this
    rw [List.getD_eq_getElem?_getD, this, List.getElem?_take_of_lt hj]
    simp [show j < M by omega]
  refine ⟨⟨pr, st⟩, ?_, l2, l1⟩
  have hsv : ((List.range M).map q)[s]? = some (q s) := by simp [hM]
  unfold assemble
  simp only [hsv, e1, e2, Option.bind_eq_bind, Option.bind_some]
  unfold value
  rw [if_pos ⟨hb, by simp only [l2]; omega, by simp only [l2]; omega, by simp only [l1]; omega, hs⟩]
  simp only [Option.bind_some]
  rw [hpr 0 (by omega), evalPoint_congr z.tab s (p 0) _ q (q s) hst,
    timeDeriv_congr z.tab z.bdf dt s _ p (q s) (fun j hj => hpr j (by omega))]

/-- What holds between the attempts: the integrator in place fits the tables, and so does any later one. -/
structure Inv (c : Cfg K) (z : Sizes K) (t : Tab V) : Prop where
  bdf : z.bdf ≠ []
  steps : (z.bdf.length : Int) - 1 ≤ z.maxsteps
  main : c.order ≤ z.maxsteps
  pos : 1 ≤ z.maxsteps
  prev : z.maxsteps = t.prev.length
  stages : z.numstages = z.tab.stages
  one : 1 ≤ z.tab.stages
  max : z.tab.stages ≤ z.maxstages
  stage : z.tab.stages ≤ t.stage.length + 1
  later : c.tab.stages ≤ t.stage.length + 1

theorem assembleAll_fits (c : Cfg K) (z : Sizes K) (dt : K) :
    ∀ (as : List (Asm V)) (t : Tab V), Inv c z t →
    ∃ t', assembleAll z dt z.maxsteps.toNat as t = some (t', values (z.bdf, z.tab) dt as) ∧ Inv c z t'
  | [], t, h => ⟨t, rfl, h⟩
  | a :: as, t, h => by
    have hpos := h.pos
    have hprev := h.prev
    have hsteps := h.steps
    by_cases ha : a.1 < z.tab.stages
    · have hmax := h.max
      have hstage := h.stage
      obtain ⟨t', e, l1, l2⟩ := assemble_fits z dt a.1 z.maxsteps.toNat z.maxstages a.2.1 a.2.2 t h.bdf (by omega) (by omega)
        (by omega) ha (by omega) (by omega)
      obtain ⟨t'', e', i⟩ := assembleAll_fits c z dt as t'
        ⟨h.bdf, h.steps, h.main, h.pos, by rw [l1]; exact h.prev, h.stages, h.one, h.max, by rw [l2]; exact h.stage,
          by rw [l2]; exact h.later⟩
      refine ⟨t'', ?_, i⟩
      have hn : a.1 < z.numstages := by rw [h.stages]; exact ha
      simp only [assembleAll, if_pos hn, e, Option.bind_eq_bind, Option.bind_some, e']
      simp [values, ha]
    · obtain ⟨t'', e', i⟩ := assembleAll_fits c z dt as t h
      refine ⟨t'', ?_, i⟩
      have hn : ¬ a.1 < z.numstages := by rw [h.stages]; exact ha
      simp only [assembleAll, if_neg hn, e']
      simp [values, ha]

theorem select_inv (c : Cfg K) (hc : Good c) (z : Sizes K) (t : Tab V) (h : Inv c z t) (k : Nat) :
    Inv c (select c k z) t ∧ (select c k z).maxsteps = z.maxsteps ∧
    ((select c k z).bdf, (select c k z).tab) =
      if c.order > 1 ∧ (k : Int) = c.startSteps then (bdfWeights c.order.toNat, c.tab) else (z.bdf, z.tab) := by
  unfold select
  by_cases hk : c.order > 1 ∧ (k : Int) = c.startSteps
  · rw [if_pos hk, if_pos hk]
    have hl := weights_length (K := K) c.order hc.order
    have hmain := h.main
    have hm : max z.maxsteps (((bdfWeights c.order.toNat : List K).length : Int) - 1) = z.maxsteps := by omega
    refine ⟨⟨?_, ?_, ?_, ?_, ?_, rfl, hc.tab, ?_, ?_, ?_⟩, ?_, rfl⟩
    · intro e
      have e : (bdfWeights c.order.toNat : List K) = [] := e
      rw [e] at hl
      have := hc.order
      simp at hl; omega
    · show ((bdfWeights c.order.toNat : List K).length : Int) - 1 ≤ max z.maxsteps _
      omega
    · show c.order ≤ max z.maxsteps _
      omega
    · have := h.pos
      show 1 ≤ max z.maxsteps _
      omega
    · show max z.maxsteps _ = _
      rw [hm]; exact h.prev
    · show c.tab.stages ≤ max _ _
      exact le_max_right _ _
    · exact h.later
    · exact h.later
    · exact hm
  · rw [if_neg hk, if_neg hk]
    exact ⟨h, rfl, rfl⟩

theorem attempts_fits (c : Cfg K) (hc : Good c) :
    ∀ (as : List (Attempt K V)) (before : List Nat) (z : Sizes K) (t : Tab V), Inv c z t → (z.bdf, z.tab) = inPlace c before →
    ∃ y, attempts c z.maxsteps.toNat as (z, t) = some (y, allValues c before as) ∧ Inv c y.1 y.2 ∧
      (y.1.bdf, y.1.tab) = inPlace c ((as.map (·.k)).reverse ++ before)
  | [], before, z, t, h, e => ⟨(z, t), rfl, h, by simpa using e⟩
  | a :: as, before, z, t, h, e => by
    obtain ⟨h1, h2, h3⟩ := select_inv c hc z t h a.k
    have he : ((select c a.k z).bdf, (select c a.k z).tab) = inPlace c (a.k :: before) := by
      rw [h3, e]; rfl
    obtain ⟨t', e1, i1⟩ := assembleAll_fits c (select c a.k z) a.dt a.asm t h1
    obtain ⟨y, e2, i2, e3⟩ := attempts_fits c hc as (a.k :: before) (select c a.k z) t' i1 he
    rw [h2] at e1 e2
    refine ⟨y, ?_, i2, by simpa using e3⟩
    have hpos := h.pos
    simp only [attempts]
    rw [if_pos (by omega)]
    simp only [e1, Option.bind_eq_bind, Option.bind_some, e2, allValues, he]

theorem allValues_append (c : Cfg K) : ∀ (as bs : List (Attempt K V)) (before : List Nat),
    allValues c before (as ++ bs) = allValues c before as ++ allValues c ((as.map (·.k)).reverse ++ before) bs
  | [], bs, before => rfl
  | a :: as, bs, before => by
    simp only [List.cons_append, allValues, allValues_append c as bs, List.append_assoc, List.map_cons, List.reverse_cons]
    simp

theorem runs_fits (c : Cfg K) (hc : Good c) :
    ∀ (rs : List (List (Attempt K V))) (before : List Nat) (z : Sizes K) (t : Tab V), Inv c z t →
      (z.bdf, z.tab) = inPlace c before → runs c rs (z, t) = some (allValues c before rs.flatten)
  | [], _, _, _, _, _ => rfl
  | r :: rs, before, z, t, h, e => by
    obtain ⟨y, e1, i, e2⟩ := attempts_fits c hc r before z t h e
    have ih := runs_fits c hc rs _ y.1 y.2 i e2
    simp only [runs, e1, Option.bind_eq_bind, Option.bind_some, ih, List.flatten_cons, allValues_append]

theorem construct_inv (c : Cfg K) (hc : Good c) : ∃ t, allocate (V := V) (construct c) = some t ∧ Inv c (construct c) t ∧
    ((construct c).bdf, (construct c).tab) = inPlace c [] := by
  have hl := weights_length (K := K) c.order hc.order
  have h1 := hc.tab
  have h2 := hc.startTab
  have ho := hc.order
  have ne : ∀ o : Int, 1 ≤ o → o ≤ 6 → (bdfWeights o.toNat : List K) ≠ [] := by
    intro o a b e
    have := weights_length (K := K) o ⟨a, b⟩
    rw [e] at this
    simp at this; omega
  by_cases hg : c.order > 1
  · have hs := hc.start hg
    have hl' := weights_length (K := K) c.startOrder hs
    have e1 : (construct c).maxsteps = max (max 0 (((bdfWeights c.order.toNat : List K).length : Int) - 1))
        (((bdfWeights c.startOrder.toNat : List K).length : Int) - 1) := by
      simp [construct, hg, setTableau, setBDF, fresh]
    have e2 : (construct c).maxstages = max c.tab.stages c.startTab.stages := by
      simp [construct, hg, setTableau, setBDF, fresh]
    have e3 : (construct c).bdf = bdfWeights c.startOrder.toNat := by simp [construct, hg, setTableau, setBDF]
    have e4 : (construct c).tab = c.startTab := by simp [construct, hg, setTableau]
    have e5 : (construct c).numstages = c.startTab.stages := by simp [construct, hg, setTableau]
    refine ⟨_, if_pos ⟨by omega, by rw [e2]; omega⟩, ⟨?_, ?_, ?_, ?_, ?_, ?_, ?_, ?_, ?_, ?_⟩, ?_⟩
    · rw [e3]; exact ne _ hs.1 hs.2
    · rw [e3]; omega
    · omega
    · omega
    · simp only [List.length_replicate]; omega
    · rw [e4, e5]
    · rw [e4]; exact h2
    · rw [e4, e2]; omega
    · simp only [List.length_replicate]; rw [e4, e2]; omega
    · simp only [List.length_replicate]; rw [e2]; omega
    · rw [e3, e4]; simp only [inPlace, if_pos hg]
  · have e1 : (construct c).maxsteps = max 0 (((bdfWeights c.order.toNat : List K).length : Int) - 1) := by
      simp [construct, hg, setTableau, setBDF, fresh]
    have e2 : (construct c).maxstages = c.tab.stages := by
      simp [construct, hg, setTableau, setBDF, fresh]
    have e3 : (construct c).bdf = bdfWeights c.order.toNat := by simp [construct, hg, setTableau, setBDF]
    have e4 : (construct c).tab = c.tab := by simp [construct, hg, setTableau]
    have e5 : (construct c).numstages = c.tab.stages := by simp [construct, hg, setTableau]
    refine ⟨_, if_pos ⟨by omega, by rw [e2]; omega⟩, ⟨?_, ?_, ?_, ?_, ?_, ?_, ?_, ?_, ?_, ?_⟩, ?_⟩
    · rw [e3]; exact ne _ ho.1 ho.2
    · rw [e3]; omega
    · omega
    · omega
    · simp only [List.length_replicate]; omega
    · rw [e4, e5]
    · rw [e4]; exact h1
    · rw [e4, e2]
    · simp only [List.length_replicate]; rw [e4, e2]; omega
    · simp only [List.length_replicate]; rw [e2]; omega
    · rw [e3, e4]; simp only [inPlace, if_neg hg]

/-- **C177, partial.**  For orders 1 to 6 of the main and of the start-up method and any tableaux: in any number of transient runs
with any numbers of steps, rejected ones included, no assembly touches an entry outside the tables, the vectors or the weights,
and every value and derivative in time is that of the integrator in place with the vectors handed in, and not with what
another group, step or run left in the tables.  Missing: other orders (`C177_order_violated`), fine models that keep their own
tables (`C177_synchronous_violated`, `C177_startup_violated`). -/
theorem C177_partial (c : Cfg K) (hc : Good c) (rs : List (List (Attempt K V))) :
    program c rs = some (allValues c [] rs.flatten) := by
  obtain ⟨t, e, i, m⟩ := construct_inv (V := V) c hc
  unfold program
  rw [e, Option.bind_some]
  exact runs_fits c hc rs [] _ t i m

end

/-- [case] Order three after a start with two stages, in a run with a rejected step, then another run. -/
def sample : Cfg ℚ := ⟨3, ⟨[[1]], [1], [1]⟩, 1, ⟨[[1/4, 0], [1/2, 1/4]], [1/2, 1/2], [1/4, 3/4]⟩, 2⟩

/-- [case] Order zero. -/
def orderZero : Cfg ℚ := ⟨0, ⟨[[1]], [1], [1]⟩, 1, ⟨[[1]], [1], [1]⟩, 0⟩

/-- With order zero the tables are made, without entries; the first assembly fails. -/
example : ((allocate (construct orderZero) : Option (Tab ℚ)).map fun t => (t.prev, t.stage)) = some ([], []) := by
  decide +kernel

/-- A case of `C177_partial`. -/
example : Good sample ∧ (program (V := ℚ) sample [[⟨0, 1, [(0, fun _ => 1, fun _ => 2), (1, fun _ => 1, fun _ => 3)]⟩,
    ⟨2, 1/2, [(0, fun j => (j : ℚ), fun _ => 5)]⟩], [⟨0, 1, [(0, fun j => (j : ℚ), fun _ => 7)]⟩]]).isSome = true :=
  ⟨⟨by decide, by intro _; decide, by decide, by decide⟩, by
    rw [C177_partial sample ⟨by decide, by intro _; decide, by decide, by decide⟩]; rfl⟩

/-! ## Orders without weights -/

section
variable [Field K] [AddCommGroup V] [Module K V]

/-- C177 is false for orders below one, which are accepted: there is no vector for the earlier step, and the first step of the
first run writes it. -/
theorem C177_zero_violated (c : Cfg K) (h : c.order < 1) (a : Attempt K V) (as : List (Attempt K V))
    (rs : List (List (Attempt K V))) : program c ((a :: as) :: rs) = none := by
  have e : (construct c).maxsteps = 0 := by
    have hw := weights_none (K := K) c.order (Or.inl h)
    simp [construct, show ¬ c.order > 1 by omega, setTableau, setBDF, fresh, hw]
  unfold program
  cases allocate (V := V) (construct c) with
  | none => rfl
  | some t =>
    simp only [Option.bind_some, runs, e, attempts]
    simp

theorem assembleAll_empty (z : Sizes K) (hz : z.bdf = []) (dt : K) (P : Nat) (a : Asm V) (ha : a.1 < z.numstages)
    (as : List (Asm V)) (t : Tab V) : assembleAll z dt P (a :: as) t = none := by
  have hv : ∀ t' : Tab V, ∀ sv : V, value z dt a.1 t' sv = none := by
    intro t' sv
    unfold value
    rw [if_neg (fun h => h.1 hz)]
  have : ∀ p q, assemble z dt a.1 p q t = none := by
    intro p q
    unfold assemble
    cases q[a.1]? with
    | none => rfl
    | some sv =>
      simp only [Option.bind_eq_bind, Option.bind_some]
      cases putAll t.stage 0 (q.take a.1) with
      | none => rfl
      | some st =>
        simp only [Option.bind_some]
        cases putAll t.prev 0 p with
        | none => rfl
        | some pr => simp only [Option.bind_some, hv]; rfl
  simp only [assembleAll, if_pos ha, this]
  rfl

/-- C177 is false for orders above six, which are accepted: whatever happened before, and with any start-up method, the step at
which the method takes over reads a weight that does not exist. -/
theorem C177_order_violated (c : Cfg K) (h : 6 < c.order) (pre : List (Attempt K V)) (a : Attempt K V)
    (hk : (a.k : Int) = c.startSteps) (x : Asm V) (xs : List (Asm V)) (ha : a.asm = x :: xs) (hx : x.1 < c.tab.stages)
    (post : List (Attempt K V)) (rs : List (List (Attempt K V))) : program c ((pre ++ a :: post) :: rs) = none := by
  have hw := weights_none (K := K) c.order (Or.inr h)
  have key : ∀ (pre : List (Attempt K V)) (P : Nat) (y : Sizes K × Tab V), attempts c P (pre ++ a :: post) y = none := by
    intro pre
    induction pre with
    | nil =>
      intro P y
      simp only [List.nil_append, attempts]
      split
      · have : assembleAll (select c a.k y.1) a.dt P a.asm y.2 = none := by
          rw [ha]
          apply assembleAll_empty
          · simp [select, hk, show c.order > 1 by omega, setTableau, setBDF, hw]
          · simpa [select, hk, show c.order > 1 by omega, setTableau] using hx
        rw [this]; rfl
      · rfl
    | cons b pre ih =>
      intro P y
      simp only [List.cons_append, attempts]
      split
      · cases assembleAll (select c b.k y.1) b.dt P b.asm y.2 with
        | none => rfl
        | some r => simp only [Option.bind_eq_bind, Option.bind_some, ih]; rfl
      · rfl
  unfold program
  cases allocate (V := V) (construct c) with
  | none => rfl
  | some t => simp only [Option.bind_some, runs, key]; rfl

end

/-- A case of `C177_order_violated`: order seven after one step of order one. -/
example : program (K := ℚ) (V := ℚ) ⟨7, ⟨[[1]], [1], [1]⟩, 1, ⟨[[1]], [1], [1]⟩, 1⟩
    [[⟨0, 1, [(0, fun _ => 1, fun _ => 2)]⟩] ++ ⟨1, 1, [(0, fun _ => 2, fun _ => 3)]⟩ :: []] = none :=
  C177_order_violated _ (by decide) _ _ rfl _ _ rfl (by decide) _ _

/-! ## Tables kept by the groups of fine models -/

/-- The loop of `resetPrevSoln` over the entries from the last down to the second, src/tools/group.cpp:444-479,
src/tools/boundaryGroup.cpp:321-334. -/
def shiftDown [Zero V] : Nat → List V → List V
  | 0, t => t
  | s + 1, t => shiftDown s (t.set (s + 1) (t.getD s 0))

/-- `resetPrevSoln`, src/tools/group.cpp:444-479, src/tools/boundaryGroup.cpp:314-349.  `none`: no first entry. -/
def resetPrev [Zero V] (cur : V) (t : List V) : Option (List V) :=
  put (if 1 < t.length then shiftDown (t.length - 1) t else t) 0 cur

/-- `resetStageSoln`, src/tools/group.cpp:510-533, src/tools/boundaryGroup.cpp:379-398. -/
def resetStage (cur : V) (t : List V) : List V := t.map fun _ => cur

/-- `updateStageSoln`, src/tools/group.cpp:539-561, src/tools/boundaryGroup.cpp:404-426: the last stage is not stored. -/
def updateStage (s : Nat) (cur : V) (t : List V) : List V := if s < t.length then t.set s cur else t

/-- `revertSoln`, src/tools/group.cpp:485-504, src/tools/boundaryGroup.cpp:355-373. -/
def revert (t : List V) : Option V := t[0]?

/-- The stages of a fine step from stage `s` on, src/subgrid/subgridDtN_solver.cpp:404-439: the assemblies of a stage at its
iterates, then the last of them (`last`) is stored.  The group's own tables are used as they are. -/
def fineStages [Field K] [AddCommGroup V] [Module K V] (z : Sizes K) (dt : K) :
    Nat → List (List V × V) → Tab V → Option (Tab V × List (V × V))
  | _, [], t => some (t, [])
  | s, (its, last) :: rest, t => do
    let vs ← (its ++ [last]).mapM (value z dt s t)
    let (t', rs) ← fineStages z dt (s + 1) rest { t with stage := updateStage s last t.stage }
    some (t', vs ++ rs)

/-- A fine step, src/subgrid/subgridDtN_solver.cpp:404-484: the stages, then the new state `new` goes to both tables. -/
def fineStep [Field K] [AddCommGroup V] [Module K V] (z : Sizes K) (dt : K) (stages : List (List V × V)) (new : V) (t : Tab V) :
    Option (Tab V × List (V × V)) := do
  let (t', rs) ← fineStages z dt 0 stages t
  let pr ← resetPrev new t'.prev
  some (⟨pr, resetStage new t'.stage⟩, rs)

/-- Fine steps one after the other, src/subgrid/subgridDtN_solver.cpp:380-503: nothing selects another integrator. -/
def fineSteps [Field K] [AddCommGroup V] [Module K V] (z : Sizes K) (dt : K) :
    List (List (List V × V) × V) → Tab V → Option (Tab V × List (V × V))
  | [], t => some (t, [])
  | x :: xs, t => do
    let (t', rs) ← fineStep z dt x.1 x.2 t
    let (t'', rs') ← fineSteps z dt xs t'
    some (t'', rs ++ rs')

/-- [specification, no code] Values of one step: earlier steps `p`, stages numbered from `before.length` on with `before` the
stored values of the earlier ones. -/
def stepValues [Field K] [AddCommGroup V] [Module K V] (m : Integ K) (dt : K) (p : Nat → V) :
    List V → List (List V × V) → List (V × V)
  | _, [] => []
  | before, (its, last) :: rest =>
    ((its ++ [last]).map fun x => (evalPoint m.2 before.length (p 0) (fun j => before.getD j 0) x,
      timeDeriv m.2 m.1 dt before.length p x)) ++ stepValues m dt p (before ++ [last]) rest

/-- [specification, no code] Values of several steps: the earlier steps are the latest states, then those there were at the
start. -/
def stepsValues [Field K] [AddCommGroup V] [Module K V] (m : Integ K) (dt : K) :
    List V → List (List (List V × V) × V) → List (V × V)
  | _, [] => []
  | hist, x :: xs => stepValues m dt (fun j => hist.getD j 0) [] x.1 ++ stepsValues m dt (x.2 :: hist) xs

theorem shiftDown_get [Zero V] : ∀ (n : Nat) (t : List V), n < t.length → (shiftDown n t).length = t.length ∧
    ∀ j, (shiftDown n t).getD j 0 = if 1 ≤ j ∧ j ≤ n then t.getD (j - 1) 0 else t.getD j 0
  | 0, t, _ => ⟨rfl, fun j => by rw [if_neg (by omega)]; rfl⟩
  | s + 1, t, h => by
    obtain ⟨l, g⟩ := shiftDown_get s (t.set (s + 1) (t.getD s 0)) (by simp; omega)
    refine ⟨by simpa [shiftDown] using l, fun j => ?_⟩
    simp only [shiftDown]
    rw [g j]
    by_cases hj : 1 ≤ j ∧ j ≤ s
    · rw [if_pos hj, if_pos ⟨hj.1, by omega⟩]
      simp only [List.getD_eq_getElem?_getD]
      rw [List.getElem?_set_ne (by omega)]
    · rw [if_neg hj]
      by_cases hs : j = s + 1
      · subst hs
        rw [if_pos ⟨by omega, le_refl _⟩]
        simp only [List.getD_eq_getElem?_getD]
        rw [List.getElem?_set_self h]
        simp
      · rw [if_neg (by omega)]
        simp only [List.getD_eq_getElem?_getD]
        rw [List.getElem?_set_ne (by omega)]

/-- The loop in place is a shift: the new state comes first, then the earlier ones, the oldest is dropped. -/
theorem C177_shift [Zero V] (cur : V) (t : List V) (h : t ≠ []) : resetPrev cur t = some ((cur :: t).take t.length) := by
  have hl : 0 < t.length := List.length_pos_iff.mpr h
  obtain ⟨l, g⟩ := shiftDown_get (t.length - 1) t (by omega)
  have l' : (if 1 < t.length then shiftDown (t.length - 1) t else t).length = t.length := by split <;> simp [l]
  unfold resetPrev put
  rw [l', if_pos hl]
  congr 1
  apply List.ext_getElem
  · simp [l']
  intro j h1 h2
  have hj : j < t.length := by simpa [l'] using h1
  match j with
  | 0 => simp
  | j + 1 =>
    have e := g (j + 1)
    rw [if_pos (by omega)] at e
    rw [List.getElem_set_ne (by omega)]
    have h1' : 1 < t.length := by omega
    simp only [List.getElem_take, List.getElem_cons_succ]
    simp only [if_pos h1']
    simp only [List.getD_eq_getElem?_getD] at e
    rw [List.getElem?_eq_getElem (by omega), List.getElem?_eq_getElem (by omega)] at e
    simpa using e

section
variable [Field K] [AddCommGroup V] [Module K V]

theorem mapM_value (z : Sizes K) (dt : K) (s : Nat) (t : Tab V) (p : Nat → V) (q : Nat → V)
    (hb : z.bdf ≠ []) (h1 : 1 ≤ t.prev.length) (hw : z.bdf.length - 1 ≤ t.prev.length) (hs : s ≤ t.stage.length)
    (hz : s < z.tab.stages) (hp : ∀ j, j < t.prev.length → t.prev.getD j 0 = p j) (hq : ∀ j, j < s → t.stage.getD j 0 = q j) :
    ∀ xs : List V, xs.mapM (value z dt s t) = some (xs.map fun x =>
      (evalPoint z.tab s (p 0) q x, timeDeriv z.tab z.bdf dt s p x))
  | [] => rfl
  | x :: xs => by
    have e : value z dt s t x = some (evalPoint z.tab s (p 0) q x, timeDeriv z.tab z.bdf dt s p x) := by
      unfold value
      rw [if_pos ⟨hb, h1, hw, hs, hz⟩, hp 0 (by omega), evalPoint_congr z.tab s (p 0) _ q x hq,
        timeDeriv_congr z.tab z.bdf dt s _ p x (fun j hj => hp j (by omega))]
    rw [List.mapM_cons, e, mapM_value z dt s t p q hb h1 hw hs hz hp hq xs]
    rfl

theorem fineStages_fits (z : Sizes K) (dt : K) (p : Nat → V) (hb : z.bdf ≠ []) :
    ∀ (rest : List (List V × V)) (before : List V) (t : Tab V), 1 ≤ t.prev.length → z.bdf.length - 1 ≤ t.prev.length →
      before.length + rest.length ≤ z.tab.stages → z.tab.stages ≤ t.stage.length + 1 →
      (∀ j, j < t.prev.length → t.prev.getD j 0 = p j) →
      (∀ j, j < before.length → j < t.stage.length → t.stage.getD j 0 = before.getD j 0) →
    ∃ t', fineStages z dt before.length rest t = some (t', stepValues (z.bdf, z.tab) dt p before rest) ∧ t'.prev = t.prev ∧
      t'.stage.length = t.stage.length
  | [], before, t, _, _, _, _, _, _ => ⟨t, rfl, rfl, rfl⟩
  | (its, last) :: rest, before, t, h1, hw, hn, hs, hp, hq => by
    simp only [List.length_cons] at hn
    have hm := mapM_value z dt before.length t p (fun j => before.getD j 0) hb h1 hw (by omega) (by omega) hp
      (fun j hj => hq j hj (by omega)) (its ++ [last])
    have hlen : (updateStage before.length last t.stage).length = t.stage.length := by
      unfold updateStage; split <;> simp
    obtain ⟨t', e, l1, l2⟩ := fineStages_fits z dt p hb rest (before ++ [last])
      { t with stage := updateStage before.length last t.stage } h1 hw (by simp; omega) (by simp only [hlen]; exact hs) hp (by
        intro j hj hjt
        simp only [hlen] at hjt
        simp only [List.length_append, List.length_singleton] at hj
        simp only [updateStage]
        by_cases hjb : j = before.length
        · subst hjb
          rw [if_pos hjt]
          simp only [List.getD_eq_getElem?_getD, List.getElem?_set_self hjt]
          simp
        · have hj' : j < before.length := by omega
          have e2 : (before ++ [last]).getD j 0 = before.getD j 0 := by
            simp only [List.getD_eq_getElem?_getD, List.getElem?_append_left hj']
          rw [e2, ← hq j hj' hjt]
          split
          · simp only [List.getD_eq_getElem?_getD]
            rw [List.getElem?_set_ne (by omega)]
          · rfl)
    refine ⟨t', ?_, l1, by rw [l2]; exact hlen⟩
    simp only [List.length_append, List.length_singleton] at e
    simp only [fineStages, hm, Option.bind_eq_bind, Option.bind_some, e, stepValues]

/-- **C177, own tables, partial.**  A fine group whose tables fit its integrator: over any number of fine steps with any iterates,
nothing is read or written outside the tables, and every value and derivative is that of the integrator with the latest
states and the stages of the step.  Missing: integrators that do not fit (`C177_synchronous_violated`), the change to the
main integrator (`C177_startup_violated`). -/
theorem C177_own_partial (z : Sizes K) (dt : K) (hb : z.bdf ≠ []) :
    ∀ (xs : List (List (List V × V) × V)) (t : Tab V) (hist : List V), 1 ≤ t.prev.length → z.bdf.length - 1 ≤ t.prev.length →
      z.tab.stages ≤ t.stage.length + 1 → (∀ x ∈ xs, x.1.length ≤ z.tab.stages) → t.prev = hist.take t.prev.length →
    ∃ t', fineSteps z dt xs t = some (t', stepsValues (z.bdf, z.tab) dt hist xs)
  | [], t, hist, _, _, _, _, _ => ⟨t, rfl⟩
  | x :: xs, t, hist, h1, hw, hs, hx, hh => by
    obtain ⟨t', e, l1, l2⟩ := fineStages_fits z dt (fun j => hist.getD j 0) hb x.1 [] t h1 hw
      (by simpa using hx x List.mem_cons_self) hs (by
        intro j hj
        rw [hh]
        simp only [List.getD_eq_getElem?_getD]
        rw [List.getElem?_take_of_lt hj]) (fun j hj => absurd hj (by simp))
    have ne : t'.prev ≠ [] := by rw [l1]; intro h; rw [h] at h1; simp at h1
    have er := C177_shift x.2 t'.prev ne
    have elen : ((x.2 :: t'.prev).take t'.prev.length).length = t.prev.length := by rw [l1]; simp
    obtain ⟨t'', e2⟩ := C177_own_partial z dt hb xs ⟨(x.2 :: t'.prev).take t'.prev.length, resetStage x.2 t'.stage⟩ (x.2 :: hist)
      (by simp only [elen]; exact h1) (by simp only [elen]; exact hw) (by simp only [resetStage, List.length_map, l2]; exact hs)
      (fun y hy => hx y (List.mem_cons_of_mem _ hy)) (by
        simp only [elen]
        rw [l1]
        obtain ⟨n, hn⟩ : ∃ n, t.prev.length = n + 1 := ⟨t.prev.length - 1, by omega⟩
        rw [hn] at hh ⊢
        rw [List.take_succ_cons, List.take_succ_cons, hh, List.take_take]
        congr 2
        omega)
    refine ⟨t'', ?_⟩
    simp only [List.length_nil] at e
    simp only [fineSteps, fineStep, e, er, Option.bind_eq_bind, Option.bind_some, e2, stepsValues]

end

/-- [case] Order two with its weights, one stage. -/
def ownSample : Sizes ℚ := ⟨[3/2, -2, 1/2], ⟨[[1]], [1], [1]⟩, 2, 1, 2, 1⟩

/-- [case] Two fine steps, the first with three iterates. -/
def ownSteps : List (List (List ℚ × ℚ) × ℚ) := [([([2, 3], 4)], 4), ([([], 9)], 9)]

/-- A case of `C177_own_partial`: tables for two earlier steps. -/
example : ∃ t', fineSteps ownSample 1 ownSteps ⟨[1, 0], []⟩ =
    some (t', stepsValues (ownSample.bdf, ownSample.tab) 1 [1, 0] ownSteps) :=
  C177_own_partial ownSample 1 (by decide) ownSteps ⟨[1, 0], []⟩ [1, 0] (by decide) (by decide) (by decide) (by decide) rfl

/-- The state a group returns to after a rejected step is the one it kept last. -/
theorem C177_revert [Zero V] (cur : V) (t : List V) (h : t ≠ []) : (resetPrev cur t).bind revert = some cur := by
  rw [C177_shift cur t h]
  match t, h with
  | x :: t, _ => rfl

section
variable [Field K] [AddCommGroup V] [Module K V]

/-- The entries for earlier steps that a fine model allocates. -/
theorem own_prev (c : Cfg K) (hc : Good c) (t : Tab V) (h : allocate (V := V) (construct c) = some t) :
    (t.prev.length : Int) = if c.order > 1 then max c.order c.startOrder else c.order := by
  have hl := weights_length (K := K) c.order hc.order
  have ho := hc.order
  unfold allocate at h
  split at h
  · injection h with h
    subst h
    simp only [List.length_replicate]
    by_cases hg : c.order > 1
    · have hl' := weights_length (K := K) c.startOrder (hc.start hg)
      have e : (construct c).maxsteps = max (max 0 (((bdfWeights c.order.toNat : List K).length : Int) - 1))
          (((bdfWeights c.startOrder.toNat : List K).length : Int) - 1) := by
        simp [construct, hg, setTableau, setBDF, fresh]
      rw [if_pos hg]; omega
    · have e : (construct c).maxsteps = max 0 (((bdfWeights c.order.toNat : List K).length : Int) - 1) := by
        simp [construct, hg, setTableau, setBDF, fresh]
      rw [if_neg hg]; omega
  · cases h

/-- C177 is false for synchronous fine models under a coarse method of higher order: the coarse weights are copied
(src/subgrid/subgridDtN_solver.cpp:302; only the number of stages is compared, 280), the tables were allocated for the method
of the fine model, and every evaluation reads outside them. -/
theorem C177_synchronous_violated (fine : Cfg K) (hf : Good fine) (t : Tab V) (h : allocate (V := V) (construct fine) = some t)
    (coarse : Int) (hc : 1 ≤ coarse ∧ coarse ≤ 6)
    (hlt : (if fine.order > 1 then max fine.order fine.startOrder else fine.order) < coarse) (dt : K) (s : Nat) (T : Tableau K)
    (sv : V) : value { construct fine with bdf := bdfWeights coarse.toNat, tab := T } dt s t sv = none := by
  have hl := weights_length (K := K) coarse hc
  have hp := own_prev fine hf t h
  unfold value
  rw [if_neg]
  rintro ⟨_, _, h3, _⟩
  simp only at h3
  omega

end

/-- [case] The default settings. -/
def defaults : Cfg ℚ := ⟨1, ⟨[[1]], [1], [1]⟩, 1, ⟨[[1]], [1], [1]⟩, 1⟩

/-- A case of `C177_synchronous_violated`: coarse order two, nothing said about the order in the fine settings. -/
example : ∃ t, allocate (V := ℚ) (construct defaults) = some t ∧
    value { construct defaults with bdf := bdfWeights (2 : Int).toNat, tab := defaults.tab } 1 0 t 3 = none := by
  have hg : Good defaults := ⟨by decide, by intro _; decide, by decide, by decide⟩
  obtain ⟨t, e, _⟩ := construct_inv (V := ℚ) _ hg
  exact ⟨t, e, C177_synchronous_violated _ hg t e 2 (by decide) (by decide) 1 0 _ 3⟩

/-- C177 is false for fine models that take their own steps and have a start-up method: nothing changes to the main method.  Order
two after a start with order one: in every fine step, also long after the start, with the states 1 and 0 before and the
iterate 4 the derivative is 3, the one of order one, and not 4. -/
theorem C177_startup_violated (a b : Nat) (T : Tableau ℚ) (hT : T = ⟨[[1]], [1], [1]⟩) :
    (value (construct ⟨2, T, 1, T, a⟩) 1 0 (⟨[1, 0], List.replicate b 0⟩ : Tab ℚ) 4) = some (4, 3) ∧
    timeDeriv T (bdfWeights 2) 1 0 (fun j => ([1, 0] : List ℚ).getD j 0) (4 : ℚ) = 4 := by
  subst hT
  refine ⟨?_, ?_⟩
  · unfold value
    rw [if_pos ⟨by simp [construct, setTableau, setBDF, bdfWeights], by simp,
      by simp [construct, setTableau, setBDF, bdfWeights], by simp, by simp [construct, setTableau, Tableau.stages]⟩]
    norm_num [construct, setTableau, setBDF, bdfWeights, evalPoint, timeDeriv, Tableau.a, Tableau.w, List.range_succ]
  · norm_num [bdfWeights, timeDeriv, Tableau.w, List.range_succ]

end MrHyDE.Time.Tables
