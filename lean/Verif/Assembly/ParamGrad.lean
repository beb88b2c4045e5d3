import Verif.Assembly.Newton

/-! # C168: the gradient with respect to discretized parameters, steady runs

`PostprocessManager::computeSensitivities` (/repo/src/managers/postprocess/postprocessManager_objective_gradient.hpp:1618-1650)
adds to the gradient of the discretized parameters the product of the adjoint with the derivative of the residual
(`computeDiscreteSensitivities`, 1661-1718).  That derivative is assembled by `assembleJacRes` with `compute_disc_sens`
(/repo/src/managers/assembly/assemblyManager_jacres.hpp:170-187, 421-447, 545-570), where the parameters are seeded
(/repo/src/tools/workset.cpp:933-972), and scattered transposed (assemblyManager_scatter.hpp:34-47).  One process, one physics
set, steady; the terms of the elements are given functions of state and parameters with their partial derivatives, the
chain rule for derivative numbers is assumed as in C157.  The transient case is C69. -/

namespace MrHyDE.Assembly.ParamGrad

open MrHyDE.Time MrHyDE.Assembly.Newton

set_option linter.unusedSectionVars false
set_option linter.unusedSimpArgs false

variable {K : Type} [Field K]

/-! ## Model -/

/-- One element of a volume or boundary group: numbers of its unknowns and of its parameter unknowns, residual as a function of
both with the partial derivatives; physics->volumeResidual, faceResidual, boundaryResidual and fluxConditions,
assemblyManager_jacres.hpp:381, 397, 527, 531; `LIDs`, `paramLIDs`, 412, 536. -/
structure PTerm (K : Type) where
  vol : Bool
  lid : Nat → Nat
  plid : Nat → Nat
  f : (Nat → K) → (Nat → K) → Nat → K
  du : (Nat → K) → (Nat → K) → Nat → Nat → K
  dp : (Nat → K) → (Nat → K) → Nat → Nat → K

/-- A block: its unknowns, for each variable their places (`offsets`), the places of the parameter unknowns (`paramoffsets` over
all parameters), the width of `paramLIDs`, and whether it has a subgrid model; assemblyManager_jacres.hpp:300-304, 364,
1577-1582. -/
structure PBlock where
  b : Block
  vars : List (List Nat)
  ppos : List Nat
  pwidth : Nat
  multi : Bool

/-- Blocks with their groups of elements; assemblyManager_jacres.hpp:38-104, 336, 505. -/
abbrev PTerms (K : Type) := List (PBlock × List (List (PTerm K)))

/-- An element with the parameters inserted, as the residual and the matrices of the state see it; the parameters are plain
numbers then (`seedwhat` is not 3), workset.cpp:959-967. -/
def PTerm.at (p : Nat → K) (t : PTerm K) : Term K where
  lid := t.lid
  f := fun u _ => t.f u (fun k => p (t.plid k))
  du := fun u _ => t.du u (fun k => p (t.plid k))
  dv := fun _ _ _ _ => 0

/-- All elements with the parameters inserted; workset.cpp:959-967, assemblyManager_jacres.hpp:336, 505. -/
def atParams (p : Nat → K) (ts : PTerms K) : Terms K :=
  ts.map (fun b => (b.1.b, b.2.map (fun g => g.map (PTerm.at p))))

/-- Derivative slots of the residual by the chain rule (assumed, see C157), from those of the state and of the parameters;
assemblyManager_jacres.hpp:381. -/
def pslots (t : PTerm K) (pos ppos : List Nat) (U P : Nat → Dual K) (n k : Nat) : K :=
  (pos.map (fun q => t.du (fun i => (U i).1) (fun i => (P i).1) n q * (U q).2 k)).sum +
  (ppos.map (fun q => t.dp (fun i => (U i).1) (fun i => (P i).1) n q * (P q).2 k)).sum

/-- The slots found in the residual of an element with `seedwhat` 3: the state is plain, the parameter unknown at place `k` has
slot `k`; workset.cpp:891-899 (state), 945-958 (parameters). -/
def elemSlots (u p : Nat → K) (pos ppos : List Nat) (t : PTerm K) (n k : Nat) : K :=
  pslots t pos ppos (fun i => const (u (t.lid i))) (fun i => seed i (p (t.plid i))) n k

/-- `updateParamJac`, `updateParamJacBoundary` on an array of zeros; assemblyManager_jacres.hpp:1571-1596, 1119-1145. -/
def localParamJac (pos ppos : List Nat) (dx : Nat → Nat → K) : Nat → Nat → K :=
  pos.foldl (fun t n => ppos.foldl (fun t m =>
    fun x y => if x = n ∧ y = m then t x y + dx n m else t x y) t) (fun _ _ => 0)

/-- One row of `fixDiagJac`: entry on the diagonal smaller than the tolerance, then the row of the variable is replaced; `none`:
outside of the array, which has `cols` columns.  With one unknown the quotient is a division by zero, its result is overwritten.
assemblyManager_jacres.hpp:1514-1527. -/
def fixRow [LinearOrder K] (tol : K) (cols : Nat) (var : List Nat) (lj : Nat → Nat → K) (d : Nat) : Option (Nat → Nat → K) :=
  if cols ≤ d then none
  else if |lj d d| < tol then
    if ∀ j ∈ var, j < cols then
      some (fun x y => if x = d ∧ y = d then 1 else if x = d ∧ y ∈ var then -(1 / ((var.length : K) - 1)) else lj x y)
    else none
  else some lj

/-- `fixDiagJac`, assemblyManager_jacres.hpp:1499-1531. -/
def fixDiag [LinearOrder K] (tol : K) (cols : Nat) (vars : List (List Nat)) (lj : Nat → Nat → K) : Option (Nat → Nat → K) :=
  (vars.flatMap (fun v => v.map (fun d => (v, d)))).foldlM (fun lj vd => fixRow tol cols vd.1 lj vd.2) lj

/-- `scatterJac` with `compute_disc_sens`: rows are parameters, fixed unknowns are not left out;
assemblyManager_scatter.hpp:34-47. -/
def scatterParamOps (ppat : Nat → Nat → Bool) (width pwidth : Nat) (t : PTerm K) (lj : Nat → Nat → K) : List (Loc × K) :=
  (List.range width).flatMap (fun r => (List.range pwidth).flatMap (fun c => sumInto ppat (t.plid c) [(t.lid r, lj r c)]))

/-- The additions of one element; the diagonal is looked after in the volume groups of multiscale blocks;
assemblyManager_jacres.hpp:364-377, 416-444, 545-570. -/
def elemParamOps [LinearOrder K] (ppat : Nat → Nat → Bool) (tol : K) (u p : Nat → K) (b : PBlock) (t : PTerm K) :
    Option (List (Loc × K)) :=
  let lj := localParamJac b.b.pos b.ppos (elemSlots u p b.b.pos b.ppos t)
  (if b.multi && t.vol then fixDiag tol b.pwidth b.vars lj else some lj).map (scatterParamOps ppat b.b.width b.pwidth t)

/-- The additions of all blocks, one kernel for each group; assemblyManager_jacres.hpp:38-104, 336-600. -/
def paramOps [LinearOrder K] (ppat : Nat → Nat → Bool) (tol : K) (u p : Nat → K) (ts : PTerms K) :
    Option (List (List (List (Loc × K)))) :=
  ts.mapM (fun b => b.2.mapM (fun g => (g.mapM (elemParamOps ppat tol u p b.1)).map List.flatten))

/-- `dofConstraints` with `compute_disc_sens`: the columns of pinned points are set to zero for `np` parameters, nothing is done
for strongly prescribed unknowns; assemblyManager_constraints.hpp:96-108, 129-131. -/
def zeroPoints (ppat : Nat → Nat → Bool) (np : Nat) (pts : List Nat) (mem : Loc → K) : Loc → K :=
  pts.foldl (fun m d => (List.range np).foldl (fun m j => replace ppat m j d 0) m) mem

/-- What follows the groups of a block; assemblyManager_jacres.hpp:605-628. -/
def paramPost [LinearOrder K] (ppat : Nat → Nat → Bool) (tol : K) (ncols np : Nat) (pts : List Nat) (fixZero : Bool)
    (mem : Loc → K) : Loc → K :=
  let m := zeroPoints ppat np pts mem
  if fixZero then fixZeroRows tol ppat ncols np m else m

/-- All outcomes of the assembly in `computeDiscreteSensitivities`, started from a zero matrix;
postprocessManager_objective_gradient.hpp:1686-1702.  Export to the owned rows adds nothing on one process. -/
def ParamOut [LinearOrder K] (nw : Nat) (ppat : Nat → Nat → Bool) (tol : K) (ncols np : Nat) (pts : List Nat) (fixZero : Bool)
    (u p : Nat → K) (ts : PTerms K) (G : Loc → K) : Prop :=
  ∃ ops, paramOps ppat tol u p ts = some ops ∧ Assembled nw (paramPost ppat tol ncols np pts fixZero) (fun _ => 0) ops G

/-- What is added to the gradient at a parameter unknown: the product with the adjoint and the explicit derivative of the
objective; postprocessManager_objective_gradient.hpp:1634-1650, 1711-1713. -/
def added (G : Loc → K) (ncols : Nat) (lam ex : Nat → K) (j : Nat) : K := (∑ r ∈ Finset.range ncols, G (Loc.jac j r) * lam r) + ex j

/-- The matrix for the adjoint, from `assembleJacRes` with `useadjoint`; solverManager_solvers.hpp:459-465. -/
def adjointRequest : Request := ⟨true, true, none⟩

/-- All outcomes of the assembly of the matrix of the adjoint; assemblyManager_jacres.hpp:38-104, 336-628. -/
def AdjOut (nw : Nat) (S : Setup) (x : Nat → K) (ts : Terms K) (A : Loc → K) : Prop :=
  ∃ ops, meshOps S.pat (isFixed S.dbc) S.fixed0 false adjointRequest (meshJac Mode.steady x ts) = some ops ∧
    Assembled nw (constrain S.strong S.pat S.ncols S.dbc S.pts true) (fun _ => 0) ops A

/-- The matrix used for the gradient in the steps of a run: with "reuse Jacobian" that of the first step;
postprocessManager_objective_gradient.hpp:1682-1710, linearAlgebraInterface_matrix.hpp:145-162,
linearAlgebraInterface_util.hpp:67-73.  `M` lists the derivatives at the steps, in the order of the adjoint run. -/
def usedMatrix (reuse : Bool) (M : List (Loc → K)) (i : Nat) : Option (Loc → K) := if reuse then M[0]? else M[i]?

/-! ## Specification -/

/-- The partial derivatives of an element are those of its residual, in state and parameters together. [specification, no code] -/
def PTerm.Smooth (t : PTerm ℝ) (pos ppos : List Nat) : Prop :=
  ∀ (u p : ℝ → Nat → ℝ) (u' p' : Nat → ℝ) (s : ℝ), (∀ q, HasDerivAt (fun s => u s q) (u' q) s) → (∀ q, HasDerivAt (fun s => p s q) (p' q) s) →
    ∀ n ∈ pos, HasDerivAt (fun s => t.f (u s) (p s) n)
      ((pos.map (fun q => t.du (u s) (p s) n q * u' q)).sum + (ppos.map (fun k => t.dp (u s) (p s) n k * p' k)).sum) s

/-- What the discretisation provides for unknowns and parameters. [specification, no code] -/
structure PSound (S : Setup) (ppat : Nat → Nat → Bool) (np : Nat) (ts : PTerms K) : Prop where
  part : ∀ b ∈ ts, PartBlock b.1.b
  ppart : ∀ b ∈ ts, b.1.ppos.Nodup ∧ ∀ k ∈ b.1.ppos, k < b.1.pwidth
  couples : ∀ b ∈ ts, ∀ g ∈ b.2, ∀ t ∈ g, ∀ n ∈ b.1.b.pos, ∀ q ∈ b.1.b.pos, S.pat (t.lid n) (t.lid q) = true
  pcouples : ∀ b ∈ ts, ∀ g ∈ b.2, ∀ t ∈ g, ∀ n ∈ b.1.b.pos, ∀ k ∈ b.1.ppos, ppat (t.plid k) (t.lid n) = true
  inside : ∀ b ∈ ts, ∀ g ∈ b.2, ∀ t ∈ g, ∀ n ∈ b.1.b.pos, t.lid n < S.ncols
  pinside : ∀ b ∈ ts, ∀ g ∈ b.2, ∀ t ∈ g, ∀ k ∈ b.1.ppos, t.plid k < np
  table : S.fixed0 = isFixed S.dbc
  strong : S.strong = true
  diag : ∀ r ∈ S.dbc, S.pat r r = true

/-- A sum over all elements. [specification, no code] -/
def overP (f : PBlock → PTerm K → K) (ts : PTerms K) : K := (ts.map (fun b => (b.2.map (fun g => (g.map (f b.1)).sum)).sum)).sum

/-- Entry of the derivative of the residual, parameter `j` and unknown `r`, of an element. [specification, no code] -/
def wanted (u p : Nat → K) (b : PBlock) (t : PTerm K) (j r : Nat) : K :=
  (b.b.pos.map (fun n => (b.ppos.map (fun k => if t.lid n = r ∧ t.plid k = j then
    t.dp (fun i => u (t.lid i)) (fun i => p (t.plid i)) n k else 0)).sum)).sum

/-! ## Lemmas -/

theorem inner_fold (dx : Nat → Nat → K) (n : Nat) : ∀ (ppos : List Nat) (t : Nat → Nat → K) (x y : Nat), ppos.Nodup →
    ppos.foldl (fun t m => fun x y => if x = n ∧ y = m then t x y + dx n m else t x y) t x y =
      if x = n ∧ y ∈ ppos then t x y + dx n y else t x y := by
  intro ppos
  induction ppos with
  | nil => intro t x y _; simp
  | cons a l ih =>
    intro t x y h
    rw [List.nodup_cons] at h
    rw [List.foldl_cons, ih _ x y h.2]
    by_cases hx : x = n
    · by_cases hy : y = a
      · subst hy
        simp [hx, h.1]
      · simp [hx, hy]
    · simp [hx]

theorem outer_fold (dx : Nat → Nat → K) (ppos : List Nat) (hp : ppos.Nodup) : ∀ (pos : List Nat) (t : Nat → Nat → K) (x y : Nat),
    pos.Nodup → pos.foldl (fun t n => ppos.foldl (fun t m =>
      fun x y => if x = n ∧ y = m then t x y + dx n m else t x y) t) t x y =
      if x ∈ pos ∧ y ∈ ppos then t x y + dx x y else t x y := by
  intro pos
  induction pos with
  | nil => intro t x y _; simp
  | cons a l ih =>
    intro t x y h
    rw [List.nodup_cons] at h
    rw [List.foldl_cons, ih _ x y h.2, inner_fold dx a ppos t x y hp]
    by_cases hx : x = a
    · subst hx
      by_cases hy : y ∈ ppos <;> simp [h.1, hy]
    · simp [hx]

theorem localParamJac_eq (pos ppos : List Nat) (h : pos.Nodup) (hp : ppos.Nodup) (dx : Nat → Nat → K) (x y : Nat) :
    localParamJac pos ppos dx x y = if x ∈ pos ∧ y ∈ ppos then dx x y else 0 := by
  unfold localParamJac
  rw [outer_fold dx ppos hp pos _ x y h]
  simp

theorem elemSlots_eq (u p : Nat → K) (pos ppos : List Nat) (hp : ppos.Nodup) (t : PTerm K) (n k : Nat) (hk : k ∈ ppos) :
    elemSlots u p pos ppos t n k = t.dp (fun i => u (t.lid i)) (fun i => p (t.plid i)) n k := by
  unfold elemSlots pslots
  simp only [const, seed, Pi.zero_apply, mul_zero]
  rw [Assembly.sum_zero, zero_add, sum_single ppos hp k hk]
  · simp
  · intro q _ hq
    simp [Ne.symm hq]

theorem total_scatterParam (ppat : Nat → Nat → Bool) (b : PBlock) (hb : PartBlock b.b)
    (hpp : b.ppos.Nodup ∧ ∀ k ∈ b.ppos, k < b.pwidth) (u p : Nat → K) (t : PTerm K)
    (hc : ∀ n ∈ b.b.pos, ∀ k ∈ b.ppos, ppat (t.plid k) (t.lid n) = true) (j r : Nat) :
    total (scatterParamOps ppat b.b.width b.pwidth t (localParamJac b.b.pos b.ppos (elemSlots u p b.b.pos b.ppos t))) (Loc.jac j r) =
      wanted u p b t j r := by
  unfold scatterParamOps wanted
  rw [total_flatMap]
  have hrow : ∀ n, total ((List.range b.pwidth).flatMap (fun c => sumInto ppat (t.plid c)
      [(t.lid n, localParamJac b.b.pos b.ppos (elemSlots u p b.b.pos b.ppos t) n c)])) (Loc.jac j r) =
      if n ∈ b.b.pos then (b.ppos.map (fun k => if t.lid n = r ∧ t.plid k = j then
        t.dp (fun i => u (t.lid i)) (fun i => p (t.plid i)) n k else 0)).sum else 0 := by
    intro n
    rw [total_flatMap, sum_range_of_support _ b.ppos b.pwidth hpp.1 hpp.2]
    · by_cases hn : n ∈ b.b.pos
      · rw [if_pos hn]
        apply Assembly.sum_congr
        intro k hk
        rw [total_sumInto]
        simp only [List.map_cons, List.map_nil, List.sum_cons, List.sum_nil, add_zero]
        have hloc : localParamJac b.b.pos b.ppos (elemSlots u p b.b.pos b.ppos t) n k =
            t.dp (fun i => u (t.lid i)) (fun i => p (t.plid i)) n k := by
          rw [localParamJac_eq _ _ hb.1 hpp.1, if_pos ⟨hn, hk⟩, elemSlots_eq u p _ _ hpp.1 t n k hk]
        rw [hloc]
        by_cases h1 : t.lid n = r
        · by_cases h2 : t.plid k = j
          · subst h1; subst h2
            simp [hc n hn k hk]
          · simp [h2]
        · simp [h1]
      · rw [if_neg hn, Assembly.sum_congr _ (fun _ => (0 : K)), Assembly.sum_zero]
        intro k _
        rw [total_sumInto]
        simp [localParamJac_eq _ _ hb.1 hpp.1, hn]
    · intro x hx
      rw [total_sumInto]
      simp [localParamJac_eq _ _ hb.1 hpp.1, hx]
  rw [Assembly.sum_congr _ _ _ (fun n _ => hrow n), sum_range_of_support _ b.b.pos b.b.width hb.1 hb.2]
  · apply Assembly.sum_congr
    intro n hn
    rw [if_pos hn]
  · intro x hx
    rw [if_neg hx]

theorem overP_congr (f g : PBlock → PTerm K → K) (ts : PTerms K)
    (h : ∀ b ∈ ts, ∀ gr ∈ b.2, ∀ t ∈ gr, f b.1 t = g b.1 t) : overP f ts = overP g ts := by
  unfold overP
  congr 1
  apply List.map_congr_left
  intro b hb
  congr 1
  apply List.map_congr_left
  intro gr hgr
  congr 1
  apply List.map_congr_left
  intro t ht
  exact h b hb gr hgr t ht

theorem overP_add (f g : PBlock → PTerm K → K) (ts : PTerms K) : overP f ts + overP g ts = overP (fun b t => f b t + g b t) ts := by
  have hl : ∀ {A : Type} (f g : A → K) (l : List A), (l.map f).sum + (l.map g).sum = (l.map (fun a => f a + g a)).sum := by
    intro A f g l
    induction l with
    | nil => simp
    | cons a l ih =>
      simp only [List.map_cons, List.sum_cons]
      rw [← ih]; ring
  unfold overP
  rw [hl]
  congr 1
  apply List.map_congr_left
  intro b _
  rw [hl]
  congr 1
  apply List.map_congr_left
  intro gr _
  rw [hl]

theorem overP_finset (n : Nat) (F : Nat → PBlock → PTerm K → K) (d : Nat → K) (ts : PTerms K) :
    ∑ c ∈ Finset.range n, overP (F c) ts * d c = overP (fun b t => ∑ c ∈ Finset.range n, F c b t * d c) ts := by
  unfold overP
  rw [list_finset n (fun (b : PBlock × List (List (PTerm K))) c => (b.2.map (fun g => (g.map (F c b.1)).sum)).sum) d ts]
  congr 1
  apply List.map_congr_left
  intro b _
  rw [list_finset n (fun (g : List (PTerm K)) c => (g.map (F c b.1)).sum) d b.2]
  congr 1
  apply List.map_congr_left
  intro g _
  rw [list_finset n (fun (t : PTerm K) c => F c b.1 t) d g]

theorem over_at (f : List Nat → Term K → K) (p : Nat → K) (ts : PTerms K) :
    over f (atParams p ts) = overP (fun b t => f b.b.pos (t.at p)) ts := by
  unfold over overP atParams
  rw [List.map_map]
  congr 1
  apply List.map_congr_left
  intro b _
  simp only [Function.comp_apply, List.map_map]
  congr 1
  apply List.map_congr_left
  intro g _
  simp [Function.comp_def]

theorem zeroPoints_keep (ppat : Nat → Nat → Bool) (np : Nat) (pts : List Nat) (j r : Nat) (hr : r ∉ pts) (mem : Loc → K) :
    zeroPoints ppat np pts mem (Loc.jac j r) = mem (Loc.jac j r) := by
  unfold zeroPoints
  have hin : ∀ (d : Nat), d ≠ r → ∀ (l : List Nat) (m : Loc → K),
      (l.foldl (fun m j => replace ppat m j d 0) m) (Loc.jac j r) = m (Loc.jac j r) := by
    intro d hd l
    induction l with
    | nil => intro m; rfl
    | cons a l ih =>
      intro m
      rw [List.foldl_cons, ih]
      unfold replace wr
      split
      · refine if_neg ?_
        intro h
        injection h with _ h
        exact hd h.symm
      · rfl
  induction pts generalizing mem with
  | nil => rfl
  | cons a l ih =>
    rw [List.foldl_cons, ih (fun h => hr (by simp [h])), hin a (fun h => hr (by simp [h]))]

theorem paramOps_total [LinearOrder K] (ppat : Nat → Nat → Bool) (tol : K) (u p : Nat → K) (j r : Nat) :
    ∀ (ts : PTerms K), (∀ b ∈ ts, PartBlock b.1.b) → (∀ b ∈ ts, b.1.ppos.Nodup ∧ ∀ k ∈ b.1.ppos, k < b.1.pwidth) →
    (∀ b ∈ ts, ∀ g ∈ b.2, ∀ t ∈ g, ∀ n ∈ b.1.b.pos, ∀ k ∈ b.1.ppos, ppat (t.plid k) (t.lid n) = true) →
    (∀ b ∈ ts, b.1.multi = false) → ∃ ops, paramOps ppat tol u p ts = some ops ∧
      total (ops.map List.flatten).flatten (Loc.jac j r) = overP (fun b t => wanted u p b t j r) ts := by
  intro ts
  induction ts with
  | nil => intro _ _ _ _; exact ⟨[], rfl, by simp [overP]⟩
  | cons b ts ih =>
    intro h1 h2 h3 h4
    obtain ⟨ops, ho, hT⟩ := ih (fun b hb => h1 b (by simp [hb])) (fun b hb => h2 b (by simp [hb]))
      (fun b hb => h3 b (by simp [hb])) (fun b hb => h4 b (by simp [hb]))
    obtain ⟨o, ho1, hT1⟩ := groupMap_total (elemParamOps ppat tol u p b.1) (fun t => wanted u p b.1 t j r) (Loc.jac j r) b.2
      (by
        intro t ht
        rw [List.mem_flatten] at ht
        obtain ⟨g, hg, ht⟩ := ht
        refine ⟨_, by simp only [elemParamOps, h4 b (by simp)]; rfl, ?_⟩
        exact total_scatterParam ppat b.1 (h1 b (by simp)) (h2 b (by simp)) u p t (h3 b (by simp) g hg t ht) j r)
    refine ⟨o :: ops, ?_, ?_⟩
    · unfold paramOps at ho ⊢
      rw [List.mapM_cons, ho1, ho]
      rfl
    · rw [List.map_cons, List.flatten_cons, total_append, hT, hT1]
      unfold overP
      rw [List.map_cons, List.sum_cons, sum_flatten']

/-- The assembled derivative of the residual with respect to the parameters. -/
theorem param_out [LinearOrder K] (nw : Nat) (hw : 1 ≤ nw) (S : Setup) (ppat : Nat → Nat → Bool) (tol : K) (np : Nat) (u p : Nat → K)
    (ts : PTerms K) (hS : PSound S ppat np ts) (hm : ∀ b ∈ ts, b.1.multi = false) (G : Loc → K)
    (hG : ParamOut nw ppat tol S.ncols np S.pts false u p ts G) (j r : Nat) (hr : r ∉ S.pts) :
    G (Loc.jac j r) = overP (fun b t => wanted u p b t j r) ts := by
  obtain ⟨ops, ho, hA⟩ := hG
  obtain ⟨ops', ho', hT⟩ := paramOps_total ppat tol u p j r ts hS.part hS.ppart hS.pcouples hm
  rw [ho] at ho'
  injection ho' with ho'
  subst ho'
  rw [assembled_keep nw hw _ (Loc.jac j r) (fun m => by
    unfold paramPost
    simp only [Bool.false_eq_true, if_false]
    exact zeroPoints_keep ppat np S.pts j r hr m) _ _ _ hA, hT, zero_add]

/-- Sum over a range of one indicator. -/
theorem range_indicator (n i : Nat) (hi : i < n) (v : K) (d : Nat → K) :
    ∑ c ∈ Finset.range n, (if i = c then v else 0) * d c = v * d i := by
  rw [Finset.sum_eq_single i]
  · simp
  · intro c _ hc
    rw [if_neg (Ne.symm hc), zero_mul]
  · intro h
    exact absurd (Finset.mem_range.mpr hi) h

theorem list_mul {A : Type} (f : A → K) (c : K) (l : List A) : (l.map f).sum * c = (l.map (fun a => f a * c)).sum := by
  induction l with
  | nil => simp
  | cons a l ih => rw [List.map_cons, List.sum_cons, add_mul, ih, List.map_cons, List.sum_cons]

/-- Both sums over one element. -/
theorem wanted_sum (u p : Nat → K) (b : PBlock) (t : PTerm K) (ncols np : Nat) (hin : ∀ n ∈ b.b.pos, t.lid n < ncols)
    (hpin : ∀ k ∈ b.ppos, t.plid k < np) (lam e : Nat → K) :
    ∑ j ∈ Finset.range np, (∑ r ∈ Finset.range ncols, wanted u p b t j r * lam r) * e j =
      (b.b.pos.map (fun n => (b.ppos.map (fun k => t.dp (fun i => u (t.lid i)) (fun i => p (t.plid i)) n k * e (t.plid k))).sum
        * lam (t.lid n))).sum := by
  have h1 : ∀ j, ∑ r ∈ Finset.range ncols, wanted u p b t j r * lam r =
      (b.b.pos.map (fun n => (b.ppos.map (fun k => if t.plid k = j then
        t.dp (fun i => u (t.lid i)) (fun i => p (t.plid i)) n k * lam (t.lid n) else 0)).sum)).sum := by
    intro j
    unfold wanted
    rw [list_finset ncols (fun n r => (b.ppos.map (fun k => if t.lid n = r ∧ t.plid k = j then
      t.dp (fun i => u (t.lid i)) (fun i => p (t.plid i)) n k else 0)).sum) lam b.b.pos]
    apply Assembly.sum_congr
    intro n hn
    rw [list_finset ncols (fun k r => if t.lid n = r ∧ t.plid k = j then
      t.dp (fun i => u (t.lid i)) (fun i => p (t.plid i)) n k else 0) lam b.ppos]
    apply Assembly.sum_congr
    intro k _
    by_cases hk : t.plid k = j
    · simp only [hk, and_true, if_true]
      exact range_indicator ncols _ (hin n hn) _ lam
    · simp [hk]
  simp only [h1]
  rw [list_finset np (fun n j => (b.ppos.map (fun k => if t.plid k = j then
    t.dp (fun i => u (t.lid i)) (fun i => p (t.plid i)) n k * lam (t.lid n) else 0)).sum) e b.b.pos]
  apply Assembly.sum_congr
  intro n _
  rw [list_finset np (fun k j => if t.plid k = j then
    t.dp (fun i => u (t.lid i)) (fun i => p (t.plid i)) n k * lam (t.lid n) else 0) e b.ppos, list_mul]
  apply Assembly.sum_congr
  intro k hk
  rw [range_indicator np _ (hpin k hk) _ e]
  ring

/-- Entries of the adjoint matrix in rows that are not fixed, and its fixed rows. -/
theorem adj_out (nw : Nat) (hw : 1 ≤ nw) (S : Setup) (ppat : Nat → Nat → Bool) (np : Nat) (x p : Nat → K) (ts : PTerms K)
    (hS : PSound S ppat np ts) (hne : ts ≠ []) (hpts : S.pts = []) (A : Loc → K) (hA : AdjOut nw S x (atParams p ts) A) (r : Nat) :
    (r ∉ S.dbc → ∀ c, A (Loc.jac r c) = overP (fun b t => elemJac b.b.pos (elemJac' Mode.steady x b.b.pos (t.at p)) c r) ts) ∧
    (r ∈ S.dbc → ∀ c, A (Loc.jac r c) = if c = r then 1 else 0) := by
  obtain ⟨ops, ho, hA⟩ := hA
  have hmem : ∀ b ∈ meshJac Mode.steady x (atParams p ts), ∃ b0 ∈ ts, b.1 = b0.1.b ∧
      ∀ e ∈ b.2.flatten, ∃ g ∈ b0.2, ∃ t ∈ g, e = elemJac' Mode.steady x b0.1.b.pos (t.at p) := by
    intro b hb
    unfold meshJac atParams at hb
    simp only [List.map_map, List.mem_map, Function.comp_apply] at hb
    obtain ⟨b0, hb0, rfl⟩ := hb
    refine ⟨b0, hb0, rfl, ?_⟩
    intro e he
    simp only [List.mem_flatten, List.mem_map] at he
    obtain ⟨_, ⟨g, hg, rfl⟩, he⟩ := he
    simp only [List.mem_map, Function.comp_apply] at he
    obtain ⟨_, ⟨t, ht, rfl⟩, rfl⟩ := he
    exact ⟨g, hg, t, ht, rfl⟩
  have hgood : ∀ b ∈ meshJac Mode.steady x (atParams p ts), Good b.1 adjointRequest := by
    intro b hb
    obtain ⟨b0, hb0, e, _⟩ := hmem b hb
    rw [e]
    have := hS.part b0 hb0
    unfold Good
    simpa [reduceMemory, adjointRequest] using this
  have hcov : Covers S.pat (meshJac Mode.steady x (atParams p ts)) := by
    intro b hb e he n hn q hq
    obtain ⟨b0, hb0, eb, h⟩ := hmem b hb
    obtain ⟨g, hg, t, ht, rfl⟩ := h e he
    rw [eb] at hn hq
    exact hS.couples b0 hb0 g hg t ht n hn q hq
  constructor
  · intro hr c
    obtain ⟨ops', ho', h⟩ := C35_sums_partial nw hw S.pat S.ncols S.strong S.dbc S.pts S.fixed0 adjointRequest
      (meshJac Mode.steady x (atParams p ts)) hcov hgood (fun _ _ => Or.inr hS.table)
    rw [ho] at ho'
    injection ho' with ho'
    subst ho'
    rw [(h _ A hA).2 r c hr (by rw [hpts]; simp), zero_add]
    unfold meshJac
    rw [overMesh_map (atParams p ts) (fun pos => elemJac' Mode.steady x pos), over_at]
    rfl
  · intro hr
    rw [hS.strong] at hA
    exact (C36_identity_row_partial nw hw S.pat S.ncols S.dbc S.pts S.fixed0 adjointRequest
      (meshJac Mode.steady x (atParams p ts)) (by
        intro h
        unfold meshJac atParams at h
        simp at h
        exact hne h) hgood (fun _ _ => Or.inr hS.table) rfl ops ho _ A hA r hr (by rw [hpts]; simp) (hS.diag r hr)
      (fun _ => rfl) (fun _ => rfl)).1

/-- Slots of an element in a steady run. -/
theorem steady_dx (x p : Nat → K) (b : PBlock) (hb : PartBlock b.b) (t : PTerm K) (n q : Nat) (hq : q ∈ b.b.pos) :
    (elemJac' Mode.steady x b.b.pos (t.at p)).dx n q = t.du (fun i => x (t.lid i)) (fun k => p (t.plid k)) n q := by
  rw [slots_eq Mode.steady x b.b.pos hb.1 (t.at p) n q hq]
  simp [rate, dual, seed, const, PTerm.at, plain]

/-- The adjoint matrix between two vectors, element by element. -/
theorem adj_sum (x p : Nat → K) (b : PBlock) (hb : PartBlock b.b) (t : PTerm K) (ncols : Nat) (hin : ∀ n ∈ b.b.pos, t.lid n < ncols)
    (lam d : Nat → K) :
    ∑ r ∈ Finset.range ncols, (∑ c ∈ Finset.range ncols, elemJac b.b.pos (elemJac' Mode.steady x b.b.pos (t.at p)) c r * lam c) * d r =
      (b.b.pos.map (fun n => (b.b.pos.map (fun q => t.du (fun i => x (t.lid i)) (fun k => p (t.plid k)) n q * d (t.lid q))).sum
        * lam (t.lid n))).sum := by
  have hsw : ∑ r ∈ Finset.range ncols, (∑ c ∈ Finset.range ncols, elemJac b.b.pos (elemJac' Mode.steady x b.b.pos (t.at p)) c r * lam c) * d r =
      ∑ c ∈ Finset.range ncols, (∑ r ∈ Finset.range ncols, elemJac b.b.pos (elemJac' Mode.steady x b.b.pos (t.at p)) c r * d r) * lam c := by
    simp only [Finset.sum_mul]
    rw [Finset.sum_comm]
    refine Finset.sum_congr rfl fun c _ => Finset.sum_congr rfl fun r _ => ?_
    ring
  rw [hsw]
  have h1 : ∀ c, ∑ r ∈ Finset.range ncols, elemJac b.b.pos (elemJac' Mode.steady x b.b.pos (t.at p)) c r * d r =
      (b.b.pos.map (fun n => if t.lid n = c then (b.b.pos.map (fun q =>
        t.du (fun i => x (t.lid i)) (fun k => p (t.plid k)) n q * d (t.lid q))).sum else 0)).sum := by
    intro c
    rw [elem_product b.b.pos (elemJac' Mode.steady x b.b.pos (t.at p)) c ncols hin d]
    apply Assembly.sum_congr
    intro n _
    show (if t.lid n = c then _ else _) = _
    by_cases h : t.lid n = c
    · rw [if_pos h, if_pos h]
      apply Assembly.sum_congr
      intro q hq
      rw [steady_dx x p b hb t n q hq]
      rfl
    · rw [if_neg h, if_neg h]
  simp only [h1]
  rw [list_finset ncols (fun n c => if t.lid n = c then (b.b.pos.map (fun q =>
    t.du (fun i => x (t.lid i)) (fun k => p (t.plid k)) n q * d (t.lid q))).sum else 0) lam b.b.pos]
  apply Assembly.sum_congr
  intro n hn
  exact range_indicator ncols _ (hin n hn) _ lam

theorem hasDerivAt_overP (F : PBlock → PTerm ℝ → ℝ → ℝ) (F' : PBlock → PTerm ℝ → ℝ) (s : ℝ) (ts : PTerms ℝ)
    (h : ∀ b ∈ ts, ∀ g ∈ b.2, ∀ t ∈ g, HasDerivAt (F b.1 t) (F' b.1 t) s) :
    HasDerivAt (fun s => overP (fun b t => F b t s) ts) (overP F' ts) s := by
  unfold overP
  refine hasDerivAt_list (fun (b : PBlock × List (List (PTerm ℝ))) s => (b.2.map (fun g => (g.map (fun t => F b.1 t s)).sum)).sum) _ s ts ?_
  intro b hb
  refine hasDerivAt_list (fun (g : List (PTerm ℝ)) s => (g.map (fun t => F b.1 t s)).sum) _ s b.2 ?_
  intro g hg
  exact hasDerivAt_list (fun (t : PTerm ℝ) s => F b.1 t s) _ s g (fun t ht => h b hb g hg t ht)

/-- Rate of the residual of one row along a path of states and parameters that keeps it zero. -/
theorem tangent (nw : Nat) (hw : 1 ≤ nw) (dbc : List Nat) (ts : PTerms ℝ) (hsm : ∀ b ∈ ts, ∀ g ∈ b.2, ∀ t ∈ g, t.Smooth b.1.b.pos b.1.ppos)
    (U P : ℝ → Nat → ℝ) (d e : Nat → ℝ) (s0 : ℝ) (hU : ∀ q, HasDerivAt (fun s => U s q) (d q) s0)
    (hP : ∀ q, HasDerivAt (fun s => P s q) (e q) s0)
    (hR : ∀ s, ∃ R, ResOut nw dbc Mode.steady (U s) (atParams (P s) ts) R ∧ ∀ r, R (Loc.res r 0) = 0) (r : Nat) (hr : r ∉ dbc) :
    overP (fun b t => (b.b.pos.map (fun n => if t.lid n = r then
      (b.b.pos.map (fun q => t.du (fun i => U s0 (t.lid i)) (fun i => P s0 (t.plid i)) n q * d (t.lid q))).sum +
      (b.ppos.map (fun k => t.dp (fun i => U s0 (t.lid i)) (fun i => P s0 (t.plid i)) n k * e (t.plid k))).sum else 0)).sum) ts = 0 := by
  have hzero : ∀ s, overP (fun b t => (b.b.pos.map (fun n => if t.lid n = r then
      -t.f (fun i => U s (t.lid i)) (fun i => P s (t.plid i)) n else 0)).sum) ts = 0 := by
    intro s
    obtain ⟨R, hR1, hR2⟩ := hR s
    have := res_out nw hw dbc Mode.steady (U s) (atParams (P s) ts) R hR1 r
    rw [hR2, if_neg hr, over_at] at this
    exact this.symm
  have hder := hasDerivAt_overP (fun b t s => (b.b.pos.map (fun n => if t.lid n = r then
      -t.f (fun i => U s (t.lid i)) (fun i => P s (t.plid i)) n else 0)).sum)
    (fun b t => (b.b.pos.map (fun n => if t.lid n = r then
      -((b.b.pos.map (fun q => t.du (fun i => U s0 (t.lid i)) (fun i => P s0 (t.plid i)) n q * d (t.lid q))).sum +
      (b.ppos.map (fun k => t.dp (fun i => U s0 (t.lid i)) (fun i => P s0 (t.plid i)) n k * e (t.plid k))).sum) else 0)).sum) s0 ts (by
    intro b hb g hg t ht
    refine hasDerivAt_list (fun n s => if t.lid n = r then -t.f (fun i => U s (t.lid i)) (fun i => P s (t.plid i)) n else 0) _ s0 b.1.b.pos ?_
    intro n hn
    by_cases hl : t.lid n = r
    · simp only [hl, if_true]
      exact (hsm b hb g hg t ht (fun s i => U s (t.lid i)) (fun s i => P s (t.plid i)) (fun q => d (t.lid q)) (fun q => e (t.plid q)) s0
        (fun q => hU _) (fun q => hP _) n hn).neg
    · simp only [hl, if_false]
      exact hasDerivAt_const s0 (0 : ℝ))
  have hc : (fun s => overP (fun b t => (b.b.pos.map (fun n => if t.lid n = r then
      -t.f (fun i => U s (t.lid i)) (fun i => P s (t.plid i)) n else 0)).sum) ts) = fun _ => (0 : ℝ) := funext hzero
  rw [hc] at hder
  have h0 := hder.unique (hasDerivAt_const s0 (0 : ℝ))
  have hadd := overP_add (fun b t => (b.b.pos.map (fun n => if t.lid n = r then
      -((b.b.pos.map (fun q => t.du (fun i => U s0 (t.lid i)) (fun i => P s0 (t.plid i)) n q * d (t.lid q))).sum +
      (b.ppos.map (fun k => t.dp (fun i => U s0 (t.lid i)) (fun i => P s0 (t.plid i)) n k * e (t.plid k))).sum) else 0)).sum)
    (fun b t => (b.b.pos.map (fun n => if t.lid n = r then
      (b.b.pos.map (fun q => t.du (fun i => U s0 (t.lid i)) (fun i => P s0 (t.plid i)) n q * d (t.lid q))).sum +
      (b.ppos.map (fun k => t.dp (fun i => U s0 (t.lid i)) (fun i => P s0 (t.plid i)) n k * e (t.plid k))).sum else 0)).sum) ts
  rw [h0, zero_add] at hadd
  rw [hadd]
  have hl : ∀ (g : Nat → ℝ) (t : PTerm ℝ) (l : List Nat), (l.map (fun n => if t.lid n = r then -g n else 0)).sum +
      (l.map (fun n => if t.lid n = r then g n else 0)).sum = 0 := by
    intro g t l
    induction l with
    | nil => simp
    | cons a l ih =>
      simp only [List.map_cons, List.sum_cons]
      by_cases ha : t.lid a = r
      · simp only [ha, if_true]; linarith
      · simp only [ha, if_false]; linarith
  have hz : overP (fun _ _ => (0 : ℝ)) ts = 0 := by
    unfold overP
    rw [Assembly.sum_congr _ (fun _ => (0 : ℝ)), Assembly.sum_zero]
    intro b _
    rw [Assembly.sum_congr _ (fun _ => (0 : ℝ)), Assembly.sum_zero]
    intro g _
    rw [Assembly.sum_zero]
  refine Eq.trans ?_ hz
  apply overP_congr
  intro b _ g _ t _
  exact hl _ t _

/-- The fixed rows of the adjoint system make the adjoint vanish there. -/
theorem adjoint_fixed (nw : Nat) (hw : 1 ≤ nw) (S : Setup) (ppat : Nat → Nat → Bool) (np : Nat) (x p : Nat → K) (ts : PTerms K)
    (hS : PSound S ppat np ts) (hne : ts ≠ []) (hpts : S.pts = []) (A : Loc → K) (hA : AdjOut nw S x (atParams p ts) A)
    (lam ou : Nat → K) (hlam : ∀ r < S.ncols, product A S.ncols r lam = if r ∈ S.dbc then 0 else -ou r) (r : Nat)
    (hr : r < S.ncols) (hd : r ∈ S.dbc) : lam r = 0 := by
  have h := hlam r hr
  rw [if_pos hd] at h
  unfold product at h
  have hrow := (adj_out nw hw S ppat np x p ts hS hne hpts A hA r).2 hd
  simp only [hrow] at h
  rw [Finset.sum_eq_single r] at h
  · simpa using h
  · intro c _ hc
    rw [if_neg hc, zero_mul]
  · intro h'
    exact absurd (Finset.mem_range.mpr hr) h'

/-! ## C168 -/

/-- C168: in a steady run, for every path of parameters and every path of states that keeps the assembled residual zero and the
fixed unknowns constant, if the adjoint solves the assembled adjoint system with the right hand side `-dObj/du` (zero at fixed
unknowns), then the numbers added to the gradient are the derivative of the objective along the path: explicit part and
part through the state.  Each of the three assemblies may use any number of workers and any schedule.  Partial: exact solves, the
chain rule for derivative numbers assumed, no pinned points, no multiscale blocks (`C168_multiscale_violated`), "fix zero rows" off
(`C168_fix_zero_rows_violated`), one process; transient runs are C69 and `C168_reuse_violated`. -/
theorem C168_partial (nw nw' nw'' : Nat) (hw : 1 ≤ nw) (hw' : 1 ≤ nw') (hw'' : 1 ≤ nw'') (S : Setup) (ppat : Nat → Nat → Bool) (np : Nat)
    (tol : ℝ) (ts : PTerms ℝ) (hS : PSound S ppat np ts) (hne : ts ≠ []) (hpts : S.pts = []) (hm : ∀ b ∈ ts, b.1.multi = false)
    (hsm : ∀ b ∈ ts, ∀ g ∈ b.2, ∀ t ∈ g, t.Smooth b.1.b.pos b.1.ppos)
    (U P : ℝ → Nat → ℝ) (d e : Nat → ℝ) (s0 : ℝ) (hU : ∀ q, HasDerivAt (fun s => U s q) (d q) s0)
    (hP : ∀ q, HasDerivAt (fun s => P s q) (e q) s0)
    (hR : ∀ s, ∃ R, ResOut nw S.dbc Mode.steady (U s) (atParams (P s) ts) R ∧ ∀ r, R (Loc.res r 0) = 0)
    (hfix : ∀ r ∈ S.dbc, ∀ s, U s r = U s0 r)
    (Obj : ℝ → ℝ) (ou ex : Nat → ℝ)
    (hObj : HasDerivAt Obj ((∑ r ∈ Finset.range S.ncols, ou r * d r) + ∑ j ∈ Finset.range np, ex j * e j) s0)
    (A : Loc → ℝ) (hA : AdjOut nw' S (U s0) (atParams (P s0) ts) A)
    (lam : Nat → ℝ) (hlam : ∀ r < S.ncols, product A S.ncols r lam = if r ∈ S.dbc then 0 else -ou r)
    (G : Loc → ℝ) (hG : ParamOut nw'' ppat tol S.ncols np S.pts false (U s0) (P s0) ts G) :
    HasDerivAt Obj (∑ j ∈ Finset.range np, added G S.ncols lam ex j * e j) s0 := by
  refine hObj.congr_deriv ?_
  have hd0 : ∀ r ∈ S.dbc, d r = 0 := by
    intro r hr
    have : (fun s => U s r) = fun _ => U s0 r := funext (hfix r hr)
    have h := hU r
    rw [this] at h
    exact h.unique (hasDerivAt_const s0 _)
  have hl0 := adjoint_fixed nw' hw' S ppat np (U s0) (P s0) ts hS hne hpts A hA lam ou hlam
  -- the state part of the objective through the adjoint
  have h1 : ∑ r ∈ Finset.range S.ncols, ou r * d r =
      -overP (fun b t => (b.b.pos.map (fun n => (b.b.pos.map (fun q =>
        t.du (fun i => U s0 (t.lid i)) (fun k => P s0 (t.plid k)) n q * d (t.lid q))).sum * lam (t.lid n))).sum) ts := by
    have h2 : ∀ r ∈ Finset.range S.ncols, ou r * d r = -((overP (fun b t => ∑ c ∈ Finset.range S.ncols,
        elemJac b.b.pos (elemJac' Mode.steady (U s0) b.b.pos (t.at (P s0))) c r * lam c) ts) * d r) := by
      intro r hr
      by_cases hd : r ∈ S.dbc
      · rw [hd0 r hd]; simp
      · have h := hlam r (Finset.mem_range.mp hr)
        rw [if_neg hd] at h
        unfold product at h
        simp only [(adj_out nw' hw' S ppat np (U s0) (P s0) ts hS hne hpts A hA r).1 hd] at h
        rw [overP_finset] at h
        rw [h]
        ring
    rw [Finset.sum_congr rfl h2, Finset.sum_neg_distrib,
      overP_finset S.ncols (fun r b t => ∑ c ∈ Finset.range S.ncols,
        elemJac b.b.pos (elemJac' Mode.steady (U s0) b.b.pos (t.at (P s0))) c r * lam c) d ts]
    congr 1
    apply overP_congr
    intro b hb g hg t ht
    exact adj_sum (U s0) (P s0) b.1 (hS.part b hb) t S.ncols (hS.inside b hb g hg t ht) lam d
  -- the part of the gradient that goes with the adjoint
  have h3 : ∑ j ∈ Finset.range np, added G S.ncols lam ex j * e j =
      overP (fun b t => (b.b.pos.map (fun n => (b.ppos.map (fun k =>
        t.dp (fun i => U s0 (t.lid i)) (fun i => P s0 (t.plid i)) n k * e (t.plid k))).sum * lam (t.lid n))).sum) ts +
      ∑ j ∈ Finset.range np, ex j * e j := by
    unfold added
    simp only [add_mul, Finset.sum_add_distrib]
    congr 1
    have hGe : ∀ j r, G (Loc.jac j r) = overP (fun b t => wanted (U s0) (P s0) b t j r) ts := fun j r =>
      param_out nw'' hw'' S ppat tol np (U s0) (P s0) ts hS hm G hG j r (by rw [hpts]; simp)
    simp only [hGe]
    have h4 : ∀ j, ∑ r ∈ Finset.range S.ncols, overP (fun b t => wanted (U s0) (P s0) b t j r) ts * lam r =
        overP (fun b t => ∑ r ∈ Finset.range S.ncols, wanted (U s0) (P s0) b t j r * lam r) ts := fun j =>
      overP_finset S.ncols (fun r b t => wanted (U s0) (P s0) b t j r) lam ts
    simp only [h4]
    rw [overP_finset np (fun j b t => ∑ r ∈ Finset.range S.ncols, wanted (U s0) (P s0) b t j r * lam r) e ts]
    apply overP_congr
    intro b hb g hg t ht
    exact wanted_sum (U s0) (P s0) b.1 t S.ncols np (hS.inside b hb g hg t ht) (hS.pinside b hb g hg t ht) lam e
  -- both parts cancel along the path
  have h5 : overP (fun b t => (b.b.pos.map (fun n => (b.b.pos.map (fun q =>
        t.du (fun i => U s0 (t.lid i)) (fun k => P s0 (t.plid k)) n q * d (t.lid q))).sum * lam (t.lid n))).sum) ts +
      overP (fun b t => (b.b.pos.map (fun n => (b.ppos.map (fun k =>
        t.dp (fun i => U s0 (t.lid i)) (fun i => P s0 (t.plid i)) n k * e (t.plid k))).sum * lam (t.lid n))).sum) ts = 0 := by
    have h6 : ∑ r ∈ Finset.range S.ncols, overP (fun b t => (b.b.pos.map (fun n => if t.lid n = r then
        (b.b.pos.map (fun q => t.du (fun i => U s0 (t.lid i)) (fun i => P s0 (t.plid i)) n q * d (t.lid q))).sum +
        (b.ppos.map (fun k => t.dp (fun i => U s0 (t.lid i)) (fun i => P s0 (t.plid i)) n k * e (t.plid k))).sum else 0)).sum) ts * lam r = 0 := by
      apply Finset.sum_eq_zero
      intro r hr
      by_cases hd : r ∈ S.dbc
      · rw [hl0 r (Finset.mem_range.mp hr) hd, mul_zero]
      · rw [tangent nw hw S.dbc ts hsm U P d e s0 hU hP hR r hd, zero_mul]
    rw [overP_finset] at h6
    rw [← h6, overP_add]
    apply overP_congr
    intro b hb g hg t ht
    rw [list_finset S.ncols (fun n r => if t.lid n = r then
        (b.1.b.pos.map (fun q => t.du (fun i => U s0 (t.lid i)) (fun i => P s0 (t.plid i)) n q * d (t.lid q))).sum +
        (b.1.ppos.map (fun k => t.dp (fun i => U s0 (t.lid i)) (fun i => P s0 (t.plid i)) n k * e (t.plid k))).sum else 0) lam b.1.b.pos]
    have hl : ∀ (f g h : Nat → ℝ) (l : List Nat), (∀ n ∈ l, h n = f n + g n) → (l.map f).sum + (l.map g).sum = (l.map h).sum := by
      intro f g h l
      induction l with
      | nil => intro _; simp
      | cons a l ih =>
        intro hh
        simp only [List.map_cons, List.sum_cons]
        rw [hh a (by simp), ← ih (fun n hn => hh n (by simp [hn]))]
        ring
    apply hl
    intro n hn
    rw [range_indicator S.ncols _ (hS.inside b hb g hg t ht n hn) _ lam]
    ring
  rw [h1, h3]
  linarith

/-- C168, entries: for any field, any workers and schedule, pinned points allowed: the entry of the assembled matrix for a
parameter and a free unknown is the sum over the elements of the partial derivative of the residual, and it does not matter
whether the unknown is strongly prescribed. -/
theorem C168_entries [LinearOrder K] (nw : Nat) (hw : 1 ≤ nw) (S : Setup) (ppat : Nat → Nat → Bool) (tol : K) (np : Nat) (u p : Nat → K)
    (ts : PTerms K) (hS : PSound S ppat np ts) (hm : ∀ b ∈ ts, b.1.multi = false) :
    (∃ G, ParamOut nw ppat tol S.ncols np S.pts false u p ts G) ∧
    ∀ G, ParamOut nw ppat tol S.ncols np S.pts false u p ts G → ∀ j r, r ∉ S.pts →
      G (Loc.jac j r) = overP (fun b t => (b.b.pos.map (fun n => (b.ppos.map (fun k => if t.lid n = r ∧ t.plid k = j then
        t.dp (fun i => u (t.lid i)) (fun i => p (t.plid i)) n k else 0)).sum)).sum) ts := by
  constructor
  · obtain ⟨ops, ho, _⟩ := paramOps_total ppat tol u p 0 0 ts hS.part hS.ppart hS.pcouples hm
    obtain ⟨G, hG⟩ := assembled_exists nw hw (paramPost ppat tol S.ncols np S.pts false) ops (fun _ => 0)
    exact ⟨G, ops, ho, hG⟩
  · intro G hG j r hr
    exact param_out nw hw S ppat tol np u p ts hS hm G hG j r hr

/-! ### Where it fails -/

/-- Two unknowns, the first fixed, one parameter: `u1 - p0^2 u0`. [case] -/
def square : PTerm ℝ where
  vol := true
  lid := id
  plid := id
  f := fun u p n => if n = 1 then u 1 - p 0 * p 0 * u 0 else u 0
  du := fun _ p n q => if n = 1 then (if q = 1 then 1 else -(p 0 * p 0)) else (if q = 0 then 1 else 0)
  dp := fun u p n _ => if n = 1 then -(2 * p 0 * u 0) else 0

/-- Its block. [case] -/
def squareBlock : PBlock := ⟨⟨2, [0, 1], true⟩, [[0, 1]], [0], 1, false⟩

/-- Its setup. [case] -/
def squareSetup : Setup := ⟨fun _ _ => true, 2, true, [0], [], isFixed [0]⟩

/-- An element whose residual does not contain the parameter: `u0 - 1`. [case] -/
def flat : PTerm ℚ where
  vol := true
  lid := id
  plid := id
  f := fun u _ _ => u 0 - 1
  du := fun _ _ _ _ => 1
  dp := fun _ _ _ _ => 0

/-- Its block. [case] -/
def flatBlock : PBlock := ⟨⟨1, [0], true⟩, [[0]], [0], 1, false⟩

/-- C168 is false with "fix zero rows": the option is meant for the matrix of the state, but it also runs on the derivative of
the residual with respect to the parameters.  A parameter that is not in the residual at all gets the adjoint at the unknown with
the same number as its gradient. -/
theorem C168_fix_zero_rows_violated (nw : Nat) (hw : 1 ≤ nw) (tol : ℚ) (htol : 0 < tol) (u p lam ex : Nat → ℚ) (G : Loc → ℚ)
    (hG : ParamOut nw (fun _ _ => true) tol 1 1 [] true u p [(flatBlock, [[flat]])] G) :
    added G 1 lam ex 0 = lam 0 + ex 0 := by
  obtain ⟨ops, ho, hA⟩ := hG
  have h0 : paramOps (fun _ _ => true) tol u p [(flatBlock, [[flat]])] = some [[[(Loc.jac 0 0, 0)]]] := by
    simp [paramOps, flatBlock, elemParamOps, scatterParamOps, localParamJac, elemSlots, pslots, flat, sumInto, const]
  rw [h0] at ho
  injection ho with ho
  subst ho
  cases hA with
  | cons _ mem1 _ _ _ h1 h2 =>
    cases h2
    have hz := kernels_total nw hw _ _ _ h1 (Loc.jac 0 0)
    have hz' : mem1 (Loc.jac 0 0) = 0 := by rw [hz]; simp [total]
    have hG : paramPost (fun _ _ => true) tol 1 1 [] true mem1 (Loc.jac 0 0) = 1 := by
      unfold paramPost zeroPoints
      simp only [List.foldl_nil, if_true]
      rw [fixZeroRows_jac]
      simp [hz', htol, absRow]
    unfold added
    rw [Finset.sum_range_one, hG, one_mul]

/-- An element of a multiscale block: the residual of the first unknown is `5 p1`, that of the second zero. [case] -/
def bridge : PTerm ℚ where
  vol := true
  lid := id
  plid := id
  f := fun _ p n => if n = 0 then 5 * p 1 else 0
  du := fun _ _ _ _ => 0
  dp := fun _ _ n k => if n = 0 ∧ k = 1 then 5 else 0

/-- Its block, with `w` parameter unknowns. [case] -/
def bridgeBlock (w : Nat) : PBlock := ⟨⟨2, [0, 1], true⟩, [[0, 1]], List.range w, w, true⟩

/-- C168 is false for blocks with a subgrid model: `fixDiagJac` looks at the diagonal of the array that holds the derivatives with
respect to the parameters.  With fewer parameter unknowns than unknowns it leaves the array; otherwise it replaces derivatives:
here the entry for parameter 1 and unknown 0 becomes -1 although the derivative is 5. -/
theorem C168_multiscale_violated :
    (∀ (ppat : Nat → Nat → Bool) (tol : ℚ) (u p : Nat → ℚ), paramOps ppat tol u p [(bridgeBlock 1, [[bridge]])] = none) ∧
    ∀ (nw : Nat) (_ : 1 ≤ nw) (tol : ℚ) (_ : 0 < tol) (u p : Nat → ℚ) (G : Loc → ℚ),
      ParamOut nw (fun _ _ => true) tol 2 2 [] false u p [(bridgeBlock 2, [[bridge]])] G →
      G (Loc.jac 1 0) = -1 ∧ wanted u p (bridgeBlock 2) bridge 1 0 = 5 := by
  constructor
  · intro ppat tol u p
    have h : ∀ lj : Nat → Nat → ℚ, fixDiag tol 1 [[0, 1]] lj = none := by
      intro lj
      simp only [fixDiag, fixRow, List.flatMap_cons, List.flatMap_nil, List.map_cons, List.map_nil, List.append_nil, List.foldlM_cons]
      by_cases h : |lj 0 0| < tol <;> simp [h]
    simp [paramOps, elemParamOps, bridgeBlock, bridge, h]
  · intro nw hw tol htol u p G ⟨ops, ho, hA⟩
    refine ⟨?_, by simp [wanted, bridgeBlock, bridge, List.range_succ]⟩
    have h : ∀ lj : Nat → Nat → ℚ, lj 0 0 = 0 → lj 1 1 = 0 → fixDiag tol 2 [[0, 1]] lj =
        some (fun x y => if x = 1 ∧ y = 1 then 1 else if x = 1 ∧ y ∈ [0, 1] then -(1 / ((2 : ℚ) - 1)) else
          if x = 0 ∧ y = 0 then 1 else if x = 0 ∧ y ∈ [0, 1] then -(1 / ((2 : ℚ) - 1)) else lj x y) := by
      intro lj h0 h1
      simp [fixDiag, fixRow, h0, h1, htol]
    have hl : ∀ x, localParamJac [0, 1] (List.range 2) (elemSlots u p [0, 1] (List.range 2) bridge) x x = 0 := by
      intro x
      rw [localParamJac_eq _ _ (by decide) (by decide)]
      by_cases hx : x ∈ [0, 1] ∧ x ∈ List.range 2
      · rw [if_pos hx, elemSlots_eq u p _ _ (by decide) bridge x x hx.2]
        simp only [bridge]
        rw [if_neg]
        omega
      · rw [if_neg hx]
    have hops : paramOps (fun _ _ => true) tol u p [(bridgeBlock 2, [[bridge]])] =
        some [[[(Loc.jac 0 0, 1), (Loc.jac 1 0, -1), (Loc.jac 0 1, -1), (Loc.jac 1 1, 1)]]] := by
      have he : elemParamOps (fun _ _ => true) tol u p (bridgeBlock 2) bridge =
          some [(Loc.jac 0 0, 1), (Loc.jac 1 0, -1), (Loc.jac 0 1, -1), (Loc.jac 1 1, 1)] := by
        show (fixDiag tol 2 [[0, 1]] (localParamJac [0, 1] (List.range 2) (elemSlots u p [0, 1] (List.range 2) bridge))).map
          (scatterParamOps (fun _ _ => true) 2 2 bridge) = _
        rw [h _ (hl 0) (hl 1)]
        norm_num [scatterParamOps, sumInto, bridge, bridgeBlock, List.range_succ]
      simp [paramOps, he]
    rw [hops] at ho
    injection ho with ho
    subst ho
    rw [assembled_keep nw hw _ (Loc.jac 1 0) (fun m => rfl) _ _ _ hA]
    simp [total]

/-- An element with residual `p0 u0 - 1`: linear in the state. [case] -/
def bilinear : PTerm ℚ where
  vol := true
  lid := id
  plid := id
  f := fun u p _ => p 0 * u 0 - 1
  du := fun _ p _ _ => p 0
  dp := fun u _ _ _ => u 0

/-- C168 is false with "reuse Jacobian": the derivative with respect to the parameters is then kept from the first step of the
adjoint run, although it depends on the state.  For states 2 and 3 in the first two steps of the adjoint run the matrix used in the
second has the entry 2 instead of 3, also for a problem that is linear in the state. -/
theorem C168_reuse_violated (nw : Nat) (hw : 1 ≤ nw) (tol : ℚ) (p : Nat → ℚ) (M0 M1 : Loc → ℚ)
    (h0 : ParamOut nw (fun _ _ => true) tol 1 1 [] false (fun _ => 2) p [(flatBlock, [[bilinear]])] M0)
    (h1 : ParamOut nw (fun _ _ => true) tol 1 1 [] false (fun _ => 3) p [(flatBlock, [[bilinear]])] M1) :
    (usedMatrix true [M0, M1] 1).map (fun M => M (Loc.jac 0 0)) = some 2 ∧
    (usedMatrix false [M0, M1] 1).map (fun M => M (Loc.jac 0 0)) = some 3 := by
  have hS : PSound ⟨fun _ _ => true, 1, true, [], [], isFixed []⟩ (fun _ _ => true) 1 [(flatBlock, [[bilinear]])] := by
    constructor <;> simp [flatBlock, PartBlock, bilinear]
  have e0 := (C168_entries nw hw _ _ tol 1 _ p _ hS (by simp [flatBlock])).2 M0 h0 0 0 (by simp)
  have e1 := (C168_entries nw hw _ _ tol 1 _ p _ hS (by simp [flatBlock])).2 M1 h1 0 0 (by simp)
  simp [overP, flatBlock, bilinear] at e0 e1
  simp [usedMatrix, e0, e1]

/-! ### Cases -/

theorem square_sound : PSound squareSetup (fun _ _ => true) 1 [(squareBlock, [[square]])] := by
  constructor <;> simp [squareBlock, squareSetup, PartBlock, square]

theorem square_smooth : square.Smooth [0, 1] [0] := by
  intro u p u' p' s hu hp n hn
  simp only [List.mem_cons, List.not_mem_nil, or_false] at hn
  rcases hn with rfl | rfl
  · simpa [square] using hu 0
  · have h := (hu 1).sub (((hp 0).mul (hp 0)).mul (hu 0))
    simp only [square, if_true]
    refine h.congr_deriv ?_
    simp
    ring

/-- C168 for the state `(1, s^2)` with parameter `s` and the objective `u1^2 / 2`: whatever the schedules, the gradient is
`2 s^3`. -/
example (s0 : ℝ) (G : Loc → ℝ) (hG : ParamOut 3 (fun _ _ => true) (1 / 10) 2 1 [] false (fun i => if i = 1 then s0 * s0 else 1)
      (fun _ => s0) [(squareBlock, [[square]])] G) :
    HasDerivAt (fun s => s * s * (s * s) / 2) (added G 2 (fun i => if i = 1 then -(s0 * s0) else 0) (fun _ => 0) 0) s0 := by
  obtain ⟨ops, ho, _⟩ := C35_sums_partial 2 (by decide) squareSetup.pat squareSetup.ncols squareSetup.strong squareSetup.dbc
    squareSetup.pts squareSetup.fixed0 adjointRequest
    (meshJac Mode.steady (fun i => if i = 1 then s0 * s0 else 1) (atParams (fun _ => s0) [(squareBlock, [[square]])]))
    (by intro b hb e he p hp q hq; rfl)
    (by
      intro b hb
      simp only [meshJac, atParams, List.map_cons, List.map_nil, List.mem_cons, List.not_mem_nil, or_false] at hb
      subst hb
      simp [Good, reduceMemory, adjointRequest, PartBlock, squareBlock]) (fun _ _ => Or.inr rfl)
  obtain ⟨A, hA⟩ := assembled_exists 2 (by decide) (constrain squareSetup.strong squareSetup.pat squareSetup.ncols squareSetup.dbc
    squareSetup.pts true) ops (fun _ => (0 : ℝ))
  have hA' : AdjOut 2 squareSetup (fun i => if i = 1 then s0 * s0 else 1) (atParams (fun _ => s0) [(squareBlock, [[square]])]) A :=
    ⟨ops, ho, hA⟩
  have hrow := adj_out 2 (by decide) squareSetup (fun _ _ => true) 1 _ _ _ square_sound (by simp) rfl A hA'
  have h := C168_partial 1 2 3 (by decide) (by decide) (by decide) squareSetup (fun _ _ => true) 1 (1 / 10) [(squareBlock, [[square]])]
    square_sound (by simp) rfl (by simp [squareBlock]) (by
      intro b hb g hg t ht
      simp only [List.mem_cons, List.not_mem_nil, or_false] at hb
      subst hb
      simp only [List.mem_cons, List.not_mem_nil, or_false] at hg
      subst hg
      simp only [List.mem_cons, List.not_mem_nil, or_false] at ht
      subst ht
      exact square_smooth)
    (fun s i => if i = 1 then s * s else 1) (fun s _ => s) (fun i => if i = 1 then 2 * s0 else 0) (fun _ => 1) s0 (by
      intro q
      by_cases hq : q = 1
      · simp only [hq, if_true]
        exact ((hasDerivAt_id s0).mul (hasDerivAt_id s0)).congr_deriv (by simp; ring)
      · simp only [hq, if_false]
        exact hasDerivAt_const s0 (1 : ℝ)) (fun _ => hasDerivAt_id s0) (by
      intro s
      obtain ⟨R, hR⟩ := assembled_exists 1 (by decide) id (opsRes (isFixed squareSetup.dbc) (meshRes Mode.steady
        (fun i => if i = 1 then s * s else 1) (atParams (fun _ => s) [(squareBlock, [[square]])]))) (fun _ => (0 : ℝ))
      refine ⟨R, hR, ?_⟩
      intro r
      rw [res_out 1 (by decide) _ _ _ _ R hR r]
      by_cases hr : r ∈ squareSetup.dbc
      · rw [if_pos hr]
      · rw [if_neg hr, over_at]
        simp only [squareSetup, List.mem_cons, List.not_mem_nil, or_false] at hr
        simp [overP, elemRes, elemRes', PTerm.at, square, squareBlock, plain, Ne.symm hr])
    (by intro r hr s; simp only [squareSetup, List.mem_cons, List.not_mem_nil, or_false] at hr; simp [hr])
    (fun s => s * s * (s * s) / 2) (fun i => if i = 1 then s0 * s0 else 0) (fun _ => 0) (by
      have hq : HasDerivAt (fun s : ℝ => s * s) (2 * s0) s0 := ((hasDerivAt_id s0).mul (hasDerivAt_id s0)).congr_deriv (by simp; ring)
      refine ((hq.mul hq).div_const 2).congr_deriv ?_
      simp [squareSetup, Finset.sum_range_succ]
      ring) A hA' (fun i => if i = 1 then -(s0 * s0) else 0) (by
      intro r hr
      unfold product
      by_cases h0 : r = 0
      · subst h0
        simp [(hrow 0).2 (by simp [squareSetup]), squareSetup, Finset.sum_range_succ]
      · have h1 : r = 1 := by simp only [squareSetup] at hr; omega
        subst h1
        simp only [(hrow 1).1 (by simp [squareSetup])]
        have he : ∀ (s : ℝ) c, overP (fun b t => elemJac b.b.pos (elemJac' Mode.steady (fun i => if i = 1 then s0 * s0 else 1) b.b.pos
            (t.at (fun _ => s0))) c 1) [(squareBlock, [[square]])] =
            elemJac [0, 1] (elemJac' Mode.steady (fun i => if i = 1 then s0 * s0 else 1) [0, 1] (square.at (fun _ => s0))) c 1 := by
          intro s c; simp [overP, squareBlock]
        simp only [he 0]
        simp [squareSetup, Finset.sum_range_succ, elemJac, elemJac', slots, dual, PTerm.at, square, seed, const]) G hG
  simpa [squareSetup] using h

end MrHyDE.Assembly.ParamGrad
