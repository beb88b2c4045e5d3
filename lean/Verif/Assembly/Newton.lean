import Verif.Assembly.ScatterProps
import Verif.Time.Seed
import Mathlib.Analysis.Calculus.Deriv.Add
import Mathlib.Analysis.Calculus.Deriv.Mul
import Mathlib.Tactic.Ring
import Mathlib.Tactic.NormNum

/-! # C157: the matrix of a Newton step is the derivative of its residual

The residual of a Newton step comes from `assembleRes`, evaluated with plain numbers
(/repo/src/managers/assembly/assemblyManager_jacres.hpp:669-875), its matrix from `assembleJacRes`, evaluated with derivative
numbers (121-630); /repo/src/managers/solver/solverManager_solvers.hpp:373-384, 459-465.  Both are composed here from the seeds
(`Time.seeded`), the terms of the elements, and the scatter kernels with any schedule (`Assembly.Kernels`).  The terms are
given functions of the local coefficients with their partial derivatives; that the arithmetic of the derivative numbers yields
the chain rule is assumed (`slots`).  Boundary groups are further groups of their block. -/

namespace MrHyDE.Assembly.Newton

open MrHyDE.Time

set_option linter.unusedSectionVars false

variable {K : Type} [Field K]

/-- What one element adds in all its terms: local numbers, residual at a local unknown from coefficients and their time
derivatives, and the two families of partial derivatives; physics->volumeResidual, faceResidual, boundaryResidual and
fluxConditions, assemblyManager_jacres.hpp:381, 397, 527, 531 and 812, 823, 861, 862. -/
structure Term (K : Type) where
  lid : Nat → Nat
  f : (Nat → K) → (Nat → K) → Nat → K
  du : (Nat → K) → (Nat → K) → Nat → Nat → K
  dv : (Nat → K) → (Nat → K) → Nat → Nat → K

/-- The method and what it keeps fixed during the Newton iteration: previous solutions, earlier stages; a steady run has none.
/repo/src/tools/workset.cpp:600-834 (transient), 864-902 (steady). -/
inductive Mode (K : Type) where
  | steady
  | transient (T : Tableau K) (bdf : List K) (dt : K) (stage : Nat) (prev stages : Nat → Nat → K)

/-- Plain coefficients and time derivatives, `computeSolnTransientSeeded<ScalarT>`, `computeSolnSteadySeeded<ScalarT>`;
workset.cpp:520-598, 841-862.  In a steady run the time derivative keeps its initial zeros. -/
def plain (m : Mode K) (x : Nat → K) (j : Nat) : K × K :=
  match m with
  | .steady => (x j, 0)
  | .transient T bdf dt s prev st => (evalPoint T s (prev 0 j) (fun i => st i j) (x j), timeDeriv T bdf dt s (fun i => prev i j) (x j))

/-- The same with derivative numbers and `seedwhat` 1, the slot being the local position; workset.cpp:619-660, 875-890. -/
def dual (m : Mode K) (x : Nat → K) (j slot : Nat) : Dual K × Dual K :=
  match m with
  | .steady => (seed slot (x j), const 0)
  | .transient T bdf dt s prev st => seeded T bdf dt s ⟨1, 0⟩ slot (fun i => prev i j) (fun i => st i j) (x j)

/-- Derivative slots of the residual by the chain rule (arithmetic of `Sacado::Fad::SFad`, assumed);
assemblyManager_jacres.hpp:381. -/
def slots (t : Term K) (pos : List Nat) (U V : Nat → Dual K) (p k : Nat) : K :=
  (pos.map (fun q => t.du (fun i => (U i).1) (fun i => (V i).1) p q * (U q).2 k +
    t.dv (fun i => (U i).1) (fun i => (V i).1) p q * (V q).2 k)).sum

/-- An element in `assembleRes`, assemblyManager_jacres.hpp:789-828; there are no derivatives. -/
def elemRes' (m : Mode K) (x : Nat → K) (t : Term K) : Elem K where
  lid := t.lid
  val := t.f (fun i => (plain m x (t.lid i)).1) (fun i => (plain m x (t.lid i)).2)
  dx := fun _ _ => 0

/-- An element in `assembleJacRes`, assemblyManager_jacres.hpp:341-403. -/
def elemJac' (m : Mode K) (x : Nat → K) (pos : List Nat) (t : Term K) : Elem K :=
  let U := fun i => (dual m x (t.lid i) i).1
  let V := fun i => (dual m x (t.lid i) i).2
  { lid := t.lid, val := t.f (fun i => (U i).1) (fun i => (V i).1), dx := slots t pos U V }

/-- Blocks with the terms of their elements, in groups; assemblyManager_jacres.hpp:38-104, 336, 505. -/
abbrev Terms (K : Type) := List (Block × List (List (Term K)))

/-- The elements as `assembleRes` finds them; assemblyManager_jacres.hpp:652-659, 781-873. -/
def meshRes (m : Mode K) (x : Nat → K) (ts : Terms K) : Mesh K :=
  ts.map (fun b => (b.1, b.2.map (fun g => g.map (elemRes' m x))))

/-- The elements as `assembleJacRes` finds them; assemblyManager_jacres.hpp:38-104, 336-600. -/
def meshJac (m : Mode K) (x : Nat → K) (ts : Terms K) : Mesh K :=
  ts.map (fun b => (b.1, b.2.map (fun g => g.map (elemJac' m x b.1.pos))))

/-- The additions of `assembleRes`: one kernel for each group; assemblyManager_scatter.hpp:283-336. -/
def opsRes (fixed : Nat → Bool) (mesh : Mesh K) : List (List (List (Loc × K))) :=
  mesh.map (fun b => b.2.map (fun g => (g.map (resOps fixed b.1.pos)).flatten))

/-- What a Newton step asks for; solverManager_solvers.hpp:461-463. -/
def newton : Request := ⟨true, false, none⟩

/-! ## Specification -/

/-- In some direction, the rate of change of a residual entry. [specification, no code] -/
def product (mem : Loc → K) (ncols r : Nat) (d : Nat → K) : K := ∑ c ∈ Finset.range ncols, mem (Loc.jac r c) * d c

/-- All global numbers of unknowns are columns of the matrix. [specification, no code] -/
def Inside (ts : Terms K) (ncols : Nat) : Prop := ∀ b ∈ ts, ∀ g ∈ b.2, ∀ t ∈ g, ∀ p ∈ b.1.pos, t.lid p < ncols

/-- The graph of the matrix holds all couplings. [specification, no code] -/
def Couples (pat : Nat → Nat → Bool) (ts : Terms K) : Prop :=
  ∀ b ∈ ts, ∀ g ∈ b.2, ∀ t ∈ g, ∀ p ∈ b.1.pos, ∀ q ∈ b.1.pos, pat (t.lid p) (t.lid q) = true

/-- The partial derivatives of a term are those of its residual. [specification, no code] -/
def Term.Smooth (t : Term ℝ) (pos : List Nat) : Prop :=
  ∀ (u v : ℝ → Nat → ℝ) (u' v' : Nat → ℝ) (s : ℝ), (∀ q, HasDerivAt (fun s => u s q) (u' q) s) → (∀ q, HasDerivAt (fun s => v s q) (v' q) s) →
    ∀ p ∈ pos, HasDerivAt (fun s => t.f (u s) (v s) p)
      ((pos.map (fun q => t.du (u s) (v s) p q * u' q + t.dv (u s) (v s) p q * v' q)).sum) s

/-- A term is affine, with constant partial derivatives. [specification, no code] -/
def Term.Affine (t : Term K) (pos : List Nat) : Prop :=
  ∀ (u v a b : Nat → K), ∀ p ∈ pos, t.f (fun q => u q + a q) (fun q => v q + b q) p = t.f u v p +
    (pos.map (fun q => t.du u v p q * a q + t.dv u v p q * b q)).sum

/-! ## Lemmas -/

theorem dual_value (m : Mode K) (x : Nat → K) (j slot : Nat) :
    (dual m x j slot).1.1 = (plain m x j).1 ∧ (dual m x j slot).2.1 = (plain m x j).2 := by
  cases m with
  | steady => exact ⟨rfl, rfl⟩
  | transient T bdf dt s prev st =>
    obtain ⟨h1, h2, _⟩ := C52 T bdf dt s ⟨1, 0⟩ slot (fun i => prev i j) (fun i => st i j) (x j)
    exact ⟨h1, h2⟩

theorem dual_other (m : Mode K) (x : Nat → K) (j slot k : Nat) (hk : k ≠ slot) :
    (dual m x j slot).1.2 k = 0 ∧ (dual m x j slot).2.2 k = 0 := by
  cases m with
  | steady => exact ⟨by simp [dual, seed, hk], rfl⟩
  | transient T bdf dt s prev st =>
    obtain ⟨_, _, h3, _⟩ := C52 T bdf dt s ⟨1, 0⟩ slot (fun i => prev i j) (fun i => st i j) (x j)
    exact h3 k hk

/-- Rates with which coefficient and time derivative follow the unknown, read off the slots. [helper] -/
def rate (m : Mode K) (x : Nat → K) (j slot : Nat) : K × K := ((dual m x j slot).1.2 slot, (dual m x j slot).2.2 slot)

theorem plain_step (m : Mode K) (x : Nat → K) (j slot : Nat) (y : Nat → K) :
    (plain m y j).1 = (plain m x j).1 + (rate m x j slot).1 * (y j - x j) ∧
    (plain m y j).2 = (plain m x j).2 + (rate m x j slot).2 * (y j - x j) := by
  cases m with
  | steady => simp [plain, rate, dual, seed, const]
  | transient T bdf dt s prev st =>
    obtain ⟨h1, h2, _, h4⟩ := C52 T bdf dt s ⟨1, 0⟩ slot (fun i => prev i j) (fun i => st i j) (x j)
    have h := h4 (y j - x j)
    simp only [perturbed] at h
    rw [show x j + (y j - x j) = y j from by ring, h1, h2] at h
    exact h

/-- Sum over a list of terms that vanish but at one place. -/
theorem sum_single (pos : List Nat) (hn : pos.Nodup) (k : Nat) (hk : k ∈ pos) (g : Nat → K) (h : ∀ q ∈ pos, q ≠ k → g q = 0) :
    (pos.map g).sum = g k := by
  induction pos with
  | nil => simp at hk
  | cons a l ih =>
    rw [List.map_cons, List.sum_cons]
    rw [List.nodup_cons] at hn
    by_cases hak : a = k
    · subst hak
      have : (l.map g).sum = 0 := by
        rw [sum_congr g (fun _ => (0 : K)) l (fun q hq => h q (by simp [hq]) (fun e => hn.1 (e ▸ hq))), sum_zero]
      rw [this, add_zero]
    · rw [h a (by simp) hak, zero_add]
      refine ih hn.2 ?_ (fun q hq => h q (by simp [hq]))
      simpa [Ne.symm hak] using hk

theorem slots_eq (m : Mode K) (x : Nat → K) (pos : List Nat) (hn : pos.Nodup) (t : Term K) (p k : Nat) (hk : k ∈ pos) :
    (elemJac' m x pos t).dx p k =
      t.du (fun i => (plain m x (t.lid i)).1) (fun i => (plain m x (t.lid i)).2) p k * (rate m x (t.lid k) k).1 +
      t.dv (fun i => (plain m x (t.lid i)).1) (fun i => (plain m x (t.lid i)).2) p k * (rate m x (t.lid k) k).2 := by
  unfold elemJac' slots
  simp only
  simp only [fun i => (dual_value m x (t.lid i) i).1, fun i => (dual_value m x (t.lid i) i).2]
  rw [sum_single pos hn k hk]
  · rfl
  · intro q _ hq
    obtain ⟨h1, h2⟩ := dual_other m x (t.lid q) q k (Ne.symm hq)
    rw [h1, h2]
    ring

theorem elem_val (m : Mode K) (x : Nat → K) (pos : List Nat) (t : Term K) (p : Nat) :
    (elemJac' m x pos t).val p = (elemRes' m x t).val p := by
  unfold elemJac' elemRes'
  simp only
  simp only [fun i => (dual_value m x (t.lid i) i).1, fun i => (dual_value m x (t.lid i) i).2]

/-- The assembled matrix of an element times a direction. -/
theorem elem_product (pos : List Nat) (e : Elem K) (r ncols : Nat) (hin : ∀ q ∈ pos, e.lid q < ncols) (d : Nat → K) :
    ∑ c ∈ Finset.range ncols, elemJac pos e r c * d c =
      (pos.map (fun p => if e.lid p = r then (pos.map (fun q => e.dx p q * d (e.lid q))).sum else 0)).sum := by
  have hinner : ∀ p, ∑ c ∈ Finset.range ncols, (pos.map (fun q => if e.lid p = r ∧ e.lid q = c then e.dx p q else 0)).sum * d c =
      if e.lid p = r then (pos.map (fun q => e.dx p q * d (e.lid q))).sum else 0 := by
    intro p
    by_cases hp : e.lid p = r
    · simp only [hp, true_and, if_true]
      have : ∀ l : List Nat, (∀ q ∈ l, e.lid q < ncols) →
          ∑ c ∈ Finset.range ncols, (l.map (fun q => if e.lid q = c then e.dx p q else 0)).sum * d c =
            (l.map (fun q => e.dx p q * d (e.lid q))).sum := by
        intro l
        induction l with
        | nil => intro _; simp
        | cons a l ih =>
          intro hl
          simp only [List.map_cons, List.sum_cons, add_mul, Finset.sum_add_distrib]
          rw [ih (fun q hq => hl q (by simp [hq]))]
          congr 1
          rw [Finset.sum_eq_single (e.lid a)]
          · simp
          · intro c _ hc
            rw [if_neg (Ne.symm hc), zero_mul]
          · intro h
            exact absurd (Finset.mem_range.mpr (hl a (by simp))) h
      exact this pos hin
    · simp [hp]
  unfold elemJac
  have : ∀ l : List Nat, ∑ c ∈ Finset.range ncols,
      (l.map (fun p => (pos.map (fun q => if e.lid p = r ∧ e.lid q = c then e.dx p q else 0)).sum)).sum * d c =
      (l.map (fun p => if e.lid p = r then (pos.map (fun q => e.dx p q * d (e.lid q))).sum else 0)).sum := by
    intro l
    induction l with
    | nil => simp
    | cons a l ih =>
      simp only [List.map_cons, List.sum_cons, add_mul, Finset.sum_add_distrib]
      rw [ih, hinner a]
  exact this pos

/-- A sum over all elements of the blocks. [specification, no code] -/
def over (f : List Nat → Term K → K) (ts : Terms K) : K := (ts.map (fun b => (b.2.map (fun g => (g.map (f b.1.pos)).sum)).sum)).sum

theorem sum_flatten' {A : Type} (f : A → K) (l : List (List A)) : (l.flatten.map f).sum = (l.map (fun g => (g.map f).sum)).sum := by
  induction l with
  | nil => rfl
  | cons a l ih => rw [List.flatten_cons, List.map_append, List.sum_append, ih, List.map_cons, List.sum_cons]

theorem overMesh_map (ts : Terms K) (h : List Nat → Term K → Elem K) (f : List Nat → Elem K → K) :
    overMesh f (ts.map (fun b => (b.1, b.2.map (fun g => g.map (h b.1.pos))))) = over (fun pos t => f pos (h pos t)) ts := by
  unfold overMesh over
  rw [List.map_map]
  congr 1
  apply List.map_congr_left
  intro b _
  simp only [Function.comp_apply]
  rw [sum_flatten', List.map_map]
  congr 1
  apply List.map_congr_left
  intro g _
  simp [Function.comp_def]

theorem over_congr (f g : List Nat → Term K → K) (ts : Terms K)
    (h : ∀ b ∈ ts, ∀ gr ∈ b.2, ∀ t ∈ gr, f b.1.pos t = g b.1.pos t) : over f ts = over g ts := by
  unfold over
  congr 1
  apply List.map_congr_left
  intro b hb
  congr 1
  apply List.map_congr_left
  intro gr hgr
  congr 1
  apply List.map_congr_left
  intro t ht
  exact h b hb gr hgr t ht

theorem list_finset {A : Type} (n : Nat) (F : A → Nat → K) (d : Nat → K) (l : List A) :
    ∑ c ∈ Finset.range n, (l.map (fun a => F a c)).sum * d c = (l.map (fun a => ∑ c ∈ Finset.range n, F a c * d c)).sum := by
  induction l with
  | nil => simp
  | cons a l ih => simp only [List.map_cons, List.sum_cons, add_mul, Finset.sum_add_distrib, ih]

theorem over_finset (n : Nat) (F : Nat → List Nat → Term K → K) (d : Nat → K) (ts : Terms K) :
    ∑ c ∈ Finset.range n, over (F c) ts * d c = over (fun pos t => ∑ c ∈ Finset.range n, F c pos t * d c) ts := by
  unfold over
  rw [list_finset n (fun (b : Block × List (List (Term K))) c => (b.2.map (fun g => (g.map (F c b.1.pos)).sum)).sum) d ts]
  congr 1
  apply List.map_congr_left
  intro b _
  rw [list_finset n (fun (g : List (Term K)) c => (g.map (F c b.1.pos)).sum) d b.2]
  congr 1
  apply List.map_congr_left
  intro g _
  rw [list_finset n (fun (t : Term K) c => F c b.1.pos t) d g]

/-! ### The two assemblies -/

theorem total_flatten (l : Loc) (ops : List (List (Loc × K))) : total ops.flatten l = (ops.map (fun o => total o l)).sum := by
  induction ops with
  | nil => simp [total]
  | cons a t ih => simp [total_append, ih]

/-- `assembleRes` on any number of workers with any schedule. -/
theorem res_total (nw : Nat) (hw : 1 ≤ nw) (dbc : List Nat) (mesh : Mesh K) (mem mem' : Loc → K)
    (hA : Assembled nw id mem (opsRes (isFixed dbc) mesh) mem') (r : Nat) :
    mem' (Loc.res r 0) = mem (Loc.res r 0) + if r ∈ dbc then 0 else overMesh (fun pos e => elemRes pos e r) mesh := by
  rw [assembled_keep nw hw id (Loc.res r 0) (fun m => rfl) _ _ _ hA]
  congr 1
  have hg : ∀ (pos : List Nat) (gs : List (List (Elem K))),
      total (gs.map (fun g => (g.map (resOps (isFixed dbc) pos)).flatten)).flatten (Loc.res r 0) =
        if r ∈ dbc then 0 else (gs.flatten.map (fun e => elemRes pos e r)).sum := by
    intro pos gs
    have he : ∀ g : List (Elem K), total (g.map (resOps (isFixed dbc) pos)).flatten (Loc.res r 0) =
        if r ∈ dbc then 0 else (g.map (fun e => elemRes pos e r)).sum := by
      intro g
      induction g with
      | nil => simp [total]
      | cons a t ih =>
        rw [List.map_cons, List.flatten_cons, total_append, ih, total_resOps]
        by_cases h : r ∈ dbc <;> simp [h, isFixed]
    induction gs with
    | nil => simp [total]
    | cons a t ih =>
      rw [List.map_cons, List.flatten_cons, total_append, ih, he]
      by_cases h : r ∈ dbc <;> simp [h]
  unfold opsRes overMesh
  clear hA
  induction mesh with
  | nil => simp [total]
  | cons b t ih =>
    rw [List.map_cons, List.map_cons, List.flatten_cons, total_append, ih, hg]
    by_cases h : r ∈ dbc <;> simp [h]

/-- All outcomes of `assembleRes` started from a zero vector, on `nw` workers with any schedule.
/repo/src/managers/assembly/assemblyManager_jacres.hpp:652-659, 781-873; solverManager_solvers.hpp:380-381. -/
def ResOut (nw : Nat) (dbc : List Nat) (m : Mode K) (x : Nat → K) (ts : Terms K) (R : Loc → K) : Prop :=
  Assembled nw id (fun _ => 0) (opsRes (isFixed dbc) (meshRes m x ts)) R

/-- Everything `assembleJacRes` is given besides the state: graph, columns, fixed unknowns, pinned points; see
`constrain`, `meshOps`. assemblyManager_jacres.hpp:121-145, 606-628. -/
structure Setup where
  pat : Nat → Nat → Bool
  ncols : Nat
  strong : Bool
  dbc : List Nat
  pts : List Nat
  fixed0 : Nat → Bool

/-- All outcomes of `assembleJacRes` for a Newton step, started from a zero vector and matrix.
assemblyManager_jacres.hpp:38-104, 336-628; solverManager_solvers.hpp:459-465. -/
def JacOut (nw : Nat) (S : Setup) (m : Mode K) (x : Nat → K) (ts : Terms K) (J : Loc → K) : Prop :=
  ∃ ops, meshOps S.pat (isFixed S.dbc) S.fixed0 false newton (meshJac m x ts) = some ops ∧
    Assembled nw (constrain S.strong S.pat S.ncols S.dbc S.pts true) (fun _ => 0) ops J

/-- What the discretisation provides: each block's local unknowns are distinct columns (all of them on the first path of the
scatter), the graph covers the couplings, numbers are columns, and the second path's table is that of the set. [specification, no code] -/
structure Sound (S : Setup) (ts : Terms K) : Prop where
  good : ∀ b ∈ ts, Good b.1 newton
  couples : Couples S.pat ts
  inside : Inside ts S.ncols
  table : ∀ b ∈ ts, reduceMemory b.1 newton = true ∨ S.fixed0 = isFixed S.dbc

theorem good_nodup (b : Block) (h : Good b newton) : b.pos.Nodup := by
  unfold Good at h
  split at h
  · exact (List.Perm.nodup_iff h).mpr List.nodup_range
  · exact h.1

theorem res_out (nw : Nat) (hw : 1 ≤ nw) (dbc : List Nat) (m : Mode K) (x : Nat → K) (ts : Terms K) (R : Loc → K)
    (h : ResOut nw dbc m x ts R) (r : Nat) :
    R (Loc.res r 0) = if r ∈ dbc then 0 else over (fun pos t => elemRes pos (elemRes' m x t) r) ts := by
  have := res_total nw hw dbc (meshRes m x ts) _ R h r
  rw [zero_add] at this
  rw [this]
  unfold meshRes
  rw [overMesh_map ts (fun _ => elemRes' m x)]

theorem jac_sums (nw : Nat) (hw : 1 ≤ nw) (S : Setup) (m : Mode K) (x : Nat → K) (ts : Terms K) (hS : Sound S ts) :
    ∃ ops, meshOps S.pat (isFixed S.dbc) S.fixed0 false newton (meshJac m x ts) = some ops ∧
      ∀ mem mem', Assembled nw (constrain S.strong S.pat S.ncols S.dbc S.pts newton.jac) mem ops mem' →
        (∀ r g, mem' (Loc.res r g) = mem (Loc.res r g) +
          if r ∈ S.dbc then 0 else overMesh (fun pos e => resWanted newton pos e r g) (meshJac m x ts)) ∧
        (∀ r c, r ∉ S.dbc → r ∉ S.pts → mem' (Loc.jac r c) = mem (Loc.jac r c) +
          overMesh (fun pos e => jacWanted newton pos e r c) (meshJac m x ts)) :=
  C35_sums_partial nw hw S.pat S.ncols S.strong S.dbc S.pts S.fixed0 newton (meshJac m x ts) (by
      intro b hb e he p hp q hq
      unfold meshJac at hb
      rw [List.mem_map] at hb
      obtain ⟨b0, hb0, rfl⟩ := hb
      simp only [List.mem_flatten, List.mem_map] at he
      obtain ⟨_, ⟨g, hg, rfl⟩, he⟩ := he
      rw [List.mem_map] at he
      obtain ⟨t, ht, rfl⟩ := he
      exact hS.couples b0 hb0 g hg t ht p hp q hq) (by
      intro b hb
      unfold meshJac at hb
      rw [List.mem_map] at hb
      obtain ⟨b0, hb0, rfl⟩ := hb
      exact hS.good b0 hb0) (by
      intro b hb
      unfold meshJac at hb
      rw [List.mem_map] at hb
      obtain ⟨b0, hb0, rfl⟩ := hb
      exact hS.table b0 hb0)

theorem jac_out (nw : Nat) (hw : 1 ≤ nw) (S : Setup) (m : Mode K) (x : Nat → K) (ts : Terms K) (hS : Sound S ts) (J : Loc → K)
    (h : JacOut nw S m x ts J) (r : Nat) :
    (J (Loc.res r 0) = if r ∈ S.dbc then 0 else over (fun pos t => elemRes pos (elemRes' m x t) r) ts) ∧
    (r ∉ S.dbc → r ∉ S.pts → ∀ c, J (Loc.jac r c) = over (fun pos t => elemJac pos (elemJac' m x pos t) r c) ts) := by
  obtain ⟨ops, h1, h2⟩ := h
  obtain ⟨ops', h3, h4⟩ := jac_sums nw hw S m x ts hS
  rw [h1] at h3
  injection h3 with h3
  subst h3
  obtain ⟨h5, h6⟩ := h4 _ J h2
  constructor
  · rw [h5 r 0, zero_add]
    unfold meshJac
    rw [overMesh_map ts (fun pos => elemJac' m x pos)]
    congr 1
    apply over_congr
    intro b _ g _ t _
    simp only [resWanted, newton, if_true]
    unfold elemRes
    apply sum_congr
    intro p _
    rw [elem_val]
    rfl
  · intro hr hp c
    rw [h6 r c hr hp, zero_add]
    unfold meshJac
    rw [overMesh_map ts (fun pos => elemJac' m x pos)]
    rfl

/-- The product of a row of the matrix with a direction, element by element. -/
theorem product_out (nw : Nat) (hw : 1 ≤ nw) (S : Setup) (m : Mode K) (x : Nat → K) (ts : Terms K) (hS : Sound S ts) (J : Loc → K)
    (h : JacOut nw S m x ts J) (r : Nat) (hr : r ∉ S.dbc) (hp : r ∉ S.pts) (d : Nat → K) :
    product J S.ncols r d = over (fun pos t => (pos.map (fun p => if t.lid p = r then
      (pos.map (fun q =>
        t.du (fun i => (plain m x (t.lid i)).1) (fun i => (plain m x (t.lid i)).2) p q * ((rate m x (t.lid q) q).1 * d (t.lid q)) +
        t.dv (fun i => (plain m x (t.lid i)).1) (fun i => (plain m x (t.lid i)).2) p q * ((rate m x (t.lid q) q).2 * d (t.lid q)))).sum
      else 0)).sum) ts := by
  unfold product
  have h1 := (jac_out nw hw S m x ts hS J h r).2 hr hp
  simp only [h1]
  rw [over_finset S.ncols (fun c pos t => elemJac pos (elemJac' m x pos t) r c) d ts]
  apply over_congr
  intro b hb g hg t ht
  rw [elem_product b.1.pos (elemJac' m x b.1.pos t) r S.ncols (hS.inside b hb g hg t ht) d]
  apply sum_congr
  intro p _
  show (if t.lid p = r then _ else _) = _
  by_cases hl : t.lid p = r
  · rw [if_pos hl, if_pos hl]
    apply sum_congr
    intro q hq
    show (elemJac' m x b.1.pos t).dx p q * d (t.lid q) = _
    rw [slots_eq m x b.1.pos (good_nodup b.1 (hS.good b hb)) t p q hq]
    ring
  · rw [if_neg hl, if_neg hl]

theorem hasDerivAt_list {A : Type} (F : A → ℝ → ℝ) (F' : A → ℝ) (s : ℝ) (l : List A) (h : ∀ a ∈ l, HasDerivAt (F a) (F' a) s) :
    HasDerivAt (fun s => (l.map (fun a => F a s)).sum) (l.map F').sum s := by
  induction l with
  | nil => simpa using hasDerivAt_const s (0 : ℝ)
  | cons a l ih =>
    simp only [List.map_cons, List.sum_cons]
    exact (h a (by simp)).fun_add (ih (fun b hb => h b (by simp [hb])))

theorem hasDerivAt_over (F : List Nat → Term ℝ → ℝ → ℝ) (F' : List Nat → Term ℝ → ℝ) (s : ℝ) (ts : Terms ℝ)
    (h : ∀ b ∈ ts, ∀ g ∈ b.2, ∀ t ∈ g, HasDerivAt (F b.1.pos t) (F' b.1.pos t) s) :
    HasDerivAt (fun s => over (fun pos t => F pos t s) ts) (over F' ts) s := by
  unfold over
  refine hasDerivAt_list (fun (b : Block × List (List (Term ℝ))) s => (b.2.map (fun g => (g.map (fun t => F b.1.pos t s)).sum)).sum) _ s ts ?_
  intro b hb
  refine hasDerivAt_list (fun (g : List (Term ℝ)) s => (g.map (fun t => F b.1.pos t s)).sum) _ s b.2 ?_
  intro g hg
  exact hasDerivAt_list (fun (t : Term ℝ) s => F b.1.pos t s) _ s g (fun t ht => h b hb g hg t ht)

/-! ## C157 -/

/-- C157: along every differentiable path of the unknowns, in every row that is neither fixed nor pinned, the residual a Newton
step tests and uses (`assembleRes`, with any number of workers and any schedule at each point) changes at minus the rate given by the
matrix that the step assembles (again any workers and schedule), for steady and for transient stages.  The residual carries the
minus sign because the system solved is `J du = res`.  Partial: the chain rule for derivative numbers is assumed, the terms must be
those of both assemblies (no multiscale blocks, `C157_multiscale_violated`; flux conditions are C95) and lumping is off (C37). -/
theorem C157_partial (nw nw' : Nat) (hw : 1 ≤ nw) (hw' : 1 ≤ nw') (S : Setup) (m : Mode ℝ) (ts : Terms ℝ) (hS : Sound S ts)
    (hsm : ∀ b ∈ ts, ∀ g ∈ b.2, ∀ t ∈ g, t.Smooth b.1.pos)
    (X : ℝ → Nat → ℝ) (d : Nat → ℝ) (s0 : ℝ) (hX : ∀ j, HasDerivAt (fun s => X s j) (d j) s0)
    (R : ℝ → Loc → ℝ) (hR : ∀ s, ResOut nw S.dbc m (X s) ts (R s))
    (J : Loc → ℝ) (hJ : JacOut nw' S m (X s0) ts J) (r : Nat) (hr : r ∉ S.dbc) (hp : r ∉ S.pts) :
    HasDerivAt (fun s => R s (Loc.res r 0)) (-product J S.ncols r d) s0 := by
  have hfun : (fun s => R s (Loc.res r 0)) = fun s => over (fun pos t => elemRes pos (elemRes' m (X s) t) r) ts := by
    funext s
    rw [res_out nw hw S.dbc m (X s) ts (R s) (hR s) r, if_neg hr]
  rw [hfun, product_out nw' hw' S m (X s0) ts hS J hJ r hr hp d]
  have hneg : ∀ (f : List Nat → Term ℝ → ℝ), -over f ts = over (fun pos t => -f pos t) ts := by
    intro f
    have hl : ∀ {A : Type} (g : A → ℝ) (l : List A), -(l.map g).sum = (l.map (fun a => -g a)).sum := by
      intro A g l
      induction l with
      | nil => simp
      | cons a l ih => simp only [List.map_cons, List.sum_cons, ← ih]; ring
    unfold over
    rw [hl]
    congr 1
    apply List.map_congr_left
    intro b _
    rw [hl]
    congr 1
    apply List.map_congr_left
    intro g _
    rw [hl]
  rw [hneg]
  refine hasDerivAt_over (fun pos t s => elemRes pos (elemRes' m (X s) t) r) _ s0 ts ?_
  intro b hb g hg t ht
  unfold elemRes
  have hval : ∀ p ∈ b.1.pos, HasDerivAt (fun s => (elemRes' m (X s) t).val p) _ s0 :=
    fun p hp => hsm b hb g hg t ht (fun s i => (plain m (X s) (t.lid i)).1) (fun s i => (plain m (X s) (t.lid i)).2)
      (fun q => (rate m (X s0) (t.lid q) q).1 * d (t.lid q)) (fun q => (rate m (X s0) (t.lid q) q).2 * d (t.lid q)) s0
      (fun q => by
        have : (fun s => (plain m (X s) (t.lid q)).1) = fun s => (plain m (X s0) (t.lid q)).1 +
            (rate m (X s0) (t.lid q) q).1 * (X s (t.lid q) - X s0 (t.lid q)) := by
          funext s
          exact (plain_step m (X s0) (t.lid q) q (X s)).1
        rw [this]
        exact (((hX (t.lid q)).sub_const _).const_mul _).const_add _)
      (fun q => by
        have : (fun s => (plain m (X s) (t.lid q)).2) = fun s => (plain m (X s0) (t.lid q)).2 +
            (rate m (X s0) (t.lid q) q).2 * (X s (t.lid q) - X s0 (t.lid q)) := by
          funext s
          exact (plain_step m (X s0) (t.lid q) q (X s)).2
        rw [this]
        exact (((hX (t.lid q)).sub_const _).const_mul _).const_add _) p hp
  have := hasDerivAt_list (fun p s => if t.lid p = r then -(elemRes' m (X s) t).val p else 0)
    (fun p => if t.lid p = r then -(b.1.pos.map (fun q =>
        t.du (fun i => (plain m (X s0) (t.lid i)).1) (fun i => (plain m (X s0) (t.lid i)).2) p q * ((rate m (X s0) (t.lid q) q).1 * d (t.lid q)) +
        t.dv (fun i => (plain m (X s0) (t.lid i)).1) (fun i => (plain m (X s0) (t.lid i)).2) p q * ((rate m (X s0) (t.lid q) q).2 * d (t.lid q)))).sum
      else 0) s0 b.1.pos (by
      intro p hp
      by_cases hl : t.lid p = r
      · simp only [hl, if_true]
        exact (hval p hp).neg
      · simp only [hl, if_false]
        exact hasDerivAt_const s0 (0 : ℝ))
  refine this.congr_deriv ?_
  have hl : ∀ (g : Nat → ℝ) (l : List Nat), (l.map (fun p => if t.lid p = r then -g p else 0)).sum =
      -(l.map (fun p => if t.lid p = r then g p else 0)).sum := by
    intro g l
    induction l with
    | nil => simp
    | cons a l ih =>
      simp only [List.map_cons, List.sum_cons, ih]
      by_cases ha : t.lid a = r
      · simp only [ha, if_true]; ring
      · simp only [ha, if_false]; ring
  exact hl _ _

/-- C157, residual: the two assemblies give the same residual in every row, fixed ones included, whatever the workers and
schedules; so the norm that is tested belongs to the system that is solved.  For any field. -/
theorem C157_residual (nw nw' : Nat) (hw : 1 ≤ nw) (hw' : 1 ≤ nw') (S : Setup) (m : Mode K) (ts : Terms K) (hS : Sound S ts)
    (x : Nat → K) (R J : Loc → K) (hR : ResOut nw S.dbc m x ts R) (hJ : JacOut nw' S m x ts J) (r : Nat) :
    R (Loc.res r 0) = J (Loc.res r 0) := by
  rw [res_out nw hw S.dbc m x ts R hR r, (jac_out nw' hw' S m x ts hS J hJ r).1]

/-- Both assemblies have outcomes in every state: the statements are not empty. -/
theorem outcomes (nw : Nat) (hw : 1 ≤ nw) (S : Setup) (m : Mode K) (ts : Terms K) (hS : Sound S ts) (x : Nat → K) :
    (∃ R, ResOut nw S.dbc m x ts R) ∧ ∃ J, JacOut nw S m x ts J := by
  obtain ⟨ops, h1, _⟩ := jac_sums nw hw S m x ts hS
  obtain ⟨J, hJ⟩ := assembled_exists nw hw (constrain S.strong S.pat S.ncols S.dbc S.pts true) ops (fun _ => 0)
  exact ⟨assembled_exists nw hw _ _ _, J, ops, h1, hJ⟩

/-- C157 for affine terms: if the update solves the row `J du = res` of the step, the residual at the updated unknowns is zero in
that row: one Newton step suffices.  For any field, steady or any stage, any workers and schedules. -/
theorem C157_affine_partial (nw nw' nw'' : Nat) (hw : 1 ≤ nw) (hw' : 1 ≤ nw') (hw'' : 1 ≤ nw'') (S : Setup) (m : Mode K) (ts : Terms K)
    (hS : Sound S ts) (haf : ∀ b ∈ ts, ∀ g ∈ b.2, ∀ t ∈ g, t.Affine b.1.pos) (x du : Nat → K)
    (R J R' : Loc → K) (hR : ResOut nw S.dbc m x ts R) (hJ : JacOut nw' S m x ts J)
    (hR' : ResOut nw'' S.dbc m (fun j => x j + du j) ts R') (r : Nat) (hr : r ∉ S.dbc) (hp : r ∉ S.pts)
    (hsol : product J S.ncols r du = R (Loc.res r 0)) : R' (Loc.res r 0) = 0 := by
  rw [res_out nw'' hw'' S.dbc m _ ts R' hR' r, if_neg hr]
  rw [res_out nw hw S.dbc m x ts R hR r, if_neg hr, product_out nw' hw' S m x ts hS J hJ r hr hp du] at hsol
  have hsub : ∀ (f g : List Nat → Term K → K), over (fun pos t => f pos t - g pos t) ts = over f ts - over g ts := by
    intro f g
    have hl : ∀ {A : Type} (f g : A → K) (l : List A), (l.map (fun a => f a - g a)).sum = (l.map f).sum - (l.map g).sum := by
      intro A f g l
      induction l with
      | nil => simp
      | cons a l ih => simp only [List.map_cons, List.sum_cons, ih]; ring
    unfold over
    rw [← hl]
    congr 1
    apply List.map_congr_left
    intro b _
    rw [← hl]
    congr 1
    apply List.map_congr_left
    intro gr _
    rw [← hl]
  rw [show over (fun pos t => elemRes pos (elemRes' m (fun j => x j + du j) t) r) ts = 0 from ?_]
  rw [← sub_eq_zero.mpr hsol.symm, ← hsub]
  apply over_congr
  intro b hb g hg t ht
  unfold elemRes
  have hl : ∀ (f g h : Nat → K) (l : List Nat), (∀ p ∈ l, f p = g p + h p) →
      (l.map (fun p => if t.lid p = r then -f p else 0)).sum =
      (l.map (fun p => if t.lid p = r then -g p else 0)).sum - (l.map (fun p => if t.lid p = r then h p else 0)).sum := by
    intro f g h l
    induction l with
    | nil => simp
    | cons a l ih =>
      intro hf
      simp only [List.map_cons, List.sum_cons, ih (fun p hp => hf p (by simp [hp])), hf a (by simp)]
      by_cases ha : t.lid a = r
      · simp only [ha, if_true]; ring
      · simp only [ha, if_false]; ring
  refine hl _ _ _ b.1.pos ?_
  intro p hp
  have h := haf b hb g hg t ht (fun i => (plain m x (t.lid i)).1) (fun i => (plain m x (t.lid i)).2)
    (fun q => (rate m x (t.lid q) q).1 * du (t.lid q)) (fun q => (rate m x (t.lid q) q).2 * du (t.lid q)) p hp
  have hu : (fun i => (plain m (fun j => x j + du j) (t.lid i)).1) =
      fun q => (plain m x (t.lid q)).1 + (rate m x (t.lid q) q).1 * du (t.lid q) := by
    funext i
    rw [(plain_step m x (t.lid i) i (fun j => x j + du j)).1]
    simp
  have hv : (fun i => (plain m (fun j => x j + du j) (t.lid i)).2) =
      fun q => (plain m x (t.lid q)).2 + (rate m x (t.lid q) q).2 * du (t.lid q) := by
    funext i
    rw [(plain_step m x (t.lid i) i (fun j => x j + du j)).2]
    simp
  show t.f _ _ p = _
  rw [hu, hv]
  exact h

/-! ## Which residual is assembled on a process with subgrid models -/

/-- A block on one process and one row of the residual as a function of one unknown: number of groups; volume, face and
boundary terms; the terms that replace them with a subgrid model; flux conditions.  `Group` counts zero when the process has no
element of the block.  /repo/src/managers/assembly/assemblyManager_jacres.hpp:365-401, 525-532, 810-826, 861-862. -/
structure MBlock (K : Type) where
  groups : Nat
  ordinary : K → K
  micro : K → K
  flux : K → K

/-- `groupData[block]->multiscale`: set for every block with elements if there is a sublist Subgrid (/repo/src/tools/groupMetaData.cpp:59-62);
a block without elements on the process gets default data (groupMetaData.hpp:102, assemblyManager_groups.hpp:461). -/
def MBlock.multiscale (subgrid : Bool) (b : MBlock K) : Bool := subgrid && decide (0 < b.groups)

/-- What `assembleJacRes` evaluates on a block; assemblyManager_jacres.hpp:40, 366-382, 390-401, 525-532.  Blocks without groups are
skipped (39). -/
def MBlock.inJac (subgrid : Bool) (b : MBlock K) (x : K) : K :=
  if b.groups = 0 then 0 else if b.multiscale subgrid then b.micro x + b.flux x else b.ordinary x + b.flux x

/-- What `assembleRes` evaluates on a block; assemblyManager_jacres.hpp:653, 810-826, 861-862. -/
def MBlock.inRes (b : MBlock K) (x : K) : K := if b.groups = 0 then 0 else b.ordinary x + b.flux x

/-- The residual (up to sign) of the Newton step: `use_autotune` looks at the first block of the process only;
/repo/src/managers/solver/solverManager_solvers.hpp:362-384. -/
def stepRes (subgrid : Bool) (bs : List (MBlock K)) (x : K) : K :=
  if (bs.head?.map (MBlock.multiscale subgrid)).getD false then (bs.map (fun b => b.inJac subgrid x)).sum
  else (bs.map (fun b => b.inRes x)).sum

/-- What the matrix of the step differentiates; solverManager_solvers.hpp:459-465. -/
def stepFun (subgrid : Bool) (bs : List (MBlock K)) (x : K) : K := (bs.map (fun b => b.inJac subgrid x)).sum

/-- C157 with subgrid models: on a process that has elements of the first block, or without subgrid models, residual and matrix
of the step come from the same function. -/
theorem C157_multiscale_partial (subgrid : Bool) (bs : List (MBlock K))
    (h : subgrid = true → ∀ b, bs.head? = some b → 0 < b.groups) (x : K) : stepRes subgrid bs x = stepFun subgrid bs x := by
  unfold stepRes stepFun
  cases subgrid with
  | false =>
    rw [if_neg (by cases bs <;> simp [MBlock.multiscale])]
    apply sum_congr
    intro b _
    simp [MBlock.inRes, MBlock.inJac, MBlock.multiscale]
  | true =>
    cases bs with
    | nil => simp
    | cons b t =>
      have := h rfl b rfl
      simp [MBlock.multiscale, this]

/-- C157 is false on a process without elements of the first block when there are subgrid models: the residual is that of the
ordinary terms, without the subgrid model, while the matrix is that of the subgrid model. -/
theorem C157_multiscale_violated : ∃ bs : List (MBlock ℚ), (∃ b ∈ bs, 0 < b.groups) ∧ (∀ x, stepRes true bs x = x - 1) ∧
    (∀ x, stepFun true bs x = 3 * x - 1) :=
  ⟨[⟨0, fun _ => 0, fun _ => 0, fun _ => 0⟩, ⟨1, fun x => x, fun x => 3 * x, fun _ => -1⟩], ⟨_, List.mem_cons_of_mem _ List.mem_cons_self, by decide⟩,
    fun x => by simp [stepRes, MBlock.multiscale, MBlock.inRes]; ring,
    fun x => by simp [stepFun, MBlock.multiscale, MBlock.inJac]; ring⟩

/-- [case] Two blocks present, both with subgrid models: same function. -/
example (x : ℚ) : stepRes true [⟨2, fun x => x, fun x => 2 * x, fun _ => 1⟩, ⟨1, fun x => x, fun x => 3 * x, fun _ => -1⟩] x =
    stepFun true [⟨2, fun x => x, fun x => 2 * x, fun _ => 1⟩, ⟨1, fun x => x, fun x => 3 * x, fun _ => -1⟩] x :=
  C157_multiscale_partial true _ (fun _ b hb => by simp at hb; subst hb; decide) x

/-! ## The local residual of the workset from group to group -/

/-- The local residual that is scattered for each group of a block, with the residual left in the workset: volume terms reset it
(`updateWorkset`, /repo/src/managers/assembly/assemblyManager_workset.hpp:973) and are evaluated only if switched on
(assemblyManager_jacres.hpp:810-813, the same at 365-383), face terms add to it without reset (819-826; assemblyManager_workset.hpp:1113-1156).
One entry of the residual, given per group as (volume term, face terms). -/
def scattered (vol face : Bool) (w : K) : List (K × K) → List K × K
  | [] => ([], w)
  | g :: gs =>
    let w1 := if vol then g.1 else w
    let w2 := if face then w1 + g.2 else w1
    let rest := scattered vol face w2 gs
    (w2 :: rest.1, rest.2)

/-- Boundary groups: the residual is reset before each (assemblyManager_jacres.hpp:853, 860-868; assemblyManager_workset.hpp:688). -/
def scatteredSides (w : K) : List K → List K × K
  | [] => ([], w)
  | b :: bs => let rest := scatteredSides b bs; (b :: rest.1, rest.2)

/-- One assembly of a block, from the residual in the workset; assemblyManager_jacres.hpp:781-873. -/
def blockPass (vol face sides : Bool) (gs : List (K × K)) (bs : List K) (w : K) : List K × List K × K :=
  let v := scattered vol face w gs
  if sides then let s := scatteredSides v.2 bs; (v.1, s.1, s.2) else (v.1, [], v.2)

/-- What each group should add: only the terms switched on. [specification, no code] -/
def wanted (vol face : Bool) (g : K × K) : K := (if vol then g.1 else 0) + (if face then g.2 else 0)

theorem scattered_on (face : Bool) (gs : List (K × K)) : ∀ w : K, (scattered true face w gs).1 = gs.map (wanted true face) := by
  induction gs with
  | nil => intro w; rfl
  | cons g gs ih =>
    intro w
    simp only [scattered, List.map_cons, ih]
    cases face <;> simp [wanted]

theorem sides_all (bs : List K) : ∀ w : K, (scatteredSides w bs).1 = bs := by
  induction bs with
  | nil => intro w; rfl
  | cons b bs ih => intro w; simp [scatteredSides, ih]

theorem sides_last (bs : List K) : ∀ w : K, (scatteredSides w bs).2 = bs.getLast?.getD w := by
  induction bs with
  | nil => intro w; rfl
  | cons b bs ih =>
    intro w
    simp only [scatteredSides, ih]
    cases bs with
    | nil => rfl
    | cons c t =>
      rw [List.getLast?_cons_cons]
      cases h : (c :: t).getLast? with
      | none => simp at h
      | some a => rfl

theorem scattered_off (gs : List (K × K)) : ∀ w : K, scattered false false w gs = (gs.map (fun _ => w), w) := by
  induction gs with
  | nil => intro w; rfl
  | cons g gs ih => intro w; simp [scattered, ih]

/-- C157, terms: with the volume terms switched on, every group and every boundary group scatters exactly the terms switched on,
whatever is left in the workset. -/
theorem C157_terms_partial (face : Bool) (gs : List (K × K)) (bs : List K) (w : K) :
    (blockPass true face true gs bs w).1 = gs.map (wanted true face) ∧ (blockPass true face true gs bs w).2.1 = bs := by
  simp [blockPass, scattered_on, sides_all]

/-- C157 is false for a block with `assemble volume terms: false` and boundary terms: in every assembly but the first, each
group scatters the residual that the last boundary group left in the workset, though it should scatter nothing. -/
theorem C157_terms_violated (gs : List (K × K)) (bs : List K) (b w : K) :
    (blockPass false false true gs (bs ++ [b]) (blockPass false false true gs (bs ++ [b]) w).2.2).1 = gs.map (fun _ => b) ∧
    gs.map (wanted false false) = gs.map (fun _ => (0 : K)) := by
  constructor
  · simp [blockPass, scattered_off, sides_last]
  · apply List.map_congr_left
    intro g _
    simp [wanted]

/-- C157 is false for a block with face terms only: each group scatters the face terms of all groups before it again. -/
theorem C157_faces_violated (a b : K) : (blockPass false true false [(0, a), (0, b)] [] 0).1 = [a, a + b] ∧
    [((0 : K), a), (0, b)].map (wanted false true) = [a, b] := by
  simp [blockPass, scattered, wanted]

/-- [case] Two groups and two sides, volume terms on: 5 and 7 with their faces; off: both groups scatter 9 in the second pass. -/
example : (blockPass true true true [((2 : ℚ), 3), (3, 4)] [8, 9] 100).1 = [5, 7] ∧
    (blockPass false false true [((2 : ℚ), 3), (3, 4)] [8, 9] (blockPass false false true [((2 : ℚ), 3), (3, 4)] [8, 9] 0).2.2).1 = [9, 9] := by
  constructor
  · rw [(C157_terms_partial true [((2 : ℚ), 3), (3, 4)] [8, 9] 100).1]; norm_num [wanted]
  · exact (C157_terms_violated [((2 : ℚ), 3), (3, 4)] [8] 9 0).1

/-! ## Cases -/

/-- [case] Two unknowns per element; residual `u_p^2 + udot_p - 3 u_(1-p)`. -/
def exTerm (K : Type) [Field K] (e : Nat) : Term K where
  lid := fun p => e + p
  f := fun u v p => u p * u p + v p - 3 * u (1 - p)
  du := fun u _ p q => (if q = p then 2 * u p else 0) - (if q = 1 - p then 3 else 0)
  dv := fun _ _ p q => if q = p then 1 else 0

/-- [case] Two elements in two groups, sharing unknown 1. -/
def exTerms (K : Type) [Field K] : Terms K := [(⟨2, [0, 1], true⟩, [[exTerm K 0], [exTerm K 1]])]

/-- [case] Unknown 0 fixed. -/
def exSetup : Setup := ⟨fun r c => decide (r < 3 ∧ c < 3), 3, true, [0], [], isFixed [0]⟩

theorem exSound : Sound exSetup (exTerms K) := by
  refine ⟨?_, ?_, ?_, ?_⟩
  · intro b hb
    simp only [exTerms, List.mem_singleton] at hb
    subst hb
    show FullBlock _
    exact List.Perm.refl _
  · intro b hb g hg t ht p hp q hq
    simp only [exTerms, List.mem_singleton] at hb
    subst hb
    simp only [List.mem_cons, List.not_mem_nil, or_false] at hg hp hq
    rcases hg with rfl | rfl <;> simp only [List.mem_singleton] at ht <;> subst ht <;> rcases hp with rfl | rfl <;>
      rcases hq with rfl | rfl <;> rfl
  · intro b hb g hg t ht p hp
    simp only [exTerms, List.mem_singleton] at hb
    subst hb
    simp only [List.mem_cons, List.not_mem_nil, or_false] at hg hp
    rcases hg with rfl | rfl <;> simp only [List.mem_singleton] at ht <;> subst ht <;> rcases hp with rfl | rfl <;>
      simp [exTerm, exSetup]
  · intro b _
    exact Or.inr rfl

theorem exSmooth (e : Nat) : (exTerm ℝ e).Smooth [0, 1] := by
  intro u v u' v' s hu hv p hp
  simp only [List.mem_cons, List.not_mem_nil, or_false] at hp
  have h := (((hu p).fun_mul (hu p)).fun_add (hv p)).fun_sub ((hu (1 - p)).const_mul 3)
  rcases hp with rfl | rfl
  · refine h.congr_deriv ?_
    simp [exTerm]; ring
  · refine h.congr_deriv ?_
    simp [exTerm]; ring

/-- [case] Outcomes exist, and C157 applies: steady state at the unknowns (1, 2, 5) on four workers, moving unknown 1 alone.  The
residual in row 1 changes at the rate -(2*2 + 2*2), that in row 2 at the rate 3. -/
example (R : ℝ → Loc → ℝ) (hR : ∀ s, ResOut 1 [0] .steady (fun j => if j = 1 then 2 + s else if j = 0 then 1 else 5) (exTerms ℝ) (R s))
    (J : Loc → ℝ) (hJ : JacOut 4 exSetup .steady (fun j => if j = 1 then 2 + 0 else if j = 0 then 1 else 5) (exTerms ℝ) J) :
    HasDerivAt (fun s => R s (Loc.res 1 0)) (-8) 0 ∧ HasDerivAt (fun s => R s (Loc.res 2 0)) 3 0 := by
  have h := fun r => C157_partial 1 4 (by decide) (by decide) exSetup .steady (exTerms ℝ) exSound (by
      intro b hb g hg t ht
      simp only [exTerms, List.mem_singleton] at hb
      subst hb
      simp only [List.mem_cons, List.not_mem_nil, or_false] at hg
      rcases hg with rfl | rfl <;> simp only [List.mem_singleton] at ht <;> subst ht <;> exact exSmooth _)
    (fun s j => if j = 1 then 2 + s else if j = 0 then 1 else 5) (fun j => if j = 1 then 1 else 0) 0 (by
      intro j
      by_cases hj : j = 1
      · simp only [hj, if_true]
        exact (hasDerivAt_id (0 : ℝ)).const_add 2
      · simp only [hj, if_false]
        exact hasDerivAt_const _ _) R hR J hJ r
  have e : ∀ r, r ∉ exSetup.dbc → r ∉ exSetup.pts → _ := fun r h1 h2 => product_out 4 (by decide) exSetup .steady
    (fun j => if j = 1 then 2 + 0 else if j = 0 then 1 else 5) (exTerms ℝ) exSound J hJ r h1 h2 (fun j => if j = 1 then 1 else 0)
  constructor
  · refine (h 1 (by decide) (by decide)).congr_deriv ?_
    rw [e 1 (by decide) (by decide)]
    norm_num [over, exTerms, exTerm, plain, rate, dual, seed, const]
  · refine (h 2 (by decide) (by decide)).congr_deriv ?_
    rw [e 2 (by decide) (by decide)]
    norm_num [over, exTerms, exTerm, plain, rate, dual, seed, const]

/-- [case] An affine term, `2 u_p - u_(1-p) + udot_p - 1`. -/
def exAffine (K : Type) [Field K] (e : Nat) : Term K where
  lid := fun p => e + p
  f := fun u v p => 2 * u p - u (1 - p) + v p - 1
  du := fun _ _ p q => (if q = p then 2 else 0) - (if q = 1 - p then 1 else 0)
  dv := fun _ _ p q => if q = p then 1 else 0

/-- [case] Two elements with affine terms. -/
def exAffines (K : Type) [Field K] : Terms K := [(⟨2, [0, 1], true⟩, [[exAffine K 0], [exAffine K 1]])]

theorem exAffineSound : Sound exSetup (exAffines K) := by
  refine ⟨?_, ?_, ?_, fun b _ => Or.inr rfl⟩
  · intro b hb
    simp only [exAffines, List.mem_singleton] at hb
    subst hb
    show FullBlock _
    exact List.Perm.refl _
  · intro b hb g hg t ht p hp q hq
    simp only [exAffines, List.mem_singleton] at hb
    subst hb
    simp only [List.mem_cons, List.not_mem_nil, or_false] at hg hp hq
    rcases hg with rfl | rfl <;> simp only [List.mem_singleton] at ht <;> subst ht <;> rcases hp with rfl | rfl <;>
      rcases hq with rfl | rfl <;> rfl
  · intro b hb g hg t ht p hp
    simp only [exAffines, List.mem_singleton] at hb
    subst hb
    simp only [List.mem_cons, List.not_mem_nil, or_false] at hg hp
    rcases hg with rfl | rfl <;> simp only [List.mem_singleton] at ht <;> subst ht <;> rcases hp with rfl | rfl <;>
      simp [exAffine, exSetup]

theorem exAffine_affine (e : Nat) : (exAffine K e).Affine [0, 1] := by
  intro u v a b p hp
  simp only [List.mem_cons, List.not_mem_nil, or_false] at hp
  rcases hp with rfl | rfl
  · simp [exAffine]; ring
  · simp [exAffine]; ring

/-- [case] Steady state from zero: row 1 of the matrix is (-1, 4, -1) and its residual 2; with the update (0, 6/7, 10/7) the row is
solved, and the residual there is zero afterwards. -/
example (R J R' : Loc → ℚ) (hR : ResOut 2 [0] .steady (fun _ => 0) (exAffines ℚ) R)
    (hJ : JacOut 3 exSetup .steady (fun _ => 0) (exAffines ℚ) J)
    (hR' : ResOut 1 [0] .steady (fun j => 0 + (if j = 1 then 6/7 else if j = 2 then 10/7 else 0)) (exAffines ℚ) R') :
    R (Loc.res 1 0) = 2 ∧ R' (Loc.res 1 0) = 0 := by
  have h1 : R (Loc.res 1 0) = 2 := by
    rw [res_out 2 (by decide) [0] .steady _ _ R hR 1]
    norm_num [over, exAffines, exAffine, elemRes, elemRes', plain]
  refine ⟨h1, ?_⟩
  refine C157_affine_partial 2 3 1 (by decide) (by decide) (by decide) exSetup .steady (exAffines ℚ) exAffineSound (by
      intro b hb g hg t ht
      simp only [exAffines, List.mem_singleton] at hb
      subst hb
      simp only [List.mem_cons, List.not_mem_nil, or_false] at hg
      rcases hg with rfl | rfl <;> simp only [List.mem_singleton] at ht <;> subst ht <;> exact exAffine_affine _)
    (fun _ => 0) (fun j => if j = 1 then 6/7 else if j = 2 then 10/7 else 0) R J R' hR hJ hR' 1 (by decide) (by decide) ?_
  rw [h1, product_out 3 (by decide) exSetup .steady _ _ exAffineSound J hJ 1 (by decide) (by decide)]
  norm_num [over, exAffines, exAffine, plain, rate, dual, seed, const]

/-- [case] Outcomes of both assemblies exist in every state and mode, with the same residual. -/
example (nw : Nat) (hw : 1 ≤ nw) (m : Mode K) (x : Nat → K) : ∃ R J, ResOut nw [0] m x (exTerms K) R ∧
    JacOut nw exSetup m x (exTerms K) J ∧ R (Loc.res 1 0) = J (Loc.res 1 0) := by
  obtain ⟨⟨R, hR⟩, J, hJ⟩ := outcomes nw hw exSetup m (exTerms K) exSound x
  exact ⟨R, J, hR, hJ, C157_residual nw nw hw hw exSetup m (exTerms K) exSound x R J hR hJ 1⟩

end MrHyDE.Assembly.Newton
