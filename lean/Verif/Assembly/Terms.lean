import Mathlib.Algebra.Ring.Defs
import Mathlib.Algebra.BigOperators.Group.List.Basic
import Mathlib.Algebra.Field.Rat
import Mathlib.Tactic.Ring
import Mathlib.Tactic.NormNum

/-! # C64: switched-off terms

Model of the part of the assembly of one block that concerns the residual held by the workset: the loop over groups
(/repo/src/managers/assembly/assemblyManager_jacres.hpp:336-480) and the loop over boundary groups (484-600).  The residual of
the workset survives from one group to the next, and from one assembly to the next, unless it is reset
(assemblyManager_workset.hpp:688, 973, assemblyManager_jacres.hpp:521).  What the physics adds is given. -/

namespace MrHyDE.Assembly.Terms

variable {K : Type} [CommRing K]

/-- A group: global number of each local unknown, what volume terms and the face terms of each side add locally;
assemblyManager_jacres.hpp:365-404. -/
structure Grp (K : Type) where
  lids : List Nat
  vol : Nat → K
  faces : List (Nat → K)

/-- A boundary group: what the boundary terms add; assemblyManager_jacres.hpp:504-545. -/
structure BGrp (K : Type) where
  lids : List Nat
  bnd : Nat → K

/-- The switches `assemble_volume_terms`, `assemble_face_terms`, `assemble_boundary_terms`;
assemblyManager_construct.hpp:58-80. -/
structure Switches where
  vol : Bool
  face : Bool
  bnd : Bool

/-- Local residual of the workset and global residual; assemblyManager_jacres.hpp:150, workset.cpp:480-500. -/
structure St (K : Type) where
  wres : Nat → K
  glob : Nat → K

/-- Scatter of the local residual: minus sign, each local unknown to its global number;
assemblyManager_scatter.hpp:198-232 (see `Scatter` for the schedule). -/
def scatter (lids : List Nat) (w : Nat → K) (g : Nat → K) : Nat → K :=
  fun r => g r - ((List.range lids.length).map (fun p => if lids[p]? = some r then w p else 0)).sum

/-- Add to the local residual; the physics modules add with `res(elem,off(dof)) += ...`, e.g.
/repo/src/physics/thermal.cpp:100-160. -/
def addTo (w a : Nat → K) : Nat → K := fun p => w p + a p

/-- One group, assemblyManager_jacres.hpp:336-414: `updateWorkset` (which resets) only if the volume terms are on. -/
def group (sw : Switches) (s : St K) (g : Grp K) : St K :=
  let w1 := if sw.vol then addTo (fun _ => 0) g.vol else s.wres
  let w2 := if sw.face then g.faces.foldl addTo w1 else w1
  ⟨w2, scatter g.lids w2 s.glob⟩

/-- One boundary group, assemblyManager_jacres.hpp:504-545: always reset. -/
def bgroup (s : St K) (b : BGrp K) : St K :=
  let w := addTo (fun _ => 0) b.bnd
  ⟨w, scatter b.lids w s.glob⟩

/-- One assembly of the block, assemblyManager_jacres.hpp:336-600, starting from a zero global residual. -/
def assemble (sw : Switches) (gs : List (Grp K)) (bs : List (BGrp K)) (wres : Nat → K) : St K :=
  let s := gs.foldl (group sw) ⟨wres, fun _ => 0⟩
  if sw.bnd then bs.foldl bgroup s else s

/-- What one list of local contributions adds to entry `r` of the residual. [specification, no code] -/
def contribution (lids : List Nat) (w : Nat → K) (r : Nat) : K :=
  -((List.range lids.length).map (fun p => if lids[p]? = some r then w p else 0)).sum

/-- The residual wanted: terms that are switched on: specification. -/
def wanted (sw : Switches) (gs : List (Grp K)) (bs : List (BGrp K)) (r : Nat) : K :=
  (gs.map (fun g => contribution g.lids (fun p => (if sw.vol then g.vol p else 0) +
    (if sw.face then (g.faces.map (fun f => f p)).sum else 0)) r)).sum +
  (if sw.bnd then (bs.map (fun b => contribution b.lids b.bnd r)).sum else 0)

theorem scatter_eq (lids : List Nat) (w g : Nat → K) (r : Nat) : scatter lids w g r = g r + contribution lids w r := by
  unfold scatter contribution
  rw [sub_eq_add_neg]

theorem faces_fold (fs : List (Nat → K)) : ∀ (w : Nat → K) (p : Nat),
    fs.foldl addTo w p = w p + (fs.map (fun f => f p)).sum := by
  induction fs with
  | nil => intro w p; simp
  | cons f t ih =>
    intro w p
    rw [List.foldl_cons, ih, List.map_cons, List.sum_cons]
    unfold addTo
    rw [add_assoc]

theorem bgroups_glob (r : Nat) : ∀ (bs : List (BGrp K)) (s : St K),
    (bs.foldl bgroup s).glob r = s.glob r + (bs.map (fun b => contribution b.lids b.bnd r)).sum := by
  intro bs
  induction bs with
  | nil => intro s; simp
  | cons b t ih =>
    intro s
    rw [List.foldl_cons, ih, List.map_cons, List.sum_cons]
    show scatter b.lids (addTo (fun _ => 0) b.bnd) s.glob r + _ = _
    rw [scatter_eq]
    have : addTo (fun _ => (0 : K)) b.bnd = b.bnd := by funext p; simp [addTo]
    rw [this, add_assoc]

theorem groups_on (sw : Switches) (hv : sw.vol = true) (r : Nat) : ∀ (gs : List (Grp K)) (s : St K),
    (gs.foldl (group sw) s).glob r = s.glob r + (gs.map (fun g => contribution g.lids (fun p => (if sw.vol then g.vol p else 0) +
      (if sw.face then (g.faces.map (fun f => f p)).sum else 0)) r)).sum := by
  intro gs
  induction gs with
  | nil => intro s; simp
  | cons g t ih =>
    intro s
    rw [List.foldl_cons, ih, List.map_cons, List.sum_cons, ← add_assoc]
    congr 1
    unfold group
    simp only [hv, if_true]
    rw [scatter_eq]
    congr 2
    funext p
    by_cases hf : sw.face = true
    · simp only [hf, if_true]
      rw [faces_fold]
      simp [addTo]
    · simp [hf, addTo]

/-- C64, partial: with volume terms on the residual is the sum of the terms that are switched on, whatever the workset held
before.  Missing: volume terms off (`C64_stale_residual`). -/
theorem C64_volume_on_partial (sw : Switches) (hv : sw.vol = true) (gs : List (Grp K)) (bs : List (BGrp K)) (wres : Nat → K)
    (r : Nat) : (assemble sw gs bs wres).glob r = wanted sw gs bs r := by
  unfold assemble wanted
  simp only
  by_cases hb : sw.bnd = true
  · simp only [hb, if_true]
    rw [bgroups_glob, groups_on sw hv]
    simp
  · have hb' : sw.bnd = false := by simpa using hb
    simp only [hb', Bool.false_eq_true, if_false]
    rw [groups_on sw hv]
    simp

theorem groups_off (sw : Switches) (hv : sw.vol = false) (hf : sw.face = false) (r : Nat) : ∀ (gs : List (Grp K)) (s : St K),
    (gs.foldl (group sw) s).wres = s.wres ∧
    (gs.foldl (group sw) s).glob r = s.glob r + (gs.map (fun g => contribution g.lids s.wres r)).sum := by
  intro gs
  induction gs with
  | nil => intro s; simp
  | cons g t ih =>
    intro s
    obtain ⟨h1, h2⟩ := ih (group sw s g)
    have e : (group sw s g).wres = s.wres := by simp [group, hv, hf]
    refine ⟨by rw [List.foldl_cons, h1, e], ?_⟩
    rw [List.foldl_cons, h2, e, List.map_cons, List.sum_cons, ← add_assoc]
    congr 1
    show (group sw s g).glob r = _
    unfold group
    simp only [hv, hf, Bool.false_eq_true, if_false]
    rw [scatter_eq]

/-- C64 is false with volume and face terms off: every group scatters whatever the workset held, and after an assembly with
boundary groups that is the residual of the last boundary group.  The second assembly therefore adds to the wanted residual
that of the last boundary group once for every element group. -/
theorem C64_stale_residual (sw : Switches) (hv : sw.vol = false) (hf : sw.face = false) (hb : sw.bnd = true)
    (gs : List (Grp K)) (bs : List (BGrp K)) (last : BGrp K) (wres : Nat → K) (r : Nat) :
    (assemble sw gs (bs ++ [last]) (assemble sw gs (bs ++ [last]) wres).wres).glob r =
      wanted sw gs (bs ++ [last]) r + (gs.map (fun g => contribution g.lids last.bnd r)).sum := by
  have hw : (assemble sw gs (bs ++ [last]) wres).wres = last.bnd := by
    unfold assemble
    simp only [hb, if_true, List.foldl_append, List.foldl_cons, List.foldl_nil]
    funext p
    simp [bgroup, addTo]
  have hzero : (gs.map (fun g => contribution g.lids (fun _ => (0 : K)) r)).sum = 0 := by
    induction gs with
    | nil => rfl
    | cons g t ih =>
      have : contribution g.lids (fun _ => (0 : K)) r = 0 := by simp [contribution]
      rw [List.map_cons, List.sum_cons, this, zero_add]
      clear hw this
      induction t with
      | nil => rfl
      | cons h t' ih' =>
        have : contribution h.lids (fun _ => (0 : K)) r = 0 := by simp [contribution]
        simp [contribution]
  rw [hw]
  unfold assemble wanted
  simp only [hb, if_true]
  rw [bgroups_glob, (groups_off sw hv hf r gs _).2]
  simp only [hv, hf, Bool.false_eq_true, if_false, add_zero]
  rw [hzero]
  ring

/-- With volume terms off and face terms on, the face terms of a group are scattered again by every later group. -/
theorem C64_faces_accumulate (sw : Switches) (hv : sw.vol = false) (hf : sw.face = true) (hb : sw.bnd = false)
    (g1 g2 : Grp K) (r : Nat) :
    (assemble sw [g1, g2] [] (fun _ => 0)).glob r =
      wanted sw [g1, g2] [] r + contribution g2.lids (fun p => (g1.faces.map (fun f => f p)).sum) r := by
  unfold assemble wanted
  simp only [hb, hv, hf, if_true, Bool.false_eq_true, if_false, List.foldl_cons, List.foldl_nil, group, List.map_cons,
    List.map_nil, List.sum_cons, List.sum_nil, add_zero, zero_add]
  rw [scatter_eq, scatter_eq]
  have e1 : g1.faces.foldl addTo (fun _ => (0 : K)) = fun p => (g1.faces.map (fun f => f p)).sum := by
    funext p; rw [faces_fold, zero_add]
  have e2 : g2.faces.foldl addTo (g1.faces.foldl addTo (fun _ => (0 : K))) =
      fun p => (g1.faces.map (fun f => f p)).sum + (g2.faces.map (fun f => f p)).sum := by
    funext p; rw [faces_fold, e1]
  rw [e2, e1]
  have e3 : contribution g2.lids (fun p => (g1.faces.map (fun f => f p)).sum + (g2.faces.map (fun f => f p)).sum) r =
      contribution g2.lids (fun p => (g1.faces.map (fun f => f p)).sum) r +
      contribution g2.lids (fun p => (g2.faces.map (fun f => f p)).sum) r := by
    unfold contribution
    rw [← neg_add, ← List.sum_map_add]
    congr 2
    apply List.map_congr_left
    intro p _
    split <;> simp
  rw [e3]
  ring

/-- Case: one group, one boundary group with residual 5 at unknown 0.  The first assembly from a zero workset gives -5, the
next one -10. -/
example : (assemble (K := ℚ) ⟨false, false, true⟩ [⟨[0], fun _ => 7, []⟩] [⟨[0], fun _ => 5⟩] (fun _ => 0)).glob 0 = -5 ∧
    (assemble (K := ℚ) ⟨false, false, true⟩ [⟨[0], fun _ => 7, []⟩] ([] ++ [⟨[0], fun _ => 5⟩])
      (assemble (K := ℚ) ⟨false, false, true⟩ [⟨[0], fun _ => 7, []⟩] ([] ++ [⟨[0], fun _ => 5⟩]) (fun _ => 0)).wres).glob 0
      = -10 := by
  refine ⟨?_, ?_⟩
  · norm_num [assemble, group, bgroup, scatter, addTo]
  · rw [C64_stale_residual ⟨false, false, true⟩ rfl rfl rfl]
    norm_num [wanted, contribution]

/-- Case: volume terms on, workset holding 9 from before: the residual is -7 - 5. -/
example : (assemble (K := ℚ) ⟨true, false, true⟩ [⟨[0], fun _ => 7, []⟩] [⟨[0], fun _ => 5⟩] (fun _ => 9)).glob 0 = -12 := by
  rw [C64_volume_on_partial ⟨true, false, true⟩ rfl]
  norm_num [wanted, contribution]

/-- Case: face terms 1 and 2 of two groups that share unknown 0: -1 - 2 is wanted, -1 - 3 results. -/
example : (assemble (K := ℚ) ⟨false, true, false⟩ [⟨[0], fun _ => 0, [fun _ => 1]⟩, ⟨[0], fun _ => 0, [fun _ => 2]⟩] []
    (fun _ => 0)).glob 0 = -4 := by
  rw [C64_faces_accumulate ⟨false, true, false⟩ rfl rfl rfl]
  norm_num [wanted, contribution]

end MrHyDE.Assembly.Terms
