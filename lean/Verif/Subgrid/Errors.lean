import Mathlib.Algebra.Field.Rat
import Mathlib.Algebra.BigOperators.Group.List.Basic
import Mathlib.Algebra.BigOperators.Group.Finset.Basic
import Mathlib.Algebra.BigOperators.Group.Finset.Piecewise

/-!
# C161: errors reported for subgrid models

`SubGridDtN::computeError` (subgridDtN.cpp:1215-1240), `SubGridDtN2::computeError` (subgridDtN2.cpp:969-992), the error computation
they call for all coarse groups (postprocessManager_error_estimation.hpp:209-497), the collection for the coarse problem (510-531)
and the report (postprocessManager_util.hpp:803-877).

One time and one entry of the list of errors.  The contribution of a fine group to the squared error is a given number (C94 is about
these).  Values before the square root of the report.  Selection of models by the usage functions (`subgrid_model_selection == 0`).
-/

namespace MrHyDE.Subgrid.Errors

set_option linter.unusedSectionVars false

variable {K : Type}

/-! ## Model -/

/-- A coarse group on a process: the number of its model, and for every model the contributions of its fine groups, in the volume and
on the faces.  Every model holds every coarse group, multiscaleManager.cpp:247-264. -/
structure Coarse (K : Type) where
  model : Nat
  fine : Nat → List (K × K)

/-- What is asked for: the entry is an error on faces, and the list of errors has such an entry at all.
[postprocessManager_error_estimation.hpp:232-244, 462-465] -/
structure Ask where
  face : Bool
  anyFace : Bool

/-- The fine groups of one coarse group, `blockerrors` of postprocessManager_error_estimation.hpp:245-492: volume errors only of active groups (247),
face errors of all (450).  The flag is set by `updateActive`, multiscaleManager.cpp:297-324, subgridDtN.cpp:2063-2070. -/
def blockError [Zero K] [Add K] (a : Ask) (active : Bool) (fine : List (K × K)) : K :=
  fine.foldl (fun s g => if a.face then s + g.2 else if active then s + g.1 else s) 0

/-- The errors over all coarse groups, postprocessManager_error_estimation.hpp:209-497 with the sum of subgridDtN.cpp:1228-1233.  `none`: the workset of a
coarse group with number at least one is read for the weights of faces, :472; a subgrid model has one workset. -/
def subError [Zero K] [Add K] (a : Ask) (m : Nat) (groups : List (Coarse K)) : Option K :=
  if a.anyFace && (groups.drop 1).any (fun g => !(g.fine m).isEmpty) then none
  else some (groups.foldl (fun s g => s + blockError a (g.model == m) (g.fine m)) 0)

/-- `computeError` of a model: subgridDtN.cpp:1218-1239, subgridDtN2.cpp:971-991 (`two`).  Without coarse groups the list of errors is
empty, and the report takes zero, postprocessManager_util.hpp:830-834. -/
def modelError [Zero K] [Add K] (two static : Bool) (a : Ask) (m : Nat) (groups : List (Coarse K)) : Option K :=
  if groups.isEmpty then some 0 else if two || static then subError a m groups else some 0

/-- The sum over the processes, postprocessManager_util.hpp:835-836. -/
def report [Zero K] [Add K] (two static : Bool) (a : Ask) (m : Nat) : List (List (Coarse K)) → Option K
  | [] => some 0
  | p :: ps => (modelError two static a m p).bind fun x => (report two static a m ps).map fun y => x + y

/-! ## Specification -/

/-- [specification, no code] The squared error of model `m`: over the coarse groups that use it, all fine groups. -/
def modelNorm [AddCommMonoid K] (part : K × K → K) (m : Nat) (groups : List (Coarse K)) : K :=
  ((groups.filter (fun g => g.model == m)).map fun g => ((g.fine m).map part).sum).sum

/-- [specification, no code] The squared error of the whole fine scale: every coarse group with the model it uses. -/
def fineNorm [AddCommMonoid K] (part : K × K → K) (groups : List (Coarse K)) : K :=
  (groups.map fun g => ((g.fine g.model).map part).sum).sum

/-! ## Volume errors -/

theorem blockError_active [AddCommMonoid K] (any : Bool) (fine : List (K × K)) :
    blockError ⟨false, any⟩ true fine = (fine.map Prod.fst).sum := by
  have h : ∀ (l : List (K × K)) (s : K), l.foldl (fun s g => if (Ask.mk false any).face then s + g.2 else if true then s + g.1 else s) s =
      s + (l.map Prod.fst).sum := by
    intro l
    induction l with
    | nil => intro s; simp
    | cons g l ih => intro s; rw [List.foldl_cons, ih]; simp [add_assoc]
  exact (h fine 0).trans (zero_add _)

theorem blockError_inactive [AddCommMonoid K] (any : Bool) (fine : List (K × K)) : blockError ⟨false, any⟩ false fine = 0 := by
  unfold blockError
  induction fine with
  | nil => rfl
  | cons g l ih => simpa using ih

theorem blockError_face [AddCommMonoid K] (any active : Bool) (fine : List (K × K)) :
    blockError ⟨true, any⟩ active fine = (fine.map Prod.snd).sum := by
  have h : ∀ (l : List (K × K)) (s : K), l.foldl (fun s g => if (Ask.mk true any).face then s + g.2 else if active then s + g.1 else s) s =
      s + (l.map Prod.snd).sum := by
    intro l
    induction l with
    | nil => intro s; simp
    | cons g l ih => intro s; rw [List.foldl_cons, ih]; simp [add_assoc]
  exact (h fine 0).trans (zero_add _)

theorem foldl_sum [AddCommMonoid K] {α : Type} (f : α → K) (l : List α) : ∀ s, l.foldl (fun s g => s + f g) s = s + (l.map f).sum := by
  induction l with
  | nil => intro s; simp
  | cons g l ih => intro s; rw [List.foldl_cons, ih]; simp [add_assoc]

theorem modelNorm_cons [AddCommMonoid K] (part : K × K → K) (m : Nat) (g : Coarse K) (l : List (Coarse K)) :
    modelNorm part m (g :: l) = (if g.model = m then ((g.fine m).map part).sum else 0) + modelNorm part m l := by
  unfold modelNorm
  by_cases h : g.model = m <;> simp [h]

theorem modelNorm_append [AddCommMonoid K] (part : K × K → K) (m : Nat) (a b : List (Coarse K)) :
    modelNorm part m (a ++ b) = modelNorm part m a + modelNorm part m b := by
  simp [modelNorm]

theorem subError_volume [AddCommMonoid K] (m : Nat) (groups : List (Coarse K)) :
    subError ⟨false, false⟩ m groups = some (modelNorm Prod.fst m groups) := by
  unfold subError
  simp only [Bool.false_and, Bool.false_eq_true, if_false]
  rw [foldl_sum, zero_add]
  congr 1
  induction groups with
  | nil => rfl
  | cons g l ih =>
    rw [modelNorm_cons, List.map_cons, List.sum_cons, ih]
    by_cases h : g.model = m
    · rw [show (g.model == m) = true by simpa using h, blockError_active, if_pos h]
    · rw [show (g.model == m) = false by simpa using h, blockError_inactive, if_neg h]

/-- **C161, one model, partial.**  If no errors on faces are asked for, and the model is of the second kind or models do not change: the
report for a model is the squared error over exactly the coarse groups that use it, whatever their division among processes, and
processes without coarse groups.  Missing: models of the first kind that can change, errors on faces. -/
theorem C161_partial [AddCommMonoid K] (two static : Bool) (h : two = true ∨ static = true) (m : Nat) (procs : List (List (Coarse K)))
    (groups : List (Coarse K)) (hp : procs.flatten.Perm groups) :
    report two static ⟨false, false⟩ m procs = some (modelNorm Prod.fst m groups) := by
  have e : modelNorm Prod.fst m groups = modelNorm Prod.fst m procs.flatten := by
    unfold modelNorm
    exact ((hp.filter _).map _).sum_eq.symm
  rw [e]
  clear e hp
  induction procs with
  | nil => rfl
  | cons p ps ih =>
    have hm : modelError two static ⟨false, false⟩ m p = some (modelNorm Prod.fst m p) := by
      unfold modelError
      cases p with
      | nil => rfl
      | cons g p =>
        have ht : (two || static) = true := by simpa using h
        simp only [List.isEmpty_cons, Bool.false_eq_true, if_false, ht, if_true]
        exact subError_volume m (g :: p)
    simp only [report, hm, ih, Option.bind_some, Option.map_some, List.flatten_cons, modelNorm_append]

/-- **C161, all models, partial.**  Under the same conditions the reports of all models together are the squared error of the whole fine
scale: each coarse group counts once, with the model it uses. -/
theorem C161_total_partial [AddCommMonoid K] (two : Nat → Bool) (static : Bool) (n : Nat) (h : ∀ m < n, two m = true ∨ static = true)
    (procs : List (List (Coarse K))) (groups : List (Coarse K)) (hp : procs.flatten.Perm groups) (hg : ∀ g ∈ groups, g.model < n) :
    ∃ r : Nat → K, (∀ m < n, report (two m) static ⟨false, false⟩ m procs = some (r m)) ∧
      ∑ m ∈ Finset.range n, r m = fineNorm Prod.fst groups := by
  refine ⟨fun m => modelNorm Prod.fst m groups, fun m hm => C161_partial (two m) static (h m hm) m procs groups hp, ?_⟩
  clear hp
  induction groups with
  | nil => simp [modelNorm, fineNorm]
  | cons g l ih =>
    have := ih (fun g' h' => hg g' (List.mem_cons_of_mem _ h'))
    simp only [modelNorm_cons, Finset.sum_add_distrib, this]
    rw [Finset.sum_ite_eq (Finset.range n) g.model (fun m => ((g.fine m).map Prod.fst).sum),
      if_pos (Finset.mem_range.2 (hg g List.mem_cons_self))]
    simp [fineNorm]

/-! ## Where the property fails -/

/-- C161 is false for models of the first kind when models can change ("static subgrids" false): the reported error is zero, whatever the
fine states. -/
theorem C161_changing_violated [AddCommMonoid K] (a : Ask) (m : Nat) (procs : List (List (Coarse K))) :
    report false false a m procs = some 0 := by
  induction procs with
  | nil => rfl
  | cons p ps ih =>
    have hm : modelError false false a m p = some 0 := by unfold modelError; split <;> rfl
    simp [report, hm, ih]

/-- C161 is false as soon as an error on faces is asked for and a process has a second coarse group with fine groups: the weights are
read from a workset that does not exist, also for the volume errors of the same list. -/
theorem C161_face_violated [Zero K] [Add K] (two : Bool) (face : Bool) (m : Nat) (g h : Coarse K) (rest : List (Coarse K)) (hf : h.fine m ≠ []) :
    modelError two true ⟨face, true⟩ m (g :: h :: rest) = none := by
  have : (h.fine m).isEmpty = false := by
    cases e : h.fine m with
    | nil => exact absurd e hf
    | cons => rfl
  simp [modelError, subError, this]

/-- C161 is false for errors on faces with several models, also with one coarse group: the errors on the faces of a model that the
group does not use are reported for that model. -/
theorem C161_inactive_face_violated [AddCommMonoid K] (two : Bool) (m : Nat) (g : Coarse K) (hm : g.model ≠ m) :
    modelError two true ⟨true, true⟩ m [g] = some ((g.fine m).map Prod.snd).sum ∧ modelNorm Prod.snd m [g] = 0 := by
  constructor
  · simp [modelError, subError, blockError_face]
  · simp [hm, modelNorm]

/-! ## Cases -/

/-- Two processes with three coarse groups and two models. [case] -/
def procs : List (List (Coarse ℚ)) :=
  [[⟨0, fun m => if m = 0 then [(1, 10), (2, 20)] else [(100, 1)]⟩, ⟨1, fun m => if m = 0 then [(200, 1)] else [(4, 40)]⟩], [],
    [⟨0, fun m => if m = 0 then [(8, 80)] else [(300, 1)]⟩]]

example : report true false ⟨false, false⟩ 0 procs = some 11 := by
  rw [C161_partial true false (.inl rfl) 0 procs procs.flatten (List.Perm.refl _)]
  decide +kernel

example : ∃ r : Nat → ℚ, (∀ m < 2, report false true ⟨false, false⟩ m procs = some (r m)) ∧ ∑ m ∈ Finset.range 2, r m = 15 := by
  obtain ⟨r, h1, h2⟩ := C161_total_partial (fun _ => false) true 2 (fun _ _ => .inr rfl) procs procs.flatten (List.Perm.refl _) (by decide)
  exact ⟨r, h1, h2.trans (by decide +kernel)⟩

example : report false false ⟨false, false⟩ 0 procs = some 0 ∧ modelNorm Prod.fst 0 procs.flatten = 11 :=
  ⟨C161_changing_violated _ _ _, by decide +kernel⟩

example : modelError true true ⟨false, true⟩ 0 (procs.getD 0 []) = none :=
  C161_face_violated true false 0 _ _ [] (by decide)

example : modelError true true ⟨true, true⟩ 1 (procs.getD 2 []) = some 1 :=
  (C161_inactive_face_violated true 1 _ (by decide)).1.trans (by decide +kernel)

end MrHyDE.Subgrid.Errors
