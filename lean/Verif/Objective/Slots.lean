import Verif.Objective.Lemmas
import Mathlib.Algebra.Ring.Rat
import Mathlib.Tactic.NormNum

/-! # C75, C76: the workset and the slots used for the explicit derivative

/repo/src/managers/postprocess/postprocessManager_objective_gradient.hpp: scalar parameters, integrated control 195-246 (after
`updateWorksetAD`, 214), integrated response 375-427 (after `updateWorkset`, 393, which fills the workset without derivatives,
/repo/src/managers/assembly/assemblyManager_workset.hpp:877-882); discretised parameters 249-312, 450-512 and regularisations
780-900. -/

namespace MrHyDE.Objective.Slots

open DualNumber TrivSqZeroExt

variable {K : Type} [CommRing K]

/-- State at the points of the elements of a group, with weights; postprocessManager_objective_gradient.hpp:204-225. -/
abbrev GroupState (K : Type) := List (List (K × K))

/-- Contents of the workset with derivatives at the points of the elements; postprocessManager_objective_gradient.hpp:216, 395. -/
abbrev Fields (K : Type) := List (List (DualNumber K))

/-- `updateWorksetAD` with `seedwhat` 0: the state of the group without derivatives; postprocessManager_objective_gradient.hpp:214,
assemblyManager_workset.hpp:965-1045. -/
def updateAD (g : GroupState K) : Fields K := g.map (fun e => e.map (fun x : K × K => (inl x.1 : DualNumber K)))

/-- `updateWorksetAD` with `seedwhat` 1, last used by the derivative with respect to the state: slot of the first unknown, with
value `b` of its basis function at the points; postprocessManager_objective_gradient.hpp:1169, 1267. -/
def updateSeeded (b : K) (g : GroupState K) : Fields K :=
  g.map (fun e => e.map (fun x : K × K => (inl x.1 + inr b : DualNumber K)))

/-- The parameter as the functions see it during the explicit derivative: without derivative slot (the seeds are not copied to the
view, C171, `C171_explicit_violated`); postprocessManager_objective_gradient.hpp:195, 376, parameterManager_update.hpp:108-136. -/
def seenParam (p : K) : DualNumber K := inl p

/-- Sum over elements and points of slot times weight, with the function `f` of parameter and field, the parameter seen as `p`;
postprocessManager_objective_gradient.hpp:216-245, 395-425. -/
def slots (f : DualNumber K → DualNumber K → DualNumber K) (p : DualNumber K) (F : Fields K) (g : GroupState K) : K :=
  ((F.zip g).foldl (fun (s : DualNumber K) (x : List (DualNumber K) × List (K × K)) =>
    s + (x.1.zip x.2).foldl (fun (t : DualNumber K) (y : DualNumber K × K × K) => t + f p y.1 * inl y.2.2) 0) 0).snd

/-- Integrated control: the workset with derivatives is filled for each group; postprocessManager_objective_gradient.hpp:195-246. -/
def controlSlots (f : DualNumber K → DualNumber K → DualNumber K) (p : DualNumber K) (w : K) (gs : List (GroupState K)) (F : Fields K) :
    K × Fields K :=
  gs.foldl (fun s g => (s.1 + w * slots f p (updateAD g) g, updateAD g)) (0, F)

/-- Integrated response: the workset with derivatives stays as it is; postprocessManager_objective_gradient.hpp:375-427. -/
def responseSlots (f : DualNumber K → DualNumber K → DualNumber K) (p : DualNumber K) (gs : List (GroupState K)) (F : Fields K) :
    K × Fields K :=
  gs.foldl (fun s g => (s.1 + slots f p s.2 g, s.2)) (0, F)

/-- Sum of the slots of `f` with the parameter seen as `p`. [specification, no code] -/
def slopeSeen (f : DualNumber K → DualNumber K → DualNumber K) (p : DualNumber K) (gs : List (GroupState K)) : K :=
  (gs.flatten.flatten.map (fun x => (f p (inl x.1)).snd * x.2)).sum

/-- The wanted derivative: that of the integral of `f` at fixed states. [specification, no code] -/
def slope (f : DualNumber K → DualNumber K → DualNumber K) (p : K) (gs : List (GroupState K)) : K :=
  (gs.flatten.flatten.map (fun x => (f (inl p + inr 1) (inl x.1)).snd * x.2)).sum

theorem snd_sum (l : List (DualNumber K)) : l.sum.snd = (l.map (fun x => x.snd)).sum := by
  induction l with
  | nil => simp
  | cons a t ih => simp [ih]

theorem zip_map_self {A B : Type} (f : A → B) (l : List A) : (l.map f).zip l = l.map (fun x => (f x, x)) := by
  induction l with
  | nil => rfl
  | cons a t ih => simp [ih]

theorem slots_own (f : DualNumber K → DualNumber K → DualNumber K) (p : DualNumber K) (g : GroupState K) :
    slots f p (updateAD g) g = (g.flatten.map (fun x => (f p (inl x.1)).snd * x.2)).sum := by
  unfold slots updateAD
  rw [zip_map_self, List.foldl_map]
  rw [foldl_of (fun s (e : List (K × K)) => s + ((e.map (fun x => (inl x.1 : DualNumber K))).zip e).foldl
      (fun t y => t + f p y.1 * inl y.2.2) 0)
    (fun e => (e.map (fun x => f p (inl x.1) * inl x.2)).sum) (by
      intro t e
      rw [zip_map_self, List.foldl_map, foldl_add (fun x : K × K => f p (inl x.1) * inl x.2), zero_add])]
  rw [zero_add, snd_sum, List.map_map]
  induction g with
  | nil => simp
  | cons e t ih =>
    rw [List.flatten_cons, List.map_append, List.sum_append, List.map_cons, List.sum_cons, ih]
    congr 1
    simp only [Function.comp_apply]
    rw [snd_sum, List.map_map]
    congr 1
    apply List.map_congr_left
    intro x _
    simp only [Function.comp_apply]
    rw [DualNumber.snd_mul]
    simp

/-- For an integrated control, what is added is the weighted sum of the slots at the states of the groups, whatever the workset
held before. -/
theorem control_slots (f : DualNumber K → DualNumber K → DualNumber K) (p : DualNumber K) (w : K) (gs : List (GroupState K))
    (F : Fields K) : (controlSlots f p w gs F).1 = w * slopeSeen f p gs := by
  have key : ∀ (gs : List (GroupState K)) (s : K × Fields K),
      (gs.foldl (fun s g => (s.1 + w * slots f p (updateAD g) g, updateAD g)) s).1 = s.1 + w * slopeSeen f p gs := by
    intro gs
    induction gs with
    | nil => intro s; simp [slopeSeen]
    | cons g t ih =>
      intro s
      rw [List.foldl_cons, ih]
      have : slopeSeen f p (g :: t) = slots f p (updateAD g) g + slopeSeen f p t := by
        rw [slots_own]
        unfold slopeSeen
        rw [List.flatten_cons, List.flatten_append, List.map_append, List.sum_append]
      rw [this]
      ring
  have := key gs (0, F)
  unfold controlSlots
  rw [this, zero_add]

/-- C75, partial: for an integrated control whose function has no slope in the scalar parameter, what is added is the weighted
derivative of the integral at fixed states, whatever the workset held before; and it would be for all functions, were the
parameter seen with its slot.  Missing: functions that depend on the parameter (`C75_unseeded_violated`), integrated responses
(`C75_response_stale`). -/
theorem C75_control_partial (f : DualNumber K → DualNumber K → DualNumber K) (p w : K) (gs : List (GroupState K)) (F : Fields K) :
    (controlSlots f (inl p + inr 1) w gs F).1 = w * slope f p gs ∧
      ((∀ u : K, (f (inl p + inr 1) (inl u)).snd = (f (inl p) (inl u)).snd) →
        (controlSlots f (seenParam p) w gs F).1 = w * slope f p gs) := by
  refine ⟨control_slots f _ w gs F, fun h => ?_⟩
  rw [control_slots]
  unfold slopeSeen slope seenParam
  congr 2
  exact List.map_congr_left (fun x _ => by rw [h x.1])

/-- C75 is false for every function of parameter and state that returns no slot for values without slots (as all arithmetic
does): nothing is added, whatever its derivative. -/
theorem C75_unseeded_violated (f : DualNumber K → DualNumber K → DualNumber K) (hf : ∀ p u : K, (f (inl p) (inl u)).snd = 0)
    (p w : K) (gs : List (GroupState K)) (F : Fields K) : (controlSlots f (seenParam p) w gs F).1 = 0 := by
  rw [control_slots]
  unfold slopeSeen seenParam
  have : gs.flatten.flatten.map (fun x => (f (inl p) (inl x.1)).snd * x.2) = gs.flatten.flatten.map (fun _ => (0 : K)) :=
    List.map_congr_left (fun x _ => by rw [hf, zero_mul])
  rw [this, List.map_const', List.sum_replicate, smul_zero, mul_zero]

/-- C75 is false for an integrated response: the states of the groups do not enter at all; what the workset held before is
used for each group. -/
theorem C75_response_stale (f : DualNumber K → DualNumber K → DualNumber K) (p : DualNumber K) (gs : List (GroupState K)) (F : Fields K) :
    responseSlots f p gs F = ((gs.map (slots f p F)).sum, F) := by
  have key : ∀ (gs : List (GroupState K)) (a : K),
      gs.foldl (fun s g => (s.1 + slots f p s.2 g, s.2)) (a, F) = (a + (gs.map (slots f p F)).sum, F) := by
    intro gs
    induction gs with
    | nil => intro a; simp
    | cons g t ih =>
      intro a
      rw [List.foldl_cons, ih]
      simp
      ring
  unfold responseSlots
  rw [key, zero_add]

/-- C75 is false even for a response without parameters: after the derivative with respect to the state (seeded), the slots of
the state are taken for those of the parameter.  Response `u`, one point of weight 1, value of the basis function 1: 1
instead of 0. -/
theorem C75_response_wrong : ∃ (g : GroupState ℚ), (responseSlots (fun _ u => u * u) (seenParam 2) [g] (updateSeeded 1 g)).1 = 30 ∧
    slope (fun _ u => u * u) 2 [g] = 0 := ⟨[[(3, 5)]], by decide +kernel, by decide +kernel⟩

/-- Case: integrated control `p * u` on two groups with states 3 and 5, weights 1 and 2, objective weight 2: nothing instead of
2 (3 + 10). -/
example : (controlSlots (fun p u => p * u) (seenParam 7) 2 [[[(3, 1)]], [[((5 : ℚ), 2)]]] [[9, 9]]).1 = 0 ∧
    (2 : ℚ) * slope (fun p u => p * u) 7 [[[(3, 1)]], [[((5 : ℚ), 2)]]] = 26 ∧
    (controlSlots (fun p u => p * u) (inl 7 + inr 1) 2 [[[(3, 1)]], [[((5 : ℚ), 2)]]] [[9, 9]]).1 = 26 := by decide +kernel

/-- Case for the hypothesis of `C75_unseeded_violated`. -/
example : ∀ p u : ℚ, ((inl p : DualNumber ℚ) * inl u).snd = 0 := by intro p u; simp

/-! ## Discretised parameters -/

/-- A group for the derivative with respect to discretised parameters: for each element its row numbers and, for each of them,
the integral over the element of the derivative slot; postprocessManager_objective_gradient.hpp:255-310. -/
abbrev Elems (K : Type) := List (List Nat × List K)

/-- Sum of slot `o` over the elements of a group; postprocessManager_objective_gradient.hpp:271-291. -/
def slotSum (g : Elems K) (o : Nat) : K := g.foldl (fun s e => s + e.2.getD o 0) 0

/-- Addition to an entry; `none`: outside the vector; postprocessManager_objective_gradient.hpp:308. -/
def addAt (v : List K) (i : Nat) (x : K) : Option (List K) := if i < v.length then some (v.set i (v.getD i 0 + x)) else none

/-- The loop over elements and rows for controls and responses: to every element the sum over the group is added;
postprocessManager_objective_gradient.hpp:295-311, 494-510.  In 494-510 the rows are global numbers, in 295-311 local ones. -/
def addGroup (w : K) (v : List K) (g : Elems K) : Option (List K) :=
  g.foldlM (fun v e => (e.1.zip (List.range e.1.length)).foldlM (fun v x => addAt v x.1 (w * slotSum g x.2)) v) v

/-- The loop for integrated regularisations: to every element its own integral is added; postprocessManager_objective_gradient.hpp:816-832,
881-897. -/
def addElements (w : K) (v : List K) (g : Elems K) : Option (List K) :=
  g.foldlM (fun v e => (e.1.zip (List.range e.1.length)).foldlM (fun v x => addAt v x.1 (w * e.2.getD x.2 0)) v) v

/-- The wanted entry: sum over elements and their rows. [specification, no code] -/
def wanted (w : K) (g : Elems K) (i : Nat) : K :=
  (g.map (fun e => ((e.1.zip (List.range e.1.length)).map (fun x => if x.1 = i then w * e.2.getD x.2 0 else 0)).sum)).sum

theorem addAt_getD (v v' : List K) (i : Nat) (x : K) (h : addAt v i x = some v') :
    v'.length = v.length ∧ ∀ k, v'.getD k 0 = v.getD k 0 + if i = k then x else 0 := by
  unfold addAt at h
  by_cases hi : i < v.length
  · rw [if_pos hi] at h
    have := Option.some.inj h
    subst this
    refine ⟨List.length_set, ?_⟩
    intro k
    rw [List.getD_eq_getElem?_getD, List.getElem?_set]
    by_cases hk : i = k
    · subst hk
      rw [if_pos rfl, if_pos hi, if_pos rfl, Option.getD_some]
    · rw [if_neg hk, if_neg hk, add_zero, List.getD_eq_getElem?_getD]
  · rw [if_neg hi] at h
    exact absurd h (by simp)

theorem row_fold (c : Nat → K) : ∀ (l : List (Nat × Nat)) (v v' : List K),
    l.foldlM (fun v x => addAt v x.1 (c x.2)) v = some v' →
    v'.length = v.length ∧ ∀ k, v'.getD k 0 = v.getD k 0 + (l.map (fun x => if x.1 = k then c x.2 else 0)).sum := by
  intro l
  induction l with
  | nil => intro v v' h; simp at h; subst h; exact ⟨rfl, fun k => by simp⟩
  | cons a t ih =>
    intro v v' h
    rw [List.foldlM_cons] at h
    cases ha : addAt v a.1 (c a.2) with
    | none => rw [ha] at h; simp at h
    | some v1 =>
      rw [ha] at h
      obtain ⟨h1, h2⟩ := addAt_getD v v1 a.1 _ ha
      obtain ⟨k1, k2⟩ := ih v1 v' (by simpa using h)
      refine ⟨by rw [k1, h1], fun k => ?_⟩
      rw [k2, h2, List.map_cons, List.sum_cons]
      ring

theorem elem_fold (c : (List Nat × List K) → Nat → K) : ∀ (g : Elems K) (v v' : List K),
    g.foldlM (fun v e => (e.1.zip (List.range e.1.length)).foldlM (fun v x => addAt v x.1 (c e x.2)) v) v = some v' →
    v'.length = v.length ∧ ∀ k, v'.getD k 0 = v.getD k 0 +
      (g.map (fun e => ((e.1.zip (List.range e.1.length)).map (fun x => if x.1 = k then c e x.2 else 0)).sum)).sum := by
  intro g
  induction g with
  | nil => intro v v' h; simp at h; subst h; exact ⟨rfl, fun k => by simp⟩
  | cons a t ih =>
    intro v v' h
    rw [List.foldlM_cons] at h
    cases ha : (a.1.zip (List.range a.1.length)).foldlM (fun v x => addAt v x.1 (c a x.2)) v with
    | none => rw [ha] at h; simp at h
    | some v1 =>
      rw [ha] at h
      obtain ⟨h1, h2⟩ := row_fold (c a) _ v v1 ha
      obtain ⟨k1, k2⟩ := ih v1 v' (by simpa using h)
      refine ⟨by rw [k1, h1], fun k => ?_⟩
      rw [k2, h2, List.map_cons, List.sum_cons]
      ring

/-- C76: integrated regularisations: to every parameter the derivative of the integrals over its elements is added, for any
groups. -/
theorem C76_regularisation (w : K) (g : Elems K) (v v' : List K) (h : addElements w v g = some v') (i : Nat) :
    v'.getD i 0 = v.getD i 0 + wanted w g i :=
  (elem_fold (fun e o => w * e.2.getD o 0) g v v' h).2 i

/-- C76, partial: controls and responses, for groups of a single element.  Missing: larger groups (`C76_group_sum`,
`C76_group_wrong`). -/
theorem C76_single_partial (w : K) (e : List Nat × List K) (v v' : List K) (h : addGroup w v [e] = some v') (i : Nat) :
    v'.getD i 0 = v.getD i 0 + wanted w [e] i := by
  have := (elem_fold (fun _ o => w * slotSum [e] o) [e] v v' h).2 i
  rw [this]
  unfold wanted slotSum
  simp

/-- C76 is false for larger groups: to the rows of every element the sum over all elements of the group is added. -/
theorem C76_group_sum (w : K) (g : Elems K) (v v' : List K) (h : addGroup w v g = some v') (i : Nat) :
    v'.getD i 0 = v.getD i 0 + (g.map (fun e => ((e.1.zip (List.range e.1.length)).map
      (fun x => if x.1 = i then w * slotSum g x.2 else 0)).sum)).sum :=
  (elem_fold (fun _ o => w * slotSum g o) g v v' h).2 i

/-- Two elements with one parameter each and derivatives 3 and 5: both get 8. -/
theorem C76_group_wrong : ∃ (g : Elems ℚ) (v : List ℚ), addGroup 1 [0, 0] g = some v ∧
    v.getD 0 0 = 8 ∧ wanted 1 g 0 = 3 ∧ v.getD 1 0 = 8 ∧ wanted 1 g 1 = 5 :=
  ⟨[([0], [3]), ([1], [5])], [8, 8], by decide +kernel, by decide +kernel, by decide +kernel, by decide +kernel, by decide +kernel⟩

/-- Case: two elements sharing a parameter: the regularisation gets 3, 4 + 5, 6. -/
example : addElements 1 [0, 0, 0] [([0, 1], [(3 : ℚ), 4]), ([1, 2], [5, 6])] = some [3, 9, 6] := by decide +kernel

/-- Case: a group of one element. -/
example : addGroup 2 [0, 1] [([1, 0], [(3 : ℚ), 4])] = some [8, 7] := by decide +kernel

end MrHyDE.Objective.Slots
