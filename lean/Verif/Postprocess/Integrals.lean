import Mathlib.Algebra.BigOperators.Group.List.Basic
import Mathlib.Algebra.BigOperators.Ring.List
import Mathlib.Algebra.Order.Field.Rat
import Mathlib.Data.List.Perm.Basic
import Mathlib.Data.List.Infix
import Mathlib.Tactic.Ring
import Mathlib.Tactic.FieldSimp
import Mathlib.Tactic.Linarith

/-! # C92, C93, C94: integrated quantities, fluxes through boundaries, norms of the error

`computeIntegratedQuantities` (/repo/src/managers/postprocess/postprocessManager_integrated_quantities.hpp:79-283),
`computeFluxResponse` (postprocessManager_flux_response.hpp:32-81) with its report (postprocessManager_util.hpp:665-677),
`computeError` (postprocessManager_error_estimation.hpp:173-508) with its report (postprocessManager_util.hpp:760-800). -/

namespace MrHyDE.Postprocess.Integrals

set_option linter.unusedSectionVars false

variable {K : Type} [Field K]

/-! ## C92: integrated quantities -/

/-- Contribution of a group: weights and values of the integrand at the points of its elements; postprocessManager_integrated_quantities.hpp:182-186,
224-228. -/
def groupSum (g : List (List (K × K))) : K := g.foldl (fun s e => e.foldl (fun s x => s + x.1 * x.2) s) 0

/-- `std::string::find`: whether the name occurs in the text; postprocessManager_integrated_quantities.hpp:206, postprocessManager_flux_response.hpp:57. -/
def occurs (name text : List Char) : Bool := text.tails.any (fun t => name.isPrefixOf t)

/-- Integral over a block on one process; postprocessManager_integrated_quantities.hpp:154-192. -/
def volume (groups : List (List (List (K × K)))) : K := groups.foldl (fun s g => s + groupSum g) 0

/-- Integral over the boundary: only groups of the requested sides count; postprocessManager_integrated_quantities.hpp:199-233. -/
def boundary (names : List Char) (groups : List (List Char × List (List (K × K)))) : K :=
  groups.foldl (fun s g => s + (if occurs g.1 names || names == ['a', 'l', 'l'] then groupSum g.2 else 0)) 0

/-- Sum over the processes; postprocessManager_integrated_quantities.hpp:241-249. -/
def reduce (l : List K) : K := l.foldl (· + ·) 0

/-- An integral as a sum over elements and points. [specification, no code] -/
def integral (elems : List (List (K × K))) : K := (elems.map (fun e => (e.map (fun x => x.1 * x.2)).sum)).sum

theorem foldl_add {α : Type} (f : α → K) : ∀ (l : List α) (a : K), l.foldl (fun s x => s + f x) a = a + (l.map f).sum := by
  intro l
  induction l with
  | nil => intro a; simp
  | cons x l ih => intro a; rw [List.foldl_cons, ih, List.map_cons, List.sum_cons]; ring

theorem reduce_eq (l : List K) : reduce l = l.sum := by
  unfold reduce
  have := foldl_add (fun x : K => x) l 0
  simpa using this

theorem groupSum_eq (g : List (List (K × K))) : groupSum g = integral g := by
  unfold groupSum integral
  have : ∀ (s : K) (e : List (K × K)), e.foldl (fun s x => s + x.1 * x.2) s = s + (e.map (fun x => x.1 * x.2)).sum :=
    fun s e => foldl_add (fun x : K × K => x.1 * x.2) e s
  simp only [this]
  rw [foldl_add (fun e : List (K × K) => (e.map (fun x => x.1 * x.2)).sum), zero_add]

theorem integral_append (a b : List (List (K × K))) : integral (a ++ b) = integral a + integral b := by
  simp [integral]

theorem integral_flatten : ∀ (l : List (List (List (K × K)))), integral l.flatten = (l.map integral).sum := by
  intro l
  induction l with
  | nil => simp [integral]
  | cons a l ih => rw [List.flatten_cons, integral_append, ih, List.map_cons, List.sum_cons]

theorem volume_eq (groups : List (List (List (K × K)))) : volume groups = integral groups.flatten := by
  unfold volume
  rw [foldl_add groupSum, zero_add, integral_flatten]
  congr 1
  exact List.map_congr_left (fun g _ => groupSum_eq g)

/-- C92, partial: the value of an integrated quantity over a block is the sum over all elements and points, however the elements are
divided among groups and processes.  Missing: boundaries are selected by a search in a text, see `C92_name_violated`; physics
modules see old values when not every step is recorded, see `C92_stale`. -/
theorem C92_volume_partial (procs : List (List (List (List (K × K))))) (elems : List (List (K × K)))
    (h : (procs.flatten.flatten).Perm elems) : reduce (procs.map volume) = integral elems := by
  rw [reduce_eq]
  have e : procs.map volume = (procs.map List.flatten).map integral := by
    rw [List.map_map]
    exact List.map_congr_left (fun g _ => volume_eq g)
  rw [e, ← integral_flatten]
  have hp : ((procs.map List.flatten).flatten).Perm elems := by
    have : ∀ procs : List (List (List (List (K × K)))), (procs.map List.flatten).flatten = procs.flatten.flatten := by
      intro procs
      induction procs with
      | nil => rfl
      | cons a l ih => simp [ih]
    rw [this]
    exact h
  unfold integral
  exact (hp.map _).sum_eq

example : reduce ([[[[((1 : ℚ), 2), (1, 3)]], [[(2, 5)]]], [], [[[(4, 1)], [(1, 1)]]]].map volume) = 20 := by decide +kernel

/-- C92, partial: a quantity over the boundary counts the groups whose side is asked for, if no name of a side lies within another
request: each side either is one of the requested names or does not occur in the text.  Missing: see `C92_name_violated`. -/
theorem C92_boundary_partial (names : List Char) (wanted : List Char → Bool) (groups : List (List Char × List (List (K × K))))
    (hall : names ≠ ['a', 'l', 'l']) (h : ∀ g ∈ groups, occurs g.1 names = wanted g.1) :
    boundary names groups = integral ((groups.filter (fun g => wanted g.1)).map Prod.snd).flatten := by
  unfold boundary
  rw [foldl_add (fun g : List Char × List (List (K × K)) => if occurs g.1 names || names == ['a', 'l', 'l'] then groupSum g.2 else 0),
    zero_add, integral_flatten]
  have hf : (names == ['a', 'l', 'l']) = false := by simpa using hall
  induction groups with
  | nil => simp
  | cons g groups ih =>
    rw [List.map_cons, List.sum_cons, ih (fun x hx => h x (by simp [hx])), hf, h g (by simp), Bool.or_false]
    by_cases hw : wanted g.1 = true
    · rw [if_pos hw, List.filter_cons_of_pos (by simpa using hw), List.map_cons, List.map_cons, List.sum_cons, groupSum_eq]
    · rw [if_neg hw, List.filter_cons_of_neg (by simpa using hw), zero_add]

/-- C92: "all" selects every side. -/
theorem C92_boundary_all (groups : List (List Char × List (List (K × K)))) :
    boundary ['a', 'l', 'l'] groups = integral (groups.map Prod.snd).flatten := by
  unfold boundary
  rw [foldl_add (fun g : List Char × List (List (K × K)) => if occurs g.1 ['a', 'l', 'l'] || (['a', 'l', 'l'] : List Char) == ['a', 'l', 'l']
    then groupSum g.2 else 0), zero_add, integral_flatten, List.map_map]
  congr 1
  apply List.map_congr_left
  intro g _
  simp [groupSum_eq]

example : boundary "top, left".toList [("left".toList, [[((1 : ℚ), 5)]]), ("right".toList, [[(1, 7)]])] = 5 := by decide +kernel

/-- C92 is false: the side "top" is also counted when "top2" is asked for. -/
theorem C92_name_violated : boundary "top2".toList [("top".toList, [[((1 : ℚ), 5)]]), ("top2".toList, [[(1, 7)]])] = 12 ∧
    integral (([("top".toList, [[((1 : ℚ), 5)]]), ("top2".toList, [[(1, 7)]])].filter (fun g => g.1 == "top2".toList)).map Prod.snd).flatten = 7 := by
  decide +kernel

/-- Value seen by the physics modules after the given steps, each with whether it is recorded and the value of the integral then;
postprocessManager_integrated_quantities.hpp:243-246, 270-280 and postprocessManager_util.hpp:38-51. -/
def seen (init : K) (steps : List (Bool × K)) : K := steps.foldl (fun v s => if s.1 then s.2 else v) init

/-- C92: when every step is recorded the modules see the integral at the last step. -/
theorem C92_seen (init : K) (steps : List (Bool × K)) (s : Bool × K) (hs : s.1 = true) : seen init (steps ++ [s]) = s.2 := by
  unfold seen
  rw [List.foldl_append, List.foldl_cons, List.foldl_nil, if_pos hs]

/-- C92 is false when a step is not recorded: the modules go on with the value of an earlier one, so the solution depends on the
frequency of output. -/
theorem C92_stale (init : K) (before after : List (Bool × K)) (s : Bool × K) (hs : s.1 = true) (ha : ∀ x ∈ after, x.1 = false) :
    seen init (before ++ [s] ++ after) = s.2 := by
  have : ∀ (l : List (Bool × K)) (v : K), (∀ x ∈ l, x.1 = false) → l.foldl (fun v s => if s.1 then s.2 else v) v = v := by
    intro l
    induction l with
    | nil => intro v _; rfl
    | cons x l ih =>
      intro v h
      rw [List.foldl_cons, h x (by simp)]
      simp only [Bool.false_eq_true, if_false]
      exact ih v (fun y hy => h y (by simp [hy]))
  unfold seen
  rw [List.foldl_append, this after _ ha]
  exact C92_seen init before s hs

/-- Output every third step. -/
example : seen (0 : ℚ) [(true, 1), (false, 2), (false, 3)] = 1 := by decide +kernel

/-! ## C93: fluxes -/

/-- A boundary group: side name and its flux as a function of the state found in the shared table. [helper] -/
structure BGroup (S K : Type) where
  side : List Char
  own : S
  flux : S → K

/-- One recorded time, one quantity: there is no gather, so every group is evaluated with the state `last` that was gathered last;
postprocessManager_flux_response.hpp:35-80. -/
def fluxOnce {S : Type} (sides : List Char) (last : S) (groups : List (BGroup S K)) : K :=
  groups.foldl (fun s g => if occurs g.side sides then s + g.flux last else s) 0

/-- Values are added over all recorded times until reported; postprocessManager_flux_response.hpp:74, postprocessManager_util.hpp:667-677. -/
def fluxReport {S : Type} (sides : List Char) (times : List (S × List (BGroup S K))) : K :=
  times.foldl (fun s t => s + fluxOnce sides t.1 t.2) 0

/-- The flux through the sides at a time, each group with its own state. [specification, no code] -/
def flux {S : Type} (wanted : List Char → Bool) (groups : List (BGroup S K)) : K :=
  ((groups.filter (fun g => wanted g.side)).map (fun g => g.flux g.own)).sum

theorem fluxOnce_eq {S : Type} (sides : List Char) (last : S) (groups : List (BGroup S K)) :
    fluxOnce sides last groups = ((groups.filter (fun g => occurs g.side sides)).map (fun g => g.flux last)).sum := by
  have : ∀ (groups : List (BGroup S K)) (a : K), groups.foldl (fun s g => if occurs g.side sides then s + g.flux last else s) a =
      a + ((groups.filter (fun g => occurs g.side sides)).map (fun g => g.flux last)).sum := by
    intro groups
    induction groups with
    | nil => intro a; simp
    | cons g groups ih =>
      intro a
      rw [List.foldl_cons, ih]
      by_cases h : occurs g.side sides = true
      · rw [if_pos h, List.filter_cons_of_pos (by simpa using h), List.map_cons, List.sum_cons]
        ring
      · rw [if_neg h, List.filter_cons_of_neg (by simpa using h)]
  unfold fluxOnce
  rw [this, zero_add]

/-- C93, partial: the reported flux is that through the sides asked for if one time is recorded, the names of sides do not lie within
each other, and the state found in the table gives each of these groups its own flux (a single group, or a flux not depending on the
state).  Missing: several groups (`C93_state_violated`), several times (`C93_times_violated`), all sides (`C93_all_violated`). -/
theorem C93_partial {S : Type} (sides : List Char) (wanted : List Char → Bool) (last : S) (groups : List (BGroup S K))
    (h : ∀ g ∈ groups, occurs g.side sides = wanted g.side) (hs : ∀ g ∈ groups, wanted g.side = true → g.flux last = g.flux g.own) :
    fluxReport sides [(last, groups)] = flux wanted groups := by
  unfold fluxReport flux
  rw [List.foldl_cons, List.foldl_nil, zero_add, fluxOnce_eq]
  have e : groups.filter (fun g => occurs g.side sides) = groups.filter (fun g => wanted g.side) :=
    List.filter_congr (fun g hg => h g hg)
  rw [e]
  congr 1
  apply List.map_congr_left
  intro g hg
  obtain ⟨hg1, hg2⟩ := List.mem_filter.mp hg
  exact hs g hg1 hg2

example : fluxReport "left".toList [((3 : ℚ), [⟨"left".toList, 3, fun u => 2 * u⟩, ⟨"right".toList, 5, fun u => u⟩])] = 6 := by
  decide +kernel

/-- C93 is false: with two groups on the side, the flux of the first is computed with the state of the other. -/
theorem C93_state_violated : fluxReport "left".toList [((5 : ℚ), [⟨"left".toList, 3, fun u => 2 * u⟩, ⟨"left".toList, 5, fun u => 2 * u⟩])] = 20 ∧
    flux (fun n => n == "left".toList) [⟨"left".toList, (3 : ℚ), fun u => 2 * u⟩, ⟨"left".toList, 5, fun u => 2 * u⟩] = 16 := by
  decide +kernel

/-- C93 is false in time dependent problems: the report is the sum over the recorded times. -/
theorem C93_times_violated {S : Type} (sides : List Char) (times : List (S × List (BGroup S K))) :
    fluxReport sides times = (times.map (fun t => fluxOnce sides t.1 t.2)).sum := by
  unfold fluxReport
  rw [foldl_add (fun t : S × List (BGroup S K) => fluxOnce sides t.1 t.2), zero_add]

/-- C93 is false for the default "all": nothing is counted unless the name of a side occurs in the word "all". -/
theorem C93_all_violated {S : Type} (last : S) (groups : List (BGroup S K)) (h : ∀ g ∈ groups, occurs g.side ['a', 'l', 'l'] = false) :
    fluxReport ['a', 'l', 'l'] [(last, groups)] = 0 := by
  unfold fluxReport
  rw [List.foldl_cons, List.foldl_nil, zero_add, fluxOnce_eq]
  have : groups.filter (fun g => occurs g.side ['a', 'l', 'l']) = [] := by
    rw [List.filter_eq_nil_iff]
    intro g hg
    rw [h g hg]
    simp
  rw [this]
  rfl

example : occurs "left".toList "all".toList = false ∧ occurs "wall".toList "all".toList = false := by decide +kernel

/-! ## C94: norms of the error -/

/-- A volume norm squared on one process: groups, elements, points with weight, computed and true values of each component; inactive
groups are left out; postprocessManager_error_estimation.hpp:245-281, 283-331, 398-447. -/
def errVolume (groups : List (Bool × List (List (K × List (K × K))))) : K :=
  groups.foldl (fun s g => if g.1 then
    s + groupSum (g.2.map (fun e => e.map (fun p => (p.1, (p.2.map (fun c => (c.1 - c.2) * (c.1 - c.2))).sum)))) else s) 0

/-- Sum over points of the weight times the squared distance. [specification, no code] -/
def errIntegral (elems : List (List (K × List (K × K)))) : K :=
  (elems.map (fun e => (e.map (fun p => p.1 * (p.2.map (fun c => (c.1 - c.2) ^ 2)).sum)).sum)).sum

theorem errVolume_eq (groups : List (Bool × List (List (K × List (K × K))))) (h : ∀ g ∈ groups, g.1 = true) :
    errVolume groups = errIntegral (groups.map Prod.snd).flatten := by
  have key : ∀ (groups : List (Bool × List (List (K × List (K × K))))) (a : K), (∀ g ∈ groups, g.1 = true) →
      groups.foldl (fun s g => if g.1 then
        s + groupSum (g.2.map (fun e => e.map (fun p => (p.1, (p.2.map (fun c => (c.1 - c.2) * (c.1 - c.2))).sum)))) else s) a =
      a + errIntegral (groups.map Prod.snd).flatten := by
    intro groups
    induction groups with
    | nil => intro a _; simp [errIntegral]
    | cons g groups ih =>
      intro a h
      rw [List.foldl_cons, ih _ (fun x hx => h x (by simp [hx])), if_pos (h g (by simp)), groupSum_eq]
      simp only [integral, errIntegral, List.map_cons, List.flatten_cons, List.map_append, List.sum_append, List.map_map, Function.comp_def, pow_two]
      ring
  unfold errVolume
  rw [key groups 0 h, zero_add]

/-- C94, partial: the square of a reported volume norm of the error is the sum over all elements and points of weight times squared
distance to the true solution, all components together, however the elements are divided among (active) groups and processes.
Missing: the face norm, see `C94_face`. -/
theorem C94_volume_partial (procs : List (List (Bool × List (List (K × List (K × K)))))) (elems : List (List (K × List (K × K))))
    (hact : ∀ p ∈ procs, ∀ g ∈ p, g.1 = true) (h : ((procs.flatten.map Prod.snd).flatten).Perm elems) :
    reduce (procs.map errVolume) = errIntegral elems := by
  rw [reduce_eq]
  have e : ∀ (procs : List (List (Bool × List (List (K × List (K × K)))))), (∀ p ∈ procs, ∀ g ∈ p, g.1 = true) →
      (procs.map errVolume).sum = errIntegral (procs.flatten.map Prod.snd).flatten := by
    intro procs
    induction procs with
    | nil => intro _; simp [errIntegral]
    | cons p procs ih =>
      intro h
      rw [List.map_cons, List.sum_cons, ih (fun q hq => h q (by simp [hq])), errVolume_eq p (h p (by simp))]
      simp [errIntegral]
  rw [e procs hact]
  unfold errIntegral
  exact (h.map _).sum_eq

example : reduce ([[(true, [[((2 : ℚ), [(1, 0), (5, 4)])]])], [(true, [[(1, [(3, 0), (0, 0)])]])]].map errVolume) = 13 := by decide +kernel

/-- The face norm squared on one process, on elements given by their faces; `m f` is the mean of the squared distance over the face
(the same from both sides); postprocessManager_error_estimation.hpp:450-491, 484. -/
def errFaces {F : Type} (m : F → K) (elems : List (List F)) : K :=
  elems.foldl (fun s e => e.foldl (fun s f => s + 1 / 2 * m f) s) 0

theorem errFaces_eq {F : Type} (m : F → K) (elems : List (List F)) : errFaces m elems = 1 / 2 * (elems.flatten.map m).sum := by
  unfold errFaces
  have : ∀ (s : K) (e : List F), e.foldl (fun s f => s + 1 / 2 * m f) s = s + (e.map (fun f => 1 / 2 * m f)).sum :=
    fun s e => foldl_add (fun f => 1 / 2 * m f) e s
  simp only [this]
  rw [foldl_add (fun e : List F => (e.map (fun f => 1 / 2 * m f)).sum), zero_add]
  induction elems with
  | nil => simp
  | cons e elems ih => rw [List.map_cons, List.sum_cons, ih, List.sum_map_mul_left, List.flatten_cons, List.map_append, List.sum_append]; ring

/-- C94: the face norm counts each face between two elements once, but each face on the boundary by half. -/
theorem C94_face {F : Type} (m : F → K) (elems : List (List F)) (inner outer : List F)
    (h : elems.flatten.Perm (inner ++ inner ++ outer)) (h2 : (2 : K) ≠ 0) :
    errFaces m elems = (inner.map m).sum + 1 / 2 * (outer.map m).sum := by
  rw [errFaces_eq, (h.map m).sum_eq, List.map_append, List.map_append, List.sum_append, List.sum_append]
  field_simp
  ring

/-- C94 is false: two triangles with one common face, error one on every face; five faces, reported as three. -/
theorem C94_face_violated : errFaces (fun _ : Nat => (1 : ℚ)) [[0, 1, 2], [2, 3, 4]] = 3 ∧
    ([0, 1, 2, 3, 4].map (fun _ : Nat => (1 : ℚ))).sum = 5 := by decide +kernel

end MrHyDE.Postprocess.Integrals
