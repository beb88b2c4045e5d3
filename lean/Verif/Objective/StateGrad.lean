import Verif.Objective.Props
import Verif.Objective.Sensors
import Verif.Postprocess.Record
import Verif.Workset.Model
import Mathlib.Data.Fin.VecNotation
import Mathlib.Tactic.IntervalCases
import Mathlib.Analysis.Calculus.Deriv.Add
import Mathlib.Analysis.Calculus.Deriv.Comp
import Mathlib.Analysis.Calculus.Deriv.Mul
import Mathlib.Analysis.Calculus.Deriv.Pow
import Mathlib.Analysis.Calculus.Deriv.Prod
import Mathlib.Analysis.Calculus.FDeriv.Add
import Mathlib.Tactic.Ring
import Mathlib.Tactic.NormNum

/-! # C156: the derivative of the objective with respect to the state

`computeObjectiveGradState` (/repo/src/managers/postprocess/postprocessManager_objective_gradient.hpp:1051-1502) for the four
types of objectives, with the loop over unknowns and points, the scatter
(/repo/src/managers/assembly/assemblyManager_scatter.hpp:74-111) and the sum over processes; compared with the objective
reported (`Objective.report`, postprocessManager_objectives.hpp:79-640).  One physics set, every step recorded.  Vectors of overlapped and of owned
unknowns are indexed by the global unknowns.  The derivative slots of the functions at a point are given (that automatic
differentiation yields them is C05, C06). -/

namespace MrHyDE.Objective.State

open Finset

set_option linter.unusedSectionVars false

/-- A point of an element (or a sensor): weight, value of the function in terms of the local unknowns, and its derivative slots;
postprocessManager_objective_gradient.hpp:1172-1184, 1484-1486. -/
structure Pt (K : Type) (n : Nat) where
  wt : K
  f : (Fin n → K) → K
  df : (Fin n → K) → Fin n → K

/-- An element: its row of `LIDs`, and its points; postprocessManager_objective_gradient.hpp:1155-1184. -/
structure Elem (K ι : Type) (n : Nat) where
  row : Fin n → ι
  pts : List (Pt K n)

/-- A sensor: the row of `LIDs` of its element, the response and its measurements; postprocessManager_objective_gradient.hpp:1371-1372, 1484-1485. -/
structure Sensor (K ι : Type) (n : Nat) where
  row : Fin n → ι
  resp : Pt K n
  data : List K

/-- What a process has for an objective at one time; the regularisations may depend on the state;
postprocessManager_objective_gradient.hpp:1155, 1356, postprocessManager_objectives.hpp:449-560. -/
structure Proc (K ι : Type) (n : Nat) where
  groups : List (List (Elem K ι n)) := []
  sensors : List (Sensor K ι n) := []
  regs : (ι → K) → List (Reg K) := fun _ => []

/-- One recorded time: time, processes, and the data-generating state; postprocessManager_objective_gradient.hpp:1327-1340. -/
structure Step (K ι : Type) (n : Nat) where
  time : K
  procs : List (Proc K ι n)
  dat : ι → K

/-- Settings of the objective and of the assembly: `offsets`, `isFixedDOF[0]`, `sensor_times`, the comparison of times of
sensors, and the tolerance 1.0e-12 for recorded times; postprocessManager_objective_gradient.hpp:1138, 1152, 1362, assemblyManager_scatter.hpp:87. -/
structure Cfg (K ι : Type) (n : Nat) where
  offsets : List (List (Fin n))
  fixed : ι → Bool
  sensorTimes : List K
  near : K → K → Bool
  tol : K

variable {K ι : Type} {n : Nat}

/-- `performGather`: the unknowns of an element; postprocessManager_objective_gradient.hpp:1166, 1395,
/repo/src/managers/assembly/assemblyManager_gather.hpp:183-232. -/
def local' (row : Fin n → ι) (u : ι → K) : Fin n → K := fun i => u (row i)

section model

variable [Field K] [LinearOrder K] [Fintype ι] [DecidableEq ι]

/-- What `computeObjective` sees at one time on one process; postprocessManager_objectives.hpp:134-177, 178-206, 207-255, 292-440, 449-560.  A
sensor counts if its measurements have the time (without `compute responses`). -/
def seen (c : Cfg K ι n) (st : Step K ι n) (u : ι → K) (p : Proc K ι n) : Seen K where
  quad := p.groups.map (fun g => g.map (fun e => e.pts.map (fun q => (q.f (local' e.row u), q.wt))))
  misfits := [∑ j, (u j - st.dat j) ^ 2]
  sensors := p.sensors.filterMap (fun s =>
    (Sensors.matched c.near c.sensorTimes st.time).map (fun t => (s.resp.f (local' s.row u), s.data.getD t 0)))
  regs := p.regs u

/-- `local_grad` of one element: for every variable, every of its unknowns and every point; postprocessManager_objective_gradient.hpp:1178-1185
(control, factor the weight), 1277-1291 (response, factor one; the product of the function with the weight has the slots times
the weight). -/
def localGrad (w : K) (offsets : List (List (Fin n))) (e : Elem K ι n) (u : ι → K) : Fin n → K :=
  offsets.foldl (fun g vars => vars.foldl (fun g o =>
    e.pts.foldl (fun g q => Function.update g o (g o + -w * q.df (local' e.row u) o * q.wt)) g) g) (fun _ => 0)

/-- `scatterRes` for one element: rows of fixed unknowns are left out; assemblyManager_scatter.hpp:93-110. -/
def scatter (fixed : ι → Bool) (row : Fin n → ι) (loc : Fin n → K) (g : ι → K) : ι → K :=
  (List.finRange n).foldl (fun g r => if fixed (row r) then g else Function.update g (row r) (g (row r) + loc r)) g

/-- `grad_over` of one process for integrated objectives; postprocessManager_objective_gradient.hpp:1155-1207, 1245-1312. -/
def volumeGrad (w : K) (c : Cfg K ι n) (u : ι → K) (p : Proc K ι n) : ι → K :=
  p.groups.foldl (fun g grp => grp.foldl (fun g e => scatter c.fixed e.row (localGrad w c.offsets e u) g) g) (fun _ => 0)

/-- Derivative slot of `weight*diff*diff` from value and slot of `diff`; postprocessManager_objective_gradient.hpp:1485-1486. -/
def slotSq (w d s : K) : K := w * s * d + w * d * s

/-- `local_grad` of the element of a sensor; postprocessManager_objective_gradient.hpp:1484-1493. -/
def sensorLocal (w : K) (offsets : List (List (Fin n))) (s : Sensor K ι n) (t : Nat) (u : ι → K) : Fin n → K :=
  let diff := s.resp.f (local' s.row u) - s.data.getD t 0
  offsets.foldl (fun g vars => vars.foldl (fun g o =>
    Function.update g o (g o + -slotSq w diff (s.resp.df (local' s.row u) o))) g) (fun _ => 0)

/-- `grad_over` of one process for sensors; postprocessManager_objective_gradient.hpp:1356-1497.  Simplified: the other elements of the group are
scattered with zeros and are left out. -/
def sensorGrad (w : K) (c : Cfg K ι n) (time : K) (u : ι → K) (p : Proc K ι n) : ι → K :=
  p.sensors.foldl (fun g s =>
    match Sensors.matched c.near c.sensorTimes time with
    | some t => scatter c.fixed s.row (sensorLocal w c.offsets s t u) g
    | none => g) (fun _ => 0)

/-- `exportVectorFromOverlapped`: sum over the processes; postprocessManager_objective_gradient.hpp:1208, 1323, 1499. -/
def exported (l : List (ι → K)) : ι → K := l.foldl (fun s g => fun j => s j + g j) (fun _ => 0)

/-- `dt`: the last recorded time after the first that is near the current one; one if there is none;
postprocessManager_objective_gradient.hpp:1134-1144. -/
def stepSize (tol : K) (times : List K) (cur : K) : K :=
  (times.zip times.tail).foldl (fun dt x => if Postprocess.Record.near tol x.2 cur then x.2 - x.1 else dt) 1

/-- What is added to the right hand side of the adjoint problem at one time; `v` the accumulated response, `times` the recorded
times; postprocessManager_objective_gradient.hpp:1146-1211, 1212-1324, 1326-1347, 1348-1502. -/
def stateGrad (o : Obj K) (c : Cfg K ι n) (times : List K) (v : K) (st : Step K ι n) (u : ι → K) : ι → K :=
  match o.kind with
  | .control => fun j => stepSize c.tol times st.time * exported (st.procs.map (volumeGrad o.weight c u)) j
  | .response => fun j => stepSize c.tol times st.time *
      exported (st.procs.map (fun p i => 2 * o.weight * (v - o.target) * volumeGrad 1 c u p i)) j
  | .discrete => fun j => -2 * stepSize c.tol times st.time * o.weight * (u j - st.dat j)
  | .sensors => exported (st.procs.map (sensorGrad o.weight c st.time u))

/-- A run with the states `u k` at the recorded times `st 0, …, st N`; postprocessManager_objectives.hpp:79-575. -/
def runOf (c : Cfg K ι n) (st : Nat → Step K ι n) (N : Nat) (u : Nat → ι → K) : Run K :=
  (List.range (N + 1)).map (fun k => ((st k).time, (st k).procs.map (seen c (st k) (u k))))

/-- The objective reported for the states; postprocessManager_objectives.hpp:580-640. -/
def reported (o : Obj K) (ps : List K) (c : Cfg K ι n) (st : Nat → Step K ι n) (N : Nat) (u : Nat → ι → K) : K :=
  report o (record o ps (runOf c st N u))

/-- The response accumulated over the recorded times, as the gradient computes it again; postprocessManager_objective_gradient.hpp:1220-1243. -/
def response (o : Obj K) (ps : List K) (c : Cfg K ι n) (st : Nat → Step K ι n) (N : Nat) (u : Nat → ι → K) : K :=
  accumulate o.kind (record o ps (runOf c st N u))

/-- The recorded times; postprocessManager_objectives.hpp:571. -/
def timesOf (st : Nat → Step K ι n) (N : Nat) : List K := (List.range (N + 1)).map (fun k => (st k).time)

end model

/-! ## Lemmas -/

section lemmas

variable [Field K] [LinearOrder K] [Fintype ι] [DecidableEq ι]

theorem inner_fold (f : Pt K n → K) (o : Fin n) : ∀ (l : List (Pt K n)) (g : Fin n → K),
    l.foldl (fun g q => Function.update g o (g o + f q)) g = Function.update g o (g o + (l.map f).sum) := by
  intro l
  induction l with
  | nil => intro g; simp
  | cons q l ih =>
    intro g
    rw [List.foldl_cons, ih]
    simp [add_assoc]

theorem outer_fold (h : Fin n → K) : ∀ (l : List (Fin n)) (g : Fin n → K) (i : Fin n), l.Nodup →
    l.foldl (fun g o => Function.update g o (g o + h o)) g i = g i + if i ∈ l then h i else 0 := by
  intro l
  induction l with
  | nil => intro g i _; simp
  | cons a l ih =>
    intro g i hn
    rw [List.nodup_cons] at hn
    rw [List.foldl_cons, ih _ _ hn.2]
    by_cases hi : i = a
    · subst hi
      simp [hn.1]
    · simp [hi]

theorem flatten_fold {A B : Type} (f : A → B → A) : ∀ (l : List (List B)) (a : A),
    l.foldl (fun g x => x.foldl f g) a = l.flatten.foldl f a := by
  intro l
  induction l with
  | nil => intro a; rfl
  | cons x l ih => intro a; rw [List.foldl_cons, ih, List.flatten_cons, List.foldl_append]

/-- Each local unknown has one place. [specification, no code] -/
def Places (offsets : List (List (Fin n))) : Prop := offsets.flatten.Nodup ∧ ∀ i, i ∈ offsets.flatten

theorem localGrad_eq (w : K) (offsets : List (List (Fin n))) (ho : Places offsets) (e : Elem K ι n) (u : ι → K) (i : Fin n) :
    localGrad w offsets e u i = (e.pts.map (fun q => -w * q.df (local' e.row u) i * q.wt)).sum := by
  unfold localGrad
  rw [flatten_fold]
  have : (fun (g : Fin n → K) (o : Fin n) =>
      e.pts.foldl (fun g q => Function.update g o (g o + -w * q.df (local' e.row u) o * q.wt)) g) =
      fun g o => Function.update g o (g o + (e.pts.map (fun q => -w * q.df (local' e.row u) o * q.wt)).sum) := by
    funext g o
    exact inner_fold (fun q => -w * q.df (local' e.row u) o * q.wt) o e.pts g
  rw [this, outer_fold _ _ _ _ ho.1, if_pos (ho.2 i), zero_add]

theorem sensorLocal_eq (w : K) (offsets : List (List (Fin n))) (ho : Places offsets) (s : Sensor K ι n) (t : Nat) (u : ι → K)
    (i : Fin n) : sensorLocal w offsets s t u i =
      -slotSq w (s.resp.f (local' s.row u) - s.data.getD t 0) (s.resp.df (local' s.row u) i) := by
  unfold sensorLocal
  rw [flatten_fold, outer_fold _ _ _ _ ho.1, if_pos (ho.2 i), zero_add]

/-- Sum over the unknowns of gradient times direction. [specification, no code] -/
def dot (g d : ι → K) : K := ∑ j, g j * d j

theorem dot_update (g d : ι → K) (a : ι) (x : K) : dot (Function.update g a (g a + x)) d = dot g d + x * d a := by
  unfold dot
  have h : ∀ j, Function.update g a (g a + x) j * d j = g j * d j + if j = a then x * d a else 0 := by
    intro j
    by_cases hj : j = a
    · subst hj; simp [add_mul]
    · simp [hj]
  rw [Finset.sum_congr rfl (fun j _ => h j), Finset.sum_add_distrib]
  simp

theorem dot_scatter (fixed : ι → Bool) (row : Fin n → ι) (loc : Fin n → K) (d : ι → K) (hd : ∀ j, fixed j = true → d j = 0)
    (g : ι → K) : dot (scatter fixed row loc g) d = dot g d + ∑ i, loc i * d (row i) := by
  have key : ∀ (l : List (Fin n)) (g : ι → K),
      dot (l.foldl (fun g r => if fixed (row r) then g else Function.update g (row r) (g (row r) + loc r)) g) d =
        dot g d + (l.map (fun i => loc i * d (row i))).sum := by
    intro l
    induction l with
    | nil => intro g; simp
    | cons r l ih =>
      intro g
      rw [List.foldl_cons, ih, List.map_cons, List.sum_cons]
      by_cases hf : fixed (row r) = true
      · rw [if_pos hf, hd _ hf]; ring
      · rw [if_neg hf, dot_update]; ring
  unfold scatter
  rw [key, ← List.sum_ofFn, List.ofFn_eq_map]

theorem dot_exported (d : ι → K) (l : List (ι → K)) : dot (exported l) d = (l.map (fun g => dot g d)).sum := by
  have key : ∀ (l : List (ι → K)) (s : ι → K),
      dot (l.foldl (fun s g => fun j => s j + g j) s) d = dot s d + (l.map (fun g => dot g d)).sum := by
    intro l
    induction l with
    | nil => intro s; simp
    | cons g l ih =>
      intro s
      rw [List.foldl_cons, ih, List.map_cons, List.sum_cons, ← add_assoc]
      congr 1
      unfold dot
      rw [← Finset.sum_add_distrib]
      exact Finset.sum_congr rfl (fun j _ => by ring)
  unfold exported
  rw [key]
  simp [dot]

theorem dot_smul (a : K) (g d : ι → K) : dot (fun j => a * g j) d = a * dot g d := by
  unfold dot
  rw [Finset.mul_sum]
  exact Finset.sum_congr rfl (fun j _ => by ring)

/-- Derivative of the quadrature of a process in a direction. [specification, no code] -/
def slope (u d : ι → K) (p : Proc K ι n) : K :=
  (p.groups.flatten.map (fun e => (e.pts.map (fun q => (∑ i, q.df (local' e.row u) i * d (e.row i)) * q.wt)).sum)).sum

theorem sum_comm_list {A : Type} (f : Fin n → A → K) (l : List A) :
    ∑ i, (l.map (f i)).sum = (l.map (fun a => ∑ i, f i a)).sum := by
  induction l with
  | nil => simp
  | cons a l ih => simp only [List.map_cons, List.sum_cons, Finset.sum_add_distrib, ih]

theorem dot_volume (w : K) (c : Cfg K ι n) (ho : Places c.offsets) (u d : ι → K) (hd : ∀ j, c.fixed j = true → d j = 0)
    (p : Proc K ι n) : dot (volumeGrad w c u p) d = -(w * slope u d p) := by
  unfold volumeGrad slope
  rw [flatten_fold]
  have key : ∀ (l : List (Elem K ι n)) (g : ι → K),
      dot (l.foldl (fun g e => scatter c.fixed e.row (localGrad w c.offsets e u) g) g) d =
        dot g d + -(w * (l.map (fun e => (e.pts.map (fun q => (∑ i, q.df (local' e.row u) i * d (e.row i)) * q.wt)).sum)).sum) := by
    intro l
    induction l with
    | nil => intro g; simp
    | cons e l ih =>
      intro g
      rw [List.foldl_cons, ih, dot_scatter _ _ _ _ hd, List.map_cons, List.sum_cons]
      have : ∑ i, localGrad w c.offsets e u i * d (e.row i) =
          -(w * (e.pts.map (fun q => (∑ i, q.df (local' e.row u) i * d (e.row i)) * q.wt)).sum) := by
        have h1 : ∀ i, localGrad w c.offsets e u i * d (e.row i) =
            (e.pts.map (fun q => -w * q.df (local' e.row u) i * q.wt * d (e.row i))).sum := by
          intro i
          rw [localGrad_eq w _ ho, ← List.sum_map_mul_right]
        rw [Finset.sum_congr rfl (fun i _ => h1 i), sum_comm_list, ← neg_mul, ← List.sum_map_mul_left]
        congr 1
        apply List.map_congr_left
        intro q _
        rw [Finset.sum_mul, Finset.mul_sum]
        exact Finset.sum_congr rfl (fun i _ => by ring)
      rw [this]
      ring
  rw [key]
  simp [dot]

/-- Derivative of the squared misfits of the sensors of a process. [specification, no code] -/
def sensorSlope (c : Cfg K ι n) (time : K) (u d : ι → K) (p : Proc K ι n) : K :=
  (p.sensors.map (fun s => match Sensors.matched c.near c.sensorTimes time with
    | some t => 2 * (s.resp.f (local' s.row u) - s.data.getD t 0) * ∑ i, s.resp.df (local' s.row u) i * d (s.row i)
    | none => 0)).sum

theorem dot_sensor (w : K) (c : Cfg K ι n) (ho : Places c.offsets) (time : K) (u d : ι → K)
    (hd : ∀ j, c.fixed j = true → d j = 0) (p : Proc K ι n) :
    dot (sensorGrad w c time u p) d = -(w * sensorSlope c time u d p) := by
  unfold sensorGrad sensorSlope
  cases Sensors.matched c.near c.sensorTimes time with
  | none =>
    simp only
    have : ∀ (l : List (Sensor K ι n)) (g : ι → K), l.foldl (fun g _ => g) g = g := by
      intro l; induction l with
      | nil => intro g; rfl
      | cons s l ih => intro g; rw [List.foldl_cons, ih]
    rw [this]
    simp [dot]
  | some t =>
    simp only
    have key : ∀ (l : List (Sensor K ι n)) (g : ι → K),
        dot (l.foldl (fun g s => scatter c.fixed s.row (sensorLocal w c.offsets s t u) g) g) d =
          dot g d + -(w * (l.map (fun s => 2 * (s.resp.f (local' s.row u) - s.data.getD t 0) *
            ∑ i, s.resp.df (local' s.row u) i * d (s.row i))).sum) := by
      intro l
      induction l with
      | nil => intro g; simp
      | cons s l ih =>
        intro g
        rw [List.foldl_cons, ih, dot_scatter _ _ _ _ hd, List.map_cons, List.sum_cons]
        have : ∑ i, sensorLocal w c.offsets s t u i * d (s.row i) =
            -(w * (2 * (s.resp.f (local' s.row u) - s.data.getD t 0) * ∑ i, s.resp.df (local' s.row u) i * d (s.row i))) := by
          rw [Finset.mul_sum, Finset.mul_sum, ← Finset.sum_neg_distrib]
          refine Finset.sum_congr rfl (fun i _ => ?_)
          rw [sensorLocal_eq w _ ho]
          unfold slotSq
          ring
        rw [this]
        ring
    rw [key]
    simp [dot]

theorem steps_range' (f : List (Seen K) → K) (g : Nat → K × List (Seen K)) : ∀ (m s : Nat),
    steps f ((List.range' s (m + 1)).map g) =
      ((List.range' s m).map (fun k => ((g (k + 1)).1 - (g k).1) * f (g (k + 1)).2)).sum := by
  intro m
  induction m with
  | zero => intro s; simp [steps]
  | succ m ih =>
    intro s
    rw [List.range'_succ, List.range'_succ, List.map_cons, List.map_cons, steps]
    have := ih (s + 1)
    rw [List.range'_succ, List.map_cons] at this
    rw [this, List.range'_succ, List.map_cons, List.sum_cons]

theorem plain_range' (f : List (Seen K) → K) (g : Nat → K × List (Seen K)) : ∀ (m s : Nat),
    plain f ((List.range' s (m + 1)).map g) = ((List.range' s m).map (fun k => f (g (k + 1)).2)).sum := by
  intro m
  induction m with
  | zero => intro s; simp [plain]
  | succ m ih =>
    intro s
    rw [List.range'_succ, List.range'_succ, List.map_cons, List.map_cons, plain]
    have := ih (s + 1)
    rw [List.range'_succ, List.map_cons] at this
    rw [this, List.range'_succ, List.map_cons, List.sum_cons]

/-- The factor with which a recorded time counts: one for a single time and for sensors, the step size else.
[specification, no code] -/
def factor (kind : Kind) (t : Nat → K) (N k : Nat) : K :=
  if N = 0 ∨ kind = .sensors then 1 else t k - t (k - 1)

/-- The recorded times that count: the only one, or all but the first. [specification, no code] -/
def counted (N : Nat) : List Nat := if N = 0 then [0] else (List.range N).map (· + 1)

theorem accumulate_run (o : Obj K) (ps : List K) (c : Cfg K ι n) (st : Nat → Step K ι n) (N : Nat) (u : Nat → ι → K) :
    response o ps c st N u = ((counted N).map (fun k => factor o.kind (fun k => (st k).time) N k *
      (main o ((st k).procs.map (seen c (st k) (u k))) + regs ps ((st k).procs.map (seen c (st k) (u k)))))).sum := by
  unfold response
  rw [accumulate_eq]
  unfold runOf
  cases N with
  | zero => simp [sumTime, overTime, counted, factor]
  | succ N =>
    have h1 : sumTime (fun seen => main o seen + regs ps seen)
        ((List.range (N + 1 + 1)).map (fun k => ((st k).time, (st k).procs.map (seen c (st k) (u k))))) =
        plain (fun seen => main o seen + regs ps seen)
        ((List.range (N + 1 + 1)).map (fun k => ((st k).time, (st k).procs.map (seen c (st k) (u k))))) := by
      rw [List.range_eq_range', List.range'_succ, List.range'_succ, List.map_cons, List.map_cons]
      rfl
    have h2 : overTime (fun seen => main o seen + regs ps seen)
        ((List.range (N + 1 + 1)).map (fun k => ((st k).time, (st k).procs.map (seen c (st k) (u k))))) =
        steps (fun seen => main o seen + regs ps seen)
        ((List.range (N + 1 + 1)).map (fun k => ((st k).time, (st k).procs.map (seen c (st k) (u k))))) := by
      rw [List.range_eq_range', List.range'_succ, List.range'_succ, List.map_cons, List.map_cons]
      rfl
    rw [h1, h2, List.range_eq_range', plain_range', steps_range']
    unfold counted factor
    simp only [Nat.add_eq_zero_iff, one_ne_zero, and_false, if_false, false_or, List.map_map, List.range_eq_range']
    by_cases hk : o.kind = .sensors
    · simp only [hk, if_true, one_mul]; rfl
    · simp only [hk, if_false]; rfl

/-- Positive, increasing times whose distances exceed the relative tolerance. [specification, no code] -/
structure Times (tol : K) (t : Nat → K) (N : Nat) : Prop where
  tolPos : 0 < tol
  pos : ∀ k, 1 ≤ k → k ≤ N → 0 < t k
  apart : ∀ i j, i ≤ N → j ≤ N → i ≠ j → tol * t i ≤ |t j - t i|

theorem stepSize_eq [IsStrictOrderedRing K] {tol : K} (st : Nat → Step K ι n) (N : Nat) (h : Times tol (fun k => (st k).time) N)
    (k : Nat) (hk : k ∈ counted N) : stepSize tol (timesOf st N) (st k).time = if N = 0 then 1 else (st k).time - (st (k - 1)).time := by
  unfold counted at hk
  by_cases hN : N = 0
  · subst hN
    simp [stepSize, timesOf]
  · rw [if_neg hN] at hk ⊢
    obtain ⟨m, hm, rfl⟩ := List.mem_map.mp hk
    rw [List.mem_range] at hm
    have hz : (timesOf st N).zip (timesOf st N).tail =
        (List.range N).map (fun i => ((st i).time, (st (i + 1)).time)) := by
      unfold timesOf
      apply List.ext_getElem
      · simp
      · intro i h1 h2
        simp
    unfold stepSize
    rw [hz, List.foldl_map]
    refine Postprocess.Record.fold_unique (K := K) (fun i : Nat => Postprocess.Record.near tol (st (i + 1)).time (st (m + 1)).time)
      (fun i => (st (i + 1)).time - (st i).time) m ?_ (List.range N) 1 (List.mem_range.mpr hm) ?_
    · exact (Postprocess.Record.near_iff (fun k => (st k).time) h.tolPos (h.pos (m + 1) (by omega) (by omega))
        (fun hne => absurd rfl hne)).mpr rfl
    · intro i hi hc
      rw [List.mem_range] at hi
      have := (Postprocess.Record.near_iff (fun k => (st k).time) h.tolPos (h.pos (m + 1) (by omega) (by omega))
        (fun hne => h.apart (m + 1) (i + 1) (by omega) (by omega) hne)).mp hc
      have : i = m := by omega
      rw [this]

end lemmas

/-! ## Derivatives over the real numbers -/

section real

variable [Fintype ι] [DecidableEq ι]

/-- The slots of a function at a point are its partial derivatives. [specification, no code] -/
def Pt.Good (q : Pt ℝ n) : Prop :=
  ∀ x, HasFDerivAt q.f (∑ i, q.df x i • (ContinuousLinearMap.proj (R := ℝ) (φ := fun _ : Fin n => ℝ) i)) x

/-- All functions of a process have their derivatives in the slots, and the regularisations do not depend on the state.
[specification, no code] -/
structure Proc.Good (p : Proc ℝ ι n) : Prop where
  points : ∀ g ∈ p.groups, ∀ e ∈ g, ∀ q ∈ e.pts, q.Good
  sensors : ∀ s ∈ p.sensors, s.resp.Good
  regs : ∀ u u', p.regs u = p.regs u'

theorem deriv_local (q : Pt ℝ n) (hq : q.Good) (row : Fin n → ι) (U : ℝ → ι → ℝ) (d : ι → ℝ) (s0 : ℝ)
    (hU : ∀ j, HasDerivAt (fun s => U s j) (d j) s0) :
    HasDerivAt (fun s => q.f (local' row (U s))) (∑ i, q.df (local' row (U s0)) i * d (row i)) s0 := by
  have h1 : HasDerivAt (fun s => local' row (U s)) (fun i => d (row i)) s0 := hasDerivAt_pi.mpr (fun i => hU (row i))
  have h2 := (hq (local' row (U s0))).comp_hasDerivAt s0 h1
  refine h2.congr_deriv ?_
  simp [_root_.sum_apply]

theorem deriv_list {A : Type} (F : A → ℝ → ℝ) (F' : A → ℝ) (s0 : ℝ) : ∀ (l : List A), (∀ a ∈ l, HasDerivAt (F a) (F' a) s0) →
    HasDerivAt (fun s => (l.map (fun a => F a s)).sum) (l.map F').sum s0 := by
  intro l
  induction l with
  | nil => intro _; simpa using hasDerivAt_const s0 (0 : ℝ)
  | cons a l ih =>
    intro h
    simp only [List.map_cons, List.sum_cons]
    exact (h a (by simp)).add (ih (fun b hb => h b (by simp [hb])))

theorem deriv_integral (c : Cfg ℝ ι n) (st : Step ℝ ι n) (p : Proc ℝ ι n) (hp : p.Good) (U : ℝ → ι → ℝ) (d : ι → ℝ) (s0 : ℝ)
    (hU : ∀ j, HasDerivAt (fun s => U s j) (d j) s0) :
    HasDerivAt (fun s => integral (seen c st (U s) p).quad) (slope (U s0) d p) s0 := by
  have hq : ∀ u, integral (seen c st u p).quad =
      (p.groups.flatten.map (fun e => (e.pts.map (fun q => q.f (local' e.row u) * q.wt)).sum)).sum := by
    intro u
    unfold integral seen
    simp only
    rw [← List.map_flatten]
    generalize p.groups.flatten = l
    induction l with
    | nil => rfl
    | cons e l ih =>
      rw [List.map_cons, List.flatten_cons, List.map_append, List.sum_append, ih, List.map_cons, List.sum_cons, List.map_map]
      rfl
  rw [funext (fun s => hq (U s))]
  unfold slope
  refine deriv_list _ _ s0 _ (fun e he => ?_)
  refine deriv_list _ _ s0 _ (fun q hqm => ?_)
  obtain ⟨g, hg, heg⟩ := List.mem_flatten.mp he
  exact (deriv_local q (hp.points g hg e heg q hqm) e.row U d s0 hU).mul_const q.wt

theorem deriv_sensors (c : Cfg ℝ ι n) (st : Step ℝ ι n) (p : Proc ℝ ι n) (hp : p.Good) (U : ℝ → ι → ℝ) (d : ι → ℝ) (s0 : ℝ)
    (hU : ∀ j, HasDerivAt (fun s => U s j) (d j) s0) :
    HasDerivAt (fun s => ((seen c st (U s) p).sensors.map (fun q => (q.1 - q.2) ^ 2)).sum)
      (sensorSlope c st.time (U s0) d p) s0 := by
  unfold seen sensorSlope
  simp only
  cases Sensors.matched c.near c.sensorTimes st.time with
  | none => simpa using hasDerivAt_const s0 (0 : ℝ)
  | some t =>
    simp only [Option.map_some]
    have : ∀ (u : ι → ℝ), (List.filterMap (fun s : Sensor ℝ ι n => some (s.resp.f (local' s.row u), s.data.getD t 0)) p.sensors).map
        (fun q : ℝ × ℝ => (q.1 - q.2) ^ 2) = p.sensors.map (fun s => (s.resp.f (local' s.row u) - s.data.getD t 0) ^ 2) := by
      intro u
      induction p.sensors with
      | nil => rfl
      | cons a l ih => simp
    simp only [this]
    refine deriv_list _ _ s0 _ (fun s hs => ?_)
    have h := (deriv_local s.resp (hp.sensors s hs) s.row U d s0 hU).sub_const (s.data.getD t 0)
    have h2 := h.fun_pow 2
    refine h2.congr_deriv ?_
    simp

theorem regs_const (ps : List ℝ) (c : Cfg ℝ ι n) (st : Step ℝ ι n) (hp : ∀ p ∈ st.procs, p.Good) (u u' : ι → ℝ) :
    regs ps (st.procs.map (seen c st u)) = regs ps (st.procs.map (seen c st u')) := by
  have h : ∀ p ∈ st.procs, (seen c st u p).regs = (seen c st u' p).regs := fun p hm => (hp p hm).regs u u'
  unfold regs
  congr 1
  · rw [List.map_map, List.map_map]
    congr 1
    apply List.map_congr_left
    intro p hm
    simp only [Function.comp_apply]
    rw [h p hm]
  · cases hs : st.procs with
    | nil => rfl
    | cons p l =>
      simp only [List.map_cons]
      rw [h p (by rw [hs]; simp)]

/-- What the gradient adds at one time without the step size. [specification, no code] -/
theorem deriv_main (o : Obj ℝ) (c : Cfg ℝ ι n) (ho : Places c.offsets) (st : Step ℝ ι n) (hne : st.procs ≠ [])
    (hp : ∀ p ∈ st.procs, p.Good) (U : ℝ → ι → ℝ) (d : ι → ℝ) (hd : ∀ j, c.fixed j = true → d j = 0) (s0 : ℝ)
    (hU : ∀ j, HasDerivAt (fun s => U s j) (d j) s0) (times : List ℝ) (v : ℝ) :
    ∃ m', HasDerivAt (fun s => main o (st.procs.map (seen c st (U s)))) m' s0 ∧
      dot (stateGrad o c times v st (U s0)) d =
        -((if o.kind = .sensors then 1 else stepSize c.tol times st.time) *
          (if o.kind = .response then 2 * o.weight * (v - o.target) * m' else m')) := by
  have hint := fun p hm => deriv_integral c st p (hp p hm) U d s0 hU
  have hsen := fun p hm => deriv_sensors c st p (hp p hm) U d s0 hU
  unfold main stateGrad
  cases hk : o.kind with
  | control =>
    simp only [List.map_map, Function.comp_def, reduceCtorEq, if_false]
    refine ⟨o.weight * (st.procs.map (slope (U s0) d)).sum, (deriv_list _ _ s0 _ hint).const_mul _, ?_⟩
    rw [dot_smul, dot_exported, List.map_map]
    have : st.procs.map ((fun g => dot g d) ∘ volumeGrad o.weight c (U s0)) = st.procs.map (fun p => -o.weight * slope (U s0) d p) := by
      apply List.map_congr_left
      intro p _
      simp only [Function.comp_apply]
      rw [dot_volume _ _ ho _ _ hd]
      ring
    rw [this, List.sum_map_mul_left]
    ring
  | response =>
    simp only [List.map_map, Function.comp_def, reduceCtorEq, if_false, if_true]
    refine ⟨(st.procs.map (slope (U s0) d)).sum, deriv_list _ _ s0 _ hint, ?_⟩
    rw [dot_smul, dot_exported, List.map_map]
    have : st.procs.map ((fun g => dot g d) ∘ (fun p i => 2 * o.weight * (v - o.target) * volumeGrad 1 c (U s0) p i)) =
        st.procs.map (fun p => -(2 * o.weight * (v - o.target)) * slope (U s0) d p) := by
      apply List.map_congr_left
      intro p _
      simp only [Function.comp_apply]
      rw [dot_smul, dot_volume _ _ ho _ _ hd]
      ring
    rw [this, List.sum_map_mul_left]
    ring
  | discrete =>
    obtain ⟨p, l, hs⟩ := List.exists_cons_of_ne_nil hne
    simp only [hs, List.map_cons, reduceCtorEq, if_false]
    refine ⟨o.weight * ∑ j, 2 * (U s0 j - st.dat j) * d j, ?_, ?_⟩
    · refine HasDerivAt.const_mul _ ?_
      simp only [seen, List.sum_cons, List.sum_nil, add_zero]
      refine HasDerivAt.fun_sum (fun j _ => ?_)
      have h2 := ((hU j).sub_const (st.dat j)).fun_pow 2
      refine h2.congr_deriv ?_
      simp
    · unfold dot
      rw [Finset.mul_sum, Finset.mul_sum, ← Finset.sum_neg_distrib]
      exact Finset.sum_congr rfl (fun j _ => by ring)
  | sensors =>
    simp only [List.map_map, Function.comp_def, reduceCtorEq, if_false, if_true]
    refine ⟨o.weight * (st.procs.map (sensorSlope c st.time (U s0) d)).sum, (deriv_list _ _ s0 _ hsen).const_mul _, ?_⟩
    rw [dot_exported, List.map_map]
    have : st.procs.map ((fun g => dot g d) ∘ sensorGrad o.weight c st.time (U s0)) =
        st.procs.map (fun p => -o.weight * sensorSlope c st.time (U s0) d p) := by
      apply List.map_congr_left
      intro p _
      simp only [Function.comp_apply]
      rw [dot_sensor _ _ ho _ _ _ hd]
      ring
    rw [this, List.sum_map_mul_left]
    ring

/-- C156, partial: along every differentiable curve of states whose fixed unknowns do not move, the derivative of the objective
reported is minus the sum, over the recorded times, of what is handed to the adjoint problem times the velocity of the state.
For all four types of objectives, any number of processes, groups, elements, points, sensors and times.  Missing:
regularisations that depend on the state (`C156_regularisation_violated`), several sets (`C156_fixed_violated`), sensors with
face variables (`C156_face_violated`), discretised parameters on several processes (`C156_parameters_violated`). -/
theorem C156_partial (o : Obj ℝ) (ps : List ℝ) (c : Cfg ℝ ι n) (ho : Places c.offsets) (st : Nat → Step ℝ ι n) (N : Nat)
    (ht : Times c.tol (fun k => (st k).time) N) (hne : ∀ k, (st k).procs ≠ []) (hp : ∀ k, ∀ p ∈ (st k).procs, p.Good)
    (U : ℝ → Nat → ι → ℝ) (d : Nat → ι → ℝ) (hd : ∀ k j, c.fixed j = true → d k j = 0) (s0 : ℝ)
    (hU : ∀ k j, HasDerivAt (fun s => U s k j) (d k j) s0) :
    HasDerivAt (fun s => reported o ps c st N (U s))
      (-((counted N).map (fun k => ∑ j, stateGrad o c (timesOf st N) (response o ps c st N (U s0)) (st k) (U s0 k) j * d k j)).sum)
      s0 := by
  set v := response o ps c st N (U s0) with hv
  have hm := fun k => deriv_main o c ho (st k) (hne k) (hp k) (fun s => U s k) (d k) (hd k) s0 (hU k) (timesOf st N) v
  choose m' h1 h2 using hm
  -- the accumulated value
  have hacc : HasDerivAt (fun s => response o ps c st N (U s))
      (((counted N).map (fun k => factor o.kind (fun k => (st k).time) N k * m' k)).sum) s0 := by
    rw [funext (fun s => accumulate_run o ps c st N (U s))]
    refine deriv_list _ _ s0 _ (fun k _ => ?_)
    refine HasDerivAt.const_mul _ ?_
    have hr : (fun s => regs ps ((st k).procs.map (seen c (st k) (U s k)))) =
        fun _ => regs ps ((st k).procs.map (seen c (st k) (U s0 k))) :=
      funext (fun s => regs_const ps c (st k) (hp k) (U s k) (U s0 k))
    have h3 := (h1 k).add (hr ▸ hasDerivAt_const s0 (regs ps ((st k).procs.map (seen c (st k) (U s0 k)))))
    rw [add_zero] at h3
    exact h3
  have hfac : ∀ k ∈ counted N, (if o.kind = .sensors then 1 else stepSize c.tol (timesOf st N) (st k).time) =
      factor o.kind (fun k => (st k).time) N k := by
    intro k hk
    unfold factor
    rw [stepSize_eq st N ht k hk]
    by_cases hs : o.kind = .sensors
    · simp [hs]
    · simp [hs]
  have hdot : ∀ k ∈ counted N, ∑ j, stateGrad o c (timesOf st N) v (st k) (U s0 k) j * d k j =
      -(factor o.kind (fun k => (st k).time) N k * (if o.kind = .response then 2 * o.weight * (v - o.target) * m' k else m' k)) := by
    intro k hk
    have := h2 k
    unfold dot at this
    rw [this, hfac k hk]
  rw [List.map_congr_left hdot]
  by_cases hk : o.kind = .response
  · have hrep : (fun s => reported o ps c st N (U s)) =
        fun s => o.weight * (response o ps c st N (U s) - o.target) * (response o ps c st N (U s) - o.target) := by
      funext s
      unfold reported report response
      simp only [hk, if_true]
    rw [hrep]
    have h3 := ((hacc.sub_const o.target).const_mul o.weight).fun_mul (hacc.sub_const o.target)
    refine h3.congr_deriv ?_
    rw [← hv]
    simp only [hk, if_true]
    have hneg : ((counted N).map (fun k => -(factor .response (fun k => (st k).time) N k * (2 * o.weight * (v - o.target) * m' k)))).sum =
        -(2 * o.weight * (v - o.target)) * ((counted N).map (fun k => factor .response (fun k => (st k).time) N k * m' k)).sum := by
      rw [← List.sum_map_mul_left]
      congr 1
      apply List.map_congr_left
      intro k _
      ring
    rw [hneg]
    ring
  · have hrep : (fun s => reported o ps c st N (U s)) = fun s => response o ps c st N (U s) := by
      funext s
      unfold reported report response
      simp only [hk, if_false]
    rw [hrep]
    refine hacc.congr_deriv ?_
    simp only [hk, if_false]
    have hneg : ((counted N).map (fun k => -(factor o.kind (fun k => (st k).time) N k * m' k))).sum =
        -((counted N).map (fun k => factor o.kind (fun k => (st k).time) N k * m' k)).sum := by
      generalize counted N = l
      induction l with
      | nil => simp
      | cons a l ih => simp only [List.map_cons, List.sum_cons, ih]; ring
    rw [hneg, neg_neg]

/-! ### Cases and violations -/

/-- The product of the two unknowns of an element, with weight 3. [case] -/
def exPt {K : Type} [OfNat K 3] [Mul K] : Pt K 2 := ⟨3, fun x => x 0 * x 1, fun x => ![x 1, x 0]⟩

theorem exPt_good : (exPt : Pt ℝ 2).Good := by
  intro x
  have h0 := (ContinuousLinearMap.proj (R := ℝ) (φ := fun _ : Fin 2 => ℝ) 0).hasFDerivAt (x := x)
  have h1 := (ContinuousLinearMap.proj (R := ℝ) (φ := fun _ : Fin 2 => ℝ) 1).hasFDerivAt (x := x)
  refine (h0.fun_mul h1).congr_fderiv ?_
  simp [exPt, Fin.sum_univ_two, add_comm]

/-- Two variables with one unknown each, in swapped places; unknown 2 is fixed. [case] -/
def exCfg {K : Type} [OfNat K 1] [OfNat K 2] [OfNat K 10] [Div K] [DecidableEq K] : Cfg K (Fin 3) 2 :=
  ⟨[[1], [0]], fun j => j == 2, [2], fun a b => decide (a = b), 1 / 10⟩

/-- Times 1, 2, 3, …; an element with unknowns 0 and 1 on one process and one with 1 and 2 on another, and a sensor. [case] -/
def exStep {K : Type} [OfNat K 3] [OfNat K 7] [OfNat K 0] [OfNat K 1] [Add K] [NatCast K] [Mul K] (k : Nat) : Step K (Fin 3) 2 :=
  ⟨(k : K) + 1, [{ groups := [[⟨![0, 1], [exPt]⟩]] }, { groups := [[⟨![1, 2], [exPt]⟩]], sensors := [⟨![1, 2], exPt, [7]⟩] }],
    fun _ => 0⟩

/-- Case: hypotheses of `C156_partial` met by two processes, an element with a fixed unknown, a sensor and three times. -/
example : Places (exCfg (K := ℝ)).offsets ∧ Times (exCfg (K := ℝ)).tol (fun k => (exStep (K := ℝ) k).time) 2 ∧
    (∀ k, ∀ p ∈ (exStep (K := ℝ) k).procs, p.Good) := by
  refine ⟨⟨by decide, by decide⟩, ⟨by norm_num [exCfg], ?_, ?_⟩, ?_⟩
  · intro k _ _
    simp only [exStep]
    positivity
  · intro i j hi hj hne
    simp only [exStep, exCfg]
    interval_cases i <;> interval_cases j <;> first | exact absurd rfl hne | norm_num
  · intro k p hp
    simp only [exStep, List.mem_cons, List.not_mem_nil, or_false] at hp
    rcases hp with rfl | rfl
    · refine ⟨?_, by simp, fun _ _ => rfl⟩
      intro g hg e he q hq
      simp only [List.mem_cons, List.not_mem_nil, or_false] at hg
      subst hg
      simp only [List.mem_cons, List.not_mem_nil, or_false] at he
      subst he
      simp only [List.mem_cons, List.not_mem_nil, or_false] at hq
      subst hq
      exact exPt_good
    · refine ⟨?_, ?_, fun _ _ => rfl⟩
      · intro g hg e he q hq
        simp only [List.mem_cons, List.not_mem_nil, or_false] at hg
        subst hg
        simp only [List.mem_cons, List.not_mem_nil, or_false] at he
        subst he
        simp only [List.mem_cons, List.not_mem_nil, or_false] at hq
        subst hq
        exact exPt_good
      · intro s hs
        simp only [List.mem_cons, List.not_mem_nil, or_false] at hs
        subst hs
        exact exPt_good

/-- Case: in that run with weight 2, states (4, 5, 6) at the time 2: the entries are minus 2 · 3 times the partial derivatives
of u₀u₁ + u₁u₂ for the control; for a response with accumulated value 10 and target 9, factor 2 · 2 · (10 − 9); for the
sensor with measurement 7 at that time minus 2 · 2 · (30 − 7) times (6, 5), the fixed unknown left out. -/
example : List.ofFn (stateGrad ⟨.control, 2, 0⟩ (exCfg (K := ℚ)) (timesOf exStep 2) 0 (exStep 1) ![4, 5, 6]) = [-30, -60, 0] ∧
    List.ofFn (stateGrad ⟨.response, 2, 9⟩ (exCfg (K := ℚ)) (timesOf exStep 2) 10 (exStep 1) ![4, 5, 6]) = [-60, -120, 0] ∧
    List.ofFn (stateGrad ⟨.sensors, 2, 0⟩ (exCfg (K := ℚ)) (timesOf exStep 2) 0 (exStep 1) ![4, 5, 6]) = [0, -552, 0] ∧
    List.ofFn (stateGrad ⟨.discrete, 2, 0⟩ (exCfg (K := ℚ)) (timesOf exStep 2) 0 (exStep 1) ![4, 5, 6]) = [-16, -20, -24] := by
  refine ⟨?_, ?_, ?_, ?_⟩ <;> decide +kernel

/-- C156 is false for a regularisation that depends on the state: it is part of the objective reported, and nothing is handed to
the adjoint problem for it.  One unknown, regularisation `u` integrated with weight 1: derivative 1, entry 0. -/
theorem C156_regularisation_violated : ∃ (o : Obj ℝ) (c : Cfg ℝ (Fin 1) 1) (st : Nat → Step ℝ (Fin 1) 1),
    (∀ s0, HasDerivAt (fun s => reported o [] c st 0 (fun _ _ => s)) 1 s0) ∧
    ∀ times v u j, stateGrad o c times v (st 0) u j = 0 := by
  refine ⟨⟨.control, 1, 0⟩, ⟨[[0]], fun _ => false, [], fun _ _ => false, 1⟩,
    fun _ => ⟨0, [{ regs := fun u => [.integrated 1 [[[(u 0, 1)]]]] }], fun _ => 0⟩, ?_, ?_⟩
  · intro s0
    have : (fun s : ℝ => reported (n := 1) ⟨.control, 1, 0⟩ [] ⟨[[0]], fun _ => false, [], fun _ _ => false, 1⟩
        (fun _ => ⟨0, [{ regs := fun u : Fin 1 → ℝ => [.integrated 1 [[[(u 0, 1)]]]] }], fun _ => 0⟩) 0 (fun _ _ => s)) =
        fun s => s := by
      funext s
      simp [reported, report, record, runOf, seen, values, value, accumulate, reduce, addReg]
    rw [this]
    exact hasDerivAt_id s0
  · intro times v u j
    simp [stateGrad, exported, volumeGrad]

/-- C156 is false for the second of two sets: the unknowns left out of the scatter are those fixed in the first set
(`isFixedDOF[0]`).  An unknown that is free in its own set and whose number is fixed in the first: derivative of the objective
reported 1, entry 0. -/
theorem C156_fixed_violated : ∃ (o : Obj ℝ) (c : Cfg ℝ (Fin 1) 1) (st : Nat → Step ℝ (Fin 1) 1), Places c.offsets ∧
    (∀ k, ∀ p ∈ (st k).procs, p.Good) ∧ (∀ s0, HasDerivAt (fun s => reported o [] c st 0 (fun _ _ => s)) 1 s0) ∧
    ∀ times v u j, stateGrad o c times v (st 0) u j = 0 := by
  refine ⟨⟨.control, 1, 0⟩, ⟨[[0]], fun _ => true, [], fun _ _ => false, 1⟩,
    fun _ => ⟨0, [{ groups := [[⟨fun _ => 0, [⟨1, fun x => x 0, fun _ _ => 1⟩]⟩]] }], fun _ => 0⟩, ⟨by decide, by decide⟩, ?_, ?_, ?_⟩
  · intro k p hp
    simp only [List.mem_cons, List.not_mem_nil, or_false] at hp
    subst hp
    refine ⟨?_, by simp, fun _ _ => rfl⟩
    intro g hg e he q hq
    simp only [List.mem_cons, List.not_mem_nil, or_false] at hg
    subst hg
    simp only [List.mem_cons, List.not_mem_nil, or_false] at he
    subst he
    simp only [List.mem_cons, List.not_mem_nil, or_false] at hq
    subst hq
    intro x
    refine ((ContinuousLinearMap.proj (R := ℝ) (φ := fun _ : Fin 1 => ℝ) 0).hasFDerivAt (x := x)).congr_fderiv ?_
    simp
  · intro s0
    have : (fun s : ℝ => reported (n := 1) ⟨.control, 1, 0⟩ [] ⟨[[0]], fun _ => true, [], fun _ _ => false, 1⟩
        (fun _ => ⟨0, [{ groups := [[⟨fun _ => (0 : Fin 1), [⟨(1 : ℝ), fun x => x 0, fun _ _ => 1⟩]⟩]] }], fun _ => 0⟩) 0 (fun _ _ => s)) =
        fun s => s := by
      funext s
      simp [reported, report, record, runOf, seen, values, value, accumulate, reduce, groupSum, local']
    rw [this]
    exact hasDerivAt_id s0
  · intro times v u j
    simp [stateGrad, exported, volumeGrad, scatter]

end real

/-! ## The workset at a sensor: fields, points, parameters -/

section workset

open Workset

/-- Labels of the point fields of one variable, /repo/src/tools/workset.cpp:358-361, 377-380, 388, 418-428, in the order of the
`push_back` calls on `point_soln_fields`; none for a face variable (431-435). -/
def pointLabels (dim : Nat) (b : BType) (v : Str) : List Str :=
  match b with
  | .hgrad => [v, "grad(".toList ++ v ++ ")[x]".toList, "grad(".toList ++ v ++ ")[y]".toList,
      "grad(".toList ++ v ++ ")[z]".toList]
  | .hdiv => [v ++ "[x]".toList, v ++ "[y]".toList, v ++ "[z]".toList,
      "div(".toList ++ v ++ ")".toList]
  | .hvol => [v]
  | .hcurl => [v ++ "[x]".toList, v ++ "[y]".toList, v ++ "[z]".toList] ++
      (if dim = 2 then ["curl(".toList ++ v ++ ")".toList]
       else ["curl(".toList ++ v ++ ")[x]".toList, "curl(".toList ++ v ++ ")[y]".toList,
         "curl(".toList ++ v ++ ")[z]".toList])
  | .hface => []
  | .other => []

/-- The field that a name in a response at sensors stands for when its derivative with respect to the state is computed: its
number in the list of point fields (/repo/src/managers/function/functionManager_create.hpp:131-152), used in the list of side
fields because `isOnSide` is set (postprocessManager_objective_gradient.hpp:1374, functionManager_evaluate.hpp:66-75).  `none`: no such field, or
beyond the list. -/
def fieldRead (dim : Nat) (es : List Entry) (label : Str) : Option Str :=
  match (es.flatMap (fun e => pointLabels dim e.btype e.name)).findIdx? (· == label) with
  | some i => (es.flatMap (fun e => sideLabels dim e.btype e.name))[i]?
  | none => none

/-- C156, partial: without face variables a name stands for its own field.  Missing: `C156_face_violated`. -/
theorem C156_fields_partial (dim : Nat) (es : List Entry) (h : ∀ e ∈ es, e.btype ≠ .hface) (label : Str)
    (hl : label ∈ es.flatMap (fun e => pointLabels dim e.btype e.name)) : fieldRead dim es label = some label := by
  have hs : es.flatMap (fun e => sideLabels dim e.btype e.name) = es.flatMap (fun e => pointLabels dim e.btype e.name) := by
    rw [List.flatMap_def, List.flatMap_def]
    congr 1
    apply List.map_congr_left
    intro e he
    have := h e he
    unfold sideLabels pointLabels
    cases hb : e.btype <;> first | rfl | exact absurd hb this
  unfold fieldRead
  rw [hs]
  generalize es.flatMap (fun e => pointLabels dim e.btype e.name) = l at hl
  induction l with
  | nil => simp at hl
  | cons a l ih =>
    rw [List.findIdx?_cons]
    by_cases ha : a = label
    · simp [ha]
    · rw [if_neg (by simpa using ha)]
      have := ih (by simpa [Ne.symm ha] using hl)
      cases hf : l.findIdx? (· == label) with
      | none => rw [hf] at this; simp at this
      | some i => rw [hf] at this; simpa using this

/-- Case: a scalar and a flux in two dimensions. -/
example : fieldRead 2 [⟨"p".toList, .solution, 0, 0, .hvol⟩, ⟨"q".toList, .solution, 0, 1, .hdiv⟩] "q[y]".toList =
    some "q[y]".toList := by decide +kernel

/-- C156 is false for a response at sensors with a face variable before the field it names: a discretised parameter `k` after
the unknowns `u` and `lam` (on faces) is read as `lam`. -/
theorem C156_face_violated : fieldRead 2 [⟨"u".toList, .solution, 0, 0, .hvol⟩, ⟨"lam".toList, .solution, 0, 1, .hface⟩,
    ⟨"k".toList, .param, 0, 0, .hgrad⟩] "k".toList = some "lam".toList := by decide +kernel

/-- Coordinates of the integration points of boundary groups: group, element, point; and the array the coordinate field of the
sides stands for: that of the boundary group used last, or an own one (`none`);
/repo/src/tools/workset.cpp:2086-2102, /repo/src/managers/assembly/assemblyManager_workset.hpp:840-849. -/
structure Sides (K : Type) where
  pts : Nat → Nat → Nat → K
  field : Option Nat
  own : Nat → Nat → K

/-- A boundary group is used: no copy is made; assemblyManager_workset.hpp:840. -/
def Sides.use {K : Type} (s : Sides K) (g : Nat) : Sides K := { s with field := some g }

/-- The coordinate of a sensor is written to the first point of the field, with `isOnSide` set;
postprocessManager_objective_gradient.hpp:1374-1387. -/
def Sides.sensor {K : Type} (s : Sides K) (x : K) : Sides K :=
  match s.field with
  | some g => { s with pts := Function.update s.pts g (Function.update (s.pts g) 0 (Function.update (s.pts g 0) 0 x)) }
  | none => { s with own := Function.update s.own 0 (Function.update (s.own 0) 0 x) }

/-- C156 is false for what it leaves behind: after any use of a boundary group, the derivative for a sensor moves the first
integration point of that group to the sensor, for all later assemblies. -/
theorem C156_points_violated {K : Type} (s : Sides K) (g : Nat) (x : K) (h : s.pts g 0 0 ≠ x) :
    ((s.use g).sensor x).pts g 0 0 = x ∧ ((s.use g).sensor x).pts ≠ s.pts := by
  have h1 : ((s.use g).sensor x).pts g 0 0 = x := by simp [Sides.use, Sides.sensor]
  exact ⟨h1, fun e => h (by rw [← e]; exact h1)⟩

/-- C156, partial: without boundary groups the derivative leaves the points of the sides as they are, and whatever was used, it
moves no point but the first of the first element of the group used last.  Missing: `C156_points_violated`. -/
theorem C156_points_partial {K : Type} (s : Sides K) (x : K) :
    (s.field = none → (s.sensor x).pts = s.pts ∧ (s.sensor x).own 0 0 = x ∧
      ∀ e q, e ≠ 0 ∨ q ≠ 0 → (s.sensor x).own e q = s.own e q) ∧
    ∀ g e q, s.field ≠ some g ∨ e ≠ 0 ∨ q ≠ 0 → (s.sensor x).pts g e q = s.pts g e q := by
  constructor
  · intro h
    refine ⟨by simp [Sides.sensor, h], by simp [Sides.sensor, h], fun e q he => ?_⟩
    simp only [Sides.sensor, h]
    by_cases h0 : e = 0
    · subst h0
      rw [Function.update_self, Function.update_of_ne (by simpa using he)]
    · rw [Function.update_of_ne h0]
  · intro g e q h
    unfold Sides.sensor
    cases hf : s.field with
    | none => rfl
    | some g' =>
      simp only
      rw [hf] at h
      by_cases hg : g = g'
      · subst hg
        rw [Function.update_self]
        by_cases he : e = 0
        · subst he
          rw [Function.update_self]
          have : q ≠ 0 := by simpa using h
          rw [Function.update_of_ne this]
        · rw [Function.update_of_ne he]
      · rw [Function.update_of_ne hg]

/-- Case: the point of group 2 at 3 is moved to the sensor at 5. -/
example : (((⟨fun _ _ _ => 3, none, fun _ _ => 0⟩ : Sides ℤ).use 2).sensor 5).pts 2 0 0 = 5 := by decide +kernel

/-- Gather of the discretised parameters of an element from a vector, `none` beyond its end; postprocessManager_objective_gradient.hpp:1167,
assemblyManager_gather.hpp:183-232. -/
def gatherParams {K : Type} (vec : List K) (lids : List Nat) : Option (List K) := lids.mapM (vec[·]?)

/-- The vector the derivative with respect to the state gathers from: that of the owned parameters (`getDiscretizedParams`),
while the objective gathers from that with the ghosts behind (`getDiscretizedParamsOver`); postprocessManager_objective_gradient.hpp:1117,
postprocessManager_objectives.hpp:114, /repo/src/managers/parameter/parameterManager_setup.hpp:295-297. -/
def stateParams {K : Type} (owned _ghosts : List K) : List K := owned

/-- The vector the objective gathers from; postprocessManager_objectives.hpp:114. -/
def valueParams {K : Type} (owned ghosts : List K) : List K := owned ++ ghosts

theorem mapM_same' {A B : Type} (f g : A → Option B) : ∀ l : List A, (∀ a ∈ l, f a = g a) → l.mapM f = l.mapM g := by
  intro l
  induction l with
  | nil => intro _; rfl
  | cons a l ih =>
    intro h
    rw [List.mapM_cons, List.mapM_cons, h a (by simp), ih (fun b hb => h b (by simp [hb]))]

theorem mapM_none' {A B : Type} (f : A → Option B) : ∀ l : List A, (∃ a ∈ l, f a = none) → l.mapM f = none := by
  intro l
  induction l with
  | nil => rintro ⟨a, ha, _⟩; simp at ha
  | cons a l ih =>
    rintro ⟨b, hb, hn⟩
    rw [List.mapM_cons]
    cases hfa : f a with
    | none => rfl
    | some x =>
      have : ∃ a ∈ l, f a = none := by
        rcases List.mem_cons.mp hb with rfl | hb
        · rw [hfa] at hn; simp at hn
        · exact ⟨b, hb, hn⟩
      simp [ih this]

/-- C156, partial: an element whose discretised parameters are all owned gets the same ones as in the objective.  Missing:
`C156_parameters_violated`. -/
theorem C156_parameters_partial {K : Type} (owned ghosts : List K) (lids : List Nat) (h : ∀ l ∈ lids, l < owned.length) :
    gatherParams (stateParams owned ghosts) lids = gatherParams (valueParams owned ghosts) lids := by
  unfold gatherParams stateParams valueParams
  refine mapM_same' _ _ lids (fun l hl => ?_)
  rw [List.getElem?_append_left (h l hl)]

/-- C156 is false for discretised parameters on several processes: an element with a parameter owned by another process reads
beyond the vector, although the objective finds all its parameters. -/
theorem C156_parameters_violated {K : Type} (owned ghosts : List K) (lids : List Nat)
    (hin : ∀ l ∈ lids, l < owned.length + ghosts.length) (hg : ∃ l ∈ lids, owned.length ≤ l) :
    gatherParams (stateParams owned ghosts) lids = none ∧ ∃ vals, gatherParams (valueParams owned ghosts) lids = some vals := by
  constructor
  · unfold gatherParams stateParams
    obtain ⟨l, hl, h⟩ := hg
    exact mapM_none' _ lids ⟨l, hl, List.getElem?_eq_none h⟩
  · clear hg
    unfold gatherParams valueParams
    induction lids with
    | nil => exact ⟨[], rfl⟩
    | cons a l ih =>
      obtain ⟨vals, hv⟩ := ih (fun b hb => hin b (by simp [hb]))
      have ha : a < (owned ++ ghosts).length := by rw [List.length_append]; exact hin a (by simp)
      refine ⟨(owned ++ ghosts)[a] :: vals, ?_⟩
      rw [List.mapM_cons, hv, List.getElem?_eq_getElem ha]
      rfl

/-- Case: two owned parameters and one ghost, element with the parameters 1 and 2. -/
example : gatherParams (stateParams [4, 5] [6]) [1, 2] = none ∧ gatherParams (valueParams [4, 5] [6]) [1, 2] = some [5, (6 : ℤ)] := by
  decide +kernel

end workset

end MrHyDE.Objective.State
