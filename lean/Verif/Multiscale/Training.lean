import Mathlib.Algebra.BigOperators.Group.Finset.Basic
import Mathlib.Algebra.BigOperators.Intervals
import Mathlib.Analysis.SpecialFunctions.Sqrt
import Mathlib.Tactic.Linarith
import Mathlib.Tactic.Positivity
import Mathlib.Tactic.NormNum

/-!
# Training data of the choice of subgrid models (C191)

With `subgrid model selection: ML` the first time steps solve the subgrid problems with every model, compare the models with the last
one and collect features and labels; then files for the training program are written; from then on the program trained chooses the
models.  The choice itself is in Multiscale/Model.lean (C70).
Numbers are real; the numbers printed on the screen (mean, variance, tolerance, multiscaleManager.cpp:705-714, 783-791) and the calls of
the training program (814-838) are left out; the files are lists of lines.
-/

set_option linter.unusedSectionVars false
set_option linter.unusedSimpArgs false

namespace MrHyDE.Multiscale.Training

/-! ## Model -/

/-- What a call of the map for a group works with, src/managers/multiscale/multiscaleManager.cpp:865-912: the rows of the shared table
(line 879, src/tools/groupMetaData.cpp:159), the iteration (src/managers/solver/solverManager_solvers.hpp:338), the model of the group,
variables, values per variable, the values and their time derivatives, the width of the residual, and the residual of model `m` at row
`e`, computed in a residual that was set to zero (lines 876, 1126 and src/tools/workset.cpp:454-457, 497-512). -/
structure Call where
  rows : Nat
  iter : Nat
  index : Nat
  nvar : Nat
  ndof : Nat
  u : Nat → Nat → Nat → ℝ
  udot : Nat → Nat → Nat → ℝ
  width : Nat
  res : Nat → Nat → Nat → ℝ

/-- What is collected: per model the features, the labels and the relative errors; multiscaleManager.hpp:168-170.  A relative error
is `none` for a zero divisor. -/
structure Store where
  inputs : List (List (List ℝ))
  outputs : List (List ℝ)
  extra : List (List (Option ℝ))

/-- Features of a row: per variable all values, then all time derivatives; multiscaleManager.cpp:1068-1087 (the positions of 1080-1084
are switched off in line 1044). -/
def features (c : Call) (e : Nat) : List ℝ :=
  (List.range c.nvar).flatMap (fun v => (List.range c.ndof).map (c.u e v) ++ (List.range c.ndof).map (c.udot e v))

/-- The norm of the residual of the last of `M` models, multiscaleManager.cpp:1112-1122. -/
noncomputable def resnorm (M : Nat) (c : Call) (e : Nat) : ℝ :=
  Real.sqrt ((List.range c.width).map (fun d => c.res (M - 1) e d * c.res (M - 1) e d)).sum

/-- The error of a model, multiscaleManager.cpp:1134-1144, 1151. -/
noncomputable def error (M m : Nat) (c : Call) (e : Nat) : ℝ :=
  Real.sqrt ((List.range c.width).map (fun d => (c.res m e d - c.res (M - 1) e d) * (c.res m e d - c.res (M - 1) e d))).sum

/-- The relative error, multiscaleManager.cpp:1152; `none`: the divisor is zero, the quotient is no number or infinite. -/
noncomputable def relative (M m : Nat) (c : Call) (e : Nat) : Option ℝ :=
  if resnorm M c e = 0 then none else some (error M m c e / resnorm M c e)

/-- The label of a row, multiscaleManager.cpp:1146, 1154-1156; a quotient that is no number or infinite is not below the tolerance. -/
noncomputable def label (abstol reltol : ℝ) (M m : Nat) (c : Call) (e : Nat) : ℝ :=
  if error M m c e < abstol then 1
  else match relative M m c e with
    | some q => if q < reltol then 1 else 0
    | none => 0

/-- The three tables on first use, multiscaleManager.cpp:999-1016. -/
def start (M : Nat) (S : Store) : Store where
  inputs := if S.inputs.length = 0 then List.replicate M [] else S.inputs
  outputs := if S.outputs.length = 0 then List.replicate M [] else S.outputs
  extra := if S.extra.length = 0 then List.replicate M [] else S.extra

/-- Something added at the end of the lists of the models below `n`; the loops of multiscaleManager.cpp:1088-1092, 1125, 1158-1161. -/
def addTo {α : Type} (n : Nat) (rows : Nat → List α) (t : List (List α)) : List (List α) :=
  t.zipIdx.map (fun x => if x.2 < n then x.1 ++ rows x.2 else x.1)

/-- The data of a call: features for all models, labels and errors for all but the last; multiscaleManager.cpp:1068-1092, 1125-1162. -/
noncomputable def collect (abstol reltol : ℝ) (M : Nat) (c : Call) (S : Store) : Store where
  inputs := addTo M (fun _ => (List.range c.rows).map (features c)) (start M S).inputs
  outputs := addTo (M - 1) (fun m => (List.range c.rows).map (label abstol reltol M m c)) (start M S).outputs
  extra := addTo (M - 1) (fun m => (List.range c.rows).map (relative M m c)) (start M S).extra

/-- What a call leaves: the residual, the model whose gradient with respect to the parameters is in the group (every solve starts by
setting it to zero, src/subgrid/subgridDtN_solver.cpp:167), and the data. -/
structure Result where
  res : Nat → Nat → ℝ
  gradient : Nat
  store : Store

/-- The map with the choice `ML`, multiscaleManager.cpp:995-1182; `none`: no model with the number.  While training, the last model is
solved first, then the others, and the residual of the last one is put back (1163-1169). -/
noncomputable def evaluate (abstol reltol : ℝ) (M : Nat) (training : Bool) (c : Call) (S : Store) : Option Result :=
  if training = true ∧ 0 < c.iter then
    if M = 0 then none
    else some ⟨c.res (M - 1), if 1 < M then M - 2 else M - 1, collect abstol reltol M c S⟩
  else if c.index < M then some ⟨c.res c.index, c.index, S⟩
  else none

/-- The state of the choice: steps counted, is there a trained program, is data collected; multiscaleManager.cpp:39-42. -/
structure Phase where
  steps : Nat
  have_ : Bool
  training : Bool
deriving DecidableEq

/-- The state at the beginning, multiscaleManager.cpp:39-42. -/
def Phase.init (have_ : Bool) : Phase := ⟨0, have_, true⟩

/-- What an update does: nothing, choose with the trained program, write the files. [helper for multiscaleManager.cpp:378, 438-441, 698] -/
inductive Act where
  | idle
  | predict
  | write (files : List (List (List ℝ) × List ℝ))

/-- The files of model `m`, multiscaleManager.cpp:703-811.  No line is left out, since a number of the distribution is not below zero
(718-726).  `none`: outside the tables (705-707, 717), outside the three proportions (778-781, 789), or outside the sorted labels,
which happens if there are none (783-790; the proportions are below one). -/
def files (S : Store) (m : Nat) : Option (List (List ℝ) × List ℝ) := do
  let _ ← S.extra[m]?
  let ins ← S.inputs[m]?
  let outs ← S.outputs[m]?
  if m < 3 ∧ outs ≠ [] then some (ins, outs) else none

/-- All files, multiscaleManager.cpp:701. -/
def allFiles (S : Store) : List Nat → Option (List (List (List ℝ) × List ℝ))
  | [] => some []
  | m :: ms => do
      let f ← files S m
      let fs ← allFiles S ms
      some (f :: fs)

/-- `update` with the choice `ML` and at least one model, multiscaleManager.cpp:378-387, 437-441, 698-700.  `static` is the option
`static subgrids`, which is true unless given (161). -/
def update (static : Bool) (maxSteps M : Nat) (S : Store) (p : Phase) : Option (Phase × Act) :=
  if static then some (p, .idle)
  else if p.steps < maxSteps then some ({ p with steps := p.steps + 1 }, .idle)
  else if p.have_ then some (p, .predict)
  else do
    let fs ← allFiles S (List.range (M - 1))
    some ({ p with have_ := true, training := false }, .write fs)

/-- Calls one after another with the data collected so far; src/managers/assembly/assemblyManager_jacres.hpp:371. -/
noncomputable def calls (abstol reltol : ℝ) (M : Nat) (training : Bool) : List Call → Store → Option Store
  | [], S => some S
  | c :: cs, S => (evaluate abstol reltol M training c S).bind (fun r => calls abstol reltol M training cs r.store)

/-- Updates one after another; src/managers/solver/solverManager_solvers.hpp:126. -/
def updates (static : Bool) (maxSteps M : Nat) (S : Store) : Nat → Phase → Option Phase
  | 0, p => some p
  | k + 1, p => (update static maxSteps M S p).bind (fun q => updates static maxSteps M S k q.1)

/-! ## Specification -/

/-- Nothing collected. [specification, no code] -/
def Store.empty : Store := ⟨[], [], []⟩

/-- A model is good enough for a row: the residual differs from the one of the last model by less than the absolute tolerance, or by
less than the relative tolerance times a residual that is not zero. [specification, no code] -/
def Good (abstol reltol : ℝ) (M m : Nat) (c : Call) (e : Nat) : Prop :=
  (∑ d ∈ Finset.range c.width, (c.res m e d - c.res (M - 1) e d) ^ 2) < abstol ^ 2 ∨
    (∃ d < c.width, c.res (M - 1) e d ≠ 0) ∧
      (∑ d ∈ Finset.range c.width, (c.res m e d - c.res (M - 1) e d) ^ 2) <
        reltol ^ 2 * ∑ d ∈ Finset.range c.width, c.res (M - 1) e d ^ 2

/-- The calls in which data is collected, row after row. [specification, no code] -/
def records (cs : List Call) : List (Call × Nat) :=
  (cs.filter (fun c => 0 < c.iter)).flatMap (fun c => (List.range c.rows).map (fun e => (c, e)))

/-! ## Lemmas -/

theorem sum_range (f : Nat → ℝ) (n : Nat) : ((List.range n).map f).sum = ∑ d ∈ Finset.range n, f d := by
  induction n with
  | zero => simp
  | succ n ih => simp [List.range_succ, Finset.sum_range_succ, ih]

theorem addTo_get {α : Type} (n : Nat) (rows : Nat → List α) (t : List (List α)) (m : Nat) :
    (addTo n rows t)[m]? = (t[m]?).map (fun l => if m < n then l ++ rows m else l) := by
  simp [addTo, List.getElem?_map, List.getElem?_zipIdx]
  cases t[m]? <;> simp

theorem addTo_length {α : Type} (n : Nat) (rows : Nat → List α) (t : List (List α)) : (addTo n rows t).length = t.length := by
  simp [addTo]

/-- Has table `t` the rows `r m` for every model `m < M`. [specification, no code] -/
def Holds {α : Type} (M : Nat) (t : List (List α)) (r : Nat → List α) : Prop := t.length = M ∧ ∀ m, m < M → t[m]? = some (r m)

theorem holds_start {α : Type} {M : Nat} {t : List (List α)} {r : Nat → List α}
    (h : Holds M t r ∨ t = [] ∧ ∀ m, r m = []) :
    Holds M (if t.length = 0 then List.replicate M [] else t) r := by
  rcases h with h | ⟨rfl, h⟩
  · by_cases h0 : t.length = 0
    · have hM : M = 0 := by rw [← h.1]; exact h0
      subst hM
      simp [h0, Holds]
    · simpa [h0] using h
  · refine ⟨by simp, fun m hm => ?_⟩
    simp [List.getElem?_replicate, hm, h m]

theorem holds_add {α : Type} {M n : Nat} {t : List (List α)} {r : Nat → List α} (rows : Nat → List α) (h : Holds M t r) :
    Holds M (addTo n rows t) (fun m => if m < n then r m ++ rows m else r m) := by
  refine ⟨by rw [addTo_length, h.1], fun m hm => ?_⟩
  rw [addTo_get, h.2 m hm]
  rfl

theorem label_cases (abstol reltol : ℝ) (M m : Nat) (c : Call) (e : Nat) :
    label abstol reltol M m c e = 1 ∨ label abstol reltol M m c e = 0 := by
  unfold label
  split
  · exact Or.inl rfl
  · split
    · split
      · exact Or.inl rfl
      · exact Or.inr rfl
    · exact Or.inr rfl

/-- Data of the calls so far, for an induction. [specification, no code] -/
def Inv (abstol reltol : ℝ) (M : Nat) (rs : List (Call × Nat)) (S : Store) : Prop :=
  (Holds M S.inputs (fun _ => rs.map (fun r => features r.1 r.2)) ∨ S.inputs = [] ∧ rs = []) ∧
  (Holds M S.outputs (fun m => if m < M - 1 then rs.map (fun r => label abstol reltol M m r.1 r.2) else []) ∨ S.outputs = [] ∧ rs = []) ∧
  (Holds M S.extra (fun m => if m < M - 1 then rs.map (fun r => relative M m r.1 r.2) else []) ∨ S.extra = [] ∧ rs = [])

theorem inv_collect {abstol reltol : ℝ} {M : Nat} {rs : List (Call × Nat)} {S : Store} (c : Call) (h : Inv abstol reltol M rs S) :
    Inv abstol reltol M (rs ++ (List.range c.rows).map (fun e => (c, e))) (collect abstol reltol M c S) := by
  obtain ⟨h1, h2, h3⟩ := h
  refine ⟨Or.inl ?_, Or.inl ?_, Or.inl ?_⟩
  · have := holds_add (n := M) (fun _ => (List.range c.rows).map (features c))
      (holds_start (h1.imp id (fun x => ⟨x.1, by simp [x.2]⟩)))
    refine ⟨this.1, fun m hm => (this.2 m hm).trans ?_⟩
    simp [hm, Function.comp_def]
  · have := holds_add (n := M - 1) (fun m => (List.range c.rows).map (label abstol reltol M m c))
      (holds_start (h2.imp id (fun x => ⟨x.1, by simp [x.2]⟩)))
    refine ⟨this.1, fun m hm => (this.2 m hm).trans ?_⟩
    by_cases hm' : m < M - 1 <;> simp [hm', Function.comp_def]
  · have := holds_add (n := M - 1) (fun m => (List.range c.rows).map (relative M m c))
      (holds_start (h3.imp id (fun x => ⟨x.1, by simp [x.2]⟩)))
    refine ⟨this.1, fun m hm => (this.2 m hm).trans ?_⟩
    by_cases hm' : m < M - 1 <;> simp [hm', Function.comp_def]

theorem inv_calls {abstol reltol : ℝ} {M : Nat} (cs : List Call) {rs : List (Call × Nat)} {S T : Store}
    (h : Inv abstol reltol M rs S) (hc : calls abstol reltol M true cs S = some T) :
    Inv abstol reltol M (rs ++ records cs) T := by
  induction cs generalizing rs S with
  | nil =>
      have : S = T := by simpa [calls] using hc
      subst this
      simpa [records] using h
  | cons c cs ih =>
      simp only [calls] at hc
      by_cases hi : 0 < c.iter
      · by_cases hM : M = 0
        · simp [evaluate, hi, hM] at hc
        · simp only [evaluate, hi, hM, and_self, if_true, if_false, Option.bind_some] at hc
          have := ih (inv_collect c h) hc
          simpa [records, hi, List.append_assoc] using this
      · by_cases hx : c.index < M
        · simp only [evaluate, hi, hx, and_false, if_true, if_false, Option.bind_some] at hc
          have := ih h hc
          simpa [records, hi] using this
        · simp [evaluate, hi, hx] at hc

theorem allFiles_ok {S : Store} {l : List Nat} (f : Nat → List (List ℝ) × List ℝ) (h : ∀ m ∈ l, files S m = some (f m)) :
    allFiles S l = some (l.map f) := by
  induction l with
  | nil => rfl
  | cons m ms ih =>
      have h1 := h m (by simp)
      have h2 := ih (fun k hk => h k (by simp [hk]))
      simp [allFiles, h1, h2]

theorem allFiles_none {S : Store} {l : List Nat} {m : Nat} (hm : m ∈ l) (h : files S m = none) : allFiles S l = none := by
  induction l with
  | nil => simp at hm
  | cons k ks ih =>
      simp only [allFiles]
      rcases List.mem_cons.mp hm with rfl | hk
      · simp [h]
      · rw [ih hk]
        cases files S k <;> simp

/-! ## C191 -/

/-- Part of C191: the label of a row is one exactly if the model is good enough for the row, and zero otherwise. -/
theorem C191_label {abstol reltol : ℝ} (ha : 0 < abstol) (hr : 0 < reltol) (M m : Nat) (c : Call) (e : Nat) :
    (label abstol reltol M m c e = 1 ↔ Good abstol reltol M m c e) ∧
      (label abstol reltol M m c e = 0 ↔ ¬ Good abstol reltol M m c e) := by
  have key : label abstol reltol M m c e = 1 ↔ Good abstol reltol M m c e := by
    have hE : error M m c e = Real.sqrt (∑ d ∈ Finset.range c.width, (c.res m e d - c.res (M - 1) e d) ^ 2) := by
      simp only [error, sum_range, pow_two]
    have hN : resnorm M c e = Real.sqrt (∑ d ∈ Finset.range c.width, c.res (M - 1) e d ^ 2) := by
      simp only [resnorm, sum_range, pow_two]
    have hE0 : (0 : ℝ) ≤ ∑ d ∈ Finset.range c.width, (c.res m e d - c.res (M - 1) e d) ^ 2 := by positivity
    have hN0 : (0 : ℝ) ≤ ∑ d ∈ Finset.range c.width, c.res (M - 1) e d ^ 2 := by positivity
    have hz : resnorm M c e = 0 ↔ ¬ ∃ d < c.width, c.res (M - 1) e d ≠ 0 := by
      rw [hN, Real.sqrt_eq_zero hN0, Finset.sum_eq_zero_iff_of_nonneg (fun d _ => by positivity)]
      push Not
      constructor
      · intro h d hd
        have := h d (Finset.mem_range.mpr hd)
        exact pow_eq_zero_iff (two_ne_zero) |>.mp this
      · intro h d hd
        rw [h d (Finset.mem_range.mp hd)]
        norm_num
    have h1 : error M m c e < abstol ↔ (∑ d ∈ Finset.range c.width, (c.res m e d - c.res (M - 1) e d) ^ 2) < abstol ^ 2 := by
      rw [hE, Real.sqrt_lt' ha]
    by_cases hn : resnorm M c e = 0
    · have hno := hz.mp hn
      unfold label Good
      rw [← h1]
      by_cases hlt : error M m c e < abstol
      · simp [hlt]
      · simp [hlt, relative, hn]
        intro d hd hne
        exact absurd ⟨d, hd, hne⟩ hno
    · have hyes : ∃ d < c.width, c.res (M - 1) e d ≠ 0 := by
        by_contra hh
        exact hn (hz.mpr hh)
      have hpos : 0 < resnorm M c e := lt_of_le_of_ne (by rw [hN]; exact Real.sqrt_nonneg _) (Ne.symm hn)
      have h2 : error M m c e / resnorm M c e < reltol ↔
          (∑ d ∈ Finset.range c.width, (c.res m e d - c.res (M - 1) e d) ^ 2) <
            reltol ^ 2 * ∑ d ∈ Finset.range c.width, c.res (M - 1) e d ^ 2 := by
        rw [div_lt_iff₀ hpos, hE, Real.sqrt_lt' (mul_pos hr hpos), mul_pow, hN, Real.sq_sqrt hN0]
      unfold label Good
      rw [← h1]
      by_cases hlt : error M m c e < abstol
      · simp [hlt]
      · simp only [hlt, if_false, relative, hn, false_or]
        rw [← h2]
        by_cases h3 : error M m c e / resnorm M c e < reltol
        · simp [h3, hyes]
        · simp [h3]
  refine ⟨key, ?_⟩
  rw [← key]
  rcases label_cases abstol reltol M m c e with h | h <;> simp [h]

/-- Part of C191: the features of a row hold, variable after variable, all values and then all time derivatives. -/
theorem C191_features (c : Call) (e v d : Nat) (hv : v < c.nvar) (hd : d < c.ndof) :
    (features c e).length = c.nvar * (2 * c.ndof) ∧
    (features c e)[v * (2 * c.ndof) + d]? = some (c.u e v d) ∧
    (features c e)[v * (2 * c.ndof) + c.ndof + d]? = some (c.udot e v d) := by
  have gen : ∀ n : Nat,
      ((List.range n).flatMap (fun v => (List.range c.ndof).map (c.u e v) ++ (List.range c.ndof).map (c.udot e v))).length
        = n * (2 * c.ndof) := by
    intro n
    induction n with
    | zero => simp
    | succ n ih => simp only [List.range_succ, List.flatMap_append, List.length_append, ih]; simp; ring
  have get : ∀ n : Nat, v < n → ∀ k, k < 2 * c.ndof →
      ((List.range n).flatMap (fun v => (List.range c.ndof).map (c.u e v) ++ (List.range c.ndof).map (c.udot e v)))[v * (2 * c.ndof) + k]?
        = ((List.range c.ndof).map (c.u e v) ++ (List.range c.ndof).map (c.udot e v))[k]? := by
    intro n
    induction n with
    | zero => intro h; omega
    | succ n ih =>
        intro h k hk
        rw [List.range_succ, List.flatMap_append]
        by_cases hvn : v < n
        · rw [List.getElem?_append_left]
          · exact ih hvn k hk
          · rw [gen]
            calc v * (2 * c.ndof) + k < v * (2 * c.ndof) + 2 * c.ndof := by omega
              _ = (v + 1) * (2 * c.ndof) := by ring
              _ ≤ n * (2 * c.ndof) := Nat.mul_le_mul_right _ hvn
        · have : v = n := by omega
          subst this
          rw [List.getElem?_append_right (by rw [gen]; omega), gen]
          simp
  refine ⟨gen _, ?_, ?_⟩
  · have := get c.nvar hv d (by omega)
    rw [features, this, List.getElem?_append_left (by simpa using hd)]
    simp [hd]
  · have := get c.nvar hv (c.ndof + d) (by omega)
    rw [features, Nat.add_assoc, this, List.getElem?_append_right (by simp)]
    simp [hd]

/-- C191, partial: after any calls the files of a model below the last, if written, hold one line of features and one label for each
row of each call after the first iteration, in the same order.  Missing: rows that are no elements of the group, and no or many models
(`C191_rows_violated`, `C191_nothing_violated`, `C191_many_violated`). -/
theorem C191_data_partial {abstol reltol : ℝ} {M : Nat} {cs : List Call} {S : Store}
    (hc : calls abstol reltol M true cs Store.empty = some S) {m : Nat} (hm : m < M - 1) (hr : records cs ≠ []) (h3 : m < 3) :
    files S m = some ((records cs).map (fun r => features r.1 r.2), (records cs).map (fun r => label abstol reltol M m r.1 r.2)) := by
  have h := inv_calls (abstol := abstol) (reltol := reltol) (rs := []) cs (S := Store.empty)
    (by simp [Inv, Store.empty]) hc
  simp only [List.nil_append] at h
  obtain ⟨h1, h2, h4⟩ := h
  have h1 := (h1.resolve_right (fun x => hr x.2)).2 m (by omega)
  have h2 := (h2.resolve_right (fun x => hr x.2)).2 m (by omega)
  have h4 := (h4.resolve_right (fun x => hr x.2)).2 m (by omega)
  simp only [hm, if_true] at h1 h2 h4
  simp [files, h1, h2, h4, h3, hr]

/-- Part of C191: while data is collected the residual after the first iteration is the one of the last model, whatever model the
group has; otherwise it is the one of the model of the group and no data is added. -/
theorem C191_residual {abstol reltol : ℝ} {M : Nat} {training : Bool} {c : Call} {S : Store} {r : Result}
    (h : evaluate abstol reltol M training c S = some r) :
    (training = true ∧ 0 < c.iter → r.res = c.res (M - 1)) ∧
    (¬ (training = true ∧ 0 < c.iter) → r.res = c.res c.index ∧ r.gradient = c.index ∧ r.store = S) := by
  unfold evaluate at h
  by_cases ht : training = true ∧ 0 < c.iter
  · rw [if_pos ht] at h
    by_cases hM : M = 0
    · simp [hM] at h
    · rw [if_neg hM] at h
      simp only [Option.some.injEq] at h
      subst h
      exact ⟨fun _ => rfl, fun x => absurd ht x⟩
  · rw [if_neg ht] at h
    by_cases hx : c.index < M
    · rw [if_pos hx] at h
      simp only [Option.some.injEq] at h
      subst h
      exact ⟨fun x => absurd x ht, fun _ => ⟨rfl, rfl, rfl⟩⟩
    · simp [hx] at h

/-- C191 is false for gradients: while data is collected from two or more models, the gradient left in the group is the one of the
last model but one, though the residual is the one of the last. -/
theorem C191_gradient_violated (abstol reltol : ℝ) (M : Nat) (hM : 1 < M) (c : Call) (hi : 0 < c.iter) (S : Store) :
    ∃ r, evaluate abstol reltol M true c S = some r ∧ r.res = c.res (M - 1) ∧ r.gradient ≠ M - 1 := by
  refine ⟨⟨c.res (M - 1), M - 2, collect abstol reltol M c S⟩, ?_, rfl, by simp; omega⟩
  simp [evaluate, hi, hM]
  omega

/-- C191 is false for groups smaller than the shared table of the block: a line is written for every row of the table, so that the
number of lines of a call is that of the rows. -/
theorem C191_rows_violated {abstol reltol : ℝ} {M : Nat} {c : Call} {S : Store} (n : Nat) (hn : n < c.rows) (hi : 0 < c.iter)
    (hM : 1 < M) (hc : calls abstol reltol M true [c] Store.empty = some S) :
    ∃ f, files S 0 = some f ∧ f.1.length = c.rows ∧ n < f.1.length ∧ f.2.length = f.1.length := by
  have hr : records [c] = (List.range c.rows).map (fun e => (c, e)) := by simp [records, hi]
  have hne : records [c] ≠ [] := by
    intro h
    have : ((List.range c.rows).map (fun e => (c, e))).length = 0 := by rw [← hr, h]; rfl
    simp at this
    omega
  refine ⟨_, C191_data_partial hc (by omega) hne (by omega), ?_⟩
  simp [hr, hn]

/-- Part of C191: the phases.  With `static subgrids: false` and no trained program given, data is collected during the first
`maxSteps` updates; the next one writes the files and ends the collection; from then on the trained program chooses. -/
theorem C191_phases {maxSteps M : Nat} {S : Store} {fs : List (List (List ℝ) × List ℝ)}
    (hf : allFiles S (List.range (M - 1)) = some fs) :
    (∀ k, k ≤ maxSteps → updates false maxSteps M S k (Phase.init false) = some ⟨k, false, true⟩) ∧
    update false maxSteps M S ⟨maxSteps, false, true⟩ = some (⟨maxSteps, true, false⟩, .write fs) ∧
    (∀ k, updates false maxSteps M S k ⟨maxSteps, true, false⟩ = some ⟨maxSteps, true, false⟩) ∧
    update false maxSteps M S ⟨maxSteps, true, false⟩ = some (⟨maxSteps, true, false⟩, .predict) := by
  have gen : ∀ k j, k + j ≤ maxSteps → updates false maxSteps M S k ⟨j, false, true⟩ = some ⟨j + k, false, true⟩ := by
    intro k
    induction k with
    | zero => intro j _; rfl
    | succ k ih =>
        intro j hj
        have : j < maxSteps := by omega
        simp only [updates, update, this, if_true, Bool.false_eq_true, if_false, Option.bind_some]
        rw [ih (j + 1) (by omega)]
        congr 2
        omega
  refine ⟨fun k hk => ?_, ?_, ?_, ?_⟩
  · have := gen k 0 (by omega)
    simpa [Phase.init] using this
  · simp [update, hf]
  · intro k
    induction k with
    | zero => rfl
    | succ k ih => simp [updates, update, ih]
  · simp [update]

/-- C191 is false with the option `have ML models: true`: data is collected for ever, so that after any number of updates every
residual after the first iteration is the one of the last model, whatever the trained program chooses. -/
theorem C191_given_violated (abstol reltol : ℝ) (maxSteps M : Nat) (S T : Store) (k : Nat) (c : Call) (hi : 0 < c.iter) (hM : 0 < M) :
    ∃ p, updates false maxSteps M S k (Phase.init true) = some p ∧
      ∃ r, evaluate abstol reltol M p.training c T = some r ∧ r.res = c.res (M - 1) := by
  have gen : ∀ k (p : Phase), p.have_ = true → p.training = true →
      ∃ q, updates false maxSteps M S k p = some q ∧ q.have_ = true ∧ q.training = true := by
    intro k
    induction k with
    | zero => intro p h1 h2; exact ⟨p, rfl, h1, h2⟩
    | succ k ih =>
        intro p h1 h2
        by_cases hs : p.steps < maxSteps
        · obtain ⟨q, hq⟩ := ih { p with steps := p.steps + 1 } h1 h2
          exact ⟨q, by simp [updates, update, hs, hq.1], hq.2⟩
        · obtain ⟨q, hq⟩ := ih p h1 h2
          exact ⟨q, by simp [updates, update, hs, h1, hq.1], hq.2⟩
  obtain ⟨p, hp, -, ht⟩ := gen k (Phase.init true) rfl rfl
  refine ⟨p, hp, ⟨c.res (M - 1), if 1 < M then M - 2 else M - 1, collect abstol reltol M c T⟩, ?_, rfl⟩
  have : M ≠ 0 := by omega
  simp [evaluate, ht, hi, this]

/-- C191 is false with static subgrids, which is what one gets without the option: no update ever counts, so that data is collected
for ever and nothing is written. -/
theorem C191_static_violated (maxSteps M : Nat) (S : Store) (k : Nat) (p : Phase) :
    updates true maxSteps M S k p = some p ∧ update true maxSteps M S p = some (p, .idle) := by
  refine ⟨?_, rfl⟩
  induction k with
  | zero => rfl
  | succ k ih => simp [updates, update, ih]

/-- C191 is false if nothing was collected, for instance if every step needs one iteration, or the process has no group with subgrid
models: the update after the last training step reads outside the tables. -/
theorem C191_nothing_violated {abstol reltol : ℝ} {M : Nat} (hM : 1 < M) {cs : List Call} {S : Store} (h0 : ∀ c ∈ cs, c.iter = 0)
    (hc : calls abstol reltol M true cs Store.empty = some S) (maxSteps : Nat) :
    update false maxSteps M S ⟨maxSteps, false, true⟩ = none := by
  have hS : S = Store.empty := by
    have gen : ∀ (cs : List Call), (∀ c ∈ cs, c.iter = 0) → ∀ S T : Store, calls abstol reltol M true cs S = some T → T = S := by
      intro cs
      induction cs with
      | nil => intro _ S T h; simpa [calls] using h.symm
      | cons c cs ih =>
          intro h0 S T h
          have hi := h0 c (by simp)
          by_cases hx : c.index < M
          · simp [calls, evaluate, hi, hx] at h
            exact ih (fun c hc => h0 c (by simp [hc])) S T h
          · simp [calls, evaluate, hi, hx] at h
    exact gen cs h0 _ _ hc
  have : allFiles S (List.range (M - 1)) = none :=
    allFiles_none (m := 0) (by simp; omega) (by simp [hS, files, Store.empty])
  simp [update, this]

/-- C191 is false for five or more models: there are three proportions only, and the fourth is read. -/
theorem C191_many_violated {M : Nat} (hM : 5 ≤ M) (S : Store) (maxSteps : Nat) :
    update false maxSteps M S ⟨maxSteps, false, true⟩ = none := by
  have hf : files S 3 = none := by
    unfold files
    cases S.extra[3]? <;> cases S.inputs[3]? <;> cases S.outputs[3]? <;> simp
  have : allFiles S (List.range (M - 1)) = none := allFiles_none (m := 3) (by simp; omega) hf
  simp [update, this]

/-- Part of C191: with two to four models and some data, the update after the last training step writes a pair of files for every
model but the last. -/
theorem C191_written {abstol reltol : ℝ} {M : Nat} {cs : List Call} {S : Store} (hM : M ≤ 4)
    (hc : calls abstol reltol M true cs Store.empty = some S) (hr : records cs ≠ []) (maxSteps : Nat) :
    update false maxSteps M S ⟨maxSteps, false, true⟩ = some (⟨maxSteps, true, false⟩,
      .write ((List.range (M - 1)).map (fun m => ((records cs).map (fun r => features r.1 r.2),
        (records cs).map (fun r => label abstol reltol M m r.1 r.2))))) := by
  have := allFiles_ok (S := S) (l := List.range (M - 1)) _
    (fun m hm => C191_data_partial hc (List.mem_range.mp hm) hr (by have := List.mem_range.mp hm; omega))
  simp [update, this]

/-! ## A case -/

/-- Two rows, one variable with one value, two models: the first model agrees with the last at row 0 only. [case] -/
def exCall : Call where
  rows := 2
  iter := 1
  index := 0
  nvar := 1
  ndof := 1
  u := fun e _ _ => if e = 0 then 5 else 6
  udot := fun _ _ _ => 7
  width := 1
  res := fun m e _ => if m = 0 ∧ e = 1 then 3 else 1

example : label (1 / 10) (1 / 10) 2 0 exCall 0 = 1 := by
  rw [(C191_label (by norm_num) (by norm_num) 2 0 exCall 0).1]
  left
  simp [exCall]

example : label (1 / 10) (1 / 10) 2 0 exCall 1 = 0 := by
  rw [(C191_label (by norm_num) (by norm_num) 2 0 exCall 1).2]
  simp [Good, exCall]
  norm_num

example : (features exCall 1)[0]? = some 6 ∧ (features exCall 1)[1]? = some 7 := by
  have := C191_features exCall 1 0 0 (by decide) (by decide)
  exact ⟨by simpa [exCall] using this.2.1, by simpa [exCall] using this.2.2⟩

/-- The hypotheses of `C191_data_partial` and `C191_written` hold. -/
example : ∃ S, calls (1 / 10) (1 / 10) 2 true [exCall] Store.empty = some S ∧ records [exCall] ≠ [] ∧
    ∃ f, files S 0 = some f ∧ f.1.length = 2 := by
  refine ⟨collect (1 / 10) (1 / 10) 2 exCall Store.empty, by simp [calls, evaluate, exCall], by simp [records, exCall, List.range_succ], ?_⟩
  obtain ⟨f, h1, h2, -⟩ := C191_rows_violated (abstol := 1 / 10) (reltol := 1 / 10) (M := 2) (c := exCall)
    (S := collect (1 / 10) (1 / 10) 2 exCall Store.empty) 1 (by decide) (by decide) (by decide) (by simp [calls, evaluate, exCall])
  exact ⟨f, h1, h2⟩

example : updates false 3 2 Store.empty 7 (Phase.init true) = some ⟨3, true, true⟩ := by
  simp [updates, update, Phase.init]

end MrHyDE.Multiscale.Training
