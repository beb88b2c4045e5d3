import Mathlib.Data.List.Basic
import Mathlib.Tactic.Ring

/-!
# Active parameters from a text file (C192)

`readExo+forward` can take the values of the active parameters from a text file, src/managers/analysis/analysisManager_util.hpp:191-243
(in builds with HDSA), before it solves the forward problem.  The file `final_params_.dat` of an optimisation has that form.
Words of the file are taken as a whole: a word is a number or is none; the number of levels fits an `int`.
-/

set_option linter.unusedSectionVars false
set_option linter.unusedSimpArgs false

namespace MrHyDE.Analysis.TextParams

variable {K : Type}

/-! ## Model -/

/-- A parameter: type (0 inactive, 1 active, 2 stochastic, 3 discrete) and values; a level is the list of the parameters.
src/managers/parameter/parameterManager_setup.hpp:50, 56-59, 156-163. -/
abbrev Level (K : Type) := List (Nat × List K)

/-- The values of the parameters of type `t` one after another, src/managers/parameter/parameterManager_access.hpp:188-197. -/
def valuesOf (t : Nat) : Level K → List K
  | [] => []
  | p :: ps => if p.1 = t then p.2 ++ valuesOf t ps else valuesOf t ps

/-- Assignment of new values to the parameters of type `t`, src/managers/parameter/parameterManager_update.hpp:201-208; `none`: outside
of the new values. -/
def assign (t : Nat) : Level K → List K → Option (Level K)
  | [], _ => some []
  | p :: ps, new =>
      if p.1 = t then
        if p.2.length ≤ new.length then (assign t ps (new.drop p.2.length)).map (fun r => (p.1, new.take p.2.length) :: r)
        else none
      else (assign t ps new).map (fun r => p :: r)

/-- `updateParams` by name of the type, src/managers/parameter/parameterManager_update.hpp:182-211: only one level is written, and
none if there is no such level (line 200). -/
def updateParams (dynamic : Bool) (timeIndex t : Nat) (ls : List (Level K)) (new : List K) : Option (List (Level K)) :=
  match ls[if dynamic then timeIndex else 0]? with
  | none => some ls
  | some l => (assign t l new).map (fun r => ls.set (if dynamic then timeIndex else 0) r)

/-- A stream: the words left (`none`: no number), and has an extraction failed; src/managers/analysis/analysisManager_util.hpp:198, 227. -/
structure Stream (K : Type) where
  words : List (Option K)
  failed : Bool

/-- `in >> val`, src/managers/analysis/analysisManager_util.hpp:209, 234, by the C++ standard: after a failure and at the end of the file the variable keeps its
value, a word that is no number makes it zero. -/
def extract [Zero K] (s : Stream K) (val : K) : Stream K × K :=
  if s.failed then (s, val)
  else match s.words with
    | [] => ({ s with failed := true }, val)
    | none :: _ => ({ s with failed := true }, 0)
    | some a :: ws => ({ s with words := ws }, a)

/-- `n` numbers one after another, with the same variable; src/managers/analysis/analysisManager_util.hpp:207-211, 232-236. -/
def take [Zero K] : Nat → Stream K → K → List K × Stream K × K
  | 0, s, val => ([], s, val)
  | n + 1, s, val =>
      let e := extract s val
      let r := take n e.1 e.2
      (e.2 :: r.1, r.2)

/-- The loop over the levels with parameters that change in time, src/managers/analysis/analysisManager_util.hpp:203-214. -/
def levels [Zero K] (n : Nat) : List Nat → Stream K → K → List (Level K) → Option (List (Level K))
  | [], _, _, ls => some ls
  | i :: is, s, val, ls =>
      let r := take n s val
      (updateParams true i 1 ls r.1).bind (levels n is r.2.1 r.2.2)

/-- `getCurrentVector().dimension()`: the unknowns of the fields and the active values of all levels;
src/managers/parameter/parameterManager_access.hpp:148-171, 186-200, src/optimization/MrHyDE_OptVector.hpp:1316-1329. -/
def dimension (fields : Nat) (ls : List (Level K)) : Nat := fields + (ls.map (fun l => (valuesOf 1 l).length)).sum

/-- The branch of the text file, src/managers/analysis/analysisManager_util.hpp:191-243.  `active` is the number of active values (`getNumParams("active")`,
parameterManager_access.hpp:36-37), `fields` the dimension of the fields; no file is a message only, and without changes in time
the zeros of line 229 are assigned.  The outer `none`: division by zero in line 196, or outside of a list. -/
def readText [Zero K] (dynamic : Bool) (active fields : Nat) (file : Option (List (Option K))) (ls : List (Level K)) :
    Option (List (Level K)) :=
  if dynamic then
    if active = 0 then none
    else match file with
      | none => some ls
      | some ws => levels active (List.range (dimension fields ls / active)) ⟨ws, false⟩ 0 ls
  else match file with
    | none => updateParams false 0 1 ls (List.replicate (dimension fields ls) 0)
    | some ws => updateParams false 0 1 ls (take (dimension fields ls) ⟨ws, false⟩ 0).1

/-- The scalar part of `final_params_.dat`: level after level the active values;
src/managers/analysis/analysisManager_solve.hpp:941-945, src/optimization/MrHyDE_OptVector.hpp:1358-1364 (process 0; the print of a
vector of ROL writes the numbers one after another with blanks; rounding to 16 digits is left out). -/
def print (ls : List (Level K)) : List (Option K) := ls.flatMap (fun l => (valuesOf 1 l).map some)

/-! ## Specification -/

/-- All but the values of the active parameters: types, sizes and the values of the others. [specification, no code] -/
def frame (l : Level K) : List (Nat × Nat × Option (List K)) :=
  l.map (fun p => (p.1, p.2.length, if p.1 = 1 then none else some p.2))

/-- Every level has `n` active values. [specification, no code] -/
def Uniform (n : Nat) (ls : List (Level K)) : Prop := ∀ l ∈ ls, (valuesOf 1 l).length = n

/-- Level `r` is level `l` with new active values `new`. [specification, no code] -/
def Becomes (l r : Level K) (new : List K) : Prop := valuesOf 1 r = new ∧ frame r = frame l

/-! ## Lemmas -/

theorem assign_becomes (l : Level K) (new : List K) (h : (valuesOf 1 l).length ≤ new.length) :
    ∃ r, assign 1 l new = some r ∧ Becomes l r (new.take (valuesOf 1 l).length) := by
  induction l generalizing new with
  | nil => exact ⟨[], rfl, by simp [valuesOf, Becomes]⟩
  | cons p ps ih =>
      by_cases hp : p.1 = 1
      · have hv : valuesOf 1 (p :: ps) = p.2 ++ valuesOf 1 ps := by simp [valuesOf, hp]
        rw [hv, List.length_append] at h
        obtain ⟨r, h1, h2, h3⟩ := ih (new.drop p.2.length) (by rw [List.length_drop]; omega)
        have hle : p.2.length ≤ new.length := by omega
        refine ⟨(p.1, new.take p.2.length) :: r, by simp [assign, hp, hle, h1], ?_, ?_⟩
        · rw [hv, List.length_append]
          simp only [valuesOf, hp, if_true, h2]
          rw [List.take_add]
        · simp only [frame, List.map_cons] at h3 ⊢
          rw [h3]
          simp [hp, hle]
      · have hv : valuesOf 1 (p :: ps) = valuesOf 1 ps := by simp [valuesOf, hp]
        rw [hv] at h
        obtain ⟨r, h1, h2, h3⟩ := ih new h
        refine ⟨p :: r, by simp [assign, hp, h1], ?_, ?_⟩
        · rw [hv]
          simpa [valuesOf, hp] using h2
        · simp only [frame, List.map_cons] at h3 ⊢
          rw [h3]

theorem take_length [Zero K] (n : Nat) (s : Stream K) (val : K) : (take n s val).1.length = n := by
  induction n generalizing s val with
  | zero => rfl
  | succ n ih => simp [take, ih]

theorem take_failed [Zero K] (n : Nat) (ws : List (Option K)) (val : K) :
    take n ⟨ws, true⟩ val = (List.replicate n val, ⟨ws, true⟩, val) := by
  induction n with
  | zero => rfl
  | succ n ih => simp [take, extract, ih, List.replicate_succ]

/-- Enough numbers: they are taken in order and the rest is left. -/
theorem take_numbers [Zero K] (w : List K) (rest : List (Option K)) (val : K) :
    take w.length ⟨w.map some ++ rest, false⟩ val = (w, ⟨rest, false⟩, w.getLastD val) := by
  induction w generalizing val with
  | nil => rfl
  | cons a w ih =>
      have := ih a
      simp only [List.length_cons, List.map_cons, List.cons_append, take, extract, Bool.false_eq_true, if_false, this]
      cases w <;> simp [List.getLastD]

theorem take_enough [Zero K] (n : Nat) (w : List K) (rest : List (Option K)) (val : K) (h : n ≤ w.length) :
    ∃ v, take n ⟨w.map some ++ rest, false⟩ val = (w.take n, ⟨(w.drop n).map some ++ rest, false⟩, v) := by
  have := take_numbers (w.take n) ((w.drop n).map some ++ rest) val
  rw [← List.append_assoc, ← List.map_append, List.take_append_drop, List.length_take, Nat.min_eq_left h] at this
  exact ⟨_, this⟩

theorem take_add [Zero K] (n m : Nat) (s : Stream K) (val : K) :
    (take (n + m) s val).1 = (take n s val).1 ++ (take m (take n s val).2.1 (take n s val).2.2).1 := by
  induction n generalizing s val with
  | zero => simp [take]
  | succ n ih =>
      have : n + 1 + m = (n + m) + 1 := by omega
      rw [this]
      simp [take, ih]

/-- The loop over levels whose numbers are at or after the end of the list changes nothing. -/
theorem levels_beyond [Zero K] (n : Nat) (is : List Nat) (s : Stream K) (val : K) (ls : List (Level K)) (h : ∀ i ∈ is, ls.length ≤ i) :
    levels n is s val ls = some ls := by
  induction is generalizing s val with
  | nil => rfl
  | cons i is ih =>
      have hi : ls[i]? = none := List.getElem?_eq_none (h i (by simp))
      simp [levels, updateParams, hi, ih _ _ (fun j hj => h j (by simp [hj]))]

theorem levels_append [Zero K] (n : Nat) (is js : List Nat) (s : Stream K) (val : K) (ls : List (Level K)) :
    ∃ s' val', levels n (is ++ js) s val ls = (levels n is s val ls).bind (levels n js s' val') := by
  induction is generalizing s val ls with
  | nil => exact ⟨s, val, rfl⟩
  | cons i is ih =>
      cases hu : updateParams true i 1 ls (take n s val).1 with
      | none => exact ⟨s, val, by simp [levels, hu]⟩
      | some ls' =>
          obtain ⟨s', v', h⟩ := ih (take n s val).2.1 (take n s val).2.2 ls'
          exact ⟨s', v', by simp [levels, hu, h]⟩

/-- The loop over the levels `from .. from + k - 1`. -/
theorem levels_run [Zero K] (n : Nat) (k start : Nat) (w : List K) (rest : List (Option K)) (val : K) (ls : List (Level K))
    (hu : Uniform n ls) (hk : start + k ≤ ls.length) (hw : k * n ≤ w.length) :
    ∃ rs, levels n (List.range' start k) ⟨w.map some ++ rest, false⟩ val ls = some rs ∧ rs.length = ls.length ∧ Uniform n rs ∧
      ∀ i l, ls[i]? = some l → ∃ r, rs[i]? = some r ∧
        if start ≤ i ∧ i < start + k then Becomes l r ((w.drop ((i - start) * n)).take n) else r = l := by
  induction k generalizing start w val ls with
  | zero =>
      refine ⟨ls, rfl, rfl, hu, fun i l h => ⟨l, h, ?_⟩⟩
      rw [if_neg (by omega)]
  | succ k ih =>
      have hn : n ≤ w.length := by
        have : (k + 1) * n = k * n + n := by ring
        omega
      obtain ⟨v, hv⟩ := take_enough n w rest val hn
      have hlt : start < ls.length := by omega
      have hget : ls[start]? = some ls[start] := List.getElem?_eq_getElem hlt
      have hlen : (valuesOf 1 ls[start]).length = n := hu _ (List.getElem_mem hlt)
      obtain ⟨r0, h1, h2⟩ := assign_becomes ls[start] (w.take n) (by rw [hlen, List.length_take]; omega)
      rw [hlen, List.take_take, Nat.min_self] at h2
      have hupd : updateParams true start 1 ls (w.take n) = some (ls.set start r0) := by
        simp [updateParams, hget, h1]
      have hu' : Uniform n (ls.set start r0) := by
        intro l hl
        rcases List.mem_or_eq_of_mem_set hl with h | h
        · exact hu l h
        · rw [h, h2.1, List.length_take]
          omega
      obtain ⟨rs, g1, g2, g3, g4⟩ := ih (start + 1) (w.drop n) v (ls.set start r0) hu' (by rw [List.length_set]; omega)
        (by rw [List.length_drop]; have : (k + 1) * n = k * n + n := by ring
            omega)
      refine ⟨rs, ?_, by rw [g2, List.length_set], g3, ?_⟩
      · simp only [List.range'_succ, levels, hv, hupd, Option.bind_some, g1]
      · intro i l hl
        by_cases his : i = start
        · subst his
          obtain ⟨r, e1, e2⟩ := g4 i r0 (by rw [List.getElem?_set_self hlt])
          rw [if_neg (by omega)] at e2
          refine ⟨r, e1, ?_⟩
          rw [if_pos (by omega), e2]
          have : l = ls[i] := by rw [hget] at hl; exact (Option.some.inj hl).symm
          rw [this]
          simpa using h2
        · obtain ⟨r, e1, e2⟩ := g4 i l (by rw [List.getElem?_set_ne (by omega)]; exact hl)
          refine ⟨r, e1, ?_⟩
          by_cases hr : start ≤ i ∧ i < start + (k + 1)
          · rw [if_pos (by omega)] at e2
            rw [if_pos hr]
            rw [List.drop_drop] at e2
            have : n + (i - (start + 1)) * n = (i - start) * n := by
              have : i - start = (i - (start + 1)) + 1 := by omega
              rw [this]
              ring
            rwa [this] at e2
          · rw [if_neg (by omega)] at e2
            rw [if_neg hr]
            exact e2

theorem dimension_uniform {n fields : Nat} {ls : List (Level K)} (hu : Uniform n ls) : dimension fields ls = fields + ls.length * n := by
  unfold dimension
  congr 1
  induction ls with
  | nil => simp
  | cons l ls ih =>
      have h1 := hu l (by simp)
      have h2 := ih (fun x hx => hu x (by simp [hx]))
      simp only [List.map_cons, List.sum_cons, h1, h2, List.length_cons]
      ring

/-! ## C192 -/

/-- C192, partial, parameters that change in time: from a file with enough numbers level `i` gets its active values from the places
`i * active` on, in the order of the parameters; sizes and all other parameters are kept, however large the fields are.  Missing: files
with fewer numbers or other words (`C192_short_violated`, `C192_word_violated`). -/
theorem C192_dynamic_partial [Zero K] {active fields : Nat} (ha : 0 < active) {ls : List (Level K)} (hu : Uniform active ls)
    (w : List K) (rest : List (Option K)) (hw : ls.length * active ≤ w.length) :
    ∃ rs, readText true active fields (some (w.map some ++ rest)) ls = some rs ∧ rs.length = ls.length ∧
      ∀ i l, ls[i]? = some l → ∃ r, rs[i]? = some r ∧ Becomes l r ((w.drop (i * active)).take active) := by
  obtain ⟨q, hq⟩ : ∃ q, dimension fields ls / active = ls.length + q := by
    refine ⟨fields / active, ?_⟩
    rw [dimension_uniform hu, Nat.add_mul_div_right _ _ ha]
    omega
  have hr : List.range (ls.length + q) = List.range' 0 ls.length ++ List.range' ls.length q := by
    have := List.range'_append (s := 0) (m := ls.length) (n := q) (step := 1)
    rw [List.range_eq_range', ← this]
    simp
  obtain ⟨rs, h1, h2, h3, h4⟩ := levels_run active ls.length 0 w rest 0 ls hu (by omega) hw
  obtain ⟨s', v', h5⟩ := levels_append active (List.range' 0 ls.length) (List.range' ls.length q) ⟨w.map some ++ rest, false⟩ 0 ls
  have h6 : levels active (List.range' ls.length q) s' v' rs = some rs :=
    levels_beyond _ _ _ _ _ (fun i hi => by rw [h2]; exact (List.mem_range'_1.mp hi).1)
  refine ⟨rs, ?_, h2, ?_⟩
  · have hne : active ≠ 0 := by omega
    simp only [readText, if_true, hne, if_false, hq, hr, h5, h1, Option.bind_some, h6]
  · intro i l hl
    obtain ⟨r, e1, e2⟩ := h4 i l hl
    have hi : i < ls.length := by
      by_contra hc
      rw [List.getElem?_eq_none (by omega)] at hl
      simp at hl
    rw [if_pos (by omega)] at e2
    exact ⟨r, e1, by simpa using e2⟩

/-- C192, partial, parameters that do not change in time: the active values are the first numbers of the file. -/
theorem C192_static_partial [Zero K] {active fields : Nat} {l : Level K} (hl : (valuesOf 1 l).length = active) (w : List K)
    (rest : List (Option K)) (hw : active ≤ w.length) :
    ∃ r, readText false active fields (some (w.map some ++ rest)) [l] = some [r] ∧ Becomes l r (w.take active) := by
  have hd : dimension fields [l] = active + fields := by simp [dimension, hl]; omega
  have hv : (take (active + fields) ⟨w.map some ++ rest, false⟩ (0 : K)).1.take active = w.take active := by
    rw [take_add]
    obtain ⟨v, h⟩ := take_enough active w rest 0 hw
    rw [h]
    rw [List.take_append_of_le_length (by rw [List.length_take]; omega), List.take_take, Nat.min_self]
  obtain ⟨r, h1, h2⟩ := assign_becomes l (take (active + fields) ⟨w.map some ++ rest, false⟩ (0 : K)).1
    (by rw [take_length, hl]; omega)
  rw [hl, hv] at h2
  exact ⟨r, by simp [readText, updateParams, hd, h1], h2⟩

/-- Part of C192: the file an optimisation without fields writes, read in a run with the same parameters, gives every level the active
values of the optimisation. -/
theorem C192_roundtrip [Zero K] {active : Nat} (ha : 0 < active) {xs ls : List (Level K)} (hx : Uniform active xs)
    (hu : Uniform active ls) (hlen : xs.length = ls.length) :
    ∃ rs, readText true active 0 (some (print xs)) ls = some rs ∧ rs.length = ls.length ∧
      ∀ (i : Nat) (x l : Level K), xs[i]? = some x → ls[i]? = some l → ∃ r, rs[i]? = some r ∧ Becomes l r (valuesOf 1 x) := by
  have hp : print xs = (xs.flatMap (valuesOf 1)).map some := by
    induction xs generalizing ls with
    | nil => rfl
    | cons x xs ih =>
        have := @ih ls.tail (fun y hy => hx y (by simp [hy])) (fun y hy => hu y (List.mem_of_mem_tail hy))
          (by rw [List.length_tail, ← hlen]; simp)
        simp only [print] at this ⊢
        simp [this]
  have hl : ∀ xs : List (Level K), Uniform active xs → (xs.flatMap (valuesOf 1)).length = xs.length * active := by
    intro xs hx
    induction xs with
    | nil => simp
    | cons x xs ih =>
        have h1 := hx x (by simp)
        have h2 := ih (fun y hy => hx y (by simp [hy]))
        simp only [List.flatMap_cons, List.length_append, h1, h2, List.length_cons]
        ring
  have hs : ∀ (xs : List (Level K)), Uniform active xs → ∀ i x, xs[i]? = some x →
      ((xs.flatMap (valuesOf 1)).drop (i * active)).take active = valuesOf 1 x := by
    intro xs hx
    induction xs with
    | nil => intro i x h; simp at h
    | cons y ys ih =>
        intro i x h
        have h1 := hx y (by simp)
        cases i with
        | zero =>
            simp only [List.getElem?_cons_zero, Option.some.injEq] at h
            subst h
            rw [List.flatMap_cons, Nat.zero_mul, List.drop_zero, ← h1, List.take_left]
        | succ i =>
            have : (i + 1) * active = (valuesOf 1 y).length + i * active := by rw [h1]; ring
            rw [List.flatMap_cons, this, List.drop_length_add_append]
            exact ih (fun z hz => hx z (by simp [hz])) i x (by simpa using h)
  obtain ⟨rs, h1, h2, h3⟩ := C192_dynamic_partial (fields := 0) ha hu (xs.flatMap (valuesOf 1)) []
    (by rw [hl xs hx, hlen])
  rw [List.append_nil, ← hp] at h1
  refine ⟨rs, h1, h2, fun i x l hxi hli => ?_⟩
  obtain ⟨r, e1, e2⟩ := h3 i l hli
  rw [hs xs hx i x hxi] at e2
  exact ⟨r, e1, e2⟩

/-- C192 is false for a file with too few numbers: the active values that are missing silently get the last number of the file (zero
for an empty file). -/
theorem C192_short_violated [Zero K] {active fields : Nat} {l : Level K} (hl : (valuesOf 1 l).length = active) (w : List K)
    (hw : w.length ≤ active) :
    ∃ r, readText false active fields (some (w.map some)) [l] = some [r] ∧
      Becomes l r (w ++ List.replicate (active - w.length) (w.getLastD 0)) := by
  have hd : dimension fields [l] = active + fields := by simp [dimension, hl]; omega
  have h0 : ∀ (m : Nat) (v : K), (take m ⟨[], false⟩ v).1 = List.replicate m v := by
    intro m v
    cases m with
    | zero => rfl
    | succ m => simp [take, extract, take_failed, List.replicate_succ]
  have hv : (take (active + fields) ⟨w.map some, false⟩ (0 : K)).1 = w ++ List.replicate (active + fields - w.length) (w.getLastD 0) := by
    obtain ⟨m, hm⟩ : ∃ m, active + fields = w.length + m := ⟨active + fields - w.length, by omega⟩
    rw [hm, take_add]
    have := take_numbers w [] (0 : K)
    rw [List.append_nil] at this
    rw [this, h0]
    congr 2
    omega
  obtain ⟨r, h1, h2⟩ := assign_becomes l (take (active + fields) ⟨w.map some, false⟩ (0 : K)).1
    (by rw [take_length, hl]; omega)
  refine ⟨r, by simp [readText, updateParams, hd, h1], ?_⟩
  rw [hv, hl, List.take_append, List.take_of_length_le hw, List.take_replicate] at h2
  have : min (active - w.length) (active + fields - w.length) = active - w.length := by omega
  rwa [this] at h2

/-- C192 is false for a file that starts with a word that is no number: all active values become zero. -/
theorem C192_word_violated [Zero K] {active fields : Nat} {l : Level K} (hl : (valuesOf 1 l).length = active) (ws : List (Option K)) :
    ∃ r, readText false active fields (some (none :: ws)) [l] = some [r] ∧ Becomes l r (List.replicate active 0) := by
  have hd : dimension fields [l] = active + fields := by simp [dimension, hl]; omega
  have hv : ∀ n : Nat, (take n ⟨none :: ws, false⟩ (0 : K)).1 = List.replicate n 0 := by
    intro n
    cases n with
    | zero => rfl
    | succ n => simp [take, extract, take_failed, List.replicate_succ]
  obtain ⟨r, h1, h2⟩ := assign_becomes l (take (active + fields) ⟨none :: ws, false⟩ (0 : K)).1
    (by rw [take_length, hl]; omega)
  refine ⟨r, by simp [readText, updateParams, hd, h1], ?_⟩
  rw [hv, hl, List.take_replicate, Nat.min_eq_left (by omega)] at h2
  exact h2

/-- C192 is false without the file: for parameters that do not change in time all active values become zero, while those that change in
time are kept. -/
theorem C192_missing_violated [Zero K] {active fields : Nat} {l : Level K} (hl : (valuesOf 1 l).length = active) :
    (∃ r, readText false active fields none [l] = some [r] ∧ Becomes l r (List.replicate active 0)) ∧
    (0 < active → ∀ ls : List (Level K), readText true active fields none ls = some ls) := by
  have hd : dimension fields [l] = active + fields := by simp [dimension, hl]; omega
  refine ⟨?_, fun ha ls => ?_⟩
  · obtain ⟨r, h1, h2⟩ := assign_becomes l (List.replicate (active + fields) (0 : K)) (by rw [List.length_replicate, hl]; omega)
    refine ⟨r, by simp [readText, updateParams, hd, h1], ?_⟩
    rw [hl, List.take_replicate, Nat.min_eq_left (by omega)] at h2
    exact h2
  · have : active ≠ 0 := by omega
    simp [readText, this]

/-! ## A case -/

/-- An inactive parameter and two active ones, one with two values. [case] -/
def exLevel (a b c : Int) : Level Int := [(1, [a]), (0, [9]), (1, [b, c])]

example : readText true 3 4 (some [some 1, some 2, some 3, some 4, some 5, some 6]) [exLevel 0 0 0, exLevel 0 0 0] =
    some [exLevel 1 2 3, exLevel 4 5 6] := by decide +kernel

/-- The hypotheses of the theorems hold. -/
example : Uniform 3 [exLevel 0 0 0, exLevel 0 0 0] ∧ (valuesOf 1 (exLevel 0 0 0)).length = 3 ∧
    readText false 3 0 (some [some 1, some 2]) [exLevel 7 7 7] = some [exLevel 1 2 2] := by
  refine ⟨?_, by decide, by decide +kernel⟩
  intro l hl
  have : l = exLevel 0 0 0 := by simpa using hl
  rw [this]
  decide

example : readText false 3 2 (some [none, some 2, some 3]) [exLevel 7 7 7] = some [exLevel 0 0 0] ∧
    readText false 3 2 none [exLevel 7 7 7] = some [exLevel 0 0 0] ∧
    readText true 3 2 none [exLevel 7 7 7] = some [exLevel 7 7 7] := by decide +kernel

example : print [exLevel 1 2 3, exLevel 4 5 6] = [some 1, some 2, some 3, some 4, some 5, some 6] := by decide

end MrHyDE.Analysis.TextParams
