import Mathlib.Data.Int.Log
import Mathlib.Algebra.Order.Round
import Mathlib.Data.Rat.Floor
import Mathlib.Tactic.Linarith
import Mathlib.Tactic.Positivity
import Mathlib.Tactic.FieldSimp
import Mathlib.Tactic.Ring
import Verif.Param.Props

/-!
# Parameters and gradients on files

`AnalysisManager::run`, `recoverParametersFromFile`, `writeOptVectorToFile`
(src/managers/analysis/analysisManager_solve.hpp), `getCurrentVector`
(src/managers/parameter/parameterManager_access.hpp), `updateParams`
(src/managers/parameter/parameterManager_update.hpp), `writeVectorToFile`, `readParameterVectorFromFile`
(src/interfaces/linear_algebra/linearAlgebraInterface_util.hpp).

A text file is a list of lines, a line a list of words (white space only separates).  The library's files of dense
vectors keep one value for each entry.  Process 0 is followed; a field is the global vector.  `none` is an
exception or undefined behaviour.
-/

namespace MrHyDE.Analysis

set_option linter.unusedSectionVars false

/-! ## Model -/

/-- The content of a file: text, or a dense vector in the library's format. [written at
src/managers/analysis/analysisManager_solve.hpp:1419-1478, linearAlgebraInterface_util.hpp:352-356] -/
inductive Content (K W : Type) where
  | text (lines : List (List W))
  | dense (v : List K)
deriving DecidableEq

/-- The files in the directory of the run. [names built at analysisManager_solve.hpp:1331, 1349, 1383, 1391, 1422,
1438, 1466, 1474] -/
abbrev Disk (K W : Type) := String → Option (Content K W)

/-- Opening an `ofstream` on a name replaces the file. [analysisManager_solve.hpp:1424, 1440] -/
def Disk.put {K W : Type} (d : Disk K W) (name : String) (c : Content K W) : Disk K W :=
  fun n => if n = name then some c else d n

/-- Numbers and words: `prt` is `<<` with `precision(12)` (analysisManager_solve.hpp:1428, 1444), `parse` is `>>`
(1340, 1358), `lib` the effect on a value of being written and read by the library's matrix market writer and reader
(linearAlgebraInterface_util.hpp:345, 355, 365, 376). -/
structure Words (K W : Type) where
  prt : K → W
  parse : W → Option K
  lib : K → K

/-- Name of the file of the scalar parameters of time level `t`, analysisManager_solve.hpp:1331, 1349 (level 0),
1422, 1438. -/
def scalarName (base : String) (t : Nat) : String := base ++ ".scalar." ++ toString t ++ ".dat"

/-- Name of the file of the field parameters of time level `t`, analysisManager_solve.hpp:1383, 1391, 1466, 1474. -/
def fieldName (base : String) (t : Nat) : String := base ++ ".field." ++ toString t ++ ".mm"

variable {K W : Type}

/-- One file of scalars: one number on each line, analysisManager_solve.hpp:1424-1433, 1440-1449. -/
def scalarText (w : Words K W) (v : List K) : Content K W := .text (v.map fun x => [w.prt x])

/-- Writing a list of vectors, one file for each, the first with level `t`: the loops at
analysisManager_solve.hpp:1419-1434, 1463-1470. -/
def putFrom (name : Nat → String) (c : List K → Content K W) : Nat → List (List K) → Disk K W → Disk K W
  | _, [], d => d
  | t, v :: vs, d => putFrom name c (t + 1) vs (d.put (name t) (c v))

/-- Both branches of one half of `writeOptVectorToFile`, analysisManager_solve.hpp:1416-1451, 1460-1480: no vector:
nothing; more than one (`have_dynamic`, MrHyDE_OptVector.hpp:72-103): the loop; one: level 0. -/
def putAll (name : Nat → String) (c : List K → Content K W) (vs : List (List K)) (d : Disk K W) : Disk K W :=
  match vs with
  | [] => d
  | [v] => d.put (name 0) (c v)
  | _ => putFrom name c 0 vs d

/-- `writeOptVectorToFile` for scalars `v.1` and fields `v.2`, analysisManager_solve.hpp:1406-1482 (on process 0). -/
def writeOpt (w : Words K W) (base : String) (v : List (List K) × List (List K)) (d : Disk K W) : Disk K W :=
  putAll (fieldName base) (fun f => .dense (f.map w.lib)) v.2
    (putAll (scalarName base) (scalarText w) v.1 d)

/-- `while (fin >> number)`: the numbers up to the first word that is none, analysisManager_solve.hpp:1338-1343,
1356-1361. -/
def numbers (w : Words K W) : List W → List K
  | [] => []
  | x :: xs => match w.parse x with
    | none => []
    | some v => v :: numbers w xs

/-- One file of scalars, analysisManager_solve.hpp:1333-1344, 1351-1362; the exception if there is no such file.  A
file in the other format is not considered. -/
def readScalar (w : Words K W) (d : Disk K W) (name : String) : Option (List K) :=
  match d name with
  | some (.text lines) => some (numbers w lines.flatten)
  | _ => none

/-- `readParameterVectorFromFile` with the map of `m` entries, linearAlgebraInterface_util.hpp:362-368; the library
throws if the file is missing or the lengths differ. -/
def readField (m : Nat) (d : Disk K W) (name : String) : Option (List K) :=
  match d name with
  | some (.dense v) => if v.length = m then some v else none
  | _ => none

/-- One half of `recoverParametersFromFile`: `n` vectors in the current vector, analysisManager_solve.hpp:1325-1364,
1377-1396: the loop for more than one, level 0 for one, nothing for none. -/
def readAll (rd : String → Option (List K)) (name : Nat → String) (n : Nat) : Option (List (List K)) :=
  if n = 0 then some []
  else if n > 1 then (List.range n).mapM (fun t => rd (name t))
  else (rd (name 0)).map ([·])

/-- `recoverParametersFromFile`, analysisManager_solve.hpp:1309-1401; `nS`, `nF` are the numbers of scalar and field
vectors in the current vector. -/
def readOpt (w : Words K W) (base : String) (nS nF m : Nat) (d : Disk K W) : Option (List (List K) × List (List K)) := do
  let s ← readAll (readScalar w d) (scalarName base) nS
  let f ← readAll (readField m d) (fieldName base) nF
  return (s, f)

/-- The members of the parameter manager the two functions use: the table of scalar parameters, the counts
`num_active_params` and `globalParamUnknowns`, and `discretized_params`. [parameterManager_access.hpp:148-171] -/
structure Params (K : Type) where
  table : Param.Table K
  nact : Nat
  nglob : Nat
  disc : List (List K)
deriving DecidableEq

/-- `getCurrentVector`, parameterManager_access.hpp:148-171. -/
def current (p : Params K) : Option (List (List K) × List (List K)) := do
  let s ← if p.nact > 0 then Param.getAll p.table 1 else some []
  return (s, if p.nglob > 0 then p.disc else [])

/-- The field part of `updateParams(MrHyDE_OptVector)`, parameterManager_update.hpp:50-60: an index past the end is
undefined behaviour. -/
def updateFields (disc news : List (List K)) : Option (List (List K)) :=
  if news.length ≤ disc.length then some (news ++ disc.drop news.length) else none

/-- `updateParams(MrHyDE_OptVector)`, parameterManager_update.hpp:25-62. -/
def update (p : Params K) (v : List (List K) × List (List K)) : Option (Params K) :=
  (if v.1.length > 0 then Param.updateOpt p.table v.1 else some p.table).bind fun T =>
  (if v.2.length > 0 then updateFields p.disc v.2 else some p.disc).bind fun f =>
  some { p with table := T, disc := f }

/-- The settings of `run` about files, analysisManager_solve.hpp:29, 62-64, 71-73, 119-121, 1312, with their
defaults. -/
structure FileSettings where
  readParams : Bool := false
  recoveryFile : String := "params"
  writeParams : Bool := false
  storageFile : String := "params"
  writeGrad : Bool := false
  gradFile : String := "grad"

/-- The beginning of `run`, analysisManager_solve.hpp:28-33. -/
def begin_ (w : Words K W) (o : FileSettings) (p : Params K) (d : Disk K W) : Option (Params K) :=
  if o.readParams then do
    let c ← current p
    let v ← readOpt w o.recoveryFile c.1.length c.2.length p.nglob d
    update p v
  else some p

/-- The end of an adjoint analysis, analysisManager_solve.hpp:61-66, 70-75. -/
def writeGradient (w : Words K W) (o : FileSettings) (g : Option (List (List K) × List (List K))) (d : Disk K W) :
    Disk K W :=
  match g with
  | none => d
  | some v => if o.writeGrad then writeOpt w o.gradFile v d else d

/-- The end of `run`, analysisManager_solve.hpp:117-124. -/
def finish (w : Words K W) (o : FileSettings) (p : Params K) (d : Disk K W) : Option (Disk K W) :=
  if o.writeParams then do
    let c ← current p
    return writeOpt w o.storageFile c d
  else some d

/-- `run`, analysisManager_solve.hpp:26-126, for an analysis that maps the parameters to new parameters and, for the
adjoint analyses, a gradient. -/
def run (w : Words K W) (o : FileSettings)
    (analysis : Params K → Option (Params K × Option (List (List K) × List (List K)))) (p : Params K) (d : Disk K W) :
    Option (Params K × Disk K W) := do
  let p₁ ← begin_ w o p d
  let r ← analysis p₁
  let d' ← finish w o r.1 (writeGradient w o r.2 d)
  return (r.1, d')

/-- The number written by `<<` with twelve digits: significant digits and exponent of ten (zero is `0`).  The digits
are those of the nearest number with twelve digits; ties are decided upwards here, the library decides them by the
rounding mode. [precision(12) at src/managers/analysis/analysisManager_solve.hpp:1428, 1444] -/
def prt12 (x : ℚ) : ℤ × ℤ :=
  if x = 0 then (0, 0)
  else (round (x / (10 : ℚ) ^ (Int.log 10 |x| - 11)), Int.log 10 |x| - 11)

/-- The value of a written number, analysisManager_solve.hpp:1340, 1358. -/
def parse10 (q : ℤ × ℤ) : Option ℚ := some (q.1 * (10 : ℚ) ^ q.2)

/-- Numbers with twelve digits; the library's files keep rationals. [analysisManager_solve.hpp:1428, 1444] -/
def words12 : Words ℚ (ℤ × ℤ) := ⟨prt12, parse10, id⟩

/-! ## Specification -/

/-- What a value becomes by being written and read: `rd`. [specification, no code] -/
def Reads (w : Words K W) (rd : K → K) : Prop := ∀ x, w.parse (w.prt x) = some (rd x)

/-- `y` has at most twelve significant decimal digits. [specification, no code] -/
def Twelve (y : ℚ) : Prop := ∃ m k : ℤ, |m| < 10 ^ 12 ∧ y = m * (10 : ℚ) ^ k

/-! ## Names -/

theorem toString_nat (n : Nat) : (toString n).toList = Nat.toDigits 10 n := by
  have h : toString n = n.repr := rfl
  rw [h, Nat.repr_eq_ofList_toDigits, String.toList_ofList]

theorem toString_nat_inj {a b : Nat} (h : toString a = toString b) : a = b := by
  have h' := congrArg String.toList h
  rw [toString_nat, toString_nat] at h'
  have := congrArg (fun l => Nat.ofDigitChars 10 l 0) h'
  simpa [Nat.ofDigitChars_toDigits] using this

theorem digits_suffix {p p' ds ds' : List Char} (hd : ∀ c ∈ ds, c.isDigit = true) (hd' : ∀ c ∈ ds', c.isDigit = true)
    (h : p ++ '.' :: ds = p' ++ '.' :: ds') : p = p' ∧ ds = ds' := by
  have hr := congrArg List.reverse h
  simp only [List.reverse_append, List.reverse_cons, List.append_assoc] at hr
  have key : ∀ (q q' es es' : List Char), (∀ c ∈ es, c.isDigit = true) → (∀ c ∈ es', c.isDigit = true) →
      es ++ ('.' :: q) = es' ++ ('.' :: q') → es = es' ∧ q = q' := by
    intro q q' es
    induction es with
    | nil =>
      intro es' _ h2 h3
      cases es' with
      | nil => simpa using h3
      | cons c cs =>
        have : '.' = c := by simpa using (List.cons.inj h3).1
        have hc := h2 c (by simp)
        rw [← this] at hc
        exact absurd hc (by decide)
    | cons e es ih =>
      intro es' h1 h2 h3
      cases es' with
      | nil =>
        have : e = '.' := by simpa using (List.cons.inj h3).1
        have hc := h1 e (by simp)
        rw [this] at hc
        exact absurd hc (by decide)
      | cons c cs =>
        have h4 := List.cons.inj h3
        obtain ⟨i1, i2⟩ := ih cs (fun x hx => h1 x (by simp [hx])) (fun x hx => h2 x (by simp [hx])) h4.2
        exact ⟨by rw [h4.1, i1], i2⟩
  have := key p.reverse p'.reverse ds.reverse ds'.reverse (by simpa using hd) (by simpa using hd') (by simpa using hr)
  exact ⟨List.reverse_inj.mp this.2, List.reverse_inj.mp this.1⟩

theorem isDigit_toString (n : Nat) : ∀ c ∈ (toString n).toList, c.isDigit = true := by
  intro c hc
  rw [toString_nat] at hc
  exact Nat.isDigit_of_mem_toDigits (by norm_num) (by norm_num) hc

/-- A name made of a stem, a dot, a number and an ending determines stem and number. -/
theorem numbered_inj {a a' e : String} {t t' : Nat} (h : a ++ "." ++ toString t ++ e = a' ++ "." ++ toString t' ++ e) :
    a = a' ∧ t = t' := by
  have h' := congrArg String.toList h
  simp only [String.toList_append] at h'
  have h1 := List.append_cancel_right h'
  have hdot : ".".toList = ['.'] := by decide
  rw [hdot, List.append_assoc, List.append_assoc, List.singleton_append, List.singleton_append] at h1
  obtain ⟨h2, h3⟩ := digits_suffix (isDigit_toString t) (isDigit_toString t') h1
  exact ⟨String.toList_inj.mp h2, toString_nat_inj (String.toList_inj.mp h3)⟩

theorem scalarName_both {base base' : String} {t t' : Nat} (h : scalarName base t = scalarName base' t') :
    base = base' ∧ t = t' := by
  have e : ∀ b : String, b ++ ".scalar." = (b ++ ".scalar") ++ "." := fun b => by
    rw [String.append_assoc]; congr 1
  unfold scalarName at h
  rw [e, e] at h
  obtain ⟨h1, h2⟩ := numbered_inj h
  have h3 := congrArg String.toList h1
  simp only [String.toList_append] at h3
  exact ⟨String.toList_inj.mp (List.append_cancel_right h3), h2⟩

theorem fieldName_both {base base' : String} {t t' : Nat} (h : fieldName base t = fieldName base' t') :
    base = base' ∧ t = t' := by
  have e : ∀ b : String, b ++ ".field." = (b ++ ".field") ++ "." := fun b => by
    rw [String.append_assoc]; congr 1
  unfold fieldName at h
  rw [e, e] at h
  obtain ⟨h1, h2⟩ := numbered_inj h
  have h3 := congrArg String.toList h1
  simp only [String.toList_append] at h3
  exact ⟨String.toList_inj.mp (List.append_cancel_right h3), h2⟩

theorem scalarName_inj {base : String} {t t' : Nat} (h : scalarName base t = scalarName base t') : t = t' :=
  (scalarName_both h).2

theorem fieldName_inj {base : String} {t t' : Nat} (h : fieldName base t = fieldName base t') : t = t' :=
  (fieldName_both h).2

theorem getLast?_suffix {α : Type} (l m : List α) (a : α) : (l ++ (m ++ [a])).getLast? = some a := by
  rw [← List.append_assoc]
  simp

theorem scalar_ne_field (base base' : String) (t t' : Nat) : scalarName base t ≠ fieldName base' t' := by
  intro h
  have h' := congrArg (fun s => s.toList.getLast?) h
  simp only [scalarName, fieldName, String.toList_append] at h'
  have e1 : ".dat".toList = ['.', 'd', 'a'] ++ ['t'] := by decide
  have e2 : ".mm".toList = ['.', 'm'] ++ ['m'] := by decide
  rw [e1, e2, getLast?_suffix, getLast?_suffix] at h'
  exact absurd h' (by decide)

/-- **C139, names.**  The files of different base names, of different time levels, and of scalars and fields, have
different names, whatever characters the base names contain. -/
theorem C139_names (base base' : String) (t t' : Nat) :
    (scalarName base t = scalarName base' t' ↔ base = base' ∧ t = t') ∧
      (fieldName base t = fieldName base' t' ↔ base = base' ∧ t = t') ∧ scalarName base t ≠ fieldName base' t' :=
  ⟨⟨scalarName_both, fun h => by rw [h.1, h.2]⟩, ⟨fieldName_both, fun h => by rw [h.1, h.2]⟩,
    scalar_ne_field _ _ _ _⟩

example : scalarName "params" 12 = "params.scalar.12.dat" ∧ fieldName "params" 0 = "params.field.0.mm" := by
  decide +kernel

/-! ## Round trip -/

theorem putFrom_other (name : Nat → String) (c : List K → Content K W) (n : String) : ∀ (vs : List (List K)) (t : Nat)
    (d : Disk K W), (∀ k, t ≤ k → k < t + vs.length → name k ≠ n) → putFrom name c t vs d n = d n
  | [], _, _, _ => rfl
  | v :: vs, t, d, h => by
    rw [putFrom, putFrom_other name c n vs (t + 1) _ (fun k h1 h2 => h k (by omega) (by simp; omega))]
    simp [Disk.put, (h t le_rfl (by simp)).symm]

theorem putFrom_at (name : Nat → String) (hn : ∀ a b, name a = name b → a = b) (c : List K → Content K W) :
    ∀ (vs : List (List K)) (t : Nat) (d : Disk K W) (k : Nat) (hk : k < vs.length),
      putFrom name c t vs d (name (t + k)) = some (c vs[k])
  | v :: vs, t, d, 0, _ => by
    rw [putFrom, Nat.add_zero, putFrom_other name c _ vs (t + 1) _ (fun k h1 _ h3 => by
      have := hn _ _ h3; omega)]
    simp [Disk.put]
  | v :: vs, t, d, k + 1, hk => by
    rw [putFrom, show t + (k + 1) = (t + 1) + k by omega, putFrom_at name hn c vs (t + 1) _ k (by simpa using hk)]
    simp

theorem putAll_other (name : Nat → String) (c : List K → Content K W) (n : String) (vs : List (List K)) (d : Disk K W)
    (h : ∀ k, k < vs.length → name k ≠ n) : putAll name c vs d n = d n := by
  match vs, h with
  | [], _ => rfl
  | [v], h => simp [putAll, Disk.put, (h 0 (by simp)).symm]
  | v :: u :: vs, h =>
    rw [putAll]
    · exact putFrom_other name c n _ 0 d (fun k _ hk => h k (by omega))
    · simp
    · simp

theorem putAll_at (name : Nat → String) (hn : ∀ a b, name a = name b → a = b) (c : List K → Content K W)
    (vs : List (List K)) (d : Disk K W) (k : Nat) (hk : k < vs.length) :
    putAll name c vs d (name k) = some (c vs[k]) := by
  match vs, hk with
  | [v], hk =>
    have : k = 0 := by simpa using hk
    subst this
    simp [putAll, Disk.put]
  | v :: u :: vs, hk =>
    rw [putAll]
    · have := putFrom_at name hn c (v :: u :: vs) 0 d k hk
      simpa using this
    · simp
    · simp

theorem numbers_prt (w : Words K W) (rd : K → K) (h : Reads w rd) (v : List K) :
    numbers w (v.map fun x => [w.prt x]).flatten = v.map rd := by
  induction v with
  | nil => rfl
  | cons x xs ih => simpa [numbers, h x] using ih

theorem mapM_range {α : Type} (f : Nat → Option α) : ∀ (l : List α), (∀ k (hk : k < l.length), f k = some l[k]) →
    (List.range l.length).mapM f = some l := by
  intro l h
  apply Param.mapM_option_eq
  · simp
  · intro k x hx
    have hk : k < l.length := by
      have := (List.getElem?_eq_some_iff.mp hx).1
      simpa using this
    have hx' : x = k := by
      have := hx
      rw [List.getElem?_range hk] at this
      exact (Option.some.inj this).symm
    subst hx'
    exact ⟨l[x], by simp [hk], h x hk⟩

theorem readAll_eq (rd : String → Option (List K)) (name : Nat → String) (l : List (List K))
    (h : ∀ k (hk : k < l.length), rd (name k) = some l[k]) : readAll rd name l.length = some l := by
  unfold readAll
  by_cases h0 : l.length = 0
  · simp [List.length_eq_zero_iff.mp h0]
  · by_cases h1 : l.length > 1
    · rw [if_neg h0, if_pos h1]
      exact mapM_range _ l h
    · rw [if_neg h0, if_neg h1]
      have hl : l.length = 1 := by omega
      obtain ⟨a, rfl⟩ := List.length_eq_one_iff.mp hl
      rw [h 0 (by simp)]
      rfl

/-- **C139, one vector.**  Whatever was on the disk: after a vector has been written under a base name, a current
vector with as many time levels (and fields of the same length) reads back, level by level and entry by entry, the
written scalars (as the printed digits say them) and the written fields. -/
theorem C139_vector (w : Words K W) (rd : K → K) (h : Reads w rd) (base : String) (s f : List (List K)) (m : Nat)
    (hm : ∀ v ∈ f, v.length = m) (d : Disk K W) :
    readOpt w base s.length f.length m (writeOpt w base (s, f) d) =
      some (s.map (·.map rd), f.map (·.map w.lib)) := by
  have hs : readAll (readScalar w (writeOpt w base (s, f) d)) (scalarName base) s.length =
      some (s.map (·.map rd)) := by
    have := readAll_eq (readScalar w (writeOpt w base (s, f) d)) (scalarName base) (s.map (·.map rd)) (by
      intro k hk
      have hk' : k < s.length := by simpa using hk
      have e : writeOpt w base (s, f) d (scalarName base k) = some (scalarText w s[k]) := by
        unfold writeOpt
        rw [putAll_other _ _ _ _ _ (fun j _ hj => scalar_ne_field base base k j hj.symm)]
        exact putAll_at _ (fun _ _ => scalarName_inj) _ _ _ _ hk'
      simp only [readScalar, e, scalarText]
      rw [numbers_prt w rd h]
      simp)
    simpa using this
  have hf : readAll (readField m (writeOpt w base (s, f) d)) (fieldName base) f.length =
      some (f.map (·.map w.lib)) := by
    have := readAll_eq (readField m (writeOpt w base (s, f) d)) (fieldName base) (f.map (·.map w.lib)) (by
      intro k hk
      have hk' : k < f.length := by simpa using hk
      have e : writeOpt w base (s, f) d (fieldName base k) = some (.dense (f[k].map w.lib)) := by
        unfold writeOpt
        exact putAll_at _ (fun _ _ => fieldName_inj) _ _ _ _ hk'
      simp only [readField, e]
      simp [hm _ (List.getElem_mem hk')])
    simpa using this
  simp [readOpt, hs, hf]

/-! ## A later run -/

/-- Two runs have the same parameters up to their values: types, numbers of time levels and components, lengths of
fields. [specification, no code] -/
structure Alike (p q : Params K) : Prop where
  types : p.table.types = q.table.types
  shape : p.table.vals.map (·.map List.length) = q.table.vals.map (·.map List.length)
  nact : p.nact = q.nact
  nglob : p.nglob = q.nglob
  disc : p.disc.map List.length = q.disc.map List.length

/-- Every scalar parameter has a type; every field has as many entries as there are unknowns.
[specification, no code] -/
structure Sound (p : Params K) : Prop where
  rows : ∀ row ∈ p.table.vals, row.length ≤ p.table.types.length
  fields : ∀ v ∈ p.disc, v.length = p.nglob

theorem count_shape (ty : Int) : ∀ (types : List Int) (r r' : List (List K)),
    r.map List.length = r'.map List.length → Param.Spec.count ty types r = Param.Spec.count ty types r'
  | [], r, r', _ => by simp [Param.Spec.count]
  | t :: ts, [], r', h => by
    have : r' = [] := by simpa using h.symm
    subst this; rfl
  | t :: ts, c :: cs, [], h => by simp at h
  | t :: ts, c :: cs, c' :: cs', h => by
    simp only [List.map_cons, List.cons.injEq] at h
    rw [Param.count_cons, Param.count_cons, count_shape ty ts cs cs' h.2, h.1]

theorem getAll_some (T : Param.Table K) (ty : Int) (h : ∀ row ∈ T.vals, row.length ≤ T.types.length) :
    ∃ vs, Param.getAll T ty = some vs ∧ vs.length = T.vals.length ∧
      ∀ (i : Nat) (row : List (List K)) (v : List K), T.vals[i]? = some row → vs[i]? = some v →
        v.length = Param.Spec.count ty T.types row := by
  unfold Param.getAll
  revert h
  generalize T.vals = l
  intro h
  induction l with
  | nil => exact ⟨[], rfl, rfl, fun i row v hr => by simp at hr⟩
  | cons r rs ih =>
    obtain ⟨vs, e1, e2, e3⟩ := ih (fun x hx => h x (by simp [hx]))
    obtain ⟨v, f1, f2, _⟩ := Param.getRow_some ty r T.types (h r (by simp))
    refine ⟨v :: vs, by simp [List.mapM_cons, f1, e1], by simp [e2], ?_⟩
    intro i row u hr hu
    cases i with
    | zero =>
      have h1 : r = row := by simpa using hr
      have h2 : v = u := by simpa using hu
      subst h1; subst h2; exact f2
    | succ i => exact e3 i row u (by simpa using hr) (by simpa using hu)

/-- **C139, a later run.**  (partial: the later run has the same parameters, the gradient does not go to the same
files, values are those of the printed digits.)  A run, whatever it read, whatever its analysis did and whatever else
it wrote, that writes the parameters to files at its end, leaves files from which a later run with parameters of the
same form, reading from the same base name, starts with exactly the active parameters and fields with which the first
run ended, scalars as their printed digits say them.  The other parameters of the later run are untouched. -/
theorem C139_later_run_partial (w : Words K W) (rd : K → K) (h : Reads w rd) (o o' : FileSettings)
    (analysis : Params K → Option (Params K × Option (List (List K) × List (List K)))) (p p₁ q : Params K)
    (d d₁ : Disk K W) (hw : o.writeParams = true) (hr : o'.readParams = true) (hb : o'.recoveryFile = o.storageFile)
    (hrun : run w o analysis p d = some (p₁, d₁)) (hs : Sound p₁) (ha : Alike q p₁) :
    ∃ q₁ c, begin_ w o' q d₁ = some q₁ ∧ current p₁ = some c ∧
      current q₁ = some (c.1.map (·.map rd), c.2.map (·.map w.lib)) ∧
      (∀ ty : Int, ty ≠ 1 → Param.getAll q₁.table ty = Param.getAll q.table ty) ∧ Alike q₁ q := by
  -- the disk of the first run
  obtain ⟨pb, hpb, hrun⟩ := Option.bind_eq_some_iff.mp hrun
  obtain ⟨r, hr1, hrun⟩ := Option.bind_eq_some_iff.mp hrun
  obtain ⟨d', hd', hrun⟩ := Option.bind_eq_some_iff.mp hrun
  have hrp : r.1 = p₁ ∧ d' = d₁ := by
    have := Option.some.inj hrun
    exact ⟨congrArg Prod.fst this, congrArg Prod.snd this⟩
  rw [hrp.1, hrp.2] at hd'
  unfold finish at hd'
  rw [if_pos hw] at hd'
  obtain ⟨c, hc, hd'⟩ := Option.bind_eq_some_iff.mp hd'
  have hdisk : d₁ = writeOpt w o.storageFile c (writeGradient w o r.2 d) := (Option.some.inj hd').symm
  have hlenV : q.table.vals.length = p₁.table.vals.length := by
    have := congrArg List.length ha.shape; simpa using this
  have hlenD : q.disc.length = p₁.disc.length := by
    have := congrArg List.length ha.disc; simpa using this
  have hrowlen : ∀ (i : Nat) (row row' : List (List K)), q.table.vals[i]? = some row → p₁.table.vals[i]? = some row' →
      row.map List.length = row'.map List.length := by
    intro i row row' h1 h2
    have := congrArg (fun l => l[i]?) ha.shape
    simpa [h1, h2] using this
  have hqrows : ∀ row ∈ q.table.vals, row.length ≤ q.table.types.length := by
    intro row hrow
    obtain ⟨i, hi, rfl⟩ := List.getElem_of_mem hrow
    have hi' : i < p₁.table.vals.length := by omega
    have := congrArg List.length (hrowlen i q.table.vals[i] p₁.table.vals[i] (by simp) (by simp))
    simp only [List.length_map] at this
    rw [this, ha.types]
    exact hs.rows _ (List.getElem_mem hi')
  -- the current vectors
  obtain ⟨vs, e1, e2, e3⟩ := getAll_some p₁.table 1 hs.rows
  obtain ⟨us, g1, g2, g3⟩ := getAll_some q.table 1 hqrows
  have hc' : c = (if p₁.nact > 0 then vs else [], if p₁.nglob > 0 then p₁.disc else []) := by
    unfold current at hc
    by_cases hn : p₁.nact > 0
    · simp [hn, e1] at hc; simp [hn, ← hc]
    · simp [hn] at hc; simp [hn, ← hc]
  have hcq : current q = some (if p₁.nact > 0 then us else [], if p₁.nglob > 0 then q.disc else []) := by
    unfold current
    rw [ha.nact, ha.nglob]
    by_cases hn : p₁.nact > 0 <;> simp [hn, g1]
  have hl1 : (if p₁.nact > 0 then us else []).length = c.1.length := by
    rw [hc']; by_cases hn : p₁.nact > 0 <;> simp [hn]; omega
  have hl2 : (if p₁.nglob > 0 then q.disc else []).length = c.2.length := by
    rw [hc']; by_cases hn : p₁.nglob > 0 <;> simp [hn]; omega
  have hm : ∀ v ∈ c.2, v.length = q.nglob := by
    intro v hv
    rw [hc'] at hv
    by_cases hn : p₁.nglob > 0
    · simp [hn] at hv; rw [ha.nglob]; exact hs.fields v hv
    · simp [hn] at hv
  have hread : readOpt w o'.recoveryFile (if p₁.nact > 0 then us else []).length
      (if p₁.nglob > 0 then q.disc else []).length q.nglob d₁ =
      some (c.1.map (·.map rd), c.2.map (·.map w.lib)) := by
    rw [hl1, hl2, hb, hdisk]
    exact C139_vector w rd h o.storageFile c.1 c.2 q.nglob hm _
  -- the table
  have htab : ∃ T, (if (c.1.map (·.map rd)).length > 0 then Param.updateOpt q.table (c.1.map (·.map rd))
      else some q.table) = some T ∧ (p₁.nact > 0 → Param.getAll T 1 = some (c.1.map (·.map rd))) ∧
      (∀ ty : Int, ty ≠ 1 → Param.getAll T ty = Param.getAll q.table ty) ∧ T.types = q.table.types ∧
      T.vals.map (·.map List.length) = q.table.vals.map (·.map List.length) := by
    by_cases hz : (c.1.map (·.map rd)).length > 0
    · rw [if_pos hz]
      have hn : p₁.nact > 0 := by
        by_contra hn
        rw [hc'] at hz; simp [hn] at hz
      have hc1 : c.1 = vs := by rw [hc']; simp [hn]
      obtain ⟨T, t1, t2, t3, t4, t5, t6⟩ := Param.C27_table q.table (c.1.map (·.map rd)) hqrows
        (by rw [List.length_map, hc1]; omega)
        (by
          intro i row nv hi hv
          rw [hc1, List.getElem?_map, Option.map_eq_some_iff] at hv
          obtain ⟨v, hv, rfl⟩ := hv
          have hi' : i < p₁.table.vals.length := by
            have := (List.getElem?_eq_some_iff.mp hi).1; omega
          rw [List.length_map, e3 i p₁.table.vals[i] v (by simp) hv, ha.types]
          exact (count_shape 1 _ _ _ (hrowlen i row p₁.table.vals[i] hi (by simp))).symm)
      refine ⟨T, t1, fun _ => t2, t3, t4, ?_⟩
      apply List.ext_getElem?
      intro i
      rw [List.getElem?_map, List.getElem?_map]
      cases hq : q.table.vals[i]? with
      | none =>
        have : T.vals[i]? = none := by
          rw [List.getElem?_eq_none_iff] at hq ⊢; omega
        rw [this]
      | some row =>
        obtain ⟨row', a1, a2, _⟩ := t6 i row hq
        rw [a1]
        exact congrArg some a2
    · rw [if_neg hz]
      refine ⟨q.table, rfl, ?_, fun _ _ => rfl, rfl, rfl⟩
      intro hn
      have hc1 : c.1 = vs := by rw [hc']; simp [hn]
      have h0 : vs = [] := by
        rw [hc1] at hz; simpa using hz
      have hu : us = [] := by
        apply List.length_eq_zero_iff.mp
        rw [g2, hlenV, ← e2, h0]; rfl
      rw [g1, hu, hc1, h0]; rfl
  obtain ⟨T, t1, t2, t3, t4, t5⟩ := htab
  -- the fields
  have hfld : ∃ F, (if (c.2.map (·.map w.lib)).length > 0 then updateFields q.disc (c.2.map (·.map w.lib))
      else some q.disc) = some F ∧ (p₁.nglob > 0 → F = c.2.map (·.map w.lib)) ∧
      F.map List.length = q.disc.map List.length := by
    by_cases hz : (c.2.map (·.map w.lib)).length > 0
    · rw [if_pos hz]
      have hn : p₁.nglob > 0 := by
        by_contra hn
        rw [hc'] at hz; simp [hn] at hz
      have hc2 : c.2 = p₁.disc := by rw [hc']; simp [hn]
      have hle : (c.2.map (·.map w.lib)).length = q.disc.length := by rw [hc2]; simp; omega
      refine ⟨c.2.map (·.map w.lib), ?_, fun _ => rfl, ?_⟩
      · unfold updateFields
        rw [if_pos (by omega), hle, List.drop_length, List.append_nil]
      · rw [ha.disc, hc2, List.map_map]
        congr 1
        funext v
        simp
    · rw [if_neg hz]
      refine ⟨q.disc, rfl, ?_, rfl⟩
      intro hn
      have hc2 : c.2 = p₁.disc := by rw [hc']; simp [hn]
      have h0 : c.2 = [] := by simpa using hz
      have hq : q.disc = [] := by
        apply List.length_eq_zero_iff.mp
        rw [hlenD, ← hc2, h0]; rfl
      rw [hq, h0]; rfl
  obtain ⟨F, f1, f2, f3⟩ := hfld
  refine ⟨{ q with table := T, disc := F }, c, ?_, hc, ?_, t3, ⟨t4, t5, rfl, rfl, f3⟩⟩
  · unfold begin_
    rw [if_pos hr, hcq]
    simp only [Option.bind_eq_bind, Option.bind_some, hread]
    unfold update
    rw [t1, Option.bind_some, f1, Option.bind_some]
  · unfold current
    simp only [ha.nact, ha.nglob]
    by_cases hn : p₁.nact > 0
    · by_cases hg : p₁.nglob > 0
      · simp [hn, hg, t2 hn, f2 hg]
      · have : c.2 = [] := by rw [hc']; simp [hg]
        simp [hn, hg, t2 hn, this]
    · have h1 : c.1 = [] := by rw [hc']; simp [hn]
      by_cases hg : p₁.nglob > 0
      · simp [hn, hg, h1, f2 hg]
      · have : c.2 = [] := by rw [hc']; simp [hg]
        simp [hn, hg, h1, this]

/-- **C139, the gradient.**  A run with a gradient that writes it, and does not write the parameters under the same
base name, leaves the gradient on file: reading that base name gives every component of the gradient, to the printed
digits. -/
theorem C139_gradient (w : Words K W) (rd : K → K) (h : Reads w rd) (o : FileSettings)
    (analysis : Params K → Option (Params K × Option (List (List K) × List (List K)))) (p p₁ : Params K)
    (d d₁ : Disk K W) (hg : o.writeGrad = true)
    (hb : o.writeParams = true → o.storageFile ≠ o.gradFile)
    (hrun : run w o analysis p d = some (p₁, d₁)) (pb : Params K) (s f : List (List K)) (m : Nat)
    (hm : ∀ v ∈ f, v.length = m) (hbeg : begin_ w o p d = some pb) (han : analysis pb = some (p₁, some (s, f))) :
    readOpt w o.gradFile s.length f.length m d₁ = some (s.map (·.map rd), f.map (·.map w.lib)) := by
  simp only [run, hbeg, han, Option.bind_eq_bind, Option.bind_some] at hrun
  obtain ⟨d', hd', hrun⟩ := Option.bind_eq_some_iff.mp hrun
  have hd1 : d' = d₁ := by
    have := Option.some.inj hrun
    exact congrArg Prod.snd this
  rw [hd1] at hd'
  have base := C139_vector w rd h o.gradFile s f m hm d
  have hgr : writeGradient w o (some (s, f)) d = writeOpt w o.gradFile (s, f) d := by simp [writeGradient, hg]
  rw [hgr] at hd'
  -- the files of the gradient are not touched by the end of the run
  have keep : ∀ t, d₁ (scalarName o.gradFile t) = writeOpt w o.gradFile (s, f) d (scalarName o.gradFile t) ∧
      d₁ (fieldName o.gradFile t) = writeOpt w o.gradFile (s, f) d (fieldName o.gradFile t) := by
    intro t
    unfold finish at hd'
    by_cases hw : o.writeParams = true
    · rw [if_pos hw] at hd'
      obtain ⟨c, _, hd'⟩ := Option.bind_eq_some_iff.mp hd'
      have : d₁ = writeOpt w o.storageFile c (writeOpt w o.gradFile (s, f) d) := (Option.some.inj hd').symm
      rw [this]
      constructor
      · conv_lhs => unfold writeOpt
        rw [putAll_other _ _ _ _ _ (fun j _ hj => scalar_ne_field _ _ _ _ hj.symm),
          putAll_other _ _ _ _ _ (fun j _ hj => hb hw (scalarName_both hj).1)]
        rfl
      · conv_lhs => unfold writeOpt
        rw [putAll_other _ _ _ _ _ (fun j _ hj => hb hw (fieldName_both hj).1),
          putAll_other _ _ _ _ _ (fun j _ hj => scalar_ne_field _ _ _ _ hj)]
        rfl
    · rw [if_neg hw] at hd'
      rw [Option.some.inj hd']
      exact ⟨rfl, rfl⟩
  have e1 : ∀ t, readScalar w d₁ (scalarName o.gradFile t) =
      readScalar w (writeOpt w o.gradFile (s, f) d) (scalarName o.gradFile t) := fun t => by
    unfold readScalar; rw [(keep t).1]
  have e2 : ∀ t, readField m d₁ (fieldName o.gradFile t) =
      readField m (writeOpt w o.gradFile (s, f) d) (fieldName o.gradFile t) := fun t => by
    unfold readField; rw [(keep t).2]
  rw [← base]
  simp only [readOpt, readAll, e1, e2]

/-! ## Digits -/

theorem parse_prt12 (x : ℚ) : ∃ y, parse10 (prt12 x) = some y := ⟨_, rfl⟩

/-- [specification, no code] The value of the printed digits. -/
def rd12 (x : ℚ) : ℚ := (prt12 x).1 * (10 : ℚ) ^ (prt12 x).2

theorem reads12 : Reads words12 rd12 := fun _ => rfl

theorem ten_pow_pos (e : ℤ) : (0 : ℚ) < (10 : ℚ) ^ e := zpow_pos (by norm_num) e

theorem rd12_exact {x : ℚ} (h : Twelve x) : rd12 x = x := by
  by_cases hx : x = 0
  · simp [rd12, prt12, hx]
  obtain ⟨m, k, hm, hxm⟩ := h
  have habs : (0 : ℚ) < |x| := abs_pos.mpr hx
  have hlog : (10 : ℚ) ^ (Int.log 10 |x|) ≤ |x| := Int.zpow_log_le_self (by norm_num) habs
  have hke : Int.log 10 |x| - 11 ≤ k := by
    by_contra hlt
    have h1 : (10 : ℚ) ^ (k + 12) ≤ (10 : ℚ) ^ (Int.log 10 |x|) :=
      zpow_le_zpow_right₀ (by norm_num) (by omega)
    have h2 : |x| = |(m : ℚ)| * (10 : ℚ) ^ k := by
      rw [hxm, abs_mul, abs_of_pos (ten_pow_pos k)]
    have h3 : |(m : ℚ)| < 10 ^ 12 := by exact_mod_cast hm
    have h4 : (10 : ℚ) ^ (k + 12) = 10 ^ 12 * (10 : ℚ) ^ k := by
      rw [zpow_add₀ (by norm_num)]; norm_num; ring
    have h5 : |(m : ℚ)| * (10 : ℚ) ^ k < 10 ^ 12 * (10 : ℚ) ^ k := mul_lt_mul_of_pos_right h3 (ten_pow_pos k)
    linarith
  set e := Int.log 10 |x| - 11 with he
  have hnat : (10 : ℚ) ^ (k - e) = ((10 ^ (k - e).toNat : ℤ) : ℚ) := by
    have : (k - e) = ((k - e).toNat : ℤ) := (Int.toNat_of_nonneg (by omega)).symm
    conv_lhs => rw [this]
    rw [zpow_natCast]; push_cast; rfl
  have hy : x / (10 : ℚ) ^ e = ((m * 10 ^ (k - e).toNat : ℤ) : ℚ) := by
    conv_lhs => rw [hxm]
    rw [mul_div_assoc, ← zpow_sub₀ (by norm_num), hnat]; push_cast; ring
  have : prt12 x = (m * 10 ^ (k - e).toNat, e) := by
    unfold prt12
    rw [if_neg hx, ← he, hy, round_intCast]
  unfold rd12
  rw [this]
  simp only
  rw [← hy, div_mul_cancel₀ _ (ten_pow_pos e).ne']

theorem rd12_twelve (x : ℚ) : Twelve (rd12 x) := by
  by_cases hx : x = 0
  · exact ⟨0, 0, by norm_num, by simp [rd12, prt12, hx]⟩
  have habs : (0 : ℚ) < |x| := abs_pos.mpr hx
  have hlog : |x| < (10 : ℚ) ^ (Int.log 10 |x| + 1) := by
    have := Int.lt_zpow_succ_log_self (b := 10) (by norm_num) |x|
    exact_mod_cast this
  set e := Int.log 10 |x| - 11 with he
  have hp : prt12 x = (round (x / (10 : ℚ) ^ e), e) := by unfold prt12; rw [if_neg hx]
  have hy : |x / (10 : ℚ) ^ e| < 10 ^ 12 := by
    rw [abs_div, abs_of_pos (ten_pow_pos e), div_lt_iff₀ (ten_pow_pos e)]
    have : (10 : ℚ) ^ (Int.log 10 |x| + 1) = 10 ^ 12 * (10 : ℚ) ^ e := by
      have : Int.log 10 |x| + 1 = 12 + e := by omega
      rw [this, zpow_add₀ (by norm_num)]; norm_num
    linarith
  have hr : |round (x / (10 : ℚ) ^ e)| ≤ 10 ^ 12 := by
    rw [abs_lt] at hy
    have hd := abs_le.mp (abs_sub_round (x / (10 : ℚ) ^ e))
    have h1 : ((round (x / (10 : ℚ) ^ e) : ℤ) : ℚ) < ((10 ^ 12 + 1 : ℤ) : ℚ) := by push_cast; linarith [hd.1]
    have h2 : ((-(10 ^ 12) - 1 : ℤ) : ℚ) < ((round (x / (10 : ℚ) ^ e) : ℤ) : ℚ) := by push_cast; linarith [hd.2]
    have h1' := Int.cast_lt.mp h1
    have h2' := Int.cast_lt.mp h2
    rw [abs_le]; omega
  unfold rd12
  rw [hp]
  simp only
  set m := round (x / (10 : ℚ) ^ e)
  by_cases hlt : |m| < 10 ^ 12
  · exact ⟨m, e, hlt, rfl⟩
  · have habs : |m| = 10 ^ 12 := le_antisymm hr (not_lt.mp hlt)
    rcases abs_choice m with hc | hc
    · refine ⟨10 ^ 11, e + 1, by norm_num, ?_⟩
      rw [← hc, habs, zpow_add₀ (by norm_num)]; push_cast; norm_num; ring
    · refine ⟨-10 ^ 11, e + 1, by norm_num, ?_⟩
      have : m = -(10 ^ 12) := by omega
      rw [this, zpow_add₀ (by norm_num)]; push_cast; norm_num; ring

/-- **C139, digits.**  A scalar that has been written and read differs from the original by at most half a unit of the
twelfth digit, relatively at most `5·10⁻¹²`; numbers of at most twelve digits come back exactly, and writing and
reading a second time changes nothing more. -/
theorem C139_digits (x : ℚ) :
    |rd12 x - x| ≤ |x| * (5 / 10 ^ 12) ∧ (Twelve x → rd12 x = x) ∧ rd12 (rd12 x) = rd12 x := by
  refine ⟨?_, rd12_exact, rd12_exact (rd12_twelve x)⟩
  by_cases hx : x = 0
  · simp [rd12, prt12, hx]
  have habs : (0 : ℚ) < |x| := abs_pos.mpr hx
  have hlog : (10 : ℚ) ^ (Int.log 10 |x|) ≤ |x| := Int.zpow_log_le_self (by norm_num) habs
  set e := Int.log 10 |x| - 11 with he
  have hp : prt12 x = (round (x / (10 : ℚ) ^ e), e) := by unfold prt12; rw [if_neg hx]
  have h1 : rd12 x - x = -((x / (10 : ℚ) ^ e - round (x / (10 : ℚ) ^ e)) * (10 : ℚ) ^ e) := by
    unfold rd12
    rw [hp, sub_mul, div_mul_cancel₀ _ (ten_pow_pos e).ne']
    ring
  rw [h1, abs_neg, abs_mul, abs_of_pos (ten_pow_pos e)]
  have h2 := abs_sub_round (x / (10 : ℚ) ^ e)
  have h3 : (10 : ℚ) ^ e ≤ |x| * (1 / 10 ^ 11) := by
    have : (10 : ℚ) ^ e = (10 : ℚ) ^ (Int.log 10 |x|) * (1 / 10 ^ 11) := by
      rw [he, zpow_sub₀ (by norm_num), div_eq_mul_one_div]
      norm_num
    rw [this]
    exact mul_le_mul_of_nonneg_right hlog (by norm_num)
  calc |x / (10 : ℚ) ^ e - round (x / (10 : ℚ) ^ e)| * (10 : ℚ) ^ e
      ≤ 1 / 2 * (10 : ℚ) ^ e := mul_le_mul_of_nonneg_right h2 (ten_pow_pos e).le
    _ ≤ 1 / 2 * (|x| * (1 / 10 ^ 11)) := by linarith
    _ = |x| * (5 / 10 ^ 12) := by ring

theorem third_not_twelve : ¬ Twelve (1 / 3) := by
  rintro ⟨m, k, _, h⟩
  rcases Int.eq_nat_or_neg k with ⟨n, rfl | rfl⟩
  · rw [zpow_natCast] at h
    have : (1 : ℚ) = ((3 * m * 10 ^ n : ℤ) : ℚ) := by push_cast; linarith
    have h1 : (1 : ℤ) = 3 * (m * 10 ^ n) := by rw [← mul_assoc]; exact_mod_cast this
    omega
  · rw [zpow_neg, zpow_natCast] at h
    have hp : (0 : ℚ) < 10 ^ n := by positivity
    have : ((10 ^ n : ℤ) : ℚ) = ((3 * m : ℤ) : ℚ) := by
      push_cast; field_simp at h; linarith
    have h1 : (10 : ℤ) ^ n = 3 * m := by exact_mod_cast this
    have h2 : ∀ j : Nat, (10 : ℤ) ^ j % 3 = 1 := by
      intro j
      induction j with
      | zero => norm_num
      | succ j ih => rw [pow_succ]; omega
    have := h2 n
    omega

example : Twelve (-3 / 8) ∧ ¬ Twelve (1 / 3) := ⟨⟨-375, -3, by norm_num, by norm_num⟩, third_not_twelve⟩

/-- C139 is false as stated for exact values: a parameter one third, written and read, is not one third any more. -/
theorem C139_digits_violated :
    ∀ d : Disk ℚ (ℤ × ℤ), ∃ v, readOpt words12 "params" 1 0 0 (writeOpt words12 "params" ([[1 / 3]], []) d) = some v ∧
      v ≠ ([[1 / 3]], []) := by
  intro d
  refine ⟨_, C139_vector words12 rd12 reads12 "params" [[1 / 3]] [] 0 (by simp) d, ?_⟩
  intro h
  have h1 : rd12 (1 / 3) = 1 / 3 := by simpa using congrArg Prod.fst h
  have h2 := rd12_twelve (1 / 3)
  rw [h1] at h2
  exact third_not_twelve h2

/-! ## Files that do not fit -/

/-- **C139, missing files.**  If a file of one of the time levels of the current vector is missing, or has a field of
another length, reading stops with an exception: no parameter keeps its value silently. -/
theorem C139_missing (w : Words K W) (base : String) (nS nF m : Nat) (d : Disk K W)
    (h : (∃ t < nS, d (scalarName base t) = none) ∨ (∃ t < nF, d (fieldName base t) = none) ∨
      ∃ t < nF, ∃ v : List K, d (fieldName base t) = some (.dense v) ∧ v.length ≠ m) :
    readOpt w base nS nF m d = none := by
  have key : ∀ (rd : String → Option (List K)) (name : Nat → String) (n t : Nat), t < n → rd (name t) = none →
      readAll rd name n = none := by
    intro rd name n t ht hrd
    unfold readAll
    rw [if_neg (by omega)]
    by_cases h1 : n > 1
    · rw [if_pos h1]
      by_contra hne
      obtain ⟨l, hl⟩ := Option.ne_none_iff_exists'.mp hne
      have : ∀ (ks : List Nat) (l : List (List K)), ks.mapM (fun t => rd (name t)) = some l → ∀ k ∈ ks,
          rd (name k) ≠ none := by
        intro ks
        induction ks with
        | nil => simp
        | cons a as ih =>
          intro l hl k hk
          rw [List.mapM_cons] at hl
          obtain ⟨y, hy, hl⟩ := Option.bind_eq_some_iff.mp hl
          obtain ⟨ys, hys, _⟩ := Option.bind_eq_some_iff.mp hl
          rcases List.mem_cons.mp hk with rfl | hk
          · rw [hy]; simp
          · exact ih ys hys k hk
      exact this _ l hl t (List.mem_range.mpr ht) hrd
    · rw [if_neg h1]
      have : t = 0 := by omega
      subst this
      rw [hrd]; rfl
  unfold readOpt
  rcases h with ⟨t, ht, h⟩ | ⟨t, ht, h⟩ | ⟨t, ht, v, h, hv⟩
  · rw [key (readScalar w d) _ nS t ht (by unfold readScalar; rw [h])]; rfl
  · rw [key (readField m d) _ nF t ht (by unfold readField; rw [h])]
    cases readAll (readScalar w d) (scalarName base) nS <;> rfl
  · rw [key (readField m d) _ nF t ht (by unfold readField; rw [h]; simp [hv])]
    cases readAll (readScalar w d) (scalarName base) nS <;> rfl

example : readOpt words12 "params" 2 0 0 (writeOpt words12 "params" ([[7]], []) (fun _ => none)) = none :=
  C139_missing _ _ _ _ _ _ (Or.inl ⟨1, by omega, by
    unfold writeOpt
    rw [putAll_other _ _ _ _ _ (fun j hj => by simp at hj), putAll_other _ _ _ _ _ (fun j hj h => by
      have := scalarName_inj h
      simp at hj
      omega)]⟩)

/-- C139 is false for time levels left over: files of time levels that the writing run does not have stay on the disk.
Two runs write to the same base name, the first with two time levels, the second with one; a later run with two time
levels reads the second run's values at its first level and the first run's values at its second. -/
theorem C139_stale_violated :
    ∀ d : Disk ℚ (ℤ × ℤ),
      readOpt words12 "params" 2 0 0 (writeOpt words12 "params" ([[3]], []) (writeOpt words12 "params" ([[1], [2]], []) d)) =
        some ([[3], [2]], []) := by
  intro d
  have r1 : ∀ n : ℤ, |n| < 10 ^ 12 → rd12 n = n := fun n hn => rd12_exact ⟨n, 0, hn, by simp⟩
  have e0 : readScalar words12 (writeOpt words12 "params" ([[3]], []) (writeOpt words12 "params" ([[1], [2]], []) d))
      (scalarName "params" 0) = some [3] := by
    have : writeOpt words12 "params" ([[3]], []) (writeOpt words12 "params" ([[1], [2]], []) d) (scalarName "params" 0) =
        some (scalarText words12 [3]) := by simp [writeOpt, putAll, Disk.put]
    simp only [readScalar, this, scalarText]
    rw [numbers_prt words12 rd12 reads12]
    have := r1 3 (by norm_num)
    push_cast at this
    simp [this]
  have e1 : readScalar words12 (writeOpt words12 "params" ([[3]], []) (writeOpt words12 "params" ([[1], [2]], []) d))
      (scalarName "params" 1) = some [2] := by
    have hne : scalarName "params" 1 ≠ scalarName "params" 0 := fun h => by
      have := scalarName_inj h; omega
    have : writeOpt words12 "params" ([[3]], []) (writeOpt words12 "params" ([[1], [2]], []) d) (scalarName "params" 1) =
        some (scalarText words12 [2]) := by simp [writeOpt, putAll, putFrom, Disk.put, hne]
    simp only [readScalar, this, scalarText]
    rw [numbers_prt words12 rd12 reads12]
    have := r1 2 (by norm_num)
    push_cast at this
    simp [this]
  have hr : (List.range 2).mapM (fun t => readScalar words12
      (writeOpt words12 "params" ([[3]], []) (writeOpt words12 "params" ([[1], [2]], []) d)) (scalarName "params" t)) =
      some [[3], [2]] := by
    have := mapM_range (fun t => readScalar words12
      (writeOpt words12 "params" ([[3]], []) (writeOpt words12 "params" ([[1], [2]], []) d)) (scalarName "params" t))
      [[3], [2]] (by
        intro k hk
        have : k = 0 ∨ k = 1 := by simp at hk; omega
        rcases this with rfl | rfl
        · exact e0
        · exact e1)
    exact this
  simp [readOpt, readAll, hr]

/-- C139 is false for gradient and parameters under one base name: the run then leaves the parameters, not the
gradient, in the files of the gradient. -/
theorem C139_same_base_violated (base : String) (d : Disk ℚ (ℤ × ℤ)) :
    let o : FileSettings := { writeParams := true, storageFile := base, writeGrad := true, gradFile := base }
    let p : Params ℚ := { table := { types := [1], vals := [[[5]]] }, nact := 1, nglob := 0, disc := [] }
    ∃ d₁, run words12 o (fun q => some (q, some ([[9]], []))) p d = some (p, d₁) ∧
      readOpt words12 base 1 0 0 d₁ = some ([[5]], []) := by
  intro o p
  have hc : current p = some ([[5]], []) := by decide +kernel
  refine ⟨writeOpt words12 base ([[5]], []) (writeOpt words12 base ([[9]], []) d), ?_, ?_⟩
  · simp [run, begin_, finish, writeGradient, hc, o]
  · have := C139_vector words12 rd12 reads12 base [[5]] [] 0 (by simp) (writeOpt words12 base ([[9]], []) d)
    have r1 : rd12 5 = 5 := rd12_exact ⟨5, 0, by norm_num, by simp⟩
    simpa [r1] using this

/-- [case] A run with an optimised parameter 2.5 and a field, then a run starting from other values. -/
example : ∃ q₁, begin_ words12 { readParams := true } (⟨⟨[0, 1], [[[7], [0]]]⟩, 1, 2, [[0, 0]]⟩ : Params ℚ)
      (writeOpt words12 "params" ([[5 / 2]], [[1, 2]]) (fun _ => none)) = some q₁ ∧
    current q₁ = some ([[5 / 2]], [[1, 2]]) := by
  let p : Params ℚ := { table := { types := [0, 1], vals := [[[7], [5 / 2]]] }, nact := 1, nglob := 2, disc := [[1, 2]] }
  have hc : current p = some ([[5 / 2]], [[1, 2]]) := by decide +kernel
  obtain ⟨q₁, c, h1, h2, h3, _⟩ := C139_later_run_partial words12 rd12 reads12 { writeParams := true }
    { readParams := true } (fun q => some (q, none)) p p
    { table := { types := [0, 1], vals := [[[7], [0]]] }, nact := 1, nglob := 2, disc := [[0, 0]] } (fun _ => none)
    (writeOpt words12 "params" ([[5 / 2]], [[1, 2]]) (fun _ => none)) rfl rfl rfl
    (by simp [run, begin_, finish, writeGradient, hc]) ⟨by simp [p], by simp [p]⟩ ⟨rfl, rfl, rfl, rfl, rfl⟩
  refine ⟨q₁, h1, ?_⟩
  rw [hc] at h2
  rw [h3, ← Option.some.inj h2]
  have r1 : rd12 (5 / 2) = 5 / 2 := rd12_exact ⟨25, -1, by norm_num, by norm_num⟩
  simp [r1, words12]

end MrHyDE.Analysis
