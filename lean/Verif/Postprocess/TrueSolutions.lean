import Mathlib.Data.List.Basic

/-!
# The true solutions of the input (C182)

`addTrueSolutions` (postprocessManager_error_estimation.hpp:14-166) reads the section `True solutions` of a block, decides which
errors are measured and registers the functions; `computeError` (the same file, 173-497) looks up functions and solution fields by
name.  The sums themselves are C94.
-/

set_option linter.unusedSectionVars false

namespace MrHyDE.Postprocess.TrueSolutions

/-! ## Model -/

/-- Basis types after "-DG" has been removed, src/interfaces/physics/physicsInterface_construct.hpp:218-230, as they are told apart by
their first letters in src/managers/postprocess/postprocessManager_error_estimation.hpp:33, 54, 74, 98, 119, 143 and
src/tools/workset.cpp:345-435.  "HDIV_AC" is `hdiv`. -/
inductive Kind where
  | hgrad | hvol | hdiv | hcurl | hface
deriving DecidableEq, Repr

/-- A variable of the block, of any physics set, src/managers/postprocess/postprocessManager_error_estimation.hpp:25-29. -/
structure Var where
  /-- name -/
  name : String
  /-- basis type -/
  kind : Kind
deriving DecidableEq, Repr

/-- The section `True solutions`: for every name nothing, an expression, or (`some none`) a value that is not a string,
src/managers/postprocess/postprocessManager_construct.hpp:249. -/
abbrev Deck := String → Option (Option String)

/-- `isParameter`, src/managers/postprocess/postprocessManager_error_estimation.hpp:32. -/
def given (d : Deck) (k : String) : Bool := (d k).isSome

/-- `get<string>(k,"0.0")`, `none` for the exception on a value of another type,
src/managers/postprocess/postprocessManager_error_estimation.hpp:36. -/
def get (d : Deck) (k : String) : Option String :=
  match d k with
  | none => some "0.0"
  | some e => e

/-- The components in dimension `dim`, src/managers/postprocess/postprocessManager_error_estimation.hpp:42-53, 58-67. -/
def comps (dim : Nat) : List String :=
  "[x]" :: ((if 1 < dim then ["[y]"] else []) ++ if 2 < dim then ["[z]"] else [])

/-- What one true solution adds: entries of `block_error_list` and functions (name, expression, location),
src/managers/postprocess/postprocessManager_error_estimation.hpp:34-37. -/
abbrev Inc := List (String × String) × List (String × String × String)

/-- A scalar true solution at the volume points; for a basis of another type nothing happens,
src/managers/postprocess/postprocessManager_error_estimation.hpp:32-39. -/
def scalar (d : Deck) (v : Var) : Option Inc :=
  if given d v.name then
    if v.kind = .hgrad ∨ v.kind = .hvol then
      (get d v.name).map fun e => ([(v.name, "L2")], [("true " ++ v.name, e, "ip")])
    else some ([], [])
  else some ([], [])

/-- A true solution given by components `key c`: it is an exception if some component of the dimension is missing or if the basis
is not of the right type, src/managers/postprocess/postprocessManager_error_estimation.hpp:40-72, 84-116, 129-161. -/
def group (d : Deck) (dim : Nat) (v : Var) (key : String → String) (ok : Bool) (norm : String) : Option Inc :=
  if given d (key "[x]") || given d (key "[y]") || given d (key "[z]") then
    if (comps dim).all fun c => given d (key c) then
      if ok then
        ((comps dim).mapM fun c => (get d (key c)).map fun e => ("true " ++ key c, e, "ip")).map fun fs => ([(v.name, norm)], fs)
      else none
    else none
  else some ([], [])

/-- A true solution on the faces, src/managers/postprocess/postprocessManager_error_estimation.hpp:73-83. -/
def face (d : Deck) (v : Var) : Option Inc :=
  if given d (v.name ++ " face") then
    if v.kind = .hgrad ∨ v.kind = .hface then
      (get d (v.name ++ " face")).map fun e => ([(v.name, "L2 FACE")], [("true " ++ v.name, e, "side ip")])
    else none
  else some ([], [])

/-- A true divergence, src/managers/postprocess/postprocessManager_error_estimation.hpp:117-128. -/
def divergence (d : Deck) (v : Var) : Option Inc :=
  if given d ("div(" ++ v.name ++ ")") then
    if v.kind = .hdiv then
      (get d ("div(" ++ v.name ++ ")")).map fun e =>
        ([(v.name, "DIV")], [("true " ++ ("div(" ++ v.name ++ ")"), e, "ip")])
    else none
  else some ([], [])

/-- All steps for one variable, src/managers/postprocess/postprocessManager_error_estimation.hpp:29-162. -/
def steps (d : Deck) (dim : Nat) (v : Var) : List (Option Inc) :=
  [scalar d v,
   group d dim v (fun c => "grad(" ++ v.name ++ ")" ++ c) (v.kind == .hgrad) "GRAD",
   face d v,
   group d dim v (fun c => v.name ++ c) (v.kind == .hdiv || v.kind == .hcurl) "L2 VECTOR",
   divergence d v,
   group d dim v (fun c => "curl(" ++ v.name ++ ")" ++ c) (v.kind == .hcurl) "CURL"]

/-- `addTrueSolutions` for the variables of a block; `none`: exception,
src/managers/postprocess/postprocessManager_error_estimation.hpp:14-166. -/
def addTrue (d : Deck) (dim : Nat) (vars : List Var) : Option Inc :=
  ((vars.flatMap (steps d dim)).mapM id).map fun l => (l.flatMap (·.1), l.flatMap (·.2))

/-- The solution fields at the volume points, src/tools/workset.cpp:345-432. -/
def fields (dim : Nat) (v : Var) : List String :=
  match v.kind with
  | .hgrad => [v.name, "grad(" ++ v.name ++ ")" ++ "[x]", "grad(" ++ v.name ++ ")" ++ "[y]", "grad(" ++ v.name ++ ")" ++ "[z]",
      v.name ++ "_t"]
  | .hdiv => [v.name ++ "[x]", v.name ++ "[y]", v.name ++ "[z]", "div(" ++ v.name ++ ")", v.name ++ "_t[x]", v.name ++ "_t[y]",
      v.name ++ "_t[z]"]
  | .hvol => [v.name, v.name ++ "_t"]
  | .hcurl => [v.name ++ "[x]", v.name ++ "[y]", v.name ++ "[z]"] ++
      (if dim = 2 then ["curl(" ++ v.name ++ ")"]
       else ["curl(" ++ v.name ++ ")" ++ "[x]", "curl(" ++ v.name ++ ")" ++ "[y]", "curl(" ++ v.name ++ ")" ++ "[z]"]) ++
      [v.name ++ "_t[x]", v.name ++ "_t[y]", v.name ++ "_t[z]", "div(" ++ v.name ++ ")"]
  | .hface => []

/-- Whether a scalar field of the variable exists at the side points, src/tools/workset.cpp:352, 386, 433.  The other fields on
sides are not needed. -/
def sideFields (v : Var) : List String :=
  match v.kind with
  | .hgrad | .hvol | .hface => [v.name]
  | _ => []

/-- Names and locations that `computeError` asks for, for an entry of the list,
src/managers/postprocess/postprocessManager_error_estimation.hpp:268-273, 283-331, 332-337, 348-397, 398-447, 465-471. -/
def asked (dim : Nat) (e : String × String) : List (String × String) :=
  if e.2 = "L2" then [(e.1, "ip")]
  else if e.2 = "GRAD" then (comps dim).map fun c => ("grad(" ++ e.1 ++ ")" ++ c, "ip")
  else if e.2 = "DIV" then [("div(" ++ e.1 ++ ")", "ip")]
  else if e.2 = "CURL" then (comps dim).map fun c => ("curl(" ++ e.1 ++ ")" ++ c, "ip")
  else if e.2 = "L2 VECTOR" then (comps dim).map fun c => (e.1 ++ c, "ip")
  else if e.2 = "L2 FACE" then [(e.1, "side ip")]
  else []

/-- The function with a name at a location, src/managers/postprocess/postprocessManager_error_estimation.hpp:271, 471. -/
def lookup (fs : List (String × String × String)) (n l : String) : Option String :=
  (fs.find? fun f => f.1 = n ∧ f.2.2 = l).map (·.2.1)

/-- What is compared for an entry: solution field, expression, location.  `none`: a field that does not exist is asked for, and
`getSolutionField` prints a message and reads behind the end of the list, src/tools/workset.cpp:1538-1567, 1597-1622. -/
def compared (vars : List Var) (dim : Nat) (fs : List (String × String × String)) (e : String × String) :
    Option (List (String × String × String)) :=
  (asked dim e).mapM fun k => do
    let ex ← lookup fs ("true " ++ k.1) k.2
    if k.1 ∈ vars.flatMap (if k.2 = "ip" then fields dim else sideFields) then some (k.1, ex, k.2) else none

/-! ## Specification -/

/-- The directions of space.  [specification, no code] -/
def dirs : Nat → List String
  | 1 => ["[x]"]
  | 2 => ["[x]", "[y]"]
  | _ => ["[x]", "[y]", "[z]"]

/-- What a norm of the error of `v` compares: the quantity, the name of its true solution in the input, the location.
[specification, no code] -/
inductive Compares (dim : Nat) (v : String) : String → String × String × String → Prop where
  | value : Compares dim v "L2" (v, v, "ip")
  | grad (c) (h : c ∈ dirs dim) : Compares dim v "GRAD" ("grad(" ++ v ++ ")" ++ c, "grad(" ++ v ++ ")" ++ c, "ip")
  | face : Compares dim v "L2 FACE" (v, v ++ " face", "side ip")
  | vec (c) (h : c ∈ dirs dim) : Compares dim v "L2 VECTOR" (v ++ c, v ++ c, "ip")
  | div : Compares dim v "DIV" ("div(" ++ v ++ ")", "div(" ++ v ++ ")", "ip")
  | curl (c) (h : c ∈ dirs dim) : Compares dim v "CURL" ("curl(" ++ v ++ ")" ++ c, "curl(" ++ v ++ ")" ++ c, "ip")

/-- Some component of a vector is in the input.  [specification, no code] -/
def AnyOf (d : Deck) (key : String → String) : Prop := ∃ c ∈ ["[x]", "[y]", "[z]"], d (key c) ≠ none

/-- All components of the space are in the input, as expressions.  [specification, no code] -/
def AllOf (d : Deck) (dim : Nat) (key : String → String) : Prop := ∀ c ∈ dirs dim, ∃ e, d (key c) = some (some e)

/-- The input asks for this norm of the error of `v`.  [specification, no code] -/
inductive Wanted (d : Deck) (v : Var) : String → Prop where
  | value (h : d v.name ≠ none) (hk : v.kind = .hgrad ∨ v.kind = .hvol) : Wanted d v "L2"
  | grad (h : AnyOf d fun c => "grad(" ++ v.name ++ ")" ++ c) : Wanted d v "GRAD"
  | face (h : d (v.name ++ " face") ≠ none) : Wanted d v "L2 FACE"
  | vec (h : AnyOf d fun c => v.name ++ c) : Wanted d v "L2 VECTOR"
  | div (h : d ("div(" ++ v.name ++ ")") ≠ none) : Wanted d v "DIV"
  | curl (h : AnyOf d fun c => "curl(" ++ v.name ++ ")" ++ c) : Wanted d v "CURL"

/-- The true solutions of a variable are complete and fit its basis.  [specification, no code] -/
structure Sound (d : Deck) (dim : Nat) (v : Var) : Prop where
  value : v.kind = .hgrad ∨ v.kind = .hvol → d v.name ≠ some none
  grad : AnyOf d (fun c => "grad(" ++ v.name ++ ")" ++ c) → v.kind = .hgrad ∧ AllOf d dim fun c => "grad(" ++ v.name ++ ")" ++ c
  face : d (v.name ++ " face") ≠ none → (v.kind = .hgrad ∨ v.kind = .hface) ∧ d (v.name ++ " face") ≠ some none
  vec : AnyOf d (fun c => v.name ++ c) → (v.kind = .hdiv ∨ v.kind = .hcurl) ∧ AllOf d dim fun c => v.name ++ c
  div : d ("div(" ++ v.name ++ ")") ≠ none → v.kind = .hdiv ∧ d ("div(" ++ v.name ++ ")") ≠ some none
  curl : AnyOf d (fun c => "curl(" ++ v.name ++ ")" ++ c) →
    v.kind = .hcurl ∧ AllOf d dim fun c => "curl(" ++ v.name ++ ")" ++ c

/-! ## Lemmas -/

theorem comps_eq {dim : Nat} (h1 : 1 ≤ dim) (h3 : dim ≤ 3) : comps dim = dirs dim := by
  have : dim = 1 ∨ dim = 2 ∨ dim = 3 := by omega
  rcases this with rfl | rfl | rfl <;> simp [comps, dirs]

theorem mapM_id {α : Type} : ∀ {l : List (Option α)} {ys : List α}, l.mapM id = some ys ↔ l = ys.map some
  | [], ys => by cases ys <;> simp
  | a :: l, ys => by
    rw [List.mapM_cons]
    cases a with
    | none => cases ys <;> simp
    | some x =>
      cases hm : l.mapM id with
      | none =>
        simp only [id_eq, Option.bind_eq_bind, Option.bind_some, Option.bind_none, reduceCtorEq, false_iff]
        intro h
        cases ys with
        | nil => simp at h
        | cons y t =>
          simp only [List.map_cons, List.cons.injEq] at h
          rw [mapM_id.2 h.2] at hm
          simp at hm
      | some xs =>
        have hx := mapM_id.1 hm
        simp only [id_eq, Option.bind_eq_bind, Option.bind_some, Option.pure_def, Option.some.injEq]
        constructor
        · rintro rfl; simp [hx]
        · intro h
          cases ys with
          | nil => simp at h
          | cons y t =>
            simp only [List.map_cons, List.cons.injEq, Option.some.injEq] at h
            obtain ⟨rfl, h⟩ := h
            rw [mapM_id.2 h] at hm
            simp only [Option.some.injEq] at hm
            rw [hm]

theorem mapM_some {α β : Type} (f : α → Option β) : ∀ {l : List α} {ys : List β}, l.mapM f = some ys ↔ l.map f = ys.map some := by
  intro l ys
  rw [← mapM_id, List.mapM_map]
  rfl

theorem addTrue_some {d : Deck} {dim : Nat} {vars : List Var} {a : Inc} (h : addTrue d dim vars = some a) :
    (∀ v ∈ vars, ∀ s ∈ steps d dim v, s ≠ none) ∧
    (∀ e, e ∈ a.1 ↔ ∃ v ∈ vars, ∃ i, some i ∈ steps d dim v ∧ e ∈ i.1) ∧
    (∀ e, e ∈ a.2 ↔ ∃ v ∈ vars, ∃ i, some i ∈ steps d dim v ∧ e ∈ i.2) := by
  obtain ⟨l, hl, rfl⟩ := Option.map_eq_some_iff.1 h
  have hl := mapM_id.1 hl
  have hmem : ∀ i, i ∈ l ↔ ∃ v ∈ vars, some i ∈ steps d dim v := by
    intro i
    rw [← List.mem_flatMap, hl]
    simp
  refine ⟨?_, ?_, ?_⟩
  · rintro v hv s hs rfl
    have : (none : Option Inc) ∈ vars.flatMap (steps d dim) := List.mem_flatMap.2 ⟨v, hv, hs⟩
    rw [hl] at this
    simp at this
  all_goals
    intro e
    simp only [List.mem_flatMap, hmem]
    constructor
    · rintro ⟨i, ⟨v, hv, hi⟩, he⟩; exact ⟨v, hv, i, hi, he⟩
    · rintro ⟨v, hv, i, hi, he⟩; exact ⟨i, ⟨v, hv, hi⟩, he⟩

theorem addTrue_isSome (d : Deck) (dim : Nat) (vars : List Var) :
    (∃ a, addTrue d dim vars = some a) ↔ ∀ v ∈ vars, ∀ s ∈ steps d dim v, s ≠ none := by
  constructor
  · rintro ⟨a, h⟩; exact (addTrue_some h).1
  · intro h
    have : ∃ ys : List Inc, vars.flatMap (steps d dim) = ys.map some := by
      have h' : ∀ s ∈ vars.flatMap (steps d dim), s ≠ none := by
        intro s hs
        obtain ⟨v, hv, hs⟩ := List.mem_flatMap.1 hs
        exact h v hv s hs
      generalize vars.flatMap (steps d dim) = l at h'
      induction l with
      | nil => exact ⟨[], rfl⟩
      | cons x t ih =>
        obtain ⟨ys, hy⟩ := ih fun s hs => h' s (List.mem_cons_of_mem _ hs)
        obtain ⟨y, rfl⟩ := Option.ne_none_iff_exists'.1 (h' x List.mem_cons_self)
        exact ⟨y :: ys, by simp [hy]⟩
    obtain ⟨ys, hy⟩ := this
    exact ⟨_, by unfold addTrue; rw [mapM_id.2 hy]; rfl⟩

theorem given_iff (d : Deck) (k : String) : given d k = true ↔ d k ≠ none := by
  simp [given, Option.isSome_iff_ne_none]

theorem get_some (d : Deck) (k : String) (h : d k ≠ none) (e : String) : get d k = some e ↔ d k = some (some e) := by
  unfold get
  cases hd : d k with
  | none => exact absurd hd h
  | some x => simp

theorem any_iff (d : Deck) (key : String → String) :
    (given d (key "[x]") || given d (key "[y]") || given d (key "[z]")) = true ↔ AnyOf d key := by
  simp only [Bool.or_eq_true, given_iff, AnyOf, List.mem_cons, List.not_mem_nil, or_false]
  constructor
  · rintro ((h | h) | h)
    · exact ⟨"[x]", Or.inl rfl, h⟩
    · exact ⟨"[y]", Or.inr (Or.inl rfl), h⟩
    · exact ⟨"[z]", Or.inr (Or.inr rfl), h⟩
  · rintro ⟨c, rfl | rfl | rfl, h⟩
    · exact Or.inl (Or.inl h)
    · exact Or.inl (Or.inr h)
    · exact Or.inr h

theorem mem_dirs (dim : Nat) (c : String) (h : c ∈ dirs dim) : c ∈ ["[x]", "[y]", "[z]"] := by
  unfold dirs at h
  split at h <;> simp at h ⊢ <;> tauto

/-- What a group of components does. -/
theorem group_cases {dim : Nat} (h1 : 1 ≤ dim) (h3 : dim ≤ 3) (d : Deck) (v : Var) (key : String → String) (ok : Bool)
    (norm : String) :
    (¬ AnyOf d key ∧ group d dim v key ok norm = some ([], [])) ∨
    (AnyOf d key ∧ ¬ (ok = true ∧ AllOf d dim key) ∧ group d dim v key ok norm = none) ∨
    (AnyOf d key ∧ ok = true ∧ AllOf d dim key ∧ ∃ fs, group d dim v key ok norm = some ([(v.name, norm)], fs) ∧
      ∀ f, f ∈ fs ↔ ∃ c ∈ dirs dim, ∃ e, d (key c) = some (some e) ∧ f = ("true " ++ key c, e, "ip")) := by
  by_cases ha : AnyOf d key
  · right
    have ha' := (any_iff d key).2 ha
    unfold group
    rw [if_pos ha', comps_eq h1 h3]
    by_cases hall : ((dirs dim).all fun c => given d (key c)) = true
    · rw [if_pos hall]
      have hall' : ∀ c ∈ dirs dim, d (key c) ≠ none := by
        simpa [given_iff] using hall
      by_cases hok : ok = true
      · rw [if_pos hok]
        cases hm : (dirs dim).mapM fun c => (get d (key c)).map fun e => ("true " ++ key c, e, "ip") with
        | none =>
          left
          refine ⟨ha, ?_, rfl⟩
          rintro ⟨_, hA⟩
          have : ∃ ys, (dirs dim).mapM (fun c => (get d (key c)).map fun e => ("true " ++ key c, e, "ip")) = some ys := by
            refine ⟨(dirs dim).map fun c => ("true " ++ key c, (get d (key c)).getD "", "ip"), ?_⟩
            rw [mapM_some, List.map_map]
            apply List.map_congr_left
            intro c hc
            obtain ⟨e, he⟩ := hA c hc
            simp [(get_some d (key c) (hall' c hc) e).2 he]
          rw [hm] at this
          simp at this
        | some fs =>
          right
          have hm' := (mapM_some _).1 hm
          have hf : ∀ f, f ∈ fs ↔ ∃ c ∈ dirs dim, ∃ e, d (key c) = some (some e) ∧ f = ("true " ++ key c, e, "ip") := by
            intro f
            have : f ∈ fs ↔ some f ∈ fs.map some := by simp
            rw [this, ← hm', List.mem_map]
            constructor
            · rintro ⟨c, hc, h⟩
              obtain ⟨e, he, rfl⟩ := Option.map_eq_some_iff.1 h
              exact ⟨c, hc, e, (get_some d _ (hall' c hc) e).1 he, rfl⟩
            · rintro ⟨c, hc, e, he, rfl⟩
              exact ⟨c, hc, by rw [(get_some d _ (hall' c hc) e).2 he]; rfl⟩
          refine ⟨ha, hok, ?_, fs, rfl, hf⟩
          intro c hc
          have hg : (get d (key c)).map (fun e => ("true " ++ key c, e, "ip")) ∈ fs.map some := by
            rw [← hm']
            exact List.mem_map.2 ⟨c, hc, rfl⟩
          obtain ⟨f, _, hf'⟩ := List.mem_map.1 hg
          obtain ⟨e, he, _⟩ := Option.map_eq_some_iff.1 hf'.symm
          exact ⟨e, (get_some d _ (hall' c hc) e).1 he⟩
      · left
        rw [if_neg hok]
        exact ⟨ha, fun h => hok h.1, rfl⟩
    · left
      rw [if_neg hall]
      refine ⟨ha, ?_, rfl⟩
      rintro ⟨_, hA⟩
      apply hall
      simp only [List.all_eq_true, given_iff]
      intro c hc
      obtain ⟨e, he⟩ := hA c hc
      rw [he]; simp
  · left
    refine ⟨ha, ?_⟩
    unfold group
    rw [if_neg fun h => ha ((any_iff d key).1 h)]

/-- What a single true solution does. -/
theorem single_cases (d : Deck) (k : String) (g : String → Inc) (h : d k ≠ none) :
    (d k = some none ∧ (get d k).map g = none) ∨ ∃ e, d k = some (some e) ∧ (get d k).map g = some (g e) := by
  cases hd : d k with
  | none => exact absurd hd h
  | some x =>
    cases x with
    | none => left; exact ⟨rfl, by simp [get, hd]⟩
    | some e => right; exact ⟨e, rfl, by simp [get, hd]⟩

theorem scalar_cases (d : Deck) (v : Var) :
    (¬ (d v.name ≠ none ∧ (v.kind = .hgrad ∨ v.kind = .hvol)) ∧ scalar d v = some ([], [])) ∨
    ((v.kind = .hgrad ∨ v.kind = .hvol) ∧ d v.name = some none ∧ scalar d v = none) ∨
    ((v.kind = .hgrad ∨ v.kind = .hvol) ∧ ∃ e, d v.name = some (some e) ∧
      scalar d v = some ([(v.name, "L2")], [("true " ++ v.name, e, "ip")])) := by
  unfold scalar
  by_cases hg : d v.name ≠ none
  · rw [if_pos ((given_iff d _).2 hg)]
    by_cases hk : v.kind = .hgrad ∨ v.kind = .hvol
    · rw [if_pos hk]
      rcases single_cases d v.name (fun e => ([(v.name, "L2")], [("true " ++ v.name, e, "ip")])) hg with ⟨h1, h2⟩ | ⟨e, h1, h2⟩
      · exact Or.inr (Or.inl ⟨hk, h1, h2⟩)
      · exact Or.inr (Or.inr ⟨hk, e, h1, h2⟩)
    · rw [if_neg hk]
      exact Or.inl ⟨fun h => hk h.2, rfl⟩
  · rw [if_neg fun h => hg ((given_iff d _).1 h)]
    exact Or.inl ⟨fun h => hg h.1, rfl⟩

/-- A single true solution that has to fit the basis. -/
theorem strict_cases (d : Deck) (k : String) (ok : Prop) [Decidable ok] (g : String → Inc) :
    (d k = none ∧ (if given d k then if ok then (get d k).map g else none else some ([], [])) = some ([], [])) ∨
    (d k ≠ none ∧ ¬ (ok ∧ d k ≠ some none) ∧
      (if given d k then if ok then (get d k).map g else none else some ([], [])) = none) ∨
    (ok ∧ ∃ e, d k = some (some e) ∧
      (if given d k then if ok then (get d k).map g else none else some ([], [])) = some (g e)) := by
  by_cases hg : d k ≠ none
  · rw [if_pos ((given_iff d _).2 hg)]
    by_cases hk : ok
    · rw [if_pos hk]
      rcases single_cases d k g hg with ⟨h1, h2⟩ | ⟨e, h1, h2⟩
      · exact Or.inr (Or.inl ⟨hg, fun h => h.2 h1, h2⟩)
      · exact Or.inr (Or.inr ⟨hk, e, h1, h2⟩)
    · rw [if_neg hk]
      exact Or.inr (Or.inl ⟨hg, fun h => hk h.1, rfl⟩)
  · rw [if_neg fun h => hg ((given_iff d _).1 h)]
    exact Or.inl ⟨not_not.1 hg, rfl⟩

theorem face_cases (d : Deck) (v : Var) :
    (d (v.name ++ " face") = none ∧ face d v = some ([], [])) ∨
    (d (v.name ++ " face") ≠ none ∧ ¬ ((v.kind = .hgrad ∨ v.kind = .hface) ∧ d (v.name ++ " face") ≠ some none) ∧ face d v = none) ∨
    ((v.kind = .hgrad ∨ v.kind = .hface) ∧ ∃ e, d (v.name ++ " face") = some (some e) ∧
      face d v = some ([(v.name, "L2 FACE")], [("true " ++ v.name, e, "side ip")])) :=
  strict_cases d (v.name ++ " face") (v.kind = .hgrad ∨ v.kind = .hface) _

theorem div_cases (d : Deck) (v : Var) :
    (d ("div(" ++ v.name ++ ")") = none ∧ divergence d v = some ([], [])) ∨
    (d ("div(" ++ v.name ++ ")") ≠ none ∧ ¬ (v.kind = .hdiv ∧ d ("div(" ++ v.name ++ ")") ≠ some none) ∧ divergence d v = none) ∨
    (v.kind = .hdiv ∧ ∃ e, d ("div(" ++ v.name ++ ")") = some (some e) ∧
      divergence d v = some ([(v.name, "DIV")], [("true " ++ ("div(" ++ v.name ++ ")"), e, "ip")])) :=
  strict_cases d ("div(" ++ v.name ++ ")") (v.kind = .hdiv) _

theorem steps_forall {d : Deck} {dim : Nat} {v : Var} {P : Option Inc → Prop} :
    (∀ s ∈ steps d dim v, P s) ↔ P (scalar d v) ∧
      P (group d dim v (fun c => "grad(" ++ v.name ++ ")" ++ c) (v.kind == .hgrad) "GRAD") ∧ P (face d v) ∧
      P (group d dim v (fun c => v.name ++ c) (v.kind == .hdiv || v.kind == .hcurl) "L2 VECTOR") ∧ P (divergence d v) ∧
      P (group d dim v (fun c => "curl(" ++ v.name ++ ")" ++ c) (v.kind == .hcurl) "CURL") := by
  simp [steps]

theorem group_ne_none {dim : Nat} (h1 : 1 ≤ dim) (h3 : dim ≤ 3) (d : Deck) (v : Var) (key : String → String) (ok : Bool)
    (norm : String) : group d dim v key ok norm ≠ none ↔ (AnyOf d key → ok = true ∧ AllOf d dim key) := by
  rcases group_cases h1 h3 d v key ok norm with ⟨ha, h⟩ | ⟨ha, hn, h⟩ | ⟨ha, hok, hA, fs, h, _⟩
  · rw [h]; simp [ha]
  · rw [h]; simp [ha] at hn ⊢; exact hn
  · rw [h]; simp [ha, hok, hA]

theorem steps_sound {dim : Nat} (h1 : 1 ≤ dim) (h3 : dim ≤ 3) (d : Deck) (v : Var) :
    (∀ s ∈ steps d dim v, s ≠ none) ↔ Sound d dim v := by
  rw [steps_forall (P := fun s => s ≠ none), group_ne_none h1 h3, group_ne_none h1 h3, group_ne_none h1 h3]
  simp only [beq_iff_eq, Bool.or_eq_true]
  have hs : scalar d v ≠ none ↔ (v.kind = .hgrad ∨ v.kind = .hvol → d v.name ≠ some none) := by
    rcases scalar_cases d v with ⟨ha, h⟩ | ⟨hk, hd, h⟩ | ⟨hk, e, hd, h⟩
    · rw [h]
      simp only [ne_eq, reduceCtorEq, not_false_eq_true, true_iff]
      intro hk hd
      exact ha ⟨by rw [hd]; simp, hk⟩
    · rw [h]; simp [hk, hd]
    · rw [h]; simp [hd]
  have hf : face d v ≠ none ↔ (d (v.name ++ " face") ≠ none →
      (v.kind = .hgrad ∨ v.kind = .hface) ∧ d (v.name ++ " face") ≠ some none) := by
    rcases face_cases d v with ⟨ha, h⟩ | ⟨ha, hn, h⟩ | ⟨hk, e, hd, h⟩
    · rw [h]; simp [ha]
    · rw [h]
      exact ⟨fun x => absurd rfl x, fun x => absurd (x ha) hn⟩
    · rw [h]; simp [hd, hk]
  have hd : divergence d v ≠ none ↔ (d ("div(" ++ v.name ++ ")") ≠ none →
      v.kind = .hdiv ∧ d ("div(" ++ v.name ++ ")") ≠ some none) := by
    rcases div_cases d v with ⟨ha, h⟩ | ⟨ha, hn, h⟩ | ⟨hk, e, hd, h⟩
    · rw [h]; simp [ha]
    · rw [h]
      exact ⟨fun x => absurd rfl x, fun x => absurd (x ha) hn⟩
    · rw [h]; simp [hd, hk]
  rw [hs, hf, hd]
  exact ⟨fun ⟨a, b, c, e, f, g⟩ => ⟨a, b, c, e, f, g⟩, fun ⟨a, b, c, e, f, g⟩ => ⟨a, b, c, e, f, g⟩⟩

/-- A function of the list has the expression of the input. -/
def FromInput (d : Deck) (f : String × String × String) : Prop :=
  (∃ k e, f = ("true " ++ k, e, "ip") ∧ d k = some (some e)) ∨
    ∃ k e, f = ("true " ++ k, e, "side ip") ∧ d (k ++ " face") = some (some e)

theorem group_mem {dim : Nat} (h1 : 1 ≤ dim) (h3 : dim ≤ 3) {d : Deck} {v : Var} {key : String → String} {ok : Bool}
    {norm : String} {i : Inc} (h : group d dim v key ok norm = some i) :
    (∀ e ∈ i.1, e = (v.name, norm) ∧ AnyOf d key) ∧ (∀ f ∈ i.2, FromInput d f) ∧
    (AnyOf d key → (v.name, norm) ∈ i.1 ∧ ok = true ∧
      ∀ c ∈ dirs dim, ∃ e, d (key c) = some (some e) ∧ ("true " ++ key c, e, "ip") ∈ i.2) := by
  rcases group_cases h1 h3 d v key ok norm with ⟨ha, h'⟩ | ⟨ha, hn, h'⟩ | ⟨ha, hok, hA, fs, h', hf⟩
  · rw [h'] at h
    simp only [Option.some.injEq] at h
    subst h
    simp [ha]
  · rw [h'] at h; simp at h
  · rw [h'] at h
    simp only [Option.some.injEq] at h
    subst h
    refine ⟨by simp [ha], ?_, ?_⟩
    · intro f hff
      obtain ⟨c, _, e, he, rfl⟩ := (hf f).1 hff
      exact Or.inl ⟨_, e, rfl, he⟩
    · intro _
      refine ⟨by simp, hok, ?_⟩
      intro c hc
      obtain ⟨e, he⟩ := hA c hc
      exact ⟨e, he, (hf _).2 ⟨c, hc, e, he, rfl⟩⟩

theorem scalar_mem {d : Deck} {v : Var} {i : Inc} (h : scalar d v = some i) :
    (∀ e ∈ i.1, e = (v.name, "L2") ∧ d v.name ≠ none ∧ (v.kind = .hgrad ∨ v.kind = .hvol)) ∧ (∀ f ∈ i.2, FromInput d f) ∧
    (d v.name ≠ none → v.kind = .hgrad ∨ v.kind = .hvol → (v.name, "L2") ∈ i.1 ∧
      ∃ e, d v.name = some (some e) ∧ ("true " ++ v.name, e, "ip") ∈ i.2) := by
  rcases scalar_cases d v with ⟨ha, h'⟩ | ⟨hk, hd, h'⟩ | ⟨hk, e, hd, h'⟩
  · rw [h'] at h
    simp only [Option.some.injEq] at h
    subst h
    refine ⟨by simp, by simp, ?_⟩
    intro x y
    exact absurd ⟨x, y⟩ ha
  · rw [h'] at h; simp at h
  · rw [h'] at h
    simp only [Option.some.injEq] at h
    subst h
    refine ⟨?_, ?_, ?_⟩
    · intro x hx
      simp only [List.mem_singleton] at hx
      exact ⟨hx, by rw [hd]; simp, hk⟩
    · intro f hf
      simp only [List.mem_singleton] at hf
      exact Or.inl ⟨_, e, hf, hd⟩
    · intro _ _
      exact ⟨List.mem_cons_self, e, hd, List.mem_cons_self⟩

theorem face_mem {d : Deck} {v : Var} {i : Inc} (h : face d v = some i) :
    (∀ e ∈ i.1, e = (v.name, "L2 FACE") ∧ d (v.name ++ " face") ≠ none) ∧ (∀ f ∈ i.2, FromInput d f) ∧
    (d (v.name ++ " face") ≠ none → (v.name, "L2 FACE") ∈ i.1 ∧ (v.kind = .hgrad ∨ v.kind = .hface) ∧
      ∃ e, d (v.name ++ " face") = some (some e) ∧ ("true " ++ v.name, e, "side ip") ∈ i.2) := by
  rcases face_cases d v with ⟨ha, h'⟩ | ⟨ha, hn, h'⟩ | ⟨hk, e, hd, h'⟩
  · rw [h'] at h
    simp only [Option.some.injEq] at h
    subst h
    exact ⟨by simp, by simp, fun x => absurd ha x⟩
  · rw [h'] at h; simp at h
  · rw [h'] at h
    simp only [Option.some.injEq] at h
    subst h
    refine ⟨?_, ?_, ?_⟩
    · intro x hx
      simp only [List.mem_singleton] at hx
      exact ⟨hx, by rw [hd]; simp⟩
    · intro f hf
      simp only [List.mem_singleton] at hf
      exact Or.inr ⟨_, e, hf, hd⟩
    · intro _
      exact ⟨List.mem_cons_self, hk, e, hd, List.mem_cons_self⟩

theorem div_mem {d : Deck} {v : Var} {i : Inc} (h : divergence d v = some i) :
    (∀ e ∈ i.1, e = (v.name, "DIV") ∧ d ("div(" ++ v.name ++ ")") ≠ none) ∧ (∀ f ∈ i.2, FromInput d f) ∧
    (d ("div(" ++ v.name ++ ")") ≠ none → (v.name, "DIV") ∈ i.1 ∧ v.kind = .hdiv ∧
      ∃ e, d ("div(" ++ v.name ++ ")") = some (some e) ∧ ("true " ++ ("div(" ++ v.name ++ ")"), e, "ip") ∈ i.2) := by
  rcases div_cases d v with ⟨ha, h'⟩ | ⟨ha, hn, h'⟩ | ⟨hk, e, hd, h'⟩
  · rw [h'] at h
    simp only [Option.some.injEq] at h
    subst h
    exact ⟨by simp, by simp, fun x => absurd ha x⟩
  · rw [h'] at h; simp at h
  · rw [h'] at h
    simp only [Option.some.injEq] at h
    subst h
    refine ⟨?_, ?_, ?_⟩
    · intro x hx
      simp only [List.mem_singleton] at hx
      exact ⟨hx, by rw [hd]; simp⟩
    · intro f hf
      simp only [List.mem_singleton] at hf
      exact Or.inl ⟨_, e, hf, hd⟩
    · intro _
      exact ⟨List.mem_cons_self, hk, e, hd, List.mem_cons_self⟩

/-- What the steps of a variable add, in one statement. -/
theorem steps_mem {dim : Nat} (h1 : 1 ≤ dim) (h3 : dim ≤ 3) {d : Deck} {v : Var} {i : Inc} (h : some i ∈ steps d dim v) :
    (∀ e ∈ i.1, e.1 = v.name ∧ Wanted d v e.2) ∧ ∀ f ∈ i.2, FromInput d f := by
  simp only [steps, List.mem_cons, List.not_mem_nil, or_false] at h
  rcases h with h | h | h | h | h | h
  · obtain ⟨a, b, _⟩ := scalar_mem h.symm
    refine ⟨fun e he => ?_, b⟩
    obtain ⟨rfl, x, y⟩ := a e he
    exact ⟨rfl, .value x y⟩
  · obtain ⟨a, b, _⟩ := group_mem h1 h3 h.symm
    refine ⟨fun e he => ?_, b⟩
    obtain ⟨rfl, x⟩ := a e he
    exact ⟨rfl, .grad x⟩
  · obtain ⟨a, b, _⟩ := face_mem h.symm
    refine ⟨fun e he => ?_, b⟩
    obtain ⟨rfl, x⟩ := a e he
    exact ⟨rfl, .face x⟩
  · obtain ⟨a, b, _⟩ := group_mem h1 h3 h.symm
    refine ⟨fun e he => ?_, b⟩
    obtain ⟨rfl, x⟩ := a e he
    exact ⟨rfl, .vec x⟩
  · obtain ⟨a, b, _⟩ := div_mem h.symm
    refine ⟨fun e he => ?_, b⟩
    obtain ⟨rfl, x⟩ := a e he
    exact ⟨rfl, .div x⟩
  · obtain ⟨a, b, _⟩ := group_mem h1 h3 h.symm
    refine ⟨fun e he => ?_, b⟩
    obtain ⟨rfl, x⟩ := a e he
    exact ⟨rfl, .curl x⟩

theorem compares_inv {dim : Nat} {v n : String} {t : String × String × String} (h : Compares dim v n t) :
    (n = "L2" → t = (v, v, "ip")) ∧
    (n = "GRAD" → ∃ c ∈ dirs dim, t = ("grad(" ++ v ++ ")" ++ c, "grad(" ++ v ++ ")" ++ c, "ip")) ∧
    (n = "L2 FACE" → t = (v, v ++ " face", "side ip")) ∧
    (n = "L2 VECTOR" → ∃ c ∈ dirs dim, t = (v ++ c, v ++ c, "ip")) ∧
    (n = "DIV" → t = ("div(" ++ v ++ ")", "div(" ++ v ++ ")", "ip")) ∧
    (n = "CURL" → ∃ c ∈ dirs dim, t = ("curl(" ++ v ++ ")" ++ c, "curl(" ++ v ++ ")" ++ c, "ip")) := by
  have n1 : "L2" ≠ "GRAD" ∧ "L2" ≠ "L2 FACE" ∧ "L2" ≠ "L2 VECTOR" ∧ "L2" ≠ "DIV" ∧ "L2" ≠ "CURL" := by decide
  have n2 : "GRAD" ≠ "L2" ∧ "GRAD" ≠ "L2 FACE" ∧ "GRAD" ≠ "L2 VECTOR" ∧ "GRAD" ≠ "DIV" ∧ "GRAD" ≠ "CURL" := by decide
  have n3 : "L2 FACE" ≠ "L2" ∧ "L2 FACE" ≠ "GRAD" ∧ "L2 FACE" ≠ "L2 VECTOR" ∧ "L2 FACE" ≠ "DIV" ∧ "L2 FACE" ≠ "CURL" := by
    decide
  have n4 : "L2 VECTOR" ≠ "L2" ∧ "L2 VECTOR" ≠ "GRAD" ∧ "L2 VECTOR" ≠ "L2 FACE" ∧ "L2 VECTOR" ≠ "DIV" ∧ "L2 VECTOR" ≠ "CURL" := by
    decide
  have n5 : "DIV" ≠ "L2" ∧ "DIV" ≠ "GRAD" ∧ "DIV" ≠ "L2 FACE" ∧ "DIV" ≠ "L2 VECTOR" ∧ "DIV" ≠ "CURL" := by decide
  have n6 : "CURL" ≠ "L2" ∧ "CURL" ≠ "GRAD" ∧ "CURL" ≠ "L2 FACE" ∧ "CURL" ≠ "L2 VECTOR" ∧ "CURL" ≠ "DIV" := by decide
  obtain ⟨a1, a2, a3, a4, a5⟩ := n1
  obtain ⟨b1, b2, b3, b4, b5⟩ := n2
  obtain ⟨c1, c2, c3, c4, c5⟩ := n3
  obtain ⟨d1, d2, d3, d4, d5⟩ := n4
  obtain ⟨e1, e2, e3, e4, e5⟩ := n5
  obtain ⟨f1, f2, f3, f4, f5⟩ := n6
  cases h with
  | value => exact ⟨fun _ => rfl, fun h => absurd h a1, fun h => absurd h a2, fun h => absurd h a3, fun h => absurd h a4,
      fun h => absurd h a5⟩
  | grad c hc => exact ⟨fun h => absurd h b1, fun _ => ⟨c, hc, rfl⟩, fun h => absurd h b2, fun h => absurd h b3,
      fun h => absurd h b4, fun h => absurd h b5⟩
  | face => exact ⟨fun h => absurd h c1, fun h => absurd h c2, fun _ => rfl, fun h => absurd h c3, fun h => absurd h c4,
      fun h => absurd h c5⟩
  | vec c hc => exact ⟨fun h => absurd h d1, fun h => absurd h d2, fun h => absurd h d3, fun _ => ⟨c, hc, rfl⟩,
      fun h => absurd h d4, fun h => absurd h d5⟩
  | div => exact ⟨fun h => absurd h e1, fun h => absurd h e2, fun h => absurd h e3, fun h => absurd h e4, fun _ => rfl,
      fun h => absurd h e5⟩
  | curl c hc => exact ⟨fun h => absurd h f1, fun h => absurd h f2, fun h => absurd h f3, fun h => absurd h f4,
      fun h => absurd h f5, fun _ => ⟨c, hc, rfl⟩⟩

/-- The step for a norm, when no step fails: it adds the norm, and for every quantity the function, and the fields exist, except
those of a curl in the plane. -/
theorem steps_wanted {dim : Nat} (h1 : 1 ≤ dim) (h3 : dim ≤ 3) {d : Deck} {v : Var} (hs : ∀ s ∈ steps d dim v, s ≠ none)
    {n : String} (hw : Wanted d v n) : ∃ i, some i ∈ steps d dim v ∧ (v.name, n) ∈ i.1 ∧
      ∀ q k l, Compares dim v.name n (q, k, l) → (∃ e, d k = some (some e) ∧ ("true " ++ q, e, l) ∈ i.2) ∧
        (¬ (n = "CURL" ∧ dim = 2) → q ∈ (if l = "ip" then fields dim else sideFields) v) := by
  obtain ⟨s1, s2, s3, s4, s5, s6⟩ := (steps_forall (P := fun s => s ≠ none)).1 hs
  cases hw with
  | value h hk =>
    obtain ⟨i, hi⟩ := Option.ne_none_iff_exists'.1 s1
    obtain ⟨_, _, c⟩ := scalar_mem hi
    obtain ⟨c1, e, c2, c3⟩ := c h hk
    refine ⟨i, by simp [steps, hi], c1, ?_⟩
    intro q k l hcmp
    obtain ⟨rfl, rfl, rfl⟩ := Prod.mk.inj ((compares_inv hcmp).1 rfl) |>.imp_right fun h => Prod.mk.inj h
    refine ⟨⟨e, c2, c3⟩, fun _ => ?_⟩
    rcases hk with hk | hk <;> simp [fields, hk]
  | grad h =>
    obtain ⟨i, hi⟩ := Option.ne_none_iff_exists'.1 s2
    obtain ⟨_, _, c⟩ := group_mem h1 h3 hi
    obtain ⟨c1, c2, c3⟩ := c h
    refine ⟨i, by simp [steps, hi], c1, ?_⟩
    intro q k l hcmp
    obtain ⟨c, hc, hqe⟩ := (compares_inv hcmp).2.1 rfl
    obtain ⟨rfl, rfl, rfl⟩ := Prod.mk.inj hqe |>.imp_right fun h => Prod.mk.inj h
    refine ⟨c3 c hc, fun _ => ?_⟩
    have hk : v.kind = .hgrad := by simpa using c2
    have := mem_dirs dim c hc
    simp only [List.mem_cons, List.not_mem_nil, or_false] at this
    rcases this with rfl | rfl | rfl <;> simp [fields, hk]
  | face h =>
    obtain ⟨i, hi⟩ := Option.ne_none_iff_exists'.1 s3
    obtain ⟨_, _, c⟩ := face_mem hi
    obtain ⟨c1, hk, e, c2, c3⟩ := c h
    refine ⟨i, by simp [steps, hi], c1, ?_⟩
    intro q k l hcmp
    obtain ⟨rfl, rfl, rfl⟩ := Prod.mk.inj ((compares_inv hcmp).2.2.1 rfl) |>.imp_right fun h => Prod.mk.inj h
    refine ⟨⟨e, c2, c3⟩, fun _ => ?_⟩
    rw [if_neg (by decide)]
    rcases hk with hk | hk <;> simp [sideFields, hk]
  | vec h =>
    obtain ⟨i, hi⟩ := Option.ne_none_iff_exists'.1 s4
    obtain ⟨_, _, c⟩ := group_mem h1 h3 hi
    obtain ⟨c1, c2, c3⟩ := c h
    refine ⟨i, by simp [steps, hi], c1, ?_⟩
    intro q k l hcmp
    obtain ⟨c, hc, hqe⟩ := (compares_inv hcmp).2.2.2.1 rfl
    obtain ⟨rfl, rfl, rfl⟩ := Prod.mk.inj hqe |>.imp_right fun h => Prod.mk.inj h
    refine ⟨c3 c hc, fun _ => ?_⟩
    have hk : v.kind = .hdiv ∨ v.kind = .hcurl := by simpa using c2
    have := mem_dirs dim c hc
    simp only [List.mem_cons, List.not_mem_nil, or_false] at this
    rcases hk with hk | hk <;> rcases this with rfl | rfl | rfl <;> simp [fields, hk]
  | div h =>
    obtain ⟨i, hi⟩ := Option.ne_none_iff_exists'.1 s5
    obtain ⟨_, _, c⟩ := div_mem hi
    obtain ⟨c1, hk, e, c2, c3⟩ := c h
    refine ⟨i, by simp [steps, hi], c1, ?_⟩
    intro q k l hcmp
    obtain ⟨rfl, rfl, rfl⟩ := Prod.mk.inj ((compares_inv hcmp).2.2.2.2.1 rfl) |>.imp_right fun h => Prod.mk.inj h
    exact ⟨⟨e, c2, c3⟩, fun _ => by simp [fields, hk]⟩
  | curl h =>
    obtain ⟨i, hi⟩ := Option.ne_none_iff_exists'.1 s6
    obtain ⟨_, _, c⟩ := group_mem h1 h3 hi
    obtain ⟨c1, c2, c3⟩ := c h
    refine ⟨i, by simp [steps, hi], c1, ?_⟩
    intro q k l hcmp
    obtain ⟨c, hc, hqe⟩ := (compares_inv hcmp).2.2.2.2.2 rfl
    obtain ⟨rfl, rfl, rfl⟩ := Prod.mk.inj hqe |>.imp_right fun h => Prod.mk.inj h
    refine ⟨c3 c hc, fun h2 => ?_⟩
    have hk : v.kind = .hcurl := by simpa using c2
    have h2 : dim ≠ 2 := fun x => h2 ⟨rfl, x⟩
    have := mem_dirs dim c hc
    simp only [List.mem_cons, List.not_mem_nil, or_false] at this
    rcases this with rfl | rfl | rfl <;> simp [fields, hk, h2]

theorem prefix_inj {a b c : String} (h : c ++ a = c ++ b) : a = b := by
  have := congrArg String.toList h
  simp only [String.toList_append] at this
  exact String.toList_inj.1 (List.append_cancel_left this)

/-- The name in the input of a quantity at a location.  [specification, no code] -/
def inputName (q l : String) : String := if l = "ip" then q else q ++ " face"

theorem lookup_eq {d : Deck} {fs : List (String × String × String)} (hf : ∀ f ∈ fs, FromInput d f) {q l e : String}
    (hl : l = "ip" ∨ l = "side ip") (hm : ("true " ++ q, e, l) ∈ fs) : lookup fs ("true " ++ q) l = some e := by
  have hval : ∀ f ∈ fs, f.1 = "true " ++ q → f.2.2 = l → d (inputName q l) = some (some f.2.1) := by
    intro f hff h1 h2
    rcases hf f hff with ⟨k, x, rfl, hx⟩ | ⟨k, x, rfl, hx⟩
    · have := prefix_inj h1
      subst this
      simp only at h2
      subst h2
      simpa [inputName] using hx
    · have := prefix_inj h1
      subst this
      simp only at h2
      subst h2
      simpa [inputName] using hx
  unfold lookup
  cases hfi : fs.find? fun f => f.1 = "true " ++ q ∧ f.2.2 = l with
  | none =>
    have := List.find?_eq_none.1 hfi _ hm
    simp at this
  | some f =>
    have hp := List.find?_some hfi
    simp only [decide_eq_true_eq] at hp
    have h1 := hval f (List.mem_of_find?_eq_some hfi) hp.1 hp.2
    have h2 := hval _ hm rfl rfl
    rw [h1] at h2
    simp only [Option.some.injEq] at h2
    simp [h2]

/-- The names asked for are those of the specification. -/
theorem asked_iff {dim : Nat} (h1 : 1 ≤ dim) (h3 : dim ≤ 3) (v n q l : String) :
    (q, l) ∈ asked dim (v, n) ↔ ∃ k, Compares dim v n (q, k, l) := by
  unfold asked
  rw [comps_eq h1 h3]
  constructor
  · intro h
    split at h
    · next hn =>
      simp only at hn; subst hn
      simp only [List.mem_singleton, Prod.mk.injEq] at h
      obtain ⟨rfl, rfl⟩ := h
      exact ⟨_, .value⟩
    split at h
    · next hn =>
      simp only at hn; subst hn
      obtain ⟨c, hc, h⟩ := List.mem_map.1 h
      simp only [Prod.mk.injEq] at h
      obtain ⟨rfl, rfl⟩ := h
      exact ⟨_, .grad c hc⟩
    split at h
    · next hn =>
      simp only at hn; subst hn
      simp only [List.mem_singleton, Prod.mk.injEq] at h
      obtain ⟨rfl, rfl⟩ := h
      exact ⟨_, .div⟩
    split at h
    · next hn =>
      simp only at hn; subst hn
      obtain ⟨c, hc, h⟩ := List.mem_map.1 h
      simp only [Prod.mk.injEq] at h
      obtain ⟨rfl, rfl⟩ := h
      exact ⟨_, .curl c hc⟩
    split at h
    · next hn =>
      simp only at hn; subst hn
      obtain ⟨c, hc, h⟩ := List.mem_map.1 h
      simp only [Prod.mk.injEq] at h
      obtain ⟨rfl, rfl⟩ := h
      exact ⟨_, .vec c hc⟩
    split at h
    · next hn =>
      simp only at hn; subst hn
      simp only [List.mem_singleton, Prod.mk.injEq] at h
      obtain ⟨rfl, rfl⟩ := h
      exact ⟨_, .face⟩
    · simp at h
  · rintro ⟨k, h⟩
    cases h with
    | value => simp
    | grad c hc => simpa using hc
    | face => simp
    | vec c hc => simpa using hc
    | div => simp
    | curl c hc => simpa using hc

theorem compares_loc {dim : Nat} {v n q k l : String} (h : Compares dim v n (q, k, l)) :
    (l = "ip" ∨ l = "side ip") ∧ k = inputName q l := by
  cases h <;> simp [inputName]

/-! ## Properties -/

/-- C182, which errors are measured: if the input is accepted, exactly those it asks for. -/
theorem C182_measured {dim : Nat} (h1 : 1 ≤ dim) (h3 : dim ≤ 3) (d : Deck) (vars : List Var) (a : Inc)
    (h : addTrue d dim vars = some a) (v n : String) :
    (v, n) ∈ a.1 ↔ ∃ x ∈ vars, x.name = v ∧ Wanted d x n := by
  obtain ⟨hs, he, _⟩ := addTrue_some h
  rw [he]
  constructor
  · rintro ⟨x, hx, i, hi, hm⟩
    obtain ⟨a1, a2⟩ := (steps_mem h1 h3 hi).1 _ hm
    exact ⟨x, hx, a1.symm, a2⟩
  · rintro ⟨x, hx, rfl, hw⟩
    obtain ⟨i, hi, hm, _⟩ := steps_wanted h1 h3 (hs x hx) hw
    exact ⟨x, hx, i, hi, hm⟩

/-- C182, which inputs are accepted: those with, for every variable, all components of a vector, expressions as values, and
derivatives, vectors and faces only where the basis has them. -/
theorem C182_accepted {dim : Nat} (h1 : 1 ≤ dim) (h3 : dim ≤ 3) (d : Deck) (vars : List Var) :
    (∃ a, addTrue d dim vars = some a) ↔ ∀ v ∈ vars, Sound d dim v := by
  rw [addTrue_isSome]
  exact forall_congr' fun v => imp_congr_right fun _ => steps_sound h1 h3 d v

/-- C182, what is compared, except for a curl in the plane: every quantity of the norm with the expression of the input for it,
at the points it belongs to, and nothing else. -/
theorem C182_compared_partial {dim : Nat} (h1 : 1 ≤ dim) (h3 : dim ≤ 3) (d : Deck) (vars : List Var) (a : Inc)
    (h : addTrue d dim vars = some a) (v n : String) (hm : (v, n) ∈ a.1) (hc : ¬ (n = "CURL" ∧ dim = 2)) :
    ∃ l, compared vars dim a.2 (v, n) = some l ∧
      ∀ q e p, (q, e, p) ∈ l ↔ ∃ k, Compares dim v n (q, k, p) ∧ d k = some (some e) := by
  obtain ⟨x, hx, rfl, hw⟩ := (C182_measured h1 h3 d vars a h v n).1 hm
  obtain ⟨hs, _, hff⟩ := addTrue_some h
  obtain ⟨i, hi, _, hq⟩ := steps_wanted h1 h3 (hs x hx) hw
  have hfrom : ∀ f ∈ a.2, FromInput d f := by
    intro f hf
    obtain ⟨y, hy, j, hj, hfj⟩ := (hff f).1 hf
    exact (steps_mem h1 h3 hj).2 f hfj
  have key : ∀ k ∈ asked dim (x.name, n), ∃ e, d (inputName k.1 k.2) = some (some e) ∧
      (do let ex ← lookup a.2 ("true " ++ k.1) k.2
          if k.1 ∈ vars.flatMap (if k.2 = "ip" then fields dim else sideFields) then some (k.1, ex, k.2) else none)
        = some (k.1, e, k.2) := by
    rintro ⟨q, l⟩ hk
    obtain ⟨k, hk⟩ := (asked_iff h1 h3 x.name n q l).1 hk
    obtain ⟨⟨e, he, hem⟩, hfield⟩ := hq q k l hk
    obtain ⟨hl, rfl⟩ := compares_loc hk
    refine ⟨e, he, ?_⟩
    have hlk := lookup_eq hfrom hl ((hff _).2 ⟨x, hx, i, hi, hem⟩)
    simp only [hlk, Option.bind_eq_bind, Option.bind_some]
    rw [if_pos]
    refine List.mem_flatMap.2 ⟨x, hx, ?_⟩
    exact hfield hc
  have hex : ∃ l, compared vars dim a.2 (x.name, n) = some l := by
    unfold compared
    refine ⟨(asked dim (x.name, n)).map fun k => (k.1, ((d (inputName k.1 k.2)).bind id).getD "", k.2), ?_⟩
    rw [mapM_some, List.map_map]
    apply List.map_congr_left
    intro k hk
    obtain ⟨e, he, heq⟩ := key k hk
    rw [heq]
    simp [he]
  obtain ⟨l, hl⟩ := hex
  refine ⟨l, hl, ?_⟩
  intro q e p
  have hl' := (mapM_some _).1 hl
  have hmem : (q, e, p) ∈ l ↔ some (q, e, p) ∈ l.map some := by simp
  rw [hmem, ← hl', List.mem_map]
  constructor
  · rintro ⟨k, hk, heq⟩
    obtain ⟨e', he', heq'⟩ := key k hk
    rw [heq'] at heq
    simp only [Option.some.injEq, Prod.mk.injEq] at heq
    obtain ⟨rfl, rfl, rfl⟩ := heq
    obtain ⟨k', hk'⟩ := (asked_iff h1 h3 x.name n k.1 k.2).1 hk
    refine ⟨k', hk', ?_⟩
    rw [(compares_loc hk').2]
    exact he'
  · rintro ⟨k, hk, he⟩
    obtain ⟨e', he', heq'⟩ := key (q, p) ((asked_iff h1 h3 x.name n q p).2 ⟨k, hk⟩)
    refine ⟨(q, p), (asked_iff h1 h3 x.name n q p).2 ⟨k, hk⟩, ?_⟩
    rw [heq']
    have := (compares_loc hk).2
    subst this
    simp only at he'
    rw [he'] at he
    simp only [Option.some.injEq] at he
    simp [he]

/-- C182 is false for the curl in the plane: the input has to give the components "[x]" and "[y]" of the curl, is accepted, and the
error reads a solution field that does not exist; the plane has one curl. -/
theorem C182_curl_violated (v : String) (fs : List (String × String × String)) :
    compared [⟨v, .hcurl⟩] 2 fs (v, "CURL") = none := by
  have hno : "curl(" ++ v ++ ")" ++ "[x]" ∉ fields 2 ⟨v, .hcurl⟩ := by
    intro h
    simp only [fields, if_pos, List.mem_append, List.mem_cons, List.not_mem_nil, or_false] at h
    have hlen : ∀ s : String, "curl(" ++ v ++ ")" ++ "[x]" = s → s.length = v.length + 9 := by
      rintro s rfl
      simp only [String.length_append]
      have : "curl(".length = 5 ∧ ")".length = 1 ∧ "[x]".length = 3 := by decide
      omega
    have l3 : "[x]".length = 3 ∧ "[y]".length = 3 ∧ "[z]".length = 3 ∧ "_t[x]".length = 5 ∧ "_t[y]".length = 5 ∧
        "_t[z]".length = 5 ∧ "curl(".length = 5 ∧ "div(".length = 4 ∧ ")".length = 1 := by decide
    rcases h with ((h | h | h) | h) | h | h | h | h <;>
      (have := hlen _ h; simp only [String.length_append] at this; omega)
  unfold compared
  have ha : asked 2 (v, "CURL") = [("curl(" ++ v ++ ")" ++ "[x]", "ip"), ("curl(" ++ v ++ ")" ++ "[y]", "ip")] := by
    simp [asked, comps]
  rw [ha, List.mapM_cons]
  have hn : "curl(" ++ v ++ ")" ++ "[x]" ∉ [(⟨v, .hcurl⟩ : Var)].flatMap (fields 2) := by simpa using hno
  simp only [if_pos, if_neg hn]
  cases lookup fs ("true " ++ ("curl(" ++ v ++ ")" ++ "[x]")) "ip" <;> rfl

/-- C182 is false for names the section should not have, a misspelt variable for instance: no message, no error is measured.  `k` is
none of the names of a true solution of the variables. -/
theorem C182_unknown_violated (dim : Nat) (vars : List Var) (k e : String)
    (hk : ∀ v ∈ vars, k ≠ v.name ∧ k ≠ v.name ++ " face" ∧ k ≠ "div(" ++ v.name ++ ")" ∧
      ∀ c ∈ ["[x]", "[y]", "[z]"], k ≠ "grad(" ++ v.name ++ ")" ++ c ∧ k ≠ v.name ++ c ∧ k ≠ "curl(" ++ v.name ++ ")" ++ c) :
    addTrue (fun n => if n = k then some (some e) else none) dim vars = some ([], []) := by
  have hsteps : ∀ v ∈ vars, steps (fun n => if n = k then some (some e) else none) dim v = List.replicate 6 (some ([], [])) := by
    intro v hv
    obtain ⟨a1, a2, a3, a4⟩ := hk v hv
    have x := a4 "[x]" (by simp)
    have y := a4 "[y]" (by simp)
    have z := a4 "[z]" (by simp)
    have g : ∀ s, k ≠ s → given (fun n => if n = k then some (some e) else none) s = false := by
      intro s hs
      simp [given, Ne.symm hs]
    simp only [steps, scalar, group, face, divergence, g _ a1, g _ a2, g _ a3, g _ x.1, g _ x.2.1, g _ x.2.2, g _ y.1, g _ y.2.1,
      g _ y.2.2, g _ z.1, g _ z.2.1, g _ z.2.2, Bool.or_self, Bool.false_eq_true, if_false]
    rfl
  have : vars.flatMap (steps (fun n => if n = k then some (some e) else none) dim)
      = (List.replicate (6 * vars.length) (([], []) : Inc)).map some := by
    clear hk
    induction vars with
    | nil => rfl
    | cons v t ih =>
      rw [List.flatMap_cons, hsteps v List.mem_cons_self, ih fun w hw => hsteps w (List.mem_cons_of_mem _ hw)]
      rw [List.map_replicate, List.map_replicate, List.replicate_append_replicate, List.length_cons, Nat.mul_add, Nat.add_comm]
  unfold addTrue
  rw [mapM_id.2 this]
  simp

theorem ne_of_length {a b : String} (h : a.length ≠ b.length) : a ≠ b := fun e => h (by rw [e])

theorem lengths : "[x]".length = 3 ∧ "[y]".length = 3 ∧ "[z]".length = 3 ∧ " face".length = 5 ∧ "div(".length = 4 ∧
    "grad(".length = 5 ∧ "curl(".length = 5 ∧ ")".length = 1 := by decide

/-- C182 is false for a curl of the plane given by its one name "curl(E)", that of the solution field: it is ignored. -/
theorem C182_plane_violated (v e : String) :
    "curl(" ++ v ++ ")" ∈ fields 2 ⟨v, .hcurl⟩ ∧
    addTrue (fun n => if n = "curl(" ++ v ++ ")" then some (some e) else none) 2 [⟨v, .hcurl⟩] = some ([], []) := by
  refine ⟨by simp [fields], C182_unknown_violated 2 _ _ e ?_⟩
  intro w hw
  simp only [List.mem_singleton] at hw
  subst hw
  obtain ⟨lx, ly, lz, lf, ld, lg, lc, lp⟩ := lengths
  refine ⟨?_, ?_, ?_, ?_⟩
  · apply ne_of_length; simp only [String.length_append]; omega
  · apply ne_of_length; simp only [String.length_append]; omega
  · apply ne_of_length; simp only [String.length_append]; omega
  · intro c hc
    have : c.length = 3 := by
      simp only [List.mem_cons, List.not_mem_nil, or_false] at hc
      rcases hc with rfl | rfl | rfl <;> assumption
    refine ⟨?_, ?_, ?_⟩ <;> (apply ne_of_length; simp only [String.length_append]; omega)

/-- C182 is false for a true solution with the name of a vector variable or of a variable on faces: it is accepted without a message
and not measured. -/
theorem C182_scalar_violated (dim : Nat) (v : Var) (e : String) (h1 : v.kind ≠ .hgrad) (h2 : v.kind ≠ .hvol) :
    addTrue (fun n => if n = v.name then some (some e) else none) dim [v] = some ([], []) := by
  obtain ⟨lx, ly, lz, lf, ld, lg, lc, lp⟩ := lengths
  have g : ∀ s, v.name ≠ s → given (fun n => if n = v.name then some (some e) else none) s = false := by
    intro s hs
    simp [given, Ne.symm hs]
  have g1 : ∀ c, c.length = 3 → given (fun n => if n = v.name then some (some e) else none) ("grad(" ++ v.name ++ ")" ++ c) = false :=
    fun c hc => g _ (by apply ne_of_length; simp only [String.length_append]; omega)
  have g2 : ∀ c, c.length = 3 → given (fun n => if n = v.name then some (some e) else none) (v.name ++ c) = false :=
    fun c hc => g _ (by apply ne_of_length; simp only [String.length_append]; omega)
  have g3 : ∀ c, c.length = 3 → given (fun n => if n = v.name then some (some e) else none) ("curl(" ++ v.name ++ ")" ++ c) = false :=
    fun c hc => g _ (by apply ne_of_length; simp only [String.length_append]; omega)
  have g4 := g (v.name ++ " face") (by apply ne_of_length; simp only [String.length_append]; omega)
  have g5 := g ("div(" ++ v.name ++ ")") (by apply ne_of_length; simp only [String.length_append]; omega)
  have hs : steps (fun n => if n = v.name then some (some e) else none) dim v = (List.replicate 6 (([], []) : Inc)).map some := by
    simp only [steps, scalar, group, face, divergence, g4, g5, g1 _ lx, g1 _ ly, g1 _ lz, g2 _ lx, g2 _ ly, g2 _ lz, g3 _ lx,
      g3 _ ly, g3 _ lz, Bool.or_self, Bool.false_eq_true, if_false, h1, h2, or_self, ite_self]
    rfl
  unfold addTrue
  rw [List.flatMap_cons, List.flatMap_nil, List.append_nil, mapM_id.2 hs]
  simp

/-! ## Cases -/

/-- A flow in the plane with velocity, pressure, and a field with a curl. [case] -/
def flow : List Var := [⟨"u", .hdiv⟩, ⟨"p", .hvol⟩, ⟨"T", .hgrad⟩]

/-- True solutions for it. [case] -/
def deck : Deck := fun n =>
  if n = "u[x]" then some (some "x") else if n = "u[y]" then some (some "-y") else if n = "div(u)" then some (some "0.0")
  else if n = "p" then some (some "x*y") else if n = "T face" then some (some "t") else none

example : addTrue deck 2 flow = some ([("u", "L2 VECTOR"), ("u", "DIV"), ("p", "L2"), ("T", "L2 FACE")],
    [("true u[x]", "x", "ip"), ("true u[y]", "-y", "ip"), ("true div(u)", "0.0", "ip"), ("true p", "x*y", "ip"),
     ("true T", "t", "side ip")]) := by decide +kernel

example : ∃ l, compared flow 2 [("true u[x]", "x", "ip"), ("true u[y]", "-y", "ip"), ("true div(u)", "0.0", "ip"),
    ("true p", "x*y", "ip"), ("true T", "t", "side ip")] ("u", "L2 VECTOR") = some l ∧
    ∀ q e p, (q, e, p) ∈ l ↔ ∃ k, Compares 2 "u" "L2 VECTOR" (q, k, p) ∧ deck k = some (some e) :=
  C182_compared_partial (by decide) (by decide) deck flow ([("u", "L2 VECTOR"), ("u", "DIV"), ("p", "L2"), ("T", "L2 FACE")], _)
    (by decide +kernel) "u" "L2 VECTOR" (by decide) (by decide)

example : Sound deck 2 ⟨"u", .hdiv⟩ :=
  (C182_accepted (by decide) (by decide) deck flow).1 ⟨_, rfl⟩ _ (by decide)

/-- A missing component and a gradient of a pressure without one are refused. -/
example : addTrue (fun n => if n = "u[x]" then some (some "x") else none) 2 flow = none ∧
    addTrue (fun n => if n = "grad(p)[x]" ∨ n = "grad(p)[y]" then some (some "x") else none) 2 flow = none ∧
    addTrue (fun n => if n = "p" then some none else none) 2 flow = none := by decide +kernel

/-- Both components of the curl of a field in the plane: accepted, and then a field is read that does not exist. -/
example : ∃ a, addTrue (fun n => if n = "curl(E)[x]" ∨ n = "curl(E)[y]" then some (some "x") else none) 2 [⟨"E", .hcurl⟩] = some a ∧
    ("E", "CURL") ∈ a.1 ∧ compared [⟨"E", .hcurl⟩] 2 a.2 ("E", "CURL") = none :=
  ⟨([("E", "CURL")], [("true curl(E)[x]", "x", "ip"), ("true curl(E)[y]", "x", "ip")]), by decide +kernel, by decide,
    C182_curl_violated "E" _⟩

/-- A misspelt variable. -/
example : addTrue (fun n => if n = "P" then some (some "1.0") else none) 2 flow = some ([], []) :=
  C182_unknown_violated 2 flow "P" "1.0" (by decide +kernel)

example : addTrue (fun n => if n = "u" then some (some "1.0") else none) 2 [⟨"u", .hdiv⟩] = some ([], []) :=
  C182_scalar_violated 2 ⟨"u", .hdiv⟩ "1.0" (by decide) (by decide)

end MrHyDE.Postprocess.TrueSolutions
