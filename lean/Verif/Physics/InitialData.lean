import Verif.Registry.Props
import Verif.Physics.Numbers
import Mathlib.Data.List.Nodup

/-!
# The data of the initial conditions (C186)

From the list "Initial conditions" of a block to the functions of its function manager, and from these to the values that enter the
initial state, for the three values of `initial type`.  /repo/src/interfaces/physics/physicsInterface_functions.hpp:154-222,
/repo/src/interfaces/physics/physicsInterface_initial.hpp, /repo/src/managers/solver/solverManager_util.hpp:175-305.  One block, the
conditions not being marked as "scalar data" (C127 has those); the evaluation of an expression at the points is a parameter (C01, C05).
-/

namespace MrHyDE.Physics.InitialData

open MrHyDE.Registry
open MrHyDE.Physics.Numbers

/-! ## Model -/

/-- A variable of a physics set on the block: name and type; `var_list`, `types`, src/interfaces/physics/physicsInterface_functions.hpp:159-161. -/
structure Var where
  name : String
  type : String
  deriving DecidableEq

/-- A physics set on the block: its variables and, if there is a list of initial conditions, its entries;
physicsInterface_functions.hpp:155-159. -/
structure PSet where
  vars : List Var
  cond : Option (String → Option Given)

/-- `t.substr(0,n) == s` for a text `s` of length `n`; physicsInterface_functions.hpp:161 and 181. -/
def head (t s : String) : Bool := t.toList.take s.toList.length == s.toList

/-- Types with one value at a point, in the definition of the functions; physicsInterface_functions.hpp:161. -/
def scalarType (t : String) : Bool := head t "HGRAD" || head t "HVOL" || head t "HFACE"

/-- Types with several components; physicsInterface_functions.hpp:181, physicsInterface_initial.hpp:57. -/
def vectorType (t : String) : Bool := head t "HCURL" || head t "HDIV"

/-- The functions of a variable: name, definition, and is it defined on sides as well; physicsInterface_functions.hpp:161-219. -/
def functionsOf (c : String → Option Given) (v : Var) : List (String × Def × Bool) :=
  if scalarType v.type then [("initial " ++ v.name, initialDef (c v.name), v.type == "HFACE")]
  else if vectorType v.type then
    ["[x]", "[y]", "[z]"].map fun s => ("initial " ++ v.name ++ s, initialDef (c (v.name ++ s)), false)
  else []

/-- The functions of all physics sets; physicsInterface_functions.hpp:155-159, 222. -/
def functions (sets : List PSet) : List (String × Def × Bool) :=
  sets.flatMap fun s => match s.cond with
    | none => []
    | some c => s.vars.flatMap (functionsOf c)

/-- The registrations of a function; physicsInterface_functions.hpp:173-179, 193-194, 206-207, 219-220. -/
def regsOf (f : String × Def × Bool) : List (Reg String Def) :=
  [⟨f.1, f.2.1, "ip"⟩, ⟨f.1, f.2.1, "point"⟩] ++ if f.2.2 then [⟨f.1, f.2.1, "side ip"⟩] else []

/-- The locations of a function manager; src/managers/function/functionManager_construct.hpp:36-39. -/
def locations : List String := ["ip", "side ip", "tensor ip", "point"]

/-- The function manager after the initial conditions; `pre` are the registrations of the modules before;
physicsInterface_functions.hpp:147-222. -/
def manager (pre : List (Reg String Def)) (sets : List PSet) : Forests String Def :=
  register (fresh locations) (pre ++ (functions sets).flatMap regsOf)

section
variable {P K : Type} [Zero K]

/-- Evaluation of a function at the points of a location; `none` is the exception for an unknown function;
src/managers/function/functionManager_evaluate.hpp:14-50. -/
def evaluate (ev : Def → P → K) (F : Forests String Def) (name location : String) : Option (P → K) :=
  (lookup F name location).map ev

/-- Values of a variable for the projection, by component and point; what is not assigned is zero;
physicsInterface_initial.hpp:41-97. -/
def projectVar (ev : Def → P → K) (F : Forests String Def) (dim : Nat) (v : Var) : Option (Nat → P → K) :=
  if head v.type "HGRAD" || head v.type "HVOL" then do
    let f ← evaluate ev F ("initial " ++ v.name) "ip"
    return fun k => if k = 0 then f else fun _ => 0
  else if vectorType v.type then do
    let fx ← evaluate ev F ("initial " ++ v.name ++ "[x]") "ip"
    let fy ← if dim > 1 then evaluate ev F ("initial " ++ v.name ++ "[y]") "ip" else some (fun _ => 0)
    let fz ← if dim > 2 then evaluate ev F ("initial " ++ v.name ++ "[z]") "ip" else some (fun _ => 0)
    return fun k => if k = 0 then fx else if k = 1 then fy else if k = 2 then fz else fun _ => 0
  else some fun _ _ => 0

/-- Values of a variable at the nodes, for interpolation: the first component only; physicsInterface_initial.hpp:119, 137-146. -/
def nodeVar (ev : Def → P → K) (F : Forests String Def) (v : Var) : Option (Nat → P → K) := do
  let f ← evaluate ev F ("initial " ++ v.name) "point"
  return fun k => if k = 0 then f else fun _ => 0

/-- Values of a variable on a face; physicsInterface_initial.hpp:172-186. -/
def faceVar (ev : Def → P → K) (F : Forests String Def) (v : Var) : Option (Nat → P → K) := do
  let f ← evaluate ev F ("initial " ++ v.name) "side ip"
  return fun k => if k = 0 then f else fun _ => 0

/-- Values of the variables of a set for a value of `initial type`.  For any other value nothing is evaluated and the state stays at
the zero it is set to first; solverManager_util.hpp:177-178, 252-300. -/
def values (ev : Def → P → K) (F : Forests String Def) (dim : Nat) (type : String) (vars : List Var) :
    Option (List (Nat → P → K)) :=
  if type = "L2-projection" then vars.mapM (projectVar ev F dim)
  else if type = "L2-projection-HFACE" then vars.mapM (faceVar ev F)
  else if type = "interpolation" then vars.mapM (nodeVar ev F)
  else some (vars.map fun _ _ _ => 0)

end

/-! ## Specification -/

/-- Names of the components. [specification, no code] -/
def suffix : Nat → String
  | 0 => "[x]"
  | 1 => "[y]"
  | _ => "[z]"

/-- The definition `d` stands for the entry of a name: what is given, up to the rounding of numbers (C99), and zero if nothing is
given. [specification, no code] -/
def Fits (e : Option Given) (d : Def) : Prop :=
  match e with
  | none => d = .text "0.0"
  | some g => Stands (1 / 2000000) g d

/-- No function of the initial conditions has been defined before or is defined twice. [specification, no code] -/
structure Distinct (pre : List (Reg String Def)) (sets : List PSet) : Prop where
  own : ((functions sets).map (·.1)).Nodup
  pre : ∀ r ∈ pre, ∀ f ∈ functions sets, r.name ≠ f.1

/-- Every entry is a text or a number with a point. [specification, no code] -/
def Readable (c : String → Option Given) : Prop := ∀ n, c n ≠ some .other

/-! ## Lemmas -/

theorem head_grad : scalarType "HGRAD" = true ∧ head "HGRAD" "HGRAD" = true := by decide
theorem head_vol : scalarType "HVOL" = true ∧ head "HVOL" "HVOL" = true := by decide
theorem head_face : scalarType "HFACE" = true ∧ head "HFACE" "HGRAD" = false ∧ head "HFACE" "HVOL" = false ∧
    vectorType "HFACE" = false := by decide
theorem head_curl : scalarType "HCURL" = false ∧ vectorType "HCURL" = true ∧ head "HCURL" "HGRAD" = false ∧
    head "HCURL" "HVOL" = false := by decide
theorem head_div : scalarType "HDIV" = false ∧ vectorType "HDIV" = true ∧ head "HDIV" "HGRAD" = false ∧
    head "HDIV" "HVOL" = false := by decide

theorem fits_initialDef {e : Option Given} (h : e ≠ some .other) : Fits e (initialDef e) := by
  cases e with
  | none => rfl
  | some g =>
    cases g with
    | text s => rfl
    | num q => exact C99_error q
    | other => exact absurd rfl h

theorem mem_functions {sets : List PSet} {s : PSet} {c : String → Option Given} {v : Var} {f : String × Def × Bool}
    (hs : s ∈ sets) (hc : s.cond = some c) (hv : v ∈ s.vars) (hf : f ∈ functionsOf c v) : f ∈ functions sets := by
  refine List.mem_flatMap.2 ⟨s, hs, ?_⟩
  rw [hc]
  exact List.mem_flatMap.2 ⟨v, hv, hf⟩

theorem name_regsOf {f : String × Def × Bool} {r : Reg String Def} (h : r ∈ regsOf f) : r.name = f.1 ∧ r.contents = f.2.1 ∧
    (r.location = "side ip" → f.2.2 = true) := by
  unfold regsOf at h
  cases hf : f.2.2 <;> simp [hf] at h
  · rcases h with h | h <;> subst h <;> simp
  · rcases h with h | h | h <;> subst h <;> simp

theorem lookup_own {pre : List (Reg String Def)} {sets : List PSet} (hd : Distinct pre sets) {f : String × Def × Bool}
    (hf : f ∈ functions sets) (loc : String) (hl : loc = "ip" ∨ loc = "point" ∨ (loc = "side ip" ∧ f.2.2 = true)) :
    lookup (manager pre sets) f.1 loc = some f.2.1 := by
  have hloc : loc ∈ locations := by rcases hl with h | h | h <;> simp [h, locations]
  have hmem : (⟨f.1, f.2.1, loc⟩ : Reg String Def) ∈ regsOf f := by
    rcases hl with h | h | ⟨h, h'⟩ <;> simp [regsOf, *]
  unfold manager
  rw [(C07_first_registration_wins locations (by decide) _ _ _).1, if_pos hloc, firstReg, List.find?_append]
  have hpre : pre.find? (fun r => decide (r.name = f.1 ∧ r.location = loc)) = none :=
    List.find?_eq_none.2 fun r hr => by simp [hd.pre r hr f hf]
  rw [hpre, Option.none_or]
  cases hq : ((functions sets).flatMap regsOf).find? (fun r => decide (r.name = f.1 ∧ r.location = loc)) with
  | none =>
    have := List.find?_eq_none.1 hq ⟨f.1, f.2.1, loc⟩ (List.mem_flatMap.2 ⟨f, hf, hmem⟩)
    simp at this
  | some r =>
    have h1 := List.find?_some hq
    have h2 := List.mem_of_find?_eq_some hq
    obtain ⟨g, hg, hr⟩ := List.mem_flatMap.1 h2
    obtain ⟨hn, hc, _⟩ := name_regsOf hr
    simp only [decide_eq_true_eq] at h1
    have : g = f := List.inj_on_of_nodup_map hd.own hg hf (hn.symm.trans h1.1)
    simp [hc, this]

theorem lookup_side {pre : List (Reg String Def)} {sets : List PSet} {name loc : String}
    (hpre : ∀ r ∈ pre, r.name ≠ name) (hown : ∀ f ∈ functions sets, f.1 = name → loc = "side ip" ∧ f.2.2 = false) :
    lookup (manager pre sets) name loc = none := by
  unfold manager
  rw [(C07_first_registration_wins locations (by decide) _ _ _).1]
  split
  · rw [firstReg, Option.map_eq_none_iff, List.find?_eq_none]
    intro r hr
    simp only [decide_eq_true_eq, not_and]
    intro hn hl
    rcases List.mem_append.1 hr with h | h
    · exact hpre r h hn
    · obtain ⟨g, hg, hr⟩ := List.mem_flatMap.1 h
      obtain ⟨h1, _, h3⟩ := name_regsOf hr
      obtain ⟨h4, h5⟩ := hown g hg (h1.symm.trans hn)
      rw [h3 (hl.trans h4)] at h5
      cases h5
  · rfl

theorem mapM_forall₂ {α β : Type} {f : α → Option β} {R : α → β → Prop} (l : List α)
    (h : ∀ a ∈ l, ∃ b, f a = some b ∧ R a b) : ∃ bs, l.mapM f = some bs ∧ List.Forall₂ R l bs := by
  induction l with
  | nil => exact ⟨[], rfl, .nil⟩
  | cons a l ih =>
    obtain ⟨b, hb, hr⟩ := h a (by simp)
    obtain ⟨bs, hbs, hrs⟩ := ih fun a ha => h a (by simp [ha])
    exact ⟨b :: bs, by simp [List.mapM_cons, hb, hbs], .cons hr hrs⟩

theorem mapM_none {α β : Type} {f : α → Option β} {l : List α} {a : α} (ha : a ∈ l) (h : f a = none) : l.mapM f = none := by
  induction l with
  | nil => cases ha
  | cons b l ih =>
    rcases List.mem_cons.1 ha with e | e
    · subst e; simp [List.mapM_cons, h]
    · cases hb : f b <;> simp [List.mapM_cons, hb, ih e]

/-! ## Properties -/

section
variable {P K : Type} [Zero K] (ev : Def → P → K)

/-- The values of a variable are those of the entries of the input, component by component. [specification, no code] -/
def AsGiven (c : String → Option Given) (dim : Nat) (v : Var) (f : Nat → P → K) : Prop :=
  ((v.type = "HGRAD" ∨ v.type = "HVOL" ∨ v.type = "HFACE") → ∃ d, Fits (c v.name) d ∧ f 0 = ev d) ∧
  ((v.type = "HCURL" ∨ v.type = "HDIV") → ∀ k < dim, ∃ d, Fits (c (v.name ++ suffix k)) d ∧ f k = ev d)

/-- C186 for the projection (the default): the values that are projected are those of the entries, for all variables but those on faces.
(`_partial`: see below for the others.) -/
theorem C186_projection_partial {pre : List (Reg String Def)} {sets : List PSet} (hd : Distinct pre sets) {s : PSet} (hs : s ∈ sets)
    {c : String → Option Given} (hc : s.cond = some c) (hr : Readable c) (dim : Nat) (hdim : dim ≤ 3)
    (ht : ∀ v ∈ s.vars, v.type ∈ ["HGRAD", "HVOL", "HCURL", "HDIV"]) :
    ∃ fs, values ev (manager pre sets) dim "L2-projection" s.vars = some fs ∧ List.Forall₂ (AsGiven ev c dim) s.vars fs := by
  rw [values, if_pos rfl]
  refine mapM_forall₂ _ fun v hv => ?_
  have hscalar : scalarType v.type = true → (head v.type "HGRAD" || head v.type "HVOL") = true → vectorType v.type = false →
      (v.type ≠ "HCURL" ∧ v.type ≠ "HDIV") →
      ∃ b, projectVar ev (manager pre sets) dim v = some b ∧ AsGiven ev c dim v b := by
    intro h1 h2 _ h4
    have hm : ("initial " ++ v.name, initialDef (c v.name), v.type == "HFACE") ∈ functions sets :=
      mem_functions hs hc hv (by simp [functionsOf, h1])
    have hl := lookup_own hd hm "ip" (Or.inl rfl)
    refine ⟨fun k => if k = 0 then ev (initialDef (c v.name)) else fun _ => 0, ?_, ?_, ?_⟩
    · simp only [projectVar, h2, if_true]
      simp [evaluate, hl]
    · intro _
      exact ⟨_, fits_initialDef (hr _), by simp⟩
    · intro h
      rcases h with h | h
      · exact absurd h h4.1
      · exact absurd h h4.2
  have hvector : scalarType v.type = false → (head v.type "HGRAD" || head v.type "HVOL") = false → vectorType v.type = true →
      (v.type ≠ "HGRAD" ∧ v.type ≠ "HVOL" ∧ v.type ≠ "HFACE") →
      ∃ b, projectVar ev (manager pre sets) dim v = some b ∧ AsGiven ev c dim v b := by
    intro h1 h2 h3 h4
    have hm : ∀ t ∈ ["[x]", "[y]", "[z]"], lookup (manager pre sets) ("initial " ++ v.name ++ t) "ip" =
        some (initialDef (c (v.name ++ t))) := by
      intro t ht
      have hm : ("initial " ++ v.name ++ t, initialDef (c (v.name ++ t)), false) ∈ functions sets := by
        refine mem_functions hs hc hv ?_
        rw [functionsOf, if_neg (by simp [h1]), if_pos h3]
        exact List.mem_map.2 ⟨t, ht, rfl⟩
      exact lookup_own hd hm "ip" (Or.inl rfl)
    refine ⟨fun k => if k = 0 then ev (initialDef (c (v.name ++ "[x]"))) else if k = 1 then
      (if dim > 1 then ev (initialDef (c (v.name ++ "[y]"))) else fun _ => 0) else if k = 2 then
      (if dim > 2 then ev (initialDef (c (v.name ++ "[z]"))) else fun _ => 0) else fun _ => 0, ?_, ?_, ?_⟩
    · simp only [projectVar, h2, h3, if_true]
      rw [if_neg (by simp)]
      simp only [evaluate, hm "[x]" (by simp), hm "[y]" (by simp), hm "[z]" (by simp)]
      by_cases a : dim > 1 <;> by_cases b : dim > 2 <;> simp [a, b]
    · intro h
      rcases h with h | h | h
      · exact absurd h h4.1
      · exact absurd h h4.2.1
      · exact absurd h h4.2.2
    · intro _ k hk
      refine ⟨initialDef (c (v.name ++ suffix k)), fits_initialDef (hr _), ?_⟩
      have : k = 0 ∨ k = 1 ∨ k = 2 := by omega
      rcases this with e | e | e <;> subst e
      · simp [suffix]
      · simp [suffix, hk]
      · simp [suffix, hk]
  have := ht v hv
  simp only [List.mem_cons, List.not_mem_nil, or_false] at this
  rcases this with h | h | h | h
  · exact hscalar (by rw [h]; decide) (by rw [h]; decide) (by rw [h]; decide) (by rw [h]; decide)
  · exact hscalar (by rw [h]; decide) (by rw [h]; decide) (by rw [h]; decide) (by rw [h]; decide)
  · exact hvector (by rw [h]; decide) (by rw [h]; decide) (by rw [h]; decide) (by rw [h]; decide)
  · exact hvector (by rw [h]; decide) (by rw [h]; decide) (by rw [h]; decide) (by rw [h]; decide)

theorem single {pre : List (Reg String Def)} {sets : List PSet} (hd : Distinct pre sets) {s : PSet} (hs : s ∈ sets)
    {c : String → Option Given} (hc : s.cond = some c) (hr : Readable c) (dim : Nat) (loc : String) {v : Var} (hv : v ∈ s.vars)
    (h1 : scalarType v.type = true) (h4 : v.type ≠ "HCURL" ∧ v.type ≠ "HDIV")
    (hl : loc = "ip" ∨ loc = "point" ∨ (loc = "side ip" ∧ (v.type == "HFACE") = true)) :
    ∃ b : Nat → P → K, (do
      let f ← evaluate ev (manager pre sets) ("initial " ++ v.name) loc
      return fun k => if k = 0 then f else fun _ => 0) = some b ∧ AsGiven ev c dim v b := by
  have hm : ("initial " ++ v.name, initialDef (c v.name), v.type == "HFACE") ∈ functions sets :=
    mem_functions hs hc hv (by simp [functionsOf, h1])
  have hl := lookup_own hd hm loc hl
  refine ⟨fun k => if k = 0 then ev (initialDef (c v.name)) else fun _ => 0, ?_, ?_, ?_⟩
  · simp [evaluate, hl]
  · intro _
    exact ⟨_, fits_initialDef (hr _), by simp⟩
  · intro h
    rcases h with h | h
    · exact absurd h h4.1
    · exact absurd h h4.2

/-- C186 for the projection on faces, when all variables of the set are variables on faces. -/
theorem C186_face_partial {pre : List (Reg String Def)} {sets : List PSet} (hd : Distinct pre sets) {s : PSet} (hs : s ∈ sets)
    {c : String → Option Given} (hc : s.cond = some c) (hr : Readable c) (dim : Nat) (ht : ∀ v ∈ s.vars, v.type = "HFACE") :
    ∃ fs, values ev (manager pre sets) dim "L2-projection-HFACE" s.vars = some fs ∧
      List.Forall₂ (AsGiven ev c dim) s.vars fs := by
  rw [values, if_neg (by decide), if_pos rfl]
  refine mapM_forall₂ _ fun v hv => ?_
  have h := ht v hv
  exact single ev hd hs hc hr dim "side ip" hv (by rw [h]; decide) (by rw [h]; decide) (Or.inr (Or.inr ⟨rfl, by simp [h]⟩))

/-- C186 for interpolation, when no variable of the set has several components. -/
theorem C186_interpolation_partial {pre : List (Reg String Def)} {sets : List PSet} (hd : Distinct pre sets) {s : PSet} (hs : s ∈ sets)
    {c : String → Option Given} (hc : s.cond = some c) (hr : Readable c) (dim : Nat)
    (ht : ∀ v ∈ s.vars, v.type ∈ ["HGRAD", "HVOL", "HFACE"]) :
    ∃ fs, values ev (manager pre sets) dim "interpolation" s.vars = some fs ∧
      List.Forall₂ (AsGiven ev c dim) s.vars fs := by
  rw [values, if_neg (by decide), if_neg (by decide), if_pos rfl]
  refine mapM_forall₂ _ fun v hv => ?_
  have h := ht v hv
  simp only [List.mem_cons, List.not_mem_nil, or_false] at h
  refine single ev hd hs hc hr dim "point" hv ?_ ?_ (Or.inr (Or.inl rfl)) <;>
    (rcases h with h | h | h <;> rw [h] <;> decide)

/-- C186 is false for variables on faces with the projection on elements, which is the default: whatever is given, they start at
zero. -/
theorem C186_skipped_violated (F : Forests String Def) (dim : Nat) (v : Var) (ht : v.type = "HFACE") :
    projectVar ev F dim v = some fun _ _ => 0 := by
  obtain ⟨_, h1, h2, h3⟩ := head_face
  simp [projectVar, ht, h1, h2, h3]

/-- C186 is false for the projection on faces of a set with a variable that is not on faces, such as the usual pairs of a field and
its trace: the run ends. -/
theorem C186_mixed_violated {pre : List (Reg String Def)} {sets : List PSet} {s : PSet} (dim : Nat) {v : Var} (hv : v ∈ s.vars)
    (hpre : ∀ r ∈ pre, r.name ≠ "initial " ++ v.name)
    (hown : ∀ f ∈ functions sets, f.1 = "initial " ++ v.name → f.2.2 = false) :
    values ev (manager pre sets) dim "L2-projection-HFACE" s.vars = none := by
  rw [values, if_neg (by decide), if_pos rfl]
  refine mapM_none hv ?_
  simp [faceVar, evaluate, lookup_side hpre fun f hf h => ⟨rfl, hown f hf h⟩]

/-- C186 is false for interpolation with a variable of several components: its functions have the names of the components, the one
that is asked for does not exist, and the run ends. -/
theorem C186_vector_violated {pre : List (Reg String Def)} {sets : List PSet} {s : PSet} (dim : Nat) {v : Var} (hv : v ∈ s.vars)
    (hpre : ∀ r ∈ pre, r.name ≠ "initial " ++ v.name) (hown : ∀ f ∈ functions sets, f.1 ≠ "initial " ++ v.name) :
    values ev (manager pre sets) dim "interpolation" s.vars = none := by
  rw [values, if_neg (by decide), if_neg (by decide), if_pos rfl]
  refine mapM_none hv ?_
  simp [nodeVar, evaluate, lookup_side (loc := "point") hpre fun f hf h => absurd h (hown f hf)]

/-- C186 is false for any other value of `initial type`: nothing is said and the state is zero. -/
theorem C186_type_violated (F : Forests String Def) (dim : Nat) (type : String)
    (ht : type ∉ ["L2-projection", "L2-projection-HFACE", "interpolation"]) (vars : List Var) :
    values ev F dim type vars = some (vars.map fun _ _ _ => 0) := by
  simp only [List.mem_cons, List.not_mem_nil, or_false, not_or] at ht
  simp [values, ht]

/-- C186 is false for a whole number (without a point): it counts as nothing given. -/
theorem C186_whole_violated {pre : List (Reg String Def)} {sets : List PSet} (hd : Distinct pre sets) {s : PSet} (hs : s ∈ sets)
    {c : String → Option Given} (hc : s.cond = some c) (dim : Nat) {v : Var} (hv : v ∈ s.vars) (ht : v.type = "HGRAD")
    (ho : c v.name = some .other) :
    ∃ f, projectVar ev (manager pre sets) dim v = some f ∧ f 0 = ev (.text "0.0") := by
  have hm : ("initial " ++ v.name, initialDef (c v.name), v.type == "HFACE") ∈ functions sets :=
    mem_functions hs hc hv (by rw [functionsOf, if_pos (by rw [ht]; decide)]; simp)
  have hl := lookup_own hd hm "ip" (Or.inl rfl)
  refine ⟨fun k => if k = 0 then ev (initialDef (c v.name)) else fun _ => 0, ?_, by simp [ho, initialDef]⟩
  have : (head v.type "HGRAD" || head v.type "HVOL") = true := by rw [ht]; decide
  simp only [projectVar, this, if_true]
  simp [evaluate, hl]

/-- C186 is false for a variable whose name occurs in an earlier physics set: it gets the values of that set. -/
theorem C186_same_violated (s1 s2 : PSet) (sets : List PSet) (c1 : String → Option Given) (hc1 : s1.cond = some c1) (v : Var)
    (w : Var) (l : List Var) (hl : s1.vars = v :: l) (hn : w.name = v.name) (ht : v.type = "HGRAD") (hw : w.type = "HGRAD")
    (dim : Nat) :
    ∃ f, projectVar ev (manager [] (s1 :: s2 :: sets)) dim w = some f ∧ f 0 = ev (initialDef (c1 v.name)) := by
  have h1 : lookup (manager [] (s1 :: s2 :: sets)) ("initial " ++ v.name) "ip" = some (initialDef (c1 v.name)) := by
    unfold manager
    rw [(C07_first_registration_wins locations (by decide) _ _ _).1, if_pos (by decide), firstReg]
    have : scalarType v.type = true := by rw [ht]; decide
    simp [functions, hc1, hl, functionsOf, this, regsOf]
  refine ⟨fun k => if k = 0 then ev (initialDef (c1 v.name)) else fun _ => 0, ?_, by simp⟩
  have : (head w.type "HGRAD" || head w.type "HVOL") = true := by rw [hw]; decide
  simp only [projectVar, this, if_true]
  simp [evaluate, hn, h1]

end

/-! ## Cases -/

/-- [case] entries of a pressure and of one component -/
def mixedEntries (n : String) : Option Given :=
  if n = "p" then some (.text "x*y") else if n = "u[y]" then some (.num (1 / 2)) else none

/-- [case] a pressure and a field with two components -/
def mixedSet : PSet where
  vars := [⟨"p", "HVOL"⟩, ⟨"u", "HDIV"⟩]
  cond := some mixedEntries

/-- [case] a field and its trace on the faces -/
def traceSet : PSet where
  vars := [⟨"S", "HVOL"⟩, ⟨"Shat", "HFACE"⟩]
  cond := some fun n => if n = "S" then some (.text "x") else some (.text "x+y")

/-- [case] the trace alone -/
def faceSet : PSet where
  vars := [⟨"lambda", "HFACE"⟩]
  cond := some fun _ => some (.text "x+y")

/-- [case] one field given by a whole number -/
def wholeSet : PSet where
  vars := [⟨"e", "HGRAD"⟩]
  cond := some fun _ => some .other

theorem distinct_mixed : Distinct [] [mixedSet] := ⟨by decide +kernel, by simp⟩
theorem distinct_face : Distinct [] [faceSet] := ⟨by decide +kernel, by simp⟩
theorem distinct_whole : Distinct [] [wholeSet] := ⟨by decide +kernel, by simp⟩

theorem readable_mixed : Readable mixedEntries := by
  intro n
  unfold mixedEntries
  split
  · simp
  · split <;> simp

example (ev : Def → ℚ × ℚ → ℚ) : ∃ fs, values ev (manager [] [mixedSet]) 2 "L2-projection" mixedSet.vars = some fs ∧
    List.Forall₂ (AsGiven ev mixedEntries 2) mixedSet.vars fs :=
  C186_projection_partial ev distinct_mixed (by simp) rfl readable_mixed 2 (by decide) (by decide)

example (ev : Def → ℚ × ℚ → ℚ) : ∃ fs, values ev (manager [] [faceSet]) 2 "L2-projection-HFACE" faceSet.vars = some fs ∧
    List.Forall₂ (AsGiven ev (fun _ => some (.text "x+y")) 2) faceSet.vars fs :=
  C186_face_partial ev distinct_face (by simp) rfl (by intro n; simp) 2 (by decide)

example (ev : Def → ℚ × ℚ → ℚ) : ∃ fs, values ev (manager [] [faceSet]) 2 "interpolation" faceSet.vars = some fs ∧
    List.Forall₂ (AsGiven ev (fun _ => some (.text "x+y")) 2) faceSet.vars fs :=
  C186_interpolation_partial ev distinct_face (by simp) rfl (by intro n; simp) 2 (by decide)

example (ev : Def → ℚ × ℚ → ℚ) : projectVar ev (manager [] [traceSet]) 2 ⟨"Shat", "HFACE"⟩ = some fun _ _ => 0 :=
  C186_skipped_violated ev _ 2 _ rfl

example (ev : Def → ℚ × ℚ → ℚ) : values ev (manager [] [traceSet]) 2 "L2-projection-HFACE" traceSet.vars = none :=
  C186_mixed_violated ev (s := traceSet) 2 (v := ⟨"S", "HVOL"⟩) (by decide) (by simp) (by decide +kernel)

example (ev : Def → ℚ × ℚ → ℚ) : values ev (manager [] [mixedSet]) 2 "interpolation" mixedSet.vars = none :=
  C186_vector_violated ev (s := mixedSet) 2 (v := ⟨"u", "HDIV"⟩) (by decide) (by simp) (by decide +kernel)

example (ev : Def → ℚ × ℚ → ℚ) : values ev (manager [] [mixedSet]) 2 "L2 projection" mixedSet.vars = some [fun _ _ => 0, fun _ _ => 0] :=
  C186_type_violated ev _ 2 "L2 projection" (by decide) _

example (ev : Def → ℚ × ℚ → ℚ) : ∃ f, projectVar ev (manager [] [wholeSet]) 2 ⟨"e", "HGRAD"⟩ = some f ∧ f 0 = ev (.text "0.0") :=
  C186_whole_violated ev distinct_whole (s := wholeSet) (by simp) rfl 2 (by decide) rfl rfl

example (ev : Def → ℚ × ℚ → ℚ) : ∃ f, projectVar ev (manager [] [wholeSet, { wholeSet with cond := some fun _ => some (.text "x") }]) 2
    ⟨"e", "HGRAD"⟩ = some f ∧ f 0 = ev (.text "0.0") :=
  C186_same_violated ev wholeSet _ [] (fun _ => some .other) rfl ⟨"e", "HGRAD"⟩ ⟨"e", "HGRAD"⟩ [] rfl rfl rfl rfl 2

end MrHyDE.Physics.InitialData
