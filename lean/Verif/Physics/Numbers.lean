import Mathlib.Algebra.Order.Floor.Ring
import Mathlib.Algebra.Order.Round
import Mathlib.Data.Rat.Floor
import Mathlib.Algebra.Order.Field.Rat
import Mathlib.Tactic.Linarith
import Mathlib.Tactic.FieldSimp
import Mathlib.Tactic.Positivity

/-!
# Numbers given for boundary and initial conditions (C99)

A condition may be given as a number or as an expression (text), for one side or for "all boundaries".  Every
condition becomes a function of the function manager, whose definition is a text.
-/

namespace MrHyDE.Physics.Numbers

/-! ## Model -/

/-- An entry for a condition in the input: text, a number, or something else (a whole number, a logical value);
the tests `isType` of src/interfaces/physics/physicsInterface_functions.hpp:163-171 and 259-269.
Numbers are taken as rationals; the binary rounding of the number itself is not modelled. -/
inductive Given where
  | text (s : String)
  | num (q : ℚ)
  | other
  deriving DecidableEq

/-- What a function manager receives as definition: a text of the user, or the text of a number, which is kept here
as the number it denotes; the argument `entry` of `addFunction`, physicsInterface_functions.hpp:262 and 268. -/
inductive Def where
  | text (s : String)
  | num (q : ℚ)
  deriving DecidableEq

/-- The whole number nearest to `q`, ties to the even one: the rounding of `printf("%f")`, which
`std::to_string` of physicsInterface_functions.hpp:168 uses. -/
def nearest (q : ℚ) : Int :=
  let f := ⌊q⌋
  if q - f < 1 / 2 then f
  else if 1 / 2 < q - f then f + 1
  else if f % 2 = 0 then f else f + 1

/-- `std::to_string(double)` (C++ standard: `printf` with "%f", six digits after the point), as the number denoted
by the text; used in src/interfaces/physics/physicsInterface_functions.hpp:168, 188, 201, 214, 249, 266, 290,
307. -/
def toStringValue (q : ℚ) : ℚ := (nearest (q * 1000000) : ℚ) / 1000000

/-- The definition of the initial value of a variable, physicsInterface_functions.hpp:162-172. -/
def initialDef (e : Option Given) : Def :=
  match e with
  | some (.text s) => .text s
  | some (.num q) => .num (toStringValue q)
  | _ => .text "0.0"

/-- The entries of a variable: side names (or "all boundaries") with what is given; the sublist of a variable,
physicsInterface_functions.hpp:256. -/
abbrev Entries := List (String × Given)

/-- `isType<string>(name)` and the like: the entry of that name, physicsInterface_functions.hpp:240 and
247. -/
def entry : Entries → String → Option Given
  | [], _ => none
  | (k', e) :: l, k => if k' = k then some e else entry l k

/-- The loop over the sides given one by one, physicsInterface_functions.hpp:258-271. -/
def sideDefs : Entries → List (String × Def)
  | [] => []
  | (s, .text t) :: l => (s, .text t) :: sideDefs l
  | (s, .num q) :: l => (s, .num (toStringValue q)) :: sideDefs l
  | (_, .other) :: l => sideDefs l

/-- The functions defined for the Dirichlet condition of a variable, side by side,
physicsInterface_functions.hpp:240-272; `sides` are all side names of the mesh. -/
def dirichlet (sides : List String) (es : Entries) : List (String × Def) :=
  match entry es "all boundaries" with
  | some (.text t) => sides.map (fun s : String => (s, Def.text t))
  | some (.num q) => sides.map (fun s : String => (s, Def.num (toStringValue q)))
  | _ => sideDefs es

/-- The loop over the sides of a Neumann condition, physicsInterface_functions.hpp:337-344; `none` is the exception
of `get<string>` for an entry that is no text. -/
def textDefs : Entries → Option (List (String × Def))
  | [] => some []
  | (s, .text t) :: l => (textDefs l).map (fun r => (s, Def.text t) :: r)
  | _ :: _ => none

/-- The functions defined for the Neumann condition of a variable, physicsInterface_functions.hpp:329-345 (the same
code for far-field conditions 358-374, slip conditions 387-403 and flux conditions 416-432). -/
def neumann (sides : List String) (es : Entries) : Option (List (String × Def)) :=
  match entry es "all boundaries" with
  | some (.text t) => some (sides.map (fun s : String => (s, Def.text t)))
  | some _ => none
  | none => textDefs es

/-! ## Specification -/

/-- What the user asks for on a side: the entry of the side, otherwise that of all boundaries.
[specification, no code] -/
def asked (es : Entries) (side : String) : Option Given :=
  match entry es side with
  | some e => some e
  | none => entry es "all boundaries"

/-- A definition stands for what was given, up to an error in the number. [specification, no code] -/
def Stands (tol : ℚ) : Given → Def → Prop
  | .text s, .text t => s = t
  | .num q, .num r => |r - q| ≤ tol
  | _, _ => False

/-! ## Lemmas -/

theorem nearest_close (q : ℚ) : |(nearest q : ℚ) - q| ≤ 1 / 2 := by
  have h1 := Int.floor_le q
  have h2 := Int.lt_floor_add_one q
  unfold nearest
  simp only []
  rw [abs_le]
  by_cases a : q - ⌊q⌋ < 1 / 2
  · rw [if_pos a]; constructor <;> linarith
  · rw [if_neg a]
    by_cases b : 1 / 2 < q - ⌊q⌋
    · rw [if_pos b]; push_cast; constructor <;> linarith
    · rw [if_neg b]
      by_cases c : ⌊q⌋ % 2 = 0
      · rw [if_pos c]; constructor <;> linarith
      · rw [if_neg c]; push_cast; constructor <;> linarith

theorem nearest_unique (q : ℚ) (n : Int) (h : |(n : ℚ) - q| < 1 / 2) : nearest q = n := by
  have h1 := nearest_close q
  rw [abs_le] at h1
  rw [abs_lt] at h
  have a : (nearest q : ℚ) - n < 1 := by linarith [h1.2, h.1]
  have b : -1 < (nearest q : ℚ) - n := by linarith [h1.1, h.2]
  have a' : nearest q - n < 1 := by exact_mod_cast a
  have b' : -1 < nearest q - n := by exact_mod_cast b
  omega

/-! ## Properties -/

/-- C99, the error made in a number: at most half a millionth. -/
theorem C99_error (q : ℚ) : |toStringValue q - q| ≤ 1 / 2000000 := by
  have h := nearest_close (q * 1000000)
  unfold toStringValue
  have e : (nearest (q * 1000000) : ℚ) / 1000000 - q = ((nearest (q * 1000000) : ℚ) - q * 1000000) / 1000000 := by
    field_simp
  rw [e, abs_div]
  have : |(1000000 : ℚ)| = 1000000 := by norm_num
  rw [this]
  linarith

/-- C99, which numbers are used as given: exactly the multiples of a millionth. -/
theorem C99_exact (q : ℚ) : toStringValue q = q ↔ ∃ n : Int, q = n / 1000000 := by
  constructor
  · intro h
    exact ⟨nearest (q * 1000000), h.symm⟩
  · rintro ⟨n, rfl⟩
    have e : ((n : ℚ) / 1000000) * 1000000 = n := by field_simp
    unfold toStringValue
    rw [e, nearest_unique (n : ℚ) n (by simp)]

example : toStringValue (37 / 4) = 37 / 4 := (C99_exact _).mpr ⟨9250000, by norm_num⟩

/-- C99 is violated by small numbers: every number below half a millionth in size becomes zero, so that relative
errors are not bounded. -/
theorem C99_small_violated (q : ℚ) (h : |q| < 1 / 2000000) :
    initialDef (some (.num q)) = .num 0 ∧
    ∀ sides : List String, dirichlet sides [("all boundaries", .num q)] = sides.map (fun s : String => (s, Def.num 0)) := by
  have hz : toStringValue q = 0 := by
    unfold toStringValue
    rw [nearest_unique (q * 1000000) 0]
    · simp
    · rw [abs_lt] at h ⊢
      constructor <;> push_cast <;> linarith [h.1, h.2]
  constructor
  · simp [initialDef, hz]
  · intro sides
    simp [dirichlet, entry, hz]

example : |(1 / 10000000 : ℚ)| < 1 / 2000000 := by norm_num [abs_of_pos]

theorem sideDefs_mem {es : Entries} {s : String} {d : Def} (h : (s, d) ∈ sideDefs es) :
    ∃ g, (s, g) ∈ es ∧ Stands (1 / 2000000) g d := by
  induction es with
  | nil => simp [sideDefs] at h
  | cons e es ih =>
      obtain ⟨s', g⟩ := e
      cases g with
      | text t =>
          simp only [sideDefs, List.mem_cons] at h
          rcases h with h | h
          · obtain ⟨rfl, rfl⟩ := Prod.mk.inj h
            exact ⟨.text t, by simp, rfl⟩
          · obtain ⟨g, a, b⟩ := ih h
            exact ⟨g, List.mem_cons_of_mem _ a, b⟩
      | num q =>
          simp only [sideDefs, List.mem_cons] at h
          rcases h with h | h
          · obtain ⟨rfl, rfl⟩ := Prod.mk.inj h
            exact ⟨.num q, by simp, C99_error q⟩
          · obtain ⟨g, a, b⟩ := ih h
            exact ⟨g, List.mem_cons_of_mem _ a, b⟩
      | other =>
          simp only [sideDefs] at h
          obtain ⟨g, a, b⟩ := ih h
          exact ⟨g, List.mem_cons_of_mem _ a, b⟩

theorem entry_mem {es : Entries} (hn : (es.map Prod.fst).Nodup) {s : String} {g : Given} (h : (s, g) ∈ es) :
    entry es s = some g := by
  induction es with
  | nil => simp at h
  | cons e es ih =>
      obtain ⟨k, e⟩ := e
      simp only [List.map_cons, List.nodup_cons] at hn
      rcases List.mem_cons.mp h with h1 | h1
      · obtain ⟨rfl, rfl⟩ := Prod.mk.inj h1
        simp [entry]
      · have hk : ¬ k = s := fun e => hn.1 (e ▸ List.mem_map.mpr ⟨(s, g), h1, rfl⟩)
        simp only [entry, hk, if_false]
        exact ih hn.2 h1

theorem mem_of_entry {es : Entries} {s : String} {g : Given} (h : entry es s = some g) : (s, g) ∈ es := by
  induction es with
  | nil => simp [entry] at h
  | cons e es ih =>
      obtain ⟨k, e⟩ := e
      by_cases hk : k = s
      · subst hk
        simp only [entry, if_true] at h
        have : e = g := by simpa using h
        subst this
        simp
      · simp only [entry, hk, if_false] at h
        exact List.mem_cons_of_mem _ (ih h)

theorem mem_sideDefs {es : Entries} {s : String} {g : Given} (h : (s, g) ∈ es) (hg : g ≠ .other) :
    ∃ d, (s, d) ∈ sideDefs es := by
  induction es with
  | nil => simp at h
  | cons e es ih =>
      rcases List.mem_cons.mp h with h1 | h1
      · subst h1
        cases g with
        | text t => exact ⟨.text t, by simp [sideDefs]⟩
        | num q => exact ⟨.num (toStringValue q), by simp [sideDefs]⟩
        | other => exact absurd rfl hg
      · obtain ⟨d, hd⟩ := ih h1
        obtain ⟨s', g'⟩ := e
        cases g' with
        | text t => exact ⟨d, by simp [sideDefs, hd]⟩
        | num q => exact ⟨d, by simp [sideDefs, hd]⟩
        | other => exact ⟨d, by simpa [sideDefs] using hd⟩

/-- C99, partial: when the Dirichlet condition of a variable is given for sides one by one (each once), every side
with a text or number gets a definition, and every definition stands for what was asked for on its side up to half a
millionth.  Missing: smaller errors, see `C99_small_violated`, and the mixture with "all boundaries", see
`C99_all_violated`. -/
theorem C99_partial (sides : List String) (es : Entries) (hn : (es.map Prod.fst).Nodup)
    (ha : "all boundaries" ∉ es.map Prod.fst) :
    (∀ s d, (s, d) ∈ dirichlet sides es → ∃ g, asked es s = some g ∧ Stands (1 / 2000000) g d) ∧
    (∀ s g, asked es s = some g → g ≠ .other → ∃ d, (s, d) ∈ dirichlet sides es) := by
  have he : entry es "all boundaries" = none := by
    cases h : entry es "all boundaries" with
    | none => rfl
    | some g => exact absurd (List.mem_map.mpr ⟨_, mem_of_entry h, rfl⟩) ha
  have hd : dirichlet sides es = sideDefs es := by
    unfold dirichlet
    rw [he]
  rw [hd]
  constructor
  · intro s d h
    obtain ⟨g, a, b⟩ := sideDefs_mem h
    refine ⟨g, ?_, b⟩
    unfold asked
    rw [entry_mem hn a]
  · intro s g h hg
    unfold asked at h
    cases h1 : entry es s with
    | none => rw [h1] at h; simp only [he] at h; exact absurd h (by simp)
    | some g' =>
        rw [h1] at h
        have : g' = g := by simpa using h
        subst this
        exact mem_sideDefs (mem_of_entry h1) hg

example : dirichlet ["left", "right"] [("left", .num 2), ("right", .text "x*y")] =
    [("left", .num 2), ("right", .text "x*y")] := by decide +kernel

/-- C99 is violated by an entry for all boundaries beside one for a side: the entry of the side has no effect,
whatever it is and wherever it stands. -/
theorem C99_all_violated (sides : List String) (t : String) (es es' : Entries)
    (h : entry es "all boundaries" = some (.text t)) (h' : entry es' "all boundaries" = some (.text t)) :
    dirichlet sides es = dirichlet sides es' ∧ neumann sides es = neumann sides es' := by
  simp [dirichlet, neumann, h, h']

example : dirichlet ["left", "right"] [("left", .num 5), ("all boundaries", .text "0.0")] =
    [("left", .text "0.0"), ("right", .text "0.0")] := by decide +kernel

/-- C99 is violated by numbers in conditions other than Dirichlet and initial ones: the run ends with an
exception for every number, where the Dirichlet condition accepts it. -/
theorem C99_neumann_violated (sides : List String) (q : ℚ) (side : String) (l : Entries)
    (hs : entry ((side, .num q) :: l) "all boundaries" = none) :
    neumann sides ((side, .num q) :: l) = none ∧ neumann sides [("all boundaries", .num q)] = none := by
  constructor
  · unfold neumann
    rw [hs]
    rfl
  · simp [neumann, entry]

example : entry [("left", .num 1)] "all boundaries" = none := by decide

/-- C99, entries that are neither text nor a number with a point (such as the whole number 1) are left out without
a report, and an initial value of this kind is zero. -/
theorem C99_whole_violated (sides : List String) (side : String) (h : side ≠ "all boundaries") :
    dirichlet sides [(side, .other)] = [] ∧ initialDef (some .other) = .text "0.0" := by
  constructor
  · simp [dirichlet, entry, h, sideDefs]
  · rfl

example : ("left" : String) ≠ "all boundaries" := by decide

end MrHyDE.Physics.Numbers
