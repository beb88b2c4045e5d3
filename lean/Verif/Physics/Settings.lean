import Mathlib.Data.List.Infix
import Mathlib.Data.List.Basic

/-!
# Settings of an element block (C96)

The input may hold, inside the lists "Physics", "Discretization", "Solver" and "Functions", sublists whose name
mentions element blocks; the entries of such a sublist replace the general ones on those blocks.
-/

namespace MrHyDE.Physics.Settings

/-! ## Model -/

/-- An entry of a parameter list (Teuchos): a value, or a sublist with its own entries.  Values are opaque: a
nested sublist of a sublist is replaced as a whole, as `setEntry` does, so it is a value here.
src/interfaces/physics/physicsInterface_construct.hpp:59 (`isSublist`). -/
inductive Entry (V : Type) where
  | val (v : V)
  | sub (l : List (String × V))
  deriving DecidableEq

/-- A parameter list: names with entries in the order of insertion, in which the iterators of
physicsInterface_construct.hpp:56-57 visit them (Teuchos). -/
abbrev PList (V : Type) := List (String × Entry V)

/-- `ParameterList::setEntry` (Teuchos), as used in
src/interfaces/physics/physicsInterface_construct.hpp:65: an existing name keeps its place and gets the new value,
a new name is appended. -/
def setEntry {V : Type} : PList V → String → V → PList V
  | [], k, v => [(k, .val v)]
  | (k', e) :: l, k, v => if k' = k then (k', .val v) :: l else (k', e) :: setEntry l k v

/-- The loop over the entries of a block sublist, physicsInterface_construct.hpp:62-67. -/
def mergeSub {V : Type} : PList V → List (String × V) → PList V
  | p, [] => p
  | p, (k, v) :: l => mergeSub (setEntry p k v) l

/-- `newvar.find(block) != npos`, physicsInterface_construct.hpp:60: the block name occurs somewhere in the name of
the sublist. -/
def mentions (name block : String) : Bool := decide (block.toList <:+: name.toList)

/-- The loop over the entries of the list of a set, physicsInterface_construct.hpp:57-71 (and 82-96 for the
discretization, 107-121 for the solver): `p` is the copy that is written. -/
def mergeBlocks {V : Type} (block : String) : PList V → PList V → PList V
  | p, [] => p
  | p, (_, .val _) :: l => mergeBlocks block p l
  | p, (name, .sub s) :: l => mergeBlocks block (if mentions name block then mergeSub p s else p) l

/-- The settings of a block, physicsInterface_construct.hpp:54-73: the whole list of the set, with the block
sublists merged over it. -/
def blockSettings {V : Type} (block : String) (l : PList V) : PList V := mergeBlocks block l l

/-- The plain entries of a list, src/interfaces/physics/physicsInterface_functions.hpp:96-104. -/
def plain {V : Type} (l : PList V) : PList V :=
  l.filter (fun e : String × Entry V => match e.2 with | .val _ => true | .sub _ => false)

/-- The functions of a block, physicsInterface_functions.hpp:94-121: only the plain entries are copied before the
block sublists are merged. -/
def blockFunctions {V : Type} (block : String) (l : PList V) : PList V := mergeBlocks block (plain l) l

/-- What `get<T>(name)` finds (Teuchos): the entry of that name; for instance
physicsInterface_construct.hpp:170. -/
def get {V : Type} : PList V → String → Option (Entry V)
  | [], _ => none
  | (k', e) :: l, k => if k' = k then some e else get l k

/-! ## Specification -/

/-- The value a sublist gives to a name: the last one. [specification, no code] -/
def given {V : Type} (s : List (String × V)) (k : String) : Option V :=
  ((s.filter (fun e : String × V => e.1 = k)).getLast?).map (fun e : String × V => e.2)

/-- The sublists with a property of their name, in order. [specification, no code] -/
def chosen {V : Type} (ok : String → Bool) (l : PList V) : List (List (String × V)) :=
  l.filterMap (fun e : String × Entry V => match e.2 with | .sub s => if ok e.1 then some s else none | .val _ => none)

/-- The value that applies to a name: that of the last chosen sublist which gives one, otherwise the general one.
[specification, no code] -/
def effective {V : Type} (ok : String → Bool) (general l : PList V) (k : String) : Option (Entry V) :=
  match ((chosen ok l).filterMap (fun s : List (String × V) => given s k)).getLast? with
  | some v => some (.val v)
  | none => get general k

/-! ## Lemmas -/

variable {V : Type}

theorem get_setEntry (p : PList V) (k : String) (v : V) (k2 : String) :
    get (setEntry p k v) k2 = if k = k2 then some (.val v) else get p k2 := by
  induction p with
  | nil => simp [setEntry, get]
  | cons e l ih =>
      obtain ⟨k', e⟩ := e
      by_cases h : k' = k
      · subst h
        by_cases h2 : k' = k2 <;> simp [setEntry, get, h2]
      · simp only [setEntry, h, if_false, get, ih]
        by_cases h2 : k' = k2
        · subst h2
          have h3 : ¬ k = k' := fun e => h e.symm
          simp [h3]
        · simp [h2]

theorem get_mergeSub (s : List (String × V)) (p : PList V) (k : String) :
    get (mergeSub p s) k = match given s k with | some v => some (.val v) | none => get p k := by
  induction s generalizing p with
  | nil => simp [mergeSub, given]
  | cons e s ih =>
      obtain ⟨a, v⟩ := e
      simp only [mergeSub]
      rw [ih]
      by_cases h : a = k
      · subst h
        have hg : given ((a, v) :: s) a = some ((given s a).getD v) := by
          unfold given
          rw [List.filter_cons_of_pos (by simp)]
          cases hs : (s.filter (fun e : String × V => e.1 = a)).getLast? with
          | none =>
              rw [List.getLast?_eq_none_iff] at hs
              simp [hs]
          | some w =>
              rw [List.getLast?_cons]
              simp [hs]
        rw [hg]
        cases given s a with
        | none => simp [get_setEntry]
        | some w => simp
      · have hg : given ((a, v) :: s) k = given s k := by
          unfold given
          rw [List.filter_cons_of_neg (by simpa using h)]
        rw [hg]
        cases given s k with
        | none => simp [get_setEntry, h]
        | some w => simp

theorem get_mergeBlocks (block : String) (l p : PList V) (k : String) :
    get (mergeBlocks block p l) k = effective (fun n : String => mentions n block) p l k := by
  induction l generalizing p with
  | nil => simp [mergeBlocks, effective, chosen]
  | cons e l ih =>
      obtain ⟨name, e⟩ := e
      cases e with
      | val v =>
          simp only [mergeBlocks]
          rw [ih]
          simp [effective, chosen]
      | sub s =>
          simp only [mergeBlocks]
          rw [ih]
          by_cases h : mentions name block = true
          · simp only [effective, chosen, h, if_true, List.filterMap_cons]
            cases hg : given s k with
            | none =>
                cases hl : (((l.filterMap (fun e : String × Entry V => match e.2 with
                    | .sub s => if mentions e.1 block then some s else none
                    | .val _ => none)).filterMap (fun s : List (String × V) => given s k)).getLast?) with
                | none => simp [hl, get_mergeSub, hg]
                | some v => simp [hl]
            | some w =>
                rw [List.getLast?_cons]
                cases hl : (((l.filterMap (fun e : String × Entry V => match e.2 with
                    | .sub s => if mentions e.1 block then some s else none
                    | .val _ => none)).filterMap (fun s : List (String × V) => given s k)).getLast?) with
                | none => simp [get_mergeSub, hg]
                | some v => simp
          · simp only [effective, chosen, List.filterMap_cons]
            simp [h]

/-! ## Properties -/

/-- C96, what is computed: the setting of a block under a name is that of the last sublist whose name contains the
block name and which has such an entry; without one it is the general setting. -/
theorem C96_settings (block : String) (l : PList V) (k : String) :
    get (blockSettings block l) k = effective (fun n : String => mentions n block) l l k :=
  get_mergeBlocks block l l k

theorem get_plain (l : PList V) (h : (l.map Prod.fst).Nodup) (k : String) :
    get (plain l) k = match get l k with | some (.val v) => some (.val v) | _ => none := by
  induction l with
  | nil => simp [plain, get]
  | cons e l ih =>
      obtain ⟨a, e⟩ := e
      rw [List.map_cons, List.nodup_cons] at h
      have ih := ih h.2
      have hno : a = k → get (plain l) k = none := by
        rintro rfl
        have : ∀ l : PList V, a ∉ l.map Prod.fst → get l a = none := by
          intro l
          induction l with
          | nil => intro _; rfl
          | cons e l ih2 =>
              intro hn
              rw [List.map_cons, List.mem_cons, not_or] at hn
              rw [get, if_neg (fun hx => hn.1 hx.symm), ih2 hn.2]
        rw [ih, this l h.1]
      cases e with
      | val v =>
          have : plain ((a, .val v) :: l) = (a, .val v) :: plain l := by simp [plain]
          rw [this, get, get]
          by_cases hk : a = k
          · simp [hk]
          · simp [hk, ih]
      | sub s =>
          have : plain ((a, .sub s) :: l) = plain l := by simp [plain]
          rw [this, get]
          by_cases hk : a = k
          · rw [hno hk]
            simp [hk]
          · simp [hk, ih]

/-- C96, the same for functions: the function of a block under a name is that of the last sublist whose name contains the block
name and which has such an entry; without one it is the general function, where sublists do not count.  Names in a list are
different. -/
theorem C96_functions (block : String) (l : PList V) (h : (l.map Prod.fst).Nodup) (k : String) :
    get (blockFunctions block l) k =
      match effective (fun n : String => mentions n block) l l k with | some (.val v) => some (.val v) | _ => none := by
  have h1 : get (blockFunctions block l) k = effective (fun n : String => mentions n block) (plain l) l k :=
    get_mergeBlocks block l (plain l) k
  rw [h1]
  unfold effective
  cases ((chosen (fun n : String => mentions n block) l).filterMap (fun s : List (String × V) => given s k)).getLast? with
  | none => exact get_plain l h k
  | some v => rfl

/-- C96, partial: the setting of a block is that of the last sublist made for the block (`ok`), provided no other
sublist has a name that contains the block name.  Missing: block names occurring in other names, see
`C96_prefix_violated`. -/
theorem C96_partial (block : String) (ok : String → Bool) (l : PList V) (k : String)
    (h : ∀ e ∈ l, ok e.1 = mentions e.1 block) :
    get (blockSettings block l) k = effective ok l l k := by
  have hc : chosen ok l = chosen (fun n : String => mentions n block) l := by
    unfold chosen
    apply List.filterMap_congr
    intro e he
    rw [h e he]
  rw [C96_settings]
  unfold effective
  rw [hc]

/-- Three blocks with names that do not contain each other; a sublist for two of them. [case] -/
def exGood : PList Nat :=
  [("order", .val 1), ("left", .sub [("order", 2)]), ("left, right", .sub [("tol", 7)])]

/-- The names of `exGood` are different. -/
example : (exGood.map Prod.fst).Nodup := by decide +kernel

example : (∀ e ∈ exGood, (fun n : String => n == "left" || n == "left, right") e.1 = mentions e.1 "left") ∧
    get (blockSettings "left" exGood) "order" = some (.val 2) ∧
    get (blockSettings "left" exGood) "tol" = some (.val 7) ∧
    get (blockSettings "right" exGood) "order" = some (.val 1) ∧
    get (blockSettings "middle" exGood) "tol" = none := by decide +kernel

/-- C96 is violated for block names that begin other block names: the settings made for the block `b ++ c` are also
those of `b`, for every name `b` and every ending `c`, when they come last. -/
theorem C96_prefix_violated (b c : String) (l : PList V) (k : String) (v : V) :
    get (blockSettings b (l ++ [(b ++ c, .sub [(k, v)])])) k = some (.val v) := by
  rw [C96_settings]
  have hm : mentions (b ++ c) b = true := by
    simp only [mentions, decide_eq_true_eq, String.toList_append]
    exact (List.prefix_append _ _).isInfix
  unfold effective
  have hc : chosen (fun n : String => mentions n b) (l ++ [(b ++ c, Entry.sub [(k, v)])]) =
      chosen (fun n : String => mentions n b) l ++ [[(k, v)]] := by
    simp [chosen, hm]
  rw [hc]
  simp [given]

/-- C96, the case of eleven blocks with the usual names: the order set for block eleven is used on block two, whose
own sublist comes first.  [case of `C96_prefix_violated`] -/
theorem C96_eleven_violated :
    get (blockSettings "eblock-0_1" [("order", .val 1), ("eblock-0_1", .sub [("order", 2)]),
      ("eblock-0_10", .sub [("order", 4)])]) "order" = some (.val (4 : Nat)) ∧
    get (blockSettings "eblock-0_10" [("order", .val 1), ("eblock-0_1", .sub [("order", 2)]),
      ("eblock-0_10", .sub [("order", 4)])]) "order" = some (.val (4 : Nat)) := by decide +kernel

end MrHyDE.Physics.Settings
