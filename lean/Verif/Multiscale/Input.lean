import Verif.Multiscale.Props

/-!
# The subgrid models of the input (C181)

The constructor of `MultiscaleManager` reads the section `Subgrid` of the input, makes the models, attaches each to a block of
the coarse mesh and registers its usage function there; `setMacroInfo` gives it the data of that block.
-/

set_option linter.unusedSectionVars false

namespace MrHyDE.Multiscale.Input

variable {I : Type}

/-! ## Model -/

/-- What is read from the section of one model: "subgrid model", "macro block" and "usage", `none` where the input does not
have it, src/managers/multiscale/multiscaleManager.cpp:95-96, 122-123, 147-150. -/
structure Deck where
  /-- "subgrid model" -/
  kind : Option String
  /-- "macro block" -/
  block : Option String
  /-- "usage" -/
  usage : Option String
deriving DecidableEq, Repr

/-- The section `Subgrid`: its entries in the order of the input, a sublist or (`none`) a parameter; what it holds itself when it
describes a single model; "number of models", src/managers/multiscale/multiscaleManager.cpp:62-86. -/
structure Section where
  /-- entries in order -/
  entries : List (String × Option Deck)
  /-- the section read as one model -/
  own : Deck
  /-- "number of models" -/
  number : Option Int
deriving DecidableEq, Repr

/-- An entry with name "Mesh" makes the section a single model, src/managers/multiscale/multiscaleManager.cpp:61-68. -/
def isSingle (s : Section) : Bool := s.entries.any fun e => e.1 == "Mesh"

/-- The loop over the entries while fewer than the allowed number of models are found,
src/managers/multiscale/multiscaleManager.cpp:76-86; `left` is the number still allowed. -/
def collect : List (String × Option Deck) → Int → List (String × Deck)
  | [], _ => []
  | (n, e) :: t, left =>
    if left ≤ 0 then []
    else match e with
      | some d => (n, d) :: collect t (left - 1)
      | none => collect t left

/-- The lists `subgrid_model_pls` with their names, src/managers/multiscale/multiscaleManager.cpp:69-87. -/
def decks (s : Section) : List (String × Deck) :=
  if isSingle s then [("Subgrid", s.own)] else collect s.entries (s.number.getD 1000)

/-- The search for the block from index `i` on, src/managers/multiscale/multiscaleManager.cpp:100-105, 127-132. -/
def blockLoop (name : String) : List String → Nat → Nat → Nat
  | [], _, cur => cur
  | b :: t, i, cur => blockLoop name t (i + 1) (if b = name then i else cur)

/-- A subgrid model as far as it is set here: name, `true` for `SubGridDtN2`, the block whose topology it gets, `macro_block`,
`usage`, src/managers/multiscale/multiscaleManager.cpp:106-117, 133-152, src/subgrid/subgridDtN2.cpp:21. -/
structure Mdl where
  /-- name of the section -/
  name : String
  /-- `SubGridDtN2` or `SubGridDtN` -/
  two : Bool
  /-- block of the topology -/
  topo : Nat
  /-- `macro_block` -/
  block : Nat
  /-- `usage` -/
  usage : String
deriving DecidableEq, Repr

/-- `subgridModels[size-1]->...`: `none` when the list is empty, src/managers/multiscale/multiscaleManager.cpp:116-117, 144,
152. -/
def setLast (ms : List Mdl) (b : Nat) (u : String) : Option (List Mdl) :=
  match ms.getLast? with
  | none => none
  | some m => some (ms.dropLast ++ [{ m with block := b, usage := u }])

/-- One model, with default `dflt` for the usage: the topology of the block (no block at all is an access out of range), the model
by its type, then block and usage of the last model of the list, src/managers/multiscale/multiscaleManager.cpp:94-117, 121-152.  A
model without its own values yet has block 0 and empty usage here. -/
def addModel (names : List String) (dflt : String) (ms : List Mdl) (e : String × Deck) : Option (List Mdl) :=
  let b := blockLoop (e.2.block.getD "eblock-0_0_0") names 0 0
  if names.length ≤ b then none
  else
    let kind := e.2.kind.getD "DtN2"
    let ms' :=
      if kind = "DtN" then ms ++ [⟨e.1, false, b, 0, ""⟩]
      else if kind = "DtN2" then ms ++ [⟨e.1, true, b, 0, ""⟩]
      else ms
    setLast ms' b (e.2.usage.getD dflt)

/-- The loop over the models from number `j` on, src/managers/multiscale/multiscaleManager.cpp:120-153. -/
def addAll (names : List String) : List (String × Deck) → Nat → List Mdl → Option (List Mdl)
  | [], _, ms => some ms
  | e :: t, j, ms =>
    match addModel names (if j = 0 then "1.0" else "0.0") ms e with
    | none => none
    | some ms' => addAll names t (j + 1) ms'

/-- The models of the input, src/managers/multiscale/multiscaleManager.cpp:93-155.  A single model has usage "1.0" whatever the
input says. -/
def models (names : List String) (s : Section) : Option (List Mdl) :=
  if isSingle s then addModel names "1.0" [] ("Subgrid", { s.own with usage := some "1.0" })
  else addAll names (decks s) 0 []

/-- The usage functions: block, name, expression, src/managers/multiscale/multiscaleManager.cpp:162-168. -/
def usageFunctions (ms : List Mdl) : List (Nat × String × String) :=
  ms.map fun m => (m.block, m.name ++ " usage", m.usage)

/-- "subgrid model selection"; another word leaves the variable without a value,
src/managers/multiscale/multiscaleManager.cpp:46-55. -/
def selection (w : Option String) : Option Nat :=
  let w := w.getD "user defined"
  if w = "user defined" then some 0
  else if w = "hierarchical" then some 1
  else if w = "ML" then some 2
  else none

/-- `setMacroInfo`: the data of the block of each model (`infos`, one entry per block) and the names of the sides, taken from the
first group of block 0; `groups0` is the number of groups of block 0 on the process; with none, an element of an empty list is
read, src/managers/multiscale/multiscaleManager.cpp:192-204. -/
def macroInfo (infos : List I) (groups0 : Nat) (ms : List Mdl) : Option (List I) :=
  ms.mapM fun m => do
    let i ← infos[m.block]?
    if groups0 = 0 then none else some i

/-! ## Specification -/

/-- The sublists of the section, in order.  [specification, no code] -/
def sublists (s : Section) : List (String × Deck) := s.entries.filterMap fun e => e.2.map fun d => (e.1, d)

/-- The input for a model makes sense: a known type, a block of the mesh.  [specification, no code] -/
def Known (names : List String) (d : Deck) : Prop :=
  (d.kind.getD "DtN2" = "DtN" ∨ d.kind.getD "DtN2" = "DtN2") ∧ d.block.getD "eblock-0_0_0" ∈ names

/-- A model is the one described by entry `j` of the input.  [specification, no code] -/
structure IsModel (names : List String) (j : Nat) (e : String × Deck) (m : Mdl) : Prop where
  name : m.name = e.1
  kind : m.two = true ↔ e.2.kind.getD "DtN2" = "DtN2"
  block : names[m.block]? = some (e.2.block.getD "eblock-0_0_0")
  topo : m.topo = m.block
  given : ∀ u, e.2.usage = some u → m.usage = u
  default : e.2.usage = none → m.usage = if j = 0 then "1.0" else "0.0"

/-! ## Lemmas -/

theorem collect_eq : ∀ (l : List (String × Option Deck)) (left : Int),
    collect l left = (l.filterMap fun e => e.2.map fun d => (e.1, d)).take left.toNat
  | [], _ => by simp [collect]
  | (n, none) :: t, left => by
    rw [collect]
    split
    · next h => simp [show left.toNat = 0 by omega]
    · rw [collect_eq t left]
      simp
  | (n, some d) :: t, left => by
    rw [collect]
    split
    · next h => simp [show left.toNat = 0 by omega]
    · next h =>
      rw [collect_eq t (left - 1)]
      obtain ⟨k, hk⟩ : ∃ k : Nat, left.toNat = k + 1 := ⟨left.toNat - 1, by omega⟩
      rw [hk, show (left - 1).toNat = k by omega]
      simp

theorem blockLoop_absent (name : String) : ∀ (l : List String) (i cur : Nat), name ∉ l → blockLoop name l i cur = cur
  | [], _, _, _ => rfl
  | b :: t, i, cur, h => by
    simp only [List.mem_cons, not_or] at h
    rw [blockLoop, if_neg (fun hb => h.1 hb.symm), blockLoop_absent name t _ _ h.2]

theorem blockLoop_mem (name : String) : ∀ (l : List String) (i cur : Nat), name ∈ l →
    ∃ k, blockLoop name l i cur = i + k ∧ l[k]? = some name
  | [], _, _, h => by simp at h
  | b :: t, i, cur, h => by
    rw [blockLoop]
    by_cases ht : name ∈ t
    · obtain ⟨k, h1, h2⟩ := blockLoop_mem name t (i + 1) (if b = name then i else cur) ht
      exact ⟨k + 1, by rw [h1]; omega, by simpa using h2⟩
    · rw [blockLoop_absent name t _ _ ht]
      have : b = name := by
        simp only [List.mem_cons] at h
        rcases h with h | h
        · exact h.symm
        · exact absurd h ht
      exact ⟨0, by simp [this], by simp [this]⟩

theorem addModel_known (names : List String) (dflt : String) (ms : List Mdl) (e : String × Deck) (h : Known names e.2) :
    ∃ m, addModel names dflt ms e = some (ms ++ [m]) ∧ m.name = e.1 ∧ (m.two = true ↔ e.2.kind.getD "DtN2" = "DtN2") ∧
      names[m.block]? = some (e.2.block.getD "eblock-0_0_0") ∧ m.topo = m.block ∧ m.usage = e.2.usage.getD dflt := by
  obtain ⟨hk, hb⟩ := h
  obtain ⟨k, h1, h2⟩ := blockLoop_mem _ names 0 0 hb
  rw [Nat.zero_add] at h1
  have hlt : k < names.length := (List.getElem?_eq_some_iff.1 h2).1
  unfold addModel
  simp only [h1]
  rw [if_neg (by omega)]
  rcases hk with hk | hk
  · rw [if_pos hk]
    refine ⟨⟨e.1, false, k, k, e.2.usage.getD dflt⟩, by simp [setLast], rfl, ?_, h2, rfl, rfl⟩
    rw [hk]
    simp
  · rw [if_neg (by rw [hk]; decide), if_pos hk]
    exact ⟨⟨e.1, true, k, k, e.2.usage.getD dflt⟩, by simp [setLast], rfl, by simp [hk], h2, rfl, rfl⟩

theorem addAll_known (names : List String) : ∀ (l : List (String × Deck)) (j : Nat) (ms : List Mdl),
    (∀ e ∈ l, Known names e.2) → ∃ ns, addAll names l j ms = some (ms ++ ns) ∧ ns.length = l.length ∧
      ∀ (i : Nat) (e : String × Deck), l[i]? = some e → ∃ m, ns[i]? = some m ∧ IsModel names (j + i) e m
  | [], j, ms, _ => ⟨[], by simp [addAll]⟩
  | e :: t, j, ms, h => by
    obtain ⟨m, hm, a1, a2, a3, a4, a5⟩ := addModel_known names (if j = 0 then "1.0" else "0.0") ms e (h e List.mem_cons_self)
    obtain ⟨ns, hn, hl, hi⟩ := addAll_known names t (j + 1) (ms ++ [m]) fun x hx => h x (List.mem_cons_of_mem _ hx)
    refine ⟨m :: ns, by simp [addAll, hm, hn], by simp [hl], ?_⟩
    intro i x hx
    cases i with
    | zero =>
      simp only [List.getElem?_cons_zero, Option.some.injEq] at hx
      subst hx
      refine ⟨m, rfl, a1, a2, a3, a4, ?_, ?_⟩
      · intro u hu; rw [a5, hu]; rfl
      · intro hu; rw [a5, hu]; rfl
    | succ i =>
      obtain ⟨m', h1, h2⟩ := hi i x (by simpa using hx)
      refine ⟨m', by simpa using h1, ?_⟩
      rw [show j + (i + 1) = j + 1 + i by omega]
      exact h2

theorem suffix_inj {a b c : String} (h : a ++ c = b ++ c) : a = b := by
  have := congrArg String.toList h
  simp only [String.toList_append] at this
  exact String.toList_inj.1 (List.append_cancel_right this)

theorem mapM_get {α β : Type} (f : α → Option β) : ∀ {l : List α} {ys : List β}, l.mapM f = some ys →
    ys.length = l.length ∧ ∀ (i : Nat) (x : α), l[i]? = some x → ys[i]? = f x
  | [], ys, h => by simp at h; subst h; simp
  | a :: l, ys, h => by
    rw [List.mapM_cons] at h
    cases hf : f a with
    | none => simp [hf] at h
    | some b =>
      cases hm : l.mapM f with
      | none => simp [hf, hm] at h
      | some bs =>
        simp only [hf, hm, Option.pure_def, Option.bind_eq_bind, Option.bind_some, Option.some.injEq] at h
        subst h
        obtain ⟨h1, h2⟩ := mapM_get f hm
        refine ⟨by simp [h1], ?_⟩
        intro i x hx
        cases i with
        | zero => simp at hx; subst hx; simp [hf]
        | succ i => simpa using h2 i x (by simpa using hx)

theorem mapM_some {α β : Type} (f : α → Option β) : ∀ (l : List α), (∀ x ∈ l, (f x).isSome) → ∃ ys, l.mapM f = some ys
  | [], _ => ⟨[], rfl⟩
  | a :: l, h => by
    obtain ⟨b, hb⟩ := Option.isSome_iff_exists.1 (h a List.mem_cons_self)
    obtain ⟨bs, hbs⟩ := mapM_some f l fun x hx => h x (List.mem_cons_of_mem _ hx)
    exact ⟨b :: bs, by simp [List.mapM_cons, hb, hbs]⟩

/-! ## Properties -/

/-- C181, which sections become models: without an entry "Mesh" the sublists in the order of the input, at most "number of models"
of them (1000 if not given). -/
theorem C181_sections (s : Section) (h : ∀ e ∈ s.entries, e.1 ≠ "Mesh") :
    decks s = (sublists s).take (s.number.getD 1000).toNat := by
  have : isSingle s = false := by
    simp only [isSingle, List.any_eq_false, beq_iff_eq]
    exact h
  simp [decks, this, collect_eq, sublists]

/-- C181, several models: if every section has a known type and names a block of the mesh, there is one model for each, in order,
with the name, type, block, topology and usage of its section; by default the first model is used everywhere and the others
nowhere. -/
theorem C181_models_partial (names : List String) (s : Section) (h : ∀ e ∈ s.entries, e.1 ≠ "Mesh")
    (hk : ∀ e ∈ sublists s, Known names e.2) :
    ∃ ms, models names s = some ms ∧ ms.length = ((sublists s).take (s.number.getD 1000).toNat).length ∧
      ∀ (j : Nat) (e : String × Deck), ((sublists s).take (s.number.getD 1000).toNat)[j]? = some e →
        ∃ m, ms[j]? = some m ∧ IsModel names j e m := by
  have hs : isSingle s = false := by
    simp only [isSingle, List.any_eq_false, beq_iff_eq]
    exact h
  rw [← C181_sections s h]
  obtain ⟨ns, h1, h2, h3⟩ := addAll_known names (decks s) 0 [] (by
    intro e he
    rw [C181_sections s h] at he
    exact hk e (List.mem_of_mem_take he))
  refine ⟨ns, by simp [models, hs, h1], h2, ?_⟩
  intro j e he
  obtain ⟨m, hm, hi⟩ := h3 j e he
  exact ⟨m, hm, by rwa [Nat.zero_add] at hi⟩

/-- C181, a single model: one model with the name of the section, used everywhere. -/
theorem C181_single_partial (names : List String) (s : Section) (e : String × Option Deck) (he : e ∈ s.entries)
    (hm : e.1 = "Mesh") (hk : Known names s.own) :
    ∃ m, models names s = some [m] ∧ m.name = "Subgrid" ∧ (m.two = true ↔ s.own.kind.getD "DtN2" = "DtN2") ∧
      names[m.block]? = some (s.own.block.getD "eblock-0_0_0") ∧ m.topo = m.block ∧ m.usage = "1.0" := by
  have hs : isSingle s = true := by
    simp only [isSingle, List.any_eq_true, beq_iff_eq]
    exact ⟨e, he, hm⟩
  obtain ⟨m, h1, h2, h3, h4, h5, h6⟩ := addModel_known names "1.0" [] ("Subgrid", { s.own with usage := some "1.0" }) hk
  refine ⟨m, by simpa [models, hs] using h1, h2, h3, h4, h5, h6⟩

/-- C181, usage functions: for models with different names there is in the block of each model exactly one function with its
name, and this is its usage. -/
theorem C181_usage (ms : List Mdl) (hn : (ms.map (·.name)).Nodup) (m : Mdl) (hm : m ∈ ms) (u : String) :
    (m.block, m.name ++ " usage", u) ∈ usageFunctions ms ↔ u = m.usage := by
  constructor
  · intro h
    obtain ⟨m', h1, h2⟩ := List.mem_map.1 h
    simp only [Prod.mk.injEq] at h2
    obtain ⟨_, h3, h4⟩ := h2
    have : m' = m := List.inj_on_of_nodup_map hn h1 hm (suffix_inj h3)
    rw [← h4, this]
  · rintro rfl
    exact List.mem_map.2 ⟨m, hm, rfl⟩

/-- C181, data of the coarse block: on a process with elements of block 0 every model gets the data of its own block. -/
theorem C181_info_partial (infos : List I) (groups0 : Nat) (ms : List Mdl) (hb : ∀ m ∈ ms, m.block < infos.length)
    (h0 : 0 < groups0) : ∃ is, macroInfo infos groups0 ms = some is ∧ is.length = ms.length ∧
      ∀ (j : Nat) (m : Mdl), ms[j]? = some m → is[j]? = infos[m.block]? := by
  obtain ⟨is, h⟩ := mapM_some (fun m : Mdl => (infos[m.block]?).bind fun i => if groups0 = 0 then none else some i) ms (by
    intro m hm
    simp [hb m hm, show groups0 ≠ 0 by omega])
  obtain ⟨h1, h2⟩ := mapM_get _ h
  refine ⟨is, h, h1, ?_⟩
  intro j m hj
  rw [h2 j m hj]
  have := hb m (List.mem_of_getElem? hj)
  simp [this, show groups0 ≠ 0 by omega]

/-- C181, the words of "subgrid model selection". -/
theorem C181_selection_partial (w : Option String) (k : Nat) :
    selection w = some k ↔ ((w = none ∨ w = some "user defined") ∧ k = 0) ∨ (w = some "hierarchical" ∧ k = 1) ∨
      (w = some "ML" ∧ k = 2) := by
  cases w with
  | none => simp [selection, eq_comm]
  | some w =>
    simp only [selection, Option.getD_some, reduceCtorEq, Option.some.injEq, false_or]
    by_cases h1 : w = "user defined"
    · subst h1; simp [eq_comm]
    · by_cases h2 : w = "hierarchical"
      · subst h2; simp [eq_comm]
      · by_cases h3 : w = "ML"
        · subst h3; simp [eq_comm]
        · simp [h1, h2, h3]

/-- C181 is false for a word that is not known: the choice of the models depends on a variable without a value. -/
theorem C181_selection_violated (w : String) (h1 : w ≠ "user defined") (h2 : w ≠ "hierarchical") (h3 : w ≠ "ML") :
    selection (some w) = none := by
  simp [selection, h1, h2, h3]

/-- C181 is false for a model that names a block the mesh does not have: it is attached to block 0 without a message. -/
theorem C181_block_violated (n : String) (names : List String) (d : Deck) (dflt : String) (ms : List Mdl)
    (hk : d.kind.getD "DtN2" = "DtN" ∨ d.kind.getD "DtN2" = "DtN2") (hn : names ≠ [])
    (hb : d.block.getD "eblock-0_0_0" ∉ names) :
    ∃ m, addModel names dflt ms (n, d) = some (ms ++ [m]) ∧ m.block = 0 ∧ m.name = n ∧
      names[m.block]? ≠ some (d.block.getD "eblock-0_0_0") := by
  have hl : 0 < names.length := List.length_pos_iff.2 hn
  have hne : names[0]? ≠ some (d.block.getD "eblock-0_0_0") := fun h => hb (List.mem_of_getElem? h)
  unfold addModel
  simp only [blockLoop_absent _ names 0 0 hb]
  rw [if_neg (by omega)]
  rcases hk with hk | hk
  · rw [if_pos hk]
    exact ⟨⟨n, false, 0, 0, d.usage.getD dflt⟩, by simp [setLast], rfl, rfl, hne⟩
  · rw [if_neg (by rw [hk]; decide), if_pos hk]
    exact ⟨⟨n, true, 0, 0, d.usage.getD dflt⟩, by simp [setLast], rfl, rfl, hne⟩

/-- C181 is false for a model of another type, such as "Explicit FEM": as the only model it ends in a write to an empty list; after
other models it makes no model, but the one before it gets its block and usage. -/
theorem C181_type_violated (n : String) (names : List String) (d : Deck) (dflt : String) (hn : names ≠ [])
    (h1 : d.kind.getD "DtN2" ≠ "DtN") (h2 : d.kind.getD "DtN2" ≠ "DtN2") :
    addModel names dflt [] (n, d) = none ∧
    ∀ (ms : List Mdl) (m : Mdl), addModel names dflt (ms ++ [m]) (n, d) =
      some (ms ++ [{ m with block := blockLoop (d.block.getD "eblock-0_0_0") names 0 0, usage := d.usage.getD dflt }]) := by
  have hlt : blockLoop (d.block.getD "eblock-0_0_0") names 0 0 < names.length := by
    by_cases hb : d.block.getD "eblock-0_0_0" ∈ names
    · obtain ⟨k, h3, h4⟩ := blockLoop_mem _ names 0 0 hb
      rw [h3, Nat.zero_add]
      exact (List.getElem?_eq_some_iff.1 h4).1
    · rw [blockLoop_absent _ names 0 0 hb]
      exact List.length_pos_iff.2 hn
  constructor
  · unfold addModel
    simp only
    rw [if_neg (by omega), if_neg h1, if_neg h2]
    rfl
  · intro ms m
    unfold addModel
    simp only
    rw [if_neg (by omega), if_neg h1, if_neg h2]
    simp [setLast]

/-- C181 is false for a single model with a usage of its own: the usage of the input is not read. -/
theorem C181_single_violated (names : List String) (s : Section) (u : String) (e : String × Option Deck)
    (he : e ∈ s.entries) (hm : e.1 = "Mesh") (hk : Known names s.own) (hu : s.own.usage = some u) (hne : u ≠ "1.0") :
    ∃ m, models names s = some [m] ∧ s.own.usage ≠ some m.usage := by
  obtain ⟨m, h1, _, _, _, _, h6⟩ := C181_single_partial names s e he hm hk
  refine ⟨m, h1, ?_⟩
  rw [hu, h6]
  simpa using hne

/-- C181 is false on a process without elements of block 0, if there is a model: the names of the sides are read from the first
group of that block. -/
theorem C181_info_violated (infos : List I) (m : Mdl) (ms : List Mdl) : macroInfo infos 0 (m :: ms) = none := by
  unfold macroInfo
  rw [List.mapM_cons]
  cases infos[m.block]? <;> simp

/-- Three models without "usage", for blocks 0, 1 and 0.  [case] -/
def three : Section :=
  { entries := [("A", some ⟨none, some "left", none⟩), ("static subgrids", none), ("B", some ⟨some "DtN", some "right", none⟩),
      ("C", some ⟨none, some "left", none⟩)],
    own := ⟨none, none, none⟩, number := none }

/-- C181 is false for the default of "usage" on a mesh of several blocks: the only model of block 1 is not used by
default, and the groups of block 1 get the last model of the input, which belongs to block 0.  `count s` is the number of points at
which the usage of model `s` is at least one, so zero for "0.0". -/
theorem C181_default_violated : ∃ (names : List String) (ms : List Mdl), models names three = some ms ∧
    (∃ m ∈ ms, m.block = 1) ∧
    ∀ count : Nat → Nat, (∀ s m, ms[s]? = some m → m.usage = "0.0" → count s = 0) →
      ∃ m, ms[winner (votes (ms.map (·.block)) count 1)]? = some m ∧ m.block ≠ 1 := by
  refine ⟨["left", "right"], [⟨"A", true, 0, 0, "1.0"⟩, ⟨"B", false, 1, 1, "0.0"⟩, ⟨"C", true, 0, 0, "0.0"⟩],
    by decide +kernel, ⟨⟨"B", false, 1, 1, "0.0"⟩, by simp, rfl⟩, ?_⟩
  intro count hc
  rw [C40_no_votes_last_model _ count 1 (by simp) (by
    intro s hs hb
    simp only [List.map_cons, List.map_nil, List.length_cons, List.length_nil] at hs
    rcases s with _ | _ | _ | s
    · simp at hb
    · exact hc 1 _ rfl rfl
    · simp at hb
    · omega)]
  exact ⟨⟨"C", true, 0, 0, "0.0"⟩, rfl, by decide⟩

/-! ## Cases -/

theorem three_known : ∀ e ∈ sublists three, Known ["left", "right"] e.2 := by
  unfold Known
  decide +kernel

example : ∃ ms, models ["left", "right"] three = some ms ∧ ms.length = 3 ∧
    ∀ m, ms[1]? = some m → m.name = "B" ∧ m.two = false ∧ m.block = 1 ∧ m.usage = "0.0" := by
  obtain ⟨ms, h1, h2, h3⟩ := C181_models_partial ["left", "right"] three (by decide +kernel) three_known
  refine ⟨ms, h1, by rw [h2]; decide +kernel, ?_⟩
  intro m hm
  have : models ["left", "right"] three =
      some [⟨"A", true, 0, 0, "1.0"⟩, ⟨"B", false, 1, 1, "0.0"⟩, ⟨"C", true, 0, 0, "0.0"⟩] := by decide +kernel
  rw [this] at h1
  simp only [Option.some.injEq] at h1
  subst h1
  simp only [List.getElem?_cons_succ, List.getElem?_cons_zero, Option.some.injEq] at hm
  subst hm
  decide

/-- With "number of models" two, and none. -/
example : (models ["left", "right"] { three with number := some 2 }).map (·.map (·.name)) = some ["A", "B"] ∧
    models ["left", "right"] { three with number := some (-1) } = some [] := by decide +kernel

/-- A single model with usage "x". [case] -/
def single : Section :=
  { entries := [("Mesh", some ⟨none, none, none⟩), ("Physics", some ⟨none, none, none⟩)],
    own := ⟨some "DtN", none, some "x"⟩, number := none }

example : ∃ m, models ["eblock-0_0_0"] single = some [m] ∧ single.own.usage ≠ some m.usage :=
  C181_single_violated _ single "x" _ List.mem_cons_self rfl (by unfold Known; decide +kernel) rfl (by decide)

example (u : String) : (1, "B" ++ " usage", u) ∈ usageFunctions [⟨"A", true, 1, 1, "1.0"⟩, ⟨"B", true, 1, 1, "x"⟩] ↔ u = "x" :=
  C181_usage [⟨"A", true, 1, 1, "1.0"⟩, ⟨"B", true, 1, 1, "x"⟩] (by decide) ⟨"B", true, 1, 1, "x"⟩ (by decide) u

/-- "Explicit FEM" after a model of block 0: this gets block 1 and usage "0.0". -/
example : addModel ["left", "right"] "0.0" [⟨"A", true, 0, 0, "1.0"⟩] ("B", ⟨some "Explicit FEM", some "right", none⟩) =
    some [⟨"A", true, 0, 1, "0.0"⟩] :=
  (C181_type_violated "B" ["left", "right"] ⟨some "Explicit FEM", some "right", none⟩ "0.0" (by decide) (by decide)
    (by decide)).2 [] _

example : ∃ m, addModel ["left", "right"] "1.0" [] ("A", ⟨none, none, none⟩) = some ([] ++ [m]) ∧ m.block = 0 ∧ m.name = "A" ∧
    ["left", "right"][m.block]? ≠ some "eblock-0_0_0" :=
  C181_block_violated "A" ["left", "right"] ⟨none, none, none⟩ "1.0" [] (Or.inr rfl) (by decide) (by decide)

example : macroInfo ["u", "v"] 2 [⟨"B", false, 1, 1, "0.0"⟩] = some ["v"] ∧
    macroInfo ["u", "v"] 0 [⟨"B", false, 1, 1, "0.0"⟩] = none := by decide

example : selection (some "hierarchical") = some 1 ∧ selection (some "automatic") = none := by decide

end MrHyDE.Multiscale.Input
