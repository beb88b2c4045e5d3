import Mathlib.Data.List.Basic
import Mathlib.Data.List.Nodup
import Mathlib.Tactic.Common
import Verif.Mesh.Construct
import Verif.Param.Fields

set_option linter.unusedSectionVars false

/-!
# Basis functions and quadrature rules follow the input (C185)

The constructor of the discretization interface makes, for every block, one basis for each family (type and order) used by
the variables and parameters of the block, and one quadrature rule for the elements and one for the sides.  The classes of
the library (Intrepid2) are represented by the space, the cell and the degree they are made for; a class for first order on
quadrilaterals or hexahedra is the one of degree one.  A rule is represented by the order it is asked for.

`none` is the end of the run: a basis that was not made is asked for its number of functions, an assertion fails, or a null
pointer is dereferenced.
-/

namespace MrHyDE.Disc.Families

open MrHyDE.Mesh.Construct (Cell)

/-! ## Model -/

/-- Spaces of the library classes made in `getBasis`,
/repo/src/interfaces/discretization/discretizationInterface_basis.hpp:227-342. -/
inductive Space where
  | grad | vol | div | divAC | curl | face
  deriving DecidableEq, Repr

/-- A basis made by the library: space, cell and degree,
/repo/src/interfaces/discretization/discretizationInterface_basis.hpp:227-342. -/
structure Basis where
  space : Space
  cell : Cell
  degree : Nat
  deriving DecidableEq, Repr

/-- A family of basis functions: the type and order of a variable.
[/repo/src/interfaces/discretization/discretizationInterface_construct.hpp:39-40; orders are natural numbers here] -/
structure Fam where
  type : String
  order : Nat
  deriving DecidableEq, Repr

/-- `getBasis` in dimension `d` on elements of a cell type: `none` for the null pointer that is returned when no case applies,
and for the assertions of lines 291, 295 and 299, /repo/src/interfaces/discretization/discretizationInterface_basis.hpp:227-342. -/
def getBasis (d : Nat) (c : Cell) (t : String) (p : Nat) : Option Basis :=
  if t = "HGRAD" then
    if d = 1 then some ⟨.grad, .line, p⟩
    else if d = 2 then
      if c = .quad then (if p = 1 then some ⟨.grad, .quad, 1⟩ else some ⟨.grad, .quad, p⟩)
      else if c = .tri then some ⟨.grad, .tri, p⟩ else none
    else if d = 3 then
      if c = .hex then (if p = 1 then some ⟨.grad, .hex, 1⟩ else some ⟨.grad, .hex, p⟩)
      else if c = .tet then some ⟨.grad, .tet, p⟩ else none
    else none
  else if t = "HVOL" then some ⟨.vol, c, 0⟩
  else if t = "HDIV" then
    if d = 1 then some ⟨.grad, .line, p⟩
    else if d = 2 then
      (if c = .quad then some ⟨.div, .quad, p⟩ else if c = .tri then some ⟨.div, .tri, p⟩ else none)
    else if d = 3 then
      (if c = .hex then some ⟨.div, .hex, p⟩ else if c = .tet then some ⟨.div, .tet, p⟩ else none)
    else none
  else if t = "HDIV_AC" then
    if d = 2 then (if c = .quad then (if p = 1 then some ⟨.divAC, .quad, 1⟩ else none) else none) else none
  else if t = "HCURL" then
    if d = 1 then none
    else if d = 2 then
      (if c = .quad then some ⟨.curl, .quad, p⟩ else if c = .tri then some ⟨.curl, .tri, p⟩ else none)
    else if d = 3 then
      (if c = .hex then some ⟨.curl, .hex, p⟩ else if c = .tet then some ⟨.curl, .tet, p⟩ else none)
    else none
  else if t = "HFACE" then
    if d = 2 then
      (if c = .quad then some ⟨.face, .quad, p⟩ else if c = .tri then some ⟨.face, .tri, p⟩ else none)
    else if d = 3 then
      (if c = .hex then some ⟨.face, .hex, p⟩ else if c = .tet then some ⟨.face, .tet, p⟩ else none)
    else none
  else none

/-- One pass of the inner loop: a family not seen before gets a basis, whose number of functions is asked for,
/repo/src/interfaces/discretization/discretizationInterface_construct.hpp:79-94. -/
def addFamily (d : Nat) (c : Cell) (done : List (Fam × Basis)) (f : Fam) : Option (List (Fam × Basis)) :=
  if done.any (fun e => e.1.order == f.order && e.1.type == f.type) then some done
  else (getBasis d c f.type f.order).map fun b => done ++ [(f, b)]

/-- The bases of a block: the families of the block are gone through once for each physics set,
/repo/src/interfaces/discretization/discretizationInterface_construct.hpp:72-97. -/
def blockBases (sets d : Nat) (c : Cell) (fams : List Fam) : Option (List (Fam × Basis)) :=
  (List.range sets).foldlM (fun done _ => fams.foldlM (addFamily d c) done) []

/-- Largest order of the families of a block, /repo/src/interfaces/discretization/discretizationInterface_construct.hpp:103-108. -/
def maxOrder (fams : List Fam) : Nat := fams.foldl (fun m f => if f.order > m then f.order else m) 0

/-- Order of a rule of a block: the entry (`quadrature` or `side quadrature`) of the discretization settings of the first
physics set, /repo/src/interfaces/discretization/discretizationInterface_construct.hpp:111, 148.  `asked` has the entry for
each physics set. -/
def ruleOrder (asked : List (Option Nat)) (fams : List Fam) : Option Nat :=
  asked.head?.map (·.getD (2 * maxOrder fams))

/-- Order in the member of the interface after the loop over the blocks: each block overwrites it,
/repo/src/interfaces/discretization/discretizationInterface_construct.hpp:111. -/
def memberOrder (orders : List Nat) : Option Nat := orders.foldl (fun _ o => some o) none

/-- Degree of the line rules of the sparsifying quadrature used for the local mass matrices of block `b`,
/repo/src/interfaces/discretization/discretizationInterface_basis.hpp:1454-1490: no rule is made in one and two dimensions,
whose number of points is asked for; the order is that of the member. -/
def sparseDegree (d : Nat) (orders : List Nat) (_b : Nat) : Option Int :=
  if d = 1 then none
  else if d = 2 then none
  else (memberOrder orders).map fun o => (o : Int) - 1

/-! ## Specification -/

/-- Dimension of a cell.  [specification, no code] -/
def dimOf : Cell → Nat
  | .line => 1
  | .quad => 2
  | .tri => 2
  | .hex => 3
  | .tet => 3

/-- The basis meant by a type, a cell and an order.  On a line the normal component at the ends is the value, so that the space
HDIV is that of continuous functions.  [specification, no code] -/
inductive Meant : String → Cell → Nat → Basis → Prop
  | grad (c : Cell) (p : Nat) : Meant "HGRAD" c p ⟨.grad, c, p⟩
  | vol (c : Cell) (p : Nat) : Meant "HVOL" c p ⟨.vol, c, p⟩
  | divLine (p : Nat) : Meant "HDIV" .line p ⟨.grad, .line, p⟩
  | div (c : Cell) (p : Nat) (h : c ≠ .line) : Meant "HDIV" c p ⟨.div, c, p⟩
  | divAC : Meant "HDIV_AC" .quad 1 ⟨.divAC, .quad, 1⟩
  | curl (c : Cell) (p : Nat) (h : c ≠ .line) : Meant "HCURL" c p ⟨.curl, c, p⟩
  | face (c : Cell) (p : Nat) (h : c ≠ .line) : Meant "HFACE" c p ⟨.face, c, p⟩

/-! ## Theorems -/

theorem Meant.inv {t : String} {c : Cell} {p : Nat} {b : Basis} (h : Meant t c p b) :
    (t = "HGRAD" ∧ b = ⟨.grad, c, p⟩) ∨ (t = "HVOL" ∧ b = ⟨.vol, c, p⟩) ∨
    (t = "HDIV" ∧ c = .line ∧ b = ⟨.grad, .line, p⟩) ∨ (t = "HDIV" ∧ c ≠ .line ∧ b = ⟨.div, c, p⟩) ∨
    (t = "HDIV_AC" ∧ c = .quad ∧ p = 1 ∧ b = ⟨.divAC, .quad, 1⟩) ∨
    (t = "HCURL" ∧ c ≠ .line ∧ b = ⟨.curl, c, p⟩) ∨ (t = "HFACE" ∧ c ≠ .line ∧ b = ⟨.face, c, p⟩) := by
  induction h <;> simp_all

theorem get_grad (c : Cell) (p : Nat) : getBasis (dimOf c) c "HGRAD" p = some ⟨.grad, c, p⟩ := by
  by_cases hp : p = 1 <;> cases c <;> simp [getBasis, dimOf, hp]

theorem get_vol (d : Nat) (c : Cell) (p : Nat) : getBasis d c "HVOL" p = some ⟨.vol, c, 0⟩ := by
  simp [getBasis]

theorem get_div (c : Cell) (p : Nat) :
    getBasis (dimOf c) c "HDIV" p = some (if c = .line then ⟨.grad, .line, p⟩ else ⟨.div, c, p⟩) := by
  cases c <;> simp [getBasis, dimOf]

theorem get_divAC (c : Cell) (p : Nat) :
    getBasis (dimOf c) c "HDIV_AC" p = if c = .quad ∧ p = 1 then some ⟨.divAC, .quad, 1⟩ else none := by
  by_cases hp : p = 1 <;> cases c <;> simp [getBasis, dimOf, hp]

theorem get_curl (c : Cell) (p : Nat) :
    getBasis (dimOf c) c "HCURL" p = if c = .line then none else some ⟨.curl, c, p⟩ := by
  cases c <;> simp [getBasis, dimOf]

theorem get_face (c : Cell) (p : Nat) :
    getBasis (dimOf c) c "HFACE" p = if c = .line then none else some ⟨.face, c, p⟩ := by
  cases c <;> simp [getBasis, dimOf]

theorem get_other (d : Nat) (c : Cell) (t : String) (p : Nat) (h1 : t ≠ "HGRAD") (h2 : t ≠ "HVOL") (h3 : t ≠ "HDIV")
    (h4 : t ≠ "HDIV_AC") (h5 : t ≠ "HCURL") (h6 : t ≠ "HFACE") : getBasis d c t p = none := by
  simp only [getBasis, h1, h2, h3, h4, h5, h6, if_false]

/-- **C185** (bases; partial: all types except HVOL of positive order).  On elements of the dimension of the mesh a basis is made
exactly when the type and the order mean one on these elements, and it is the one meant. -/
theorem C185_basis_partial (c : Cell) (t : String) (p : Nat) (b : Basis) (h : t ≠ "HVOL" ∨ p = 0) :
    getBasis (dimOf c) c t p = some b ↔ Meant t c p b := by
  constructor
  · intro hb
    by_cases h1 : t = "HGRAD"
    · subst h1; rw [get_grad] at hb; cases hb; exact Meant.grad c p
    by_cases h2 : t = "HVOL"
    · subst h2
      have hp : p = 0 := h.resolve_left (by simp)
      subst hp
      rw [get_vol] at hb; cases hb; exact Meant.vol c 0
    by_cases h3 : t = "HDIV"
    · subst h3
      rw [get_div] at hb
      split at hb
      · next hc => cases hb; subst hc; exact Meant.divLine p
      · next hc => cases hb; exact Meant.div c p hc
    by_cases h4 : t = "HDIV_AC"
    · subst h4
      rw [get_divAC] at hb
      split at hb
      · next hc => cases hb; obtain ⟨rfl, rfl⟩ := hc; exact Meant.divAC
      · cases hb
    by_cases h5 : t = "HCURL"
    · subst h5
      rw [get_curl] at hb
      split at hb
      · cases hb
      · next hc => cases hb; exact Meant.curl c p hc
    by_cases h6 : t = "HFACE"
    · subst h6
      rw [get_face] at hb
      split at hb
      · cases hb
      · next hc => cases hb; exact Meant.face c p hc
    · rw [get_other _ _ _ _ h1 h2 h3 h4 h5 h6] at hb; cases hb
  · intro hb
    obtain ⟨rfl, rfl⟩ | ⟨rfl, rfl⟩ | ⟨rfl, rfl, rfl⟩ | ⟨rfl, hc, rfl⟩ | ⟨rfl, rfl, rfl, rfl⟩ | ⟨rfl, hc, rfl⟩ | ⟨rfl, hc, rfl⟩ :=
      hb.inv
    · exact get_grad c p
    · have hp : p = 0 := h.resolve_left (by simp)
      subst hp; exact get_vol _ c 0
    · rw [get_div]; simp
    · rw [get_div, if_neg hc]
    · rw [get_divAC]; simp
    · rw [get_curl, if_neg hc]
    · rw [get_face, if_neg hc]

/-- C185 is false for the type HVOL of positive order: the basis is that of constants, whatever the order, while the order counts
for the quadrature. -/
theorem C185_hvol_violated (c : Cell) (p : Nat) (hp : 0 < p) :
    getBasis (dimOf c) c "HVOL" p = some ⟨.vol, c, 0⟩ ∧ ¬ Meant "HVOL" c p ⟨.vol, c, 0⟩ := by
  refine ⟨get_vol _ _ _, fun h => ?_⟩
  have := h.inv
  simp at this
  omega

theorem addFamily_seen {d : Nat} {c : Cell} {done : List (Fam × Basis)} {f : Fam} (h : ∃ b, (f, b) ∈ done) :
    addFamily d c done f = some done := by
  obtain ⟨b, hb⟩ := h
  have : done.any (fun e => e.1.order == f.order && e.1.type == f.type) = true :=
    List.any_eq_true.2 ⟨(f, b), hb, by simp⟩
  simp [addFamily, this]

theorem addFamily_new {d : Nat} {c : Cell} {done : List (Fam × Basis)} {f : Fam} (h : ∀ b, (f, b) ∉ done) :
    addFamily d c done f = (getBasis d c f.type f.order).map fun b => done ++ [(f, b)] := by
  have : done.any (fun e => e.1.order == f.order && e.1.type == f.type) = false := by
    rw [List.any_eq_false]
    rintro ⟨⟨t, o⟩, b⟩ he hc
    have hc' : o = f.order ∧ t = f.type := by simpa using hc
    obtain ⟨rfl, rfl⟩ := hc'
    exact h b he
  simp [addFamily, this]

theorem foldlM_seen {d : Nat} {c : Cell} {done : List (Fam × Basis)} :
    ∀ fams : List Fam, (∀ f ∈ fams, ∃ b, (f, b) ∈ done) → fams.foldlM (addFamily d c) done = some done
  | [], _ => rfl
  | f :: fams, h => by
    rw [List.foldlM_cons, addFamily_seen (h f List.mem_cons_self)]
    exact foldlM_seen fams fun g hg => h g (List.mem_cons_of_mem f hg)

theorem foldlM_new {d : Nat} {c : Cell} (w : Fam → Basis) : ∀ (fams : List Fam) (done : List (Fam × Basis)),
    fams.Nodup → (∀ f ∈ fams, ∀ b, (f, b) ∉ done) → (∀ f ∈ fams, getBasis d c f.type f.order = some (w f)) →
    fams.foldlM (addFamily d c) done = some (done ++ fams.map fun f => (f, w f))
  | [], done, _, _, _ => by simp
  | f :: fams, done, hn, hd, hw => by
    rw [List.foldlM_cons, addFamily_new (hd f List.mem_cons_self), hw f List.mem_cons_self]
    have hn' := List.nodup_cons.1 hn
    have hrec := foldlM_new w fams (done ++ [(f, w f)]) hn'.2
      (fun g hg b hb => by
        rcases List.mem_append.1 hb with hb | hb
        · exact hd g (List.mem_cons_of_mem f hg) b hb
        · have : (g, b) = (f, w f) := by simpa using hb
          have hgf : g = f := (Prod.mk.inj this).1
          exact hn'.1 (hgf ▸ hg))
      (fun g hg => hw g (List.mem_cons_of_mem f hg))
    show (fams.foldlM (addFamily d c) (done ++ [(f, w f)])) = _
    rw [hrec]
    simp

theorem foldlM_stays {d : Nat} {c : Cell} {fams : List Fam} {done : List (Fam × Basis)}
    (h : fams.foldlM (addFamily d c) done = some done) :
    ∀ l : List Nat, l.foldlM (fun done _ => fams.foldlM (addFamily d c) done) done = some done
  | [] => rfl
  | _ :: l => by
    rw [List.foldlM_cons, h]
    exact foldlM_stays h l

/-- **C185** (bases of a block).  When the families of a block are different and each means a basis on its elements (with HVOL of
order zero only), every family has the basis meant, at the position of the family, for any positive number of physics sets. -/
theorem C185_block (sets : Nat) (hs : 0 < sets) (c : Cell) (fams : List Fam) (hn : fams.Nodup) (w : Fam → Basis)
    (hw : ∀ f ∈ fams, Meant f.type c f.order (w f)) (hv : ∀ f ∈ fams, f.type = "HVOL" → f.order = 0) :
    ∃ l, blockBases sets (dimOf c) c fams = some l ∧ l.map (·.1) = fams ∧ ∀ (n : Nat) (f : Fam), fams[n]? = some f → l[n]? = some (f, w f) := by
  have hw' : ∀ f ∈ fams, getBasis (dimOf c) c f.type f.order = some (w f) := fun f hf =>
    (C185_basis_partial c f.type f.order (w f)
      (by by_cases h : f.type = "HVOL"
          · exact Or.inr (hv f hf h)
          · exact Or.inl h)).2 (hw f hf)
  obtain ⟨k, rfl⟩ : ∃ k, sets = k + 1 := ⟨sets - 1, by omega⟩
  have h1 := foldlM_new (d := dimOf c) (c := c) w fams [] hn (by simp) hw'
  refine ⟨fams.map fun f => (f, w f), ?_, ?_, ?_⟩
  · unfold blockBases
    rw [List.range_succ_eq_map, List.foldlM_cons, h1]
    show List.foldlM _ ([] ++ fams.map fun f => (f, w f)) _ = _
    rw [List.nil_append]
    exact foldlM_stays (foldlM_seen fams fun f hf => ⟨w f, List.mem_map.2 ⟨f, hf, rfl⟩⟩) _
  · simp [Function.comp_def]
  · intro n f hf
    simp [hf]

/-- A family of the physics interface. [/repo/src/interfaces/physics/physicsInterface_construct.hpp:318-319] -/
def ofPair (f : String × Nat) : Fam := ⟨f.1, f.2⟩

/-- **C185** (from the input to the bases).  For all lists of variables of a block and of discretized parameters, each meaning a
basis on the elements of the block (HVOL of order zero only), every variable and parameter finds at the position of its
family the basis meant by its own type and order. -/
theorem C185_input (sets : Nat) (hs : 0 < sets) (c : Cell) (vars params : List (String × Nat)) (w : Fam → Basis)
    (hw : ∀ f ∈ vars ++ params, Meant f.1 c f.2 (w (ofPair f))) (hv : ∀ f ∈ vars ++ params, f.1 = "HVOL" → f.2 = 0) :
    ∃ l, blockBases sets (dimOf c) c ((Param.Fields.families vars params).map ofPair) = some l ∧
      ∀ f ∈ vars ++ params, ∃ n : Nat, (Param.Fields.families vars params)[n]? = some f ∧
        l[n]? = some (ofPair f, w (ofPair f)) := by
  have hmem : ∀ f, f ∈ Param.Fields.families vars params ↔ f ∈ vars ++ params := fun f => by
    rw [(Param.Fields.C183_families vars params).2 f, List.mem_append]
  have hinj : Function.Injective ofPair := fun a b h => by
    have h1 := congrArg Fam.type h
    have h2 := congrArg Fam.order h
    exact Prod.ext h1 h2
  obtain ⟨l, h1, -, h3⟩ := C185_block sets hs c ((Param.Fields.families vars params).map ofPair)
    ((Param.Fields.C183_families vars params).1.map hinj) w
    (fun f hf => by
      obtain ⟨g, hg, rfl⟩ := List.mem_map.1 hf
      exact hw g ((hmem g).1 hg))
    (fun f hf h => by
      obtain ⟨g, hg, rfl⟩ := List.mem_map.1 hf
      exact hv g ((hmem g).1 hg) h)
  refine ⟨l, h1, fun f hf => ?_⟩
  obtain ⟨n, hn⟩ := List.mem_iff_getElem?.1 ((hmem f).2 hf)
  exact ⟨n, hn, h3 n (ofPair f) (by simp [hn])⟩

theorem foldlM_fails {d : Nat} {c : Cell} : ∀ (fams : List Fam) (done l : List (Fam × Basis)),
    fams.foldlM (addFamily d c) done = some l →
    (∀ e ∈ done, getBasis d c e.1.type e.1.order = some e.2) →
    (∀ f ∈ fams, ∃ b, getBasis d c f.type f.order = some b) ∧ ∀ e ∈ l, getBasis d c e.1.type e.1.order = some e.2
  | [], done, l, h, hd => by
    have : done = l := by simpa using h
    subst this
    exact ⟨by simp, hd⟩
  | f :: fams, done, l, h, hd => by
    rw [List.foldlM_cons] at h
    obtain ⟨done', h1, h2⟩ := Option.bind_eq_some_iff.1 h
    by_cases hf : ∃ b, (f, b) ∈ done
    · rw [addFamily_seen hf] at h1
      cases h1
      obtain ⟨h3, h4⟩ := foldlM_fails fams done l h2 hd
      obtain ⟨b, hb⟩ := hf
      exact ⟨fun g hg => (List.mem_cons.1 hg).elim (fun e => e ▸ ⟨b, hd _ hb⟩) (h3 g), h4⟩
    · rw [addFamily_new (fun b hb => hf ⟨b, hb⟩)] at h1
      obtain ⟨b, hb, rfl⟩ := Option.map_eq_some_iff.1 h1
      obtain ⟨h3, h4⟩ := foldlM_fails fams _ l h2 (by
        intro e he
        rcases List.mem_append.1 he with he | he
        · exact hd e he
        · have : e = (f, b) := by simpa using he
          subst this; exact hb)
      exact ⟨fun g hg => (List.mem_cons.1 hg).elim (fun e => e ▸ ⟨b, hb⟩) (h3 g), h4⟩

/-- **C185** (refusal).  If one family of a block means nothing on its elements, the run ends: no other basis takes its place. -/
theorem C185_refused (sets : Nat) (hs : 0 < sets) (c : Cell) (fams : List Fam) {f : Fam} (hf : f ∈ fams)
    (h : ∀ b, ¬ Meant f.type c f.order b) : blockBases sets (dimOf c) c fams = none := by
  obtain ⟨k, rfl⟩ : ∃ k, sets = k + 1 := ⟨sets - 1, by omega⟩
  have hv : f.type ≠ "HVOL" := fun hv => h _ (hv ▸ Meant.vol c f.order)
  have key : fams.foldlM (addFamily (dimOf c) c) [] = none := by
    cases hl : fams.foldlM (addFamily (dimOf c) c) [] with
    | none => rfl
    | some l =>
      obtain ⟨b, hb⟩ := (foldlM_fails fams [] l hl (by simp)).1 f hf
      exact absurd ((C185_basis_partial c _ _ b (Or.inl hv)).1 hb) (h b)
  unfold blockBases
  rw [List.range_succ_eq_map, List.foldlM_cons, key]
  rfl

theorem fold_max : ∀ (fams : List Fam) (m : Nat),
    m ≤ fams.foldl (fun m f => if f.order > m then f.order else m) m ∧
    (∀ f ∈ fams, f.order ≤ fams.foldl (fun m f => if f.order > m then f.order else m) m) ∧
    (fams.foldl (fun m f => if f.order > m then f.order else m) m = m ∨
      ∃ f ∈ fams, fams.foldl (fun m f => if f.order > m then f.order else m) m = f.order)
  | [], m => by simp
  | f :: fams, m => by
    simp only [List.foldl_cons]
    obtain ⟨h1, h2, h3⟩ := fold_max fams (if f.order > m then f.order else m)
    refine ⟨?_, ?_, ?_⟩
    · refine Nat.le_trans ?_ h1
      split <;> omega
    · intro g hg
      rcases List.mem_cons.1 hg with rfl | hg
      · refine Nat.le_trans ?_ h1
        split <;> omega
      · exact h2 g hg
    · rcases h3 with h3 | ⟨g, hg, h3⟩
      · by_cases hm : f.order > m
        · right
          refine ⟨f, List.mem_cons_self, ?_⟩
          rw [h3, if_pos hm]
        · left
          rw [h3, if_neg hm]
      · exact Or.inr ⟨g, List.mem_cons_of_mem f hg, h3⟩

/-- **C185** (order of the rules; partial: one physics set).  An order given by the user is used; without one the rule is of an
order that suffices for the product of any two families of the block, and is not larger than needed for one of them. -/
theorem C185_quadrature_partial (asked : Option Nat) (fams : List Fam) :
    ∃ q, ruleOrder [asked] fams = some q ∧ (∀ v : Nat, asked = some v → q = v) ∧
      (asked = none → (∀ f ∈ fams, ∀ g ∈ fams, f.order + g.order ≤ q) ∧
        (fams ≠ [] → ∃ f ∈ fams, q = f.order + f.order)) := by
  refine ⟨asked.getD (2 * maxOrder fams), by simp [ruleOrder], fun v hv => by simp [hv], fun hn => ?_⟩
  have hq : asked.getD (2 * maxOrder fams) = 2 * maxOrder fams := by simp [hn]
  obtain ⟨-, h2, h3⟩ := fold_max fams 0
  rw [hq]
  refine ⟨fun f hf g hg => ?_, fun hne => ?_⟩
  · have a : f.order ≤ maxOrder fams := h2 f hf
    have b : g.order ≤ maxOrder fams := h2 g hg
    omega
  · rcases h3 with h3 | ⟨f, hf, h3⟩
    · obtain ⟨f, rest, rfl⟩ := List.exists_cons_of_ne_nil hne
      have a := h2 f List.mem_cons_self
      refine ⟨f, List.mem_cons_self, ?_⟩
      have h0 : maxOrder (f :: rest) = 0 := h3
      rw [h3] at a
      omega
    · refine ⟨f, hf, ?_⟩
      have h0 : maxOrder fams = f.order := h3
      omega

/-- C185 is false for several physics sets: the entry of the first one is used (its default when it has none), those of the
others are never read, even when they ask for more than is used. -/
theorem C185_quadrature_violated (first : Option Nat) (rest : List (Option Nat)) (fams : List Fam) :
    ruleOrder (first :: rest) fams = ruleOrder [first] fams ∧
      ∃ v q : Nat, ruleOrder (first :: some v :: rest) fams = some q ∧ q < v := by
  refine ⟨by simp [ruleOrder], first.getD (2 * maxOrder fams) + 1, first.getD (2 * maxOrder fams), by simp [ruleOrder], by omega⟩

theorem memberOrder_last : ∀ (orders : List Nat) (o : Nat), memberOrder (orders ++ [o]) = some o := by
  intro orders o
  simp [memberOrder]

/-- **C185** (sparsifying rule; partial: three dimensions and equal orders on all blocks).  The lines of the rule have the order of
the block less one. -/
theorem C185_sparse_partial (orders : List Nat) (b o : Nat) (hb : orders[b]? = some o) (hall : ∀ v ∈ orders, v = o) :
    sparseDegree 3 orders b = some ((o : Int) - 1) := by
  have hne : orders ≠ [] := by rintro rfl; simp at hb
  obtain ⟨init, l, rfl⟩ : ∃ init l, orders = init ++ [l] :=
    ⟨orders.dropLast, orders.getLast hne, (List.dropLast_append_getLast hne).symm⟩
  have hl : l = o := hall l (by simp)
  subst hl
  simp [sparseDegree, memberOrder_last]

/-- C185 is false for the sparsifying rule on blocks of different order, where every block takes that of the last one, and in one
and two dimensions, where no rule is made. -/
theorem C185_sparse_violated (init : List Nat) (o l b : Nat) (_hb : (init ++ [l])[b]? = some o) (hne : o ≠ l) :
    sparseDegree 3 (init ++ [l]) b ≠ some ((o : Int) - 1) ∧ sparseDegree 2 (init ++ [l]) b = none ∧
      sparseDegree 1 (init ++ [l]) b = none := by
  refine ⟨?_, rfl, rfl⟩
  simp only [sparseDegree, memberOrder_last]
  intro h
  simp at h
  omega

/-! ## Cases -/

/-- Velocity, pressure and a face variable.  [case] -/
def mixed : List Fam := [⟨"HDIV", 2⟩, ⟨"HVOL", 0⟩, ⟨"HFACE", 1⟩]

/-- The bases meant by the families of `mixed` on tetrahedra.  [case] -/
def mixedBasis (f : Fam) : Basis :=
  if f.type = "HDIV" then ⟨.div, .tet, f.order⟩
  else if f.type = "HVOL" then ⟨.vol, .tet, f.order⟩ else ⟨.face, .tet, f.order⟩

example : ∃ l, blockBases 2 3 .tet mixed = some l ∧ l.map (·.1) = mixed ∧
    ∀ (n : Nat) (f : Fam), mixed[n]? = some f → l[n]? = some (f, mixedBasis f) :=
  C185_block 2 (by decide) .tet mixed (by decide) mixedBasis
    (by
      intro f hf
      have hf' : f = ⟨"HDIV", 2⟩ ∨ f = ⟨"HVOL", 0⟩ ∨ f = ⟨"HFACE", 1⟩ := by simpa [mixed] using hf
      rcases hf' with rfl | rfl | rfl
      · exact Meant.div .tet 2 (by decide)
      · exact Meant.vol .tet 0
      · exact Meant.face .tet 1 (by decide))
    (by
      intro f hf
      have hf' : f = ⟨"HDIV", 2⟩ ∨ f = ⟨"HVOL", 0⟩ ∨ f = ⟨"HFACE", 1⟩ := by simpa [mixed] using hf
      rcases hf' with rfl | rfl | rfl <;> simp)

example : ∃ l, blockBases 1 2 .quad ((Param.Fields.families [("HGRAD", 1), ("HGRAD", 2)] [("HGRAD", 1)]).map ofPair) = some l ∧
    ∀ f ∈ [("HGRAD", 1), ("HGRAD", 2)] ++ [("HGRAD", 1)], ∃ n : Nat,
      (Param.Fields.families [("HGRAD", 1), ("HGRAD", 2)] [("HGRAD", 1)])[n]? = some f ∧
        l[n]? = some (ofPair f, ⟨.grad, .quad, (ofPair f).order⟩) :=
  C185_input 1 (by decide) .quad _ _ (fun f => ⟨.grad, .quad, f.order⟩)
    (by
      intro f hf
      have hf' : f = ("HGRAD", 1) ∨ f = ("HGRAD", 2) ∨ f = ("HGRAD", 1) := by simpa using hf
      rcases hf' with rfl | rfl | rfl
      · exact Meant.grad .quad 1
      · exact Meant.grad .quad 2
      · exact Meant.grad .quad 1)
    (by
      intro f hf
      have hf' : f = ("HGRAD", 1) ∨ f = ("HGRAD", 2) ∨ f = ("HGRAD", 1) := by simpa using hf
      rcases hf' with rfl | rfl | rfl <;> simp)

example : blockBases 1 1 .line [⟨"HGRAD", 1⟩, ⟨"HCURL", 1⟩] = none :=
  C185_refused 1 (by decide) .line _ (f := ⟨"HCURL", 1⟩) (by simp) fun b h => by have := h.inv; simp at this

example : ruleOrder [none] mixed = some 4 ∧ ruleOrder [none, some 9] mixed = some 4 := by decide +kernel

example : sparseDegree 3 [4, 4] 0 = some 3 := C185_sparse_partial [4, 4] 0 4 rfl (by decide)

example : sparseDegree 3 [4, 2] 0 ≠ some 3 := (C185_sparse_violated [4] 4 2 0 rfl (by decide)).1


end MrHyDE.Disc.Families
