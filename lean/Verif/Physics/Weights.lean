import Mathlib.Data.List.Basic
import Mathlib.Data.Rat.Defs
import Mathlib.Algebra.Field.Rat

/-!
# Weights of the variables for the mass and for the norm of the solution (C188)

The blocks 'Mass weights' and 'Norm weights' of a physics set give a weight for each variable
(`PhysicsInterface::defineFunctions`); the weights for the norm are put into a vector over the
unknowns (`AssemblyManager::getWeightVector`) the first time the norm is computed
(`PostprocessManager::computeWeightedNorm`).
-/

namespace MrHyDE.Physics.Weights

/-! ## Model -/

/-- An entry of the list of weights as the input file gives it: a real number, a whole number or a
text; the type tested by `isType<ScalarT>` in src/interfaces/physics/physicsInterface_functions.hpp:446, 464. -/
inductive Entry (K : Type) where
  | real (x : K)
  | whole (n : Int)
  | text (t : String)
  deriving DecidableEq

variable {K : Type}

/-- The weight of one variable, physicsInterface_functions.hpp:445-448 (and 463-466 for the norm): 1.0
unless there is an entry of that name with the type of a real number.  A list has one entry for a
name; the model takes the first. -/
def weightOf [One K] (entries : List (String × Entry K)) (var : String) : K :=
  match entries.lookup var with
  | some (.real x) => x
  | _ => 1

/-- The weights of the variables of a set on a block, physicsInterface_functions.hpp:443-450 (mass) and
461-468 (norm). -/
def weights [One K] (vars : List String) (entries : List (String × Entry K)) : List K :=
  vars.map (weightOf entries)

/-- A block: names of the variables of every set, the entries 'Norm weights' of every set, positions of
the unknowns of every variable of every set within the row of an element, and the groups of
elements, an element being its rows of local numbers for every set
(`var_list`, `physics_settings`, `set_offsets`, `LIDs`; src/managers/assembly/assemblyManager_mass.hpp:763-776). -/
structure Block (K : Type) where
  vars : List (List String)
  entries : List (List (String × Entry K))
  offsets : List (List (List Nat))
  groups : List (List (List (List Nat)))

/-- A loop whose body may be undefined, collecting what the iterations write in order (the nested loops of
assemblyManager_mass.hpp:765-792). -/
def gather {α β : Type} (f : α → Option (List β)) : List α → Option (List β)
  | [] => some []
  | a :: l => do
      let x ← f a
      let y ← gather f l
      pure (x ++ y)

/-- The writes `wts_view(rowIndex,0) = val` of one element and one variable,
assemblyManager_mass.hpp:783-786; a position outside the row of the element is undefined. -/
def writesElem (set : Nat) (val : K) (positions : List Nat) (e : List (List Nat)) :
    Option (List (Nat × K)) := do
  let row ← e[set]?
  gather (fun p => do let r ← row[p]?; pure [(r, val)]) positions

/-- The writes of one group, assemblyManager_mass.hpp:772-790: the number of variables and the positions
are those of the set `cur` the worksets are set to (767-768), the weights and local numbers those of the
set asked for (763, 775). -/
def writesGroup (wts : List K) (offs : List (List Nat)) (set : Nat) (g : List (List (List Nat))) :
    Option (List (Nat × K)) :=
  gather (fun n => do
    let val ← wts[n]?
    let positions ← offs[n]?
    gather (writesElem set val positions) g) (List.range offs.length)

/-- The writes of one block, assemblyManager_mass.hpp:765-792. -/
def writesBlock [One K] (cur set : Nat) (b : Block K) : Option (List (Nat × K)) := do
  let offs ← b.offsets[cur]?
  let vars ← b.vars[set]?
  let entries ← b.entries[set]?
  gather (writesGroup (weights vars entries) offs set) b.groups

/-- The value an unknown has after a list of writes to a vector of zeros: that of the last write to it
(assemblyManager_mass.hpp:786; the vector is created with zeros,
src/managers/postprocess/postprocessManager_util.hpp:915). -/
def valueAt [Zero K] : List (Nat × K) → Nat → K
  | [], _ => 0
  | (r, w) :: l, q => if l.any (fun x => x.1 == q) then valueAt l q else if r = q then w else 0

/-- `getWeightVector`, assemblyManager_mass.hpp:752-797. -/
def weightVector [One K] [Zero K] (cur set : Nat) (blocks : List (Block K)) : Option (Nat → K) :=
  (gather (writesBlock cur set) blocks).map valueAt

/-- The weights computed with the first norm, postprocessManager_util.hpp:911-923, for the sets `0 … sets-1`: nothing
makes the worksets change to the set of the loop, so `cur` stays what it was; without a vector over
owned and shared unknowns (one process, explicit and matrix free,
src/interfaces/linear_algebra/linearAlgebraInterface_construct.hpp:185-188) the entry `exporter[set]` (919) does
not exist.  Simplified: one process. -/
def allWeights [One K] [Zero K] (haveOverlapped : Bool) (cur sets : Nat) (blocks : List (Block K)) :
    Option (List (Nat → K)) :=
  gather (fun set => do
    let w ← weightVector cur set blocks
    if haveOverlapped then pure [w] else none) (List.range sets)

/-! ## Specification -/

/-- [specification, no code] The unknown `r` belongs to the variable number `n` of the set `set` in the block. -/
def Holds (b : Block K) (set n r : Nat) : Prop :=
  ∃ g ∈ b.groups, ∃ e ∈ g, ∃ row, e[set]? = some row ∧ ∃ offs, b.offsets[set]? = some offs ∧
    ∃ ps, offs[n]? = some ps ∧ ∃ p ∈ ps, row[p]? = some r

/-- [specification, no code] What the input asks for the variable number `n` of the set: the number
given, one if nothing is given. -/
def Asked [One K] [IntCast K] (b : Block K) (set n : Nat) (w : K) : Prop :=
  ∃ vars, b.vars[set]? = some vars ∧ ∃ v, vars[n]? = some v ∧
    ∃ entries, b.entries[set]? = some entries ∧
      ((entries.lookup v = none ∧ w = 1) ∨ entries.lookup v = some (.real w) ∨
        ∃ i : Int, entries.lookup v = some (.whole i) ∧ w = (i : K))

/-- [specification, no code] The tables of a block fit together for a set: as many variables as lists of positions,
and every position lies within the row of every element. -/
def Fits (b : Block K) (set : Nat) : Prop :=
  ∃ offs vars entries, b.offsets[set]? = some offs ∧ b.vars[set]? = some vars ∧
    b.entries[set]? = some entries ∧ vars.length = offs.length ∧
    ∀ g ∈ b.groups, ∀ e ∈ g, ∃ row, e[set]? = some row ∧ ∀ ps ∈ offs, ∀ p ∈ ps, p < row.length

/-- [specification, no code] No weight of the set is given as a whole number or as a text. -/
def RealOnly (b : Block K) (set : Nat) : Prop :=
  ∀ entries, b.entries[set]? = some entries → ∀ v e, entries.lookup v = some e → ∃ x, e = .real x

/-! ## Lemmas -/

theorem gather_isSome {α β : Type} (f : α → Option (List β)) : ∀ l : List α,
    (∀ a ∈ l, ∃ x, f a = some x) → ∃ y, gather f l = some y
  | [], _ => ⟨[], rfl⟩
  | a :: l, h => by
      obtain ⟨x, hx⟩ := h a List.mem_cons_self
      obtain ⟨y, hy⟩ := gather_isSome f l (fun b hb => h b (List.mem_cons_of_mem _ hb))
      exact ⟨x ++ y, by simp [gather, hx, hy]⟩

theorem mem_gather {α β : Type} (f : α → Option (List β)) : ∀ (l : List α) (out : List β),
    gather f l = some out → ∀ y, y ∈ out ↔ ∃ a ∈ l, ∃ x, f a = some x ∧ y ∈ x
  | [], out, h, y => by simp [gather] at h; simp [h]
  | a :: l, out, h, y => by
      simp only [gather] at h
      cases hx : f a with
      | none => simp [hx] at h
      | some x =>
        cases hy : gather f l with
        | none => simp [hx, hy] at h
        | some z =>
          simp [hx, hy] at h
          rw [← h, List.mem_append, mem_gather f l z hy y]
          constructor
          · rintro (h | ⟨b, hb, u, hu, hyu⟩)
            · exact ⟨a, List.mem_cons_self, x, hx, h⟩
            · exact ⟨b, List.mem_cons_of_mem _ hb, u, hu, hyu⟩
          · rintro ⟨b, hb, u, hu, hyu⟩
            rcases List.mem_cons.1 hb with e | e
            · subst e
              rw [hx] at hu
              cases hu
              exact Or.inl hyu
            · exact Or.inr ⟨b, e, u, hu, hyu⟩

theorem gather_none {α β : Type} (f : α → Option (List β)) : ∀ (l : List α) (a : α), a ∈ l →
    f a = none → gather f l = none
  | [], a, h, _ => by cases h
  | b :: l, a, h, hf => by
      simp only [gather]
      rcases List.mem_cons.1 h with e | e
      · subst e; simp [hf]
      · have := gather_none f l a e hf
        cases f b <;> simp [this]

theorem valueAt_of_all [Zero K] (w : K) : ∀ (l : List (Nat × K)) (q : Nat),
    (∃ x ∈ l, x.1 = q) → (∀ x ∈ l, x.1 = q → x.2 = w) → valueAt l q = w
  | [], _, h, _ => by obtain ⟨x, hx, _⟩ := h; cases hx
  | (r, u) :: l, q, h, hw => by
      simp only [valueAt]
      split
      · rename_i hl
        obtain ⟨x, hx, hq⟩ := List.any_eq_true.1 hl
        exact valueAt_of_all w l q ⟨x, hx, by simpa using hq⟩
          (fun y hy => hw y (List.mem_cons_of_mem _ hy))
      · rename_i hl
        have hr : r = q := by
          obtain ⟨x, hx, hq⟩ := h
          rcases List.mem_cons.1 hx with e | e
          · rw [e] at hq; exact hq
          · exact absurd (List.any_eq_true.2 ⟨x, e, by simpa using hq⟩) hl
        rw [if_pos hr]
        exact hw (r, u) List.mem_cons_self hr

theorem valueAt_of_none [Zero K] : ∀ (l : List (Nat × K)) (q : Nat),
    (∀ x ∈ l, x.1 ≠ q) → valueAt l q = 0
  | [], _, _ => rfl
  | (r, u) :: l, q, h => by
      simp only [valueAt]
      have h1 : r ≠ q := h (r, u) List.mem_cons_self
      split
      · exact valueAt_of_none l q (fun x hx => h x (List.mem_cons_of_mem _ hx))
      · rfl

theorem mem_writesElem {set : Nat} {val : K} {ps : List Nat} {e : List (List Nat)}
    {out : List (Nat × K)} (h : writesElem set val ps e = some out) (y : Nat × K) :
    y ∈ out ↔ ∃ row, e[set]? = some row ∧ ∃ p ∈ ps, row[p]? = some y.1 ∧ y.2 = val := by
  unfold writesElem at h
  cases hr : e[set]? with
  | none => simp [hr] at h
  | some row =>
    simp only [hr, Option.bind_eq_bind, Option.bind_some] at h
    rw [mem_gather _ _ _ h y]
    constructor
    · rintro ⟨p, hp, x, hx, hy⟩
      cases hq : row[p]? with
      | none => simp [hq] at hx
      | some r =>
        simp [hq] at hx
        subst hx
        simp at hy
        subst hy
        exact ⟨row, rfl, p, hp, hq, rfl⟩
    · rintro ⟨row', hrow, p, hp, hq, hv⟩
      cases hrow
      exact ⟨p, hp, [(y.1, val)], by simp [hq], by simp [← hv]⟩

theorem mem_writesBlock [One K] {cur set : Nat} {b : Block K} {out : List (Nat × K)}
    (h : writesBlock cur set b = some out) (y : Nat × K) :
    y ∈ out ↔ ∃ offs vars entries, b.offsets[cur]? = some offs ∧ b.vars[set]? = some vars ∧
      b.entries[set]? = some entries ∧ ∃ g ∈ b.groups, ∃ (n : Nat) (ps : List Nat), offs[n]? = some ps ∧
      ∃ v, vars[n]? = some v ∧ y.2 = weightOf entries v ∧
      ∃ e ∈ g, ∃ row, e[set]? = some row ∧ ∃ p ∈ ps, row[p]? = some y.1 := by
  unfold writesBlock at h
  cases ho : b.offsets[cur]? with
  | none => simp [ho] at h
  | some offs =>
  cases hv : b.vars[set]? with
  | none => simp [ho, hv] at h
  | some vars =>
  cases he : b.entries[set]? with
  | none => simp [ho, hv, he] at h
  | some entries =>
  simp only [ho, hv, he, Option.bind_eq_bind, Option.bind_some] at h
  rw [mem_gather _ _ _ h y]
  constructor
  · rintro ⟨g, hg, x, hx, hy⟩
    unfold writesGroup at hx
    obtain ⟨n, hn, z, hz, hyz⟩ := (mem_gather _ _ _ hx y).1 hy
    cases hw : (weights vars entries)[n]? with
    | none => simp [hw] at hz
    | some val =>
    cases hp : offs[n]? with
    | none => simp [hw, hp] at hz
    | some ps =>
    simp only [hw, hp, Option.bind_eq_bind, Option.bind_some] at hz
    obtain ⟨e, heg, u, hu, hyu⟩ := (mem_gather _ _ _ hz y).1 hyz
    obtain ⟨row, hrow, p, hpp, hr, hval⟩ := (mem_writesElem hu y).1 hyu
    simp only [weights, List.getElem?_map, Option.map_eq_some_iff] at hw
    obtain ⟨v, hvn, hwv⟩ := hw
    exact ⟨offs, vars, entries, rfl, rfl, rfl, g, hg, n, ps, hp, v, hvn, hval.trans hwv.symm, e,
      heg, row, hrow, p, hpp, hr⟩
  · rintro ⟨offs', vars', entries', e1, e2, e3, g, hg, n, ps, hps, v, hvn, hy2, e, heg, row, hrow,
      p, hp, hr⟩
    cases e1; cases e2; cases e3
    -- every part of the loop is defined since the whole is
    have def1 : ∃ x, writesGroup (weights vars entries) offs set g = some x := by
      cases hx : writesGroup (weights vars entries) offs set g with
      | none => rw [gather_none _ _ g hg hx] at h; cases h
      | some x => exact ⟨x, rfl⟩
    obtain ⟨x, hx⟩ := def1
    refine ⟨g, hg, x, hx, ?_⟩
    have hx' := hx
    unfold writesGroup at hx'
    have hn : n ∈ List.range offs.length := by
      rw [List.mem_range]
      exact (List.getElem?_eq_some_iff.1 hps).1
    have hw : (weights vars entries)[n]? = some (weightOf entries v) := by
      simp [weights, hvn]
    rw [mem_gather _ _ _ hx' y]
    have def2 : ∃ z, gather (writesElem set (weightOf entries v) ps) g = some z := by
      cases hz : gather (writesElem set (weightOf entries v) ps) g with
      | none =>
        rw [gather_none _ _ n hn (by simp [hw, hps, hz])] at hx'
        cases hx'
      | some z => exact ⟨z, rfl⟩
    obtain ⟨z, hz⟩ := def2
    refine ⟨n, hn, z, by simp [hw, hps, hz], ?_⟩
    rw [mem_gather _ _ _ hz y]
    have def3 : ∃ u, writesElem set (weightOf entries v) ps e = some u := by
      cases hu : writesElem set (weightOf entries v) ps e with
      | none => rw [gather_none _ _ e heg hu] at hz; cases hz
      | some u => exact ⟨u, rfl⟩
    obtain ⟨u, hu⟩ := def3
    exact ⟨e, heg, u, hu, (mem_writesElem hu y).2 ⟨row, hrow, p, hp, hr, hy2⟩⟩

theorem writesBlock_defined [One K] {set : Nat} {b : Block K} (h : Fits b set) :
    ∃ out, writesBlock set set b = some out := by
  obtain ⟨offs, vars, entries, h1, h2, h3, hl, hg⟩ := h
  have : ∃ out, gather (writesGroup (weights vars entries) offs set) b.groups = some out := by
    apply gather_isSome
    intro g hgm
    apply gather_isSome
    intro n hn
    have hn' : n < offs.length := List.mem_range.1 hn
    have hw : (weights vars entries)[n]? = some (weightOf entries vars[n]) := by
      simp [weights, List.getElem?_eq_getElem (hl ▸ hn')]
    have hp : offs[n]? = some offs[n] := List.getElem?_eq_getElem hn'
    have : ∃ out, gather (writesElem set (weightOf entries vars[n]) offs[n]) g = some out := by
      apply gather_isSome
      intro e he
      obtain ⟨row, hrow, hpos⟩ := hg g hgm e he
      have : ∃ out, gather (fun p => do let r ← row[p]?; pure [(r, weightOf entries vars[n])])
          offs[n] = some out := by
        apply gather_isSome
        intro p hpm
        have hlt := hpos offs[n] (List.getElem_mem hn') p hpm
        exact ⟨[(row[p], weightOf entries vars[n])], by simp [List.getElem?_eq_getElem hlt]⟩
      obtain ⟨out, ho⟩ := this
      exact ⟨out, by simpa only [writesElem, hrow, Option.bind_eq_bind, Option.bind_some] using ho⟩
    obtain ⟨out, ho⟩ := this
    exact ⟨out, by simp only [hw, hp, Option.bind_eq_bind, Option.bind_some, ho]⟩
  obtain ⟨out, ho⟩ := this
  exact ⟨out, by simp [writesBlock, h1, h2, h3, ho]⟩

theorem asked_weightOf [One K] [IntCast K] {b : Block K} {set n : Nat} {w : K} (hr : RealOnly b set)
    (h : Asked b set n w) {vars : List String} {entries : List (String × Entry K)} {v : String}
    (h1 : b.vars[set]? = some vars) (h2 : b.entries[set]? = some entries) (h3 : vars[n]? = some v) :
    weightOf entries v = w := by
  obtain ⟨vars', e1, v', e2, entries', e3, hc⟩ := h
  rw [h1] at e1; cases e1
  rw [h3] at e2; cases e2
  rw [h2] at e3; cases e3
  rcases hc with ⟨hn, hw⟩ | hn | ⟨i, hn, _⟩
  · simp [weightOf, hn, hw]
  · simp [weightOf, hn]
  · obtain ⟨x, hx⟩ := hr entries h2 v _ hn
    cases hx

/-! ## Properties -/

/-- A weight given as a real number is taken, and a variable without one has weight one. -/
theorem C188_read_partial [One K] (vars : List String) (entries : List (String × Entry K)) (n : Nat)
    (v : String) (hv : vars[n]? = some v) :
    (∀ x, entries.lookup v = some (.real x) → (weights vars entries)[n]? = some x) ∧
      (entries.lookup v = none → (weights vars entries)[n]? = some 1) := by
  constructor
  · intro x hx; simp [weights, weightOf, hv, hx]
  · intro hx; simp [weights, weightOf, hv, hx]

/-- With one physics set and weights given as real numbers, the vector of weights exists, has at every unknown the
weight asked for its variable (when the blocks that hold the unknown ask for the same) and zero
at every number that is no unknown of a block. -/
theorem C188_norm_partial [One K] [Zero K] [IntCast K] (blocks : List (Block K))
    (hf : ∀ b ∈ blocks, Fits b 0) (hr : ∀ b ∈ blocks, RealOnly b 0) :
    ∃ wts, allWeights true 0 1 blocks = some [wts] ∧
      (∀ r w, (∃ b ∈ blocks, ∃ n, Holds b 0 n r) →
        (∀ b ∈ blocks, ∀ n, Holds b 0 n r → Asked b 0 n w) → wts r = w) ∧
      (∀ r, (∀ b ∈ blocks, ∀ n, ¬ Holds b 0 n r) → wts r = 0) := by
  obtain ⟨out, ho⟩ := gather_isSome (writesBlock 0 0) blocks
    (fun b hb => writesBlock_defined (hf b hb))
  refine ⟨valueAt out, ?_, ?_, ?_⟩
  · simp [allWeights, weightVector, ho, gather]
  · intro r w hex hall
    apply valueAt_of_all
    · obtain ⟨b, hb, n, g, hg, e, he, row, hrow, offs, hoffs, ps, hps, p, hp, hrp⟩ := hex
      obtain ⟨bo, hbo⟩ := writesBlock_defined (hf b hb)
      obtain ⟨offs', vars, entries, h1, h2, h3, hl, _⟩ := hf b hb
      rw [hoffs] at h1; cases h1
      have hn : n < vars.length := hl ▸ (List.getElem?_eq_some_iff.1 hps).1
      refine ⟨(r, weightOf entries vars[n]), ?_, rfl⟩
      rw [mem_gather _ _ _ ho]
      refine ⟨b, hb, bo, hbo, ?_⟩
      rw [mem_writesBlock hbo]
      exact ⟨offs, vars, entries, hoffs, h2, h3, g, hg, n, ps, hps, vars[n],
        List.getElem?_eq_getElem hn, rfl, e, he, row, hrow, p, hp, hrp⟩
    · intro x hx hxr
      obtain ⟨b, hb, bo, hbo, hxb⟩ := (mem_gather _ _ _ ho x).1 hx
      obtain ⟨offs, vars, entries, h1, h2, h3, g, hg, n, ps, hps, v, hv, hw, e, he, row, hrow, p, hp,
        hrp⟩ := (mem_writesBlock hbo x).1 hxb
      rw [hw]
      exact asked_weightOf (hr b hb)
        (hall b hb n ⟨g, hg, e, he, row, hrow, offs, h1, ps, hps, p, hp, hxr ▸ hrp⟩) h2 h3 hv
  · intro r hno
    apply valueAt_of_none
    intro x hx hxr
    obtain ⟨b, hb, bo, hbo, hxb⟩ := (mem_gather _ _ _ ho x).1 hx
    obtain ⟨offs, vars, entries, h1, h2, h3, g, hg, n, ps, hps, v, hv, hw, e, he, row, hrow, p, hp,
      hrp⟩ := (mem_writesBlock hbo x).1 hxb
    exact hno b hb n ⟨g, hg, e, he, row, hrow, offs, h1, ps, hps, p, hp, hxr ▸ hrp⟩

theorem valueAt_append [Zero K] : ∀ (a b : List (Nat × K)) (q : Nat), (∃ x ∈ b, x.1 = q) →
    valueAt (a ++ b) q = valueAt b q
  | [], _, _, _ => rfl
  | (r, u) :: a, b, q, h => by
      have hany : (a ++ b).any (fun x => x.1 == q) = true := by
        obtain ⟨x, hx, hq⟩ := h
        exact List.any_eq_true.2 ⟨x, List.mem_append_right _ hx, by simpa using hq⟩
      simp only [List.cons_append, valueAt, hany, if_true]
      exact valueAt_append a b q h

theorem gather_append {α β : Type} (f : α → Option (List β)) : ∀ (a b : List α) (x y : List β),
    gather f a = some x → gather f b = some y → gather f (a ++ b) = some (x ++ y)
  | [], b, x, y, hx, hy => by simp [gather] at hx; simp [hx, hy]
  | c :: a, b, x, y, hx, hy => by
      simp only [gather] at hx
      cases hc : f c with
      | none => simp [hc] at hx
      | some u =>
        cases ha : gather f a with
        | none => simp [hc, ha] at hx
        | some v =>
          simp [hc, ha] at hx
          simp [gather, hc, gather_append f a b v y ha hy, ← hx]

/-- An unknown held by several blocks that ask for different weights has the weight of the last of these blocks. -/
theorem C188_interface_partial [One K] [Zero K] [IntCast K] (blocks : List (Block K)) (b : Block K)
    (hf : ∀ c ∈ blocks, Fits c 0) (hb : Fits b 0) (hr : RealOnly b 0) (r : Nat) (w : K)
    (hex : ∃ n, Holds b 0 n r) (hall : ∀ n, Holds b 0 n r → Asked b 0 n w) :
    ∃ wts, allWeights true 0 1 (blocks ++ [b]) = some [wts] ∧ wts r = w := by
  obtain ⟨out, ho⟩ := gather_isSome (writesBlock 0 0) blocks
    (fun c hc => writesBlock_defined (hf c hc))
  obtain ⟨bo, hbo⟩ := writesBlock_defined hb
  have hg1 : gather (writesBlock 0 0) [b] = some bo := by simp [gather, hbo]
  have hall' := gather_append _ _ _ _ _ ho hg1
  refine ⟨valueAt (out ++ bo), by simp [allWeights, weightVector, hall', gather], ?_⟩
  have hhit : ∃ x ∈ bo, x.1 = r := by
    obtain ⟨n, g, hg, e, he, row, hrow, offs, hoffs, ps, hps, p, hp, hrp⟩ := hex
    obtain ⟨offs', vars, entries, h1, h2, h3, hl, _⟩ := hb
    rw [hoffs] at h1; cases h1
    have hn : n < vars.length := hl ▸ (List.getElem?_eq_some_iff.1 hps).1
    refine ⟨(r, weightOf entries vars[n]), ?_, rfl⟩
    rw [mem_writesBlock hbo]
    exact ⟨offs, vars, entries, hoffs, h2, h3, g, hg, n, ps, hps, vars[n],
      List.getElem?_eq_getElem hn, rfl, e, he, row, hrow, p, hp, hrp⟩
  rw [valueAt_append _ _ _ hhit]
  apply valueAt_of_all _ _ _ hhit
  intro x hx hxr
  obtain ⟨offs, vars, entries, h1, h2, h3, g, hg, n, ps, hps, v, hv, hw, e, he, row, hrow, p, hp,
    hrp⟩ := (mem_writesBlock hbo x).1 hx
  rw [hw]
  exact asked_weightOf hr (hall n ⟨g, hg, e, he, row, hrow, offs, h1, ps, hps, p, hp, hxr ▸ hrp⟩)
    h2 h3 hv

/-- C188 is false: a weight given as an expression (as `E: permittivity` in
proceedings_paper_example/1D-Periodic/input.yaml) counts as one, without a message. -/
theorem C188_text_violated [One K] (vars : List String) (entries : List (String × Entry K)) (n : Nat)
    (v t : String) (hv : vars[n]? = some v) (ht : entries.lookup v = some (.text t)) :
    (weights vars entries)[n]? = some 1 := by
  simp [weights, weightOf, hv, ht]

/-- C188 is false: a weight given as a whole number counts as one whatever the number is. -/
theorem C188_whole_violated (vars : List String) (entries : List (String × Entry ℚ)) (n : Nat)
    (v : String) (i : Int) (hv : vars[n]? = some v) (ht : entries.lookup v = some (.whole i))
    (hi : i ≠ 1) : (weights vars entries)[n]? ≠ some (i : ℚ) := by
  simp only [weights, weightOf, hv, ht, List.getElem?_map, Option.map_some]
  intro h
  have h1 : (1 : ℚ) = (i : ℚ) := Option.some.inj h
  exact hi (by exact_mod_cast h1.symm)

/-- C188 is false: on one process an explicit run without matrices has no exporter, so the norm is undefined
whatever the weights are. -/
theorem C188_serial_violated [One K] [Zero K] (cur sets : Nat) (blocks : List (Block K))
    (h : 0 < sets) : allWeights false cur sets blocks = none := by
  apply gather_none _ _ 0 (by simpa using h)
  cases weightVector cur 0 blocks <;> simp

/-- C188 is false with several physics sets: the positions are those of the set the worksets were left at. If
that set has more variables on a block than another set, the weights of the other set are read
beyond the end of their list. -/
theorem C188_sets_violated [One K] [Zero K] (cur set sets : Nat) (blocks : List (Block K)) (b : Block K)
    (hb : b ∈ blocks) (hg : b.groups ≠ []) (hs : set < sets) (offs : List (List Nat))
    (vars : List String) (ho : b.offsets[cur]? = some offs) (hv : b.vars[set]? = some vars)
    (hlt : vars.length < offs.length) (o : Bool) : allWeights o cur sets blocks = none := by
  apply gather_none _ _ set (by simpa using hs)
  have : writesBlock cur set b = none := by
    unfold writesBlock
    cases he : b.entries[set]? with
    | none => simp [ho, hv]
    | some entries =>
      simp only [ho, hv, Option.bind_eq_bind, Option.bind_some]
      obtain ⟨g, hgm⟩ := List.exists_mem_of_ne_nil _ hg
      apply gather_none _ _ g hgm
      apply gather_none _ _ vars.length (by simpa using hlt)
      have : (weights vars entries)[vars.length]? = none := by simp [weights]
      simp [this]
  simp [weightVector, gather_none _ _ b hb this]

/-! ## Cases -/

/-- [case] Two elements of three nodes with a scalar variable `u` at two positions and `p` at one; weights 2
for `u`, nothing for `p`. -/
def plate : Block ℚ where
  vars := [["u", "p"]]
  entries := [[("u", .real 2)]]
  offsets := [[[0, 2], [1]]]
  groups := [[[[0, 4, 1]]], [[[1, 5, 2]]]]

example : Fits plate 0 ∧ RealOnly plate 0 := by
  refine ⟨⟨[[0, 2], [1]], ["u", "p"], [("u", .real 2)], rfl, rfl, rfl, rfl, ?_⟩, ?_⟩
  · intro g hg e he
    simp [plate] at hg
    rcases hg with rfl | rfl <;> simp at he <;> subst he <;> refine ⟨_, rfl, ?_⟩ <;> simp
  · intro entries h v e he
    simp [plate] at h
    subst h
    by_cases hv : v = "u"
    · subst hv
      have : (Entry.real 2 : Entry ℚ) = e := by simpa using he
      exact ⟨2, this.symm⟩
    · have hb : (v == "u") = false := by simpa using hv
      simp [List.lookup, hb] at he

example : (allWeights true 0 1 [plate]).map (fun l => l.map (fun w => [w 0, w 1, w 2, w 4, w 5, w 3])) =
    some [[2, 2, 2, 1, 1, 0]] := by decide +kernel

/-- [case] A neighbouring block with a weight of its own for `u`, sharing the unknown 2. -/
def neighbour : Block ℚ :=
  { plate with entries := [[("u", .real 7)]], groups := [[[[2, 6, 3]]]] }

example : (allWeights true 0 1 [plate, neighbour]).map (fun l => l.map (fun w => [w 1, w 2, w 3])) =
    some [[2, 7, 7]] := by decide +kernel

/-- [case] Two physics sets on a block: the first with `u` and `p`, the second with `T`. -/
def twoSets : Block ℚ where
  vars := [["u", "p"], ["T"]]
  entries := [[("u", .real 2), ("p", .real 3)], [("T", .real 5)]]
  offsets := [[[0], [1]], [[0]]]
  groups := [[[[0, 1], [0]]]]

/-- C188 is false with several physics sets: when the worksets were left at the last set, the second variable of the
first set gets weight zero instead of three; when they were left at the first, the norm is undefined. -/
theorem C188_left_violated :
    ((allWeights true 1 2 [twoSets]).map (fun l => l.map (fun w => [w 0, w 1])) =
      some [[2, 0], [5, 0]]) ∧ (allWeights true 0 2 [twoSets]).isNone = true ∧
    Asked twoSets 0 1 3 ∧ Holds twoSets 0 1 1 := by
  refine ⟨by decide +kernel, by decide +kernel, ?_, ?_⟩
  · exact ⟨["u", "p"], rfl, "p", rfl, [("u", .real 2), ("p", .real 3)], rfl,
      Or.inr (Or.inl (by decide +kernel))⟩
  · exact ⟨[[[0, 1], [0]]], by simp [twoSets], [[0, 1], [0]], by simp, [0, 1], rfl, [[0], [1]], rfl,
      [1], rfl, 1, by simp, rfl⟩

example : (weights ["E", "B"] [("E", (.text "permittivity" : Entry ℚ)), ("B", .whole 4)]) = [1, 1] := by
  decide +kernel

example : (weights ["E", "B"] [("E", (.text "permittivity" : Entry ℚ)), ("B", .whole 4)])[1]? ≠
    some ((4 : Int) : ℚ) :=
  C188_whole_violated _ _ 1 "B" 4 rfl (by decide +kernel) (by decide)

example : allWeights false 0 1 [plate] = none := C188_serial_violated 0 1 _ (by decide)

example : allWeights true 0 2 [twoSets] = none :=
  C188_sets_violated 0 1 2 [twoSets] twoSets (by simp) (by simp [twoSets]) (by decide)
    [[0], [1]] ["T"] rfl rfl (by decide) true

end MrHyDE.Physics.Weights
