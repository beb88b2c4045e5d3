import Mathlib.Data.List.Basic
import Mathlib.Data.List.Infix
import Mathlib.Algebra.BigOperators.Group.List.Basic
import Mathlib.Algebra.BigOperators.Ring.List
import Mathlib.Algebra.Field.Rat
import Mathlib.Tactic.Ring
import Verif.Objective.Model

/-!
# Objectives on several blocks (C193)

The section of objectives is read once for each block, src/managers/postprocess/postprocessManager_construct.hpp:209, 238-244, 291-293 and
`addObjectiveFunctions`, src/managers/postprocess/postprocessManager_objectives.hpp:13-72: an objective of the input is an objective of
its own on each block.  The values are those of a steady problem, summed over the processes
(postprocessManager_objectives.hpp:590-636); what is integrated over a block is given.
-/

set_option linter.unusedSectionVars false
set_option linter.unusedSimpArgs false

namespace MrHyDE.Objective.Blocks

variable {R : Type} [CommRing R]

/-! ## Model -/

/-- An objective of the input: name, the text of "blocks", type, weight, target, weights of the regularisations of type "l2 norm squared";
postprocessManager_objectives.hpp:20-37, src/tools/postprocessTools.hpp:77-151. -/
structure Fun (R : Type) where
  name : List Char
  blocks : Option (List Char)
  kind : Kind
  weight : R
  target : R
  l2 : List R

/-- Is the objective added on a block, postprocessManager_objectives.hpp:26-35: the name of the block occurs somewhere in the text. -/
def added (f : Fun R) (block : List Char) : Bool :=
  match f.blocks with
  | none => true
  | some text => decide (block <:+: text)

/-- The section of postprocessing: the objectives of the section itself, and of the sublists named like a block;
postprocessManager_construct.hpp:238-244. -/
structure Section (R : Type) where
  default : List (Fun R)
  own : List (List Char × List (Fun R))

/-- The objectives read for a block, postprocessManager_construct.hpp:238-244, 292: those of its sublist if there is one. -/
def read (s : Section R) (block : List Char) : List (Fun R) :=
  match s.own.find? (fun e => decide (e.1 = block)) with
  | some e => e.2
  | none => s.default

/-- The list of objectives after the loop over the blocks, postprocessManager_construct.hpp:209, 293, postprocessManager_objectives.hpp:20-71. -/
def objectives (s : Section R) (blocks : List (List Char)) : List (Fun R × List Char) :=
  blocks.foldl (fun os b => (read s b).foldl (fun os f => if added f b then os ++ [(f, b)] else os) os) []

/-- What the run gives: for an objective on a block the integral of its function or response (or the weighted misfit of the sensors), and of the
integrated regularisations; the misfit of the whole state; the active parameters.  postprocessManager_objectives.hpp:132-566. -/
structure Run (R : Type) where
  main : List Char → List Char → R
  reg : List Char → List Char → R
  misfit : R
  params : List R

/-- The regularisations of type "l2 norm squared", postprocessManager_objectives.hpp:542-564: nothing in them depends on the block. -/
def l2Part (r : Run R) (f : Fun R) : R := (f.l2.map (fun w => (r.params.map (fun p => w * p * p)).sum)).sum

/-- The value of an objective on a block, postprocessManager_objectives.hpp:132-566 (`totaldiff`: 175, 198, 254, 434, 491, 533, 560), 621-627. -/
def contribution (r : Run R) (f : Fun R) (block : List Char) : R :=
  let regs := r.reg f.name block + l2Part r f
  match f.kind with
  | .control => f.weight * r.main f.name block + regs
  | .discrete => f.weight * r.misfit + regs
  | .response => f.weight * ((r.main f.name block + regs - f.target) * (r.main f.name block + regs - f.target))
  | .sensors => r.main f.name block + regs

/-- The objective reported, postprocessManager_objectives.hpp:590-636. -/
def total (r : Run R) (os : List (Fun R × List Char)) : R := os.foldl (fun t o => t + contribution r o.1 o.2) 0

/-! ## Specification -/

/-- A text that lists blocks: the names with a separator between them. [specification, no code] -/
def listed (sep : List Char) : List (List Char) → List Char
  | [] => []
  | [n] => n
  | n :: ns => n ++ sep ++ listed sep ns

/-! ## Lemmas -/

theorem infix_sep {α : Type} {c : α} {b x y : List α} (hc : c ∉ b) (h : b <:+: x ++ c :: y) : b <:+: x ∨ b <:+: y := by
  obtain ⟨s, t, h⟩ := h
  rcases List.append_eq_append_iff.mp h with ⟨a, h1, h2⟩ | ⟨a, h1, h2⟩
  · exact Or.inl ⟨s, a, h1.symm⟩
  · cases a with
    | nil =>
        rw [List.append_nil] at h1
        exact Or.inl ⟨s, [], by rw [List.append_nil, h1]⟩
    | cons d a =>
        rw [List.cons_append, List.cons.injEq] at h2
        obtain ⟨h2, h3⟩ := h2
        subst h2
        rcases List.append_eq_append_iff.mp h1 with ⟨a1, h4, h5⟩ | ⟨a1, h4, h5⟩
        · exact absurd (by rw [h5]; simp) hc
        · cases a1 with
          | nil => exact absurd (by rw [List.nil_append] at h5; rw [← h5]; simp) hc
          | cons e a1 =>
              rw [List.cons_append, List.cons.injEq] at h5
              exact Or.inr ⟨a1, t, by rw [h3, h5.2]⟩

theorem infix_seps {α : Type} {sep b x y : List α} (hs : sep ≠ []) (hc : ∀ c ∈ sep, c ∉ b) (h : b <:+: x ++ sep ++ y) :
    b <:+: x ∨ b <:+: y := by
  induction sep generalizing x with
  | nil => exact absurd rfl hs
  | cons c sep ih =>
      have h' : b <:+: x ++ c :: (sep ++ y) := by simpa using h
      rcases infix_sep (hc c (by simp)) h' with h1 | h1
      · exact Or.inl h1
      · cases hsep : sep with
        | nil => rw [hsep] at h1; exact Or.inr (by simpa using h1)
        | cons d sep' =>
            rcases ih (x := []) (by rw [hsep]; simp) (fun e he => hc e (by simp [he])) (by simpa using h1) with h2 | h2
            · have : b = [] := by simpa using h2
              rw [this]
              exact Or.inl (List.nil_infix)
            · exact Or.inr h2

theorem infix_listed {sep b : List Char} {ns : List (List Char)} (hs : sep ≠ []) (hc : ∀ c ∈ sep, c ∉ b) (hb : b ≠ []) :
    b <:+: listed sep ns ↔ ∃ n ∈ ns, b <:+: n := by
  induction ns with
  | nil => simp [listed, hb]
  | cons n ns ih =>
      cases ns with
      | nil => simp [listed]
      | cons m ns =>
          constructor
          · intro h
            rcases infix_seps hs hc h with h | h
            · exact ⟨n, by simp, h⟩
            · obtain ⟨k, h1, h2⟩ := ih.mp h
              exact ⟨k, by simp [h1], h2⟩
          · rintro ⟨k, h1, h2⟩
            rcases List.mem_cons.mp h1 with h1 | h1
            · rw [← h1]
              exact h2.trans ⟨[], sep ++ listed sep (m :: ns), by simp [listed]⟩
            · exact (ih.mpr ⟨k, h1, h2⟩).trans ⟨n ++ sep, [], by simp [listed]⟩

theorem inner_loop (b : List Char) (fs : List (Fun R)) (os : List (Fun R × List Char)) :
    fs.foldl (fun os f => if added f b then os ++ [(f, b)] else os) os = os ++ (fs.filter (fun f => added f b)).map (fun f => (f, b)) := by
  induction fs generalizing os with
  | nil => simp
  | cons f fs ih =>
      by_cases h : added f b = true <;> simp [ih, h]

theorem outer_loop (s : Section R) (blocks : List (List Char)) (os : List (Fun R × List Char)) :
    blocks.foldl (fun os b => (read s b).foldl (fun os f => if added f b then os ++ [(f, b)] else os) os) os =
      os ++ blocks.flatMap (fun b => ((read s b).filter (fun f => added f b)).map (fun f => (f, b))) := by
  induction blocks generalizing os with
  | nil => simp
  | cons b bs ih => rw [List.foldl_cons, inner_loop, ih]; simp

theorem total_sum (r : Run R) (os : List (Fun R × List Char)) : total r os = (os.map (fun o => contribution r o.1 o.2)).sum := by
  have : ∀ (t : R), os.foldl (fun t o => t + contribution r o.1 o.2) t = t + (os.map (fun o => contribution r o.1 o.2)).sum := by
    intro t
    induction os generalizing t with
    | nil => simp
    | cons o os ih => simp [ih]; ring
  rw [total, this, zero_add]

/-- The objectives of a section with one objective and no sublists. -/
theorem single (f : Fun R) (blocks : List (List Char)) :
    objectives ⟨[f], []⟩ blocks = (blocks.filter (fun b => added f b)).map (fun b => (f, b)) := by
  rw [objectives, outer_loop, List.nil_append]
  induction blocks with
  | nil => rfl
  | cons b bs ih =>
      rw [List.flatMap_cons, ih]
      by_cases h : added f b = true <;> simp [read, h]

/-! ## C193 -/

/-- C193, partial: if no name of a block is part of the name of another one, and the separator has no letters of the names, an objective is
evaluated exactly on the blocks its text lists (of those whose settings have it), and without a text on all of them.  Missing: names that
are part of another one (`C193_names_violated`). -/
theorem C193_blocks_partial (s : Section R) {blocks : List (List Char)} (hne : ∀ b ∈ blocks, b ≠ [])
    (hpart : ∀ b ∈ blocks, ∀ n ∈ blocks, b <:+: n → b = n) (f : Fun R) (b : List Char) :
    (f.blocks = none → ((f, b) ∈ objectives s blocks ↔ b ∈ blocks ∧ f ∈ read s b)) ∧
    (∀ sep ns, f.blocks = some (listed sep ns) → sep ≠ [] → (∀ c ∈ sep, ∀ n ∈ blocks, c ∉ n) → (∀ n ∈ ns, n ∈ blocks) →
      ((f, b) ∈ objectives s blocks ↔ b ∈ blocks ∧ f ∈ read s b ∧ b ∈ ns)) := by
  have hmem : (f, b) ∈ objectives s blocks ↔ b ∈ blocks ∧ f ∈ read s b ∧ added f b = true := by
    rw [objectives, outer_loop, List.nil_append, List.mem_flatMap]
    constructor
    · rintro ⟨b', h1, h2⟩
      obtain ⟨f', h3, h4⟩ := List.mem_map.mp h2
      rw [Prod.mk.injEq] at h4
      obtain ⟨rfl, rfl⟩ := h4
      rw [List.mem_filter] at h3
      exact ⟨h1, h3⟩
    · rintro ⟨h1, h2, h3⟩
      exact ⟨b, h1, List.mem_map.mpr ⟨f, List.mem_filter.mpr ⟨h2, h3⟩, rfl⟩⟩
  refine ⟨fun h => ?_, fun sep ns h hs hc hns => ?_⟩
  · rw [hmem]
    simp [added, h]
  · rw [hmem]
    refine and_congr_right (fun hb => and_congr_right (fun _ => ?_))
    simp only [added, h, decide_eq_true_eq]
    rw [infix_listed hs (fun c hcs => hc c hcs b hb) (hne b hb)]
    constructor
    · rintro ⟨n, h1, h2⟩
      rw [hpart b hb n (hns n h1) h2]
      exact h1
    · intro h1
      exact ⟨b, h1, List.infix_rfl⟩

/-- C193 is false for a block whose name is part of the name of another one: an objective for the other block only is evaluated on it too. -/
theorem C193_names_violated (f : Fun R) {a b : List Char} (hpart : a <:+: b) (hf : f.blocks = some b) :
    objectives ⟨[f], []⟩ [a, b] = [(f, a), (f, b)] := by
  rw [single]
  simp [added, hf, hpart]

/-- Part of C193: the settings of a block are those of the sublist with its name, which replaces the default. -/
theorem C193_own (s : Section R) (b : List Char) :
    (∀ e ∈ s.own, e.1 ≠ b) ∧ read s b = s.default ∨ ∃ fs, (b, fs) ∈ s.own ∧ read s b = fs := by
  unfold read
  cases h : s.own.find? (fun e => decide (e.1 = b)) with
  | none =>
      refine Or.inl ⟨fun e he => ?_, rfl⟩
      have := List.find?_eq_none.mp h e he
      simpa using this
  | some e =>
      have h1 := List.find?_some h
      have h2 := List.mem_of_find?_eq_some h
      have h3 : e.1 = b := by simpa using h1
      exact Or.inr ⟨e.2, by rw [← h3]; exact h2, rfl⟩

/-- Part of C193: every objective is evaluated on a block at most once, and those of a block in the order of the input. -/
theorem C193_once (s : Section R) {blocks : List (List Char)} (hn : blocks.Nodup) (b : List Char) :
    (objectives s blocks).filter (fun o => decide (o.2 = b)) =
      if b ∈ blocks then ((read s b).filter (fun f => added f b)).map (fun f => (f, b)) else [] := by
  rw [objectives, outer_loop, List.nil_append]
  induction blocks with
  | nil => simp
  | cons c bs ih =>
      rw [List.flatMap_cons, List.filter_append, ih (List.nodup_cons.mp hn).2]
      by_cases h : c = b
      · subst h
        have hc : c ∉ bs := (List.nodup_cons.mp hn).1
        simp only [hc, if_false, List.append_nil, List.mem_cons, true_or, if_true]
        rw [List.filter_eq_self]
        intro o ho
        obtain ⟨f, _, rfl⟩ := List.mem_map.mp ho
        simp
      · have h' : b ≠ c := fun hh => h hh.symm
        have h0 : (((read s c).filter (fun f => added f c)).map (fun f => (f, c))).filter (fun o => decide (o.2 = b)) = [] := by
          rw [List.filter_eq_nil_iff]
          intro o ho
          obtain ⟨f, _, rfl⟩ := List.mem_map.mp ho
          simpa using h
        rw [h0]
        simp [h']

/-- Part of C193: the weighted integral of a function, and the misfit of sensors, over several blocks is the sum over the blocks, with the
integrated regularisations. -/
theorem C193_sum_partial (r : Run R) (f : Fun R) (hl : f.l2 = []) (blocks : List (List Char)) :
    (f.kind = .control → total r (objectives ⟨[f], []⟩ blocks) =
      f.weight * ((blocks.filter (fun b => added f b)).map (fun b => r.main f.name b)).sum +
        ((blocks.filter (fun b => added f b)).map (fun b => r.reg f.name b)).sum) ∧
    (f.kind = .sensors → total r (objectives ⟨[f], []⟩ blocks) =
      ((blocks.filter (fun b => added f b)).map (fun b => r.main f.name b)).sum +
        ((blocks.filter (fun b => added f b)).map (fun b => r.reg f.name b)).sum) := by
  rw [total_sum, single]
  constructor
  · intro hk
    induction blocks.filter (fun b => added f b) with
    | nil => simp
    | cons b bs ih =>
        simp only [List.map_cons, List.sum_cons]
        rw [ih]
        simp only [contribution, hk, l2Part, hl, List.map_nil, List.sum_nil]
        ring
  · intro hk
    induction blocks.filter (fun b => added f b) with
    | nil => simp
    | cons b bs ih =>
        simp only [List.map_cons, List.sum_cons]
        rw [ih]
        simp only [contribution, hk, l2Part, hl, List.map_nil, List.sum_nil]
        ring

/-- C193 is false for the misfit of the whole state ("discrete control") and for the squared norm of the parameters: they are counted once for each
block the objective is evaluated on. -/
theorem C193_counted_violated (r : Run R) (f : Fun R) (hk : f.kind = .discrete) (hr : ∀ b, r.reg f.name b = 0)
    (blocks : List (List Char)) :
    total r (objectives ⟨[f], []⟩ blocks) =
      ((blocks.filter (fun b => added f b)).length : R) * (f.weight * r.misfit + l2Part r f) := by
  rw [total_sum, single]
  induction blocks.filter (fun b => added f b) with
  | nil => simp
  | cons b bs ih =>
      simp only [List.map_cons, List.sum_cons]
      rw [ih]
      simp only [contribution, hk, hr, List.length_cons, Nat.cast_add, Nat.cast_one]
      ring

/-- C193: the squared norm of the parameters on its own: for an objective with nothing else it is added once for each block. -/
theorem C193_norm_violated (r : Run R) (f : Fun R) (hk : f.kind = .control) (hr : ∀ b, r.reg f.name b = 0) (hm : ∀ b, r.main f.name b = 0)
    (w : R) (hl : f.l2 = [w]) (blocks : List (List Char)) :
    total r (objectives ⟨[f], []⟩ blocks) =
      ((blocks.filter (fun b => added f b)).length : R) * (w * (r.params.map (fun p => p * p)).sum) := by
  have h2 : l2Part r f = w * (r.params.map (fun p => p * p)).sum := by
    simp only [l2Part, hl, List.map_cons, List.map_nil, List.sum_cons, List.sum_nil, add_zero]
    rw [← List.sum_map_mul_left]
    congr 1
    exact List.map_congr_left (fun p _ => by ring)
  rw [total_sum, single]
  induction blocks.filter (fun b => added f b) with
  | nil => simp
  | cons b bs ih =>
      simp only [List.map_cons, List.sum_cons]
      rw [ih]
      simp only [contribution, hk, hr, hm, h2, List.length_cons, Nat.cast_add, Nat.cast_one]
      ring

/-- C193 is false for a response with a target over two blocks: the target is compared with the response of each block, not with the sum; the value
differs from that of the whole by `2 w (a b) - w T²`. -/
theorem C193_target_violated (r : Run R) (f : Fun R) (hk : f.kind = .response) (hl : f.l2 = []) (hr : ∀ b, r.reg f.name b = 0)
    (hb : f.blocks = none) (b c : List Char) :
    total r (objectives ⟨[f], []⟩ [b, c]) =
      f.weight * ((r.main f.name b - f.target) ^ 2 + (r.main f.name c - f.target) ^ 2) ∧
    f.weight * (r.main f.name b + r.main f.name c - f.target) ^ 2 - total r (objectives ⟨[f], []⟩ [b, c]) =
      f.weight * (2 * (r.main f.name b * r.main f.name c) - f.target ^ 2) := by
  have h : total r (objectives ⟨[f], []⟩ [b, c]) =
      f.weight * ((r.main f.name b - f.target) ^ 2 + (r.main f.name c - f.target) ^ 2) := by
    rw [total_sum, single]
    simp only [added, hb, List.filter_cons_of_pos, List.filter_nil, List.map_cons, List.map_nil, List.sum_cons, List.sum_nil,
      contribution, hk, hr, l2Part, hl]
    ring
  refine ⟨h, ?_⟩
  rw [h]
  ring

/-- Part of C193: a response on a block is weighed by its distance from the target, after its regularisations are added to it. -/
theorem C193_response (r : Run R) (f : Fun R) (hk : f.kind = .response) (blocks : List (List Char)) :
    total r (objectives ⟨[f], []⟩ blocks) = f.weight * ((blocks.filter (fun b => added f b)).map (fun b =>
      (r.main f.name b + (r.reg f.name b + (f.l2.map (fun w => (r.params.map (fun p => w * p ^ 2)).sum)).sum) - f.target) ^ 2)).sum := by
  have h2 : l2Part r f = (f.l2.map (fun w => (r.params.map (fun p => w * p ^ 2)).sum)).sum := by
    unfold l2Part
    congr 1
    refine List.map_congr_left (fun w _ => ?_)
    congr 1
    exact List.map_congr_left (fun p _ => by ring)
  rw [total_sum, single, ← h2]
  induction blocks.filter (fun b => added f b) with
  | nil => simp
  | cons b bs ih =>
      simp only [List.map_cons, List.sum_cons]
      rw [ih]
      simp only [contribution, hk]
      ring

/-! ## Cases -/

/-- An objective on one block. [case] -/
def exFun (k : Kind) (t : Option (List Char)) : Fun ℚ := ⟨['a'], t, k, 1, 3, []⟩

/-- A run with integrals 1 and 2 (by the last letter), misfit 5. [case] -/
def exRun : Run ℚ := ⟨fun _ b => if b = ['x'] then 1 else 2, fun _ _ => 0, 5, [2]⟩

/-- The names "x1" and "x10": an objective for "x10" is evaluated on "x1" too. -/
example : (objectives ⟨[exFun .control (some ['x', '1', '0'])], []⟩ [['x', '1'], ['x', '1', '0']]).map (·.2) =
    [['x', '1'], ['x', '1', '0']] := by decide +kernel

/-- The names "x" and "y", listed as "x, y" and as "y". -/
example : (objectives ⟨[exFun .control (some (listed [',', ' '] [['x'], ['y']])), exFun .control (some ['y'])], []⟩ [['x'], ['y']]).map (·.2) =
    [['x'], ['y'], ['y']] := by decide +kernel

/-- The hypotheses of `C193_blocks_partial` hold for "x" and "y". -/
example : (∀ b ∈ [['x'], ['y']], b ≠ []) ∧ (∀ b ∈ [['x'], ['y']], ∀ n ∈ [['x'], ['y']], b <:+: n → b = n) ∧
    (∀ c ∈ [',', ' '], ∀ n ∈ [['x'], ['y']], c ∉ n) := by decide

/-- The response is 3 = target on the whole, but the value is 5; the misfit 5 is counted twice. -/
example : total exRun (objectives ⟨[exFun .response none], []⟩ [['x'], ['y']]) = 5 ∧
    total exRun (objectives ⟨[exFun .discrete none], []⟩ [['x'], ['y']]) = 10 ∧
    total exRun (objectives ⟨[exFun .control none], []⟩ [['x'], ['y']]) = 3 := by decide +kernel

/-- A block with a sublist of its own has none of the default objectives. -/
example : (objectives ⟨[exFun .control none], [(['y'], [])]⟩ [['x'], ['y']]).map (·.2) = [['x']] := by decide +kernel

end MrHyDE.Objective.Blocks
