import Verif.Dag.Lemmas

/-
Property theorems C05 (circular definitions) and C06 (constant classification).
-/

namespace MrHyDE.Dag

open Relation

variable {α : Type} [DecidableEq α]

/-- C05.  For every finite reference graph and every branch, set-up reports the
    circular-definition error exactly when a cycle is reachable from the branch; in every
    other case it finishes normally. -/
theorem C05_cycle_error_iff (G : Graph α) (N : Nat) (v : α) (hN : G.Bounded N v) :
    (classifyBranch G N v = .error .cycle ↔ G.HasCycleFrom v) ∧
    ((∃ fl, classifyBranch G N v = .ok fl) ↔ ¬ G.HasCycleFrom v) := by
  have hf := classify_ne_fuel hN
  have hs : classifyBranch G N v = .error .cycle → G.HasCycleFrom v :=
    check_cycle_sound _ _ _ _ (by simp)
  have hc : (∃ fl, classifyBranch G N v = .ok fl) → ¬ G.HasCycleFrom v := by
    rintro ⟨fl, h⟩
    exact acc_no_cycle (check_ok_acc _ _ _ _ _ h)
  cases h : classifyBranch G N v with
  | error e =>
    cases e with
    | fuel => exact absurd h hf
    | cycle =>
      have := hs h
      simp [this]
  | ok fl =>
    have := hc ⟨fl, h⟩
    simp [this]

/-- Non-vacuity: a three-branch graph without cycle and one with a cycle of length two. -/
example :
    classifyBranch (α := Nat) ⟨fun v => if v = 2 then some ⟨true, false, false⟩ else none,
      fun v => if v = 0 then [1, 2] else [2]⟩ 3 0 = .ok ⟨true, false, false⟩ ∧
    classifyBranch (α := Nat) ⟨fun v => if v = 2 then some ⟨true, false, false⟩ else none,
      fun v => if v = 0 then [2, 1] else [0]⟩ 3 0 = .error .cycle := by decide

example : (Graph.mk (fun v : Nat => if v = 2 then some ⟨true, false, false⟩ else none)
      (fun v => if v = 0 then [2, 1] else [0])).Bounded 3 0 := by
  refine ⟨[0, 1, 2], by simp, fun w hw => ?_⟩
  induction hw with
  | refl => simp
  | tail _ h _ =>
    rename_i b c _ _
    have := h.2
    simp only at this
    split at this
    · simp at this; rcases this with rfl | rfl <;> simp
    · simp at this; subst this; simp

/-- C06.  When set-up finishes, a branch is flagged constant exactly when every leaf it
    depends on, through any chain of references, is constant; it is flagged as point data
    (view) resp. as carrying derivatives (AD) exactly when some leaf it depends on is. -/
theorem C06_flags_exact (G : Graph α) (N : Nat) (v : α) (fl : Flags)
    (h : classifyBranch G N v = .ok fl) :
    (fl.isConst = true ↔ ∀ w info, G.Reach v w → G.leaf w = some info → info.isConst = true) ∧
    (fl.isView = true ↔ ∃ w info, G.Reach v w ∧ G.leaf w = some info ∧ info.isView = true) ∧
    (fl.isAD = true ↔ ∃ w info, G.Reach v w ∧ G.leaf w = some info ∧ info.isAD = true) := by
  have := check_ok_flags _ _ _ _ _ h
  simpa [Flags.start] using this

example : ∃ fl, classifyBranch (α := Nat)
    ⟨fun v => if v = 2 then some ⟨true, false, false⟩ else if v = 3 then some ⟨false, true, true⟩ else none,
      fun v => if v = 0 then [2, 1] else [3]⟩ 4 0 = .ok fl ∧ fl.isConst = false ∧ fl.isAD = true :=
  ⟨⟨false, true, true⟩, by decide⟩

end MrHyDE.Dag
