import Verif.Expr.PassLemmas
import Verif.Expr.Setup

/-
Helper lemmas: the operation tables compute the value of an expression from its operands.
-/

namespace MrHyDE.Expr

variable {K : Type}

theorem repMul_iter (A : Arith K) (d : K) (n : Nat) : repMul A d n = (fun x => A.mul x d)^[n - 1] d := by
  induction n with
  | zero => rfl
  | succ n ih =>
    cases n with
    | zero => rfl
    | succ n =>
      simp only [repMul, Nat.add_sub_cancel] at ih ⊢
      rw [Function.iterate_succ_apply', ← ih]

/-- All tables agree. -/
theorem applyOp_mode {A : Arith K} {lit : Str → K} (hA : Laws A lit) (m : Mode) (op : Op) (d t : K) :
    applyOp A m op d t = applyOp A .vToV op d t := by
  by_cases hpw : op = "power".toList
  · subst hpw
    have e1 : applyOp A .vToV "power".toList d t = A.pow d t := by simp [applyOp]
    rw [e1]
    cases m with
    | sToV =>
      cases h : A.smallInt t with
      | none => simp [applyOp, h]
      | some n =>
        have e2 : applyOp A .sToV "power".toList d t = repMul A d n := by simp [applyOp, h]
        rw [e2, repMul_iter, hA.powInt d t n h]
    | _ => simp [applyOp]
  by_cases hsq : op = "sqrt".toList
  · subst hsq
    have e1 : applyOp A .vToV "sqrt".toList d t = if A.le t A.zero = true then A.zero else A.sqrt t := by
      simp [applyOp]
    rw [e1]
    cases m with
    | sToV =>
      have e2 : applyOp A .sToV "sqrt".toList d t = if A.lt t A.zero = true then A.zero else A.sqrt t := by
        simp [applyOp]
      rw [e2]
      by_cases h1 : A.lt t A.zero = true
      · rw [if_pos h1, if_pos (hA.ltLe t h1)]
      · rw [if_neg h1]
        by_cases h2 : A.le t A.zero = true
        · rw [if_pos h2]; exact hA.sqrtZero t (by simpa using h1) h2
        · rw [if_neg h2]
    | _ => simp [applyOp]
  unfold applyOp
  rw [if_neg hpw, if_neg hsq, if_neg hpw, if_neg hsq]

theorem applyOp_fn1 (A : Arith K) (f : Str)
    (hf : f ∈ ["sin", "cos", "tan", "exp", "log", "sinh", "cosh", "abs", "sqrt"].map String.toList) (d t : K) :
    applyOp A .vToV f d t = ((fn1 A).lookup f).elim A.zero (fun g => g t) := by
  simp only [List.map_cons, List.map_nil, List.mem_cons, List.not_mem_nil, or_false] at hf
  rcases hf with rfl | rfl | rfl | rfl | rfl | rfl | rfl | rfl | rfl <;> rfl

theorem applyOp_fn2 (A : Arith K) (f : Str) (hf : f ∈ ["max", "min", "mean"].map String.toList) (d t : K) :
    applyOp A .vToV f d t = ((fn2s A).lookup f).elim A.zero (fun g => g d t) := by
  simp only [List.map_cons, List.map_nil, List.mem_cons, List.not_mem_nil, or_false] at hf
  rcases hf with rfl | rfl | rfl <;> rfl

/-- Folding operands with the operation table. -/
def foldVal (A : Arith K) (v : Ex → K) (d : K) (ks : List (Op × Ex)) : K :=
  ks.foldl (fun d k => applyOp A .vToV k.1 d (v k.2)) d

theorem foldVal_append (A : Arith K) (v : Ex → K) (d : K) (ks : List (Op × Ex)) (k : Op × Ex) :
    foldVal A v d (ks ++ [k]) = applyOp A .vToV k.1 (foldVal A v d ks) (v k.2) := by
  simp [foldVal]

variable (A : Arith K) (lit : Str → K) (ρ : Str → K)

theorem foldVal_one (v : Ex → K) (d : K) (e : Ex) : foldVal A v d [([], e)] = v e := by
  simp [foldVal, applyOp]

theorem fold_pow (e : Ex) (d : K) : foldVal A (Ex.value A lit ρ) d (spinePow e) = e.value A lit ρ := by
  induction e with
  | pow a b iha _ => rw [spinePow, foldVal_append, iha]; simp [applyOp, Ex.value]
  | _ => exact foldVal_one A _ d _

theorem fold_mdp (e : Ex) (d : K) : foldVal A (Ex.value A lit ρ) d (spineMdp e) = e.value A lit ρ := by
  induction e with
  | mul a b iha _ | div a b iha _ | lt a b iha _ | gt a b iha _ =>
    rw [spineMdp, foldVal_append, iha]; simp [applyOp, Ex.value]
  | _ => exact foldVal_one A _ d _

theorem fold_pm (e : Ex) (d : K) : foldVal A (Ex.value A lit ρ) d (spinePm e.fix) = e.value A lit ρ := by
  induction e with
  | add a b iha _ | sub a b iha _ =>
    rw [Ex.fix, spinePm, foldVal_append, iha]; simp [applyOp, Ex.value]
  | neg a _ =>
    rw [Ex.fix, spinePm, foldVal_append, show spinePm (.num "0.0".toList) = [([], .num "0.0".toList)] from rfl,
      foldVal_one]
    simp [applyOp, Ex.value]
  | _ => exact foldVal_one A _ d _

/-- The operands of a composite expression, folded with any start value, give its value. -/
theorem fold_kids {names : Str → Prop} (e : Ex) (h : e.Ok names) (h1 : ∀ s, e ≠ .num s) (h2 : ∀ s, e ≠ .name s)
    (d : K) : foldVal A (Ex.value A lit ρ) d (kids e) = e.value A lit ρ := by
  cases e with
  | num s => exact absurd rfl (h1 s)
  | name s => exact absurd rfl (h2 s)
  | paren a => exact foldVal_one A _ d _
  | fn f a => exact applyOp_fn1 A f h.1 d _
  | fn2 f a b =>
    rw [show kids (.fn2 f a b) = [([], a)] ++ [(f, b)] from rfl, foldVal_append, foldVal_one]
    exact applyOp_fn2 A f h.1 _ _
  | pow a b => exact fold_pow A lit ρ _ d
  | mul a b | div a b | lt a b | gt a b => exact fold_mdp A lit ρ _ d
  | add a b | sub a b | neg a => exact fold_pm A lit ρ _ d

theorem spinePow_noRed (e : Ex) : ∀ k ∈ spinePow e, isReduction k.1 = false := by
  induction e with
  | pow a b iha _ =>
    intro k hk
    simp only [spinePow, List.mem_append, List.mem_cons, List.not_mem_nil, or_false] at hk
    rcases hk with hk | rfl
    · exact iha k hk
    · simp [isReduction]
  | _ => intro k hk; simp only [spinePow, List.mem_cons, List.not_mem_nil, or_false] at hk; subst hk; simp [isReduction]

theorem spineMdp_noRed (e : Ex) : ∀ k ∈ spineMdp e, isReduction k.1 = false := by
  induction e with
  | mul a b iha _ | div a b iha _ | lt a b iha _ | gt a b iha _ =>
    intro k hk
    simp only [spineMdp, List.mem_append, List.mem_cons, List.not_mem_nil, or_false] at hk
    rcases hk with hk | rfl
    · exact iha k hk
    · simp [isReduction]
  | _ => intro k hk; simp only [spineMdp, List.mem_cons, List.not_mem_nil, or_false] at hk; subst hk; simp [isReduction]

theorem spinePm_noRed (e : Ex) : ∀ k ∈ spinePm e, isReduction k.1 = false := by
  induction e with
  | add a b iha _ | sub a b iha _ =>
    intro k hk
    simp only [spinePm, List.mem_append, List.mem_cons, List.not_mem_nil, or_false] at hk
    rcases hk with hk | rfl
    · exact iha k hk
    · simp [isReduction]
  | _ => intro k hk; simp only [spinePm, List.mem_cons, List.not_mem_nil, or_false] at hk; subst hk; simp [isReduction]

/-- None of the operations is a reduction over points. -/
theorem kids_noRed {names : Str → Prop} (e : Ex) (h : e.Ok names) : ∀ k ∈ kids e, isReduction k.1 = false := by
  cases e with
  | num s | name s => simp [kids]
  | paren a => intro k hk; simp [kids] at hk; subst hk; simp [isReduction]
  | fn f a =>
    intro k hk
    have := h.1
    simp only [List.map_cons, List.map_nil, List.mem_cons, List.not_mem_nil, or_false] at this
    simp only [kids, List.mem_cons, List.not_mem_nil, or_false] at hk
    subst hk
    rcases this with rfl | rfl | rfl | rfl | rfl | rfl | rfl | rfl | rfl <;> simp [isReduction]
  | fn2 f a b =>
    intro k hk
    have := h.1
    simp only [List.map_cons, List.map_nil, List.mem_cons, List.not_mem_nil, or_false] at this
    simp only [kids, List.mem_cons, List.not_mem_nil, or_false] at hk
    rcases hk with rfl | rfl
    · simp [isReduction]
    · rcases this with rfl | rfl | rfl <;> simp [isReduction]
  | pow a b => exact spinePow_noRed _
  | mul a b | div a b | lt a b | gt a b => exact spineMdp_noRed _
  | add a b | sub a b | neg a => exact spinePm_noRed _

/-- Pointwise effect of one dependency on a branch that is point data. -/
theorem combine_view {A : Arith K} {lit : Str → K} (hA : Laws A lit) (w : WksetData K) (dim1 : Nat) (op : Op)
    (hop : isReduction op = false) (dep : ABranch) (dc c : Cell K) (v : View K)
    (hv : match dep.kind.paramVal w with
      | some x => dep.isView = true ∧ v = fun _ _ => x
      | none => if dep.isView = true then dc.view = v else ∀ i p, dc.sc = v i p) :
    (combine A w dim1 true op dep dc c).view = fun i p => applyOp A .vToV op (c.view i p) (v i p) := by
  have hr : op ≠ "emax".toList ∧ op ≠ "emin".toList ∧ op ≠ "emean".toList := by
    simpa [isReduction, and_assoc] using hop
  unfold combine
  cases hpar : dep.kind.paramVal w with
  | some x =>
    rw [hpar] at hv
    obtain ⟨h1, rfl⟩ := hv
    simp only [h1, if_true, opSToV, hop, Bool.false_eq_true, if_false]
    funext i p
    exact applyOp_mode hA _ _ _ _
  | none =>
    rw [hpar] at hv
    by_cases h1 : dep.isView = true
    · simp only [h1, if_true] at hv ⊢
      subst hv
      rw [opVToV, if_neg hr.1, if_neg hr.2.1, if_neg hr.2.2]
    · simp only [h1, Bool.false_eq_true, if_false] at hv ⊢
      simp only [if_true, opSToV, hop, Bool.false_eq_true, if_false]
      funext i p
      rw [← hv i p]
      exact applyOp_mode hA _ _ _ _

/-- Effect of one dependency on a branch that holds one value. -/
theorem combine_sc {A : Arith K} {lit : Str → K} (hA : Laws A lit) (w : WksetData K) (dim1 : Nat) (op : Op)
    (hop : isReduction op = false) (dep : ABranch) (dc c : Cell K) (hd : dep.isView = false) :
    (combine A w dim1 false op dep dc c).sc = applyOp A .vToV op c.sc dc.sc := by
  simp only [combine, Bool.false_eq_true, if_false, hd, opSToS, hop]
  exact applyOp_mode hA _ _ _ _

end MrHyDE.Expr
