import Verif.Dag.Spec
import Mathlib.Data.List.Nodup
import Mathlib.Data.List.Dedup
import Mathlib.Data.List.Perm.Subperm

namespace MrHyDE.Dag

open Relation

variable {α : Type} [DecidableEq α] {G : Graph α}

/-- The visit order never matters for the fuel: with more fuel than unvisited branches the
    fuel is not exhausted. -/
theorem check_ne_fuel (V : List α) (hV : ∀ a ∈ V, ∀ b, G.Edge a b → b ∈ V) :
    ∀ (n : Nat) (path : List α) (v : α) (fl : Flags), path.Nodup → path ⊆ V → v ∈ V →
      V.length < n + path.length → check G n path v fl ≠ .error .fuel := by
  intro n
  induction n with
  | zero =>
    intro path v fl hnd hsub _ hlt
    have := (List.subperm_of_subset hnd hsub).length_le
    omega
  | succ n ih =>
    intro path v fl hnd hsub hv hlt
    unfold check
    split
    · simp
    · rename_i hvp
      split
      · simp
      · rename_i hleaf
        have hsucc : ∀ w ∈ G.succ v, w ∈ V := fun w hw => hV v hv w ⟨hleaf, hw⟩
        have hstep : ∀ w ∈ G.succ v, ∀ fl, check G n (v :: path) w fl ≠ .error .fuel := by
          intro w hw fl
          apply ih
          · exact List.nodup_cons.2 ⟨hvp, hnd⟩
          · exact List.cons_subset.2 ⟨hv, hsub⟩
          · exact hsucc w hw
          · simp only [List.length_cons]; omega
        clear hlt ih
        generalize G.succ v = l at hstep hsucc
        induction l generalizing fl with
        | nil => simp [pure, Except.pure]
        | cons w l ihl =>
          simp only [List.foldlM_cons]
          have h1 := hstep w (by simp) fl
          cases hc : check G n (v :: path) w fl with
          | error e =>
            cases e with
            | fuel => exact absurd hc h1
            | cycle => simp [bind, Except.bind]
          | ok fl' =>
            simp only [bind, Except.bind]
            exact ihl fl' (fun w hw => hstep w (by simp [hw])) (fun w hw => hsucc w (by simp [hw]))

/-- A reported cycle is a cycle. -/
theorem check_cycle_sound :
    ∀ (n : Nat) (path : List α) (v : α) (fl : Flags), (∀ p ∈ path, TransGen G.Edge p v) →
      check G n path v fl = .error .cycle → G.HasCycleFrom v := by
  intro n
  induction n with
  | zero => intro path v fl _ h; simp [check] at h
  | succ n ih =>
    intro path v fl hpath h
    unfold check at h
    split at h
    · rename_i hv
      exact ⟨v, ReflTransGen.refl, hpath v hv⟩
    · split at h
      · simp at h
      · rename_i hleaf
        have key : ∀ l : List α, (∀ w ∈ l, w ∈ G.succ v) → ∀ fl,
            l.foldlM (fun fl w => check G n (v :: path) w fl) fl = .error .cycle →
            G.HasCycleFrom v := by
          intro l
          induction l with
          | nil => intro _ fl h; simp [pure, Except.pure] at h
          | cons w l ihl =>
            intro hl fl h
            simp only [List.foldlM_cons, bind, Except.bind] at h
            have hedge : G.Edge v w := ⟨hleaf, hl w (by simp)⟩
            split at h
            · rename_i e he
              simp only [Except.error.injEq] at h
              subst h
              have := ih (v :: path) w fl (by
                intro p hp
                rcases List.mem_cons.1 hp with rfl | hp
                · exact TransGen.single hedge
                · exact (hpath p hp).tail hedge) he
              obtain ⟨x, hx, hcx⟩ := this
              exact ⟨x, ReflTransGen.head hedge hx, hcx⟩
            · rename_i fl' he
              exact ihl (fun x hx => hl x (by simp [hx])) fl' h
        exact key _ (fun _ h => h) fl h

/-- A branch that passes the check has no infinite chain of references. -/
theorem check_ok_acc :
    ∀ (n : Nat) (path : List α) (v : α) (fl fl' : Flags),
      check G n path v fl = .ok fl' → Acc (fun b a => G.Edge a b) v := by
  intro n
  induction n with
  | zero => intro path v fl fl' h; simp [check] at h
  | succ n ih =>
    intro path v fl fl' h
    unfold check at h
    split at h
    · simp at h
    · split at h
      · rename_i info hleaf
        constructor
        intro y hy
        have := hy.1
        simp [hleaf] at this
      · rename_i hleaf
        have key : ∀ l : List α, ∀ fl,
            l.foldlM (fun fl w => check G n (v :: path) w fl) fl = .ok fl' →
            ∀ w ∈ l, Acc (fun b a => G.Edge a b) w := by
          intro l
          induction l with
          | nil => intro fl _ w hw; simp at hw
          | cons x l ihl =>
            intro fl h w hw
            simp only [List.foldlM_cons, bind, Except.bind] at h
            split at h
            · simp at h
            · rename_i fl'' he
              rcases List.mem_cons.1 hw with rfl | hw
              · exact ih _ _ _ _ he
              · exact ihl fl'' h w hw
        constructor
        intro y hy
        exact key _ fl h y hy.2

omit [DecidableEq α] in
theorem acc_irrefl {r : α → α → Prop} {a : α} (h : Acc r a) : ¬ r a a := by
  induction h with
  | intro x _ ih => exact fun hx => ih x hx hx

omit [DecidableEq α] in
theorem acc_no_cycle {v : α} (h : Acc (fun b a => G.Edge a b) v) : ¬ G.HasCycleFrom v := by
  rintro ⟨w, hvw, hww⟩
  have hw : Acc (fun b a => G.Edge a b) w := by
    clear hww
    induction hvw with
    | refl => exact h
    | tail _ hbc ih => exact ih.inv hbc
  clear hvw
  have : Acc (TransGen (fun b a => G.Edge a b)) w := hw.transGen
  have hcyc : TransGen (fun b a => G.Edge a b) w w := by
    rw [Relation.transGen_swap]
    exact hww
  exact acc_irrefl this hcyc

/-- The flags returned: `isConst` is the conjunction, `isView`/`isAD` the disjunction over
    the reachable leaves, combined with the flags passed in. -/
theorem check_ok_flags :
    ∀ (n : Nat) (path : List α) (v : α) (fl fl' : Flags),
      check G n path v fl = .ok fl' →
      (fl'.isConst = true ↔ fl.isConst = true ∧
        ∀ w info, G.Reach v w → G.leaf w = some info → info.isConst = true) ∧
      (fl'.isView = true ↔ fl.isView = true ∨
        ∃ w info, G.Reach v w ∧ G.leaf w = some info ∧ info.isView = true) ∧
      (fl'.isAD = true ↔ fl.isAD = true ∨
        ∃ w info, G.Reach v w ∧ G.leaf w = some info ∧ info.isAD = true) := by
  intro n
  induction n with
  | zero => intro path v fl fl' h; simp [check] at h
  | succ n ih =>
    intro path v fl fl' h
    unfold check at h
    split at h
    · simp at h
    · split at h
      · rename_i info hleaf
        have honly : ∀ w, G.Reach v w → w = v := by
          intro w hw
          rcases ReflTransGen.cases_head hw with rfl | ⟨c, hc, _⟩
          · rfl
          · have := hc.1; simp [hleaf] at this
        have hr : G.Reach v v := ReflTransGen.refl
        simp only [Except.ok.injEq] at h
        subst h
        refine ⟨?_, ?_, ?_⟩
        · simp only [Flags.absorb, Bool.and_eq_true]
          constructor
          · rintro ⟨h1, h2⟩
            refine ⟨h1, fun w i hw hi => ?_⟩
            rw [honly w hw, hleaf] at hi
            simp only [Option.some.injEq] at hi
            rw [← hi]; exact h2
          · rintro ⟨h1, h2⟩
            exact ⟨h1, h2 v info hr hleaf⟩
        · simp only [Flags.absorb, Bool.or_eq_true]
          constructor
          · rintro (h1 | h1)
            · exact .inl h1
            · exact .inr ⟨v, info, hr, hleaf, h1⟩
          · rintro (h1 | ⟨w, i, hw, hi, hv⟩)
            · exact .inl h1
            · rw [honly w hw, hleaf] at hi
              simp only [Option.some.injEq] at hi
              exact .inr (by rw [hi]; exact hv)
        · simp only [Flags.absorb, Bool.or_eq_true]
          constructor
          · rintro (h1 | h1)
            · exact .inl h1
            · exact .inr ⟨v, info, hr, hleaf, h1⟩
          · rintro (h1 | ⟨w, i, hw, hi, hv⟩)
            · exact .inl h1
            · rw [honly w hw, hleaf] at hi
              simp only [Option.some.injEq] at hi
              exact .inr (by rw [hi]; exact hv)
      · rename_i hleaf
        have key : ∀ l : List α, ∀ fl,
            l.foldlM (fun fl w => check G n (v :: path) w fl) fl = .ok fl' →
            (fl'.isConst = true ↔ fl.isConst = true ∧
              ∀ x ∈ l, ∀ w info, G.Reach x w → G.leaf w = some info → info.isConst = true) ∧
            (fl'.isView = true ↔ fl.isView = true ∨
              ∃ x ∈ l, ∃ w info, G.Reach x w ∧ G.leaf w = some info ∧ info.isView = true) ∧
            (fl'.isAD = true ↔ fl.isAD = true ∨
              ∃ x ∈ l, ∃ w info, G.Reach x w ∧ G.leaf w = some info ∧ info.isAD = true) := by
          intro l
          induction l with
          | nil =>
            intro fl h
            simp only [List.foldlM_nil, pure, Except.pure, Except.ok.injEq] at h
            subst h; simp
          | cons x l ihl =>
            intro fl h
            simp only [List.foldlM_cons, bind, Except.bind] at h
            split at h
            · simp at h
            · rename_i fl'' he
              obtain ⟨a1, a2, a3⟩ := ih _ _ _ _ he
              obtain ⟨b1, b2, b3⟩ := ihl fl'' h
              refine ⟨?_, ?_, ?_⟩
              · rw [b1, a1]
                simp only [List.mem_cons, forall_eq_or_imp, and_assoc]
              · rw [b2, a2]
                simp only [List.mem_cons, exists_eq_or_imp, or_assoc]
              · rw [b3, a3]
                simp only [List.mem_cons, exists_eq_or_imp, or_assoc]
        obtain ⟨k1, k2, k3⟩ := key _ fl h
        have hreach : ∀ w info, G.leaf w = some info → (G.Reach v w ↔ ∃ x ∈ G.succ v, G.Reach x w) := by
          intro w info hi
          constructor
          · intro hw
            rcases ReflTransGen.cases_head hw with rfl | ⟨c, hc, hcw⟩
            · simp [hleaf] at hi
            · exact ⟨c, hc.2, hcw⟩
          · rintro ⟨x, hx, hxw⟩
            exact ReflTransGen.head ⟨hleaf, hx⟩ hxw
        refine ⟨?_, ?_, ?_⟩
        · rw [k1]
          constructor
          · rintro ⟨h1, h2⟩
            refine ⟨h1, fun w i hw hi => ?_⟩
            obtain ⟨x, hx, hxw⟩ := (hreach w i hi).1 hw
            exact h2 x hx w i hxw hi
          · rintro ⟨h1, h2⟩
            exact ⟨h1, fun x hx w i hw hi => h2 w i ((hreach w i hi).2 ⟨x, hx, hw⟩) hi⟩
        · rw [k2]
          constructor
          · rintro (h1 | ⟨x, hx, w, i, hw, hi, hv⟩)
            · exact .inl h1
            · exact .inr ⟨w, i, (hreach w i hi).2 ⟨x, hx, hw⟩, hi, hv⟩
          · rintro (h1 | ⟨w, i, hw, hi, hv⟩)
            · exact .inl h1
            · obtain ⟨x, hx, hxw⟩ := (hreach w i hi).1 hw
              exact .inr ⟨x, hx, w, i, hxw, hi, hv⟩
        · rw [k3]
          constructor
          · rintro (h1 | ⟨x, hx, w, i, hw, hi, hv⟩)
            · exact .inl h1
            · exact .inr ⟨w, i, (hreach w i hi).2 ⟨x, hx, hw⟩, hi, hv⟩
          · rintro (h1 | ⟨w, i, hw, hi, hv⟩)
            · exact .inl h1
            · obtain ⟨x, hx, hxw⟩ := (hreach w i hi).1 hw
              exact .inr ⟨x, hx, w, i, hxw, hi, hv⟩

theorem classify_ne_fuel {N : Nat} {v : α} (h : G.Bounded N v) :
    classifyBranch G N v ≠ .error .fuel := by
  classical
  obtain ⟨V, hlen, hV⟩ := h
  have : ∃ W : List α, W.length ≤ N ∧ (∀ a, a ∈ W ↔ a ∈ V ∧ G.Reach v a) := by
    refine ⟨V.filter (fun a => decide (G.Reach v a)), ?_, ?_⟩
    · exact Nat.le_trans (List.length_filter_le _ _) hlen
    · intro a; simp
  obtain ⟨W, hWl, hW⟩ := this
  unfold classifyBranch
  apply check_ne_fuel W
  · intro a ha b hab
    have hr := ((hW a).1 ha).2
    have hrb : G.Reach v b := ReflTransGen.tail hr hab
    exact (hW b).2 ⟨hV b hrb, hrb⟩
  · simp
  · simp
  · exact (hW v).2 ⟨hV v ReflTransGen.refl, ReflTransGen.refl⟩
  · simp; omega

end MrHyDE.Dag
