import Verif.Workset.Lemmas
import Mathlib.Algebra.BigOperators.Intervals

namespace MrHyDE.Workset

/-! ### The name inside a label -/

/-- The variable name a label is about. -/
def nameOf (s : Str) : Str :=
  if '(' ∈ s then ((s.dropWhile (· != '(')).drop 1).takeWhile (· != ')')
  else
    let t := s.takeWhile (· != '[')
    if "_t".toList.isSuffixOf t then t.take (t.length - 2) else t

theorem takeWhile_stop {c : Char} {v w : Str} (h : c ∉ v) :
    (v ++ c :: w).takeWhile (· != c) = v := by
  induction v with
  | nil => simp
  | cons a v ih =>
    simp only [List.mem_cons, not_or] at h
    rw [List.cons_append, List.takeWhile_cons_of_pos (by simpa using fun e => h.1 e.symm), ih h.2]

theorem takeWhile_all {c : Char} {v : Str} (h : c ∉ v) : v.takeWhile (· != c) = v := by
  induction v with
  | nil => rfl
  | cons a v ih =>
    simp only [List.mem_cons, not_or] at h
    rw [List.takeWhile_cons_of_pos (by simpa using fun e => h.1 e.symm), ih h.2]

theorem dropWhile_stop {c : Char} {v w : Str} (h : c ∉ v) :
    (v ++ c :: w).dropWhile (· != c) = c :: w := by
  induction v with
  | nil => simp
  | cons a v ih =>
    simp only [List.mem_cons, not_or] at h
    rw [List.cons_append, List.dropWhile_cons_of_pos (by simpa using fun e => h.1 e.symm), ih h.2]

theorem nameOf_label {v : Str} (hv : PlainName v) (q : Qty) : nameOf (q.label v) = v := by
  obtain ⟨-, -, -, ht, h0, h1, h2⟩ := hv
  have hsuf : "_t".toList.isSuffixOf v = false := by
    rw [← Bool.not_eq_true, List.isSuffixOf_iff_suffix]
    exact fun h => ht h.isInfix
  have hsuf2 : "_t".toList.isSuffixOf (v ++ "_t".toList) = true := by
    rw [List.isSuffixOf_iff_suffix]
    exact ⟨v, rfl⟩
  have hax : ∀ a : Axis, '(' ∉ a.text := by intro a; cases a <;> decide
  have htk : ∀ (a : Axis) (l : Str), '[' ∉ l → (l ++ a.text).takeWhile (· != '[') = l := by
    intro a l hl
    cases a
    · exact takeWhile_stop (w := "x]".toList) hl
    · exact takeWhile_stop (w := "y]".toList) hl
    · exact takeWhile_stop (w := "z]".toList) hl
  have hparen : ∀ (pre post : Str), '(' ∉ pre →
      nameOf (pre ++ '(' :: (v ++ ')' :: post)) = v := by
    intro pre post hp
    unfold nameOf
    rw [if_pos (by simp), dropWhile_stop hp]
    exact takeWhile_stop h1
  have hplain : ∀ (s t : Str), '(' ∉ s → s.takeWhile (· != '[') = t →
      nameOf s = if "_t".toList.isSuffixOf t then t.take (t.length - 2) else t := by
    intro s t hs hst
    unfold nameOf
    rw [if_neg hs, hst]
  have hlen : (v ++ "_t".toList).take ((v ++ "_t".toList).length - 2) = v := by
    simp
  cases q with
  | val =>
    show nameOf v = v
    rw [hplain v v h0 (takeWhile_all h2), hsuf]; rfl
  | valc a =>
    show nameOf (v ++ a.text) = v
    rw [hplain _ v (by simp [h0, hax a]) (htk a v h2), hsuf]; rfl
  | grad a => rw [label_shape]; exact hparen _ _ (by decide)
  | div => rw [label_shape]; exact hparen _ _ (by decide)
  | curl => rw [label_shape]; exact hparen _ _ (by decide)
  | curlc a => rw [label_shape]; exact hparen _ _ (by decide)
  | dt =>
    show nameOf (v ++ "_t".toList) = v
    rw [hplain _ (v ++ "_t".toList) (by simp [h0]) (takeWhile_all (by simp [h2])), hsuf2, if_pos rfl,
      hlen]
  | dtc a =>
    show nameOf (v ++ "_t".toList ++ a.text) = v
    rw [hplain _ (v ++ "_t".toList) (by simp [h0, hax a]) (htk a _ (by simp [h2])), hsuf2,
      if_pos rfl, hlen]

/-! ### Which labels a variable registers -/

theorem mem_volLabels {dim : Nat} {b : BType} {v l : Str} (h : l ∈ volLabels dim b v) :
    ∃ q : Qty, l = q.label v := by
  cases b with
  | hgrad =>
    simp only [volLabels, List.mem_cons, List.not_mem_nil, or_false] at h
    rcases h with rfl | rfl | rfl | rfl | rfl
    · exact ⟨.val, rfl⟩
    · exact ⟨.grad .x, by simp [Qty.label, Axis.text]⟩
    · exact ⟨.grad .y, by simp [Qty.label, Axis.text]⟩
    · exact ⟨.grad .z, by simp [Qty.label, Axis.text]⟩
    · exact ⟨.dt, rfl⟩
  | hdiv =>
    simp only [volLabels, List.mem_cons, List.not_mem_nil, or_false] at h
    rcases h with rfl | rfl | rfl | rfl | rfl | rfl | rfl
    · exact ⟨.valc .x, rfl⟩
    · exact ⟨.valc .y, rfl⟩
    · exact ⟨.valc .z, rfl⟩
    · exact ⟨.div, rfl⟩
    · exact ⟨.dtc .x, by simp [Qty.label, Axis.text]⟩
    · exact ⟨.dtc .y, by simp [Qty.label, Axis.text]⟩
    · exact ⟨.dtc .z, by simp [Qty.label, Axis.text]⟩
  | hvol =>
    simp only [volLabels, List.mem_cons, List.not_mem_nil, or_false] at h
    rcases h with rfl | rfl
    · exact ⟨.val, rfl⟩
    · exact ⟨.dt, rfl⟩
  | hcurl =>
    simp only [volLabels, List.mem_append, List.mem_cons, List.not_mem_nil, or_false] at h
    rcases h with ((rfl | rfl | rfl) | h) | (rfl | rfl | rfl | rfl)
    · exact ⟨.valc .x, rfl⟩
    · exact ⟨.valc .y, rfl⟩
    · exact ⟨.valc .z, rfl⟩
    · split at h
      · simp only [List.mem_cons, List.not_mem_nil, or_false] at h
        subst h; exact ⟨.curl, rfl⟩
      · simp only [List.mem_cons, List.not_mem_nil, or_false] at h
        rcases h with rfl | rfl | rfl
        · exact ⟨.curlc .x, by simp [Qty.label, Axis.text]⟩
        · exact ⟨.curlc .y, by simp [Qty.label, Axis.text]⟩
        · exact ⟨.curlc .z, by simp [Qty.label, Axis.text]⟩
    · exact ⟨.dtc .x, by simp [Qty.label, Axis.text]⟩
    · exact ⟨.dtc .y, by simp [Qty.label, Axis.text]⟩
    · exact ⟨.dtc .z, by simp [Qty.label, Axis.text]⟩
    · exact ⟨.div, rfl⟩
  | hface => simp [volLabels] at h
  | other => simp [volLabels] at h

theorem volQty_mem {dim : Nat} {b : BType} {v : Str} {q : Qty} (h : q ∈ volQty dim b) :
    q.label v ∈ volLabels dim b v := by
  cases b with
  | hgrad =>
    simp only [volQty, List.mem_cons, List.not_mem_nil, or_false] at h
    rcases h with rfl | rfl | rfl | rfl | rfl <;> simp [volLabels, Qty.label, Axis.text]
  | hdiv =>
    simp only [volQty, List.mem_cons, List.not_mem_nil, or_false] at h
    rcases h with rfl | rfl | rfl | rfl | rfl | rfl | rfl <;> simp [volLabels, Qty.label, Axis.text]
  | hvol =>
    simp only [volQty, List.mem_cons, List.not_mem_nil, or_false] at h
    rcases h with rfl | rfl <;> simp [volLabels, Qty.label, Axis.text]
  | hcurl =>
    by_cases hd : dim = 2
    · simp only [volQty, hd, if_true, List.mem_append, List.mem_cons, List.not_mem_nil, or_false] at h
      rcases h with (rfl | rfl | rfl | rfl | rfl | rfl) | rfl <;> simp [volLabels, Qty.label, Axis.text, hd]
    · simp only [volQty, hd, if_false, List.mem_append, List.mem_cons, List.not_mem_nil, or_false] at h
      rcases h with (rfl | rfl | rfl | rfl | rfl | rfl) | rfl | rfl | rfl <;> simp [volLabels, Qty.label, Axis.text, hd]
  | hface => simp [volQty] at h
  | other => simp [volQty] at h

theorem mem_sideLabels {dim : Nat} {b : BType} {v l : Str} (h : l ∈ sideLabels dim b v) :
    ∃ q : Qty, l = q.label v := by
  cases b with
  | hgrad =>
    simp only [sideLabels, List.mem_cons, List.not_mem_nil, or_false] at h
    rcases h with rfl | rfl | rfl | rfl
    · exact ⟨.val, rfl⟩
    · exact ⟨.grad .x, by simp [Qty.label, Axis.text]⟩
    · exact ⟨.grad .y, by simp [Qty.label, Axis.text]⟩
    · exact ⟨.grad .z, by simp [Qty.label, Axis.text]⟩
  | hdiv =>
    simp only [sideLabels, List.mem_cons, List.not_mem_nil, or_false] at h
    rcases h with rfl | rfl | rfl | rfl
    · exact ⟨.valc .x, rfl⟩
    · exact ⟨.valc .y, rfl⟩
    · exact ⟨.valc .z, rfl⟩
    · exact ⟨.div, rfl⟩
  | hvol =>
    simp only [sideLabels, List.mem_cons, List.not_mem_nil, or_false] at h
    subst h; exact ⟨.val, rfl⟩
  | hcurl =>
    simp only [sideLabels, List.mem_append, List.mem_cons, List.not_mem_nil, or_false] at h
    rcases h with (rfl | rfl | rfl) | h
    · exact ⟨.valc .x, rfl⟩
    · exact ⟨.valc .y, rfl⟩
    · exact ⟨.valc .z, rfl⟩
    · split at h
      · simp only [List.mem_cons, List.not_mem_nil, or_false] at h
        subst h; exact ⟨.curl, rfl⟩
      · simp only [List.mem_cons, List.not_mem_nil, or_false] at h
        rcases h with rfl | rfl | rfl
        · exact ⟨.curlc .x, by simp [Qty.label, Axis.text]⟩
        · exact ⟨.curlc .y, by simp [Qty.label, Axis.text]⟩
        · exact ⟨.curlc .z, by simp [Qty.label, Axis.text]⟩
  | hface =>
    simp only [sideLabels, List.mem_cons, List.not_mem_nil, or_false] at h
    subst h; exact ⟨.val, rfl⟩
  | other => simp [sideLabels] at h

theorem sideQty_mem {dim : Nat} {b : BType} {v : Str} {q : Qty} (h : q ∈ sideQty dim b) :
    q.label v ∈ sideLabels dim b v := by
  cases b with
  | hgrad =>
    simp only [sideQty, List.mem_cons, List.not_mem_nil, or_false] at h
    rcases h with rfl | rfl | rfl | rfl <;> simp [sideLabels, Qty.label, Axis.text]
  | hdiv =>
    simp only [sideQty, List.mem_cons, List.not_mem_nil, or_false] at h
    rcases h with rfl | rfl | rfl | rfl <;> simp [sideLabels, Qty.label, Axis.text]
  | hvol =>
    simp only [sideQty, List.mem_cons, List.not_mem_nil, or_false] at h
    subst h; simp [sideLabels, Qty.label]
  | hcurl =>
    by_cases hd : dim = 2
    · simp only [sideQty, hd, if_true, List.mem_append, List.mem_cons, List.not_mem_nil, or_false] at h
      rcases h with (rfl | rfl | rfl) | rfl <;> simp [sideLabels, Qty.label, Axis.text, hd]
    · simp only [sideQty, hd, if_false, List.mem_append, List.mem_cons, List.not_mem_nil, or_false] at h
      rcases h with (rfl | rfl | rfl) | rfl | rfl | rfl <;> simp [sideLabels, Qty.label, Axis.text, hd]
  | hface =>
    simp only [sideQty, List.mem_cons, List.not_mem_nil, or_false] at h
    subst h; simp [sideLabels, Qty.label]
  | other => simp [sideQty] at h

/-! ### Requests -/

variable {K : Type}

theorem request_spec {eval : Field K → Option (Field K)} {label : Str} {fs fs' : List (Field K)}
    {d : Nat → Nat → K} (h : request eval label true false fs = some (fs', d)) :
    ∃ pre f post g, fs = pre ++ f :: post ∧ (∀ x ∈ pre, x.st.label ≠ label) ∧
      f.st.label = label ∧
      ((f.updated = true ∧ g = f) ∨ (f.updated = false ∧ eval f = some g)) ∧
      fs' = pre ++ g :: post ∧ d = g.data := by
  induction fs generalizing fs' d with
  | nil => simp [request] at h
  | cons f fs ih =>
    unfold request at h
    by_cases hl : label = f.st.label
    · rw [if_pos hl] at h
      cases hu : f.updated with
      | true =>
        rw [hu] at h
        simp only [Bool.not_true, Bool.and_false, Bool.false_eq_true, if_false,
          Option.some.injEq, Prod.mk.injEq] at h
        exact ⟨[], f, fs, f, rfl, by simp, hl.symm, Or.inl ⟨hu, rfl⟩, h.1.symm, h.2.symm⟩
      | false =>
        rw [hu] at h
        simp only [Bool.not_false, Bool.and_true, if_true] at h
        rw [Option.map_eq_some_iff] at h
        obtain ⟨g, hg, he⟩ := h
        simp only [Prod.mk.injEq] at he
        exact ⟨[], f, fs, g, rfl, by simp, hl.symm, Or.inr ⟨hu, hg⟩, he.1.symm, he.2.symm⟩
    · rw [if_neg hl, Option.map_eq_some_iff] at h
      obtain ⟨⟨r1, r2⟩, hr, he⟩ := h
      simp only [Prod.mk.injEq] at he
      obtain ⟨pre, f', post, g, h1, h2, h3, h4, h5, h6⟩ := ih hr
      refine ⟨f :: pre, f', post, g, by rw [h1]; rfl, ?_, h3, h4, ?_, ?_⟩
      · intro x hx
        rcases List.mem_cons.mp hx with rfl | hx
        · exact fun e => hl e.symm
        · exact h2 x hx
      · rw [← he.1, h5]; rfl
      · rw [← he.2, h6]

theorem request_at {eval : Field K → Option (Field K)} {label : Str} {pre post : List (Field K)}
    {f : Field K} (hpre : ∀ x ∈ pre, x.st.label ≠ label) (hf : f.st.label = label) :
    request eval label true false (pre ++ f :: post) =
      if f.updated then some (pre ++ f :: post, f.data)
      else (eval f).map (fun g => (pre ++ g :: post, g.data)) := by
  induction pre with
  | nil =>
    rw [List.nil_append]
    unfold request
    rw [if_pos hf.symm]
    cases hu : f.updated <;> simp
  | cons x pre ih =>
    rw [List.cons_append]
    unfold request
    rw [if_neg (fun e => hpre x (by simp) e.symm), ih (fun y hy => hpre y (by simp [hy]))]
    cases hu : f.updated
    · simp only [Bool.false_eq_true, if_false, Option.map_map]
      rfl
    · simp

theorem exists_first {fs : List (Field K)} {label : Str} (h : ∃ f ∈ fs, f.st.label = label) :
    ∃ pre f post, fs = pre ++ f :: post ∧ (∀ x ∈ pre, x.st.label ≠ label) ∧ f.st.label = label := by
  induction fs with
  | nil => obtain ⟨f, hf, -⟩ := h; simp at hf
  | cons a fs ih =>
    by_cases ha : a.st.label = label
    · exact ⟨[], a, fs, rfl, by simp, ha⟩
    · obtain ⟨f, hf, hl⟩ := h
      rcases List.mem_cons.mp hf with rfl | hf
      · exact absurd hl ha
      · obtain ⟨pre, g, post, h1, h2, h3⟩ := ih ⟨f, hf, hl⟩
        refine ⟨a :: pre, g, post, by rw [h1]; rfl, ?_, h3⟩
        intro x hx
        rcases List.mem_cons.mp hx with rfl | hx
        · exact ha
        · exact h2 x hx

/-! ### The sum over degrees of freedom -/

theorem accumulate_eq [Semiring K] (c b : Nat → K) {n : Nat} (hn : n ≠ 0) :
    accumulate c b n = ∑ d ∈ Finset.range n, c d * b d := by
  obtain ⟨m, rfl⟩ := Nat.exists_eq_succ_of_ne_zero hn
  have key : ∀ m : Nat, (List.range m).foldl (fun acc d => acc + c (d + 1) * b (d + 1)) (c 0 * b 0)
      = ∑ d ∈ Finset.range (m + 1), c d * b d := by
    intro m
    induction m with
    | zero => simp
    | succ m ih => rw [List.range_succ, List.foldl_append, ih, Finset.sum_range_succ _ (m + 1)]; rfl
  exact key m

end MrHyDE.Workset
