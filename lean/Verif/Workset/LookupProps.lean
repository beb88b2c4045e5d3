import Verif.Workset.Model

/-!
# C42: looking a name up in the list of variables or of discretized parameters
-/

namespace MrHyDE.Workset

/-- The lookup loop of `isVar` from position `i` on. -/
theorem isVar_loop (varlist : List Str) (v : Str) (index : Nat) (n : Nat) : ∀ i,
    varlist.length - i = n →
    whileLoop (fun s : Look => !s.found && s.varindex < varlist.length)
      (fun s => if varlist[s.varindex]? = some v then { s with found := true, index := s.varindex }
        else { s with varindex := s.varindex + 1 })
      (n + 2) { found := false, varindex := i, index := index } =
    (if v ∈ varlist.drop i then
      some { found := true, varindex := i + (varlist.drop i).idxOf v,
             index := i + (varlist.drop i).idxOf v }
     else some { found := false, varindex := max i varlist.length, index := index }) := by
  induction n with
  | zero =>
    intro i hi
    have hle : varlist.length ≤ i := by omega
    unfold whileLoop
    rw [List.drop_eq_nil_of_le hle]
    simp [hle, Nat.not_lt.mpr hle]
  | succ n ih =>
    intro i hi
    have hlt : i < varlist.length := by omega
    rw [show n + 1 + 2 = (n + 2) + 1 from rfl, whileLoop]
    simp only [Bool.not_false, Bool.true_and, hlt, decide_true, if_true]
    rw [List.drop_eq_getElem_cons hlt, List.getElem?_eq_getElem hlt]
    by_cases hv : varlist[i] = v
    · rw [if_pos (by rw [hv])]
      unfold whileLoop
      simp [hv]
    · rw [if_neg (by simpa using hv), ih (i + 1) (by omega)]
      have hmem : (v ∈ varlist[i] :: varlist.drop (i + 1)) ↔ v ∈ varlist.drop (i + 1) := by
        rw [List.mem_cons]; exact ⟨fun h => h.resolve_left (fun e => hv e.symm), Or.inr⟩
      by_cases hm : v ∈ varlist.drop (i + 1)
      · rw [if_pos hm, if_pos (hmem.mpr hm), List.idxOf_cons_ne _ hv]
        simp only [Nat.succ_eq_add_one, Option.some.injEq, Look.mk.injEq, true_and]
        omega
      · rw [if_neg hm, if_neg (fun h => hm (hmem.mp h))]
        simp only [Option.some.injEq, Look.mk.injEq, true_and, and_true]
        omega

theorem whileLoop_more {σ : Type} {cond : σ → Bool} {body : σ → σ} {n m : Nat} {s t : σ}
    (h : whileLoop cond body n s = some t) (hm : n ≤ m) : whileLoop cond body m s = some t := by
  induction n generalizing m s with
  | zero => simp [whileLoop] at h
  | succ n ih =>
    obtain ⟨k, rfl⟩ : ∃ k, m = k + 1 := ⟨m - 1, by omega⟩
    unfold whileLoop at h ⊢
    by_cases hc : cond s = true
    · rw [if_pos hc] at h ⊢
      exact ih h (by omega)
    · rw [if_neg hc] at h ⊢
      exact h

/-- C42 for variables: the lookup stops, after at most two more tests than there are variables; it
answers yes exactly if the name is listed, and then the position it gives is the first one. -/
theorem C42_variables (varlist : List Str) (v : Str) (index fuel : Nat)
    (hf : varlist.length + 2 ≤ fuel) :
    ∃ r, isVar varlist v index fuel = some r ∧ (r.found = true ↔ v ∈ varlist) ∧
      (v ∈ varlist → varlist[r.index]? = some v ∧ ∀ j < r.index, varlist[j]? ≠ some v) ∧
      (v ∉ varlist → r.index = index) := by
  have h := isVar_loop varlist v index varlist.length 0 (by omega)
  rw [List.drop_zero] at h
  by_cases hv : v ∈ varlist
  · rw [if_pos hv] at h
    refine ⟨_, whileLoop_more h hf, by simp [hv], ?_, fun hn => absurd hv hn⟩
    intro _
    simp only [Nat.zero_add]
    have hlt : varlist.idxOf v < varlist.length := List.idxOf_lt_length_of_mem hv
    refine ⟨by rw [List.getElem?_eq_getElem hlt, List.getElem_idxOf], ?_⟩
    intro j hj he
    have hjl : j < varlist.length := by omega
    rw [List.getElem?_eq_getElem hjl] at he
    simp only [Option.some.injEq] at he
    have := List.not_of_lt_findIdx (p := (· == v)) hj
    rw [he] at this
    simp at this
  · rw [if_neg hv] at h
    exact ⟨_, whileLoop_more h hf, by simp [hv], fun hn => absurd hn hv, fun _ => rfl⟩

example : isVar ["u".toList, "p".toList] "p".toList 0 4 =
    some { found := true, varindex := 1, index := 1 } := by decide

/-- C42 for discretized parameters (partial): the lookup answers correctly if the list is empty or
starts with the name. -/
theorem C42_parameters_partial (varlist : List Str) (v : Str) (index fuel : Nat)
    (hv : varlist = [] ∨ varlist.head? = some v) (hf : 2 ≤ fuel) :
    ∃ r, isParameter varlist v index fuel = some r ∧ (r.found = true ↔ v ∈ varlist) ∧
      (v ∈ varlist → r.index = 0) := by
  rcases hv with rfl | hv
  · refine ⟨{ found := false, varindex := 0, index := index }, ?_, by simp, by simp⟩
    exact whileLoop_more (n := 2) rfl hf
  · cases varlist with
    | nil => simp at hv
    | cons a l =>
      simp only [List.head?_cons, Option.some.injEq] at hv
      subst hv
      refine ⟨{ found := true, varindex := 0, index := 0 }, ?_, by simp, by simp⟩
      refine whileLoop_more (n := 2) ?_ hf
      simp [whileLoop]

example : (["k".toList, "b".toList]).head? = some "k".toList := rfl

/-- C42 is violated for discretized parameters: if the list is not empty and does not start with the
name, the lookup never stops. -/
theorem C42_parameters_violated (a : Str) (l : List Str) (v : Str) (h : a ≠ v) (index fuel : Nat) :
    isParameter (a :: l) v index fuel = none := by
  unfold isParameter
  induction fuel with
  | zero => rfl
  | succ n ih =>
    unfold whileLoop
    simp only [Bool.not_false, Bool.true_and, List.length_cons, Nat.zero_lt_succ, decide_true,
      if_true, List.getElem?_cons_zero, Option.some.injEq, h, if_false]
    exact ih

/-- In particular the basis of the second discretized parameter can never be found. -/
theorem C42_basis_violated (varlist : List Str) (usebasis : List Nat) (a v : Str) (l : List Str)
    (pb : List Nat) (hv : v ∉ varlist) (ha : a ≠ v) (bi fuel : Nat) :
    findBasisIndex varlist usebasis (a :: l) pb v bi fuel = none := by
  unfold findBasisIndex
  cases hr : isVar varlist v 0 fuel with
  | none => rfl
  | some r =>
    have hf : r.found = false := by
      have h2 := C42_variables varlist v 0 (varlist.length + 2 + fuel) (by omega)
      obtain ⟨r', h1, h3, -⟩ := h2
      have : isVar varlist v 0 (varlist.length + 2 + fuel) = some r := whileLoop_more hr (by omega)
      rw [h1] at this
      simp only [Option.some.injEq] at this
      subst this
      rw [← Bool.not_eq_true]
      exact fun h => hv (h3.mp h)
    simp only [hf, Bool.false_eq_true, if_false]
    rw [C42_parameters_violated a l v ha]

/-- C42: a variable's basis is found. -/
theorem C42_basis_partial (varlist : List Str) (usebasis : List Nat) (params : List Str)
    (pb : List Nat) (v : Str) (hv : v ∈ varlist) (hl : varlist.length ≤ usebasis.length)
    (bi fuel : Nat) (hf : varlist.length + 2 ≤ fuel) :
    ∃ (i : Nat) (b : Nat), varlist[i]? = some v ∧ usebasis[i]? = some b ∧
      findBasisIndex varlist usebasis params pb v bi fuel = some (some (true, b)) := by
  obtain ⟨r, h1, h2, h3, -⟩ := C42_variables varlist v 0 fuel hf
  have hx := (h3 hv).1
  have hlt : r.index < varlist.length := by
    by_contra hc
    rw [List.getElem?_eq_none (by omega)] at hx
    simp at hx
  refine ⟨r.index, usebasis[r.index]'(by omega), hx, List.getElem?_eq_getElem _, ?_⟩
  unfold findBasisIndex
  rw [h1]
  simp only [h2.mpr hv, if_true]
  rw [List.getElem?_eq_getElem (by omega)]
  rfl

example : findBasisIndex ["u".toList, "p".toList] [3, 4] ["k".toList] [5] "p".toList 0 4 =
    some (some (true, 4)) := by decide

/-- C42: the basis of the first discretized parameter is found in the table of the parameters. -/
theorem C42_parameter_basis_partial (varlist : List Str) (usebasis : List Nat) (params : List Str)
    (pb : List Nat) (v : Str) (hv : v ∉ varlist) (hp : params.head? = some v) (b : Nat) (hb : pb[0]? = some b)
    (bi fuel : Nat) (hf : varlist.length + 2 ≤ fuel) :
    findBasisIndex varlist usebasis params pb v bi fuel = some (some (true, b)) := by
  obtain ⟨r, h1, h2, -, -⟩ := C42_variables varlist v 0 fuel hf
  have hnf : r.found = false := by
    rw [← Bool.not_eq_true]
    exact fun h => hv (h2.mp h)
  obtain ⟨q, k1, k2, k3⟩ := C42_parameters_partial params v r.index fuel (Or.inr hp) (by omega)
  have hm : v ∈ params := List.mem_of_mem_head? hp
  unfold findBasisIndex
  rw [h1]
  simp only [hnf, k1, k2.mpr hm, k3 hm, hb, if_true]
  rfl

example : findBasisIndex ["u".toList, "p".toList] [3, 4] ["k".toList] [5] "k".toList 0 4 =
    some (some (true, 5)) := by decide

end MrHyDE.Workset
