import Verif.Expr.Props2

/-
Property theorem C04: unbalanced parentheses.
-/

namespace MrHyDE.Expr

variable {K : Type}

/-! ### Helper lemmas -/

/-- Opening minus closing parentheses. -/
def bal (s : Str) : Int := (s.count '(' : Int) - s.count ')'

theorem bal_cons (c : Char) (s : Str) :
    bal (c :: s) = (if c = '(' then 1 else if c = ')' then -1 else 0) + bal s := by
  unfold bal
  by_cases h1 : c = '('
  · subst h1; simp [List.count_cons]; omega
  · by_cases h2 : c = ')'
    · subst h2; simp [List.count_cons]; omega
    · simp [List.count_cons, h1, h2]

theorem bal_append (s t : Str) : bal (s ++ t) = bal s + bal t := by
  simp only [bal, List.count_append]; push_cast; omega

theorem splitRun_paren (L : Level) (hskip : ∀ c, L.skip c = true → c ≠ '(' ∧ c ≠ ')')
    (hop : ∀ c nx op, L.opOf c nx = some (op, true) → nx = some '=') (s : Str) (st : SplitSt)
    (he : st.eat = true → s.head? = some '=' ) :
    (splitRun L st s).paren = st.paren + bal s := by
  induction s generalizing st with
  | nil => simp [splitRun, bal]
  | cons c cs ih =>
    rw [splitRun]
    unfold splitStep
    rw [bal_cons]
    by_cases h0 : st.eat = true
    · have hc : c = '=' := by simpa using he h0
      rw [if_pos h0, ih _ (by simp)]
      subst hc
      simp
    rw [if_neg h0]
    have h0' : st.eat = false := by simpa using h0
    by_cases h1 : L.skip c = true
    · rw [if_pos h1, ih _ (by simp [h0'])]
      obtain ⟨h2, h3⟩ := hskip c h1
      simp [h2, h3]
    rw [if_neg h1]
    by_cases h2 : c = '('
    · rw [if_pos h2, if_pos h2, ih _ (by simp [h0'])]
      simp only; omega
    rw [if_neg h2, if_neg h2]
    by_cases h3 : c = ')'
    · rw [if_pos h3, if_pos h3, ih _ (by simp [h0'])]
      simp only; omega
    rw [if_neg h3, if_neg h3]
    by_cases h4 : st.paren = 0 ∧ (L.guard = false ∨ st.cur ≠ [])
    · rw [if_pos h4]
      cases ho : L.opOf c cs.head? with
      | none => simp only; rw [ih _ (by simp [h0'])]; simp
      | some oe =>
        obtain ⟨op, e⟩ := oe
        simp only
        rw [ih]
        · simp
        · intro hh
          simp only at hh
          subst hh
          exact hop _ _ _ ho
    · rw [if_neg h4, ih _ (by simp [h0'])]; simp

theorem splitAt_unbalanced (L : Level) (hL : L = levelPm ∨ L = levelMdp ∨ L = levelPow) (s : Str) (h : bal s ≠ 0) :
    splitAt L s = .error .throws := by
  unfold splitAt
  have : (splitRun L ⟨0, [], [], [], false⟩ s).paren = 0 + bal s := by
    apply splitRun_paren
    · intro c hc
      rcases hL with rfl | rfl | rfl
      · simp only [levelPm, Bool.or_eq_true, decide_eq_true_eq] at hc
        rcases hc with rfl | rfl <;> decide
      · simp only [levelMdp, decide_eq_true_eq] at hc
        subst hc; decide
      · simp [levelPow] at hc
    · intro c nx op hh
      rcases hL with rfl | rfl | rfl
      · simp only [levelPm] at hh
        by_cases h1 : c = '+' <;> by_cases h2 : c = '-' <;> simp [h1, h2] at hh
      · simp only [levelMdp] at hh
        by_cases h1 : c = '*'
        · simp [h1] at hh
        by_cases h2 : c = '/'
        · simp [h2] at hh
        by_cases h5 : nx = some '='
        · exact h5
        · by_cases h3 : c = '<' <;> by_cases h4 : c = '>' <;> simp [h1, h2, h3, h4, h5] at hh
      · simp only [levelPow] at hh
        by_cases h1 : c = '^' <;> simp [h1] at hh
    · simp
  simp only [this]
  rw [if_neg (by omega)]

theorem countTop_pos_of_bal (p : Char → Bool) (hp : p '(' = false ∧ p ')' = false) (pre post : Str) (c : Char) (hc : p c = true)
    (n : Int) (h : n + bal pre = 0) : countTop p n (pre ++ c :: post) > 0 := by
  induction pre generalizing n with
  | nil =>
    have h1 : c ≠ '(' := by rintro rfl; simp [hp.1] at hc
    have h2 : c ≠ ')' := by rintro rfl; simp [hp.2] at hc
    have hn : n = 0 := by simpa [bal] using h
    simp [countTop, h1, h2, hc, hn]
  | cons x xs ih =>
    rw [bal_cons] at h
    rw [List.cons_append, countTop]
    by_cases h1 : x = '('
    · rw [if_pos h1]; rw [if_pos h1] at h; exact ih _ (by omega)
    rw [if_neg h1]; rw [if_neg h1] at h
    by_cases h2 : x = ')'
    · rw [if_pos h2]; rw [if_pos h2] at h; exact ih _ (by omega)
    rw [if_neg h2]; rw [if_neg h2] at h
    have := ih n (by omega)
    split <;> omega

/-- The operator characters. -/
def opChars : List Char := ['+', '-', '*', '/', '<', '>', '^']

theorem split_unbalanced (pre post : Str) (c : Char) (hc : c ∈ opChars) (hpre : bal pre = 0)
    (h : bal (pre ++ c :: post) ≠ 0) : split (pre ++ c :: post) = .error .throws := by
  have hfix : ∃ pre', bal pre' = 0 ∧ fixMinus (pre ++ c :: post) = pre' ++ c :: post := by
    unfold fixMinus
    split
    · refine ⟨"0.0".toList ++ pre, ?_, by simp⟩
      rw [bal_append, hpre]; decide
    · exact ⟨pre, hpre, rfl⟩
  obtain ⟨pre', hp', hf⟩ := hfix
  have hb : bal (pre' ++ c :: post) ≠ 0 := by
    rw [bal_append, hp']; rw [bal_append, hpre] at h; exact h
  unfold split
  rw [hf]
  have hl0 : ¬ (pre' ++ c :: post).length = 0 := by simp
  have hl1 : ¬ (pre' ++ c :: post).length = 1 := by
    intro hl
    have hp : pre' = [] := by
      cases pre' with
      | nil => rfl
      | cons x xs => simp at hl
    have hq : post = [] := by
      subst hp
      cases post with
      | nil => rfl
      | cons x xs => simp at hl
    subst hp; subst hq
    apply hb
    simp only [opChars, List.mem_cons, List.not_mem_nil, or_false] at hc
    rcases hc with rfl | rfl | rfl | rfl | rfl | rfl | rfl <;> decide
  simp only [hl0, hl1, if_false]
  by_cases h1 : countTop isPm 0 (pre' ++ c :: post) > 0
  · rw [if_pos h1]; exact splitAt_unbalanced _ (Or.inl rfl) _ hb
  rw [if_neg h1]
  by_cases h2 : countTop isMdp 0 (pre' ++ c :: post) > 0
  · rw [if_pos h2]; exact splitAt_unbalanced _ (Or.inr (Or.inl rfl)) _ hb
  rw [if_neg h2]
  by_cases h3 : countTop isPow 0 (pre' ++ c :: post) > 0
  · rw [if_pos h3]; exact splitAt_unbalanced _ (Or.inr (Or.inr rfl)) _ hb
  exfalso
  simp only [opChars, List.mem_cons, List.not_mem_nil, or_false] at hc
  rcases hc with rfl | rfl | rfl | rfl | rfl | rfl | rfl
  · exact h1 (countTop_pos_of_bal _ (by decide) _ _ _ (by decide) 0 (by omega))
  · exact h1 (countTop_pos_of_bal _ (by decide) _ _ _ (by decide) 0 (by omega))
  · exact h2 (countTop_pos_of_bal _ (by decide) _ _ _ (by decide) 0 (by omega))
  · exact h2 (countTop_pos_of_bal _ (by decide) _ _ _ (by decide) 0 (by omega))
  · exact h2 (countTop_pos_of_bal _ (by decide) _ _ _ (by decide) 0 (by omega))
  · exact h2 (countTop_pos_of_bal _ (by decide) _ _ _ (by decide) 0 (by omega))
  · exact h3 (countTop_pos_of_bal _ (by decide) _ _ _ (by decide) 0 (by omega))

theorem numStep_isnum (st : NumScan) (c : Char) (h : st.isnum = false) : (numStep st c).isnum = false := by
  unfold numStep
  repeat' split
  all_goals simp [h]

theorem numFold_stays (s : Str) (st : NumScan) (h : st.isnum = false) : (s.foldl numStep st).isnum = false := by
  induction s generalizing st with
  | nil => exact h
  | cons c cs ih => exact ih _ (numStep_isnum st c h)

theorem isScalar_paren (s : Str) (h : '(' ∈ s ∨ ')' ∈ s) : isScalar s = false := by
  unfold isScalar
  have : ∀ (c : Char), (c = '(' ∨ c = ')') → c ∈ s → ∀ st : NumScan, (s.foldl numStep st).isnum = false := by
    intro c hc hm
    induction s with
    | nil => simp at hm
    | cons x xs ih =>
      intro st
      rw [List.foldl_cons]
      by_cases hx : x = c
      · subst hx
        apply numFold_stays
        rcases hc with rfl | rfl <;> simp [numStep, isDigit]
      · rcases List.mem_cons.mp hm with rfl | hm
        · exact absurd rfl hx
        · exact ih (by rcases hc with rfl | rfl <;> simp [hm]) hm _
  rcases h with h | h
  · exact this '(' (Or.inl rfl) h _
  · exact this ')' (Or.inr rfl) h _

theorem bal_ne_mem (s : Str) (h : bal s ≠ 0) : '(' ∈ s ∨ ')' ∈ s := by
  by_contra hh
  push Not at hh
  apply h
  simp [bal, List.count_eq_zero_of_not_mem hh.1, List.count_eq_zero_of_not_mem hh.2]

theorem paramIdx_bal (p s : Str) (i : Nat) (hp : bal p = 0) (h : paramIdx p s = some i) : bal s = 0 := by
  unfold paramIdx at h
  by_cases h1 : s = p
  · rw [h1]; exact hp
  rw [if_neg h1] at h
  by_cases h2 : p.isPrefixOf s = true
  · rw [if_pos h2] at h
    have hs : s = p ++ s.drop p.length := by
      obtain ⟨r, hr⟩ := List.isPrefixOf_iff_prefix.mp h2
      rw [← hr]; simp
    have hdig : ∀ d : Char, isDigit d = true → d ≠ '(' ∧ d ≠ ')' := by
      intro d hd
      constructor <;> rintro rfl <;> exact absurd hd (by decide)
    split at h
    · rename_i d heq
      by_cases hd : isDigit d = true
      · rw [hs, heq, bal_append, hp]
        simp [bal_cons, hdig d hd, bal]
      · simp [hd] at h
    · rename_i d d' heq
      by_cases hd : isDigit d = true
      · by_cases hd' : isDigit d' = true
        · rw [hs, heq, bal_append, hp]
          simp [bal_cons, hdig d hd, hdig d' hd', bal]
        · simp [hd'] at h
      · simp [hd] at h
    · simp at h
  · rw [if_neg h2] at h; simp at h

theorem lastMatch_some (f : Str → Option Nat) (ps : List Str) (j : Nat) (r : Option (Nat × Nat)) (x : Nat × Nat)
    (h : lastMatch f ps j r = some x) : r = some x ∨ ∃ p ∈ ps, ∃ i, f p = some i := by
  induction ps generalizing j r with
  | nil => exact Or.inl h
  | cons p ps ih =>
    rw [lastMatch] at h
    rcases ih _ _ h with h' | ⟨q, hq, hi⟩
    · cases hf : f p with
      | none => rw [hf] at h'; exact Or.inl h'
      | some i => exact Or.inr ⟨p, by simp, i, hf⟩
    · exact Or.inr ⟨q, by simp [hq], hi⟩

theorem opMatches_top (pre post f : Str) (c : Char) (hc : c ∈ opChars) (hpre : bal pre = 0)
    (hf : ∀ x ∈ f, x ∉ opChars ∧ x ≠ '(' ∧ x ≠ ')') : opMatches (pre ++ c :: post) f = false := by
  rw [Bool.eq_false_iff]
  intro h
  simp only [opMatches, Bool.and_eq_true, beq_iff_eq, Bool.not_eq_true'] at h
  obtain ⟨⟨⟨h1, h2⟩, h3⟩, h4⟩ := h
  obtain ⟨r, hr⟩ := List.isPrefixOf_iff_prefix.mp h1
  have hc1 : c ≠ '(' := by rintro rfl; exact absurd hc (by decide)
  have hc2 : c ≠ ')' := by rintro rfl; exact absurd hc (by decide)
  -- the text is `f ( m )`
  have hdrop : (pre ++ c :: post).drop f.length = r := by rw [← hr]; simp
  rw [hdrop] at h2
  obtain ⟨r', hr'⟩ : ∃ r', r = '(' :: r' := by
    cases r with
    | nil => simp at h2
    | cons x xs => simp only [List.head?_cons, Option.some.injEq] at h2; exact ⟨xs, by rw [h2]⟩
  have hdrop2 : (pre ++ c :: post).drop (f.length + 1) = r' := by
    rw [← List.drop_drop, hdrop, hr']; rfl
  rw [hdrop2] at h4
  have hr'ne : r' ≠ [] := by
    rintro rfl
    rw [← hr, hr'] at h3
    simp at h3
  have hlast : r' = r'.dropLast ++ [')'] := by
    have := List.dropLast_append_getLast hr'ne
    rw [← hr, hr'] at h3
    have h5 : r'.getLast hr'ne = ')' := by
      have e : (f ++ '(' :: r').getLast? = some (r'.getLast hr'ne) := by
        rw [show f ++ '(' :: r' = (f ++ ['(']) ++ r' by simp, List.getLast?_append,
          List.getLast?_eq_some_getLast hr'ne]; rfl
      rw [e] at h3
      exact Option.some.inj h3
    rw [h5] at this
    exact this.symm
  have hm : ')' ∉ r'.dropLast := by simpa [List.contains_iff_mem] using h4
  generalize r'.dropLast = m at hlast hm
  have htext : pre ++ c :: post = (f ++ '(' :: m) ++ [')'] := by
    rw [← hr, hr', hlast]; simp
  -- where is the operator
  have hfm : ∀ x ∈ f ++ '(' :: m, x ≠ ')' := by
    intro x hx
    simp only [List.mem_append, List.mem_cons] at hx
    rcases hx with hx | rfl | hx
    · exact (hf x hx).2.2
    · decide
    · rintro rfl; exact hm hx
  have hprelen : pre.length ≤ (f ++ '(' :: m).length := by
    have := congrArg List.length htext
    simp only [List.length_append, List.length_cons, List.length_nil] at this ⊢
    omega
  have hpreP : pre <+: f ++ '(' :: m := by
    have h6 : pre <+: (f ++ '(' :: m) ++ [')'] := ⟨c :: post, htext⟩
    exact List.prefix_of_prefix_length_le h6 (List.prefix_append _ _) hprelen
  have hno : ')' ∉ pre := fun hh => hfm _ (hpreP.subset hh) rfl
  have hno' : '(' ∉ pre := by
    intro hh
    have : 0 < pre.count '(' := List.count_pos_iff.mpr hh
    simp only [bal, List.count_eq_zero_of_not_mem hno] at hpre
    omega
  -- then `pre` is inside `f`
  have hle : pre.length ≤ f.length := by
    by_contra hlt
    push Not at hlt
    have h7 : f ++ ['('] <+: f ++ '(' :: m := ⟨m, by simp⟩
    have h8 : f ++ ['('] <+: pre := List.prefix_of_prefix_length_le h7 hpreP (by simp; omega)
    exact hno' (h8.subset (by simp))
  obtain ⟨q, hq⟩ : pre <+: f := List.prefix_of_prefix_length_le hpreP (List.prefix_append _ _) hle
  have h9 : c :: post = q ++ '(' :: m ++ [')'] := by
    have : pre ++ (c :: post) = pre ++ (q ++ '(' :: m ++ [')']) := by rw [htext, ← hq]; simp
    exact List.append_cancel_left this
  cases q with
  | nil =>
    simp only [List.nil_append, List.cons_append, List.cons.injEq] at h9
    exact hc1 h9.1
  | cons x xs =>
    simp only [List.cons_append, List.cons.injEq] at h9
    have := (hf x (by rw [← hq]; simp)).1
    rw [← h9.1] at this
    exact this hc

theorem classify_unbalanced (env : Env) (stodOk : Str → Bool)
    (henv : ∀ s ∈ env.soln ++ env.scal ++ env.params ++ env.funcs, bal s = 0)
    (pre post : Str) (c : Char) (hc : c ∈ opChars) (hpre : bal pre = 0) (h : bal (pre ++ c :: post) ≠ 0) :
    classify env stodOk (pre ++ c :: post) = .error .throws := by
  have hsp := split_unbalanced pre post c hc hpre h
  have hop : isOperator knownOps (pre ++ c :: post) = .ok none := by
    have : knownOps.find? (opMatches (pre ++ c :: post)) = none := by
      rw [List.find?_eq_none]
      intro f hf
      rw [opMatches_top pre post f c hc hpre]
      · simp
      · revert f; decide
    simp only [isOperator, this]
  generalize hs : pre ++ c :: post = s at *
  have hm := bal_ne_mem s h
  have idx : ∀ l : List Str, (∀ x ∈ l, bal x = 0) → l.idxOf? s = none := by
    intro l hl
    rw [List.idxOf?_eq_none_iff]
    exact fun hh => h (hl s hh)
  have lm : ∀ (f : Str → Option Nat) (l : List Str), (∀ p ∈ l, ∀ i, f p ≠ some i) → lastMatch f l 0 none = none := by
    intro f l hl
    cases hq : lastMatch f l 0 none with
    | none => rfl
    | some x =>
      rcases lastMatch_some _ _ _ _ _ hq with h' | ⟨p, hp, i, hi⟩
      · simp at h'
      · exact absurd hi (hl p hp i)
  unfold classify
  rw [idx _ (fun x hx => henv x (by simp [hx])), idx _ (fun x hx => henv x (by simp [hx]))]
  simp only
  rw [lm _ _ (fun p hp i hi => h (paramIdx_bal p s i (henv p (by simp [hp])) hi))]
  simp only
  rw [lm (fun p => paramDotIdx p s) _ (fun p hp i hi => h (paramIdx_bal _ s i (by
    rw [bal_append, henv p (by simp [hp])]; decide) hi))]
  simp only
  rw [lm _ _ (fun p hp i hi => by
    by_cases hsp' : s = p
    · exact h (hsp' ▸ henv p (by simp [hp]))
    · simp [hsp'] at hi)]
  simp only
  rw [isScalar_paren s hm]
  simp only [Bool.false_eq_true, if_false]
  rw [if_neg, hop]
  · simp only [hsp]
  · intro hk
    apply h
    revert hk
    simp only [knownVars, List.map_cons, List.map_nil, List.mem_cons, List.not_mem_nil, or_false]
    rintro (rfl | rfl | rfl | rfl | rfl | rfl | rfl | rfl | rfl) <;> decide

/-! ### The property -/

/-- C04.  Take any text with an operator character outside all parentheses (behind a prefix
    with as many opening as closing parentheses) and with unequal numbers of opening and
    closing parentheses in all.  If the names known to the run have equally many of both
    (`grad(u)[x]` does), then `split` throws, the set-up of a function with that text throws,
    and no set-up of any list of functions that contains such a text succeeds. -/
theorem C04_unbalanced_rejected (A : Arith K) (soln scal params : List Str) (defs : List (Str × Str))
    (henv : ∀ s ∈ soln ++ scal ++ params ++ defs.map Prod.fst, s.count '(' = s.count ')')
    (f pre post : Str) (c : Char) (hc : c ∈ ['+', '-', '*', '/', '<', '>', '^'])
    (hpre : pre.count '(' = pre.count ')')
    (h : (pre ++ c :: post).count '(' ≠ (pre ++ c :: post).count ')') (hd : (f, pre ++ c :: post) ∈ defs) :
    split (pre ++ c :: post) = .error .throws ∧
    (∀ stodOk, decomposeTree ⟨soln, scal, params, defs.map Prod.fst⟩ stodOk (pre ++ c :: post) = .error .throws) ∧
    ∃ e, setup A soln scal params defs = .error e := by
  have hpre' : bal pre = 0 := by unfold bal; omega
  have h' : bal (pre ++ c :: post) ≠ 0 := by unfold bal; omega
  have henv' : ∀ s ∈ soln ++ scal ++ params ++ defs.map Prod.fst, bal s = 0 := by
    intro s hs; have := henv s hs; unfold bal; omega
  have hdec : ∀ stodOk, decomposeTree ⟨soln, scal, params, defs.map Prod.fst⟩ stodOk (pre ++ c :: post) =
      .error .throws := by
    intro stodOk
    have hcl := classify_unbalanced ⟨soln, scal, params, defs.map Prod.fst⟩ stodOk henv' pre post c hc hpre' h'
    have hpass : pass ⟨soln, scal, params, defs.map Prod.fst⟩ stodOk [⟨pre ++ c :: post, none⟩] = .error .throws := by
      simp only [pass, List.length_singleton, List.range_one, List.foldlM_cons,
        decomposeOne, List.getElem?_cons_zero, hcl]
      rfl
    have : ∀ n, passes ⟨soln, scal, params, defs.map Prod.fst⟩ stodOk (n + 1) [⟨pre ++ c :: post, none⟩] =
        .error .throws := by
      intro n; rw [passes, hpass]
    exact this 99
  refine ⟨split_unbalanced pre post c hc hpre' h', hdec, ?_⟩
  have hall : ∀ l : List Str, (pre ++ c :: post) ∈ l → ∀ stodOk, ∃ e,
      decomposeAll ⟨soln, scal, params, defs.map Prod.fst⟩ stodOk l = .error e := by
    intro l hl stodOk
    induction l with
    | nil => simp at hl
    | cons x xs ih =>
      rw [decomposeAll]
      rcases List.mem_cons.mp hl with rfl | hl
      · rw [hdec stodOk]; exact ⟨_, rfl⟩
      · obtain ⟨e, he⟩ := ih hl
        cases hx : decomposeTree ⟨soln, scal, params, defs.map Prod.fst⟩ stodOk x with
        | error e' => exact ⟨e', rfl⟩
        | ok bs => simp only [he]; exact ⟨e, rfl⟩
  obtain ⟨e, he⟩ := hall (defs.map Prod.snd) (List.mem_map.mpr ⟨_, hd, rfl⟩) (fun s => (A.stod s).isSome)
  refine ⟨e, ?_⟩
  unfold setup
  simp only [he]

/-- Non-vacuity: `2*(x` lacks a closing, `-x)` an opening parenthesis. -/
example : ("2".toList).count '(' = ("2".toList).count ')' ∧
    ("2".toList ++ '*' :: "(x".toList).count '(' ≠ ("2".toList ++ '*' :: "(x".toList).count ')' ∧
    split ("-x)".toList) = .error .throws := by decide

/-- The hypothesis about an operator outside the parentheses is needed: `(x` is accepted by
    `split`, although nothing is split off (the set-up then throws for another reason). -/
example : split "(x".toList = .ok [] := by decide

end MrHyDE.Expr
