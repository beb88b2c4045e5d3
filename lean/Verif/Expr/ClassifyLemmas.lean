import Verif.Expr.SplitLemmas

/-
Helper lemmas: classification of the text of a well-formed expression.
-/

namespace MrHyDE.Expr

variable {names : Str → Prop}

/-! ### `isScalar` -/

/-- Characters that occur in numbers. -/
def numChar (c : Char) : Prop := c ∈ digits ∨ c = '.' ∨ c = 'e' ∨ c = 'E'

theorem isDigit_of_mem (c : Char) (h : c ∈ digits) : isDigit c = true := by
  have : ∀ c ∈ digits, isDigit c = true := by decide
  exact this c h

theorem mem_of_isDigit (c : Char) (h : isDigit c = true) : c ∈ digits := by
  simp only [isDigit, Bool.and_eq_true, decide_eq_true_eq] at h
  obtain ⟨h1, h2⟩ := h
  have h1' : 48 ≤ c.toNat := h1
  have h2' : c.toNat ≤ 57 := h2
  have hc : c = Char.ofNat c.toNat := (Char.ofNat_toNat c).symm
  generalize c.toNat = n at h1' h2' hc
  subst hc
  interval_cases n <;> decide

theorem numStep_false (st : NumScan) (c : Char) (h : st.isnum = false) : (numStep st c).isnum = false := by
  unfold numStep
  repeat' split
  all_goals simp [h]

theorem numFold_false (s : Str) (st : NumScan) (h : st.isnum = false) :
    (s.foldl numStep st).isnum = false := by
  induction s generalizing st with
  | nil => exact h
  | cons c cs ih => exact ih _ (numStep_false st c h)

theorem numStep_bad (st : NumScan) (c : Char) (h : ¬ numChar c) (h1 : c ≠ '+') (h2 : c ≠ '-') :
    (numStep st c).isnum = false := by
  simp only [numChar, not_or] at h
  have hd : isDigit c = false := by
    cases hd : isDigit c with
    | false => rfl
    | true => exact absurd (mem_of_isDigit c hd) h.1
  simp [numStep, hd, h.2.1, h.2.2.1, h.2.2.2, h1, h2]

theorem numFold_bad (s : Str) (st : NumScan) (c : Char) (hc : c ∈ s) (h : ¬ numChar c) (h1 : c ≠ '+')
    (h2 : c ≠ '-') : (s.foldl numStep st).isnum = false := by
  induction s generalizing st with
  | nil => simp at hc
  | cons x xs ih =>
    rcases List.mem_cons.mp hc with rfl | hc
    · exact numFold_false xs (numStep st c) (numStep_bad st c h h1 h2)
    · exact ih _ hc

theorem numStep_prev (st : NumScan) (c : Char) : (numStep st c).prev = some c := by
  unfold numStep
  repeat' split
  all_goals rfl

theorem numFold_prev (s : Str) (st : NumScan) (c : Char) (h : s.getLast? = some c) :
    (s.foldl numStep st).prev = some c := by
  obtain ⟨t, rfl⟩ := List.getLast?_eq_some_iff.mp h
  simp [numStep_prev]

theorem numFold_digits (s : Str) (st : NumScan) (h : ∀ c ∈ s, c ∈ digits) :
    (s.foldl numStep st).isnum = st.isnum ∧ (s.foldl numStep st).dots = st.dots ∧
    (s.foldl numStep st).es = st.es := by
  induction s generalizing st with
  | nil => simp
  | cons c cs ih =>
    have hc := isDigit_of_mem c (h c (by simp))
    obtain ⟨h1, h2, h3⟩ := ih (numStep st c) (fun x hx => h x (by simp [hx]))
    simp only [List.foldl_cons, h1, h2, h3]
    simp [numStep, hc]

theorem numStep_dot (st : NumScan) (h : st.dots = 0) :
    numStep st '.' = { st with dots := 1, prev := some '.' } := by
  simp [numStep, h, show isDigit '.' = false by decide]

theorem numStep_e (st : NumScan) (e : Char) (he : e ∈ ['e', 'E']) (h : st.es = 0) :
    numStep st e = { st with es := 1, prev := some e } := by
  simp only [List.mem_cons, List.not_mem_nil, or_false] at he
  rcases he with rfl | rfl
  · simp [numStep, h, show isDigit 'e' = false by decide]
  · simp [numStep, h, show isDigit 'E' = false by decide]

theorem numLit_fold {s : Str} (h : NumLit s) (st : NumScan) (h0 : st.isnum = true) (h1 : st.dots = 0)
    (h2 : st.es = 0) : (s.foldl numStep st).isnum = true := by
  obtain ⟨a, b, c, ha, d1, d2, d3, h4⟩ := h
  obtain ⟨a1, a2, a3⟩ := numFold_digits a st d1
  rcases h4 with rfl | rfl | ⟨e, he, hc, rfl | rfl⟩
  · rw [a1, h0]
  · simp only [List.foldl_append, List.foldl_cons]
    rw [(numFold_digits b _ d2).1, numStep_dot _ (by rw [a2, h1])]
    exact a1.trans h0
  · simp only [List.foldl_append, List.foldl_cons]
    rw [(numFold_digits c _ d3).1, numStep_e _ e he (by rw [a3, h2])]
    exact a1.trans h0
  · simp only [List.foldl_append, List.foldl_cons]
    rw [(numFold_digits c _ d3).1]
    have hb := numFold_digits b (numStep (a.foldl numStep st) '.') d2
    rw [numStep_dot _ (by rw [a2, h1])] at hb ⊢
    rw [numStep_e _ e he (by rw [hb.2.2]; exact a3.trans h2)]
    exact hb.1.trans (a1.trans h0)

/-- A literal ends in a digit or a point. -/
theorem numLit_last {s : Str} (h : NumLit s) : ∃ c, s.getLast? = some c ∧ c ≠ 'e' ∧ c ≠ 'E' := by
  have dig : ∀ c, c ∈ digits → c ≠ 'e' ∧ c ≠ 'E' := by decide
  have last : ∀ t : Str, t ≠ [] → (∀ c ∈ t, c ∈ digits) → ∃ c, t.getLast? = some c ∧ c ≠ 'e' ∧ c ≠ 'E' := by
    intro t ht hd
    refine ⟨t.getLast ht, List.getLast?_eq_some_getLast ht, dig _ (hd _ (List.getLast_mem ht))⟩
  obtain ⟨a, b, c, ha, d1, d2, d3, h4⟩ := h
  rcases h4 with rfl | rfl | ⟨e, he, hc, rfl | rfl⟩
  · exact last s ha d1
  · by_cases hb : b = []
    · subst hb; exact ⟨'.', by simp, by decide, by decide⟩
    · obtain ⟨x, hx, hx'⟩ := last b hb d2
      refine ⟨x, ?_, hx'⟩
      rw [show a ++ '.' :: b = (a ++ ['.']) ++ b by simp, List.getLast?_append, hx]; rfl
  · obtain ⟨x, hx, hx'⟩ := last c hc d3
    refine ⟨x, ?_, hx'⟩
    rw [show a ++ e :: c = (a ++ [e]) ++ c by simp, List.getLast?_append, hx]; rfl
  · obtain ⟨x, hx, hx'⟩ := last c hc d3
    refine ⟨x, ?_, hx'⟩
    rw [show a ++ '.' :: b ++ e :: c = (a ++ '.' :: b ++ [e]) ++ c by simp, List.getLast?_append, hx]; rfl

theorem numStep_sign (st : NumScan) (c p : Char) (hc : c = '+' ∨ c = '-') (hp : st.prev = some p)
    (h1 : p ≠ 'e') (h2 : p ≠ 'E') : (numStep st c).isnum = false := by
  have hd : isDigit c = false := by rcases hc with rfl | rfl <;> decide
  have h3 : c ≠ '.' := by rcases hc with rfl | rfl <;> decide
  have h4 : ¬ (c = 'e' ∨ c = 'E') := by rcases hc with rfl | rfl <;> decide
  simp [numStep, hd, h3, h4, hc, hp, h1, h2]

/-- A text of level at least one other than a literal has a character that no number has. -/
theorem text_bad (hN : ∀ s, names s → NameOk s) (e : Ex) (h : e.Ok names) (hl : 1 ≤ e.level)
    (hn : ∀ s, e ≠ .num s) : ∃ c ∈ e.text, ¬ numChar c ∧ c ≠ '+' ∧ c ≠ '-' := by
  have op : ∀ (c : Char) (s t : Str), c ∈ ['^', '*', '/', '<', '>', '('] →
      ∃ x ∈ s ++ c :: t, ¬ numChar x ∧ x ≠ '+' ∧ x ≠ '-' := by
    intro c s t hc
    refine ⟨c, by simp, ?_⟩
    have : ∀ c ∈ ['^', '*', '/', '<', '>', '('],
      ¬ (c ∈ digits ∨ c = '.' ∨ c = 'e' ∨ c = 'E') ∧ c ≠ '+' ∧ c ≠ '-' := by decide
    exact this c hc
  cases e with
  | num s => exact absurd rfl (hn s)
  | name s =>
    obtain ⟨c, hc, h1, h2, h3, h4⟩ := (hN s h).notNum
    have := (hN s h).noSpecial c hc
    refine ⟨c, hc, by simp [numChar, h1, h2, h3, h4], ?_, ?_⟩
    · rintro rfl; exact this (by decide)
    · rintro rfl; exact this (by decide)
  | paren a => exact op '(' [] (a.text ++ [')']) (by decide)
  | fn f a =>
    simp only [Ex.text, List.append_assoc, List.cons_append]
    exact op '(' f _ (by decide)
  | fn2 f a b =>
    simp only [Ex.text, List.append_assoc, List.cons_append]
    exact op '(' f _ (by decide)
  | pow a b => exact op '^' _ _ (by decide)
  | mul a b => exact op '*' _ _ (by decide)
  | div a b => exact op '/' _ _ (by decide)
  | lt a b => exact op '<' _ _ (by decide)
  | gt a b => exact op '>' _ _ (by decide)
  | add a b | sub a b | neg a => simp [Ex.level] at hl

/-- Only literals and negated literals are read as numbers. -/
theorem text_notScalar (hN : ∀ s, names s → NameOk s) (e : Ex) (h : e.Ok names)
    (h1 : ∀ s, e ≠ .num s) (h2 : ∀ s, e ≠ .neg (.num s)) :
    ∀ st, st.prev = none → (e.text.foldl numStep st).isnum = false := by
  have bad : ∀ e : Ex, e.Ok names → 1 ≤ e.level → (∀ s, e ≠ .num s) → ∀ st,
      (e.text.foldl numStep st).isnum = false := by
    intro e h hl hn st
    obtain ⟨c, hc, h1, h2, h3⟩ := text_bad hN e h hl hn
    exact numFold_bad _ _ c hc h1 h2 h3
  have sum : ∀ (a : Ex) (c : Char) (t : Str), a.Ok names → (c = '+' ∨ c = '-') →
      ((∀ s, a ≠ .num s) → (∀ s, a ≠ .neg (.num s)) →
        ∀ st, st.prev = none → (a.text.foldl numStep st).isnum = false) →
      ∀ st, st.prev = none → ((a.text ++ c :: t).foldl numStep st).isnum = false := by
    intro a c t ha hc ih st hst
    simp only [List.foldl_append, List.foldl_cons]
    apply numFold_false
    by_cases n1 : ∃ s, a = .num s
    · obtain ⟨s, rfl⟩ := n1
      obtain ⟨x, hx, hx1, hx2⟩ := numLit_last (s := s) ha
      exact numStep_sign _ c x hc (numFold_prev s _ x hx) hx1 hx2
    by_cases n2 : ∃ s, a = .neg (.num s)
    · obtain ⟨s, rfl⟩ := n2
      obtain ⟨x, hx, hx1, hx2⟩ := numLit_last (s := s) ha.1
      refine numStep_sign _ c x hc (numFold_prev _ _ x ?_) hx1 hx2
      show ('-' :: s).getLast? = _
      rw [show '-' :: s = ['-'] ++ s by rfl, List.getLast?_append, hx]; rfl
    · push Not at n1 n2
      exact numStep_false _ _ (ih n1 n2 st hst)
  induction e with
  | add a b iha _ => exact sum a '+' b.text h.1 (Or.inl rfl) (iha h.1)
  | sub a b iha _ => exact sum a '-' b.text h.1 (Or.inr rfl) (iha h.1)
  | neg a _ =>
    intro st _
    simp only [Ex.text, List.foldl_cons]
    exact bad a h.1 h.2 (fun s hs => h2 s (by rw [hs])) _
  | _ => exact fun st _ => bad _ h (by simp [Ex.level]) h1 st

theorem scalar_num {s : Str} (h : NumLit s) : isScalar s = true := numLit_fold h _ rfl rfl rfl

theorem scalar_neg {s : Str} (h : NumLit s) : isScalar ('-' :: s) = true := by
  simp only [isScalar, List.foldl_cons]
  exact numLit_fold h _ (by decide) (by decide) (by decide)

theorem scalar_false (hN : ∀ s, names s → NameOk s) (e : Ex) (h : e.Ok names)
    (h1 : ∀ s, e ≠ .num s) (h2 : ∀ s, e ≠ .neg (.num s)) : isScalar e.text = false :=
  text_notScalar hN e h h1 h2 _ rfl

/-! ### `isOperator` -/

theorem knownOps_plain (f : Str) (hf : f ∈ knownOps) :
    f ≠ [] ∧ ∀ c ∈ f, c ≠ '(' ∧ c ≠ ')' ∧ c ∉ specials ∧ c ∉ digits ∧ c ≠ '_' := by
  have : ∀ f ∈ knownOps, f ≠ [] ∧ ∀ c ∈ f, c ≠ '(' ∧ c ≠ ')' ∧ c ∉ specials ∧ c ∉ digits ∧ c ≠ '_' := by
    decide
  exact this f hf

theorem fnNames_known (f : Str) (hf : f ∈ fnNames) : f ∈ knownOps := by
  have : ∀ f ∈ fnNames, f ∈ knownOps := by decide
  exact this f hf

theorem drop_call (f u : Str) : (f ++ '(' :: u ++ [')']).drop (f.length + 1) = u ++ [')'] := by
  rw [show f ++ '(' :: u ++ [')'] = f ++ ('(' :: (u ++ [')'])) by simp, List.drop_append]
  simp

/-- What a match with an operator name means. -/
theorem opMatches_iff (s f : Str) : opMatches s f = true ↔
    ∃ u, s = f ++ '(' :: u ++ [')'] ∧ ')' ∉ u := by
  constructor
  · intro h
    simp only [opMatches, Bool.and_eq_true, beq_iff_eq, Bool.not_eq_true', List.isPrefixOf_iff_prefix,
      List.contains_eq_mem, decide_eq_false_iff_not] at h
    obtain ⟨⟨⟨⟨t, rfl⟩, h2⟩, h3⟩, h4⟩ := h
    simp only [List.drop_left] at h2
    cases t with
    | nil => simp at h2
    | cons c t =>
      simp only [List.head?_cons, Option.some.injEq] at h2
      subst h2
      have hd : (f ++ '(' :: t).drop (f.length + 1) = t := by
        rw [List.drop_append]; simp
      rw [hd] at h4
      rcases List.eq_nil_or_concat t with rfl | ⟨u, x, rfl⟩
      · simp at h3
      · rw [List.concat_eq_append] at h3 h4
        rw [show f ++ '(' :: (u ++ [x]) = (f ++ '(' :: u) ++ [x] by simp, List.getLast?_concat] at h3
        simp only [Option.some.injEq] at h3
        subst h3
        rw [List.dropLast_concat] at h4
        exact ⟨u, by simp, h4⟩
  · rintro ⟨u, rfl, hu⟩
    have e1 : f ++ '(' :: u ++ [')'] = f ++ ('(' :: (u ++ [')'])) := by simp
    have e2 := drop_call f u
    have e3 : (f ++ '(' :: u ++ [')']).drop f.length = '(' :: (u ++ [')']) := by
      rw [e1, List.drop_left]
    have e4 : f <+: f ++ '(' :: u ++ [')'] := by rw [e1]; exact List.prefix_append _ _
    simp only [opMatches, Bool.and_eq_true, beq_iff_eq, Bool.not_eq_true', List.isPrefixOf_iff_prefix,
      List.contains_eq_mem, decide_eq_false_iff_not]
    refine ⟨⟨⟨e4, by rw [e3]; rfl⟩, List.getLast?_concat⟩, ?_⟩
    rw [e2, List.dropLast_concat]; exact hu

theorem call_inj {f g u v : Str} (hf : '(' ∉ f) (hg : '(' ∉ g) (h : f ++ '(' :: u = g ++ '(' :: v) :
    f = g ∧ u = v := by
  induction f generalizing g with
  | nil =>
    cases g with
    | nil => simpa using h
    | cons c cs =>
      simp only [List.nil_append, List.cons_append, List.cons.injEq] at h
      simp [← h.1] at hg
  | cons c cs ih =>
    cases g with
    | nil =>
      simp only [List.nil_append, List.cons_append, List.cons.injEq] at h
      simp [h.1] at hf
    | cons d ds =>
      simp only [List.cons_append, List.cons.injEq] at h
      simp only [List.mem_cons, not_or] at hf hg
      have := ih hf.2 hg.2 h.2
      exact ⟨by rw [h.1, this.1], this.2⟩

theorem isOperator_none {s : Str} (h : ∀ f ∈ knownOps, ¬ opMatches s f = true) :
    isOperator knownOps s = .ok none := by
  have : knownOps.find? (opMatches s) = none := List.find?_eq_none.mpr h
  simp [isOperator, this]

/-- A text with an operator at depth zero is not a call. -/
theorem opMatches_op (a b : Str) (c : Char) (ha : scan (fun _ => false) 0 a = some 0)
    (hc : c ∈ specials) (f : Str) (hf : f ∈ knownOps) : ¬ opMatches (a ++ c :: b) f = true := by
  rw [opMatches_iff]
  rintro ⟨u, hu, hn⟩
  have hfp := (knownOps_plain f hf).2
  have hcp : c ≠ '(' ∧ c ≠ ')' := by
    have : ∀ c ∈ specials, c ≠ '(' ∧ c ≠ ')' := by decide
    exact this c hc
  rw [List.append_assoc] at hu
  rcases List.append_eq_append_iff.mp hu with ⟨t, h1, h2⟩ | ⟨t, h1, h2⟩
  · -- `f = a ++ t`
    cases t with
    | nil =>
      simp only [List.nil_append, List.cons_append, List.cons.injEq] at h2
      exact hcp.1 h2.1
    | cons x xs =>
      simp only [List.cons_append, List.cons.injEq] at h2
      have : c ∈ f := by rw [h1, h2.1]; simp
      exact (hfp c this).2.2.1 hc
  · -- `a = f ++ t`
    cases t with
    | nil =>
      simp only [List.nil_append, List.cons_append, List.cons.injEq] at h2
      exact hcp.1 h2.1.symm
    | cons x xs =>
      simp only [List.cons_append, List.cons.injEq] at h2
      obtain ⟨hx, h2⟩ := h2
      subst hx
      have hm : ')' ∈ a := bal_close a 0 ha (Or.inl (by rw [h1]; simp))
      rw [h1] at hm
      have hm' : ')' ∈ xs := by
        simp only [List.mem_append, List.mem_cons] at hm
        rcases hm with hm | hm | hm
        · exact absurd rfl (hfp _ hm).2.1
        · simp at hm
        · exact hm
      -- `u ++ [')'] = xs ++ c :: b`
      rcases List.eq_nil_or_concat b with rfl | ⟨b', y, rfl⟩
      · rw [show xs ++ [c] = xs ++ [c] from rfl] at h2
        have := List.append_inj' h2 rfl
        exact hcp.2 (by simpa using this.2.symm)
      · rw [List.concat_eq_append] at h2
        rw [show xs ++ c :: (b' ++ [y]) = (xs ++ c :: b') ++ [y] by simp] at h2
        have := (List.append_inj' h2 rfl).1
        exact hn (by rw [this]; simp [hm'])

theorem lastIdx_none (c : Char) (s : Str) (i : Nat) (r : Option Nat) (h : c ∉ s) : lastIdx c s i r = r := by
  induction s generalizing i with
  | nil => rfl
  | cons x xs ih =>
    simp only [List.mem_cons, not_or] at h
    simp [lastIdx, Ne.symm h.1, ih _ h.2]

theorem lastIdx_mid (c : Char) (a b : Str) (i : Nat) (r : Option Nat) (ha : c ∉ a) (hb : c ∉ b) :
    lastIdx c (a ++ c :: b) i r = some (i + a.length) := by
  induction a generalizing i with
  | nil => simp [lastIdx, lastIdx_none _ _ _ _ hb]
  | cons x xs ih =>
    simp only [List.mem_cons, not_or] at ha
    simp only [List.cons_append, lastIdx, Ne.symm ha.1, if_false]
    rw [ih _ ha.2]; simp; omega

/-- A one-argument call is either read by `isOperator` or left to `split`. -/
theorem isOperator_call (hN : ∀ s, names s → NameOk s) (f : Str) (e : Ex) (h : (Ex.fn f e).Ok names) :
    isOperator knownOps (Ex.fn f e).text = .ok none ∨
    isOperator knownOps (Ex.fn f e).text = .ok (some [(f, e.text)]) := by
  have hfk := fnNames_known f (fn_mem h.1)
  have hfp := (knownOps_plain f hfk).2
  by_cases hc : ')' ∈ e.text
  · left
    apply isOperator_none
    intro g hg
    rw [opMatches_iff]
    rintro ⟨u, hu, hn⟩
    simp only [Ex.text] at hu
    rw [List.append_assoc, List.append_assoc] at hu
    have := call_inj (fun hm => (hfp _ hm).1 rfl) (fun hm => ((knownOps_plain g hg).2 _ hm).1 rfl) hu
    have := (List.append_inj' this.2 rfl).1
    exact hn (this ▸ hc)
  · right
    have hop : '(' ∉ e.text := fun hm => hc (bal_close _ 0 (text_bal hN e h.2) (Or.inl hm))
    have hcm := (text_noParen hN e h.2 hop).2
    have hfind : knownOps.find? (opMatches (Ex.fn f e).text) = some f := by
      cases hfi : knownOps.find? (opMatches (Ex.fn f e).text) with
      | none =>
        have := List.find?_eq_none.mp hfi f hfk
        exact absurd ((opMatches_iff _ _).mpr ⟨e.text, rfl, hc⟩) this
      | some g =>
        have hg := List.find?_some hfi
        have hgk := List.mem_of_find?_eq_some hfi
        obtain ⟨u, hu, _⟩ := (opMatches_iff _ _).mp hg
        simp only [Ex.text] at hu
        rw [List.append_assoc, List.append_assoc] at hu
        have := call_inj (fun hm => (hfp _ hm).1 rfl) (fun hm => ((knownOps_plain g hgk).2 _ hm).1 rfl) hu
        rw [this.1]
    have harg : ((Ex.fn f e).text.drop (f.length + 1)).dropLast = e.text := by
      simp only [Ex.text]
      rw [drop_call, List.dropLast_concat]
    simp only [isOperator, hfind, harg]
    rw [if_neg (text_ne hN e h.2), lastIdx_none _ _ _ _ (fun hm => hcm (List.dropLast_subset _ hm))]

/-- A two-argument call is read by `isOperator`. -/
theorem isOperator_call2 (hN : ∀ s, names s → NameOk s) (f : Str) (a b : Ex) (h : (Ex.fn2 f a b).Ok names) :
    isOperator knownOps (Ex.fn2 f a b).text = .ok (some [([], a.text), (f, b.text)]) := by
  obtain ⟨hf, ha, hb, pa, pb⟩ := h
  have hfk := fnNames_known f (fn2_mem hf)
  have hfp := (knownOps_plain f hfk).2
  have na := text_noParen hN a ha pa
  have nb := text_noParen hN b hb pb
  have ht : (Ex.fn2 f a b).text = f ++ '(' :: (a.text ++ ',' :: b.text) ++ [')'] := by simp [Ex.text]
  have hc : ')' ∉ a.text ++ ',' :: b.text := by simp [na.1, nb.1]
  have hfind : knownOps.find? (opMatches (Ex.fn2 f a b).text) = some f := by
    cases hfi : knownOps.find? (opMatches (Ex.fn2 f a b).text) with
    | none =>
      have := List.find?_eq_none.mp hfi f hfk
      exact absurd ((opMatches_iff _ _).mpr ⟨_, ht, hc⟩) this
    | some g =>
      have hg := List.find?_some hfi
      have hgk := List.mem_of_find?_eq_some hfi
      obtain ⟨u, hu, _⟩ := (opMatches_iff _ _).mp hg
      rw [ht, List.append_assoc, List.append_assoc] at hu
      have := call_inj (fun hm => (hfp _ hm).1 rfl) (fun hm => ((knownOps_plain g hgk).2 _ hm).1 rfl) hu
      rw [this.1]
  have harg : ((Ex.fn2 f a b).text.drop (f.length + 1)).dropLast = a.text ++ ',' :: b.text := by
    rw [ht, drop_call, List.dropLast_concat]
  have hbn := text_ne hN b hb
  have hdl : (a.text ++ ',' :: b.text).dropLast = a.text ++ ',' :: b.text.dropLast := by
    rw [List.dropLast_append_of_ne_nil (by simp), List.dropLast_cons_of_ne_nil hbn]
  simp only [isOperator, hfind, harg]
  rw [if_neg (by simp), hdl, lastIdx_mid _ _ _ _ _ na.2 (fun hm => nb.2 (List.dropLast_subset _ hm))]
  simp [List.drop_append]

end MrHyDE.Expr
