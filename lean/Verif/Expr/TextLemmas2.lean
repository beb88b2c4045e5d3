import Verif.Expr.TextLemmas
import Mathlib.Tactic.IntervalCases

/-
Helper lemmas: facts about the text of well-formed expressions.
-/

namespace MrHyDE.Expr

/-- Operator characters that do not occur at depth zero in a text of the given level. -/
def pl : Nat → Char → Bool
  | 0, _ => false
  | 1, c => isPm c
  | 2, c => isPm c || isMdp c
  | _, c => isPm c || isMdp c || isPow c

theorem pl_mono {i j : Nat} (h : i ≤ j) (c : Char) (hc : pl i c = true) : pl j c = true := by
  match i, j with
  | 0, _ => simp [pl] at hc
  | 1, 0 => omega
  | 1, 1 => exact hc
  | 1, 2 => simp [pl] at hc ⊢; simp [hc]
  | 1, n + 3 => simp [pl] at hc ⊢; simp [hc]
  | 2, 0 => omega
  | 2, 1 => omega
  | 2, 2 => exact hc
  | 2, n + 3 => simp only [pl, Bool.or_eq_true] at hc ⊢; left; exact hc
  | n + 3, 0 => omega
  | n + 3, 1 => omega
  | n + 3, 2 => omega
  | n + 3, m + 3 => exact hc

theorem pl_paren (j : Nat) : pl j '(' = false ∧ pl j ')' = false := by
  match j with
  | 0 => simp [pl]
  | 1 => decide
  | 2 => decide
  | n + 3 => constructor <;> (simp only [pl]; decide)

theorem pl_specials (j : Nat) (c : Char) (h : c ∉ specials) : pl j c = false := by
  cases hc : pl j c with
  | false => rfl
  | true =>
    have := pl_mono (Nat.le_max_left j 3) c hc
    obtain ⟨m, hm⟩ : ∃ m, max j 3 = m + 3 := ⟨max j 3 - 3, by omega⟩
    rw [hm] at this
    simp only [pl, isPm, isMdp, isPow, Bool.or_eq_true, decide_eq_true_eq] at this
    simp only [specials, List.mem_cons] at h
    exfalso; apply h
    rcases this with ((h | h) | (((h | h) | h) | h)) | h <;> simp [h]

theorem scan_op (p : Char → Bool) (a b : Str) (c : Char) (ha : scan p 0 a = some 0)
    (hb : scan p 0 b = some 0) (h1 : c ≠ '(') (h2 : c ≠ ')') (hc : p c = false) :
    scan p 0 (a ++ c :: b) = some 0 := by
  rw [scan_append p a _ _ _ ha, scan_cons_op p c b 0 h1 h2 hc, hb]

theorem scan_call (p : Char → Bool) (f s : Str) (hf : ∀ c ∈ f, c ≠ '(' ∧ c ≠ ')' ∧ p c = false)
    (hs : scan (fun _ => false) 0 s = some 0) : scan p 0 (f ++ '(' :: s ++ [')']) = some 0 := by
  rw [List.append_assoc, scan_append p f _ _ _ (scan_plain p f 0 hf)]
  exact scan_paren p _ s hs

/-- Names of built-in functions (one and two arguments) used in `Ex`. -/
def fnNames : List Str := ["sin", "cos", "tan", "exp", "log", "sinh", "cosh", "abs", "sqrt",
  "max", "min", "mean"].map String.toList

theorem fnNames_plain (f : Str) (hf : f ∈ fnNames) :
    f ≠ [] ∧ ∀ c ∈ f, c ≠ '(' ∧ c ≠ ')' ∧ c ∉ specials ∧ c ∉ digits ∧ c ≠ '.' := by
  have : ∀ f ∈ fnNames, f ≠ [] ∧ ∀ c ∈ f, c ≠ '(' ∧ c ≠ ')' ∧ c ∉ specials ∧ c ∉ digits ∧ c ≠ '.' := by
    decide
  exact this f hf

/-- Characters of an unsigned literal. -/
theorem numLit_chars {s : Str} (h : NumLit s) :
    s ≠ [] ∧ ∀ c ∈ s, c ∈ digits ∨ c = '.' ∨ c = 'e' ∨ c = 'E' := by
  obtain ⟨a, b, c, ha, h1, h2, h3, h4⟩ := h
  have key : ∀ x, (x ∈ a ∨ x ∈ b ∨ x ∈ c ∨ x = '.' ∨ x ∈ ['e', 'E']) →
      x ∈ digits ∨ x = '.' ∨ x = 'e' ∨ x = 'E' := by
    rintro x (h | h | h | h | h)
    · exact Or.inl (h1 x h)
    · exact Or.inl (h2 x h)
    · exact Or.inl (h3 x h)
    · exact Or.inr (Or.inl h)
    · simp at h; exact Or.inr (Or.inr h)
  rcases h4 with rfl | rfl | ⟨e, he, hc, rfl | rfl⟩
  · exact ⟨ha, fun x hx => key x (Or.inl hx)⟩
  · refine ⟨by simp, fun x hx => key x ?_⟩
    simp only [List.mem_append, List.mem_cons] at hx
    rcases hx with h | h | h <;> simp [h]
  · refine ⟨by simp, fun x hx => key x ?_⟩
    simp only [List.mem_append, List.mem_cons] at hx
    rcases hx with h | h | h
    · simp [h]
    · subst h; simp only [he]; simp
    · simp [h]
  · refine ⟨by simp, fun x hx => key x ?_⟩
    simp only [List.mem_append, List.mem_cons] at hx
    rcases hx with (h | h | h) | h | h
    · simp [h]
    · simp [h]
    · simp [h]
    · subst h; simp only [he]; simp
    · simp [h]

theorem numChar_plain (c : Char) (h : c ∈ digits ∨ c = '.' ∨ c = 'e' ∨ c = 'E') :
    c ≠ '(' ∧ c ≠ ')' ∧ c ∉ specials := by
  have h' : c ∈ digits ++ ['.', 'e', 'E'] := by simpa [List.mem_append] using h
  have : ∀ c ∈ digits ++ ['.', 'e', 'E'], c ≠ '(' ∧ c ≠ ')' ∧ c ∉ specials := by decide
  exact this c h'

theorem NameOk.scan {s : Str} (h : NameOk s) (j : Nat) : scan (pl j) 0 s = some 0 := by
  rw [scan_matched (pl j) s 0]
  · have := h.matched.1; simp [this]
  · exact fun c hc => pl_specials j c (h.noSpecial c hc)
  · intro q hq; have := h.matched.2 q hq; omega

theorem fn_mem {f : Str}
    (h : f ∈ ["sin", "cos", "tan", "exp", "log", "sinh", "cosh", "abs", "sqrt"].map String.toList) :
    f ∈ fnNames := by
  simp only [fnNames, List.map_cons, List.map_nil, List.mem_cons] at h ⊢
  simp only [List.not_mem_nil, or_false] at h
  rcases h with h | h | h | h | h | h | h | h | h <;> simp [h]

theorem fn2_mem {f : Str} (h : f ∈ ["max", "min", "mean"].map String.toList) : f ∈ fnNames := by
  simp only [fnNames, List.map_cons, List.map_nil, List.mem_cons] at h ⊢
  simp only [List.not_mem_nil, or_false] at h
  rcases h with h | h | h <;> simp [h]

variable {names : Str → Prop}

theorem isNum_scan {s : Str} (h : NumLit s) (j : Nat) : scan (pl j) 0 s = some 0 :=
  scan_plain _ s 0 fun c hc =>
    have h' := numChar_plain c ((numLit_chars h).2 c hc)
    ⟨h'.1, h'.2.1, pl_specials j c h'.2.2⟩

/-- The text of an expression is balanced and shows no operator of a lower level. -/
theorem text_scan (hN : ∀ s, names s → NameOk s) (e : Ex) (h : e.Ok names) (j : Nat) (hj : j ≤ e.level) :
    scan (pl j) 0 e.text = some 0 := by
  have hF : ∀ {s : Str} {j : Nat}, scan (pl j) 0 s = some 0 → scan (fun _ => false) 0 s = some 0 :=
    fun h => scan_mono _ _ (by simp) _ _ _ h
  induction e generalizing j with
  | num s => exact isNum_scan h j
  | name s => exact (hN s h).scan j
  | paren e ih => exact scan_paren _ _ _ (hF (ih h 0 (Nat.zero_le _)))
  | fn f e ih =>
    refine scan_call _ _ _ ?_ (hF (ih h.2 0 (Nat.zero_le _)))
    intro c hc
    have := (fnNames_plain f (fn_mem h.1)).2 c hc
    exact ⟨this.1, this.2.1, pl_specials j c this.2.2.1⟩
  | fn2 f a b iha ihb =>
    obtain ⟨hf, ha, hb, _, _⟩ := h
    have h1 := hF (iha ha 0 (Nat.zero_le _))
    have h2 := hF (ihb hb 0 (Nat.zero_le _))
    have : (Ex.fn2 f a b).text = f ++ '(' :: (a.text ++ ',' :: b.text) ++ [')'] := by simp [Ex.text]
    rw [this]
    refine scan_call _ _ _ ?_ (scan_op _ _ _ _ h1 h2 (by decide) (by decide) rfl)
    intro c hc
    have := (fnNames_plain f (fn2_mem hf)).2 c hc
    exact ⟨this.1, this.2.1, pl_specials j c this.2.2.1⟩
  | pow a b iha ihb =>
    obtain ⟨ha, hb, la, lb⟩ := h
    simp only [Ex.level] at hj
    refine scan_op _ _ _ _ (iha ha j (by omega)) (ihb hb j (by omega)) (by decide) (by decide) ?_
    interval_cases j <;> decide
  | mul a b iha ihb | div a b iha ihb | lt a b iha ihb | gt a b iha ihb =>
    obtain ⟨ha, hb, la, lb⟩ := h
    simp only [Ex.level] at hj
    refine scan_op _ _ _ _ (iha ha j (by omega)) (ihb hb j (by omega)) (by decide) (by decide) ?_
    interval_cases j <;> decide
  | add a b iha ihb | sub a b iha ihb =>
    obtain ⟨ha, hb, lb⟩ := h
    simp only [Ex.level] at hj
    refine scan_op _ _ _ _ (iha ha j (by omega)) (ihb hb j (by omega)) (by decide) (by decide) ?_
    interval_cases j; decide
  | neg a ih =>
    obtain ⟨ha, la⟩ := h
    simp only [Ex.level] at hj
    simp only [Ex.text]
    rw [scan_cons_op _ _ _ _ (by decide) (by decide)]
    · exact ih ha j (by omega)
    · interval_cases j; decide

theorem text_bal (hN : ∀ s, names s → NameOk s) (e : Ex) (h : e.Ok names) :
    scan (fun _ => false) 0 e.text = some 0 :=
  scan_mono _ _ (by simp) _ _ _ (text_scan hN e h 0 (Nat.zero_le _))

theorem text_ne (hN : ∀ s, names s → NameOk s) (e : Ex) (h : e.Ok names) : e.text ≠ [] := by
  cases e with
  | num s => exact (numLit_chars h).1
  | name s => exact (hN s h).nonempty
  | _ => simp [Ex.text]

/-- No space and no `=` in the text of an expression. -/
theorem text_noSkip (hN : ∀ s, names s → NameOk s) (e : Ex) (h : e.Ok names) :
    ∀ c ∈ e.text, c ≠ ' ' ∧ c ≠ '=' := by
  have sp : ∀ c, c ∉ specials → c ≠ ' ' ∧ c ≠ '=' := by
    intro c hc
    constructor <;> (rintro rfl; exact hc (by decide))
  induction e with
  | num s =>
    intro c hc
    exact sp c (numChar_plain c ((numLit_chars h).2 c hc)).2.2
  | name s => exact fun c hc => sp c ((hN s h).noSpecial c hc)
  | paren e ih =>
    intro c hc
    simp only [Ex.text, List.mem_append, List.mem_cons, List.not_mem_nil, or_false] at hc
    rcases hc with (rfl | hc) | rfl
    · decide
    · exact ih h c hc
    · decide
  | fn f e ih =>
    intro c hc
    simp only [Ex.text, List.mem_append, List.mem_cons, List.not_mem_nil, or_false] at hc
    rcases hc with (hc | rfl | hc) | rfl
    · exact sp c ((fnNames_plain f (fn_mem h.1)).2 c hc).2.2.1
    · decide
    · exact ih h.2 c hc
    · decide
  | fn2 f a b iha ihb =>
    intro c hc
    simp only [Ex.text, List.mem_append, List.mem_cons, List.not_mem_nil, or_false] at hc
    rcases hc with ((hc | rfl | hc) | rfl | hc) | rfl
    · exact sp c ((fnNames_plain f (fn2_mem h.1)).2 c hc).2.2.1
    · decide
    · exact iha h.2.1 c hc
    · decide
    · exact ihb h.2.2.1 c hc
    · decide
  | pow a b iha ihb | mul a b iha ihb | div a b iha ihb | lt a b iha ihb | gt a b iha ihb
  | add a b iha ihb | sub a b iha ihb =>
    intro c hc
    simp only [Ex.text, List.mem_append, List.mem_cons] at hc
    rcases hc with hc | rfl | hc
    · exact iha h.1 c hc
    · decide
    · exact ihb h.2.1 c hc
  | neg a ih =>
    intro c hc
    simp only [Ex.text, List.mem_cons] at hc
    rcases hc with rfl | hc
    · decide
    · exact ih h.1 c hc

/-- A level-one text does not begin with `-`. -/
theorem text_head (hN : ∀ s, names s → NameOk s) (e : Ex) (h : e.Ok names) (hl : 1 ≤ e.level) (r : Str) :
    (e.text ++ r).head? ≠ some '-' := by
  induction e generalizing r with
  | num s =>
    obtain ⟨h1, h2⟩ := numLit_chars h
    cases s with
    | nil => simp at h1
    | cons c cs =>
      simp only [Ex.text, List.cons_append, List.head?_cons, ne_eq, Option.some.injEq]
      rintro rfl
      exact (numChar_plain '-' (h2 '-' (by simp))).2.2 (by decide)
  | name s =>
    have h1 := (hN s h).nonempty
    have h2 := (hN s h).noSpecial
    cases s with
    | nil => simp at h1
    | cons c cs =>
      simp only [Ex.text, List.cons_append, List.head?_cons, ne_eq, Option.some.injEq]
      rintro rfl
      exact h2 '-' (by simp) (by decide)
  | paren e _ => simp [Ex.text]
  | fn f e _ =>
    obtain ⟨h1, h2⟩ := fnNames_plain f (fn_mem h.1)
    cases f with
    | nil => simp at h1
    | cons c cs =>
      simp only [Ex.text, List.cons_append, List.head?_cons, ne_eq, Option.some.injEq]
      rintro rfl
      exact (h2 '-' (by simp)).2.2.1 (by decide)
  | fn2 f a b _ _ =>
    obtain ⟨h1, h2⟩ := fnNames_plain f (fn2_mem h.1)
    cases f with
    | nil => simp at h1
    | cons c cs =>
      simp only [Ex.text, List.cons_append, List.head?_cons, ne_eq, Option.some.injEq]
      rintro rfl
      exact (h2 '-' (by simp)).2.2.1 (by decide)
  | pow a b iha _ =>
    simp only [Ex.text, List.append_assoc]
    exact iha h.1 (by have := h.2.2.1; omega) _
  | mul a b iha _ | div a b iha _ | lt a b iha _ | gt a b iha _ =>
    simp only [Ex.text, List.append_assoc]
    exact iha h.1 h.2.2.1 _
  | add a b _ _ | sub a b _ _ | neg a _ => simp [Ex.level] at hl

/-- A parenthesis-free text has no `)` and no `,` either. -/
theorem text_noParen (hN : ∀ s, names s → NameOk s) (e : Ex) (h : e.Ok names) (hp : '(' ∉ e.text) :
    ')' ∉ e.text ∧ ',' ∉ e.text := by
  induction e with
  | num s =>
    have key := fun c hc => numChar_plain c ((numLit_chars h).2 c hc)
    exact ⟨fun hc => (key _ hc).2.1 rfl, fun hc => (key _ hc).2.2 (by decide)⟩
  | name s =>
    have h1 := (hN s h).matched.1
    refine ⟨?_, fun hc => (hN s h).noSpecial _ hc (by decide)⟩
    intro hc
    simp only [Ex.text] at hp
    rw [List.count_eq_zero_of_not_mem hp] at h1
    exact absurd hc (List.count_eq_zero.mp h1.symm)
  | paren e _ => simp [Ex.text] at hp
  | fn f e _ => simp [Ex.text] at hp
  | fn2 f a b _ _ => simp [Ex.text] at hp
  | pow a b iha ihb | mul a b iha ihb | div a b iha ihb | lt a b iha ihb | gt a b iha ihb
  | add a b iha ihb | sub a b iha ihb =>
    simp only [Ex.text, List.mem_append, List.mem_cons, not_or] at hp ⊢
    have h1 := iha h.1 hp.1
    have h2 := ihb h.2.1 hp.2.2
    exact ⟨⟨h1.1, by decide, h2.1⟩, ⟨h1.2, by decide, h2.2⟩⟩
  | neg a ih =>
    simp only [Ex.text, List.mem_cons, not_or] at hp ⊢
    have h1 := ih h.1 hp.2
    exact ⟨⟨by decide, h1.1⟩, ⟨by decide, h1.2⟩⟩

/-- A text with a `(` also has a `)` (it is balanced). -/
theorem bal_close (s : Str) (d : Nat) (h : scan (fun _ => false) d s = some 0) (hp : '(' ∈ s ∨ 0 < d) :
    ')' ∈ s := by
  induction s generalizing d with
  | nil => simp [scan] at h; simp [h] at hp
  | cons c cs ih =>
    simp only [scan] at h
    by_cases h1 : c = '('
    · simp only [h1, if_true] at h
      exact List.mem_cons_of_mem _ (ih _ h (Or.inr (by omega)))
    by_cases h2 : c = ')'
    · simp [h2]
    simp only [h1, h2, if_false] at h
    simp at h
    refine List.mem_cons_of_mem _ (ih _ h ?_)
    rcases hp with hp | hp
    · simp [Ne.symm h1] at hp; exact Or.inl hp
    · exact Or.inr hp

end MrHyDE.Expr
