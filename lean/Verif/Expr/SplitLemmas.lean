import Verif.Expr.TextLemmas2

/-
Helper lemmas: `split` returns exactly the operands of a composite expression.
-/

namespace MrHyDE.Expr

variable {names : Str → Prop}

/-- Replace the leading minus sign of the leftmost summand by `0.0 - `. -/
def Ex.fix : Ex → Ex
  | .neg a => .sub (.num "0.0".toList) a
  | .add a b => .add a.fix b
  | .sub a b => .sub a.fix b
  | e => e

/-- Operands of a chain of sums. -/
def spinePm : Ex → List (Op × Ex)
  | .add a b => spinePm a ++ [("plus".toList, b)]
  | .sub a b => spinePm a ++ [("minus".toList, b)]
  | e => [([], e)]

/-- Operands of a chain of products, quotients, comparisons. -/
def spineMdp : Ex → List (Op × Ex)
  | .mul a b => spineMdp a ++ [("times".toList, b)]
  | .div a b => spineMdp a ++ [("divide".toList, b)]
  | .lt a b => spineMdp a ++ [("lt".toList, b)]
  | .gt a b => spineMdp a ++ [("gt".toList, b)]
  | e => [([], e)]

/-- Operands of a chain of powers. -/
def spinePow : Ex → List (Op × Ex)
  | .pow a b => spinePow a ++ [("power".toList, b)]
  | e => [([], e)]

/-- Operands of a composite expression with the operation that takes them in. -/
def kids : Ex → List (Op × Ex)
  | .num _ => []
  | .name _ => []
  | .paren e => [([], e)]
  | .fn f e => [(f, e)]
  | .fn2 f a b => [([], a), (f, b)]
  | .pow a b => spinePow (.pow a b)
  | .mul a b => spineMdp (.mul a b)
  | .div a b => spineMdp (.div a b)
  | .lt a b => spineMdp (.lt a b)
  | .gt a b => spineMdp (.gt a b)
  | .add a b => spinePm (Ex.fix (.add a b))
  | .sub a b => spinePm (Ex.fix (.sub a b))
  | .neg a => spinePm (Ex.fix (.neg a))

/-- Text of an operand. -/
def kt (k : Op × Ex) : Op × Str := (k.1, k.2.text)

theorem zeroLit : NumLit "0.0".toList := by
  refine ⟨['0'], ['0'], [], by simp, by decide, by decide, by simp, Or.inr (Or.inl rfl)⟩

theorem fix_id (e : Ex) (h : 1 ≤ e.level) : e.fix = e := by
  cases e <;> simp [Ex.level] at h <;> rfl

theorem fixMinus_append (s r : Str) (h : s ≠ []) : fixMinus (s ++ r) = fixMinus s ++ r := by
  cases s with
  | nil => simp at h
  | cons c cs =>
    by_cases hc : c = '-' <;> simp [fixMinus, hc]

theorem fix_text (hN : ∀ s, names s → NameOk s) (e : Ex) (h : e.Ok names) :
    fixMinus e.text = e.fix.text := by
  have hi : ∀ e : Ex, e.Ok names → 1 ≤ e.level → fixMinus e.text = e.text := by
    intro e h hl
    have := text_head hN e h hl []
    simp only [List.append_nil] at this
    simp [fixMinus, this]
  induction e with
  | neg a ih => simp [fixMinus, Ex.fix, Ex.text]
  | add a b iha ihb | sub a b iha ihb =>
    simp only [Ex.fix, Ex.text]
    rw [fixMinus_append _ _ (text_ne hN a h.1), iha h.1]
  | _ => exact hi _ h (by simp [Ex.level])

/-- Processing one operator and its right operand in a splitting loop. -/
theorem run_step (L : Level) (p : Char → Bool) (hL : L.Splits p) (c : Char) (o : Op)
    (hop : ∀ n, n ≠ some '=' → L.opOf c n = some (o, false)) (hsk : L.skip c = false)
    (h1 : c ≠ '(') (h2 : c ≠ ')') (x b r : Str) (op : Op) (acc : List (Op × Str))
    (hx : x ≠ []) (hb : scan p 0 b = some 0) (hbs : ∀ c ∈ b, L.skip c = false) (hbn : b ≠ [])
    (hbe : b.head? ≠ some '=') :
    splitRun L ⟨0, x, op, acc, false⟩ (c :: b ++ r) =
      splitRun L ⟨0, b, o, acc ++ [(op, x)], false⟩ r := by
  have hh : (b ++ r).head? ≠ some '=' := by
    cases b with
    | nil => simp at hbn
    | cons y ys => simpa using hbe
  have e1 : splitRun L ⟨0, x, op, acc, false⟩ (c :: b ++ r) =
      splitRun L ⟨0, [], o, acc ++ [(op, x)], false⟩ (b ++ r) := by
    simp only [List.cons_append, splitRun, splitStep, hop _ hh]
    simp [hsk, h1, h2, hx]
  have e2 := splitRun_quiet L p hL b hbs r 0 0 hb [] o (acc ++ [(op, x)])
  rw [e1]
  simpa using e2

theorem pm_splits : levelPm.Splits (pl 1) := by
  constructor
  intro c n r h
  simp only [levelPm] at h
  simp only [pl, isPm, Bool.or_eq_true, decide_eq_true_eq]
  by_cases h1 : c = '+'
  · exact Or.inl h1
  · by_cases h2 : c = '-'
    · exact Or.inr h2
    · simp [h1, h2] at h

theorem mdp_splits : levelMdp.Splits (pl 2) := by
  constructor
  intro c n r h
  simp only [levelMdp] at h
  simp only [pl, isMdp, Bool.or_eq_true, decide_eq_true_eq]
  right
  by_cases h1 : c = '*'
  · simp [h1]
  by_cases h2 : c = '/'
  · simp [h2]
  by_cases h3 : c = '<'
  · simp [h3]
  by_cases h4 : c = '>'
  · simp [h4]
  simp [h1, h2, h3, h4] at h

theorem pow_splits : levelPow.Splits (pl 3) := by
  constructor
  intro c n r h
  simp only [levelPow] at h
  simp only [pl, isPow, Bool.or_eq_true, decide_eq_true_eq]
  right
  by_cases h1 : c = '^'
  · exact h1
  · simp [h1] at h

/-- The state after a chain: all operands but the last have been pushed. -/
def Chained (L : Level) (sp : List (Op × Ex)) (t : Str) : Prop :=
  ∃ acc op x, sp = acc ++ [(op, x)] ∧ x.text ≠ [] ∧
    ∀ r, splitRun L ⟨0, [], [], [], false⟩ (t ++ r) = splitRun L ⟨0, x.text, op, acc.map kt, false⟩ r

theorem chain_base (L : Level) (p : Char → Bool) (hL : L.Splits p) (e : Ex) (hs : scan p 0 e.text = some 0)
    (hk : ∀ c ∈ e.text, L.skip c = false) (hn : e.text ≠ []) : Chained L [([], e)] e.text := by
  refine ⟨[], [], e, rfl, hn, fun r => ?_⟩
  simpa using splitRun_quiet L p hL e.text hk r 0 0 hs [] [] []

theorem chain_step (L : Level) (p : Char → Bool) (hL : L.Splits p) (c : Char) (o : Op)
    (hop : ∀ n, n ≠ some '=' → L.opOf c n = some (o, false)) (hsk : L.skip c = false)
    (h1 : c ≠ '(') (h2 : c ≠ ')') (sp : List (Op × Ex)) (t : Str) (b : Ex) (ht : Chained L sp t)
    (hb : scan p 0 b.text = some 0) (hbs : ∀ c ∈ b.text, L.skip c = false) (hbn : b.text ≠ [])
    (hbe : b.text.head? ≠ some '=') : Chained L (sp ++ [(o, b)]) (t ++ c :: b.text) := by
  obtain ⟨acc, op, x, rfl, hx, hr⟩ := ht
  refine ⟨acc ++ [(op, x)], o, b, rfl, hbn, fun r => ?_⟩
  have := run_step L p hL c o hop hsk h1 h2 x.text b.text r op (acc.map kt) hx hb hbs hbn hbe
  rw [List.append_assoc, hr]
  simp only [List.map_append, List.map_cons, List.map_nil, kt]
  exact this

theorem chain_split (L : Level) (sp : List (Op × Ex)) (t : Str) (h : Chained L sp t) :
    splitAt L t = .ok (sp.map kt) := by
  obtain ⟨acc, op, x, rfl, hx, hr⟩ := h
  have := hr []
  simp only [List.append_nil, splitRun] at this
  simp [splitAt, this, splitFinish, hx, kt]

theorem text_headEq (hN : ∀ s, names s → NameOk s) (e : Ex) (h : e.Ok names) :
    e.text.head? ≠ some '=' := by
  intro hh
  cases ht : e.text with
  | nil => simp [ht] at hh
  | cons c cs =>
    simp [ht] at hh
    exact (text_noSkip hN e h c (by simp [ht])).2 hh

theorem chain_pm (hN : ∀ s, names s → NameOk s) (e : Ex) (h : e.Ok names) :
    Chained levelPm (spinePm e.fix) e.fix.text := by
  have hk : ∀ e : Ex, e.Ok names → ∀ c ∈ e.text, levelPm.skip c = false := by
    intro e h c hc
    have := text_noSkip hN e h c hc
    simp [levelPm, this]
  have hbase : ∀ e : Ex, e.Ok names → 1 ≤ e.level → Chained levelPm [([], e)] e.text :=
    fun e h hl => chain_base _ _ pm_splits e (text_scan hN e h 1 hl) (hk e h) (text_ne hN e h)
  have hstep : ∀ (c : Char) (o : Op), (c = '+' ∧ o = "plus".toList ∨ c = '-' ∧ o = "minus".toList) →
      ∀ (sp : List (Op × Ex)) (t : Str) (b : Ex), Chained levelPm sp t → b.Ok names → 1 ≤ b.level →
      Chained levelPm (sp ++ [(o, b)]) (t ++ c :: b.text) := by
    intro c o hco sp t b ht hb hl
    refine chain_step levelPm _ pm_splits c o ?_ ?_ ?_ ?_ sp t b ht (text_scan hN b hb 1 hl) (hk b hb)
      (text_ne hN b hb) (text_headEq hN b hb)
    all_goals rcases hco with ⟨rfl, rfl⟩ | ⟨rfl, rfl⟩ <;> simp [levelPm]
  induction e with
  | neg a _ =>
    simp only [Ex.fix, spinePm, Ex.text]
    exact hstep '-' _ (Or.inr ⟨rfl, rfl⟩) _ _ a
      (hbase (.num "0.0".toList) zeroLit (by simp [Ex.level])) h.1 h.2
  | add a b iha _ =>
    simp only [Ex.fix, spinePm, Ex.text]
    exact hstep '+' _ (Or.inl ⟨rfl, rfl⟩) _ _ b (iha h.1) h.2.1 h.2.2
  | sub a b iha _ =>
    simp only [Ex.fix, spinePm, Ex.text]
    exact hstep '-' _ (Or.inr ⟨rfl, rfl⟩) _ _ b (iha h.1) h.2.1 h.2.2
  | _ => exact hbase _ h (by simp [Ex.fix, Ex.level])

theorem chain_mdp (hN : ∀ s, names s → NameOk s) (e : Ex) (h : e.Ok names) (hl : 1 ≤ e.level) :
    Chained levelMdp (spineMdp e) e.text := by
  have hk : ∀ e : Ex, e.Ok names → ∀ c ∈ e.text, levelMdp.skip c = false := by
    intro e h c hc
    have := text_noSkip hN e h c hc
    simp [levelMdp, this]
  have hbase : ∀ e : Ex, e.Ok names → 2 ≤ e.level → Chained levelMdp [([], e)] e.text :=
    fun e h hl => chain_base _ _ mdp_splits e (text_scan hN e h 2 hl) (hk e h) (text_ne hN e h)
  have hstep : ∀ (c : Char) (o : Op), (c = '*' ∧ o = "times".toList ∨ c = '/' ∧ o = "divide".toList ∨
      c = '<' ∧ o = "lt".toList ∨ c = '>' ∧ o = "gt".toList) →
      ∀ (sp : List (Op × Ex)) (t : Str) (b : Ex), Chained levelMdp sp t → b.Ok names → 2 ≤ b.level →
      Chained levelMdp (sp ++ [(o, b)]) (t ++ c :: b.text) := by
    intro c o hco sp t b ht hb hl
    refine chain_step levelMdp _ mdp_splits c o ?_ ?_ ?_ ?_ sp t b ht (text_scan hN b hb 2 hl) (hk b hb)
      (text_ne hN b hb) (text_headEq hN b hb)
    · intro n hn
      rcases hco with ⟨rfl, rfl⟩ | ⟨rfl, rfl⟩ | ⟨rfl, rfl⟩ | ⟨rfl, rfl⟩ <;> simp [levelMdp, hn]
    all_goals rcases hco with ⟨rfl, rfl⟩ | ⟨rfl, rfl⟩ | ⟨rfl, rfl⟩ | ⟨rfl, rfl⟩ <;> simp [levelMdp]
  induction e with
  | mul a b iha _ =>
    simp only [spineMdp, Ex.text]
    exact hstep '*' _ (Or.inl ⟨rfl, rfl⟩) _ _ b (iha h.1 h.2.2.1) h.2.1 h.2.2.2
  | div a b iha _ =>
    simp only [spineMdp, Ex.text]
    exact hstep '/' _ (Or.inr (Or.inl ⟨rfl, rfl⟩)) _ _ b (iha h.1 h.2.2.1) h.2.1 h.2.2.2
  | lt a b iha _ =>
    simp only [spineMdp, Ex.text]
    exact hstep '<' _ (Or.inr (Or.inr (Or.inl ⟨rfl, rfl⟩))) _ _ b (iha h.1 h.2.2.1) h.2.1 h.2.2.2
  | gt a b iha _ =>
    simp only [spineMdp, Ex.text]
    exact hstep '>' _ (Or.inr (Or.inr (Or.inr ⟨rfl, rfl⟩))) _ _ b (iha h.1 h.2.2.1) h.2.1 h.2.2.2
  | neg a _ | add a b _ _ | sub a b _ _ => simp [Ex.level] at hl
  | _ => exact hbase _ h (by simp [Ex.level])

theorem chain_pow (hN : ∀ s, names s → NameOk s) (e : Ex) (h : e.Ok names) (hl : 2 ≤ e.level) :
    Chained levelPow (spinePow e) e.text := by
  have hk : ∀ e : Ex, e.Ok names → ∀ c ∈ e.text, levelPow.skip c = false := by
    intro e h c hc
    simp [levelPow]
  have hbase : ∀ e : Ex, e.Ok names → 3 ≤ e.level → Chained levelPow [([], e)] e.text :=
    fun e h hl => chain_base _ _ pow_splits e (text_scan hN e h 3 hl) (hk e h) (text_ne hN e h)
  have hstep : ∀ (sp : List (Op × Ex)) (t : Str) (b : Ex), Chained levelPow sp t → b.Ok names →
      3 ≤ b.level → Chained levelPow (sp ++ [("power".toList, b)]) (t ++ '^' :: b.text) := by
    intro sp t b ht hb hl
    exact chain_step levelPow _ pow_splits '^' _ (by simp [levelPow]) (by simp [levelPow]) (by decide)
      (by decide) sp t b ht (text_scan hN b hb 3 hl) (hk b hb) (text_ne hN b hb) (text_headEq hN b hb)
  induction e with
  | pow a b iha _ =>
    simp only [spinePow, Ex.text]
    exact hstep _ _ b (iha h.1 h.2.2.1) h.2.1 h.2.2.2
  | neg a _ | add a b _ _ | sub a b _ _ | mul a b _ _ | div a b _ _ | lt a b _ _ | gt a b _ _ =>
    simp [Ex.level] at hl
  | _ => exact hbase _ h (by simp [Ex.level])

theorem firstParen_call (pre g t : Str) (hg : '(' ∉ g) :
    firstParen pre (g ++ '(' :: t) = some (pre ++ g, t) := by
  induction g generalizing pre with
  | nil => simp [firstParen]
  | cons c cs ih =>
    simp only [List.mem_cons, not_or] at hg
    simp only [List.cons_append, firstParen, if_neg (Ne.symm hg.1)]
    rw [ih _ hg.2]; simp

theorem splitNoOp_call (f t : Str) (hf : f ≠ []) (hp : '(' ∉ f) :
    splitNoOp (f ++ '(' :: t ++ [')']) = [(f, t)] := by
  cases f with
  | nil => simp at hf
  | cons c cs =>
    simp only [List.mem_cons, not_or] at hp
    have hc : c ≠ '(' := Ne.symm hp.1
    have e0 : c :: cs ++ '(' :: t ++ [')'] = c :: (cs ++ '(' :: t ++ [')']) := by simp
    have e1 : (c :: cs ++ '(' :: t ++ [')']).tail.dropLast = cs ++ '(' :: t := by
      rw [e0, List.tail_cons, List.dropLast_concat]
    have e3 : (c :: cs ++ '(' :: t ++ [')']).getLast? = some ')' := by
      rw [List.getLast?_append]; simp
    have e2 : (c :: cs ++ '(' :: t ++ [')']).take 1 = [c] := by simp
    simp only [splitNoOp]
    rw [e1, e2, e3, firstParen_call _ _ _ hp.2]
    simp [hc]

theorem splitNoOp_paren (t : Str) : splitNoOp ('(' :: t ++ [')']) = [([], t)] := by
  have e1 : ('(' :: t ++ [')']).getLast? = some ')' := by rw [List.getLast?_append]; simp
  rw [splitNoOp, if_pos ⟨by simp, e1⟩]
  simp

/-- `split` on a composite expression that is not a two-argument call returns its operands. -/
theorem split_text (hN : ∀ s, names s → NameOk s) (e : Ex) (h : e.Ok names)
    (h1 : ∀ s, e ≠ .num s) (h2 : ∀ s, e ≠ .name s) (h3 : ∀ f a b, e ≠ .fn2 f a b) :
    split e.text = .ok ((kids e).map kt) := by
  have hlen : 2 ≤ e.fix.text.length := by
    cases e with
    | num s => exact absurd rfl (h1 s)
    | name s => exact absurd rfl (h2 s)
    | fn2 f a b => exact absurd rfl (h3 f a b)
    | paren e => simp [Ex.fix, Ex.text]
    | fn f e => simp [Ex.fix, Ex.text]; omega
    | neg a => simp [Ex.fix, Ex.text]
    | pow a b | mul a b | div a b | lt a b | gt a b =>
      have := List.length_pos_iff.mpr (text_ne hN a h.1)
      simp only [Ex.fix, Ex.text, List.length_append, List.length_cons]; omega
    | add a b | sub a b =>
      have := List.length_pos_iff.mpr (text_ne hN b h.2.1)
      simp only [Ex.fix, Ex.text, List.length_append, List.length_cons]; omega
  have hpm : ∀ c, isPm c = true → pl 1 c = true := fun c hc => hc
  have hmdp : ∀ c, isMdp c = true → pl 2 c = true := fun c hc => by simp [pl, hc]
  have hpow : ∀ c, isPow c = true → pl 3 c = true := fun c hc => by simp [pl, hc]
  have c1 : ∀ e : Ex, e.Ok names → 1 ≤ e.level → ¬ countTop isPm 0 e.text > 0 := fun e h hl => by
    rw [countTop_zero isPm _ hpm _ (text_scan hN _ h 1 hl)]; omega
  have c2 : ∀ e : Ex, e.Ok names → 2 ≤ e.level → ¬ countTop isMdp 0 e.text > 0 := fun e h hl => by
    rw [countTop_zero isMdp _ hmdp _ (text_scan hN _ h 2 hl)]; omega
  have c3 : ∀ e : Ex, e.Ok names → 3 ≤ e.level → ¬ countTop isPow 0 e.text > 0 := fun e h hl => by
    rw [countTop_zero isPow _ hpow _ (text_scan hN _ h 3 hl)]; omega
  have d2 : ∀ (e a b : Ex) (c : Char) (p : Char → Bool), e.text = a.text ++ c :: b.text → a.Ok names →
      p c = true → c ≠ '(' → c ≠ ')' → countTop p 0 e.text > 0 := fun e a b c p he ha hc c1 c2 => by
    rw [he]; exact countTop_pos p _ _ _ (text_bal hN a ha) hc c1 c2
  simp only [split, fix_text hN e h]
  rw [if_neg (by omega), if_neg (by omega)]
  -- sums
  have sumCase : (∃ t c b, e.fix.text = t ++ c :: b ∧ scan (fun _ => false) 0 t = some 0 ∧
      isPm c = true ∧ c ≠ '(' ∧ c ≠ ')') → kids e = spinePm e.fix →
      (if countTop isPm 0 e.fix.text > 0 then splitAt levelPm e.fix.text
        else if countTop isMdp 0 e.fix.text > 0 then splitAt levelMdp e.fix.text
        else if countTop isPow 0 e.fix.text > 0 then splitAt levelPow e.fix.text
        else .ok (splitNoOp e.fix.text)) = .ok ((kids e).map kt) := by
    rintro ⟨t, c, b, ht, hs, hc, c1, c2⟩ hk
    rw [if_pos (by rw [ht]; exact countTop_pos isPm t b c hs hc c1 c2), chain_split _ _ _ (chain_pm hN e h), hk]
  have fixBal : ∀ a : Ex, a.Ok names → scan (fun _ => false) 0 a.fix.text = some 0 := by
    intro a ha
    rw [← fix_text hN a ha, fixMinus]
    split
    · have := text_bal hN a ha
      rw [scan_append _ "0.0".toList _ 0 0 (by decide)]; exact this
    · exact text_bal hN a ha
  cases e with
  | num s => exact absurd rfl (h1 s)
  | name s => exact absurd rfl (h2 s)
  | fn2 f a b => exact absurd rfl (h3 f a b)
  | neg a => exact sumCase ⟨"0.0".toList, '-', a.text, rfl, by decide, by decide, by decide, by decide⟩ rfl
  | add a b => exact sumCase ⟨a.fix.text, '+', b.text, rfl, fixBal a h.1, by decide, by decide, by decide⟩ rfl
  | sub a b => exact sumCase ⟨a.fix.text, '-', b.text, rfl, fixBal a h.1, by decide, by decide, by decide⟩ rfl
  | mul a b | div a b | lt a b | gt a b =>
    rw [fix_id _ (by simp [Ex.level])]
    rw [if_neg (c1 _ h (by simp [Ex.level])),
      if_pos (d2 _ a b _ isMdp rfl h.1 (by decide) (by decide) (by decide)),
      chain_split _ _ _ (chain_mdp hN _ h (by simp [Ex.level]))]
    rfl
  | pow a b =>
    rw [fix_id _ (by simp [Ex.level])]
    rw [if_neg (c1 _ h (by simp [Ex.level])),
      if_neg (c2 _ h (by simp [Ex.level])),
      if_pos (d2 _ a b _ isPow rfl h.1 (by decide) (by decide) (by decide)),
      chain_split _ _ _ (chain_pow hN _ h (by simp [Ex.level]))]
    rfl
  | paren a =>
    rw [fix_id _ (by simp [Ex.level])]
    rw [if_neg (c1 _ h (by simp [Ex.level])),
      if_neg (c2 _ h (by simp [Ex.level])),
      if_neg (c3 _ h (by simp [Ex.level]))]
    rw [show (Ex.paren a).text = '(' :: a.text ++ [')'] from rfl, splitNoOp_paren]
    rfl
  | fn f a =>
    rw [fix_id _ (by simp [Ex.level])]
    rw [if_neg (c1 _ h (by simp [Ex.level])),
      if_neg (c2 _ h (by simp [Ex.level])),
      if_neg (c3 _ h (by simp [Ex.level]))]
    have hf := fnNames_plain f (fn_mem h.1)
    simp only [Ex.text]
    rw [splitNoOp_call f a.text hf.1 (fun hm => (hf.2 _ hm).1 rfl)]
    rfl

end MrHyDE.Expr
