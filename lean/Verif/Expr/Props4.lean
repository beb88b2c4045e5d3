import Verif.Expr.Props3

/-
Property theorems C08 and C43 to C46.
-/

namespace MrHyDE.Expr

variable {K : Type}

/-! ### C08 -/

set_option maxRecDepth 100000 in
/-- C08 fails for `emax`: over the points with values 1, 3, 2 the result is 2. -/
theorem C08_emax_violated :
    runTexts toy 3 [] ["x".toList] [] [("f".toList, "emax(x)".toList)] [(wk [1, 3, 2] 0, "f".toList)] = .ok [2] := by
  rfl

set_option maxRecDepth 100000 in
/-- C08 fails for `emin`: over the points with values 3, 1, 2 the result is 2. -/
theorem C08_emin_violated :
    runTexts toy 3 [] ["x".toList] [] [("f".toList, "emin(x)".toList)] [(wk [3, 1, 2] 0, "f".toList)] = .ok [2] := by
  rfl

set_option maxRecDepth 100000 in
/-- C08 fails for `emean`: over the points with values 4, 8 the result is 8. -/
theorem C08_emean_violated :
    runTexts toy 2 [] ["x".toList] [] [("f".toList, "emean(x)".toList)] [(wk [4, 8] 0, "f".toList)] = .ok [8] := by
  rfl

theorem emaxFold (A : Arith K) (t : Nat → K) (l : List Nat) (d : K) :
    l.foldl (fun d n => if A.lt (t 0) (t n) then t n else d) d =
      ((l.filter (fun n => A.lt (t 0) (t n))).getLast?.map t).getD d := by
  induction l generalizing d with
  | nil => rfl
  | cons n l ih =>
    rw [List.foldl_cons, ih]
    by_cases h : A.lt (t 0) (t n) = true
    · simp only [h, if_true, List.filter_cons_of_pos]
      cases hl : (l.filter (fun n => A.lt (t 0) (t n))) with
      | nil => simp
      | cons a as => simp [List.getLast?_eq_some_getLast]
    · simp [h]

/-- C08, what `emax` does compute (for every number of points, in any arithmetic): the value
    at the *last* point whose value exceeds the value at point 0, or the value at point 0 if
    there is none. -/
theorem C08_emax_exact (A : Arith K) (t : Nat → K) (dim1 : Nat) :
    emaxLoop A t dim1 = (((List.range dim1).filter (fun n => A.lt (t 0) (t n))).getLast?.map t).getD (t 0) :=
  emaxFold A t _ _

/-- C08, the part that holds for `emax` and `emin`: the result is one of the values, is at
    least (most) the value at point 0, and it is the maximum (minimum) whenever at most one
    point exceeds (falls below) point 0, in particular with one or two points.  Missing:
    three and more points in general, for which the property fails. -/
theorem C08_emax_emin_partial [LinearOrder K] (A : Arith K) (hlt : ∀ a b, A.lt a b = decide (a < b))
    (t : Nat → K) (dim1 : Nat) (hd : 0 < dim1) :
    (∃ n, n < dim1 ∧ emaxLoop A t dim1 = t n) ∧ (∃ n, n < dim1 ∧ eminLoop A t dim1 = t n) ∧
    t 0 ≤ emaxLoop A t dim1 ∧ eminLoop A t dim1 ≤ t 0 ∧
    ((∀ m n, m < dim1 → n < dim1 → t 0 < t m → t 0 < t n → m = n) → ∀ n, n < dim1 → t n ≤ emaxLoop A t dim1) ∧
    ((∀ m n, m < dim1 → n < dim1 → t m < t 0 → t n < t 0 → m = n) → ∀ n, n < dim1 → eminLoop A t dim1 ≤ t n) := by
  have key : ∀ (lt : K → K → Bool) (lo : LinearOrder K), (∀ a b, lt a b = decide (lo.lt a b)) → ∀ l : List Nat, ∀ d : K,
      (l.foldl (fun d n => if lt (t 0) (t n) then t n else d) d = d ∧ ∀ n ∈ l, lo.le (t n) (t 0)) ∨
      (∃ n ∈ l, lo.lt (t 0) (t n) ∧ l.foldl (fun d n => if lt (t 0) (t n) then t n else d) d = t n) := by
    intro lt lo hl l
    induction l with
    | nil => intro d; exact Or.inl ⟨rfl, by simp⟩
    | cons n l ih =>
      intro d
      rw [List.foldl_cons]
      rcases ih (if lt (t 0) (t n) then t n else d) with ⟨h1, h2⟩ | ⟨m, hm, h1, h2⟩
      · rw [h1]
        by_cases h : lo.lt (t 0) (t n)
        · exact Or.inr ⟨n, by simp, h, by simp [hl, h]⟩
        · left
          refine ⟨by simp [hl, h], fun m hm => ?_⟩
          rcases List.mem_cons.mp hm with rfl | hm
          · exact (@not_lt K lo _ _).mp h
          · exact h2 m hm
      · exact Or.inr ⟨m, by simp [hm], h1, h2⟩
  have k1 := key (fun a b => A.lt a b) inferInstance hlt (List.range dim1) (t 0)
  have k2 := key (fun a b => A.lt b a) (inferInstanceAs (LinearOrder Kᵒᵈ)) (fun a b => hlt b a) (List.range dim1) (t 0)
  have e1 : emaxLoop A t dim1 = (List.range dim1).foldl (fun d n => if A.lt (t 0) (t n) then t n else d) (t 0) := rfl
  have e2 : eminLoop A t dim1 = (List.range dim1).foldl (fun d n => if A.lt (t n) (t 0) then t n else d) (t 0) := rfl
  rw [← e1] at k1
  rw [← e2] at k2
  simp only [List.mem_range] at k1 k2
  refine ⟨?_, ?_, ?_, ?_, ?_, ?_⟩
  · rcases k1 with ⟨h, _⟩ | ⟨n, hn, _, h⟩
    · exact ⟨0, hd, h⟩
    · exact ⟨n, hn, h⟩
  · rcases k2 with ⟨h, _⟩ | ⟨n, hn, _, h⟩
    · exact ⟨0, hd, h⟩
    · exact ⟨n, hn, h⟩
  · rcases k1 with ⟨h, _⟩ | ⟨n, hn, hlt', h⟩
    · rw [h]
    · rw [h]; exact le_of_lt hlt'
  · rcases k2 with ⟨h, _⟩ | ⟨n, hn, hlt', h⟩
    · rw [h]
    · rw [h]; exact le_of_lt (show t n < t 0 from hlt')
  · intro hu n hn
    rcases k1 with ⟨h, hle⟩ | ⟨m, hm, hlt', h⟩
    · rw [h]; exact hle n hn
    · by_cases hc : t 0 < t n
      · rw [h, hu n m hn hm hc hlt']
      · rw [h]; exact le_trans (not_lt.mp hc) (le_of_lt hlt')
  · intro hu n hn
    rcases k2 with ⟨h, hle⟩ | ⟨m, hm, hlt', h⟩
    · rw [h]; exact hle n hn
    · by_cases hc : t n < t 0
      · rw [h, hu n m hn hm hc hlt']
      · rw [h]; exact le_trans (le_of_lt (show t m < t 0 from hlt')) (not_lt.mp hc)

/-- Non-vacuity: with two points the maximum is computed. -/
example : emaxLoop toy (fun n => [5, 9].getD n 0) 2 = 9 ∧ eminLoop toy (fun n => [5, 9].getD n 0) 2 = 5 := by decide

/-- C08, what `emean` does compute: the mean plus once more the value at point 0 divided by
    the number of points.  So the result is the mean exactly when the value at point 0 is
    zero. -/
theorem C08_emean_partial [Field K] [CharZero K] (A : Arith K) (hadd : ∀ a b, A.add a b = a + b)
    (hdiv : ∀ a b, A.div a b = a / b) (hn : ∀ n, A.ofNat n = (n : K)) (t : Nat → K) (dim1 : Nat) (hd : 0 < dim1) :
    emeanLoop A t dim1 = ((List.range dim1).map t).sum / dim1 + t 0 / dim1 ∧
    (emeanLoop A t dim1 = ((List.range dim1).map t).sum / dim1 ↔ t 0 = 0) := by
  have key : ∀ l : List Nat, ∀ d : K, l.foldl (fun d n => A.add d (A.div (t n) (A.ofNat dim1))) d =
      (l.map t).sum / dim1 + d := by
    intro l
    induction l with
    | nil => intro d; simp
    | cons n l ih =>
      intro d
      rw [List.foldl_cons, ih, hadd, hdiv, hn, List.map_cons, List.sum_cons]
      ring
  have h1 : emeanLoop A t dim1 = ((List.range dim1).map t).sum / dim1 + t 0 / dim1 := by
    unfold emeanLoop
    rw [key, hdiv, hn]
  refine ⟨h1, ?_⟩
  rw [h1, add_eq_left, div_eq_zero_iff]
  have : (dim1 : K) ≠ 0 := by exact_mod_cast (by omega : dim1 ≠ 0)
  simp [this]

/-- Rational arithmetic for the example below. -/
def ratArith : Arith ℚ where
  zero := 0
  one := 1
  half := 1 / 2
  piVal := 3
  add := (· + ·)
  mul := (· * ·)
  div := (· / ·)
  neg := (- ·)
  pow := fun a _ => a
  lt := fun a b => a < b
  le := fun a b => a ≤ b
  sin := id
  cos := id
  tan := id
  exp := id
  log := id
  sqrt := id
  sinh := id
  cosh := id
  stod := fun _ => none
  smallInt := fun _ => none
  ofNat := fun n => n

/-- Non-vacuity: the values 0, 3 have the mean 3/2 and it is computed. -/
example : emeanLoop ratArith (fun n => [0, 3].getD n 0) 2 = 3 / 2 :=
  ((C08_emean_partial ratArith (fun _ _ => rfl) (fun _ _ => rfl) (fun _ => rfl) _ 2 (by omega)).2.mpr rfl).trans
    (by norm_num [List.range_succ])

/-! ### C43: a function that names a parameter -/

set_option maxRecDepth 100000 in
/-- C43 fails: with `mu = 7`, `f = mu` and `g = f+1`, evaluating `g` gives 1; after `f` has been
    evaluated, the same evaluation of `g` gives 8; and when the parameter then changes to 9,
    `g` still gives 8. -/
theorem C43_violated :
    runTexts toy 1 [] [] ["mu".toList] [("f".toList, "mu".toList), ("g".toList, "f+1".toList)]
      [(wk [] 7, "g".toList), (wk [] 7, "f".toList), (wk [] 7, "g".toList), (wk [] 9, "g".toList)] =
      .ok [1, 7, 8, 8] := by
  rfl

/-! ### C44: comparisons with equality inside a sum -/

/-- Reading `<=` in a text without `=`. -/
theorem levelPm_drops_eq (s : Str) (st : SplitSt) (h : st.eat = false) :
    splitRun levelPm st s = splitRun levelPm st (s.filter (fun c => c ≠ '=')) := by
  induction s generalizing st with
  | nil => rfl
  | cons c cs ih =>
    have he : ∀ nx, (splitStep levelPm st c nx).eat = false := by
      intro nx
      unfold splitStep
      rw [if_neg (by simp [h])]
      repeat' split
      all_goals first | exact h | skip
      rename_i op e heq
      simp only [levelPm] at heq
      by_cases h1 : c = '+' <;> by_cases h2 : c = '-' <;> simp_all
    have hnx : ∀ nx nx', splitStep levelPm st c nx = splitStep levelPm st c nx' := by
      intro nx nx'
      unfold splitStep
      rfl
    by_cases hc : c = '='
    · subst hc
      rw [List.filter_cons_of_neg (by simp), splitRun]
      have : splitStep levelPm st '=' cs.head? = st := by
        simp [splitStep, h, levelPm]
      rw [this]
      exact ih st h
    · rw [List.filter_cons_of_pos (by simpa using hc), splitRun, splitRun, ih _ (he _), hnx]

/-- C44 fails, in general: as soon as the text has a `+` or `-` outside parentheses, splitting
    gives the same result as for the text with every `=` removed, at every depth: `<=`
    becomes `<`. -/
theorem C44_equality_dropped (s : Str) (h : countTop isPm 0 (fixMinus s) > 0)
    (h2 : 2 ≤ ((fixMinus s).filter (fun c => c ≠ '=')).length) :
    split s = splitAt levelPm ((fixMinus s).filter (fun c => c ≠ '=')) := by
  have hl : 2 ≤ (fixMinus s).length := le_trans h2 (List.length_filter_le _ _)
  unfold split
  simp only
  rw [if_neg (by omega), if_neg (by omega), if_pos h]
  unfold splitAt
  rw [levelPm_drops_eq _ _ rfl]

set_option maxRecDepth 100000 in
/-- C44 fails, observable effect: at `x = 2` the function `(x<=2)` has the value 1, but
    `(x<=2)+5` has the value 5. -/
theorem C44_violated :
    runTexts toy 1 [] ["x".toList] [] [("f".toList, "(x<=2)".toList), ("g".toList, "(x<=2)+5".toList)]
      [(wk [2] 0, "f".toList), (wk [2] 0, "g".toList)] = .ok [1, 5] := by
  rfl

/-! ### C45: spaces -/

set_option maxRecDepth 100000 in
/-- C45 fails: `exp(x)` is accepted, `exp( x )` makes the set-up throw, although
    `1 + exp(x)` is accepted. -/
theorem C45_violated :
    runTexts toy 1 [] ["x".toList] [] [("f".toList, "exp(x)".toList)] [(wk [2] 0, "f".toList)] = .ok [402] ∧
    runTexts toy 1 [] ["x".toList] [] [("f".toList, "1 + exp(x)".toList)] [(wk [2] 0, "f".toList)] = .ok [403] ∧
    setup toy [] ["x".toList] [] [("f".toList, "exp( x )".toList)] = .error .throws := by
  refine ⟨by rfl, by rfl, by rfl⟩

/-- Dropping a character that a level skips, when the level never looks at the next one. -/
theorem splitRun_skip (L : Level) (c0 : Char) (hskip : L.skip c0 = true) (s : Str)
    (hop : ∀ c ∈ s, ∀ nx nx', L.opOf c nx = L.opOf c nx' ∨ (nx ≠ some '=' ∧ nx' ≠ some '=' → L.opOf c nx = L.opOf c nx'))
    (he : ∀ c nx op, nx ≠ some '=' → L.opOf c nx ≠ some (op, true)) (hs : '=' ∉ s) (hc0 : c0 ≠ '=')
    (st : SplitSt) (h : st.eat = false) :
    splitRun L st s = splitRun L st (s.filter (fun c => c ≠ c0)) := by
  induction s generalizing st with
  | nil => rfl
  | cons c cs ih =>
    have hcs : '=' ∉ cs := fun hh => hs (by simp [hh])
    have hhead : ∀ l : Str, '=' ∉ l → l.head? ≠ some '=' := by
      intro l hl hh
      cases l with
      | nil => simp at hh
      | cons x xs => simp only [List.head?_cons, Option.some.injEq] at hh; exact hl (by simp [hh])
    have hnx : ∀ nx nx', nx ≠ some '=' → nx' ≠ some '=' → splitStep L st c nx = splitStep L st c nx' := by
      intro nx nx' h1 h2
      have : L.opOf c nx = L.opOf c nx' := by
        rcases hop c (by simp) nx nx' with h' | h'
        · exact h'
        · exact h' ⟨h1, h2⟩
      unfold splitStep
      rw [this]
    have heat : ∀ nx, nx ≠ some '=' → (splitStep L st c nx).eat = false := by
      intro nx h1
      unfold splitStep
      rw [if_neg (by simp [h])]
      repeat' split
      all_goals first | exact h | skip
      rename_i op e heq
      cases e with
      | false => rfl
      | true => exact absurd heq (he c nx op h1)
    have ih' := fun st h => ih (fun c hc => hop c (by simp [hc])) hcs st h
    by_cases hc : c = c0
    · subst hc
      rw [List.filter_cons_of_neg (by simp), splitRun]
      have : splitStep L st c cs.head? = st := by simp [splitStep, h, hskip]
      rw [this]
      exact ih' st h
    · rw [List.filter_cons_of_pos (by simpa using hc), splitRun, splitRun,
        ih' _ (heat _ (hhead _ hcs)),
        hnx _ _ (hhead _ hcs) (hhead _ (fun hh => hcs (List.mem_filter.mp hh).1))]

theorem countTop_skip (p : Char → Bool) (c0 : Char) (h0 : c0 ≠ '(' ∧ c0 ≠ ')' ∧ p c0 = false) (s : Str) (n : Int) :
    countTop p n (s.filter (fun c => c ≠ c0)) = countTop p n s := by
  induction s generalizing n with
  | nil => rfl
  | cons c cs ih =>
    by_cases hc : c = c0
    · subst hc
      rw [List.filter_cons_of_neg (by simp), ih]
      simp [countTop, h0]
    · rw [List.filter_cons_of_pos (by simpa using hc), countTop, countTop]
      simp only [ih]

/-- C45, the part that holds: in a text that has one of `+ - * / < >` outside parentheses (and no
    `=`, and does not begin with a space) removing the spaces does not change how the text is
    split.  Missing: texts without such an operator, in particular the argument of a
    function, for which the property fails (`C45_violated`). -/
theorem C45_spaces_partial (s : Str) (hs : '=' ∉ s) (h0 : s.head? ≠ some ' ')
    (h : countTop isPm 0 s > 0 ∨ countTop isMdp 0 s > 0)
    (h2 : 2 ≤ (s.filter (fun c => c ≠ ' ')).length) :
    split s = split (s.filter (fun c => c ≠ ' ')) := by
  have hf : fixMinus (s.filter (fun c => c ≠ ' ')) = (fixMinus s).filter (fun c => c ≠ ' ') := by
    cases s with
    | nil => rfl
    | cons c cs =>
      simp only [List.head?_cons, ne_eq, Option.some.injEq] at h0
      by_cases hc : c = '-'
      · subst hc; simp [fixMinus]
      · rw [List.filter_cons_of_pos (by simpa using h0)]
        simp [fixMinus, hc, h0]
  have hs' : '=' ∉ fixMinus s := by
    unfold fixMinus
    split
    · simp [hs]
    · exact hs
  have h' : countTop isPm 0 (fixMinus s) > 0 ∨ countTop isMdp 0 (fixMinus s) > 0 := by
    unfold fixMinus
    split
    · left
      cases s with
      | nil => simp_all
      | cons c cs =>
        rename_i hh
        simp only [List.head?_cons, Option.some.injEq] at hh
        subst hh
        simp [countTop, isPm]
    · exact h
  have h2' : 2 ≤ ((fixMinus s).filter (fun c => c ≠ ' ')).length := by
    rw [← hf]
    unfold fixMinus
    split
    · simp
    · exact h2
  have hl := le_trans h2' (List.length_filter_le (fun c => c ≠ ' ') (fixMinus s))
  unfold split
  rw [hf]
  generalize fixMinus s = u at *
  simp only
  rw [countTop_skip isPm ' ' (by decide), countTop_skip isMdp ' ' (by decide)]
  rw [if_neg (by omega), if_neg (by omega), if_neg (show ¬ (u.filter (fun c => decide (c ≠ ' '))).length = 0 by omega),
    if_neg (show ¬ (u.filter (fun c => decide (c ≠ ' '))).length = 1 by omega)]
  by_cases h1 : countTop isPm 0 u > 0
  · rw [if_pos h1, if_pos h1]
    unfold splitAt
    rw [splitRun_skip levelPm ' ' (by decide) u (fun c _ nx nx' => Or.inl rfl) _ hs' (by decide) _ rfl]
    intro c nx op _ hh
    simp only [levelPm] at hh
    by_cases h1 : c = '+' <;> by_cases h2 : c = '-' <;> simp [h1, h2] at hh
  · rw [if_neg h1, if_neg h1]
    have h3 : countTop isMdp 0 u > 0 := by rcases h' with h' | h' <;> omega
    rw [if_pos h3, if_pos h3]
    unfold splitAt
    rw [splitRun_skip levelMdp ' ' (by decide) u _ _ hs' (by decide) _ rfl]
    · intro c _ nx nx'
      right
      rintro ⟨ha, hb⟩
      simp [levelMdp, ha, hb]
    · intro c nx op ha hh
      simp only [levelMdp, ha, if_false] at hh
      by_cases h1 : c = '*' <;> by_cases h2 : c = '/' <;> by_cases h3 : c = '<' <;> by_cases h4 : c = '>' <;>
        simp [h1, h2, h3, h4] at hh

/-- Non-vacuity. -/
example : split "2 * sin( x ) + y".toList = split "2*sin(x)+y".toList :=
  C45_spaces_partial "2 * sin( x ) + y".toList (by decide) (by decide) (by decide) (by decide)

/-! ### C46: unknown names and functions -/

set_option maxRecDepth 100000 in
/-- C46 fails: `tanh(x)` (not a built-in function) is accepted by the set-up, and its value is
    whatever the storage held before. -/
theorem C46_violated :
    runTexts toy 1 [] ["x".toList] [] [("f".toList, "tanh(x)".toList)] [(wk [2] 0, "f".toList)] = .ok [0] := by
  rfl

theorem countTop_none (p : Char → Bool) (s : Str) (h : ∀ c ∈ s, p c = false) (n : Int) : countTop p n s = 0 := by
  induction s generalizing n with
  | nil => rfl
  | cons c cs ih =>
    have hc := h c (by simp)
    have ih' := fun n => ih (fun x hx => h x (by simp [hx])) n
    rw [countTop]
    simp [hc, ih']

theorem firstParen_none (s pre : Str) (h : '(' ∉ s) : firstParen pre s = none := by
  induction s generalizing pre with
  | nil => rfl
  | cons c cs ih =>
    rw [firstParen, if_neg (by rintro rfl; simp at h)]
    exact ih _ (fun hh => h (by simp [hh]))

/-- The loop never ends for an unknown name of one character: each pass replaces the last
    branch by a reference to a new one with the same text (until the pass limit). -/
theorem passes_single (env : Env) (stodOk : Str → Bool) (s : Str)
    (hcl : classify env stodOk s = .ok (.node [([], s)])) (n : Nat) (bs : List Branch)
    (hbs : ∀ b ∈ bs, b.kind.isSome = true) :
    passes env stodOk n (bs ++ [⟨s, none⟩]) = .error .throws := by
  induction n generalizing bs with
  | zero => rfl
  | succ n ih =>
    have hfold : ∀ k, k ≤ bs.length → (List.range k).foldlM (decomposeOne env stodOk) (bs ++ [⟨s, none⟩]) =
        .ok (bs ++ [⟨s, none⟩]) := by
      intro k
      induction k with
      | zero => intro _; rfl
      | succ k ihk =>
        intro hk
        rw [List.range_succ, List.foldlM_append, ihk (by omega)]
        have hb := hbs (bs[k]'(by omega)) (List.getElem_mem _)
        obtain ⟨d, hd⟩ := Option.isSome_iff_exists.mp hb
        show List.foldlM _ _ _ = _
        simp only [List.foldlM_cons, List.foldlM_nil, decomposeOne,
          List.getElem?_append_left (show k < bs.length by omega), List.getElem?_eq_getElem (show k < bs.length by omega), hd]
        rfl
    have hpass : pass env stodOk (bs ++ [⟨s, none⟩]) =
        .ok ((bs ++ [⟨s, some (.node [([], bs.length + 1)])⟩]) ++ [⟨s, none⟩]) := by
      unfold pass
      rw [List.length_append, List.length_singleton, List.range_succ, List.foldlM_append, hfold _ (Nat.le_refl _)]
      show List.foldlM _ _ _ = _
      simp only [List.foldlM_cons, List.foldlM_nil, decomposeOne, List.getElem?_append_right (Nat.le_refl _),
        Nat.sub_self, List.getElem?_cons_zero, hcl]
      simp
    rw [passes, hpass]
    simp only
    rw [if_neg (by simp [allDone])]
    apply ih
    intro b hb
    rcases List.mem_append.mp hb with hb | hb
    · exact hbs b hb
    · simp only [List.mem_singleton] at hb; subst hb; rfl

/-- C46, the part that holds: a function whose text is a plain name that is unknown (not a
    field, parameter, time derivative or component of a parameter, function, number, one of the
    predefined names, nor a component of the normal or tangent vector) makes the set-up throw.
    Missing: unknown names followed by an argument in parentheses, which are accepted
    (`C46_violated`). -/
theorem C46_unknown_name_rejected_partial (env : Env) (stodOk : Str → Bool) (s : Str) (hne : s ≠ [])
    (hsp : ∀ c ∈ s, c ∉ ['+', '-', '*', '/', '<', '>', '^', '(', ')']) 
    (hnum : ∃ c ∈ s, c ∉ digits ∧ c ≠ '.' ∧ c ≠ 'e' ∧ c ≠ 'E')
    (hn : s ∉ env.soln ++ env.scal ++ env.params ++ env.params.map dotName ++ env.funcs)
    (hk : s ∉ ["x", "y", "z", "u", "v", "w", "t", "pi", "h"].map String.toList)
    (hu : s ∉ ["n[x]", "n[y]", "n[z]", "t[x]", "t[y]", "t[z]"].map String.toList) :
    decomposeTree env stodOk s = .error .throws := by
  have hno : ∀ c ∈ s, isPm c = false ∧ isMdp c = false ∧ isPow c = false := by
    intro c hc
    have := hsp c hc
    simp only [List.mem_cons, List.not_mem_nil, or_false, not_or] at this
    simp [isPm, isMdp, isPow, this]
  have hparen : '(' ∉ s := fun hh => by simpa using hsp _ hh
  have hnum' : isScalar s = false := by
    obtain ⟨c, hc, h1, h2, h3, h4⟩ := hnum
    have := hsp c hc
    simp only [List.mem_cons, List.not_mem_nil, or_false, not_or] at this
    exact numFold_bad _ _ c hc (by simp [numChar, h1, h2, h3, h4]) this.1 this.2.1
  have hfix : fixMinus s = s := by
    unfold fixMinus
    rw [if_neg]
    intro hh
    cases s with
    | nil => simp at hh
    | cons c cs =>
      simp only [List.head?_cons, Option.some.injEq] at hh
      subst hh
      simpa using hsp '-' (by simp)
  have hop : isOperator knownOps s = .ok none := by
    have : knownOps.find? (opMatches s) = none := by
      rw [List.find?_eq_none]
      intro f _ hh
      simp only [opMatches, Bool.and_eq_true, beq_iff_eq] at hh
      apply hparen
      have h1 := hh.1.1.2
      exact List.mem_of_mem_drop (List.mem_of_mem_head? h1)
    simp only [isOperator, this]
  have hpi : ∀ p, p ≠ s → paramIdx p s = none := by
    intro p hp
    unfold paramIdx
    rw [if_neg (Ne.symm hp)]
    split
    · have hd : '(' ∉ s.drop p.length := fun hh => hparen (List.mem_of_mem_drop hh)
      split
      · rename_i d heq; rw [heq] at hd; simp at hd
      · rename_i d d' heq; rw [heq] at hd; simp at hd
      · rfl
    · rfl
  have lm : ∀ (f : Str → Option Nat) (l : List Str), (∀ p ∈ l, f p = none) → lastMatch f l 0 none = none := by
    intro f l hl
    cases hq : lastMatch f l 0 none with
    | none => rfl
    | some x =>
      rcases lastMatch_some _ _ _ _ _ hq with h' | ⟨p, hp, i, hi⟩
      · simp at h'
      · rw [hl p hp] at hi; simp at hi
  simp only [List.mem_append, not_or] at hn
  obtain ⟨⟨⟨⟨n1, n2⟩, n3⟩, n4⟩, n5⟩ := hn
  have hclass : classify env stodOk s = match split s with
      | .error e => .error e
      | .ok [] => if s ∈ unitNames then .ok (.node []) else .error .throws
      | .ok (c :: cs) => .ok (.node (c :: cs)) := by
    unfold classify
    rw [List.idxOf?_eq_none_iff.mpr n1, List.idxOf?_eq_none_iff.mpr n2]
    simp only
    rw [lm _ _ (fun p hp => hpi p (fun he => n3 (he ▸ hp)))]
    simp only
    rw [lm (fun p => paramDotIdx p s) _ (fun p hp => hpi _ (fun he => n4 (he ▸ List.mem_map.mpr ⟨p, hp, rfl⟩)))]
    simp only
    rw [lm _ _ (fun p hp => by rw [if_neg]; rintro rfl; exact n5 hp)]
    simp only
    rw [hnum']
    simp only [Bool.false_eq_true, if_false]
    rw [if_neg (show s ∉ knownVars from hk), hop]
    rfl
  by_cases hl : s.length = 1
  · have hs : split s = .ok [([], s)] := by
      unfold split
      rw [hfix]
      simp [hl]
    rw [hs] at hclass
    exact passes_single env stodOk s hclass maxPasses [] (by simp)
  · have hs : split s = .ok [] := by
      unfold split
      rw [hfix]
      have h0 : ¬ s.length = 0 := by simpa using hne
      simp only [h0, hl, if_false, countTop_none isPm s (fun c hc => (hno c hc).1),
        countTop_none isMdp s (fun c hc => (hno c hc).2.1), countTop_none isPow s (fun c hc => (hno c hc).2.2),
        gt_iff_lt, Nat.lt_irrefl, if_false]
      unfold splitNoOp
      rw [if_neg]
      · rw [firstParen_none]
        exact fun hh => hparen (List.mem_of_mem_tail (List.dropLast_subset _ hh))
      · rintro ⟨hh, _⟩
        exact hparen (List.mem_of_mem_head? hh)
    rw [hs] at hclass
    simp only at hclass
    rw [if_neg (show s ∉ unitNames from hu)] at hclass
    have hpass : pass env stodOk [⟨s, none⟩] = .error .throws := by
      simp only [pass, List.length_singleton, List.range_one, List.foldlM_cons,
        decomposeOne, List.getElem?_cons_zero, hclass]
      rfl
    have : ∀ n, passes env stodOk (n + 1) [⟨s, none⟩] = .error .throws := by
      intro n; rw [passes, hpass]
    exact this 99

/-- Non-vacuity: `k` and `foo` are unknown where only `x` and `mu` are known. -/
example : decomposeTree ⟨[], ["x".toList], ["mu".toList], ["f".toList]⟩ (fun _ => true) "foo".toList = .error .throws ∧
    decomposeTree ⟨[], ["x".toList], ["mu".toList], ["f".toList]⟩ (fun _ => true) "k".toList = .error .throws :=
  ⟨C46_unknown_name_rejected_partial _ _ _ (by decide) (by decide) (by decide) (by decide) (by decide) (by decide),
   C46_unknown_name_rejected_partial _ _ _ (by decide) (by decide) (by decide) (by decide) (by decide) (by decide)⟩

end MrHyDE.Expr
