import Verif.Expr.Spec
import Mathlib.Tactic.Common
import Mathlib.Tactic.SplitIfs

/-
Helper lemmas: the splitting functions applied to the text of a well-formed expression.
-/

namespace MrHyDE.Expr

/-- Read a text from depth `d`; fail on an unmatched `)` or on a character of the class `p`
    at depth zero. -/
def scan (p : Char → Bool) : Nat → Str → Option Nat
  | d, [] => some d
  | d, c :: cs =>
    if c = '(' then scan p (d + 1) cs
    else if c = ')' then (match d with | 0 => none | d' + 1 => scan p d' cs)
    else if d = 0 ∧ p c = true then none
    else scan p d cs

theorem scan_append (p : Char → Bool) (s t : Str) (d d' : Nat) (h : scan p d s = some d') :
    scan p d (s ++ t) = scan p d' t := by
  induction s generalizing d with
  | nil => simp [scan] at h; simp [h]
  | cons c cs ih =>
    simp only [List.cons_append, scan] at h ⊢
    split_ifs at h ⊢ with h1 h2 h3
    · exact ih _ h
    · cases d with
      | zero => simp at h
      | succ d => exact ih _ h
    · exact ih _ h

theorem scan_cons_op (p : Char → Bool) (c : Char) (t : Str) (d : Nat) (h1 : c ≠ '(') (h2 : c ≠ ')')
    (h3 : p c = false) : scan p d (c :: t) = scan p d t := by
  simp [scan, h1, h2, h3]

theorem scan_mono (p q : Char → Bool) (hpq : ∀ c, p c = true → q c = true) (s : Str) (d d' : Nat)
    (h : scan q d s = some d') : scan p d s = some d' := by
  induction s generalizing d with
  | nil => simpa [scan] using h
  | cons c cs ih =>
    simp only [scan] at h ⊢
    by_cases h1 : c = '('
    · simp only [h1, if_true] at h ⊢; exact ih _ h
    by_cases h2 : c = ')'
    · simp only [h2, if_true] at h ⊢
      cases d with
      | zero => simp at h
      | succ d => simp at h; simpa using ih _ h
    simp only [h1, h2, if_false] at h ⊢
    by_cases h3 : d = 0 ∧ q c = true
    · simp [h3] at h
    · rw [if_neg h3] at h
      rw [if_neg (fun h4 => h3 ⟨h4.1, hpq _ h4.2⟩)]
      exact ih _ h

/-- Inside parentheses no character is at depth zero. -/
theorem scan_shift (p q : Char → Bool) (s : Str) (d d' k : Nat) (h : scan q d s = some d') :
    scan p (d + k + 1) s = some (d' + k + 1) := by
  induction s generalizing d with
  | nil => simp [scan] at h; simp [scan, h]
  | cons c cs ih =>
    simp only [scan] at h ⊢
    by_cases h1 : c = '('
    · simp only [h1, if_true] at h ⊢
      have := ih _ h
      rwa [show d + 1 + k + 1 = d + k + 1 + 1 by omega] at this
    by_cases h2 : c = ')'
    · simp only [h2, if_true] at h ⊢
      cases d with
      | zero => simp at h
      | succ d =>
        simp at h
        have := ih _ h
        simp only [show d + 1 + k = d + k + 1 by omega]
        simpa using this
    simp only [h1, h2, if_false] at h ⊢
    rw [if_neg (by omega)]
    by_cases h3 : d = 0 ∧ q c = true
    · simp [h3] at h
    · rw [if_neg h3] at h
      exact ih _ h

/-- A parenthesised balanced text is quiet for every class. -/
theorem scan_paren (p q : Char → Bool) (s : Str) (h : scan q 0 s = some 0) :
    scan p 0 ('(' :: s ++ [')']) = some 0 := by
  have h1 : scan p 1 s = some 1 := by simpa using scan_shift p q s 0 0 0 h
  rw [List.cons_append, scan, if_pos rfl, scan_append p s _ _ _ h1]
  simp [scan]

/-- A text without parentheses and without characters of the class. -/
theorem scan_plain (p : Char → Bool) (s : Str) (d : Nat) (h : ∀ c ∈ s, c ≠ '(' ∧ c ≠ ')' ∧ p c = false) :
    scan p d s = some d := by
  induction s with
  | nil => rfl
  | cons c cs ih =>
    obtain ⟨h1, h2, h3⟩ := h c (by simp)
    simp only [scan, h1, h2, h3, if_false]
    simpa using ih (fun c hc => h c (by simp [hc]))

/-- A text with matched parentheses and no characters of the class. -/
theorem scan_matched (p : Char → Bool) (s : Str) (d : Nat) (hp : ∀ c ∈ s, p c = false)
    (h : ∀ q, q <+: s → q.count ')' ≤ q.count '(' + d) :
    scan p d s = some (d + s.count '(' - s.count ')') := by
  induction s generalizing d with
  | nil => simp [scan]
  | cons c cs ih =>
    have hcs : ∀ c ∈ cs, p c = false := fun x hx => hp x (by simp [hx])
    simp only [scan]
    split_ifs with h1 h2 h3
    · subst h1
      rw [ih (d + 1) hcs]
      · simp; omega
      · intro q hq
        have := h ('(' :: q) (by simpa using hq)
        simp at this; omega
    · subst h2
      cases d with
      | zero =>
        have := h [')'] (by simp)
        simp at this
      | succ d =>
        simp only
        rw [ih d hcs]
        · simp; omega
        · intro q hq
          have := h (')' :: q) (by simpa using hq)
          simp at this; omega
    · simp [hp c (by simp)] at h3
    · rw [ih d hcs]
      · simp [h1, h2]
      · intro q hq
        have := h (c :: q) (by simpa using hq)
        simpa [List.count_cons, h1, h2] using this

/-! ### Counting and splitting -/

theorem countTop_quiet (p q : Char → Bool) (hpq : ∀ c, p c = true → q c = true) (s t : Str) (d d' : Nat)
    (h : scan q d s = some d') : countTop p (d : Int) (s ++ t) = countTop p (d' : Int) t := by
  induction s generalizing d with
  | nil => simp [scan] at h; simp [h]
  | cons c cs ih =>
    simp only [scan] at h
    simp only [List.cons_append, countTop]
    by_cases h1 : c = '('
    · simp only [h1, if_true] at h ⊢
      have := ih _ h; push_cast at this; exact this
    by_cases h2 : c = ')'
    · simp only [h2, if_true] at h ⊢
      cases d with
      | zero => simp at h
      | succ d =>
        simp at h
        have := ih _ h
        rw [show ((d + 1 : Nat) : Int) - 1 = (d : Int) by push_cast; omega]
        simpa using this
    simp only [h1, h2, if_false] at h ⊢
    by_cases h3 : d = 0 ∧ q c = true
    · simp [h3] at h
    · rw [if_neg h3] at h
      rw [if_neg (fun h4 => h3 ⟨by omega, hpq _ h4.2⟩)]
      exact ih _ h

theorem countTop_zero (p q : Char → Bool) (hpq : ∀ c, p c = true → q c = true) (s : Str)
    (h : scan q 0 s = some 0) : countTop p 0 s = 0 := by
  have := countTop_quiet p q hpq s [] 0 0 h
  simpa [countTop] using this

theorem countTop_pos (p : Char → Bool) (s t : Str) (c : Char) (h : scan (fun _ => false) 0 s = some 0)
    (hc : p c = true) (h1 : c ≠ '(') (h2 : c ≠ ')') : 0 < countTop p 0 (s ++ c :: t) := by
  -- the count over `s` is at least zero; the character `c` adds one
  have key : ∀ (s : Str) (d : Nat), scan (fun _ => false) d s = some 0 →
      0 < countTop p (d : Int) (s ++ c :: t) := by
    intro s
    induction s with
    | nil =>
      intro d hd
      simp [scan] at hd; subst hd
      simp [countTop, h1, h2, hc]
    | cons x xs ih =>
      intro d hd
      simp only [scan] at hd
      simp only [List.cons_append, countTop]
      by_cases g1 : x = '('
      · simp only [g1, if_true] at hd ⊢
        have := ih _ hd; push_cast at this; exact this
      by_cases g2 : x = ')'
      · simp only [g2, if_true] at hd ⊢
        cases d with
        | zero => simp at hd
        | succ d =>
          simp at hd
          have := ih _ hd
          rw [show ((d + 1 : Nat) : Int) - 1 = (d : Int) by push_cast; omega]
          simpa using this
      simp only [g1, g2, if_false] at hd ⊢
      simp at hd
      split
      · omega
      · exact ih _ hd
  have := key s 0 h
  simpa using this

/-- The class of characters at which a level splits. -/
structure Level.Splits (L : Level) (p : Char → Bool) : Prop where
  op : ∀ c n r, L.opOf c n = some r → p c = true

theorem splitRun_append (L : Level) (s t : Str) (st : SplitSt)
    (h : ∀ c ∈ s, ∀ n n', L.opOf c n = L.opOf c n') :
    splitRun L st (s ++ t) = splitRun L (splitRun L st s) t := by
  induction s generalizing st with
  | nil => rfl
  | cons c cs ih =>
    simp only [List.cons_append, splitRun]
    rw [ih _ (fun x hx => h x (by simp [hx]))]
    have : ∀ n n', splitStep L st c n = splitStep L st c n' := by
      intro n n'
      simp only [splitStep, h c (by simp) n n']
    rw [this _ cs.head?]

theorem splitRun_quiet (L : Level) (p : Char → Bool) (hL : L.Splits p) (s : Str)
    (hs : ∀ c ∈ s, L.skip c = false) (t : Str) (d d' : Nat) (h : scan p d s = some d')
    (cur : Str) (op : Op) (acc : List (Op × Str)) :
    splitRun L ⟨d, cur, op, acc, false⟩ (s ++ t) = splitRun L ⟨d', cur ++ s, op, acc, false⟩ t := by
  induction s generalizing d cur with
  | nil => simp [scan] at h; simp [h]
  | cons c cs ih =>
    have hsk := hs c (by simp)
    have hcs : ∀ c ∈ cs, L.skip c = false := fun x hx => hs x (by simp [hx])
    simp only [scan] at h
    simp only [List.cons_append, splitRun, splitStep, hsk]
    by_cases h1 : c = '('
    · subst h1
      simp only [if_true] at h ⊢
      have := ih hcs _ h (cur ++ ['('])
      push_cast at this; simpa using this
    by_cases h2 : c = ')'
    · subst h2
      simp only [if_true] at h ⊢
      cases d with
      | zero => simp at h
      | succ d =>
        simp at h
        have := ih hcs _ h (cur ++ [')'])
        simpa using this
    simp only [h1, h2, if_false] at h ⊢
    by_cases h3 : d = 0 ∧ p c = true
    · simp [h3] at h
    rw [if_neg h3] at h
    have hi := ih hcs _ h (cur ++ [c])
    simp only [Bool.false_eq_true, if_false]
    split
    · rename_i h4
      cases ho : L.opOf c (cs ++ t).head? with
      | none => simpa using hi
      | some r => exact absurd ⟨by have := h4.1; omega, hL.op _ _ _ ho⟩ h3
    · simpa using hi

end MrHyDE.Expr
