import Verif.Workset.Spec

namespace MrHyDE.Workset

/-! ### Substrings -/

theorem has_iff (p s : Str) : has p s = true ↔ p <:+: s := by
  unfold has
  rw [List.any_eq_true]
  constructor
  · rintro ⟨t, ht, hp⟩
    rw [List.mem_tails] at ht
    rw [List.isPrefixOf_iff_prefix] at hp
    exact hp.isInfix.trans ht.isInfix
  · rintro ⟨a, b, rfl⟩
    refine ⟨p ++ b, ?_, ?_⟩
    · rw [List.mem_tails]; exact ⟨a, by simp⟩
    · rw [List.isPrefixOf_iff_prefix]; exact ⟨b, rfl⟩

theorem infix_sep {p a b : Str} {c : Char} (hc : c ∉ p) :
    p <:+: a ++ c :: b ↔ p <:+: a ∨ p <:+: b := by
  constructor
  · rintro ⟨x, y, h⟩
    rw [List.append_assoc] at h
    rcases List.append_eq_append_iff.mp h with ⟨u, h1, h2⟩ | ⟨u, h1, h2⟩
    · -- a = x ++ u, p ++ y = u ++ c :: b
      rcases List.append_eq_append_iff.mp h2 with ⟨w, h3, h4⟩ | ⟨w, h3, h4⟩
      · left; exact ⟨x, w, by rw [h1, h3]; simp⟩
      · cases w with
        | nil => left; exact ⟨x, [], by rw [h1, h3]; simp⟩
        | cons w0 w =>
          rw [List.cons_append] at h4
          injection h4 with h5 h6
          exact absurd (by rw [h3, h5]; simp) hc
    · -- x = a ++ u, c :: b = u ++ (p ++ y)
      cases u with
      | nil =>
        cases p with
        | nil => left; exact List.nil_infix
        | cons p0 p =>
          simp only [List.nil_append, List.cons_append] at h2
          injection h2 with h5 h6
          exact absurd (by rw [h5]; simp) hc
      | cons u0 u =>
        rw [List.cons_append] at h2
        injection h2 with h5 h6
        right; exact ⟨u, y, by rw [h6]; simp⟩
  · rintro (⟨x, y, rfl⟩ | ⟨x, y, rfl⟩)
    · exact ⟨x, y ++ c :: b, by simp⟩
    · exact ⟨a ++ c :: x, y, by simp⟩

theorem infix_head {p a b : Str} {c : Char} (hc : c ∉ a) :
    (c :: p) <:+: a ++ b ↔ (c :: p) <:+: b := by
  constructor
  · rintro ⟨x, y, h⟩
    rw [List.append_assoc] at h
    rcases List.append_eq_append_iff.mp h with ⟨u, h1, h2⟩ | ⟨u, h1, h2⟩
    · cases u with
      | nil => exact ⟨[], y, by rw [List.nil_append]; simpa using h2⟩
      | cons u0 u =>
        rw [List.cons_append, List.cons_append] at h2
        injection h2 with h5 h6
        exact absurd (by rw [h1, h5]; simp) hc
    · exact ⟨u, y, by rw [h2]; simp⟩
  · rintro ⟨x, y, rfl⟩
    exact ⟨a ++ x, y, by simp⟩

/-- The derivative a text is classified as, from which patterns occur in it. -/
theorem dtype_of {s : Str} (hg hd hc ht : Bool)
    (h1 : has "grad".toList s = hg) (h2 : has "div".toList s = hd)
    (h3 : has "curl".toList s = hc) (h4 : has "_t".toList s = ht)
    (h5 : has "phasegrad".toList s = false) (h6 : has "phasediv".toList s = false)
    (h7 : has "phasecurl".toList s = false) :
    dtype s = if ht then .time else if hc then .curl else if hd then .div
      else if hg then .grad else .plain := by
  unfold dtype
  rw [h1, h2, h3, h4, h5, h6, h7]
  cases hg <;> cases hd <;> cases hc <;> cases ht <;> rfl

theorem has_false {p s : Str} (h : ¬ p <:+: s) : has p s = false := by
  rw [← Bool.not_eq_true, has_iff]; exact h

theorem has_true {p s : Str} (h : p <:+: s) : has p s = true := (has_iff p s).mpr h

/-- The bare pattern of a label `pre ++ v ++ post` where `v` does not contain it. -/
theorem has_wrap {p pre v post : Str} {c0 c1 : Char} (h0 : c0 ∉ p) (h1 : c1 ∉ p)
    (hv : ¬ p <:+: v) :
    (p <:+: (pre ++ c0 :: (v ++ c1 :: post))) ↔ (p <:+: pre ∨ p <:+: post) := by
  rw [infix_sep h0, infix_sep h1]
  simp [hv]

theorem has_post {p v post : Str} {c1 : Char} (h1 : c1 ∉ p) (hv : ¬ p <:+: v) :
    (p <:+: (v ++ c1 :: post)) ↔ (p <:+: post) := by
  rw [infix_sep h1]
  simp [hv]

/-- A label as text around the name. -/
theorem label_shape (v : Str) (q : Qty) :
    q.label v = match q with
      | .val => v
      | .valc a => v ++ a.text
      | .grad a => "grad".toList ++ '(' :: (v ++ ')' :: a.text)
      | .div => "div".toList ++ '(' :: (v ++ ')' :: [])
      | .curl => "curl".toList ++ '(' :: (v ++ ')' :: [])
      | .curlc a => "curl".toList ++ '(' :: (v ++ ')' :: a.text)
      | .dt => v ++ '_' :: "t".toList
      | .dtc a => v ++ '_' :: ('t' :: a.text) := by
  cases q <;> simp [Qty.label]

/-- A pattern of letters that the name does not contain is in the label only if it is in the word in
front of the parenthesis. -/
theorem letters_in_label {p v : Str} (q : Qty) (hp : p ≠ []) (h0 : '(' ∉ p) (h1 : ')' ∉ p)
    (h2 : '[' ∉ p) (h3 : '_' ∉ p) (h4 : ']' ∉ p)
    (ht : ¬ p <:+: "t".toList) (hx : ¬ p <:+: "x".toList) (hy : ¬ p <:+: "y".toList)
    (hz : ¬ p <:+: "z".toList)
    (hv : ¬ p <:+: v) :
    p <:+: q.label v ↔ p <:+: (match q with
      | .grad _ => "grad".toList | .div => "div".toList
      | .curl | .curlc _ => "curl".toList | _ => []) := by
  have hax : ∀ (a : Axis) (l : Str), (p <:+: l ++ a.text) ↔ p <:+: l := by
    intro a l
    have hnil : ¬ p <:+: [] := by simpa using hp
    cases a
    · show p <:+: l ++ '[' :: ("x".toList ++ ']' :: []) ↔ _
      rw [infix_sep h2, infix_sep h4]; simp only [hx, hnil, or_false]
    · show p <:+: l ++ '[' :: ("y".toList ++ ']' :: []) ↔ _
      rw [infix_sep h2, infix_sep h4]; simp only [hy, hnil, or_false]
    · show p <:+: l ++ '[' :: ("z".toList ++ ']' :: []) ↔ _
      rw [infix_sep h2, infix_sep h4]; simp only [hz, hnil, or_false]
  have hnil : ¬ p <:+: [] := by simpa using hp
  have haxt : ∀ a : Axis, ¬ p <:+: a.text := by
    intro a; have := hax a []; rw [List.nil_append] at this; rw [this]; exact hnil
  rw [label_shape]
  cases q with
  | val => simp [hv, hnil]
  | valc a => simp only [hax]; simp [hv, hnil]
  | grad a => simp only [has_wrap h0 h1 hv, haxt, or_false]
  | div => simp only [has_wrap h0 h1 hv, hnil, or_false]
  | curl => simp only [has_wrap h0 h1 hv, hnil, or_false]
  | curlc a => simp only [has_wrap h0 h1 hv, haxt, or_false]
  | dt => simp only [has_post h3 hv, ht, hnil]
  | dtc a =>
    simp only [has_post h3 hv, hnil, iff_false]
    have := hax a "t".toList
    intro h
    exact ht (this.mp h)

theorem plain_phase {v w p : Str} (h : ¬ p <:+: v) (hp : p <:+: w) : ¬ w <:+: v :=
  fun hw => h (hp.trans hw)

theorem t_in_label {v : Str} (q : Qty) (hv : ¬ "_t".toList <:+: v) :
    "_t".toList <:+: q.label v ↔ q.kind = .time := by
  have h0 : '(' ∉ "_t".toList := by decide
  have h1 : ')' ∉ "_t".toList := by decide
  have h2 : '[' ∉ "_t".toList := by decide
  have hax : ∀ (a : Axis), ¬ "_t".toList <:+: a.text := by intro a; cases a <;> decide
  have hax2 : ∀ (a : Axis), ¬ "_t".toList <:+: v ++ a.text := by
    intro a
    cases a
    · show ¬ ("_t".toList <:+: v ++ '[' :: "x]".toList)
      rw [infix_sep h2]; rintro (h | h); exact hv h; revert h; decide
    · show ¬ ("_t".toList <:+: v ++ '[' :: "y]".toList)
      rw [infix_sep h2]; rintro (h | h); exact hv h; revert h; decide
    · show ¬ ("_t".toList <:+: v ++ '[' :: "z]".toList)
      rw [infix_sep h2]; rintro (h | h); exact hv h; revert h; decide
  rw [label_shape]
  cases q with
  | val => simp only [Qty.kind]; exact ⟨fun h => absurd h hv, fun h => by cases h⟩
  | valc a => simp only [Qty.kind]; exact ⟨fun h => absurd h (hax2 a), fun h => by cases h⟩
  | grad a =>
    simp only [has_wrap h0 h1 hv, hax, or_false, Qty.kind]
    exact ⟨fun h => absurd h (by decide), fun h => by cases h⟩
  | div =>
    simp only [has_wrap h0 h1 hv, Qty.kind]
    exact ⟨fun h => absurd h (by decide), fun h => by cases h⟩
  | curl =>
    simp only [has_wrap h0 h1 hv, Qty.kind]
    exact ⟨fun h => absurd h (by decide), fun h => by cases h⟩
  | curlc a =>
    simp only [has_wrap h0 h1 hv, hax, or_false, Qty.kind]
    exact ⟨fun h => absurd h (by decide), fun h => by cases h⟩
  | dt => simp only [Qty.kind, iff_true]; exact ⟨v, [], by simp⟩
  | dtc a => simp only [Qty.kind, iff_true]; exact ⟨v, a.text, by simp⟩

/-- A bracketed pattern is in the label exactly if the axis is that one. -/
theorem axis_in_label {v : Str} (c : Char) (q : Qty) (hv : '[' ∉ v) :
    ['[', c, ']'] <:+: q.label v ↔ ['[', c, ']'] <:+: (match q with
      | .valc a | .grad a | .curlc a | .dtc a => a.text | _ => []) := by
  have hs : ∀ a : Str, '[' ∉ a → ¬ ['[', c, ']'] <:+: a := by
    intro a ha h
    exact ha (h.mem (by simp))
  cases q with
  | val => simp only [Qty.label]; exact ⟨fun h => absurd h (hs _ hv), fun h => by simp at h⟩
  | valc a => simp only [Qty.label]; rw [infix_head hv]
  | grad a => simp only [Qty.label]; rw [infix_head (by simp [hv])]
  | div => simp only [Qty.label]; exact ⟨fun h => absurd h (hs _ (by simp [hv])), fun h => by simp at h⟩
  | curl => simp only [Qty.label]; exact ⟨fun h => absurd h (hs _ (by simp [hv])), fun h => by simp at h⟩
  | curlc a => simp only [Qty.label]; rw [infix_head (by simp [hv])]
  | dt => simp only [Qty.label]; exact ⟨fun h => absurd h (hs _ (by simp [hv])), fun h => by simp at h⟩
  | dtc a => simp only [Qty.label]; rw [infix_head (by simp [hv])]

theorem dtype_label {v : Str} (hv : PlainName v) (q : Qty) : dtype (q.label v) = q.kind := by
  obtain ⟨hg, hd, hc, ht, -, -, -⟩ := hv
  have e1 : has "phasegrad".toList (q.label v) = false := by
    apply has_false
    rw [letters_in_label q (by decide) (by decide) (by decide) (by decide) (by decide) (by decide)
      (by decide) (by decide) (by decide) (by decide) (plain_phase hg (by decide))]
    cases q <;> dsimp only [Qty.kind] <;> decide
  have e2 : has "phasediv".toList (q.label v) = false := by
    apply has_false
    rw [letters_in_label q (by decide) (by decide) (by decide) (by decide) (by decide) (by decide)
      (by decide) (by decide) (by decide) (by decide) (plain_phase hd (by decide))]
    cases q <;> dsimp only [Qty.kind] <;> decide
  have e3 : has "phasecurl".toList (q.label v) = false := by
    apply has_false
    rw [letters_in_label q (by decide) (by decide) (by decide) (by decide) (by decide) (by decide)
      (by decide) (by decide) (by decide) (by decide) (plain_phase hc (by decide))]
    cases q <;> dsimp only [Qty.kind] <;> decide
  have f1 : has "grad".toList (q.label v) = decide (q.kind = .grad) := by
    rw [Bool.eq_iff_iff, has_iff, decide_eq_true_iff,
      letters_in_label q (by decide) (by decide) (by decide) (by decide) (by decide) (by decide)
      (by decide) (by decide) (by decide) (by decide) hg]
    cases q <;> dsimp only [Qty.kind] <;> decide
  have f2 : has "div".toList (q.label v) = decide (q.kind = .div) := by
    rw [Bool.eq_iff_iff, has_iff, decide_eq_true_iff,
      letters_in_label q (by decide) (by decide) (by decide) (by decide) (by decide) (by decide)
      (by decide) (by decide) (by decide) (by decide) hd]
    cases q <;> dsimp only [Qty.kind] <;> decide
  have f3 : has "curl".toList (q.label v) = decide (q.kind = .curl) := by
    rw [Bool.eq_iff_iff, has_iff, decide_eq_true_iff,
      letters_in_label q (by decide) (by decide) (by decide) (by decide) (by decide) (by decide)
      (by decide) (by decide) (by decide) (by decide) hc]
    cases q <;> dsimp only [Qty.kind] <;> decide
  have f4 : has "_t".toList (q.label v) = decide (q.kind = .time) := by
    rw [Bool.eq_iff_iff, has_iff, decide_eq_true_iff, t_in_label q ht]
  rw [dtype_of _ _ _ _ f1 f2 f3 f4 e1 e2 e3]
  cases q <;> rfl

theorem component_label {v : Str} (hv : '[' ∉ v) (q : Qty) : component (q.label v) = q.comp := by
  have h : ∀ c : Char, has ['[', c, ']'] (q.label v) = has ['[', c, ']'] (match q with
      | .valc a | .grad a | .curlc a | .dtc a => a.text | _ => []) := by
    intro c
    rw [Bool.eq_iff_iff, has_iff, has_iff, axis_in_label c q hv]
  have hx := h 'x'
  have hy := h 'y'
  have hz := h 'z'
  have hu := h 'u'
  have hvv := h 'v'
  have hw := h 'w'
  show (if has ['[', 'w', ']'] (q.label v) then 5 else if has ['[', 'v', ']'] (q.label v) then 4
    else if has ['[', 'u', ']'] (q.label v) then 3 else if has ['[', 'z', ']'] (q.label v) then 2
    else if has ['[', 'y', ']'] (q.label v) then 1 else if has ['[', 'x', ']'] (q.label v) then 0
    else 0) = q.comp
  rw [hx, hy, hz, hu, hvv, hw]
  cases q with
  | val => rfl
  | valc a => cases a <;> rfl
  | grad a => cases a <;> rfl
  | div => rfl
  | curl => rfl
  | curlc a => cases a <;> rfl
  | dt => rfl
  | dtc a => cases a <;> rfl

end MrHyDE.Workset
