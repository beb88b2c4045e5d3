import Verif.Expr.ClassifyLemmas
import Mathlib.Data.List.Nodup

/-
Helper lemmas: `classify` applied to the text of a well-formed expression.
-/

namespace MrHyDE.Expr

variable {names : Str → Prop} {K : Type}

/-- Texts that may be found among names: no special characters, not starting with a
    parenthesis or a built-in call, not a number. -/
structure NameLike (s : Str) : Prop where
  noSpecial : ∀ c ∈ s, c ∉ specials
  noParen : s.head? ≠ some '('
  notCall : ∀ f ∈ knownOps, ¬ (f ++ ['(']) <+: s
  notNum : ∃ c ∈ s, ¬ numChar c

theorem knownOps_eq : ["sin", "cos", "exp", "log", "tan", "abs", "max", "min", "mean", "emax", "emin",
    "emean", "sqrt", "sinh", "cosh"].map String.toList = knownOps := rfl

theorem NameOk.like {s : Str} (h : NameOk s) : NameLike s where
  noSpecial := h.noSpecial
  noParen := h.noParen
  notCall := fun f hf => (h.notOp f hf).2
  notNum := by
    obtain ⟨c, hc, h1, h2, h3, h4⟩ := h.notNum
    exact ⟨c, hc, by simp [numChar, h1, h2, h3, h4]⟩

/-- Appending a suffix to a name that is not a built-in function. -/
theorem NameLike.append {p t : Str} (h : NameLike p) (hp : p ∉ knownOps) (hne : p ≠ [])
    (ht : ∀ c ∈ t, c ∉ specials) (htp : '(' ∉ t ∨ ∃ u, t = '(' :: u) : NameLike (p ++ t) where
  noSpecial := by
    intro c hc
    rcases List.mem_append.mp hc with hc | hc
    · exact h.noSpecial c hc
    · exact ht c hc
  noParen := by
    cases p with
    | nil => simp at hne
    | cons c cs => simpa using h.noParen
  notCall := by
    rintro f hf ⟨v, hv⟩
    have hfp := (knownOps_plain f hf).2
    rw [List.append_assoc] at hv
    rcases List.append_eq_append_iff.mp hv with ⟨x, h1, h2⟩ | ⟨x, h1, h2⟩
    · -- `p = f ++ x`
      cases x with
      | nil => exact hp (by rw [h1, List.append_nil]; exact hf)
      | cons y ys =>
        simp only [List.cons_append, List.nil_append, List.cons.injEq] at h2
        refine h.notCall f hf ⟨ys, ?_⟩
        rw [h1, ← h2.1]; simp
    · -- `f = p ++ x`
      cases x with
      | nil => exact hp (by rw [List.append_nil] at h1; rw [← h1]; exact hf)
      | cons y ys =>
        rcases htp with htp | ⟨u, rfl⟩
        · exact htp (by rw [h2]; simp)
        · simp only [List.cons_append, List.cons.injEq] at h2
          exact (hfp y (by rw [h1]; simp)).1 h2.1.symm
  notNum := by
    obtain ⟨c, hc, h1⟩ := h.notNum
    exact ⟨c, by simp [hc], h1⟩

theorem digits_notSpecial (c : Char) (h : c ∈ digits) : c ∉ specials :=
  (numChar_plain c (Or.inl h)).2.2

/-- A match with a parameter name: the name itself or a component. -/
theorem paramIdx_iff (p s : Str) (i : Nat) : paramIdx p s = some i ↔ (s = p ∧ i = 0) ∨ Comp p i s := by
  have dv : ∀ c, digitVal c = c.toNat - '0'.toNat := fun _ => rfl
  constructor
  · intro h
    unfold paramIdx at h
    split at h
    · rename_i h1; left; simp at h; exact ⟨h1, h.symm⟩
    · split at h
      · rename_i h1
        rw [List.isPrefixOf_iff_prefix] at h1
        obtain ⟨t, rfl⟩ := h1
        rw [List.drop_left] at h
        right
        split at h
        · rename_i d _
          split at h
          · rename_i hd
            simp only [Option.some.injEq] at h
            exact ⟨[d], Or.inl rfl, by simpa using mem_of_isDigit d hd, by simp, by simp [← h, dv]⟩
          · simp at h
        · rename_i d d' _
          split at h
          · rename_i hd
            simp only [Bool.and_eq_true] at hd
            simp only [Option.some.injEq] at h
            refine ⟨[d, d'], Or.inr rfl, ?_, by simp, by simp [← h, dv]⟩
            simp [mem_of_isDigit _ hd.1, mem_of_isDigit _ hd.2]
          · simp at h
        · simp at h
      · simp at h
  · rintro (⟨rfl, rfl⟩ | ⟨ds, hl, hd, rfl, rfl⟩)
    · simp [paramIdx]
    · have h1 : p ++ '(' :: ds ++ [')'] ≠ p := by
        intro h
        have := congrArg List.length h
        simp at this
      have h2 : p.isPrefixOf (p ++ '(' :: ds ++ [')']) = true := by
        rw [List.isPrefixOf_iff_prefix, List.append_assoc]
        exact List.prefix_append _ _
      have h3 : (p ++ '(' :: ds ++ [')']).drop p.length = '(' :: ds ++ [')'] := by
        rw [List.append_assoc, List.drop_left]
      simp only [paramIdx, h1, if_false, h2, if_true, h3]
      match ds, hl with
      | [d], _ => simp [isDigit_of_mem d (hd d (by simp)), dv]
      | [d, d'], _ =>
        simp [isDigit_of_mem d (hd d (by simp)), isDigit_of_mem d' (hd d' (by simp)), dv]
      | [], h => simp at h
      | _ :: _ :: _ :: _, h => simp at h

theorem Comp.like {p s : Str} {i : Nat} (h : Comp p i s) (hl : NameLike p) (hp : p ∉ knownOps) (hne : p ≠ []) :
    NameLike s := by
  obtain ⟨ds, _, hd, rfl, _⟩ := h
  rw [List.append_assoc]
  refine hl.append hp hne ?_ (Or.inr ⟨_, rfl⟩)
  intro c hc
  simp only [List.cons_append, List.mem_cons, List.mem_append, List.not_mem_nil, or_false] at hc
  rcases hc with rfl | hc | rfl
  · decide
  · exact digits_notSpecial c (hd c hc)
  · decide

/-- Components of different vectors have different texts. -/
theorem Comp.inj {p q s : Str} {i j : Nat} (h : Comp p i s) (h' : Comp q j s) : p = q ∧ i = j := by
  obtain ⟨ds, hl, hd, hs, rfl⟩ := h
  obtain ⟨es, hl', hd', hs', rfl⟩ := h'
  rw [hs] at hs'
  have h1 := (List.append_inj' hs' rfl).1
  have nd : ∀ c, c ∈ digits → c ≠ '(' := by decide
  have key : ds.reverse ++ '(' :: p.reverse = es.reverse ++ '(' :: q.reverse := by
    have := congrArg List.reverse h1
    simpa using this
  have := call_inj (fun hm => nd _ (hd _ (List.mem_reverse.mp hm)) rfl)
    (fun hm => nd _ (hd' _ (List.mem_reverse.mp hm)) rfl) key
  exact ⟨List.reverse_inj.mp this.2, by rw [List.reverse_inj.mp this.1]⟩

theorem NameOk.notKnownOp {s : Str} (h : NameOk s) : s ∉ knownOps :=
  fun hm => (h.notOp s hm).1 rfl

theorem dot_like {p : Str} (h : NameOk p) : NameLike (dotName p) ∧ dotName p ∉ knownOps ∧ dotName p ≠ [] := by
  refine ⟨h.like.append h.notKnownOp h.nonempty (by decide) (Or.inl (by decide)), ?_, by simp [dotName]⟩
  intro hm
  exact ((knownOps_plain _ hm).2 '_' (by simp [dotName])).2.2.2.2 rfl

theorem lastMatch_none (f : Str → Option Nat) (ps : List Str) (j : Nat) (r : Option (Nat × Nat))
    (h : ∀ p ∈ ps, f p = none) : lastMatch f ps j r = r := by
  induction ps generalizing j with
  | nil => rfl
  | cons p ps ih =>
    simp only [lastMatch, h p (by simp)]
    exact ih _ (fun q hq => h q (by simp [hq]))

/-- If exactly one entry matches, the search finds it. -/
theorem lastMatch_unique (f : Str → Option Nat) (ps : List Str) (j0 j i : Nat) (p : Str) (r : Option (Nat × Nat))
    (hp : ps[j]? = some p) (hf : f p = some i) (hn : ps.Nodup) (h : ∀ q ∈ ps, q ≠ p → f q = none) :
    lastMatch f ps j0 r = some (j0 + j, i) := by
  induction ps generalizing j0 j r with
  | nil => simp at hp
  | cons q qs ih =>
    rw [List.nodup_cons] at hn
    cases j with
    | zero =>
      simp only [List.getElem?_cons_zero, Option.some.injEq] at hp
      subst hp
      simp only [lastMatch, hf]
      rw [lastMatch_none]
      · rfl
      · intro x hx
        exact h x (by simp [hx]) (fun hxp => hn.1 (hxp ▸ hx))
    | succ j =>
      simp only [List.getElem?_cons_succ] at hp
      simp only [lastMatch]
      rw [ih _ _ _ hp hn.2 (fun x hx => h x (by simp [hx]))]
      simp; omega

/-- The text of anything but a name matches no name. -/
theorem text_notLike (e : Ex) (h : e.Ok names) (hn : ∀ s, e ≠ .name s) :
    ¬ NameLike e.text := by
  intro hl
  have op : ∀ c ∈ specials, c ∉ e.text := fun c hc hm => hl.noSpecial c hm hc
  cases e with
  | num s =>
    obtain ⟨c, hc, hb⟩ := hl.notNum
    exact hb ((numLit_chars h).2 c hc)
  | name s => exact hn s rfl
  | paren a => exact hl.noParen (by simp [Ex.text])
  | fn f a =>
    refine hl.notCall f (fnNames_known f (fn_mem h.1)) ⟨a.text ++ [')'], ?_⟩
    simp [Ex.text]
  | fn2 f a b =>
    refine hl.notCall f (fnNames_known f (fn2_mem h.1)) ⟨a.text ++ ',' :: b.text ++ [')'], ?_⟩
    simp [Ex.text]
  | pow a b => exact op '^' (by decide) (by simp [Ex.text])
  | mul a b => exact op '*' (by decide) (by simp [Ex.text])
  | div a b => exact op '/' (by decide) (by simp [Ex.text])
  | lt a b => exact op '<' (by decide) (by simp [Ex.text])
  | gt a b => exact op '>' (by decide) (by simp [Ex.text])
  | add a b => exact op '+' (by decide) (by simp [Ex.text])
  | sub a b => exact op '-' (by decide) (by simp [Ex.text])
  | neg a => exact op '-' (by decide) (by simp [Ex.text])

/-- A text that is not like a name goes through all name tests without a match. -/
theorem classify_notLike {env : Env} (hE : EnvOk env) (ok : Str → Bool) (s : Str) (h : ¬ NameLike s) :
    classify env ok s =
      (if isScalar s then (if ok s then .ok (.leaf (.num s)) else .error .throws)
       else match isOperator knownOps s with
        | .error e => .error e
        | .ok (some cs) => .ok (.node cs)
        | .ok none =>
          match split s with
          | .error e => .error e
          | .ok [] => if s ∈ unitNames then .ok (.node []) else .error .throws
          | .ok (c :: cs) => .ok (.node (c :: cs))) := by
  have hs : s ∉ env.soln := fun hm => h (hE.ok s (by simp [hm])).like
  have hc : s ∉ env.scal := fun hm => h (hE.ok s (by simp [hm])).like
  have hf : s ∉ env.funcs := fun hm => h (hE.ok s (by simp [hm])).like
  have hp : ∀ p ∈ env.params, paramIdx p s = none := by
    intro p hm
    have hok := hE.ok p (by simp [hm])
    cases hi : paramIdx p s with
    | none => rfl
    | some i =>
      rcases (paramIdx_iff p s i).mp hi with ⟨rfl, _⟩ | hco
      · exact absurd hok.like h
      · exact absurd (hco.like hok.like hok.notKnownOp hok.nonempty) h
  have hd : ∀ p ∈ env.params, paramDotIdx p s = none := by
    intro p hm
    have hok := dot_like (hE.ok p (by simp [hm]))
    cases hi : paramDotIdx p s with
    | none => rfl
    | some i =>
      rcases (paramIdx_iff _ s i).mp hi with ⟨rfl, _⟩ | hco
      · exact absurd hok.1 h
      · exact absurd (hco.like hok.1 hok.2.1 hok.2.2) h
  have hk : s ∉ knownVars := by
    intro hm
    apply h
    have h1 : ∀ s ∈ knownVars, (∀ c ∈ s, c ∉ specials ∧ c ≠ '(') ∧
        ∃ c ∈ s, ¬ (c ∈ digits ∨ c = '.' ∨ c = 'e' ∨ c = 'E') := by decide
    obtain ⟨a1, a2⟩ := h1 s hm
    refine ⟨fun c hc => (a1 c hc).1, ?_, ?_, a2⟩
    · intro hh
      cases s with
      | nil => simp at hh
      | cons c cs => simp at hh; exact (a1 c (by simp)).2 hh
    · rintro f _ ⟨t, ht⟩
      exact (a1 '(' (by rw [← ht]; simp)).2 rfl
  unfold classify
  rw [List.idxOf?_eq_none_iff.mpr hs, List.idxOf?_eq_none_iff.mpr hc]
  simp only
  rw [lastMatch_none _ _ _ _ hp]
  simp only
  rw [lastMatch_none _ _ _ _ hd]
  simp only
  have hff : ∀ p ∈ env.funcs, (if s = p then some 0 else none : Option Nat) = none :=
    fun p hm => if_neg (fun hsp : s = p => hf (hsp ▸ hm))
  rw [lastMatch_none _ _ _ _ hff]
  simp only [hk, if_false]
  rfl

theorem kids_ne (e : Ex) (h1 : ∀ s, e ≠ .num s) (h2 : ∀ s, e ≠ .name s) : kids e ≠ [] := by
  cases e with
  | num s => exact absurd rfl (h1 s)
  | name s => exact absurd rfl (h2 s)
  | _ => simp [kids, spinePm, spineMdp, spinePow, Ex.fix]

/-- Classification of a literal. -/
theorem classify_num {env : Env} (hE : EnvOk env) (ok : Str → Bool) (s : Str) (h : NumLit s) (ho : ok s = true) :
    classify env ok s = .ok (.leaf (.num s)) := by
  have hl : ¬ NameLike s := by
    intro hl
    obtain ⟨c, hc, hb⟩ := hl.notNum
    exact hb ((numLit_chars h).2 c hc)
  rw [classify_notLike hE ok s hl, scalar_num h]
  simp [ho]

/-- Classification of a negated literal: it is read as one number. -/
theorem classify_negnum {env : Env} (hE : EnvOk env) (ok : Str → Bool) (s : Str) (h : NumLit s)
    (ho : ok ('-' :: s) = true) : classify env ok ('-' :: s) = .ok (.leaf (.num ('-' :: s))) := by
  have hl : ¬ NameLike ('-' :: s) := fun hl => hl.noSpecial '-' (by simp) (by decide)
  rw [classify_notLike hE ok _ hl, scalar_neg h]
  simp [ho]

/-- Classification of a composite expression: its operands. -/
theorem classify_node {env : Env} (hE : EnvOk env) (hN : ∀ s, names s → NameOk s) (ok : Str → Bool) (e : Ex)
    (h : e.Ok names) (h1 : ∀ s, e ≠ .num s) (h2 : ∀ s, e ≠ .name s) (h3 : ∀ s, e ≠ .neg (.num s)) :
    classify env ok e.text = .ok (.node ((kids e).map kt)) := by
  rw [classify_notLike hE ok _ (text_notLike e h h2), scalar_false hN e h h1 h3]
  simp only [Bool.false_eq_true, if_false]
  have hsp : (∀ f a b, e ≠ .fn2 f a b) → isOperator knownOps e.text = .ok none →
      (match isOperator knownOps e.text with
        | .error e => .error e
        | .ok (some cs) => .ok (.node cs)
        | .ok none =>
          match split e.text with
          | .error e => .error e
          | .ok [] => if e.text ∈ unitNames then .ok (.node []) else .error .throws
          | .ok (c :: cs) => .ok (.node (c :: cs))) = Except.ok (ε := Err) (Kind.node ((kids e).map kt)) := by
    intro h4 hop
    rw [hop, split_text hN e h h1 h2 h4]
    have hk := kids_ne e h1 h2
    cases hke : kids e with
    | nil => exact absurd hke hk
    | cons c cs => rfl
  have bin : ∀ (a b : Ex) (c : Char), a.Ok names → c ∈ specials → e.text = a.text ++ c :: b.text →
      isOperator knownOps e.text = .ok none := by
    intro a b c ha hc ht
    apply isOperator_none
    intro f hf
    rw [ht]
    exact opMatches_op _ _ c (text_bal hN a ha) hc f hf
  cases e with
  | num s => exact absurd rfl (h1 s)
  | name s => exact absurd rfl (h2 s)
  | paren a =>
    refine hsp (by simp) (isOperator_none fun f hf hm => ?_)
    obtain ⟨u, hu, _⟩ := (opMatches_iff _ _).mp hm
    have hp := knownOps_plain f hf
    cases f with
    | nil => exact hp.1 rfl
    | cons c cs =>
      simp only [Ex.text, List.cons_append, List.cons.injEq] at hu
      exact (hp.2 c (by simp)).1 hu.1.symm
  | fn f a =>
    rcases isOperator_call hN f a h with ho | ho
    · exact hsp (by simp) ho
    · rw [ho]; rfl
  | fn2 f a b => rw [isOperator_call2 hN f a b h]; rfl
  | pow a b => exact hsp (by simp) (bin a b '^' h.1 (by decide) rfl)
  | mul a b => exact hsp (by simp) (bin a b '*' h.1 (by decide) rfl)
  | div a b => exact hsp (by simp) (bin a b '/' h.1 (by decide) rfl)
  | lt a b => exact hsp (by simp) (bin a b '<' h.1 (by decide) rfl)
  | gt a b => exact hsp (by simp) (bin a b '>' h.1 (by decide) rfl)
  | add a b => exact hsp (by simp) (bin a b '+' h.1 (by decide) rfl)
  | sub a b => exact hsp (by simp) (bin a b '-' h.1 (by decide) rfl)
  | neg a =>
    refine hsp (by simp) (isOperator_none fun f hf => ?_)
    exact opMatches_op [] a.text '-' (by rfl) (by decide) f hf

end MrHyDE.Expr
