import Verif.Expr.NameLemmas

/-
Helper lemmas: the pass loop builds a branch vector that represents the expression.
-/

namespace MrHyDE.Expr

variable {names : Str → Prop}

/-! ### Operands -/

theorem spinePow_ok (e : Ex) (h : e.Ok names) : ∀ k ∈ spinePow e, k.2.Ok names := by
  induction e with
  | pow a b iha _ =>
    intro k hk
    simp only [spinePow, List.mem_append, List.mem_cons, List.not_mem_nil, or_false] at hk
    rcases hk with hk | rfl
    · exact iha h.1 k hk
    · exact h.2.1
  | _ => intro k hk; simp only [spinePow, List.mem_cons, List.not_mem_nil, or_false] at hk; subst hk; exact h

theorem spineMdp_ok (e : Ex) (h : e.Ok names) : ∀ k ∈ spineMdp e, k.2.Ok names := by
  induction e with
  | mul a b iha _ | div a b iha _ | lt a b iha _ | gt a b iha _ =>
    intro k hk
    simp only [spineMdp, List.mem_append, List.mem_cons, List.not_mem_nil, or_false] at hk
    rcases hk with hk | rfl
    · exact iha h.1 k hk
    · exact h.2.1
  | _ => intro k hk; simp only [spineMdp, List.mem_cons, List.not_mem_nil, or_false] at hk; subst hk; exact h

theorem spinePm_ok (e : Ex) (h : e.Ok names) : ∀ k ∈ spinePm e.fix, k.2.Ok names := by
  induction e with
  | add a b iha _ | sub a b iha _ =>
    intro k hk
    simp only [Ex.fix, spinePm, List.mem_append, List.mem_cons, List.not_mem_nil, or_false] at hk
    rcases hk with hk | rfl
    · exact iha h.1 k hk
    · exact h.2.1
  | neg a _ =>
    intro k hk
    simp only [Ex.fix, spinePm, List.mem_append, List.mem_cons, List.not_mem_nil, or_false] at hk
    rcases hk with rfl | rfl
    · exact zeroLit
    · exact h.1
  | _ =>
    intro k hk
    simp only [Ex.fix, spinePm, List.mem_cons, List.not_mem_nil, or_false] at hk; subst hk; exact h

theorem kids_ok (e : Ex) (h : e.Ok names) : ∀ k ∈ kids e, k.2.Ok names := by
  cases e with
  | num s | name s => simp [kids]
  | paren a => intro k hk; simp [kids] at hk; subst hk; exact h
  | fn f a => intro k hk; simp [kids] at hk; subst hk; exact h.2
  | fn2 f a b =>
    intro k hk
    simp only [kids, List.mem_cons, List.not_mem_nil, or_false] at hk
    rcases hk with rfl | rfl
    · exact h.2.1
    · exact h.2.2.1
  | pow a b => exact spinePow_ok _ h
  | mul a b | div a b | lt a b | gt a b => exact spineMdp_ok _ h
  | add a b | sub a b | neg a => exact spinePm_ok _ h

theorem depth_pos (e : Ex) : 1 ≤ e.depth := by
  cases e <;> simp [Ex.depth, Ex.depths]

theorem spinePow_depth (e : Ex) : ∀ k ∈ spinePow e, k.2.depth ≤ e.depths.2.2.2 := by
  induction e with
  | pow a b iha _ =>
    intro k hk
    simp only [spinePow, List.mem_append, List.mem_cons, List.not_mem_nil, or_false] at hk
    rcases hk with hk | rfl
    · exact Nat.le_trans (iha k hk) (by simp [Ex.depths])
    · simp [Ex.depths, Ex.depth]
  | _ => intro k hk; simp only [spinePow, List.mem_cons, List.not_mem_nil, or_false] at hk; subst hk; simp [Ex.depth, Ex.depths]

theorem spineMdp_depth (e : Ex) : ∀ k ∈ spineMdp e, k.2.depth ≤ e.depths.2.2.1 := by
  induction e with
  | mul a b iha _ | div a b iha _ | lt a b iha _ | gt a b iha _ =>
    intro k hk
    simp only [spineMdp, List.mem_append, List.mem_cons, List.not_mem_nil, or_false] at hk
    rcases hk with hk | rfl
    · exact Nat.le_trans (iha k hk) (by simp [Ex.depths])
    · simp [Ex.depths, Ex.depth]
  | _ => intro k hk; simp only [spineMdp, List.mem_cons, List.not_mem_nil, or_false] at hk; subst hk; simp [Ex.depth, Ex.depths]

theorem spinePm_depth (e : Ex) : ∀ k ∈ spinePm e.fix, k.2.depth ≤ e.depths.2.1 := by
  induction e with
  | add a b iha _ | sub a b iha _ =>
    intro k hk
    simp only [Ex.fix, spinePm, List.mem_append, List.mem_cons, List.not_mem_nil, or_false] at hk
    rcases hk with hk | rfl
    · exact Nat.le_trans (iha k hk) (by simp [Ex.depths])
    · simp [Ex.depths, Ex.depth]
  | neg a _ =>
    intro k hk
    simp only [Ex.fix, spinePm, List.mem_append, List.mem_cons, List.not_mem_nil, or_false] at hk
    rcases hk with rfl | rfl
    · simp [Ex.depths, Ex.depth]
    · simp [Ex.depths, Ex.depth]
  | _ =>
    intro k hk
    simp only [Ex.fix, spinePm, List.mem_cons, List.not_mem_nil, or_false] at hk; subst hk; simp [Ex.depth, Ex.depths]

/-- Operands are less deep. -/
theorem kids_depth (e : Ex) : ∀ k ∈ kids e, k.2.depth + 1 ≤ e.depth := by
  cases e with
  | num s | name s => simp [kids]
  | paren a => intro k hk; simp [kids] at hk; subst hk; simp [Ex.depth, Ex.depths]
  | fn f a => intro k hk; simp [kids] at hk; subst hk; simp [Ex.depth, Ex.depths]
  | fn2 f a b =>
    intro k hk
    simp only [kids, List.mem_cons, List.not_mem_nil, or_false] at hk
    rcases hk with rfl | rfl <;> simp [Ex.depth, Ex.depths]
  | pow a b =>
    intro k hk
    have := spinePow_depth _ k hk
    simp only [Ex.depth, Ex.depths] at this ⊢; omega
  | mul a b | div a b | lt a b | gt a b =>
    intro k hk
    have := spineMdp_depth _ k hk
    simp only [Ex.depth, Ex.depths] at this ⊢; omega
  | add a b | sub a b | neg a =>
    intro k hk
    have := spinePm_depth _ k hk
    simp only [Ex.depth, Ex.depths] at this ⊢; omega

/-! ### Representation of an expression in a branch vector -/

/-- Branch `k` of a vector whose branches stand for the expressions `L` is decomposed into
    `dk` in agreement with the expression `e` it stands for. -/
inductive Shape (env : Env) (L : List Ex) (k : Nat) : Ex → DKind → Prop
  | leaf {s l} : LeafOf env s l → Shape env L k (.name s) (.leaf l)
  | func {s} {j : Nat} : env.funcs[j]? = some s → Shape env L k (.name s) (.func j)
  | num {s} : NumLit s → Shape env L k (.num s) (.leaf (.num s))
  | negnum {s} : NumLit s → Shape env L k (.neg (.num s)) (.leaf (.num ('-' :: s)))
  | node {e deps} : List.Forall₂ (fun (d : Op × Nat) (x : Op × Ex) => d.1 = x.1 ∧ k < d.2 ∧ L[d.2]? = some x.2)
      deps (kids e) → (∀ s, e ≠ .num s) → (∀ s, e ≠ .name s) → Shape env L k e (.node deps)

theorem getElem?_prefix {α : Type} {L L' : List α} (h : L <+: L') {i : Nat} {x : α} (hx : L[i]? = some x) :
    L'[i]? = some x := by
  obtain ⟨t, rfl⟩ := h
  rw [List.getElem?_append_left (List.getElem?_eq_some_iff.mp hx).1]; exact hx

theorem Shape.mono {env : Env} {L L' : List Ex} (h : L <+: L') {k : Nat} {e : Ex} {dk : DKind}
    (hs : Shape env L k e dk) : Shape env L' k e dk := by
  cases hs with
  | leaf h => exact .leaf h
  | func h => exact .func h
  | num h => exact .num h
  | negnum h => exact .negnum h
  | node hd h1 h2 =>
    exact .node (hd.imp fun d x ⟨a, b, c⟩ => ⟨a, b, getElem?_prefix h c⟩) h1 h2

theorem Ex.Ok.mono {P Q : Str → Prop} {e : Ex} (h : e.Ok P) (hPQ : ∀ s ∈ e.names, P s → Q s) : e.Ok Q := by
  induction e with
  | num s => exact h
  | name s => exact hPQ s (by simp [Ex.names]) h
  | paren a ih => exact ih h hPQ
  | fn f a ih => exact ⟨h.1, ih h.2 hPQ⟩
  | fn2 f a b iha ihb =>
    exact ⟨h.1, iha h.2.1 (fun s hs => hPQ s (by simp [Ex.names, hs])),
      ihb h.2.2.1 (fun s hs => hPQ s (by simp [Ex.names, hs])), h.2.2.2⟩
  | pow a b iha ihb | mul a b iha ihb | div a b iha ihb | lt a b iha ihb | gt a b iha ihb
  | add a b iha ihb | sub a b iha ihb =>
    exact ⟨iha h.1 (fun s hs => hPQ s (by simp [Ex.names, hs])),
      ihb h.2.1 (fun s hs => hPQ s (by simp [Ex.names, hs])), h.2.2⟩
  | neg a ih => exact ⟨ih h.1 hPQ, h.2⟩

/-- The branch vector stands for the expressions `L`. -/
structure Rep (env : Env) (names : Str → Prop) (bs : List Branch) (L : List Ex) : Prop where
  len : bs.length = L.length
  expr : ∀ (k : Nat) (b : Branch) (e : Ex), bs[k]? = some b → L[k]? = some e → b.expr = e.text
  ok : ∀ e ∈ L, e.Ok names
  shape : ∀ (k : Nat) (b : Branch) (e : Ex) (dk : DKind), bs[k]? = some b → L[k]? = some e → b.kind = some dk → Shape env L k e dk

/-- Result of classifying an undecomposed branch. -/
theorem classify_shape {env : Env} (hE : EnvOk env) (ok : Str → Bool)
    (hok : ∀ s, NumLit s → ok s = true ∧ ok ('-' :: s) = true) (e : Ex) (h : e.Ok (Known env)) :
    (∃ l, classify env ok e.text = .ok (.leaf l) ∧ ∀ L k, Shape env L k e (.leaf l)) ∨
    (∃ j, classify env ok e.text = .ok (.func j) ∧ ∀ L k, Shape env L k e (.func j)) ∨
    (classify env ok e.text = .ok (.node ((kids e).map kt)) ∧ (∀ s, e ≠ .num s) ∧ (∀ s, e ≠ .name s)) := by
  have hN := known_nameOk hE
  by_cases h1 : ∃ s, e = .num s
  · obtain ⟨s, rfl⟩ := h1
    exact Or.inl ⟨_, classify_num hE ok s h (hok s h).1, fun L k => .num h⟩
  by_cases h2 : ∃ s, e = .name s
  · obtain ⟨s, rfl⟩ := h2
    rcases known_iff env s h with ⟨l, hl⟩ | ⟨j, hj⟩
    · exact Or.inl ⟨l, classify_leaf hE ok hl, fun L k => .leaf hl⟩
    · exact Or.inr (Or.inl ⟨j, classify_func hE ok hj, fun L k => .func hj⟩)
  by_cases h3 : ∃ s, e = .neg (.num s)
  · obtain ⟨s, rfl⟩ := h3
    exact Or.inl ⟨_, classify_negnum hE ok s h.1 (hok s h.1).2, fun L k => .negnum h.1⟩
  push Not at h1 h2 h3
  exact Or.inr (Or.inr ⟨classify_node hE hN ok e h h1 h2 h3, h1, h2⟩)

/-- What one decomposition step does. -/
theorem decomposeOne_spec {env : Env} (hE : EnvOk env) (hK : ∀ s, names s → Known env s) (ok : Str → Bool)
    (hok : ∀ s, NumLit s → ok s = true ∧ ok ('-' :: s) = true) {bs : List Branch} {L : List Ex}
    (hR : Rep env names bs L) (k : Nat) (b : Branch) (e : Ex) (hb : bs[k]? = some b) (he : L[k]? = some e) :
    ∃ bs' L', decomposeOne env ok bs k = .ok bs' ∧ Rep env names bs' L' ∧ L <+: L' ∧
      (∃ b', bs'[k]? = some b' ∧ b'.kind.isSome = true) ∧
      (∀ j : Nat, j ≠ k → j < bs.length → bs'[j]? = bs[j]?) ∧
      (∀ (j : Nat) (x : Ex), bs.length ≤ j → L'[j]? = some x → x.depth + 1 ≤ e.depth) := by
  have hklen : k < bs.length := (List.getElem?_eq_some_iff.mp hb).1
  cases hkind : b.kind with
  | some dk =>
    refine ⟨bs, L, by simp [decomposeOne, hb, hkind], hR, List.prefix_rfl, ⟨b, hb, by simp [hkind]⟩,
      fun _ _ _ => rfl, ?_⟩
    intro j x hj hx
    have := (List.getElem?_eq_some_iff.mp hx).1
    rw [hR.len] at hj; omega
  | none =>
    have hexpr := hR.expr k b e hb he
    have heok : e.Ok names := hR.ok e (List.mem_of_getElem? he)
    -- a step that only marks the branch
    have mark : ∀ dk, (∀ L k, Shape env L k e dk) →
        decomposeOne env ok bs k = .ok (bs.set k { b with kind := some dk }) →
        ∃ bs' L', decomposeOne env ok bs k = .ok bs' ∧ Rep env names bs' L' ∧ L <+: L' ∧
          (∃ b', bs'[k]? = some b' ∧ b'.kind.isSome = true) ∧
          (∀ j : Nat, j ≠ k → j < bs.length → bs'[j]? = bs[j]?) ∧
          (∀ (j : Nat) (x : Ex), bs.length ≤ j → L'[j]? = some x → x.depth + 1 ≤ e.depth) := by
      intro dk hdk hstep
      refine ⟨_, L, hstep, ⟨by simp [hR.len], ?_, hR.ok, ?_⟩, List.prefix_rfl, ⟨_, List.getElem?_set_self hklen, rfl⟩,
        fun j hj _ => List.getElem?_set_ne (Ne.symm hj), ?_⟩
      · intro j b' x hj hx
        by_cases hjk : j = k
        · subst hjk
          rw [List.getElem?_set_self hklen] at hj
          simp only [Option.some.injEq] at hj
          subst hj
          exact hR.expr j b x hb hx
        · rw [List.getElem?_set_ne (Ne.symm hjk)] at hj
          exact hR.expr j b' x hj hx
      · intro j b' x dk' hj hx hk'
        by_cases hjk : j = k
        · subst hjk
          rw [List.getElem?_set_self hklen] at hj
          simp only [Option.some.injEq] at hj
          subst hj
          simp only [Option.some.injEq] at hk'
          subst hk'
          rw [he] at hx
          simp only [Option.some.injEq] at hx
          subst hx
          exact hdk L j
        · rw [List.getElem?_set_ne (Ne.symm hjk)] at hj
          exact hR.shape j b' x dk' hj hx hk'
      · intro j x hj hx
        have := (List.getElem?_eq_some_iff.mp hx).1
        rw [hR.len] at hj; omega
    rcases classify_shape hE ok hok e (heok.mono fun s _ => hK s) with ⟨l, hc, hs⟩ | ⟨i, hc, hs⟩ | ⟨hc, h1, h2⟩
    · exact mark _ hs (by simp [decomposeOne, hb, hkind, hexpr, hc])
    · exact mark _ hs (by simp [decomposeOne, hb, hkind, hexpr, hc])
    · have hstep : decomposeOne env ok bs k = .ok
          ((bs.set k { b with kind := some (.node (((kids e).map Prod.fst).zip (List.range' bs.length (kids e).length))) }) ++
            (kids e).map (fun c => ⟨c.2.text, none⟩)) := by
        simp [decomposeOne, hb, hkind, hexpr, hc, kt, Function.comp_def]
      have hpre : L <+: L ++ (kids e).map Prod.snd := List.prefix_append _ _
      refine ⟨_, L ++ (kids e).map Prod.snd, hstep, ⟨by simp [hR.len], ?_, ?_, ?_⟩, hpre,
        ⟨_, by rw [List.getElem?_append_left (by simpa using hklen)]; exact List.getElem?_set_self hklen, rfl⟩, ?_, ?_⟩
      · intro j b' x hj hx
        by_cases hlt : j < bs.length
        · rw [List.getElem?_append_left (by simpa using hlt)] at hj
          rw [List.getElem?_append_left (by rw [← hR.len]; exact hlt)] at hx
          by_cases hjk : j = k
          · subst hjk
            rw [List.getElem?_set_self hklen] at hj
            simp only [Option.some.injEq] at hj
            subst hj
            exact hR.expr j b x hb hx
          · rw [List.getElem?_set_ne (Ne.symm hjk)] at hj
            exact hR.expr j b' x hj hx
        · rw [List.getElem?_append_right (by simpa using Nat.le_of_not_lt hlt)] at hj
          rw [List.getElem?_append_right (by rw [← hR.len]; omega)] at hx
          simp only [List.length_set, List.getElem?_map, ← hR.len] at hj hx
          cases hg : (kids e)[j - bs.length]? with
          | none => simp [hg] at hj
          | some y =>
            simp only [hg, Option.map_some, Option.some.injEq] at hj hx
            rw [← hj, ← hx]
      · intro x hx
        rcases List.mem_append.mp hx with hx | hx
        · exact hR.ok x hx
        · obtain ⟨y, hy, rfl⟩ := List.mem_map.mp hx
          exact kids_ok e heok y hy
      · intro j b' x dk' hj hx hk'
        by_cases hlt : j < bs.length
        · rw [List.getElem?_append_left (by simpa using hlt)] at hj
          rw [List.getElem?_append_left (by rw [← hR.len]; exact hlt)] at hx
          by_cases hjk : j = k
          · subst hjk
            rw [List.getElem?_set_self hklen] at hj
            simp only [Option.some.injEq] at hj
            subst hj
            simp only [Option.some.injEq] at hk'
            subst hk'
            rw [he] at hx
            simp only [Option.some.injEq] at hx
            subst hx
            refine .node ?_ h1 h2
            rw [List.forall₂_iff_get]
            refine ⟨by simp, fun i hi1 hi2 => ?_⟩
            simp only [List.get_eq_getElem, List.getElem_zip, List.getElem_map, List.getElem_range', true_and]
            refine ⟨by omega, ?_⟩
            rw [List.getElem?_append_right (by rw [← hR.len]; omega)]
            simp only [List.getElem?_map, ← hR.len]
            rw [show bs.length + 1 * i - bs.length = i by omega, List.getElem?_eq_getElem hi2]
            rfl
          · rw [List.getElem?_set_ne (Ne.symm hjk)] at hj
            exact (hR.shape j b' x dk' hj hx hk').mono hpre
        · rw [List.getElem?_append_right (by simpa using Nat.le_of_not_lt hlt)] at hj
          simp only [List.length_set, List.getElem?_map] at hj
          cases hg : (kids e)[j - bs.length]? with
          | none => simp [hg] at hj
          | some y =>
            simp only [hg, Option.map_some, Option.some.injEq] at hj
            rw [← hj] at hk'; simp at hk'
      · intro j hj hlt
        rw [List.getElem?_append_left (by simpa using hlt)]
        exact List.getElem?_set_ne (Ne.symm hj)
      · intro j x hj hx
        rw [List.getElem?_append_right (by rw [← hR.len]; exact hj)] at hx
        simp only [List.getElem?_map, Option.map_eq_some_iff] at hx
        obtain ⟨y, hy, rfl⟩ := hx
        exact kids_depth e y (List.mem_of_getElem? hy)

/-- Invariant inside a pass: `n0` branches at its start, the first `i` done. -/
structure InPass (env : Env) (names : Str → Prop) (n0 n i : Nat) (bs : List Branch) (L : List Ex) : Prop where
  rep : Rep env names bs L
  le : n0 ≤ bs.length
  done : ∀ k : Nat, k < i → ∀ b, bs[k]? = some b → b.kind.isSome = true
  old : ∀ (k : Nat) (x : Ex), k < n0 → L[k]? = some x → (∃ b, bs[k]? = some b ∧ b.kind.isSome = true) ∨ x.depth ≤ n + 1
  new : ∀ (k : Nat) (x : Ex), n0 ≤ k → L[k]? = some x → x.depth ≤ n

theorem inPass_fold {env : Env} (hE : EnvOk env) (hK : ∀ s, names s → Known env s) (ok : Str → Bool)
    (hok : ∀ s, NumLit s → ok s = true ∧ ok ('-' :: s) = true) (n0 n m : Nat) :
    ∀ i bs L, i + m = n0 → InPass env names n0 n i bs L →
      ∃ bs' L', (List.range' i m).foldlM (decomposeOne env ok) bs = .ok bs' ∧ InPass env names n0 n n0 bs' L' ∧ L <+: L' := by
  induction m with
  | zero =>
    intro i bs L hi hP
    have : i = n0 := by omega
    subst this
    exact ⟨bs, L, by simp; rfl, hP, List.prefix_rfl⟩
  | succ m ih =>
    intro i bs L hi hP
    have hilen : i < bs.length := by have := hP.le; omega
    have hiL : i < L.length := by rw [← hP.rep.len]; exact hilen
    obtain ⟨bs', L', hstep, hR', hpre, ⟨b', hb', hd'⟩, hsame, hnew⟩ :=
      decomposeOne_spec hE hK ok hok hP.rep i bs[i] L[i] (List.getElem?_eq_getElem hilen) (List.getElem?_eq_getElem hiL)
    have hlen' : bs.length ≤ bs'.length := by
      rw [hP.rep.len, hR'.len]; exact hpre.length_le
    have hP' : InPass env names n0 n (i + 1) bs' L' := by
      refine ⟨hR', Nat.le_trans hP.le hlen', ?_, ?_, ?_⟩
      · intro k hk b hb
        by_cases hki : k = i
        · subst hki; rw [hb'] at hb; simp only [Option.some.injEq] at hb; rw [← hb]; exact hd'
        · rw [hsame k hki (by omega)] at hb
          exact hP.done k (by omega) b hb
      · intro k x hk hx
        by_cases hki : k = i
        · subst hki; exact Or.inl ⟨b', hb', hd'⟩
        · have hkL : k < L.length := by rw [← hP.rep.len]; have := hP.le; omega
          have hLk : L[k]? = some x := by
            have := getElem?_prefix hpre (List.getElem?_eq_getElem hkL)
            rw [hx] at this
            rw [List.getElem?_eq_getElem hkL, ← this]
          rw [hsame k hki (by have := hP.le; omega)]
          exact hP.old k x hk hLk
      · intro k x hk hx
        by_cases hlt : k < bs.length
        · have hkL : k < L.length := by rw [← hP.rep.len]; exact hlt
          have hLk : L[k]? = some x := by
            have := getElem?_prefix hpre (List.getElem?_eq_getElem hkL)
            rw [hx] at this
            rw [List.getElem?_eq_getElem hkL, ← this]
          exact hP.new k x hk hLk
        · -- a new branch: its parent was undecomposed, so at most `n + 1` deep
          have h1 := hnew k x (Nat.le_of_not_lt hlt) hx
          rcases hP.old i L[i] (by omega) (List.getElem?_eq_getElem hiL) with ⟨b, hb, hbd⟩ | hd
          · -- the parent was decomposed: no new branches
            have hkn : ∃ dk, b.kind = some dk := Option.isSome_iff_exists.mp hbd
            obtain ⟨dk, hdk⟩ := hkn
            have : decomposeOne env ok bs i = .ok bs := by simp [decomposeOne, hb, hdk]
            rw [hstep] at this
            simp only [Except.ok.injEq] at this
            subst this
            have := (List.getElem?_eq_some_iff.mp hx).1
            rw [← hR'.len] at this; omega
          · omega
    obtain ⟨bs'', L'', hf, hP'', hpre'⟩ := ih (i + 1) bs' L' (by omega) hP'
    refine ⟨bs'', L'', ?_, hP'', hpre.trans hpre'⟩
    rw [List.range'_succ, List.foldlM_cons, hstep]
    exact hf

/-- The pass loop succeeds when every open branch is at most `n` deep. -/
theorem passes_spec {env : Env} (hE : EnvOk env) (hK : ∀ s, names s → Known env s) (ok : Str → Bool)
    (hok : ∀ s, NumLit s → ok s = true ∧ ok ('-' :: s) = true) (n : Nat) :
    ∀ (bs : List Branch) (L : List Ex), Rep env names bs L → (∀ (k : Nat) (x : Ex), L[k]? = some x → (∃ b, bs[k]? = some b ∧ b.kind.isSome = true) ∨ x.depth ≤ n + 1) →
      ∃ bs' L', passes env ok (n + 1) bs = .ok bs' ∧ Rep env names bs' L' ∧ allDone bs' = true ∧ L <+: L' := by
  induction n with
  | zero =>
    intro bs L hR hd
    obtain ⟨bs', L', hf, hP, hpre⟩ := inPass_fold hE hK ok hok bs.length 0 bs.length 0 bs L (by omega)
      ⟨hR, Nat.le_refl _, by simp, fun k x _ hx => hd k x hx, fun k x hk hx => by
        have := (List.getElem?_eq_some_iff.mp hx).1
        rw [hR.len] at hk; omega⟩
    have hall : allDone bs' = true := by
      rw [allDone, List.all_eq_true]
      intro b hb
      obtain ⟨k, hk⟩ := List.mem_iff_getElem?.mp hb
      by_cases hlt : k < bs.length
      · exact hP.done k hlt b hk
      · have hkL : k < L'.length := by rw [← hP.rep.len]; exact (List.getElem?_eq_some_iff.mp hk).1
        have := hP.new k L'[k] (Nat.le_of_not_lt hlt) (List.getElem?_eq_getElem hkL)
        have := depth_pos L'[k]
        omega
    refine ⟨bs', L', ?_, hP.rep, hall, hpre⟩
    simp only [passes, pass, List.range_eq_range']
    rw [hf]; simp [hall]
  | succ n ih =>
    intro bs L hR hd
    obtain ⟨bs', L', hf, hP, hpre⟩ := inPass_fold hE hK ok hok bs.length (n + 1) bs.length 0 bs L (by omega)
      ⟨hR, Nat.le_refl _, by simp, fun k x _ hx => hd k x hx, fun k x hk hx => by
        have := (List.getElem?_eq_some_iff.mp hx).1
        rw [hR.len] at hk; omega⟩
    by_cases hall : allDone bs' = true
    · refine ⟨bs', L', ?_, hP.rep, hall, hpre⟩
      simp only [passes, pass, List.range_eq_range']
      rw [hf]; simp [hall]
    · obtain ⟨bs'', L'', h1, h2, h3, h4⟩ := ih bs' L' hP.rep (by
        intro k x hx
        by_cases hlt : k < bs.length
        · left
          have hkb : k < bs'.length := by have := hP.le; omega
          exact ⟨bs'[k], List.getElem?_eq_getElem hkb, hP.done k hlt _ (List.getElem?_eq_getElem hkb)⟩
        · right; exact hP.new k x (Nat.le_of_not_lt hlt) hx)
      refine ⟨bs'', L'', ?_, h2, h3, hpre.trans h4⟩
      rw [passes]
      simp only [pass, List.range_eq_range']
      rw [hf]; simp only [hall, Bool.false_eq_true, if_false]
      exact h1

/-- Decomposition of a whole expression. -/
theorem decomposeTree_spec {env : Env} (hE : EnvOk env) (hK : ∀ s, names s → Known env s) (ok : Str → Bool)
    (hok : ∀ s, NumLit s → ok s = true ∧ ok ('-' :: s) = true) (e : Ex) (h : e.Ok names)
    (hd : e.depth ≤ 100) :
    ∃ bs L, decomposeTree env ok e.text = .ok bs ∧ Rep env names bs L ∧ allDone bs = true ∧ L[0]? = some e := by
  obtain ⟨bs, L, h1, h2, h3, h4⟩ := passes_spec hE hK ok hok 99 [⟨e.text, none⟩] [e]
    ⟨rfl, by
      intro k b x hb hx
      cases k with
      | zero => simp at hb hx; rw [← hb, ← hx]
      | succ k => simp at hb, by simpa using h, by
      intro k b x dk hb hx hk
      cases k with
      | zero => simp at hb; rw [← hb] at hk; simp at hk
      | succ k => simp at hb⟩
    (by
      intro k x hx
      cases k with
      | zero => simp at hx; subst hx; exact Or.inr hd
      | succ k => simp at hx)
  exact ⟨bs, L, h1, h2, h3, getElem?_prefix h4 rfl⟩

end MrHyDE.Expr
