import Verif.Expr.RunLemmas

/-
Every admissible program has a meaning; a simple criterion for admissible names.
-/

namespace MrHyDE.Expr

variable {K : Type}

/-! ### The hypothesis on `ρ` can always be met -/

theorem sees_leafOf {A : Arith K} {w : WksetData K} {env : Env} {s : Str} {v : View K} (h : Sees A w env s v) :
    ∃ l, LeafOf env s l ∧ v = leafView A w l := by
  cases h with
  | soln h => exact ⟨_, .soln h, rfl⟩
  | scal h => exact ⟨_, .scal h, rfl⟩
  | param h => exact ⟨_, .param h, rfl⟩
  | paramC h hc => exact ⟨_, .paramC h hc, rfl⟩
  | dot h => exact ⟨_, .dot h, rfl⟩
  | dotC h hc => exact ⟨_, .dotC h hc, rfl⟩
  | time => exact ⟨_, .time, rfl⟩
  | pi => exact ⟨_, .pi, rfl⟩

theorem value_congr (A : Arith K) (lit : Str → K) (ρ ρ' : Str → K) (e : Ex) (h : ∀ s ∈ e.names, ρ s = ρ' s) :
    e.value A lit ρ = e.value A lit ρ' := by
  induction e with
  | num s => rfl
  | name s => exact h s (by simp [Ex.names])
  | paren a ih => exact ih h
  | fn f a ih => simp only [Ex.value]; rw [ih h]
  | neg a ih => simp only [Ex.value]; rw [ih h]
  | fn2 f a b iha ihb | pow a b iha ihb | mul a b iha ihb | div a b iha ihb | lt a b iha ihb | gt a b iha ihb
  | add a b iha ihb | sub a b iha ihb =>
    simp only [Ex.value]
    rw [iha (fun s hs => h s (by simp [Ex.names, hs])), ihb (fun s hs => h s (by simp [Ex.names, hs]))]

open Classical in
/-- Approximations of the meaning. [specification, no code] -/
noncomputable def meaningN (A : Arith K) (lit : Str → K) (P : Program) (w : WksetData K) : Nat → Str → View K
  | 0, s => if h : ∃ v, Sees A w P.env s v then h.choose else fun _ _ => A.zero
  | n + 1, s => if h : ∃ v, Sees A w P.env s v then h.choose
    else match P.defs.lookup s with
      | some e => fun i p => e.value A lit (fun s => meaningN A lit P w n s i p)
      | none => fun _ _ => A.zero

/-- Every admissible program has a meaning under all data. -/
theorem meaning_exists (A : Arith K) (lit : Str → K) {P : Program} (hP : P.Ok) :
    ∃ ρ : WksetData K → Str → View K, ∀ w, Meaning A lit P w (ρ w) := by
  obtain ⟨rank, hrank⟩ := hP.acyclic
  have huniq : ∀ w s v v', Sees A w P.env s v → Sees A w P.env s v' → v = v' := by
    intro w s v v' h h'
    obtain ⟨l, hl, rfl⟩ := sees_leafOf h
    obtain ⟨l', hl', rfl⟩ := sees_leafOf h'
    have e1 := classify_leaf hP.env (fun _ => true) hl
    rw [classify_leaf hP.env (fun _ => true) hl'] at e1
    simp only [Except.ok.injEq, Kind.leaf.injEq] at e1
    rw [e1]
  have hnof : ∀ w d v, d ∈ P.defs → ¬ Sees A w P.env d.1 v := by
    intro w d v hd h
    obtain ⟨l, hl, rfl⟩ := sees_leafOf h
    obtain ⟨j, hj⟩ := List.mem_iff_getElem?.mp (List.mem_map.mpr ⟨d, hd, rfl⟩ : d.1 ∈ P.defs.map Prod.fst)
    have e1 := classify_leaf hP.env (fun _ => true) hl
    rw [classify_func hP.env (fun _ => true) (show P.env.funcs[j]? = some d.1 from hj)] at e1
    simp at e1
  have hnd : (P.defs.map Prod.fst).Nodup := by
    have := hP.env.distinct
    simp only [Env.all, List.nodup_append] at this
    exact this.1.2.1
  have hlook : ∀ d ∈ P.defs, P.defs.lookup d.1 = some d.2 := by
    have : ∀ ds : List (Str × Ex), (ds.map Prod.fst).Nodup → ∀ d ∈ ds, ds.lookup d.1 = some d.2 := by
      intro ds
      induction ds with
      | nil => simp
      | cons x xs ih =>
        intro hn d hd
        simp only [List.map_cons, List.nodup_cons] at hn
        rcases List.mem_cons.mp hd with rfl | hd
        · simp [List.lookup]
        · have hne : d.1 ≠ x.1 := fun he => hn.1 (he ▸ List.mem_map.mpr ⟨d, hd, rfl⟩)
          have hb : (d.1 == x.1) = false := by simpa using hne
          simp [List.lookup, hb, ih hn.2 d hd]
    exact this _ hnd
  have hstab : ∀ w n s, (s ∈ P.defs.map Prod.fst → rank s < n) →
      meaningN A lit P w n s = meaningN A lit P w (n + 1) s := by
    intro w n
    induction n with
    | zero =>
      intro s hs
      have hns : s ∉ P.defs.map Prod.fst := fun h => by have := hs h; omega
      have hl : P.defs.lookup s = none := by
        rw [List.lookup_eq_none_iff]
        intro p hp
        simp only [beq_eq_false_iff_ne, ne_eq, bne_iff_ne]
        intro he
        exact hns (he ▸ List.mem_map.mpr ⟨p, hp, rfl⟩)
      simp only [meaningN, hl]
    | succ n ih =>
      intro s hs
      rw [meaningN, meaningN]
      by_cases hv : ∃ v, Sees A w P.env s v
      · simp only [hv, dif_pos]
      · simp only [hv, dif_neg, not_false_eq_true]
        cases hl : P.defs.lookup s with
        | none => rfl
        | some e =>
          obtain ⟨l1, l2, hmem, _⟩ := List.lookup_eq_some_iff.mp hl
          have hd : (s, e) ∈ P.defs := by rw [hmem]; simp
          simp only
          funext i p
          apply value_congr
          intro g hg
          have := ih g (fun hgf => by
            have h1 := hrank (s, e) hd g hg hgf
            have h2 := hs (List.mem_map.mpr ⟨_, hd, rfl⟩)
            simp only at h1
            omega)
          exact congrFun (congrFun this i) p
  let R := ((P.defs.map Prod.fst).map rank).sum
  refine ⟨fun w => meaningN A lit P w (R + 1), fun w => ⟨?_, ?_⟩⟩
  · intro s v h
    have hv : ∃ v, Sees A w P.env s v := ⟨v, h⟩
    simp only [meaningN, hv, dif_pos]
    exact huniq w s _ _ hv.choose_spec h
  · intro d hd
    have hv : ¬ ∃ v, Sees A w P.env d.1 v := fun ⟨v, h⟩ => hnof w d v hd h
    have e1 : meaningN A lit P w (R + 1 + 1) d.1 = fun i p => d.2.value A lit (fun s => meaningN A lit P w (R + 1) s i p) := by
      rw [meaningN]
      simp only [hv, dif_neg, not_false_eq_true, hlook d hd]
    rw [← e1]
    apply hstab
    intro hm
    have : rank d.1 ≤ R := mem_le_sum (List.mem_map.mpr ⟨_, hm, rfl⟩)
    omega

/-! ### Simple names -/

/-- A name without parentheses and special characters that is neither a built-in function
    nor made of number characters only. [specification; names as in interpreter.cpp:65-441] -/
def Simple (s : Str) : Prop :=
  s ≠ [] ∧ (∀ c ∈ s, c ∉ specials ∧ c ≠ '(' ∧ c ≠ ')') ∧
  s ∉ ["sin", "cos", "exp", "log", "tan", "abs", "max", "min", "mean", "emax", "emin",
    "emean", "sqrt", "sinh", "cosh"].map String.toList ∧
  ∃ c ∈ s, c ∉ digits ∧ c ≠ '.' ∧ c ≠ 'e' ∧ c ≠ 'E'

instance (s : Str) : Decidable (Simple s) := by unfold Simple; infer_instance

theorem Simple.nameOk {s : Str} (h : Simple s) : NameOk s := by
  obtain ⟨h1, h2, h3, h4⟩ := h
  refine ⟨h1, fun c hc => (h2 c hc).1, ?_, matched_plain fun c hc => (h2 c hc).2, ?_, h4⟩
  · intro hh
    cases s with
    | nil => simp at hh
    | cons c cs => simp at hh; exact (h2 c (by simp)).2.1 hh
  · intro f hf
    refine ⟨fun he => h3 (he ▸ hf), fun hp => ?_⟩
    exact (h2 '(' (hp.subset (by simp))).2.1 rfl

theorem simple_env {env : Env} (h : ∀ s ∈ env.soln ++ env.scal ++ env.params ++ env.funcs, Simple s)
    (hd : env.all.Nodup) : EnvOk env := by
  refine ⟨fun s hs => (h s hs).nameOk, hd, ?_⟩
  rintro q hq s hs i ⟨ds, _, _, rfl, _⟩
  have hp : ∀ s ∈ env.all, '(' ∉ s := by
    intro s hs
    have hsimp : ∀ s, Simple s → '(' ∉ s := fun s h hc => (h.2.1 _ hc).2.1 rfl
    simp only [Env.all, List.mem_append, List.mem_map, List.mem_cons, List.not_mem_nil, or_false] at hs
    rcases hs with ((((hs | hs) | hs) | ⟨p, hp, rfl⟩) | hs) | hs | hs
    · exact hsimp s (h s (by simp [hs]))
    · exact hsimp s (h s (by simp [hs]))
    · exact hsimp s (h s (by simp [hs]))
    · have := hsimp p (h p (by simp [hp]))
      simp [dotName, this]
    · exact hsimp s (h s (by simp [hs]))
    · subst hs; decide
    · subst hs; decide
  exact hp _ hs (by simp)

end MrHyDE.Expr
