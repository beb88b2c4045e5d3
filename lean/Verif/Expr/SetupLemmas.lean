import Verif.Expr.EvalLemmas

/-
Helper lemmas: set-up of an admissible program succeeds and gives a consistent forest.
-/

namespace MrHyDE.Expr

variable {K : Type}

/-! ### Decomposition of all trees -/

theorem decomposeAll_spec {env : Env} (hE : EnvOk env) (ok : Str → Bool)
    (hok : ∀ s, NumLit s → ok s = true ∧ ok ('-' :: s) = true) (nm : Str × Ex → Str → Prop)
    (hK : ∀ d s, nm d s → Known env s) (ds : List (Str × Ex)) (h : ∀ d ∈ ds, d.2.Ok (nm d) ∧ d.2.depth ≤ 100) :
    ∃ (bss : List (List Branch)) (Ls : List (List Ex)), decomposeAll env ok (ds.map (fun d => d.2.text)) = .ok bss ∧
      bss.length = ds.length ∧ Ls.length = ds.length ∧
      ∀ (t : Nat) d, ds[t]? = some d → ∃ bs L, bss[t]? = some bs ∧ Ls[t]? = some L ∧ Rep env (nm d) bs L ∧
        allDone bs = true ∧ L[0]? = some d.2 := by
  induction ds with
  | nil => exact ⟨[], [], rfl, rfl, rfl, by simp⟩
  | cons d ds ih =>
    obtain ⟨bss, Ls, h1, h2, h3, h4⟩ := ih (fun x hx => h x (by simp [hx]))
    obtain ⟨bs, L, g1, g2, g3, g4⟩ := decomposeTree_spec hE (hK d) ok hok d.2 (h d (by simp)).1 (h d (by simp)).2
    refine ⟨bs :: bss, L :: Ls, ?_, by simp [h2], by simp [h3], ?_⟩
    · simp only [List.map_cons, decomposeAll, g1]
      rw [h1]
    · intro t d' hd'
      cases t with
      | zero =>
        simp only [List.getElem?_cons_zero, Option.some.injEq] at hd'
        subst hd'
        exact ⟨bs, L, rfl, rfl, g2, g3, g4⟩
      | succ t => simpa using h4 t d' (by simpa using hd')

theorem kinds_get (bs : List Branch) (h : allDone bs = true) (b : Nat) :
    (kinds bs)[b]? = bs[b]?.bind (fun x => x.kind.map (fun k => (x.expr, k))) := by
  induction bs generalizing b with
  | nil => simp [kinds]
  | cons x xs ih =>
    simp only [allDone, List.all_cons, Bool.and_eq_true] at h
    obtain ⟨k, hk⟩ := Option.isSome_iff_exists.mp h.1
    have e : kinds (x :: xs) = (x.expr, k) :: kinds xs := by
      simp [kinds, hk]
    rw [e]
    cases b with
    | zero => simp [hk]
    | succ b => simpa using ih h.2 b

/-! ### Flags -/

theorem flagTree_spec (D : List (List (Str × DKind))) (t : Nat) (xs : List (Str × DKind)) :
    ∀ b0, (∀ (i : Nat) x, xs[i]? = some x → ∃ fl, Dag.classifyBranch (depGraph D) (positions D).length (t, b0 + i) = .ok fl) →
      ∃ r, flagTree D t b0 xs = .ok r ∧ r.length = xs.length ∧
        ∀ (i : Nat) x, xs[i]? = some x → ∃ fl, Dag.classifyBranch (depGraph D) (positions D).length (t, b0 + i) = .ok fl ∧
          r[i]? = some ⟨x.1, x.2, fl.isConst, fl.isView⟩ := by
  induction xs with
  | nil => intro b0 _; exact ⟨[], rfl, rfl, by simp⟩
  | cons x xs ih =>
    intro b0 h
    obtain ⟨fl, hfl⟩ := h 0 x rfl
    obtain ⟨r, h1, h2, h3⟩ := ih (b0 + 1) (fun i y hy => by
      have := h (i + 1) y (by simpa using hy)
      rwa [show b0 + (i + 1) = b0 + 1 + i by omega] at this)
    refine ⟨⟨x.1, x.2, fl.isConst, fl.isView⟩ :: r, ?_, by simp [h2], ?_⟩
    · simp only [Nat.add_zero] at hfl
      simp only [flagTree, flagBranch, hfl, h1]
    · intro i y hy
      cases i with
      | zero =>
        simp only [List.getElem?_cons_zero, Option.some.injEq] at hy
        subst hy
        exact ⟨fl, hfl, rfl⟩
      | succ i =>
        obtain ⟨fl', g1, g2⟩ := h3 i y (by simpa using hy)
        exact ⟨fl', by rwa [show b0 + (i + 1) = b0 + 1 + i by omega], by simpa using g2⟩

theorem flagAll_spec (D : List (List (Str × DKind))) (xs : List (List (Str × DKind))) :
    ∀ t0, (∀ (t : Nat) y, xs[t]? = some y → ∀ (i : Nat) x, y[i]? = some x →
        ∃ fl, Dag.classifyBranch (depGraph D) (positions D).length (t0 + t, i) = .ok fl) →
      ∃ F : Forest, flagAll D t0 xs = .ok F ∧ F.length = xs.length ∧
        ∀ (t : Nat) y, xs[t]? = some y → ∃ r, F[t]? = some r ∧ r.length = y.length ∧
          ∀ (i : Nat) x, y[i]? = some x → ∃ fl, Dag.classifyBranch (depGraph D) (positions D).length (t0 + t, i) = .ok fl ∧
            r[i]? = some ⟨x.1, x.2, fl.isConst, fl.isView⟩ := by
  induction xs with
  | nil => intro t0 _; exact ⟨[], rfl, rfl, by simp⟩
  | cons y ys ih =>
    intro t0 h
    obtain ⟨r, g1, g2, g3⟩ := flagTree_spec D t0 y 0 (fun i x hx => by simpa using h 0 y rfl i x hx)
    obtain ⟨F, h1, h2, h3⟩ := ih (t0 + 1) (fun t z hz i x hx => by
      have := h (t + 1) z (by simpa using hz) i x hx
      rwa [show t0 + (t + 1) = t0 + 1 + t by omega] at this)
    refine ⟨r :: F, by simp only [flagAll, g1, h1], by simp [h2], ?_⟩
    intro t z hz
    cases t with
    | zero =>
      simp only [List.getElem?_cons_zero, Option.some.injEq] at hz
      subst hz
      exact ⟨r, rfl, g2, fun i x hx => by simpa using g3 i x hx⟩
    | succ t =>
      obtain ⟨r', k1, k2, k3⟩ := h3 t z (by simpa using hz)
      refine ⟨r', by simpa using k1, k2, fun i x hx => ?_⟩
      rw [show t0 + (t + 1) = t0 + 1 + t by omega]
      exact k3 i x hx

/-- Entry of the decomposed trees. -/
def dAt (D : List (List (Str × DKind))) (t b : Nat) : Option (Str × DKind) := D[t]?.bind (·[b]?)

theorem mem_positions (D : List (List (Str × DKind))) (t b : Nat) (h : (dAt D t b).isSome = true) :
    (t, b) ∈ positions D := by
  unfold dAt at h
  cases hd : D[t]? with
  | none => simp [hd] at h
  | some y =>
    simp only [hd, Option.bind_some] at h
    have ht := (List.getElem?_eq_some_iff.mp hd).1
    have hb : b < y.length := by
      by_contra hn
      simp [List.getElem?_eq_none (Nat.le_of_not_lt hn)] at h
    simp only [positions, List.mem_flatMap, List.mem_range, List.mem_map, Prod.mk.injEq]
    exact ⟨t, ht, b, by simpa [hd] using hb, rfl, rfl⟩

theorem edge_cases {D : List (List (Str × DKind))} {t b : Nat} {v : Nat × Nat} (h : (depGraph D).Edge (t, b) v) :
    (∃ s j, dAt D t b = some (s, .func j) ∧ v = (j, 0)) ∨
    (∃ s deps d, dAt D t b = some (s, .node deps) ∧ d ∈ deps ∧ v = (t, d.2)) := by
  obtain ⟨_, h⟩ := h
  simp only [depGraph] at h
  cases hx : dAt D t b with
  | none =>
    unfold dAt at hx
    rw [hx] at h; simp at h
  | some x =>
    obtain ⟨s, k⟩ := x
    unfold dAt at hx
    rw [hx] at h
    cases k with
    | leaf l => simp at h
    | func j => left; exact ⟨s, j, rfl, by simpa using h⟩
    | node deps =>
      right
      simp only [List.mem_map] at h
      obtain ⟨d, hd, rfl⟩ := h
      exact ⟨s, deps, d, rfl, hd, rfl⟩

/-- Every branch of decomposed trees with decreasing references is classified. -/
theorem classify_all {D : List (List (Str × DKind))} (rank : Nat → Nat) (B : Nat)
    (hB : ∀ t b, (dAt D t b).isSome = true → b < B)
    (hf : ∀ t b s (j : Nat), dAt D t b = some (s, .func j) → rank j < rank t ∧ (dAt D j 0).isSome = true)
    (hn : ∀ t b s deps, dAt D t b = some (s, .node deps) → ∀ d ∈ deps, b < d.2 ∧ (dAt D t d.2).isSome = true)
    {t b : Nat} (h : (dAt D t b).isSome = true) :
    ∃ fl, Dag.classifyBranch (depGraph D) (positions D).length (t, b) = .ok fl := by
  have hstep : ∀ v w, (dAt D v.1 v.2).isSome = true → (depGraph D).Edge v w →
      (dAt D w.1 w.2).isSome = true ∧ msr rank B w.1 w.2 < msr rank B v.1 v.2 := by
    rintro ⟨t, b⟩ w hv he
    rcases edge_cases he with ⟨s, j, h1, rfl⟩ | ⟨s, deps, d, h1, h2, rfl⟩
    · obtain ⟨h3, h4⟩ := hf t b s j h1
      refine ⟨h4, ?_⟩
      have h5 : (rank j + 1) * (B + 1) ≤ rank t * (B + 1) := Nat.mul_le_mul_right _ h3
      rw [Nat.add_mul, Nat.one_mul] at h5
      simp only [msr]; omega
    · obtain ⟨h3, h4⟩ := hn t b s deps h1 d h2
      have := hB t d.2 h4
      refine ⟨h4, ?_⟩
      simp only [msr]; omega
  have hacc : ∀ n (v : Nat × Nat), (dAt D v.1 v.2).isSome = true → msr rank B v.1 v.2 < n →
      Acc (fun b a => (depGraph D).Edge a b) v := by
    intro n
    induction n with
    | zero => intro v _ h; omega
    | succ n ih =>
      intro v hv hm
      refine Acc.intro v fun w hw => ?_
      obtain ⟨h1, h2⟩ := hstep v w hv hw
      exact ih w h1 (by omega)
  have hreach : ∀ v, (depGraph D).Reach (t, b) v → (dAt D v.1 v.2).isSome = true := by
    intro v hv
    induction hv with
    | refl => exact h
    | tail _ he ih => exact (hstep _ _ ih he).1
  have hbd : (depGraph D).Bounded (positions D).length (t, b) :=
    ⟨positions D, Nat.le_refl _, fun w hw => mem_positions D w.1 w.2 (hreach w hw)⟩
  exact (Dag.C05_cycle_error_iff _ _ _ hbd).2.mpr (Dag.acc_no_cycle (hacc _ (t, b) h (Nat.lt_succ_self _)))

/-- Flags of a branch with references in terms of those of the referenced branches. -/
theorem flags_step {D : List (List (Str × DKind))} {v u : Nat × Nat} {N : Nat} {fv fu : Dag.Flags}
    (hv : Dag.classifyBranch (depGraph D) N v = .ok fv) (hu : Dag.classifyBranch (depGraph D) N u = .ok fu)
    (he : (depGraph D).Edge v u) :
    (fu.isView = true → fv.isView = true) ∧ (fv.isConst = true → fu.isConst = true) := by
  obtain ⟨c1, v1, _⟩ := Dag.C06_flags_exact _ _ _ _ hv
  obtain ⟨c2, v2, _⟩ := Dag.C06_flags_exact _ _ _ _ hu
  have hr : ∀ w, (depGraph D).Reach u w → (depGraph D).Reach v w :=
    fun w hw => Relation.ReflTransGen.head he hw
  constructor
  · intro h
    obtain ⟨w, info, a, b, c⟩ := v2.mp h
    exact v1.mpr ⟨w, info, hr w a, b, c⟩
  · intro h
    exact c2.mpr fun w info a b => c1.mp h w info (hr w a) b

theorem flags_single {D : List (List (Str × DKind))} {v u : Nat × Nat} {N : Nat} {fv fu : Dag.Flags}
    (hv : Dag.classifyBranch (depGraph D) N v = .ok fv) (hu : Dag.classifyBranch (depGraph D) N u = .ok fu)
    (hl : (depGraph D).leaf v = none) (hs : (depGraph D).succ v = [u]) :
    fu.isView = fv.isView ∧ fu.isConst = fv.isConst := by
  obtain ⟨c1, v1, _⟩ := Dag.C06_flags_exact _ _ _ _ hv
  obtain ⟨c2, v2, _⟩ := Dag.C06_flags_exact _ _ _ _ hu
  have he : (depGraph D).Edge v u := ⟨hl, by rw [hs]; simp⟩
  have hst := flags_step hv hu he
  have hr : ∀ w info, (depGraph D).Reach v w → (depGraph D).leaf w = some info → (depGraph D).Reach u w := by
    intro w info hw hlw
    rcases Relation.ReflTransGen.cases_head hw with h | ⟨x, hx, hxw⟩
    · rw [← h, hl] at hlw; simp at hlw
    · have := hx.2
      rw [hs, List.mem_singleton] at this
      rw [← this]; exact hxw
  constructor
  · apply Bool.eq_iff_iff.mpr
    refine ⟨hst.1, fun h => ?_⟩
    obtain ⟨w, info, a, b, c⟩ := v1.mp h
    exact v2.mpr ⟨w, info, hr w info a b, b, c⟩
  · apply Bool.eq_iff_iff.mpr
    exact ⟨fun h => c1.mpr fun w info a b => c2.mp h w info (hr w info a b) b, hst.2⟩

/-! ### Set-up -/

theorem mem_le_sum {l : List Nat} {x : Nat} (h : x ∈ l) : x ≤ l.sum := by
  induction l with
  | nil => simp at h
  | cons y ys ih =>
    rcases List.mem_cons.mp h with rfl | h
    · simp
    · have := ih h; simp; omega

theorem setup_spec {A : Arith K} {lit : Str → K} (hA : Laws A lit) {P : Program} (hP : P.Ok) :
    ∃ (F : Forest) (Ls : List (List Ex)) (rank : Nat → Nat),
      setup A P.soln P.scal P.params (P.defs.map (fun d => (d.1, d.2.text))) = .ok F ∧ FOk P rank Ls F := by
  obtain ⟨rk, hrk⟩ := hP.acyclic
  let nm : Str × Ex → Str → Prop := fun d s => Known P.env s ∧ s ∈ d.2.names
  have hok : ∀ s, NumLit s → (A.stod s).isSome = true ∧ (A.stod ('-' :: s)).isSome = true := by
    intro s hs
    rw [hA.stodLit s hs, hA.stodNeg s hs]; exact ⟨rfl, rfl⟩
  obtain ⟨bss, Ls, h1, h2, h3, h4⟩ := decomposeAll_spec hP.env (fun s => (A.stod s).isSome) hok nm
    (fun d s h => h.1) P.defs (fun d hd => ⟨(hP.exprs d hd).mono fun s hs hk => ⟨hk, hs⟩, hP.depth d hd⟩)
  let rank : Nat → Nat := fun t => ((P.defs[t]?).map (fun d => rk d.1)).getD 0
  let D := bss.map kinds
  -- the decomposed trees against the labels
  have key : ∀ (t b : Nat) x, dAt D t b = some x → ∃ d L e, P.defs[t]? = some d ∧ Ls[t]? = some L ∧ L[b]? = some e ∧
      e.Ok (nm d) ∧ Shape P.env L b e x.2 := by
    intro t b x hx
    have htl : t < P.defs.length := by
      unfold dAt at hx
      cases hd : D[t]? with
      | none => simp [hd] at hx
      | some y =>
        have := (List.getElem?_eq_some_iff.mp hd).1
        simpa [D, h2] using this
    have hd : P.defs[t]? = some P.defs[t] := List.getElem?_eq_getElem htl
    obtain ⟨bs, L, g1, g2, g3, g4, g5⟩ := h4 t _ hd
    have hDt : D[t]? = some (kinds bs) := by simp [D, g1]
    simp only [dAt, hDt, Option.bind_some, kinds_get bs g4] at hx
    cases hb : bs[b]? with
    | none => simp [hb] at hx
    | some br =>
      simp only [hb, Option.bind_some, Option.map_eq_some_iff] at hx
      obtain ⟨k, hk, rfl⟩ := hx
      have hbl : b < L.length := by rw [← g3.len]; exact (List.getElem?_eq_some_iff.mp hb).1
      have he : L[b]? = some L[b] := List.getElem?_eq_getElem hbl
      exact ⟨_, L, _, hd, g2, he, g3.ok _ (List.getElem_mem hbl), g3.shape b br _ k hb he hk⟩
  have has : ∀ t b, (dAt D t b).isSome = (labelAt Ls t b).isSome := by
    intro t b
    by_cases htl : t < P.defs.length
    · have hd : P.defs[t]? = some P.defs[t] := List.getElem?_eq_getElem htl
      obtain ⟨bs, L, g1, g2, g3, g4, g5⟩ := h4 t _ hd
      have hDt : D[t]? = some (kinds bs) := by simp [D, g1]
      simp only [dAt, labelAt, hDt, g2, Option.bind_some, kinds_get bs g4]
      by_cases hbl : b < bs.length
      · have hb : bs[b]? = some bs[b] := List.getElem?_eq_getElem hbl
        have hk : bs[b].kind.isSome = true := by
          have := g4
          rw [allDone, List.all_eq_true] at this
          exact this _ (List.getElem_mem hbl)
        rw [hb, List.getElem?_eq_getElem (by rw [← g3.len]; exact hbl)]
        simpa using hk
      · rw [List.getElem?_eq_none (by omega), List.getElem?_eq_none (by rw [← g3.len]; omega)]
        rfl
    · have e1 : D[t]? = none := List.getElem?_eq_none (by simp [D, h2]; omega)
      have e2 : Ls[t]? = none := List.getElem?_eq_none (by omega)
      simp [dAt, labelAt, e1, e2]
  have hroot : ∀ (t : Nat) d, P.defs[t]? = some d → labelAt Ls t 0 = some d.2 := by
    intro t d hd
    obtain ⟨bs, L, _, g2, _, _, g5⟩ := h4 t d hd
    simp [labelAt, g2, g5]
  have hrankF : ∀ (t b : Nat) s (j : Nat), labelAt Ls t b = some (.name s) → P.env.funcs[j]? = some s →
      rank j < rank t ∧ ∃ dt, dt ∈ P.defs ∧ s ∈ dt.2.names := by
    intro t b s j hl hj
    obtain ⟨x, hx⟩ := Option.isSome_iff_exists.mp ((has t b).trans (by rw [hl]; rfl))
    obtain ⟨d, L, e, k1, k2, k3, k4, _⟩ := key t b x hx
    have he : e = .name s := by
      simp only [labelAt, k2, Option.bind_some] at hl
      rw [k3] at hl; simpa using hl
    subst he
    have hs : s ∈ d.2.names := k4.2
    have hdm := List.mem_of_getElem? k1
    have hjm : s ∈ P.defs.map Prod.fst := List.mem_of_getElem? hj
    have hlt := hrk d hdm s hs hjm
    refine ⟨?_, d, hdm, hs⟩
    have e1 : P.defs[j]?.map Prod.fst = some s := by simpa [Program.env] using hj
    obtain ⟨dj, hdj, rfl⟩ := Option.map_eq_some_iff.mp e1
    show ((P.defs[j]?).map (fun d => rk d.1)).getD 0 < ((P.defs[t]?).map (fun d => rk d.1)).getD 0
    rw [hdj, k1]
    exact hlt
  have labelOf : ∀ (t : Nat) (L : List Ex), Ls[t]? = some L → ∀ (b : Nat) e, L[b]? = some e → labelAt Ls t b = some e := by
    intro t L hL b e he
    simp [labelAt, hL, he]
  let B := (D.map List.length).sum
  have hB : ∀ t b, (dAt D t b).isSome = true → b < B := by
    intro t b h
    unfold dAt at h
    cases hd : D[t]? with
    | none => simp [hd] at h
    | some y =>
      simp only [hd, Option.bind_some] at h
      have hb : b < y.length := by
        by_contra hn
        simp [List.getElem?_eq_none (Nat.le_of_not_lt hn)] at h
      exact Nat.lt_of_lt_of_le hb (mem_le_sum (List.mem_map.mpr ⟨y, List.mem_of_getElem? hd, rfl⟩))
  have hfE : ∀ t b s (j : Nat), dAt D t b = some (s, .func j) → rank j < rank t ∧ (dAt D j 0).isSome = true := by
    intro t b s j hx
    obtain ⟨d, L, e, k1, k2, k3, k4, k5⟩ := key t b _ hx
    cases k5 with
    | func hj =>
      rename_i s'
      refine ⟨(hrankF t b s' j (labelOf t L k2 b _ k3) hj).1, ?_⟩
      have e1 : P.defs[j]?.map Prod.fst = some s' := by simpa [Program.env] using hj
      obtain ⟨dj, hdj, _⟩ := Option.map_eq_some_iff.mp e1
      rw [has, hroot j dj hdj]; rfl
  have hnE : ∀ t b s deps, dAt D t b = some (s, .node deps) → ∀ d ∈ deps, b < d.2 ∧ (dAt D t d.2).isSome = true := by
    intro t b s deps hx d hd
    obtain ⟨d', L, e, k1, k2, k3, k4, k5⟩ := key t b _ hx
    cases k5 with
    | node hdd _ _ =>
      obtain ⟨i, hi, rfl⟩ := List.mem_iff_getElem.mp hd
      have := (List.forall₂_iff_get.mp hdd).2 i hi (by rw [← hdd.length_eq]; exact hi)
      simp only [List.get_eq_getElem] at this
      refine ⟨this.2.1, ?_⟩
      rw [has, labelOf t L k2 _ _ this.2.2]; rfl
  have hcl : ∀ {t b : Nat}, (dAt D t b).isSome = true →
      ∃ fl, Dag.classifyBranch (depGraph D) (positions D).length (t, b) = .ok fl :=
    fun h => classify_all rank B hB hfE hnE h
  obtain ⟨F, f1, f2, f3⟩ := flagAll_spec D D 0 (by
    intro t y hy i x hx
    rw [Nat.zero_add]
    exact hcl (by simp [dAt, hy, hx]))
  have fat : ∀ (t b : Nat) br, F.at t b = some br → ∃ x fl, dAt D t b = some x ∧
      Dag.classifyBranch (depGraph D) (positions D).length (t, b) = .ok fl ∧ br = ⟨x.1, x.2, fl.isConst, fl.isView⟩ := by
    intro t b br hb
    unfold Forest.at at hb
    cases hF : F[t]? with
    | none => simp [hF] at hb
    | some r =>
      simp only [hF, Option.bind_some] at hb
      have htl := (List.getElem?_eq_some_iff.mp hF).1
      have hD : D[t]? = some D[t] := List.getElem?_eq_getElem (by omega)
      obtain ⟨r', a1, a2, a3⟩ := f3 t _ hD
      rw [hF] at a1
      simp only [Option.some.injEq] at a1
      subst a1
      have hbl := (List.getElem?_eq_some_iff.mp hb).1
      have hy : (D[t])[b]? = some (D[t])[b] := List.getElem?_eq_getElem (by omega)
      obtain ⟨fl, b1, b2⟩ := a3 b _ hy
      rw [hb] at b2
      rw [Nat.zero_add] at b1
      exact ⟨_, fl, by simp only [dAt, hD, Option.bind_some]; exact hy, b1, by simpa using b2⟩
  have fhas : ∀ t b, (F.at t b).isSome = (labelAt Ls t b).isSome := by
    intro t b
    rw [← has]
    by_cases htl : t < D.length
    · have hD : D[t]? = some D[t] := List.getElem?_eq_getElem htl
      obtain ⟨r, a1, a2, a3⟩ := f3 t _ hD
      simp only [Forest.at, dAt, a1, hD, Option.bind_some]
      by_cases hb : b < r.length
      · rw [List.getElem?_eq_getElem hb, List.getElem?_eq_getElem (by omega)]; rfl
      · rw [List.getElem?_eq_none (by omega), List.getElem?_eq_none (by omega)]; rfl
    · have e1 : F[t]? = none := List.getElem?_eq_none (by omega)
      have e2 : D[t]? = none := List.getElem?_eq_none (by omega)
      simp only [Forest.at, dAt, e1, e2, Option.bind_none]; rfl
  have graphOf : ∀ (t b : Nat) x, dAt D t b = some x → D[t]?.bind (·[b]?) = some x := fun _ _ _ h => h
  refine ⟨F, Ls, rank, ?_, ?_, hroot, fhas, ?_, ?_, ?_, ?_, ?_, ?_⟩
  · have hen : (⟨P.soln, P.scal, P.params, (P.defs.map (fun d => (d.1, d.2.text))).map Prod.fst⟩ : Env) = P.env := by
      simp [Program.env, Function.comp_def]
    have hte : (P.defs.map (fun d => (d.1, d.2.text))).map Prod.snd = P.defs.map (fun d => d.2.text) := by
      simp [Function.comp_def]
    simp only [setup, hen, hte, h1]
    exact f1
  · rw [f2]; simp [D, h2]
  · intro t b br e hb he
    obtain ⟨x, fl, c1, c2, rfl⟩ := fat t b br hb
    obtain ⟨d, L, e', k1, k2, k3, k4, k5⟩ := key t b x c1
    have : e' = e := by
      have := labelOf t L k2 b e' k3
      rw [he] at this; simpa using this.symm
    subst this
    refine ⟨k4.mono fun s _ h => h.1, ?_⟩
    rw [k2]; exact k5
  · intro t b s j hl hj
    exact (hrankF t b s j hl hj).1
  · intro t b s j d hl hj hd q hq
    obtain ⟨_, dt, hdt, hs⟩ := hrankF t b s j hl hj
    have e1 : P.defs[j]?.map Prod.fst = some s := by simpa [Program.env] using hj
    rw [hd] at e1
    simp only [Option.map_some, Option.some.injEq] at e1
    refine hP.noAlias dt hdt s hs q ?_
    have := List.mem_of_getElem? hd
    rwa [show d = (s, Ex.name q) by rw [← e1, ← hq]] at this
  · intro t b br l hb hk
    obtain ⟨x, fl, c1, c2, rfl⟩ := fat t b br hb
    obtain ⟨s, k⟩ := x
    simp only at hk
    subst hk
    have hg : (depGraph D).leaf (t, b) = some l.flags := by
      simp only [depGraph]; rw [graphOf t b _ c1]
    simp only [Dag.classifyBranch, Dag.check, List.not_mem_nil, if_false, hg, Except.ok.injEq] at c2
    rw [← c2]
    simp [Dag.Flags.absorb, Dag.Flags.start]
  · intro t b br deps hb hk d hd db hdb
    obtain ⟨x, fl, c1, c2, rfl⟩ := fat t b br hb
    obtain ⟨x', fl', c1', c2', rfl⟩ := fat t d.2 db hdb
    obtain ⟨s, k⟩ := x
    simp only at hk
    subst hk
    refine flags_step c2 c2' ⟨?_, ?_⟩
    · simp only [depGraph]; rw [graphOf t b _ c1]
    · simp only [depGraph]; rw [graphOf t b _ c1]
      exact List.mem_map.mpr ⟨d, hd, rfl⟩
  · intro t b br j hb hk r hr
    obtain ⟨x, fl, c1, c2, rfl⟩ := fat t b br hb
    obtain ⟨x', fl', c1', c2', rfl⟩ := fat j 0 r hr
    obtain ⟨s, k⟩ := x
    simp only at hk
    subst hk
    refine flags_single c2 c2' ?_ ?_
    · simp only [depGraph]; rw [graphOf t b _ c1]
    · simp only [depGraph]; rw [graphOf t b _ c1]

end MrHyDE.Expr
