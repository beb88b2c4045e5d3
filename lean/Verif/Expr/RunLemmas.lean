import Verif.Expr.SetupLemmas

/-
Helper lemmas: constant folding and histories of evaluations.
-/

namespace MrHyDE.Expr

variable {K : Type} {P : Program} {rank : Nat → Nat} {Ls : List (List Ex)} {F : Forest}
variable {A : Arith K} {lit : Str → K} {ρ : WksetData K → Str → View K}

/-- A constant branch holds one value and is not a parameter. -/
theorem const_flags (hρ : ∀ w, Meaning A lit P w (ρ w)) (h : FOk P rank Ls F) (w : WksetData K) {t b : Nat} {br : ABranch}
    {e : Ex} (hb : F.at t b = some br) (hc : br.isConst = true) : br.kind.paramVal w = none := by
  cases hk : br.kind with
  | leaf l =>
    have := (h.leafFlags t b br l hb hk).1
    rw [hc] at this
    cases l <;> simp [Leaf.flags] at this <;> rfl
  | _ => rfl

/-- What the root shows. -/
theorem rootView_good {w : WksetData K} {br : ABranch} {e : Ex} {c : Cell K} (hg : Good A lit ρ w br e c)
    (hp : br.kind.paramVal w = none) : rootView br c = Val A lit ρ w e := by
  unfold Good at hg
  rw [hp] at hg
  unfold rootView
  by_cases hv : br.isView = true
  · simp only [hv, if_true] at hg ⊢; exact hg
  · simp only [hv, Bool.false_eq_true, if_false] at hg ⊢
    funext i p; exact hg i p

/-- Folding the branches of one tree. -/
theorem foldTree_loop (hA : Laws A lit) (hρ : ∀ w, Meaning A lit P w (ρ w)) (h : FOk P rank Ls F)
    (w : WksetData K) (dim1 B fuel t : Nat) (hB : ∀ t b, (F.at t b).isSome = true → b < B)
    (hfuel : ∀ b, (F.at t b).isSome = true → msr rank B t b < fuel) (len m : Nat)
    (hlen : ∀ b, b < len → (F.at t b).isSome = true) :
    ∀ b0 st, b0 + m = len → (0 < b0 → ∀ br e, F.at t 0 = some br → br.isConst = true → labelAt Ls t 0 = some e →
        Good A lit ρ w br e (st t 0)) →
      ∃ st', (List.range' b0 m).foldlM (foldStep A w dim1 F fuel t) st = some st' ∧
        (0 < len → ∀ br e, F.at t 0 = some br → br.isConst = true → labelAt Ls t 0 = some e →
          Good A lit ρ w br e (st' t 0)) := by
  induction m with
  | zero =>
    intro b0 st hb0 hg
    exact ⟨st, rfl, fun hl => hg (by omega)⟩
  | succ m ih =>
    intro b0 st hb0 hg
    have hat := hlen b0 (by omega)
    obtain ⟨br, hbr⟩ := Option.isSome_iff_exists.mp hat
    have hbr' : F[t]?.bind (·[b0]?) = some br := hbr
    rw [List.range'_succ]
    by_cases hc : br.isConst = true
    · obtain ⟨st1, h1, h2, h3⟩ := evalB_spec hA hρ h w dim1 B hB fuel st t b0 hat (hfuel b0 hat)
      obtain ⟨st', g1, g2⟩ := ih (b0 + 1) st1 (by omega) (by
        intro _ br0 e0 hbr0 hc0 he0
        by_cases hz : b0 = 0
        · subst hz; exact h2 br0 e0 hbr0 he0
        · rcases h3 t 0 with h' | ⟨_, h'⟩
          · rw [h']; exact hg (by omega) br0 e0 hbr0 hc0 he0
          · exact h' br0 e0 hbr0 he0)
      refine ⟨st', ?_, g2⟩
      rw [List.foldlM_cons]
      simp only [foldStep, hbr', hc, if_true, h1]
      exact g1
    · obtain ⟨st', g1, g2⟩ := ih (b0 + 1) st (by omega) (by
        intro _ br0 e0 hbr0 hc0 he0
        by_cases hz : b0 = 0
        · subst hz
          rw [hbr] at hbr0
          simp only [Option.some.injEq] at hbr0
          subst hbr0
          exact absurd hc0 hc
        · exact hg (by omega) br0 e0 hbr0 hc0 he0)
      refine ⟨st', ?_, g2⟩
      rw [List.foldlM_cons]
      simp only [foldStep, hbr', hc, Bool.false_eq_true, if_false]
      exact g1

/-- The `Vista` of every tree below `n` with a constant root shows the value. -/
def VistaOk (A : Arith K) (lit : Str → K) (ρ : WksetData K → Str → View K) (Ls : List (List Ex)) (F : Forest)
    (w : WksetData K) (n : Nat) (s : State K) : Prop :=
  ∀ t, t < n → ∀ br e, F.at t 0 = some br → br.isConst = true → labelAt Ls t 0 = some e →
    s.vista t = Val A lit ρ w e

theorem at_of_lt {r : List ABranch} {t : Nat} (hF : F[t]? = some r) (b : Nat) :
    (F.at t b).isSome = decide (b < r.length) := by
  unfold Forest.at
  rw [hF, Option.bind_some]
  by_cases hb : b < r.length
  · rw [List.getElem?_eq_getElem hb]; simp [hb]
  · rw [List.getElem?_eq_none (by omega)]; simp [hb]

theorem foldTree_spec (hA : Laws A lit) (hρ : ∀ w, Meaning A lit P w (ρ w)) (h : FOk P rank Ls F)
    (w : WksetData K) (dim1 B fuel t : Nat) (hB : ∀ t b, (F.at t b).isSome = true → b < B)
    (hfuel : ∀ b, (F.at t b).isSome = true → msr rank B t b < fuel) (ht : t < F.length) (s : State K)
    (hs : VistaOk A lit ρ Ls F w t s) :
    ∃ s', foldTree A w dim1 F fuel s t = some s' ∧ VistaOk A lit ρ Ls F w (t + 1) s' := by
  have hF : F[t]? = some F[t] := List.getElem?_eq_getElem ht
  obtain ⟨st, h1, h2⟩ := foldTree_loop hA hρ h w dim1 B fuel t hB hfuel F[t].length F[t].length
    (fun b hb => by rw [at_of_lt hF]; simpa using hb) 0 s.cells (by omega) (by simp)
  have hd : P.defs[t]? = some (P.defs[t]'(by rw [← h.lenF]; exact ht)) := List.getElem?_eq_getElem _
  obtain ⟨br, hbr⟩ := h.get (h.root t _ hd)
  have hbr' : F[t]?.bind (·[0]?) = some br := hbr
  have hpos : 0 < F[t].length := by
    have := at_of_lt hF 0
    rw [hbr] at this
    simpa using this.symm
  refine ⟨State.setVista { s with cells := st } t (rootView br (st t 0)), ?_, ?_⟩
  · unfold foldTree
    have hl : (F[t]?.getD []).length = F[t].length := by rw [hF]; rfl
    rw [hl, List.range_eq_range', h1]
    simp only [hbr']
  · intro t' ht' br' e' hbr'' hc he
    by_cases htt : t' = t
    · subst htt
      simp only [State.setVista, if_true]
      rw [hbr] at hbr''
      simp only [Option.some.injEq] at hbr''
      subst hbr''
      exact rootView_good (h2 hpos br e' hbr hc he) (const_flags (e := e') hρ h w hbr hc)
    · simp only [State.setVista, htt, if_false]
      exact hs t' (by omega) br' e' hbr'' hc he

theorem foldConst_loop (hA : Laws A lit) (hρ : ∀ w, Meaning A lit P w (ρ w)) (h : FOk P rank Ls F)
    (w : WksetData K) (dim1 B fuel : Nat) (hB : ∀ t b, (F.at t b).isSome = true → b < B)
    (hfuel : ∀ t b, (F.at t b).isSome = true → msr rank B t b < fuel) (m : Nat) :
    ∀ t0 s, t0 + m = F.length → VistaOk A lit ρ Ls F w t0 s →
      ∃ s', (List.range' t0 m).foldlM (foldTree A w dim1 F fuel) s = some s' ∧ VistaOk A lit ρ Ls F w F.length s' := by
  induction m with
  | zero =>
    intro t0 s h0 hs
    have : t0 = F.length := by omega
    subst this
    exact ⟨s, rfl, hs⟩
  | succ m ih =>
    intro t0 s h0 hs
    obtain ⟨s1, h1, h2⟩ := foldTree_spec hA hρ h w dim1 B fuel t0 hB (hfuel t0) (by omega) s hs
    obtain ⟨s', g1, g2⟩ := ih (t0 + 1) s1 (by omega) h2
    refine ⟨s', ?_, g2⟩
    rw [List.range'_succ, List.foldlM_cons, h1]
    exact g1

/-- One call of `evaluate`. -/
theorem evaluate_spec (hA : Laws A lit) (hρ : ∀ w, Meaning A lit P w (ρ w)) (h : FOk P rank Ls F)
    (w0 w : WksetData K) (dim1 B fuel : Nat) (hB : ∀ t b, (F.at t b).isSome = true → b < B)
    (hfuel : ∀ t b, (F.at t b).isSome = true → msr rank B t b < fuel) (s : State K)
    (hs : VistaOk A lit ρ Ls F w0 F.length s) (f : Str) (hf : f ∈ P.defs.map Prod.fst) :
    ∃ s', evaluate A w dim1 F (P.defs.map Prod.fst) fuel s f = .ok (s', ρ w f) ∧ VistaOk A lit ρ Ls F w0 F.length s' := by
  cases hi : (P.defs.map Prod.fst).idxOf? f with
  | none => exact absurd hf (by simpa [List.idxOf?_eq_none_iff] using hi)
  | some t =>
    have ht : (P.defs.map Prod.fst)[t]? = some f := by
      have := List.idxOf?_eq_some_iff.mp hi
      obtain ⟨hl, he, _⟩ := this
      rw [List.getElem?_eq_getElem hl, he]
    simp only [List.getElem?_map, Option.map_eq_some_iff] at ht
    obtain ⟨d, hd, rfl⟩ := ht
    have hroot := h.root t d hd
    obtain ⟨br, hbr⟩ := h.get hroot
    have hbr' : F[t]?.bind (·[0]?) = some br := hbr
    have htl : t < F.length := by rw [h.lenF]; exact (List.getElem?_eq_some_iff.mp hd).1
    have hval : ρ w d.1 = Val A lit ρ w d.2 := (hρ w).func d (List.mem_of_getElem? hd)
    rw [hval]
    by_cases hc : br.isConst = true
    · refine ⟨s, ?_, hs⟩
      have e1 := hs t htl br d.2 hbr hc hroot
      have e2 := const_val hρ h B hB w0 w _ t 0 br d.2 hbr hroot hc (Nat.lt_succ_self _)
      simp only [evaluate, hi, hbr', hc, if_true, e1, e2]
    · obtain ⟨st, h1, h2, _⟩ := evalB_spec hA hρ h w dim1 B hB fuel s.cells t 0 (by rw [hbr]; rfl)
        (hfuel t 0 (by rw [hbr]; rfl))
      have hg := h2 br d.2 hbr hroot
      have keep : ∀ cells v, VistaOk A lit ρ Ls F w0 F.length (State.setVista { s with cells := cells } t v) := by
        intro cells v t' ht' br' e' hbr'' hc' he'
        by_cases htt : t' = t
        · subst htt
          rw [hbr] at hbr''
          simp only [Option.some.injEq] at hbr''
          subst hbr''
          exact absurd hc' hc
        · simp only [State.setVista, htt, if_false]
          exact hs t' ht' br' e' hbr'' hc' he'
      have fin : ∃ st', evalTree A w dim1 F fuel s.cells t = some (st', Val A lit ρ w d.2) := by
        unfold evalTree
        simp only [h1, hbr']
        cases hpv : br.kind.paramVal w with
        | some x =>
          unfold Good at hg
          rw [hpv] at hg
          cases hk : br.kind with
          | leaf l =>
            rw [hk] at hpv
            have hl : l.paramVal w = some x := hpv
            simp only [hl]
            exact ⟨_, by rw [hg.2]⟩
          | func j => rw [hk] at hpv; simp [DKind.paramVal] at hpv
          | node ds => rw [hk] at hpv; simp [DKind.paramVal] at hpv
        | none =>
          have hr := rootView_good hg hpv
          unfold rootView at hr
          cases hk : br.kind with
          | leaf l =>
            rw [hk] at hpv
            have hl : l.paramVal w = none := hpv
            simp only [hl, hr]
            exact ⟨_, rfl⟩
          | func j => simp only [hr]; exact ⟨_, rfl⟩
          | node ds => simp only [hr]; exact ⟨_, rfl⟩
      obtain ⟨st', hst'⟩ := fin
      refine ⟨State.setVista { s with cells := st' } t (Val A lit ρ w d.2), ?_, keep _ _⟩
      simp only [evaluate, hi, hbr', hc, Bool.false_eq_true, if_false, hst']

theorem runCalls_spec (hA : Laws A lit) (hρ : ∀ w, Meaning A lit P w (ρ w)) (h : FOk P rank Ls F)
    (w0 : WksetData K) (dim1 B fuel : Nat) (hB : ∀ t b, (F.at t b).isSome = true → b < B)
    (hfuel : ∀ t b, (F.at t b).isSome = true → msr rank B t b < fuel) (calls : List (WksetData K × Str)) :
    ∀ s, VistaOk A lit ρ Ls F w0 F.length s → (∀ c ∈ calls, c.2 ∈ P.defs.map Prod.fst) →
      runCalls A dim1 F (P.defs.map Prod.fst) fuel s calls = .ok (calls.map (fun c => ρ c.1 c.2)) := by
  induction calls with
  | nil => intro s _ _; rfl
  | cons c cs ih =>
    intro s hs hc
    obtain ⟨w, f⟩ := c
    obtain ⟨s', h1, h2⟩ := evaluate_spec hA hρ h w0 w dim1 B fuel hB hfuel s hs f (hc (w, f) (by simp))
    simp only [runCalls, h1, ih s' h2 (fun c hc' => hc c (by simp [hc']))]
    rfl

/-- All positions are bounded and all measures are bounded. -/
theorem FOk.bounds (h : FOk P rank Ls F) : ∃ B N, (∀ t b, (F.at t b).isSome = true → b < B) ∧
    ∀ t b, (F.at t b).isSome = true → msr rank B t b < N := by
  have hat : ∀ t b, (F.at t b).isSome = true → t < F.length ∧ b < (F.map List.length).sum := by
    intro t b hb
    cases hF : F[t]? with
    | none => simp [Forest.at, hF] at hb
    | some r =>
      rw [at_of_lt hF] at hb
      refine ⟨(List.getElem?_eq_some_iff.mp hF).1, Nat.lt_of_lt_of_le (by simpa using hb)
        (mem_le_sum (List.mem_map.mpr ⟨r, List.mem_of_getElem? hF, rfl⟩))⟩
  refine ⟨(F.map List.length).sum, (((List.range F.length).map rank).sum + 1) * ((F.map List.length).sum + 1),
    fun t b hb => (hat t b hb).2, fun t b hb => ?_⟩
  have h1 : rank t ≤ ((List.range F.length).map rank).sum :=
    mem_le_sum (List.mem_map.mpr ⟨t, List.mem_range.mpr (hat t b hb).1, rfl⟩)
  have h2 := Nat.mul_le_mul_right ((F.map List.length).sum + 1) h1
  rw [Nat.add_mul, Nat.one_mul]
  unfold msr
  omega

end MrHyDE.Expr
