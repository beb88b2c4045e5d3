import Verif.Workset.Lemmas2

set_option linter.unusedSectionVars false

namespace MrHyDE.Workset

variable {K : Type} [Semiring K]

/-- The array holds the finite element function of component `comp` wherever the basis is
tabulated. -/
def Holds (c : Nat → Nat → K) (b : Basis K) (comp : Nat) (data : Nat → Nat → K) : Prop :=
  ∀ el p, el < b.ne → p < b.npt → data el p = femValue c b comp el p

/-- A divergence is tabulated without a component (the view has three indices,
workset.cpp:1035-1052); the model stores it in component 0. -/
def HoldsDiv (c : Nat → Nat → K) (b : Basis K) (data : Nat → Nat → K) : Prop :=
  ∀ el p, el < b.ne → p < b.npt →
    data el p = ∑ d ∈ Finset.range b.ndof, c el d * b.val el d p 0

theorem fill_holds {width : Nat} {c : Nat → Nat → K} {b : Basis K} {comp : Nat}
    {data d : Nat → Nat → K} (h : fill width c b comp data = some d) :
    ∀ el p, el < b.ne → p < b.npt →
      d el p = ∑ i ∈ Finset.range b.ndof, c el i * b.val el i p comp := by
  intro el p hel hp
  unfold fill at h
  rw [if_neg (by omega)] at h
  by_cases hb : b.ndof = 0 ∨ width < b.npt
  · rw [if_pos hb] at h; simp at h
  · rw [if_neg hb] at h
    simp only [Option.some.injEq] at h
    subst h
    simp only [hel, hp, and_self, if_true]
    exact accumulate_eq _ _ (by omega)

theorem evalWith_holds {width : Nat} {c : Nat → Nat → K} {b : Basis K} {f g : Field K}
    (h : evalWith width c b f = some g) :
    g.st = f.st ∧ g.updated = true ∧ Holds c b f.st.comp g.data := by
  unfold evalWith at h
  by_cases hd : b.dim ≤ f.st.comp
  · rw [if_pos hd] at h
    simp only [Option.some.injEq] at h
    subst h
    refine ⟨rfl, rfl, ?_⟩
    intro el p _ _
    unfold femValue
    rw [if_neg (by omega)]
  · rw [if_neg hd, Option.map_eq_some_iff] at h
    obtain ⟨d, hf, rfl⟩ := h
    refine ⟨rfl, rfl, ?_⟩
    intro el p hel hp
    unfold femValue
    rw [if_pos (by omega)]
    exact fill_holds hf el p hel hp

/-- A field marked as updated in the volume holds what the current data say. -/
def VolOK (env : Env K) (f : Field K) : Prop :=
  f.updated = true → ∃ c bid, coeffs env f.st = some (c, bid) ∧
    ((f.st.dtype = .div ∧ ∃ b, env.basisDiv[bid]? = some b ∧ HoldsDiv c b f.data) ∨
     (f.st.dtype ≠ .div ∧ ∃ b, volBasis env f.st bid = some b ∧ Holds c b f.st.comp f.data))

/-- A field marked as updated on sides holds what the current data say. -/
def SideOK (env : Env K) (f : Field K) : Prop :=
  f.updated = true → ∃ c bid, coeffs env f.st = some (c, bid) ∧
    ((f.st.dtype = .div ∧ ∃ b, env.basisDiv[bid]? = some b ∧ HoldsDiv c b f.data) ∨
     (f.st.dtype ≠ .div ∧ ∃ b, sideBasis env f.st bid = some b ∧ Holds c b f.st.comp f.data))

theorem evalVol_ok {env : Env K} {f g : Field K} (hu : f.updated = false)
    (h : evalVol env f = some g) :
    g.st = f.st ∧ VolOK env g ∧ (proceed env .volume f.st = true → g.updated = true) := by
  unfold evalVol at h
  by_cases hp : proceed env .volume f.st = true
  · rw [if_pos hp] at h
    cases hc : coeffs env f.st with
    | none => rw [hc] at h; simp at h
    | some cb =>
      obtain ⟨c, bid⟩ := cb
      rw [hc] at h
      simp only at h
      by_cases hd : f.st.dtype = .div
      · rw [if_pos hd] at h
        cases hb : env.basisDiv[bid]? with
        | none => rw [hb] at h; simp at h
        | some b =>
          rw [hb] at h
          simp only [Option.map_eq_some_iff] at h
          obtain ⟨d, hf, rfl⟩ := h
          exact ⟨rfl, fun _ => ⟨c, bid, hc, Or.inl ⟨hd, b, hb, fill_holds hf⟩⟩, fun _ => rfl⟩
      · rw [if_neg hd] at h
        cases hb : volBasis env f.st bid with
        | none => rw [hb] at h; simp at h
        | some b =>
          rw [hb] at h
          simp only at h
          obtain ⟨h1, h2, h3⟩ := evalWith_holds h
          refine ⟨h1, fun _ => ⟨c, bid, by rw [h1]; exact hc, Or.inr ⟨by rw [h1]; exact hd, b, ?_, ?_⟩⟩,
            fun _ => h2⟩
          · rw [h1]; exact hb
          · rw [h1]; exact h3
  · rw [if_neg hp] at h
    simp only [Option.some.injEq] at h
    subst h
    exact ⟨rfl, fun e => (by rw [hu] at e; cases e), fun e => absurd e hp⟩

theorem evalSide_ok {env : Env K} {f g : Field K} (hu : f.updated = false)
    (h : evalSide env f = some g) :
    g.st = f.st ∧ SideOK env g ∧ (proceed env .side f.st = true → g.updated = true) := by
  unfold evalSide at h
  by_cases hp : proceed env .side f.st = true
  · rw [if_pos hp] at h
    cases hc : coeffs env f.st with
    | none => rw [hc] at h; simp at h
    | some cb =>
      obtain ⟨c, bid⟩ := cb
      rw [hc] at h
      simp only at h
      by_cases hd : f.st.dtype = .div
      · rw [if_pos hd] at h
        cases hb : env.basisDiv[bid]? with
        | none => rw [hb] at h; simp at h
        | some b =>
          rw [hb] at h
          simp only [Option.map_eq_some_iff] at h
          obtain ⟨d, hf, rfl⟩ := h
          exact ⟨rfl, fun _ => ⟨c, bid, hc, Or.inl ⟨hd, b, hb, fill_holds hf⟩⟩, fun _ => rfl⟩
      · rw [if_neg hd] at h
        cases hb : sideBasis env f.st bid with
        | none => rw [hb] at h; simp at h
        | some b =>
          rw [hb] at h
          simp only at h
          obtain ⟨h1, h2, h3⟩ := evalWith_holds h
          refine ⟨h1, fun _ => ⟨c, bid, by rw [h1]; exact hc, Or.inr ⟨by rw [h1]; exact hd, b, ?_, ?_⟩⟩,
            fun _ => h2⟩
          · rw [h1]; exact hb
          · rw [h1]; exact h3
  · rw [if_neg hp] at h
    simp only [Option.some.injEq] at h
    subst h
    exact ⟨rfl, fun e => (by rw [hu] at e; cases e), fun e => absurd e hp⟩

/-- The invariant of a workset made from the entries `es`. -/
structure Inv (dim : Nat) (es : List Entry) (s : State K) : Prop where
  volSt : s.vol.map Field.st = (volFields K dim es).map Field.st
  sideSt : s.side.map Field.st = (sideFields K dim es).map Field.st
  volOK : ∀ f ∈ s.vol, VolOK s.env f
  sideOK : ∀ f ∈ s.side, SideOK s.env f

/-- A freshly created workset, workset.cpp:146-277. -/
def fresh (dim : Nat) (es : List Entry) (env : Env K) (loc : Loc) : State K :=
  { env := env, loc := loc, vol := volFields K dim es, side := sideFields K dim es }

theorem inv_fresh (dim : Nat) (es : List Entry) (env : Env K) (loc : Loc) :
    Inv dim es (fresh dim es env loc) where
  volSt := rfl
  sideSt := rfl
  volOK := by
    intro f hf hu
    simp only [fresh, volFields, List.mem_flatMap, List.mem_map] at hf
    obtain ⟨e, -, l, -, rfl⟩ := hf
    simp at hu
  sideOK := by
    intro f hf hu
    simp only [fresh, sideFields, List.mem_flatMap, List.mem_map] at hf
    obtain ⟨e, -, l, -, rfl⟩ := hf
    simp at hu

theorem inv_reset {dim : Nat} {es : List Entry} {s : State K} (h : Inv dim es s) (env : Env K) :
    Inv dim es (reset { s with env := env }) where
  volSt := by rw [← h.volSt]; simp [reset, Function.comp_def]
  sideSt := by rw [← h.sideSt]; simp [reset, Function.comp_def]
  volOK := by
    intro f hf hu
    simp only [reset, List.mem_map] at hf
    obtain ⟨g, -, rfl⟩ := hf
    simp at hu
  sideOK := by
    intro f hf hu
    simp only [reset, List.mem_map] at hf
    obtain ⟨g, -, rfl⟩ := hf
    simp at hu

theorem inv_getField {dim : Nat} {es : List Entry} {s s' : State K} {l : Str} {d : Nat → Nat → K}
    (h : Inv dim es s) (hg : getField s l true false = some (s', d)) : Inv dim es s' := by
  unfold getField at hg
  cases hl : s.loc with
  | volume =>
    rw [hl] at hg
    simp only [Option.map_eq_some_iff] at hg
    obtain ⟨⟨r1, r2⟩, hr, he⟩ := hg
    simp only [Prod.mk.injEq] at he
    obtain ⟨pre, f, post, g, h1, h2, h3, h4, h5, h6⟩ := request_spec hr
    have hgst : g.st = f.st ∧ VolOK s.env g := by
      rcases h4 with ⟨hu, rfl⟩ | ⟨hu, he⟩
      · exact ⟨rfl, h.volOK _ (by rw [h1]; simp)⟩
      · exact ⟨(evalVol_ok hu he).1, (evalVol_ok hu he).2.1⟩
    rw [← he.1]
    exact {
      volSt := by
        rw [← h.volSt, h5, h1]
        simp [hgst.1]
      sideSt := h.sideSt
      volOK := by
        intro x hx
        simp only [h5, List.mem_append, List.mem_cons] at hx
        rcases hx with hx | rfl | hx
        · exact h.volOK x (by rw [h1]; simp [hx])
        · exact hgst.2
        · exact h.volOK x (by rw [h1]; simp [hx])
      sideOK := h.sideOK }
  | side =>
    rw [hl] at hg
    simp only [Option.map_eq_some_iff] at hg
    obtain ⟨⟨r1, r2⟩, hr, he⟩ := hg
    simp only [Prod.mk.injEq] at he
    obtain ⟨pre, f, post, g, h1, h2, h3, h4, h5, h6⟩ := request_spec hr
    have hgst : g.st = f.st ∧ SideOK s.env g := by
      rcases h4 with ⟨hu, rfl⟩ | ⟨hu, he⟩
      · exact ⟨rfl, h.sideOK _ (by rw [h1]; simp)⟩
      · exact ⟨(evalSide_ok hu he).1, (evalSide_ok hu he).2.1⟩
    rw [← he.1]
    exact {
      volSt := h.volSt
      sideSt := by
        rw [← h.sideSt, h5, h1]
        simp [hgst.1]
      volOK := h.volOK
      sideOK := by
        intro x hx
        simp only [h5, List.mem_append, List.mem_cons] at hx
        rcases hx with hx | rfl | hx
        · exact h.sideOK x (by rw [h1]; simp [hx])
        · exact hgst.2
        · exact h.sideOK x (by rw [h1]; simp [hx]) }
  | point => rw [hl] at hg; simp at hg

theorem inv_step {dim : Nat} {es : List Entry} {s s' : State K} {o : Op K}
    (h : Inv dim es s) (hs : step s o = some s') : Inv dim es s' := by
  cases o with
  | load env =>
    simp only [step, Option.some.injEq] at hs
    subst hs
    exact inv_reset h env
  | move loc =>
    simp only [step, Option.some.injEq] at hs
    subst hs
    exact ⟨h.volSt, h.sideSt, h.volOK, h.sideOK⟩
  | ask l =>
    simp only [step] at hs
    have key : (getField s l true false).map Prod.fst = some s' → Inv dim es s' := by
      intro hk
      rw [Option.map_eq_some_iff] at hk
      obtain ⟨⟨a, d⟩, hg, rfl⟩ := hk
      exact inv_getField h hg
    cases hl : s.loc with
    | volume => rw [hl] at hs; exact key hs
    | side => rw [hl] at hs; exact key hs
    | point => rw [hl] at hs; simp only [Option.some.injEq] at hs; subst hs; exact h

theorem inv_run {dim : Nat} {es : List Entry} {s s' : State K} {os : List (Op K)}
    (h : Inv dim es s) (hs : run s os = some s') : Inv dim es s' := by
  induction os generalizing s with
  | nil => simp only [run, Option.some.injEq] at hs; subst hs; exact h
  | cons o os ih =>
    simp only [run, Option.bind_eq_some_iff] at hs
    obtain ⟨a, ha, hr⟩ := hs
    exact ih (inv_step h ha) hr

/-! ### The field a label stands for -/

theorem vol_unique {dim : Nat} {es : List Entry} (hn : (es.map Entry.name).Nodup)
    (hp : ∀ e ∈ es, PlainName e.name) {e : Entry} (he : e ∈ es) (q : Qty)
    {t : Static} (ht : t ∈ (volFields K dim es).map Field.st) (hl : t.label = q.label e.name) :
    t = mkStatic (q.label e.name) e.set e.vtype e.var := by
  simp only [volFields, List.mem_map, List.mem_flatMap] at ht
  obtain ⟨f, ⟨e', he', l, hlm, rfl⟩, rfl⟩ := ht
  obtain ⟨q', rfl⟩ := mem_volLabels hlm
  simp only [mkStatic] at hl
  have hname : e'.name = e.name := by
    rw [← nameOf_label (hp e' he') q', hl, nameOf_label (hp e he) q]
  have : e' = e := by
    exact List.inj_on_of_nodup_map hn he' he hname
  subst this
  simp only [hl]

theorem side_unique {dim : Nat} {es : List Entry} (hn : (es.map Entry.name).Nodup)
    (hp : ∀ e ∈ es, PlainName e.name) {e : Entry} (he : e ∈ es) (q : Qty)
    {t : Static} (ht : t ∈ (sideFields K dim es).map Field.st) (hl : t.label = q.label e.name) :
    t = mkStatic (q.label e.name) e.set e.vtype e.var := by
  simp only [sideFields, List.mem_map, List.mem_flatMap] at ht
  obtain ⟨f, ⟨e', he', l, hlm, rfl⟩, rfl⟩ := ht
  obtain ⟨q', rfl⟩ := mem_sideLabels hlm
  simp only [mkStatic] at hl
  have hname : e'.name = e.name := by
    rw [← nameOf_label (hp e' he') q', hl, nameOf_label (hp e he) q]
  have : e' = e := by
    exact List.inj_on_of_nodup_map hn he' he hname
  subst this
  simp only [hl]

/-- Where a request for a quantity of a variable leads. -/
theorem vol_find {dim : Nat} {es : List Entry} {s : State K} (h : Inv dim es s)
    (hn : (es.map Entry.name).Nodup) (hp : ∀ e ∈ es, PlainName e.name) {e : Entry} (he : e ∈ es)
    {q : Qty} (hq : q ∈ volQty dim e.btype) :
    ∃ pre f post, s.vol = pre ++ f :: post ∧ (∀ x ∈ pre, x.st.label ≠ q.label e.name) ∧
      f.st = { label := q.label e.name, vtype := e.vtype, set := e.set, var := e.var,
               dtype := q.kind, comp := q.comp } := by
  have hmem : mkStatic (q.label e.name) e.set e.vtype e.var ∈ s.vol.map Field.st := by
    rw [h.volSt]
    simp only [volFields, List.mem_map, List.mem_flatMap]
    exact ⟨_, ⟨e, he, q.label e.name, volQty_mem hq, rfl⟩, rfl⟩
  obtain ⟨f0, hf0, hst⟩ := List.mem_map.mp hmem
  obtain ⟨pre, f, post, h1, h2, h3⟩ :=
    exists_first (fs := s.vol) (label := q.label e.name) ⟨f0, hf0, by rw [hst]; rfl⟩
  have hf : f.st ∈ (volFields K dim es).map Field.st := by
    rw [← h.volSt, h1]; simp
  refine ⟨pre, f, post, h1, h2, ?_⟩
  rw [vol_unique hn hp he q hf h3]
  simp only [mkStatic, dtype_label (hp e he), component_label (hp e he).2.2.2.2.2.2]

theorem side_find {dim : Nat} {es : List Entry} {s : State K} (h : Inv dim es s)
    (hn : (es.map Entry.name).Nodup) (hp : ∀ e ∈ es, PlainName e.name) {e : Entry} (he : e ∈ es)
    {q : Qty} (hq : q ∈ sideQty dim e.btype) :
    ∃ pre f post, s.side = pre ++ f :: post ∧ (∀ x ∈ pre, x.st.label ≠ q.label e.name) ∧
      f.st = { label := q.label e.name, vtype := e.vtype, set := e.set, var := e.var,
               dtype := q.kind, comp := q.comp } := by
  have hmem : mkStatic (q.label e.name) e.set e.vtype e.var ∈ s.side.map Field.st := by
    rw [h.sideSt]
    simp only [sideFields, List.mem_map, List.mem_flatMap]
    exact ⟨_, ⟨e, he, q.label e.name, sideQty_mem hq, rfl⟩, rfl⟩
  obtain ⟨f0, hf0, hst⟩ := List.mem_map.mp hmem
  obtain ⟨pre, f, post, h1, h2, h3⟩ :=
    exists_first (fs := s.side) (label := q.label e.name) ⟨f0, hf0, by rw [hst]; rfl⟩
  have hf : f.st ∈ (sideFields K dim es).map Field.st := by
    rw [← h.sideSt, h1]; simp
  refine ⟨pre, f, post, h1, h2, ?_⟩
  rw [side_unique hn hp he q hf h3]
  simp only [mkStatic, dtype_label (hp e he), component_label (hp e he).2.2.2.2.2.2]

/-- The coefficients the code reads are those of the variable. -/
theorem coeffs_eq {env : Env K} {e : Entry} {q : Qty} {c : Nat → Nat → K} {bid : Nat} {l : Str}
    {k : Nat}
    (hc : coefOf env e q = some c) (hb : basisNum env e = some bid)
    (hidx : ∃ row, env.solIndex[e.set]? = some row ∧ e.var < row.length) :
    coeffs env { label := l, vtype := e.vtype, set := e.set, var := e.var,
                 dtype := q.kind, comp := k } = some (c, bid) := by
  obtain ⟨row, hrow, hlt⟩ := hidx
  unfold coeffs
  simp only [hrow]
  rw [List.getElem?_eq_getElem hlt]
  cases hv : e.vtype with
  | solution =>
    unfold coefOf at hc
    unfold basisNum at hb
    rw [hv] at hc hb
    simp only [hrow, Option.bind_eq_bind, Option.bind_some, List.getElem?_eq_getElem hlt] at hc hb
    simp only
    rw [hc, hb]
  | param =>
    unfold coefOf at hc
    unfold basisNum at hb
    rw [hv] at hc hb
    simp only at hc hb ⊢
    rw [hc, hb]
  | aux => unfold coefOf at hc; rw [hv] at hc; simp at hc

end MrHyDE.Workset
