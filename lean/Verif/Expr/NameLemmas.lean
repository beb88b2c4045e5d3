import Verif.Expr.ClassifyLemmas2

/-
Helper lemmas: classification of names.
-/

namespace MrHyDE.Expr

variable {K : Type}

/-- The leaf a name stands for. -/
inductive LeafOf (env : Env) : Str → Leaf → Prop
  | soln {j s} : env.soln[j]? = some s → LeafOf env s (.soln j)
  | scal {j s} : env.scal[j]? = some s → LeafOf env s (.scal j)
  | param {j p} : env.params[j]? = some p → LeafOf env p (.param j 0)
  | paramC {j p i s} : env.params[j]? = some p → Comp p i s → LeafOf env s (.param j i)
  | dot {j p} : env.params[j]? = some p → LeafOf env (dotName p) (.paramDot j 0)
  | dotC {j p i s} : env.params[j]? = some p → Comp (dotName p) i s → LeafOf env s (.paramDot j i)
  | time : LeafOf env "t".toList .time
  | pi : LeafOf env "pi".toList .pi

/-- The data of a leaf (as a view). -/
def leafView (A : Arith K) (w : WksetData K) : Leaf → View K
  | .soln j => w.soln j
  | .scal j => w.scal j
  | .param j i => fun _ _ => w.param j i
  | .paramDot j i => fun _ _ => w.paramDot j i
  | .num s => fun _ _ => (A.stod s).getD A.zero
  | .time => fun _ _ => w.time
  | .pi => fun _ _ => A.piVal
  | .unset => fun _ _ => A.zero

theorem leafOf_sees (A : Arith K) (w : WksetData K) {env : Env} {s : Str} {l : Leaf} (h : LeafOf env s l) :
    Sees A w env s (leafView A w l) := by
  cases h with
  | soln h => exact .soln h
  | scal h => exact .scal h
  | param h => exact .param h
  | paramC h hc => exact .paramC h hc
  | dot h => exact .dot h
  | dotC h hc => exact .dotC h hc
  | time => exact .time
  | pi => exact .pi

theorem known_iff (env : Env) (s : Str) (h : Known env s) :
    (∃ l, LeafOf env s l) ∨ ∃ j : Nat, env.funcs[j]? = some s := by
  rcases h with h | ⟨p, hp, h⟩
  · simp only [Env.all, List.mem_append, List.mem_map, List.mem_cons, List.not_mem_nil, or_false] at h
    rcases h with ((((h | h) | h) | ⟨p, h, rfl⟩) | h) | h | h
    · obtain ⟨j, hj⟩ := List.mem_iff_getElem?.mp h; exact Or.inl ⟨_, .soln hj⟩
    · obtain ⟨j, hj⟩ := List.mem_iff_getElem?.mp h; exact Or.inl ⟨_, .scal hj⟩
    · obtain ⟨j, hj⟩ := List.mem_iff_getElem?.mp h; exact Or.inl ⟨_, .param hj⟩
    · obtain ⟨j, hj⟩ := List.mem_iff_getElem?.mp h; exact Or.inl ⟨_, .dot hj⟩
    · obtain ⟨j, hj⟩ := List.mem_iff_getElem?.mp h; exact Or.inr ⟨_, hj⟩
    · subst h; exact Or.inl ⟨_, .time⟩
    · subst h; exact Or.inl ⟨_, .pi⟩
  · obtain ⟨j, hj⟩ := List.mem_iff_getElem?.mp hp
    rcases h with rfl | rfl | ⟨i, h | h⟩
    · exact Or.inl ⟨_, .param hj⟩
    · exact Or.inl ⟨_, .dot hj⟩
    · exact Or.inl ⟨_, .paramC hj h⟩
    · exact Or.inl ⟨_, .dotC hj h⟩

/-! ### Known names are admissible -/

theorem matched_append {p t : Str} (hp : Matched p) (ht : Matched t) : Matched (p ++ t) := by
  refine ⟨by simp [List.count_append, hp.1, ht.1], ?_⟩
  rintro q ⟨r, hr⟩
  rcases List.append_eq_append_iff.mp hr with ⟨x, h1, _⟩ | ⟨x, h1, h2⟩
  · exact hp.2 q ⟨x, h1.symm⟩
  · have := ht.2 x ⟨r, h2.symm⟩
    rw [h1, List.count_append, List.count_append, hp.1]; omega

theorem matched_plain {t : Str} (h : ∀ c ∈ t, c ≠ '(' ∧ c ≠ ')') : Matched t := by
  have z : ∀ q : Str, (∀ c ∈ q, c ≠ '(' ∧ c ≠ ')') → q.count '(' = 0 ∧ q.count ')' = 0 := by
    intro q hq
    exact ⟨List.count_eq_zero.mpr fun hm => (hq _ hm).1 rfl, List.count_eq_zero.mpr fun hm => (hq _ hm).2 rfl⟩
  refine ⟨by rw [(z t h).1, (z t h).2], fun q hq => ?_⟩
  rw [(z q fun c hc => h c (hq.subset hc)).2]; omega

theorem matched_paren {t : Str} (h : ∀ c ∈ t, c ≠ '(' ∧ c ≠ ')') : Matched ('(' :: t ++ [')']) := by
  have ht : t.count '(' = 0 ∧ t.count ')' = 0 :=
    ⟨List.count_eq_zero.mpr fun hm => (h _ hm).1 rfl, List.count_eq_zero.mpr fun hm => (h _ hm).2 rfl⟩
  refine ⟨by simp [List.count_append, ht.1, ht.2], ?_⟩
  rintro q ⟨r, hr⟩
  cases q with
  | nil => simp
  | cons c cs =>
    have hr' := hr
    simp only [List.cons_append, List.cons.injEq] at hr
    obtain ⟨rfl, hr⟩ := hr
    have h2 : cs.count ')' ≤ (t ++ [')']).count ')' := by rw [← hr, List.count_append]; omega
    simp [List.count_append, ht.2] at h2
    simp; omega

theorem NameOk.append {p t : Str} (h : NameOk p) (ht : ∀ c ∈ t, c ∉ specials) (hm : Matched t)
    (htp : '(' ∉ t ∨ ∃ u, t = '(' :: u) (hx : ∃ c ∈ t, c ∈ ['_', '(']) : NameOk (p ++ t) where
  nonempty := by simp [h.nonempty]
  noSpecial := (h.like.append h.notKnownOp h.nonempty ht htp).noSpecial
  noParen := (h.like.append h.notKnownOp h.nonempty ht htp).noParen
  matched := matched_append h.matched hm
  notOp := by
    intro f hf
    rw [knownOps_eq] at hf
    refine ⟨?_, (h.like.append h.notKnownOp h.nonempty ht htp).notCall f hf⟩
    rintro rfl
    obtain ⟨c, hc, hc'⟩ := hx
    have := (knownOps_plain _ hf).2 c (by simp [hc])
    simp only [List.mem_cons, List.not_mem_nil, or_false] at hc'
    rcases hc' with rfl | rfl
    · exact this.2.2.2.2 rfl
    · exact this.1 rfl
  notNum := by
    obtain ⟨c, hc, h1⟩ := h.notNum
    exact ⟨c, by simp [hc], h1⟩

theorem NameOk.dot {p : Str} (h : NameOk p) : NameOk (dotName p) :=
  h.append (by decide) (matched_plain (by decide)) (Or.inl (by decide)) ⟨'_', by decide, by decide⟩

theorem NameOk.comp {p s : Str} {i : Nat} (h : NameOk p) (hc : Comp p i s) : NameOk s := by
  obtain ⟨ds, _, hd, rfl, _⟩ := hc
  rw [List.append_assoc]
  refine h.append ?_ (matched_paren fun c hc => ?_) (Or.inr ⟨_, rfl⟩) ⟨'(', by simp, by decide⟩
  · intro c hc
    simp only [List.cons_append, List.mem_cons, List.mem_append, List.not_mem_nil, or_false] at hc
    rcases hc with rfl | hc | rfl
    · decide
    · exact digits_notSpecial c (hd c hc)
    · decide
  · have := numChar_plain c (Or.inl (hd c hc))
    exact ⟨this.1, this.2.1⟩

theorem nameOk_t : NameOk "t".toList :=
  ⟨by decide, by decide, by decide, matched_plain (by decide), by decide, by decide⟩

theorem nameOk_pi : NameOk "pi".toList :=
  ⟨by decide, by decide, by decide, matched_plain (by decide), by decide, by decide⟩

theorem known_nameOk {env : Env} (hE : EnvOk env) (s : Str) (h : Known env s) : NameOk s := by
  have hp : ∀ {j : Nat} {p}, env.params[j]? = some p → NameOk p := fun h =>
    hE.ok _ (by simp [List.mem_of_getElem? h])
  rcases known_iff env s h with ⟨l, hl⟩ | ⟨j, hj⟩
  · cases hl with
    | soln h => exact hE.ok _ (by simp [List.mem_of_getElem? h])
    | scal h => exact hE.ok _ (by simp [List.mem_of_getElem? h])
    | param h' => exact hp h'
    | paramC h' hc => exact (hp h').comp hc
    | dot h' => exact (hp h').dot
    | dotC h' hc => exact (hp h').dot.comp hc
    | time => exact nameOk_t
    | pi => exact nameOk_pi
  · exact hE.ok _ (by simp [List.mem_of_getElem? hj])

/-! ### Classification of known names -/

theorem idxOf?_nodup {l : List Str} {j : Nat} {s : Str} (hn : l.Nodup) (h : l[j]? = some s) :
    l.idxOf? s = some j := by
  rw [List.idxOf?_eq_some_iff]
  obtain ⟨hlt, he⟩ := List.getElem?_eq_some_iff.mp h
  refine ⟨hlt, he, fun k hk => ?_⟩
  intro hc
  have := (List.Nodup.getElem_inj_iff hn).mp (hc.trans he.symm)
  omega

/-- The parts of the list of all names. -/
structure Parts (env : Env) : Prop where
  soln : env.soln.Nodup
  scal : env.scal.Nodup
  params : env.params.Nodup
  dots : (env.params.map dotName).Nodup
  funcs : env.funcs.Nodup
  sc_so : ∀ s ∈ env.scal, s ∉ env.soln
  pa : ∀ s ∈ env.params, s ∉ env.soln ∧ s ∉ env.scal
  dt : ∀ s ∈ env.params.map dotName, s ∉ env.soln ∧ s ∉ env.scal ∧ s ∉ env.params
  fu : ∀ s ∈ env.funcs, s ∉ env.soln ∧ s ∉ env.scal ∧ s ∉ env.params ∧ s ∉ env.params.map dotName
  ti : ∀ s ∈ ["t".toList, "pi".toList], s ∉ env.soln ∧ s ∉ env.scal ∧ s ∉ env.params ∧
    s ∉ env.params.map dotName ∧ s ∉ env.funcs

theorem parts {env : Env} (hE : EnvOk env) : Parts env := by
  have h := hE.distinct
  unfold Env.all at h
  rw [List.nodup_append] at h
  obtain ⟨h, _, h5⟩ := h
  rw [List.nodup_append] at h
  obtain ⟨h, hf, h4⟩ := h
  rw [List.nodup_append] at h
  obtain ⟨h, hd, h3⟩ := h
  rw [List.nodup_append] at h
  obtain ⟨h, hp, h2⟩ := h
  rw [List.nodup_append] at h
  obtain ⟨hs, hc, h1⟩ := h
  refine ⟨hs, hc, hp, hd, hf, ?_, ?_, ?_, ?_, ?_⟩
  · exact fun s hm hm' => h1 s hm' s hm rfl
  · exact fun s hm => ⟨fun hm' => h2 s (by simp [hm']) s hm rfl, fun hm' => h2 s (by simp [hm']) s hm rfl⟩
  · exact fun s hm => ⟨fun hm' => h3 s (by simp [hm']) s hm rfl, fun hm' => h3 s (by simp [hm']) s hm rfl,
      fun hm' => h3 s (by simp [hm']) s hm rfl⟩
  · exact fun s hm => ⟨fun hm' => h4 s (by simp [hm']) s hm rfl, fun hm' => h4 s (by simp [hm']) s hm rfl,
      fun hm' => h4 s (by simp [hm']) s hm rfl, fun hm' => h4 s (List.mem_append_right _ hm') s hm rfl⟩
  · exact fun s hm => ⟨fun hm' => h5 s (by simp [hm']) s hm rfl, fun hm' => h5 s (by simp [hm']) s hm rfl,
      fun hm' => h5 s (by simp [hm']) s hm rfl,
      fun hm' => h5 s (List.mem_append_left _ (List.mem_append_right _ hm')) s hm rfl,
      fun hm' => h5 s (by simp [hm']) s hm rfl⟩

/-- The name tests, one after the other. -/
theorem paramIdx_none {p s : Str} (h1 : s ≠ p) (h2 : ∀ i, ¬ Comp p i s) : paramIdx p s = none := by
  cases h : paramIdx p s with
  | none => rfl
  | some i =>
    rcases (paramIdx_iff p s i).mp h with ⟨rfl, _⟩ | hc
    · exact absurd rfl h1
    · exact absurd hc (h2 i)

theorem params_none {env : Env} {s : Str} (h1 : s ∉ env.params) (h2 : ∀ p ∈ env.params, ∀ i, ¬ Comp p i s) :
    lastMatch (fun p => paramIdx p s) env.params 0 none = none :=
  lastMatch_none _ _ _ _ fun p hp => paramIdx_none (fun hx => h1 (hx ▸ hp)) (h2 p hp)

theorem dots_none {env : Env} {s : Str} (h1 : s ∉ env.params.map dotName)
    (h2 : ∀ p ∈ env.params.map dotName, ∀ i, ¬ Comp p i s) :
    lastMatch (fun p => paramDotIdx p s) env.params 0 none = none :=
  lastMatch_none _ _ _ _ fun p hp =>
    have hm := List.mem_map_of_mem (f := dotName) hp
    paramIdx_none (p := dotName p) (fun hx => h1 (hx ▸ hm)) (h2 _ hm)

theorem mem_all {env : Env} {s : Str} (h : s ∈ env.soln ∨ s ∈ env.scal ∨ s ∈ env.params ∨
    s ∈ env.params.map dotName ∨ s ∈ env.funcs ∨ s ∈ ["t".toList, "pi".toList]) : s ∈ env.all := by
  unfold Env.all
  rcases h with h | h | h | h | h | h
  · simp [h]
  · simp [h]
  · simp [h]
  · exact List.mem_append_left _ (List.mem_append_left _ (List.mem_append_right _ h))
  · simp [h]
  · exact List.mem_append_right _ h

theorem classify_leaf {env : Env} (hE : EnvOk env) (ok : Str → Bool) {s : Str} {l : Leaf} (h : LeafOf env s l) :
    classify env ok s = .ok (.leaf l) := by
  have P := parts hE
  have nc : ∀ {s}, s ∈ env.all → (∀ p ∈ env.params, ∀ i, ¬ Comp p i s) ∧
      (∀ p ∈ env.params.map dotName, ∀ i, ¬ Comp p i s) := fun {s} hs =>
    ⟨fun p hp i => hE.noComp p (List.mem_append_left _ hp) s hs i,
     fun p hp i => hE.noComp p (List.mem_append_right _ hp) s hs i⟩
  cases h with
  | soln h => simp [classify, idxOf?_nodup P.soln h]
  | scal h =>
    have := P.sc_so s (List.mem_of_getElem? h)
    simp [classify, List.idxOf?_eq_none_iff.mpr this, idxOf?_nodup P.scal h]
  | @param j p h =>
    have hm := List.mem_of_getElem? h
    have h1 := P.pa s hm
    have hall := nc (mem_all (Or.inr (Or.inr (Or.inl hm))))
    unfold classify
    rw [List.idxOf?_eq_none_iff.mpr h1.1, List.idxOf?_eq_none_iff.mpr h1.2]
    simp only
    rw [lastMatch_unique (fun p => paramIdx p s) env.params 0 j 0 s none h
      ((paramIdx_iff s s 0).mpr (Or.inl ⟨rfl, rfl⟩)) P.params
      (fun q hq hne => paramIdx_none (Ne.symm hne) (hall.1 q hq))]
    simp
  | @paramC j p i _ h hc =>
    have hm := List.mem_of_getElem? h
    have hno : s ∉ env.all := fun hs => hE.noComp p (List.mem_append_left _ hm) s hs i hc
    have h1 : s ∉ env.soln := fun hx => hno (mem_all (Or.inl hx))
    have h2 : s ∉ env.scal := fun hx => hno (mem_all (Or.inr (Or.inl hx)))
    unfold classify
    rw [List.idxOf?_eq_none_iff.mpr h1, List.idxOf?_eq_none_iff.mpr h2]
    simp only
    rw [lastMatch_unique (fun p => paramIdx p s) env.params 0 j i p none h
      ((paramIdx_iff p s i).mpr (Or.inr hc)) P.params
      (fun q hq hne => paramIdx_none
        (fun hsq => hno (mem_all (Or.inr (Or.inr (Or.inl (hsq ▸ hq))))))
        (fun i' hc' => hne (hc'.inj hc).1))]
    simp
  | @dot j p h =>
    have hm := List.mem_of_getElem? h
    have hmd := List.mem_map_of_mem (f := dotName) hm
    have h1 := P.dt _ hmd
    have hall := nc (mem_all (Or.inr (Or.inr (Or.inr (Or.inl hmd)))))
    unfold classify
    rw [List.idxOf?_eq_none_iff.mpr h1.1, List.idxOf?_eq_none_iff.mpr h1.2.1]
    simp only
    rw [params_none h1.2.2 hall.1]
    simp only
    rw [lastMatch_unique (fun q => paramDotIdx q (dotName p)) env.params 0 j 0 p none h
      ((paramIdx_iff (dotName p) (dotName p) 0).mpr (Or.inl ⟨rfl, rfl⟩)) P.params
      (fun q hq hne => paramIdx_none
        (fun hx => hne (List.inj_on_of_nodup_map P.dots hq hm hx.symm))
        (hall.2 _ (List.mem_map_of_mem hq)))]
    simp
  | @dotC j p i _ h hc =>
    have hm := List.mem_of_getElem? h
    have hmd := List.mem_map_of_mem (f := dotName) hm
    have hno : s ∉ env.all := fun hs => hE.noComp _ (List.mem_append_right _ hmd) s hs i hc
    have h1 : s ∉ env.soln := fun hx => hno (mem_all (Or.inl hx))
    have h2 : s ∉ env.scal := fun hx => hno (mem_all (Or.inr (Or.inl hx)))
    have h3 : ∀ q ∈ env.params, s ≠ q := fun q hq hx =>
      hno (mem_all (Or.inr (Or.inr (Or.inl (hx ▸ hq)))))
    unfold classify
    rw [List.idxOf?_eq_none_iff.mpr h1, List.idxOf?_eq_none_iff.mpr h2]
    simp only
    rw [params_none (fun hq => h3 s hq rfl) (fun q hq i' hc' => by
      have := (hc'.inj hc).1
      exact (P.dt _ hmd).2.2 (this ▸ hq))]
    simp only
    rw [lastMatch_unique (fun q => paramDotIdx q s) env.params 0 j i p none h
      ((paramIdx_iff (dotName p) s i).mpr (Or.inr hc)) P.params
      (fun q hq hne => paramIdx_none
        (fun hx => hno (mem_all (Or.inr (Or.inr (Or.inr (Or.inl (hx ▸ List.mem_map_of_mem hq)))))))
        (fun i' hc' => hne (List.inj_on_of_nodup_map P.dots hq hm (hc'.inj hc).1)))]
    simp
  | time =>
    have h1 := P.ti "t".toList (by simp)
    have hall := nc (s := "t".toList) (mem_all (by simp))
    unfold classify
    rw [List.idxOf?_eq_none_iff.mpr h1.1, List.idxOf?_eq_none_iff.mpr h1.2.1]
    simp only
    rw [params_none h1.2.2.1 hall.1]
    simp only
    rw [dots_none h1.2.2.2.1 hall.2]
    simp only
    have hff : ∀ p ∈ env.funcs, (if "t".toList = p then some 0 else none : Option Nat) = none :=
      fun p hm => if_neg (fun hsp : "t".toList = p => h1.2.2.2.2 (hsp ▸ hm))
    rw [lastMatch_none _ _ _ _ hff]
    simp only
    rw [if_neg (by decide), if_pos (by decide), if_pos trivial]
  | pi =>
    have h1 := P.ti "pi".toList (by simp)
    have hall := nc (s := "pi".toList) (mem_all (by simp))
    unfold classify
    rw [List.idxOf?_eq_none_iff.mpr h1.1, List.idxOf?_eq_none_iff.mpr h1.2.1]
    simp only
    rw [params_none h1.2.2.1 hall.1]
    simp only
    rw [dots_none h1.2.2.2.1 hall.2]
    simp only
    have hff : ∀ p ∈ env.funcs, (if "pi".toList = p then some 0 else none : Option Nat) = none :=
      fun p hm => if_neg (fun hsp : "pi".toList = p => h1.2.2.2.2 (hsp ▸ hm))
    rw [lastMatch_none _ _ _ _ hff]
    simp only
    rw [if_neg (by decide), if_pos (by decide), if_neg (by decide), if_pos trivial]

theorem classify_func {env : Env} (hE : EnvOk env) (ok : Str → Bool) {s : Str} {j : Nat}
    (h : env.funcs[j]? = some s) : classify env ok s = .ok (.func j) := by
  have P := parts hE
  have hm := List.mem_of_getElem? h
  have h1 := P.fu s hm
  have hs : s ∈ env.all := mem_all (by simp [hm])
  unfold classify
  rw [List.idxOf?_eq_none_iff.mpr h1.1, List.idxOf?_eq_none_iff.mpr h1.2.1]
  simp only
  rw [params_none h1.2.2.1 (fun q hq i => hE.noComp q (List.mem_append_left _ hq) s hs i)]
  simp only
  rw [dots_none h1.2.2.2 (fun q hq i => hE.noComp q (List.mem_append_right _ hq) s hs i)]
  simp only
  rw [lastMatch_unique (fun f => if s = f then some 0 else none) env.funcs 0 j 0 s none h (if_pos rfl)
    P.funcs (fun q _ hne => if_neg (Ne.symm hne))]
  simp

end MrHyDE.Expr
