import Verif.Assembly.GatherSpec

/-! # Gather: lemmas -/

namespace MrHyDE.Assembly.Gather

open MrHyDE.Time

/-- The iterations of the kernel. -/
def iters (L : Layout) (set : Nat) (order : List Nat) : List (Nat × Nat × Nat) :=
  order.flatMap (fun e => (List.range (L.nvars set)).flatMap
    (fun v => (List.range (L.ndof set v)).map (fun d => (e, v, d))))

theorem mem_iters (L : Layout) (set : Nat) (order : List Nat) (e v d : Nat) :
    (e, v, d) ∈ iters L set order ↔ e ∈ order ∧ v < L.nvars set ∧ d < L.ndof set v := by
  unfold iters
  simp only [List.mem_flatMap, List.mem_range, List.mem_map, Prod.mk.injEq]
  constructor
  · rintro ⟨e', he, v', hv, d', hd, rfl, rfl, rfl⟩
    exact ⟨he, hv, hd⟩
  · rintro ⟨he, hv, hd⟩
    exact ⟨e, he, v, hv, d, hd, rfl, rfl, rfl⟩

theorem fold_put {K : Type} [Zero K] (L : Layout) (set : Nat) (g : Group) (vec : List K) :
    ∀ (l : List (Nat × Nat × Nat)) (t : Table K),
      (∀ x ∈ l, g.lid set x.1 (L.off set x.2.1 x.2.2) < vec.length) →
      ∃ t', l.foldlM (fun t x => (vec[g.lid set x.1 (L.off set x.2.1 x.2.2)]?).map (fun y => put t x.1 x.2.1 x.2.2 y)) t
          = some t' ∧
        ∀ e v d, t' e v d = if (e, v, d) ∈ l then entry L set g vec e v d else t e v d := by
  intro l
  induction l with
  | nil => intro t _; exact ⟨t, rfl, fun e v d => by simp⟩
  | cons x rest ih =>
    intro t h
    have hx := h x (List.mem_cons_self ..)
    obtain ⟨t', h1, h2⟩ := ih (put t x.1 x.2.1 x.2.2 vec[g.lid set x.1 (L.off set x.2.1 x.2.2)])
      (fun y hy => h y (List.mem_cons_of_mem _ hy))
    refine ⟨t', ?_, ?_⟩
    · rw [List.foldlM_cons, List.getElem?_eq_getElem hx]
      exact h1
    · intro e v d
      rw [h2]
      by_cases hm : (e, v, d) ∈ rest
      · simp [hm]
      · rw [if_neg hm]
        unfold put
        obtain ⟨x1, x2, x3⟩ := x
        by_cases hc : e = x1 ∧ v = x2 ∧ d = x3
        · obtain ⟨rfl, rfl, rfl⟩ := hc
          simp only [and_self, if_true]
          rw [if_pos (List.mem_cons_self ..)]
          unfold entry
          simp only [List.getD_eq_getElem?_getD]
          rw [List.getElem?_eq_getElem hx]
          rfl
        · rw [if_neg hc, if_neg]
          intro hh
          rcases List.mem_cons.1 hh with heq | hh
          · simp only [Prod.mk.injEq] at heq; exact hc heq
          · exact hm hh

theorem gather_spec {K : Type} [Zero K] (L : Layout) (set : Nat) (g : Group) (vec : List K) (order : List Nat)
    (ho : order.Perm (List.range g.nelem)) (hr : InRange L set g vec) (t : Table K) :
    ∃ t', gather L set g vec order t = some t' ∧ Holds L set g vec t' ∧ ∀ e, g.nelem ≤ e → t' e = t e := by
  obtain ⟨t', h1, h2⟩ := fold_put L set g vec (iters L set order) t (by
    rintro ⟨e, v, d⟩ hx
    obtain ⟨he, hv, hd⟩ := (mem_iters L set order e v d).1 hx
    exact hr e v d (List.mem_range.1 (ho.mem_iff.1 he)) hv hd)
  refine ⟨t', h1, ?_, ?_⟩
  · intro e v d he hv hd
    rw [h2, if_pos ((mem_iters L set order e v d).2 ⟨ho.mem_iff.2 (List.mem_range.2 he), hv, hd⟩)]
  · intro e he
    funext v d
    rw [h2, if_neg]
    intro hm
    have := List.mem_range.1 (ho.mem_iff.1 ((mem_iters L set order e v d).1 hm).1)
    omega

theorem gather_out {K : Type} (L : Layout) (set : Nat) (g : Group) (vec : List K) (order : List Nat)
    (ho : order.Perm (List.range g.nelem)) (t : Table K) (e v d : Nat) (he : e < g.nelem) (hv : v < L.nvars set)
    (hd : d < L.ndof set v) (hb : vec.length ≤ g.lid set e (L.off set v d)) : gather L set g vec order t = none := by
  have hm : (e, v, d) ∈ iters L set order := (mem_iters L set order e v d).2 ⟨ho.mem_iff.2 (List.mem_range.2 he), hv, hd⟩
  have key : ∀ (l : List (Nat × Nat × Nat)) (t : Table K), (e, v, d) ∈ l →
      l.foldlM (fun t x => (vec[g.lid set x.1 (L.off set x.2.1 x.2.2)]?).map (fun y => put t x.1 x.2.1 x.2.2 y)) t = none := by
    intro l
    induction l with
    | nil => intro t h; simp at h
    | cons x rest ih =>
      intro t h
      rw [List.foldlM_cons]
      rcases List.mem_cons.1 h with rfl | h
      · rw [List.getElem?_eq_none hb]; rfl
      · cases hq : vec[g.lid set x.1 (L.off set x.2.1 x.2.2)]? with
        | none => rfl
        | some y => exact ih _ h
  exact key _ t hm

/-! ### Loops over vectors -/

theorem mem_indexed {A : Type} (l : List A) (i : Nat) (a : A) : (i, a) ∈ indexed l ↔ l[i]? = some a := by
  unfold indexed
  constructor
  · intro h
    obtain ⟨k, hk, he⟩ := List.getElem_of_mem h
    simp at he hk
    obtain ⟨rfl, rfl⟩ := he
    rw [List.getElem?_eq_getElem]
  · intro h
    obtain ⟨hi, rfl⟩ := List.getElem?_eq_some_iff.1 h
    have : ((List.range l.length).zip l)[i]'(by simp [hi]) = (i, l[i]) := by simp
    rw [← this]
    exact List.getElem_mem _

theorem indexed_nodup {A : Type} (l : List A) : ((indexed l).map (·.1)).Nodup := by
  unfold indexed
  rw [List.map_fst_zip (by simp)]
  exact List.nodup_range

/-- A loop that writes one entry of a family for each item, items with distinct keys. -/
theorem loop_family {K : Type} [Zero K] (L : Layout) (set : Nat → Nat) (g : Group) (order : List Nat)
    (ho : order.Perm (List.range g.nelem)) (get : Data K → Nat → Table K) (f : Data K → Nat × List K → Option (Data K))
    (other : Data K → Data K → Prop) (hrefl : ∀ D, other D D) (htrans : ∀ a b c, other a b → other b c → other a c)
    (hf : ∀ D x t', gather L (set x.1) g x.2 order (get D x.1) = some t' →
      ∃ D', f D x = some D' ∧ get D' x.1 = t' ∧ (∀ k, k ≠ x.1 → get D' k = get D k) ∧ other D D') :
    ∀ (l : List (Nat × List K)) (D : Data K), (l.map (·.1)).Nodup → (∀ x ∈ l, InRange L (set x.1) g x.2) →
      ∃ D', l.foldlM f D = some D' ∧ (∀ x ∈ l, Holds L (set x.1) g x.2 (get D' x.1)) ∧
        (∀ k, k ∉ l.map (·.1) → get D' k = get D k) ∧ other D D' := by
  intro l
  induction l with
  | nil => intro D _ _; exact ⟨D, rfl, by simp, fun _ _ => rfl, hrefl D⟩
  | cons x rest ih =>
    intro D hn hr
    obtain ⟨t', g1, g2, _⟩ := gather_spec L (set x.1) g x.2 order ho (hr x (List.mem_cons_self ..)) (get D x.1)
    obtain ⟨D1, f1, f2, f3, f4⟩ := hf D x t' g1
    rw [List.map_cons, List.nodup_cons] at hn
    obtain ⟨D', r1, r2, r3, r4⟩ := ih D1 hn.2 (fun y hy => hr y (List.mem_cons_of_mem _ hy))
    refine ⟨D', ?_, ?_, ?_, htrans _ _ _ f4 r4⟩
    · rw [List.foldlM_cons, f1]; exact r1
    · intro y hy
      rcases List.mem_cons.1 hy with rfl | hy
      · rw [r3 _ hn.1, f2]; exact g2
      · exact r2 y hy
    · intro k hk
      rw [List.map_cons, List.mem_cons, not_or] at hk
      rw [r3 k hk.2, f3 k hk.1]

theorem loop_sol {K : Type} [Zero K] (L : Layout) (g : Group) (order : List Nat)
    (ho : order.Perm (List.range g.nelem)) (l : List (Nat × List K)) (D : Data K) (hn : (l.map (·.1)).Nodup)
    (hr : ∀ x ∈ l, InRange L x.1 g x.2) :
    ∃ D', l.foldlM (fun D x => gatherSol L g order D x.1 x.2) D = some D' ∧
      (∀ x ∈ l, Holds L x.1 g x.2 (D'.sol x.1)) ∧ (∀ k, k ∉ l.map (·.1) → D'.sol k = D.sol k) ∧
      (D'.prev = D.prev ∧ D'.stage = D.stage) := by
  obtain ⟨D', h1, h2, h3, h4⟩ := loop_family L (fun i => i) g order ho (fun D k => D.sol k)
    (fun D x => gatherSol L g order D x.1 x.2) (fun a b => b.prev = a.prev ∧ b.stage = a.stage) (fun _ => ⟨rfl, rfl⟩)
    (fun a b c h1 h2 => ⟨h2.1.trans h1.1, h2.2.trans h1.2⟩)
    (by
      intro D x t' h
      refine ⟨{ D with sol := upd D.sol x.1 t' }, ?_, ?_, ?_, ?_⟩
      · show gatherSol L g order D x.1 x.2 = _
        unfold gatherSol
        rw [h]; rfl
      · simp [upd]
      · intro k hk; simp [upd, hk]
      · exact ⟨rfl, rfl⟩) l D hn hr
  exact ⟨D', h1, h2, h3, h4⟩

theorem loop_stage {K : Type} [Zero K] (L : Layout) (g : Group) (order : List Nat) (cur : Nat)
    (ho : order.Perm (List.range g.nelem)) (l : List (Nat × List K)) (D : Data K) (hn : (l.map (·.1)).Nodup)
    (hr : ∀ x ∈ l, InRange L cur g x.2) :
    ∃ D', l.foldlM (gatherStage L g order cur) D = some D' ∧
      (∀ x ∈ l, Holds L cur g x.2 (D'.stage cur x.1)) ∧ (D'.prev = D.prev ∧ D'.sol = D.sol) := by
  obtain ⟨D', h1, h2, h3, h4⟩ := loop_family L (fun _ => cur) g order ho (fun D k => D.stage cur k)
    (gatherStage L g order cur) (fun a b => b.prev = a.prev ∧ b.sol = a.sol) (fun _ => ⟨rfl, rfl⟩)
    (fun a b c h1 h2 => ⟨h2.1.trans h1.1, h2.2.trans h1.2⟩)
    (by
      intro D x t' h
      refine ⟨{ D with stage := upd D.stage cur (upd (D.stage cur) x.1 t') }, ?_, ?_, ?_, ?_⟩
      · unfold gatherStage
        rw [h]; rfl
      · simp [upd]
      · intro k hk; simp [upd, hk]
      · exact ⟨rfl, rfl⟩) l D hn hr
  exact ⟨D', h1, h2, h4⟩

theorem loop_prev {K : Type} [Zero K] (L : Layout) (g : Group) (order : List Nat) (cur : Nat)
    (ho : order.Perm (List.range g.nelem)) (l : List (Nat × List K)) (D : Data K) (hn : (l.map (·.1)).Nodup)
    (hr : ∀ x ∈ l, InRange L cur g x.2) :
    ∃ D', l.foldlM (gatherPrev L g order cur) D = some D' ∧
      (∀ x ∈ l, Holds L cur g x.2 (D'.prev cur x.1)) ∧ (D'.stage = D.stage ∧ D'.sol = D.sol) := by
  obtain ⟨D', h1, h2, h3, h4⟩ := loop_family L (fun _ => cur) g order ho (fun D k => D.prev cur k)
    (gatherPrev L g order cur) (fun a b => b.stage = a.stage ∧ b.sol = a.sol) (fun _ => ⟨rfl, rfl⟩)
    (fun a b c h1 h2 => ⟨h2.1.trans h1.1, h2.2.trans h1.2⟩)
    (by
      intro D x t' h
      refine ⟨{ D with prev := upd D.prev cur (upd (D.prev cur) x.1 t') }, ?_, ?_, ?_, ?_⟩
      · unfold gatherPrev
        rw [h]; rfl
      · simp [upd]
      · intro k hk; simp [upd, hk]
      · exact ⟨rfl, rfl⟩) l D hn hr
  exact ⟨D', h1, h2, h4⟩

theorem nodup_filter_keys {A : Type} (p : Nat × A → Bool) (l : List (Nat × A)) (h : (l.map (·.1)).Nodup) :
    ((l.filter p).map (·.1)).Nodup :=
  h.sublist (List.filter_sublist.map _)

theorem gatherAll_spec {K : Type} [Zero K] (L : Layout) (g : Group) (order : List Nat) (cur stage : Nat) (V : Vecs K)
    (ho : order.Perm (List.range g.nelem)) (hfit : Fits L cur V g) (hs : stage < V.stages.length) (D : Data K) :
    ∃ D', gatherAll L g order cur stage V D = some D' ∧
      (∀ i vec, i ≠ cur → V.sol[i]? = some vec → Holds L i g vec (D'.sol i)) ∧
      Holds L cur g V.stages[stage] (D'.sol cur) ∧
      (∀ j vec, j < stage → V.stages[j]? = some vec → Holds L cur g vec (D'.stage cur j)) ∧
      (∀ j vec, V.prevs[j]? = some vec → Holds L cur g vec (D'.prev cur j)) := by
  obtain ⟨f1, f2, f3⟩ := hfit
  obtain ⟨D1, a1, a2, a3, a4⟩ := loop_sol L g order ho ((indexed V.sol).filter (fun x => decide (x.1 ≠ cur))) D
    (nodup_filter_keys _ _ (indexed_nodup _)) (by
      rintro ⟨i, vec⟩ hx
      exact f1 i vec ((mem_indexed _ _ _).1 (List.mem_filter.1 hx).1))
  have hin : InRange L cur g V.stages[stage] := f2 _ (List.getElem_mem _)
  obtain ⟨t', b1, b2, _⟩ := gather_spec L cur g V.stages[stage] order ho hin (D1.sol cur)
  obtain ⟨D3, c1, c2, c3⟩ := loop_stage L g order cur ho ((indexed V.stages).filter (fun x => decide (x.1 < stage)))
    { D1 with sol := upd D1.sol cur t' } (nodup_filter_keys _ _ (indexed_nodup _)) (by
      rintro ⟨i, vec⟩ hx
      exact f2 vec (List.mem_of_getElem? ((mem_indexed _ _ _).1 (List.mem_filter.1 hx).1)))
  obtain ⟨D4, d1, d2, d3⟩ := loop_prev L g order cur ho (indexed V.prevs) D3 (indexed_nodup _) (by
      rintro ⟨i, vec⟩ hx
      exact f3 vec (List.mem_of_getElem? ((mem_indexed _ _ _).1 hx)))
  refine ⟨D4, ?_, ?_, ?_, ?_, ?_⟩
  · unfold gatherAll
    simp only [a1, Option.bind_eq_bind, Option.bind_some, List.getElem?_eq_getElem hs]
    unfold gatherSol
    simp only [b1, Option.map_some, Option.bind_some, c1]
    exact d1
  · intro i vec hi hv
    rw [d3.2, c3.2]
    have := a2 (i, vec) (List.mem_filter.2 ⟨(mem_indexed _ _ _).2 hv, by simpa using hi⟩)
    simpa [upd, hi] using this
  · rw [d3.2, c3.2]
    simpa [upd] using b2
  · intro j vec hj hv
    rw [d3.1]
    exact c2 (j, vec) (List.mem_filter.2 ⟨(mem_indexed _ _ _).2 hv, by simpa using hj⟩)
  · intro j vec hv
    exact d2 (j, vec) ((mem_indexed _ _ _).2 hv)

/-! ### Evaluation -/

variable {K : Type} [Field K]

theorem computeFold (T : Tableau K) (bdf : List K) (dt : K) (cur stage : Nat) (D : Data K) :
    ∀ (l : List Nat) (C : Coef K), l.Nodup →
      let C' := l.foldl (computeTransient T bdf dt cur stage D) C
      (∀ s, C'.u s = if s ∈ l then (if s = cur then (fun e v d => evalPoint T stage (D.prev s 0 e v d)
          (fun j => D.stage s j e v d) (D.sol s e v d)) else D.sol s) else C.u s) ∧
      (∀ s, C'.udot s = if s ∈ l ∧ s = cur then (fun e v d => timeDeriv T bdf dt stage (fun j => D.prev s j e v d)
          (D.sol s e v d)) else C.udot s) := by
  intro l
  induction l with
  | nil => intro C _; simp
  | cons a rest ih =>
    intro C hn
    rw [List.nodup_cons] at hn
    obtain ⟨h1, h2⟩ := ih (computeTransient T bdf dt cur stage D C a) hn.2
    simp only [List.foldl_cons]
    refine ⟨?_, ?_⟩
    · intro s
      rw [h1]
      by_cases hs : s ∈ rest
      · simp [hs]
      · rw [if_neg hs]
        by_cases hsa : s = a
        · subst hsa
          rw [if_pos (List.mem_cons_self ..)]
          by_cases hc : s = cur
          · simp [computeTransient, hc, upd]
          · simp [computeTransient, hc, upd]
        · rw [if_neg (by simp [hs, hsa])]
          unfold computeTransient
          by_cases hc : a = cur
          · rw [if_pos hc]; simp [upd, hsa]
          · rw [if_neg hc]; simp [upd, hsa]
    · intro s
      rw [h2]
      by_cases hs : s ∈ rest
      · by_cases hc : s = cur
        · rw [if_pos ⟨hs, hc⟩, if_pos ⟨List.mem_cons_of_mem _ hs, hc⟩]
        · rw [if_neg (by simp [hc]), if_neg (by simp [hc])]
          unfold computeTransient
          by_cases ha : a = cur
          · rw [if_pos ha]
            have : s ≠ a := fun h => hc (h.trans ha)
            simp [upd, this]
          · rw [if_neg ha]
      · rw [if_neg (by simp [hs])]
        by_cases hsa : s = a
        · subst hsa
          by_cases hc : s = cur
          · rw [if_pos ⟨List.mem_cons_self .., hc⟩]
            unfold computeTransient
            rw [if_pos hc]
            simp [upd]
          · rw [if_neg (by simp [hc])]
            unfold computeTransient
            rw [if_neg hc]
        · rw [if_neg (by simp [hs, hsa])]
          unfold computeTransient
          by_cases ha : a = cur
          · rw [if_pos ha]; simp [upd, hsa]
          · rw [if_neg ha]

theorem foldl_congr_mem {A B : Type} (f g : B → A → B) : ∀ (l : List A) (b : B), (∀ b, ∀ a ∈ l, f b a = g b a) →
    l.foldl f b = l.foldl g b := by
  intro l
  induction l with
  | nil => intro b _; rfl
  | cons a t ih =>
    intro b h
    rw [List.foldl_cons, List.foldl_cons, h b a (List.mem_cons_self ..)]
    exact ih _ (fun b a' ha => h b a' (List.mem_cons_of_mem _ ha))

theorem evalPoint_congr (T : Tableau K) (s : Nat) (un : K) (st st' : Nat → K) (x : K) (h : ∀ j, j < s → st j = st' j) :
    evalPoint T s un st x = evalPoint T s un st' x := by
  unfold evalPoint
  simp only
  congr 1
  apply foldl_congr_mem
  intro b a ha
  rw [h a (List.mem_range.1 ha)]

theorem timeDeriv_congr (T : Tableau K) (bdf : List K) (dt : K) (s : Nat) (p p' : Nat → K) (x : K)
    (h : ∀ j, j < bdf.length - 1 → p j = p' j) : timeDeriv T bdf dt s p x = timeDeriv T bdf dt s p' x := by
  unfold timeDeriv
  simp only
  congr 2
  apply foldl_congr_mem
  intro b a ha
  rw [h a (List.mem_range.1 ha)]

end MrHyDE.Assembly.Gather
