import Verif.Opt.Spec
import Mathlib.Tactic.Ring
import Mathlib.Tactic.Linarith
import Mathlib.Tactic.Positivity

set_option linter.unusedSectionVars false

namespace MrHyDE.Opt

variable {K : Type}

theorem SameC.refl (c : Comps K) : SameC c c := fun _ => rfl
theorem SameC.symm {c d : Comps K} (h : SameC c d) : SameC d c := fun i => (h i).symm
theorem SameC.trans {c d e : Comps K} (h : SameC c d) (h' : SameC d e) : SameC c e := fun i => (h i).trans (h' i)

theorem sizeAt_zero_none (c : Comps K) : sizeAt (none :: c) 0 = none := by simp [sizeAt]
theorem sizeAt_zero_some (u : List K) (c : Comps K) : sizeAt (some u :: c) 0 = some u.length := by simp [sizeAt]
theorem sizeAt_succ (o : Option (List K)) (c : Comps K) (i : Nat) : sizeAt (o :: c) (i + 1) = sizeAt c i := by
  simp [sizeAt]
theorem sizeAt_nil (i : Nat) : sizeAt ([] : Comps K) i = none := by simp [sizeAt]

theorem flat_null {d : Comps K} (h : SameC [] d) : flat d = [] := by
  induction d with
  | nil => rfl
  | cons o ds ih =>
    cases o with
    | some u => have := h 0; rw [sizeAt_nil, sizeAt_zero_some] at this; cases this
    | none =>
      apply ih
      intro i
      have := h (i + 1)
      rwa [sizeAt_nil, sizeAt_succ] at this

/-- Inductive form of `SameC`. -/
inductive Al : Comps K → Comps K → Prop
  | nil {d : Comps K} : flat d = [] → Al [] d
  | null {c d : Comps K} : flat d = flat d.tail → Al c d.tail → Al (none :: c) d
  | comp {u v : List K} {c d : Comps K} : u.length = v.length → Al c d → Al (some u :: c) (some v :: d)

theorem SameC.al {c d : Comps K} (h : SameC c d) : Al c d := by
  induction c generalizing d with
  | nil => exact .nil (flat_null h)
  | cons o cs ih =>
    cases o with
    | none =>
      cases d with
      | nil =>
        refine .null rfl (ih ?_)
        intro i
        have := h (i + 1)
        rw [sizeAt_succ] at this
        rw [this]; simp [sizeAt]
      | cons p ds =>
        cases p with
        | some v => have := h 0; rw [sizeAt_zero_none, sizeAt_zero_some] at this; cases this
        | none =>
          refine .null rfl (ih ?_)
          intro i
          have := h (i + 1)
          simpa only [sizeAt_succ, List.tail_cons] using this
    | some u =>
      cases d with
      | nil => have := h 0; rw [sizeAt_zero_some, sizeAt_nil] at this; cases this
      | cons p ds =>
        have h0 := h 0
        cases p with
        | none => rw [sizeAt_zero_some, sizeAt_zero_none] at h0; cases h0
        | some v =>
          rw [sizeAt_zero_some, sizeAt_zero_some] at h0
          refine .comp (Option.some.inj h0) (ih ?_)
          intro i
          have := h (i + 1)
          simpa only [sizeAt_succ] using this

theorem Al.length {c d : Comps K} (h : Al c d) : (flat c).length = (flat d).length := by
  induction h with
  | nil h => simp [flat, h]
  | null h _ ih => rw [h]; exact ih
  | comp hl _ ih => simp [flat, hl, ih]

theorem SameC.length {c d : Comps K} (h : SameC c d) : (flat c).length = (flat d).length := h.al.length

theorem SameC.cons {c d : Comps K} {o p : Option (List K)} (h0 : o.map List.length = p.map List.length)
    (h : SameC c d) : SameC (o :: c) (p :: d) := by
  intro i
  cases i with
  | zero => simpa [sizeAt] using h0
  | succ i => simpa only [sizeAt_succ] using h i

theorem Same.refl (x : OptVec K) : Same x x := ⟨SameC.refl _, SameC.refl _⟩
theorem Same.symm {x y : OptVec K} (h : Same x y) : Same y x := ⟨h.1.symm, h.2.symm⟩
theorem Same.trans {x y z : OptVec K} (h : Same x y) (h' : Same y z) : Same x z :=
  ⟨h.1.trans h'.1, h.2.trans h'.2⟩

theorem Same.length {x y : OptVec K} (h : Same x y) : x.entries.length = y.entries.length := by
  simp [OptVec.entries, h.1.length, h.2.length]

theorem zipWith_append' {A B C : Type} (f : A → B → C) (a b : List A) (c d : List B) (h : a.length = c.length) :
    List.zipWith f (a ++ b) (c ++ d) = List.zipWith f a c ++ List.zipWith f b d :=
  List.zipWith_append h

theorem upd_spec (f : K → K → K) {c d : Comps K} (h : SameC c d) :
    ∃ r, upd f c d = some r ∧ SameC r c ∧ flat r = List.zipWith f (flat c) (flat d) := by
  induction h.al with
  | nil _ => exact ⟨[], by simp [upd], SameC.refl _, rfl⟩
  | @null c d hd _ ih =>
    have ih := ih (by
      intro i
      have := h (i + 1)
      rw [sizeAt_succ] at this
      rw [this]
      cases d <;> simp [sizeAt])
    obtain ⟨r, h1, h2, h3⟩ := ih
    exact ⟨none :: r, by simp [upd, h1], SameC.cons rfl h2, by rw [hd]; simpa [flat] using h3⟩
  | @comp u v c d hl _ ih =>
    have ih := ih (by
      intro i
      have := h (i + 1)
      simpa only [sizeAt_succ] using this)
    obtain ⟨r, h1, h2, h3⟩ := ih
    refine ⟨some (List.zipWith f u v) :: r, by simp [upd, zip2, hl, h1], SameC.cons (by simp [hl]) h2, ?_⟩
    simp [flat, h3, List.zipWith_append hl]

theorem update_spec (f : K → K → K) {x y : OptVec K} (h : Same x y) :
    ∃ r, x.update f y = some r ∧ Same r x ∧ SameMetric r x ∧ r.entries = List.zipWith f x.entries y.entries := by
  obtain ⟨a, a1, a2, a3⟩ := upd_spec f h.1
  obtain ⟨b, b1, b2, b3⟩ := upd_spec f h.2
  refine ⟨{ x with field := a, scalar := b }, by simp [OptVec.update, a1, b1], ⟨a2, b2⟩, ⟨rfl, rfl, rfl, rfl⟩, ?_⟩
  simp [OptVec.entries, a3, b3, List.zipWith_append h.1.length]

theorem mapC_spec (f : K → K) (c : Comps K) : SameC (mapC f c) c ∧ flat (mapC f c) = (flat c).map f := by
  induction c with
  | nil => exact ⟨SameC.refl _, rfl⟩
  | cons o cs ih =>
    obtain ⟨i1, i2⟩ := ih
    cases o with
    | none => exact ⟨SameC.cons rfl i1, by simpa [mapC, flat] using i2⟩
    | some u =>
      refine ⟨SameC.cons (by simp) i1, ?_⟩
      have : mapC f (some u :: cs) = some (u.map f) :: mapC f cs := rfl
      rw [this]; simp [flat, i2]

/-- Components agree after skipping null components of the longer one. -/
theorem zipWith_snd (a b : List K) (h : a.length = b.length) : List.zipWith (fun _ q => q) a b = b := by
  induction a generalizing b with
  | nil => cases b <;> simp_all
  | cons x xs ih => cases b with
    | nil => simp at h
    | cons y ys => simp at h; simp [ih ys h]

section
variable [Field K]

theorem wsum_nil_left (a b : List K) : wsum [] a b = 0 := by simp [wsum]

theorem wsum_append (w w' a a' b b' : List K) (h1 : w.length = a.length) (h2 : a.length = b.length) :
    wsum (w ++ w') (a ++ a') (b ++ b') = wsum w a b + wsum w' a' b' := by
  induction w generalizing a b with
  | nil =>
    cases a with
    | nil => cases b with
      | nil => simp [wsum]
      | cons _ _ => simp at h2
    | cons _ _ => simp at h1
  | cons x xs ih =>
    cases a with
    | nil => simp at h1
    | cons y ys => cases b with
      | nil => simp at h2
      | cons z zs =>
        simp at h1 h2
        simp [wsum, ih ys zs h1 h2, add_assoc]

theorem wsum_const (c : K) (a b : List K) (h : a.length = b.length) :
    wsum (a.map (fun _ => c)) a b = c * (List.zipWith (· * ·) a b).sum := by
  induction a generalizing b with
  | nil => simp [wsum]
  | cons x xs ih => cases b with
    | nil => simp at h
    | cons y ys =>
      simp at h
      simp only [List.map_cons, wsum, ih ys h, List.zipWith_cons_cons, List.sum_cons]
      ring

theorem wsum_diag (g : K → K) (op : K → K → K) (hop : ∀ a d, op a d = g d * a) (a b D : List K) (h : a.length = b.length) (hD : b.length = D.length) :
    (List.zipWith (· * ·) a (List.zipWith op b D)).sum = wsum (D.map g) a b := by
  induction a generalizing b D with
  | nil => cases D <;> simp [wsum]
  | cons x xs ih => cases b with
    | nil => simp at h
    | cons y ys => cases D with
      | nil => simp at hD
      | cons d ds =>
        simp at h hD
        simp [wsum, ih ys ds h hD, hop]; ring

theorem dotC_plain' {c d : Comps K} (h : Al c d) :
    dotC some c d = some (wsum ((flat c).map (fun _ => 1)) (flat c) (flat d)) := by
  induction h with
  | nil _ => simp [dotC, flat, wsum]
  | @null c d hd _ ih => rw [hd]; simpa [dotC, flat] using ih
  | @comp u v c d hl hs ih =>
    simp only [dotC, flat, List.map_append]
    rw [wsum_append _ _ _ _ _ _ (by simp) hl, wsum_const _ _ _ hl]
    simp [dotL, hl, ih]

theorem dotC_plain {c d : Comps K} (h : SameC c d) :
    dotC some c d = some (wsum ((flat c).map (fun _ => 1)) (flat c) (flat d)) := dotC_plain' h.al

theorem dotC_weighted' (x : OptVec K) (D : List K) (hD : x.diag = some D) {c d : Comps K} (h : Al c d)
    (hf : ∀ u, some u ∈ c → u.length = D.length) :
    dotC (fun v => zip2 (fun a d => if x.isDual then a / d else a * d) v D) c d
      = some (wsum (fieldWeights x c) (flat c) (flat d)) := by
  induction h with
  | nil _ => simp [dotC, flat, wsum, fieldWeights]
  | @null c d hd _ ih => rw [hd]; simpa [dotC, flat, fieldWeights] using ih (fun u hu => hf u (by simp [hu]))
  | @comp u v c d hl hs ih =>
    have ih := ih (fun u hu => hf u (by simp [hu]))
    have hu := hf u (by simp)
    simp only [dotC, flat, fieldWeights, hD]
    rw [wsum_append _ _ _ _ _ _ (by simp [hu]) hl]
    rw [ih]
    rw [← wsum_diag (fun d => if x.isDual then d⁻¹ else d) (fun a d => if x.isDual then a / d else a * d)
      (by intro a d; split_ifs <;> ring) u v D hl (by omega)]
    simp [zip2, dotL, ← hl, hu]

theorem dotC_weighted (x : OptVec K) (D : List K) (hD : x.diag = some D) {c d : Comps K} (h : SameC c d)
    (hf : ∀ u, some u ∈ c → u.length = D.length) :
    dotC (fun v => zip2 (fun a d => if x.isDual then a / d else a * d) v D) c d
      = some (wsum (fieldWeights x c) (flat c) (flat d)) := dotC_weighted' x D hD h.al hf

theorem fieldWeights_none (x : OptVec K) (hD : x.diag = none) (c : Comps K) :
    fieldWeights x c = (flat c).map (fun _ => if x.isDual then x.dscale⁻¹ else x.dscale) := by
  induction c with
  | nil => rfl
  | cons o cs ih => cases o <;> simp [fieldWeights, flat, ih, hD]

theorem fieldWeights_length (x : OptVec K) (c : Comps K)
    (hf : ∀ D, x.diag = some D → ∀ u, some u ∈ c → u.length = D.length) :
    (fieldWeights x c).length = (flat c).length := by
  induction c with
  | nil => rfl
  | cons o cs ih =>
    have ih := ih (fun D hD u hu => hf D hD u (by simp [hu]))
    cases o with
    | none => simpa [fieldWeights, flat] using ih
    | some u =>
      cases hD : x.diag with
      | none => simp [fieldWeights, flat, ih, hD]
      | some D => simp [fieldWeights, flat, ih, hD, hf D hD u (by simp)]

theorem weights_length (x : OptVec K) (hf : Fits x) : (weights x).length = x.entries.length := by
  simp [weights, OptVec.entries, fieldWeights_length x x.field hf]

theorem dot_eq {x y : OptVec K} (h : Same x y) (hd : x.isDual = y.isDual) (hf : Fits x) (hm : HasMetric x) :
    x.dot y = some (wsum (weights x) x.entries y.entries) := by
  have hfd : x.fieldDot y = some (wsum (fieldWeights x x.field) (flat x.field) (flat y.field)) := by
    unfold OptVec.fieldDot
    rw [if_neg (by simp [hd])]
    cases hD : x.diag with
    | some D => exact dotC_weighted x D hD h.1 (hf D hD)
    | none =>
      rw [fieldWeights_none x hD]
      simp only [hm hD, Bool.false_eq_true, if_false, dotC_plain h.1, Option.map_some, Option.some.injEq]
      rw [wsum_const _ _ _ h.1.length, wsum_const _ _ _ h.1.length]
      split_ifs <;> ring
  unfold OptVec.dot weights OptVec.entries
  rw [hfd, dotC_plain h.2]
  rw [wsum_append _ _ _ _ _ _ (fieldWeights_length x x.field hf) h.1.length]
  rfl

theorem wsum_comm (w a b : List K) : wsum w a b = wsum w b a := by
  induction w generalizing a b with
  | nil => simp [wsum]
  | cons x xs ih =>
    cases a with
    | nil => cases b <;> simp [wsum]
    | cons y ys => cases b with
      | nil => simp [wsum]
      | cons z zs => simp only [wsum, ih ys zs]; ring

theorem wsum_axpy (s : K) (w a b c : List K) (h : a.length = b.length) :
    wsum w (List.zipWith (fun p q => p + s * q) a b) c = wsum w a c + s * wsum w b c := by
  induction w generalizing a b c with
  | nil => simp [wsum]
  | cons x xs ih =>
    cases a with
    | nil => cases b with
      | nil => simp [wsum]
      | cons _ _ => simp at h
    | cons y ys => cases b with
      | nil => simp at h
      | cons z zs =>
        cases c with
        | nil => simp [wsum]
        | cons t ts => simp at h; simp only [List.zipWith_cons_cons, wsum, ih ys zs ts h]; ring

theorem wsum_nonneg [LinearOrder K] [IsStrictOrderedRing K] (w a : List K) (hw : ∀ x ∈ w, 0 ≤ x) :
    0 ≤ wsum w a a := by
  induction w generalizing a with
  | nil => simp [wsum]
  | cons x xs ih =>
    cases a with
    | nil => simp [wsum]
    | cons y ys =>
      simp only [wsum]
      have h1 : 0 ≤ x * y * y := by
        have := mul_nonneg (hw x (by simp)) (mul_self_nonneg y)
        linarith [mul_assoc x y y]
      have h2 := ih ys (fun z hz => hw z (by simp [hz]))
      linarith

theorem wsum_eq_zero [LinearOrder K] [IsStrictOrderedRing K] (w a : List K) (hl : w.length = a.length)
    (hw : ∀ x ∈ w, 0 < x) (h : wsum w a a = 0) : ∀ y ∈ a, y = 0 := by
  induction w generalizing a with
  | nil => cases a with
    | nil => simp
    | cons _ _ => simp at hl
  | cons x xs ih =>
    cases a with
    | nil => simp
    | cons y ys =>
      simp at hl
      simp only [wsum] at h
      have h2 := wsum_nonneg xs ys (fun z hz => (hw z (by simp [hz])).le)
      have h1 : 0 ≤ x * y * y := by
        have := mul_nonneg (hw x (by simp)).le (mul_self_nonneg y)
        linarith [mul_assoc x y y]
      have e1 : x * y * y = 0 := by linarith
      have e2 : wsum xs ys ys = 0 := by linarith
      have hx := (hw x (by simp)).ne'
      have ey : y = 0 := by
        rcases mul_eq_zero.1 e1 with h | h
        · rcases mul_eq_zero.1 h with h | h
          · exact absurd h hx
          · exact h
        · exact h
      intro z hz
      rcases List.mem_cons.1 hz with rfl | hz
      · exact ey
      · exact ih ys hl (fun z hz => hw z (by simp [hz])) e2 z hz

theorem wsum_zero (w a : List K) (ha : ∀ y ∈ a, y = 0) (b : List K) : wsum w a b = 0 := by
  induction w generalizing a b with
  | nil => simp [wsum]
  | cons x xs ih =>
    cases a with
    | nil => simp [wsum]
    | cons y ys => cases b with
      | nil => simp [wsum]
      | cons z zs => simp [wsum, ih ys (fun z hz => ha z (by simp [hz])), ha y (by simp)]

theorem fieldWeights_pos [LinearOrder K] [IsStrictOrderedRing K] (x : OptVec K) (hs : 0 < x.dscale)
    (hD : ∀ D, x.diag = some D → ∀ d ∈ D, 0 < d) (c : Comps K) : ∀ w ∈ fieldWeights x c, 0 < w := by
  induction c with
  | nil => simp [fieldWeights]
  | cons o cs ih =>
    cases o with
    | none => simpa [fieldWeights] using ih
    | some u =>
      intro w hw
      simp only [fieldWeights, List.mem_append] at hw
      rcases hw with hw | hw
      · cases hd : x.diag with
        | none =>
          simp only [hd, List.mem_map] at hw
          obtain ⟨_, _, rfl⟩ := hw
          split_ifs
          · exact inv_pos.2 hs
          · exact hs
        | some D =>
          simp only [hd, List.mem_map] at hw
          obtain ⟨d, hd', rfl⟩ := hw
          have := hD D hd d hd'
          split_ifs
          · exact inv_pos.2 this
          · exact this
      · exact ih w hw

theorem weights_pos [LinearOrder K] [IsStrictOrderedRing K] (x : OptVec K) (hs : 0 < x.dscale)
    (hD : ∀ D, x.diag = some D → ∀ d ∈ D, 0 < d) : ∀ w ∈ weights x, 0 < w := by
  intro w hw
  simp only [weights, List.mem_append, List.mem_map] at hw
  rcases hw with hw | ⟨_, _, rfl⟩
  · exact fieldWeights_pos x hs hD _ w hw
  · exact one_pos

theorem fieldWeights_null (y : OptVec K) {d : Comps K} (h : SameC [] d) : fieldWeights y d = [] := by
  induction d with
  | nil => rfl
  | cons o ds ih =>
    cases o with
    | some u => have := h 0; rw [sizeAt_nil, sizeAt_zero_some] at this; cases this
    | none =>
      apply ih
      intro i
      have := h (i + 1)
      rwa [sizeAt_nil, sizeAt_succ] at this

theorem fieldWeights_congr {x y : OptVec K} (hm : SameMetric x y) {c d : Comps K} (h : SameC c d) :
    fieldWeights x c = fieldWeights y d := by
  obtain ⟨m1, m2, m3, m4⟩ := hm
  induction h.al with
  | nil _ => rw [fieldWeights_null y h]; rfl
  | @null c d _ _ ih =>
    have ih := ih (by
      intro i
      have := h (i + 1)
      rw [sizeAt_succ] at this
      rw [this]
      cases d <;> simp [sizeAt])
    cases d with
    | nil => simpa [fieldWeights] using ih
    | cons o ds =>
      cases o with
      | none => simpa [fieldWeights] using ih
      | some v => have := h 0; rw [sizeAt_zero_none, sizeAt_zero_some] at this; cases this
  | @comp u v c d hl hs ih =>
    have ih := ih (by
      intro i
      have := h (i + 1)
      simpa only [sizeAt_succ] using this)
    simp only [fieldWeights, ih, m1, m2, m3]
    cases y.diag with
    | some D => rfl
    | none => simp [List.map_const', hl]

theorem weights_congr {x y : OptVec K} (hm : SameMetric x y) (h : Same x y) : weights x = weights y := by
  simp [weights, fieldWeights_congr hm h.1, List.map_const', h.2.length]

theorem SameC.mem {c d : Comps K} (h : SameC c d) : ∀ u, some u ∈ c → ∃ v, some v ∈ d ∧ u.length = v.length := by
  intro u hu
  obtain ⟨i, hi⟩ := List.mem_iff_getElem?.1 hu
  have := h i
  simp only [sizeAt, hi, Option.join_some, Option.map_some] at this
  cases hd : d[i]? with
  | none => simp [hd] at this
  | some o =>
    cases o with
    | none => simp [hd] at this
    | some v =>
      simp [hd] at this
      exact ⟨v, List.mem_iff_getElem?.2 ⟨i, hd⟩, this⟩

theorem Fits.congr {x y : OptVec K} (hm : SameMetric x y) (h : Same x y) (hf : Fits y) : Fits x := by
  intro D hD u hu
  obtain ⟨v, h1, h2⟩ := h.1.mem u hu
  rw [h2]
  exact hf D (hm.2.2.1 ▸ hD) v h1

theorem HasMetric.congr {x y : OptVec K} (hm : SameMetric x y) (h : HasMetric y) : HasMetric x := by
  intro hd
  rw [hm.2.2.2]
  exact h (hm.2.2.1 ▸ hd)

end

/-! ### Cloning and the check for new parameters -/

section
variable [Field K]

theorem mapC_same (f : K → K) (c : Comps K) : SameC (mapC f c) c := (mapC_spec f c).1

theorem clone_same (x : OptVec K) : Same x.clone x := by
  refine ⟨mapC_same _ _, ?_⟩
  unfold OptVec.clone
  dsimp only
  split_ifs with h
  · rw [h]
    intro i
    cases i <;> simp [sizeAt]
  · exact mapC_same _ _

/-- A vector whose metric is unaffected by cloning. -/
theorem clone_metric (x : OptVec K) (h1 : x.isDual = false) (h2 : x.dscale = 1) : SameMetric x.clone x :=
  ⟨h1.symm, h2.symm, rfl, rfl⟩

theorem clone_set (x : OptVec K) :
    ∃ d, x.clone.set x = some d ∧ Same d x ∧ SameMetric d x.clone ∧ d.entries = x.entries := by
  obtain ⟨r, h1, h2, h3, h4⟩ := update_spec (fun _ b => b) (clone_same x)
  refine ⟨r, h1, h2.trans (clone_same x), h3, ?_⟩
  rw [h4, zipWith_snd _ _ (clone_same x).length]

theorem set_spec {x y : OptVec K} (h : Same x y) :
    ∃ r, x.set y = some r ∧ Same r x ∧ SameMetric r x ∧ r.entries = y.entries := by
  obtain ⟨r, h1, h2, h3, h4⟩ := update_spec (fun _ b => b) h
  exact ⟨r, h1, h2, h3, by rw [h4, zipWith_snd _ _ h.length]⟩

end

end MrHyDE.Opt
