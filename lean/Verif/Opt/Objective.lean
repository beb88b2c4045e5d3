import Verif.Opt.Props

/-!
# Objectives: C31, C32 and C56
-/

set_option linter.unusedSectionVars false

namespace MrHyDE.Opt

open MrHyDE.Solver (fdiv Quot)

variable {K : Type} [Field K] [LinearOrder K] [IsStrictOrderedRing K]

/-- Parameters as the parameter manager hands them out: primal, scale one, and either no mass or a positive diagonal
fitting the fields. [specification, no code] -/
def Usual (x : OptVec K) : Prop :=
  x.isDual = false ∧ x.dscale = 1 ∧ Fits x ∧ HasMetric x ∧ ∀ D, x.diag = some D → ∀ d ∈ D, 0 < d

/-- `p` and `q` have the same numbers, or differ by no more than the tolerance relative to `p`, in the norm of `c`. [specification, no code] -/
def Near (tol2 : K) (c p q : OptVec K) : Prop :=
  wsum (weights c) (List.zipWith (· - ·) p.entries q.entries) (List.zipWith (· - ·) p.entries q.entries)
    ≤ tol2 * wsum (weights c) p.entries p.entries

theorem Usual.congr {x y : OptVec K} (hm : SameMetric x y) (h : Same x y) (hu : Usual y) : Usual x := by
  obtain ⟨h1, h2, h3, h4, h5⟩ := hu
  obtain ⟨m1, m2, m3, m4⟩ := hm
  refine ⟨m1.trans h1, m2.trans h2, h3.congr ⟨m1, m2, m3, m4⟩ h, h4.congr ⟨m1, m2, m3, m4⟩, ?_⟩
  intro D hD
  exact h5 D (m3 ▸ hD)

theorem SameMetric.trans {x y z : OptVec K} (h : SameMetric x y) (h' : SameMetric y z) : SameMetric x z :=
  ⟨h.1.trans h'.1, h.2.1.trans h'.2.1, h.2.2.1.trans h'.2.2.1, h.2.2.2.trans h'.2.2.2⟩

theorem checkNew_spec (tol2 : K) (ht : 0 ≤ tol2) {c x : OptVec K} (hu : Usual c) (h : Same c x) :
    ∃ b, checkNew tol2 c x = some b ∧ (b = false → Near tol2 c c x) ∧ (c.entries = x.entries → b = false) := by
  obtain ⟨h1, h2, h3, h4, h5⟩ := hu
  obtain ⟨d, d1, d2, d3, d4⟩ := clone_set c
  have m : SameMetric d c := SameMetric.trans d3 (clone_metric c h1 h2)
  obtain ⟨r, r1, r2, r3, r4⟩ := update_spec (fun p q => p + (-1) * q) (d2.trans h)
  have mr : SameMetric r c := SameMetric.trans r3 m
  have sr : Same r c := r2.trans d2
  have e1 := dot_eq (Same.refl r) rfl (h3.congr mr sr) (h4.congr mr)
  have e2 := dot_eq (Same.refl c) rfl h3 h4
  have er : r.entries = List.zipWith (· - ·) c.entries x.entries := by
    rw [r4, d4]; congr 1; funext p q; ring
  rw [weights_congr mr sr, er] at e1
  have hw := weights_pos c (by rw [h2]; exact one_pos) h5
  have hn := wsum_nonneg (weights c) c.entries (fun w h => (hw w h).le)
  refine ⟨(fdiv (wsum (weights c) (List.zipWith (· - ·) c.entries x.entries)
    (List.zipWith (· - ·) c.entries x.entries)) (wsum (weights c) c.entries c.entries)).gt tol2, ?_, ?_, ?_⟩
  · unfold checkNew
    rw [d1]
    simp only [Option.bind_eq_bind, Option.bind_some]
    have : d.axpy (-1) x = some r := r1
    rw [this]
    simp only [Option.bind_some, e1, e2]
    rfl
  · intro hb
    unfold Near
    unfold fdiv at hb
    split_ifs at hb with a1 a2
    · rw [a2, a1]; simp
    · simp [Quot.gt] at hb
    · simp only [Quot.gt, decide_eq_false_iff_not, not_lt] at hb
      exact (div_le_iff₀ (lt_of_le_of_ne hn (Ne.symm a1))).1 hb
  · intro hc
    have hz : ∀ e ∈ List.zipWith (· - ·) c.entries x.entries, e = 0 := by
      rw [hc]
      intro e he
      rw [List.zipWith_self, List.mem_map] at he
      obtain ⟨a, _, rfl⟩ := he
      exact sub_self a
    rw [wsum_zero _ _ hz]
    unfold fdiv
    by_cases a1 : wsum (weights c) c.entries c.entries = 0
    · simp [a1, Quot.gt]
    · simp [a1, Quot.gt, ht]

/-! ### C31 -/

/-- The point of a call belongs to the space. [specification, no code] -/
def Call.ok (c : OptVec K) : Call K → Prop
  | .value x => Same c x
  | .gradient x => Same c x
  | .generate => True

theorem forward_spec (s : OState K) {x : OptVec K} (h : Same s.cur x) :
    ∃ c, s.forward x = some ⟨c, some (c, false)⟩ ∧ Same c s.cur ∧ SameMetric c s.cur ∧ c.entries = x.entries := by
  obtain ⟨r, r1, r2, r3, r4⟩ := set_spec h
  exact ⟨r, by simp [OState.forward, r1], r2, r3, r4⟩

/-- One call: it succeeds, stays in the space, and keeps the stored solution that of the current parameters if it was
and no data are generated; a value call always makes it so. -/
theorem call_spec (tol2 : K) (ht : 0 ≤ tol2) (s : OState K) (hu : Usual s.cur) (k : Call K) (hk : k.ok s.cur) :
    ∃ s', s.call tol2 k = some (s', s'.cur, s'.solved) ∧ Same s'.cur s.cur ∧ SameMetric s'.cur s.cur ∧
      (∀ x, k = .value x → s'.solved = some (s'.cur, false) ∧ s'.cur.entries = x.entries) ∧
      (∀ x, k = .gradient x → s.solved = some (s.cur, false) → s'.solved = some (s'.cur, false)) ∧
      (∀ x, k = .gradient x → s'.cur.entries = x.entries ∨ (s' = s ∧ Near tol2 s.cur s.cur x)) := by
  cases k with
  | value x =>
    obtain ⟨c, c1, c2, c3, c4⟩ := forward_spec s hk
    refine ⟨⟨c, some (c, false)⟩, by simp [OState.call, c1], c2, c3, ?_, (by intro y hy; cases hy), (by intro y hy; cases hy)⟩
    intro y hy
    cases hy
    exact ⟨rfl, c4⟩
  | gradient x =>
    obtain ⟨b, b1, b2, _⟩ := checkNew_spec tol2 ht hu hk
    cases b with
    | true =>
      obtain ⟨c, c1, c2, c3, c4⟩ := forward_spec s hk
      refine ⟨⟨c, some (c, false)⟩, by simp [OState.call, b1, c1], c2, c3, (by intro y hy; cases hy), ?_, ?_⟩
      · intro y _ _; rfl
      · intro y hy; cases hy; exact Or.inl c4
    | false =>
      refine ⟨s, by simp [OState.call, b1], Same.refl _, ⟨rfl, rfl, rfl, rfl⟩, (by intro y hy; cases hy), ?_, ?_⟩
      · intro y _ h; exact h
      · intro y hy; cases hy; exact Or.inr ⟨rfl, b2 rfl⟩
  | generate =>
    exact ⟨⟨s.cur, some (s.cur, true)⟩, rfl, Same.refl _, ⟨rfl, rfl, rfl, rfl⟩, (by intro y hy; cases hy),
      (by intro y hy; cases hy), (by intro y hy; cases hy)⟩

theorem Call.ok.congr {c d : OptVec K} (h : Same d c) {k : Call K} (hk : k.ok c) : k.ok d := by
  cases k with
  | value x => exact h.trans hk
  | gradient x => exact h.trans hk
  | generate => trivial

theorem run_spec (tol2 : K) (ht : 0 ≤ tol2) (s : OState K) (hu : Usual s.cur) (ks : List (Call K))
    (hk : ∀ k ∈ ks, k.ok s.cur) :
    ∃ s', s.run tol2 ks = some s' ∧ Same s'.cur s.cur ∧ SameMetric s'.cur s.cur ∧
      (s.solved = some (s.cur, false) → (∀ k ∈ ks, k ≠ .generate) → s'.solved = some (s'.cur, false)) := by
  induction ks generalizing s with
  | nil => exact ⟨s, rfl, Same.refl _, ⟨rfl, rfl, rfl, rfl⟩, fun h _ => h⟩
  | cons k ks ih =>
    obtain ⟨s1, a1, a2, a3, a4, a5, _⟩ := call_spec tol2 ht s hu k (hk k (by simp))
    obtain ⟨s2, b1, b2, b3, b4⟩ := ih s1 (hu.congr a3 a2) (fun k' hk' => (hk k' (by simp [hk'])).congr a2)
    refine ⟨s2, by simp [OState.run, a1, b1], b2.trans a2, SameMetric.trans b3 a3, ?_⟩
    intro h hg
    refine b4 ?_ (fun k' hk' => hg k' (by simp [hk']))
    cases k with
    | value x => exact (a4 x rfl).1
    | gradient x => exact a5 x rfl h
    | generate => exact absurd rfl (hg .generate (by simp))

theorem run_append (tol2 : K) (s : OState K) (ks ls : List (Call K)) :
    s.run tol2 (ks ++ ls) = (s.run tol2 ks).bind (fun t => t.run tol2 ls) := by
  induction ks generalizing s with
  | nil => rfl
  | cons k ks ih =>
    simp only [List.cons_append, OState.run, Option.bind_eq_bind]
    cases s.call tol2 k with
    | none => rfl
    | some r => simp [ih]

/-- **C31** (partial: some value must have been requested since data were last generated, and the point is met up to
the tolerance of the code).  After every history of value and gradient requests of which at least one, after the last
generation of data, was for a value, a gradient requested at `x` is computed from the forward solution of the current
parameters, and the current parameters are exactly `x`, or differ from it by no more than the relative tolerance. -/
theorem C31_partial (tol2 : K) (ht : 0 ≤ tol2) (s : OState K) (hu : Usual s.cur) (pre post : List (Call K))
    (x0 x : OptVec K) (h0 : Same s.cur x0) (hx : Same s.cur x) (hpre : ∀ k ∈ pre, k.ok s.cur)
    (hpost : ∀ k ∈ post, k.ok s.cur ∧ k ≠ .generate) :
    ∃ t s' c, s.run tol2 (pre ++ .value x0 :: post) = some t ∧
      t.call tol2 (.gradient x) = some (s', c, some (c, false)) ∧
      (c.entries = x.entries ∨ Near tol2 c c x) := by
  obtain ⟨s1, a1, a2, a3, _⟩ := run_spec tol2 ht s hu pre hpre
  have hu1 := hu.congr a3 a2
  obtain ⟨s2, b1, b2, b3, b4, _⟩ := call_spec tol2 ht s1 hu1 (.value x0) (a2.trans h0)
  have hu2 := hu1.congr b3 b2
  obtain ⟨t, c1, c2, c3, c4⟩ := run_spec tol2 ht s2 hu2 post
    (fun k hk => (hpost k hk).1.congr (b2.trans a2))
  have hu3 := hu2.congr c3 c2
  obtain ⟨s', d1, d2, d3, _, d5, d6⟩ := call_spec tol2 ht t hu3 (.gradient x) (c2.trans (b2.trans (a2.trans hx)))
  have hs := d5 x rfl (c4 (b4 x0 rfl).1 (fun k hk => (hpost k hk).2))
  refine ⟨t, s', s'.cur, ?_, ?_, ?_⟩
  · rw [run_append, a1]
    simp [OState.run, b1, c1]
  · rw [d1, hs]
  · rcases d6 x rfl with h | ⟨h, h'⟩
    · exact Or.inl h
    · rw [h]; exact Or.inr h'

/-- **C31, values.**  A value is always computed at the requested point. -/
theorem C31_value (tol2 : K) (s : OState K) (x : OptVec K) (hx : Same s.cur x) :
    ∃ s' c, s.call tol2 (.value x) = some (s', c, some (c, false)) ∧ c.entries = x.entries := by
  obtain ⟨c, c1, _, _, c4⟩ := forward_spec s hx
  exact ⟨⟨c, some (c, false)⟩, c, by simp [OState.call, c1], c4⟩

/-- **C31, violated (a).**  A gradient at the initial parameters as the first request is computed without any forward
solution, and after generating data from the solution with the generating source. -/
theorem C31_initial_violated (tol2 : K) (ht : 0 ≤ tol2) (c : OptVec K) (hu : Usual c) :
    (∃ s', (⟨c, none⟩ : OState K).call tol2 (.gradient c) = some (s', c, none)) ∧
    (∃ t s', (⟨c, none⟩ : OState K).run tol2 [.generate] = some t ∧
      t.call tol2 (.gradient c) = some (s', c, some (c, true))) := by
  obtain ⟨b, b1, _, b3⟩ := checkNew_spec tol2 ht hu (Same.refl c)
  have : b = false := b3 rfl
  subst this
  exact ⟨⟨_, by simp [OState.call, b1]; rfl⟩, _, _, rfl, by simp [OState.call, b1]; rfl⟩

theorem update_null {f : K → K → K} {x y r : OptVec K} (h : x.scalar = [none]) (hr : x.update f y = some r) :
    r.scalar = [none] := by
  simp only [OptVec.update, h, upd, Option.bind_eq_bind, Option.map_some, Option.bind_some] at hr
  rw [Option.bind_eq_some_iff] at hr
  obtain ⟨a, _, ha⟩ := hr
  simp only [Option.pure_def, Option.some.injEq] at ha
  rw [← ha]

/-- **C31, violated (b).**  With a mass matrix without a diagonal and no scalar parameters no point counts as new: the
gradient requested anywhere is computed at the point of the last value. -/
theorem C31_mass_violated (tol2 : K) (c x : OptVec K) (h : Same c x) (hm : c.haveMass = true) (hd : c.diag = none)
    (hp : c.isDual = false) (hs : c.scalar = []) (f : Option (OptVec K × Bool)) :
    (⟨c, f⟩ : OState K).call tol2 (.gradient x) = some (⟨c, f⟩, c, f) := by
  obtain ⟨d, d1, d2, d3, _⟩ := clone_set c
  obtain ⟨r, r1, r2, r3, _⟩ := update_spec (fun p q => p + (-1) * q) (d2.trans h)
  have mr : SameMetric r c.clone := SameMetric.trans r3 d3
  have hcl : c.clone.scalar = [none] := by simp [OptVec.clone, hs]
  have hds : d.scalar = [none] := update_null hcl d1
  have hrs : r.scalar = [none] := update_null hds r1
  have e1 : r.dot r = some 0 := by
    have a : r.diag = none := mr.2.2.1.trans hd
    have b : r.haveMass = true := mr.2.2.2.trans hm
    simp [OptVec.dot, OptVec.fieldDot, a, b, hrs, dotC]
  have e2 : c.dot c = some 0 := C30_mass_violated c c hm hd rfl hs
  have e3 : checkNew tol2 c x = some false := by
    unfold checkNew
    have : d.axpy (-1) x = some r := r1
    simp [d1, this, e1, e2, fdiv, Quot.gt]
  simp [OState.call, e3]

/-- A scalar parameter moved by the optimiser: value at 2, gradient at 3. -/
example :
    let v : ℚ → OptVec ℚ := fun a => ⟨[], [some [a]], false, 1, none, false⟩
    (OState.run (1/10^24 : ℚ) ⟨v 1, none⟩ [.value (v 2)]).bind (fun t => (t.call (1/10^24) (.gradient (v 3))).map (·.2))
      = some (v 3, some (v 3, false)) := by decide +kernel

/-! ### C56 -/

/-- **C56** (partial: only if the last request was at the optimiser's result).  When the last request was for the
value at `x`, the parameters left in the manager — written to file and used for the output after the optimisation —
are `x`; when it was for the gradient at `x` they are `x` up to the tolerance. -/
theorem C56_partial (tol2 : K) (ht : 0 ≤ tol2) (s : OState K) (hu : Usual s.cur) (ks : List (Call K))
    (hk : ∀ k ∈ ks, k.ok s.cur) (x : OptVec K) (hx : Same s.cur x) :
    (∃ t, s.run tol2 (ks ++ [.value x]) = some t ∧ t.cur.entries = x.entries) ∧
    (∃ t, s.run tol2 (ks ++ [.gradient x]) = some t ∧ (t.cur.entries = x.entries ∨ Near tol2 t.cur t.cur x)) := by
  obtain ⟨s1, a1, a2, a3, _⟩ := run_spec tol2 ht s hu ks hk
  have hu1 := hu.congr a3 a2
  obtain ⟨s2, b1, _, _, b4, _⟩ := call_spec tol2 ht s1 hu1 (.value x) (a2.trans hx)
  obtain ⟨s3, c1, _, _, _, _, c6⟩ := call_spec tol2 ht s1 hu1 (.gradient x) (a2.trans hx)
  refine ⟨⟨s2, by rw [run_append, a1]; simp [OState.run, b1], (b4 x rfl).2⟩,
    ⟨s3, by rw [run_append, a1]; simp [OState.run, c1], ?_⟩⟩
  rcases c6 x rfl with h | ⟨h, h'⟩
  · exact Or.inl h
  · rw [h]; exact Or.inr h'

/-- **C56, violated.**  When the optimiser rejects its last trial point `x1` and returns `x0`, the parameters left are
the rejected ones. -/
theorem C56_violated (tol2 : K) (ht : 0 ≤ tol2) (s : OState K) (hu : Usual s.cur) (x0 x1 : OptVec K)
    (h0 : Same s.cur x0) (h1 : Same s.cur x1) :
    ∃ t, s.run tol2 [.value x0, .gradient x0, .value x1] = some t ∧ t.cur.entries = x1.entries := by
  have := (C56_partial tol2 ht s hu [.value x0, .gradient x0]
    (by intro k hk; simp at hk; rcases hk with rfl | rfl <;> exact h0) x1 h1).1
  simpa using this

example :
    let v : ℚ → OptVec ℚ := fun a => ⟨[], [some [a]], false, 1, none, false⟩
    (OState.run (1/10^24 : ℚ) ⟨v 1, none⟩ [.value (v 2), .gradient (v 2), .value (v 5)]).map (·.cur) = some (v 5) := by
  decide +kernel

/-! ### C32 -/

/-- Every sample is recognised as itself. [specification, no code] -/
def Distinct (eps : K) (pts : List (List K)) : Prop :=
  ∀ (i : Nat) q, pts[i]? = some q → identify eps pts q = some i

/-- The cache is not allocated yet, or has an entry for each sample. [specification, no code] -/
def CacheOk (pts : List (List K)) (s : SState K) : Prop := ∀ C, s.cache = some C → C.length = pts.length

/-- The value at `x` for every sample, in order. [specification, no code] -/
def sweep (x : OptVec K) (qs : List (List K)) : List (SCall K) := qs.flatMap (fun q => [.setParameter q, .value x])

/-- Further requests at the same point: only for samples of the list. [specification, no code] -/
def SCall.at (x : OptVec K) (pts : List (List K)) : SCall K → Prop
  | .setParameter q => q ∈ pts
  | .value y => y = x
  | .gradient y => y = x

theorem sforward_spec (eps : K) (pts : List (List K)) (hd : Distinct eps pts) (s : SState K) (hc : CacheOk pts s)
    {x : OptVec K} (h : Same s.cur x) (i : Nat) (hi : pts[i]? = some s.sample) :
    ∃ c C, s.forward eps pts x = some ⟨c, s.sample, some (c, s.sample), some (C.set i (some (c, s.sample)))⟩ ∧
      C = s.cache.getD (List.replicate pts.length none) ∧ C.length = pts.length ∧
      Same c s.cur ∧ SameMetric c s.cur ∧ c.entries = x.entries := by
  obtain ⟨r, r1, r2, r3, r4⟩ := set_spec h
  refine ⟨r, _, by simp [SState.forward, r1, hd i _ hi], rfl, ?_, r2, r3, r4⟩
  cases hs : s.cache with
  | none => simp
  | some C => simpa using hc C hs

/-- Cached states of the first samples are those of `x`. [specification, no code] -/
def Cached (x : OptVec K) (pts : List (List K)) (n : Nat) (s : SState K) : Prop :=
  ∃ C, s.cache = some C ∧ C.length = pts.length ∧
    ∀ (i : Nat) q, i < n → pts[i]? = some q → ∃ c, C[i]? = some (some (c, q)) ∧ c.entries = x.entries

theorem srun_append (tol2 eps : K) (pts : List (List K)) (s : SState K) (ks ls : List (SCall K)) :
    s.run tol2 eps pts (ks ++ ls) = (s.run tol2 eps pts ks).bind (fun t => t.run tol2 eps pts ls) := by
  induction ks generalizing s with
  | nil => rfl
  | cons k ks ih =>
    simp only [List.cons_append, SState.run, Option.bind_eq_bind]
    cases s.call tol2 eps pts k with
    | none => rfl
    | some r => simp [ih]

theorem sweep_spec (tol2 eps : K) (pts : List (List K)) (hd : Distinct eps pts) (x : OptVec K) :
    ∀ n, n ≤ pts.length → ∀ s : SState K, CacheOk pts s → Same s.cur x →
    ∃ t, s.run tol2 eps pts (sweep x (pts.take n)) = some t ∧ Same t.cur s.cur ∧ SameMetric t.cur s.cur ∧
      CacheOk pts t ∧ (0 < n → t.cur.entries = x.entries ∧ t.sample ∈ pts ∧ Cached x pts n t) := by
  intro n
  induction n with
  | zero =>
    intro _ s hc _
    exact ⟨s, by simp [sweep, SState.run], Same.refl _, ⟨rfl, rfl, rfl, rfl⟩, hc, by simp⟩
  | succ n ih =>
    intro hn s hc h
    obtain ⟨t, a1, a2, a3, a4, a5⟩ := ih (by omega) s hc h
    have hlt : n < pts.length := by omega
    have hi : pts[n]? = some pts[n] := List.getElem?_eq_getElem hlt
    obtain ⟨c, C, b1, b2, b3, b4, b5, b6⟩ := sforward_spec eps pts hd { t with sample := pts[n] } a4 (a2.trans h) n hi
    refine ⟨⟨c, pts[n], some (c, pts[n]), some (C.set n (some (c, pts[n])))⟩, ?_, b4.trans a2,
      SameMetric.trans b5 a3, ?_, ?_⟩
    · have : sweep x (pts.take (n + 1)) = sweep x (pts.take n) ++ [.setParameter pts[n], .value x] := by
        rw [sweep, List.take_succ_eq_append_getElem hlt, List.flatMap_append]; rfl
      rw [this, srun_append, a1]
      simp [SState.run, SState.call, b1]
    · intro C' hC'
      simp at hC'
      rw [← hC']; simp [b3]
    · intro _
      refine ⟨b6, List.getElem_mem hlt, _, rfl, by simp [b3], ?_⟩
      intro i q hin hq
      by_cases hin' : i = n
      · subst hin'
        rw [hi] at hq
        cases hq
        exact ⟨c, by rw [List.getElem?_set_self (by omega)], b6⟩
      · rw [List.getElem?_set_ne (by omega)]
        have hn0 : 0 < n := by omega
        obtain ⟨C0, e1, e2, e3⟩ := (a5 hn0).2.2
        have : C = C0 := by rw [b2]; simp [e1]
        rw [this]
        exact e3 i q (by omega) hq

/-- After a sweep, requests at the same point keep the cache right. -/
theorem scall_spec (tol2 eps : K) (ht : 0 ≤ tol2) (pts : List (List K)) (hd : Distinct eps pts) (x : OptVec K)
    (s : SState K) (hu : Usual s.cur) (h : Same s.cur x) (he : s.cur.entries = x.entries) (hs : s.sample ∈ pts)
    (hc : Cached x pts pts.length s) (k : SCall K) (hk : k.at x pts) :
    ∃ t, s.call tol2 eps pts k = some t ∧ Same t.cur s.cur ∧ SameMetric t.cur s.cur ∧ t.cur.entries = x.entries ∧
      t.sample ∈ pts ∧ Cached x pts pts.length t ∧
      (∀ y, k = .gradient y → ∃ c, t.soln = some (c, s.sample) ∧ c.entries = x.entries ∧ t.sample = s.sample) := by
  obtain ⟨C, e1, e2, e3⟩ := hc
  obtain ⟨i, hi⟩ := List.mem_iff_getElem?.1 hs
  have hlt : i < pts.length := by
    by_contra hcon
    rw [List.getElem?_eq_none (by omega)] at hi
    cases hi
  cases k with
  | setParameter q =>
    exact ⟨_, rfl, Same.refl _, ⟨rfl, rfl, rfl, rfl⟩, he, hk, ⟨C, e1, e2, e3⟩, (by intro y hy; cases hy)⟩
  | value y =>
    have : y = x := hk
    subst this
    obtain ⟨c, C', b1, b2, b3, b4, b5, b6⟩ := sforward_spec eps pts hd s
      (by intro D hD; rw [e1] at hD; cases hD; exact e2) h i hi
    refine ⟨_, b1, b4, b5, b6, hs, ⟨_, rfl, by simp [b3], ?_⟩, (by intro y hy; cases hy)⟩
    intro j q hj hq
    have hC : C' = C := by rw [b2]; simp [e1]
    by_cases hji : j = i
    · subst hji
      rw [hi] at hq; cases hq
      exact ⟨c, by rw [List.getElem?_set_self (by omega)], b6⟩
    · rw [List.getElem?_set_ne (by omega), hC]
      exact e3 j q hj hq
  | gradient y =>
    have : y = x := hk
    subst this
    obtain ⟨b, b1, _, b3⟩ := checkNew_spec tol2 ht hu h
    have : b = false := b3 he
    subst this
    obtain ⟨c, c1, c2⟩ := e3 i s.sample hlt hi
    refine ⟨{ s with soln := some (c, s.sample) }, ?_, Same.refl _, ⟨rfl, rfl, rfl, rfl⟩, he, hs, ⟨C, e1, e2, e3⟩, ?_⟩
    · simp [SState.call, b1, hd i _ hi, e1, c1]
    · intro z _
      exact ⟨c, rfl, c2, rfl⟩

theorem srun_spec (tol2 eps : K) (ht : 0 ≤ tol2) (pts : List (List K)) (hd : Distinct eps pts) (x : OptVec K)
    (ks : List (SCall K)) : ∀ (s : SState K), Usual s.cur → Same s.cur x → s.cur.entries = x.entries → s.sample ∈ pts →
    Cached x pts pts.length s → (∀ k ∈ ks, k.at x pts) →
    ∃ t, s.run tol2 eps pts ks = some t ∧ Usual t.cur ∧ Same t.cur x ∧ t.cur.entries = x.entries ∧ t.sample ∈ pts ∧
      Cached x pts pts.length t := by
  induction ks with
  | nil => intro s hu h he hs hc _; exact ⟨s, rfl, hu, h, he, hs, hc⟩
  | cons k ks ih =>
    intro s hu h he hs hc hk
    obtain ⟨t, a1, a2, a3, a4, a5, a6, _⟩ := scall_spec tol2 eps ht pts hd x s hu h he hs hc k (hk k (by simp))
    obtain ⟨u, b1, b2⟩ := ih t (hu.congr a3 a2) (a2.trans h) a4 a5 a6 (fun k' hk' => hk k' (by simp [hk']))
    exact ⟨u, by simp [SState.run, a1, b1], b2⟩

/-- **C32** (partial: the values of all samples at the point must have been requested before, and the samples must be
told apart).  From every state: when the values at `x` for all samples are requested and then, in any order and
number, samples, values and gradients at the same `x`, the gradient at `x` for a sample `q` is computed from the forward
solution at `x` and `q`, with the parameters at `x` and the sample `q`. -/
theorem C32_partial (tol2 eps : K) (ht : 0 ≤ tol2) (pts : List (List K)) (hd : Distinct eps pts) (x : OptVec K)
    (s : SState K) (hu : Usual s.cur) (h : Same s.cur x) (hc : CacheOk pts s) (ks : List (SCall K))
    (hk : ∀ k ∈ ks, k.at x pts) (q : List K) (hq : q ∈ pts) :
    ∃ t c, s.run tol2 eps pts (sweep x pts ++ ks ++ [.setParameter q, .gradient x]) = some t ∧
      t.soln = some (c, q) ∧ c.entries = x.entries ∧ t.cur.entries = x.entries ∧ t.sample = q := by
  have hpos : 0 < pts.length := List.length_pos_of_mem hq
  obtain ⟨t1, a1, a2, a3, a4, a5⟩ := sweep_spec tol2 eps pts hd x pts.length (le_refl _) s hc h
  rw [List.take_length] at a1
  obtain ⟨b1, b2, b3⟩ := a5 hpos
  obtain ⟨t2, c1, c2, c3, c4, c5, c6⟩ := srun_spec tol2 eps ht pts hd x ks t1 (hu.congr a3 a2) (a2.trans h) b1 b2 b3 hk
  obtain ⟨t3, d1, d2, d3, d4, d5, d6, d7⟩ := scall_spec tol2 eps ht pts hd x { t2 with sample := q } c2 c3 c4 hq
    (by obtain ⟨C, e⟩ := c6; exact ⟨C, e⟩) (.gradient x) rfl
  obtain ⟨c, f1, f2, f3⟩ := d7 x rfl
  refine ⟨t3, c, ?_, f1, f2, d4, f3⟩
  rw [srun_append, srun_append, a1]
  simp only [Option.bind_some, c1]
  simp [SState.run, SState.call] at d1 ⊢
  rw [d1]

/-- **C32, new points.**  A gradient at a point the code recognises as new is computed from the forward solution at
that point and sample. -/
theorem C32_new (tol2 eps : K) (pts : List (List K)) (hd : Distinct eps pts) (s : SState K) (hc : CacheOk pts s)
    (x : OptVec K) (h : Same s.cur x) (hs : s.sample ∈ pts) (hn : checkNew tol2 s.cur x = some true) :
    ∃ t c, s.call tol2 eps pts (.gradient x) = some t ∧ t.soln = some (c, s.sample) ∧ c.entries = x.entries ∧
      t.cur = c := by
  obtain ⟨i, hi⟩ := List.mem_iff_getElem?.1 hs
  obtain ⟨c, C, b1, _, _, _, _, b6⟩ := sforward_spec eps pts hd s hc h i hi
  exact ⟨_, c, by simp [SState.call, hn, b1]; rfl, rfl, b6, rfl⟩

/-- **C32, violated (a).**  Values for both samples at 1, then gradients for both samples at 2: the second gradient is
computed from the solution at 1. -/
theorem C32_violated :
    let v : ℚ → OptVec ℚ := fun a => ⟨[], [some [a]], false, 1, none, false⟩
    let pts : List (List ℚ) := [[0], [1]]
    Distinct (1/10^14 : ℚ) pts ∧
    ((⟨v 1, [0], none, none⟩ : SState ℚ).run (1/10^24) (1/10^14) pts
      (sweep (v 1) pts ++ [.setParameter [0], .gradient (v 2), .setParameter [1], .gradient (v 2)])).map
        (fun t => (t.cur, t.sample, t.soln)) = some (v 2, [1], some (v 1, [1])) := by
  refine ⟨?_, by decide +kernel⟩
  intro i q hq
  match i, hq with
  | 0, hq => simp at hq; subst hq; decide +kernel
  | 1, hq => simp at hq; subst hq; decide +kernel
  | (i+2), hq => simp at hq

/-- **C32, violated (b).**  A gradient at the initial parameters as the first request reads a cache that does not
exist, for every list of samples. -/
theorem C32_first_violated (tol2 eps : K) (ht : 0 ≤ tol2) (pts : List (List K)) (c : OptVec K) (hu : Usual c)
    (q : List K) : (⟨c, q, none, none⟩ : SState K).call tol2 eps pts (.gradient c) = none := by
  obtain ⟨b, b1, _, b3⟩ := checkNew_spec tol2 ht hu (Same.refl c)
  have : b = false := b3 rfl
  subst this
  simp [SState.call, b1]

/-- **C32, violated (c).**  Two samples closer than the tolerance share one cache entry: the gradient for the first is
computed with the solution of the second. -/
theorem C32_close_violated :
    let v : ℚ → OptVec ℚ := fun a => ⟨[], [some [a]], false, 1, none, false⟩
    let pts : List (List ℚ) := [[0], [1/10^8]]
    ((⟨v 1, [0], none, none⟩ : SState ℚ).run (1/10^24) (1/10^14) pts
      (sweep (v 1) pts ++ [.setParameter [0], .gradient (v 1)])).map (fun t => (t.sample, t.soln))
      = some ([0], some (v 1, [1/10^8])) := by decide +kernel

/-- Two samples, two sweeps: the gradient uses the second point. -/
example :
    let v : ℚ → OptVec ℚ := fun a => ⟨[], [some [a]], false, 1, none, false⟩
    let pts : List (List ℚ) := [[0], [1]]
    ((⟨v 1, [0], none, none⟩ : SState ℚ).run (1/10^24) (1/10^14) pts
      (sweep (v 1) pts ++ sweep (v 2) pts ++ [.setParameter [0], .gradient (v 2)])).map (fun t => (t.sample, t.soln))
      = some ([0], some (v 2, [0])) := by decide +kernel

end MrHyDE.Opt
