import Verif.Storage.Model
import Mathlib.Data.List.Induction
import Mathlib.Algebra.Order.Field.Rat
import Mathlib.Tactic.Linarith
import Mathlib.Tactic.NormNum

/-
Property theorems C09 and C10: storage of states by time.
-/

namespace MrHyDE.Storage

variable {K D : Type} [Field K] [LinearOrder K]

/-! ### Specification -/

/-- Number of slots after a history: one more than the largest index used. -/
def slots (h : List (Act K D)) : Nat :=
  h.foldl (fun n a => match a with | .store _ _ i => max n (i + 1) | .reset => n) 0

/-- The states stored under an index since the last reset, oldest first. -/
def kept (h : List (Act K D)) (i : Nat) : List (K × D) :=
  h.foldl (fun l a => match a with | .store v t j => if j = i then l ++ [(t, v)] else l | .reset => []) []

/-- Indices are used in order: a new index is always the next one. -/
def InOrder (h : List (Act K D)) : Prop :=
  ∀ h1 h2 v t i, h = h1 ++ Act.store v t i :: h2 → i ≤ slots h1

/-! ### Helper lemmas -/

theorem slots_snoc (h : List (Act K D)) (a : Act K D) :
    slots (h ++ [a]) = match a with | .store _ _ i => max (slots h) (i + 1) | .reset => slots h := by
  rw [slots, List.foldl_append]; rfl

theorem kept_snoc (h : List (Act K D)) (a : Act K D) (i : Nat) :
    kept (h ++ [a]) i = match a with
      | .store v t j => if j = i then kept h i ++ [(t, v)] else kept h i
      | .reset => [] := by
  rw [kept, List.foldl_append]; rfl

theorem run_snoc (tol : K) (h : List (Act K D)) (a : Act K D) : run tol (h ++ [a]) = (run tol h).step a := by
  rw [run, List.foldl_append]; rfl

theorem kept_ge (h : List (Act K D)) (i : Nat) (hi : slots h ≤ i) : kept h i = [] := by
  induction h using List.reverseRecOn with
  | nil => rfl
  | append_singleton h a ih =>
    rw [slots_snoc] at hi
    rw [kept_snoc]
    cases a with
    | reset => rfl
    | store v t j =>
      simp only at hi ⊢
      rw [if_neg (by omega), ih (by omega)]

theorem map_modify {A B : Type} (g : Nat → List A) (f : A → B) (n i : Nat) (x : A) (hi : i < n) :
    ((List.range n).map (fun k => (g k).map f)).modify i (· ++ [f x]) =
      (List.range n).map (fun k => ((if i = k then g k ++ [x] else g k).map f)) := by
  apply List.ext_getElem?
  intro k
  rw [List.getElem?_modify]
  by_cases hk : k < n
  · simp only [List.getElem?_map, List.getElem?_range hk, Option.map_some]
    by_cases h : i = k
    · simp [h]
    · simp [h]
  · simp [List.getElem?_eq_none (show (List.range n).length ≤ k by simpa using hk)]

/-- The storage after a history, in closed form. -/
theorem run_eq (tol : K) (h : List (Act K D)) (ho : InOrder h) :
    run tol h = ⟨(List.range (slots h)).map (fun i => (kept h i).map Prod.fst),
      (List.range (slots h)).map (fun i => (kept h i).map Prod.snd), tol⟩ := by
  induction h using List.reverseRecOn with
  | nil => rfl
  | append_singleton h a ih =>
    have ho' : InOrder h := by
      intro h1 h2 v t i e
      exact ho h1 (h2 ++ [a]) v t i (by rw [e]; simp)
    rw [run_snoc, ih ho']
    cases a with
    | reset =>
      simp only [Stg.step, Stg.reset, slots_snoc, kept_snoc, List.map_map]
      simp [Function.comp_def]
    | store v t i =>
      have hi := ho h [] v t i rfl
      simp only [Stg.step, Stg.store, slots_snoc, kept_snoc, List.length_map, List.length_range]
      by_cases hle : slots h ≤ i
      · have he : i = slots h := by omega
        subst he
        rw [if_pos (Nat.le_refl _), show max (slots h) (slots h + 1) = slots h + 1 by omega, List.range_succ]
        have hk := kept_ge h (slots h) (Nat.le_refl _)
        congr 1
        · rw [List.map_append]
          congr 1
          · apply List.map_congr_left
            intro k hk'
            rw [if_neg (by have := List.mem_range.mp hk'; omega)]
          · simp [hk]
        · rw [List.map_append]
          congr 1
          · apply List.map_congr_left
            intro k hk'
            rw [if_neg (by have := List.mem_range.mp hk'; omega)]
          · simp [hk]
      · rw [if_neg hle, show max (slots h) (i + 1) = slots h by omega]
        congr 1
        · exact map_modify (kept h) Prod.fst (slots h) i (t, v) (by omega)
        · exact map_modify (kept h) Prod.snd (slots h) i (t, v) (by omega)

theorem lastPos_append (p : K → Bool) (ts : List K) (t : K) (j : Nat) (r : Option Nat) :
    lastPos p (ts ++ [t]) j r = if p t then some (j + ts.length) else lastPos p ts j r := by
  induction ts generalizing j r with
  | nil => rfl
  | cons x xs ih =>
    rw [List.cons_append, lastPos, ih, lastPos]
    simp only [List.length_cons]
    rw [show j + 1 + xs.length = j + (xs.length + 1) by omega]

theorem lastPos_none (p : K → Bool) (ts : List K) : lastPos p ts 0 none = none ↔ ∀ t ∈ ts, p t = false := by
  induction ts using List.reverseRecOn with
  | nil => simp [lastPos]
  | append_singleton ts t ih =>
    rw [lastPos_append]
    by_cases h : p t = true
    · simp only [h, if_true, List.mem_append, List.mem_singleton]
      constructor
      · intro hh; simp at hh
      · intro hh; have := hh t (Or.inr rfl); simp [h] at this
    · simp only [h]
      rw [if_neg (by simp), ih]
      constructor
      · intro hh x hx
        rcases List.mem_append.mp hx with hx | hx
        · exact hh x hx
        · simp only [List.mem_singleton] at hx; subst hx; simpa using h
      · intro hh x hx; exact hh x (by simp [hx])

theorem lastPos_some (p : K → Bool) (ts : List K) (j : Nat) :
    lastPos p ts 0 none = some j ↔ (∃ t, ts[j]? = some t ∧ p t = true) ∧ ∀ k t, j < k → ts[k]? = some t → p t = false := by
  induction ts using List.reverseRecOn with
  | nil => simp [lastPos]
  | append_singleton ts t ih =>
    rw [lastPos_append]
    by_cases h : p t = true
    · simp only [h, if_true, Nat.zero_add, Option.some.injEq]
      constructor
      · rintro rfl
        refine ⟨⟨t, by simp, h⟩, fun k x hk hx => ?_⟩
        rw [List.getElem?_eq_none (by simp; omega)] at hx
        simp at hx
      · rintro ⟨⟨x, hx, hp⟩, h2⟩
        by_contra hne
        have hlt : j < (ts ++ [t]).length := by
          by_contra hh
          rw [List.getElem?_eq_none (by omega)] at hx
          simp at hx
        have := h2 ts.length t (by simp at hlt; omega) (by simp)
        simp [h] at this
    · simp only [h]
      rw [if_neg (by simp), ih]
      constructor
      · rintro ⟨⟨x, hx, hp⟩, h2⟩
        have hlt : j < ts.length := by
          by_contra hh
          rw [List.getElem?_eq_none (by omega)] at hx
          simp at hx
        refine ⟨⟨x, by rw [List.getElem?_append_left hlt]; exact hx, hp⟩, fun k y hk hy => ?_⟩
        by_cases hkl : k < ts.length
        · rw [List.getElem?_append_left hkl] at hy; exact h2 k y hk hy
        · rw [List.getElem?_append_right (by omega)] at hy
          cases hz : k - ts.length with
          | zero => rw [hz] at hy; simp at hy; subst hy; simpa using h
          | succ m => rw [hz] at hy; simp at hy
      · rintro ⟨⟨x, hx, hp⟩, h2⟩
        have hlt : j < ts.length := by
          by_contra hh
          rw [List.getElem?_append_right (by omega)] at hx
          cases hz : j - ts.length with
          | zero => rw [hz] at hx; simp at hx; subst hx; exact h hp
          | succ m => rw [hz] at hx; simp at hx
        refine ⟨⟨x, by rw [List.getElem?_append_left hlt] at hx; exact hx, hp⟩, fun k y hk hy => ?_⟩
        have hkl : k < ts.length := by
          by_contra hh
          rw [List.getElem?_eq_none (by omega)] at hy
          simp at hy
        exact h2 k y hk (by rw [List.getElem?_append_left hkl]; exact hy)

theorem get_eq (tol : K) (h : List (Act K D)) (ho : InOrder h) (i j : Nat) (hi : i < slots h) :
    (run tol h).get i j = (kept h i)[j]? := by
  rw [run_eq tol h ho]
  simp only [Stg.get, List.getElem?_map, List.getElem?_range hi, Option.map_some, Option.bind_some]
  cases (kept h i)[j]? <;> rfl

variable [IsStrictOrderedRing K]

/-- Closeness of a stored time to the requested time, as the user states it: relative to
    the size of the requested time, or absolute if that is zero. -/
def Close (tol c t : K) : Prop := if c = 0 then |t - c| < tol else |t - c| < tol * |c|

theorem near_iff (tol c t : K) (hc : 0 ≤ c) : near tol c t = true ↔ Close tol c t := by
  unfold near relNear Close
  by_cases h : c = 0
  · subst h; simp
  · have hpos : 0 < c := lt_of_le_of_ne hc (Ne.symm h)
    rw [if_pos (abs_pos.mpr h), if_neg h, abs_of_pos hpos]
    simp [h, div_lt_iff₀ hpos]

theorem relNear_iff (tol c t : K) (hc : 0 < c) : relNear tol c t = true ↔ Close tol c t := by
  unfold relNear Close
  rw [if_neg hc.ne', abs_of_pos hc]
  simp [hc.ne', div_lt_iff₀ hc]

/-! ### C09 -/

/-- C09, for times that are not negative.  After any history of stores (indices used in order)
    and resets, extraction under an existing index at time `c ≥ 0` finds something exactly
    if some time stored since the last reset is close to `c`, and then returns the state stored last
    among those, with its position.  Missing: negative times, for which the property fails. -/
theorem C09_extract_latest_partial (tol : K) (h : List (Act K D)) (ho : InOrder h) (i : Nat) (hi : i < slots h)
    (c : K) (hc : 0 ≤ c) :
    ((run tol h).extract i c = .absent ↔ ∀ x ∈ kept h i, ¬ Close tol c x.1) ∧
    (∀ j v, (run tol h).extract i c = .found (j, v) ↔
      (∃ t, (kept h i)[j]? = some (t, v) ∧ Close tol c t) ∧
      ∀ k x, j < k → (kept h i)[k]? = some x → ¬ Close tol c x.1) ∧
    (run tol h).extract i c ≠ .ub := by
  have htimes : (run tol h).times[i]? = some ((kept h i).map Prod.fst) := by
    rw [run_eq tol h ho]; simp [List.getElem?_range hi]
  have htol : (run tol h).tol = tol := by rw [run_eq tol h ho]
  unfold Stg.extract
  rw [htimes, htol]
  simp only [get_eq tol h ho i _ hi]
  cases hl : lastPos (near tol c) ((kept h i).map Prod.fst) 0 none with
  | none =>
    have h1 := (lastPos_none _ _).mp hl
    have h2 : ∀ x ∈ kept h i, ¬ Close tol c x.1 := by
      intro x hx hcl
      have := h1 x.1 (List.mem_map.mpr ⟨x, hx, rfl⟩)
      rw [(near_iff tol c x.1 hc).mpr hcl] at this
      simp at this
    refine ⟨by simp only [true_iff]; exact h2, fun j v => ?_, by simp⟩
    simp only [reduceCtorEq, false_iff, not_and]
    rintro ⟨t, ht, hcl⟩
    exact absurd hcl (h2 _ (List.mem_of_getElem? ht))
  | some j0 =>
    obtain ⟨⟨t, ht, hp⟩, h2⟩ := (lastPos_some _ _ _).mp hl
    rw [List.getElem?_map] at ht
    obtain ⟨x, hx, rfl⟩ := Option.map_eq_some_iff.mp ht
    simp only [hx]
    have hcl : Close tol c x.1 := (near_iff tol c x.1 hc).mp hp
    have hlast : ∀ k y, j0 < k → (kept h i)[k]? = some y → ¬ Close tol c y.1 := by
      intro k y hk hy hcl'
      have := h2 k y.1 hk (by rw [List.getElem?_map, hy]; rfl)
      rw [(near_iff tol c y.1 hc).mpr hcl'] at this
      simp at this
    refine ⟨?_, fun j v => ?_, by simp⟩
    · simp only [reduceCtorEq, false_iff]
      intro hh
      exact hh x (List.mem_of_getElem? hx) hcl
    · constructor
      · intro hh
        simp only [Res.found.injEq, Prod.mk.injEq] at hh
        obtain ⟨rfl, rfl⟩ := hh
        exact ⟨⟨x.1, hx, hcl⟩, hlast⟩
      · rintro ⟨⟨t, ht', hcl'⟩, hl'⟩
        have hjj : j = j0 := by
          rcases Nat.lt_trichotomy j j0 with hlt | he | hgt
          · exact absurd hcl (hl' j0 x hlt hx)
          · exact he
          · exact absurd hcl' (hlast j _ hgt ht')
        subst hjj
        rw [hx] at ht'
        simp only [Option.some.injEq] at ht'
        subst ht'
        rfl

/-- C09, read-back: directly after a store at a time `t ≥ 0`, extraction at `t` returns the
    stored vector; and extraction at a time that is not close to `t`, or under another index,
    returns what it returned before. -/
theorem C09_read_back_partial (tol : K) (htol : 0 < tol) (h : List (Act K D)) (ho : InOrder h) (i : Nat) (hi : i ≤ slots h)
    (t : K) (ht : 0 ≤ t) (v : D) :
    (∃ j, (run tol (h ++ [.store v t i])).extract i t = .found (j, v)) ∧
    (∀ i' c, 0 ≤ c → i' < slots h → (i' = i → ¬ Close tol c t) →
      (run tol (h ++ [.store v t i])).extract i' c = (run tol h).extract i' c) := by
  have ho' : InOrder (h ++ [.store v t i]) := by
    intro h1 h2 v' t' i' e
    rcases List.eq_nil_or_concat h2 with rfl | ⟨h2', a, rfl⟩
    · have := List.append_inj' e rfl
      simp only [List.cons.injEq, Act.store.injEq, and_true] at this
      obtain ⟨rfl, _, _, rfl⟩ := this
      exact hi
    · have e' : h ++ [.store v t i] = (h1 ++ Act.store v' t' i' :: h2') ++ [a] := by rw [e]; simp
      exact ho h1 h2' v' t' i' (List.append_inj' e' rfl).1
  have hsl : slots (h ++ [.store v t i]) = max (slots h) (i + 1) := slots_snoc _ _
  constructor
  · refine ⟨(kept h i).length, ?_⟩
    rw [(C09_extract_latest_partial tol _ ho' i (by rw [hsl]; omega) t ht).2.1]
    have hk : kept (h ++ [.store v t i]) i = kept h i ++ [(t, v)] := by rw [kept_snoc]; simp
    rw [hk]
    refine ⟨⟨t, by simp, ?_⟩, fun k x hk' hx => ?_⟩
    · unfold Close
      by_cases h0 : t = 0
      · simp [h0, htol]
      · rw [if_neg h0]; simp only [sub_self, abs_zero]; exact mul_pos htol (abs_pos.mpr h0)
    · rw [List.getElem?_eq_none (by simp; omega)] at hx
      simp at hx
  · intro i' c hc hi' hne
    have hold := C09_extract_latest_partial tol h ho i' hi' c hc
    have hnew := C09_extract_latest_partial tol _ ho' i' (by rw [hsl]; omega) c hc
    have hk : kept (h ++ [.store v t i]) i' = if i = i' then kept h i' ++ [(t, v)] else kept h i' := kept_snoc _ _ _
    by_cases hii : i = i'
    · subst hii
      rw [if_pos rfl] at hk
      have hncl := hne rfl
      cases hr : (run tol h).extract i c with
      | ub => exact absurd hr hold.2.2
      | absent =>
        rw [hnew.1, hk]
        intro x hx
        rcases List.mem_append.mp hx with hx | hx
        · exact hold.1.mp hr x hx
        · simp only [List.mem_singleton] at hx; subst hx; exact hncl
      | found a =>
        obtain ⟨j, w⟩ := a
        rw [hnew.2.1, hk]
        obtain ⟨⟨t', h1, h2⟩, h3⟩ := (hold.2.1 j w).mp hr
        have hlt : j < (kept h i).length := by
          by_contra hh
          rw [List.getElem?_eq_none (by omega)] at h1
          simp at h1
        refine ⟨⟨t', by rw [List.getElem?_append_left hlt]; exact h1, h2⟩, fun k x hk' hx => ?_⟩
        by_cases hkl : k < (kept h i).length
        · rw [List.getElem?_append_left hkl] at hx; exact h3 k x hk' hx
        · rw [List.getElem?_append_right (by omega)] at hx
          cases hz : k - (kept h i).length with
          | zero => rw [hz] at hx; simp at hx; subst hx; exact hncl
          | succ m => rw [hz] at hx; simp at hx
    · rw [if_neg hii] at hk
      cases hr : (run tol h).extract i' c with
      | ub => exact absurd hr hold.2.2
      | absent => rw [hnew.1, hk]; exact hold.1.mp hr
      | found a => obtain ⟨j, w⟩ := a; rw [hnew.2.1, hk]; exact (hold.2.1 j w).mp hr

/-- C09, by position: extraction by time index returns the state stored as number `k` under
    the index, for every `k`, and reports absence beyond the end. -/
theorem C09_by_position (tol : K) (h : List (Act K D)) (ho : InOrder h) (i k : Nat) :
    (run tol h).extractSlot k i = match (kept h i)[k]? with | some x => .found x.2 | none => .absent := by
  rw [run_eq tol h ho]
  unfold Stg.extractSlot
  by_cases hi : i < slots h
  · simp only [List.getElem?_map, List.getElem?_range hi, Option.map_some]
    cases (kept h i)[k]? <;> rfl
  · rw [kept_ge h i (by omega)]
    simp only [List.getElem?_map, List.getElem?_eq_none (show (List.range (slots h)).length ≤ i by simp; omega)]
    rfl

/-- C09 fails for negative times: a state stored at time -1 is not read back once another
    state has been stored at time -2. -/
theorem C09_negative_time_violated :
    (run (1/100 : ℚ) [.store "a" (-1) 0, .store "b" (-2) 0]).extract 0 (-1) = .found (1, "b") := by decide +kernel

/-- C09 fails if an index is used before the indices below it: the state ends up under
    another index, and reading it back is an access out of range. -/
theorem C09_index_gap_violated :
    (run (1/100 : ℚ) [.store "a" 1 3]).extract 3 1 = .ub ∧
    (run (1/100 : ℚ) [.store "a" 1 3]).extract 0 1 = .found (0, "a") := by decide +kernel

/-- Non-vacuity: a history with two indices, a repeated time and a reset. -/
example : (run (1/100 : ℚ) [.store "z" 0 0, .reset, .store "a" 1 0, .store "b" 2 0, .store "c" 1 0, .store "d" 1 1]).extract 0 1 =
    .found (2, "c") ∧
    (run (1/100 : ℚ) [.store "z" 0 0, .reset, .store "a" 1 0]).extract 0 0 = .absent := by decide +kernel

/-! ### C10 -/

/-- C10, for positive times at which exactly one stored time is close: `extractPrevious`
    (`extractNext`) returns the state and the time stored one position before (after); at the
    first (last) position it returns that position itself instead of reporting absence.
    Missing: absence at the ends and time zero, for which the property fails. -/
theorem C10_neighbours_partial (tol : K) (h : List (Act K D)) (ho : InOrder h) (i : Nat) (hi : i < slots h)
    (c : K) (hc : 0 < c) (j : Nat) (hj : ∃ x, (kept h i)[j]? = some x ∧ Close tol c x.1)
    (hu : ∀ k x, (kept h i)[k]? = some x → Close tol c x.1 → k = j) :
    (∃ x, (kept h i)[j - 1]? = some x ∧ (run tol h).extractPrevious i c = .found x) ∧
    (∃ x, (kept h i)[min (j + 1) ((kept h i).length - 1)]? = some x ∧ (run tol h).extractNext i c = .found x) := by
  have htimes : (run tol h).times[i]? = some ((kept h i).map Prod.fst) := by
    rw [run_eq tol h ho]; simp [List.getElem?_range hi]
  have htol : (run tol h).tol = tol := by rw [run_eq tol h ho]
  obtain ⟨x, hx, hcl⟩ := hj
  have hlt : j < (kept h i).length := by
    by_contra hh
    rw [List.getElem?_eq_none (by omega)] at hx
    simp at hx
  have hl : lastPos (relNear tol c) ((kept h i).map Prod.fst) 0 none = some j := by
    rw [lastPos_some]
    refine ⟨⟨x.1, by rw [List.getElem?_map, hx]; rfl, (relNear_iff tol c x.1 hc).mpr hcl⟩, fun k t hk ht => ?_⟩
    rw [List.getElem?_map] at ht
    obtain ⟨y, hy, rfl⟩ := Option.map_eq_some_iff.mp ht
    rw [Bool.eq_false_iff]
    intro hh
    have := hu k y hy ((relNear_iff tol c y.1 hc).mp hh)
    omega
  constructor
  · refine ⟨(kept h i)[j - 1]'(by omega), by rw [List.getElem?_eq_getElem], ?_⟩
    unfold Stg.extractPrevious
    rw [htimes, htol]
    simp only [hl, get_eq tol h ho i _ hi]
    have : (if j > 0 then j - 1 else j) = j - 1 := by split <;> omega
    simp only [this, List.getElem?_eq_getElem (show j - 1 < (kept h i).length by omega)]
  · refine ⟨(kept h i)[min (j + 1) ((kept h i).length - 1)]'(by omega), by rw [List.getElem?_eq_getElem], ?_⟩
    unfold Stg.extractNext
    rw [htimes, htol]
    simp only [hl, get_eq tol h ho i _ hi, List.length_map]
    have : (if j < (kept h i).length - 1 then j + 1 else j) = min (j + 1) ((kept h i).length - 1) := by
      split <;> omega
    simp only [this, List.getElem?_eq_getElem (show min (j + 1) ((kept h i).length - 1) < (kept h i).length by omega)]

/-- Non-vacuity: three states; the neighbours of the middle one. -/
example : (run (1/100 : ℚ) [.store "a" 1 0, .store "b" 2 0, .store "c" 3 0]).extractPrevious 0 2 = .found (1, "a") ∧
    (run (1/100 : ℚ) [.store "a" 1 0, .store "b" 2 0, .store "c" 3 0]).extractNext 0 2 = .found (3, "c") := by decide +kernel

/-- C10 fails at the ends: the previous state of the first one is reported as found, and is the
    first one itself; likewise the next state of the last one. -/
theorem C10_ends_violated :
    (run (1/100 : ℚ) [.store "a" 1 0, .store "b" 2 0]).extractPrevious 0 1 = .found (1, "a") ∧
    (run (1/100 : ℚ) [.store "a" 1 0, .store "b" 2 0]).extractNext 0 2 = .found (2, "b") := by decide +kernel

/-- C10 fails at time zero: the next state after the one stored at time 0 is not found. -/
theorem C10_time_zero_violated :
    (run (1/100 : ℚ) [.store "a" 0 0, .store "b" 1 0]).extractNext 0 0 = .absent := by decide +kernel

/-- The last state: found after a store, undefined behaviour on an emptied storage. -/
theorem C10_extractLast (tol : K) (h : List (Act K D)) (ho : InOrder h) (i : Nat) (hi : i < slots h) :
    (run tol h).extractLast i = match (kept h i).getLast? with | some x => .found x | none => .ub := by
  have htimes : (run tol h).times[i]? = some ((kept h i).map Prod.fst) := by
    rw [run_eq tol h ho]; simp [List.getElem?_range hi]
  unfold Stg.extractLast
  rw [htimes]
  simp only [List.length_map, get_eq tol h ho i _ hi, List.getLast?_eq_getElem?]
  by_cases h0 : (kept h i).length = 0
  · rw [if_pos h0]
    have : kept h i = [] := List.length_eq_zero_iff.mp h0
    simp [this]
  · rw [if_neg h0, List.getElem?_eq_getElem (show (kept h i).length - 1 < (kept h i).length by omega)]

/-- Non-vacuity. -/
example : (run (1/100 : ℚ) [.store "a" 0 0, .store "b" 1 0]).extractLast 0 = .found (1, "b") ∧
    (run (1/100 : ℚ) [.store "a" 0 0, .reset]).extractLast 0 = .ub := by decide +kernel

end MrHyDE.Storage
