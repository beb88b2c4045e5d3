import Verif.Registry.Model
import Mathlib.Data.List.Induction

/-
Property theorem C07: the first registration wins, per location.
-/

namespace MrHyDE.Registry

variable {N E : Type} [DecidableEq N]

/-! ### Helper lemmas -/

theorem scan_none (fname : N) (xs : List (N × E)) (j : Nat) (r : Option Nat) :
    scan fname xs j r = none ↔ r = none ∧ ∀ x ∈ xs, x.1 ≠ fname := by
  induction xs generalizing j r with
  | nil => simp [scan]
  | cons x xs ih =>
    rw [scan, ih]
    by_cases h : x.1 = fname <;> simp [h]

theorem scan_some (fname : N) (xs : List (N × E)) (j : Nat) (r : Option Nat) (i : Nat) (h : scan fname xs j r = some i) :
    r = some i ∨ ∃ k x, i = j + k ∧ xs[k]? = some x ∧ x.1 = fname := by
  induction xs generalizing j r with
  | nil => exact Or.inl h
  | cons x xs ih =>
    rw [scan] at h
    rcases ih (j + 1) _ h with h' | ⟨k, y, h1, h2, h3⟩
    · by_cases hx : x.1 = fname
      · simp only [hx, if_true, Option.some.injEq] at h'
        exact Or.inr ⟨0, x, by omega, rfl, hx⟩
      · simp only [hx, if_false] at h'; exact Or.inl h'
    · exact Or.inr ⟨k + 1, y, by omega, by simpa using h2, h3⟩

theorem addLoop_other (fname : N) (e : E) (location : N) (F : Forests N E) (h : ∀ f ∈ F, f.1 ≠ location)
    (found : Option Nat) (i : Nat) : addLoop fname e location F found i = (F, i) := by
  induction F generalizing found i with
  | nil => rfl
  | cons f fs ih =>
    have hf := h f (by simp)
    simp only [addLoop, hf, if_false]
    rw [ih (fun g hg => h g (by simp [hg]))]

/-- One forest of the location, between forests of other locations. -/
theorem addLoop_split (fname : N) (e : E) (location : N) (F1 F2 : Forests N E) (T : List (N × E))
    (h1 : ∀ f ∈ F1, f.1 ≠ location) (h2 : ∀ f ∈ F2, f.1 ≠ location) :
    (∃ j x, addLoop fname e location (F1 ++ (location, T) :: F2) none 0 = (F1 ++ (location, T) :: F2, j) ∧
      T[j]? = some x ∧ x.1 = fname) ∨
    ((∀ x ∈ T, x.1 ≠ fname) ∧ addLoop fname e location (F1 ++ (location, T) :: F2) none 0 =
      (F1 ++ (location, T ++ [(fname, e)]) :: F2, T.length)) := by
  have key : ∀ i, (∃ j x, addLoop fname e location (F1 ++ (location, T) :: F2) none i = (F1 ++ (location, T) :: F2, j) ∧
      T[j]? = some x ∧ x.1 = fname) ∨
    ((∀ x ∈ T, x.1 ≠ fname) ∧ addLoop fname e location (F1 ++ (location, T) :: F2) none i =
      (F1 ++ (location, T ++ [(fname, e)]) :: F2, T.length)) := by
    induction F1 with
    | nil =>
      intro i
      simp only [List.nil_append, addLoop, if_true]
      cases hs : scan fname T 0 none with
      | some j =>
        left
        rcases scan_some _ _ _ _ _ hs with h' | ⟨k, x, h3, h4, h5⟩
        · simp at h'
        · simp only [addLoop_other fname e location F2 h2]
          rw [Nat.zero_add] at h3
          subst h3
          exact ⟨j, x, rfl, h4, h5⟩
      | none =>
        right
        refine ⟨((scan_none _ _ _ _).mp hs).2, ?_⟩
        simp only [addLoop_other fname e location F2 h2]
    | cons f fs ih =>
      intro i
      have hf := h1 f (by simp)
      simp only [List.cons_append, addLoop, hf, if_false]
      rcases ih (fun g hg => h1 g (by simp [hg])) i with ⟨j, x, h3, h4⟩ | ⟨h3, h4⟩
      · exact Or.inl ⟨j, x, by rw [h3], h4⟩
      · exact Or.inr ⟨h3, by rw [h4]⟩
  exact key 0

/-- What the specification says is registered at a location: the contents of the first
    registration of the name at that location. -/
def firstReg (rs : List (Reg N E)) (fname location : N) : Option E :=
  (rs.find? (fun r => r.name = fname ∧ r.location = location)).map Reg.contents

/-- Trees of one location after a history. -/
def treesAt (rs : List (Reg N E)) (l : N) : List (N × E) :=
  rs.foldl (fun T r => if r.location = l ∧ (∀ x ∈ T, x.1 ≠ r.name) then T ++ [(r.name, r.contents)] else T) []

theorem treesAt_concat (rs : List (Reg N E)) (r : Reg N E) (l : N) :
    treesAt (rs ++ [r]) l = if r.location = l ∧ (∀ x ∈ treesAt rs l, x.1 ≠ r.name) then
      treesAt rs l ++ [(r.name, r.contents)] else treesAt rs l := by
  rw [treesAt, List.foldl_append]; rfl

theorem find_treesAt (rs : List (Reg N E)) (fname l : N) :
    ((treesAt rs l).find? (fun x => x.1 = fname)).map Prod.snd = firstReg rs fname l := by
  induction rs using List.reverseRecOn with
  | nil => rfl
  | append_singleton rs r ih =>
    rw [treesAt_concat]
    have hfr : firstReg (rs ++ [r]) fname l =
        (firstReg rs fname l).or (if r.name = fname ∧ r.location = l then some r.contents else none) := by
      unfold firstReg
      rw [List.find?_append]
      cases hq : rs.find? (fun r => r.name = fname ∧ r.location = l) with
      | some q => simp
      | none => by_cases hr : r.name = fname ∧ r.location = l <;> simp [List.find?, hr]
    rw [hfr, ← ih]
    by_cases hc : r.location = l ∧ (∀ x ∈ treesAt rs l, x.1 ≠ r.name)
    · rw [if_pos hc, List.find?_append]
      cases hq : (treesAt rs l).find? (fun x => x.1 = fname) with
      | some q => simp
      | none => by_cases hr : r.name = fname <;> simp [List.find?, hr, hc.1]
    · rw [if_neg hc]
      cases hq : (treesAt rs l).find? (fun x => x.1 = fname) with
      | some q => simp
      | none =>
        by_cases hr : r.name = fname ∧ r.location = l
        · exfalso
          apply hc
          refine ⟨hr.2, fun x hx => ?_⟩
          have := List.find?_eq_none.mp hq x hx
          rw [hr.1]
          simpa using this
        · simp [hr]

theorem register_trees (locs : List N) (hl : locs.Nodup) (rs : List (Reg N E)) :
    register (fresh locs) rs = locs.map (fun l => (l, treesAt rs l)) := by
  induction rs using List.reverseRecOn with
  | nil => simp [register, fresh, treesAt]
  | append_singleton rs r ih =>
    have e : register (fresh locs) (rs ++ [r]) =
        (addFunction (register (fresh locs) rs) r.name r.contents r.location).1 := by simp [register]
    rw [e, ih]
    by_cases hm : r.location ∈ locs
    · obtain ⟨l1, l2, rfl⟩ := List.append_of_mem hm
      have hn1 : ∀ l ∈ l1, l ≠ r.location := by
        intro l hl' he
        subst he
        exact (List.nodup_append.mp hl).2.2 _ hl' _ (by simp) rfl
      have hn2 : ∀ l ∈ l2, l ≠ r.location := by
        intro l hl' he
        have := (List.nodup_cons.mp (List.nodup_append.mp hl).2.1).1
        exact this (he ▸ hl')
      have hmap : ∀ ls : List N, (∀ l ∈ ls, l ≠ r.location) →
          ls.map (fun l => (l, treesAt (rs ++ [r]) l)) = ls.map (fun l => (l, treesAt rs l)) := by
        intro ls h
        apply List.map_congr_left
        intro l hl'
        rw [treesAt_concat, if_neg (fun hh => h l hl' hh.1.symm)]
      have hne : ∀ ls : List N, (∀ l ∈ ls, l ≠ r.location) →
          ∀ f ∈ ls.map (fun l => (l, treesAt rs l)), f.1 ≠ r.location := by
        intro ls h f hf
        obtain ⟨l, hl', rfl⟩ := List.mem_map.mp hf
        exact h l hl'
      simp only [List.map_append, List.map_cons, hmap l1 hn1, hmap l2 hn2, addFunction]
      rcases addLoop_split r.name r.contents r.location (l1.map (fun l => (l, treesAt rs l)))
        (l2.map (fun l => (l, treesAt rs l))) (treesAt rs r.location) (hne l1 hn1) (hne l2 hn2) with
        ⟨j, x, h3, h4, h5⟩ | ⟨h3, h4⟩
      · rw [h3, treesAt_concat, if_neg]
        exact fun hh => hh.2 x (List.mem_of_getElem? h4) h5
      · rw [h4, treesAt_concat, if_pos ⟨rfl, h3⟩]
    · have hne : ∀ f ∈ locs.map (fun l => (l, treesAt rs l)), f.1 ≠ r.location := by
        intro f hf
        obtain ⟨l, hl', rfl⟩ := List.mem_map.mp hf
        exact fun he => hm (he ▸ hl')
      rw [addFunction, addLoop_other _ _ _ _ hne]
      apply List.map_congr_left
      intro l hl'
      rw [treesAt_concat, if_neg]
      exact fun hh => hm (hh.1 ▸ hl')

theorem find_loc (locs : List N) (T : N → List (N × E)) (l : N) :
    (locs.map (fun l => (l, T l))).find? (fun f => f.1 = l) = if l ∈ locs then some (l, T l) else none := by
  induction locs with
  | nil => simp
  | cons a as ih =>
    by_cases h : a = l
    · subst h; simp
    · simp only [List.map_cons, List.find?, h, decide_false, ih, List.mem_cons, Ne.symm h, false_or]

/-! ### The property -/

/-- C07.  After any sequence of registrations, over any set of distinct locations: the
    function evaluated for a name at a known location is the contents of the *first*
    registration of that name at that location; nothing is found at an unknown location; and
    `hasFunction` answers yes exactly when the name was registered at that known location. -/
theorem C07_first_registration_wins (locs : List N) (hl : locs.Nodup) (rs : List (Reg N E)) (fname location : N) :
    lookup (register (fresh locs) rs) fname location =
      (if location ∈ locs then firstReg rs fname location else none) ∧
    (hasFunction (register (fresh locs) rs) fname location = true ↔
      location ∈ locs ∧ ∃ r ∈ rs, r.name = fname ∧ r.location = location) := by
  rw [register_trees locs hl]
  have hlook : lookup (locs.map (fun l => (l, treesAt rs l))) fname location =
      (if location ∈ locs then firstReg rs fname location else none) := by
    rw [lookup, find_loc]
    by_cases h : location ∈ locs
    · simp only [h, if_true]; exact find_treesAt rs fname location
    · simp only [h, if_false]
  refine ⟨hlook, ?_⟩
  have hsome : (∃ r ∈ rs, r.name = fname ∧ r.location = location) ↔ (firstReg rs fname location).isSome = true := by
    simp [firstReg]
  rw [hsome, ← find_treesAt]
  simp only [hasFunction, List.any_eq_true, List.mem_map, Bool.and_eq_true, decide_eq_true_eq,
    Option.isSome_map, List.find?_isSome]
  constructor
  · rintro ⟨f, ⟨l, hl', rfl⟩, rfl, x, hx, h⟩
    exact ⟨hl', x, hx, by simpa using h⟩
  · rintro ⟨h1, x, hx, h⟩
    exact ⟨_, ⟨location, h1, rfl⟩, rfl, x, hx, by simpa using h⟩

/-- C07, returned index.  Registering at a known location returns the index of a tree that
    carries the name. -/
theorem C07_index (locs : List N) (hl : locs.Nodup) (rs : List (Reg N E)) (r : Reg N E) (h : r.location ∈ locs) :
    let F := addFunction (register (fresh locs) rs) r.name r.contents r.location
    ∃ T e, (r.location, T) ∈ F.1 ∧ T[F.2]? = some (r.name, e) := by
  rw [register_trees locs hl]
  obtain ⟨l1, l2, rfl⟩ := List.append_of_mem h
  have hne : ∀ ls : List N, (∀ l ∈ ls, l ≠ r.location) →
      ∀ f ∈ ls.map (fun l => (l, treesAt rs l)), f.1 ≠ r.location := by
    intro ls h f hf
    obtain ⟨l, hl', rfl⟩ := List.mem_map.mp hf
    exact h l hl'
  have hn1 : ∀ l ∈ l1, l ≠ r.location := by
    intro l hl' he
    subst he
    exact (List.nodup_append.mp hl).2.2 _ hl' _ (by simp) rfl
  have hn2 : ∀ l ∈ l2, l ≠ r.location := by
    intro l hl' he
    have := (List.nodup_cons.mp (List.nodup_append.mp hl).2.1).1
    exact this (he ▸ hl')
  simp only [List.map_append, List.map_cons, addFunction]
  rcases addLoop_split r.name r.contents r.location (l1.map (fun l => (l, treesAt rs l)))
    (l2.map (fun l => (l, treesAt rs l))) (treesAt rs r.location) (hne l1 hn1) (hne l2 hn2) with
    ⟨j, x, h3, h4, h5⟩ | ⟨h3, h4⟩
  · rw [h3]
    exact ⟨treesAt rs r.location, x.2, by simp, by rw [h4, ← h5]⟩
  · rw [h4]
    exact ⟨_, r.contents, List.mem_append_right _ List.mem_cons_self, by simp⟩

/-- Non-vacuity: two registrations of one name at one location and one at another. -/
example : lookup (register (fresh ["ip", "side ip"])
      [⟨"f", 1, "ip"⟩, ⟨"f", 2, "ip"⟩, ⟨"f", 3, "side ip"⟩, ⟨"g", 4, "nowhere"⟩]) "f" "ip" = some 1 ∧
    hasFunction (register (fresh ["ip", "side ip"]) [(⟨"g", 4, "nowhere"⟩ : Reg String Nat)]) "g" "ip" = false := by
  decide

end MrHyDE.Registry
