import Verif.Database.Props

/-! # C63: side basis functions from the database

`buildBoundaryDatabase` (/repo/src/managers/assembly/assemblyManager_database.hpp:1041-1118) and its reading
(/repo/src/tools/boundaryGroup.cpp:164-168, /repo/src/managers/assembly/assemblyManager_workset.hpp:854-857). -/

namespace MrHyDE.Database

variable {O K : Type} [DecidableEq O] [Field K] [LinearOrder K] [IsStrictOrderedRing K]

/-- An array of basis functions: function, point, component; assemblyManager_database.hpp:1050-1066. -/
abbrev Tab (K : Type) := Nat → Nat → Nat → K

/-- The boundary database of one basis: values are copied from the representatives, gradients are allocated (with zeros) and never
filled; assemblyManager_database.hpp:1048-1115. -/
def buildBoundary (B : Elem O K → Tab K) (users : List (Nat × Nat × Elem O K)) : List (Tab K) × List (Tab K) :=
  let alloc := users.map (fun _ => ((fun _ _ _ => 0) : Tab K))
  let vals := (users.zip (List.range users.length)).foldl (fun v u => v.set u.2 (B u.1.2.2)) alloc
  (vals, alloc)

/-- The values are those of the representatives. -/
theorem buildBoundary_values (B : Elem O K → Tab K) (users : List (Nat × Nat × Elem O K)) :
    (buildBoundary B users).1 = users.map (fun u => B u.2.2) := by
  have key : ∀ (l : List ((Nat × Nat × Elem O K) × Nat)) (v : List (Tab K)) (i : Nat),
      (∀ p ∈ l, p.2 < v.length) → (l.map (·.2)).Nodup →
      (l.foldl (fun v u => v.set u.2 (B u.1.2.2)) v).length = v.length ∧
      (l.foldl (fun v u => v.set u.2 (B u.1.2.2)) v)[i]? =
        match l.find? (fun p => p.2 == i) with
        | some p => some (B p.1.2.2)
        | none => v[i]? := by
    intro l
    induction l with
    | nil => intro v i _ _; exact ⟨rfl, rfl⟩
    | cons a t ih =>
      intro v i hb hn
      rw [List.map_cons, List.nodup_cons] at hn
      have hlen : (v.set a.2 (B a.1.2.2)).length = v.length := List.length_set
      obtain ⟨h1, h2⟩ := ih (v.set a.2 (B a.1.2.2)) i (by
        intro p hp
        rw [hlen]
        exact hb p (List.mem_cons_of_mem _ hp)) hn.2
      rw [List.foldl_cons]
      refine ⟨by rw [h1, hlen], ?_⟩
      rw [h2, List.find?_cons]
      by_cases he : a.2 = i
      · have hnone : t.find? (fun p => p.2 == i) = none := by
          rw [List.find?_eq_none]
          intro p hp hpe
          have : p.2 = i := by simpa using hpe
          exact hn.1 (List.mem_map.2 ⟨p, hp, by rw [this, he]⟩)
        rw [hnone]
        have hab := hb a (by simp)
        simp only [he, beq_self_eq_true]
        rw [List.getElem?_set, if_pos rfl, if_pos (by rw [← he]; exact hab)]
      · have hbe : (a.2 == i) = false := by simpa using he
        rw [hbe]
        simp only
        cases t.find? (fun p => p.2 == i) with
        | some p => rfl
        | none => simp only; rw [List.getElem?_set, if_neg he]
  unfold buildBoundary
  simp only
  apply List.ext_getElem?
  intro i
  have hz : ∀ p ∈ users.zip (List.range users.length), p.2 < (users.map (fun _ => ((fun _ _ _ => 0) : Tab K))).length := by
    intro p hp
    have := (List.of_mem_zip hp).2
    simpa using this
  have hn : ((users.zip (List.range users.length)).map (·.2)).Nodup := by
    rw [List.map_snd_zip (by simp)]
    exact List.nodup_range
  rw [(key _ _ i hz hn).2]
  by_cases hi : i < users.length
  · have hm : (users[i], i) ∈ users.zip (List.range users.length) := by
      rw [List.mem_iff_getElem]
      exact ⟨i, by simpa using hi, by simp⟩
    cases hf : (users.zip (List.range users.length)).find? (fun p => p.2 == i) with
    | none =>
      rw [List.find?_eq_none] at hf
      exact absurd (by simp) (hf _ hm)
    | some p =>
      have h1 := List.mem_of_find?_eq_some hf
      have h2 := List.find?_some hf
      have h2' : p.2 = i := by simpa using h2
      rw [List.mem_iff_getElem] at h1
      obtain ⟨j, hj, e⟩ := h1
      simp only [List.getElem_zip, List.getElem_range] at e
      have : j = i := by rw [← e] at h2'; exact h2'
      subst this
      simp only
      rw [List.getElem?_map, List.getElem?_eq_getElem hi, ← e]
      rfl
  · cases hf : (users.zip (List.range users.length)).find? (fun p => p.2 == i) with
    | none => simp only; rw [List.getElem?_map, List.getElem?_map, List.getElem?_eq_none (Nat.le_of_not_lt hi)]; rfl
    | some p =>
      have h1 := List.mem_of_find?_eq_some hf
      have h2 := List.find?_some hf
      have h2' : p.2 = i := by simpa using h2
      have := (List.of_mem_zip h1).2
      rw [List.mem_range] at this
      omega

/-- C63, partial: the values of side basis functions read through the database are those of the element, if equivalent sides have
equal values.  Missing: gradients (`C63_gradient_zero`). -/
theorem C63_values_partial (tol : K) (dim numip : Nat) (groups : List (List (Elem O K))) (B : Elem O K → Tab K)
    (hB : ∀ a b, BndEquiv tol dim numip a b → B a = B b) (p : Nat) (x : Nat × Nat × Elem O K)
    (hp : (flatten groups)[p]? = some x) :
    (CView.mk (buildBoundary B ((boundary tol dim numip groups).1.map Item.pub)).1
      (some (boundary tol dim numip groups).2)).read p = some (B x.2.2) := by
  rw [buildBoundary_values]
  exact (C11_database_read _ _ _ _ (C39_boundary tol dim numip groups) B p x hp).2.1 hB

/-- C63 is false for gradients: every side of the mesh reads zero, whatever the basis functions. -/
theorem C63_gradient_zero (tol : K) (dim numip : Nat) (groups : List (List (Elem O K))) (B : Elem O K → Tab K)
    (p : Nat) (x : Nat × Nat × Elem O K) (hp : (flatten groups)[p]? = some x) :
    (CView.mk (buildBoundary B ((boundary tol dim numip groups).1.map Item.pub)).2
      (some (boundary tol dim numip groups).2)).read p = some (fun _ _ _ => 0) := by
  have := (C11_database_read _ _ _ _ (C39_boundary tol dim numip groups) (fun _ => ((fun _ _ _ => 0) : Tab K)) p x hp).2.1
    (fun _ _ _ => rfl)
  exact this

/-- The derivative of a state in a direction at a point of a side, as it enters a flux. [specification, no code] -/
def slopeAt (G : Tab K) (ndof dim : Nat) (u n : Nat → K) (pt : Nat) : K :=
  ((List.range ndof).map (fun i => u i * ((List.range dim).map (fun d => G i pt d * n d)).sum)).sum

/-- Consequence: all derivatives of states on sides vanish, so fluxes on boundaries do. -/
theorem C63_flux_zero (tol : K) (dim numip : Nat) (groups : List (List (Elem O K))) (B : Elem O K → Tab K)
    (p : Nat) (x : Nat × Nat × Elem O K) (hp : (flatten groups)[p]? = some x) (ndof d : Nat) (u n : Nat → K) (pt : Nat) :
    ∃ G, (CView.mk (buildBoundary B ((boundary tol dim numip groups).1.map Item.pub)).2
      (some (boundary tol dim numip groups).2)).read p = some G ∧ slopeAt G ndof d u n pt = 0 := by
  refine ⟨_, C63_gradient_zero tol dim numip groups B p x hp, ?_⟩
  unfold slopeAt
  simp

/-- Case: two equivalent sides and a different one; the third reads its own values. -/
example : ((CView.mk (buildBoundary (fun e : Elem String ℚ => fun _ _ _ => e.measure) ((boundary (1/10) 1 1 exGroups).1.map Item.pub)).1
    (some (boundary (1/10) 1 1 exGroups).2)).read 1).map (fun t => t 0 0 0) =
    ((flatten exGroups)[1]?).map (fun x => x.2.2.measure) := by decide +kernel

end MrHyDE.Database
