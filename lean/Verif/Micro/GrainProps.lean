import Verif.Micro.SeedProps

/-!
# Grains of a microstructure (C128)

Every element belongs to the grain of the seed nearest to its centre and holds the rotation of that grain; new rotations change
the rotations and keep the grains.
-/

set_option linter.unusedSectionVars false

namespace MrHyDE.Micro

variable {K : Type} {D : Type}

/-! ## Specification -/

/-- Mean of the vertices. [specification, no code] -/
def mean [Field K] (nodes : List (Pt K)) : Pt K :=
  ((nodes.map (·.1)).sum / (nodes.length : K), (nodes.map (·.2.1)).sum / (nodes.length : K), (nodes.map (·.2.2)).sum / (nodes.length : K))

/-- Seed `k` is a nearest one. [specification, no code] -/
def Nearest [Field K] [LE K] (seeds : List (Pt K)) (p : Pt K) (k : Nat) : Prop :=
  ∃ s, seeds[k]? = some s ∧ ∀ s' ∈ seeds, dist2 (1, 1, 1) p s ≤ dist2 (1, 1, 1) p s'

/-- What is expected of the external search: a list that begins with a nearest seed. [specification, no code] -/
def Searches [Field K] [LE K] (seeds : List (Pt K)) (search : Pt K → List Nat) : Prop :=
  ∀ p, ∃ k rest, search p = k :: rest ∧ Nearest seeds p k

/-- Element `c` of group `g` of block `b`. [specification, no code] -/
def at3 {α : Type} (G : List (List (List α))) (b g c : Nat) : Option α := ((G[b]?).bind (·[g]?)).bind (·[c]?)

/-! ## Helpers -/

theorem mapM_range {α β : Type} (v : Nat → Option β) (h : α → β) (l : List α) (p : Nat)
    (H : ∀ i x, l[i]? = some x → v (p + i) = some (h x)) :
    (List.range l.length).mapM (fun c => v (p + c)) = some (l.map h) := by
  induction l using List.reverseRecOn with
  | nil => rfl
  | append_singleton l a ih =>
    have h1 := ih (fun i x hx => H i x (by
      rw [List.getElem?_append_left (List.getElem?_eq_some_iff.1 hx).1]; exact hx))
    have h2 : v (p + l.length) = some (h a) := H l.length a (by simp)
    rw [List.length_append, List.length_singleton, List.range_succ, List.mapM_append, h1]
    simp [h2]

theorem fold_groups {α β : Type} (v : Nat → Option β) (h : α → β) (b : List (List α)) (p : Nat) (acc : List (List β))
    (H : ∀ i x, b.flatten[i]? = some x → v (p + i) = some (h x)) :
    (b.map List.length).foldlM (fun (s : Nat × List (List β)) n => do
      let es ← (List.range n).mapM fun c => v (s.1 + c)
      return (s.1 + n, s.2 ++ [es])) (p, acc) = some (p + b.flatten.length, acc ++ b.map (·.map h)) := by
  induction b generalizing p acc with
  | nil => simp
  | cons g b ih =>
    have h1 := mapM_range v h g p (fun i x hx => H i x (by
      rw [List.flatten_cons, List.getElem?_append_left (List.getElem?_eq_some_iff.1 hx).1]; exact hx))
    rw [List.map_cons, List.foldlM_cons, h1]
    have h2 := ih (p + g.length) (acc ++ [g.map h]) (fun i x hx => by
      rw [Nat.add_assoc]
      refine H (g.length + i) x ?_
      rw [List.flatten_cons, List.getElem?_append_right (by omega)]
      simpa using hx)
    refine h2.trans ?_
    simp [Nat.add_assoc]

theorem give_map {α : Type} (rot : List D) (index flat : List Nat) (total : Nat) (h : α → Info D) (G : List (List (List α))) (p : Nat)
    (H : ∀ i x, G.flatten.flatten[i]? = some x → giveOne rot index flat total (p + i) = some (h x)) :
    give rot index flat total p (G.map (·.map List.length)) = some (G.map (·.map (·.map h))) := by
  induction G generalizing p with
  | nil => rfl
  | cons b G ih =>
    rw [List.map_cons]
    unfold give
    have h1 := fold_groups (giveOne rot index flat total) h b p [] (fun i x hx => H i x (by
      rw [List.flatten_cons, List.flatten_append, List.getElem?_append_left (List.getElem?_eq_some_iff.1 hx).1]; exact hx))
    have h2 := ih (p + b.flatten.length) (fun i x hx => by
      rw [Nat.add_assoc]
      refine H (b.flatten.length + i) x ?_
      rw [List.flatten_cons, List.flatten_append, List.getElem?_append_right (by omega)]
      simpa using hx)
    refine Option.bind_eq_some_iff.2 ⟨_, h1, ?_⟩
    refine Option.bind_eq_some_iff.2 ⟨_, h2, ?_⟩
    simp

theorem mapM_all {α β : Type} (f : α → Option β) (h : α → β) (l : List α) (H : ∀ x ∈ l, f x = some (h x)) :
    l.mapM f = some (l.map h) := by
  induction l with
  | nil => rfl
  | cons a l ih =>
    rw [List.mapM_cons, H a List.mem_cons_self, ih fun x hx => H x (List.mem_cons_of_mem _ hx)]
    rfl

theorem centre_mean [Field K] {n : Nat} {nodes : List (Pt K)} (h : nodes.length = n) : centre n nodes = some (mean nodes) := by
  unfold centre mean
  rw [if_neg (by omega), h]

/-! ## Grains -/

/-- When all elements have the same number of vertices, the search returns a single seed for every element, and there are at
least as many elements as seeds, every element holds the data of the seed nearest to its centre. -/
theorem C128_grains_partial [Field K] [LinearOrder K] {seeds : List (Pt K)} {search : Pt K → List Nat} (hs : Searches seeds search)
    (rot : Nat → D) (index : Nat → Nat) {groups : List (List (List (List (Pt K))))} {n : Nat}
    (hn : ∀ b ∈ groups, ∀ g ∈ b, ∀ cell ∈ g, cell.length = n) (hfirst : (at3 groups 0 0 0).isSome)
    (hone : ∀ b ∈ groups, ∀ g ∈ b, ∀ cell ∈ g, (search (mean cell)).length = 1)
    (hmany : seeds.length ≤ groups.flatten.flatten.length) :
    ∃ r, importNew ((List.range seeds.length).map rot) ((List.range seeds.length).map index) search groups = some r ∧
      ∀ b g c cell, at3 groups b g c = some cell → ∃ info k, at3 r b g c = some info ∧ Nearest seeds (mean cell) k ∧
        info.data = rot k ∧ info.index = index k ∧ info.seed = k % 100 := by
  have hmem : ∀ cell ∈ groups.flatten.flatten, ∃ b ∈ groups, ∃ g ∈ b, cell ∈ g := by
    intro cell hc
    simp only [List.mem_flatten] at hc
    obtain ⟨g, ⟨b, hb, hg⟩, hc⟩ := hc
    exact ⟨b, hb, g, hg, hc⟩
  -- the first element gives the number of vertices
  obtain ⟨cell0, h0⟩ := Option.isSome_iff_exists.1 hfirst
  unfold at3 at h0
  obtain ⟨first, hf, h0⟩ := Option.bind_eq_some_iff.1 h0
  have hlen0 : cell0.length = n := by
    obtain ⟨b, hb, hg⟩ := Option.bind_eq_some_iff.1 hf
    exact hn b (List.mem_of_getElem? hb) first (List.mem_of_getElem? hg) cell0 (List.mem_of_getElem? h0)
  let grain : List (Pt K) → Nat := fun cell => (search (mean cell)).headD 0
  have hgrain : ∀ cell, cell ∈ groups.flatten.flatten → search (mean cell) = [grain cell] ∧ Nearest seeds (mean cell) (grain cell) := by
    intro cell hc
    obtain ⟨b, hb, g, hg, hcg⟩ := hmem cell hc
    obtain ⟨k, rest, e, hk⟩ := hs (mean cell)
    have h1 := hone b hb g hg cell hcg
    rw [e] at h1
    have hr : rest = [] := by simpa using h1
    subst hr
    refine ⟨by simp [grain, e], ?_⟩
    simpa [grain, e] using hk
  have hcent : groups.flatten.flatten.mapM (centre cell0.length) = some (groups.flatten.flatten.map mean) := by
    refine mapM_all _ _ _ fun cell hc => ?_
    obtain ⟨b, hb, g, hg, hcg⟩ := hmem cell hc
    exact centre_mean ((hn b hb g hg cell hcg).trans hlen0.symm)
  have hflat : ((groups.flatten.flatten.map mean).map search).flatten = groups.flatten.flatten.map grain := by
    rw [List.map_map, ← List.flatMap_def]
    have : groups.flatten.flatten.flatMap (search ∘ mean) = groups.flatten.flatten.flatMap (fun cell => [grain cell]) :=
      List.flatMap_congr fun cell hc => (hgrain cell hc).1
    rw [this]
    exact List.flatMap_pure_eq_map grain _
  let h : List (Pt K) → Info D := fun cell =>
    { data := rot (grain cell), seed := grain cell % 100, index := index (grain cell), distance := 0 }
  refine ⟨groups.map (·.map (·.map h)), ?_, ?_⟩
  · unfold importNew
    simp only [Option.bind_eq_bind, hf, Option.bind_some, h0, hcent, hflat]
    refine give_map _ _ _ _ h groups 0 fun i x hx => ?_
    have hxm := List.mem_of_getElem? hx
    obtain ⟨s, hks, -⟩ := (hgrain x hxm).2
    have hk : grain x < seeds.length := (List.getElem?_eq_some_iff.1 hks).1
    unfold giveOne
    rw [Nat.zero_add, List.getElem?_map, hx]
    simp only [Option.map_some, Option.bind_eq_bind, Option.bind_some, List.getElem?_map, List.getElem?_range hk]
    rw [if_pos (by omega)]
    rfl
  · intro b g c cell hc
    have hc' : cell ∈ groups.flatten.flatten := by
      unfold at3 at hc
      obtain ⟨gg, hgg, hcc⟩ := Option.bind_eq_some_iff.1 hc
      obtain ⟨bb, hbb, hgg⟩ := Option.bind_eq_some_iff.1 hgg
      simp only [List.mem_flatten]
      exact ⟨gg, ⟨bb, List.mem_of_getElem? hbb, List.mem_of_getElem? hgg⟩, List.mem_of_getElem? hcc⟩
    refine ⟨h cell, grain cell, ?_, (hgrain cell hc').2, rfl, rfl, rfl⟩
    unfold at3 at hc ⊢
    obtain ⟨gg, hgg, hcc⟩ := Option.bind_eq_some_iff.1 hc
    obtain ⟨bb, hbb, hgg⟩ := Option.bind_eq_some_iff.1 hgg
    simp [List.getElem?_map, hbb, hgg, hcc]

/-- Three seeds on a line. [case] -/
def exSeeds : List (Pt ℚ) := [(-1, 0, 0), (1, 0, 0), (4, 0, 0)]

/-- A search that returns all seeds within 1.1 times the distance of the nearest one, nearest first, for the points used below.
[case] -/
def exSearch (p : Pt ℚ) : List Nat := if p.1 < 0 then [0] else if p.1 = 0 then [0, 1] else if p.1 ≤ 5 / 2 then [1] else [2]

example : importNew (D := String) ["a", "b", "c"] [7, 8, 9] exSearch [[[[(-2, 0, 0), (-1, 0, 0)], [(1, 0, 0), (2, 0, 0)]], [[(3, 0, 0), (5, 0, 0)]]]] =
    some [[[{ data := "a", seed := 0, index := 7, distance := 0 }, { data := "b", seed := 1, index := 8, distance := 0 }],
      [{ data := "c", seed := 2, index := 9, distance := 0 }]]] := by
  decide +kernel

theorem exSearch_ok (p : Pt ℚ) : ∃ k rest, exSearch p = k :: rest ∧ Nearest exSeeds p k := by
  unfold exSearch
  by_cases h1 : p.1 < 0
  · refine ⟨0, [], by rw [if_pos h1], _, rfl, ?_⟩
    intro s' hs'
    simp only [exSeeds, List.mem_cons, List.not_mem_nil, or_false] at hs'
    rcases hs' with rfl | rfl | rfl <;> simp only [dist2] <;> nlinarith
  by_cases h2 : p.1 = 0
  · refine ⟨0, [1], by rw [if_neg h1, if_pos h2], _, rfl, ?_⟩
    intro s' hs'
    simp only [exSeeds, List.mem_cons, List.not_mem_nil, or_false] at hs'
    rcases hs' with rfl | rfl | rfl <;> simp only [dist2] <;> nlinarith
  by_cases h3 : p.1 ≤ 5 / 2
  · refine ⟨1, [], by rw [if_neg h1, if_neg h2, if_pos h3], _, rfl, ?_⟩
    intro s' hs'
    have : 0 < p.1 := lt_of_le_of_ne (not_lt.1 h1) (Ne.symm h2)
    simp only [exSeeds, List.mem_cons, List.not_mem_nil, or_false] at hs'
    rcases hs' with rfl | rfl | rfl <;> simp only [dist2] <;> nlinarith
  · refine ⟨2, [], by rw [if_neg h1, if_neg h2, if_neg h3], _, rfl, ?_⟩
    intro s' hs'
    simp only [exSeeds, List.mem_cons, List.not_mem_nil, or_false] at hs'
    have : 5 / 2 < p.1 := not_le.1 h3
    rcases hs' with rfl | rfl | rfl <;> simp only [dist2] <;> nlinarith

/-- C128 is false when an element is half way between two seeds: all later elements get wrong grains. The search returns both seeds
for it, and the flat list of all neighbours is read with the number of the element.  Here the last element has its centre at the third seed
and gets the data of the second one, three units away. -/
theorem C128_ties_violated : Searches exSeeds exSearch ∧ ∃ r,
    importNew (D := String) ["a", "b", "c"] [7, 8, 9] exSearch [[[[(-1, 0, 0), (1, 0, 0)], [(3, 0, 0), (5, 0, 0)], [(4, 0, 0), (4, 0, 0)]]]] = some r ∧
    (at3 r 0 0 1).map (·.data) = some "b" ∧ ¬ Nearest exSeeds (mean [(3, 0, 0), (5, 0, 0)]) 1 := by
  refine ⟨exSearch_ok, [[[{ data := "a", seed := 0, index := 7, distance := 0 }, { data := "b", seed := 1, index := 8, distance := 0 },
    { data := "c", seed := 2, index := 9, distance := 0 }]]], by decide +kernel, rfl, ?_⟩
  rintro ⟨s, hs, h⟩
  have e : s = (1, 0, 0) := by
    have : some s = some ((1, 0, 0) : Pt ℚ) := hs.symm
    exact Option.some.inj this
  subst e
  have := h (4, 0, 0) (by simp [exSeeds])
  simp [dist2, mean] at this
  norm_num at this

/-- C128 is false on meshes with cells of several shapes: elements of a block whose cells have fewer vertices than those of the first
block are looked up at a wrong place (the missing vertices count as zero); with more vertices the view is overrun. -/
theorem C128_topology_violated [Field K] [CharZero K] (n : Nat) (cell : List (Pt K)) :
    (cell.length < n → centre n cell = some
      ((cell.length : K) / n * (mean cell).1, (cell.length : K) / n * (mean cell).2.1, (cell.length : K) / n * (mean cell).2.2)) ∧
    (n < cell.length → centre n cell = none) := by
  constructor
  · intro h
    unfold centre mean
    rw [if_neg (by omega)]
    rcases Nat.eq_zero_or_pos cell.length with h0 | h0
    · have : cell = [] := List.length_eq_zero_iff.1 h0
      subst this
      simp
    · have hc : (cell.length : K) ≠ 0 := by exact_mod_cast h0.ne'
      have hn : (n : K) ≠ 0 := by exact_mod_cast (by omega : n ≠ 0)
      simp only
      congr 3
      · field_simp
      · field_simp
      · field_simp
  · intro h
    unfold centre
    rw [if_pos h]

/-- C128 is false on a process whose first block has no group: a read past the end. -/
theorem C128_empty_violated [Field K] (rot : List D) (index : List Nat) (search : Pt K → List Nat)
    (bs : List (List (List (List (Pt K))))) : importNew rot index search ([] :: bs) = none := rfl

/-- C128 is false when there are more seeds than elements on a process: the distance to the seed is read with the number of the
seed instead of that of the element, past the end; and what is stored otherwise is zero, since the search writes its radii elsewhere. -/
theorem C128_distance_violated [Field K] (rot : List D) (index : List Nat) (search : Pt K → List Nat) (cell : List (Pt K)) (k : Nat)
    (hk : search (mean cell) = [k]) :
    (1 ≤ k → importNew rot index search [[[cell]]] = none) ∧
    ∀ r, importNew rot index search [[[cell]]] = some r → ∀ info, at3 r 0 0 0 = some info → info.distance = 0 := by
  have e : importNew rot index search [[[cell]]] = give rot index [k] 1 0 [[1]] := by
    unfold importNew
    simp [centre_mean (K := K) rfl, hk]
  constructor
  · intro h1
    rw [e]
    simp only [give, List.foldlM_cons, List.foldlM_nil]
    have : giveOne rot index [k] 1 0 = none := by
      unfold giveOne
      have h0 : k ≠ 0 := by omega
      cases h2 : rot[k]? <;> cases h3 : index[k]? <;> simp_all
    simp [List.range_succ, this]
  · intro r hr info hi
    rw [e] at hr
    have h0 : giveOne rot index [k] 1 0 = none ∨ ∃ d, giveOne rot index [k] 1 0 = some d ∧ d.distance = 0 := by
      unfold giveOne
      cases h1 : rot[k]? <;> cases h2 : index[k]? <;> by_cases h3 : k = 0 <;> simp_all
    rcases h0 with h0 | ⟨d, h0, hd⟩
    · simp [give, List.range_succ, h0] at hr
    · simp [give, List.range_succ, h0] at hr
      subst hr
      simp [at3] at hi
      rw [← hi, hd]

/-! ## New rotations -/

theorem le_foldl_max (l : List Nat) (m : Nat) : m ≤ l.foldl max m ∧ ∀ x ∈ l, x ≤ l.foldl max m := by
  induction l generalizing m with
  | nil => simp
  | cons a l ih =>
    obtain ⟨h1, h2⟩ := ih (max m a)
    refine ⟨(le_max_left _ _).trans h1, fun x hx => ?_⟩
    rcases List.mem_cons.1 hx with rfl | hx
    · exact (le_max_right _ _).trans h1
    · exact h2 x hx

theorem le_foldl_if (l : List Nat) (m : Nat) : m ≤ l.foldl (fun m s => if s > m then s else m) m ∧
    ∀ x ∈ l, x ≤ l.foldl (fun m s => if s > m then s else m) m := by
  have : (fun m s : Nat => if s > m then s else m) = max := by
    funext a b
    rw [max_def]
    by_cases h : b > a
    · rw [if_pos h, if_pos h.le]
    · rw [if_neg h]
      by_cases h' : a ≤ b
      · rw [if_pos h']; omega
      · rw [if_neg h']
  rw [this]
  exact le_foldl_max l m

/-- On every process the new matrix of an element is the one drawn for the seed number it holds: as many are drawn as the largest
number on any process needs. -/
theorem C128_update (g : Nat → ℝ) (hg : ∀ k, (g (4 * k), g (4 * k + 1), g (4 * k + 2), g (4 * k + 3)) ≠ (0, 0, 0, 0))
    (procs : List (List Nat)) :
    ∃ rot : Nat → List ℝ, ∃ rots, rotations g (numSeeds procs) = some rots ∧
      (∀ k, rotationRow (g (4 * k)) (g (4 * k + 1)) (g (4 * k + 2)) (g (4 * k + 3)) = some (rot k)) ∧
      ∀ seed, (∀ s ∈ seed, ∃ p ∈ procs, s ∈ p) → updateGroup rots seed.length seed = some (seed.map rot) := by
  choose rot hrot using fun k => C128_rotation (g (4 * k)) (g (4 * k + 1)) (g (4 * k + 2)) (g (4 * k + 3)) (hg k)
  refine ⟨rot, (List.range (numSeeds procs)).map rot, mapM_all _ _ _ fun k _ => (hrot k).1, fun k => (hrot k).1, fun seed hseed => ?_⟩
  unfold updateGroup
  have := mapM_range (fun c => (do let cnode ← seed[c]?; ((List.range (numSeeds procs)).map rot)[cnode]? : Option (List ℝ))) rot seed 0
    (fun i x hx => by
      rw [Nat.zero_add, hx]
      obtain ⟨p, hp, hxp⟩ := hseed x (List.mem_of_getElem? hx)
      have h1 := (le_foldl_if p 0).2 x hxp
      have h2 := (le_foldl_max (procs.map (fun p => p.foldl (fun m s => if s > m then s else m) 0)) 0).2 _
        (List.mem_map.2 ⟨p, hp, rfl⟩)
      have : x < numSeeds procs := by unfold numSeeds; omega
      simp [List.getElem?_range this])
  simpa using this

theorem giveOne_seed {rot : List D} {index flat : List Nat} {total p k : Nat} {i : Info D} (hp : flat[p]? = some k)
    (hi : giveOne rot index flat total p = some i) : i.seed = k % 100 ∧ rot[k]? = some i.data := by
  unfold giveOne at hi
  simp only [hp, Option.bind_eq_bind, Option.bind_some] at hi
  obtain ⟨d, hd, hi⟩ := Option.bind_eq_some_iff.1 hi
  obtain ⟨x, -, hi⟩ := Option.bind_eq_some_iff.1 hi
  by_cases hk : k < total
  · rw [if_pos hk] at hi
    cases hi
    exact ⟨rfl, hd⟩
  · rw [if_neg hk] at hi
    cases hi

/-- With at most one hundred seeds the number an element holds is that of its grain, so new rotations keep the grains. -/
theorem C128_update_partial (rot : List D) (hn : rot.length ≤ 100) (index flat : List Nat) (total p k : Nat) {i : Info D}
    (hp : flat[p]? = some k) (hi : giveOne rot index flat total p = some i) (new : List D) (hnew : rot.length ≤ new.length) :
    rot[k]? = some i.data ∧ ∃ d, new[k]? = some d ∧ updateGroup new 1 [i.seed] = some [d] := by
  obtain ⟨h1, h2⟩ := giveOne_seed hp hi
  have hk : k < rot.length := (List.getElem?_eq_some_iff.1 h2).1
  have e : new[k]? = some new[k] := List.getElem?_eq_getElem (by omega)
  refine ⟨h2, _, e, ?_⟩
  rw [h1, Nat.mod_eq_of_lt (show k < 100 by omega)]
  simp [updateGroup, List.range_succ, e]

example : ∃ i : Info String, giveOne ["a", "b", "c"] [7, 8, 9] [2, 0] 3 0 = some i ∧ i.data = "c" ∧
    updateGroup ["x", "y", "z"] 1 [i.seed] = some ["z"] :=
  ⟨{ data := "c", seed := 2, index := 9, distance := 0 }, rfl, rfl, rfl⟩

/-- C128 is false with more than one hundred seeds: new rotations melt grains together; an element of grain k and one of grain
k + 100 hold the same number, and whatever is drawn they get the same matrix. -/
theorem C128_update_violated (rot : List D) (index : List Nat) (flat : List Nat) (total p q k : Nat) {i j : Info D}
    (hp : flat[p]? = some k) (hq : flat[q]? = some (k + 100)) (hi : giveOne rot index flat total p = some i)
    (hj : giveOne rot index flat total q = some j) :
    ∀ new : List D, updateGroup new 2 [i.seed, j.seed] = updateGroup new 2 [i.seed, i.seed] := by
  intro new
  rw [(giveOne_seed hq hj).1, (giveOne_seed hp hi).1, Nat.add_mod_right]

example : ∃ i j : Info Nat, giveOne (List.range 101) (List.range 101) [0, 100] 101 0 = some i ∧
    giveOne (List.range 101) (List.range 101) [0, 100] 101 1 = some j ∧ i.data = 0 ∧ j.data = 100 ∧ i.seed = j.seed := by
  refine ⟨{ data := 0, seed := 0, index := 0, distance := 0 }, { data := 100, seed := 0, index := 100, distance := 0 }, ?_, ?_, rfl, rfl, rfl⟩ <;> rfl

/-- C128 is false for new rotations after a microstructure made by the program: the boundary groups hold no seed numbers, so the
first boundary element reads past the end. -/
theorem C128_update_boundary_violated (rot : List D) (n : Nat) (hn : 0 < n) : updateGroup rot n boundarySeeds = none := by
  unfold updateGroup boundarySeeds
  obtain ⟨m, rfl⟩ : ∃ m, n = m + 1 := ⟨n - 1, by omega⟩
  rw [List.range_succ_eq_map, List.mapM_cons]
  rfl

/-! ## Rotations seen by the physics -/

/-- In the volume every element of a group sees its own matrix, whatever was in the work set before. -/
theorem C128_volume (zero : D) (data ws : List D) : ∃ r, setRotations zero data.length data ws = some r ∧
    ∀ e < data.length, r[e]? = data[e]? := by
  unfold setRotations
  have hl : data.length ≤ (allocate zero data.length ws).length := by
    unfold allocate
    split
    · simp
    · omega
  simp only
  rw [if_neg (by omega)]
  refine ⟨_, rfl, fun e he => ?_⟩
  rw [List.getElem?_append_left he]

/-- C128 is false on the boundary: the boundary groups hold no data, so element `e` of a boundary group sees the matrix of element
`e` of the volume group handled last. -/
theorem C128_boundary_violated (zero : D) (data ws : List D) (n : Nat) (hn : n ≤ data.length) :
    ∃ r, ((setRotations zero data.length data ws).bind (setRotations zero n boundaryData)) = some r ∧
      ∀ e < n, r[e]? = data[e]? := by
  obtain ⟨r, hr, h⟩ := C128_volume zero data ws
  refine ⟨r, ?_, fun e he => h e (by omega)⟩
  rw [hr]
  have hl : data.length ≤ r.length := by
    by_contra hc
    have := h r.length (by omega)
    rw [List.getElem?_eq_none (le_refl _), List.getElem?_eq_getElem (by omega)] at this
    cases this
  have ha : allocate zero n r = r := by
    unfold allocate
    rw [if_neg (by omega)]
  simp [setRotations, boundaryData, ha]

example : ((setRotations "0" 2 ["grain 1", "grain 2"] []).bind (setRotations "0" 1 boundaryData)) = some ["grain 1", "grain 2"] := rfl

/-- C128 is false on the boundary: a boundary group larger than all groups before sees matrices of zeros. -/
theorem C128_boundary_zero_violated (zero : D) (ws : List D) (n : Nat) (hn : ws.length < n) :
    setRotations zero n boundaryData ws = some (List.replicate n zero) := by
  unfold setRotations boundaryData allocate
  rw [if_pos hn]
  simp

/-! ## Data from a file -/

/-- Every element holds the row of its closest data point, filled with zeros, when the rows have no more columns than the settings
announce. -/
theorem C128_file_partial [Zero K] (numdata modulus : Nat) (rows : List (List K)) (hcol : ∀ r ∈ rows, r.length ≤ numdata)
    (closest : List Nat) (hc : ∀ c ∈ closest, c < rows.length) :
    ∃ r, importMesh numdata modulus rows closest = some r ∧ r.length = closest.length ∧
      ∀ (e c : Nat) (row : List K), closest[e]? = some c → rows[c]? = some row → ∃ info, r[e]? = some info ∧ info.seed = c ∧
        info.data.length = numdata ∧ ∀ i, info.data[i]? = if i < row.length then row[i]? else if i < numdata then some 0 else none := by
  have hrow : ∀ c ∈ closest, ∃ row, rows[c]? = some row ∧ row.length ≤ numdata := fun c h =>
    ⟨_, List.getElem?_eq_getElem (hc c h), hcol _ (List.getElem_mem _)⟩
  refine ⟨closest.map fun c => Info.mk ((rows[c]?.getD []) ++ List.replicate (numdata - (rows[c]?.getD []).length) 0)
    c (c % modulus) 0, ?_, by simp, ?_⟩
  · refine mapM_all _ _ _ fun c h => ?_
    obtain ⟨row, e, hl⟩ := hrow c h
    simp [e, copyRow, Nat.not_lt.2 hl]
  · intro e c row he hr
    obtain ⟨row', e', hl⟩ := hrow c (List.mem_of_getElem? he)
    rw [hr] at e'
    cases e'
    refine ⟨_, by rw [List.getElem?_map, he]; rfl, rfl, ?_, fun i => ?_⟩
    · simp [hr]; omega
    · simp only [hr, Option.getD_some]
      by_cases h1 : i < row.length
      · rw [if_pos h1, List.getElem?_append_left h1]
      · rw [if_neg h1, List.getElem?_append_right (by omega), List.getElem?_replicate]
        by_cases h2 : i < numdata
        · rw [if_pos h2, if_pos (by omega)]
        · rw [if_neg h2, if_neg (by omega)]

example : importMesh 3 100 [[(1 : ℚ), 2, 3], [4]] [1, 0] =
    some [{ data := [4, 0, 0], seed := 1, index := 1, distance := 0 }, { data := [1, 2, 3], seed := 0, index := 0, distance := 0 }] := rfl

/-- C128 is false for a file with more columns than the settings announce: the data of the element is overrun; by default one
column is announced. -/
theorem C128_columns_violated [Zero K] (haveRotations havePhi : Bool) (modulus : Nat) (row : List K)
    (h : numData haveRotations havePhi < row.length) : importMesh (numData haveRotations havePhi) modulus [row] [0] = none := by
  simp [importMesh, copyRow, h]

/-- C128, data of a file: a row fits exactly when it has at most nine entries for rotations (the matrix of a rotation), at most three
for angles, one otherwise. -/
theorem C128_width [Zero K] (modulus : Nat) (row : List K) :
    (∀ havePhi, (importMesh (numData true havePhi) modulus [row] [0]).isSome ↔ row.length ≤ 3 * 3) ∧
    ((importMesh (numData false true) modulus [row] [0]).isSome ↔ row.length ≤ 3) ∧
    ((importMesh (numData false false) modulus [row] [0]).isSome ↔ row.length ≤ 1) := by
  have h : ∀ n, (importMesh n modulus [row] [0]).isSome ↔ row.length ≤ n := by
    intro n
    by_cases h : n < row.length
    · simp [importMesh, copyRow, h]
    · simp [importMesh, copyRow, h]; omega
  exact ⟨fun _ => h 9, h 3, h 1⟩

example : (importMesh (numData true true) 100 [[(1 : ℚ), 0, 0, 0, 1, 0, 0, 0, 1]] [0]).isSome = true := rfl

/-- C128 is false on boundaries for data from a file: volume and boundary number the same data point differently. -/
theorem C128_index_violated [Zero K] (row : List K) (rows : List (List K)) (k : Nat) (hk : rows[k]? = some row) (hl : row.length ≤ 1)
    (h50 : 50 ≤ k) (h100 : k < 100) : ∃ v b, importMesh 1 volumeModulus rows [k] = some [v] ∧
      importMesh 1 boundaryModulus rows [k] = some [b] ∧ v.index = k ∧ b.index = k - 50 ∧ v.data = b.data := by
  refine ⟨{ data := row ++ List.replicate (1 - row.length) 0, seed := k, index := k % 100, distance := 0 },
    { data := row ++ List.replicate (1 - row.length) 0, seed := k, index := k % 50, distance := 0 }, ?_, ?_, ?_, ?_, rfl⟩
  · simp [importMesh, hk, copyRow, Nat.not_lt.2 hl, volumeModulus]
  · simp [importMesh, hk, copyRow, Nat.not_lt.2 hl, boundaryModulus]
  · exact Nat.mod_eq_of_lt h100
  · show k % 50 = k - 50
    omega

/-- C128 is false for data on a grid in less than three dimensions: the third coordinate of a centre is read past the end. -/
theorem C128_grid_violated (centre : List K) (h : centre.length < 3) : gridArguments centre = none := by
  unfold gridArguments
  rw [List.getElem?_eq_none (show centre.length ≤ 2 by omega)]
  cases centre[0]? <;> cases centre[1]? <;> rfl

/-- In three dimensions the coordinates are those of the centre. -/
theorem C128_grid (x y z : K) : gridArguments [x, y, z] = some (x, y, z) := rfl

end MrHyDE.Micro
