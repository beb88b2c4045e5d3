import Verif.BC.Lemmas
import Mathlib.Data.List.Infix

set_option linter.unusedSectionVars false

/-! # C59, C60, C77: what the boundary conditions select -/

namespace MrHyDE.BC

/-! ## C60: one condition per variable and side set -/

/-- The conditions asked for, in the order of the input sections. [specification, no code] -/
def asked (S : Settings) (vec : Bool) (var side : String) : List Kind :=
  (if S.isDiri vec var side then [.dirichlet] else []) ++
    [Kind.neumann, .farField, .slip, .flux].filter (fun k => S.given k var side)

/-- The label of a condition. [specification, no code] -/
def Kind.label (weak : Bool) : Kind → Label
  | .dirichlet => if weak then .weakDirichlet else .dirichlet
  | .neumann => .neumann
  | .farField => .farField
  | .slip => .slip
  | .flux => .flux

/-- The number of a label in the side information. [specification, no code] -/
def Label.code : Label → Nat
  | .none => 0
  | .dirichlet => 1
  | .neumann => 2
  | .weakDirichlet => 4
  | .farField => 6
  | .slip => 7
  | .flux => 8

/-- The label is that of the last condition asked for, in the order Dirichlet, Neumann, far-field, slip, flux. -/
theorem C60_label_last (S : Settings) (vec : Bool) (var side : String) :
    label S vec var side = match (asked S vec var side).getLast? with
      | some k => k.label S.weak
      | none => .none := by
  unfold label asked
  generalize S.isDiri vec var side = a
  generalize S.weak = w
  rw [List.filter_cons, List.filter_cons, List.filter_cons, List.filter_cons, List.filter_nil]
  generalize S.given .neumann var side = b
  generalize S.given .farField var side = c
  generalize S.given .slip var side = d
  generalize S.given .flux var side = e
  cases a <;> cases b <;> cases c <;> cases d <;> cases e <;> cases w <;> rfl

/-- The number in the side information is that of the first condition asked for. -/
theorem C60_code_first (S : Settings) (vec : Bool) (var side : String) :
    sideCode S vec var side = match (asked S vec var side).head? with
      | some k => (k.label S.weak).code
      | none => 0 := by
  unfold sideCode asked
  generalize S.isDiri vec var side = a
  generalize S.weak = w
  rw [List.filter_cons, List.filter_cons, List.filter_cons, List.filter_cons, List.filter_nil]
  generalize S.given .neumann var side = b
  generalize S.given .farField var side = c
  generalize S.given .slip var side = d
  generalize S.given .flux var side = e
  cases a <;> cases b <;> cases c <;> cases d <;> cases e <;> cases w <;> rfl

/-- C60, partial: label, side information and strong constraint agree if, and only if, no more than one condition is asked for.
Missing: several conditions for a variable on a side set; they are accepted, and each part of the code picks another one. -/
theorem C60_agree_partial (S : Settings) (vec : Bool) (var side : String) :
    (sideCode S vec var side = (label S vec var side).code ∧
      ((S.isDiri vec var side && !S.weak) = true ↔ label S vec var side = .dirichlet)) ↔
    (asked S vec var side).length ≤ 1 := by
  unfold sideCode label asked
  generalize S.isDiri vec var side = a
  generalize S.weak = w
  rw [List.filter_cons, List.filter_cons, List.filter_cons, List.filter_cons, List.filter_nil]
  generalize S.given .neumann var side = b
  generalize S.given .farField var side = c
  generalize S.given .slip var side = d
  generalize S.given .flux var side = e
  cases a <;> cases b <;> cases c <;> cases d <;> cases e <;> cases w <;> decide

/-- A side of an element that is in no more than one side set with conditions has that side set's entry. -/
theorem C60_side_info (S : Settings) (vec : Bool) (var : String) (sides : List (String × Bool)) (i : Nat) (hi : i < sides.length)
    (hin : sides[i].2 = true) (hc : sideCode S vec var sides[i].1 ≠ 0)
    (hu : ∀ j (hj : j < sides.length), j ≠ i → sides[j].2 = false ∨ sideCode S vec var sides[j].1 = 0) :
    sideInfo S vec var sides = (sideCode S vec var sides[i].1, i) := by
  have key : ∀ (l : List ((String × Bool) × Nat)) (a : Nat × Nat),
      (∀ x ∈ l, x.2 ≠ i → x.1.2 = false ∨ sideCode S vec var x.1.1 = 0) →
      (∀ x ∈ l, x.2 = i → x.1 = sides[i]) →
      l.foldl (fun a x => if x.1.2 && sideCode S vec var x.1.1 != 0 then (sideCode S vec var x.1.1, x.2) else a) a =
        if ∃ x ∈ l, x.2 = i then (sideCode S vec var sides[i].1, i) else a := by
    intro l
    induction l with
    | nil => intro a _ _; simp
    | cons y t ih =>
      intro a h1 h2
      rw [List.foldl_cons, ih _ (fun x hx => h1 x (List.mem_cons_of_mem _ hx)) (fun x hx => h2 x (List.mem_cons_of_mem _ hx))]
      by_cases hy : y.2 = i
      · rw [h2 y (by simp) hy, hin, hy]
        have hex : ∃ x ∈ y :: t, x.2 = i := ⟨y, by simp, hy⟩
        rw [if_pos hex]
        simp [hc]
      · have hiff : (∃ x ∈ y :: t, x.2 = i) ↔ ∃ x ∈ t, x.2 = i := by
          simp [hy]
        simp only [hiff]
        congr 1
        rcases h1 y (by simp) hy with h | h
        · simp [h]
        · simp [h]
  unfold sideInfo
  rw [key]
  · rw [if_pos]
    refine ⟨(sides[i], i), ?_, rfl⟩
    rw [List.mem_iff_getElem]
    exact ⟨i, by simpa using hi, by simp⟩
  · intro x hx hne
    rw [List.mem_iff_getElem] at hx
    obtain ⟨j, hj, rfl⟩ := hx
    simp only [List.getElem_zip, List.getElem_range] at hne ⊢
    exact hu j _ hne
  · intro x hx he
    rw [List.mem_iff_getElem] at hx
    obtain ⟨j, hj, rfl⟩ := hx
    simp only [List.getElem_zip, List.getElem_range] at he ⊢
    subst he
    rfl

/-- Settings: `T` has a value on `left` and a flux on all boundaries. [case] -/
def exSettings (weak : Bool) : Settings where
  lists := fun k => match k with
    | .dirichlet => [("T", ["left"])]
    | .neumann => [("T", ["all boundaries"])]
    | _ => []
  weak := weak

/-- On `left` the label is Neumann, the side information says Dirichlet, and the values are constrained; on `right` all agree. -/
example : label (exSettings false) false "T" "left" = .neumann ∧ sideCode (exSettings false) false "T" "left" = 1 ∧
    label (exSettings false) false "T" "right" = .neumann ∧ sideCode (exSettings false) false "T" "right" = 2 := by decide +kernel

/-- Weakly imposed values together with a flux on all boundaries are dropped: no label asks for them. -/
theorem C60_weak_dropped : ∃ (S : Settings) (side : String), S.weak = true ∧ S.given .dirichlet "T" side = true ∧
    label S false "T" side = .neumann ∧ sideCode S false "T" side = 4 :=
  ⟨exSettings true, "left", rfl, by decide +kernel, by decide +kernel, by decide +kernel⟩

example : sideInfo (exSettings false) false "T" [("top", false), ("left", true)] = (1, 1) := by decide +kernel

/-! ## C77: strongly constrained degrees of freedom -/

/-- C77: a degree of freedom is listed if, and only if, it lies in the closure of a side of a side set on which the variable has
a Dirichlet condition (by side set, by `all boundaries`, or by a component), and conditions are not weak; the list has no
repetitions and ascends. -/
theorem C77_dirichlet_dofs (S : Settings) (vec : Bool) (var : String) (sides : List (String × List (Nat × Nat)))
    (lids : Nat → List Int) (closure : Nat → List Nat) :
    (∀ x, x ∈ dbcDofs S vec var sides lids closure ↔
      S.weak = false ∧ ∃ name els, (name, els) ∈ sides ∧
        (∃ v, (v = var ∨ (vec = true ∧ ∃ c ∈ ["x", "y", "z"], v = var ++ c)) ∧
          ∃ names, (v, names) ∈ S.lists .dirichlet ∧ ("all boundaries" ∈ names ∨ name ∈ names)) ∧
        ∃ e s, (e, s) ∈ els ∧ ∃ o ∈ closure s, x = (lids e).getD o 0) ∧
    (dbcDofs S vec var sides lids closure).Pairwise (· < ·) := by
  refine ⟨?_, uniq_strict _ (sorted_pairwise _)⟩
  intro x
  unfold dbcDofs
  rw [uniq_mem, sorted_mem]
  rw [foldl_append (fun acc x => if S.isDiri vec var x.1 && !S.weak then
      x.2.foldl (fun acc y => (closure y.2).foldl (fun acc o => acc ++ [(lids y.1).getD o 0]) acc) acc else acc)
    (fun (x : String × List (Nat × Nat)) => if S.isDiri vec var x.1 && !S.weak then
      x.2.flatMap (fun y => (closure y.2).map (fun o => (lids y.1).getD o 0)) else []) (by
      intro acc a
      by_cases h : (S.isDiri vec var a.1 && !S.weak) = true
      · rw [if_pos h, if_pos h]
        exact foldl_append _ _ (fun acc y => foldl_append_single (fun o => (lids y.1).getD o 0) _ acc) _ _
      · rw [if_neg h, if_neg h, List.append_nil])]
  rw [List.nil_append, List.mem_flatMap]
  have hg : ∀ v name, S.given .dirichlet v name = true ↔
      ∃ names, (v, names) ∈ S.lists .dirichlet ∧ ("all boundaries" ∈ names ∨ name ∈ names) := by
    intro v name
    unfold Settings.given Settings.isParameter
    simp only [Bool.or_eq_true, List.any_eq_true, Bool.and_eq_true, beq_iff_eq, List.contains_iff_mem]
    constructor
    · rintro (⟨y, h1, h2, h3⟩ | ⟨y, h1, h2, h3⟩)
      · exact ⟨y.2, by rw [← h2]; exact h1, Or.inl h3⟩
      · exact ⟨y.2, by rw [← h2]; exact h1, Or.inr h3⟩
    · rintro ⟨n, h1, h2 | h2⟩
      · exact Or.inl ⟨(v, n), h1, rfl, h2⟩
      · exact Or.inr ⟨(v, n), h1, rfl, h2⟩
  have hd : ∀ name, S.isDiri vec var name = true ↔
      ∃ v, (v = var ∨ (vec = true ∧ ∃ c ∈ ["x", "y", "z"], v = var ++ c)) ∧
        ∃ names, (v, names) ∈ S.lists .dirichlet ∧ ("all boundaries" ∈ names ∨ name ∈ names) := by
    intro name
    unfold Settings.isDiri
    rw [Bool.or_eq_true, Bool.and_eq_true, List.any_eq_true]
    constructor
    · rintro (h | ⟨hv, c, hc, h⟩)
      · exact ⟨var, Or.inl rfl, (hg _ _).1 h⟩
      · exact ⟨var ++ c, Or.inr ⟨hv, c, hc, rfl⟩, (hg _ _).1 h⟩
    · rintro ⟨v, rfl | ⟨hv, c, hc, rfl⟩, h⟩
      · exact Or.inl ((hg _ _).2 h)
      · exact Or.inr ⟨hv, c, hc, (hg _ _).2 h⟩
  constructor
  · rintro ⟨⟨name, els⟩, hm, hx⟩
    simp only at hx
    by_cases h : (S.isDiri vec var name && !S.weak) = true
    · rw [if_pos h] at hx
      rw [Bool.and_eq_true, Bool.not_eq_true'] at h
      rw [List.mem_flatMap] at hx
      obtain ⟨⟨e, s⟩, he, hx⟩ := hx
      rw [List.mem_map] at hx
      obtain ⟨o, ho, rfl⟩ := hx
      exact ⟨h.2, name, els, hm, (hd name).1 h.1, e, s, he, o, ho, rfl⟩
    · rw [if_neg h] at hx
      simp at hx
  · rintro ⟨hw, name, els, hm, hv, e, s, he, o, ho, rfl⟩
    refine ⟨(name, els), hm, ?_⟩
    simp only
    rw [if_pos (by rw [Bool.and_eq_true, Bool.not_eq_true']; exact ⟨(hd name).2 hv, hw⟩)]
    exact List.mem_flatMap.2 ⟨(e, s), he, List.mem_map.2 ⟨o, ho, rfl⟩⟩

/-- Case: two elements sharing degree of freedom 1; `left` has side 0 of element 0, `right` side 1 of element 1. -/
example : dbcDofs (exSettings false) false "T" [("left", [(0, 0)]), ("right", [(1, 1)])]
    (fun e => if e = 0 then [0, 1] else [1, 2]) (fun s => [s]) = [0] := by decide +kernel

/-! ## C59: point conditions -/

/-- C59 is false for nodes in several elements: the numbers are always those of the first element found. -/
theorem C59_first_element (gids : Nat → List Int) (off : List Nat) (a : Nat × Nat) (t : List (Nat × Nat))
    (ho : ∀ o ∈ off, o < (gids a.1).length) (hl : ∀ x ∈ a :: t, x.2 < off.length) :
    nodeSetDofs gids off (a :: t) [] = some ((a :: t).map (fun x => (gids a.1).getD (off.getD x.2 0) 0)) := by
  have hpre := nodeSetDofs_prefix gids off (gids a.1) ho t (gids a.1) (List.prefix_refl _)
    (fun x hx => hl x (List.mem_cons_of_mem _ hx))
  have ha := hl a (by simp)
  have hb : off[a.2] < (gids a.1).length := ho _ (List.getElem_mem ha)
  rw [nodeSetDofs, List.getElem?_eq_getElem ha]
  simp only [List.nil_append]
  rw [List.getElem?_eq_getElem hb]
  simp only
  rw [hpre, Option.map_some, List.map_cons]
  congr 2
  rw [List.getD_eq_getElem?_getD, List.getD_eq_getElem?_getD, List.getElem?_eq_getElem ha, Option.getD_some,
    List.getElem?_eq_getElem hb, Option.getD_some]

/-- C59, partial: if all elements found for a node set are one element, the numbers of its nodes are listed.  Missing: nodes in
several elements (`C59_first_element`, `C59_shared_node_wrong`), and names contained in other names (`C59_name_inside`). -/
theorem C59_single_element_partial (gids : Nat → List Int) (off : List Nat) (e : Nat) (l : List (Nat × Nat))
    (ho : ∀ o ∈ off, o < (gids e).length) (hl : ∀ x ∈ l, x.2 < off.length) (he : ∀ x ∈ l, x.1 = e) :
    nodeSetDofs gids off l [] = some (l.map (fun x => (gids x.1).getD (off.getD x.2 0) 0)) := by
  cases l with
  | nil => rfl
  | cons a t =>
    have h0 := he a (by simp)
    rw [C59_first_element gids off a t (by rw [h0]; exact ho) hl]
    congr 1
    apply List.map_congr_left
    intro x hx
    rw [he x hx, h0]

/-- Case: a corner element with three nodes, two of them in the node set. -/
example : nodeSetDofs (fun _ => [4, 9, 2]) [0, 1, 2] [(5, 2), (5, 0)] [] = some [2, 4] := by decide +kernel

/-- Numbers of the elements 0 - 1 and 1 - 2 of a line. [case] -/
def exLine (e : Nat) : List Int := if e = 0 then [0, 1] else [1, 2]

/-- C59 is false for the middle node of a line with two elements: the first node is constrained as well. -/
theorem C59_shared_node_wrong : nodeSetDofs exLine [0, 1] [(0, 1), (1, 0)] [] = some [1, 0] ∧
    [(0, 1), (1, 0)].map (fun x => (exLine x.1).getD x.2 0) = [1, 1] := by decide +kernel

/-- C59, for blocks: the places in a block whose elements are numbered first are their numbers. -/
theorem C59_first_block (n : Nat) (l : List (Nat × Nat)) (h : ∀ x ∈ l, x.1 < n) : blockRows (List.range n) l = l := by
  unfold blockRows
  conv_rhs => rw [← List.map_id l]
  apply List.map_congr_left
  intro x hx
  have : (List.range n).idxOf x.1 = x.1 := by
    have h1 : (List.range n)[x.1]'(by simpa using h x hx) = x.1 := List.getElem_range _
    conv_lhs => rw [← h1]
    exact List.Nodup.idxOf_getElem List.nodup_range _ _
  rw [this]
  rfl

/-- C59 is false for other blocks: with elements 0 and 1 in different blocks, a node of element 1 constrains a number of
element 0. -/
theorem C59_second_block_wrong : nodeSetDofs exLine [0, 1] (blockRows [1] [(1, 1)]) [] = some [1] ∧
    (exLine 1).getD 1 0 = 2 := by decide +kernel

/-- C59 is false for names inside other names: every node set whose name is a part of the text is taken. -/
theorem C59_name_inside (pre name post : List Char) : nodeSetGiven (pre ++ name ++ post) name = true := by
  unfold nodeSetGiven
  rw [List.any_eq_true]
  refine ⟨name ++ post, ?_, ?_⟩
  · rw [List.mem_tails, List.append_assoc]
    exact List.suffix_append _ _
  · rw [List.isPrefixOf_iff_prefix]
    exact List.prefix_append _ _

/-- A case: asking for `pin2` also takes the node set `pin`. -/
example : nodeSetGiven "pin2".toList "pin".toList = true := by decide +kernel

/-- C59, over processes: a process constrains exactly the numbers found by some process that it knows itself, each once; the
padding with -1 does no harm. -/
theorem C59_processes (found : List (List Int)) (owned : List Int) (hn : owned.Nodup) (h0 : ∀ x ∈ owned, 0 ≤ x) :
    (∀ x, x ∈ pointDofs found owned ↔ x ∈ owned ∧ ∃ l ∈ found, x ∈ l) ∧ (pointDofs found owned).Nodup := by
  constructor
  · intro x
    unfold pointDofs
    simp only
    rw [setInter_mem _ _ _ (sorted_pairwise _) (sorted_pairwise _), sorted_mem, sorted_mem, List.mem_flatten]
    constructor
    · rintro ⟨⟨l, hl, hx⟩, ho⟩
      refine ⟨ho, ?_⟩
      rw [List.mem_map] at hl
      obtain ⟨m, hm, rfl⟩ := hl
      rw [List.mem_map] at hm
      obtain ⟨k, hk, rfl⟩ := hm
      rw [List.mem_append, uniq_mem, sorted_mem] at hx
      rcases hx with hx | hx
      · exact ⟨k, hk, hx⟩
      · have := List.eq_of_mem_replicate hx
        have := h0 x ho
        omega
    · rintro ⟨ho, l, hl, hx⟩
      refine ⟨⟨_, List.mem_map.2 ⟨uniq (sorted l), List.mem_map.2 ⟨l, hl, rfl⟩, rfl⟩, ?_⟩, ho⟩
      rw [List.mem_append, uniq_mem, sorted_mem]
      exact Or.inl hx
  · unfold pointDofs
    exact (setInter_sublist _ _).nodup ((sorted_perm owned).nodup_iff.2 hn)

/-- Case: two processes. -/
example : pointDofs [[7, 3, 7], [5]] [5, 1, 7] = [5, 7] := by
  unfold pointDofs
  rw [show [[7, 3, 7], [(5 : Int)]].map (fun l => uniq (sorted l)) = [[3, 7], [5]] by decide +kernel]
  rw [show sorted [5, 1, 7] = [1, 5, 7] by decide +kernel]
  simp only
  rw [show sorted (([[3, 7], [(5 : Int)]].map (fun l => l ++ List.replicate ((([[3, 7], [(5 : Int)]].map List.length).sum) -
    l.length) (-1))).flatten) = [-1, -1, -1, 3, 5, 7] by decide +kernel]
  simp [setInter]

end MrHyDE.BC
