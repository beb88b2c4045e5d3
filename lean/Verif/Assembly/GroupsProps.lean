import Verif.Assembly.GroupsLemmas
import Verif.Assembly.GroupsSpec

/-! # Assembly: grouping of elements, properties -/

namespace MrHyDE.Assembly

theorem perGroup_pos (ws : Int) (n : Nat) (hn : n ≠ 0) (hws : ws ≠ 0) : 1 ≤ perGroup ws n := by
  unfold perGroup
  split_ifs <;> omega

theorem perGroup_le (ws : Int) (n : Nat) : perGroup ws n ≤ n ∧ (0 ≤ ws → perGroup ws n ≤ ws.toNat) := by
  unfold perGroup
  split_ifs <;> omega

theorem perm_range_of_mem (l : List Nat) (n : Nat) (hnd : l.Nodup) (h : ∀ e, e ∈ l ↔ e < n) :
    l.Perm (List.range n) := by
  rw [List.perm_ext_iff_of_nodup hnd List.nodup_range]
  intro a
  rw [h a, List.mem_range]

/-- C33, partial: for the modes "sequential" and "subgrid-preserving", a nonzero workset size and boundary groups
whose element numbers are numbers of the block, the grouping loop ends within `n` passes, every element is in
exactly one group, no group is empty or exceeds the requested size, and groups do not grow along the list.  Missing:
the other modes and sizes, where the claim is false (`C33_zero_size_never_ends`, `C33_other_modes_fail`,
`C33_foreign_number_fails`). -/
theorem C33_cover_partial (mode : String) (ws : Int) (n : Nat) (bgs : List (List Nat)) (fuel : Nat)
    (hm : mode = "sequential" ∨ mode = "subgrid-preserving") (hws : ws ≠ 0) (hf : n ≤ fuel)
    (hids : ∀ ids ∈ bgs, ∀ e ∈ ids, e < n) :
    ∃ gs, createGroups mode ws n bgs fuel = some gs ∧ Partition n (perGroup ws n) gs ∧ FirstBiggest gs := by
  by_cases hn : n = 0
  · refine ⟨[], by simp [createGroups, hn], ⟨by simp [hn], by simp⟩, List.Pairwise.nil⟩
  · have hw := perGroup_pos ws n hn hws
    obtain ⟨r, h1, h2, h3, h4⟩ := seqLoop_spec (perGroup ws n) n hw fuel 0 (by omega)
    have hseq : Partition n (perGroup ws n) r := by
      refine ⟨?_, h3⟩
      rw [h2, Nat.sub_zero, ← List.range_eq_range']
    rcases hm with rfl | rfl
    · exact ⟨r, by simp [createGroups, hn, h1], hseq, h4⟩
    · by_cases hb : bgs.length > 0
      · have hon : onBoundary n bgs = some (fun e => bgs.map (fun ids => decide (e ∈ ids))) := by
          unfold onBoundary
          rw [if_pos]
          simpa using hids
        obtain ⟨q, q1, q2, q3, q4⟩ := sgLoop_spec (fun e => bgs.map (fun ids => decide (e ∈ ids))) (perGroup ws n) n hw
          fuel (fun _ => false) 0 (by simp) (by omega) (by intro i j _ _ _ h; cases h)
        refine ⟨reorder q, by simp [createGroups, hn, hb, hon, q1], ⟨?_, ?_⟩, reorder_sorted q⟩
        · exact ((reorder_perm q).flatten).trans (perm_range_of_mem _ _ q2 (by simpa using q3))
        · intro g hg
          have := q4 g ((reorder_perm q).mem_iff.1 hg)
          exact ⟨this.1, this.2.1⟩
      · exact ⟨r, by simp [createGroups, hn, hb, h1], hseq, h4⟩

/-- The requested size bounds the groups. -/
theorem C33_requested_size (ws : Int) (n : Nat) (gs : List (List Nat)) (h0 : 0 ≤ ws)
    (h : Partition n (perGroup ws n) gs) : ∀ g ∈ gs, (g.length : Int) ≤ ws := by
  intro g hg
  have h1 := (h.2 g hg).2
  have h2 := (perGroup_le ws n).2 h0
  omega

/-- C33, second part: in the subgrid-preserving mode all elements of a group touch the same boundary groups. -/
theorem C33_same_signature_partial (ws : Int) (n : Nat) (bgs : List (List Nat)) (fuel : Nat) (hws : ws ≠ 0)
    (hf : n ≤ fuel) (hids : ∀ ids ∈ bgs, ∀ e ∈ ids, e < n) (gs : List (List Nat))
    (h : createGroups "subgrid-preserving" ws n bgs fuel = some gs) : Uniform (touches bgs) gs := by
  by_cases hn : n = 0
  · simp [createGroups, hn] at h
    subst h
    intro g hg; simp at hg
  · have hw := perGroup_pos ws n hn hws
    by_cases hb : bgs.length > 0
    · have hon : onBoundary n bgs = some (fun e => bgs.map (fun ids => decide (e ∈ ids))) := by
        unfold onBoundary
        rw [if_pos]
        simpa using hids
      obtain ⟨q, q1, q2, q3, q4⟩ := sgLoop_spec (fun e => bgs.map (fun ids => decide (e ∈ ids))) (perGroup ws n) n hw
        fuel (fun _ => false) 0 (by simp) (by omega) (by intro i j _ _ _ h; cases h)
      have : gs = reorder q := by
        have := h
        simp [createGroups, hn, hb, hon, q1] at this
        exact this.symm
      subst this
      intro g hg
      exact (q4 g ((reorder_perm q).mem_iff.1 hg)).2.2
    · have : bgs = [] := by
        cases bgs with
        | nil => rfl
        | cons a b => simp at hb
      subst this
      intro g _ a _ b _
      rfl

/-- Seven elements, size three, two boundary groups: hypotheses met, several groups. -/
example : createGroups "subgrid-preserving" 3 7 [[0, 1, 2, 6], [5, 6]] 7 =
    some [[0, 1, 2], [3, 4], [5], [6]] := by decide +kernel

/-- The re-ordering does something. -/
example : createGroups "subgrid-preserving" 3 5 [[0]] 5 = some [[1, 2, 3], [0], [4]] := by decide +kernel

example : createGroups "sequential" 3 7 [] 7 = some [[0, 1, 2], [3, 4, 5], [6]] := by decide +kernel

/-- C33 is false for workset size zero: no number of passes ends the loop. -/
theorem C33_zero_size_never_ends (n : Nat) (hn : n ≠ 0) (fuel : Nat) :
    createGroups "sequential" 0 n [] fuel = none := by
  have : perGroup 0 n = 0 := by simp [perGroup]
  simp [createGroups, hn, this, seqLoop_zero n fuel 0 (by omega)]

example : createGroups "sequential" 0 4 [] 1000 = none := C33_zero_size_never_ends 4 (by decide) 1000

/-- C33 is false for the other mode names, among them the documented "random" and "neighbor-avoiding": the first
entry of an empty list is read. -/
theorem C33_other_modes_fail (mode : String) (h1 : mode ≠ "sequential") (h2 : mode ≠ "subgrid-preserving")
    (ws : Int) (n : Nat) (hn : n ≠ 0) (bgs : List (List Nat)) (fuel : Nat) :
    createGroups mode ws n bgs fuel = none := by
  simp [createGroups, h1, h2, hn]

example : createGroups "random" 10 100 [] 100 = none :=
  C33_other_modes_fail "random" (by decide) (by decide) 10 100 (by decide) [] 100

/-- C33 is false in the subgrid-preserving mode as soon as a boundary group of the block holds an element number
outside `[0, n)`: boundary groups carry processor-wide numbers, the table has one row for each element of the block. -/
theorem C33_foreign_number_fails (ws : Int) (n : Nat) (hn : n ≠ 0) (bgs : List (List Nat)) (fuel : Nat)
    (h : ∃ ids ∈ bgs, ∃ e ∈ ids, n ≤ e) : createGroups "subgrid-preserving" ws n bgs fuel = none := by
  obtain ⟨ids, hi, e, he, hne⟩ := h
  have hb : bgs.length > 0 := List.length_pos_of_mem hi
  have hon : onBoundary n bgs = none := by
    unfold onBoundary
    rw [if_neg]
    simp only [List.all_eq_true, decide_eq_true_eq]
    intro hc
    have := hc ids hi e he
    omega
  simp [createGroups, hn, hb, hon]

/-- Second block of a processor, elements 4..7; its boundary group names element 5. -/
example : createGroups "subgrid-preserving" 2 4 [[5]] 10 = none :=
  C33_foreign_number_fails 2 4 (by decide) [[5]] 10 ⟨[5], by simp, 5, by simp, by omega⟩

/-! ### Boundary groups -/

theorem mapM_some_map {A B : Type} (f : A → Option B) (g : A → B) : ∀ (l : List A), (∀ a ∈ l, f a = some (g a)) →
    l.mapM f = some (l.map g) := by
  intro l
  induction l with
  | nil => intro _; rfl
  | cons a l ih =>
    intro h
    rw [List.mapM_cons, h a List.mem_cons_self, ih (fun b hb => h b (List.mem_cons_of_mem _ hb))]
    rfl

/-- C34: for every list of element sides and every group size at least one, each element side is in exactly one
boundary group, groups are not empty and not bigger than the size, the recorded local side is the local side of every
member, and the recorded element numbers are those of the members. -/
theorem C34_boundary_cover (w : Nat) (hw : 1 ≤ w) (lids sides : List Nat) (hl : lids.length = sides.length)
    (fuel : Nat) (hf : sides.length ≤ fuel) :
    ∃ bs, boundaryGroups w lids sides fuel = some bs ∧ Partition sides.length w (bs.map BGroup.members) ∧
      (∀ b ∈ bs, ∀ e ∈ b.members, sides[e]? = some b.side) ∧
      (∀ b ∈ bs, b.ids.length = b.members.length ∧ ∀ k (hk : k < b.members.length), lids[b.members[k]]? = b.ids[k]?) := by
  obtain ⟨l, h1, h2, h3, h4⟩ := mapM_chunks w hw sides fuel hf (uniqueSides sides) (uniqueSides_nodup sides)
  have hmem : ∀ e, e ∈ l.flatten.flatten ↔ e < sides.length := by
    intro e
    rw [h3 e]
    constructor
    · rintro ⟨s, _, h⟩
      by_contra hc
      rw [List.getElem?_eq_none (by omega)] at h
      cases h
    · intro h
      refine ⟨sides[e], (uniqueSides_mem sides _).2 (List.getElem_mem h), by simp [h]⟩
  have hmm : (l.flatten.map (mkBGroup lids sides)).map BGroup.members = l.flatten := by
    rw [List.map_map]
    exact List.map_id' (l.flatten)
  refine ⟨l.flatten.map (mkBGroup lids sides), by simp [boundaryGroups, h1], ⟨?_, ?_⟩, ?_, ?_⟩
  · rw [hmm]
    exact perm_range_of_mem _ _ h2 hmem
  · rw [hmm]
    intro g hg
    exact ⟨(h4 g hg).1, (h4 g hg).2.1⟩
  · intro b hb e he
    obtain ⟨g, hg, rfl⟩ := List.mem_map.1 hb
    obtain ⟨hne, _, s, hs⟩ := h4 g hg
    have hlast : g.getLastD 0 ∈ g := by
      rw [List.getLastD_eq_getLast?, List.getLast?_eq_some_getLast hne]
      exact List.getLast_mem hne
    change sides[e]? = some (sides[g.getLastD 0]?.getD 0)
    rw [hs _ hlast, hs e he]
    rfl
  · intro b hb
    obtain ⟨g, hg, rfl⟩ := List.mem_map.1 hb
    refine ⟨by simp [mkBGroup], ?_⟩
    intro k hk
    have hk' : k < g.length := hk
    have hlt : g[k] < sides.length := (hmem _).1 (List.mem_flatten.2 ⟨g, hg, List.getElem_mem hk'⟩)
    change lids[g[k]]? = (g.map (fun e => lids[e]?.getD 0))[k]?
    rw [List.getElem?_map, List.getElem?_eq_getElem hk', List.getElem?_eq_getElem (by omega)]
    simp [show g[k] < lids.length by omega]

/-- Six element sides on two local sides, size two. -/
example : boundaryGroups 2 [10, 11, 12, 13, 14, 15] [1, 3, 1, 1, 3, 0] 6 =
    some [⟨[0, 2], [10, 12], 1⟩, ⟨[3], [13], 1⟩, ⟨[1, 4], [11, 14], 3⟩, ⟨[5], [15], 0⟩] := by decide +kernel

/-! ### Element numbers of boundary groups -/

/-- C58, partial: on a processor whose block holds all elements, numbered from zero, the geometry recovered later
from the stored numbers of a boundary group is that of its elements.  Missing: several blocks, where it is wrong
(`C58_second_block_wrong`, `C58_second_block_out_of_range`). -/
theorem C58_single_block_partial {D : Type} (n : Nat) (dat : Nat → D) (ids : List Nat) (h : ∀ e ∈ ids, e < n) :
    dataOfBlockIds (List.range n) dat ids = some (dataOfLocalIds dat ids) := by
  unfold dataOfBlockIds dataOfLocalIds
  apply mapM_some_map
  intro e he
  simp [h e he]

example : dataOfBlockIds (List.range 5) (fun e => 10 * e) [4, 0] = some [40, 0] := by decide

/-- C58 is false with several blocks: for a block whose elements are numbered from `s > 0` every stored number that
stays in range gives the geometry of another element. -/
theorem C58_second_block_wrong (s n e : Nat) (hs : 0 < s) (he : e < n) :
    dataOfBlockIds (List.range' s n) (fun x => x) [e] ≠ some (dataOfLocalIds (fun x => x) [e]) := by
  have h : dataOfBlockIds (List.range' s n) (fun x => x) [e] = some [s + e] := by
    simp [dataOfBlockIds, he]
  rw [h]
  simp [dataOfLocalIds]
  omega

/-- ... and a number beyond the size of the block is read outside the array. -/
theorem C58_second_block_out_of_range {D : Type} (my : List Nat) (dat : Nat → D) (e : Nat) (he : my.length ≤ e) :
    dataOfBlockIds my dat [e] = none := by
  simp [dataOfBlockIds, List.getElem?_eq_none he]

/-- Second block with elements 4..9: element 5 of the mesh is taken for element 9, element 8 is out of range. -/
example : dataOfBlockIds (List.range' 4 6) (fun x => x) [5] = some [9] := by decide
example : dataOfBlockIds (List.range' 4 6) (fun x => x) [8] = none := by decide

end MrHyDE.Assembly
