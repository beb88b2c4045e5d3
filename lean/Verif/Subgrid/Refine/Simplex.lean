import Verif.Subgrid.Refine.Props

/-!
# Uniform refinement: triangles, tetrahedra, lines and the two mixed starts (C115)
-/

set_option linter.unusedSectionVars false

namespace MrHyDE.Subgrid.Refine

/-! ## Triangles -/

section
variable {K : Type} {n : Nat} [Field K] [LinearOrder K] [IsStrictOrderedRing K]

theorem children_tri (a b c : Pt K n) (m : SideMap) :
    childrenOf tri ([a, b, c], m) =
      [([a, avg [a, b], avg [a, c]], clear m [1]), ([b, avg [a, b], avg [b, c]], clear m [1]),
       ([c, avg [a, c], avg [b, c]], clear m [1]), ([avg [a, b], avg [b, c], avg [a, c]], clear m [0, 1, 2])] := by
  simp only [childrenOf, tri, List.zip_cons_cons, List.zip_nil_right, List.map_cons, List.map_nil, node_single,
    List.getD_cons_zero, List.getD_cons_succ]
  simp only [node, List.map_cons, List.map_nil, List.getD_cons_zero, List.getD_cons_succ]

theorem avg2 (a b : Pt K n) (k : Fin n) : avg [a, b] k = 1 / 2 * (a k + b k) := by
  simp only [avg, List.map_cons, List.map_nil, List.sum_cons, List.sum_nil, List.length_cons, List.length_nil]
  push_cast
  ring

theorem avg3 (a b c : Pt K n) (k : Fin n) : avg [a, b, c] k = 1 / 3 * (a k + b k + c k) := by
  simp only [avg, List.map_cons, List.map_nil, List.sum_cons, List.sum_nil, List.length_cons, List.length_nil]
  push_cast
  ring

theorem avg4 (a b c d : Pt K n) (k : Fin n) : avg [a, b, c, d] k = 1 / 4 * (a k + b k + c k + d k) := by
  simp only [avg, List.map_cons, List.map_nil, List.sum_cons, List.sum_nil, List.length_cons, List.length_nil]
  push_cast
  ring

/-- The four children cover the parent. -/
theorem cover_tri {a b c p : Pt K n} (h : InTriangle a b c p) :
    InTriangle a (avg [a, b]) (avg [a, c]) p ∨ InTriangle b (avg [a, b]) (avg [b, c]) p ∨
    InTriangle c (avg [a, c]) (avg [b, c]) p ∨ InTriangle (avg [a, b]) (avg [b, c]) (avg [a, c]) p := by
  obtain ⟨x, y, z, hx, hy, hz, h1, hp⟩ := h
  by_cases h2 : 1 / 2 ≤ x
  · exact Or.inl ⟨2 * x - 1, 2 * y, 2 * z, by linarith, by linarith, by linarith, by linarith, fun k => by
      rw [hp k, avg2, avg2]; linear_combination (-(a k)) * h1⟩
  by_cases h3 : 1 / 2 ≤ y
  · exact Or.inr (Or.inl ⟨2 * y - 1, 2 * x, 2 * z, by linarith, by linarith, by linarith, by linarith, fun k => by
      rw [hp k, avg2, avg2]; linear_combination (-(b k)) * h1⟩)
  by_cases h4 : 1 / 2 ≤ z
  · exact Or.inr (Or.inr (Or.inl ⟨2 * z - 1, 2 * x, 2 * y, by linarith, by linarith, by linarith, by linarith, fun k => by
      rw [hp k, avg2, avg2]; linear_combination (-(c k)) * h1⟩))
  · refine Or.inr (Or.inr (Or.inr ⟨1 - 2 * z, 1 - 2 * x, 1 - 2 * y, by linarith, by linarith, by linarith, by linarith,
      fun k => ?_⟩))
    rw [hp k, avg2, avg2, avg2]
    have : x = 1 - y - z := by linarith
    subst this
    ring

/-- The vertex lists of triangles with a given area (up to the orientation).  [specification, no code] -/
def TriangleOf (A : K) (vs : List (Pt K 2)) : Prop := ∃ a b c : Pt K 2, vs = [a, b, c] ∧ |area2 a b c| = A

theorem area_children (a b c : Pt K 2) :
    area2 a (avg [a, b]) (avg [a, c]) = 1 / 4 * area2 a b c ∧ area2 b (avg [a, b]) (avg [b, c]) = -(1 / 4 * area2 a b c) ∧
    area2 c (avg [a, c]) (avg [b, c]) = 1 / 4 * area2 a b c ∧
    area2 (avg [a, b]) (avg [b, c]) (avg [a, c]) = 1 / 4 * area2 a b c := by
  simp only [area2, avg2]
  refine ⟨?_, ?_, ?_, ?_⟩ <;> ring

/-- C115 (triangles): after any number `r` of refinements there are `4^r` triangles, each of `1/4^r` of the area, that
together cover the coarse triangle; no node occurs twice and every node belongs to an element.  The part of the claim on
orientation and sides is violated (`C115_tri_violated`). -/
theorem C115_tri_partial {tol eta : K} (ht : 0 < tol) (r : Nat) (hr : tol * 2 ^ r ≤ eta) (v0 v1 v2 : Pt K 2)
    (hv : [v0, v1, v2].Nodup) (hgrid : ∀ p : Pt K 2, p ∈ [v0, v1, v2] → OnGrid eta p) :
    ∃ (m : Mesh K 2) (ts : List (List (Pt K 2))), refineTimes tri tol r (start [v0, v1, v2] 3) = some m ∧
      m.nodes.Nodup ∧ ts.length = 4 ^ r ∧ (∀ t : List (Pt K 2), t ∈ ts → TriangleOf (|area2 v0 v1 v2| / 4 ^ r) t) ∧
      (∀ p : Pt K 2, InTriangle v0 v1 v2 p → ∃ a b c : Pt K 2, [a, b, c] ∈ ts ∧ InTriangle a b c p) ∧
      List.Forall₂ (fun el t => el.conn.mapM (fun i => m.nodes[i]?) = some t) m.elems ts ∧
      ∀ p : Pt K 2, p ∈ m.nodes → ∃ t : List (Pt K 2), t ∈ ts ∧ p ∈ t := by
  have hpos : (0 : K) < 2 ^ r := by positivity
  have hle : tol ≤ eta / 2 ^ r := (le_div_iff₀ hpos).mpr hr
  have he : ((2 : Nat) : K) ^ r * (eta / 2 ^ r) = eta := by
    push_cast
    field_simp
  obtain ⟨s1, s2⟩ := start_spec [v0, v1, v2] 3 hv hgrid
  rw [← he] at s1 s2
  obtain ⟨m, h1, -, h3, h4, h5⟩ := refineTimes_spec (s := tri) (mv := 3) (D := 2) (by decide) ht r hle s2 s1
  have h6 := h5 (by decide) (fun p hp => ⟨_, List.mem_singleton_self _, hp⟩)
  generalize hL : levels tri r [([v0, v1, v2], (List.range 3).map (fun (s : Nat) => ((1 : Int), (s : Int))))] = L at h4 h6
  have key : ∀ r : Nat, (levels tri r [([v0, v1, v2], (List.range 3).map (fun (s : Nat) => ((1 : Int), (s : Int))))]).length = 4 ^ r ∧
      (∀ c : List (Pt K 2) × SideMap, c ∈ levels tri r [([v0, v1, v2], (List.range 3).map (fun (s : Nat) => ((1 : Int), (s : Int))))] →
        TriangleOf (|area2 v0 v1 v2| / 4 ^ r) c.1) ∧
      (∀ p : Pt K 2, InTriangle v0 v1 v2 p → ∃ (a b c : Pt K 2) (mm : SideMap),
        ([a, b, c], mm) ∈ levels tri r [([v0, v1, v2], (List.range 3).map (fun (s : Nat) => ((1 : Int), (s : Int))))] ∧
        InTriangle a b c p) := by
    intro r
    induction r with
    | zero =>
      refine ⟨rfl, ?_, ?_⟩
      · intro c hc
        rw [levels, List.mem_singleton] at hc
        subst hc
        exact ⟨v0, v1, v2, rfl, by simp⟩
      · intro p hp
        exact ⟨v0, v1, v2, _, List.mem_singleton_self _, hp⟩
    | succ r ih =>
      obtain ⟨i1, i2, i3⟩ := ih
      rw [levels_succ]
      refine ⟨?_, ?_, ?_⟩
      · rw [List.length_flatMap]
        have : ∀ (L : List (List (Pt K 2) × SideMap)), (L.map (fun c => (childrenOf tri c).length)).sum = L.length * 4 := by
          intro L
          induction L with
          | nil => rfl
          | cons c L ih2 => rw [List.map_cons, List.sum_cons, ih2]; simp [childrenOf, tri]; ring
        rw [this, i1, pow_succ]
      · intro c hc
        obtain ⟨⟨vs, mm⟩, hd, hcd⟩ := List.mem_flatMap.mp hc
        obtain ⟨a, b, e, hvs, hA⟩ := i2 _ hd
        simp only at hvs
        subst hvs
        rw [children_tri] at hcd
        obtain ⟨q0, q1, q2, q3⟩ := area_children a b e
        have e4 : |area2 v0 v1 v2| / 4 ^ (r + 1) = 1 / 4 * |area2 a b e| := by
          rw [hA, pow_succ]
          ring
        have e5 : |1 / 4 * area2 a b e| = 1 / 4 * |area2 a b e| := by
          rw [abs_mul, abs_of_pos (by norm_num : (0 : K) < 1 / 4)]
        simp only [List.mem_cons, List.not_mem_nil, or_false] at hcd
        rcases hcd with rfl | rfl | rfl | rfl
        · exact ⟨_, _, _, rfl, by rw [q0, e5, e4]⟩
        · exact ⟨_, _, _, rfl, by rw [q1, abs_neg, e5, e4]⟩
        · exact ⟨_, _, _, rfl, by rw [q2, e5, e4]⟩
        · exact ⟨_, _, _, rfl, by rw [q3, e5, e4]⟩
      · intro p hp
        obtain ⟨a, b, c, mm, hm, hin⟩ := i3 p hp
        have hsub : ∀ x : List (Pt K 2) × SideMap, x ∈ childrenOf tri ([a, b, c], mm) → x ∈ (levels tri r
            [([v0, v1, v2], (List.range 3).map (fun (s : Nat) => ((1 : Int), (s : Int))))]).flatMap (childrenOf tri) :=
          fun x hx => List.mem_flatMap.mpr ⟨_, hm, hx⟩
        rw [children_tri] at hsub
        rcases cover_tri hin with h | h | h | h
        · exact ⟨_, _, _, _, hsub _ List.mem_cons_self, h⟩
        · exact ⟨_, _, _, _, hsub _ (List.mem_cons_of_mem _ List.mem_cons_self), h⟩
        · exact ⟨_, _, _, _, hsub _ (List.mem_cons_of_mem _ (List.mem_cons_of_mem _ List.mem_cons_self)), h⟩
        · exact ⟨_, _, _, _, hsub _ (List.mem_cons_of_mem _ (List.mem_cons_of_mem _ (List.mem_cons_of_mem _ List.mem_cons_self))), h⟩
  obtain ⟨k1, k2, k3⟩ := key r
  rw [hL] at k1 k2 k3
  refine ⟨m, L.map Prod.fst, h1, h3.1, by rw [List.length_map, k1], ?_, ?_, ?_, ?_⟩
  · intro t ht'
    obtain ⟨c, hc, rfl⟩ := List.mem_map.mp ht'
    exact k2 c hc
  · intro p hp
    obtain ⟨a, b, c, mm, hm, hin⟩ := k3 p hp
    exact ⟨a, b, c, List.mem_map.mpr ⟨_, hm, rfl⟩, hin⟩
  · rw [List.forall₂_map_right_iff]
    exact h4.1.imp fun _ _ h => h.1
  · intro p hp
    obtain ⟨c, hc, hpc⟩ := h6 p hp
    exact ⟨c.1, List.mem_map.mpr ⟨c, hc, rfl⟩, hpc⟩

/-- The hypotheses hold: the reference triangle with twelve refinements. -/
example : ∃ m : Mesh ℚ 2, refineTimes tri (1 / 1000000) 12 (start [![0, 0], ![1, 0], ![0, 1]] 3) = some m ∧
    m.elems.length = 4 ^ 12 := by
  obtain ⟨m, ts, h1, -, h3, -, -, h6, -⟩ := C115_tri_partial (tol := (1 / 1000000 : ℚ)) (eta := 1) (by norm_num) 12
    (by norm_num) ![0, 0] ![1, 0] ![0, 1] (by decide +kernel) (by
      intro p hp i
      simp only [List.mem_cons, List.not_mem_nil, or_false] at hp
      have one : ∃ z : ℤ, (1 : ℚ) = z * 1 := ⟨1, by norm_num⟩
      have zero : ∃ z : ℤ, (0 : ℚ) = z * 1 := ⟨0, by norm_num⟩
      rcases hp with rfl | rfl | rfl <;> fin_cases i <;> first | exact one | exact zero)
  exact ⟨m, h1, h6.length_eq.trans h3⟩

end

/-! ### Orientation and sides of triangles -/

/-- A point is on the segment between two points.  [specification, no code] -/
def OnSegment {K : Type} {n : Nat} [Field K] [LinearOrder K] (a b p : Pt K n) : Prop :=
  ∃ t : K, 0 ≤ t ∧ t ≤ 1 ∧ ∀ k, p k = (1 - t) * a k + t * b k

section
variable {K : Type} [Field K] [LinearOrder K] [IsStrictOrderedRing K]

theorem area2_segment {a b p : Pt K 2} (h : OnSegment a b p) : area2 a b p = 0 := by
  obtain ⟨t, -, -, hp⟩ := h
  simp only [area2, hp]
  ring

/-- C115 is violated for triangles, for every triangle that is not degenerate, already after one refinement.  Child 1 is
turned over: its signed area has the other sign than the parent's.  Its side 2, from node 2 to node 0, is flagged as a
part of side 2 of the coarse triangle (from `v2` to `v0`), but node 2 is not on it; the side lies on side 1.  Side 0 of
child 2, from node 0 to node 1, is flagged as a part of side 0 (from `v0` to `v1`), but node 0 is not on it; the side
lies on side 2.  So the condition of another side is applied there. -/
theorem C115_tri_violated {tol eta : K} (ht : 0 < tol) (hr : tol * 2 ≤ eta) (v0 v1 v2 : Pt K 2)
    (hv : [v0, v1, v2].Nodup) (hgrid : ∀ p : Pt K 2, p ∈ [v0, v1, v2] → OnGrid eta p) (hA : area2 v0 v1 v2 ≠ 0) :
    ∃ (m : Mesh K 2) (e1 e2 : Elem) (a0 a1 a2 b0 b1 b2 : Pt K 2),
      refineTimes tri tol 1 (start [v0, v1, v2] 3) = some m ∧ m.elems[1]? = some e1 ∧ m.elems[2]? = some e2 ∧
      e1.conn.mapM (fun i => m.nodes[i]?) = some [a0, a1, a2] ∧ e2.conn.mapM (fun i => m.nodes[i]?) = some [b0, b1, b2] ∧
      area2 a0 a1 a2 * area2 v0 v1 v2 < 0 ∧
      e1.map[2]? = some (1, 2) ∧ ¬ OnSegment v2 v0 a2 ∧ OnSegment v1 v2 a2 ∧ OnSegment v1 v2 a0 ∧
      e2.map[0]? = some (1, 0) ∧ ¬ OnSegment v0 v1 b0 ∧ OnSegment v2 v0 b0 ∧ OnSegment v2 v0 b1 := by
  have he : ((2 : Nat) : K) ^ 1 * (eta / 2) = eta := by
    push_cast
    field_simp
  have hle : tol ≤ eta / 2 := (le_div_iff₀ (by norm_num)).mpr hr
  obtain ⟨s1, s2⟩ := start_spec [v0, v1, v2] 3 hv hgrid
  rw [← he] at s1 s2
  obtain ⟨m, h1, -, h3, h4, -⟩ := refineTimes_spec (s := tri) (mv := 3) (D := 2) (by decide) ht 1 hle s2 s1
  have hL := h4.1
  simp only [levels, List.flatMap_cons, List.flatMap_nil, List.append_nil] at hL
  rw [children_tri] at hL
  obtain ⟨hlen, hget⟩ := List.forall₂_iff_get.mp hL
  simp only [List.length_cons, List.length_nil] at hlen
  have g1 := hget 1 (by omega) (by simp)
  have g2 := hget 2 (by omega) (by simp)
  simp only [List.get_eq_getElem] at g1 g2
  simp only [Holds, List.getElem_cons_succ, List.getElem_cons_zero] at g1 g2
  refine ⟨m, m.elems[1], m.elems[2], v1, avg [v0, v1], avg [v1, v2], v2, avg [v0, v2], avg [v1, v2], h1,
    List.getElem?_eq_getElem (by omega), List.getElem?_eq_getElem (by omega), g1.1, g2.1, ?_, ?_, ?_, ?_, ?_, ?_, ?_, ?_, ?_⟩
  · rw [(area_children v0 v1 v2).2.1]
    have : 0 < area2 v0 v1 v2 * area2 v0 v1 v2 := by
      rcases lt_or_gt_of_ne hA with h | h
      · exact mul_pos_of_neg_of_neg h h
      · exact mul_pos h h
    nlinarith
  · rw [g1.2]
    decide
  · intro h
    apply hA
    have := area2_segment h
    simp only [area2, avg2] at this ⊢
    linear_combination 2 * this
  · exact ⟨1 / 2, by norm_num, by norm_num, fun k => by rw [avg2]; ring⟩
  · exact ⟨0, le_refl _, by norm_num, fun k => by ring⟩
  · rw [g2.2]
    decide
  · intro h
    exact hA (area2_segment h)
  · exact ⟨0, le_refl _, by norm_num, fun k => by ring⟩
  · exact ⟨1 / 2, by norm_num, by norm_num, fun k => by rw [avg2]; ring⟩

end

/-- The hypotheses hold for the reference triangle. -/
example : area2 (![0, 0] : Pt ℚ 2) ![1, 0] ![0, 1] ≠ 0 := by
  simp [area2]

/-! ## Tetrahedra -/

/-- The points of a tetrahedron.  [specification, no code] -/
def InTet {K : Type} [Field K] [LinearOrder K] (a b c d p : Pt K 3) : Prop :=
  ∃ x y z w : K, 0 ≤ x ∧ 0 ≤ y ∧ 0 ≤ z ∧ 0 ≤ w ∧ x + y + z + w = 1 ∧
    ∀ k, p k = x * a k + y * b k + z * c k + w * d k

/-- The reference tetrahedron.  [case] -/
def refTet : List (Pt ℚ 3) := [![0, 0, 0], ![1, 0, 0], ![0, 1, 0], ![0, 0, 1]]

theorem tet_result : (refineTimes tet (1 / 1000000 : ℚ) 1 (start refTet 4)).map
      (fun m => (m.nodes, m.elems.map Elem.conn)) =
    some ([![0, 0, 0], ![1, 0, 0], ![0, 1, 0], ![0, 0, 1], ![1 / 2, 0, 0], ![1 / 2, 1 / 2, 0], ![0, 1 / 2, 0],
      ![0, 0, 1 / 2], ![1 / 2, 0, 1 / 2], ![0, 1 / 2, 1 / 2]],
      [[0, 4, 6, 7], [1, 5, 4, 8], [2, 6, 5, 9], [7, 8, 9, 3], [4, 5, 6, 7], [7, 8, 9, 5], [7, 8, 9, 5], [7, 8, 9, 5]]) := by
  decide +kernel

/-- C115 is violated for tetrahedra: after one refinement of the reference tetrahedron three of the eight elements are the
same, and the point `(1/8, 3/8, 1/4)` inside is in none of them. -/
theorem C115_tet_violated :
    ∃ m : Mesh ℚ 3, refineTimes tet (1 / 1000000) 1 (start refTet 4) = some m ∧
      (m.elems.map Elem.conn)[5]? = (m.elems.map Elem.conn)[6]? ∧ (m.elems.map Elem.conn)[6]? = (m.elems.map Elem.conn)[7]? ∧
      InTet ![0, 0, 0] ![1, 0, 0] ![0, 1, 0] ![0, 0, 1] (![1 / 8, 3 / 8, 1 / 4] : Pt ℚ 3) ∧
      ∀ (el : Elem) (a b c d : Pt ℚ 3), el ∈ m.elems → el.conn.mapM (fun i => m.nodes[i]?) = some [a, b, c, d] →
        ¬ InTet a b c d ![1 / 8, 3 / 8, 1 / 4] := by
  have h := tet_result
  cases hm : refineTimes tet (1 / 1000000 : ℚ) 1 (start refTet 4) with
  | none => rw [hm] at h; simp at h
  | some m =>
    rw [hm] at h
    simp only [Option.map_some, Option.some.injEq, Prod.mk.injEq] at h
    obtain ⟨hn, hc⟩ := h
    refine ⟨m, rfl, by rw [hc]; rfl, by rw [hc]; rfl, ?_, ?_⟩
    · refine ⟨1 / 4, 1 / 8, 3 / 8, 1 / 4, by norm_num, by norm_num, by norm_num, by norm_num, by norm_num, fun k => ?_⟩
      fin_cases k <;> norm_num
    · intro el a b c d hel hmap hin
      have hmem : el.conn ∈ m.elems.map Elem.conn := List.mem_map.mpr ⟨el, hel, rfl⟩
      rw [hc] at hmem
      rw [hn] at hmap
      obtain ⟨x, y, z, w, hx, hy, hz, hw, h1, hp⟩ := hin
      have p0 := hp 0
      have p1 := hp 1
      have p2 := hp 2
      simp only [List.mem_cons, List.not_mem_nil, or_false] at hmem
      rcases hmem with h | h | h | h | h | h | h | h <;>
      · rw [h] at hmap
        simp only [List.mapM_cons, List.mapM_nil, List.getElem?_cons_zero, List.getElem?_cons_succ, Option.bind_eq_bind,
          Option.bind_some, Option.pure_def, Option.some.injEq, List.cons.injEq, and_true] at hmap
        obtain ⟨rfl, rfl, rfl, rfl⟩ := hmap
        simp at p0 p1 p2
        linarith

/-! ## Lines -/

/-- C115 is violated in one dimension: the two halves of a line refer to a node that does not exist, so a second refinement
reads outside the array. -/
theorem C115_line_violated {K : Type} [Field K] [LinearOrder K] (m m' : Mesh K 1) (e : Nat)
    (h : refineSubCell1 m e = some m') :
    ∃ e1 e2 : Elem, m'.elems = m.elems ++ [e1, e2] ∧ m'.nodes.length ∈ e1.conn ∧ m'.nodes.length ∈ e2.conn ∧
      refineSubCell1 m' m.elems.length = none ∧ refineSubCell1 m' (m.elems.length + 1) = none := by
  unfold refineSubCell1 at h
  cases h1 : m.elems[e]? with
  | none => rw [h1] at h; simp at h
  | some el =>
  cases h2 : el.conn[0]? with
  | none => rw [h1] at h; simp [h2] at h
  | some i0 =>
  cases h3 : el.conn[1]? with
  | none => rw [h1] at h; simp [h2, h3] at h
  | some i1 =>
  cases h4 : m.nodes[i0]? with
  | none => rw [h1] at h; simp [h2, h3, h4] at h
  | some n0 =>
  cases h5 : m.nodes[i1]? with
  | none => rw [h1] at h; simp [h2, h3, h5] at h
  | some n1 =>
  rw [h1] at h
  simp [h2, h3, h4, h5] at h
  subst h
  refine ⟨_, _, rfl, by simp, by simp, ?_, ?_⟩
  · simp [refineSubCell1]
  · simp [refineSubCell1]

/-- One refinement is possible. -/
example : ∃ m' : Mesh ℚ 1, refineSubCell1 (start [![-1], ![1]] 2) 0 = some m' := ⟨_, rfl⟩

/-! ## Triangles in a quadrilateral, quadrilaterals in a triangle -/

section
variable {K : Type} [Field K] [LinearOrder K] [IsStrictOrderedRing K]

/-- The points of the convex hull of four points.  [specification, no code] -/
def InHull4 (a b c d p : Pt K 2) : Prop :=
  ∃ x y z w : K, 0 ≤ x ∧ 0 ≤ y ∧ 0 ≤ z ∧ 0 ≤ w ∧ x + y + z + w = 1 ∧ ∀ k, p k = x * a k + y * b k + z * c k + w * d k

/-- C115 (triangles in a parallelogram, as the reference square is): the four triangles have
the orientation of the parallelogram and a quarter of its area each, cover the parallelogram, and the flagged side of triangle `s` is side `s`. -/
theorem C115_quadToTri (v0 v1 v2 v3 : Pt K 2) (cond : Nat → Int) (hpar : ∀ k, v0 k + v2 k = v1 k + v3 k) :
    let m := quadToTri v0 v1 v2 v3 cond
    ∃ c : Pt K 2, (m.elems.map fun el => el.conn.mapM (fun i => m.nodes[i]?)) =
        [some [v0, v1, c], some [v1, v2, c], some [v2, v3, c], some [v3, v0, c]] ∧
      area2 v0 v1 c = 1 / 2 * area2 v0 v1 v2 ∧ area2 v1 v2 c = 1 / 2 * area2 v0 v1 v2 ∧
      area2 v2 v3 c = 1 / 2 * area2 v0 v1 v2 ∧ area2 v3 v0 c = 1 / 2 * area2 v0 v1 v2 ∧
      (∀ p : Pt K 2, InHull4 v0 v1 v2 v3 p →
        InTriangle v0 v1 c p ∨ InTriangle v1 v2 c p ∨ InTriangle v2 v3 c p ∨ InTriangle v3 v0 c p) ∧
      ∀ (s : Nat) (el : Elem), m.elems[s]? = some el →
        (el.map.map Prod.fst = [1, 0, 0]) ∧ (0 < cond s → el.map[0]? = some (1, (s : Int))) := by
  have e0 := hpar 0
  have e1 := hpar 1
  have hc : ∀ k, avg [v0, v1, v2, v3] k = 1 / 2 * (v0 k + v2 k) := by
    intro k
    rw [avg4]
    linear_combination (1 / 4 : K) * (-(hpar k))
  refine ⟨avg [v0, v1, v2, v3], rfl, ?_, ?_, ?_, ?_, ?_, ?_⟩
  · simp only [area2, hc]
    ring
  · simp only [area2, hc]
    ring
  · simp only [area2, hc]
    linear_combination (1 / 2 : K) * (v2 1 - v0 1) * e0 - (1 / 2 : K) * (v2 0 - v0 0) * e1
  · simp only [area2, hc]
    linear_combination (1 / 2 : K) * (v2 1 - v0 1) * e0 - (1 / 2 : K) * (v2 0 - v0 0) * e1
  · rintro p ⟨x, y, z, w, hx, hy, hz, hw, h1, hp⟩
    by_cases h2 : z ≤ x <;> by_cases h3 : w ≤ y
    · exact Or.inl ⟨x - z, y - w, 2 * z + 2 * w, by linarith, by linarith, by linarith, by linarith, fun k => by
        rw [hp k, hc k]; linear_combination (-w) * hpar k⟩
    · exact Or.inr (Or.inr (Or.inr ⟨w - y, x - z, 2 * z + 2 * y, by linarith, by linarith, by linarith, by linarith,
        fun k => by rw [hp k, hc k]; linear_combination (-y) * hpar k⟩))
    · exact Or.inr (Or.inl ⟨y - w, z - x, 2 * x + 2 * w, by linarith, by linarith, by linarith, by linarith, fun k => by
        rw [hp k, hc k]; linear_combination (-w) * hpar k⟩)
    · exact Or.inr (Or.inr (Or.inl ⟨z - x, w - y, 2 * x + 2 * y, by linarith, by linarith, by linarith, by linarith,
        fun k => by rw [hp k, hc k]; linear_combination (-y) * hpar k⟩))
  · intro s el hs
    match s with
    | 0 => simp [quadToTri] at hs; subst hs; refine ⟨rfl, fun h => ?_⟩; simp [splitSide, h]
    | 1 => simp [quadToTri] at hs; subst hs; refine ⟨rfl, fun h => ?_⟩; simp [splitSide, h]
    | 2 => simp [quadToTri] at hs; subst hs; refine ⟨rfl, fun h => ?_⟩; simp [splitSide, h]
    | 3 => simp [quadToTri] at hs; subst hs; refine ⟨rfl, fun h => ?_⟩; simp [splitSide, h]
    | s + 4 => simp [quadToTri] at hs

/-- The reference square is a parallelogram. -/
example : ∀ k, (![-1, -1] : Pt ℚ 2) k + (![1, 1] : Pt ℚ 2) k = (![1, -1] : Pt ℚ 2) k + (![-1, 1] : Pt ℚ 2) k := by
  intro k
  fin_cases k <;> norm_num

/-- C115 (quadrilaterals in a triangle): child `i` has the corners `v_i`, the midpoint of side `i`, the centre and the midpoint of
side `i - 1`, a third of the area with the orientation of the triangle; together they cover it.  Its first side is flagged as
a piece of side `i`, its last one as a piece of side `i - 1`, the others not at all. -/
theorem C115_triToQuad (v0 v1 v2 : Pt K 2) (cond : Nat → Int) :
    let m := triToQuad v0 v1 v2 cond
    ∃ c m0 m1 m2 : Pt K 2, (∀ k, m0 k = (v0 k + v1 k) / 2) ∧ (∀ k, m1 k = (v1 k + v2 k) / 2) ∧
      (∀ k, m2 k = (v2 k + v0 k) / 2) ∧
      (m.elems.map fun el => el.conn.mapM (fun i => m.nodes[i]?)) =
        [some [v0, m0, c, m2], some [v1, m1, c, m0], some [v2, m2, c, m1]] ∧
      area2 v0 m0 c + area2 v0 c m2 = 1 / 3 * area2 v0 v1 v2 ∧ area2 v1 m1 c + area2 v1 c m0 = 1 / 3 * area2 v0 v1 v2 ∧
      area2 v2 m2 c + area2 v2 c m1 = 1 / 3 * area2 v0 v1 v2 ∧
      (∀ p : Pt K 2, InTriangle v0 v1 v2 p →
        InHull4 v0 m0 c m2 p ∨ InHull4 v1 m1 c m0 p ∨ InHull4 v2 m2 c m1 p) ∧
      ∀ (i : Nat) (el : Elem), m.elems[i]? = some el → el.map.map Prod.fst = [1, 0, 0, 1] ∧
        (0 < cond i → el.map[0]? = some (1, (i : Int))) ∧
        (0 < cond ((i + 2) % 3) → el.map[3]? = some (1, (((i + 2) % 3 : Nat) : Int))) := by
  have h2 : ∀ (a b : Pt K 2) (k : Fin 2), avg [a, b] k = (a k + b k) / 2 := by
    intro a b k
    simp [avg]
    try ring
  have h3 : ∀ k, avg [v0, v1, v2] k = (v0 k + v1 k + v2 k) / 3 := by
    intro k
    simp [avg]
    try ring
  refine ⟨avg [v0, v1, v2], avg [v0, v1], avg [v1, v2], avg [v0, v2], h2 v0 v1, h2 v1 v2,
    fun k => by rw [h2]; ring, rfl, ?_, ?_, ?_, ?_, ?_⟩
  · simp only [area2, h2, h3]
    ring
  · simp only [area2, h2, h3]
    ring
  · simp only [area2, h2, h3]
    ring
  · rintro p ⟨x, y, z, hx, hy, hz, h1, hp⟩
    by_cases c1 : y ≤ x <;> by_cases c2 : z ≤ x <;> by_cases c3 : z ≤ y
    · exact Or.inl ⟨x - y, 2 * (y - z), 3 * z, 0, by linarith, by linarith, by linarith, by linarith, by linarith, fun k => by
          rw [hp k, h2, h2, h3]; ring⟩
    · exact Or.inl ⟨x - z, 0, 3 * y, 2 * (z - y), by linarith, by linarith, by linarith, by linarith, by linarith, fun k => by
          rw [hp k, h2, h2, h3]; ring⟩
    · exfalso; linarith
    · exact Or.inr (Or.inr ⟨z - x, 2 * (x - y), 3 * y, 0, by linarith, by linarith, by linarith, by linarith, by linarith,
        fun k => by rw [hp k, h2, h2, h3]; ring⟩)
    · exact Or.inr (Or.inl ⟨y - x, 0, 3 * z, 2 * (x - z), by linarith, by linarith, by linarith, by linarith, by linarith,
        fun k => by rw [hp k, h2, h2, h3]; ring⟩)
    · exfalso; linarith
    · exact Or.inr (Or.inl ⟨y - z, 2 * (z - x), 3 * x, 0, by linarith, by linarith, by linarith, by linarith, by linarith,
        fun k => by rw [hp k, h2, h2, h3]; ring⟩)
    · exact Or.inr (Or.inr ⟨z - y, 0, 3 * x, 2 * (y - x), by linarith, by linarith, by linarith, by linarith, by linarith,
        fun k => by rw [hp k, h2, h2, h3]; ring⟩)
  · intro i el hs
    match i with
    | 0 => simp [triToQuad] at hs; subst hs; exact ⟨rfl, fun h => by simp [splitSide, h], fun h => by
             have h' : 0 < cond 2 := h
             simp [splitSide, h']⟩
    | 1 => simp [triToQuad] at hs; subst hs; exact ⟨rfl, fun h => by simp [splitSide, h], fun h => by
             have h' : 0 < cond 0 := h
             simp [splitSide, h']⟩
    | 2 => simp [triToQuad] at hs; subst hs; exact ⟨rfl, fun h => by simp [splitSide, h], fun h => by
             have h' : 0 < cond 1 := h
             simp [splitSide, h']⟩
    | i + 3 => simp [triToQuad] at hs

/-- [case] The reference triangle has the area one half. -/
example : area2 (![0, 0] : Pt ℚ 2) ![1, 0] ![0, 1] = 1 := by norm_num [area2]

/-- C115 is violated for triangles in a quadrilateral: where the first variable of the first coarse element has no
condition (an inner side, which is the usual case), the flagged side refers to side `-1` of the coarse element. -/
theorem C115_mixed_violated (v0 v1 v2 v3 : Pt K 2) (cond : Nat → Int) (s : Nat) (hs : s < 4) (h : cond s ≤ 0) :
    ∃ el : Elem, (quadToTri v0 v1 v2 v3 cond).elems[s]? = some el ∧ el.map[0]? = some (1, -1) := by
  interval_cases s <;> exact ⟨_, rfl, by simp [splitSide, h]⟩

end

end MrHyDE.Subgrid.Refine
