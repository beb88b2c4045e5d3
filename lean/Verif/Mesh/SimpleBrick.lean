import Verif.Mesh.SimpleParallel

/-!
# Bricks, and the use of the simple meshes by the interfaces (C121, C122)
-/

set_option linter.unusedSectionVars false
set_option linter.unusedSimpArgs false

namespace MrHyDE.Mesh

variable {K : Type}

/-! ## Specification -/

/-- Number of the vertex `(i, j, k)` of a grid with `nx` by `ny` cells in a layer.  [specification, no code] -/
def vert (nx ny i j k : Nat) : Nat := i + (nx + 1) * j + (nx + 1) * (ny + 1) * k

/-- The offsets of the eight corners of the reference hexahedron.  [specification, no code] -/
def hexOffsets : List (Nat × Nat × Nat) :=
  [(0, 0, 0), (1, 0, 0), (1, 1, 0), (0, 1, 0), (0, 0, 1), (1, 0, 1), (1, 1, 1), (0, 1, 1)]

/-- The two corners of each of the twelve edges of the reference hexahedron.  [specification, no code] -/
def hexEdges : List (Nat × Nat) :=
  [(0, 1), (1, 2), (2, 3), (3, 0), (4, 5), (5, 6), (6, 7), (7, 4), (0, 4), (1, 5), (2, 6), (3, 7)]

/-- The four corners of each of the six sides of the reference hexahedron.  [specification, no code] -/
def hexSides : List (List Nat) :=
  [[0, 1, 5, 4], [1, 2, 6, 5], [2, 3, 7, 6], [0, 4, 7, 3], [0, 3, 2, 1], [4, 5, 6, 7]]

/-- A point lies on face `s` of a box: front, right, back, left, bottom, top.  [specification, no code] -/
def OnFace [Field K] (X0 Y0 Z0 A B C : K) (s : Nat) (p : K × K × K) : Prop :=
  if s = 0 then p.2.1 = Y0 else if s = 1 then p.1 = X0 + A else if s = 2 then p.2.1 = Y0 + B
  else if s = 3 then p.1 = X0 else if s = 4 then p.2.2 = Z0 else p.2.2 = Z0 + C

/-- The point of vertex `(i, j, k)` of the box with the given corner and sizes.  [specification, no code] -/
def point3 [Field K] (X0 Y0 Z0 A B C : K) (nx ny nz : Nat) (v : Nat × Nat × Nat) : K × K × K :=
  (tick X0 A nx v.1, tick Y0 B ny v.2.1, tick Z0 C nz v.2.2)

/-- Corner `o` of the cell `(i, j, k)`.  [specification, no code] -/
def shift (i j k : Nat) (o : Nat × Nat × Nat) : Nat × Nat × Nat := (i + o.1, j + o.2.1, k + o.2.2)

/-! ## The brick -/

section brick
variable [Field K]

theorem brick_some {X0 Y0 Z0 W D H : K} {nx ny nz : Nat} {m : Mesh (K × K × K)}
    (h : brick X0 Y0 Z0 W D H nx ny nz = some m) :
    0 < nx ∧ 0 < ny ∧ 0 < nz ∧ m =
      { numCells := nx * ny * nz, numNodes := (nx + 1) * (ny + 1) * (nz + 1),
        numEdges := ((nx + 1) * ny + (ny + 1) * nx) * (nz + 1) + (nx + 1) * (ny + 1) * nz,
        nodes := brickNodes X0 Y0 Z0 W D H nx ny nz, cellToNode := brickCells nx ny nz,
        cellToEdge := brickEdges nx ny nz, sides := brickSides nx ny nz } := by
  unfold brick at h
  split at h
  · simp at h
  · rename_i h0
    push Not at h0
    exact ⟨Nat.pos_of_ne_zero h0.1, Nat.pos_of_ne_zero h0.2.1, Nat.pos_of_ne_zero h0.2.2, (Option.some.inj h).symm⟩

theorem brickNodes_at (X0 Y0 Z0 W D H : K) (nx ny nz : Nat) {i j k : Nat} (hi : i ≤ nx) (hj : j ≤ ny) (hk : k ≤ nz) :
    (brickNodes X0 Y0 Z0 W D H nx ny nz)[vert nx ny i j k]? = some (point3 X0 Y0 Z0 W D H nx ny nz (i, j, k)) := by
  have h := getElem?_grid3 (nx + 1) (ny + 1) (nz + 1)
    (fun i j k => (X0 + (i : K) * (W / (nx : K)), Y0 + (j : K) * (D / (ny : K)), Z0 + (k : K) * (H / (nz : K))))
    (Nat.lt_succ_of_le hi) (Nat.lt_succ_of_le hj) (Nat.lt_succ_of_le hk)
  unfold brickNodes vert
  refine h.trans ?_
  simp only [tick, point3, Option.some.injEq, Prod.mk.injEq]
  refine ⟨?_, ?_, ?_⟩ <;> ring

/-- The nodes of a brick: as many as announced, at the points that divide the three sides into equal parts, the second
side having the depth and the third the height. -/
theorem C121_brick_nodes {X0 Y0 Z0 W D H : K} {nx ny nz : Nat} {m : Mesh (K × K × K)}
    (hm : brick X0 Y0 Z0 W D H nx ny nz = some m) :
    m.nodes.length = m.numNodes ∧ m.numNodes = (nx + 1) * (ny + 1) * (nz + 1) ∧
      ∀ i j k : Nat, i ≤ nx → j ≤ ny → k ≤ nz →
        m.nodes[vert nx ny i j k]? = some (point3 X0 Y0 Z0 W D H nx ny nz (i, j, k)) := by
  obtain ⟨hx, hy, hz, rfl⟩ := brick_some hm
  exact ⟨length_grid3 (nx + 1) (ny + 1) (nz + 1) _, rfl, fun i j k hi hj hk => brickNodes_at X0 Y0 Z0 W D H nx ny nz hi hj hk⟩

theorem brickRow_eq (nx ny i j k : Nat) :
    brickRow nx ny i j k = hexOffsets.map fun o => vert nx ny (i + o.1) (j + o.2.1) (k + o.2.2) := by
  simp only [brickRow, hexOffsets, vert, List.map_cons, List.map_nil, List.cons.injEq, and_true]
  refine ⟨?_, ?_, ?_, ?_, ?_, ?_, ?_, ?_⟩ <;> ring

theorem brickCells_at {nx ny nz i j k : Nat} (hi : i < nx) (hj : j < ny) (hk : k < nz) :
    (brickCells nx ny nz)[i + nx * j + nx * ny * k]? = some (brickRow nx ny i j k) :=
  getElem?_grid3 nx ny nz (fun i j k => brickRow nx ny i j k) hi hj hk

/-- The corners of a cell of a brick, in the order of the reference hexahedron; the number of cells is the announced one
and a cell past it is not given. -/
theorem C121_brick_cells {X0 Y0 Z0 W D H : K} {nx ny nz : Nat} {m : Mesh (K × K × K)}
    (hm : brick X0 Y0 Z0 W D H nx ny nz = some m) :
    (∀ i j k : Nat, i < nx → j < ny → k < nz → m.getCellNodes [i + nx * j + nx * ny * k] =
      some [hexOffsets.map fun o => point3 X0 Y0 Z0 W D H nx ny nz (shift i j k o)]) ∧
      m.numCells = nx * ny * nz ∧ ∀ c : Nat, m.numCells ≤ c → m.getCellNodes [c] = none := by
  obtain ⟨hx, hy, hz, rfl⟩ := brick_some hm
  refine ⟨fun i j k hi hj hk => ?_, rfl, fun c hc => ?_⟩
  · have hrow : (brickRow nx ny i j k).mapM (fun n => (brickNodes X0 Y0 Z0 W D H nx ny nz)[n]?) =
        some (hexOffsets.map fun o => point3 X0 Y0 Z0 W D H nx ny nz (shift i j k o)) := by
      rw [brickRow_eq, List.mapM_map]
      refine mapM_some _ _ _ fun o ho => ?_
      have : o.1 ≤ 1 ∧ o.2.1 ≤ 1 ∧ o.2.2 ≤ 1 := by
        simp only [hexOffsets, List.mem_cons, List.not_mem_nil, or_false] at ho
        rcases ho with rfl | rfl | rfl | rfl | rfl | rfl | rfl | rfl <;> simp
      exact brickNodes_at X0 Y0 Z0 W D H nx ny nz (by omega) (by omega) (by omega)
    simp only [Mesh.getCellNodes, List.mapM_cons, List.mapM_nil, brickCells_at hi hj hk, Option.bind_eq_bind,
      Option.bind_some, hrow]
    rfl
  · have hlen : (brickCells nx ny nz).length = nx * ny * nz := length_grid3 nx ny nz _
    have : (brickCells nx ny nz)[c]? = none := List.getElem?_eq_none (by rw [hlen]; exact hc)
    simp [Mesh.getCellNodes, this]

/-! ## Edges -/

/-- The number that the brick gives to the edge in direction `d` from vertex `(i, j, k)`.  [specification, no code] -/
def edgeNo (nx ny : Nat) (d i j k : Nat) : Nat :=
  let xy := (nx + 1) * ny + (ny + 1) * nx
  (if d = 0 then i + (2 * nx + 1) * j else if d = 1 then (nx + i) + (2 * nx + 1) * j else xy + (i + (nx + 1) * j)) +
    (xy + (nx + 1) * (ny + 1)) * k

/-- An edge of the grid.  [specification, no code] -/
def EdgeOf (nx ny nz d i j k : Nat) : Prop :=
  (d = 0 ∧ i < nx ∧ j ≤ ny ∧ k ≤ nz) ∨ (d = 1 ∧ i ≤ nx ∧ j < ny ∧ k ≤ nz) ∨ (d = 2 ∧ i ≤ nx ∧ j ≤ ny ∧ k < nz)

theorem edge_low {nx ny nz d i j k : Nat} (h : EdgeOf nx ny nz d i j k) :
    (if d = 0 then i + (2 * nx + 1) * j else if d = 1 then (nx + i) + (2 * nx + 1) * j
      else (nx + 1) * ny + (ny + 1) * nx + (i + (nx + 1) * j)) < (nx + 1) * ny + (ny + 1) * nx + (nx + 1) * (ny + 1) ∧
    ((if d = 0 then i + (2 * nx + 1) * j else if d = 1 then (nx + i) + (2 * nx + 1) * j
      else (nx + 1) * ny + (ny + 1) * nx + (i + (nx + 1) * j)) < (nx + 1) * ny + (ny + 1) * nx ↔ d < 2) := by
  have e : (nx + 1) * ny + (ny + 1) * nx = (2 * nx + 1) * ny + nx := by ring
  rcases h with ⟨rfl, h1, h2, h3⟩ | ⟨rfl, h1, h2, h3⟩ | ⟨rfl, h1, h2, h3⟩
  · have : (2 * nx + 1) * j ≤ (2 * nx + 1) * ny := Nat.mul_le_mul_left _ h2
    simp only [if_true]
    rw [e]
    constructor
    · omega
    · constructor <;> intro <;> omega
  · have : (2 * nx + 1) * (j + 1) ≤ (2 * nx + 1) * ny := Nat.mul_le_mul_left _ h2
    have : (2 * nx + 1) * (j + 1) = (2 * nx + 1) * j + (2 * nx + 1) := by ring
    simp only [one_ne_zero, if_false, if_true]
    rw [e]
    constructor
    · omega
    · constructor <;> intro <;> omega
  · have := lt_block (p := i) (m := nx + 1) (k := j) (n := ny + 1) (by omega) (by omega)
    simp only [show (2 : Nat) ≠ 0 by decide, show (2 : Nat) ≠ 1 by decide, if_false]
    constructor
    · omega
    · constructor <;> intro <;> omega

theorem edgeNo_inj {nx ny nz d i j k d' i' j' k' : Nat} (h : EdgeOf nx ny nz d i j k) (h' : EdgeOf nx ny nz d' i' j' k')
    (he : edgeNo nx ny d i j k = edgeNo nx ny d' i' j' k') : d = d' ∧ i = i' ∧ j = j' ∧ k = k' := by
  unfold edgeNo at he
  simp only at he
  obtain ⟨l1, l2⟩ := edge_low h
  obtain ⟨l1', l2'⟩ := edge_low h'
  obtain ⟨e1, e2⟩ := block_inj l1 l1' he
  have hd : d < 2 ↔ d' < 2 := by rw [← l2, ← l2', e1]
  rcases h with ⟨rfl, a1, a2, a3⟩ | ⟨rfl, a1, a2, a3⟩ | ⟨rfl, a1, a2, a3⟩ <;>
    rcases h' with ⟨rfl, b1, b2, b3⟩ | ⟨rfl, b1, b2, b3⟩ | ⟨rfl, b1, b2, b3⟩
  · simp only [if_true] at e1
    obtain ⟨u, v⟩ := block_inj (by omega) (by omega) e1
    exact ⟨rfl, u, v, e2⟩
  · simp only [if_true, one_ne_zero, if_false] at e1
    obtain ⟨u, v⟩ := block_inj (by omega) (by omega) e1
    omega
  · omega
  · simp only [if_true, one_ne_zero, if_false] at e1
    obtain ⟨u, v⟩ := block_inj (by omega) (by omega) e1
    omega
  · simp only [if_true, one_ne_zero, if_false] at e1
    obtain ⟨u, v⟩ := block_inj (by omega) (by omega) e1
    exact ⟨rfl, by omega, v, e2⟩
  · omega
  · omega
  · omega
  · simp only [show (2 : Nat) ≠ 0 by decide, show (2 : Nat) ≠ 1 by decide, if_false] at e1
    obtain ⟨u, v⟩ := block_inj (m := nx + 1) (by omega) (by omega) (Nat.add_left_cancel e1)
    exact ⟨rfl, u, v, e2⟩

theorem vert_inj {nx ny i j k i' j' k' : Nat} (hi : i ≤ nx) (hj : j ≤ ny) (hi' : i' ≤ nx) (hj' : j' ≤ ny)
    (he : vert nx ny i j k = vert nx ny i' j' k') : i = i' ∧ j = j' ∧ k = k' := by
  unfold vert at he
  obtain ⟨e1, e2⟩ := block_inj (lt_block (by omega) (by omega)) (lt_block (by omega) (by omega)) he
  obtain ⟨e3, e4⟩ := block_inj (m := nx + 1) (by omega) (by omega) e1
  exact ⟨e3, e4, e2⟩

/-- The direction and the offset of the lower end of each of the twelve edges.  [helper] -/
def edgeTable : List (Nat × Nat × Nat × Nat) :=
  [(0, 0, 0, 0), (1, 1, 0, 0), (0, 0, 1, 0), (1, 0, 0, 0), (0, 0, 0, 1), (1, 1, 0, 1), (0, 0, 1, 1), (1, 0, 0, 1),
   (2, 0, 0, 0), (2, 1, 0, 0), (2, 1, 1, 0), (2, 0, 1, 0)]

/-- The upper end of an edge.  [helper] -/
def upper (nx ny d i j k : Nat) : Nat :=
  if d = 0 then vert nx ny (i + 1) j k else if d = 1 then vert nx ny i (j + 1) k else vert nx ny i j (k + 1)

theorem edge_entry {nx ny i j k e : Nat} (he : e < 12) : ∃ d a b c p q : Nat,
    edgeTable[e]? = some (d, a, b, c) ∧ hexEdges[e]? = some (p, q) ∧
    (brickEdgeRow nx ny i j k)[e]? = some (edgeNo nx ny d (i + a) (j + b) (k + c)) ∧
    (((brickRow nx ny i j k)[p]? = some (vert nx ny (i + a) (j + b) (k + c)) ∧
      (brickRow nx ny i j k)[q]? = some (upper nx ny d (i + a) (j + b) (k + c))) ∨
     ((brickRow nx ny i j k)[q]? = some (vert nx ny (i + a) (j + b) (k + c)) ∧
      (brickRow nx ny i j k)[p]? = some (upper nx ny d (i + a) (j + b) (k + c)))) := by
  rw [brickRow_eq]
  have key : ∀ d a b c p q : Nat, edgeTable[e]? = some (d, a, b, c) → hexEdges[e]? = some (p, q) →
      (brickEdgeRow nx ny i j k)[e]? = some (edgeNo nx ny d (i + a) (j + b) (k + c)) →
      ((hexOffsets[p]? = some (a, b, c) ∧
        hexOffsets[q]? = some (if d = 0 then (a + 1, b, c) else if d = 1 then (a, b + 1, c) else (a, b, c + 1))) ∨
       (hexOffsets[q]? = some (a, b, c) ∧
        hexOffsets[p]? = some (if d = 0 then (a + 1, b, c) else if d = 1 then (a, b + 1, c) else (a, b, c + 1)))) →
      ∃ d a b c p q : Nat,
        edgeTable[e]? = some (d, a, b, c) ∧ hexEdges[e]? = some (p, q) ∧
        (brickEdgeRow nx ny i j k)[e]? = some (edgeNo nx ny d (i + a) (j + b) (k + c)) ∧
        (((hexOffsets.map fun o => vert nx ny (i + o.1) (j + o.2.1) (k + o.2.2))[p]? =
              some (vert nx ny (i + a) (j + b) (k + c)) ∧
          (hexOffsets.map fun o => vert nx ny (i + o.1) (j + o.2.1) (k + o.2.2))[q]? =
              some (upper nx ny d (i + a) (j + b) (k + c))) ∨
         ((hexOffsets.map fun o => vert nx ny (i + o.1) (j + o.2.1) (k + o.2.2))[q]? =
              some (vert nx ny (i + a) (j + b) (k + c)) ∧
          (hexOffsets.map fun o => vert nx ny (i + o.1) (j + o.2.1) (k + o.2.2))[p]? =
              some (upper nx ny d (i + a) (j + b) (k + c)))) := by
    intro d a b c p q h1 h2 h3 h4
    refine ⟨d, a, b, c, p, q, h1, h2, h3, ?_⟩
    have hup : ∀ r : Nat, hexOffsets[r]? =
        some (if d = 0 then (a + 1, b, c) else if d = 1 then (a, b + 1, c) else (a, b, c + 1)) →
        (hexOffsets.map fun o => vert nx ny (i + o.1) (j + o.2.1) (k + o.2.2))[r]? =
          some (upper nx ny d (i + a) (j + b) (k + c)) := by
      intro r hr
      rw [List.getElem?_map, hr, Option.map_some, upper]
      by_cases h0 : d = 0
      · simp [h0, Nat.add_assoc]
      · by_cases h1 : d = 1
        · simp [h1, Nat.add_assoc]
        · simp [h0, h1, Nat.add_assoc]
    have hlo : ∀ r : Nat, hexOffsets[r]? = some (a, b, c) →
        (hexOffsets.map fun o => vert nx ny (i + o.1) (j + o.2.1) (k + o.2.2))[r]? =
          some (vert nx ny (i + a) (j + b) (k + c)) := by
      intro r hr
      rw [List.getElem?_map, hr, Option.map_some]
    rcases h4 with ⟨u, v⟩ | ⟨u, v⟩
    · exact Or.inl ⟨hlo p u, hup q v⟩
    · exact Or.inr ⟨hlo q u, hup p v⟩
  interval_cases e
  · exact key 0 0 0 0 0 1 rfl rfl (by simp [brickEdgeRow, edgeNo]; ring) (by decide)
  · exact key 1 1 0 0 1 2 rfl rfl (by simp [brickEdgeRow, edgeNo]; ring) (by decide)
  · exact key 0 0 1 0 2 3 rfl rfl (by simp [brickEdgeRow, edgeNo]; ring) (by decide)
  · exact key 1 0 0 0 3 0 rfl rfl (by simp [brickEdgeRow, edgeNo]; ring) (by decide)
  · exact key 0 0 0 1 4 5 rfl rfl (by simp [brickEdgeRow, edgeNo]; ring) (by decide)
  · exact key 1 1 0 1 5 6 rfl rfl (by simp [brickEdgeRow, edgeNo]; ring) (by decide)
  · exact key 0 0 1 1 6 7 rfl rfl (by simp [brickEdgeRow, edgeNo]; ring) (by decide)
  · exact key 1 0 0 1 7 4 rfl rfl (by simp [brickEdgeRow, edgeNo]; ring) (by decide)
  · exact key 2 0 0 0 0 4 rfl rfl (by simp [brickEdgeRow, edgeNo]; ring) (by decide)
  · exact key 2 1 0 0 1 5 rfl rfl (by simp [brickEdgeRow, edgeNo]; ring) (by decide)
  · exact key 2 1 1 0 2 6 rfl rfl (by simp [brickEdgeRow, edgeNo]; ring) (by decide)
  · exact key 2 0 1 0 3 7 rfl rfl (by simp [brickEdgeRow, edgeNo]; ring) (by decide)

theorem edge_ok {nx ny nz i j k e d a b c : Nat} (hi : i < nx) (hj : j < ny) (hk : k < nz)
    (h : edgeTable[e]? = some (d, a, b, c)) : EdgeOf nx ny nz d (i + a) (j + b) (k + c) := by
  have hmem : (d, a, b, c) ∈ edgeTable := List.mem_of_getElem? h
  simp only [edgeTable, List.mem_cons, List.not_mem_nil, or_false, Prod.mk.injEq] at hmem
  unfold EdgeOf
  omega

theorem vert_lt_upper (nx ny d i j k : Nat) : vert nx ny i j k < upper nx ny d i j k := by
  unfold upper vert
  have e1 : (nx + 1) * (j + 1) = (nx + 1) * j + (nx + 1) := by ring
  have e2 : (nx + 1) * (ny + 1) * (k + 1) = (nx + 1) * (ny + 1) * k + (nx + 1) * (ny + 1) := by ring
  have e3 : 0 < (nx + 1) * (ny + 1) := Nat.mul_pos (Nat.succ_pos _) (Nat.succ_pos _)
  split
  · omega
  · split <;> omega

theorem upper_inj {nx ny nz d i j k d' i' j' k' : Nat} (h : EdgeOf nx ny nz d i j k) (h' : EdgeOf nx ny nz d' i' j' k')
    (hv : vert nx ny i j k = vert nx ny i' j' k') (hu : upper nx ny d i j k = upper nx ny d' i' j' k') :
    d = d' ∧ i = i' ∧ j = j' ∧ k = k' := by
  have b1 : i ≤ nx ∧ j ≤ ny := by unfold EdgeOf at h; omega
  have b2 : i' ≤ nx ∧ j' ≤ ny := by unfold EdgeOf at h'; omega
  obtain ⟨rfl, rfl, rfl⟩ := vert_inj b1.1 b1.2 b2.1 b2.2 hv
  refine ⟨?_, rfl, rfl, rfl⟩
  unfold EdgeOf at h h'
  rcases h with ⟨rfl, a1, a2, a3⟩ | ⟨rfl, a1, a2, a3⟩ | ⟨rfl, a1, a2, a3⟩ <;>
    rcases h' with ⟨rfl, c1, c2, c3⟩ | ⟨rfl, c1, c2, c3⟩ | ⟨rfl, c1, c2, c3⟩ <;>
    simp only [upper, one_ne_zero, if_true, if_false, show (2 : Nat) ≠ 0 by decide, show (2 : Nat) ≠ 1 by decide] at hu <;>
    first
    | rfl
    | (have := vert_inj (by omega) (by omega) (by omega) (by omega) hu; omega)

/-- The edges of a brick: the entry of an edge in the map from cells to edges is below the announced number of edges; two
entries are the same number exactly when the two edges have the same two nodes; and every number below the announced one
is an edge of some cell. -/
theorem C121_brick_edges {X0 Y0 Z0 W D H : K} {nx ny nz : Nat} {m : Mesh (K × K × K)}
    (hm : brick X0 Y0 Z0 W D H nx ny nz = some m) :
    (∀ c e : Nat, c < m.numCells → e < 12 → ∃ (row nodes : List Nat) (n p q u v : Nat),
        m.cellToEdge[c]? = some row ∧ row[e]? = some n ∧ n < m.numEdges ∧ m.cellToNode[c]? = some nodes ∧
        hexEdges[e]? = some (p, q) ∧ nodes[p]? = some u ∧ nodes[q]? = some v ∧
        ∀ (c' e' : Nat) (row' nodes' : List Nat) (n' p' q' u' v' : Nat), e' < 12 →
          m.cellToEdge[c']? = some row' → row'[e']? = some n' → m.cellToNode[c']? = some nodes' →
          hexEdges[e']? = some (p', q') → nodes'[p']? = some u' → nodes'[q']? = some v' →
          (n' = n ↔ (u' = u ∧ v' = v) ∨ (u' = v ∧ v' = u))) ∧
    (∀ n : Nat, n < m.numEdges → ∃ (c e : Nat) (row : List Nat), m.cellToEdge[c]? = some row ∧ row[e]? = some n) := by
  obtain ⟨hx, hy, hz, rfl⟩ := brick_some hm
  have hcells : ∀ i j k : Nat, i < nx → j < ny → k < nz →
      (brickEdges nx ny nz)[i + nx * j + nx * ny * k]? = some (brickEdgeRow nx ny i j k) := fun i j k hi hj hk =>
    getElem?_grid3 nx ny nz (fun i j k => brickEdgeRow nx ny i j k) hi hj hk
  have hsplit : ∀ c : Nat, c < nx * ny * nz → ∃ i j k : Nat, i < nx ∧ j < ny ∧ k < nz ∧ c = i + nx * j + nx * ny * k := by
    intro c hc
    obtain ⟨h1, h2, h3⟩ := block_split hc
    obtain ⟨g1, g2, g3⟩ := block_split h1
    exact ⟨_, _, _, g1, g2, h2, by omega⟩
  have hlen : (brickEdges nx ny nz).length = nx * ny * nz := length_grid3 nx ny nz _
  have entry : ∀ c e : Nat, c < nx * ny * nz → e < 12 → ∃ (row nodes : List Nat) (d i j k p q u v : Nat),
      (brickEdges nx ny nz)[c]? = some row ∧ row[e]? = some (edgeNo nx ny d i j k) ∧ EdgeOf nx ny nz d i j k ∧
      (brickCells nx ny nz)[c]? = some nodes ∧ hexEdges[e]? = some (p, q) ∧ nodes[p]? = some u ∧ nodes[q]? = some v ∧
      ((u = vert nx ny i j k ∧ v = upper nx ny d i j k) ∨ (v = vert nx ny i j k ∧ u = upper nx ny d i j k)) := by
    intro c e hc he
    obtain ⟨i, j, k, hi, hj, hk, rfl⟩ := hsplit c hc
    obtain ⟨d, a, b, g, p, q, t1, t2, t3, t4⟩ := edge_entry (nx := nx) (ny := ny) (i := i) (j := j) (k := k) he
    rcases t4 with ⟨t4, t5⟩ | ⟨t4, t5⟩
    · exact ⟨_, _, d, _, _, _, p, q, _, _, hcells i j k hi hj hk, t3, edge_ok hi hj hk t1, brickCells_at hi hj hk, t2, t4,
        t5, Or.inl ⟨rfl, rfl⟩⟩
    · exact ⟨_, _, d, _, _, _, p, q, _, _, hcells i j k hi hj hk, t3, edge_ok hi hj hk t1, brickCells_at hi hj hk, t2, t5,
        t4, Or.inr ⟨rfl, rfl⟩⟩
  have hbound : ∀ d i j k : Nat, EdgeOf nx ny nz d i j k → edgeNo nx ny d i j k <
      ((nx + 1) * ny + (ny + 1) * nx) * (nz + 1) + (nx + 1) * (ny + 1) * nz := by
    intro d i j k h
    obtain ⟨l1, l2⟩ := edge_low h
    have e : ((nx + 1) * ny + (ny + 1) * nx) * (nz + 1) + (nx + 1) * (ny + 1) * nz =
        ((nx + 1) * ny + (ny + 1) * nx + (nx + 1) * (ny + 1)) * nz + ((nx + 1) * ny + (ny + 1) * nx) := by ring
    rw [e]
    unfold edgeNo
    simp only
    generalize hL : (if d = 0 then i + (2 * nx + 1) * j else if d = 1 then (nx + i) + (2 * nx + 1) * j
      else (nx + 1) * ny + (ny + 1) * nx + (i + (nx + 1) * j)) = L at l1 l2 ⊢
    by_cases hk : k = nz
    · have : d < 2 := by unfold EdgeOf at h; omega
      have := l2.mpr this
      subst hk
      omega
    · have : k < nz := by unfold EdgeOf at h; omega
      have := lt_block l1 this
      omega
  refine ⟨fun c e hc he => ?_, fun n hn => ?_⟩
  · obtain ⟨row, nodes, d, i, j, k, p, q, u, v, h1, h2, h3, h4, h5, h6, h7, h8⟩ := entry c e hc he
    refine ⟨row, nodes, _, p, q, u, v, h1, h2, hbound d i j k h3, h4, h5, h6, h7, ?_⟩
    intro c' e' row' nodes' n' p' q' u' v' he' g1 g2 g3 g4 g5 g6
    have hc' : c' < nx * ny * nz := by
      rw [← hlen]
      exact (List.getElem?_eq_some_iff.mp g1).1
    obtain ⟨row2, nodes2, d', i', j', k', p2, q2, u2, v2, f1, f2, f3, f4, f5, f6, f7, f8⟩ := entry c' e' hc' he'
    simp only at g1 g3
    rw [g1] at f1
    obtain rfl := Option.some.inj f1
    rw [g2] at f2
    obtain rfl := Option.some.inj f2
    rw [g3] at f4
    obtain rfl := Option.some.inj f4
    rw [g4] at f5
    obtain ⟨rfl, rfl⟩ := Prod.mk.inj (Option.some.inj f5)
    rw [g5] at f6
    obtain rfl := Option.some.inj f6
    rw [g6] at f7
    obtain rfl := Option.some.inj f7
    have o1 := vert_lt_upper nx ny d i j k
    have o2 := vert_lt_upper nx ny d' i' j' k'
    constructor
    · intro he
      obtain ⟨rfl, rfl, rfl, rfl⟩ := edgeNo_inj f3 h3 he
      rcases h8 with ⟨rfl, rfl⟩ | ⟨rfl, rfl⟩ <;> rcases f8 with ⟨rfl, rfl⟩ | ⟨rfl, rfl⟩ <;> simp
    · intro hs
      have hkey : vert nx ny i' j' k' = vert nx ny i j k ∧ upper nx ny d' i' j' k' = upper nx ny d i j k := by
        rcases h8 with ⟨a1, a2⟩ | ⟨a1, a2⟩ <;> rcases f8 with ⟨b1, b2⟩ | ⟨b1, b2⟩ <;> rcases hs with ⟨s1, s2⟩ | ⟨s1, s2⟩ <;>
          omega
      obtain ⟨rfl, rfl, rfl, rfl⟩ := upper_inj f3 h3 hkey.1 hkey.2
      rfl
  · have hn' : n < ((nx + 1) * ny + (ny + 1) * nx) * (nz + 1) + (nx + 1) * (ny + 1) * nz := hn
    have exy : (nx + 1) * ny + (ny + 1) * nx = nx + (2 * nx + 1) * ny := by ring
    have e : ((nx + 1) * ny + (ny + 1) * nx) * (nz + 1) + (nx + 1) * (ny + 1) * nz =
        ((nx + 1) * ny + (ny + 1) * nx + (nx + 1) * (ny + 1)) * nz + ((nx + 1) * ny + (ny + 1) * nx) := by ring
    rw [e] at hn'
    have hpos : 0 < (nx + 1) * (ny + 1) := Nat.mul_pos (Nat.succ_pos _) (Nat.succ_pos _)
    -- the layer, and the direction and place in it
    obtain ⟨d, i, j, k, hed, hno⟩ : ∃ d i j k : Nat, EdgeOf nx ny nz d i j k ∧ n = edgeNo nx ny d i j k := by
      set M := (nx + 1) * ny + (ny + 1) * nx + (nx + 1) * (ny + 1) with hM
      have hn1 : n < M * (nz + 1) := by
        have : M * (nz + 1) = M * nz + M := by ring
        omega
      obtain ⟨g1, g2, g3⟩ := block_split hn1
      have hkz : ¬ n % M < (nx + 1) * ny + (ny + 1) * nx → n / M < nz := by
        intro hge
        by_contra hnot
        have : n / M = nz := by omega
        rw [this] at g3
        omega
      by_cases hlow : n % M < (nx + 1) * ny + (ny + 1) * nx
      · have hr : n % M < (2 * nx + 1) * (ny + 1) := by
          have : (2 * nx + 1) * (ny + 1) = (2 * nx + 1) * ny + (2 * nx + 1) := by ring
          omega
        obtain ⟨r1, r2, r3⟩ := block_split hr
        by_cases hq : n % M % (2 * nx + 1) < nx
        · refine ⟨0, n % M % (2 * nx + 1), n % M / (2 * nx + 1), n / M, Or.inl ⟨rfl, hq, by omega, by omega⟩, ?_⟩
          unfold edgeNo
          simp only [if_true]
          rw [← r3]
          exact g3
        · have hj : n % M / (2 * nx + 1) < ny := by
            by_contra hnot
            have : n % M / (2 * nx + 1) = ny := by omega
            rw [this] at r3
            omega
          refine ⟨1, n % M % (2 * nx + 1) - nx, n % M / (2 * nx + 1), n / M,
            Or.inr (Or.inl ⟨rfl, by omega, hj, by omega⟩), ?_⟩
          unfold edgeNo
          simp only [one_ne_zero, if_true, if_false]
          rw [show nx + (n % M % (2 * nx + 1) - nx) = n % M % (2 * nx + 1) by omega, ← r3]
          exact g3
      · have hr : n % M - ((nx + 1) * ny + (ny + 1) * nx) < (nx + 1) * (ny + 1) := by omega
        obtain ⟨r1, r2, r3⟩ := block_split hr
        refine ⟨2, _, _, n / M, Or.inr (Or.inr ⟨rfl, Nat.lt_succ_iff.mp r1, Nat.lt_succ_iff.mp r2, hkz hlow⟩), ?_⟩
        unfold edgeNo
        simp only [show (2 : Nat) ≠ 0 by decide, show (2 : Nat) ≠ 1 by decide, if_false]
        rw [← r3, show (nx + 1) * ny + (ny + 1) * nx + (n % M - ((nx + 1) * ny + (ny + 1) * nx)) = n % M by omega]
        exact g3
    -- a cell with that edge
    have pick : ∀ {a t : Nat}, a ≤ t → 0 < t → ∃ b o : Nat, b < t ∧ o ≤ 1 ∧ a = b + o := by
      intro a t h1 h2
      by_cases h : a < t
      · exact ⟨a, 0, h, by omega, rfl⟩
      · exact ⟨t - 1, 1, by omega, le_rfl, by omega⟩
    have fin : ∀ e d i j k a b c : Nat, e < 12 → edgeTable[e]? = some (d, a, b, c) → i < nx → j < ny → k < nz →
        ∃ (c' e : Nat) (row : List Nat), (brickEdges nx ny nz)[c']? = some row ∧
          row[e]? = some (edgeNo nx ny d (i + a) (j + b) (k + c)) := by
      intro e d i j k a b c he ht hi hj hk
      obtain ⟨d', a', b', c', p, q, t1, t2, t3, t4⟩ := edge_entry (nx := nx) (ny := ny) (i := i) (j := j) (k := k) he
      rw [ht] at t1
      simp only [Option.some.injEq, Prod.mk.injEq] at t1
      obtain ⟨rfl, rfl, rfl, rfl⟩ := t1
      exact ⟨_, e, _, hcells i j k hi hj hk, t3⟩
    rw [hno]
    show ∃ (c e : Nat) (row : List Nat), (brickEdges nx ny nz)[c]? = some row ∧ row[e]? = some (edgeNo nx ny d i j k)
    rcases hed with ⟨rfl, h1, h2, h3⟩ | ⟨rfl, h1, h2, h3⟩ | ⟨rfl, h1, h2, h3⟩
    · obtain ⟨j, o, b1, b2, rfl⟩ := pick h2 hy
      obtain ⟨k, o', d1, d2, rfl⟩ := pick h3 hz
      interval_cases o <;> interval_cases o'
      · exact fin 0 0 i j k 0 0 0 (by decide) rfl h1 b1 d1
      · exact fin 4 0 i j k 0 0 1 (by decide) rfl h1 b1 d1
      · exact fin 2 0 i j k 0 1 0 (by decide) rfl h1 b1 d1
      · exact fin 6 0 i j k 0 1 1 (by decide) rfl h1 b1 d1
    · obtain ⟨i, o, b1, b2, rfl⟩ := pick h1 hx
      obtain ⟨k, o', d1, d2, rfl⟩ := pick h3 hz
      interval_cases o <;> interval_cases o'
      · exact fin 3 1 i j k 0 0 0 (by decide) rfl b1 h2 d1
      · exact fin 7 1 i j k 0 0 1 (by decide) rfl b1 h2 d1
      · exact fin 1 1 i j k 1 0 0 (by decide) rfl b1 h2 d1
      · exact fin 5 1 i j k 1 0 1 (by decide) rfl b1 h2 d1
    · obtain ⟨i, o, b1, b2, rfl⟩ := pick h1 hx
      obtain ⟨j, o', d1, d2, rfl⟩ := pick h2 hy
      interval_cases o <;> interval_cases o'
      · exact fin 8 2 i j k 0 0 0 (by decide) rfl b1 d1 h3
      · exact fin 11 2 i j k 0 1 0 (by decide) rfl b1 d1 h3
      · exact fin 9 2 i j k 1 0 0 (by decide) rfl b1 d1 h3
      · exact fin 10 2 i j k 1 1 0 (by decide) rfl b1 d1 h3

end brick

/-! ## Sides of the brick -/

theorem nodup_grid {α : Type} (nx ny : Nat) (f : Nat → Nat → α)
    (hf : ∀ i j i' j' : Nat, i < nx → j < ny → i' < nx → j' < ny → f i j = f i' j' → i = i' ∧ j = j') :
    ((List.range ny).flatMap fun j => (List.range nx).map fun i => f i j).Nodup := by
  rw [List.nodup_iff_getElem?_ne_getElem?]
  intro a b hab hb he
  rw [length_grid] at hb
  obtain ⟨a1, a2, a3⟩ := block_split (lt_trans hab hb)
  obtain ⟨b1, b2, b3⟩ := block_split hb
  have e1 := getElem?_grid nx ny f a1 a2
  have e2 := getElem?_grid nx ny f b1 b2
  rw [← a3] at e1
  rw [← b3] at e2
  rw [e1, e2] at he
  obtain ⟨h1, h2⟩ := hf _ _ _ _ a1 a2 b1 b2 (Option.some.inj he)
  rw [h1, h2] at a3
  omega

theorem cell_no_inj {nx ny i j k i' j' k' : Nat} (hi : i < nx) (hj : j < ny) (hi' : i' < nx) (hj' : j' < ny)
    (h : ((i + nx * j + nx * ny * k : Nat) : Int) = ((i' + nx * j' + nx * ny * k' : Nat) : Int)) :
    i = i' ∧ j = j' ∧ k = k' := by
  have h' : i + nx * j + nx * ny * k = i' + nx * j' + nx * ny * k' := by exact_mod_cast h
  obtain ⟨e1, e2⟩ := block_inj (lt_block hi hj) (lt_block hi' hj') h'
  obtain ⟨e3, e4⟩ := block_inj hi hi' e1
  exact ⟨e3, e4, e2⟩

/-- The cells next to face `s`.  [helper] -/
def AtFace (nx ny nz s i j k : Nat) : Prop :=
  if s = 0 then j = 0 else if s = 1 then i + 1 = nx else if s = 2 then j + 1 = ny else if s = 3 then i = 0
  else if s = 4 then k = 0 else k + 1 = nz

theorem brickSides_at {nx ny nz s : Nat} (hx : 0 < nx) (hy : 0 < ny) (hz : 0 < nz) (hs : s < 6) :
    ∃ l : List Int, (brickSides nx ny nz)[s]? = some l ∧ l.Nodup ∧ ∀ z : Int, z ∈ l ↔
      ∃ i j k : Nat, i < nx ∧ j < ny ∧ k < nz ∧ AtFace nx ny nz s i j k ∧
        z = ((i + nx * j + nx * ny * k : Nat) : Int) := by
  obtain ⟨x, rfl⟩ : ∃ x, nx = x + 1 := ⟨nx - 1, by omega⟩
  obtain ⟨y, rfl⟩ : ∃ y, ny = y + 1 := ⟨ny - 1, by omega⟩
  obtain ⟨w, rfl⟩ : ∃ w, nz = w + 1 := ⟨nz - 1, by omega⟩
  interval_cases s
  · refine ⟨_, rfl, nodup_grid (x + 1) (w + 1) (fun i j => (i : Int) + ((x + 1 : Nat) : Int) * ((y + 1 : Nat) : Int) * j)
      ?_, fun z => ?_⟩
    · intro i j i' j' hi hj hi' hj' he
      have := cell_no_inj (nx := x + 1) (ny := y + 1) (j := 0) (j' := 0) (k := j) (k' := j') hi (by omega) hi' (by omega)
        (by push_cast at he ⊢; linarith)
      omega
    · simp only [List.mem_flatMap, List.mem_map, List.mem_range]
      constructor
      · rintro ⟨k, hk, i, hi, rfl⟩
        exact ⟨i, 0, k, hi, by omega, hk, by simp [AtFace], by push_cast; ring⟩
      · rintro ⟨i, j, k, hi, hj, hk, hf, rfl⟩
        simp [AtFace] at hf
        subst hf
        exact ⟨k, hk, i, hi, by push_cast; ring⟩
  · refine ⟨_, rfl, nodup_grid (y + 1) (w + 1)
      (fun i j => ((i : Int) + 1) * ((x + 1 : Nat) : Int) - 1 + ((x + 1 : Nat) : Int) * ((y + 1 : Nat) : Int) * j)
      ?_, fun z => ?_⟩
    · intro i j i' j' hi hj hi' hj' he
      have := cell_no_inj (nx := x + 1) (ny := y + 1) (i := x) (i' := x) (j := i) (j' := i') (k := j) (k' := j') (by omega)
        hi (by omega) hi' (by push_cast at he ⊢; linarith)
      omega
    · simp only [List.mem_flatMap, List.mem_map, List.mem_range]
      constructor
      · rintro ⟨k, hk, j, hj, rfl⟩
        exact ⟨x, j, k, by omega, hj, hk, by simp [AtFace], by push_cast; ring⟩
      · rintro ⟨i, j, k, hi, hj, hk, hf, rfl⟩
        simp [AtFace] at hf
        subst hf
        exact ⟨k, hk, j, hj, by push_cast; ring⟩
  · refine ⟨_, rfl, nodup_grid (x + 1) (w + 1)
      (fun i j => ((x + 1 : Nat) : Int) * (((y + 1 : Nat) : Int) - 1) + i +
        ((x + 1 : Nat) : Int) * ((y + 1 : Nat) : Int) * j) ?_, fun z => ?_⟩
    · intro i j i' j' hi hj hi' hj' he
      have := cell_no_inj (nx := x + 1) (ny := y + 1) (i := i) (i' := i') (j := y) (j' := y) (k := j) (k' := j') hi
        (by omega) hi' (by omega) (by push_cast at he ⊢; linarith)
      omega
    · simp only [List.mem_flatMap, List.mem_map, List.mem_range]
      constructor
      · rintro ⟨k, hk, i, hi, rfl⟩
        exact ⟨i, y, k, hi, by omega, hk, by simp [AtFace], by push_cast; ring⟩
      · rintro ⟨i, j, k, hi, hj, hk, hf, rfl⟩
        simp [AtFace] at hf
        subst hf
        exact ⟨k, hk, i, hi, by push_cast; ring⟩
  · refine ⟨_, rfl, nodup_grid (y + 1) (w + 1)
      (fun i j => (i : Int) * ((x + 1 : Nat) : Int) + ((x + 1 : Nat) : Int) * ((y + 1 : Nat) : Int) * j)
      ?_, fun z => ?_⟩
    · intro i j i' j' hi hj hi' hj' he
      have := cell_no_inj (nx := x + 1) (ny := y + 1) (i := 0) (i' := 0) (j := i) (j' := i') (k := j) (k' := j') (by omega)
        hi (by omega) hi' (by push_cast at he ⊢; linarith)
      omega
    · simp only [List.mem_flatMap, List.mem_map, List.mem_range]
      constructor
      · rintro ⟨k, hk, j, hj, rfl⟩
        exact ⟨0, j, k, by omega, hj, hk, by simp [AtFace], by push_cast; ring⟩
      · rintro ⟨i, j, k, hi, hj, hk, hf, rfl⟩
        simp [AtFace] at hf
        subst hf
        exact ⟨k, hk, j, hj, by push_cast; ring⟩
  · refine ⟨_, rfl, nodup_grid (x + 1) (y + 1) (fun i j => (i : Int) + ((x + 1 : Nat) : Int) * j) ?_, fun z => ?_⟩
    · intro i j i' j' hi hj hi' hj' he
      have := cell_no_inj (nx := x + 1) (ny := y + 1) (i := i) (i' := i') (j := j) (j' := j') (k := 0) (k' := 0) hi
        hj hi' hj' (by push_cast at he ⊢; linarith)
      omega
    · simp only [List.mem_flatMap, List.mem_map, List.mem_range]
      constructor
      · rintro ⟨j, hj, i, hi, rfl⟩
        exact ⟨i, j, 0, hi, hj, by omega, by simp [AtFace], by push_cast; ring⟩
      · rintro ⟨i, j, k, hi, hj, hk, hf, rfl⟩
        simp [AtFace] at hf
        subst hf
        exact ⟨j, hj, i, hi, by push_cast; ring⟩
  · refine ⟨_, rfl, nodup_grid (x + 1) (y + 1)
      (fun i j => (i : Int) + ((x + 1 : Nat) : Int) * j +
        ((x + 1 : Nat) : Int) * ((y + 1 : Nat) : Int) * (((w + 1 : Nat) : Int) - 1)) ?_, fun z => ?_⟩
    · intro i j i' j' hi hj hi' hj' he
      have := cell_no_inj (nx := x + 1) (ny := y + 1) (i := i) (i' := i') (j := j) (j' := j') (k := w) (k' := w) hi
        hj hi' hj' (by push_cast at he ⊢; linarith)
      omega
    · simp only [List.mem_flatMap, List.mem_map, List.mem_range]
      constructor
      · rintro ⟨j, hj, i, hi, rfl⟩
        exact ⟨i, j, w, hi, hj, by omega, by simp [AtFace], by push_cast; ring⟩
      · rintro ⟨i, j, k, hi, hj, hk, hf, rfl⟩
        simp [AtFace] at hf
        subst hf
        exact ⟨j, hj, i, hi, by push_cast; ring⟩

/-- The side set of a brick lists, for each local side, exactly the cells that have that side on the boundary of the box,
each once. -/
theorem C121_brick_sides [Field K] [CharZero K] {X0 Y0 Z0 W D H : K} {nx ny nz : Nat} {m : Mesh (K × K × K)}
    (hm : brick X0 Y0 Z0 W D H nx ny nz = some m) (hW : W ≠ 0) (hD : D ≠ 0) (hH : H ≠ 0) :
    m.sides.length = 6 ∧ ∀ s : Nat, s < 6 → ∃ l : List Int, m.sides[s]? = some l ∧ l.Nodup ∧
      ∀ z : Int, z ∈ l ↔ ∃ (c : Nat) (cell : List (K × K × K)) (side : List Nat), z = c ∧
        m.getCellNodes [c] = some [cell] ∧ hexSides[s]? = some side ∧
        ∀ v ∈ side, ∃ p : K × K × K, cell[v]? = some p ∧ OnFace X0 Y0 Z0 W D H s p := by
  have hm' := hm
  have hcells := C121_brick_cells hm
  obtain ⟨hx, hy, hz, rfl⟩ := brick_some hm
  refine ⟨rfl, fun s hs => ?_⟩
  obtain ⟨l, h1, h2, h3⟩ := brickSides_at hx hy hz hs
  refine ⟨l, h1, h2, fun z => ?_⟩
  rw [h3 z]
  have lo : ∀ (a L : K) (n i : Nat), L ≠ 0 → 0 < n → (tick a L n i = a ↔ i = 0) := fun a L n i hL hn =>
    ⟨fun h => tick_inj hL hn (h.trans (tick_zero a L n).symm), fun h => by rw [h, tick_zero]⟩
  have up : ∀ (a L : K) (n i : Nat), L ≠ 0 → 0 < n → (tick a L n i = a + L ↔ i = n) := fun a L n i hL hn =>
    ⟨fun h => tick_inj hL hn (h.trans (tick_last a L hn).symm), fun h => by rw [h, tick_last _ _ hn]⟩
  have face : ∀ i j k : Nat, (∃ side : List Nat, hexSides[s]? = some side ∧ ∀ v ∈ side, ∃ p : K × K × K,
      (hexOffsets.map fun o => point3 X0 Y0 Z0 W D H nx ny nz (shift i j k o))[v]? = some p ∧
        OnFace X0 Y0 Z0 W D H s p) ↔ AtFace nx ny nz s i j k := by
    intro i j k
    interval_cases s <;>
      simp [hexSides, hexOffsets, point3, shift, OnFace, AtFace, lo _ _ _ _ hW hx, lo _ _ _ _ hD hy, lo _ _ _ _ hH hz,
        up _ _ _ _ hW hx, up _ _ _ _ hD hy, up _ _ _ _ hH hz]
  constructor
  · rintro ⟨i, j, k, hi, hj, hk, hf, rfl⟩
    obtain ⟨side, g1, g2⟩ := (face i j k).mpr hf
    exact ⟨_, _, side, rfl, hcells.1 i j k hi hj hk, g1, g2⟩
  · rintro ⟨c, cell, side, rfl, g0, g1, g2⟩
    have hc : c < nx * ny * nz := by
      by_contra hc
      rw [hcells.2.2 c (not_lt.mp hc)] at g0
      simp at g0
    obtain ⟨a1, a2, a3⟩ := block_split hc
    obtain ⟨b1, b2, b3⟩ := block_split a1
    have e : c = c % (nx * ny) % nx + nx * (c % (nx * ny) / nx) + nx * ny * (c / (nx * ny)) := by
      rw [← b3]
      exact a3
    have h := hcells.1 _ _ _ b1 b2 a2
    rw [← e] at h
    rw [h] at g0
    simp only [Option.some.injEq, List.cons.injEq, and_true] at g0
    subst g0
    exact ⟨_, _, _, b1, b2, a2, (face _ _ _).mp ⟨side, g1, g2⟩, by rw [← e]⟩

example : ∃ m, brick (0 : Rat) 0 0 1 2 3 2 3 4 = some m ∧ m.numCells = 24 ∧ m.numEdges = 133 := ⟨_, rfl, rfl, rfl⟩

/-! ## The interfaces (C122) -/

section use
variable [Field K]

/-- In two dimensions on one process, the mesh with the sublist `Mesh` is the rectangle with the given limits and numbers
of cells. -/
theorem C122_rectangle_partial [CharZero K] {b : Box K} {m : Mesh (K × K)} (hm : mesh2 (geometry b) = some m) :
    m.numCells = b.NX * b.NY ∧ m.nodes[0]? = some (b.xmin, b.ymin) ∧
      m.nodes[m.numNodes - 1]? = some (b.xmax, b.ymax) ∧
      ∀ i j : Nat, i ≤ b.NX → j ≤ b.NY → m.nodes[j * (b.NX + 1) + i]? =
        some (tick b.xmin (b.xmax - b.xmin) b.NX i, tick b.ymin (b.ymax - b.ymin) b.NY j) := by
  have h := C121_nodes hm
  refine ⟨(C121_cells hm [] (by simp)).2.1, h.2.2.2.1, ?_, h.2.2.1⟩
  have := h.2.2.2.2.1
  simpa [geometry] using this

/-- In three dimensions the limits of the second and third direction are exchanged: the far corner of the mesh has the
`y` of the bottom plus the extent in `z`, and the other way round; it is the wanted corner only if the two extents are
equal. -/
theorem C122_brick_violated [CharZero K] {b : Box K} {m : Mesh (K × K × K)} (hm : mesh3 (geometry b) = some m) :
    m.nodes[vert b.NX b.NY b.NX b.NY b.NZ]? =
        some (b.xmax, b.ymin + (b.zmax - b.zmin), b.zmin + (b.ymax - b.ymin)) ∧
      (m.nodes[vert b.NX b.NY b.NX b.NY b.NZ]? = some (b.xmax, b.ymax, b.zmax) ↔
        b.ymax - b.ymin = b.zmax - b.zmin) := by
  obtain ⟨hx, hy, hz, -⟩ := brick_some hm
  have h := (C121_brick_nodes hm).2.2 b.NX b.NY b.NZ le_rfl le_rfl le_rfl
  have e : m.nodes[vert b.NX b.NY b.NX b.NY b.NZ]? =
      some (b.xmax, b.ymin + (b.zmax - b.zmin), b.zmin + (b.ymax - b.ymin)) := by
    refine h.trans ?_
    simp only [point3, geometry] at hx hy hz ⊢
    rw [tick_last _ _ hx, tick_last _ _ hy, tick_last _ _ hz]
    congr 2
    ring
  refine ⟨e, ?_⟩
  rw [e]
  simp only [Option.some.injEq, Prod.mk.injEq, true_and]
  constructor
  · rintro ⟨h1, -⟩
    linear_combination -h1
  · intro h1
    constructor
    · linear_combination -h1
    · linear_combination h1

example : ∃ m, mesh3 (geometry ({ xmin := 0, xmax := 1, ymin := 0, ymax := 1, zmin := 0, zmax := 2, NX := 2, NY := 2, NZ := 4 }
    : Box Rat)) = some m ∧ (1, 2, 1) ∈ m.nodes ∧ (1, 1, 2) ∉ m.nodes := by
  refine ⟨_, rfl, ?_, ?_⟩ <;> decide +kernel

/-- The mesh of the phase space has the wanted far corner only if the lower limits of the phase space are those of the
physical mesh, because these are subtracted instead of its own. -/
theorem C122_phase_violated [CharZero K] {b ph : Box K} {m : Mesh (K × K)} (hm : mesh2 (phaseGeometry b ph) = some m) :
    m.nodes[m.numNodes - 1]? = some (ph.xmax + (ph.xmin - b.xmin), ph.ymax + (ph.ymin - b.ymin)) ∧
      (m.nodes[m.numNodes - 1]? = some (ph.xmax, ph.ymax) ↔ ph.xmin = b.xmin ∧ ph.ymin = b.ymin) := by
  have h := (C121_nodes hm).2.2.2.2.1
  have e : m.nodes[m.numNodes - 1]? = some (ph.xmax + (ph.xmin - b.xmin), ph.ymax + (ph.ymin - b.ymin)) := by
    refine h.trans ?_
    simp only [phaseGeometry, Option.some.injEq, Prod.mk.injEq]
    constructor <;> ring
  refine ⟨e, ?_⟩
  rw [e]
  simp [sub_eq_zero]

/-- The mesh of a phase space in three dimensions: the far corner, with the lower limits of the physical mesh subtracted and
the second and third extents exchanged. -/
theorem C122_phase_brick_violated [CharZero K] {b ph : Box K} {m : Mesh (K × K × K)} (hm : mesh3 (phaseGeometry b ph) = some m) :
    m.nodes[vert ph.NX ph.NY ph.NX ph.NY ph.NZ]? =
      some (ph.xmax + (ph.xmin - b.xmin), ph.ymin + (ph.zmax - b.zmin), ph.zmin + (ph.ymax - b.ymin)) := by
  obtain ⟨hx, hy, hz, -⟩ := brick_some hm
  have h := (C121_brick_nodes hm).2.2 ph.NX ph.NY ph.NZ le_rfl le_rfl le_rfl
  refine h.trans ?_
  simp only [point3, phaseGeometry] at hx hy hz ⊢
  rw [tick_last _ _ hx, tick_last _ _ hy, tick_last _ _ hz]
  congr 2
  ring

example : ∃ m, mesh3 (phaseGeometry
    ({ xmin := 0, xmax := 1, ymin := 0, ymax := 1, zmin := 0, zmax := 1, NX := 1, NY := 1, NZ := 1 } : Box Rat)
    { xmin := -5, xmax := 5, ymin := -5, ymax := 5, zmin := -1, zmax := 1, NX := 2, NY := 2, NZ := 1 }) = some m ∧
    (0, -4, 4) ∈ m.nodes := by
  refine ⟨_, rfl, ?_⟩
  decide +kernel

example : ∃ m, mesh2 (phaseGeometry
    ({ xmin := 0, xmax := 1, ymin := 0, ymax := 1, zmin := 0, zmax := 1, NX := 1, NY := 1, NZ := 1 } : Box Rat)
    { xmin := -5, xmax := 5, ymin := -5, ymax := 5, zmin := 0, zmax := 1, NX := 2, NY := 2, NZ := 1 }) = some m ∧
    m.nodes[m.numNodes - 1]? = some (0, 0) := by
  refine ⟨_, rfl, ?_⟩
  decide +kernel

end use

/-! ## Degrees of freedom on simple meshes -/

theorem foldl_count (ph : Nat) (hph : 0 < ph) (sh : Nat → Bool) (l : List Nat) (n : Nat) :
    l.foldl (fun n i => if !sh i then (if ph > 0 then n + 1 else n) else n) n =
      n + (l.filter fun i => !sh i).length := by
  induction l generalizing n with
  | nil => simp
  | cons a l ih =>
    rw [List.foldl_cons, ih]
    cases h : sh a <;> simp [h, hph]
    omega

theorem foldlM_fill (size : Nat) (sh : Nat → Bool) (g : Nat → Nat) (l : List Nat) (acc : List Nat)
    (h : acc.length + (l.filter fun i => !sh i).length ≤ size) :
    l.foldlM (fun owned i =>
      if !sh i then (if owned.length < size then some (owned ++ [g i]) else none) else some owned) acc =
      some (acc ++ (l.filter fun i => !sh i).map g) := by
  induction l generalizing acc with
  | nil => simp
  | cons a l ih =>
    rw [List.foldlM_cons]
    cases hs : sh a
    · simp [hs] at h
      have : acc.length < size := by omega
      simp only [Bool.not_false, if_true, this, Option.bind_eq_bind, Option.bind_some]
      rw [ih _ (by simp; omega)]
      simp [hs]
    · simp only [Bool.not_true, Bool.false_eq_true, if_false, Option.bind_eq_bind, Option.bind_some]
      rw [ih _ (by simpa [hs] using h)]
      simp [hs]

/-- With a phase space, the owned degrees of freedom of a process are the global numbers of its nodes that are not shared,
in order; over all processes of a decomposition each number of the whole mesh occurs exactly once. -/
theorem C122_owned_partial {X Y nx ny ph : Nat} (hph : 0 < ph) (hX : 0 < X) (hY : 0 < Y) (hx : 0 < nx) (hy : 0 < ny) :
    ∃ owned : Nat → Nat → List Nat,
      (∀ px py : Nat, px < X → py < Y → ownedDofs ph ((nx + 1) * (ny + 1)) (proc X Y nx ny px py).isShared
        (proc X Y nx ny px py).localToGlobal = some (owned px py) ∧ (owned px py).Nodup ∧
        ∀ g ∈ owned px py, g < (X * nx + 1) * (Y * ny + 1)) ∧
      ∀ g : Nat, g < (X * nx + 1) * (Y * ny + 1) → ∃ px py : Nat, px < X ∧ py < Y ∧ g ∈ owned px py ∧
        ∀ px' py' : Nat, px' < X → py' < Y → g ∈ owned px' py' → px' = px ∧ py' = py := by
  refine ⟨fun px py => ((List.range ((nx + 1) * (ny + 1))).filter fun i => !(proc X Y nx ny px py).isShared i).map
    (proc X Y nx ny px py).localToGlobal, fun px py hpx hpy => ⟨?_, ?_, ?_⟩, fun g hg => ?_⟩
  · have := foldlM_fill (numOwned ph ((nx + 1) * (ny + 1)) (proc X Y nx ny px py).isShared)
      (proc X Y nx ny px py).isShared (proc X Y nx ny px py).localToGlobal (List.range ((nx + 1) * (ny + 1))) [] (by
        rw [numOwned, foldl_count ph hph]
        simp)
    rw [List.nil_append] at this
    exact this
  · have hf : (proc X Y nx ny px py).Fits := ⟨hpx, hpy, hx, hy⟩
    refine List.Nodup.map_on ?_ (List.nodup_range.filter _)
    intro a ha b hb hab
    have ha' : a < (nx + 1) * (ny + 1) := List.mem_range.mp (List.mem_of_mem_filter ha)
    have hb' : b < (nx + 1) * (ny + 1) := List.mem_range.mp (List.mem_of_mem_filter hb)
    exact (C121_ids hf (lid := b) hb').2.2 a ha' hab
  · intro g hg
    obtain ⟨a, ha, rfl⟩ := List.mem_map.mp hg
    have ha' : a < (nx + 1) * (ny + 1) := List.mem_range.mp (List.mem_of_mem_filter ha)
    exact (C121_ids (p := proc X Y nx ny px py) ⟨hpx, hpy, hx, hy⟩ (lid := a) ha').2.1
  · obtain ⟨px, py, lid, ⟨h1, h2, h3, h4, h5⟩, hu⟩ := C121_owner hX hY hx hy hg
    refine ⟨px, py, h1, h2, List.mem_map.mpr ⟨lid, List.mem_filter.mpr ⟨List.mem_range.mpr h3, by simp [h4]⟩, h5⟩, ?_⟩
    intro px' py' g1 g2 g3
    obtain ⟨l, hl, hl'⟩ := List.mem_map.mp g3
    obtain ⟨l1, l2⟩ := List.mem_filter.mp hl
    have := hu px' py' l g1 g2 (List.mem_range.mp l1) (by simpa using l2) hl'
    exact ⟨this.1, this.2.1⟩

example : ownedDofs 1 4 (proc 2 1 1 1 0 0).isShared (proc 2 1 1 1 0 0).localToGlobal = some [0, 3] ∧
    ownedDofs 1 4 (proc 2 1 1 1 1 0).isShared (proc 2 1 1 1 1 0).localToGlobal = some [1, 2, 4, 5] := by decide

/-- Without a phase space the owned degrees of freedom are not counted, and the first one is written past the end of a
view of size zero. -/
theorem C122_owned_violated {n : Nat} {sh : Nat → Bool} {g : Nat → Nat} (h : ∃ i, i < n ∧ sh i = false) :
    ownedDofs 0 n sh g = none := by
  have h0 : numOwned 0 n sh = 0 := by
    unfold numOwned
    generalize List.range n = l
    have : ∀ k : Nat, l.foldl (fun n i => if !sh i then (if 0 > 0 then n + 1 else n) else n) k = k := by
      induction l with
      | nil => simp
      | cons a l ih => intro k; rw [List.foldl_cons]; cases sh a <;> simp [ih]
    exact this 0
  unfold ownedDofs fillOwned
  rw [h0]
  have key : ∀ (l : List Nat) (acc : List Nat), (∃ i ∈ l, sh i = false) →
      l.foldlM (fun owned i =>
        if !sh i then (if owned.length < 0 then some (owned ++ [g i]) else none) else some owned) acc = none := by
    intro l
    induction l with
    | nil => simp
    | cons a l ih =>
      intro acc hex
      rw [List.foldlM_cons]
      cases hs : sh a
      · simp
      · simp only [Bool.not_true, Bool.false_eq_true, if_false, Option.bind_eq_bind, Option.bind_some]
        refine ih acc ?_
        obtain ⟨i, hi, hsi⟩ := hex
        rcases List.mem_cons.mp hi with rfl | hi
        · simp [hs] at hsi
        · exact ⟨i, hi, hsi⟩
  obtain ⟨i, hi, hsi⟩ := h
  exact key _ [] ⟨i, List.mem_range.mpr hi, hsi⟩

/-- Two variables on a cell of a simple mesh have the same degrees of freedom. -/
theorem C122_variables_violated {P : Type} (m : Mesh P) (cell b : Nat) : cellDof m cell 0 b = cellDof m cell 1 b := rfl

/-- With the first-order basis on quadrilaterals, whose functions are numbered like the corners of the cell, the third and
fourth function of a cell have each other's degree of freedom: function 2, which is one at the third corner, has the
number of the node at the fourth. -/
theorem C122_offsets_violated [Field K] {X0 Y0 W H : K} {nx ny : Nat} {m : Mesh (K × K)}
    (hm : rectangle X0 Y0 W H nx ny = some m) {i j : Nat} (hi : i < nx) (hj : j < ny) (var : Nat) :
    ∃ row : List Nat, m.cellToNode[i + nx * j]? = some row ∧ cellDof m (i + nx * j) var 0 = row[0]? ∧
      cellDof m (i + nx * j) var 1 = row[1]? ∧ cellDof m (i + nx * j) var 2 = row[3]? ∧
      cellDof m (i + nx * j) var 3 = row[2]? ∧ row[2]? ≠ row[3]? := by
  obtain ⟨hx, hy, rfl⟩ := rectangle_some hm
  have h := getElem?_grid nx ny
    (fun i j => [j * (nx + 1) + i, j * (nx + 1) + (i + 1), (j + 1) * (nx + 1) + (i + 1), (j + 1) * (nx + 1) + i]) hi hj
  have h' : (rectCells nx ny)[i + nx * j]? = some
    [j * (nx + 1) + i, j * (nx + 1) + (i + 1), (j + 1) * (nx + 1) + (i + 1), (j + 1) * (nx + 1) + i] := h
  refine ⟨_, h', ?_, ?_, ?_, ?_, ?_⟩
  all_goals simp [cellDof, varOffsets, h']

/-- So the degree of freedom of the function that is one at a node shared by two cells is not the same on the two cells:
the function at the upper right corner of a cell and the function at the upper left corner of the next cell have different
degrees of freedom, although the two cells have this node in common. -/
theorem C122_discontinuous_violated : ∃ m : Mesh (Rat × Rat), rectangle (0 : Rat) 0 2 1 2 1 = some m ∧
    ∃ l r : List (Rat × Rat), m.getCellNodes [0, 1] = some [l, r] ∧ l[2]? = some (1, 1) ∧ r[3]? = some (1, 1) ∧
      cellDof m 0 0 2 = some 3 ∧ cellDof m 1 0 3 = some 5 := by
  refine ⟨_, rfl, _, _, rfl, ?_, ?_, ?_, ?_⟩ <;> decide +kernel

/-- On a brick only four of the eight functions of a cell have an offset. -/
theorem C122_hexahedra_violated {P : Type} (m : Mesh P) (cell var b : Nat) (hb : 4 ≤ b) : cellDof m cell var b = none := by
  unfold cellDof
  cases m.cellToNode[cell]? with
  | none => rfl
  | some row =>
    have : (varOffsets var)[b]? = none := List.getElem?_eq_none (by simpa [varOffsets] using hb)
    simp [this]

end MrHyDE.Mesh
