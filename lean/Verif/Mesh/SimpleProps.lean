import Verif.Mesh.Simple

/-!
# Simple structured meshes (C121)

A mesh manager is described to its users by a box and by numbers of cells.  The theorems say what nodes, cells, sides and
edges it returns in terms of the geometry of that box.
-/

set_option linter.unusedSectionVars false
set_option linter.unusedSimpArgs false

namespace MrHyDE.Mesh

variable {K : Type}

/-! ## Lists made of blocks -/

theorem length_block {α : Type} (n m : Nat) (b : Nat → List α) (hb : ∀ k : Nat, (b k).length = m) :
    ((List.range n).flatMap b).length = m * n := by
  induction n with
  | zero => simp
  | succ n ih =>
    rw [List.range_succ, List.flatMap_append, List.length_append, ih]
    simp [hb, Nat.mul_add]

theorem getElem?_block {α : Type} (n m : Nat) (b : Nat → List α) (hb : ∀ k : Nat, (b k).length = m) {p k : Nat}
    (hp : p < m) (hk : k < n) : ((List.range n).flatMap b)[p + m * k]? = (b k)[p]? := by
  induction n with
  | zero => omega
  | succ n ih =>
    rw [List.range_succ, List.flatMap_append]
    have hl := length_block n m b hb
    rcases Nat.lt_succ_iff_lt_or_eq.mp hk with h | h
    · rw [List.getElem?_append_left (by
        rw [hl]
        calc p + m * k < m + m * k := by omega
          _ = m * (k + 1) := by ring
          _ ≤ m * n := Nat.mul_le_mul_left m h)]
      exact ih h
    · subst h
      rw [List.getElem?_append_right (by rw [hl]; omega), hl]
      simp

theorem lt_block {p m k n : Nat} (hp : p < m) (hk : k < n) : p + m * k < m * n := calc
  p + m * k < m + m * k := by omega
  _ = m * (k + 1) := by ring
  _ ≤ m * n := Nat.mul_le_mul_left m hk

theorem block_inj {p p' m k k' : Nat} (hp : p < m) (hp' : p' < m) (h : p + m * k = p' + m * k') : p = p' ∧ k = k' := by
  have h1 := congrArg (· % m) h
  have h2 := congrArg (· / m) h
  simp only [Nat.add_mul_mod_self_left, Nat.mod_eq_of_lt hp, Nat.mod_eq_of_lt hp'] at h1
  have hm : 0 < m := by omega
  simp only [Nat.add_mul_div_left _ _ hm, Nat.div_eq_of_lt hp, Nat.div_eq_of_lt hp'] at h2
  omega

theorem block_split {c m n : Nat} (h : c < m * n) : c % m < m ∧ c / m < n ∧ c = c % m + m * (c / m) := by
  have hm : 0 < m := by
    rcases Nat.eq_zero_or_pos m with h0 | h0
    · simp [h0] at h
    · exact h0
  exact ⟨Nat.mod_lt _ hm, Nat.div_lt_of_lt_mul h, (Nat.mod_add_div c m).symm⟩

theorem mapM_some {α β : Type} (f : α → Option β) (g : α → β) (l : List α) (h : ∀ x ∈ l, f x = some (g x)) :
    l.mapM f = some (l.map g) := by
  induction l with
  | nil => rfl
  | cons a l ih =>
    rw [List.mapM_cons, h a (by simp), ih fun x hx => h x (by simp [hx])]
    rfl

theorem getElem?_grid {α : Type} (nx ny : Nat) (f : Nat → Nat → α) {i j : Nat} (hi : i < nx) (hj : j < ny) :
    ((List.range ny).flatMap fun j => (List.range nx).map fun i => f i j)[i + nx * j]? = some (f i j) := by
  rw [getElem?_block ny nx _ (by simp) hi hj]
  simp [hi]

theorem length_grid {α : Type} (nx ny : Nat) (f : Nat → Nat → α) :
    ((List.range ny).flatMap fun j => (List.range nx).map fun i => f i j).length = nx * ny :=
  length_block ny nx _ (by simp)

theorem getElem?_grid3 {α : Type} (nx ny nz : Nat) (f : Nat → Nat → Nat → α) {i j k : Nat} (hi : i < nx) (hj : j < ny)
    (hk : k < nz) :
    ((List.range nz).flatMap fun k => (List.range ny).flatMap fun j => (List.range nx).map fun i => f i j k)[
      i + nx * j + nx * ny * k]? = some (f i j k) := by
  rw [getElem?_block nz (nx * ny) _ (fun k => length_grid nx ny fun i j => f i j k) (lt_block hi hj) hk]
  exact getElem?_grid nx ny (fun i j => f i j k) hi hj

theorem length_grid3 {α : Type} (nx ny nz : Nat) (f : Nat → Nat → Nat → α) :
    ((List.range nz).flatMap fun k => (List.range ny).flatMap fun j => (List.range nx).map fun i => f i j k).length =
      nx * ny * nz :=
  length_block nz (nx * ny) _ fun k => length_grid nx ny fun i j => f i j k

/-! ## Specification -/

/-- The abscissa that divides the segment from `a` of length `L` into `n` equal parts, end of part `i`.
[specification, no code] -/
def tick [Field K] (a L : K) (n i : Nat) : K := a + L * ((i : K) / (n : K))

/-- The two nodes of a local side of a quadrilateral, in the numbering of the reference cell.
[specification, no code] -/
def quadSide (s : Nat) : Nat × Nat := (s, (s + 1) % 4)

/-- A point lies on boundary line `s` of a rectangle: bottom, right, top, left.  [specification, no code] -/
def OnSide [Field K] (X0 Y0 W H : K) (s : Nat) (p : K × K) : Prop :=
  if s = 0 then p.2 = Y0 else if s = 1 then p.1 = X0 + W else if s = 2 then p.2 = Y0 + H else p.1 = X0

/-- Twice the area enclosed by a polygon with four corners, positive when they go counter-clockwise.
[specification, no code] -/
def shoelace [Field K] (a b c d : K × K) : K :=
  (a.1 * b.2 - b.1 * a.2) + (b.1 * c.2 - c.1 * b.2) + (c.1 * d.2 - d.1 * c.2) + (d.1 * a.2 - a.1 * d.2)

/-- A point is in the closed box with the given opposite corners.  [specification, no code] -/
def InBox [Field K] [LinearOrder K] (a c p : K × K) : Prop := a.1 ≤ p.1 ∧ p.1 ≤ c.1 ∧ a.2 ≤ p.2 ∧ p.2 ≤ c.2

/-- A point is in the open box with the given opposite corners.  [specification, no code] -/
def InsideBox [Field K] [LinearOrder K] (a c p : K × K) : Prop := a.1 < p.1 ∧ p.1 < c.1 ∧ a.2 < p.2 ∧ p.2 < c.2

/-! ## The rectangle -/

section rect
variable [Field K]

theorem rectangle_some {X0 Y0 W H : K} {nx ny : Nat} {m : Mesh (K × K)} (h : rectangle X0 Y0 W H nx ny = some m) :
    0 < nx ∧ 0 < ny ∧ m =
      { numCells := nx * ny, numNodes := (nx + 1) * (ny + 1), numEdges := (nx + 1) * ny + (ny + 1) * nx,
        nodes := rectNodes X0 Y0 W H nx ny, cellToNode := rectCells nx ny, cellToEdge := [],
        sides := rectSides nx ny } := by
  unfold rectangle at h
  split at h
  · simp at h
  · rename_i h0
    push Not at h0
    exact ⟨Nat.pos_of_ne_zero h0.1, Nat.pos_of_ne_zero h0.2, (Option.some.inj h).symm⟩

theorem rectNodes_at (X0 Y0 W H : K) (nx ny : Nat) {i j : Nat} (hi : i ≤ nx) (hj : j ≤ ny) :
    (rectNodes X0 Y0 W H nx ny)[j * (nx + 1) + i]? = some (tick X0 W nx i, tick Y0 H ny j) := by
  have h := getElem?_grid (nx + 1) (ny + 1)
    (fun i j => (X0 + (i : K) * (W / (nx : K)), Y0 + (j : K) * (H / (ny : K)))) (Nat.lt_succ_of_le hi)
    (Nat.lt_succ_of_le hj)
  rw [show j * (nx + 1) + i = i + (nx + 1) * j by ring]
  unfold rectNodes
  refine h.trans ?_
  simp only [tick, Option.some.injEq, Prod.mk.injEq]
  constructor <;> ring

theorem tick_zero (a L : K) (n : Nat) : tick a L n 0 = a := by simp [tick]

theorem tick_last [CharZero K] (a L : K) {n : Nat} (hn : 0 < n) : tick a L n n = a + L := by
  have : (n : K) ≠ 0 := by exact_mod_cast hn.ne'
  simp [tick, div_self this]

theorem tick_inj [CharZero K] {a L : K} (hL : L ≠ 0) {n : Nat} (hn : 0 < n) {i i' : Nat}
    (h : tick a L n i = tick a L n i') : i = i' := by
  have hn' : (n : K) ≠ 0 := by exact_mod_cast hn.ne'
  unfold tick at h
  have h1 := mul_left_cancel₀ hL (add_left_cancel h)
  have h2 := (div_left_inj' hn').mp h1
  exact_mod_cast h2

/-- The nodes of a rectangle: as many as announced, at the points that divide the two sides into equal parts, starting
and ending at the corners of the rectangle, and no two the same. -/
theorem C121_nodes [CharZero K] {X0 Y0 W H : K} {nx ny : Nat} {m : Mesh (K × K)}
    (hm : rectangle X0 Y0 W H nx ny = some m) :
    m.nodes.length = m.numNodes ∧ m.numNodes = (nx + 1) * (ny + 1) ∧
      (∀ i j : Nat, i ≤ nx → j ≤ ny → m.nodes[j * (nx + 1) + i]? = some (tick X0 W nx i, tick Y0 H ny j)) ∧
      m.nodes[0]? = some (X0, Y0) ∧ m.nodes[m.numNodes - 1]? = some (X0 + W, Y0 + H) ∧
      (W ≠ 0 → H ≠ 0 → m.nodes.Nodup) := by
  obtain ⟨hx, hy, rfl⟩ := rectangle_some hm
  have hat : ∀ i j : Nat, i ≤ nx → j ≤ ny →
      (rectNodes X0 Y0 W H nx ny)[j * (nx + 1) + i]? = some (tick X0 W nx i, tick Y0 H ny j) :=
    fun i j hi hj => rectNodes_at X0 Y0 W H nx ny hi hj
  have hlen : (rectNodes X0 Y0 W H nx ny).length = (nx + 1) * (ny + 1) := length_grid (nx + 1) (ny + 1) _
  refine ⟨hlen, rfl, hat, ?_, ?_, ?_⟩
  · simpa [tick_zero] using hat 0 0 (Nat.zero_le _) (Nat.zero_le _)
  · have h := hat nx ny le_rfl le_rfl
    rw [tick_last _ _ hx, tick_last _ _ hy] at h
    rw [← h]
    congr 1
    simp only
    have : (nx + 1) * (ny + 1) = ny * (nx + 1) + nx + 1 := by ring
    omega
  · intro hW hH
    rw [List.nodup_iff_getElem?_ne_getElem?]
    intro a b hab hb
    simp only at hb ⊢
    rw [hlen] at hb
    obtain ⟨ha1, ha2, ha3⟩ := block_split (lt_trans hab hb)
    obtain ⟨hb1, hb2, hb3⟩ := block_split hb
    intro he
    have e1 := hat (a % (nx + 1)) (a / (nx + 1)) (by omega) (by omega)
    have e2 := hat (b % (nx + 1)) (b / (nx + 1)) (by omega) (by omega)
    rw [show a / (nx + 1) * (nx + 1) + a % (nx + 1) = a by rw [mul_comm]; omega] at e1
    rw [show b / (nx + 1) * (nx + 1) + b % (nx + 1) = b by rw [mul_comm]; omega] at e2
    rw [e1, e2] at he
    simp only [Option.some.injEq, Prod.mk.injEq] at he
    have h1 := tick_inj hW hx he.1
    have h2 := tick_inj hH hy he.2
    rw [h1, h2] at ha3
    omega

/-- The corners of a cell.  [specification, no code] -/
def corners (X0 Y0 W H : K) (nx ny i j : Nat) : List (K × K) :=
  [(tick X0 W nx i, tick Y0 H ny j), (tick X0 W nx (i + 1), tick Y0 H ny j),
   (tick X0 W nx (i + 1), tick Y0 H ny (j + 1)), (tick X0 W nx i, tick Y0 H ny (j + 1))]

/-- A list of cells gives the corners of each, counter-clockwise from the lower left one, where cell `i + nx*j` is number
`i` of row `j`; the number of cells is the announced one and a cell past it is not given. -/
theorem C121_cells {X0 Y0 W H : K} {nx ny : Nat} {m : Mesh (K × K)}
    (hm : rectangle X0 Y0 W H nx ny = some m) (cs : List (Nat × Nat)) (hcs : ∀ c ∈ cs, c.1 < nx ∧ c.2 < ny) :
    m.getCellNodes (cs.map fun c => c.1 + nx * c.2) = some (cs.map fun c => corners X0 Y0 W H nx ny c.1 c.2) ∧
      m.numCells = nx * ny ∧ ∀ c : Nat, m.numCells ≤ c → m.getCellNodes [c] = none := by
  obtain ⟨hx, hy, rfl⟩ := rectangle_some hm
  refine ⟨?_, rfl, ?_⟩
  · unfold Mesh.getCellNodes
    rw [List.mapM_map]
    refine mapM_some _ _ _ fun c hc' => ?_
    have hc := hcs c hc'
    have hrow : (rectCells nx ny)[c.1 + nx * c.2]? = some
        [c.2 * (nx + 1) + c.1, c.2 * (nx + 1) + (c.1 + 1), (c.2 + 1) * (nx + 1) + (c.1 + 1),
         (c.2 + 1) * (nx + 1) + c.1] := getElem?_grid nx ny
      (fun i j => [j * (nx + 1) + i, j * (nx + 1) + (i + 1), (j + 1) * (nx + 1) + (i + 1), (j + 1) * (nx + 1) + i])
      hc.1 hc.2
    simp only [Function.comp_apply, hrow, Option.bind_eq_bind, Option.bind_some, List.mapM_cons, List.mapM_nil,
      rectNodes_at X0 Y0 W H nx ny (show c.1 ≤ nx by omega) (show c.2 ≤ ny by omega),
      rectNodes_at X0 Y0 W H nx ny (show c.1 + 1 ≤ nx by omega) (show c.2 ≤ ny by omega),
      rectNodes_at X0 Y0 W H nx ny (show c.1 ≤ nx by omega) (show c.2 + 1 ≤ ny by omega),
      rectNodes_at X0 Y0 W H nx ny (show c.1 + 1 ≤ nx by omega) (show c.2 + 1 ≤ ny by omega)]
    rfl
  · intro c hc
    have hlen : (rectCells nx ny).length = nx * ny := length_grid nx ny _
    have : (rectCells nx ny)[c]? = none := List.getElem?_eq_none (by rw [hlen]; exact hc)
    simp [Mesh.getCellNodes, this]

/-- Each cell is counter-clockwise with the share of the area that it has among equal cells. -/
theorem C121_area [CharZero K] {X0 Y0 W H : K} {nx ny : Nat} {m : Mesh (K × K)}
    (hm : rectangle X0 Y0 W H nx ny = some m) {c : Nat} (hc : c < m.numCells) :
    ∃ a b d e : K × K, m.getCellNodes [c] = some [[a, b, d, e]] ∧
      (m.numCells : K) * shoelace a b d e = 2 * (W * H) := by
  have hm' := hm
  obtain ⟨hx, hy, rfl⟩ := rectangle_some hm
  obtain ⟨h1, h2, h3⟩ := block_split (show c < nx * ny from hc)
  have h := (C121_cells hm' [(c % nx, c / nx)] (by simpa using ⟨h1, h2⟩)).1
  simp only [List.map_cons, List.map_nil, ← h3] at h
  refine ⟨_, _, _, _, h, ?_⟩
  have hx' : (nx : K) ≠ 0 := by exact_mod_cast hx.ne'
  have hy' : (ny : K) ≠ 0 := by exact_mod_cast hy.ne'
  simp only [shoelace, tick, Nat.cast_mul, Nat.cast_add, Nat.cast_one]
  field_simp
  ring

end rect

section order
variable [Field K] [LinearOrder K] [IsStrictOrderedRing K]

theorem tick_lt {a L : K} (hL : 0 < L) {n : Nat} (hn : 0 < n) {i i' : Nat} (h : i < i') :
    tick a L n i < tick a L n i' := by
  have hn' : (0 : K) < n := by exact_mod_cast hn
  have hi : (i : K) < i' := by exact_mod_cast h
  have := mul_lt_mul_of_pos_left (div_lt_div_of_pos_right hi hn') hL
  unfold tick
  linarith

theorem tick_le {a L : K} (hL : 0 < L) {n : Nat} (hn : 0 < n) {i i' : Nat} (h : i ≤ i') :
    tick a L n i ≤ tick a L n i' := by
  rcases Nat.lt_or_eq_of_le h with h | h
  · exact (tick_lt hL hn h).le
  · rw [h]

theorem tick_cover {a L : K} {n : Nat} {x : K} (k : Nat) (hk : 0 < k) (h1 : a ≤ x) (h2 : x ≤ tick a L n k) :
    ∃ i, i < k ∧ tick a L n i ≤ x ∧ x ≤ tick a L n (i + 1) := by
  induction k with
  | zero => omega
  | succ k ih =>
    by_cases h : tick a L n k ≤ x
    · exact ⟨k, by omega, h, h2⟩
    · rcases Nat.eq_zero_or_pos k with h0 | h0
      · subst h0
        rw [tick_zero] at h
        exact absurd h1 h
      · obtain ⟨i, hi, hi'⟩ := ih h0 (not_le.mp h).le
        exact ⟨i, by omega, hi'⟩

/-- The cells tile the rectangle: they lie in it, every point of it is in a cell, and two cells with a common inner point
are the same cell. -/
theorem C121_tiling {X0 Y0 W H : K} {nx ny : Nat} {m : Mesh (K × K)} (hm : rectangle X0 Y0 W H nx ny = some m)
    (hW : 0 < W) (hH : 0 < H) :
    (∀ c : Nat, c < m.numCells → ∃ a b d e : K × K, m.getCellNodes [c] = some [[a, b, d, e]] ∧
        ∀ p : K × K, InBox a d p → InBox (X0, Y0) (X0 + W, Y0 + H) p) ∧
    (∀ p : K × K, InBox (X0, Y0) (X0 + W, Y0 + H) p → ∃ c : Nat, c < m.numCells ∧ ∃ a b d e : K × K,
        m.getCellNodes [c] = some [[a, b, d, e]] ∧ InBox a d p) ∧
    (∀ (c c' : Nat) (a b d e a' b' d' e' p : K × K), m.getCellNodes [c] = some [[a, b, d, e]] →
        m.getCellNodes [c'] = some [[a', b', d', e']] → InsideBox a d p → InsideBox a' d' p → c = c') := by
  have hm' := hm
  obtain ⟨hx, hy, rfl⟩ := rectangle_some hm
  have hcell : ∀ c : Nat, c < nx * ny → Mesh.getCellNodes _ [c] =
      some [corners X0 Y0 W H nx ny (c % nx) (c / nx)] := fun c hc => by
    obtain ⟨h1, h2, h3⟩ := block_split hc
    have h := (C121_cells hm' [(c % nx, c / nx)] (by simpa using ⟨h1, h2⟩)).1
    simp only [List.map_cons, List.map_nil, ← h3] at h
    exact h
  have hcell' : ∀ (c : Nat) (a b d e : K × K), Mesh.getCellNodes _ [c] = some [[a, b, d, e]] →
      c < nx * ny ∧ a = (tick X0 W nx (c % nx), tick Y0 H ny (c / nx)) ∧
        d = (tick X0 W nx (c % nx + 1), tick Y0 H ny (c / nx + 1)) := fun c a b d e h => by
    have hc : c < nx * ny := by
      by_contra hc
      rw [(C121_cells hm' [] (by simp)).2.2 c (not_lt.mp hc)] at h
      simp at h
    rw [hcell c hc] at h
    simp only [corners, Option.some.injEq, List.cons.injEq, and_true] at h
    exact ⟨hc, h.1.symm, h.2.2.1.symm⟩
  refine ⟨fun c hc => ?_, fun p hp => ?_, fun c c' a b d e a' b' d' e' p h h' hp hp' => ?_⟩
  · refine ⟨_, _, _, _, hcell c hc, fun p hp => ?_⟩
    obtain ⟨h1, h2, h3⟩ := block_split (show c < nx * ny from hc)
    obtain ⟨p1, p2, p3, p4⟩ := hp
    simp only at p1 p2 p3 p4
    have q1 := tick_le (a := X0) hW hx (Nat.zero_le (c % nx))
    have q2 := tick_le (a := X0) hW hx (show c % nx + 1 ≤ nx from h1)
    have q3 := tick_le (a := Y0) hH hy (Nat.zero_le (c / nx))
    have q4 := tick_le (a := Y0) hH hy (show c / nx + 1 ≤ ny from h2)
    rw [tick_zero] at q1 q3
    rw [tick_last _ _ hx] at q2
    rw [tick_last _ _ hy] at q4
    exact ⟨q1.trans p1, p2.trans q2, q3.trans p3, p4.trans q4⟩
  · obtain ⟨p1, p2, p3, p4⟩ := hp
    simp only at p1 p2 p3 p4
    rw [← tick_last _ _ hx] at p2
    rw [← tick_last _ _ hy] at p4
    obtain ⟨i, hi, i1, i2⟩ := tick_cover nx hx p1 p2
    obtain ⟨j, hj, j1, j2⟩ := tick_cover ny hy p3 p4
    have h := (C121_cells hm' [(i, j)] (by simpa using ⟨hi, hj⟩)).1
    simp only [List.map_cons, List.map_nil] at h
    exact ⟨i + nx * j, lt_block hi hj, _, _, _, _, h, ⟨i1, i2, j1, j2⟩⟩
  · obtain ⟨hc, rfl, rfl⟩ := hcell' c a b d e h
    obtain ⟨hc', rfl, rfl⟩ := hcell' c' a' b' d' e' h'
    have key : ∀ {a L : K} {n i i' : Nat} {x : K}, 0 < L → 0 < n → tick a L n i < x → x < tick a L n (i + 1) →
        tick a L n i' < x → x < tick a L n (i' + 1) → i = i' := by
      intro a L n i i' x hL hn u1 u2 v1 v2
      by_contra hne
      rcases Nat.lt_or_gt_of_ne hne with hlt | hlt
      · exact absurd (u2.trans_le (tick_le hL hn (show i + 1 ≤ i' from hlt))) (not_lt.mpr v1.le)
      · exact absurd (v2.trans_le (tick_le hL hn (show i' + 1 ≤ i from hlt))) (not_lt.mpr u1.le)
    have e1 := key hW hx hp.1 hp.2.1 hp'.1 hp'.2.1
    have e2 := key hH hy hp.2.2.1 hp.2.2.2 hp'.2.2.1 hp'.2.2.2
    have b1 := (block_split hc).2.2
    have b2 := (block_split hc').2.2
    rw [b1, b2, e1, e2]

/-- The side set lists, for each local side, exactly the cells that have that side on the boundary of the rectangle, each
once: list 0 the bottom, 1 the right, 2 the top, 3 the left. -/
theorem C121_sides {X0 Y0 W H : K} {nx ny : Nat} {m : Mesh (K × K)} (hm : rectangle X0 Y0 W H nx ny = some m)
    (hW : W ≠ 0) (hH : H ≠ 0) :
    m.sides.length = 4 ∧ ∀ s : Nat, s < 4 → ∃ l : List Int, m.sides[s]? = some l ∧ l.Nodup ∧
      ∀ z : Int, z ∈ l ↔ ∃ (c : Nat) (cell : List (K × K)) (p q : K × K), z = c ∧ m.getCellNodes [c] = some [cell] ∧
        cell[(quadSide s).1]? = some p ∧ cell[(quadSide s).2]? = some q ∧
        OnSide X0 Y0 W H s p ∧ OnSide X0 Y0 W H s q := by
  have hm' := hm
  obtain ⟨hx, hy, rfl⟩ := rectangle_some hm
  have hget : ∀ (c : Nat) (cell : List (K × K)), Mesh.getCellNodes _ [c] = some [cell] ↔
      c < nx * ny ∧ cell = corners X0 Y0 W H nx ny (c % nx) (c / nx) := fun c cell => by
    constructor
    · intro h
      have hc : c < nx * ny := by
        by_contra hc
        rw [(C121_cells hm' [] (by simp)).2.2 c (not_lt.mp hc)] at h
        simp at h
      obtain ⟨h1, h2, h3⟩ := block_split hc
      have h' := (C121_cells hm' [(c % nx, c / nx)] (by simpa using ⟨h1, h2⟩)).1
      simp only [List.map_cons, List.map_nil, ← h3] at h'
      rw [h'] at h
      simp only [Option.some.injEq, List.cons.injEq, and_true] at h
      exact ⟨hc, h.symm⟩
    · rintro ⟨hc, rfl⟩
      obtain ⟨h1, h2, h3⟩ := block_split hc
      have h' := (C121_cells hm' [(c % nx, c / nx)] (by simpa using ⟨h1, h2⟩)).1
      simp only [List.map_cons, List.map_nil, ← h3] at h'
      exact h'
  have bot : ∀ j : Nat, tick Y0 H ny j = Y0 ↔ j = 0 := fun j =>
    ⟨fun h => tick_inj hH hy (h.trans (tick_zero Y0 H ny).symm), fun h => by rw [h, tick_zero]⟩
  have lef : ∀ j : Nat, tick X0 W nx j = X0 ↔ j = 0 := fun j =>
    ⟨fun h => tick_inj hW hx (h.trans (tick_zero X0 W nx).symm), fun h => by rw [h, tick_zero]⟩
  have top : ∀ j : Nat, tick Y0 H ny j = Y0 + H ↔ j = ny := fun j =>
    ⟨fun h => tick_inj hH hy (h.trans (tick_last Y0 H hy).symm), fun h => by rw [h, tick_last _ _ hy]⟩
  have rig : ∀ j : Nat, tick X0 W nx j = X0 + W ↔ j = nx := fun j =>
    ⟨fun h => tick_inj hW hx (h.trans (tick_last X0 W hx).symm), fun h => by rw [h, tick_last _ _ hx]⟩
  have hdiv : ∀ i j : Nat, i < nx → (i + nx * j) % nx = i ∧ (i + nx * j) / nx = j := fun i j hi => by
    constructor
    · rw [Nat.add_mul_mod_self_left, Nat.mod_eq_of_lt hi]
    · rw [Nat.add_mul_div_left _ _ hx, Nat.div_eq_of_lt hi, Nat.zero_add]
  refine ⟨rfl, fun s hs => ?_⟩
  interval_cases s
  · refine ⟨_, rfl, ?_, fun z => ?_⟩
    · exact List.nodup_range.map (fun a b h => by simpa using h)
    · simp only [List.mem_map, List.mem_range]
      constructor
      · rintro ⟨i, hi, rfl⟩
        obtain ⟨d1, d2⟩ := hdiv i 0 hi
        simp only [Nat.mul_zero, Nat.add_zero] at d1 d2
        refine ⟨i, _, _, _, rfl, (hget i _).mpr ⟨by nlinarith, rfl⟩, rfl, rfl, ?_, ?_⟩ <;>
          simp only [OnSide, if_true, d2, tick_zero]
      · rintro ⟨c, cell, p, q, rfl, hc, h1, h2, h3, h4⟩
        obtain ⟨hlt, rfl⟩ := (hget c cell).mp hc
        obtain ⟨g1, g2, g3⟩ := block_split hlt
        simp only [quadSide, corners, List.getElem?_cons_zero, Option.some.injEq] at h1
        subst h1
        simp only [OnSide, if_true, bot] at h3
        rw [h3] at g3
        exact ⟨c, by omega, rfl⟩
  · refine ⟨_, rfl, ?_, fun z => ?_⟩
    · refine List.nodup_range.map (fun a b h => ?_)
      have hx' : (nx : Int) ≠ 0 := by exact_mod_cast hx.ne'
      have : ((a : Int) + 1) * nx = (b + 1) * nx := by simpa using h
      have := mul_right_cancel₀ hx' this
      omega
    · simp only [List.mem_map, List.mem_range]
      constructor
      · rintro ⟨j, hj, rfl⟩
        obtain ⟨d1, d2⟩ := hdiv (nx - 1) j (by omega)
        refine ⟨nx - 1 + nx * j, _, _, _, ?_, (hget _ _).mpr ⟨lt_block (by omega) hj, rfl⟩, rfl, rfl, ?_, ?_⟩
        · push_cast [Nat.cast_sub (show 1 ≤ nx from hx)]
          ring
        · simp only [OnSide, d1, quadSide]
          simp [rig]
          omega
        · simp only [OnSide, d1, quadSide]
          simp [rig]
          omega
      · rintro ⟨c, cell, p, q, rfl, hc, h1, h2, h3, h4⟩
        obtain ⟨hlt, rfl⟩ := (hget c cell).mp hc
        obtain ⟨g1, g2, g3⟩ := block_split hlt
        simp only [quadSide, corners, List.getElem?_cons_succ, List.getElem?_cons_zero, Option.some.injEq] at h1
        subst h1
        simp only [OnSide, if_true, rig, one_ne_zero, if_false] at h3
        refine ⟨c / nx, g2, ?_⟩
        have e : c + 1 = (c / nx + 1) * nx := by
          have : (c / nx + 1) * nx = nx * (c / nx) + nx := by ring
          omega
        have : ((c : Int) + 1) = (((c / nx : Nat) : Int) + 1) * nx := by exact_mod_cast e
        omega
  · refine ⟨_, rfl, ?_, fun z => ?_⟩
    · exact List.nodup_range.map (fun a b h => by simpa using h)
    · simp only [List.mem_map, List.mem_range]
      constructor
      · rintro ⟨i, hi, rfl⟩
        obtain ⟨d1, d2⟩ := hdiv i (ny - 1) hi
        refine ⟨i + nx * (ny - 1), _, _, _, ?_, (hget _ _).mpr ⟨lt_block hi (by omega), rfl⟩, rfl, rfl, ?_, ?_⟩
        · push_cast [Nat.cast_sub (show 1 ≤ ny from hy)]
          ring
        · simp only [OnSide, d2, quadSide]
          simp [top]
          omega
        · simp only [OnSide, d2, quadSide]
          simp [top]
          omega
      · rintro ⟨c, cell, p, q, rfl, hc, h1, h2, h3, h4⟩
        obtain ⟨hlt, rfl⟩ := (hget c cell).mp hc
        obtain ⟨g1, g2, g3⟩ := block_split hlt
        simp only [quadSide, corners, List.getElem?_cons_succ, List.getElem?_cons_zero, Option.some.injEq] at h1
        subst h1
        simp only [OnSide, show (2 : Nat) ≠ 0 by decide, show (2 : Nat) ≠ 1 by decide, if_true, top, if_false] at h3
        refine ⟨c % nx, g1, ?_⟩
        have e : c = c % nx + nx * (ny - 1) := by rw [show ny - 1 = c / nx by omega]; exact g3
        have e' : (c : Int) = ((c % nx : Nat) : Int) + nx * ((ny - 1 : Nat) : Int) := by exact_mod_cast e
        rw [Nat.cast_sub (show 1 ≤ ny from hy)] at e'
        rw [e']
        push_cast
        simp
  · refine ⟨_, rfl, ?_, fun z => ?_⟩
    · refine List.nodup_range.map (fun a b h => ?_)
      have hx' : (nx : Int) ≠ 0 := by exact_mod_cast hx.ne'
      have := mul_right_cancel₀ hx' h
      omega
    · simp only [List.mem_map, List.mem_range]
      constructor
      · rintro ⟨j, hj, rfl⟩
        obtain ⟨d1, d2⟩ := hdiv 0 j hx
        refine ⟨0 + nx * j, _, _, _, ?_, (hget _ _).mpr ⟨lt_block hx hj, rfl⟩, rfl, rfl, ?_, ?_⟩
        · push_cast
          ring
        · simp only [OnSide, d1, quadSide]
          simp [lef]
        · simp only [OnSide, d1, quadSide]
          simp [lef]
      · rintro ⟨c, cell, p, q, rfl, hc, h1, h2, h3, h4⟩
        obtain ⟨hlt, rfl⟩ := (hget c cell).mp hc
        obtain ⟨g1, g2, g3⟩ := block_split hlt
        simp only [quadSide, corners, List.getElem?_cons_succ, List.getElem?_cons_zero, Option.some.injEq] at h1
        subst h1
        simp only [OnSide, show (3 : Nat) ≠ 0 by decide, show (3 : Nat) ≠ 1 by decide, show (3 : Nat) ≠ 2 by decide,
          if_true, lef, if_false] at h3
        refine ⟨c / nx, g2, ?_⟩
        rw [h3] at g3
        have e : c / nx * nx = c := by rw [mul_comm]; omega
        exact_mod_cast e

end order

/-! ## A case -/

/-- A rectangle from (1, 0) to (4, 2) with three by two cells.  [case] -/
def caseMesh : Option (Mesh (Rat × Rat)) := rectangle 1 0 3 2 3 2

example : ∃ m, caseMesh = some m ∧ m.numCells = 6 ∧ m.numNodes = 12 ∧ m.nodes[5]? = some (2, 1) ∧
    m.getCellNodes [4] = some [[(2, 1), (3, 1), (3, 2), (2, 2)]] ∧ m.sides[1]? = some [2, 5] := by
  refine ⟨_, rfl, rfl, rfl, ?_, ?_, ?_⟩ <;> decide +kernel

example : InBox ((1 : Rat), (0 : Rat)) (4, 2) (5 / 2, 3 / 2) ∧ InsideBox ((2 : Rat), (1 : Rat)) (3, 2) (5 / 2, 3 / 2) := by
  unfold InBox InsideBox
  norm_num

end MrHyDE.Mesh
