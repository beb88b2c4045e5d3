import Verif.Subgrid.Refine.Lemmas
import Mathlib.Data.List.Nodup
import Mathlib.Data.List.ProdSigma
import Mathlib.Tactic.FinCases
import Mathlib.Tactic.IntervalCases
import Mathlib.Tactic.LinearCombination
import Mathlib.Tactic.NormNum

/-!
# Uniform refinement: properties (C115)

The reference is the unit square (cube): an element refined `r` times is described by the cells of a grid with `2^r` cells
in each direction.
-/

set_option linter.unusedSectionVars false
set_option linter.unusedSimpArgs false

namespace MrHyDE.Subgrid.Refine

/-! ## Specification -/

section
variable {K : Type} {n : Nat} [Field K] [LinearOrder K] [IsStrictOrderedRing K]

/-- The bilinear map of the unit square onto the quadrilateral.  [specification, no code] -/
def bil (v0 v1 v2 v3 : Pt K n) (s t : K) : Pt K n :=
  fun k => (1 - s) * (1 - t) * v0 k + s * (1 - t) * v1 k + s * t * v2 k + (1 - s) * t * v3 k

/-- The trilinear map of the unit cube onto the hexahedron.  [specification, no code] -/
def tril (v0 v1 v2 v3 v4 v5 v6 v7 : Pt K n) (s t u : K) : Pt K n :=
  fun k => (1 - u) * bil v0 v1 v2 v3 s t k + u * bil v4 v5 v6 v7 s t k

/-- The image under `F` of the square cell `(i,j)` of the grid with `N` cells in each direction, counter-clockwise.
[specification, no code] -/
def square (F : K → K → Pt K n) (N i j : Nat) : List (Pt K n) :=
  [F (i / N) (j / N), F ((i + 1 : Nat) / N) (j / N), F ((i + 1 : Nat) / N) ((j + 1 : Nat) / N),
    F (i / N) ((j + 1 : Nat) / N)]

/-- The sides of the coarse quadrilateral that the sides of the cell `(i,j)` lie on: bottom, right, top, left.  A side
inside is not flagged.  [specification, no code] -/
def squareSides (N i j : Nat) : SideMap :=
  [if j = 0 then (1, 0) else (0, 0), if i + 1 = N then (1, 1) else (0, 0),
    if j + 1 = N then (1, 2) else (0, 0), if i = 0 then (1, 3) else (0, 0)]

/-- The image under `F` of the cell `(i,j,k)`: the bottom square, then the top square.  [specification, no code] -/
def cube (F : K → K → K → Pt K n) (N i j k : Nat) : List (Pt K n) :=
  square (fun s t => F s t (k / N)) N i j ++ square (fun s t => F s t ((k + 1 : Nat) / N)) N i j

/-- The sides of the coarse hexahedron that the sides of the cell lie on: front, right, back, left, bottom, top.
[specification, no code] -/
def cubeSides (N i j k : Nat) : SideMap :=
  squareSides N i j ++ [if k = 0 then (1, 4) else (0, 0), if k + 1 = N then (1, 5) else (0, 0)]

/-- The points of a triangle.  [specification, no code] -/
def InTriangle (a b c p : Pt K n) : Prop :=
  ∃ x y z : K, 0 ≤ x ∧ 0 ≤ y ∧ 0 ≤ z ∧ x + y + z = 1 ∧ ∀ k, p k = x * a k + y * b k + z * c k

/-- Twice the signed area of a triangle.  [specification, no code] -/
def area2 (a b c : Pt K 2) : K := (b 0 - a 0) * (c 1 - a 1) - (b 1 - a 1) * (c 0 - a 0)

end

/-! ## Quadrilaterals -/

section
variable {K : Type} {n : Nat} [Field K] [LinearOrder K] [IsStrictOrderedRing K]

/-- The cells of level `r` in the order in which the code makes them.  [helper] -/
def cells : Nat → List (Nat × Nat)
  | 0 => [(0, 0)]
  | r + 1 => (cells r).flatMap fun c =>
      [(2 * c.1, 2 * c.2), (2 * c.1 + 1, 2 * c.2), (2 * c.1 + 1, 2 * c.2 + 1), (2 * c.1, 2 * c.2 + 1)]

theorem mem_cells (r i j : Nat) : (i, j) ∈ cells r ↔ i < 2 ^ r ∧ j < 2 ^ r := by
  induction r generalizing i j with
  | zero => simp [cells]
  | succ r ih =>
    rw [cells, List.mem_flatMap, pow_succ]
    constructor
    · rintro ⟨⟨a, b⟩, hab, hc⟩
      have := (ih a b).mp hab
      simp only [List.mem_cons, Prod.mk.injEq, List.not_mem_nil, or_false] at hc
      omega
    · intro h
      refine ⟨(i / 2, j / 2), (ih _ _).mpr (by omega), ?_⟩
      simp only [List.mem_cons, Prod.mk.injEq, List.not_mem_nil, or_false]
      omega

theorem nodup_cells (r : Nat) : (cells r).Nodup := by
  induction r with
  | zero => simp [cells]
  | succ r ih =>
    rw [cells, List.nodup_flatMap]
    refine ⟨fun c _ => by simp, ?_⟩
    refine ih.imp_of_mem fun {a b} _ _ hab => ?_
    intro x hx hy
    apply hab
    simp only [List.mem_cons, List.not_mem_nil, or_false] at hx hy
    rcases hx with rfl | rfl | rfl | rfl <;> rcases hy with h | h | h | h <;>
    · simp only [Prod.mk.injEq] at h
      exact Prod.ext (by omega) (by omega)

theorem length_cells (r : Nat) : (cells r).length = 4 ^ r := by
  induction r with
  | zero => rfl
  | succ r ih => simp [cells, List.length_flatMap, ih, pow_succ]

theorem mid_bil (v0 v1 v2 v3 : Pt K n) (a b c d : K) :
    childrenOf quad ([bil v0 v1 v2 v3 a b, bil v0 v1 v2 v3 c b, bil v0 v1 v2 v3 c d, bil v0 v1 v2 v3 a d], m) =
    (let x := (a + c) / 2
     let y := (b + d) / 2
     let B := bil v0 v1 v2 v3
     [([B a b, B x b, B x y, B a y], clear m [1, 2]), ([B x b, B c b, B c y, B x y], clear m [2, 3]),
      ([B x y, B c y, B c d, B x d], clear m [0, 3]), ([B a y, B x y, B x d, B a d], clear m [0, 1])]) := by
  have h2 : (2 : K) ≠ 0 := two_ne_zero
  have h4 : (4 : K) ≠ 0 := four_ne_zero
  simp only [childrenOf, quad, List.zip_cons_cons, List.zip_nil_right, List.map_cons, List.map_nil, node_single]
  simp only [List.getD_cons_zero, List.getD_cons_succ, node, List.map_cons, List.map_nil, List.cons.injEq, Prod.mk.injEq,
    and_true, true_and]
  refine ⟨⟨?_, ?_, ?_⟩, ⟨?_, ?_, ?_⟩, ⟨?_, ?_, ?_⟩, ⟨?_, ?_, ?_⟩⟩ <;>
  · funext k
    simp only [avg, bil, List.map_cons, List.map_nil, List.sum_cons, List.sum_nil, List.length_cons, List.length_nil]
    push_cast
    field_simp
    ring

theorem half_cell (N i : Nat) (hN : 0 < N) :
    (((i : K) / N + ((i + 1 : Nat) : K) / N) / 2 = ((2 * i + 1 : Nat) : K) / (2 * N : Nat)) ∧
    ((i : K) / N = ((2 * i : Nat) : K) / (2 * N : Nat)) ∧
    (((i + 1 : Nat) : K) / N = ((2 * i + 1 + 1 : Nat) : K) / (2 * N : Nat)) := by
  have h1 : (N : K) ≠ 0 := by exact_mod_cast hN.ne'
  refine ⟨?_, ?_, ?_⟩ <;> push_cast <;> field_simp <;> ring

theorem children_square (v0 v1 v2 v3 : Pt K n) (N i j : Nat) (hN : 0 < N) :
    childrenOf quad (square (bil v0 v1 v2 v3) N i j, squareSides N i j) =
    [(2 * i, 2 * j), (2 * i + 1, 2 * j), (2 * i + 1, 2 * j + 1), (2 * i, 2 * j + 1)].map
      (fun c => (square (bil v0 v1 v2 v3) (2 * N) c.1 c.2, squareSides (2 * N) c.1 c.2)) := by
  obtain ⟨x1, x2, x3⟩ := half_cell (K := K) N i hN
  obtain ⟨y1, y2, y3⟩ := half_cell (K := K) N j hN
  unfold square
  rw [mid_bil]
  simp only [List.map_cons, List.map_nil, x1, y1]
  have ei : (2 * i + 1 + 1 = 2 * N) ↔ (i + 1 = N) := by omega
  have ej : (2 * j + 1 + 1 = 2 * N) ↔ (j + 1 = N) := by omega
  have ei' : ¬ (2 * i + 1 = 2 * N) := by omega
  have ej' : ¬ (2 * j + 1 = 2 * N) := by omega
  have s1 : clear (squareSides N i j) [1, 2] = squareSides (2 * N) (2 * i) (2 * j) := by
    simp [clear, squareSides, ei', ej']
  have s2 : clear (squareSides N i j) [2, 3] = squareSides (2 * N) (2 * i + 1) (2 * j) := by
    simp [clear, squareSides, ej', ei]
  have s3 : clear (squareSides N i j) [0, 3] = squareSides (2 * N) (2 * i + 1) (2 * j + 1) := by
    simp [clear, squareSides, ei, ej]
  have s4 : clear (squareSides N i j) [0, 1] = squareSides (2 * N) (2 * i) (2 * j + 1) := by
    simp [clear, squareSides, ei', ej]
  rw [s1, s2, s3, s4, x2, x3, y2, y3]

theorem levels_quad (v0 v1 v2 v3 : Pt K n) (r : Nat) :
    levels quad r [(square (bil v0 v1 v2 v3) 1 0 0, squareSides 1 0 0)] =
      (cells r).map (fun c => (square (bil v0 v1 v2 v3) (2 ^ r) c.1 c.2, squareSides (2 ^ r) c.1 c.2)) := by
  induction r with
  | zero => simp [levels, cells]
  | succ r ih =>
    rw [levels_succ, ih, cells, List.flatMap_map, List.map_flatMap]
    refine List.flatMap_congr fun c _ => ?_
    rw [children_square _ _ _ _ _ _ _ (by positivity), pow_succ, mul_comm (2 ^ r) 2]

theorem square_one (v0 v1 v2 v3 : Pt K n) : square (bil v0 v1 v2 v3) 1 0 0 = [v0, v1, v2, v3] := by
  simp only [square, List.cons.injEq, and_true]
  refine ⟨?_, ?_, ?_, ?_⟩ <;> funext k <;> simp [bil]

/-- The start is good and describes the coarse element. -/
theorem start_spec {h : K} (vs : List (Pt K n)) (ns : Nat) (hn : vs.Nodup) (hg : ∀ p : Pt K n, p ∈ vs → OnGrid h p) :
    Good h (start vs ns).nodes ∧ Described h vs.length (start vs ns).nodes (start vs ns).elems
      [(vs, (List.range ns).map (fun (s : Nat) => ((1 : Int), (s : Int))))] := by
  refine ⟨⟨hn, hg⟩, ?_, ?_⟩
  · refine List.Forall₂.cons ⟨?_, rfl⟩ List.Forall₂.nil
    simp only [start]
    have h1 : (List.range vs.length).mapM (fun i => vs[i]?) = some ((List.range vs.length).map (fun i => vs.getD i 0)) :=
      mapM_getElem vs 0 _ fun i hi => List.mem_range.mp hi
    rw [h1]
    congr 1
    refine List.ext_getElem (by simp) fun i h1 h2 => ?_
    simp [List.getElem?_eq_getElem h2]
  · intro c hc
    rw [List.mem_singleton] at hc
    subst hc
    exact ⟨rfl, hg⟩

/-- C115 (quadrilaterals): after any number `r` of refinements for which the tolerance is finer than the grid, the mesh is
exactly the image of the uniform grid with `2^r` by `2^r` cells under the bilinear map of the coarse element.  Every
cell occurs once, with its vertices in counter-clockwise order; no node occurs twice, so neighbouring elements share
their nodes; every node belongs to an element; a side is flagged exactly if it lies on the boundary, with the side of the coarse element on which it
lies. -/
theorem C115_quad {tol eta : K} (ht : 0 < tol) (r : Nat) (hr : tol * 4 ^ r ≤ eta) (v0 v1 v2 v3 : Pt K n)
    (hv : [v0, v1, v2, v3].Nodup) (hgrid : ∀ p : Pt K n, p ∈ [v0, v1, v2, v3] → OnGrid eta p) :
    ∃ (m : Mesh K n) (cs : List (Nat × Nat)), refineTimes quad tol r (start [v0, v1, v2, v3] 4) = some m ∧
      m.nodes.Nodup ∧ cs.Nodup ∧ (∀ i j : Nat, (i, j) ∈ cs ↔ i < 2 ^ r ∧ j < 2 ^ r) ∧
      List.Forall₂ (fun el c => el.conn.mapM (fun i => m.nodes[i]?) = some (square (bil v0 v1 v2 v3) (2 ^ r) c.1 c.2) ∧
        el.map = squareSides (2 ^ r) c.1 c.2) m.elems cs ∧
      ∀ p : Pt K n, p ∈ m.nodes → ∃ c : Nat × Nat, c ∈ cs ∧ p ∈ square (bil v0 v1 v2 v3) (2 ^ r) c.1 c.2 := by
  have hpos : (0 : K) < 4 ^ r := by positivity
  have hle : tol ≤ eta / 4 ^ r := (le_div_iff₀ hpos).mpr hr
  have he : ((4 : Nat) : K) ^ r * (eta / 4 ^ r) = eta := by
    push_cast
    field_simp
  obtain ⟨s1, s2⟩ := start_spec [v0, v1, v2, v3] 4 hv hgrid
  rw [← he] at s1 s2
  obtain ⟨m, h1, -, h3, h4, h5⟩ := refineTimes_spec (s := quad) (mv := 4) (D := 4) (by decide) ht r hle s2 s1
  have hsides : (List.range 4).map (fun (s : Nat) => ((1 : Int), (s : Int))) = squareSides 1 0 0 := by decide
  have h6 := h5 (by decide) (fun p hp => ⟨_, List.mem_singleton_self _, hp⟩)
  rw [hsides, ← square_one v0 v1 v2 v3, levels_quad] at h4 h6
  refine ⟨m, cells r, h1, h3.1, nodup_cells r, mem_cells r, ?_, ?_⟩
  · have := h4.1
    rw [List.forall₂_map_right_iff] at this
    exact this
  · intro p hp
    obtain ⟨c, hc, hpc⟩ := h6 p hp
    obtain ⟨d, hd, rfl⟩ := List.mem_map.mp hc
    exact ⟨d, hd, hpc⟩

end

/-- The hypotheses hold: the reference square, the tolerance of the code and nine refinements. -/
example : ∃ (m : Mesh ℚ 2) (cs : List (Nat × Nat)),
    refineTimes quad (1 / 1000000) 9 (start [![-1, -1], ![1, -1], ![1, 1], ![-1, 1]] 4) = some m ∧ m.nodes.Nodup ∧
      (0, 511) ∈ cs ∧ m.elems.length = cs.length := by
  obtain ⟨m, cs, h1, h2, -, h4, h5, -⟩ := C115_quad (tol := (1 / 1000000 : ℚ)) (eta := 1) (by norm_num) 9 (by norm_num)
    ![-1, -1] ![1, -1] ![1, 1] ![-1, 1] (by decide +kernel) (by
      intro p hp i
      simp only [List.mem_cons, List.not_mem_nil, or_false] at hp
      have one : ∃ z : ℤ, (1 : ℚ) = z * 1 := ⟨1, by norm_num⟩
      have neg : ∃ z : ℤ, (-1 : ℚ) = z * 1 := ⟨-1, by norm_num⟩
      rcases hp with rfl | rfl | rfl | rfl <;> fin_cases i <;> first | exact one | exact neg)
  exact ⟨m, cs, h1, h2, (h4 _ _).mpr (by norm_num), h5.length_eq⟩

/-! ## Hexahedra -/

section
variable {K : Type} {n : Nat} [Field K] [LinearOrder K] [IsStrictOrderedRing K]

/-- The cells of level `r` in the order in which the code makes them.  [helper] -/
def cells3 : Nat → List (Nat × Nat × Nat)
  | 0 => [(0, 0, 0)]
  | r + 1 => (cells3 r).flatMap fun c =>
      [(2 * c.1, 2 * c.2.1, 2 * c.2.2), (2 * c.1 + 1, 2 * c.2.1, 2 * c.2.2),
       (2 * c.1 + 1, 2 * c.2.1 + 1, 2 * c.2.2), (2 * c.1, 2 * c.2.1 + 1, 2 * c.2.2),
       (2 * c.1, 2 * c.2.1, 2 * c.2.2 + 1), (2 * c.1 + 1, 2 * c.2.1, 2 * c.2.2 + 1),
       (2 * c.1 + 1, 2 * c.2.1 + 1, 2 * c.2.2 + 1), (2 * c.1, 2 * c.2.1 + 1, 2 * c.2.2 + 1)]

theorem mem_cells3 (r i j k : Nat) : (i, j, k) ∈ cells3 r ↔ i < 2 ^ r ∧ j < 2 ^ r ∧ k < 2 ^ r := by
  induction r generalizing i j k with
  | zero => simp [cells3]
  | succ r ih =>
    rw [cells3, List.mem_flatMap, pow_succ]
    constructor
    · rintro ⟨⟨a, b, c⟩, hab, hc⟩
      have := (ih a b c).mp hab
      simp only [List.mem_cons, Prod.mk.injEq, List.not_mem_nil, or_false] at hc
      omega
    · intro h
      refine ⟨(i / 2, j / 2, k / 2), (ih _ _ _).mpr (by omega), ?_⟩
      simp only [List.mem_cons, Prod.mk.injEq, List.not_mem_nil, or_false]
      omega

theorem nodup_cells3 (r : Nat) : (cells3 r).Nodup := by
  induction r with
  | zero => simp [cells3]
  | succ r ih =>
    rw [cells3, List.nodup_flatMap]
    refine ⟨fun c _ => by simp, ?_⟩
    refine ih.imp_of_mem fun {a b} _ _ hab => ?_
    intro x hx hy
    apply hab
    simp only [List.mem_cons, List.not_mem_nil, or_false] at hx hy
    have hx' : x.1 / 2 = a.1 ∧ x.2.1 / 2 = a.2.1 ∧ x.2.2 / 2 = a.2.2 := by
      rcases hx with rfl | rfl | rfl | rfl | rfl | rfl | rfl | rfl <;> simp only <;> omega
    have hy' : x.1 / 2 = b.1 ∧ x.2.1 / 2 = b.2.1 ∧ x.2.2 / 2 = b.2.2 := by
      rcases hy with rfl | rfl | rfl | rfl | rfl | rfl | rfl | rfl <;> simp only <;> omega
    exact Prod.ext (hx'.1.symm.trans hy'.1) (Prod.ext (hx'.2.1.symm.trans hy'.2.1) (hx'.2.2.symm.trans hy'.2.2))

theorem mid_tril (v0 v1 v2 v3 v4 v5 v6 v7 : Pt K n) (a b c d e f : K) (m : SideMap) :
    (let T := tril v0 v1 v2 v3 v4 v5 v6 v7
     childrenOf hex ([T a b e, T c b e, T c d e, T a d e, T a b f, T c b f, T c d f, T a d f], m)) =
    (let T := tril v0 v1 v2 v3 v4 v5 v6 v7
     let x := (a + c) / 2
     let y := (b + d) / 2
     let z := (e + f) / 2
     [([T a b e, T x b e, T x y e, T a y e, T a b z, T x b z, T x y z, T a y z], clear m [1, 2, 5]),
      ([T x b e, T c b e, T c y e, T x y e, T x b z, T c b z, T c y z, T x y z], clear m [2, 3, 5]),
      ([T x y e, T c y e, T c d e, T x d e, T x y z, T c y z, T c d z, T x d z], clear m [0, 3, 5]),
      ([T a y e, T x y e, T x d e, T a d e, T a y z, T x y z, T x d z, T a d z], clear m [0, 1, 5]),
      ([T a b z, T x b z, T x y z, T a y z, T a b f, T x b f, T x y f, T a y f], clear m [1, 2, 4]),
      ([T x b z, T c b z, T c y z, T x y z, T x b f, T c b f, T c y f, T x y f], clear m [2, 3, 4]),
      ([T x y z, T c y z, T c d z, T x d z, T x y f, T c y f, T c d f, T x d f], clear m [0, 3, 4]),
      ([T a y z, T x y z, T x d z, T a d z, T a y f, T x y f, T x d f, T a d f], clear m [0, 1, 4])]) := by
  have h2 : (2 : K) ≠ 0 := two_ne_zero
  have h4 : (4 : K) ≠ 0 := four_ne_zero
  set T := tril v0 v1 v2 v3 v4 v5 v6 v7 with hT
  have sx : ∀ (p q y z : K) (k : Fin n), T ((p + q) / 2) y z k = 1 / 2 * (T p y z k + T q y z k) := by
    intro p q y z k
    simp only [hT, tril, bil]
    ring
  have sy : ∀ (x p q z : K) (k : Fin n), T x ((p + q) / 2) z k = 1 / 2 * (T x p z k + T x q z k) := by
    intro x p q z k
    simp only [hT, tril, bil]
    ring
  have sz : ∀ (x y p q : K) (k : Fin n), T x y ((p + q) / 2) k = 1 / 2 * (T x y p k + T x y q k) := by
    intro x y p q k
    simp only [hT, tril, bil]
    ring
  clear_value T
  clear hT h2 h4
  have n0123 : node [T a b e, T c b e, T c d e, T a d e, T a b f, T c b f, T c d f, T a d f]
      [0, 1, 2, 3] = T ((a + c) / 2) ((b + d) / 2) e := by
    funext k
    simp only [node, avg, List.getD_cons_zero, List.getD_cons_succ, List.map_cons, List.map_nil, List.sum_cons,
      List.sum_nil, List.length_cons, List.length_nil, sx, sy, sz]
    push_cast
    ring
  have n4567 : node [T a b e, T c b e, T c d e, T a d e, T a b f, T c b f, T c d f, T a d f]
      [4, 5, 6, 7] = T ((a + c) / 2) ((b + d) / 2) f := by
    funext k
    simp only [node, avg, List.getD_cons_zero, List.getD_cons_succ, List.map_cons, List.map_nil, List.sum_cons,
      List.sum_nil, List.length_cons, List.length_nil, sx, sy, sz]
    push_cast
    ring
  have n0145 : node [T a b e, T c b e, T c d e, T a d e, T a b f, T c b f, T c d f, T a d f]
      [0, 1, 4, 5] = T ((a + c) / 2) b ((e + f) / 2) := by
    funext k
    simp only [node, avg, List.getD_cons_zero, List.getD_cons_succ, List.map_cons, List.map_nil, List.sum_cons,
      List.sum_nil, List.length_cons, List.length_nil, sx, sy, sz]
    push_cast
    ring
  have n1256 : node [T a b e, T c b e, T c d e, T a d e, T a b f, T c b f, T c d f, T a d f]
      [1, 2, 5, 6] = T c ((b + d) / 2) ((e + f) / 2) := by
    funext k
    simp only [node, avg, List.getD_cons_zero, List.getD_cons_succ, List.map_cons, List.map_nil, List.sum_cons,
      List.sum_nil, List.length_cons, List.length_nil, sx, sy, sz]
    push_cast
    ring
  have n2367 : node [T a b e, T c b e, T c d e, T a d e, T a b f, T c b f, T c d f, T a d f]
      [2, 3, 6, 7] = T ((a + c) / 2) d ((e + f) / 2) := by
    funext k
    simp only [node, avg, List.getD_cons_zero, List.getD_cons_succ, List.map_cons, List.map_nil, List.sum_cons,
      List.sum_nil, List.length_cons, List.length_nil, sx, sy, sz]
    push_cast
    ring
  have n0347 : node [T a b e, T c b e, T c d e, T a d e, T a b f, T c b f, T c d f, T a d f]
      [0, 3, 4, 7] = T a ((b + d) / 2) ((e + f) / 2) := by
    funext k
    simp only [node, avg, List.getD_cons_zero, List.getD_cons_succ, List.map_cons, List.map_nil, List.sum_cons,
      List.sum_nil, List.length_cons, List.length_nil, sx, sy, sz]
    push_cast
    ring
  have n01 : node [T a b e, T c b e, T c d e, T a d e, T a b f, T c b f, T c d f, T a d f]
      [0, 1] = T ((a + c) / 2) b e := by
    funext k
    simp only [node, avg, List.getD_cons_zero, List.getD_cons_succ, List.map_cons, List.map_nil, List.sum_cons,
      List.sum_nil, List.length_cons, List.length_nil, sx, sy, sz]
    push_cast
    ring
  have n12 : node [T a b e, T c b e, T c d e, T a d e, T a b f, T c b f, T c d f, T a d f]
      [1, 2] = T c ((b + d) / 2) e := by
    funext k
    simp only [node, avg, List.getD_cons_zero, List.getD_cons_succ, List.map_cons, List.map_nil, List.sum_cons,
      List.sum_nil, List.length_cons, List.length_nil, sx, sy, sz]
    push_cast
    ring
  have n23 : node [T a b e, T c b e, T c d e, T a d e, T a b f, T c b f, T c d f, T a d f]
      [2, 3] = T ((a + c) / 2) d e := by
    funext k
    simp only [node, avg, List.getD_cons_zero, List.getD_cons_succ, List.map_cons, List.map_nil, List.sum_cons,
      List.sum_nil, List.length_cons, List.length_nil, sx, sy, sz]
    push_cast
    ring
  have n03 : node [T a b e, T c b e, T c d e, T a d e, T a b f, T c b f, T c d f, T a d f]
      [0, 3] = T a ((b + d) / 2) e := by
    funext k
    simp only [node, avg, List.getD_cons_zero, List.getD_cons_succ, List.map_cons, List.map_nil, List.sum_cons,
      List.sum_nil, List.length_cons, List.length_nil, sx, sy, sz]
    push_cast
    ring
  have n04 : node [T a b e, T c b e, T c d e, T a d e, T a b f, T c b f, T c d f, T a d f]
      [0, 4] = T a b ((e + f) / 2) := by
    funext k
    simp only [node, avg, List.getD_cons_zero, List.getD_cons_succ, List.map_cons, List.map_nil, List.sum_cons,
      List.sum_nil, List.length_cons, List.length_nil, sx, sy, sz]
    push_cast
    ring
  have n15 : node [T a b e, T c b e, T c d e, T a d e, T a b f, T c b f, T c d f, T a d f]
      [1, 5] = T c b ((e + f) / 2) := by
    funext k
    simp only [node, avg, List.getD_cons_zero, List.getD_cons_succ, List.map_cons, List.map_nil, List.sum_cons,
      List.sum_nil, List.length_cons, List.length_nil, sx, sy, sz]
    push_cast
    ring
  have n26 : node [T a b e, T c b e, T c d e, T a d e, T a b f, T c b f, T c d f, T a d f]
      [2, 6] = T c d ((e + f) / 2) := by
    funext k
    simp only [node, avg, List.getD_cons_zero, List.getD_cons_succ, List.map_cons, List.map_nil, List.sum_cons,
      List.sum_nil, List.length_cons, List.length_nil, sx, sy, sz]
    push_cast
    ring
  have n37 : node [T a b e, T c b e, T c d e, T a d e, T a b f, T c b f, T c d f, T a d f]
      [3, 7] = T a d ((e + f) / 2) := by
    funext k
    simp only [node, avg, List.getD_cons_zero, List.getD_cons_succ, List.map_cons, List.map_nil, List.sum_cons,
      List.sum_nil, List.length_cons, List.length_nil, sx, sy, sz]
    push_cast
    ring
  have n45 : node [T a b e, T c b e, T c d e, T a d e, T a b f, T c b f, T c d f, T a d f]
      [4, 5] = T ((a + c) / 2) b f := by
    funext k
    simp only [node, avg, List.getD_cons_zero, List.getD_cons_succ, List.map_cons, List.map_nil, List.sum_cons,
      List.sum_nil, List.length_cons, List.length_nil, sx, sy, sz]
    push_cast
    ring
  have n56 : node [T a b e, T c b e, T c d e, T a d e, T a b f, T c b f, T c d f, T a d f]
      [5, 6] = T c ((b + d) / 2) f := by
    funext k
    simp only [node, avg, List.getD_cons_zero, List.getD_cons_succ, List.map_cons, List.map_nil, List.sum_cons,
      List.sum_nil, List.length_cons, List.length_nil, sx, sy, sz]
    push_cast
    ring
  have n67 : node [T a b e, T c b e, T c d e, T a d e, T a b f, T c b f, T c d f, T a d f]
      [6, 7] = T ((a + c) / 2) d f := by
    funext k
    simp only [node, avg, List.getD_cons_zero, List.getD_cons_succ, List.map_cons, List.map_nil, List.sum_cons,
      List.sum_nil, List.length_cons, List.length_nil, sx, sy, sz]
    push_cast
    ring
  have n47 : node [T a b e, T c b e, T c d e, T a d e, T a b f, T c b f, T c d f, T a d f]
      [4, 7] = T a ((b + d) / 2) f := by
    funext k
    simp only [node, avg, List.getD_cons_zero, List.getD_cons_succ, List.map_cons, List.map_nil, List.sum_cons,
      List.sum_nil, List.length_cons, List.length_nil, sx, sy, sz]
    push_cast
    ring
  have n01234567 : node [T a b e, T c b e, T c d e, T a d e, T a b f, T c b f, T c d f, T a d f]
      [0, 1, 2, 3, 4, 5, 6, 7] = T ((a + c) / 2) ((b + d) / 2) ((e + f) / 2) := by
    funext k
    simp only [node, avg, List.getD_cons_zero, List.getD_cons_succ, List.map_cons, List.map_nil, List.sum_cons,
      List.sum_nil, List.length_cons, List.length_nil, sx, sy, sz]
    push_cast
    ring
  simp only [childrenOf, hex, List.zip_cons_cons, List.zip_nil_right, List.map_cons, List.map_nil, node_single,
    List.getD_cons_zero, List.getD_cons_succ, n0123, n4567, n0145, n1256, n2367, n0347, n01, n12, n23, n03, n04, n15, n26, n37, n45, n56, n67, n47, n01234567]

theorem children_cube (v0 v1 v2 v3 v4 v5 v6 v7 : Pt K n) (N i j k : Nat) (hN : 0 < N) :
    childrenOf hex (cube (tril v0 v1 v2 v3 v4 v5 v6 v7) N i j k, cubeSides N i j k) =
    [(2 * i, 2 * j, 2 * k), (2 * i + 1, 2 * j, 2 * k), (2 * i + 1, 2 * j + 1, 2 * k), (2 * i, 2 * j + 1, 2 * k),
      (2 * i, 2 * j, 2 * k + 1), (2 * i + 1, 2 * j, 2 * k + 1), (2 * i + 1, 2 * j + 1, 2 * k + 1),
      (2 * i, 2 * j + 1, 2 * k + 1)].map
      (fun c => (cube (tril v0 v1 v2 v3 v4 v5 v6 v7) (2 * N) c.1 c.2.1 c.2.2, cubeSides (2 * N) c.1 c.2.1 c.2.2)) := by
  obtain ⟨x1, x2, x3⟩ := half_cell (K := K) N i hN
  obtain ⟨y1, y2, y3⟩ := half_cell (K := K) N j hN
  obtain ⟨z1, z2, z3⟩ := half_cell (K := K) N k hN
  have key := mid_tril v0 v1 v2 v3 v4 v5 v6 v7 ((i : K) / N) ((j : K) / N) (((i + 1 : Nat) : K) / N)
    (((j + 1 : Nat) : K) / N) ((k : K) / N) (((k + 1 : Nat) : K) / N) (cubeSides N i j k)
  unfold cube square
  simp only [List.cons_append, List.nil_append] at key ⊢
  rw [key]
  simp only [List.map_cons, List.map_nil, x1, y1, z1]
  have ei : (2 * i + 1 + 1 = 2 * N) ↔ (i + 1 = N) := by omega
  have ej : (2 * j + 1 + 1 = 2 * N) ↔ (j + 1 = N) := by omega
  have ek : (2 * k + 1 + 1 = 2 * N) ↔ (k + 1 = N) := by omega
  have ei' : ¬ (2 * i + 1 = 2 * N) := by omega
  have ej' : ¬ (2 * j + 1 = 2 * N) := by omega
  have ek' : ¬ (2 * k + 1 = 2 * N) := by omega
  have s1 : clear (cubeSides N i j k) [1, 2, 5] = cubeSides (2 * N) (2 * i) (2 * j) (2 * k) := by
    simp [clear, cubeSides, squareSides, ei', ej', ek']
  have s2 : clear (cubeSides N i j k) [2, 3, 5] = cubeSides (2 * N) (2 * i + 1) (2 * j) (2 * k) := by
    simp [clear, cubeSides, squareSides, ei, ej', ek']
  have s3 : clear (cubeSides N i j k) [0, 3, 5] = cubeSides (2 * N) (2 * i + 1) (2 * j + 1) (2 * k) := by
    simp [clear, cubeSides, squareSides, ei, ej, ek']
  have s4 : clear (cubeSides N i j k) [0, 1, 5] = cubeSides (2 * N) (2 * i) (2 * j + 1) (2 * k) := by
    simp [clear, cubeSides, squareSides, ei', ej, ek']
  have s5 : clear (cubeSides N i j k) [1, 2, 4] = cubeSides (2 * N) (2 * i) (2 * j) (2 * k + 1) := by
    simp [clear, cubeSides, squareSides, ei', ej', ek]
  have s6 : clear (cubeSides N i j k) [2, 3, 4] = cubeSides (2 * N) (2 * i + 1) (2 * j) (2 * k + 1) := by
    simp [clear, cubeSides, squareSides, ei, ej', ek]
  have s7 : clear (cubeSides N i j k) [0, 3, 4] = cubeSides (2 * N) (2 * i + 1) (2 * j + 1) (2 * k + 1) := by
    simp [clear, cubeSides, squareSides, ei, ej, ek]
  have s8 : clear (cubeSides N i j k) [0, 1, 4] = cubeSides (2 * N) (2 * i) (2 * j + 1) (2 * k + 1) := by
    simp [clear, cubeSides, squareSides, ei', ej, ek]
  rw [s1, s2, s3, s4, s5, s6, s7, s8, x2, x3, y2, y3, z2, z3]

theorem levels_hex (v0 v1 v2 v3 v4 v5 v6 v7 : Pt K n) (r : Nat) :
    levels hex r [(cube (tril v0 v1 v2 v3 v4 v5 v6 v7) 1 0 0 0, cubeSides 1 0 0 0)] =
      (cells3 r).map (fun c => (cube (tril v0 v1 v2 v3 v4 v5 v6 v7) (2 ^ r) c.1 c.2.1 c.2.2,
        cubeSides (2 ^ r) c.1 c.2.1 c.2.2)) := by
  induction r with
  | zero => simp [levels, cells3]
  | succ r ih =>
    rw [levels_succ, ih, cells3, List.flatMap_map, List.map_flatMap]
    refine List.flatMap_congr fun c _ => ?_
    rw [children_cube _ _ _ _ _ _ _ _ _ _ _ _ (by positivity), pow_succ, mul_comm (2 ^ r) 2]

theorem cube_one (v0 v1 v2 v3 v4 v5 v6 v7 : Pt K n) :
    cube (tril v0 v1 v2 v3 v4 v5 v6 v7) 1 0 0 0 = [v0, v1, v2, v3, v4, v5, v6, v7] := by
  simp only [cube, square, List.cons_append, List.nil_append, List.cons.injEq, and_true]
  refine ⟨?_, ?_, ?_, ?_, ?_, ?_, ?_, ?_⟩ <;> funext k <;> simp [bil, tril]

/-- C115 (hexahedra): the same with the trilinear map, `2^r` cells in each of the three directions and the six sides. -/
theorem C115_hex {tol eta : K} (ht : 0 < tol) (r : Nat) (hr : tol * 8 ^ r ≤ eta) (v0 v1 v2 v3 v4 v5 v6 v7 : Pt K n)
    (hv : [v0, v1, v2, v3, v4, v5, v6, v7].Nodup)
    (hgrid : ∀ p : Pt K n, p ∈ [v0, v1, v2, v3, v4, v5, v6, v7] → OnGrid eta p) :
    ∃ (m : Mesh K n) (cs : List (Nat × Nat × Nat)),
      refineTimes hex tol r (start [v0, v1, v2, v3, v4, v5, v6, v7] 6) = some m ∧
      m.nodes.Nodup ∧ cs.Nodup ∧ (∀ i j k : Nat, (i, j, k) ∈ cs ↔ i < 2 ^ r ∧ j < 2 ^ r ∧ k < 2 ^ r) ∧
      List.Forall₂ (fun el c => el.conn.mapM (fun i => m.nodes[i]?) =
          some (cube (tril v0 v1 v2 v3 v4 v5 v6 v7) (2 ^ r) c.1 c.2.1 c.2.2) ∧
        el.map = cubeSides (2 ^ r) c.1 c.2.1 c.2.2) m.elems cs ∧
      ∀ p : Pt K n, p ∈ m.nodes → ∃ c : Nat × Nat × Nat, c ∈ cs ∧
        p ∈ cube (tril v0 v1 v2 v3 v4 v5 v6 v7) (2 ^ r) c.1 c.2.1 c.2.2 := by
  have hpos : (0 : K) < 8 ^ r := by positivity
  have hle : tol ≤ eta / 8 ^ r := (le_div_iff₀ hpos).mpr hr
  have he : ((8 : Nat) : K) ^ r * (eta / 8 ^ r) = eta := by
    push_cast
    field_simp
  obtain ⟨s1, s2⟩ := start_spec [v0, v1, v2, v3, v4, v5, v6, v7] 6 hv hgrid
  rw [← he] at s1 s2
  obtain ⟨m, h1, -, h3, h4, h5⟩ := refineTimes_spec (s := hex) (mv := 8) (D := 8) (by decide) ht r hle s2 s1
  have hsides : (List.range 6).map (fun (s : Nat) => ((1 : Int), (s : Int))) = cubeSides 1 0 0 0 := by decide
  have h6 := h5 (by decide) (fun p hp => ⟨_, List.mem_singleton_self _, hp⟩)
  rw [hsides, ← cube_one v0 v1 v2 v3 v4 v5 v6 v7, levels_hex] at h4 h6
  refine ⟨m, cells3 r, h1, h3.1, nodup_cells3 r, mem_cells3 r, ?_, ?_⟩
  · have := h4.1
    rw [List.forall₂_map_right_iff] at this
    exact this
  · intro p hp
    obtain ⟨c, hc, hpc⟩ := h6 p hp
    obtain ⟨d, hd, rfl⟩ := List.mem_map.mp hc
    exact ⟨d, hd, hpc⟩

end

/-- The hypotheses hold: the reference cube and six refinements. -/
example : ∃ (m : Mesh ℚ 3) (cs : List (Nat × Nat × Nat)),
    refineTimes hex (1 / 1000000) 6 (start [![-1, -1, -1], ![1, -1, -1], ![1, 1, -1], ![-1, 1, -1], ![-1, -1, 1],
      ![1, -1, 1], ![1, 1, 1], ![-1, 1, 1]] 6) = some m ∧ m.nodes.Nodup ∧ (63, 0, 5) ∈ cs ∧ m.elems.length = cs.length := by
  obtain ⟨m, cs, h1, h2, -, h4, h5, -⟩ := C115_hex (tol := (1 / 1000000 : ℚ)) (eta := 1) (by norm_num) 6 (by norm_num)
    ![-1, -1, -1] ![1, -1, -1] ![1, 1, -1] ![-1, 1, -1] ![-1, -1, 1] ![1, -1, 1] ![1, 1, 1] ![-1, 1, 1]
    (by decide +kernel) (by
      intro p hp i
      simp only [List.mem_cons, List.not_mem_nil, or_false] at hp
      have one : ∃ z : ℤ, (1 : ℚ) = z * 1 := ⟨1, by norm_num⟩
      have neg : ∃ z : ℤ, (-1 : ℚ) = z * 1 := ⟨-1, by norm_num⟩
      rcases hp with rfl | rfl | rfl | rfl | rfl | rfl | rfl | rfl <;> fin_cases i <;> first | exact one | exact neg)
  exact ⟨m, cs, h1, h2, (h4 _ _ _).mpr (by norm_num), h5.length_eq⟩

end MrHyDE.Subgrid.Refine
