import Verif.Mesh.SimpleProps

/-!
# Rectangles distributed over processes (C121)
-/

set_option linter.unusedSectionVars false
set_option linter.unusedSimpArgs false

namespace MrHyDE.Mesh

variable {K : Type}

/-- The numbers of a process are those of a process of a decomposition with at least one cell in each direction: what the
constructor makes of a rank below the number of processes, see `part_fits`.  [specification, no code] -/
structure Part.Fits (p : Part) : Prop where
  px : p.px < p.xprocs
  py : p.py < p.yprocs
  nx : 0 < p.nx
  ny : 0 < p.ny

/-- The process of column `px` and row `py`.  [specification, no code] -/
def proc (X Y nx ny px py : Nat) : Part := { xprocs := X, yprocs := Y, px := px, py := py, nx := nx, ny := ny }

theorem part_fits {NX NY procid X Y : Nat} {p : Part} (h : part NX NY procid X Y = .ok p) (hid : procid < X * Y)
    (hx : X ≤ NX) (hy : Y ≤ NY) : p.Fits ∧ p = proc X Y (NX / X) (NY / Y) (procid % X) (procid / X) := by
  unfold part at h
  split at h
  · simp at h
  · split at h
    · simp at h
    · split at h
      · simp at h
      · rename_i h1 h2 h3
        simp only [Except.ok.injEq] at h
        subst h
        refine ⟨⟨Nat.mod_lt _ (Nat.pos_of_ne_zero h1), Nat.div_lt_of_lt_mul hid, Nat.div_pos hx (Nat.pos_of_ne_zero h1),
          Nat.div_pos hy (Nat.pos_of_ne_zero h2)⟩, rfl⟩

theorem local_at (p : Part) {i j : Nat} (hi : i ≤ p.nx) :
    p.localToGlobal (i + (p.nx + 1) * j) = (p.px * p.nx + i) + (p.xprocs * p.nx + 1) * (p.py * p.ny + j) := by
  unfold Part.localToGlobal
  simp only
  rw [Nat.add_mul_mod_self_left, Nat.mod_eq_of_lt (Nat.lt_succ_of_le hi), Nat.add_mul_div_left _ _ (Nat.succ_pos _),
    Nat.div_eq_of_lt (Nat.lt_succ_of_le hi)]
  ring

theorem col_lt {p : Part} (hp : p.Fits) {i : Nat} (hi : i ≤ p.nx) : p.px * p.nx + i < p.xprocs * p.nx + 1 := by
  have : (p.px + 1) * p.nx ≤ p.xprocs * p.nx := Nat.mul_le_mul_right _ hp.px
  have : (p.px + 1) * p.nx = p.px * p.nx + p.nx := by ring
  omega

theorem row_lt {p : Part} (hp : p.Fits) {j : Nat} (hj : j ≤ p.ny) : p.py * p.ny + j < p.yprocs * p.ny + 1 := by
  have : (p.py + 1) * p.ny ≤ p.yprocs * p.ny := Nat.mul_le_mul_right _ hp.py
  have : (p.py + 1) * p.ny = p.py * p.ny + p.ny := by ring
  omega

/-- From the number of a node on a process to the number in the whole mesh and back is the identity, and the numbers of
the whole mesh are below the number of its nodes and differ for different nodes of the process. -/
theorem C121_ids {p : Part} (hp : p.Fits) {lid : Nat} (h : lid < (p.nx + 1) * (p.ny + 1)) :
    p.globalToLocal (p.localToGlobal lid) = lid ∧
      p.localToGlobal lid < (p.xprocs * p.nx + 1) * (p.yprocs * p.ny + 1) ∧
      ∀ lid' : Nat, lid' < (p.nx + 1) * (p.ny + 1) → p.localToGlobal lid' = p.localToGlobal lid → lid' = lid := by
  have key : ∀ lid : Nat, lid < (p.nx + 1) * (p.ny + 1) → p.globalToLocal (p.localToGlobal lid) = lid ∧
      p.localToGlobal lid < (p.xprocs * p.nx + 1) * (p.yprocs * p.ny + 1) := by
    intro lid h
    obtain ⟨h1, h2, h3⟩ := block_split h
    have hloc := local_at p (i := lid % (p.nx + 1)) (j := lid / (p.nx + 1)) (by omega)
    rw [← h3] at hloc
    refine ⟨?_, by rw [hloc]; exact lt_block (col_lt hp (by omega)) (row_lt hp (by omega))⟩
    have hi : lid % (p.nx + 1) < p.xprocs * p.nx + 1 := by
      have := col_lt hp (i := lid % (p.nx + 1)) (by omega)
      omega
    unfold Part.globalToLocal
    simp only
    have e : ((p.localToGlobal lid : Nat) : Int) - p.px * p.nx - p.py * p.ny * (p.xprocs * p.nx + 1) =
        ((lid % (p.nx + 1) + (p.xprocs * p.nx + 1) * (lid / (p.nx + 1)) : Nat) : Int) := by
      rw [hloc]
      push_cast
      ring
    have e2 : ((p.xprocs : Int) * p.nx + 1) = ((p.xprocs * p.nx + 1 : Nat) : Int) := by push_cast; rfl
    rw [e, e2, ← Int.ofNat_tdiv, ← Int.ofNat_tmod, Nat.add_mul_mod_self_left, Nat.mod_eq_of_lt hi,
      Nat.add_mul_div_left _ _ (Nat.succ_pos _), Nat.div_eq_of_lt hi, Nat.zero_add]
    conv_rhs => rw [h3]
    push_cast
    ring
  refine ⟨(key lid h).1, (key lid h).2, fun lid' h' he => ?_⟩
  have a := (key lid h).1
  have b := (key lid' h').1
  rw [he, a] at b
  exact_mod_cast b.symm

example : (proc 2 2 3 2 1 1).Fits ∧ (proc 2 2 3 2 1 1).localToGlobal 5 = 25 ∧
    (proc 2 2 3 2 1 1).globalToLocal 25 = 5 := by
  refine ⟨⟨by decide, by decide, by decide, by decide⟩, by decide, by decide⟩

/-- A number of the whole mesh that is not on the process is not recognised: process 0 of 2 takes the right-most
node of the second process for one of its own. -/
theorem C121_foreign_violated : ∃ (p q : Part) (lid : Nat), p.Fits ∧ q.Fits ∧ p = proc 2 1 1 1 0 0 ∧ q = proc 2 1 1 1 1 0 ∧
    lid < (q.nx + 1) * (q.ny + 1) ∧ (∀ l : Nat, l < (p.nx + 1) * (p.ny + 1) → p.localToGlobal l ≠ q.localToGlobal lid) ∧
    p.globalToLocal (q.localToGlobal lid) = 2 :=
  ⟨proc 2 1 1 1 0 0, proc 2 1 1 1 1 0, 1, ⟨by decide, by decide, by decide, by decide⟩,
    ⟨by decide, by decide, by decide, by decide⟩, rfl, rfl, by decide, by decide, by decide⟩

theorem shared_iff {p : Part} (hp : p.Fits) {i j : Nat} (hi : i ≤ p.nx) :
    p.isShared (i + (p.nx + 1) * j) = true ↔ (i = p.nx ∧ p.px + 1 < p.xprocs) ∨ (j = p.ny ∧ p.py + 1 < p.yprocs) := by
  have hm : (i + (p.nx + 1) * j) % (p.nx + 1) = i := by
    rw [Nat.add_mul_mod_self_left, Nat.mod_eq_of_lt (Nat.lt_succ_of_le hi)]
  have hd : (i + (p.nx + 1) * j) / (p.nx + 1) = j := by
    rw [Nat.add_mul_div_left _ _ (Nat.succ_pos _), Nat.div_eq_of_lt (Nat.lt_succ_of_le hi), Nat.zero_add]
  have h1 := hp.px
  have h2 := hp.py
  unfold Part.isShared Part.onRight Part.onTop
  rw [hm, hd]
  by_cases c1 : p.px < p.xprocs - 1 <;> by_cases c2 : p.py < p.yprocs - 1 <;>
    simp [c1, c2, show (p.px + 1 < p.xprocs) ↔ p.px < p.xprocs - 1 by omega,
      show (p.py + 1 < p.yprocs) ↔ p.py < p.yprocs - 1 by omega,
      show (p.py = p.yprocs - 1) ↔ ¬ p.py < p.yprocs - 1 by omega,
      show (p.px = p.xprocs - 1) ↔ ¬ p.px < p.xprocs - 1 by omega]

theorem owner_dir {X n c : Nat} (hX : 0 < X) (hn : 0 < n) (hc : c < X * n + 1) :
    ∃ q i : Nat, q < X ∧ i ≤ n ∧ c = q * n + i ∧ ¬ (i = n ∧ q + 1 < X) ∧
      ∀ q' i' : Nat, q' < X → i' ≤ n → c = q' * n + i' → ¬ (i' = n ∧ q' + 1 < X) → q' = q ∧ i' = i := by
  have uniq : ∀ q i q' i' : Nat, q < X → i ≤ n → q' < X → i' ≤ n → q * n + i = q' * n + i' →
      ¬ (i = n ∧ q + 1 < X) → ¬ (i' = n ∧ q' + 1 < X) → q' = q ∧ i' = i := by
    intro q i q' i' hq hi hq' hi' he h h'
    rcases Nat.lt_trichotomy q q' with hlt | heq | hgt
    · have : (q + 1) * n ≤ q' * n := Nat.mul_le_mul_right _ hlt
      have : (q + 1) * n = q * n + n := by ring
      exact absurd ⟨by omega, by omega⟩ h
    · subst heq
      exact ⟨rfl, by omega⟩
    · have : (q' + 1) * n ≤ q * n := Nat.mul_le_mul_right _ hgt
      have : (q' + 1) * n = q' * n + n := by ring
      exact absurd ⟨by omega, by omega⟩ h'
  by_cases hl : c = X * n
  · refine ⟨X - 1, n, by omega, le_rfl, ?_, by omega, fun q' i' hq' hi' he h' => ?_⟩
    · rw [hl]
      obtain ⟨y, rfl⟩ : ∃ y, X = y + 1 := ⟨X - 1, by omega⟩
      simp only [Nat.add_sub_cancel]
      ring
    · refine uniq _ _ _ _ (by omega) le_rfl hq' hi' ?_ (by omega) h'
      rw [← he, hl]
      obtain ⟨y, rfl⟩ : ∃ y, X = y + 1 := ⟨X - 1, by omega⟩
      simp only [Nat.add_sub_cancel]
      ring
  · have hlt : c < n * X := by rw [mul_comm]; omega
    obtain ⟨h1, h2, h3⟩ := block_split hlt
    have he : c = c / n * n + c % n := by rw [mul_comm]; omega
    exact ⟨c / n, c % n, h2, h1.le, he, by omega,
      fun q' i' hq' hi' he' h' => uniq _ _ _ _ h2 h1.le hq' hi' (he.symm.trans he') (by omega) h'⟩

/-- Every node of the whole mesh is owned (not marked as shared) by exactly one process, under exactly one number. -/
theorem C121_owner {X Y nx ny : Nat} (hX : 0 < X) (hY : 0 < Y) (hx : 0 < nx) (hy : 0 < ny) {g : Nat}
    (hg : g < (X * nx + 1) * (Y * ny + 1)) :
    ∃ px py lid : Nat, (px < X ∧ py < Y ∧ lid < (nx + 1) * (ny + 1) ∧ (proc X Y nx ny px py).isShared lid = false ∧
        (proc X Y nx ny px py).localToGlobal lid = g) ∧
      ∀ px' py' lid' : Nat, px' < X → py' < Y → lid' < (nx + 1) * (ny + 1) →
        (proc X Y nx ny px' py').isShared lid' = false → (proc X Y nx ny px' py').localToGlobal lid' = g →
        px' = px ∧ py' = py ∧ lid' = lid := by
  obtain ⟨g1, g2, g3⟩ := block_split hg
  obtain ⟨px, i, hpx, hi, hc, hns, hu⟩ := owner_dir hX hx g1
  obtain ⟨py, j, hpy, hj, hr, hms, hv⟩ := owner_dir hY hy g2
  have fits : ∀ px py : Nat, px < X → py < Y → (proc X Y nx ny px py).Fits := fun px py h1 h2 => ⟨h1, h2, hx, hy⟩
  refine ⟨px, py, i + (nx + 1) * j, ⟨hpx, hpy, lt_block (by omega) (by omega), ?_, ?_⟩, ?_⟩
  · rw [Bool.eq_false_iff, ne_eq]
    exact fun h => ((shared_iff (fits px py hpx hpy) (i := i) (j := j) hi).mp h).elim hns hms
  · have := local_at (proc X Y nx ny px py) (i := i) (j := j) hi
    refine this.trans ?_
    show (px * nx + i) + (X * nx + 1) * (py * ny + j) = g
    rw [← hc, ← hr]
    exact g3.symm
  · intro px' py' lid' h1 h2 h3 h4 h5
    obtain ⟨l1, l2, l3⟩ := block_split h3
    have hloc := local_at (proc X Y nx ny px' py') (i := lid' % (nx + 1)) (j := lid' / (nx + 1)) (by
      show _ ≤ nx
      omega)
    have hl : lid' % (nx + 1) + ((proc X Y nx ny px' py').nx + 1) * (lid' / (nx + 1)) = lid' := l3.symm
    rw [hl, h5] at hloc
    have hcol := col_lt (fits px' py' h1 h2) (i := lid' % (nx + 1)) (by show _ ≤ nx; omega)
    have hh : g % (X * nx + 1) + (X * nx + 1) * (g / (X * nx + 1)) =
        (px' * nx + lid' % (nx + 1)) + (X * nx + 1) * (py' * ny + lid' / (nx + 1)) := g3.symm.trans hloc
    obtain ⟨b1, b2⟩ := block_inj g1 hcol hh
    have hs := (shared_iff (fits px' py' h1 h2) (i := lid' % (nx + 1)) (j := lid' / (nx + 1)) (by show _ ≤ nx; omega)).not
    rw [hl] at hs
    have hs' := hs.mp (by simp [h4])
    push Not at hs'
    obtain ⟨u1, u2⟩ := hu px' (lid' % (nx + 1)) h1 (by omega) b1 (fun h => absurd h.2 (by
      have := hs'.1 h.1
      show ¬ px' + 1 < X
      exact not_lt.mpr this))
    obtain ⟨v1, v2⟩ := hv py' (lid' / (nx + 1)) h2 (by omega) b2 (fun h => absurd h.2 (by
      have := hs'.2 h.1
      show ¬ py' + 1 < Y
      exact not_lt.mpr this))
    refine ⟨u1, v1, ?_⟩
    rw [l3, u2, v2]

example : (proc 2 1 1 1 0 0).isShared 1 = true ∧ (proc 2 1 1 1 1 0).isShared 0 = false ∧
    (proc 2 1 1 1 0 0).localToGlobal 1 = (proc 2 1 1 1 1 0).localToGlobal 0 := by decide

/-! ## The parts make up the whole -/

section whole
variable [Field K] [CharZero K]

theorem tick_part (a L : K) {X n q i : Nat} (hX : 0 < X) (hn : 0 < n) :
    tick (a + (q : K) * (L / (X : K))) (L / (X : K)) n i = tick a L (X * n) (q * n + i) := by
  have hX' : (X : K) ≠ 0 := by exact_mod_cast hX.ne'
  have hn' : (n : K) ≠ 0 := by exact_mod_cast hn.ne'
  simp only [tick, Nat.cast_mul, Nat.cast_add]
  field_simp
  ring

/-- The node of a process has the coordinates that the node with its number in the whole mesh has on one process, and the
cells of a process are the cells of the whole mesh, in terms of the numbers of the whole mesh.  The whole mesh has
`xprocs * (NX / xprocs)` cells in the first direction and so on; that is what was asked for when the division is exact. -/
theorem C121_whole {X0 Y0 W H : K} {NX NY procid X Y : Nat} {p : Part} {m whole : Mesh (K × K)}
    (hid : procid < X * Y) (hx : X ≤ NX) (hy : Y ≤ NY) (hp : part NX NY procid X Y = .ok p)
    (hm : p.mesh X0 Y0 W H = .ok m) (hw : rectangle X0 Y0 W H (X * (NX / X)) (Y * (NY / Y)) = some whole) :
    m.numNodes = (p.nx + 1) * (p.ny + 1) ∧
    (∀ lid : Nat, lid < m.numNodes → m.nodes[lid]? = whole.nodes[p.localToGlobal lid]? ∧
      (whole.nodes[p.localToGlobal lid]?).isSome) ∧
    (∀ i j : Nat, i < p.nx → j < p.ny → ∃ row : List Nat, m.cellToNode[i + p.nx * j]? = some row ∧
      whole.cellToNode[(p.px * p.nx + i) + (X * (NX / X)) * (p.py * p.ny + j)]? = some (row.map p.localToGlobal)) ∧
    (X ∣ NX → Y ∣ NY → rectangle X0 Y0 W H NX NY = some whole) := by
  obtain ⟨hf, rfl⟩ := part_fits hp hid hx hy
  have hX : 0 < X := Nat.pos_of_mul_pos_right (lt_of_le_of_lt (Nat.zero_le _) hid) |> fun h => by
    rcases Nat.eq_zero_or_pos X with h0 | h0
    · simp [h0] at hid
    · exact h0
  have hY : 0 < Y := by
    rcases Nat.eq_zero_or_pos Y with h0 | h0
    · simp [h0] at hid
    · exact h0
  set nx := NX / X with hnx
  set ny := NY / Y with hny
  set px := procid % X with hpx
  set py := procid / X with hpy
  have f1 : px < X := hf.px
  have f2 : py < Y := hf.py
  have f3 : 0 < nx := hf.nx
  have f4 : 0 < ny := hf.ny
  have hm1 : rectangle (X0 + (px : K) * (W / (X : K))) (Y0 + (py : K) * (H / (Y : K))) (W / (X : K)) (H / (Y : K)) nx ny =
      some m := by
    unfold Part.mesh at hm
    simp only [proc] at hm
    split at hm
    · simp at hm
    · rename_i m' hm'
      simp only [Except.ok.injEq] at hm
      rw [hm', hm]
  obtain ⟨-, -, rfl⟩ := rectangle_some hm1
  have hw' := hw
  obtain ⟨-, -, rfl⟩ := rectangle_some hw
  refine ⟨rfl, fun lid hlid => ?_, fun i j hi hj => ?_, fun hdx hdy => ?_⟩
  · obtain ⟨l1, l2, l3⟩ := block_split (show lid < (nx + 1) * (ny + 1) from hlid)
    have hloc := local_at (proc X Y nx ny px py) (i := lid % (nx + 1)) (j := lid / (nx + 1)) (by show _ ≤ nx; omega)
    have hl : lid % (nx + 1) + ((proc X Y nx ny px py).nx + 1) * (lid / (nx + 1)) = lid := l3.symm
    rw [hl] at hloc
    have hcol : px * nx + lid % (nx + 1) < X * nx + 1 := col_lt hf (i := lid % (nx + 1)) (by show _ ≤ nx; omega)
    have hrow : py * ny + lid / (nx + 1) < Y * ny + 1 := row_lt hf (j := lid / (nx + 1)) (by show _ ≤ ny; omega)
    have e1 := rectNodes_at (X0 + (px : K) * (W / (X : K))) (Y0 + (py : K) * (H / (Y : K))) (W / (X : K)) (H / (Y : K))
      nx ny (i := lid % (nx + 1)) (j := lid / (nx + 1)) (by omega) (by omega)
    have e2 := rectNodes_at X0 Y0 W H (X * nx) (Y * ny) (i := px * nx + lid % (nx + 1)) (j := py * ny + lid / (nx + 1))
      (by omega) (by omega)
    rw [show lid / (nx + 1) * (nx + 1) + lid % (nx + 1) = lid by rw [mul_comm]; omega, tick_part _ _ hX f3,
      tick_part _ _ hY f4] at e1
    have e3 : (proc X Y nx ny px py).localToGlobal lid =
        (py * ny + lid / (nx + 1)) * (X * nx + 1) + (px * nx + lid % (nx + 1)) := by
      rw [hloc]
      show (px * nx + lid % (nx + 1)) + (X * nx + 1) * (py * ny + lid / (nx + 1)) = _
      ring
    simp only
    rw [e3, e1, e2]
    exact ⟨rfl, rfl⟩
  · replace hi : i < nx := hi
    replace hj : j < ny := hj
    refine ⟨_, getElem?_grid nx ny _ hi hj, ?_⟩
    have hcol : px * nx + i < X * nx := by
      have := col_lt hf (i := i + 1) (show i + 1 ≤ nx from hi)
      have : px * nx + (i + 1) < X * nx + 1 := this
      omega
    have hrow : py * ny + j < Y * ny := by
      have := row_lt hf (j := j + 1) (show j + 1 ≤ ny from hj)
      have : py * ny + (j + 1) < Y * ny + 1 := this
      omega
    refine (getElem?_grid (X * nx) (Y * ny) _ hcol hrow).trans ?_
    have hl : ∀ a b : Nat, a ≤ nx → (proc X Y nx ny px py).localToGlobal (b * (nx + 1) + a) =
        (py * ny + b) * (X * nx + 1) + (px * nx + a) := by
      intro a b ha
      have := local_at (proc X Y nx ny px py) (i := a) (j := b) ha
      rw [show b * (nx + 1) + a = a + ((proc X Y nx ny px py).nx + 1) * b by
        show b * (nx + 1) + a = a + (nx + 1) * b
        ring, this]
      show (px * nx + a) + (X * nx + 1) * (py * ny + b) = _
      ring
    simp only [List.map_cons, List.map_nil, hl i j (by omega), hl (i + 1) j (by omega), hl i (j + 1) (by omega),
      hl (i + 1) (j + 1) (by omega)]
    rfl
  · have a1 : X * nx = NX := Nat.mul_div_cancel' hdx
    have a2 : Y * ny = NY := Nat.mul_div_cancel' hdy
    rw [a1, a2] at hw' ⊢
    exact hw'

end whole

/-- Every cell of the whole mesh is on exactly one process, under exactly one number. -/
theorem C121_cell_owner {X Y nx ny : Nat} {c : Nat} (hc : c < (X * nx) * (Y * ny)) :
    ∃ px py i j : Nat, (px < X ∧ py < Y ∧ i < nx ∧ j < ny ∧ c = (px * nx + i) + (X * nx) * (py * ny + j)) ∧
      ∀ px' py' i' j' : Nat, px' < X → py' < Y → i' < nx → j' < ny →
        c = (px' * nx + i') + (X * nx) * (py' * ny + j') → px' = px ∧ py' = py ∧ i' = i ∧ j' = j := by
  obtain ⟨c1, c2, c3⟩ := block_split hc
  obtain ⟨a1, a2, a3⟩ := block_split (show c % (X * nx) < nx * X by rw [mul_comm nx X]; exact c1)
  obtain ⟨b1, b2, b3⟩ := block_split (show c / (X * nx) < ny * Y by rw [mul_comm ny Y]; exact c2)
  refine ⟨_, _, _, _, ⟨a2, b2, a1, b1, ?_⟩, fun px' py' i' j' h1 h2 h3 h4 h5 => ?_⟩
  · rw [mul_comm _ nx, mul_comm _ ny, add_comm (nx * _), add_comm (ny * _), ← a3, ← b3]
    exact c3
  · have hin : px' * nx + i' < X * nx := by
      have := lt_block (p := i') (m := nx) h3 h1
      rw [mul_comm nx X, mul_comm nx px'] at this
      omega
    obtain ⟨e1, e2⟩ := block_inj hin c1 (h5.symm.trans c3)
    obtain ⟨u1, u2⟩ := block_inj h3 a1 (k := px') (by rw [← a3, ← e1]; ring)
    obtain ⟨v1, v2⟩ := block_inj h4 b1 (k := py') (by rw [← b3, ← e2]; ring)
    exact ⟨u2, v2, u1, v1⟩

/-- Without exact division cells are lost: five cells asked for on two processes are four cells, and the nodes of the
processes are not those of the mesh on one process. -/
theorem C121_division_violated : ∃ (p q : Part) (m n one : Mesh (Rat × Rat)),
    part 5 1 0 2 1 = .ok p ∧ part 5 1 1 2 1 = .ok q ∧ p.mesh 0 0 1 1 = .ok m ∧ q.mesh 0 0 1 1 = .ok n ∧
      rectangle 0 0 1 1 5 1 = some one ∧ m.numCells + n.numCells = 4 ∧ one.numCells = 5 ∧
      (1 / 4, 0) ∈ m.nodes ∧ (1 / 4, 0) ∉ one.nodes := by
  refine ⟨_, _, _, _, _, rfl, rfl, rfl, rfl, rfl, rfl, rfl, ?_, ?_⟩ <;> decide +kernel

/-- With fewer cells than processes in a direction the constructor divides by zero: the coordinates are not numbers. -/
theorem C121_few_cells_violated : ∃ p : Part, part 1 1 0 2 1 = .ok p ∧ p.mesh (0 : Rat) 0 1 1 = .error .notANumber :=
  ⟨_, rfl, rfl⟩

/-- The check of the process number lets the number of processes through, although the message says it must be smaller;
the mesh it then builds lies outside the rectangle. -/
theorem C121_procid_violated : ∃ (p : Part) (m : Mesh (Rat × Rat)), part 1 1 1 1 1 = .ok p ∧ p.mesh 0 0 1 1 = .ok m ∧
    (0, 2) ∈ m.nodes ∧ ¬ InBox ((0 : Rat), (0 : Rat)) (1, 1) (0, 2) := by
  refine ⟨_, _, rfl, rfl, by decide +kernel, ?_⟩
  unfold InBox
  norm_num

/-- No processes in the first direction: the division comes before the check that would throw. -/
theorem C121_zero_violated (NX NY procid Y : Nat) : part NX NY procid 0 Y = .error .divByZero := rfl

/-- The side set of a process has the cells on the border to the next process: process 0 of two lists its cell on the right
side although that side is in the middle of the rectangle. -/
theorem C121_part_sides_violated : ∃ (p : Part) (m : Mesh (Rat × Rat)) (l : List Int) (cell : List (Rat × Rat)),
    part 2 1 0 2 1 = .ok p ∧ p.mesh 0 0 1 1 = .ok m ∧ m.sides[1]? = some l ∧ (0 : Int) ∈ l ∧
      m.getCellNodes [0] = some [cell] ∧ cell[(quadSide 1).1]? = some (1 / 2, 0) ∧
      ¬ OnSide (0 : Rat) 0 1 1 1 (1 / 2, 0) := by
  refine ⟨_, _, _, _, rfl, rfl, rfl, by decide, rfl, by decide +kernel, ?_⟩
  unfold OnSide
  norm_num

/-- A process touches side `s` of the whole rectangle.  [specification, no code] -/
def Part.Touches (p : Part) (s : Nat) : Prop :=
  if s = 0 then p.py = 0 else if s = 1 then p.px + 1 = p.xprocs else if s = 2 then p.py + 1 = p.yprocs else p.px = 0

/-- On a process that touches a side of the whole rectangle, the side set lists for that side exactly the cells with that
side on the boundary of the whole rectangle.  Partial: on the other processes it lists cells that are not on it, see
`C121_part_sides_violated`. -/
theorem C121_part_sides_partial [Field K] [LinearOrder K] [IsStrictOrderedRing K] {X0 Y0 W H : K} (hW : W ≠ 0)
    (hH : H ≠ 0) {p : Part} (hp : p.Fits) {m : Mesh (K × K)} (hm : p.mesh X0 Y0 W H = .ok m) {s : Nat} (hs : s < 4)
    (ht : p.Touches s) : ∃ l : List Int, m.sides[s]? = some l ∧ l.Nodup ∧
      ∀ z : Int, z ∈ l ↔ ∃ (c : Nat) (cell : List (K × K)) (a b : K × K), z = c ∧ m.getCellNodes [c] = some [cell] ∧
        cell[(quadSide s).1]? = some a ∧ cell[(quadSide s).2]? = some b ∧
        OnSide X0 Y0 W H s a ∧ OnSide X0 Y0 W H s b := by
  have hX : (p.xprocs : K) ≠ 0 := by
    have := hp.px
    exact_mod_cast (show p.xprocs ≠ 0 by omega)
  have hY : (p.yprocs : K) ≠ 0 := by
    have := hp.py
    exact_mod_cast (show p.yprocs ≠ 0 by omega)
  have hm1 : rectangle (X0 + (p.px : K) * (W / (p.xprocs : K))) (Y0 + (p.py : K) * (H / (p.yprocs : K)))
      (W / (p.xprocs : K)) (H / (p.yprocs : K)) p.nx p.ny = some m := by
    unfold Part.mesh at hm
    simp only at hm
    split at hm
    · simp at hm
    · rename_i m' hm'
      simp only [Except.ok.injEq] at hm
      rw [hm', hm]
  obtain ⟨l, h1, h2, h3⟩ := (C121_sides hm1 (div_ne_zero hW hX) (div_ne_zero hH hY)).2 s hs
  refine ⟨l, h1, h2, fun z => ?_⟩
  have hside : ∀ a : K × K, OnSide (X0 + (p.px : K) * (W / (p.xprocs : K))) (Y0 + (p.py : K) * (H / (p.yprocs : K)))
      (W / (p.xprocs : K)) (H / (p.yprocs : K)) s a ↔ OnSide X0 Y0 W H s a := by
    intro a
    unfold Part.Touches at ht
    unfold OnSide
    interval_cases s
    · simp only [if_true] at ht ⊢
      simp [ht]
    · simp only [one_ne_zero, if_false, if_true] at ht ⊢
      have e : X0 + (p.px : K) * (W / (p.xprocs : K)) + W / (p.xprocs : K) = X0 + W := by
        have : (p.px : K) + 1 = p.xprocs := by exact_mod_cast ht
        rw [add_assoc, ← add_one_mul, this, mul_div_cancel₀ _ hX]
      rw [e]
    · simp only [show (2 : Nat) ≠ 0 by decide, show (2 : Nat) ≠ 1 by decide, if_false, if_true] at ht ⊢
      have e : Y0 + (p.py : K) * (H / (p.yprocs : K)) + H / (p.yprocs : K) = Y0 + H := by
        have : (p.py : K) + 1 = p.yprocs := by exact_mod_cast ht
        rw [add_assoc, ← add_one_mul, this, mul_div_cancel₀ _ hY]
      rw [e]
    · simp only [show (3 : Nat) ≠ 0 by decide, show (3 : Nat) ≠ 1 by decide, show (3 : Nat) ≠ 2 by decide,
        if_false] at ht ⊢
      simp [ht]
  simp only [h3 z, hside]

example : (proc 2 1 1 1 1 0).Fits ∧ (proc 2 1 1 1 1 0).Touches 1 ∧
    ∃ m, (proc 2 1 1 1 1 0).mesh (0 : Rat) 0 1 1 = .ok m :=
  ⟨⟨by decide, by decide, by decide, by decide⟩, by simp [Part.Touches, proc], _, rfl⟩

/-- A process number is accepted exactly when it is at most the product of the numbers of processes; the part it gets is the one
with its place in the grid of processes. -/
theorem C121_rank (NX NY procid xprocs yprocs : Nat) :
    (∃ p, part NX NY procid xprocs yprocs = .ok p) ↔ 0 < xprocs ∧ 0 < yprocs ∧ procid ≤ xprocs * yprocs := by
  unfold part
  by_cases h1 : xprocs = 0
  · rw [if_pos h1]; simp [h1]
  by_cases h2 : yprocs = 0
  · rw [if_neg h1, if_pos h2]; simp [h2]
  by_cases h3 : procid > xprocs * yprocs
  · rw [if_neg h1, if_neg h2, if_pos h3]
    simp only [reduceCtorEq, exists_false, false_iff]
    omega
  · rw [if_neg h1, if_neg h2, if_neg h3]
    simp only [Except.ok.injEq, exists_eq', true_iff]
    omega

/-- One process number too many is accepted: its part lies above the rectangle. -/
theorem C121_rank_violated (NX NY xprocs yprocs : Nat) (hx : 0 < xprocs) (hy : 0 < yprocs) :
    ∃ p, part NX NY (xprocs * yprocs) xprocs yprocs = .ok p ∧ p.px = 0 ∧ p.py = yprocs := by
  obtain ⟨p, hp⟩ := (C121_rank NX NY (xprocs * yprocs) xprocs yprocs).2 ⟨hx, hy, le_rfl⟩
  refine ⟨p, hp, ?_⟩
  unfold part at hp
  rw [if_neg (by omega), if_neg (by omega), if_neg (by omega)] at hp
  cases hp
  exact ⟨Nat.mul_mod_right _ _, Nat.mul_div_cancel_left _ hx⟩

example : part 4 4 4 2 2 = .ok { xprocs := 2, yprocs := 2, px := 0, py := 2, nx := 2, ny := 2 } := rfl

/-- A mesh over several processes is only built when the numbers of processes in the two directions multiply to the number of
processes of the run; then every rank has a place inside the grid of processes, and no two ranks have the same place. -/
theorem C121_processes [Field K] {g : Geometry K} {size rank xprocs yprocs : Nat} {m : Mesh (K × K)}
    (h : mesh2Parallel g size rank xprocs yprocs = .ok m) (hrank : rank < size) :
    xprocs * yprocs = size ∧
    ∃ p, part g.NX g.NY rank xprocs yprocs = .ok p ∧ p.mesh g.X0 g.Y0 g.width g.height = .ok m ∧
      p.px < xprocs ∧ p.py < yprocs ∧ p.px + p.py * xprocs = rank := by
  unfold mesh2Parallel at h
  by_cases hs : xprocs * yprocs ≠ size
  · rw [if_pos hs] at h; cases h
  rw [if_neg hs] at h
  have hs : xprocs * yprocs = size := not_not.1 hs
  have hx : 0 < xprocs := by rcases Nat.eq_zero_or_pos xprocs with h0 | h0; · simp [h0] at hs; omega
                             · exact h0
  have hy : 0 < yprocs := by rcases Nat.eq_zero_or_pos yprocs with h0 | h0; · simp [h0] at hs; omega
                             · exact h0
  obtain ⟨p, hp⟩ := (C121_rank g.NX g.NY rank xprocs yprocs).2 ⟨hx, hy, by omega⟩
  refine ⟨hs, p, hp, ?_⟩
  unfold rectangleParallel at h
  rw [hp] at h
  refine ⟨h, ?_⟩
  unfold part at hp
  rw [if_neg (by omega), if_neg (by omega), if_neg (by omega)] at hp
  cases hp
  refine ⟨Nat.mod_lt _ hx, Nat.div_lt_of_lt_mul (by omega), ?_⟩
  rw [Nat.mul_comm]
  exact Nat.mod_add_div _ _

/-- When they do multiply to it, what is built is the part of the rank. -/
theorem C121_processes_accepted [Field K] (g : Geometry K) (rank xprocs yprocs : Nat) :
    mesh2Parallel g (xprocs * yprocs) rank xprocs yprocs =
      rectangleParallel g.X0 g.Y0 g.width g.height g.NX g.NY rank xprocs yprocs := by
  unfold mesh2Parallel
  rw [if_neg (by simp)]

example : ∃ m, mesh2Parallel
    ({ X0 := 0, Y0 := 0, Z0 := 0, width := 2, height := 2, depth := 1, NX := 2, NY := 2, NZ := 1 } : Geometry Rat) 4 3 2 2 = .ok m ∧
    (2, 2) ∈ m.nodes := by
  refine ⟨_, rfl, ?_⟩
  decide +kernel

/-- The rectangle announces edges but gives none of them: the map from cells to edges is empty. -/
theorem C121_edges_violated [Field K] {X0 Y0 W H : K} {nx ny : Nat} {m : Mesh (K × K)}
    (hm : rectangle X0 Y0 W H nx ny = some m) : 4 ≤ m.numEdges ∧ m.numCells ≠ 0 ∧ m.cellToEdge = [] := by
  obtain ⟨hx, hy, rfl⟩ := rectangle_some hm
  refine ⟨?_, Nat.mul_ne_zero hx.ne' hy.ne', rfl⟩
  show 4 ≤ (nx + 1) * ny + (ny + 1) * nx
  nlinarith

end MrHyDE.Mesh
