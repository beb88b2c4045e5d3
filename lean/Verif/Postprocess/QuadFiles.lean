import Mathlib.Algebra.BigOperators.Group.List.Basic
import Mathlib.Algebra.Field.Rat
import Mathlib.Algebra.Ring.Defs

/-! # C176: files of quadrature points, weights and normals

`getQuadratureData`, `getboundaryQuadratureData` (/repo/src/managers/assembly/assemblyManager_util.hpp:721-807), `writeQuadratureData`,
`writeBoundaryQuadratureData` (/repo/src/managers/postprocess/postprocessManager_util.hpp:1139-1309).  `none`: an index outside the extents of a
view, messages of different lengths, or processes that wait for each other.  Simplified: numbers are written exactly. -/

set_option linter.unusedSectionVars false

namespace MrHyDE.Postprocess.QuadFiles

variable {K : Type}

/-- A table, one row for each point; assemblyManager_util.hpp:738, 783. -/
abbrev Table (K : Type) := List (List K)

/-- A quadrature point: coordinates, weight, normal (boundary only); assemblyManager_util.hpp:743-744, 789-791. -/
structure Pt (K : Type) where
  x : List K
  w : K
  n : List K
deriving DecidableEq

/-- A group: its side (boundary only), its elements with their points; assemblyManager_util.hpp:734-736, 777-780. -/
structure Grp (K : Type) where
  side : String
  elems : List (List (Pt K))

/-- `blockindex`: the last block of that name, 0 if there is none; assemblyManager_util.hpp:727-732, 769-774. -/
def blockIndex (names : List String) (b : String) : Nat := (names.zipIdx).foldl (fun i x => if x.1 = b then x.2 else i) 0

/-- Rows of a block: coordinates, then weight; groups, elements, points; assemblyManager_util.hpp:740-754. -/
def quadData (names : List String) (groups : List (List (Grp K))) (b : String) : Option (Table K) :=
  (groups[blockIndex names b]?).map fun gs =>
    gs.foldl (fun t g => g.elems.foldl (fun t e => e.foldl (fun t p => t ++ [p.x ++ [p.w]]) t) t) []

/-- Rows of a side of a block: coordinates, weight, normal; assemblyManager_util.hpp:785-805. -/
def sideData (names : List String) (groups : List (List (Grp K))) (b side : String) : Option (Table K) :=
  (groups[blockIndex names b]?).map fun gs => gs.foldl (fun t g =>
    if g.side = side then g.elems.foldl (fun t e => e.foldl (fun t p => t ++ [p.x ++ [p.w] ++ p.n]) t) t else t) []

/-- `qdata(k,i)`, postprocessManager_util.hpp:1175, 1262. -/
def entry (t : Table K) (k i : Nat) : Option K := (t[k]?).bind (fun r => r[i]?)

/-- What the first process holds after the turn of another, postprocessManager_util.hpp:1160-1187, 1247-1274: `W` messages, the `k`th with entries `(k,i)`
for `i` up to the number of *points* (1174-1175); the first process receives as many as it has points itself (1181-1182) and stores them at `(k,i)` (1183) of
a table with the rows of the sender and `W` columns (1169), which was zero. -/
def transfer [Zero K] (W n0 : Nat) (src : Table K) : Option (Table K) :=
  if n0 ≠ src.length then none
  else ((List.range W).mapM (fun k => (List.range src.length).mapM (fun i => entry src k i))).bind fun msgs =>
    if (∀ k ∈ List.range W, k < src.length) ∧ (∀ i ∈ List.range n0, i < W) then
      some ((List.range src.length).map (fun k => (List.range W).map (fun i => ((msgs[k]?).bind (fun m => m[i]?)).getD 0)))
    else none

/-- The table from which the files of a block are written in the end, `some none` if no file is written; postprocessManager_util.hpp:1154-1208.  Processes
without points leave (1154); the file is opened anew in every turn (1189, 1199). -/
def volumeFile [Zero K] (W : Nat) : List (Table K) → Option (Option (Table K))
  | [] => none
  | host :: others =>
    if ∀ t ∈ host :: others, t = [] then some none
    else if ∃ t ∈ host :: others, t = [] then none
    else (others.foldlM (fun _ src => transfer W host.length src) host).map some

/-- The tables from which each process writes its own files of a side; postprocessManager_util.hpp:1241-1306: every process writes in every turn
(1275, 1304); the table of the first is exchanged for that of the others. -/
def sideFiles [Zero K] (W : Nat) (procs : List (Table K)) : Option (List (Option (Table K))) :=
  match procs with
  | [] => none
  | host :: others => (volumeFile W (host :: others)).map fun f => f :: others.map (fun t => if t = [] then none else some t)

/-- Lines of the file of points, postprocessManager_util.hpp:1191-1196: all columns but the last. -/
def ptsLines (t : Table K) : Table K := t.map List.dropLast

/-- Lines of the file of weights, postprocessManager_util.hpp:1201-1203: the last column. -/
def wtsLines (t : Table K) : List (Option K) := t.map List.getLast?

/-- Lines of the three files of a side: points, weights, normals; postprocessManager_util.hpp:1278-1300. -/
def sideLines (dim : Nat) (t : Table K) : Table K × List (Option K) × Table K :=
  (t.map (List.take dim), t.map (fun r => r[dim]?), t.map (fun r => (r.drop (dim + 1)).take dim))

/-! ## Specification -/

/-- All points of some groups, in order. [specification, no code] -/
def points (gs : List (Grp K)) : List (Pt K) := gs.flatMap (fun g => g.elems.flatten)

theorem foldl_snoc {A B : Type} (f : A → B) : ∀ (l : List A) (t : List B), l.foldl (fun t p => t ++ [f p]) t = t ++ l.map f
  | [], t => by simp
  | a :: l, t => by rw [List.foldl_cons, foldl_snoc f l]; simp

theorem foldl_flat {A B : Type} (f : A → B) : ∀ (l : List (List A)) (t : List B),
    l.foldl (fun t e => e.foldl (fun t p => t ++ [f p]) t) t = t ++ l.flatten.map f
  | [], t => by simp
  | a :: l, t => by rw [List.foldl_cons, foldl_snoc, foldl_flat f l]; simp

theorem foldl_groups (f : Pt K → List K) (q : Grp K → Bool) : ∀ (l : List (Grp K)) (t : Table K),
    l.foldl (fun t g => if q g then g.elems.foldl (fun t e => e.foldl (fun t p => t ++ [f p]) t) t else t) t =
      t ++ (points (l.filter q)).map f
  | [], t => by simp [points]
  | g :: l, t => by
    rw [List.foldl_cons, foldl_groups f q l, foldl_flat]
    by_cases h : q g = true <;> simp [h, points]

/-- With different names, a block is found. -/
theorem blockIndex_spec (names : List String) (hn : names.Nodup) (k : Nat) (hk : k < names.length) : blockIndex names names[k] = k := by
  have key : ∀ (l : List String) (o i : Nat), l.Nodup → ∀ k (hk : k < l.length),
      (l.zipIdx o).foldl (fun i x => if x.1 = l[k] then x.2 else i) i = o + k := by
    intro l
    have miss : ∀ (l : List String) (b : String) (o i : Nat), b ∉ l →
        (l.zipIdx o).foldl (fun i x => if x.1 = b then x.2 else i) i = i := by
      intro l
      induction l with
      | nil => intros; rfl
      | cons a l ih =>
        intro b o i hb
        rw [List.zipIdx_cons, List.foldl_cons, if_neg (fun e : a = b => hb (by simp [e])), ih b _ _ (fun e => hb (List.mem_cons_of_mem _ e))]
    induction l with
    | nil => intro o i _ k hk; simp at hk
    | cons a l ih =>
      intro o i hd k hk
      rw [List.nodup_cons] at hd
      rw [List.zipIdx_cons, List.foldl_cons]
      cases k with
      | zero => simp only [List.getElem_cons_zero, if_true]; exact miss l a _ _ hd.1
      | succ k =>
        simp only [List.getElem_cons_succ]
        rw [ih (o + 1) _ hd.2 k (by simpa using hk)]
        omega
  have := key names 0 0 hn k hk
  rwa [Nat.zero_add] at this

/-- C176, partial: on one process that has points in block `k`, the files of points and weights of that block hold line by line the coordinates and the
weights of all its points.  Missing: several processes (`C176_processes_violated`, `C176_empty_violated`). -/
theorem C176_partial [Zero K] (names : List String) (hn : names.Nodup) (groups : List (List (Grp K))) (k : Nat) (hk : k < names.length)
    (gs : List (Grp K)) (hg : groups[k]? = some gs) (hp : points gs ≠ []) (W : Nat) :
    ∃ t, quadData names groups names[k] = some t ∧ volumeFile W [t] = some (some t) ∧
      ptsLines t = (points gs).map Pt.x ∧ wtsLines t = (points gs).map (fun p => some p.w) := by
  have e : quadData names groups names[k] = some ((points gs).map (fun p => p.x ++ [p.w])) := by
    unfold quadData
    rw [blockIndex_spec names hn k hk, hg, Option.map_some]
    have := foldl_groups (fun p : Pt K => p.x ++ [p.w]) (fun _ => true) gs []
    simp only [if_true, List.filter_true, List.nil_append] at this
    rw [this]
  refine ⟨_, e, ?_, ?_, ?_⟩
  · unfold volumeFile
    simp [hp]
  · simp [ptsLines]
  · simp [wtsLines]

/-- C176, partial: hence sums with the two files are the quadrature rule of the block. -/
theorem C176_integral_partial [Semiring K] (names : List String) (hn : names.Nodup) (groups : List (List (Grp K))) (k : Nat)
    (hk : k < names.length) (gs : List (Grp K)) (hg : groups[k]? = some gs) (f : List K → K) :
    ∃ t, quadData names groups names[k] = some t ∧
      (List.zipWith (fun x w => f x * w.getD 0) (ptsLines t) (wtsLines t)).sum =
        (gs.map (fun g => (g.elems.map (fun e => (e.map (fun p => f p.x * p.w)).sum)).sum)).sum := by
  have e : quadData names groups names[k] = some ((points gs).map (fun p => p.x ++ [p.w])) := by
    unfold quadData
    rw [blockIndex_spec names hn k hk, hg, Option.map_some]
    have := foldl_groups (fun p : Pt K => p.x ++ [p.w]) (fun _ => true) gs []
    simp only [if_true, List.filter_true, List.nil_append] at this
    rw [this]
  refine ⟨_, e, ?_⟩
  have z : ∀ l : List (Pt K), List.zipWith (fun x w => f x * Option.getD w 0) (ptsLines (l.map (fun p => p.x ++ [p.w])))
      (wtsLines (l.map (fun p => p.x ++ [p.w]))) = l.map (fun p => f p.x * p.w) := by
    intro l
    induction l with
    | nil => rfl
    | cons a l ih =>
      simp only [ptsLines, wtsLines, List.map_cons, List.zipWith_cons_cons, List.map_map] at ih ⊢
      rw [ih]
      simp
  rw [z]
  have fl : ∀ (l : List (List (Pt K))) (h : Pt K → K), (l.flatten.map h).sum = (l.map (fun e => (e.map h).sum)).sum := by
    intro l h
    induction l with
    | nil => rfl
    | cons a l ih => rw [List.flatten_cons, List.map_append, List.sum_append, ih, List.map_cons, List.sum_cons]
  clear e hg
  unfold points
  induction gs with
  | nil => rfl
  | cons g gs ih => rw [List.flatMap_cons, List.map_append, List.sum_append, ih, fl, List.map_cons, List.sum_cons]

/-- C176, partial: on one process, the three files of a side hold the coordinates, weights and normals of the points of the groups on that side,
and of no others. -/
theorem C176_side_partial [Zero K] (names : List String) (hn : names.Nodup) (groups : List (List (Grp K))) (k : Nat) (hk : k < names.length)
    (gs : List (Grp K)) (hg : groups[k]? = some gs) (side : String) (dim W : Nat)
    (hd : ∀ p ∈ points (gs.filter (fun g => g.side = side)), p.x.length = dim ∧ p.n.length = dim)
    (hp : points (gs.filter (fun g => g.side = side)) ≠ []) :
    ∃ t, sideData names groups names[k] side = some t ∧ sideFiles W [t] = some [some t] ∧
      sideLines dim t = ((points (gs.filter (fun g => g.side = side))).map Pt.x,
        (points (gs.filter (fun g => g.side = side))).map (fun p => some p.w), (points (gs.filter (fun g => g.side = side))).map Pt.n) := by
  have e : sideData names groups names[k] side =
      some ((points (gs.filter (fun g => g.side = side))).map (fun p => p.x ++ [p.w] ++ p.n)) := by
    unfold sideData
    rw [blockIndex_spec names hn k hk, hg, Option.map_some]
    have := foldl_groups (fun p : Pt K => p.x ++ [p.w] ++ p.n) (fun g => decide (g.side = side)) gs []
    simp only [decide_eq_true_eq, List.nil_append] at this
    rw [this]
  refine ⟨_, e, ?_, ?_⟩
  · unfold sideFiles volumeFile
    simp [hp]
  · unfold sideLines
    simp only [List.map_map, Prod.mk.injEq]
    refine ⟨List.map_congr_left (fun p h => ?_), List.map_congr_left (fun p h => ?_), List.map_congr_left (fun p h => ?_)⟩ <;>
      obtain ⟨h1, h2⟩ := hd p h
    · simp [← h1]
    · simp [← h1]
    · have : (p.x ++ [p.w] ++ p.n).drop (dim + 1) = p.n := by
        rw [List.drop_append_of_le_length (by simp [h1]), List.drop_eq_nil_of_le (by simp [h1]), List.nil_append]
      simp only [Function.comp]
      rw [this, List.take_of_length_le (by omega)]

/-- What can come of a turn: sender and first process have exactly as many points as there are columns. -/
theorem transfer_some [Zero K] (W n0 : Nat) (hW : 0 < W) (src t : Table K) (hs : src ≠ [])
    (h : transfer W n0 src = some t) : n0 = W ∧ src.length = W := by
  unfold transfer at h
  split at h
  · cases h
  · rename_i hn
    push Not at hn
    cases hm : (List.range W).mapM (fun k => (List.range src.length).mapM (fun i => entry src k i)) with
    | none => rw [hm] at h; cases h
    | some msgs =>
      rw [hm] at h
      simp only [Option.bind_some] at h
      split at h
      · rename_i hb
        have h1 := hb.1 (W - 1) (List.mem_range.2 (by omega))
        have hpos : 0 < src.length := List.length_pos_iff.2 hs
        have h2 := hb.2 (n0 - 1) (List.mem_range.2 (by omega))
        omega
      · cases h

/-- C176 is false on several processes that all have points: files only come about if every process has exactly as many points as the table has
columns (4 for points in space and weights). -/
theorem C176_processes_violated [Zero K] (W : Nat) (hW : 0 < W) (host : Table K) (others : List (Table K)) (ho : others ≠ [])
    (hne : ∀ t ∈ host :: others, t ≠ []) (f : Option (Table K))
    (h : volumeFile W (host :: others) = some f) : ∀ t ∈ host :: others, t.length = W := by
  have key : ∀ (others : List (Table K)) (s t : Table K), (∀ t ∈ others, t ≠ []) →
      others.foldlM (fun _ src => transfer W host.length src) s = some t → ∀ u ∈ others, host.length = W ∧ u.length = W := by
    intro others
    induction others with
    | nil => intro s t _ _ u hu; simp at hu
    | cons a others ih =>
      intro s t hne h u hu
      rw [List.foldlM_cons] at h
      cases ha : transfer W host.length a with
      | none => rw [ha] at h; cases h
      | some b =>
        rw [ha] at h
        rcases List.mem_cons.1 hu with rfl | hu
        · exact transfer_some W _ hW _ b (hne _ (by simp)) ha
        · exact ih b t (fun t ht => hne t (List.mem_cons_of_mem _ ht)) h u hu
  unfold volumeFile at h
  simp only at h
  rw [if_neg (fun hc => hne host (by simp) (hc host (by simp))), if_neg (by rintro ⟨t, ht, e⟩; exact hne t ht e)] at h
  cases hf : others.foldlM (fun _ src => transfer W host.length src) host with
  | none => rw [hf] at h; cases h
  | some t =>
    have k := key others host t (fun t ht => hne t (List.mem_cons_of_mem _ ht)) hf
    intro u hu
    rcases List.mem_cons.1 hu with rfl | hu
    · obtain ⟨v, hv⟩ := List.exists_mem_of_ne_nil _ ho
      exact (k v hv).1
    · exact (k u hu).2

/-- C176 is false if some process has points in the block and another has none: the one waits for the other. -/
theorem C176_empty_violated [Zero K] (W : Nat) (procs : List (Table K)) (t u : Table K) (ht : t ∈ procs) (hu : u ∈ procs) (h1 : t = [])
    (h2 : u ≠ []) : volumeFile W procs = none := by
  cases procs with
  | nil => rfl
  | cons host others =>
    unfold volumeFile
    simp only
    rw [if_neg (fun hc => h2 (hc u hu)), if_pos ⟨t, ht, h1⟩]

/-- C176 is false for a block that does not exist: the data are those of the first block. -/
theorem C176_unknown_violated (names : List String) (groups : List (List (Grp K))) (b : String) (hb : b ∉ names) :
    quadData names groups b = (groups[0]?).map (fun gs => (points gs).map (fun p => p.x ++ [p.w])) := by
  have miss : ∀ (l : List String) (o i : Nat), b ∉ l → (l.zipIdx o).foldl (fun i x => if x.1 = b then x.2 else i) i = i := by
    intro l
    induction l with
    | nil => intros; rfl
    | cons a l ih =>
      intro o i hb
      rw [List.zipIdx_cons, List.foldl_cons, if_neg (fun e : a = b => hb (by simp [e])), ih _ _ (fun e => hb (List.mem_cons_of_mem _ e))]
  unfold quadData blockIndex
  rw [miss names 0 0 hb]
  congr 1
  funext gs
  have := foldl_groups (fun p : Pt K => p.x ++ [p.w]) (fun _ => true) gs []
  simpa using this

/-! ## Cases -/

/-- [case] Two groups on different sides, three points in one dimension. -/
def exG : List (Grp ℚ) := [⟨"left", [[⟨[1], 2, [-1]⟩, ⟨[3], 4, [-1]⟩]]⟩, ⟨"right", [[⟨[5], 6, [1]⟩]]⟩]

example : ["a", "b"].Nodup ∧ quadData ["a", "b"] [[], exG] "b" = some [[1, 2], [3, 4], [5, 6]] ∧
    sideData ["a", "b"] [[], exG] "b" "left" = some [[1, 2, -1], [3, 4, -1]] ∧
    sideLines 1 [[1, 2, -1], [3, 4, (-1 : ℚ)]] = ([[1], [3]], [some 2, some 4], [[-1], [-1]]) := by decide +kernel

/-- [case] Unknown block: the data of block "a". -/
example : quadData ["a", "b"] [exG, []] "c" = some [[1, 2], [3, 4], [5, (6 : ℚ)]] := by decide +kernel

/-- C176 is false even then: with two processes of two points each in one dimension, only the points of the last are in the files of
the block. -/
theorem C176_last_violated : volumeFile 2 [[[1, 2], [3, 4]], [[5, 6], [7, (8 : ℚ)]]] = some (some [[5, 6], [7, 8]]) := by decide +kernel

/-- C176 is false for sides: with two processes, the file of the first process holds the points of the second, those of the first are in no file. -/
theorem C176_host_violated : sideFiles 3 [[[1, 2, -1], [3, 4, -1], [5, 6, -1]], [[7, 8, 1], [9, 10, 1], [11, 12, (1 : ℚ)]]] =
    some [some [[7, 8, 1], [9, 10, 1], [11, 12, 1]], some [[7, 8, 1], [9, 10, 1], [11, 12, 1]]] := by decide +kernel

/-- [case] Three points and one: no files. -/
example : volumeFile 2 [[[1, 2], [3, 4], [5, 6]], [[7, (8 : ℚ)]]] = none ∧ volumeFile 2 [[[1, 2]], ([] : Table ℚ)] = none ∧
    volumeFile 2 [([] : Table ℚ), []] = some none := by decide +kernel

end MrHyDE.Postprocess.QuadFiles
