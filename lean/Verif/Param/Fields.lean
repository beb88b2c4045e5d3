import Verif.Param.Model
import Mathlib.Data.List.Nodup

/-!
# C183: discretized parameters are set up as the input asks

The families of basis functions of a block (physicsInterface_construct.hpp:316-377), the choice of a family for each
discretized parameter and the initial values (`setupDiscretizedParameters`, parameterManager_setup.hpp:239-466), the
number of stored time levels (`setInitialParams`, parameterManager_util.hpp:13-38) and the vector used at a time index
(`getDiscretizedParams`, parameterManager_access.hpp:83-107).

Simplifications: a family is the pair of its type and its order, the basis functions themselves are not modelled; the
types of the variables are taken after the suffix "-DG" has been removed (physicsInterface_construct.hpp:218-230).
-/

set_option linter.unusedSectionVars false

namespace MrHyDE.Param.Fields

/-- Type and order of a family of basis functions. [physicsInterface_construct.hpp:318-319] -/
abbrev Family := String × Nat

/-! ### Families of a block -/

/-- One pass of the loops that keep the families of a block distinct: physicsInterface_construct.hpp:329-342 (variables)
and 362-373 (parameters). -/
def addFamily (l : List Family) (f : Family) : List Family :=
  if l.any (fun g => g.2 == f.2 && g.1 == f.1) then l else l ++ [f]

/-- `unique_types`/`unique_orders` of a block, physicsInterface_construct.hpp:316-377: the families of its variables,
then those of the discretized parameters. -/
def families (vars params : List Family) : List Family :=
  params.foldl addFamily (vars.foldl addFamily [])

/-- The inner loop over `k`, parameterManager_setup.hpp:252-256: every position whose family is that of the
parameter. -/
def matchesFrom (f : Family) : Nat → List Family → List Nat
  | _, [] => []
  | k, g :: l => if f.2 = g.2 ∧ f.1 = g.1 then k :: matchesFrom f (k + 1) l else matchesFrom f (k + 1) l

/-- `disc_usebasis`, parameterManager_setup.hpp:247-257: `l` are the families of the first block. -/
def useBasis (l : List Family) (params : List Family) : List Nat :=
  params.flatMap (fun f => matchesFrom f 0 l)

/-- The family whose pattern defines the unknowns of parameter `j` on every block, parameterManager_setup.hpp:271-280;
`none` is a read past the end. -/
def layoutFamily (l : List Family) (params : List Family) (j : Nat) : Option Family :=
  match (useBasis l params)[j]? with
  | none => none
  | some k => l[k]?

/-- The family with which parameter `j` is evaluated on block `b`: the workset of every block gets the positions of
the first block (solverManager_setup.hpp:641) and looks them up in its own families (workset.cpp:246-251,
assemblyManager_mass.hpp:1014-1016); `none` is a read past the end. `blocks` are the families of the variables of each
block. -/
def usedFamily (blocks : List (List Family)) (params : List Family) (b j : Nat) : Option Family :=
  match blocks.head?, blocks[b]? with
  | some v0, some v =>
    match (useBasis (families v0 params) params)[j]? with
    | none => none
    | some k => (families v params)[k]?
  | _, _ => none

/-! ### Specification -/

/-- Number of entries before the first occurrence of `f`. [specification, no code] -/
def position (f : Family) (l : List Family) : Nat := l.findIdx (fun g => decide (g = f))

theorem any_iff (l : List Family) (f : Family) :
    l.any (fun g => g.2 == f.2 && g.1 == f.1) = true ↔ f ∈ l := by
  rw [List.any_eq_true]
  constructor
  · rintro ⟨g, hg, h⟩
    simp only [Bool.and_eq_true, beq_iff_eq] at h
    have : g = f := Prod.ext h.2 h.1
    exact this ▸ hg
  · intro h
    exact ⟨f, h, by simp⟩

theorem addFamily_mem (l : List Family) (f g : Family) : g ∈ addFamily l f ↔ g ∈ l ∨ g = f := by
  unfold addFamily
  by_cases h : f ∈ l
  · rw [if_pos ((any_iff l f).2 h)]
    constructor
    · exact Or.inl
    · rintro (h1 | rfl)
      · exact h1
      · exact h
  · rw [if_neg (fun hc => h ((any_iff l f).1 hc))]
    simp

theorem addFamily_nodup (l : List Family) (f : Family) (hl : l.Nodup) : (addFamily l f).Nodup := by
  unfold addFamily
  by_cases h : f ∈ l
  · rw [if_pos ((any_iff l f).2 h)]
    exact hl
  · rw [if_neg (fun hc => h ((any_iff l f).1 hc))]
    rw [List.nodup_append]
    refine ⟨hl, by simp, ?_⟩
    intro a ha b hb
    simp only [List.mem_singleton] at hb
    rintro rfl
    exact h (hb ▸ ha)

theorem fold_mem (fs : List Family) : ∀ (l : List Family) (g : Family),
    g ∈ fs.foldl addFamily l ↔ g ∈ l ∨ g ∈ fs := by
  induction fs with
  | nil => simp
  | cons f fs ih =>
    intro l g
    rw [List.foldl_cons, ih, addFamily_mem]
    simp only [List.mem_cons]
    constructor
    · rintro ((h | h) | h)
      · exact Or.inl h
      · exact Or.inr (Or.inl h)
      · exact Or.inr (Or.inr h)
    · rintro (h | h | h)
      · exact Or.inl (Or.inl h)
      · exact Or.inl (Or.inr h)
      · exact Or.inr h

theorem fold_nodup (fs : List Family) : ∀ (l : List Family), l.Nodup → (fs.foldl addFamily l).Nodup := by
  induction fs with
  | nil => exact fun l h => h
  | cons f fs ih => exact fun l h => ih _ (addFamily_nodup l f h)

theorem families_mem (vars params : List Family) (g : Family) :
    g ∈ families vars params ↔ g ∈ vars ∨ g ∈ params := by
  unfold families
  rw [fold_mem, fold_mem]
  simp

theorem families_nodup (vars params : List Family) : (families vars params).Nodup :=
  fold_nodup _ _ (fold_nodup _ _ List.nodup_nil)

theorem matchesFrom_none (f : Family) : ∀ (l : List Family) (k : Nat), f ∉ l → matchesFrom f k l = []
  | [], _, _ => rfl
  | g :: l, k, h => by
    have h1 : ¬(f.2 = g.2 ∧ f.1 = g.1) := by
      rintro ⟨h1, h2⟩
      exact h (by rw [show f = g from Prod.ext h2 h1]; exact List.mem_cons_self)
    rw [matchesFrom, if_neg h1]
    exact matchesFrom_none f l (k + 1) (fun hc => h (List.mem_cons_of_mem _ hc))

theorem matchesFrom_one (f : Family) : ∀ (l : List Family) (k : Nat), l.Nodup → f ∈ l →
    matchesFrom f k l = [k + position f l]
  | [], _, _, h => by cases h
  | g :: l, k, hn, h => by
    by_cases hg : g = f
    · subst hg
      rw [matchesFrom, if_pos ⟨rfl, rfl⟩, matchesFrom_none g l (k + 1) (List.nodup_cons.1 hn).1]
      simp [position, List.findIdx_cons]
    · have h1 : ¬(f.2 = g.2 ∧ f.1 = g.1) := by
        rintro ⟨h1, h2⟩
        exact hg (Prod.ext h2 h1).symm
      have h2 : f ∈ l := by
        rcases List.mem_cons.1 h with h | h
        · exact absurd h.symm hg
        · exact h
      rw [matchesFrom, if_neg h1, matchesFrom_one f l (k + 1) (List.nodup_cons.1 hn).2 h2]
      simp only [position, List.findIdx_cons, hg, decide_false, cond_false]
      congr 1
      omega

theorem flatMap_single {A B : Type} (f : A → List B) (g : A → B) : ∀ (l : List A), (∀ a ∈ l, f a = [g a]) →
    l.flatMap f = l.map g
  | [], _ => rfl
  | a :: l, h => by
    rw [List.flatMap_cons, h a List.mem_cons_self, flatMap_single f g l (fun b hb => h b (List.mem_cons_of_mem _ hb))]
    rfl

theorem useBasis_eq (vars params : List Family) :
    useBasis (families vars params) params = params.map (fun f => position f (families vars params)) := by
  unfold useBasis
  refine flatMap_single _ _ _ (fun f hf => ?_)
  rw [matchesFrom_one f _ 0 (families_nodup _ _) ((families_mem _ _ _).2 (Or.inr hf))]
  rw [Nat.zero_add]

theorem at_position (f : Family) (l : List Family) (h : f ∈ l) : l[position f l]? = some f := by
  have hlt : position f l < l.length := List.findIdx_lt_length_of_exists ⟨f, h, by simp⟩
  rw [List.getElem?_eq_getElem hlt]
  have h2 := List.findIdx_getElem (w := hlt)
  exact congrArg some (by simpa using h2 : l[List.findIdx (fun g => decide (g = f)) l]'hlt = f)

theorem position_of_at (f : Family) (l : List Family) (hn : l.Nodup) (k : Nat) (h : l[k]? = some f) : position f l = k := by
  have hm : f ∈ l := List.mem_of_getElem? h
  have h2 := at_position f l hm
  have hk : k < l.length := (List.getElem?_eq_some_iff.1 h).1
  have hp : position f l < l.length := (List.getElem?_eq_some_iff.1 h2).1
  rw [List.getElem?_eq_getElem hk] at h
  rw [List.getElem?_eq_getElem hp] at h2
  exact (List.Nodup.getElem_inj_iff hn).1 (by rw [Option.some.inj h, Option.some.inj h2])

/-- **C183** (families of a block).  For all variables and all discretized parameters, the families of a block are
exactly those of its variables and of the parameters, each once. -/
theorem C183_families (vars params : List Family) :
    (families vars params).Nodup ∧ ∀ g, g ∈ families vars params ↔ g ∈ vars ∨ g ∈ params :=
  ⟨families_nodup _ _, families_mem _ _⟩

/-- **C183** (unknowns).  For all variables of the first block and all discretized parameters there is exactly one
position for each parameter, and the unknowns of every parameter, on every block, are those of the family asked for. -/
theorem C183_layout (vars params : List Family) :
    (useBasis (families vars params) params).length = params.length ∧
    ∀ j : Nat, layoutFamily (families vars params) params j = params[j]? := by
  refine ⟨by rw [useBasis_eq, List.length_map], fun j => ?_⟩
  unfold layoutFamily
  rw [useBasis_eq, List.getElem?_map]
  cases h : params[j]? with
  | none => rfl
  | some f => exact at_position f _ ((families_mem _ _ _).2 (Or.inr (List.mem_of_getElem? h)))

theorem used_eq (v0 : List Family) (rest : List (List Family)) (params : List Family) (b j : Nat) (v : List Family)
    (f : Family) (hv : (v0 :: rest)[b]? = some v) (hf : params[j]? = some f) :
    usedFamily (v0 :: rest) params b j = (families v params)[position f (families v0 params)]? := by
  simp only [usedFamily, List.head?_cons, hv, useBasis_eq, List.getElem?_map, hf, Option.map_some]

/-- **C183** (evaluation; partial: only when the positions agree, see `C183_family_violated`).  On block `b` parameter
`j` is evaluated with the family asked for if and only if that family stands at the same position in the families of
block `b` and of the first block; in particular always on the first block, and on every block whose variables use the
same families in the same order. -/
theorem C183_used_partial (v0 : List Family) (rest : List (List Family)) (params : List Family) (b j : Nat)
    (v : List Family) (f : Family) (hv : (v0 :: rest)[b]? = some v) (hf : params[j]? = some f) :
    (usedFamily (v0 :: rest) params b j = some f ↔
      position f (families v params) = position f (families v0 params)) ∧
    (v.foldl addFamily [] = v0.foldl addFamily [] → usedFamily (v0 :: rest) params b j = some f) := by
  rw [used_eq v0 rest params b j v f hv hf]
  have hm : f ∈ families v params := (families_mem _ _ _).2 (Or.inr (List.mem_of_getElem? hf))
  have hm0 : f ∈ families v0 params := (families_mem _ _ _).2 (Or.inr (List.mem_of_getElem? hf))
  refine ⟨⟨position_of_at f _ (families_nodup _ _) _, fun h => ?_⟩, fun h => ?_⟩
  · rw [← h]
    exact at_position f _ hm
  · have : families v params = families v0 params := by unfold families; rw [h]
    rw [this]
    exact at_position f _ hm0

/-- A case of `C183_used_partial`: two blocks with the same families, a parameter with a family of its own. -/
example : usedFamily [[("HGRAD", 1), ("HGRAD", 2)], [("HGRAD", 1), ("HGRAD", 1), ("HGRAD", 2)]] [("HVOL", 0), ("HGRAD", 1)] 1 0
    = some ("HVOL", 0) ∧ families [("HGRAD", 1), ("HGRAD", 1), ("HGRAD", 2)] [("HVOL", 0), ("HGRAD", 1)]
    = [("HGRAD", 1), ("HGRAD", 2), ("HVOL", 0)] := by decide +kernel

/-- C183 is false for blocks with different variables: the first block has one variable with linear elements, the
second also one with quadratic elements; a piecewise constant parameter, whose unknowns are those of piecewise
constants, is evaluated on the second block with the quadratic basis functions.  Exchanging the two blocks the position
lies past the end of the families of the second block. -/
theorem C183_family_violated :
    usedFamily [[("HGRAD", 1)], [("HGRAD", 1), ("HGRAD", 2)]] [("HVOL", 0)] 1 0 = some ("HGRAD", 2) ∧
    layoutFamily (families [("HGRAD", 1)] [("HVOL", 0)]) [("HVOL", 0)] 0 = some ("HVOL", 0) ∧
    usedFamily [[("HGRAD", 1), ("HGRAD", 2)], [("HGRAD", 1)]] [("HVOL", 0)] 1 0 = none := by decide +kernel

/-! ### Initial values and time levels -/

variable {K : Type}

/-- The unknowns seen by a process: for each of its elements (of all blocks) and each parameter the global numbers,
parameterManager_setup.hpp:415-429. -/
abbrev Elems := List (List (List Nat))

/-- The unknowns of parameter `n` on the elements of a process, parameterManager_setup.hpp:415-429. -/
def fieldDofs (es : Elems) (n : Nat) : List Nat := es.flatMap (fun e => e[n]?.getD [])

/-- The unknowns of the overlapped map of a process: all unknowns of its elements (`getOwnedAndGhostedIndices` of the
DOF manager without neighbours), parameterManager_setup.hpp:297. -/
def overlapped (es : Elems) : List Nat := es.flatten.flatten

/-- The overlapped vector of one time level after the loops over parameters and unknowns,
parameterManager_setup.hpp:431-441: zero at first (parameterManager_util.hpp:33), then the initial value of the parameter
at each of its unknowns, unless a custom initial guess is announced. -/
def initOver [Zero K] (custom : Bool) (vals : List K) (es : Elems) : Nat → K :=
  if custom then fun _ => 0
  else vals.zipIdx.foldl (fun v p => (fieldDofs es p.2).foldl (fun w g => fun i => if i = g then p.1 else w i) v) (fun _ => 0)

/-- Export of the overlapped vectors to the owned entry `g` with the mode REPLACE, parameterManager_setup.hpp:447-449:
the processes that have the entry overwrite it in some order. -/
def exportReplace [Zero K] (custom : Bool) (vals : List K) (procs : List Elems) (g : Nat) : K :=
  procs.foldl (fun x es => if g ∈ overlapped es then initOver custom vals es g else x) 0

/-- Number of time levels, parameterManager_util.hpp:23-26 with parameterManager_setup.hpp:136-140: that of the time
steps as soon as one discretized parameter is dynamic. -/
def numLevels (dynamic : List Bool) (steps : Nat) : Nat := if dynamic.any id then steps else 1

/-- The time level used at time index `t`, parameterManager_access.hpp:83-93; `none` is the null pointer. -/
def levelAt (dynamic : List Bool) (steps t : Nat) : Option Nat :=
  let index := if dynamic.any id then t else 0
  if numLevels dynamic steps > index then some index else none

/-- One unknown of a discretized parameter after `updateParams` with an optimization vector with one field for each
time level (parameterManager_update.hpp:50-60), read at time index `t`. -/
def readAfterUpdate (dynamic : List Bool) (steps : Nat) (field : Nat → K) (t : Nat) : Option K :=
  (levelAt dynamic steps t).map field

/-- The unknowns of different parameters on the elements are different. [specification, no code] -/
def Disjoint (procs : List Elems) : Prop :=
  ∀ es ∈ procs, ∀ es' ∈ procs, ∀ n m : Nat, n ≠ m → ∀ g ∈ fieldDofs es n, g ∉ fieldDofs es' m

theorem fold_one (x : K) (g : Nat) : ∀ (l : List Nat) (w : Nat → K),
    l.foldl (fun w g => fun i => if i = g then x else w i) w g = if g ∈ l then x else w g
  | [], w => by simp
  | a :: l, w => by
    rw [List.foldl_cons, fold_one x g l]
    by_cases h : g ∈ l
    · simp [h]
    · by_cases ha : g = a
      · simp [ha]
      · simp [h, ha]

theorem fold_skip (es : Elems) (g : Nat) : ∀ (l : List (K × Nat)) (v : Nat → K), (∀ p ∈ l, g ∉ fieldDofs es p.2) →
    l.foldl (fun v p => (fieldDofs es p.2).foldl (fun w g => fun i => if i = g then p.1 else w i) v) v g = v g
  | [], v, _ => rfl
  | p :: l, v, h => by
    rw [List.foldl_cons, fold_skip es g l _ (fun q hq => h q (List.mem_cons_of_mem _ hq)), fold_one,
      if_neg (h p List.mem_cons_self)]

theorem fold_hit (es : Elems) (g n : Nat) (x : K) (hg : g ∈ fieldDofs es n)
    (hd : ∀ m : Nat, n ≠ m → g ∉ fieldDofs es m) : ∀ (l : List K) (k : Nat) (v : Nat → K), k ≤ n → l[n - k]? = some x →
    (l.zipIdx k).foldl (fun v p => (fieldDofs es p.2).foldl (fun w g => fun i => if i = g then p.1 else w i) v) v g = x
  | [], k, v, _, h => by simp at h
  | y :: l, k, v, hk, h => by
    rw [List.zipIdx_cons, List.foldl_cons]
    by_cases hkn : k = n
    · subst hkn
      rw [Nat.sub_self] at h
      have hy : y = x := by simpa using h
      subst hy
      rw [fold_skip es g, fold_one, if_pos hg]
      intro p hp
      have := List.le_snd_of_mem_zipIdx hp
      exact hd p.2 (by omega)
    · refine fold_hit es g n x hg hd l (k + 1) _ (by omega) ?_
      have e : n - k = (n - (k + 1)) + 1 := by omega
      rw [e] at h
      simpa using h

theorem mem_overlapped (es : Elems) (g : Nat) (h : g ∈ overlapped es) : ∃ n : Nat, g ∈ fieldDofs es n := by
  unfold overlapped at h
  obtain ⟨l, hl, hg⟩ := List.mem_flatten.1 h
  obtain ⟨e, he, hle⟩ := List.mem_flatten.1 hl
  obtain ⟨n, hn⟩ := List.mem_iff_getElem?.1 hle
  exact ⟨n, List.mem_flatMap.2 ⟨e, he, by rw [hn]; exact hg⟩⟩

theorem overlapped_mem (es : Elems) (g n : Nat) (h : g ∈ fieldDofs es n) : g ∈ overlapped es := by
  obtain ⟨e, he, hg⟩ := List.mem_flatMap.1 h
  cases hn : e[n]? with
  | none => rw [hn] at hg; simp at hg
  | some l =>
    rw [hn] at hg
    exact List.mem_flatten.2 ⟨l, List.mem_flatten.2 ⟨e, he, List.mem_of_getElem? hn⟩, hg⟩

/-- **C183** (initial values).  For every distribution of the elements over processes, in whatever order the processes
write, every unknown of parameter `n` starts with the initial value of that parameter, on the owning process and on
every process that sees the unknown. -/
theorem C183_initial [Zero K] (vals : List K) (procs : List Elems) (hd : Disjoint procs) (n g : Nat) (x : K)
    (hx : vals[n]? = some x) (hg : ∃ es ∈ procs, g ∈ fieldDofs es n) :
    exportReplace false vals procs g = x ∧
    ∀ es ∈ procs, g ∈ overlapped es → initOver false vals es g = x := by
  obtain ⟨es0, h0, hg0⟩ := hg
  have key : ∀ es ∈ procs, g ∈ overlapped es → initOver false vals es g = x := by
    intro es he ho
    obtain ⟨m, hm⟩ := mem_overlapped es g ho
    have hmn : m = n := by
      by_contra hc
      exact hd es he es0 h0 m n hc g hm hg0
    subst hmn
    unfold initOver
    rw [if_neg (by decide)]
    exact fold_hit es g m x hm (fun k hk hc => hd es he es he m k hk g hm hc) vals 0 _ (Nat.zero_le _) (by simpa using hx)
  refine ⟨?_, key⟩
  have fold : ∀ (l : List Elems), (∀ es ∈ l, es ∈ procs) → ∀ y : K, (y = x ∨ ∃ es ∈ l, g ∈ overlapped es) →
      l.foldl (fun x es => if g ∈ overlapped es then initOver false vals es g else x) y = x := by
    intro l
    induction l with
    | nil =>
      rintro - y (h | ⟨es, h, -⟩)
      · exact h
      · cases h
    | cons e l ih =>
      intro hl y hy
      rw [List.foldl_cons]
      refine ih (fun es h => hl es (List.mem_cons_of_mem _ h)) _ ?_
      by_cases ho : g ∈ overlapped e
      · rw [if_pos ho]
        exact Or.inl (key e (hl e List.mem_cons_self) ho)
      · rw [if_neg ho]
        rcases hy with hy | ⟨es, hes, h⟩
        · exact Or.inl hy
        · rcases List.mem_cons.1 hes with rfl | hes
          · exact absurd h ho
          · exact Or.inr ⟨es, hes, h⟩
  exact fold procs (fun _ h => h) 0 (Or.inr ⟨es0, h0, overlapped_mem es0 g n hg0⟩)

/-- A case of `C183_initial`: two processes that share unknown 1 of the first of two parameters. -/
example : exportReplace false [(5 : Int), 7] [[[[0, 1], [10]]], [[[1, 2], [11]]]] 1 = 5 ∧
    exportReplace false [(5 : Int), 7] [[[[0, 1], [10]]], [[[1, 2], [11]]]] 11 = 7 := by decide +kernel

example : Disjoint [[[[0, 1], [10]]], [[[1, 2], [11]]]] := by
  intro es he es' he' n m hnm g hg hg'
  have two : ∀ (es : Elems), es ∈ [[[[0, 1], [10]]], [[[1, 2], [11]]]] → ∀ (k : Nat) (g : Nat), g ∈ fieldDofs es k →
      (k = 0 ∧ g < 3) ∨ (k = 1 ∧ 10 ≤ g) := by
    intro es he k g hg
    have hk : k = 0 ∨ k = 1 ∨ 2 ≤ k := by omega
    simp only [List.mem_cons, List.not_mem_nil, or_false] at he
    rcases he with rfl | rfl <;> rcases hk with rfl | rfl | hk
    all_goals (try (simp [fieldDofs] at hg; omega))
    all_goals
      obtain ⟨j, rfl⟩ : ∃ j, k = j + 2 := ⟨k - 2, by omega⟩
      simp [fieldDofs] at hg
  rcases two es he n g hg with h | h <;> rcases two es' he' m g hg' with h' | h' <;> omega

/-- C183 is false when a custom initial guess is announced ("use custom initial param guess"): every unknown starts at
zero, whatever the initial values; no code supplies the guess. -/
theorem C183_custom_violated [Zero K] (vals : List K) (procs : List Elems) (g : Nat) :
    exportReplace true vals procs g = 0 := by
  unfold exportReplace
  have : ∀ (l : List Elems), l.foldl (fun x es => if g ∈ overlapped es then initOver true vals es g else x) (0 : K) = 0 := by
    intro l
    induction l with
    | nil => rfl
    | cons e l ih =>
      rw [List.foldl_cons]
      have e0 : (if g ∈ overlapped e then initOver true vals e g else (0 : K)) = 0 := by
        simp [initOver]
      rw [e0]
      exact ih
  exact this procs

/-- **C183** (time levels; partial: no discretized parameter is dynamic or the time index is one of the steps).
Without a dynamic discretized parameter every time index reads the one stored vector; with one, time index `t` reads
level `t` as long as it is below the number of steps.  The number of stored vectors, that of the fields in the optimization
vector, is one or the number of steps, so no field is without effect. -/
theorem C183_levels_partial (dynamic : List Bool) (steps : Nat) (field : Nat → K) (t : Nat) :
    ((∀ d ∈ dynamic, d = false) → readAfterUpdate dynamic steps field t = some (field 0) ∧
      numLevels dynamic steps = 1) ∧
    ((∃ d ∈ dynamic, d = true) → t < steps → readAfterUpdate dynamic steps field t = some (field t)) ∧
    ((∃ d ∈ dynamic, d = true) → steps ≤ t → readAfterUpdate dynamic steps field t = none) := by
  refine ⟨fun h => ?_, fun h ht => ?_, fun h ht => ?_⟩
  · have : dynamic.any id = false := by
      rw [List.any_eq_false]
      intro d hd
      simp [h d hd]
    constructor
    · simp [readAfterUpdate, levelAt, numLevels, this]
    · simp [numLevels, this]
  · have : dynamic.any id = true := List.any_eq_true.2 (by simpa using h)
    simp [readAfterUpdate, levelAt, numLevels, this, ht]
  · have : dynamic.any id = true := List.any_eq_true.2 (by simpa using h)
    simp [readAfterUpdate, levelAt, numLevels, this, Nat.not_lt.2 ht]

example : readAfterUpdate [false, true] 3 (fun i => 10 * i) 2 = some 20 ∧
    readAfterUpdate [false, false] 3 (fun i => 10 * i) 2 = some 0 := by decide +kernel

/-- C183 is false for a parameter that is not dynamic next to one that is: nothing looks at the flag of the parameter,
so it takes the value of the level of each time step, whatever the values are.  The same holds for scalar parameters:
after `updateParams` the active parameter `a`, not dynamic, has the value 1 in the first time step and 2 in the
second. -/
theorem C183_static_violated (rest : List Bool) (h : true ∈ rest) (steps : Nat) (field : Nat → K) (s t : Nat)
    (hs : s < steps) (ht : t < steps) (hne : field s ≠ field t) :
    readAfterUpdate (false :: rest) steps field s ≠ readAfterUpdate (false :: rest) steps field t := by
  have hd : ∃ d ∈ (false :: rest), d = true := ⟨true, List.mem_cons_of_mem _ h, rfl⟩
  rw [(C183_levels_partial (false :: rest) steps field s).2.1 hd hs,
    (C183_levels_partial (false :: rest) steps field t).2.1 hd ht]
  exact fun hc => hne (Option.some.inj hc)

/-- The scalar case of `C183_static_violated`, through the table of scalar parameters. -/
theorem C183_static_scalar_violated :
    (updateOpt (setup 2 [⟨"active", [(0 : Int)], false⟩, ⟨"active", [0], true⟩]) [[1, 5], [2, 6]]).map Table.vals
      = some [[[1], [5]], [[2], [6]]] := by decide +kernel

example : (true ∈ [true]) ∧ (fun i : Nat => i) 0 ≠ (fun i : Nat => i) 1 := by decide

end MrHyDE.Param.Fields
