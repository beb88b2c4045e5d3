import Mathlib.Data.List.Infix
import Mathlib.Data.List.Nodup
import Mathlib.Data.List.Basic

/-!
# Basis numbers of variables and discretized parameters (C97)

Every variable of an element block has an approximation space: an order and a type.  The block keeps a list of the
different spaces; a variable, or a discretized parameter, is tied to its space by a position in that list.
-/

namespace MrHyDE.Physics.Basis

/-! ## Model -/

/-- An approximation space: order and type, src/interfaces/physics/physicsInterface_construct.hpp:225-234. -/
abbrev Space := Nat × String

/-- The type of a variable without the marker of discontinuous fields, and whether the marker was present,
physicsInterface_construct.hpp:220-231 (and 271-282). -/
def stripDG (t : String) : String × Bool :=
  if "-DG".toList <:+: t.toList then (String.ofList (t.toList.take (t.toList.length - 3)), true) else (t, false)

/-- The positions `k` of the list found equal, physicsInterface_construct.hpp:331-336. -/
def found (u : List Space) (s : Space) : List Nat :=
  (List.range u.length).filter (fun k : Nat => decide (u[k]? = some s))

/-- One variable: its positions are recorded, or a new space is appended, physicsInterface_construct.hpp:330-341.
The state is the list of spaces and the list of positions. -/
def addVar (st : List Space × List Nat) (s : Space) : List Space × List Nat :=
  if found st.1 s = [] then (st.1 ++ [s], st.2 ++ [st.1.length])
  else (st.1, st.2 ++ found st.1 s)

/-- The variables of all sets, physicsInterface_construct.hpp:328-343. -/
def addVars (ss : List Space) : List Space × List Nat := ss.foldl addVar ([], [])

/-- One discretized parameter, physicsInterface_construct.hpp:363-372. -/
def addParam (u : List Space) (s : Space) : List Space :=
  if found u s = [] then u ++ [s] else u

/-- The list of spaces of a block with the discretized parameters, physicsInterface_construct.hpp:362-376. -/
def spaces (vars params : List Space) : List Space := params.foldl addParam (addVars vars).1

/-- The inner loop of `getUniqueIndex`, src/interfaces/physics/physicsInterface_util.hpp:71-75; `none` is a read
beyond the list of positions. -/
def scanSet (var : String) (idx : List Nat) (prog : Nat) : Nat → List String → Option Nat → Option Nat
  | _, [], cur => cur
  | j, n :: ns, cur => scanSet var idx prog (j + 1) ns (if n = var then idx[j + prog]? else cur)

/-- The outer loop of `getUniqueIndex`, physicsInterface_util.hpp:70-77.  The loop variable hides the argument
`set` of the function, so all sets are searched. -/
def scanSets (var : String) (idx : List Nat) : Nat → List (List String) → Option Nat → Option Nat
  | _, [], cur => cur
  | prog, s :: ss, cur => scanSets var idx (prog + s.length) ss (scanSet var idx prog 0 s cur)

/-- `getUniqueIndex`, physicsInterface_util.hpp:67-79. -/
def getUniqueIndex (_set : Nat) (names : List (List String)) (idx : List Nat) (var : String) : Option Nat :=
  scanSets var idx 0 names (some 0)

/-- The basis numbers of the discretized parameters, src/managers/parameter/parameterManager_setup.hpp:251-257;
`u0` is the list of spaces of the first block. -/
def paramUse (u0 params : List Space) : List Nat := params.flatMap (fun p : Space => found u0 p)

/-! ## Specification -/

/-- The variables of a block, set by set: names with their spaces. [specification, no code] -/
abbrev Block := List (List (String × Space))

/-- The names, set by set. [specification, no code] -/
def Block.names (b : Block) : List (List String) := b.map (fun s => s.map (fun v => v.1))

/-- The spaces in the order of the sets. [specification, no code] -/
def Block.spaces (b : Block) : List Space := b.flatten.map (fun v => v.2)

/-! ## Lemmas -/

theorem mem_found {u : List Space} {s : Space} {k : Nat} : k ∈ found u s ↔ u[k]? = some s := by
  unfold found
  simp only [List.mem_filter, List.mem_range, decide_eq_true_eq]
  constructor
  · exact fun h => h.2
  · intro h
    exact ⟨(List.getElem?_eq_some_iff.mp h).1, h⟩

theorem found_nil {u : List Space} {s : Space} : found u s = [] ↔ s ∉ u := by
  constructor
  · intro h hs
    obtain ⟨k, hk⟩ := List.mem_iff_getElem?.mp hs
    have : k ∈ found u s := mem_found.mpr hk
    rw [h] at this
    simp at this
  · intro h
    rw [List.eq_nil_iff_forall_not_mem]
    intro k hk
    exact h (List.mem_of_getElem? (mem_found.mp hk))

theorem found_one {u : List Space} {s : Space} (hu : u.Nodup) (hs : s ∈ u) : ∃ k, found u s = [k] ∧ u[k]? = some s := by
  obtain ⟨k, hk⟩ := List.mem_iff_getElem?.mp hs
  refine ⟨k, ?_, hk⟩
  have hn : (found u s).Nodup := List.Nodup.filter _ List.nodup_range
  have hk' : k ∈ found u s := mem_found.mpr hk
  have hall : ∀ j ∈ found u s, j = k := by
    intro j hj
    have hj' := mem_found.mp hj
    obtain ⟨h1, e1⟩ := List.getElem?_eq_some_iff.mp hj'
    obtain ⟨h2, e2⟩ := List.getElem?_eq_some_iff.mp hk
    exact (List.Nodup.getElem_inj_iff hu).mp (e1.trans e2.symm)
  match hf : found u s with
  | [] => rw [hf] at hk'; simp at hk'
  | [a] => rw [hall a (by rw [hf]; simp)]
  | a :: b :: l =>
      exfalso
      have ha := hall a (by rw [hf]; simp)
      have hb := hall b (by rw [hf]; simp)
      rw [hf] at hn
      simp [ha, hb] at hn

/-- What holds of the list of spaces and the positions after the variables `done`. [specification, no code] -/
structure Inv (done : List Space) (st : List Space × List Nat) : Prop where
  nodup : st.1.Nodup
  len : st.2.length = done.length
  pos : ∀ (j : Nat) (s : Space), done[j]? = some s → ∃ i, st.2[j]? = some i ∧ st.1[i]? = some s
  used : ∀ s ∈ st.1, s ∈ done

theorem Inv.step {done : List Space} {st : List Space × List Nat} (h : Inv done st) (s : Space) :
    Inv (done ++ [s]) (addVar st s) := by
  unfold addVar
  by_cases hf : found st.1 s = []
  · rw [if_pos hf]
    have hs : s ∉ st.1 := found_nil.mp hf
    refine ⟨?_, by simp [h.len], ?_, ?_⟩
    · rw [List.nodup_append]
      exact ⟨h.nodup, by simp, fun a ha b hb => by rw [List.mem_singleton.mp hb]; exact fun e => hs (e ▸ ha)⟩
    · intro j t hj
      by_cases hlt : j < done.length
      · rw [List.getElem?_append_left hlt] at hj
        obtain ⟨i, h1, h2⟩ := h.pos j t hj
        refine ⟨i, ?_, ?_⟩
        · rw [List.getElem?_append_left (by rw [h.len]; exact hlt)]; exact h1
        · rw [List.getElem?_append_left (List.getElem?_eq_some_iff.mp h2).1]; exact h2
      · have hj' : j = done.length := by
          have := (List.getElem?_eq_some_iff.mp hj).1
          simp at this; omega
        subst hj'
        have ht : t = s := by simpa using hj.symm
        subst ht
        refine ⟨st.1.length, ?_, by simp⟩
        rw [← h.len]; simp
    · intro t ht
      rcases List.mem_append.mp ht with h1 | h1
      · exact List.mem_append_left _ (h.used t h1)
      · exact List.mem_append_right _ h1
  · rw [if_neg hf]
    have hs : s ∈ st.1 := by
      by_contra hn
      exact hf (found_nil.mpr hn)
    obtain ⟨k, hk, hk'⟩ := found_one h.nodup hs
    rw [hk]
    refine ⟨h.nodup, by simp [h.len], ?_, fun t ht => List.mem_append_left _ (h.used t ht)⟩
    intro j t hj
    by_cases hlt : j < done.length
    · rw [List.getElem?_append_left hlt] at hj
      obtain ⟨i, h1, h2⟩ := h.pos j t hj
      exact ⟨i, by rw [List.getElem?_append_left (by rw [h.len]; exact hlt)]; exact h1, h2⟩
    · have hj' : j = done.length := by
        have := (List.getElem?_eq_some_iff.mp hj).1
        simp at this; omega
      subst hj'
      have ht : t = s := by simpa using hj.symm
      subst ht
      refine ⟨k, ?_, hk'⟩
      rw [← h.len]; simp

theorem inv_foldl (ss done : List Space) (st : List Space × List Nat) (h : Inv done st) :
    Inv (done ++ ss) (ss.foldl addVar st) := by
  induction ss generalizing done st with
  | nil => simpa using h
  | cons s ss ih =>
      have := ih (done ++ [s]) (addVar st s) (h.step s)
      simpa using this

theorem inv_addVars (ss : List Space) : Inv ss (addVars ss) := by
  have h0 : Inv [] (([], []) : List Space × List Nat) := ⟨by simp, rfl, by simp, by simp⟩
  simpa [addVars] using inv_foldl ss [] ([], []) h0

theorem addParam_spec (u : List Space) (s : Space) (hu : u.Nodup) :
    (addParam u s).Nodup ∧ s ∈ addParam u s ∧ u <+: addParam u s := by
  unfold addParam
  by_cases hf : found u s = []
  · rw [if_pos hf]
    have hs : s ∉ u := found_nil.mp hf
    refine ⟨?_, by simp, List.prefix_append _ _⟩
    rw [List.nodup_append]
    exact ⟨hu, by simp, fun a ha b hb => by rw [List.mem_singleton.mp hb]; exact fun e => hs (e ▸ ha)⟩
  · rw [if_neg hf]
    refine ⟨hu, ?_, List.prefix_rfl⟩
    by_contra hn
    exact hf (found_nil.mpr hn)

theorem addParams_spec (ps u : List Space) (hu : u.Nodup) :
    (ps.foldl addParam u).Nodup ∧ (∀ p ∈ ps, p ∈ ps.foldl addParam u) ∧ u <+: ps.foldl addParam u := by
  induction ps generalizing u with
  | nil => simpa using hu
  | cons p ps ih =>
      obtain ⟨a, b, c⟩ := addParam_spec u p hu
      obtain ⟨a', b', c'⟩ := ih (addParam u p) a
      refine ⟨a', ?_, c.trans c'⟩
      intro q hq
      rcases List.mem_cons.mp hq with h | h
      · subst h; exact c'.subset b
      · exact b' q h

theorem prefix_getElem? {α : Type} {l l' : List α} (h : l <+: l') {i : Nat} {a : α} (hi : l[i]? = some a) :
    l'[i]? = some a := by
  obtain ⟨t, rfl⟩ := h
  rw [List.getElem?_append_left (List.getElem?_eq_some_iff.mp hi).1]
  exact hi

/-- The value of a scan is the entry at some occurrence of the name, or the value it started with. -/
theorem scanSet_mem (var : String) (idx : List Nat) (prog j : Nat) (ns : List String) (cur : Option Nat) :
    (var ∉ ns ∧ scanSet var idx prog j ns cur = cur) ∨
    ∃ p, ns[p]? = some var ∧ scanSet var idx prog j ns cur = idx[j + p + prog]? := by
  induction ns generalizing j cur with
  | nil => left; simp [scanSet]
  | cons n ns ih =>
      simp only [scanSet]
      rcases ih (j + 1) (if n = var then idx[j + prog]? else cur) with ⟨h1, h2⟩ | ⟨p, h1, h2⟩
      · by_cases hn : n = var
        · right
          exact ⟨0, by simp [hn], by rw [h2, if_pos hn]; simp⟩
        · left
          refine ⟨?_, by rw [h2, if_neg hn]⟩
          simp only [List.mem_cons, not_or]
          exact ⟨fun e => hn e.symm, h1⟩
      · right
        exact ⟨p + 1, by simpa using h1, by rw [h2]; congr 1; omega⟩

theorem scanSets_mem (var : String) (idx : List Nat) (prog : Nat) (ss : List (List String)) (cur : Option Nat) :
    (var ∉ ss.flatten ∧ scanSets var idx prog ss cur = cur) ∨
    ∃ p : Nat, ss.flatten[p]? = some var ∧ scanSets var idx prog ss cur = idx[p + prog]? := by
  induction ss generalizing prog cur with
  | nil => left; simp [scanSets]
  | cons s ss ih =>
      simp only [scanSets]
      rcases ih (prog + s.length) (scanSet var idx prog 0 s cur) with ⟨h1, h2⟩ | ⟨p, h1, h2⟩
      · rcases scanSet_mem var idx prog 0 s cur with ⟨h3, h4⟩ | ⟨p, h3, h4⟩
        · left
          refine ⟨?_, by rw [h2, h4]⟩
          simp only [List.flatten_cons, List.mem_append, not_or]
          exact ⟨h3, h1⟩
        · right
          refine ⟨p, ?_, by rw [h2, h4]; congr 1; omega⟩
          rw [List.flatten_cons, List.getElem?_append_left (List.getElem?_eq_some_iff.mp h3).1]
          exact h3
      · right
        refine ⟨p + s.length, ?_, by rw [h2]; congr 1; omega⟩
        rw [List.flatten_cons, List.getElem?_append_right (by omega)]
        simpa using h1

theorem names_flatten (b : Block) : b.names.flatten = b.flatten.map (fun v => v.1) := by
  unfold Block.names
  rw [List.map_flatten]

/-! ## Properties -/

/-- C97, the list of spaces: no space appears twice, every variable has exactly one position, the space at the
position is that of the variable, every listed space belongs to a variable or a parameter, and every parameter has
its space in the list. -/
theorem C97_spaces (vars params : List Space) :
    (spaces vars params).Nodup ∧
    (addVars vars).2.length = vars.length ∧
    (∀ (j : Nat) (s : Space), vars[j]? = some s →
      ∃ i, (addVars vars).2[j]? = some i ∧ (spaces vars params)[i]? = some s) ∧
    (∀ p ∈ params, p ∈ spaces vars params) := by
  have hi := inv_addVars vars
  obtain ⟨a, b, c⟩ := addParams_spec params (addVars vars).1 hi.nodup
  refine ⟨a, hi.len, ?_, b⟩
  intro j s hj
  obtain ⟨i, h1, h2⟩ := hi.pos j s hj
  exact ⟨i, h1, prefix_getElem? c h2⟩

example : spaces [(1, "HGRAD"), (2, "HGRAD"), (1, "HGRAD")] [(1, "HVOL"), (2, "HGRAD")] =
    [(1, "HGRAD"), (2, "HGRAD"), (1, "HVOL")] ∧
    (addVars [(1, "HGRAD"), (2, "HGRAD"), (1, "HGRAD")]).2 = [0, 1, 0] := by decide +kernel

/-- C97, partial: asking for the basis number of a variable of a set gives a number at which the block holds the
space of that variable, provided all variables of that name on the block (in whichever set) have the same space.
Missing: equal names with different spaces in two sets, see `C97_sets_violated`. -/
theorem C97_partial (b : Block) (params : List Space) (set j : Nat) (vs : List (String × Space)) (var : String)
    (s : Space) (hset : b[set]? = some vs) (hj : vs[j]? = some (var, s))
    (hsame : ∀ v ∈ b.flatten, v.1 = var → v.2 = s) :
    ∃ i, getUniqueIndex set b.names (addVars b.spaces).2 var = some i ∧
      (spaces b.spaces params)[i]? = some s := by
  have hmem : (var, s) ∈ b.flatten :=
    List.mem_flatten.mpr ⟨vs, List.mem_of_getElem? hset, List.mem_of_getElem? hj⟩
  unfold getUniqueIndex
  rcases scanSets_mem var (addVars b.spaces).2 0 b.names (some 0) with ⟨h1, -⟩ | ⟨p, h1, h2⟩
  · exfalso
    apply h1
    rw [names_flatten]
    exact List.mem_map.mpr ⟨(var, s), hmem, rfl⟩
  · rw [names_flatten] at h1
    rw [List.getElem?_map] at h1
    cases hv : b.flatten[p]? with
    | none => rw [hv] at h1; simp at h1
    | some v =>
        rw [hv] at h1
        have hvn : v.1 = var := by simpa using h1
        have hvs : v.2 = s := hsame v (List.mem_of_getElem? hv) hvn
        have hsp : b.spaces[p]? = some s := by
          unfold Block.spaces
          rw [List.getElem?_map, hv]
          simp [hvs]
        obtain ⟨-, -, hpos, -⟩ := C97_spaces b.spaces params
        obtain ⟨i, h3, h4⟩ := hpos p s hsp
        exact ⟨i, by rw [h2]; simpa using h3, h4⟩

/-- Two sets with different names. [case] -/
def exBlock : Block := [[("ux", (2, "HGRAD")), ("pr", (1, "HGRAD"))], [("e", (1, "HGRAD"))]]

example : exBlock[0]? = some [("ux", (2, "HGRAD")), ("pr", (1, "HGRAD"))] ∧
    (∀ v ∈ exBlock.flatten, v.1 = "pr" → v.2 = (1, "HGRAD")) ∧
    getUniqueIndex 0 exBlock.names (addVars exBlock.spaces).2 "pr" = some 1 ∧
    getUniqueIndex 1 exBlock.names (addVars exBlock.spaces).2 "e" = some 1 := by decide +kernel

/-- C97 is violated when two sets have a variable of the same name with different spaces: both sets get the basis
number of the last one. -/
theorem C97_sets_violated :
    ∃ (b : Block) (vs : List (String × Space)), b[0]? = some vs ∧ vs[0]? = some ("e", (1, "HGRAD")) ∧
      ∃ i, getUniqueIndex 0 b.names (addVars b.spaces).2 "e" = some i ∧
        (spaces b.spaces [])[i]? = some (2, "HGRAD") := by
  exact ⟨[[("e", (1, "HGRAD"))], [("e", (2, "HGRAD"))]], [("e", (1, "HGRAD"))], by decide, by decide, 1,
    by decide +kernel, by decide +kernel⟩

/-- C97, parameters on the first block: every discretized parameter gets exactly one basis number, and the first
block holds the space of the parameter there. -/
theorem C97_params_first (vars params : List Space) :
    (paramUse (spaces vars params) params).length = params.length ∧
    ∀ (j : Nat) (p : Space), params[j]? = some p →
      ∃ i, (paramUse (spaces vars params) params)[j]? = some i ∧ (spaces vars params)[i]? = some p := by
  obtain ⟨hn, -, -, hp⟩ := C97_spaces vars params
  generalize spaces vars params = u at hn hp
  induction params with
  | nil => simp [paramUse]
  | cons q ps ih =>
      obtain ⟨k, hk, hk'⟩ := found_one hn (hp q (by simp))
      obtain ⟨h1, h2⟩ := ih (fun p h => hp p (List.mem_cons_of_mem _ h))
      have e : paramUse u (q :: ps) = k :: paramUse u ps := by simp [paramUse, hk]
      rw [e]
      refine ⟨by simp [h1], ?_⟩
      intro j p hj
      cases j with
      | zero =>
          have : p = q := by simpa using hj.symm
          subst this
          exact ⟨k, by simp, hk'⟩
      | succ j =>
          obtain ⟨i, a, b⟩ := h2 j p (by simpa using hj)
          exact ⟨i, by simpa using a, b⟩

/-- C97, parameters on the other blocks, partial: right when the list of spaces of the first block begins the list
of the other block (in particular when the blocks hold the same variables).  Missing: any other pair of blocks, see
`C97_params_violated`. -/
theorem C97_params_partial (vars0 vars params : List Space) (h : spaces vars0 params <+: spaces vars params)
    (j : Nat) (p : Space) (hj : params[j]? = some p) :
    ∃ i, (paramUse (spaces vars0 params) params)[j]? = some i ∧ (spaces vars params)[i]? = some p := by
  obtain ⟨-, h2⟩ := C97_params_first vars0 params
  obtain ⟨i, a, b⟩ := h2 j p hj
  exact ⟨i, a, prefix_getElem? h b⟩

example : paramUse (spaces [(1, "HGRAD")] [(1, "HVOL"), (1, "HGRAD")]) [(1, "HVOL"), (1, "HGRAD")] = [1, 0] := by
  decide +kernel

/-- C97 is violated for discretized parameters on blocks with other variables: the basis number found on the first
block denotes another space on the second one, or none at all. -/
theorem C97_params_violated :
    (∃ vars0 vars params : List Space, ∃ i : Nat, params[0]? = some (2, "HGRAD") ∧
      (paramUse (spaces vars0 params) params)[0]? = some i ∧
      (spaces vars params)[i]? = some (1, "HGRAD")) ∧
    (∃ vars0 vars params : List Space, ∃ i : Nat, params[0]? = some (2, "HGRAD") ∧
      (paramUse (spaces vars0 params) params)[0]? = some i ∧ (spaces vars params)[i]? = none) :=
  ⟨⟨[(1, "HGRAD")], [(2, "HGRAD"), (1, "HGRAD")], [(2, "HGRAD")], 1, by decide +kernel⟩,
   ⟨[(1, "HGRAD"), (1, "HVOL")], [(2, "HGRAD")], [(2, "HGRAD")], 2, by decide +kernel⟩⟩

/-- C97, discontinuous fields: a type with the ending `-DG` stands for the type without it, marked; a type in which
this does not occur stands for itself. -/
theorem C97_dg (t : String) :
    stripDG (t ++ "-DG") = (t, true) ∧ (¬ "-DG".toList <:+: t.toList → stripDG t = (t, false)) := by
  constructor
  · unfold stripDG
    have h : "-DG".toList <:+: (t ++ "-DG").toList := by
      rw [String.toList_append]
      exact (List.suffix_append _ _).isInfix
    rw [if_pos h]
    have h3 : "-DG".toList.length = 3 := by decide
    simp [String.toList_append]
  · intro h
    unfold stripDG
    rw [if_neg h]

example : stripDG "HGRAD-DG" = ("HGRAD", true) ∧ stripDG "HDIV" = ("HDIV", false) := by decide +kernel

end MrHyDE.Physics.Basis
