import Mathlib.Data.List.Basic
import Mathlib.Data.List.Nodup

/-!
# Parameters set by name or by type, with parameters that change in time (C194)

`setParam` (src/managers/parameter/parameterManager_util.hpp:101-125) and `updateParams` (src/managers/parameter/parameterManager_update.hpp:68-84,
182-212) write one level of the parameters only.  They are used to generate data (src/managers/analysis/analysisManager_solve.hpp:425-461, 647-682)
and for samples (analysisManager_solve.hpp:251, 983, src/optimization/MrHyDE_Stochastic_Objective.hpp:213).  A run is followed by the levels its
steps see.
-/

set_option linter.unusedSectionVars false
set_option linter.unusedSimpArgs false

namespace MrHyDE.Param.Levels

variable {K : Type}

/-! ## Model -/

/-- A parameter: name, type and values; src/managers/parameter/parameterManager_setup.hpp:49-59. -/
structure Par (K : Type) where
  name : String
  type : Nat
  vals : List K
deriving DecidableEq

/-- The members: is there an active parameter that changes in time (`have_dynamic_scalar`), the levels (`paramvals`), the current level
(`dynamic_timeindex`); parameterManager_setup.hpp:156-163, src/managers/parameter/parameterManager_construct.hpp:60. -/
structure St (K : Type) where
  dynamic : Bool
  levels : List (List (Par K))
  index : Nat

/-- The loop over the parameters, parameterManager_update.hpp:201-208, parameterManager_util.hpp:113-122: those that fit get the new values one after
another; `none`: outside of the new values. -/
def assign (p : Par K → Bool) : List (Par K) → List K → Option (List (Par K))
  | [], _ => some []
  | q :: qs, new =>
      if p q then
        if q.vals.length ≤ new.length then
          (assign p qs (new.drop q.vals.length)).map (fun r => { q with vals := new.take q.vals.length } :: r)
        else none
      else (assign p qs new).map (fun r => q :: r)

/-- `setParam` and `updateParams` by name of a type: the current level, or level 0 if nothing changes in time; parameterManager_util.hpp:106-125,
parameterManager_update.hpp:195-211. -/
def setCurrent (p : Par K → Bool) (new : List K) (s : St K) : Option (St K) :=
  let i := if s.dynamic then s.index else 0
  match s.levels[i]? with
  | none => some s
  | some l => (assign p l new).map (fun r => { s with levels := s.levels.set i r })

/-- `updateParams` by number of a type: level 0; parameterManager_update.hpp:69-84.  `none`: no level. -/
def setFirst (p : Par K → Bool) (new : List K) (s : St K) : Option (St K) :=
  match s.levels[0]? with
  | none => none
  | some l => (assign p l new).map (fun r => { s with levels := s.levels.set 0 r })

/-- A forward run with `n` steps: the level each step sees, and the state after it; src/managers/solver/solverManager_solvers.hpp:86,
parameterManager_update.hpp:108-117 (a level that is not there: `none`).  A steady run is one step, solverManager_solvers.hpp:24. -/
def run (n : Nat) (s : St K) : Option (List (List (Par K)) × St K) :=
  ((List.range n).mapM (fun k => s.levels[if s.dynamic then k else 0]?)).map
    (fun seen => (seen, { s with index := if n = 0 then s.index else n - 1 }))

/-- `isParameter`, parameterManager_util.hpp:130-141. -/
def isParameter (name : String) (s : St K) : Bool :=
  match s.levels[0]? with
  | none => false
  | some l => l.any (fun q => q.name == name)

/-- Does a parameter have the name; parameterManager_util.hpp:114. -/
def named (name : String) (q : Par K) : Bool := q.name == name

/-- Generation of data, analysisManager_solve.hpp:425-461, 647-682: the parameter "datagen" is set to one, a run gives the data, the parameter is set
to zero.  The levels seen by the run, and the state after it. -/
def generate [Zero K] [One K] (n : Nat) (s : St K) : Option (List (List (Par K)) × St K) :=
  (if isParameter "datagen" s then setCurrent (named "datagen") [1] s else some s).bind (fun s1 =>
    (run n s1).bind (fun r =>
      (if isParameter "datagen" r.2 then setCurrent (named "datagen") [0] r.2 else some r.2).map (fun s2 => (r.1, s2))))

/-- A loop over samples: set, run; `set` is `setFirst` (analysisManager_solve.hpp:251, 272) or `setCurrent` (983, 987).  What the runs see. -/
def samples (set : List K → St K → Option (St K)) (n : Nat) : List (List K) → St K → Option (List (List (List (Par K))))
  | [], _ => some []
  | v :: vs, s =>
      (set v s).bind (fun s1 => (run n s1).bind (fun r => (samples set n vs r.2).map (fun l => r.1 :: l)))

/-! ## Specification -/

/-- The values of the parameters that fit, one after another. [specification, no code] -/
def values (p : Par K → Bool) (l : List (Par K)) : List K := (l.filter p).flatMap Par.vals

/-- All but the values that fit. [specification, no code] -/
def frame (p : Par K → Bool) (l : List (Par K)) : List (String × Nat × Nat × Option (List K)) :=
  l.map (fun q => (q.name, q.type, q.vals.length, if p q then none else some q.vals))

/-- Level `r` is level `l` with the values `new` for the parameters that fit. [specification, no code] -/
def Becomes (p : Par K → Bool) (l r : List (Par K)) (new : List K) : Prop := values p r = new ∧ frame p r = frame p l

/-- Whether a parameter fits does not depend on its values. [specification, no code] -/
def ByLabel (p : Par K → Bool) : Prop := ∀ q v, p { q with vals := v } = p q

/-- In every level `n` values fit. [specification, no code] -/
def Uniform (p : Par K → Bool) (n : Nat) (ls : List (List (Par K))) : Prop := ∀ l ∈ ls, (values p l).length = n

/-- The parameter named "datagen". [specification, no code] -/
def IsGen (q : Par K) : Bool := decide (q.name = "datagen")

/-! ## Lemmas -/

theorem assign_becomes {p : Par K → Bool} (hp : ByLabel p) (l : List (Par K)) (new : List K) (h : (values p l).length ≤ new.length) :
    ∃ r, assign p l new = some r ∧ Becomes p l r (new.take (values p l).length) := by
  induction l generalizing new with
  | nil => exact ⟨[], rfl, by simp [values, Becomes]⟩
  | cons q qs ih =>
      by_cases hq : p q = true
      · have hv : values p (q :: qs) = q.vals ++ values p qs := by simp [values, hq]
        rw [hv, List.length_append] at h
        obtain ⟨r, h1, h2, h3⟩ := ih (new.drop q.vals.length) (by rw [List.length_drop]; omega)
        have hle : q.vals.length ≤ new.length := by omega
        have hq' : p { name := q.name, type := q.type, vals := new.take q.vals.length } = true := (hp q _).trans hq
        refine ⟨{ q with vals := new.take q.vals.length } :: r, by simp [assign, hq, hle, h1], ?_, ?_⟩
        · rw [hv, List.length_append, List.take_add, ← h2]
          simp [values, hq']
        · simp only [frame, List.map_cons] at h3 ⊢
          rw [h3]
          simp [hq', hq, hle]
      · have hv : values p (q :: qs) = values p qs := by simp [values, hq]
        rw [hv] at h
        obtain ⟨r, h1, h2, h3⟩ := ih new h
        refine ⟨q :: r, by simp [assign, hq, h1], ?_, ?_⟩
        · rw [hv, ← h2]
          simp [values, hq]
        · simp only [frame, List.map_cons] at h3 ⊢
          rw [h3]

/-- One level is written. -/
theorem set_level {p : Par K → Bool} (hp : ByLabel p) {ls : List (List (Par K))} {i : Nat} {l : List (Par K)} (hl : ls[i]? = some l)
    (new : List K) (hn : (values p l).length = new.length) :
    ∃ r, assign p l new = some r ∧ Becomes p l r new ∧
      ∀ (k : Nat) (m : List (Par K)), ls[k]? = some m → (ls.set i r)[k]? = some (if k = i then r else m) := by
  obtain ⟨r, h1, h2⟩ := assign_becomes hp l new (by omega)
  rw [hn, List.take_length] at h2
  refine ⟨r, h1, h2, fun k m hm => ?_⟩
  have hi : i < ls.length := by
    by_contra hc
    rw [List.getElem?_eq_none (by omega)] at hl
    simp at hl
  by_cases hk : k = i
  · subst hk
    simp [List.getElem?_set_self hi]
  · rw [List.getElem?_set_ne (by omega), hm]
    simp [hk]

theorem mapM_get {α : Type} (ls : List α) (n : Nat) (h : n ≤ ls.length) : (List.range n).mapM (fun k => ls[k]?) = some (ls.take n) := by
  induction n with
  | zero => rfl
  | succ n ih =>
      rw [List.range_succ, List.mapM_append, ih (by omega)]
      have : ls[n]? = some ls[n] := List.getElem?_eq_getElem (by omega)
      have h2 : ls.take (n + 1) = ls.take n ++ [ls[n]] := by rw [List.take_add_one, this]; rfl
      rw [h2]
      simp only [List.mapM_cons, List.mapM_nil, this]
      rfl

theorem mapM_first {α : Type} (ls : List α) (a : α) (h : ls[0]? = some a) (n : Nat) :
    (List.range n).mapM (fun _ => ls[0]?) = some (List.replicate n a) := by
  induction n with
  | zero => rfl
  | succ n ih =>
      rw [List.range_succ, List.mapM_append, ih, h]
      simp [List.replicate_succ']

theorem run_static {s : St K} (hd : s.dynamic = false) {l : List (Par K)} (h : s.levels[0]? = some l) (n : Nat) :
    run n s = some (List.replicate n l, { s with index := if n = 0 then s.index else n - 1 }) := by
  simp only [run, hd, Bool.false_eq_true, if_false, mapM_first _ _ h, Option.map_some]

theorem run_dynamic {s : St K} (hd : s.dynamic = true) (hn : s.levels ≠ []) :
    run s.levels.length s = some (s.levels, { s with index := s.levels.length - 1 }) := by
  have : s.levels.length ≠ 0 := by simpa using hn
  simp only [run, hd, if_true, mapM_get _ _ (Nat.le_refl _), List.take_length, Option.map_some, this, if_false]

theorem named_byLabel (name : String) : ByLabel (named name : Par K → Bool) := fun _ _ => rfl

theorem named_isGen : (named "datagen" : Par K → Bool) = IsGen := by
  funext q
  simp only [named, IsGen, beq_eq_decide]

/-- Are the names of two levels the same. -/
theorem any_frame {p : Par K → Bool} {name : String} {l r : List (Par K)} (h : frame p r = frame p l) :
    r.any (fun q => q.name == name) = l.any (fun q => q.name == name) := by
  have h1 : r.map Par.name = l.map Par.name := by
    have := congrArg (List.map (fun x : String × Nat × Nat × Option (List K) => x.1)) h
    simpa [frame, Function.comp_def] using this
  have h2 : ∀ x : List (Par K), x.any (fun q => q.name == name) = (x.map Par.name).any (· == name) := by
    intro x
    simp [List.any_map, Function.comp_def]
  rw [h2, h2, h1]

/-! ## C194 -/

/-- C194, partial, if no parameter changes in time: every step of the run that generates the data sees one for "datagen", afterwards it is zero,
and nothing else changes.  Missing: parameters that change in time (`C194_generate_violated`). -/
theorem C194_generate_partial [Zero K] [One K] {s : St K} (hd : s.dynamic = false) {l : List (Par K)} (hl : s.levels = [l])
    (hv : (values IsGen l).length = 1) (hq : l.any (fun q => q.name == "datagen") = true) (n : Nat) :
    ∃ l1 l2 s', generate n s = some (List.replicate n l1, s') ∧ s'.levels = [l2] ∧ Becomes IsGen l l1 [1] ∧
      Becomes IsGen l l2 [0] := by
  rw [← named_isGen] at hv
  simp only [← named_isGen]
  obtain ⟨l1, a1, a2⟩ := assign_becomes (named_byLabel "datagen") l [1] (by rw [hv]; simp)
  rw [hv] at a2
  have hv1 : (values (named "datagen") l1).length = 1 := by rw [a2.1]; simp
  obtain ⟨l2, b1, b2⟩ := assign_becomes (named_byLabel "datagen") l1 [0] (by rw [hv1]; simp)
  rw [hv1] at b2
  have hq1 : l1.any (fun q => q.name == "datagen") = true := by rw [any_frame a2.2]; exact hq
  have h1 : setCurrent (named "datagen") [1] s = some { s with levels := [l1] } := by
    simp [setCurrent, hd, hl, a1]
  refine ⟨l1, l2, { s with levels := [l2], index := if n = 0 then s.index else n - 1 }, ?_, rfl, ?_, ?_⟩
  · have hi : isParameter "datagen" s = true := by simp only [isParameter, hl, List.getElem?_cons_zero]; exact hq
    have hr := run_static (s := { s with levels := [l1] }) hd (l := l1) rfl n
    simp only [generate, hi, if_true, h1, Option.bind_some, hr]
    have hi2 : isParameter "datagen" ({ s with levels := [l1], index := if n = 0 then s.index else n - 1 } : St K) = true := by
      simp only [isParameter, List.getElem?_cons_zero]; exact hq1
    rw [if_pos hi2]
    simp [setCurrent, hd, b1]
  · simpa using a2
  · exact ⟨by simpa using b2.1, b2.2.trans a2.2⟩

/-- C194 is false with a parameter that changes in time: "datagen" is one only in the current level `i` of the run that generates the data, all
other steps see what it was; afterwards it is zero only in the last level, and stays one in level `i`. -/
theorem C194_generate_violated [Zero K] [One K] {s : St K} (hd : s.dynamic = true) (hi : s.index < s.levels.length)
    (hu : Uniform IsGen 1 s.levels) (hq : ∀ l ∈ s.levels, l.any (fun q => q.name == "datagen") = true) :
    ∃ seen s', generate s.levels.length s = some (seen, s') ∧ seen.length = s.levels.length ∧
      (∀ k l, s.levels[k]? = some l → ∃ m, seen[k]? = some m ∧ if k = s.index then Becomes IsGen l m [1] else m = l) ∧
      (∀ k l, s.levels[k]? = some l → ∃ m, s'.levels[k]? = some m ∧
        if k = s.levels.length - 1 then Becomes IsGen l m [0]
        else if k = s.index then Becomes IsGen l m [1] else m = l) := by
  rw [← named_isGen] at hu
  simp only [← named_isGen]
  have hget : s.levels[s.index]? = some s.levels[s.index] := List.getElem?_eq_getElem hi
  have hmem : s.levels[s.index] ∈ s.levels := List.getElem_mem hi
  obtain ⟨l1, a1, a2, a3⟩ := set_level (named_byLabel "datagen") hget [1] (by rw [hu _ hmem]; rfl)
  have h0 : ∃ l0, s.levels[0]? = some l0 ∧ l0 ∈ s.levels :=
    ⟨s.levels[0], List.getElem?_eq_getElem (by omega), List.getElem_mem _⟩
  obtain ⟨l0, h01, h02⟩ := h0
  have hp : isParameter "datagen" s = true := by simp only [isParameter, h01]; exact hq l0 h02
  have h1 : setCurrent (named "datagen") [1] s = some { s with levels := s.levels.set s.index l1 } := by
    simp [setCurrent, hd, hget, a1]
  have hq1 : l1.any (fun q => q.name == "datagen") = true := by rw [any_frame a2.2]; exact hq _ hmem
  have hne : s.levels.set s.index l1 ≠ [] := by
    intro h
    have := congrArg List.length h
    rw [List.length_set] at this
    simp at this
    rw [this] at hi
    simp at hi
  have hr := run_dynamic (s := { s with levels := s.levels.set s.index l1 }) hd hne
  simp only [List.length_set] at hr
  have hp2 : isParameter "datagen" ({ s with levels := s.levels.set s.index l1, index := s.levels.length - 1 } : St K) = true := by
    have := a3 0 l0 h01
    simp only [isParameter, this]
    split
    · exact hq1
    · exact hq l0 h02
  have hlast : s.levels.length - 1 < s.levels.length := by omega
  have hgl : s.levels[s.levels.length - 1]? = some s.levels[s.levels.length - 1] := List.getElem?_eq_getElem hlast
  have hgl2 := a3 _ _ hgl
  have hlen : (values (named "datagen") (if s.levels.length - 1 = s.index then l1 else s.levels[s.levels.length - 1])).length = 1 := by
    split
    · rw [a2.1]; rfl
    · exact hu _ (List.getElem_mem _)
  obtain ⟨l2, b1, b2, b3⟩ := set_level (named_byLabel "datagen") hgl2 [0] (by rw [hlen]; rfl)
  refine ⟨s.levels.set s.index l1, { s with levels := (s.levels.set s.index l1).set (s.levels.length - 1) l2, index := s.levels.length - 1 },
    ?_, by simp, ?_, ?_⟩
  · simp only [generate, hp, if_true, h1, Option.bind_some, hr]
    rw [if_pos hp2]
    simp only [setCurrent, hd, if_true, hgl2, b1, Option.map_some]
  · intro k l hl
    refine ⟨_, a3 k l hl, ?_⟩
    by_cases hk : k = s.index
    · subst hk
      have : l = s.levels[s.index] := by rw [hget] at hl; exact (Option.some.inj hl).symm
      simp only [if_true, this]
      exact a2
    · simp [hk]
  · intro k l hl
    refine ⟨_, b3 k _ (a3 k l hl), ?_⟩
    by_cases hk : k = s.levels.length - 1
    · subst hk
      have : l = s.levels[s.levels.length - 1] := by rw [hgl] at hl; exact (Option.some.inj hl).symm
      simp only [if_true]
      refine ⟨b2.1, b2.2.trans ?_⟩
      split
      · rename_i he
        rw [a2.2, this]
        simp [he]
      · rw [this]
    · simp only [hk, if_false]
      by_cases hk2 : k = s.index
      · subst hk2
        have : l = s.levels[s.index] := by rw [hget] at hl; exact (Option.some.inj hl).symm
        simp only [if_true, this]
        exact a2
      · simp [hk2]

/-- Part of C194: without a parameter "datagen" in the first level, in particular without scalar parameters at all, the data is that of an ordinary
run and no parameter changes. -/
theorem C194_absent [Zero K] [One K] (s : St K) (n : Nat) :
    (isParameter "datagen" s = true ↔ ∃ l q, s.levels.head? = some l ∧ q ∈ l ∧ q.name = "datagen") ∧
    ((∀ l q, s.levels.head? = some l → q ∈ l → q.name ≠ "datagen") →
      generate n s = run n s ∧ ∀ r, generate n s = some r → r.2.levels = s.levels) := by
  have hiff : ∀ t : St K, isParameter "datagen" t = true ↔ ∃ l q, t.levels.head? = some l ∧ q ∈ l ∧ q.name = "datagen" := by
    intro t
    unfold isParameter
    rw [List.head?_eq_getElem?]
    cases h : t.levels[0]? with
    | none => simp
    | some l => simp
  refine ⟨hiff s, fun h => ?_⟩
  have hno : ∀ t : St K, t.levels = s.levels → isParameter "datagen" t = false := by
    intro t ht
    cases hb : isParameter "datagen" t with
    | false => rfl
    | true =>
        obtain ⟨l, q, h1, h2, h3⟩ := (hiff t).mp hb
        rw [ht] at h1
        exact absurd h3 (h l q h1 h2)
  have hrun : ∀ r, run n s = some r → r.2.levels = s.levels := by
    intro r hr
    unfold run at hr
    obtain ⟨a, _, rfl⟩ := Option.map_eq_some_iff.mp hr
    rfl
  have hg : generate n s = run n s := by
    simp only [generate, hno s rfl, Bool.false_eq_true, if_false, Option.bind_some]
    cases hr : run n s with
    | none => rfl
    | some r => simp [hno r.2 (hrun r hr)]
  exact ⟨hg, fun r hr => hrun r (by rw [← hg]; exact hr)⟩

/-- C194 is false for a "datagen" with more than one value: its second value is taken from outside of the list of new values. -/
theorem C194_size_violated [Zero K] [One K] {s : St K} {l : List (Par K)} (hl : s.levels[if s.dynamic then s.index else 0]? = some l)
    (hp : isParameter "datagen" s = true) {q : Par K} {qs : List (Par K)} (hq : l = q :: qs) (hn : q.name = "datagen")
    (h2 : 1 < q.vals.length) (n : Nat) : generate n s = none := by
  have : assign (named "datagen") l [1] = none := by
    have h : ¬ q.vals.length ≤ ([1] : List K).length := by simp; omega
    simp [hq, assign, named, hn, h]
    intro h'
    omega
  simp only [generate, hp, if_true, setCurrent, hl, this]
  rfl

/-- Part of C194: if no parameter changes in time every step of the run of a sample sees the values of this sample. -/
theorem C194_samples_partial {p : Par K → Bool} (hp : ByLabel p) (n m : Nat) (vs : List (List K)) (hv : ∀ v ∈ vs, v.length = m)
    (s : St K) (hd : s.dynamic = false) {l : List (Par K)} (hl : s.levels = [l]) (hm : (values p l).length = m) (first : Bool) :
    ∃ rs : List (List (Par K)), samples (if first then setFirst p else setCurrent p) n vs s = some (rs.map (List.replicate n)) ∧
      List.Forall₂ (fun r v => Becomes p l r v) rs vs := by
  induction vs generalizing s l with
  | nil => exact ⟨[], rfl, List.Forall₂.nil⟩
  | cons v vs ih =>
      have hlen := hv v (by simp)
      obtain ⟨r, h1, h2⟩ := assign_becomes hp l v (by omega)
      rw [hm, ← hlen, List.take_length] at h2
      have hs : (if first then setFirst p else setCurrent p) v s = some { s with levels := [r] } := by
        cases first <;> simp [setFirst, setCurrent, hd, hl, h1]
      have hrun := run_static (s := { s with levels := [r] }) hd (l := r) rfl n
      obtain ⟨rs, e1, e2⟩ := ih (fun x hx => hv x (by simp [hx])) { s with levels := [r], index := if n = 0 then s.index else n - 1 } hd
        (l := r) rfl (by rw [h2.1, hlen])
      refine ⟨r :: rs, ?_, ?_⟩
      · simp only [samples, hs, Option.bind_some, hrun, e1, Option.map_some, List.map_cons]
      · refine List.Forall₂.cons h2 (e2.imp (fun a b hab => ?_))
        exact ⟨hab.1, hab.2.trans h2.2⟩

/-- C194 is false for samples with a parameter that changes in time: for samples set by the number of the type, as in a study of uncertainty, only the
first step sees the sample, all later steps see the initial values. -/
theorem C194_first_violated {p : Par K → Bool} (hp : ByLabel p) (m : Nat) (vs : List (List K)) (hv : ∀ v ∈ vs, v.length = m)
    (s : St K) (hd : s.dynamic = true) {l : List (Par K)} {ls : List (List (Par K))} (hl : s.levels = l :: ls) (hm : (values p l).length = m) :
    ∃ rs : List (List (Par K)), samples (setFirst p) (ls.length + 1) vs s = some (rs.map (· :: ls)) ∧
      List.Forall₂ (fun r v => Becomes p l r v) rs vs := by
  induction vs generalizing s l with
  | nil => exact ⟨[], rfl, List.Forall₂.nil⟩
  | cons v vs ih =>
      have hlen := hv v (by simp)
      obtain ⟨r, h1, h2⟩ := assign_becomes hp l v (by omega)
      rw [hm, ← hlen, List.take_length] at h2
      have hs : setFirst p v s = some { s with levels := r :: ls } := by
        simp [setFirst, hl, h1]
      have hrun := run_dynamic (s := { s with levels := r :: ls }) hd (by simp)
      simp only [List.length_cons] at hrun
      obtain ⟨rs, e1, e2⟩ := ih (fun x hx => hv x (by simp [hx])) { s with levels := r :: ls, index := ls.length + 1 - 1 } hd
        (l := r) rfl (by rw [h2.1, hlen])
      refine ⟨r :: rs, ?_, ?_⟩
      · simp only [samples, hs, Option.bind_some, hrun, e1, Option.map_some, List.map_cons]
      · refine List.Forall₂.cons h2 (e2.imp (fun a b hab => ?_))
        exact ⟨hab.1, hab.2.trans h2.2⟩

/-- C194 is false for samples set by the name of the type, as in stochastic optimisation: after a run (current level the last one) a sample is
seen by the last step only. -/
theorem C194_last_violated {p : Par K → Bool} (hp : ByLabel p) (m : Nat) (vs : List (List K)) (hv : ∀ v ∈ vs, v.length = m)
    (s : St K) (hd : s.dynamic = true) {l : List (Par K)} {ls : List (List (Par K))} (hl : s.levels = ls ++ [l]) (hi : s.index = ls.length)
    (hm : (values p l).length = m) :
    ∃ rs : List (List (Par K)), samples (setCurrent p) (ls.length + 1) vs s = some (rs.map (fun r => ls ++ [r])) ∧
      List.Forall₂ (fun r v => Becomes p l r v) rs vs := by
  induction vs generalizing s l with
  | nil => exact ⟨[], rfl, List.Forall₂.nil⟩
  | cons v vs ih =>
      have hlen := hv v (by simp)
      obtain ⟨r, h1, h2⟩ := assign_becomes hp l v (by omega)
      rw [hm, ← hlen, List.take_length] at h2
      have hs : setCurrent p v s = some { s with levels := ls ++ [r] } := by
        simp [setCurrent, hd, hl, hi, h1]
      have hrun := run_dynamic (s := { s with levels := ls ++ [r] }) hd (by simp)
      simp only [List.length_append, List.length_cons, List.length_nil, Nat.zero_add] at hrun
      obtain ⟨rs, e1, e2⟩ := ih (fun x hx => hv x (by simp [hx])) { s with levels := ls ++ [r], index := ls.length + 1 - 1 } hd
        (l := r) rfl (by simp) (by rw [h2.1, hlen])
      refine ⟨r :: rs, ?_, ?_⟩
      · simp only [samples, hs, Option.bind_some, hrun, e1, Option.map_some, List.map_cons]
      · refine List.Forall₂.cons h2 (e2.imp (fun a b hab => ?_))
        exact ⟨hab.1, hab.2.trans h2.2⟩

/-! ## Cases -/

/-- A level with "datagen", and a stochastic parameter. [case] -/
def exLevel (d a : Int) : List (Par Int) := [⟨"datagen", 0, [d]⟩, ⟨"a", 2, [a]⟩]

/-- Three steps, "datagen" is one in the input: the data is right, the inversion sees one, one and zero. -/
example : (generate 3 (⟨true, List.replicate 3 (exLevel 1 7), 0⟩ : St Int)).map (fun r => (r.1, r.2.levels, r.2.index)) =
    some (List.replicate 3 (exLevel 1 7), [exLevel 1 7, exLevel 1 7, exLevel 0 7], 2) := by decide +kernel

/-- "datagen" is zero in the input: the data is generated with one in the first step only. -/
example : (generate 3 (⟨true, List.replicate 3 (exLevel 0 7), 0⟩ : St Int)).map (fun r => (r.1, r.2.levels)) =
    some ([exLevel 1 7, exLevel 0 7, exLevel 0 7], [exLevel 1 7, exLevel 0 7, exLevel 0 7]) := by decide +kernel

/-- Nothing changes in time. -/
example : (generate 3 (⟨false, [exLevel 5 7], 0⟩ : St Int)).map (fun r => (r.1, r.2.levels)) =
    some (List.replicate 3 (exLevel 1 7), [exLevel 0 7]) := by decide +kernel

/-- Two samples by the number of the type, and by its name. -/
example : samples (setFirst (fun q => q.type == 2)) 2 [[3], [4]] (⟨true, List.replicate 2 (exLevel 0 7), 0⟩ : St Int) =
      some [[exLevel 0 3, exLevel 0 7], [exLevel 0 4, exLevel 0 7]] ∧
    samples (setCurrent (fun q => q.type == 2)) 2 [[3], [4]] (⟨true, List.replicate 2 (exLevel 0 7), 0⟩ : St Int) =
      some [[exLevel 0 3, exLevel 0 7], [exLevel 0 3, exLevel 0 4]] := by decide +kernel

/-- The hypotheses hold. -/
example : ByLabel (fun q : Par Int => q.type == 2) ∧ (values (fun q => q.type == 2) (exLevel 0 7)).length = 1 ∧
    (values IsGen (exLevel 0 7)).length = 1 ∧ (exLevel 0 7).any (fun q => q.name == "datagen") = true :=
  ⟨fun _ _ => rfl, by decide, by decide, by decide⟩

/-- No "datagen", and no scalar parameters. -/
example : (generate 2 (⟨false, [[⟨"a", 2, [7]⟩]], 0⟩ : St Int)).map (fun r => (r.1.length, r.2.levels)) = some (2, [[⟨"a", 2, [7]⟩]]) ∧
    isParameter "datagen" (⟨false, [], 0⟩ : St Int) = false := by decide +kernel

/-- A "datagen" with two values. -/
example : generate 1 (⟨false, [[⟨"datagen", 0, [5, 6]⟩]], 0⟩ : St Int) = none := by decide +kernel

end MrHyDE.Param.Levels
