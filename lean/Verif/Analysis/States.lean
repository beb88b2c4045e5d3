import Verif.Analysis.Files
import Verif.Storage.Model
import Verif.Time.Model

/-!
# An adjoint run that takes up the states of an earlier run

`writeStateToFile`, `readStateVectorFromFile` (src/interfaces/linear_algebra/linearAlgebraInterface_util.hpp),
`PostprocessManager::record`, `setForwardStates` (src/managers/postprocess/postprocessManager_util.hpp),
`SolverManager::recoverForwardStateFromFile`, `setForwardStates` (src/managers/solver/solverManager_util.hpp), the
adjoint analysis in `AnalysisManager::run` (src/managers/analysis/analysisManager_solve.hpp) and the loop of
`transientSolver` over the stored states (src/managers/solver/solverManager_solvers.hpp).

One process: the vector with the entries shared with neighbours is the vector itself.  `none` is an exception or
undefined behaviour.
-/

namespace MrHyDE.Analysis

set_option linter.unusedSectionVars false

open MrHyDE.Storage (Stg Res)

/-! ## Model -/

/-- Name of the file of a state, linearAlgebraInterface_util.hpp:343, solverManager_util.hpp:397. -/
def stateName (base : String) (set step : Nat) : String :=
  base ++ "." ++ toString set ++ "." ++ toString step ++ ".mm"

variable {K W : Type}

/-- `writeStateToFile` for the sets from number `set` on, linearAlgebraInterface_util.hpp:341-346. -/
def writeState (w : Words K W) (base : String) (step : Nat) : Nat → List (List K) → Disk K W → Disk K W
  | _, [], d => d
  | set, v :: vs, d => writeState w base step (set + 1) vs (d.put (stateName base set step) (.dense (v.map w.lib)))

/-- The files of a forward run whose records, from step number `step` on, are `hist` (one list of vectors, a vector for
each physics set, for each record): postprocessManager_util.hpp:67-69, called at solverManager_solvers.hpp:62 with
step 0 and at 164 with the steps 1, 2, …; a steady run has one record with step 0 (29). -/
def writeRun (w : Words K W) (base : String) : Nat → List (List (List K)) → Disk K W → Disk K W
  | _, [], d => d
  | step, s :: hist, d => writeRun w base (step + 1) hist (writeState w base step 0 s d)

/-- `readStateVectorFromFile`, linearAlgebraInterface_util.hpp:373-378, for a set with `m` unknowns. -/
def readState (d : Disk K W) (base : String) (m set step : Nat) : Option (List K) :=
  match d (stateName base set step) with
  | some (.dense v) => if v.length = m then some v else none
  | _ => none

/-- The loops of `recoverForwardStateFromFile`, solverManager_util.hpp:393-403, from set number `set` on; the entries
of the list are `numsteps[set]` and the number of unknowns of the set. -/
def readStates (d : Disk K W) (base : String) : Nat → List (Nat × Nat) → Option (List (List (List K)))
  | _, [] => some []
  | set, (n, m) :: ns => do
    let a ← (List.range n).mapM (readState d base m set)
    let r ← readStates d base (set + 1) ns
    return a :: r

/-- `numsteps[set]` as set by `setBackwardDifference`, solverManager_setup.hpp:443-513: one less than the number of
weights of the multistep formula, or 1 in a steady run. -/
def numStepsOf (transient : Bool) (order : Nat) : Nat :=
  if transient then (Time.bdfWeights (K := ℚ) order).length - 1 else 1

section Times

variable [Field K] [LinearOrder K]

/-- The loop that makes up the times, solverManager_util.hpp:375-380, after `initial_time` has been pushed; `none`:
not finished within `fuel` tests. -/
def timesLoop (stop dt : K) : Nat → K → Option (List K)
  | 0, _ => none
  | fuel + 1, c => if c < stop then (timesLoop stop dt fuel (c + dt)).map ((c + dt) :: ·) else some []

/-- The times of `setForwardStates`, solverManager_util.hpp:373-380. -/
def timesOf (t₀ final dt : K) (fuel : Nat) : Option (List K) :=
  (timesLoop (final - 1 / 1000000 * final) dt fuel t₀).map (t₀ :: ·)

/-- Storing the states of one set, postprocessManager_util.hpp:1318-1320: `times[t]` past the end is undefined
behaviour. -/
def storeSet : List (List K) → List K → Stg K (List K) → Option (Stg K (List K))
  | [], _, s => some s
  | _ :: _, [], _ => none
  | v :: vs, t :: ts, s => storeSet vs ts (s.store v t 0)

/-- `PostprocessManager::setForwardStates` (1316-1322) after `resetSolutions` (1129-1133),
postprocessManager_util.hpp; a set without storage is undefined behaviour. -/
def storeSets : List (List (List K)) → List K → List (Stg K (List K)) → Option (List (Stg K (List K)))
  | [], _, ss => some (ss.map Stg.reset)
  | _ :: _, _, [] => none
  | f :: fs, ts, s :: ss => do
    let a ← storeSet f ts s.reset
    let r ← storeSets fs ts ss
    return a :: r

/-- `recoverForwardStateFromFile`, solverManager_util.hpp:389-405 with 370-383. -/
def recover (base : String) (ns : List (Nat × Nat)) (t₀ final dt : K) (fuel : Nat) (d : Disk K W)
    (ss : List (Stg K (List K))) : Option (List (Stg K (List K))) := do
  let f ← readStates d base 0 ns
  let ts ← timesOf t₀ final dt fuel
  storeSets f ts ss

/-- The analysis types for which `record` keeps the states, postprocessManager_construct.hpp:138-142. -/
def keepsStates (type : String) : Bool :=
  type == "forward+adjoint" || type == "ROL" || type == "ROL2" || type == "ROLStoch" || type == "ROL_SIMOPT" ||
    type == "HDSA" || type == "HDSAStoch"

/-- The effect on the storage of one set of the records of a forward run, postprocessManager_util.hpp:61-65. -/
def keep (type : String) (recs : List (List K × K)) (s : Stg K (List K)) : Stg K (List K) :=
  if keepsStates type then recs.foldl (fun a r => a.store r.1 r.2 0) s else s

/-- How the adjoint analysis gets the states of its first set, analysisManager_solve.hpp:42-58; `recs` are the records
of the forward run it would make itself. -/
def adjointStates (kind base : String) (ns : List (Nat × Nat)) (t₀ final dt : K) (fuel : Nat) (d : Disk K W)
    (recs : List (List K × K)) (ss : List (Stg K (List K))) : Option (Stg K (List K)) :=
  if kind = "file" then (recover base ns t₀ final dt fuel d ss).bind (·[0]?)
  else if kind = "checkpointing" then none
  else if kind = "recompute" then (ss[0]?).map (keep "adjoint" recs)
  else none

/-- The states and their predecessors the adjoint loop visits, last step first, solverManager_solvers.hpp:226-250:
`getTotalTimes(0)-1` steps; no list of times is undefined behaviour, an empty one gives a huge count whose first
extraction fails (243-246). -/
def visits {D : Type} (s : Stg K D) : Option (List (D × D)) :=
  match s.times[0]? with
  | none => none
  | some ts =>
    if ts.length = 0 then none
    else (List.range (ts.length - 1)).mapM fun it =>
      match s.extractSlot (ts.length - 1 - it) 0, s.extractSlot (ts.length - 1 - it - 1) 0 with
      | .found u, .found v => some (u, v)
      | _, _ => none

end Times

/-- The gradient of `adjointSolve` (analysisManager_solve.hpp:140-150: it starts from zero) with the contribution of
each visited step added, solverManager_solvers.hpp:270; `contrib` stands for the adjoint solve and
`computeSensitivities`. -/
def gradientOf {G D : Type} [AddCommMonoid G] (contrib : D × D → G) (vs : List (D × D)) : G :=
  vs.foldl (fun g v => g + contrib v) 0

/-! ## Names -/

theorem stateName_inj {base base' : String} {set set' step step' : Nat}
    (h : stateName base set step = stateName base' set' step') : base = base' ∧ set = set' ∧ step = step' := by
  unfold stateName at h
  obtain ⟨h1, h2⟩ := numbered_inj h
  have h3 : base ++ "." ++ toString set ++ "" = base' ++ "." ++ toString set' ++ "" := by
    rw [String.append_empty, String.append_empty]; exact h1
  obtain ⟨h4, h5⟩ := numbered_inj h3
  exact ⟨h4, h5, h2⟩

theorem state_ne_field (base base' : String) (set step t : Nat) : stateName base set step ≠ fieldName base' t := by
  intro h
  have e : fieldName base' t = (base' ++ ".field") ++ "." ++ toString t ++ ".mm" := by
    unfold fieldName
    rw [show base' ++ ".field." = (base' ++ ".field") ++ "." by rw [String.append_assoc]; congr 1]
  rw [e] at h
  unfold stateName at h
  have h1 := (numbered_inj h).1
  have h2 := congrArg String.toList h1
  simp only [String.toList_append] at h2
  have hl := congrArg List.getLast? h2
  have e1 : ".field".toList = ['.', 'f', 'i', 'e', 'l'] ++ ['d'] := by decide
  rw [e1, getLast?_suffix] at hl
  have hne : (toString set).toList ≠ [] := by
    rw [toString_nat]; exact Nat.toDigits_ne_nil
  rw [List.getLast?_append_of_ne_nil _ hne] at hl
  have hm := List.mem_of_getLast? hl
  exact absurd (isDigit_toString set 'd' hm) (by decide)

/-- **C140, names.**  The files of different runs, sets and steps have different names, and none is the name of a file
of parameters. -/
theorem C140_names (base base' : String) (set set' step step' t : Nat) :
    (stateName base set step = stateName base' set' step' ↔ base = base' ∧ set = set' ∧ step = step') ∧
      stateName base set step ≠ fieldName base' t ∧ stateName base set step ≠ scalarName base' t := by
  refine ⟨⟨stateName_inj, fun h => by rw [h.1, h.2.1, h.2.2]⟩, state_ne_field _ _ _ _ _, ?_⟩
  intro h
  have h' := congrArg (fun s => s.toList.getLast?) h
  simp only [scalarName, stateName, String.toList_append] at h'
  have e1 : ".dat".toList = ['.', 'd', 'a'] ++ ['t'] := by decide
  have e2 : ".mm".toList = ['.', 'm'] ++ ['m'] := by decide
  rw [e1, e2, getLast?_suffix, getLast?_suffix] at h'
  exact absurd h' (by decide)

example : stateName "fwdsoln" 1 12 = "fwdsoln.1.12.mm" := by decide +kernel

/-! ## What the files hold -/

theorem writeState_other (w : Words K W) (base : String) (step : Nat) (n : String) : ∀ (vs : List (List K)) (set : Nat)
    (d : Disk K W), (∀ k, set ≤ k → k < set + vs.length → stateName base k step ≠ n) →
    writeState w base step set vs d n = d n
  | [], _, _, _ => rfl
  | v :: vs, set, d, h => by
    rw [writeState, writeState_other w base step n vs (set + 1) _ (fun k h1 h2 => h k (by omega) (by simp; omega))]
    simp [Disk.put, (h set le_rfl (by simp)).symm]

theorem writeState_at (w : Words K W) (base : String) (step : Nat) : ∀ (vs : List (List K)) (set : Nat)
    (d : Disk K W) (k : Nat) (hk : k < vs.length),
    writeState w base step set vs d (stateName base (set + k) step) = some (.dense (vs[k].map w.lib))
  | v :: vs, set, d, 0, _ => by
    rw [writeState, Nat.add_zero, writeState_other w base step _ vs (set + 1) _ (fun k h1 _ h3 => by
      have := (stateName_inj h3).2.1; omega)]
    simp [Disk.put]
  | v :: vs, set, d, k + 1, hk => by
    rw [writeState, show set + (k + 1) = (set + 1) + k by omega, writeState_at w base step vs (set + 1) _ k
      (by simpa using hk)]
    simp

theorem writeRun_other (w : Words K W) (base : String) (n : String) : ∀ (hist : List (List (List K))) (step : Nat)
    (d : Disk K W), (∀ set k, step ≤ k → k < step + hist.length → stateName base set k ≠ n) →
    writeRun w base step hist d n = d n
  | [], _, _, _ => rfl
  | s :: hist, step, d, h => by
    rw [writeRun, writeRun_other w base n hist (step + 1) _ (fun set k h1 h2 => h set k (by omega) (by simp; omega)),
      writeState_other w base step n s 0 d (fun k _ _ => h k step le_rfl (by simp))]

theorem writeRun_at (w : Words K W) (base : String) : ∀ (hist : List (List (List K))) (step : Nat) (d : Disk K W)
    (k : Nat) (hk : k < hist.length) (set : Nat) (hs : set < hist[k].length),
    writeRun w base step hist d (stateName base set (step + k)) = some (.dense (hist[k][set].map w.lib))
  | s :: hist, step, d, 0, _, set, hs => by
    rw [writeRun, Nat.add_zero, writeRun_other w base _ hist (step + 1) _ (fun set' k h1 _ h3 => by
      have := (stateName_inj h3).2.2; omega)]
    have := writeState_at w base step s 0 d set (by simpa using hs)
    simpa using this
  | s :: hist, step, d, k + 1, hk, set, hs => by
    rw [writeRun, show step + (k + 1) = (step + 1) + k by omega]
    simpa using writeRun_at w base hist (step + 1) _ k (by simpa using hk) set (by simpa using hs)

/-- **C140, files of a run.**  Whatever was on the disk, after a forward run that writes its states every record can be
read back: the vector of every physics set at every recorded step, and files of other names are untouched. -/
theorem C140_files (w : Words K W) (base : String) (hist : List (List (List K))) (d : Disk K W) :
    (∀ (k : Nat) (hk : k < hist.length) (set : Nat) (hs : set < hist[k].length),
      readState (writeRun w base 0 hist d) base hist[k][set].length set k = some (hist[k][set].map w.lib)) ∧
    ∀ base' set step, base' ≠ base ∨ hist.length ≤ step →
      writeRun w base 0 hist d (stateName base' set step) = d (stateName base' set step) := by
  constructor
  · intro k hk set hs
    have := writeRun_at w base hist 0 d k hk set hs
    rw [Nat.zero_add] at this
    simp [readState, this]
  · intro base' set step h
    apply writeRun_other
    intro set' k _ hk he
    obtain ⟨h1, _, h3⟩ := stateName_inj he
    rcases h with h | h
    · exact h h1.symm
    · omega

/-! ## What a later adjoint run takes up -/

section Recover

variable [Field K] [LinearOrder K] [IsStrictOrderedRing K]

theorem timesLoop_get (stop dt : K) : ∀ (fuel : Nat) (c : K) (l : List K), timesLoop stop dt fuel c = some l →
    ∀ (k : Nat) (t : K), l[k]? = some t → t = c + (k + 1) * dt
  | 0, c, l, h, k, t, ht => by simp [timesLoop] at h
  | fuel + 1, c, l, h, k, t, ht => by
    rw [timesLoop] at h
    by_cases hc : c < stop
    · rw [if_pos hc] at h
      obtain ⟨l', hl', rfl⟩ := Option.map_eq_some_iff.mp h
      cases k with
      | zero =>
        have : c + dt = t := by simpa using ht
        rw [← this]; push_cast; ring
      | succ k =>
        have := timesLoop_get stop dt fuel (c + dt) l' hl' k t (by simpa using ht)
        rw [this]; push_cast; ring
    · rw [if_neg hc] at h
      have : l = [] := (Option.some.inj h).symm
      subst this
      simp at ht

theorem timesOf_get {t₀ final dt : K} {fuel : Nat} {ts : List K} (h : timesOf t₀ final dt fuel = some ts) (k : Nat)
    (t : K) (ht : ts[k]? = some t) : t = t₀ + k * dt := by
  obtain ⟨l, hl, rfl⟩ := Option.map_eq_some_iff.mp h
  cases k with
  | zero =>
    have : t₀ = t := by simpa using ht
    rw [← this]; simp
  | succ k =>
    have := timesLoop_get _ dt fuel t₀ l hl k t (by simpa using ht)
    rw [this]; push_cast; ring

/-- A storage that has its list number 0 and no other. [specification, no code] -/
def OneList {D : Type} (s : Stg K D) (vs : List D) (ts : List K) : Prop := s.data = [vs] ∧ s.times = [ts]

theorem store_oneList {D : Type} {s : Stg K D} {vs : List D} {ts : List K} (h : OneList s vs ts) (v : D) (t : K) :
    OneList (s.store v t 0) (vs ++ [v]) (ts ++ [t]) := by
  obtain ⟨h1, h2⟩ := h
  simp [OneList, Stg.store, h1, h2]

theorem store_empty {D : Type} {s : Stg K D} (hd : s.data = []) (ht : s.times = []) (v : D) (t : K) :
    OneList (s.store v t 0) [v] [t] := by
  simp [OneList, Stg.store, hd, ht]

theorem storeSet_oneList : ∀ (f : List (List K)) (times : List K) (s : Stg K (List K)) (vs : List (List K))
    (ts : List K), OneList s vs ts → f.length ≤ times.length →
    ∃ s', storeSet f times s = some s' ∧ OneList s' (vs ++ f) (ts ++ times.take f.length)
  | [], times, s, vs, ts, h, _ => ⟨s, rfl, by simpa using h⟩
  | v :: f, [], s, vs, ts, h, hl => by simp at hl
  | v :: f, t :: times, s, vs, ts, h, hl => by
    obtain ⟨s', h1, h2⟩ := storeSet_oneList f times (s.store v t 0) _ _ (store_oneList h v t) (by simpa using hl)
    exact ⟨s', h1, by simpa using h2⟩

/-- **C140, one set.**  (partial: only as many states as the time integrator has history terms, not those of the whole
run.)  An adjoint run that takes up the files of an earlier forward run with one physics set, with the name, the number
of unknowns and the start of the earlier run, and at least as many records and times as history terms, holds exactly the
first records of the earlier run, in order, at the times `t₀ + k Δt`. -/
theorem C140_recover_partial (w : Words K W) (base : String) (hist : List (List (List K))) (d : Disk K W)
    (n m : Nat) (t₀ final dt : K) (fuel : Nat) (ts : List K) (hts : timesOf t₀ final dt fuel = some ts)
    (hn : 0 < n) (hnt : n ≤ ts.length) (hnh : n ≤ hist.length)
    (hm : ∀ s ∈ hist, ∃ v : List K, s = [v] ∧ v.length = m) (tol : K) :
    ∃ s, recover base [(n, m)] t₀ final dt fuel (writeRun w base 0 hist d) [Stg.empty tol] = some [s] ∧
      OneList s ((hist.take n).map fun r => (r.headD []).map w.lib) ((List.range n).map fun (k : Nat) => t₀ + (k : K) * dt) := by
  have hread : (List.range n).mapM (readState (writeRun w base 0 hist d) base m 0) =
      some ((hist.take n).map fun r => (r.headD []).map w.lib) := by
    have := mapM_range (readState (writeRun w base 0 hist d) base m 0)
      ((hist.take n).map fun r => (r.headD []).map w.lib) (by
        intro k hk
        have hk' : k < n ∧ k < hist.length := by simpa using hk
        obtain ⟨v, hv, hl⟩ := hm hist[k] (List.getElem_mem hk'.2)
        have hs : 0 < hist[k].length := by rw [hv]; simp
        have := (C140_files w base hist d).1 k hk'.2 0 hs
        simp only [hv, List.getElem_cons_zero, hl] at this
        rw [this]
        simp [hv])
    have hlen : ((hist.take n).map fun r => (r.headD []).map w.lib).length = n := by simp; omega
    rwa [hlen] at this
  obtain ⟨v0, f, hf⟩ : ∃ v0 f, (hist.take n).map (fun r => (r.headD []).map w.lib) = v0 :: f := by
    have hlen : ((hist.take n).map fun r => (r.headD []).map w.lib).length = n := by simp; omega
    cases hh : (hist.take n).map (fun r => (r.headD []).map w.lib) with
    | nil => rw [hh] at hlen; simp at hlen; omega
    | cons a b => exact ⟨a, b, rfl⟩
  obtain ⟨t1, ts', hts'⟩ : ∃ t1 ts', ts = t1 :: ts' := by
    cases ts with
    | nil => simp at hnt; omega
    | cons a b => exact ⟨a, b, rfl⟩
  have hlenf : f.length + 1 = n := by
    have := congrArg List.length hf
    simp at this; omega
  obtain ⟨s', h1, h2⟩ := storeSet_oneList f ts' ((Stg.empty tol).reset.store v0 t1 0) [v0] [t1]
    (store_empty rfl rfl v0 t1) (by rw [hts'] at hnt; simp at hnt; omega)
  refine ⟨s', ?_, ?_⟩
  · unfold recover
    simp only [readStates, hread, hf, hts, hts', Option.bind_eq_bind, Option.bind_some, Option.pure_def]
    simp only [storeSets, storeSet, h1, Option.bind_eq_bind, Option.bind_some, List.map_nil, Option.pure_def]
  · rw [hf]
    refine ⟨by simpa using h2.1, ?_⟩
    rw [h2.2]
    congr 1
    have htake : [t1] ++ ts'.take f.length = ts.take n := by
      rw [hts', ← hlenf]; simp
    rw [htake]
    apply List.ext_getElem?
    intro k
    by_cases hk : k < n
    · rw [List.getElem?_take_of_lt hk, List.getElem?_map, List.getElem?_range hk]
      have hk' : k < ts.length := by omega
      rw [List.getElem?_eq_getElem hk']
      have := timesOf_get hts k ts[k] (by simp)
      rw [this]; rfl
    · rw [List.getElem?_eq_none (by simp; omega), List.getElem?_eq_none (by simp; omega)]

theorem visits_oneList {D : Type} {s : Stg K D} {vs : List D} {ts : List K} (h : OneList s vs ts)
    (hl : vs.length = ts.length) (h0 : 0 < ts.length) :
    ∃ l, visits s = some l ∧ l.length = ts.length - 1 ∧
      ∀ (it : Nat) (_hit : it < ts.length - 1), l[it]? = some (vs[ts.length - 1 - it], vs[ts.length - 1 - it - 1]) := by
  obtain ⟨h1, h2⟩ := h
  let l := (List.range (ts.length - 1)).pmap (fun it (hit : it < ts.length - 1) =>
    (vs[ts.length - 1 - it]'(by omega), vs[ts.length - 1 - it - 1]'(by omega))) (by intro a ha; exact List.mem_range.mp ha)
  refine ⟨l, ?_, by simp [l], ?_⟩
  · unfold visits
    rw [h2]
    simp only [List.getElem?_cons_zero]
    rw [if_neg (by omega)]
    apply Param.mapM_option_eq
    · simp [l]
    · intro k x hx
      have hk : k < ts.length - 1 := by
        have := (List.getElem?_eq_some_iff.mp hx).1; simpa using this
      rw [List.getElem?_range hk] at hx
      have hx' : k = x := Option.some.inj hx
      subst hx'
      refine ⟨(vs[ts.length - 1 - k], vs[ts.length - 1 - k - 1]), ?_, ?_⟩
      · rw [List.getElem?_eq_getElem (by simp [l]; exact hk)]
        simp [l]
      · have a1 : ts.length - 1 - k < vs.length := by omega
        have a2 : ts.length - 1 - k - 1 < vs.length := by omega
        simp [Stg.extractSlot, h1, List.getElem?_eq_getElem a1, List.getElem?_eq_getElem a2]
  · intro it hit
    rw [List.getElem?_eq_getElem (by simp [l]; exact hit)]
    simp [l]

/-- **C140, states kept in memory.**  In an analysis that keeps the states (forward and adjoint in one run) the adjoint
loop visits every step of the forward run, from the last to the first, with the state at its end and the state at its
beginning. -/
theorem C140_memory (type : String) (hty : keepsStates type = true) (recs : List (List K × K)) (h0 : recs ≠ [])
    (tol : K) :
    ∃ l, visits (keep type recs (Stg.empty tol)) = some l ∧ l.length = recs.length - 1 ∧
      ∀ (it : Nat) (_hit : it < recs.length - 1),
        l[it]? = some (recs[recs.length - 1 - it].1, recs[recs.length - 1 - it - 1].1) := by
  have key : ∀ (rs : List (List K × K)) (s : Stg K (List K)) (vs : List (List K)) (ts : List K), OneList s vs ts →
      OneList (rs.foldl (fun a r => a.store r.1 r.2 0) s) (vs ++ rs.map Prod.fst) (ts ++ rs.map Prod.snd) := by
    intro rs
    induction rs with
    | nil => intro s vs ts h; simpa using h
    | cons r rs ih =>
      intro s vs ts h
      have := ih _ _ _ (store_oneList h r.1 r.2)
      simpa using this
  cases recs with
  | nil => exact absurd rfl h0
  | cons r rs =>
    have h1 := key rs ((Stg.empty tol).store r.1 r.2 0) [r.1] [r.2] (store_empty rfl rfl r.1 r.2)
    have h2 : keep type (r :: rs) (Stg.empty tol) =
        rs.foldl (fun a r => a.store r.1 r.2 0) ((Stg.empty tol).store r.1 r.2 0) := by
      simp [keep, hty]
    rw [h2]
    obtain ⟨l, e1, e2, e3⟩ := visits_oneList h1 (by simp) (by simp)
    refine ⟨l, e1, by simpa using e2, ?_⟩
    intro it hit
    have hit' : it < ([r.2] ++ rs.map Prod.snd).length - 1 := by simpa using hit
    rw [e3 it hit']
    have hm : ∀ (k : Nat) (hk : k < ([r.1] ++ rs.map Prod.fst).length) (hk' : k < (r :: rs).length),
        ([r.1] ++ rs.map Prod.fst)[k] = (r :: rs)[k].1 := by
      intro k hk hk'
      cases k with
      | zero => simp
      | succ k => simp
    have hlen : ([r.2] ++ rs.map Prod.snd).length = (r :: rs).length := by simp
    simp only [hlen] at hit' ⊢
    rw [hm _ _ (by omega), hm _ _ (by omega)]

/-- **C140, times.**  The times made up for states from files are equally spaced from the initial time on; they go on as long as the
last one is below the final time, up to a part of one millionth of the final time. -/
theorem C140_times {t₀ final dt : K} {fuel : Nat} {ts : List K} (h : timesOf t₀ final dt fuel = some ts) :
    ts ≠ [] ∧ (∀ (k : Nat) (t : K), ts[k]? = some t → t = t₀ + k * dt) ∧
    (∀ k, k + 1 < ts.length → t₀ + k * dt < final - final / 1000000) ∧
    ¬ t₀ + ((ts.length - 1 : Nat) : K) * dt < final - final / 1000000 := by
  have key : ∀ (fuel : Nat) (c : K) (l : List K), timesLoop (final - 1 / 1000000 * final) dt fuel c = some l →
      (∀ k < l.length, c + k * dt < final - final / 1000000) ∧ ¬ c + (l.length : K) * dt < final - final / 1000000 := by
    have e : final - 1 / 1000000 * final = final - final / 1000000 := by ring
    rw [e]
    intro fuel
    induction fuel with
    | zero => intro c l h; simp [timesLoop] at h
    | succ fuel ih =>
      intro c l h
      rw [timesLoop] at h
      by_cases hc : c < final - final / 1000000
      · rw [if_pos hc] at h
        obtain ⟨l', hl', rfl⟩ := Option.map_eq_some_iff.mp h
        obtain ⟨h1, h2⟩ := ih _ _ hl'
        constructor
        · intro k hk
          cases k with
          | zero => simpa using hc
          | succ k =>
            have := h1 k (by simpa using hk)
            have e2 : c + ((k + 1 : Nat) : K) * dt = c + dt + k * dt := by push_cast; ring
            rw [e2]; exact this
        · have e2 : c + (((c + dt) :: l').length : K) * dt = c + dt + (l'.length : K) * dt := by simp; ring
          rw [e2]; exact h2
      · rw [if_neg hc] at h
        have : l = [] := (Option.some.inj h).symm
        subst this
        exact ⟨fun k hk => absurd hk (by simp), by simpa using hc⟩
  refine ⟨?_, fun k t ht => timesOf_get h k t ht, ?_, ?_⟩ <;> obtain ⟨l, hl, rfl⟩ := Option.map_eq_some_iff.mp h
  · simp
  · intro k hk
    exact (key _ _ _ hl).1 k (by simpa using hk)
  · exact (key _ _ _ hl).2

/-- [case] Steps of one half up to one: the time one is reached. -/
example : timesOf (0 : ℚ) 1 (1 / 2) 10 = some [0, 1 / 2, 1] := by decide +kernel

/-- **C140, sets.**  States taken up from files are those of the files with the number of their set, for any number of sets. -/
theorem C140_sets (d : Disk K W) (base : String) : ∀ (ns : List (Nat × Nat)) (set : Nat) (r : List (List (List K))),
    readStates d base set ns = some r → r.length = ns.length ∧
    ∀ (i n m : Nat), ns[i]? = some (n, m) → ∃ vs, r[i]? = some vs ∧ vs.length = n ∧
      ∀ (k : Nat) (v : List K), vs[k]? = some v → readState d base m (set + i) k = some v
  | [], set, r, h => by
    simp only [readStates, Option.some.injEq] at h
    subst h
    exact ⟨rfl, by simp⟩
  | (n, m) :: ns, set, r, h => by
    simp only [readStates, Option.bind_eq_bind, Option.pure_def, Option.bind_eq_some_iff, Option.some.injEq] at h
    obtain ⟨a, ha, r', hr', rfl⟩ := h
    obtain ⟨h1, h2⟩ := C140_sets d base ns (set + 1) r' hr'
    refine ⟨by simp [h1], ?_⟩
    intro i n' m' hi
    cases i with
    | zero =>
      simp only [List.getElem?_cons_zero, Option.some.injEq, Prod.mk.injEq] at hi
      obtain ⟨rfl, rfl⟩ := hi
      have gen : ∀ (l : List Nat) (a : List (List K)), l.mapM (readState d base m set) = some a → a.length = l.length ∧
          ∀ (k : Nat) (v : List K), a[k]? = some v → ∃ j, l[k]? = some j ∧ readState d base m set j = some v := by
        intro l
        induction l with
        | nil => intro a h; simp only [List.mapM_nil, Option.pure_def, Option.some.injEq] at h; subst h; exact ⟨rfl, by simp⟩
        | cons j l ih =>
          intro a h
          simp only [List.mapM_cons, Option.bind_eq_bind, Option.pure_def, Option.bind_eq_some_iff, Option.some.injEq] at h
          obtain ⟨v0, hv0, a', ha', rfl⟩ := h
          obtain ⟨g1, g2⟩ := ih a' ha'
          refine ⟨by simp [g1], fun k v hk => ?_⟩
          cases k with
          | zero => simp only [List.getElem?_cons_zero, Option.some.injEq] at hk; subst hk; exact ⟨j, by simp, hv0⟩
          | succ k => simpa using g2 k v (by simpa using hk)
      obtain ⟨g1, g2⟩ := gen _ a ha
      refine ⟨a, by simp, by simpa using g1, fun k v hk => ?_⟩
      obtain ⟨j, hj, hv⟩ := g2 k v hk
      have hkl : k < n := by
        have := (List.getElem?_eq_some_iff.1 hk).1
        rw [g1, List.length_range] at this; exact this
      rw [List.getElem?_range hkl] at hj
      simp only [Option.some.injEq] at hj
      subst hj
      exact hv
    | succ i =>
      obtain ⟨vs, e1, e2, e3⟩ := h2 i n' m' (by simpa using hi)
      refine ⟨vs, by simpa using e1, e2, fun k v hk => ?_⟩
      have := e3 k v hk
      rwa [show set + 1 + i = set + (i + 1) by omega] at this

/-- [case] Two sets with one step each. -/
example : readStates (fun n => if n = stateName "b" 0 0 then some (.dense [(1 : ℚ)]) else if n = stateName "b" 1 0 then some (.dense [2, 3])
    else none : Disk ℚ ℚ) "b" 0 [(1, 1), (1, 2)] = some [[[1]], [[2, 3]]] := by decide +kernel

/-- **C140, which analyses keep states.**  Exactly those that need them later in the same run. -/
theorem C140_keeps (type : String) : keepsStates type = true ↔
    type ∈ ["forward+adjoint", "ROL", "ROL2", "ROLStoch", "ROL_SIMOPT", "HDSA", "HDSAStoch"] := by
  simp [keepsStates, or_assoc]

/-- **C140, steady runs.**  A steady forward run and a later adjoint run that takes up its file: the adjoint run holds
the solution of the forward run. -/
theorem C140_steady (w : Words K W) (base : String) (v : List K) (d : Disk K W) (order : Nat) (t₀ final dt : K)
    (fuel : Nat) (ts : List K) (hts : timesOf t₀ final dt fuel = some ts) (tol : K) :
    ∃ s, recover base [(numStepsOf false order, v.length)] t₀ final dt fuel (writeRun w base 0 [[v]] d)
        [Stg.empty tol] = some [s] ∧ OneList s [v.map w.lib] [t₀] := by
  have hnt : 1 ≤ ts.length := by
    obtain ⟨l, _, rfl⟩ := Option.map_eq_some_iff.mp hts
    simp
  obtain ⟨s, h1, h2⟩ := C140_recover_partial w base [[v]] d 1 v.length t₀ final dt fuel ts hts (by omega) hnt (by simp)
    (by intro s hs; exact ⟨v, by simpa using hs, rfl⟩) tol
  exact ⟨s, h1, by simpa using h2⟩

/-- C140 is false for transient runs: with the first order integrator, however many steps the forward run made and
whatever its states are, the adjoint run that takes up its files finds the initial state only, makes no step, and its
gradient is zero; forward and adjoint in one run visit every step. -/
theorem C140_transient_violated (w : Words K W) (base : String) (hist : List (List K)) (d : Disk K W) (m : Nat)
    (h2 : 2 ≤ hist.length) (hm : ∀ v ∈ hist, v.length = m) (t₀ final dt : K) (fuel : Nat) (ts : List K)
    (hts : timesOf t₀ final dt fuel = some ts) (tol : K) {G : Type} [AddCommMonoid G]
    (contrib : List K × List K → G) :
    (∃ s, adjointStates "file" base [(numStepsOf true 1, m)] t₀ final dt fuel
        (writeRun w base 0 (hist.map ([·])) d) [] [Stg.empty tol] = some s ∧
      visits s = some [] ∧ (visits s).map (gradientOf contrib) = some 0) ∧
    ∃ l, visits (keep "forward+adjoint" (hist.map fun v => (v, t₀)) (Stg.empty tol)) = some l ∧
      l.length = hist.length - 1 := by
  have hnt : 1 ≤ ts.length := by
    obtain ⟨l, _, rfl⟩ := Option.map_eq_some_iff.mp hts
    simp
  have hns : numStepsOf true 1 = 1 := by decide
  constructor
  · obtain ⟨s, h1, h3⟩ := C140_recover_partial w base (hist.map ([·])) d 1 m t₀ final dt fuel ts hts (by omega) hnt
      (by simp; omega) (by
        intro s hs
        obtain ⟨v, hv, rfl⟩ := List.mem_map.mp hs
        exact ⟨v, rfl, hm v hv⟩) tol
    have hv : visits s = some [] := by
      obtain ⟨l, e1, e2, _⟩ := visits_oneList h3 (by simp; omega) (by simp)
      have : l = [] := by
        apply List.length_eq_zero_iff.mp
        rw [e2]; simp
      rw [e1, this]
    refine ⟨s, ?_, hv, by rw [hv]; rfl⟩
    rw [hns]
    simp [adjointStates, h1]
  · obtain ⟨l, e1, e2, _⟩ := C140_memory "forward+adjoint" (by decide) (hist.map fun v => (v, t₀)) (by
      intro h
      have := congrArg List.length h
      simp at this
      rw [this] at h2; simp at h2) tol
    exact ⟨l, e1, by simpa using e2⟩

/-- [case] Three records, step one half. -/
example : ∃ s, adjointStates "file" "fwdsoln" [(numStepsOf true 1, 2)] (0 : ℚ) 1 (1 / 2) 10
      (writeRun words12 "fwdsoln" 0 [[[1, 2]], [[3, 4]], [[5, 6]]] (fun _ => none)) [] [Stg.empty (1 / 10)] = some s ∧
    visits s = some [] := by
  have ht : timesOf (0 : ℚ) 1 (1 / 2) 10 = some [0, 1 / 2, 1] := by decide +kernel
  obtain ⟨⟨s, h1, h2, _⟩, _⟩ := C140_transient_violated words12 "fwdsoln" [[1, 2], [3, 4], [5, 6]] (fun _ => none) 2
    (by simp) (by simp) (0 : ℚ) 1 (1 / 2) 10 _ ht (1 / 10) (fun _ : List ℚ × List ℚ => (1 : ℚ))
  exact ⟨s, h1, h2⟩

/-- C140 is false for states computed anew: the analysis type of an adjoint run is not among those that keep states, so
after its own forward run nothing is stored, whatever was recorded, and the adjoint loop reads a list of times that does
not exist. -/
theorem C140_recompute_violated (base : String) (ns : List (Nat × Nat)) (t₀ final dt : K) (fuel : Nat) (d : Disk K W)
    (recs : List (List K × K)) (tol : K) :
    ∃ s, adjointStates "recompute" base ns t₀ final dt fuel d recs [Stg.empty tol] = some s ∧ s = Stg.empty tol ∧
      visits s = none := by
  refine ⟨Stg.empty tol, ?_, rfl, rfl⟩
  have : keepsStates "adjoint" = false := by decide
  simp [adjointStates, keep, this]

/-- C140 is false with the names left at their defaults: the forward run writes `fwdsoln.…`, the adjoint run asks for
`state.…` and stops, in a directory that has no such file. -/
theorem C140_default_violated (w : Words K W) (hist : List (List (List K))) (n m : Nat) (hn : 0 < n)
    (t₀ final dt : K) (fuel : Nat) (ss : List (Stg K (List K))) :
    recover "state" [(n, m)] t₀ final dt fuel (writeRun w "fwdsoln" 0 hist (fun _ => none)) ss = none := by
  have h0 : readState (writeRun w "fwdsoln" 0 hist (fun _ => none)) "state" m 0 0 = none := by
    have := (C140_files w "fwdsoln" hist (fun _ => none)).2 "state" 0 0 (Or.inl (by decide))
    simp [readState, this]
  have : (List.range n).mapM (readState (writeRun w "fwdsoln" 0 hist (fun _ => none)) "state" m 0) = none := by
    obtain ⟨n', rfl⟩ : ∃ n', n = n' + 1 := ⟨n - 1, by omega⟩
    rw [List.range_succ_eq_map, List.mapM_cons, h0]
    rfl
  simp [recover, readStates, this]

/-- **C140, other settings.**  A run whose forward run has fewer records than the integrator has history terms, the
recovery type checkpointing, and unknown recovery types stop; nothing is taken up silently. -/
theorem C140_stops (w : Words K W) (base : String) (hist : List (List (List K))) (n m : Nat) (hn : hist.length < n)
    (t₀ final dt : K) (fuel : Nat) (recs : List (List K × K)) (ss : List (Stg K (List K))) (kind : String)
    (hk : kind ≠ "file" ∧ kind ≠ "recompute") (ns : List (Nat × Nat)) (d : Disk K W) :
    recover base [(n, m)] t₀ final dt fuel (writeRun w base 0 hist (fun _ => none)) ss = none ∧
      adjointStates kind base ns t₀ final dt fuel d recs ss = none := by
  constructor
  · have h0 : readState (writeRun w base 0 hist (fun _ => none)) base m 0 hist.length = none := by
      have := (C140_files w base hist (fun _ => none)).2 base 0 hist.length (Or.inr le_rfl)
      simp [readState, this]
    have : (List.range n).mapM (readState (writeRun w base 0 hist (fun _ => none)) base m 0) = none := by
      by_contra hne
      obtain ⟨l, hl⟩ := Option.ne_none_iff_exists'.mp hne
      have key : ∀ (ks : List Nat) (l : List (List K)),
          ks.mapM (readState (writeRun w base 0 hist (fun _ => none)) base m 0) = some l → ∀ k ∈ ks,
          readState (writeRun w base 0 hist (fun _ => none)) base m 0 k ≠ none := by
        intro ks
        induction ks with
        | nil => simp
        | cons a as ih =>
          intro l hl k hk
          rw [List.mapM_cons] at hl
          obtain ⟨y, hy, hl⟩ := Option.bind_eq_some_iff.mp hl
          obtain ⟨ys, hys, _⟩ := Option.bind_eq_some_iff.mp hl
          rcases List.mem_cons.mp hk with rfl | hk
          · rw [hy]; simp
          · exact ih ys hys k hk
      exact key _ l hl hist.length (List.mem_range.mpr hn) h0
    simp [recover, readStates, this]
  · simp [adjointStates, hk.1, hk.2]

example : adjointStates "checkpointing" "fwdsoln" [(1, 2)] (0 : ℚ) 1 1 5 (fun _ => none : Disk ℚ (ℤ × ℤ)) []
    [Stg.empty 1] = none :=
  (C140_stops words12 "fwdsoln" [] 1 2 (by simp) 0 1 1 5 [] [Stg.empty 1] "checkpointing" (by decide)
    [(1, 2)] (fun _ => none)).2

end Recover

/-- C140 is false for the times after a time step was cut: the files hold no times.  A run with step 1 whose first
attempt fails records its states at 0, 1/2 and 1; a second order run that takes up the first two files holds them at 0
and 1. -/
theorem C140_times_violated :
    (∃ s, Time.loop (1 : ℚ) 5 (fun n => n ≠ 0) 10 0 (Time.loopInit 0 1) = some s ∧ s.recorded.reverse = [0, 1 / 2, 1]) ∧
    ∃ s, recover "fwdsoln" [(numStepsOf true 2, 1)] (0 : ℚ) 1 1 10
        (writeRun words12 "fwdsoln" 0 [[[7]], [[8]], [[9]]] (fun _ => none)) [Stg.empty (1 / 10)] = some [s] ∧
      OneList s [[7], [8]] [0, 1] := by
  constructor
  · exact ⟨⟨1, 1 / 2, 2, 1, [1, 1 / 2, 0]⟩, by decide +kernel, by decide +kernel⟩
  · have ht : timesOf (0 : ℚ) 1 1 10 = some [0, 1] := by decide +kernel
    have hn : numStepsOf true 2 = 2 := by decide
    obtain ⟨s, h1, h2⟩ := C140_recover_partial words12 "fwdsoln" [[[7]], [[8]], [[9]]] (fun _ => none) 2 1 (0 : ℚ) 1 1 10
      _ ht (by omega) (by simp) (by simp) (by simp) (1 / 10)
    refine ⟨s, by rw [hn]; exact h1, ?_⟩
    have e : ((List.range 2).map fun (k : Nat) => (0 : ℚ) + (k : ℚ) * 1) = [0, 1] := by decide +kernel
    rw [e] at h2
    simpa [words12] using h2

end MrHyDE.Analysis
