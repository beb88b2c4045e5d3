import Verif.Analysis.States

/-!
# Sampling studies

`AnalysisManager::UQSolve`, `writeSolutionToText` (src/managers/analysis/analysisManager_solve.hpp,
analysisManager_util.hpp), `updateParams(vector, int)` (src/managers/parameter/parameterManager_update.hpp),
`UQManager::generateSamples` (src/managers/uq/uqManager.cpp) as a source of points.

The forward run is a function of the parameters (what is kept from one solve to the next: C88).  One process; grains and
their rotations are not followed.  `none` is an exception or undefined behaviour.
-/

namespace MrHyDE.Analysis

set_option linter.unusedSectionVars false

open MrHyDE.Storage (Stg Res)
open MrHyDE.Param (Table updateAt getAt)

variable {K W : Type}

/-! ## Model -/

/-- The settings of a study, src/managers/analysis/analysisManager_solve.hpp:171, 176-180, 183-185; `stochastic` is the
number of stochastic parameters (170). -/
structure Study (K : Type) where
  samples : Nat
  stochastic : Nat
  writeSol : Bool
  onlyFinal : Bool
  adjoint : Bool
  writeAdj : Bool
  fd : Bool
  component : Int
  delta : K

/-- `numsamples = min(numsamples, extent)`, analysisManager_solve.hpp:190. -/
def numToRun (o : Study K) (pts : List (List K)) : Nat := min o.samples pts.length

/-- The parameters of one sample, analysisManager_solve.hpp:232-246. -/
def shifted [Add K] (o : Study K) (row : List K) : List K :=
  row.mapIdx fun i x => if o.fd && o.component == (i : Int) then x + o.delta else x

/-- `updateParams(vector, 2)`, parameterManager_update.hpp:69-84: the first time level; none: undefined behaviour. -/
def updateInt (T : Table K) (new : List K) : Option (Table K) :=
  if T.vals.length = 0 then none else updateAt T new 2 0

/-- Name of a file of solutions, analysisManager_solve.hpp:284, 298. -/
def sampleFile (stem : String) (j rank : Nat) : String :=
  stem ++ "." ++ toString j ++ "." ++ toString rank ++ ".dat"

/-- `writeSolutionToText`, analysisManager_util.hpp:294-324: the lines are the entries, the columns the stored vectors, or
the last one alone; no list of vectors, an empty list, or a vector shorter than the first is undefined behaviour. -/
def textOf (w : Words K W) (onlyFinal : Bool) (data : List (List (List K))) : Option (Content K W) :=
  match data with
  | [] => none
  | [] :: _ => none
  | (v0 :: vs) :: _ =>
    if vs.all (fun v => v0.length ≤ v.length) then
      if onlyFinal then
        some (.text ((List.range v0.length).map fun i => (((v0 :: vs).getLastD []).drop i).take 1 |>.map w.prt))
      else
        some (.text ((List.range v0.length).map fun i => (v0 :: vs).flatMap fun v => ((v.drop i).take 1).map w.prt))
    else none

/-- What a study carries from sample to sample: the parameters, the stored adjoints (never reset), the disk, and the rows
of responses, analysisManager_solve.hpp:158, 251, 275, 287, 300. -/
structure StudySt (K W R : Type) where
  table : Table K
  adj : Stg K (List K)
  disk : Disk K W
  rows : List (List R)

/-- A run: the responses and the records (state and time), given the parameters. [analysisManager_solve.hpp:272-273] -/
abbrev Fwd (K R : Type) := Table K → List R × List (List K × K)

/-- An adjoint run: the adjoints and their times, given the parameters and the stored states; `none`: undefined behaviour.
[analysisManager_solve.hpp:293, postprocessManager_objective_gradient.hpp:1527-1531] -/
abbrev Adj (K : Type) := Table K → List (List K × K) → Option (List (List K × K))

/-- The states kept by one forward run, postprocessManager_util.hpp:61-65 with analysisManager_solve.hpp:210-213: the
analysis type itself is not among those that keep states. -/
def keptIn {A : Type} (o : Study K) (recs : List A) : List A := if o.writeSol then recs else []

/-- One sample, analysisManager_solve.hpp:219-310. -/
def sample [Add K] {R : Type} (w : Words K W) (o : Study K) (fwd : Fwd K R) (adj : Adj K) (rank j : Nat) (row : List K)
    (s : StudySt K W R) : Option (StudySt K W R) :=
  (if 0 < o.stochastic then updateInt s.table (shifted o row) else some s.table).bind fun T =>
  (if o.writeSol then
    (textOf w o.onlyFinal [(fwd T).2.map Prod.fst]).map (s.disk.put (sampleFile "solution" j rank))
   else some s.disk).bind fun d =>
  (if o.adjoint then (adj T (keptIn o (fwd T).2)).map fun as => as.foldl (fun a r => a.store r.1 r.2 0) s.adj
   else some s.adj).bind fun a =>
  (if o.adjoint && o.writeAdj then (textOf w false a.data).map (d.put (sampleFile "adjoint" j rank))
   else some d).bind fun d' =>
  some ⟨T, a, d', s.rows ++ [(fwd T).1]⟩

/-- The loop over the samples from number `j` on, analysisManager_solve.hpp:219. -/
def samplesFrom [Add K] {R : Type} (w : Words K W) (o : Study K) (fwd : Fwd K R) (adj : Adj K) (rank : Nat) :
    Nat → List (List K) → StudySt K W R → Option (StudySt K W R)
  | _, [], s => some s
  | j, row :: rows, s => (sample w o fwd adj rank j row s).bind (samplesFrom w o fwd adj rank (j + 1) rows)

/-- `UQSolve`, analysisManager_solve.hpp:188-310: the first points are used. -/
def study [Add K] {R : Type} (w : Words K W) (o : Study K) (fwd : Fwd K R) (adj : Adj K) (rank : Nat)
    (pts : List (List K)) (s : StudySt K W R) : Option (StudySt K W R) :=
  samplesFrom w o fwd adj rank 0 (pts.take (numToRun o pts)) s

/-- The file of responses, analysisManager_solve.hpp:312-327: a line for each sample. -/
def responseText (w : Words K W) (rows : List (List K)) : Content K W := .text (rows.map (·.map w.prt))

/-- The file of points, analysisManager_solve.hpp:194-208: all points, without the shift of finite differences. -/
def pointText (w : Words K W) (pts : List (List K)) : Content K W := .text (pts.map (·.map w.prt))

/-! ## The parameters of a sample -/

theorem updComps_twice (a b : List K) : ∀ (c : List K) (p : Nat) (r : List K) (q : Nat),
    Param.updComps a p c = some (r, q) → Param.updComps b p r = Param.updComps b p c ∧ q = p + c.length ∧ r.length = c.length
  | [], p, r, q, h => by
    simp only [Param.updComps, Option.some.injEq, Prod.mk.injEq] at h
    obtain ⟨rfl, rfl⟩ := h
    simp
  | x :: c, p, r, q, h => by
    simp only [Param.updComps] at h
    cases hv : a[p]? with
    | none => rw [hv] at h; cases h
    | some v =>
      rw [hv] at h
      cases hc : Param.updComps a (p + 1) c with
      | none => rw [hc] at h; cases h
      | some rq =>
        obtain ⟨r', q'⟩ := rq
        rw [hc] at h
        simp only [Option.some.injEq, Prod.mk.injEq] at h
        obtain ⟨rfl, rfl⟩ := h
        obtain ⟨h1, h2, h3⟩ := updComps_twice a b c (p + 1) r' q' hc
        refine ⟨?_, by simp; omega, by simp [h3]⟩
        simp only [Param.updComps, h1]

theorem updComps_pos (b : List K) : ∀ (c : List K) (p : Nat) (r : List K) (q : Nat),
    Param.updComps b p c = some (r, q) → q = p + c.length
  | c, p, r, q, h => (updComps_twice b b c p r q h).2.1

theorem updRow_twice (ty : Int) (a b : List K) : ∀ (types : List Int) (row : List (List K)) (p : Nat)
    (r : List (List K)), Param.updRow ty (some a) p types row = some r →
    Param.updRow ty (some b) p types r = Param.updRow ty (some b) p types row
  | types, [], p, r, h => by
    have : r = [] := by cases types <;> simp [Param.updRow] at h <;> exact h
    rw [this]
  | [], c :: cs, p, r, h => by simp [Param.updRow] at h
  | t :: ts, c :: cs, p, r, h => by
    simp only [Param.updRow] at h
    by_cases ht : t = ty
    · rw [if_pos ht] at h
      cases hc : Param.updComps a p c with
      | none => rw [hc] at h; cases h
      | some rq =>
        obtain ⟨c', q⟩ := rq
        rw [hc] at h
        simp only at h
        cases hr : Param.updRow ty (some a) q ts cs with
        | none => rw [hr] at h; cases h
        | some r' =>
          rw [hr] at h
          obtain rfl := Option.some.inj h
          obtain ⟨h1, h2, h3⟩ := updComps_twice a b c p c' q hc
          have ih := updRow_twice ty a b ts cs q r' hr
          simp only [Param.updRow, if_pos ht, h1]
          cases hb : Param.updComps b p c with
          | none => rfl
          | some rq' =>
            obtain ⟨c'', q''⟩ := rq'
            have : q'' = q := by rw [updComps_pos b c p c'' q'' hb, h2]
            simp only [this, ih]
    · rw [if_neg ht] at h
      cases hr : Param.updRow ty (some a) p ts cs with
      | none => rw [hr] at h; cases h
      | some r' =>
        rw [hr] at h
        obtain rfl := Option.some.inj h
        have ih := updRow_twice ty a b ts cs p r' hr
        simp only [Param.updRow, if_neg ht, ih]

theorem updateInt_twice (T T' : Table K) (a b : List K) (h : updateInt T a = some T') : updateInt T' b = updateInt T b := by
  unfold updateInt at h
  by_cases h0 : T.vals.length = 0
  · rw [if_pos h0] at h; cases h
  · rw [if_neg h0] at h
    unfold updateAt at h
    cases hv : T.vals[0]? with
    | none =>
      have := List.getElem?_eq_none_iff.mp hv
      omega
    | some row =>
      rw [hv] at h
      obtain ⟨r, hr, rfl⟩ := Option.map_eq_some_iff.mp h
      unfold updateInt
      have hl : (T.vals.set 0 r).length ≠ 0 := by simpa using h0
      rw [if_neg hl, if_neg h0]
      unfold updateAt
      have e : (T.vals.set 0 r)[0]? = some r := by
        rw [List.getElem?_set_self (by omega)]
      rw [hv]
      simp only [e, updRow_twice 2 a b T.types row 0 r hr, List.set_set]

/-- The parameters of a sample: those of the beginning, with the stochastic ones replaced. [specification, no code] -/
def ofSample [Add K] (o : Study K) (T₀ : Table K) (row : List K) : Option (Table K) :=
  if 0 < o.stochastic then updateInt T₀ (shifted o row) else some T₀

theorem samplesFrom_spec [Add K] {R : Type} (w : Words K W) (o : Study K) (fwd : Fwd K R) (adj : Adj K) (rank : Nat)
    (T₀ : Table K) : ∀ (rows : List (List K)) (j : Nat) (s s' : StudySt K W R),
    (∀ row, ofSample o s.table row = ofSample o T₀ row) → samplesFrom w o fwd adj rank j rows s = some s' →
    s'.rows.length = s.rows.length + rows.length ∧ s.rows = s'.rows.take s.rows.length ∧
    ∀ (k : Nat) (hk : k < rows.length), ∃ T, ofSample o T₀ rows[k] = some T ∧ s'.rows[s.rows.length + k]? = some (fwd T).1
  | [], j, s, s', _, h => by
    have : s = s' := Option.some.inj h
    subst this
    simp
  | row :: rows, j, s, s', hT, h => by
    simp only [samplesFrom] at h
    obtain ⟨s1, h1, h2⟩ := Option.bind_eq_some_iff.mp h
    unfold sample at h1
    obtain ⟨T, hTT, h1⟩ := Option.bind_eq_some_iff.mp h1
    obtain ⟨d, _, h1⟩ := Option.bind_eq_some_iff.mp h1
    obtain ⟨a, _, h1⟩ := Option.bind_eq_some_iff.mp h1
    obtain ⟨d', _, h1⟩ := Option.bind_eq_some_iff.mp h1
    have e1 := Option.some.inj h1
    have hof : ofSample o s.table row = some T := hTT
    have hT1 : ∀ r, ofSample o s1.table r = ofSample o T₀ r := by
      intro r
      rw [← e1, ← hT r]
      unfold ofSample at hof ⊢
      by_cases h0 : 0 < o.stochastic
      · rw [if_pos h0] at hof ⊢
        rw [if_pos h0]
        exact updateInt_twice _ _ _ _ hof
      · rw [if_neg h0] at hof ⊢
        rw [if_neg h0]
        exact hof.symm
    obtain ⟨ih1, ih2, ih3⟩ := samplesFrom_spec w o fwd adj rank T₀ rows (j + 1) s1 s' hT1 h2
    have er : s1.rows = s.rows ++ [(fwd T).1] := by rw [← e1]
    have el : s1.rows.length = s.rows.length + 1 := by rw [er]; simp
    refine ⟨by rw [ih1, el]; simp; omega, ?_, ?_⟩
    · have := congrArg (List.take s.rows.length) ih2
      rw [er, List.take_left, List.take_take, Nat.min_eq_left (by simp)] at this
      exact this
    · intro k hk
      cases k with
      | zero =>
        refine ⟨T, by rw [← hT]; exact hof, ?_⟩
        have hh : s'.rows[s.rows.length]? = s1.rows[s.rows.length]? := by
          conv_rhs => rw [ih2]
          rw [List.getElem?_take_of_lt (by omega)]
        rw [Nat.add_zero, hh, er]
        simp
      | succ k =>
        obtain ⟨T', h3, h4⟩ := ih3 k (by simpa using hk)
        refine ⟨T', by simpa using h3, ?_⟩
        rw [← h4, el]
        congr 1
        omega

/-- **C141, rows.**  (partial: one time level of the parameters, see `C141_levels_violated`.)  A study runs the requested
number of samples, or as many as there are points.  Row `j` of the responses is that of the run with the parameters of the
input, the stochastic ones replaced by point `j` — whatever the samples before were; in particular no row is missing, none
is repeated, and their order is that of the points. -/
theorem C141_rows_partial [Add K] {R : Type} (w : Words K W) (o : Study K) (fwd : Fwd K R) (adj : Adj K) (rank : Nat)
    (pts : List (List K)) (s s' : StudySt K W R) (h0 : s.rows = []) (h : study w o fwd adj rank pts s = some s') :
    s'.rows.length = min o.samples pts.length ∧
    ∀ (j : Nat) (_ : j < o.samples) (hp : j < pts.length), ∃ T, ofSample o s.table pts[j] = some T ∧
      s'.rows[j]? = some (fwd T).1 := by
  obtain ⟨h1, _, h3⟩ := samplesFrom_spec w o fwd adj rank s.table _ 0 s s' (fun _ => rfl) h
  refine ⟨by rw [h1, h0]; simp [numToRun], ?_⟩
  intro j hj hp
  have hk : j < (pts.take (numToRun o pts)).length := by simp [numToRun]; omega
  obtain ⟨T, h4, h5⟩ := h3 j hk
  refine ⟨T, ?_, ?_⟩
  · rw [List.getElem_take] at h4; exact h4
  · rw [h0] at h5
    simpa using h5

/-- **C141, point.**  In the run of a sample the stochastic parameters are the components of its point, in order, with the
requested component shifted if finite differences are asked for; all other parameters are those of the input. -/
theorem C141_point [AddCommGroup K] (o : Study K) (T : Table K) (row : List K) (hs : 0 < o.stochastic) (vals : List (List K))
    (hv : T.vals[0]? = some vals) (hlen : vals.length ≤ T.types.length) (hrow : row.length = Param.Spec.count 2 T.types vals) :
    ∃ T' new, ofSample o T row = some T' ∧ getAt T' 2 0 = some new ∧ new.length = row.length ∧
      (∀ (i : Nat) (x : K), row[i]? = some x →
        new[i]? = some (if o.fd = true ∧ o.component = (i : Int) then x + o.delta else x)) ∧
      (∀ ty : Int, ty ≠ 2 → getAt T' ty 0 = getAt T ty 0) ∧
      ∀ (i : Nat) (ty : Int), i ≠ 0 → getAt T' ty i = getAt T ty i := by
  obtain ⟨T', h1, h2, h3, h4⟩ := Param.C27_at T (shifted o row) 2 0 vals hv hlen (by simpa [shifted] using hrow)
  refine ⟨T', shifted o row, ?_, h2, by simp [shifted], ?_, h3, h4⟩
  · unfold ofSample updateInt
    have : T.vals.length ≠ 0 := by
      have := (List.getElem?_eq_some_iff.mp hv).1
      omega
    rw [if_pos hs, if_neg this, h1]
  · intro i x hx
    simp only [shifted, List.getElem?_mapIdx, hx, Option.map_some]
    by_cases hf : o.fd = true ∧ o.component = (i : Int)
    · rw [if_pos hf, if_pos (by simp [hf.1, hf.2])]
    · rw [if_neg hf, if_neg (by simpa using hf)]

/-- C141 is false for parameters with several time levels: the point replaces the first level only.  If one parameter of the
problem is dynamic, every parameter has a value for each level, and from the second level on every sample has the values
of the input. -/
theorem C141_levels_violated [AddCommGroup K] (o : Study K) (T T' : Table K) (row : List K)
    (h : ofSample o T row = some T') (i : Nat) (hi : i ≠ 0) : T'.vals[i]? = T.vals[i]? := by
  unfold ofSample at h
  by_cases hs : 0 < o.stochastic
  · rw [if_pos hs] at h
    unfold updateInt at h
    by_cases h0 : T.vals.length = 0
    · rw [if_pos h0] at h; cases h
    · rw [if_neg h0] at h
      unfold updateAt at h
      cases hv : T.vals[0]? with
      | none =>
        rw [hv] at h
        obtain rfl := Option.some.inj h
        rfl
      | some r =>
        rw [hv] at h
        obtain ⟨r', _, rfl⟩ := Option.map_eq_some_iff.mp h
        exact List.getElem?_set_ne (Ne.symm hi)
  · rw [if_neg hs] at h
    obtain rfl := Option.some.inj h
    rfl

/-- A study of two points, one stochastic parameter besides an active one. [case] -/
def twoPoints : Study ℚ := ⟨2, 1, true, false, false, false, true, 0, 1 / 10⟩

/-- Two parameters, the second stochastic, in two time levels. [case] -/
def twoTable : Table ℚ := ⟨[1, 2], [[[5], [7]], [[5], [7]]]⟩

/-- [case] The hypotheses of `C141_rows_partial`, and what the second level is. -/
example : ∃ s', study words12 twoPoints (fun T => ([T.vals], [([1, 2], 0)])) (fun _ _ => some []) 0 [[3], [4]]
      ⟨twoTable, Stg.empty 1, fun _ => none, []⟩ = some s' ∧
    s'.rows = [[[[[5], [31 / 10]], [[5], [7]]]], [[[[5], [41 / 10]], [[5], [7]]]]] := by
  refine ⟨_, rfl, ?_⟩
  decide +kernel

/-- [case] The hypotheses of `C141_point`. -/
example : ∃ T' new, ofSample twoPoints twoTable [3] = some T' ∧ getAt T' 2 0 = some new ∧ new.length = 1 :=
  let ⟨T', new, h1, h2, h3, _⟩ := C141_point twoPoints twoTable [3] (by decide) _ rfl (by decide) (by decide)
  ⟨T', new, h1, h2, h3⟩

/-! ## Files -/

theorem sampleFile_inj {stem stem' : String} {j j' rank rank' : Nat}
    (h : sampleFile stem j rank = sampleFile stem' j' rank') : stem = stem' ∧ j = j' ∧ rank = rank' := by
  unfold sampleFile at h
  obtain ⟨h1, h2⟩ := numbered_inj h
  have h3 : stem ++ "." ++ toString j ++ "" = stem' ++ "." ++ toString j' ++ "" := by
    rw [String.append_empty, String.append_empty]; exact h1
  obtain ⟨h4, h5⟩ := numbered_inj h3
  exact ⟨h4, h5, h2⟩

/-- What a later sample does not change on the disk. -/
theorem samplesFrom_other [Add K] {R : Type} (w : Words K W) (o : Study K) (fwd : Fwd K R) (adj : Adj K) (rank : Nat)
    (n : String) : ∀ (rows : List (List K)) (j : Nat) (s s' : StudySt K W R),
    samplesFrom w o fwd adj rank j rows s = some s' →
    (∀ k, j ≤ k → n ≠ sampleFile "solution" k rank ∧ n ≠ sampleFile "adjoint" k rank) → s'.disk n = s.disk n
  | [], j, s, s', h, _ => by
    have : s = s' := Option.some.inj h
    rw [this]
  | row :: rows, j, s, s', h, hn => by
    simp only [samplesFrom] at h
    obtain ⟨s1, h1, h2⟩ := Option.bind_eq_some_iff.mp h
    have ih := samplesFrom_other w o fwd adj rank n rows (j + 1) s1 s' h2 (fun k hk => hn k (by omega))
    rw [ih]
    unfold sample at h1
    obtain ⟨T, _, h1⟩ := Option.bind_eq_some_iff.mp h1
    obtain ⟨d, hd, h1⟩ := Option.bind_eq_some_iff.mp h1
    obtain ⟨a, _, h1⟩ := Option.bind_eq_some_iff.mp h1
    obtain ⟨d', hd', h1⟩ := Option.bind_eq_some_iff.mp h1
    have e1 := Option.some.inj h1
    have q1 : d n = s.disk n := by
      by_cases hw : o.writeSol = true
      · rw [if_pos hw] at hd
        obtain ⟨c, _, rfl⟩ := Option.map_eq_some_iff.mp hd
        simp [Disk.put, (hn j le_rfl).1]
      · rw [if_neg hw] at hd
        rw [Option.some.inj hd]
    have q2 : d' n = d n := by
      by_cases hw : (o.adjoint && o.writeAdj) = true
      · rw [if_pos hw] at hd'
        obtain ⟨c, _, rfl⟩ := Option.map_eq_some_iff.mp hd'
        simp [Disk.put, (hn j le_rfl).2]
      · rw [if_neg hw] at hd'
        rw [Option.some.inj hd']
    rw [← e1]
    show d' n = s.disk n
    rw [q2, q1]

/-- **C141, files of solutions.**  With solutions written to text every sample has a file of its own, and after the whole
study the file of sample `j` holds the records of that sample's run alone. -/
theorem C141_solutions [Add K] {R : Type} (w : Words K W) (o : Study K) (fwd : Fwd K R) (adj : Adj K) (rank : Nat)
    (hw : o.writeSol = true) (T₀ : Table K) : ∀ (rows : List (List K)) (j : Nat) (s s' : StudySt K W R),
    (∀ row, ofSample o s.table row = ofSample o T₀ row) → samplesFrom w o fwd adj rank j rows s = some s' →
    ∀ (k : Nat) (hk : k < rows.length), ∃ T c, ofSample o T₀ rows[k] = some T ∧
      textOf w o.onlyFinal [(fwd T).2.map Prod.fst] = some c ∧ s'.disk (sampleFile "solution" (j + k) rank) = some c
  | [], j, s, s', _, h, k, hk => by simp at hk
  | row :: rows, j, s, s', hT, h, k, hk => by
    simp only [samplesFrom] at h
    obtain ⟨s1, h1, h2⟩ := Option.bind_eq_some_iff.mp h
    unfold sample at h1
    obtain ⟨T, hTT, h1⟩ := Option.bind_eq_some_iff.mp h1
    obtain ⟨d, hd, h1⟩ := Option.bind_eq_some_iff.mp h1
    obtain ⟨a, _, h1⟩ := Option.bind_eq_some_iff.mp h1
    obtain ⟨d', hd', h1⟩ := Option.bind_eq_some_iff.mp h1
    have e1 := Option.some.inj h1
    have hof : ofSample o s.table row = some T := hTT
    have hT1 : ∀ r, ofSample o s1.table r = ofSample o T₀ r := by
      intro r
      rw [← e1, ← hT r]
      unfold ofSample at hof ⊢
      by_cases h0 : 0 < o.stochastic
      · rw [if_pos h0] at hof ⊢
        rw [if_pos h0]
        exact updateInt_twice _ _ _ _ hof
      · rw [if_neg h0] at hof ⊢
        rw [if_neg h0]
        exact hof.symm
    cases k with
    | zero =>
      rw [if_pos hw] at hd
      obtain ⟨c, hc, hd⟩ := Option.map_eq_some_iff.mp hd
      refine ⟨T, c, by rw [← hT]; exact hof, hc, ?_⟩
      rw [Nat.add_zero, samplesFrom_other w o fwd adj rank _ rows (j + 1) s1 s' h2 (fun k hk => ⟨fun he => by
        have := (sampleFile_inj he).2.1; omega, fun he => by
        have := (sampleFile_inj he).2.1; omega⟩), ← e1]
      show d' _ = some c
      have q2 : d' (sampleFile "solution" j rank) = d (sampleFile "solution" j rank) := by
        by_cases ha : (o.adjoint && o.writeAdj) = true
        · rw [if_pos ha] at hd'
          obtain ⟨c', _, rfl⟩ := Option.map_eq_some_iff.mp hd'
          have : sampleFile "solution" j rank ≠ sampleFile "adjoint" j rank := fun he =>
            absurd (sampleFile_inj he).1 (by decide)
          simp [Disk.put, this]
        · rw [if_neg ha] at hd'
          rw [Option.some.inj hd']
      rw [q2, ← hd]
      simp [Disk.put]
    | succ k =>
      obtain ⟨T', c, g1, g2, g3⟩ := C141_solutions w o fwd adj rank hw T₀ rows (j + 1) s1 s' hT1 h2 k (by simpa using hk)
      exact ⟨T', c, by simpa using g1, g2, by rw [← g3]; congr 2; omega⟩

/-- **C141, columns.**  The text of a solution has a line for every entry; on it are the values of the stored vectors in
order of time, or the value of the last one alone. -/
theorem C141_columns (w : Words K W) (onlyFinal : Bool) (v0 : List K) (vs : List (List K)) (rest : List (List (List K)))
    (hl : ∀ v ∈ vs, v.length = v0.length) :
    ∃ lines, textOf w onlyFinal ((v0 :: vs) :: rest) = some (.text lines) ∧ lines.length = v0.length ∧
      ∀ (i : Nat) (hi : i < v0.length), lines[i]? = some
        (if onlyFinal then (((v0 :: vs).getLast (by simp))[i]?).toList.map w.prt
         else (v0 :: vs).map fun v => w.prt (v.getD i v0[i])) := by
  have hall : vs.all (fun v => decide (v0.length ≤ v.length)) = true :=
    List.all_eq_true.mpr fun v hv => by simpa using (hl v hv).ge
  have htake : ∀ (v : List K) (i : Nat), (v.drop i).take 1 = v[i]?.toList := by
    intro v i
    by_cases hi : i < v.length
    · rw [List.drop_eq_getElem_cons hi, List.take_succ_cons, List.take_zero, List.getElem?_eq_getElem hi]; rfl
    · rw [List.drop_eq_nil_of_le (by omega), List.getElem?_eq_none (by omega)]; rfl
  cases onlyFinal with
  | true =>
    refine ⟨_, by simp only [textOf, hall, if_true]; rfl, by simp, ?_⟩
    intro i hi
    have : (v0 :: vs).getLastD [] = (v0 :: vs).getLast (by simp) := by
      rw [List.getLastD_eq_getLast?, List.getLast?_eq_getLast_of_ne_nil (by simp)]; rfl
    simp only [List.getElem?_map, List.getElem?_range hi, Option.map_some, htake, this, if_true]
  | false =>
    refine ⟨_, by simp only [textOf, hall, if_true, Bool.false_eq_true, if_false]; rfl, by simp, ?_⟩
    intro i hi
    simp only [List.getElem?_map, List.getElem?_range hi, Option.map_some, htake, Bool.false_eq_true, if_false]
    congr 1
    have key : ∀ us : List (List K), (∀ u ∈ us, i < u.length) →
        (us.flatMap fun v => v[i]?.toList.map w.prt) = us.map fun v => w.prt (v.getD i v0[i]) := by
      intro us
      induction us with
      | nil => intro _; rfl
      | cons u us ih =>
        intro hu
        have h1 := hu u (by simp)
        rw [List.flatMap_cons, List.map_cons, ih (fun u' hu' => hu u' (by simp [hu']))]
        simp [List.getElem?_eq_getElem h1]
    apply key
    intro u hu
    rcases List.mem_cons.mp hu with rfl | hu
    · exact hi
    · rw [hl u hu]; exact hi

/-- C141 is false for the files of adjoints: the stored adjoints are never reset, so the file of the second sample begins
with the columns of the first. -/
theorem C141_adjoints_violated (rank : Nat) (d : Disk ℚ (ℤ × ℤ)) :
    ∃ s', study words12 ⟨2, 1, true, false, true, true, false, 0, 0⟩
        (fun T => (([] : List ℚ), [(T.vals.flatten.flatten, 0)])) (fun _ ks => some ks) rank [[3], [4]]
        ⟨⟨[2], [[[7]]]⟩, Stg.empty 1, d, []⟩ = some s' ∧
      s'.disk (sampleFile "adjoint" 0 rank) = some (.text [[prt12 3]]) ∧
      s'.disk (sampleFile "adjoint" 1 rank) = some (.text [[prt12 3, prt12 4]]) := by
  refine ⟨_, rfl, ?_, ?_⟩
  · have h1 : sampleFile "adjoint" 0 rank ≠ sampleFile "adjoint" 1 rank := fun he => absurd (sampleFile_inj he).2.1 (by decide)
    have h2 : sampleFile "adjoint" 0 rank ≠ sampleFile "solution" 1 rank := fun he => absurd (sampleFile_inj he).1 (by decide)
    simp [Disk.put, h1, h2, words12]
  · simp [Disk.put, words12]

/-- C141 is false for the adjoints of a study that does not write its solutions: the states are not kept, so an adjoint run
that needs them has none to read, at the first sample, whatever the forward runs recorded. -/
theorem C141_adjoint_states_violated [Add K] {R : Type} (w : Words K W) (o : Study K) (fwd : Fwd K R) (adj : Adj K)
    (rank : Nat) (row : List K) (pts : List (List K)) (s : StudySt K W R) (hw : o.writeSol = false) (ha : o.adjoint = true)
    (hs : 0 < o.samples) (hadj : ∀ T, adj T [] = none) : study w o fwd adj rank (row :: pts) s = none := by
  have hn : numToRun o (row :: pts) = (min (o.samples - 1) pts.length) + 1 := by simp [numToRun]; omega
  rw [study, hn, List.take_succ_cons, samplesFrom]
  have : sample w o fwd adj rank 0 row s = none := by
    unfold sample
    rw [Option.bind_eq_none_iff]
    intro T _
    rw [Option.bind_eq_none_iff]
    intro d _
    rw [if_pos ha]
    simp [keptIn, hw, hadj]
  rw [this]
  rfl

/-- C141 is false for a shift beyond the parameters: a component that does not exist is not refused; the study is the one
without finite differences. -/
theorem C141_component_violated [Add K] (o : Study K) (row : List K) (h : o.component < 0 ∨ (row.length : Int) ≤ o.component) :
    shifted o row = row := by
  apply List.ext_getElem?
  intro i
  simp only [shifted, List.getElem?_mapIdx]
  cases hr : row[i]? with
  | none => rfl
  | some x =>
    have hi := (List.getElem?_eq_some_iff.mp hr).1
    have : (o.component == (i : Int)) = false := by
      rw [beq_eq_false_iff_ne]; omega
    simp [this]

/-- C141 is false for the file of points of a finite difference study: the line of a sample is not the point that was run. -/
theorem C141_pointfile_violated :
    ∃ (o : Study ℚ) (pts : List (List ℚ)) (T' : Table ℚ), pointText words12 pts = .text [[prt12 3]] ∧
      ofSample o ⟨[2], [[[7]]]⟩ [3] = some T' ∧ getAt T' 2 0 = some [31 / 10] := by
  exact ⟨⟨1, 1, false, false, false, false, true, 0, 1 / 10⟩, [[3]], ⟨[2], [[[31 / 10]]]⟩, rfl, by decide +kernel, by decide +kernel⟩

/-- **C141, file of responses.**  The lines of the file of responses, read back, are the rows of the study to the printed
digits. -/
theorem C141_responses (w : Words K W) (rd : K → K) (h : Reads w rd) (rows : List (List K)) :
    ∃ lines, responseText w rows = .text lines ∧ lines.map (numbers w) = rows.map (·.map rd) := by
  refine ⟨_, rfl, ?_⟩
  rw [List.map_map]
  apply List.map_congr_left
  intro row hrow
  clear hrow
  simp only [Function.comp]
  induction row with
  | nil => rfl
  | cons x xs ih =>
    have hx : w.parse (w.prt x) = some (rd x) := h x
    simp [numbers, hx, ih]

end MrHyDE.Analysis
