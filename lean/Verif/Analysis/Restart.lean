import Verif.Analysis.Sampling

/-!
# Starting from a solution on file

`AnalysisManager::restartSolve` (src/managers/analysis/analysisManager_solve.hpp), `recoverSolution`
(src/managers/analysis/analysisManager_util.hpp), `getRestartSolution`, `setInitial`
(src/managers/solver/solverManager_util.hpp).

A text file is a list of lines of words; a comma separates as white space does.  `none` is an exception or undefined
behaviour.
-/

namespace MrHyDE.Analysis

set_option linter.unusedSectionVars false

variable {K W : Type}

/-! ## Model -/

/-- The name of the file of one process, src/managers/analysis/analysisManager_util.hpp:16-17, 23: the last four characters
are taken as the extension; a shorter name throws. -/
def recoverName (file : String) (rank : Nat) : Option String :=
  if file.toList.length < 4 then none
  else
    let n := file.toList.length - 4
    some (String.ofList (file.toList.take n) ++ "." ++ toString rank ++ String.ofList (file.toList.drop n))

/-- Putting the first numbers of the lines into the vector, analysisManager_util.hpp:43-46; a line without number
(`values[i][0]`) or more lines than entries is undefined behaviour. -/
def fillFirst (w : Words K W) : List (List W) → List K → Option (List K)
  | [], v => some v
  | _ :: _, [] => none
  | line :: lines, _ :: v =>
    match numbers w line with
    | [] => none
    | x :: _ => (fillFirst w lines v).map (x :: ·)

/-- `recoverSolution`, analysisManager_util.hpp:12-64: the types without an implementation, and unknown ones, leave the
vector. -/
def recoverSolution (w : Words K W) (kind file : String) (rank : Nat) (d : Disk K W) (v : List K) : Option (List K) :=
  match recoverName file rank with
  | none => none
  | some name =>
    if kind = "text" then
      match d name with
      | some (.text lines) => fillFirst w lines v
      | _ => none
    else some v

/-- What a run has, for a restart: initial and current time, the vectors to start from, the flag, and the analyses that
have been run. [src/managers/solver/solverManager.hpp:276, 319-320] -/
structure Running (K : Type) where
  initialTime : K
  currentTime : K
  restart : List (List K)
  restartAdjoint : List (List K)
  useRestart : Bool
  runs : List String
  deriving DecidableEq

/-- The settings of a restart, analysisManager_solve.hpp:1244-1252. -/
structure RestartSettings (K : Type) where
  stateFile : String := "none"
  adjointFile : String := "none"
  mode : String := "forward"
  kind : String := "text"
  startTime : K

/-- `getRestartSolution`, `getRestartAdjointSolution`, src/managers/solver/solverManager_util.hpp:339-348, 354-363: new
vectors the first time. -/
def restartVectors [Zero K] (sizes : List Nat) (vs : List (List K)) : List (List K) :=
  if vs.length = 0 then sizes.map fun m => List.replicate m 0 else vs

/-- Reading a file into the first of the vectors, analysisManager_solve.hpp:1264-1274. -/
def recoverFirst [Zero K] (w : Words K W) (kind file : String) (rank : Nat) (d : Disk K W) (sizes : List Nat)
    (vs : List (List K)) : Option (List (List K)) :=
  if file = "none" then some vs
  else
    match restartVectors sizes vs with
    | [] => none
    | v :: rest => (recoverSolution w kind file rank d v).map (· :: rest)

/-- The analyses that the modes run: none, analysisManager_solve.hpp:1291-1303. -/
def modeRuns (mode : String) : List String :=
  if mode = "forward" then []
  else if mode = "ROL" then []
  else if mode = "ROL2" then []
  else []

/-- `restartSolve`, analysisManager_solve.hpp:1241-1304 (files of parameters are not followed). -/
def restartSolve [Zero K] (w : Words K W) (o : RestartSettings K) (rank : Nat) (d : Disk K W) (sizes : List Nat)
    (r : Running K) : Option (Running K) :=
  (recoverFirst w o.kind o.stateFile rank d sizes r.restart).bind fun vs =>
  (recoverFirst w o.kind o.adjointFile rank d sizes r.restartAdjoint).bind fun as =>
  some { initialTime := o.startTime, currentTime := o.startTime, restart := vs, restartAdjoint := as, useRestart := true,
         runs := r.runs ++ modeRuns o.mode }

/-- `setInitial`, solverManager_util.hpp:167-171 and 313: the stored vectors, else those of the input. -/
def setInitial (r : Running K) (ics : List (List K)) : List (List K) := if r.useRestart then r.restart else ics

/-- A forward run begun afterwards by the caller, src/managers/solver/solverManager_models.hpp:18, 40-47: it starts at the
initial time from `setInitial`; `solve` maps start time and vectors to final vectors.  The vectors are shared, so with the
flag set they hold the final ones afterwards (solverManager_solvers.hpp:53, 105, 152). -/
def forwardFrom (solve : K → List (List K) → List (List K)) (ics : List (List K)) (r : Running K) :
    List (List K) × Running K :=
  let out := solve r.initialTime (setInitial r ics)
  (out, { r with restart := if r.useRestart then out else r.restart, runs := r.runs ++ ["forward"] })

/-! ## Round trip -/

theorem recoverName_append (a e : String) (rank : Nat) (h : e.toList.length = 4) :
    recoverName (a ++ e) rank = some (a ++ "." ++ toString rank ++ e) := by
  unfold recoverName
  rw [String.toList_append]
  have hlen : (a.toList ++ e.toList).length = a.toList.length + 4 := by rw [List.length_append, h]
  rw [if_neg (by omega), hlen, Nat.add_sub_cancel]
  simp only [List.take_left, List.drop_left, String.ofList_toList]

/-- **C142, names.**  The file of sample `j` of a study on process `rank` is found under the name without the number of the
process. -/
theorem C142_names (stem : String) (j rank : Nat) :
    recoverName (stem ++ "." ++ toString j ++ ".dat") rank = some (sampleFile stem j rank) := by
  rw [recoverName_append _ _ rank (by decide)]
  unfold sampleFile
  rfl

/-- The name of the files given in an input, and of the file opened on process 3. [case] -/
example : recoverName "solution.0.dat" 3 = some "solution.0.3.dat" := C142_names "solution" 0 3

theorem fillFirst_rows (w : Words K W) (rd : K → K) (h : Reads w rd) : ∀ (xs : List K) (tails : List (List W)) (v : List K),
    xs.length = tails.length → xs.length ≤ v.length →
    fillFirst w (List.zipWith (fun x t => w.prt x :: t) xs tails) v = some (xs.map rd ++ v.drop xs.length)
  | [], tails, v, _, _ => by simp [fillFirst]
  | x :: xs, [], v, h1, _ => by simp at h1
  | x :: xs, t :: ts, [], _, h2 => by simp at h2
  | x :: xs, t :: ts, y :: v, h1, h2 => by
    have hx : w.parse (w.prt x) = some (rd x) := h x
    have ih := fillFirst_rows w rd h xs ts v (by simpa using h1) (by simpa using h2)
    simp only [List.zipWith_cons_cons, fillFirst, numbers, hx, ih]
    simp

theorem text_final (w : Words K W) (vs : List (List K)) (v : List K) (hl : ∀ u ∈ vs, u.length = v.length) :
    textOf w true [vs ++ [v]] = some (.text (List.zipWith (fun x t => w.prt x :: t) v (v.map fun _ => []))) := by
  have key : ∀ n, n = v.length → (List.range n).map (fun i => ((v.drop i).take 1).map w.prt) =
      List.zipWith (fun x t => w.prt x :: t) v (v.map fun _ => []) := by
    rintro n rfl
    apply List.ext_getElem
    · simp
    · intro i h1 h2
      have hi : i < v.length := by simpa using h1
      simp only [List.getElem_map, List.getElem_range, List.getElem_zipWith]
      rw [List.drop_eq_getElem_cons hi, List.take_succ_cons, List.take_zero]
      rfl
  cases vs with
  | nil =>
    simp only [List.nil_append, textOf, List.all_nil, if_true]
    have : ([v] : List (List K)).getLastD [] = v := rfl
    rw [this, key _ rfl]
  | cons u us =>
    have hall : (us ++ [v]).all (fun x => decide (u.length ≤ x.length)) = true := by
      apply List.all_eq_true.mpr
      intro x hx
      rcases List.mem_append.mp hx with hx | hx
      · rw [hl u (by simp), hl x (by simp [hx])]; simp
      · have : x = v := by simpa using hx
        rw [this, hl u (by simp)]; simp
    simp only [List.cons_append, textOf, hall, if_true]
    have : (u :: (us ++ [v])).getLastD [] = v := by
      rw [← List.cons_append, List.getLastD_eq_getLast?, List.getLast?_append]
      simp
    rw [this, hl u (by simp), key _ rfl]

/-- **C142, final states.**  (partial: one physics set, the final state alone on file, and a run that the caller begins
himself.)  A study that writes the final state of sample `j` leaves a file from which a restart, on the same process, takes
every entry, to the printed digits; a forward run begun afterwards starts from it at the requested time. -/
theorem C142_final_partial [Zero K] (w : Words K W) (rd : K → K) (h : Reads w rd) (stem : String) (j rank : Nat)
    (vs : List (List K)) (v : List K) (hl : ∀ u ∈ vs, u.length = v.length) (c : Content K W)
    (hc : textOf w true [vs ++ [v]] = some c) (d : Disk K W) (t : K) (r : Running K) (hr : r.restart = [])
    (ics : List (List K)) (solve : K → List (List K) → List (List K)) :
    ∃ r', restartSolve w { stateFile := stem ++ "." ++ toString j ++ ".dat", startTime := t } rank
        (d.put (sampleFile stem j rank) c) [v.length] r = some r' ∧
      (forwardFrom solve ics r').1 = solve t [v.map rd] ∧ r'.currentTime = t := by
  have hn : stem ++ "." ++ toString j ++ ".dat" ≠ "none" := by
    intro he
    have h1 := congrArg (fun s => s.toList.getLast?) he
    simp only [String.toList_append] at h1
    have e1 : ".dat".toList = ['.', 'd', 'a'] ++ ['t'] := by decide
    rw [e1, getLast?_suffix] at h1
    exact absurd h1 (by decide)
  have hfile : (d.put (sampleFile stem j rank) c) (sampleFile stem j rank) = some c := by simp [Disk.put]
  rw [text_final w vs v hl] at hc
  obtain rfl := Option.some.inj hc
  have hfill := fillFirst_rows w rd h v (v.map fun _ => []) (List.replicate v.length 0) (by simp) (by simp)
  have hfill' : fillFirst w (List.zipWith (fun x t => w.prt x :: t) v (v.map fun _ => [])) (List.replicate v.length 0) =
      some (v.map rd) := by rw [hfill]; simp
  refine ⟨⟨t, t, [v.map rd], r.restartAdjoint, true, r.runs ++ []⟩, ?_, by simp [forwardFrom, setInitial], rfl⟩
  simp only [restartSolve, recoverFirst, if_neg hn, hr, restartVectors, List.length_nil, if_true, List.map_cons,
    List.map_nil, recoverSolution, C142_names, hfile, hfill', Option.map_some, Option.bind_some, modeRuns]

/-- [case] The hypotheses of `C142_final_partial`. -/
example : ∃ r', restartSolve words12 { stateFile := "solution.0.dat", startTime := (1 : ℚ) } 0
      (Disk.put (fun _ => none) "solution.0.0.dat" (.text [[prt12 3], [prt12 4]])) [2]
      ⟨0, 0, [], [], false, []⟩ = some r' ∧ r'.restart = [[3, 4]] := by
  refine ⟨⟨1, 1, [[3, 4]], [], true, []⟩, ?_, rfl⟩
  decide +kernel

/-- C142 is false as announced: no mode runs an analysis.  Whatever the settings, a restart that succeeds leaves the list of
analyses as it was. -/
theorem C142_runs_violated [Zero K] (w : Words K W) (o : RestartSettings K) (rank : Nat) (d : Disk K W) (sizes : List Nat)
    (r r' : Running K) (h : restartSolve w o rank d sizes r = some r') : r'.runs = r.runs := by
  obtain ⟨vs, _, h⟩ := Option.bind_eq_some_iff.mp h
  obtain ⟨as, _, h⟩ := Option.bind_eq_some_iff.mp h
  obtain rfl := Option.some.inj h
  have : modeRuns o.mode = [] := by unfold modeRuns; split <;> [rfl; (split <;> [rfl; (split <;> rfl)])]
  simp [this]

theorem text_all (w : Words K W) (v0 : List K) (vs : List (List K)) (hl : ∀ u ∈ vs, u.length = v0.length) :
    ∃ tails : List (List W), tails.length = v0.length ∧
      textOf w false [v0 :: vs] = some (.text (List.zipWith (fun x t => w.prt x :: t) v0 tails)) := by
  have hall : vs.all (fun x => decide (v0.length ≤ x.length)) = true :=
    List.all_eq_true.mpr fun x hx => by rw [hl x hx]; simp
  refine ⟨(List.range v0.length).map fun i => vs.flatMap fun v => ((v.drop i).take 1).map w.prt, by simp, ?_⟩
  simp only [textOf, hall, if_true, Bool.false_eq_true, if_false]
  congr 2
  apply List.ext_getElem
  · simp
  · intro i h1 h2
    have hi : i < v0.length := by simpa using h1
    simp only [List.getElem_map, List.getElem_range, List.getElem_zipWith, List.flatMap_cons]
    rw [List.drop_eq_getElem_cons hi, List.take_succ_cons, List.take_zero]
    rfl

/-- C142 is false for files with all times: the restart takes the first column, which is the initial state of the run that
wrote the file, not its last. -/
theorem C142_history_violated [Zero K] (w : Words K W) (rd : K → K) (h : Reads w rd) (stem : String) (j rank : Nat)
    (v0 : List K) (vs : List (List K)) (hl : ∀ u ∈ vs, u.length = v0.length) (c : Content K W)
    (hc : textOf w false [v0 :: vs] = some c) (d : Disk K W) :
    recoverSolution w "text" (stem ++ "." ++ toString j ++ ".dat") rank (d.put (sampleFile stem j rank) c)
      (List.replicate v0.length 0) = some (v0.map rd) := by
  obtain ⟨tails, ht, hx⟩ := text_all w v0 vs hl
  rw [hx] at hc
  obtain rfl := Option.some.inj hc
  have hfile : (d.put (sampleFile stem j rank) (.text (List.zipWith (fun x t => w.prt x :: t) v0 tails)))
      (sampleFile stem j rank) = some (.text (List.zipWith (fun x t => w.prt x :: t) v0 tails)) := by simp [Disk.put]
  have hfill := fillFirst_rows w rd h v0 tails (List.replicate v0.length 0) ht.symm (by simp)
  simp only [recoverSolution, C142_names, if_true, hfile, hfill]
  simp

/-- C142 is false for the other types of files that are offered, and for misspelt ones: without a complaint nothing is read,
the vectors to start from are zero, and they replace the initial state of the input. -/
theorem C142_kinds_violated [Zero K] (w : Words K W) (kind file : String) (hk : kind ≠ "text") (hf : file ≠ "none")
    (h4 : 4 ≤ file.toList.length) (rank : Nat) (d : Disk K W) (m : Nat) (t : K) (r : Running K) (hr : r.restart = [])
    (ics : List (List K)) :
    ∃ r', restartSolve w { stateFile := file, kind := kind, startTime := t } rank d [m] r = some r' ∧
      setInitial r' ics = [List.replicate m 0] := by
  have hn : ∃ n, recoverName file rank = some n := by
    unfold recoverName
    rw [if_neg (by omega)]
    exact ⟨_, rfl⟩
  obtain ⟨n, hn⟩ := hn
  refine ⟨⟨t, t, [List.replicate m 0], r.restartAdjoint, true, r.runs ++ []⟩, ?_, by simp [setInitial]⟩
  simp only [restartSolve, recoverFirst, if_neg hf, hr, restartVectors, List.length_nil, if_true, List.map_cons,
    List.map_nil, recoverSolution, hn, if_neg hk, Option.map_some, Option.bind_some, modeRuns]

example : ("matrix market" : String) ≠ "text" ∧ 4 ≤ "state.mm".toList.length := by decide

/-- C142 is false without a file of states: the flag is set all the same, and a run that starts afterwards has no vectors at
all. -/
theorem C142_no_file_violated [Zero K] (w : Words K W) (o : RestartSettings K) (ho : o.stateFile = "none")
    (ha : o.adjointFile = "none") (rank : Nat) (d : Disk K W) (sizes : List Nat) (r : Running K) (hr : r.restart = [])
    (ics : List (List K)) :
    ∃ r', restartSolve w o rank d sizes r = some r' ∧ setInitial r' ics = [] := by
  refine ⟨⟨o.startTime, o.startTime, [], r.restartAdjoint, true, r.runs ++ modeRuns o.mode⟩, ?_, rfl⟩
  simp [restartSolve, recoverFirst, ho, ha, hr]

/-- C142 is false for several physics sets: only the first one is read; the others start from zero, whatever is on file and
whatever initial states the input has. -/
theorem C142_sets_violated [Zero K] (w : Words K W) (o : RestartSettings K) (hs : o.stateFile ≠ "none") (rank : Nat)
    (d : Disk K W) (m : Nat) (ms : List Nat) (r r' : Running K) (hr : r.restart = [])
    (h : restartSolve w o rank d (m :: ms) r = some r') (ics : List (List K)) :
    (setInitial r' ics).tail = ms.map fun n => List.replicate n 0 := by
  obtain ⟨vs, hv, h⟩ := Option.bind_eq_some_iff.mp h
  obtain ⟨as, _, h⟩ := Option.bind_eq_some_iff.mp h
  obtain rfl := Option.some.inj h
  simp only [recoverFirst, if_neg hs, hr, restartVectors, List.length_nil, if_true, List.map_cons] at hv
  obtain ⟨v, _, rfl⟩ := Option.map_eq_some_iff.mp hv
  simp [setInitial]

/-- **C142, files that do not fit.**  More lines than entries, and lines without a number, are not refused (undefined
behaviour); with fewer lines the remaining entries keep the value they had. -/
theorem C142_short (w : Words K W) (rd : K → K) (h : Reads w rd) (xs v : List K) (x : K) :
    (xs.length ≤ v.length → fillFirst w (xs.map fun x => [w.prt x]) v = some (xs.map rd ++ v.drop xs.length)) ∧
    (v.length < xs.length → fillFirst w (xs.map fun x => [w.prt x]) v = none) ∧
    fillFirst w ((xs.map fun x => [w.prt x]) ++ [[]]) (v ++ [x]) = none := by
  have e : (xs.map fun x => [w.prt x]) = List.zipWith (fun x t => w.prt x :: t) xs (xs.map fun _ => []) := by
    induction xs with
    | nil => rfl
    | cons a as ih => simp [ih]
  refine ⟨fun hl => by rw [e]; exact fillFirst_rows w rd h xs _ v (by simp) hl, fun hl => ?_, ?_⟩
  · clear e
    induction xs generalizing v with
    | nil => simp at hl
    | cons a as ih =>
      cases v with
      | nil => rfl
      | cons y v =>
        have ha : w.parse (w.prt a) = some (rd a) := h a
        simp only [List.map_cons, fillFirst, numbers, ha]
        rw [ih v (by simpa using hl)]
        rfl
  · clear e
    induction xs generalizing v with
    | nil => cases v <;> simp [fillFirst, numbers]
    | cons a as ih =>
      have ha : w.parse (w.prt a) = some (rd a) := h a
      cases v with
      | nil =>
        simp only [List.map_cons, List.cons_append, List.nil_append, fillFirst, numbers, ha]
        cases as <;> simp [fillFirst]
      | cons y v =>
        simp only [List.map_cons, List.cons_append, fillFirst, numbers, ha]
        rw [ih v]
        rfl

/-- C142 is false for repeated runs: the vectors to start from are those the solver works on, so a second run does not
start from the file, but from the end of the first run. -/
theorem C142_repeat_violated (solve : K → List (List K) → List (List K)) (ics : List (List K)) (r : Running K)
    (h : r.useRestart = true) :
    (forwardFrom solve ics (forwardFrom solve ics r).2).1 = solve r.initialTime (solve r.initialTime r.restart) := by
  simp [forwardFrom, setInitial, h]

/-- **C142, without restart.**  Runs of the input itself all start from its initial state, however many there are. -/
theorem C142_repeat (solve : K → List (List K) → List (List K)) (ics : List (List K)) (r : Running K)
    (h : r.useRestart = false) (n : Nat) :
    (forwardFrom solve ics ((fun s => (forwardFrom solve ics s).2)^[n] r)).1 = solve r.initialTime ics := by
  have key : ∀ n, ((fun s => (forwardFrom solve ics s).2)^[n] r).useRestart = false ∧
      ((fun s => (forwardFrom solve ics s).2)^[n] r).initialTime = r.initialTime := by
    intro n
    induction n with
    | zero => exact ⟨h, rfl⟩
    | succ n ih =>
      rw [Function.iterate_succ_apply']
      exact ih
  unfold forwardFrom setInitial at *
  simp only [(key n).1, (key n).2, Bool.false_eq_true, if_false]

/-- **C142, missing files.**  A text file that does not exist, and a name shorter than four characters, stop the restart. -/
theorem C142_missing [Zero K] (w : Words K W) (o : RestartSettings K) (hk : o.kind = "text") (hs : o.stateFile ≠ "none")
    (rank : Nat) (d : Disk K W) (sizes : List Nat) (r : Running K)
    (h : o.stateFile.toList.length < 4 ∨ ∃ n, recoverName o.stateFile rank = some n ∧ d n = none) :
    restartSolve w o rank d sizes r = none := by
  have : ∀ v, recoverSolution w o.kind o.stateFile rank d v = none := by
    intro v
    unfold recoverSolution
    rcases h with h | ⟨n, h1, h2⟩
    · have : recoverName o.stateFile rank = none := by unfold recoverName; rw [if_pos h]
      rw [this]
    · rw [h1]; simp [hk, h2]
  unfold restartSolve recoverFirst
  rw [if_neg hs]
  cases restartVectors sizes r.restart with
  | nil => rfl
  | cons v rest => simp [this]

end MrHyDE.Analysis
