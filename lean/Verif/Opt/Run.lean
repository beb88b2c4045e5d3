import Mathlib.Tactic.LinearCombination
import Verif.Opt.Objective
import Verif.Analysis.Files

/-!
# A whole optimisation run

`AnalysisManager::ROLSolve` and `ROL2Solve` (src/managers/analysis/analysisManager_solve.hpp:342-772): output is
switched off, data may be generated, the optimiser asks for values and gradients, the final parameters and the final
solution are written.  Also `setNewExodusFile` and the end of `writeSolution` (postprocessManager_exodus.hpp),
`PhysicsBase::updateFlags` (src/physics/physicsBase.cpp) and `print(filebase)` of MrHyDE_OptVector.hpp.

The optimiser of the library is any list of requests together with any final point.  A forward run gives a result
`sim` of the parameters and of the parameter `datagen`; `S` is everything such a run records.  `datagen` is a scalar
parameter outside the optimisation vector, with one time level.
-/

namespace MrHyDE.Opt.Run

set_option linter.unusedSectionVars false

open MrHyDE.Opt
open MrHyDE.Analysis (Disk Content Words scalarName fieldName scalarText putFrom putAll writeOpt readOpt Reads)

variable {K S W : Type}

/-! ## Model -/

/-- What does not change during the run: `isTD` and `exodus_filename` (postprocessManager_construct.hpp:86, 194-197),
and the result of `forwardModel` for given parameters (solverManager_models.hpp:14-62). -/
structure Env (K S : Type) where
  td : Bool
  name : String
  sim : OptVec K → Option K → S

/-- The members changed during the run: the parameters (`datagen` absent if there is no parameter of this name),
`write_solution`, `response_type`, `compute_objective`, `soln`, `datagen_soln`, the file set up for output in time, and
the content of the output files. [src/managers/analysis/analysisManager_solve.hpp:342-772] -/
structure RState (K S : Type) where
  cur : OptVec K
  datagen : Option K
  write : Bool
  resp : String
  comp : Bool
  soln : Option S
  data : List S
  target : String
  files : String → List S

/-- One file replaced. [helper] -/
def upF (f : String → List S) (n : String) (v : List S) : String → List S := fun m => if m = n then v else f m

/-- `forwardModel` (solverManager_models.hpp:14-62): the recorded solution is replaced (`resetSolutions`, `store`), and
written if `write_solution` (postprocessManager_util.hpp:31-36): in time to the file set up last, else to the file named
in the input, which it replaces (postprocessManager_exodus.hpp:656-663).  The windows and frequencies of output belong
to `S`. -/
def RState.solve (e : Env K S) (s : RState K S) : RState K S :=
  let v := e.sim s.cur s.datagen
  { s with
    soln := some v
    files := if s.write then
        (if e.td then upF s.files s.target (s.files s.target ++ [v]) else upF s.files e.name [v])
      else s.files }

/-- `setNewExodusFile`, postprocessManager_exodus.hpp:1010-1016: only in time, and only if `write_solution`; a new file
is empty. -/
def RState.setFile (e : Env K S) (n : String) (s : RState K S) : RState K S :=
  if e.td && s.write then { s with target := n, files := upF s.files n [] } else s

/-- Requests of the optimiser. [src/optimization/MrHyDE_Objective.hpp:61-97] -/
inductive Req (K : Type) where
  | value (x : OptVec K)
  | gradient (x : OptVec K)

/-- `updateFlags`, src/interfaces/physics/physicsInterface_util.hpp:84-150 calls it for every module; it is not virtual
and does nothing (src/physics/physicsBase.hpp:143, physicsBase.cpp:161-164). -/
def RState.updateFlags (_ : List Bool) (s : RState K S) : RState K S := s

/-- Generation of data, analysisManager_solve.hpp:425-462 and 647-683. -/
def RState.generate [Zero K] [One K] (e : Env K S) (s : RState K S) : RState K S :=
  let s := { s with datagen := s.datagen.map fun _ => 1, resp := "none", comp := false }
  let s := s.solve e
  let s := { s with data := s.data ++ s.soln.toList }
  { s with datagen := s.datagen.map fun _ => 0, resp := "discrete", comp := true }

/-- The settings the run depends on: "Generate data", "Disable source on final output", and under Analysis "save
parameters to file" with "parameters file"; "Write Final Parameters" of ROLSolve.
[src/managers/analysis/analysisManager_solve.hpp:425, 514, 566, 576-577, 647, 756, 766-767] -/
structure Options where
  generate : Bool
  disable : Bool
  save : Option String
  final : Bool

section
variable [Field K] [LinearOrder K]

/-- One request, src/optimization/MrHyDE_Objective.hpp:61-97. -/
def RState.call (tol2 : K) (e : Env K S) (s : RState K S) : Req K → Option (RState K S)
  | .value x => (s.cur.set x).map fun c => RState.solve e { s with cur := c }
  | .gradient x => (checkNew tol2 s.cur x).bind fun b =>
      if b then (s.cur.set x).map fun c => RState.solve e { s with cur := c } else some s

/-- All requests of the optimiser, including those of the comparison with differences.
[src/managers/analysis/analysisManager_solve.hpp:465-510, 687-734] -/
def RState.run (tol2 : K) (e : Env K S) : List (Req K) → RState K S → Option (RState K S)
  | [], s => some s
  | k :: ks, s => (s.call tol2 e k).bind (RState.run tol2 e ks)

end

/-- The output after the optimisation, analysisManager_solve.hpp:559-574, 749-764; `plot` is `postproc_plot`. -/
def RState.finish (e : Env K S) (o : Options) (plot : Bool) (s : RState K S) : RState K S :=
  if plot then
    let s := (RState.setFile e "output_after_optimization.exo" { s with write := true }).solve e
    if o.disable then ((s.updateFlags [false]).setFile e "output_only_control.exo").solve e else s
  else s

/-- The loop over the components of `print(filebase)`, MrHyDE_OptVector.hpp:1372-1378, 1381-1392; null components are
passed over, the number goes on. -/
def printFrom (name : Nat → String) (c : List K → Content K W) : Nat → Comps K → Disk K W → Disk K W
  | _, [], d => d
  | t, none :: cs, d => printFrom name c (t + 1) cs d
  | t, some v :: cs, d => printFrom name c (t + 1) cs (d.put (name t) (c v))

/-- `print(filebase)` on process 0, MrHyDE_OptVector.hpp:1370-1394: fields, then scalars with twelve digits. -/
def printVec (w : Words K W) (base : String) (x : OptVec K) (d : Disk K W) : Disk K W :=
  printFrom (scalarName base) (scalarText w) 0 x.scalar
    (printFrom (fieldName base) (fun f => .dense (f.map w.lib)) 0 x.field d)

section
variable [Field K] [LinearOrder K]

/-- `ROLSolve`, analysisManager_solve.hpp:342-581, and `ROL2Solve`, 586-771 (which does not look at `final`), without
the bounds (C149).  The optimiser makes the requests `ks` and leaves `xfin` in its vector.  The results: the state, the
files of parameters, and the numbers printed to "final_params_.dat" (541-545; the format is the library's). -/
def optimise (tol2 : K) (e : Env K S) (w : Words K W) (o : Options) (ks : List (Req K)) (xfin : OptVec K)
    (s : RState K S) (d : Disk K W) : Option (RState K S × Disk K W × Option (List K)) :=
  let plot := s.write
  let s := { s with write := false }
  let s := if o.generate then s.generate e else s
  (s.run tol2 e ks).bind fun s =>
    let s := s.finish e o plot
    let d := match o.save with
      | some base => printVec w base s.cur d
      | none => d
    some (s, d, if o.final then some xfin.entries else none)

end

/-- The derivative of the objective for one scalar parameter, `computeSensitivities`,
postprocessManager_objective_gradient.hpp:1532-1535, 1592-1616: the part `direct`, by differentiating the objective at a
fixed solution, is left out for the response type "discrete"; `adj` is the product of the adjoint solution with the
derivative of the residual.  (Of `direct` the evaluations of functions return nothing, C171; only squared norms remain.) -/
def sensitivity [Ring K] (resp : String) (direct adj : K) : K := (if resp ≠ "discrete" then direct else 0) + -adj

/-! ## Specification -/

/-- The request as one of the objective of C31. [specification, no code] -/
def Req.toCall : Req K → Call K
  | .value x => .value x
  | .gradient x => .gradient x

/-- The point of a request. [specification, no code] -/
def Req.pt : Req K → OptVec K
  | .value x => x
  | .gradient x => x

/-- Everything but the point: what the requests may not change. [specification, no code] -/
def SameSettings (s t : RState K S) : Prop :=
  s.datagen = t.datagen ∧ s.write = t.write ∧ s.resp = t.resp ∧ s.comp = t.comp ∧ s.data = t.data ∧
    s.target = t.target

/-! ## Requests -/

section
variable [Field K] [LinearOrder K]

theorem call_cur (tol2 : K) (e : Env K S) (s : RState K S) (o : OState K) (ho : o.cur = s.cur) (k : Req K) :
    (s.call tol2 e k).map (·.cur) = (o.call tol2 k.toCall).map (·.1.cur) := by
  cases k with
  | value x =>
    simp only [RState.call, Req.toCall, OState.call, OState.forward, ho, RState.solve]
    cases s.cur.set x <;> rfl
  | gradient x =>
    simp only [RState.call, Req.toCall, OState.call, OState.forward, ho, RState.solve]
    cases checkNew tol2 s.cur x with
    | none => rfl
    | some b =>
      cases b
      · simp [ho]
      · simp only [Option.bind_some, if_true]
        cases s.cur.set x <;> rfl

theorem call_quiet (tol2 : K) (e : Env K S) {s t : RState K S} {k : Req K} (h : s.call tol2 e k = some t)
    (hw : s.write = false) : SameSettings t s ∧ t.files = s.files := by
  have hsolve : ∀ c, SameSettings (RState.solve e { s with cur := c }) s ∧
      (RState.solve e { s with cur := c }).files = s.files := by
    intro c
    simp [RState.solve, SameSettings, hw]
  cases k with
  | value x =>
    simp only [RState.call, Option.map_eq_some_iff] at h
    obtain ⟨c, _, rfl⟩ := h
    exact hsolve c
  | gradient x =>
    simp only [RState.call, Option.bind_eq_some_iff] at h
    obtain ⟨b, _, h⟩ := h
    cases b
    · simp only [Bool.false_eq_true, if_false, Option.some.injEq] at h
      subst h
      exact ⟨⟨rfl, rfl, rfl, rfl, rfl, rfl⟩, rfl⟩
    · simp only [if_true, Option.map_eq_some_iff] at h
      obtain ⟨c, _, rfl⟩ := h
      exact hsolve c

theorem run_quiet (tol2 : K) (e : Env K S) : ∀ (ks : List (Req K)) {s t : RState K S},
    s.run tol2 e ks = some t → s.write = false → SameSettings t s ∧ t.files = s.files
  | [], s, t, h, _ => by
    simp only [RState.run, Option.some.injEq] at h
    subst h
    exact ⟨⟨rfl, rfl, rfl, rfl, rfl, rfl⟩, rfl⟩
  | k :: ks, s, t, h, hw => by
    simp only [RState.run, Option.bind_eq_some_iff] at h
    obtain ⟨u, h1, h2⟩ := h
    obtain ⟨⟨a1, a2, a3, a4, a5, a6⟩, a7⟩ := call_quiet tol2 e h1 hw
    obtain ⟨⟨b1, b2, b3, b4, b5, b6⟩, b7⟩ := run_quiet tol2 e ks h2 (a2.trans hw)
    exact ⟨⟨b1.trans a1, b2.trans a2, b3.trans a3, b4.trans a4, b5.trans a5, b6.trans a6⟩, b7.trans a7⟩

/-- The parameters left by the requests are those of the objective of C31. -/
theorem run_cur (tol2 : K) (e : Env K S) : ∀ (ks : List (Req K)) (s : RState K S) (o : OState K), o.cur = s.cur →
    (s.run tol2 e ks).map (·.cur) = (o.run tol2 (ks.map Req.toCall)).map (·.cur)
  | [], s, o, h => by simp [RState.run, OState.run, h]
  | k :: ks, s, o, h => by
    have hc := call_cur tol2 e s o h k
    simp only [RState.run, List.map_cons, OState.run, Option.bind_eq_bind]
    cases hs : s.call tol2 e k with
    | none =>
      rw [hs] at hc
      cases ho : o.call tol2 k.toCall with
      | none => rfl
      | some r => rw [ho] at hc; simp at hc
    | some u =>
      rw [hs] at hc
      cases ho : o.call tol2 k.toCall with
      | none => rw [ho] at hc; simp at hc
      | some r =>
        rw [ho] at hc
        simp only [Option.map_some, Option.some.injEq] at hc
        exact run_cur tol2 e ks u r.1 hc.symm

theorem call_soln (tol2 : K) (e : Env K S) {s t : RState K S} {k : Req K} (h : s.call tol2 e k = some t)
    (hs : s.soln = some (e.sim s.cur s.datagen) ∨ ∃ x, k = .value x) : t.soln = some (e.sim t.cur t.datagen) := by
  cases k with
  | value x =>
    simp only [RState.call, Option.map_eq_some_iff] at h
    obtain ⟨c, _, rfl⟩ := h
    rfl
  | gradient x =>
    rcases hs with hs | ⟨y, hy⟩
    · simp only [RState.call, Option.bind_eq_some_iff] at h
      obtain ⟨b, _, h⟩ := h
      cases b
      · simp only [Bool.false_eq_true, if_false, Option.some.injEq] at h
        subst h
        exact hs
      · simp only [if_true, Option.map_eq_some_iff] at h
        obtain ⟨c, _, rfl⟩ := h
        rfl
    · cases hy

end

/-! ## The whole run -/

section
variable [Field K] [LinearOrder K]

/-- The state with which the optimiser starts. [specification, no code] -/
def start (e : Env K S) (o : Options) (s : RState K S) : RState K S :=
  if o.generate then RState.generate e { s with write := false } else { s with write := false }

theorem start_eq (e : Env K S) (o : Options) (s : RState K S) :
    (start e o s).cur = s.cur ∧ (start e o s).write = false ∧ (start e o s).files = s.files ∧
      (start e o s).target = s.target ∧
      (start e o s).datagen = (if o.generate then s.datagen.map fun _ => 0 else s.datagen) ∧
      (start e o s).data =
        (if o.generate then s.data ++ [e.sim s.cur (s.datagen.map fun _ => 1)] else s.data) ∧
      (start e o s).resp = (if o.generate then "discrete" else s.resp) ∧
      (start e o s).comp = (if o.generate then true else s.comp) := by
  cases h : o.generate <;> simp [start, h, RState.generate, RState.solve]
  rfl

theorem optimise_some (tol2 : K) (e : Env K S) (w : Words K W) (o : Options) (ks : List (Req K)) (xfin : OptVec K)
    (s : RState K S) (d : Disk K W) {r : RState K S × Disk K W × Option (List K)}
    (h : optimise tol2 e w o ks xfin s d = some r) :
    ∃ t, (start e o s).run tol2 e ks = some t ∧ r.1 = t.finish e o s.write ∧
      r.2.1 = (match o.save with | some base => printVec w base r.1.cur d | none => d) ∧
      r.2.2 = (if o.final then some xfin.entries else none) := by
  simp only [optimise, Option.bind_eq_some_iff] at h
  obtain ⟨t, h1, h2⟩ := h
  simp only [Option.some.injEq] at h2
  refine ⟨t, ?_, ?_, ?_, ?_⟩
  · rw [← h1]
    unfold start
    cases o.generate <;> rfl
  · rw [← h2]
  · rw [← h2]
  · rw [← h2]

theorem finish_cur (e : Env K S) (o : Options) (p : Bool) (s : RState K S) :
    (s.finish e o p).cur = s.cur ∧ (s.finish e o p).datagen = s.datagen ∧ (s.finish e o p).data = s.data ∧
      (s.finish e o p).resp = s.resp ∧ (s.finish e o p).comp = s.comp := by
  cases p <;> cases h : o.disable <;> cases h2 : e.td <;>
    simp [RState.finish, h, h2, RState.setFile, RState.solve, RState.updateFlags]

/-- **C150, output.**  Whatever the optimiser asks for: if output was off, no output file changes and it stays off; if
it was on it is on again afterwards, and in a run in time the file "output_after_optimization.exo" has the solution
for the parameters left in the manager and nothing else, "output_only_control.exo" changes only on request, and every
other file — also the one named in the input — is as it was before. -/
theorem C150_output (tol2 : K) (e : Env K S) (w : Words K W) (o : Options) (ks : List (Req K)) (xfin : OptVec K)
    (s : RState K S) (d : Disk K W) (r : RState K S × Disk K W × Option (List K))
    (h : optimise tol2 e w o ks xfin s d = some r) :
    r.1.write = s.write ∧ (s.write = false → r.1.files = s.files) ∧
      (s.write = true → e.td = true →
        r.1.files "output_after_optimization.exo" = [e.sim r.1.cur r.1.datagen] ∧
        (∀ n, n ≠ "output_after_optimization.exo" → (o.disable = true → n ≠ "output_only_control.exo") →
          r.1.files n = s.files n)) := by
  obtain ⟨t, h1, h2, -, -⟩ := optimise_some tol2 e w o ks xfin s d h
  obtain ⟨-, a2, a3, -⟩ := start_eq e o s
  obtain ⟨⟨-, b2, -⟩, b3⟩ := run_quiet tol2 e ks h1 a2
  have hf : t.files = s.files := b3.trans a3
  have hw : t.write = false := b2.trans a2
  have hne : ("output_after_optimization.exo" : String) ≠ "output_only_control.exo" := by decide
  rw [h2]
  refine ⟨?_, ?_, ?_⟩
  · cases hp : s.write
    · simpa [RState.finish] using hw
    · cases hd : o.disable <;> cases ht : e.td <;>
        simp [RState.finish, hd, ht, RState.setFile, RState.solve, RState.updateFlags]
  · intro hp
    rw [hp]
    simpa [RState.finish] using hf
  · intro hp ht
    rw [hp]
    refine ⟨?_, ?_⟩
    · cases hd : o.disable <;>
        simp [RState.finish, hd, ht, RState.setFile, RState.solve, RState.updateFlags, upF]
    · intro n h3 h4
      cases hd : o.disable
      · simp [RState.finish, hd, ht, RState.setFile, RState.solve, upF, h3, hf]
      · simp [RState.finish, hd, ht, RState.setFile, RState.solve, RState.updateFlags, upF, h3, h4 hd, hf]

/-- C150 is false: in a steady run there is no file "output_after_optimization.exo" — it is as it was before — and the
file named in the input is replaced by the solution after the optimisation. -/
theorem C150_steady_violated (tol2 : K) (e : Env K S) (w : Words K W) (o : Options) (ks : List (Req K))
    (xfin : OptVec K) (s : RState K S) (d : Disk K W) (r : RState K S × Disk K W × Option (List K))
    (h : optimise tol2 e w o ks xfin s d = some r) (hp : s.write = true) (ht : e.td = false) :
    r.1.files e.name = [e.sim r.1.cur r.1.datagen] ∧ ∀ n, n ≠ e.name → r.1.files n = s.files n := by
  obtain ⟨t, h1, h2, -, -⟩ := optimise_some tol2 e w o ks xfin s d h
  obtain ⟨-, a2, a3, -⟩ := start_eq e o s
  obtain ⟨-, b3⟩ := run_quiet tol2 e ks h1 a2
  have hf : t.files = s.files := b3.trans a3
  rw [h2, hp]
  refine ⟨?_, ?_⟩
  · cases hd : o.disable <;>
      simp [RState.finish, hd, ht, RState.setFile, RState.solve, RState.updateFlags, upF]
  · intro n hn
    cases hd : o.disable <;>
      simp [RState.finish, hd, ht, RState.setFile, RState.solve, RState.updateFlags, upF, hn, hf]

/-- C150 is false: "Disable source on final output" disables nothing.  In a run in time the file
"output_only_control.exo" has the very solution that is in "output_after_optimization.exo". -/
theorem C150_source_violated (tol2 : K) (e : Env K S) (w : Words K W) (o : Options) (ks : List (Req K))
    (xfin : OptVec K) (s : RState K S) (d : Disk K W) (r : RState K S × Disk K W × Option (List K))
    (h : optimise tol2 e w o ks xfin s d = some r) (hp : s.write = true) (ht : e.td = true) (hd : o.disable = true) :
    r.1.files "output_only_control.exo" = r.1.files "output_after_optimization.exo" := by
  obtain ⟨t, h1, h2, -, -⟩ := optimise_some tol2 e w o ks xfin s d h
  rw [h2, hp]
  simp [RState.finish, hd, ht, RState.setFile, RState.solve, RState.updateFlags, upF]

/-- **C150, data.**  With "Generate data" the stored data are those of one forward run at the initial parameters with
`datagen` one, behind whatever was stored before, and neither the requests nor the final output change them; during the
optimisation and afterwards `datagen` is zero.  Without it nothing of this changes. -/
theorem C150_data (tol2 : K) (e : Env K S) (w : Words K W) (o : Options) (ks : List (Req K)) (xfin : OptVec K)
    (s : RState K S) (d : Disk K W) (r : RState K S × Disk K W × Option (List K))
    (h : optimise tol2 e w o ks xfin s d = some r) :
    (o.generate = true → r.1.data = s.data ++ [e.sim s.cur (s.datagen.map fun _ => 1)] ∧
        r.1.datagen = s.datagen.map fun _ => 0) ∧
      (o.generate = false → r.1.data = s.data ∧ r.1.datagen = s.datagen ∧ r.1.resp = s.resp ∧ r.1.comp = s.comp) := by
  obtain ⟨t, h1, h2, -, -⟩ := optimise_some tol2 e w o ks xfin s d h
  obtain ⟨-, a2, -, -, a5, a6, a7, a8⟩ := start_eq e o s
  obtain ⟨⟨b1, -, b3, b4, b5, -⟩, -⟩ := run_quiet tol2 e ks h1 a2
  obtain ⟨-, c2, c3, c4, c5⟩ := finish_cur e o s.write t
  rw [h2, c2, c3, c4, c5, b1, b3, b4, b5, a5, a6, a7, a8]
  refine ⟨fun hg => ?_, fun hg => ?_⟩ <;> simp [hg]

/-- C150 is false: data generation overwrites the settings.  Whatever was asked for in the input, afterwards the
response type is "discrete" and the objective is computed. -/
theorem C150_settings_violated (tol2 : K) (e : Env K S) (w : Words K W) (o : Options) (ks : List (Req K))
    (xfin : OptVec K) (s : RState K S) (d : Disk K W) (r : RState K S × Disk K W × Option (List K))
    (h : optimise tol2 e w o ks xfin s d = some r) (hg : o.generate = true) :
    r.1.resp = "discrete" ∧ r.1.comp = true ∧ (start e o s).resp = "discrete" := by
  obtain ⟨t, h1, h2, -, -⟩ := optimise_some tol2 e w o ks xfin s d h
  obtain ⟨-, a2, -, -, -, -, a7, a8⟩ := start_eq e o s
  obtain ⟨⟨-, -, b3, b4, -, -⟩, -⟩ := run_quiet tol2 e ks h1 a2
  obtain ⟨-, -, -, c4, c5⟩ := finish_cur e o s.write t
  rw [h2, c4, c5, b3, b4, a7, a8]
  simp [hg]

/-- C150 is false: because of this, every gradient the optimiser gets lacks the derivative of the objective at a fixed
solution; with a regularisation term `p²` and an adjoint part `adj` it gets `-adj` for `2p - adj`. -/
theorem C150_gradient_violated (tol2 : K) (e : Env K S) (o : Options) (ks : List (Req K)) (s t : RState K S)
    (hg : o.generate = true) (h : (start e o s).run tol2 e ks = some t) (direct adj : K) (hd : direct ≠ 0) :
    sensitivity t.resp direct adj = -adj ∧ sensitivity t.resp direct adj ≠ direct - adj := by
  obtain ⟨-, a2, -, -, -, -, a7, -⟩ := start_eq e o s
  obtain ⟨⟨-, -, b3, -⟩, -⟩ := run_quiet tol2 e ks h a2
  have hr : t.resp = "discrete" := by rw [b3, a7]; simp [hg]
  have hz : sensitivity t.resp direct adj = -adj := by simp [sensitivity, hr]
  refine ⟨hz, ?_⟩
  rw [hz]
  intro hc
  apply hd
  linear_combination -hc

/-- **C150, gradients without generated data.**  The gradient is the sum of the direct and the adjoint part, unless the
input says "discrete". -/
theorem C150_gradient_partial (tol2 : K) (e : Env K S) (o : Options) (ks : List (Req K)) (s t : RState K S)
    (hg : o.generate = false) (h : (start e o s).run tol2 e ks = some t) (hr : s.resp ≠ "discrete") (direct adj : K) :
    sensitivity t.resp direct adj = direct - adj := by
  obtain ⟨-, a2, -, -, -, -, a7, -⟩ := start_eq e o s
  obtain ⟨⟨-, -, b3, -⟩, -⟩ := run_quiet tol2 e ks h a2
  have : t.resp = s.resp := by rw [b3, a7]; simp [hg]
  simp [sensitivity, this, hr, sub_eq_add_neg]

/-! ## The saved parameters -/

theorem printFrom_some (name : Nat → String) (c : List K → Content K W) : ∀ (vs : List (List K)) (t : Nat)
    (d : Disk K W), printFrom name c t (vs.map some) d = putFrom name c t vs d
  | [], _, _ => rfl
  | v :: vs, t, d => by
    simp only [List.map_cons, printFrom, putFrom]
    exact printFrom_some name c vs (t + 1) _

theorem putAll_eq (name : Nat → String) (c : List K → Content K W) (vs : List (List K)) (d : Disk K W) :
    putAll name c vs d = putFrom name c 0 vs d := by
  match vs with
  | [] => rfl
  | [v] => rfl
  | v :: u :: vs => rfl

theorem putFrom_put (name : Nat → String) (c : List K → Content K W) (n : String) (x : Content K W)
    (hn : ∀ k, name k ≠ n) : ∀ (vs : List (List K)) (t : Nat) (d : Disk K W),
    putFrom name c t vs (d.put n x) = (putFrom name c t vs d).put n x
  | [], _, _ => rfl
  | v :: vs, t, d => by
    simp only [putFrom]
    rw [← putFrom_put name c n x hn vs (t + 1)]
    congr 1
    funext m
    simp only [Disk.put]
    by_cases h1 : m = n
    · subst h1
      simp [(hn t).symm]
    · simp [h1]

theorem putFrom_comm (name name' : Nat → String) (c c' : List K → Content K W) (hn : ∀ k l, name k ≠ name' l) :
    ∀ (us vs : List (List K)) (t t' : Nat) (d : Disk K W),
    putFrom name c t vs (putFrom name' c' t' us d) = putFrom name' c' t' us (putFrom name c t vs d)
  | [], _, _, _, _ => rfl
  | u :: us, vs, t, t', d => by
    simp only [putFrom]
    rw [putFrom_comm name name' c c' hn us vs t (t' + 1) _, putFrom_put name c _ _ (fun k => hn k t') vs t]

/-- **C150, the files.**  Printing a vector without null components writes the same files as writing it at the end of
any other analysis (C139). -/
theorem C150_files (w : Words K W) (base : String) (f s : List (List K)) (x : OptVec K) (hf : x.field = f.map some)
    (hs : x.scalar = s.map some) (d : Disk K W) : printVec w base x d = writeOpt w base (s, f) d := by
  unfold printVec writeOpt
  rw [hf, hs, printFrom_some, printFrom_some, putAll_eq, putAll_eq]
  exact putFrom_comm _ _ _ _ (fun k l => Analysis.scalar_ne_field base base k l) _ _ _ _ _

theorem printFrom_at (name : Nat → String) (hn : ∀ a b, name a = name b → a = b) (c : List K → Content K W) :
    ∀ (cs : Comps K) (t k : Nat) (d : Disk K W), printFrom name c t cs d (name (t + k)) =
      match cs[k]? with
      | some (some v) => some (c v)
      | _ => d (name (t + k))
  | [], t, k, d => by simp [printFrom]
  | o :: cs, t, k, d => by
    have out : ∀ (cs : Comps K) (u : Nat) (d : Disk K W), t < u → printFrom name c u cs d (name t) = d (name t) := by
      intro cs
      induction cs with
      | nil => intro u d _; rfl
      | cons o cs ih =>
        intro u d hu
        cases o with
        | none => exact ih (u + 1) d (by omega)
        | some v =>
          refine (ih (u + 1) _ (by omega)).trans ?_
          have : ¬ name t = name u := fun h => by have := hn _ _ h; omega
          simp [Disk.put, this]
    cases k with
    | zero =>
      cases o with
      | none => exact out cs (t + 1) d (by omega)
      | some v => exact (out cs (t + 1) _ (by omega)).trans (by simp [Disk.put])
    | succ k =>
      have e : t + (k + 1) = t + 1 + k := by omega
      cases o with
      | none =>
        show printFrom name c (t + 1) cs d _ = _
        rw [e, printFrom_at name hn c cs (t + 1) k]
        rfl
      | some v =>
        show printFrom name c (t + 1) cs (d.put (name t) (c v)) _ = _
        rw [e, printFrom_at name hn c cs (t + 1) k]
        have : ¬ name (t + 1 + k) = name t := fun h => by have := hn _ _ h; omega
        simp [Disk.put, this]

/-- **C150, the number of a file.**  With or without null components, the file of number `k` holds component `k` of the
scalars, or is left alone if that component is null or there is none. -/
theorem C150_numbers (w : Words K W) (base : String) (x : OptVec K) (d : Disk K W) (k : Nat) :
    printVec w base x d (scalarName base k) =
        (match x.scalar[k]? with
        | some (some v) => some (scalarText w v)
        | _ => d (scalarName base k)) ∧
      printVec w base x d (fieldName base k) =
        (match x.field[k]? with
        | some (some v) => some (.dense (v.map w.lib))
        | _ => d (fieldName base k)) := by
  have other : ∀ (name : Nat → String) (c : List K → Content K W) (n : String), (∀ j, n ≠ name j) →
      ∀ (cs : Comps K) (t : Nat) (d : Disk K W), printFrom name c t cs d n = d n := by
    intro name c n hn cs
    induction cs with
    | nil => intro t d; rfl
    | cons o cs ih =>
      intro t d
      cases o with
      | none => exact ih (t + 1) d
      | some v => exact (ih (t + 1) _).trans (by simp [Disk.put, hn t])
  have e : (0 : Nat) + k = k := Nat.zero_add k
  refine ⟨?_, ?_⟩
  · have h := printFrom_at (scalarName base) (fun _ _ => Analysis.scalarName_inj) (scalarText w) x.scalar 0 k
      (printFrom (fieldName base) (fun f => .dense (f.map w.lib)) 0 x.field d)
    rw [e] at h
    unfold printVec
    rw [h, other (fieldName base) _ _ (fun j => Analysis.scalar_ne_field base base k j)]
  · have h := printFrom_at (fieldName base) (fun _ _ => Analysis.fieldName_inj) (fun f => .dense (f.map w.lib)) x.field 0 k d
    rw [e] at h
    unfold printVec
    rw [other (scalarName base) _ _ (fun j hj => Analysis.scalar_ne_field base base j k hj.symm), h]

example (w : Words ℚ String) (d : Disk ℚ String) (x : OptVec ℚ) (h : x.scalar = [none, some [3]]) :
    printVec w "p" x d (scalarName "p" 1) = some (scalarText w [3]) := by
  have := (C150_numbers w "p" x d 1).1
  rw [h] at this
  exact this

theorem upd_some (g : K → K → K) : ∀ (u : List (List K)) (ds : Comps K) (r : Comps K),
    upd g (u.map some) ds = some r → ∃ r' : List (List K), r = r'.map some ∧ r'.map List.length = u.map List.length
  | [], ds, r, h => by
    simp only [List.map_nil, upd, Option.some.injEq] at h
    exact ⟨[], by simp [← h], rfl⟩
  | a :: u, [], r, h => by simp [upd] at h
  | a :: u, none :: ds, r, h => by simp [upd] at h
  | a :: u, some b :: ds, r, h => by
    simp only [List.map_cons, upd, Option.bind_eq_bind, Option.bind_eq_some_iff, Option.pure_def,
      Option.some.injEq] at h
    obtain ⟨v, h1, q, h2, h3⟩ := h
    obtain ⟨r', e1, e2⟩ := upd_some g u ds q h2
    refine ⟨v :: r', by rw [← h3, e1]; rfl, ?_⟩
    have : v.length = a.length := by
      unfold zip2 at h1
      split_ifs at h1 with hl
      simp only [Option.some.injEq] at h1
      rw [← h1, List.length_zipWith, hl, Nat.min_self]
    simp [this, e2]

/-- Components present, with given sizes. [specification, no code] -/
def Full (nf ns : List Nat) (x : OptVec K) : Prop :=
  (∃ f : List (List K), x.field = f.map some ∧ f.map List.length = nf) ∧
    ∃ s : List (List K), x.scalar = s.map some ∧ s.map List.length = ns

theorem set_full {nf ns : List Nat} {x y c : OptVec K} (h : Full nf ns x) (hc : x.set y = some c) : Full nf ns c := by
  obtain ⟨⟨f, f1, f2⟩, ⟨s, s1, s2⟩⟩ := h
  simp only [OptVec.set, OptVec.update, Option.bind_eq_bind, Option.bind_eq_some_iff, Option.pure_def,
    Option.some.injEq] at hc
  obtain ⟨a, h1, b, h2, h3⟩ := hc
  rw [f1] at h1
  rw [s1] at h2
  obtain ⟨f', e1, e2⟩ := upd_some _ f _ _ h1
  obtain ⟨s', e3, e4⟩ := upd_some _ s _ _ h2
  rw [← h3]
  exact ⟨⟨f', e1, e2.trans f2⟩, ⟨s', e3, e4.trans s2⟩⟩

theorem run_full (tol2 : K) (e : Env K S) {nf ns : List Nat} : ∀ (ks : List (Req K)) {s t : RState K S},
    s.run tol2 e ks = some t → Full nf ns s.cur → Full nf ns t.cur
  | [], s, t, h, hs => by
    simp only [RState.run, Option.some.injEq] at h
    exact h ▸ hs
  | k :: ks, s, t, h, hs => by
    simp only [RState.run, Option.bind_eq_some_iff] at h
    obtain ⟨u, h1, h2⟩ := h
    refine run_full tol2 e ks h2 ?_
    cases k with
    | value x =>
      simp only [RState.call, Option.map_eq_some_iff] at h1
      obtain ⟨c, hc, rfl⟩ := h1
      exact set_full hs hc
    | gradient x =>
      simp only [RState.call, Option.bind_eq_some_iff] at h1
      obtain ⟨b, _, h1⟩ := h1
      cases b
      · simp only [Bool.false_eq_true, if_false, Option.some.injEq] at h1
        exact h1 ▸ hs
      · simp only [if_true, Option.map_eq_some_iff] at h1
        obtain ⟨c, hc, rfl⟩ := h1
        exact set_full hs hc

theorem flat_some (u : List (List K)) : flat (u.map some) = u.flatten := by
  induction u with
  | nil => rfl
  | cons a u ih => simp [flat, ih]

/-- **C150, saved parameters read back.**  Whatever the optimiser asked for and whatever was on the disk: with "save
parameters to file" a later run with the same numbers of levels and entries reads, field by field and scalar by scalar,
the parameters left in the manager (in the printed digits). -/
theorem C150_saved (tol2 : K) (e : Env K S) (w : Words K W) (rd : K → K) (hrd : Reads w rd) (o : Options)
    (base : String) (ho : o.save = some base) (ks : List (Req K)) (xfin : OptVec K) (s : RState K S) (d : Disk K W)
    (m nF : Nat) (ns : List Nat) (hfull : Full (List.replicate nF m) ns s.cur)
    (r : RState K S × Disk K W × Option (List K)) (h : optimise tol2 e w o ks xfin s d = some r) :
    ∃ f sc : List (List K), r.1.cur.field = f.map some ∧ r.1.cur.scalar = sc.map some ∧
      readOpt w base ns.length nF m r.2.1 = some (sc.map (·.map rd), f.map (·.map w.lib)) := by
  obtain ⟨t, h1, h2, h3, -⟩ := optimise_some tol2 e w o ks xfin s d h
  obtain ⟨a1, -⟩ := start_eq e o s
  have ht := run_full tol2 e (nf := List.replicate nF m) (ns := ns) ks h1 (by rw [a1]; exact hfull)
  obtain ⟨c1, -⟩ := finish_cur e o s.write t
  rw [← c1, ← h2] at ht
  obtain ⟨⟨f, f1, f2⟩, ⟨sc, s1, s2⟩⟩ := ht
  refine ⟨f, sc, f1, s1, ?_⟩
  rw [h3, ho]
  dsimp only
  rw [C150_files w base f sc _ f1 s1]
  have hl : f.length = nF := by
    have := congrArg List.length f2
    simpa using this
  have hl' : sc.length = ns.length := by
    have := congrArg List.length s2
    simpa using this
  have hm : ∀ v ∈ f, v.length = m := by
    intro v hv
    have : v.length ∈ f.map List.length := List.mem_map_of_mem hv
    rw [f2] at this
    exact (List.mem_replicate.mp this).2
  have := Analysis.C139_vector w rd hrd base sc f m hm d
  rw [hl, hl'] at this
  exact this

end

/-! ## The final point -/

section
variable [Field K] [LinearOrder K] [IsStrictOrderedRing K]

/-- **C150, the final point** (partial: only if the last request was at the point the optimiser returns, and for a
gradient up to the tolerance of the code).  Then the run succeeds, the manager's parameters — the saved ones and those of
the output after the optimisation — are that point, and they are what is printed to "final_params_.dat". -/
theorem C150_final_partial (tol2 : K) (ht : 0 ≤ tol2) (e : Env K S) (w : Words K W) (o : Options)
    (ks : List (Req K)) (k : Req K) (s : RState K S) (d : Disk K W) (hu : Usual s.cur)
    (hks : ∀ j ∈ ks, Same s.cur j.pt) (hk : Same s.cur k.pt) :
    ∃ r, optimise tol2 e w o (ks ++ [k]) k.pt s d = some r ∧
      (r.1.cur.entries = k.pt.entries ∨ ((∀ x, k ≠ .value x) ∧ Near tol2 r.1.cur r.1.cur k.pt)) ∧
      (o.final = true → r.2.2 = some k.pt.entries) := by
  have hok : ∀ c ∈ ks.map Req.toCall, c.ok (⟨s.cur, none⟩ : OState K).cur := by
    intro c hc
    obtain ⟨j, hj, rfl⟩ := List.mem_map.mp hc
    cases j <;> exact hks _ hj
  have key := C56_partial tol2 ht ⟨s.cur, none⟩ hu (ks.map Req.toCall) hok k.pt hk
  have hlast : ∃ u, (⟨s.cur, none⟩ : OState K).run tol2 ((ks ++ [k]).map Req.toCall) = some u ∧
      (u.cur.entries = k.pt.entries ∨ ((∀ x, k ≠ .value x) ∧ Near tol2 u.cur u.cur k.pt)) := by
    rw [List.map_append]
    cases k with
    | value x =>
      obtain ⟨u, u1, u2⟩ := key.1
      exact ⟨u, u1, Or.inl u2⟩
    | gradient x =>
      obtain ⟨u, u1, u2⟩ := key.2
      refine ⟨u, u1, ?_⟩
      rcases u2 with h | h
      · exact Or.inl h
      · exact Or.inr ⟨(by intro y hy; cases hy), h⟩
  obtain ⟨u, u1, u2⟩ := hlast
  have hc := run_cur tol2 e (ks ++ [k]) (start e o s) ⟨s.cur, none⟩ (start_eq e o s).1.symm
  rw [u1] at hc
  cases hr : (start e o s).run tol2 e (ks ++ [k]) with
  | none => rw [hr] at hc; simp at hc
  | some t =>
    rw [hr] at hc
    simp only [Option.map_some, Option.some.injEq] at hc
    refine ⟨(t.finish e o s.write, (match o.save with
      | some base => printVec w base (t.finish e o s.write).cur d
      | none => d), if o.final then some k.pt.entries else none), ?_, ?_, ?_⟩
    · have hr' : RState.run tol2 e (ks ++ [k])
          (if o.generate then RState.generate e { s with write := false } else { s with write := false }) = some t := hr
      simp only [optimise, hr', Option.bind_some]
    · rw [(finish_cur e o s.write t).1, hc]
      exact u2
    · intro hf
      simp [hf]

/-- C150 is false: if the optimiser rejects its last trial point `x1` and returns `x0`, the output after the
optimisation and the saved parameters belong to `x1`, while "final_params_.dat" has `x0`. -/
theorem C150_final_violated (tol2 : K) (ht : 0 ≤ tol2) (e : Env K S) (w : Words K W) (o : Options)
    (s : RState K S) (d : Disk K W) (hu : Usual s.cur) (x0 x1 : OptVec K) (h0 : Same s.cur x0) (h1 : Same s.cur x1)
    (hf : o.final = true) :
    ∃ r, optimise tol2 e w o [.value x0, .gradient x0, .value x1] x0 s d = some r ∧ r.1.cur.entries = x1.entries ∧
      r.2.2 = some x0.entries := by
  obtain ⟨r, r1, r2, -⟩ := C150_final_partial tol2 ht e w o [.value x0, .gradient x0] (.value x1) s d hu
    (by intro j hj; simp at hj; rcases hj with rfl | rfl <;> exact h0) h1
  have r1 : optimise tol2 e w o [.value x0, .gradient x0, .value x1] x1 s d = some r := r1
  simp only [optimise, Option.bind_eq_some_iff] at r1
  obtain ⟨t, t1, t2⟩ := r1
  simp only [Option.some.injEq] at t2
  refine ⟨(r.1, r.2.1, some x0.entries), ?_, ?_, rfl⟩
  · simp only [optimise, Option.bind_eq_some_iff]
    refine ⟨t, t1, ?_⟩
    rw [← t2]
    simp [hf]
  · rcases r2 with h | ⟨h, -⟩
    · exact h
    · exact absurd rfl (h x1)

end

/-! ## Cases -/

/-- A vector with one scalar. [case] -/
def vec (a : ℚ) : OptVec ℚ := ⟨[], [some [a]], false, 1, none, false⟩

/-- A run in time whose solution is three times the parameter, plus the generating source. [case] -/
def env : Env ℚ ℚ := ⟨true, "output.exo", fun x g => 3 * x.entries.sum + g.getD 0⟩

/-- The state before the analysis. [case] -/
def state : RState ℚ ℚ := ⟨vec 1, some 0, true, "pointwise", false, none, [], "output.exo", fun _ => []⟩

/-- Generated data, a step from 1 to 2 and a rejected trial point 5: the output belongs to 5. -/
example :
    let r := optimise (1/10^24 : ℚ) env Analysis.words12 ⟨true, true, some "params", true⟩
      [.value (vec 1), .gradient (vec 1), .value (vec 2), .gradient (vec 2), .value (vec 5)] (vec 2) state (fun _ => none)
    r.map (fun r => (r.1.data, r.1.cur, r.1.datagen, r.2.2)) = some ([4], vec 5, some 0, some [2]) := by
  decide +kernel

example :
    let r := optimise (1/10^24 : ℚ) env Analysis.words12 ⟨true, true, some "params", true⟩
      [.value (vec 1), .gradient (vec 1), .value (vec 2)] (vec 2) state (fun _ => none)
    r.map (fun r => (r.1.files "output_after_optimization.exo", r.1.files "output_only_control.exo",
      r.1.files "output.exo", r.1.write)) = some ([6], [6], [], true) := by
  decide +kernel

example : Usual (vec 1) ∧ Full (List.replicate 0 0) [1] (vec 1) ∧ Same (vec 1) (vec 5) :=
  ⟨⟨rfl, rfl, (by intro D h; cases h), (by intro _; rfl), (by intro D h; cases h)⟩,
    ⟨⟨[], rfl, rfl⟩, ⟨[[1]], rfl, rfl⟩⟩, ⟨fun _ => rfl, fun i => (by cases i <;> rfl)⟩⟩

end MrHyDE.Opt.Run
