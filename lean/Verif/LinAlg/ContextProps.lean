import Verif.LinAlg.Context
import Mathlib.Algebra.Field.Rat
import Mathlib.Algebra.BigOperators.Group.List.Basic
import Mathlib.Tactic.NormNum
import Mathlib.Tactic.FieldSimp
import Mathlib.Tactic.Ring

/-!
# C123: which matrix and which preconditioner a linear solve is given

What a user relies on: a linear solve works with the Jacobian of the current state, or, when reuse is asked for,
with one assembled earlier in the same run; forward and adjoint runs never share one; the preconditioner belongs to
a matrix of the same run; options mean what the input says.
-/

namespace MrHyDE.LinAlg

set_option linter.unusedSectionVars false
set_option linter.unusedSimpArgs false

variable {M : Type}

/-! ## Specification -/

/-- [specification, no code] The matrices the linear solves of a run should be given when nothing is reused: the one
assembled in the same pass. -/
def CurrentJacobians (run : List (Pass M)) : List (Option (Content M)) :=
  run.map fun p => if p.solve then some (.filled p.jac) else none

/-- [specification, no code] The matrices the linear solves of a run should be given when the first Jacobian of the
run is reused: that one. -/
def FirstJacobian (run : List (Pass M)) : List (Option (Content M)) :=
  run.map fun p =>
    if p.solve then (run.find? (fun q => q.solve)).map (fun q => Content.filled q.jac) else none

/-! ## The matrix -/

theorem passes_fresh (c : Ctx M) (run : List (Pass M)) : (passes false c run).2 = CurrentJacobians run := by
  induction run generalizing c with
  | nil => rfl
  | cons p ps ih =>
    simp only [passes, CurrentJacobians, List.map_cons]
    rw [ih]
    congr 1
    cases hp : p.solve <;> simp [pass, getNewMatrix, reuses, hp]

/-- Without reuse, every linear solve of every run is given the Jacobian assembled in the same pass, whatever
happened before. -/
theorem C123_fresh (c : Ctx M) (runs : List (List (Pass M))) :
    session false c runs = runs.map CurrentJacobians := by
  induction runs generalizing c with
  | nil => rfl
  | cons r rs ih =>
    simp only [session, List.map_cons]
    rw [passes_fresh, ih]

/-- [case] two runs of three passes, the last pass of each converged. -/
example : session false (Ctx.fresh : Ctx ℚ)
    [[⟨true, 1⟩, ⟨true, 2⟩, ⟨false, 3⟩], [⟨true, 4⟩, ⟨true, 5⟩, ⟨false, 6⟩]] =
    [[some (.filled 1), some (.filled 2), none], [some (.filled 4), some (.filled 5), none]] := by
  rw [C123_fresh]; rfl

theorem passes_stored (c : Ctx M) (hc : c.haveMatrix = true) (run : List (Pass M)) :
    passes true c run = (c, run.map fun p => if p.solve then some c.stored else none) := by
  induction run with
  | nil => rfl
  | cons p ps ih =>
    have hp : pass true c p = (c, if p.solve then some c.stored else none) := by
      cases h : p.solve <;> simp [pass, getNewMatrix, reuses, h, hc]
    simp only [passes, hp, ih, List.map_cons]

theorem passes_first (c : Ctx M) (hc : c.haveMatrix = false) (p : Pass M) (ps : List (Pass M)) :
    (passes true c (p :: ps)).2 =
      (if p.solve then some (.filled p.jac) else none) ::
        ps.map fun q => if q.solve then some (if p.solve then .filled p.jac else .unfilled) else none := by
  cases hp : p.solve
  · have : pass true c p = ({ c with haveMatrix := true, stored := .unfilled }, none) := by
      simp [pass, getNewMatrix, reuses, hp, hc]
    simp only [passes, this]
    rw [passes_stored _ rfl]
    simp
  · have : pass true c p = ({ c with haveMatrix := true, stored := .filled p.jac }, some (.filled p.jac)) := by
      simp [pass, getNewMatrix, reuses, hp, hc]
    simp only [passes, this]
    rw [passes_stored _ rfl]
    simp

/-- With reuse, every linear solve of every run is given the first Jacobian of that run, provided the first pass of
each run needs a linear solve.  In particular no adjoint run is given a Jacobian of a forward run or the other way
round.  Missing: a run whose first pass needs no linear solve, see `C123_empty_violated`. -/
theorem C123_reuse_partial (c : Ctx M) (runs : List (List (Pass M)))
    (h : ∀ run ∈ runs, ∀ p ∈ run.head?, p.solve = true) :
    session true c runs = runs.map FirstJacobian := by
  induction runs generalizing c with
  | nil => rfl
  | cons r rs ih =>
    simp only [session, List.map_cons]
    rw [ih _ (fun run hr => h run (List.mem_cons_of_mem _ hr))]
    congr 1
    cases r with
    | nil => rfl
    | cons p ps =>
      have hp : p.solve = true := h _ List.mem_cons_self p (by simp)
      rw [passes_first _ (by rfl)]
      simp only [FirstJacobian, List.map_cons, List.find?_cons, hp, if_true, Option.map_some]

/-- [case] a forward run and an adjoint run. -/
example : session true (Ctx.fresh : Ctx ℚ) [[⟨true, 1⟩, ⟨true, 2⟩, ⟨false, 3⟩], [⟨true, 4⟩, ⟨true, 5⟩]] =
    [[some (.filled 1), some (.filled 1), none], [some (.filled 4), some (.filled 4)]] := by
  rw [C123_reuse_partial _ _ (by simp)]; rfl

/-- Violated: with reuse, a run whose first pass finds the residual small enough marks the matrix as available
although nothing was assembled; every later linear solve of that run is given this empty matrix, and the linear
solve with it fails. -/
theorem C123_empty_violated (cfg : Config) (c : Ctx M) (p : Pass M) (hp : p.solve = false) (ps : List (Pass M)) :
    (passes true c.reset (p :: ps)).2 = none :: ps.map (fun q => if q.solve then some .unfilled else none) ∧
    ∀ used ∈ (passes true c.reset (p :: ps)).2, ∀ content ∈ used, ∀ c' : Ctx M, linearSolve cfg c' content = none := by
  have h := passes_first c.reset rfl p ps
  simp only [hp, Bool.false_eq_true, if_false] at h
  refine ⟨h, ?_⟩
  rw [h]
  intro used hu content hcon c'
  simp only [List.mem_cons, List.mem_map] at hu
  rcases hu with rfl | ⟨q, _, rfl⟩
  · simp at hcon
  · cases hq : q.solve <;> simp [hq] at hcon
    subst hcon
    rfl

/-- [case] the first time step starts at rest; the second needs a solve. -/
example : session true (Ctx.fresh : Ctx ℚ) [[⟨false, 1⟩, ⟨true, 2⟩, ⟨false, 3⟩]] = [[none, some .unfilled, none]] := by
  decide +kernel

/-- [specification, no code] The adjoint update of one pass with scalars: the correction solves with the given
Jacobian the residual formed with the same Jacobian. -/
def adjointUpdate {K : Type} [Field K] (jac grad phi : K) : K := phi + (grad - jac * phi) / jac

/-- Violated: an adjoint run makes one linear solve per time step and no iteration, so the adjoint it produces
solves the equation with the matrix it was given.  With reuse that is the Jacobian of the run's first step, and the
adjoint of every step whose Jacobian differs is wrong. -/
theorem C123_adjoint_violated {K : Type} [Field K] (c : Ctx K) (first later grad phi : K)
    (hne : first ≠ later) (h0 : first ≠ 0) (h1 : later ≠ 0) (hg : grad ≠ 0) :
    session true c [[⟨true, first⟩, ⟨true, later⟩]] = [[some (.filled first), some (.filled first)]] ∧
    later * adjointUpdate later grad phi = grad ∧
    later * adjointUpdate first grad phi ≠ grad := by
  refine ⟨?_, ?_, ?_⟩
  · rw [C123_reuse_partial _ _ (by simp)]
    simp [FirstJacobian]
  · unfold adjointUpdate
    field_simp
    ring
  · intro h
    apply hne
    have e : adjointUpdate first grad phi = grad / first := by
      unfold adjointUpdate
      field_simp
      ring
    rw [e] at h
    field_simp at h
    exact h.symm

/-- [case] -/
example : (2 : ℚ) * adjointUpdate 1 3 5 ≠ 3 :=
  (C123_adjoint_violated (Ctx.fresh : Ctx ℚ) 1 2 3 5 (by norm_num) (by norm_num) (by norm_num) (by norm_num)).2.2

/-! ## The linear solve and its preconditioner -/

/-- [specification, no code] The operator a linear solve works with. -/
def Action.operator : Action M → M
  | .direct m _ => m
  | .krylov _ m _ => m

/-- [specification, no code] The matrix the preconditioner of a linear solve comes from, if there is one. -/
def Action.precFrom : Action M → Option M
  | .direct _ _ => none
  | .krylov _ _ p => p.map fun q => q.2.2

/-- The linear solves go through exactly when a direct solver is asked for or the iterative solver is known; then
each works with the matrix it was handed. -/
theorem C123_operator (cfg : Config) (c : Ctx M) (ms : List M) :
    (cfg.useDirect = true ∨ cfg.belosType ∈ belosKnown →
      ∃ r, solves cfg c ms = some r ∧ r.2.map Action.operator = ms) ∧
    (¬ (cfg.useDirect = true ∨ cfg.belosType ∈ belosKnown) → ms ≠ [] → solves cfg c ms = none) := by
  constructor
  · intro h
    induction ms generalizing c with
    | nil => exact ⟨_, rfl, rfl⟩
    | cons m ms ih =>
      have hl : ∃ q, linearSolve cfg c (.filled m) = some q ∧ q.2.operator = m := by
        by_cases hd : cfg.useDirect = true
        · exact ⟨_, by simp only [linearSolve, hd, if_true]; rfl, rfl⟩
        · have hb : cfg.belosType ∈ belosKnown := h.resolve_left hd
          exact ⟨_, by simp only [linearSolve, hd, hb, if_true, if_false, Bool.false_eq_true]; rfl, rfl⟩
      obtain ⟨q, hq, ho⟩ := hl
      obtain ⟨r, hr, hm⟩ := ih q.1
      refine ⟨(r.1, q.2 :: r.2), ?_, ?_⟩
      · simp only [solves, hq, hr, Option.bind_eq_bind, Option.bind_some, Option.pure_def]
      · simp only [List.map_cons, ho, hm]
  · intro h hne
    push Not at h
    cases ms with
    | nil => exact absurd rfl hne
    | cons m ms =>
      have : linearSolve cfg c (.filled m) = none := by
        simp only [linearSolve, h.1, h.2, if_false, Bool.false_eq_true]
      simp only [solves, this, Option.bind_eq_bind, Option.bind_none]

theorem solves_prec (cfg : Config) (hd : cfg.useDirect = false) (hu : cfg.usePrec = true)
    (hb : cfg.belosType ∈ belosKnown) (c : Ctx M) (m : M) (ms : List M) :
    solves cfg c (m :: ms) =
      (solves cfg (precStep cfg c m).1 ms).map fun r =>
        (r.1, Action.krylov cfg.belosType m (some (precKind cfg.precType, cfg.rightPrec, (precStep cfg c m).2)) :: r.2) := by
  simp only [solves, linearSolve, hd, hu, hb, if_true, if_false, Bool.false_eq_true, Option.bind_eq_bind,
    Option.bind_some, Option.pure_def]
  cases solves cfg (precStep cfg c m).1 ms <;> rfl

/-- When preconditioners are not reused, or the preconditioner is the multigrid one, every linear solve uses a
preconditioner computed from the matrix of that solve, on the side asked for. -/
theorem C123_prec_current (cfg : Config) (hd : cfg.useDirect = false) (hu : cfg.usePrec = true)
    (hb : cfg.belosType ∈ belosKnown) (h : cfg.reusePrec = false ∨ precKind cfg.precType = .amg)
    (c : Ctx M) (ms : List M) :
    ∃ c', solves cfg c ms = some (c', ms.map fun m =>
      Action.krylov cfg.belosType m (some (precKind cfg.precType, cfg.rightPrec, m))) := by
  induction ms generalizing c with
  | nil => exact ⟨c, rfl⟩
  | cons m ms ih =>
    have hp : (precStep cfg c m).2 = m := by
      unfold precStep
      rcases h with h | h
      · simp [h]
      · by_cases hh : (!cfg.reusePrec || !c.havePrec) = true <;> simp [h, hh]
    obtain ⟨c', hc'⟩ := ih (precStep cfg c m).1
    refine ⟨c', ?_⟩
    rw [solves_prec cfg hd hu hb, hc', hp]
    rfl

theorem precStep_kept (cfg : Config) (hr : cfg.reusePrec = true) (hk : precKind cfg.precType ≠ .amg)
    (c : Ctx M) (m0 m : M) (h1 : c.havePrec = true) (h2 : c.precOf = some m0) : precStep cfg c m = (c, m0) := by
  unfold precStep
  simp only [hr, h1, Bool.not_true, Bool.or_self, if_false, Bool.false_eq_true, h2, Option.getD_some]

theorem solves_kept (cfg : Config) (hd : cfg.useDirect = false) (hu : cfg.usePrec = true)
    (hb : cfg.belosType ∈ belosKnown) (hr : cfg.reusePrec = true) (hk : precKind cfg.precType ≠ .amg)
    (c : Ctx M) (m0 : M) (h1 : c.havePrec = true) (h2 : c.precOf = some m0) (ms : List M) :
    solves cfg c ms = some (c, ms.map fun m =>
      Action.krylov cfg.belosType m (some (precKind cfg.precType, cfg.rightPrec, m0))) := by
  induction ms with
  | nil => rfl
  | cons m ms ih =>
    rw [solves_prec cfg hd hu hb, precStep_kept cfg hr hk c m0 m h1 h2, ih]
    rfl

/-- With reuse of a Schwarz or Ifpack2 preconditioner, all linear solves after a reset use the preconditioner
computed from the first matrix after that reset; one from before the reset is never used. -/
theorem C123_prec_first (cfg : Config) (hd : cfg.useDirect = false) (hu : cfg.usePrec = true)
    (hb : cfg.belosType ∈ belosKnown) (hr : cfg.reusePrec = true) (hk : precKind cfg.precType ≠ .amg)
    (c : Ctx M) (m : M) (ms : List M) :
    ∃ r, solves cfg c.reset (m :: ms) = some r ∧
      r.2.map Action.operator = m :: ms ∧ ∀ a ∈ r.2, a.precFrom = some m := by
  have hs : precStep cfg c.reset m = ({ c.reset with havePrec := true, precOf := some m }, m) := by
    unfold precStep
    simp [Ctx.reset]
  refine ⟨_, by rw [solves_prec cfg hd hu hb, hs, solves_kept cfg hd hu hb hr hk _ m rfl rfl]; rfl, ?_, ?_⟩
  · simp [Action.operator, Function.comp_def]
  · intro a ha
    simp only [List.mem_cons, List.mem_map] at ha
    rcases ha with rfl | ⟨x, _, rfl⟩ <;> rfl

/-- [helper] the options of an input without any setting. -/
def defaults : Config :=
  { amesosType := "KLU2", belosType := "Block GMRES", precType := "AMG", useDirect := false, usePrec := true,
    rightPrec := false, reusePrec := true, reuseMatrix := false, belos := none, prec := none }

/-- [case] -/
example : ∃ r, solves { defaults with precType := "Ifpack2" } (Ctx.fresh : Ctx ℚ).reset [7, 8, 9] = some r ∧
    r.2.map Action.operator = [7, 8, 9] ∧ ∀ a ∈ r.2, a.precFrom = some 7 :=
  C123_prec_first _ rfl rfl (by simp [defaults, belosKnown]) rfl (by decide +kernel) _ _ _

/-- [case] -/
example : ∃ c', solves defaults (Ctx.fresh : Ctx ℚ) [7, 8] =
    some (c', [Action.krylov "Block GMRES" 7 (some (.amg, false, 7)),
               Action.krylov "Block GMRES" 8 (some (.amg, false, 8))]) :=
  C123_prec_current _ rfl rfl (by simp [defaults, belosKnown]) (Or.inr (by decide +kernel)) _ _

/-- [case] -/
example : solves { defaults with belosType := "MINRES" } (Ctx.fresh : Ctx ℚ) [7] = none :=
  (C123_operator _ _ _).2 (by simp [defaults, belosKnown]) (by simp)

theorem solves_direct (cfg : Config) (hd : cfg.useDirect = true) (c : Ctx M) (h : c.haveSymb = true) (ms : List M) :
    solves cfg c ms = some (c, ms.map fun m => Action.direct m false) := by
  induction ms with
  | nil => rfl
  | cons m ms ih =>
    have hc : ({ c with haveSymb := true } : Ctx M) = c := by cases c; simp_all
    simp only [solves, linearSolve, hd, if_true, h, Bool.not_true, Option.bind_eq_bind, Option.bind_some, Option.pure_def]
    rw [hc, ih]
    rfl

/-- With a direct solver every solve factors its own matrix, and the solver is created in the first solve with a new
context and never again. -/
theorem C123_direct (cfg : Config) (hd : cfg.useDirect = true) (m : M) (ms : List M) :
    ∃ c', solves cfg Ctx.fresh (m :: ms) = some (c', Action.direct m true :: ms.map fun m => Action.direct m false) := by
  refine ⟨{ (Ctx.fresh : Ctx M) with haveSymb := true }, ?_⟩
  have h := solves_direct cfg hd { (Ctx.fresh : Ctx M) with haveSymb := true } rfl ms
  simp only [solves, linearSolve, hd, if_true, Option.bind_eq_bind, Option.bind_some, Option.pure_def, h]
  rfl

/-- [case] -/
example : ∃ c', solves { defaults with useDirect := true } Ctx.fresh [(7 : ℚ), 8] = some (c', [.direct 7 true, .direct 8 false]) :=
  C123_direct _ rfl 7 [8]

/-- In a context just constructed nothing is reused, whatever the options: the first matrix is empty, the first pass that
needs one assembles it, and the first preconditioner comes from the first matrix. -/
theorem C123_new (cfg : Config) (reuse : Bool) (m : M) (p : Pass M) :
    (getNewMatrix reuse (Ctx.fresh : Ctx M)).2 = .unfilled ∧ reuses reuse (Ctx.fresh : Ctx M) = false ∧
    (p.solve = true → (pass reuse (Ctx.fresh : Ctx M) p).2 = some (.filled p.jac)) ∧
    (cfg.useDirect = false → cfg.usePrec = true → cfg.belosType ∈ belosKnown →
      ∃ c', linearSolve cfg Ctx.fresh (.filled m) =
        some (c', .krylov cfg.belosType m (some (precKind cfg.precType, cfg.rightPrec, m))) ∧ c'.havePrec = true ∧ c'.precOf = some m) := by
  refine ⟨?_, ?_, ?_, ?_⟩
  · cases reuse <;> rfl
  · cases reuse <;> rfl
  · intro h
    cases reuse <;> simp [pass, h, reuses, getNewMatrix, Ctx.fresh]
  · intro hd hu hb
    refine ⟨{ (Ctx.fresh : Ctx M) with havePrec := true, precOf := some m }, ?_, rfl, rfl⟩
    simp [linearSolve, hd, hu, hb, precStep, Ctx.fresh]

/-- Violated: a misspelt preconditioner is not reported, as a misspelt solver is; any name but the two known ones
gives the multigrid preconditioner. -/
theorem C123_precname_violated (cfg : Config) (hd : cfg.useDirect = false) (hu : cfg.usePrec = true)
    (hb : cfg.belosType ∈ belosKnown) (name : String) (h1 : name ≠ "domain decomposition") (h2 : name ≠ "Ifpack2")
    (c : Ctx M) (m : M) :
    ∃ c', linearSolve { cfg with precType := name } c (.filled m) =
      some (c', .krylov cfg.belosType m (some (.amg, cfg.rightPrec, m))) := by
  have hk : precKind name = .amg := by simp [precKind, h1, h2]
  have hs : (precStep { cfg with precType := name } c m).2 = m := by
    unfold precStep
    by_cases hh : (!cfg.reusePrec || !c.havePrec) = true <;> simp [hk, hh]
  refine ⟨(precStep { cfg with precType := name } c m).1, ?_⟩
  simp only [hd, hu] at hs ⊢
  simp only [linearSolve, hb, if_true, if_false, Bool.false_eq_true, hs, hk]

/-- [case] -/
example : ∃ c', linearSolve { defaults with precType := "ifpack2" } (Ctx.fresh : Ctx ℚ) (.filled 3) =
    some (c', .krylov "Block GMRES" 3 (some (.amg, false, 3))) :=
  C123_precname_violated defaults rfl rfl (by simp [defaults, belosKnown]) "ifpack2" (by decide +kernel)
    (by decide +kernel) _ _

/-- Violated: the two projections of discretised parameters do not solve anything; the vector meant for the solution
keeps what it had, whatever the matrix and the right-hand side, so with an invertible system it is not solved. -/
theorem C123_paramL2_violated :
    ∃ J r x : ℚ, J ≠ 0 ∧ (∀ y : ℚ, linearSolverL2Param J r y = y) ∧ J * linearSolverL2Param J r x ≠ r :=
  ⟨1, 1, 0, by norm_num, fun _ => rfl, by norm_num [linearSolverL2Param]⟩

/-! ## Options -/

/-- [specification, no code] What `get` with a default means: the value given, else the default. -/
def OptionIs (l : PList) (key : String) (wrap : α → Val) (dflt v : α) : Prop :=
  (l.opts.lookup key = none ∧ v = dflt) ∨ l.opts.lookup key = some (wrap v)

theorem getBool_is (l : PList) (key : String) (d v : Bool) (h : l.getBool key d = some v) :
    OptionIs l key Val.bool d v := by
  unfold PList.getBool at h
  unfold OptionIs
  cases hl : l.opts.lookup key with
  | none => rw [hl] at h; exact Or.inl ⟨rfl, (Option.some.inj h).symm⟩
  | some x =>
    rw [hl] at h
    cases x <;> simp_all

theorem getStr_is (l : PList) (key : String) (d v : String) (h : l.getStr key d = some v) :
    OptionIs l key Val.str d v := by
  unfold PList.getStr at h
  unfold OptionIs
  cases hl : l.opts.lookup key with
  | none => rw [hl] at h; exact Or.inl ⟨rfl, (Option.some.inj h).symm⟩
  | some x =>
    rw [hl] at h
    cases x <;> simp_all

/-- Each option of a context, except that of the boundary projections, is the value given in the sublist of that
purpose when the input has this sublist, in the "Solver" list otherwise, and its default when the list does not give it. -/
theorem C123_options (solver : PList) (p : Purpose) (hp : p ≠ .stateBndryL2) (cfg : Config)
    (h : contextFor solver p = some cfg) :
    ∃ l, (solver.subs.lookup p.key = some l ∨ (solver.subs.lookup p.key = none ∧ l = solver)) ∧
      OptionIs l "Amesos solver" Val.str "KLU2" cfg.amesosType ∧
      OptionIs l "Belos solver" Val.str "Block GMRES" cfg.belosType ∧
      OptionIs l "preconditioner type" Val.str "AMG" cfg.precType ∧
      OptionIs l "use direct solver" Val.bool false cfg.useDirect ∧
      OptionIs l "use preconditioner" Val.bool true cfg.usePrec ∧
      OptionIs l "reuse preconditioner" Val.bool true cfg.reusePrec ∧
      OptionIs l "right preconditioner" Val.bool false cfg.rightPrec ∧
      OptionIs l "reuse Jacobian" Val.bool false cfg.reuseMatrix ∧
      cfg.belos = l.subs.lookup "Belos Settings" ∧ cfg.prec = l.subs.lookup "Preconditioner Settings" := by
  have h' : Config.ofList (chosen solver p) = some cfg := by
    cases p <;> first | exact h | exact absurd rfl hp
  refine ⟨chosen solver p, ?_, ?_⟩
  · unfold chosen
    cases hl : solver.subs.lookup p.key with
    | none => exact Or.inr ⟨rfl, rfl⟩
    | some l => exact Or.inl rfl
  · generalize chosen solver p = l at h'
    unfold Config.ofList at h'
    simp only [Option.bind_eq_bind, Option.pure_def, Option.bind_eq_some_iff, Option.some.injEq] at h'
    obtain ⟨a, ha, b, hb, d, hd, pt, hpt, u, hu, rp, hrp, rt, hrt, rm, hrm, rfl⟩ := h'
    exact ⟨getStr_is _ _ _ _ ha, getStr_is _ _ _ _ hb, getStr_is _ _ _ _ hpt, getBool_is _ _ _ _ hd,
      getBool_is _ _ _ _ hu, getBool_is _ _ _ _ hrp, getBool_is _ _ _ _ hrt, getBool_is _ _ _ _ hrm, rfl, rfl⟩

/-- [case] a sublist for the state; the option of the general list is not inherited. -/
example : (contextFor (.mk [("use direct solver", .bool true)] [("State linear solver", .mk [] [])]) .state).map
      Config.useDirect = some false ∧
    (contextFor (.mk [("use direct solver", .bool true)] [("State linear solver", .mk [] [])]) .stateL2).map
      Config.useDirect = some true := by
  decide +kernel

/-- Violated: the option "use preconditioner" of the boundary projections has no effect, neither in their own sublist
nor in the general list. -/
theorem C123_bndryprec_violated (solver : PList) (cfg : Config) (h : contextFor solver .stateBndryL2 = some cfg) :
    cfg.usePrec = false := by
  unfold contextFor Config.ofList at h
  simp only [Option.bind_eq_bind, Option.pure_def, Option.bind_eq_some_iff, Option.some.injEq] at h
  obtain ⟨a, _, b, _, d, _, pt, _, u, hu, rp, _, rt, _, rm, _, rfl⟩ := h
  simpa [PList.getBool, PList.set, PList.opts, List.lookup] using hu.symm

/-- [case] -/
example : (contextFor (.mk [] [("State boundary L2 linear solver", .mk [("use preconditioner", .bool true)] [])])
    .stateBndryL2).map Config.usePrec = some false := by
  decide +kernel

/-- Every entry the user gives in "Belos Settings" reaches the iterative solver; the others are those of the
interface. -/
theorem C123_belos (g : Generic) (neq : ℚ) (l : PList) (key : String) :
    (belosList g neq (some l)).lookup key =
      (l.opts.lookup key).or ((belosList g neq none).lookup key) := by
  simp only [belosList]
  generalize ([("Maximum Iterations", Val.num g.maxIters), ("Num Blocks", .num g.maxIters),
     ("Convergence Tolerance", .num g.tol), ("Estimate Condition Number", .bool g.condEst),
     ("number of equations", .num neq), ("Implicit Residual Scaling", .str g.scaling)] : List (String × Val)) = own
  induction l.opts with
  | nil => simp
  | cons x xs ih =>
    simp only [List.cons_append, List.lookup]
    cases key == x.1 <;> simp [ih]

/-- The tolerance, the bound on the iterations, the residual scaling and the condition estimate of the "Solver" list
reach the iterative solver when the user gives no "Belos Settings". -/
theorem C123_generic (solver : PList) (g : Generic) (h : Generic.ofList solver = some g) (neq : ℚ) :
    OptionIs solver "linear TOL" Val.num (1 / 10000000) g.tol ∧
    OptionIs solver "max linear iters" Val.num 100 g.maxIters ∧
    OptionIs solver "Estimate Condition Number" Val.bool false g.condEst ∧
    OptionIs solver "Belos implicit residual scaling" Val.str "None" g.scaling ∧
    (belosList g neq none).lookup "Convergence Tolerance" = some (.num g.tol) ∧
    (belosList g neq none).lookup "Maximum Iterations" = some (.num g.maxIters) ∧
    (belosList g neq none).lookup "Estimate Condition Number" = some (.bool g.condEst) ∧
    (belosList g neq none).lookup "Implicit Residual Scaling" = some (.str g.scaling) := by
  have getNum_is : ∀ (l : PList) (key : String) (d v : ℚ), l.getNum key d = some v → OptionIs l key Val.num d v := by
    intro l key d v h
    unfold PList.getNum at h
    unfold OptionIs
    cases hl : l.opts.lookup key with
    | none => rw [hl] at h; exact Or.inl ⟨rfl, (Option.some.inj h).symm⟩
    | some x =>
      rw [hl] at h
      cases x <;> simp_all
  unfold Generic.ofList at h
  simp only [Option.bind_eq_bind, Option.pure_def, Option.bind_eq_some_iff, Option.some.injEq] at h
  obtain ⟨t, ht, cd, hcd, mi, hmi, kr, _, sc, hsc, rfl⟩ := h
  exact ⟨getNum_is _ _ _ _ ht, getNum_is _ _ _ _ hmi, getBool_is _ _ _ _ hcd, getStr_is _ _ _ _ hsc,
    by simp [belosList, List.lookup], by simp [belosList, List.lookup], by simp [belosList, List.lookup],
    by simp [belosList, List.lookup]⟩

/-- [case] -/
example : (Generic.ofList (.mk [("linear TOL", .num (1 / 100)), ("krylov vectors", .num 20)] [])).map
    (fun g => (belosList g 1 (some (.mk [("Num Blocks", .num 30)] []))).lookup "Num Blocks") =
    some (some (.num 30)) := by
  decide +kernel

/-- Violated: the option "krylov vectors" has no effect; two inputs that differ in it only give the iterative solver
the same options, and the size of the Krylov space is the bound on the iterations. -/
theorem C123_krylov_violated (solver : PList) (g : Generic) (h : Generic.ofList solver = some g) (k neq : ℚ)
    (user : Option PList) :
    ∃ g', Generic.ofList (solver.set "krylov vectors" (.num k)) = some g' ∧ g'.krylov = k ∧
      belosList g' neq user = belosList g neq user ∧
      (belosList g' neq none).lookup "Num Blocks" = some (.num g'.maxIters) := by
  unfold Generic.ofList at h
  simp only [Option.bind_eq_bind, Option.pure_def, Option.bind_eq_some_iff, Option.some.injEq] at h
  obtain ⟨t, ht, cd, hcd, mi, hmi, kr, hkr, sc, hsc, rfl⟩ := h
  refine ⟨{ tol := t, condEst := cd, maxIters := mi, krylov := k, scaling := sc }, ?_, rfl, rfl, ?_⟩
  · unfold Generic.ofList
    have e1 : (solver.set "krylov vectors" (.num k)).getNum "linear TOL" (1 / 10000000) = some t := by
      rw [← ht]; simp [PList.getNum, PList.set, PList.opts, List.lookup]
    have e2 : (solver.set "krylov vectors" (.num k)).getBool "Estimate Condition Number" false = some cd := by
      rw [← hcd]; simp [PList.getBool, PList.set, PList.opts, List.lookup]
    have e3 : (solver.set "krylov vectors" (.num k)).getNum "max linear iters" 100 = some mi := by
      rw [← hmi]; simp [PList.getNum, PList.set, PList.opts, List.lookup]
    have e4 : (solver.set "krylov vectors" (.num k)).getNum "krylov vectors" 100 = some k := by
      simp [PList.getNum, PList.set, PList.opts, List.lookup]
    have e5 : (solver.set "krylov vectors" (.num k)).getStr "Belos implicit residual scaling" "None" = some sc := by
      rw [← hsc]; simp [PList.getStr, PList.set, PList.opts, List.lookup]
    simp only [e1, e2, e3, e4, e5, Option.bind_eq_bind, Option.bind_some, Option.pure_def]
  · simp [belosList, List.lookup]

/-- [case] -/
example : (Generic.ofList (.mk [] [])).isSome = true := by decide +kernel

/-! ## Jacobians with respect to earlier steps -/

/-- [specification, no code] A table of contexts large enough for a request. -/
def LargeEnough (table : List (List (Ctx M))) (set numsteps : Nat) : Prop :=
  ∀ k < numsteps, ∃ row, table[k]? = some row ∧ set < row.length

theorem prev_fold (reuse : Bool) (set : Nat) (ks : List Nat) (table : List (List (Ctx M))) (out : List (Content M))
    (h : ∀ k ∈ ks, ∃ row, table[k]? = some row ∧ set < row.length) :
    ∃ r, ks.foldlM (fun (acc : List (List (Ctx M)) × List (Content M)) (k : Nat) => do
        let row ← acc.1[k]?
        let c ← row[set]?
        let r := getNewMatrix reuse c
        return (acc.1.set k (row.set set r.1), acc.2 ++ [r.2])) (table, out) = some r ∧
      r.1.length = table.length ∧ r.2.length = out.length + ks.length := by
  induction ks generalizing table out with
  | nil => exact ⟨_, rfl, rfl, by simp⟩
  | cons k ks ih =>
    obtain ⟨row, hrow, hset⟩ := h k List.mem_cons_self
    have hc : row[set]? = some (row[set]'hset) := List.getElem?_eq_getElem hset
    have hnext : ∀ j ∈ ks, ∃ row', (table.set k (row.set set (getNewMatrix reuse (row[set]'hset)).1))[j]? = some row' ∧
        set < row'.length := by
      intro j hj
      obtain ⟨row', hrow', hs'⟩ := h j (List.mem_cons_of_mem _ hj)
      by_cases hjk : k = j
      · subst hjk
        refine ⟨row.set set (getNewMatrix reuse (row[set]'hset)).1, ?_, by simpa using hset⟩
        have hlt : k < table.length := by
          rw [List.getElem?_eq_some_iff] at hrow; exact hrow.1
        simp [List.getElem?_set, hlt]
      · exact ⟨row', by rw [List.getElem?_set_ne hjk]; exact hrow', hs'⟩
    obtain ⟨r, hr, hl1, hl2⟩ := ih _ (out ++ [(getNewMatrix reuse (row[set]'hset)).2]) hnext
    refine ⟨r, ?_, ?_, ?_⟩
    · simp only [List.foldlM_cons, hrow, hc, Option.bind_eq_bind, Option.bind_some, Option.pure_def]
      simpa only [Option.bind_eq_bind, Option.pure_def] using hr
    · rw [hl1, List.length_set]
    · rw [hl2]; simp; omega

/-- A first request for the Jacobians with respect to earlier steps gives one matrix per step, for every set, and so
does every later request that asks for no more steps than the table has.  Missing: a request for more steps than the
first one, see `C123_previous_violated`. -/
theorem C123_previous_partial (reuse : Bool) (numsets set numsteps : Nat) (table : List (List (Ctx M)))
    (hset : set < numsets) (h : table = [] ∨ LargeEnough table set numsteps) :
    ∃ r, getNewPrevious reuse numsets table set numsteps = some r ∧ r.2.length = numsteps := by
  have key : ∀ t : List (List (Ctx M)), LargeEnough t set numsteps →
      ∃ r, (List.range numsteps).foldlM (fun (acc : List (List (Ctx M)) × List (Content M)) (k : Nat) => do
        let row ← acc.1[k]?
        let c ← row[set]?
        let r := getNewMatrix reuse c
        return (acc.1.set k (row.set set r.1), acc.2 ++ [r.2])) (t, []) = some r ∧ r.2.length = numsteps := by
    intro t ht
    obtain ⟨r, hr, _, hl⟩ := prev_fold reuse set (List.range numsteps) t []
      (fun k hk => ht k (List.mem_range.mp hk))
    exact ⟨r, hr, by simpa using hl⟩
  have halloc : LargeEnough (allocPrev numsets numsteps : List (List (Ctx M))) set numsteps := by
    intro k hk
    refine ⟨(List.range numsets).flatMap fun (_ : Nat) => (List.range numsets).map fun (_ : Nat) => Ctx.fresh, ?_, ?_⟩
    · unfold allocPrev
      rw [List.getElem?_map, List.getElem?_range hk]; rfl
    · simp only [List.length_flatMap, List.length_map, List.length_range, List.map_const', List.sum_replicate_nat,
        List.length_replicate]
      calc set < numsets := hset
        _ ≤ numsets * numsets := Nat.le_mul_of_pos_left _ (by omega)
  unfold getNewPrevious
  by_cases h0 : table.length = 0
  · simp only [h0, if_true]
    exact key _ halloc
  · simp only [h0, if_false]
    rcases h with rfl | h
    · exact absurd rfl h0
    · exact key _ h

/-- [case] -/
example : ∃ r, getNewPrevious true 2 ([] : List (List (Ctx ℚ))) 1 3 = some r ∧ r.2.length = 3 :=
  C123_previous_partial true 2 1 3 [] (by norm_num) (Or.inl rfl)

/-- Violated: the table keeps the number of steps of the first request; a later request for more steps reads past
its end.  The question whether these Jacobians can be reused is asked with the number of the set where the number of
the step is expected: for the second of two sets and one step it reads past the end as well. -/
theorem C123_previous_violated (reuse : Bool) :
    ((getNewPrevious reuse 1 ([] : List (List (Ctx ℚ))) 0 1).bind fun r =>
      getNewPrevious reuse 1 r.1 0 2) = none ∧
    ((getNewPrevious reuse 2 ([] : List (List (Ctx ℚ))) 1 1).bind fun r => prevReuse reuse r.1 1) = none := by
  cases reuse <;> decide +kernel

/-! ### Reuse of these Jacobians -/

theorem prev_keeps (reuse : Bool) (set j : Nat) (hj : j ≠ set) (ks : List Nat) (table : List (List (Ctx M))) (out : List (Content M))
    (h : ∀ row ∈ table, row[j]? = some Ctx.fresh) (r : List (List (Ctx M)) × List (Content M))
    (hr : ks.foldlM (fun (acc : List (List (Ctx M)) × List (Content M)) (k : Nat) => do
        let row ← acc.1[k]?
        let c ← row[set]?
        let r := getNewMatrix reuse c
        return (acc.1.set k (row.set set r.1), acc.2 ++ [r.2])) (table, out) = some r) :
    r.1.length = table.length ∧ ∀ row ∈ r.1, row[j]? = some Ctx.fresh := by
  induction ks generalizing table out with
  | nil =>
    cases hr
    exact ⟨rfl, h⟩
  | cons k ks ih =>
    rw [List.foldlM_cons] at hr
    obtain ⟨x, hx, hr⟩ := Option.bind_eq_some_iff.1 hr
    obtain ⟨row, hrow, hx⟩ := Option.bind_eq_some_iff.1 hx
    obtain ⟨c, hc, hx⟩ := Option.bind_eq_some_iff.1 hx
    cases hx
    have := ih _ _ (by
      intro row' h'
      rcases List.mem_or_eq_of_mem_set h' with h' | h'
      · exact h row' h'
      · subst h'
        rw [List.getElem?_set_ne hj.symm]
        exact h row (List.mem_of_getElem? hrow)) hr
    exact ⟨by rw [this.1, List.length_set], this.2⟩

/-- Before the first request nothing is reused.  With one set of equations and one step, after a request the answer is the option
of the user.  With several sets the answer is always no: each row has a context for every pair of sets, and no request ever fills those
beyond its own; then the Jacobians are assembled again in every pass, which costs time and is right. -/
theorem C123_previous_reuse (reuse : Bool) :
    (∀ step, prevReuse reuse ([] : List (List (Ctx M))) step = some false) ∧
    (∃ r, getNewPrevious reuse 1 ([] : List (List (Ctx M))) 0 1 = some r ∧ prevReuse reuse r.1 0 = some reuse) ∧
    ∀ numsets set numsteps step : Nat, 2 ≤ numsets → set < numsets → step < numsteps →
      ∀ r, getNewPrevious reuse numsets ([] : List (List (Ctx M))) set numsteps = some r → prevReuse reuse r.1 step = some false := by
  refine ⟨fun _ => rfl, ?_, ?_⟩
  · cases reuse <;> exact ⟨_, rfl, rfl⟩
  · intro numsets set numsteps step h2 hs hstep r hr
    obtain ⟨j, hj, hjn⟩ : ∃ j, j ≠ set ∧ j < numsets := by
      by_cases h0 : set = 0
      · exact ⟨1, by omega, by omega⟩
      · exact ⟨0, by omega, by omega⟩
    have hfl : ∀ row ∈ (allocPrev numsets numsteps : List (List (Ctx M))), row[j]? = some Ctx.fresh := by
      intro row hrow
      obtain ⟨k, -, rfl⟩ := List.mem_map.1 hrow
      have hrep : ((List.range numsets).flatMap fun (_ : Nat) => (List.range numsets).map fun (_ : Nat) => (Ctx.fresh : Ctx M)) =
          List.replicate (numsets * numsets) Ctx.fresh := by
        refine List.eq_replicate_iff.2 ⟨by simp, fun b hb => ?_⟩
        simp at hb
        exact hb.2.2
      rw [hrep, List.getElem?_replicate, if_pos]
      exact lt_of_lt_of_le hjn (Nat.le_mul_of_pos_left _ (by omega))
    obtain ⟨hl, hrow⟩ := prev_keeps reuse set j hj (List.range numsteps) (allocPrev numsets numsteps) [] hfl r hr
    have hlen : r.1.length = numsteps := by rw [hl]; simp [allocPrev]
    unfold prevReuse
    rw [if_neg (by omega), List.getElem?_eq_getElem (by omega), Option.map_some]
    have hx := hrow _ (List.getElem_mem (l := r.1) (n := step) (by omega))
    congr 1
    rw [List.all_eq_false]
    exact ⟨_, List.mem_of_getElem? hx, by simp [Ctx.fresh]⟩

/-- [case] -/
example : ∃ r, getNewPrevious true 2 ([] : List (List (Ctx ℚ))) 1 2 = some r ∧ prevReuse true r.1 1 = some false :=
  ⟨_, rfl, rfl⟩

end MrHyDE.LinAlg
