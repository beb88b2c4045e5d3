import Mathlib.Algebra.BigOperators.Group.List.Basic
import Mathlib.Algebra.BigOperators.Group.Finset.Basic
import Mathlib.Algebra.Field.Rat

/-! # C175: the file of flux responses over a history of solves and reports

Storage of a flux response (/repo/src/tools/postprocessTools.hpp:205-220), what a recorded time adds to it
(/repo/src/managers/postprocess/postprocessManager_flux_response.hpp:51-77, called from postprocessManager_util.hpp:46-48), and the part of
`report` that writes `flux_response.out` (postprocessManager_util.hpp:652-705).  The integral of one recorded time over the boundary groups of
a process is given here; it is the subject of C93.  Neither the start of a solve (/repo/src/managers/solver/solverManager_models.hpp:24 with
/repo/src/managers/postprocess/postprocessManager_objectives.hpp:671-681) nor its end touches the values. -/

set_option linter.unusedSectionVars false

namespace MrHyDE.Postprocess.FluxFile

variable {K : Type} [AddCommMonoid K]

/-- What happens to the values: a time is recorded, with the integral on process `p` of value `v` of response `f` and whether the process has a group
on a side of `f`; or a report is written; postprocessManager_util.hpp:46-48, 652. -/
inductive Ev (K : Type) where
  | record (add : Nat → Nat → Nat → K) (hits : Nat → Nat → Bool)
  | report

/-- Settings: processes; the responses with the asked number of values and the number of variables of their block;
postprocessTools.hpp:212-214, postprocessManager_flux_response.hpp:44-46. -/
structure Cfg where
  nproc : Nat
  number : List Nat
  nvars : Nat → Nat

/-- The values on all processes, and the lines of the file; postprocessTools.hpp:220, postprocessManager_util.hpp:680-703. -/
structure St (K : Type) where
  vals : Nat → Nat → Nat → K
  file : List (List K)

/-- `gvals`: responses outside, values inside, each summed over the processes; postprocessManager_util.hpp:665-677. -/
def gvals (c : Cfg) (vals : Nat → Nat → Nat → K) : List K :=
  (c.number.zipIdx).flatMap (fun x => (List.range x.1).map (fun v => ((List.range c.nproc).map (fun p => vals p x.2 v)).sum))

/-- One event.  Recording reads the fluxes of as many variables as values were asked for, `none` beyond the variables of the block
(postprocessManager_flux_response.hpp:65-74); a report sets the values to zero and appends a line (postprocessManager_util.hpp:676, 689-702). -/
def step (c : Cfg) (s : St K) : Ev K → Option (St K)
  | .record add hits =>
    if ∃ p ∈ List.range c.nproc, ∃ x ∈ c.number.zipIdx, hits p x.2 = true ∧ c.nvars x.2 < x.1 then none
    else some ⟨fun p f v => if hits p f then s.vals p f v + add p f v else s.vals p f v, s.file⟩
  | .report => some ⟨fun _ _ _ => 0, s.file ++ [gvals c s.vals]⟩

/-- A program: values start from zero (postprocessTools.hpp:214), the file may have lines of earlier programs (postprocessManager_util.hpp:689). -/
def run (c : Cfg) (old : List (List K)) (evs : List (Ev K)) : Option (St K) := evs.foldlM (step c) ⟨fun _ _ _ => 0, old⟩

/-! ## Specification -/

/-- What one recorded time gives for a value, over all processes. [specification, no code] -/
def amount (n : Nat) (f v : Nat) : Ev K → K
  | .record add hits => ∑ p ∈ Finset.range n, if hits p f then add p f v else 0
  | .report => 0

/-- The line that should belong to these recorded times, when their sum is asked for. [specification, no code] -/
def lineOf (c : Cfg) (evs : List (Ev K)) : List K :=
  (c.number.zipIdx).flatMap (fun x => (List.range x.1).map (fun v => (evs.map (amount c.nproc x.2 v)).sum))

/-- Recorded times only. [specification, no code] -/
def Records (evs : List (Ev K)) : Prop := ∀ e ∈ evs, ∃ add hits, e = .record add hits

/-- Every response asks for at most as many values as its block has variables. [specification, no code] -/
def Cfg.Fits (c : Cfg) : Prop := ∀ x ∈ c.number.zipIdx, x.1 ≤ c.nvars x.2

theorem records_run (c : Cfg) (hc : c.Fits) : ∀ (evs : List (Ev K)) (s : St K), Records evs →
    ∃ s', evs.foldlM (step c) s = some s' ∧ s'.file = s.file ∧ ∀ f v,
      ((List.range c.nproc).map (fun p => s'.vals p f v)).sum =
        ((List.range c.nproc).map (fun p => s.vals p f v)).sum + (evs.map (amount c.nproc f v)).sum
  | [], s, _ => ⟨s, rfl, rfl, fun f v => by simp⟩
  | e :: evs, s, h => by
    obtain ⟨add, hits, rfl⟩ := h e (by simp)
    have h1 : step c s (.record add hits) =
        some ⟨fun p f v => if hits p f then s.vals p f v + add p f v else s.vals p f v, s.file⟩ := by
      unfold step
      simp only
      rw [if_neg]
      rintro ⟨p, -, x, hx, -, hlt⟩
      exact absurd (hc x hx) (by omega)
    obtain ⟨s', a1, a2, a3⟩ := records_run c hc evs ⟨fun p f v => if hits p f then s.vals p f v + add p f v else s.vals p f v, s.file⟩
      (fun e he => h e (List.mem_cons_of_mem _ he))
    refine ⟨s', by rw [List.foldlM_cons, h1]; exact a1, a2, fun f v => ?_⟩
    rw [a3 f v, List.map_cons, List.sum_cons, ← add_assoc]
    congr 1
    have e1 : ∀ g : Nat → K, ((List.range c.nproc).map g).sum = ∑ p ∈ Finset.range c.nproc, g p := fun _ => rfl
    rw [e1, e1, amount, ← Finset.sum_add_distrib]
    refine Finset.sum_congr rfl (fun p _ => ?_)
    by_cases hh : hits p f = true <;> simp [hh]

/-- C175, partial: in a program that is a sequence of recorded times each part of which ends with a report, the file holds after what it
held before one line for each report: the values of all responses in the order of the input, each the sum over all times
recorded since the report before and over all processes.  Missing: the line of one time (`C175_times_violated`), of one solve
(`C175_solves_violated`), of this program (`C175_append_violated`), solves without report (`C175_unreported_violated`). -/
theorem C175_partial (c : Cfg) (hc : c.Fits) (old : List (List K)) (parts : List (List (Ev K))) (h : ∀ l ∈ parts, Records l) :
    ∃ s, run c old (parts.flatMap (fun l => l ++ [Ev.report])) = some s ∧ s.file = old ++ parts.map (lineOf c) := by
  have key : ∀ (parts : List (List (Ev K))) (s : St K), (∀ l ∈ parts, Records l) → s.vals = (fun _ _ _ => 0) →
      ∃ s', (parts.flatMap (fun l => l ++ [Ev.report])).foldlM (step c) s = some s' ∧ s'.file = s.file ++ parts.map (lineOf c) := by
    intro parts
    induction parts with
    | nil => intro s _ _; exact ⟨s, rfl, by simp⟩
    | cons l parts ih =>
      intro s hp hz
      obtain ⟨s1, a1, a2, a3⟩ := records_run c hc l s (hp l (by simp))
      obtain ⟨s2, b1, b2⟩ := ih ⟨fun _ _ _ => 0, s1.file ++ [gvals c s1.vals]⟩ (fun l hl => hp l (List.mem_cons_of_mem _ hl)) rfl
      refine ⟨s2, ?_, ?_⟩
      · rw [List.flatMap_cons, List.append_assoc, List.foldlM_append, a1]
        exact b1
      · rw [b2, a2, List.map_cons, List.append_assoc, List.singleton_append]
        congr 2
        unfold gvals lineOf
        refine List.flatMap_congr (fun x _ => List.map_congr_left (fun v _ => ?_))
        rw [a3, hz]
        simp
  exact key parts ⟨fun _ _ _ => 0, old⟩ h rfl

/-- C175, partial: with one time recorded before the report, the line is the flux of that time. -/
theorem C175_one_partial (c : Cfg) (hc : c.Fits) (old : List (List K)) (add : Nat → Nat → Nat → K) (hits : Nat → Nat → Bool) :
    ∃ s, run c old [.record add hits, .report] = some s ∧ s.file = old ++ [(c.number.zipIdx).flatMap (fun x => (List.range x.1).map
      (fun v => ∑ p ∈ Finset.range c.nproc, if hits p x.2 then add p x.2 v else 0))] := by
  obtain ⟨s, h1, h2⟩ := C175_partial c hc old [[.record add hits]] (fun l hl => by
    rw [List.mem_singleton.1 hl]; intro e he; exact ⟨add, hits, List.mem_singleton.1 he⟩)
  refine ⟨s, h1, h2.trans ?_⟩
  simp [lineOf, amount]

/-- C175, partial: the number of lines added is the number of reports, whatever else happens. -/
theorem C175_lines_partial (c : Cfg) (old : List (List K)) (evs : List (Ev K)) (s : St K) (h : run c old evs = some s) :
    s.file.length = old.length + evs.countP (fun e => match e with | .report => true | _ => false) ∧ old <+: s.file := by
  have key : ∀ (evs : List (Ev K)) (s0 s : St K), evs.foldlM (step c) s0 = some s →
      s.file.length = s0.file.length + evs.countP (fun e => match e with | .report => true | _ => false) ∧ s0.file <+: s.file := by
    intro evs
    induction evs with
    | nil => intro s0 s h; cases h; exact ⟨by simp, List.prefix_refl _⟩
    | cons e evs ih =>
      intro s0 s h
      rw [List.foldlM_cons] at h
      cases hs : step c s0 e with
      | none => rw [hs] at h; cases h
      | some s1 =>
        rw [hs] at h
        obtain ⟨h1, h2⟩ := ih s1 s h
        cases e with
        | record add hits =>
          unfold step at hs
          simp only at hs
          split at hs
          · cases hs
          · cases hs
            exact ⟨by rw [h1, List.countP_cons]; simp, h2⟩
        | report =>
          cases hs
          refine ⟨?_, (List.prefix_append _ _).trans h2⟩
          rw [h1, List.countP_cons]
          simp only [List.length_append, List.length_singleton, if_true]
          omega
  exact key evs _ s h

/-- [case] One process, one response of one value, recorded amount `a`. -/
def rec1 (a : ℚ) : Ev ℚ := .record (fun _ _ _ => a) (fun _ _ => true)

/-- [case] Its settings. -/
def cfg1 : Cfg := ⟨1, [1], fun _ => 1⟩

/-- [case] Two processes, two responses with two values and one; the second response is on the second process only. -/
def cfg2 : Cfg := ⟨2, [2, 1], fun _ => 2⟩

/-- [case] A recorded time for these. -/
def rec2 : Ev ℚ := .record (fun p f v => 100 * p + 10 * f + v + 1) (fun p f => f == 0 || p == 1)

example : cfg2.Fits ∧ (run cfg2 [] [rec2, .report, rec2, rec2, .report]).map St.file = some [[102, 104, 111], [204, 208, 222]] := by
  unfold Cfg.Fits; decide +kernel

/-- C175 is false for several recorded times in a solve: fluxes 2 and 3 give the line 5. -/
theorem C175_times_violated : (run cfg1 [] [rec1 2, rec1 3, .report]).map St.file = some [[5]] := by decide +kernel

/-- C175 is false for solves without a report in between: the next line holds those of all solves before as well.  (An input file runs one
analysis; this needs a caller of `run(type)`, /repo/src/managers/analysis/analysisManager_solve.hpp:26, with an optimisation or samples first and
then a forward solve, 131-135.) -/
theorem C175_solves_violated (c : Cfg) (hc : c.Fits) (old : List (List K)) (before : List (List (Ev K))) (solve : List (Ev K))
    (h : ∀ l ∈ before, Records l) (hs : Records solve) :
    ∃ s, run c old (before.flatten ++ solve ++ [.report]) = some s ∧ s.file = old ++ [lineOf c (before.flatten ++ solve)] := by
  obtain ⟨s, h1, h2⟩ := C175_partial c hc old [before.flatten ++ solve] (fun l hl => by
    rw [List.mem_singleton.1 hl]
    intro e he
    rcases List.mem_append.1 he with he | he
    · obtain ⟨l, hl, hel⟩ := List.mem_flatten.1 he
      exact h l hl e hel
    · exact hs e he)
  exact ⟨s, by simpa using h1, h2⟩

/-- [case] Solves with fluxes 2 and 3; the line should be 3. -/
example : (run cfg1 [] ([[rec1 2]].flatten ++ [rec1 3] ++ [.report])).map St.file = some [[5]] ∧ lineOf cfg1 [rec1 3] = [3] := by decide +kernel

/-- C175 is false for programs that do not report (optimisation, samples): nothing is written, whatever was recorded. -/
theorem C175_unreported_violated (c : Cfg) (hc : c.Fits) (old : List (List K)) (evs : List (Ev K)) (h : Records evs) :
    ∃ s, run c old evs = some s ∧ s.file = old := by
  obtain ⟨s, h1, h2, -⟩ := records_run c hc evs ⟨fun _ _ _ => 0, old⟩ h
  exact ⟨s, h1, h2⟩

/-- C175 is false if the program is run again in the same directory: the first lines are those of the earlier run. -/
theorem C175_append_violated : (run cfg1 [[7]] [rec1 2, .report]).map St.file = some [[7], [2]] := by decide +kernel

/-- C175 is false if more values are asked for than the block has variables: the flux of a variable that does not exist is read. -/
theorem C175_number_violated (c : Cfg) (old : List (List K)) (add : Nat → Nat → Nat → K) (hits : Nat → Nat → Bool) (evs : List (Ev K)) (p : Nat)
    (hp : p < c.nproc) (x : Nat × Nat) (hx : x ∈ c.number.zipIdx) (hh : hits p x.2 = true) (hn : c.nvars x.2 < x.1) :
    run c old (.record add hits :: evs) = none := by
  unfold run
  rw [List.foldlM_cons]
  have : step c ⟨fun _ _ _ => 0, old⟩ (.record add hits) = none := by
    unfold step
    simp only
    rw [if_pos ⟨p, List.mem_range.2 hp, x, hx, hh, hn⟩]
  rw [this]
  rfl

/-- [case] Two values asked for with one variable. -/
example : run ⟨1, [2], fun _ => 1⟩ [] [rec1 2, .report] = none :=
  C175_number_violated ⟨1, [2], fun _ => 1⟩ [] _ _ _ 0 (by decide) (2, 0) (by decide) rfl (by decide)

end MrHyDE.Postprocess.FluxFile
