import Mathlib.Algebra.Ring.Defs
import Mathlib.Algebra.BigOperators.Group.List.Basic
import Mathlib.Algebra.Order.Ring.Rat
import Mathlib.Tactic.Ring

/-!
# Flux boundary conditions and the derivative type of an assembly (C95)

A variable may carry a flux condition on a side of the mesh.  Its contribution to the residual is added by the
physics interface after the boundary terms of the modules.  There are two assemblies: one of the residual alone
(plain numbers) and one of the residual together with its derivatives (numbers with derivative slots, whose size
is selected from the number of unknowns per element).  The user expects the same residual from both.
-/

set_option linter.unusedSectionVars false

namespace MrHyDE.Physics.Flux

/-! ## Model -/

/-- The number types the assembly is instantiated with, src/preferences.hpp:76-90: plain numbers, or numbers with
a compile-time number of derivative slots.  `AD` is the type with `MAXDERIVS` slots; two types with the same
number of slots are the same type. -/
inductive Ty where
  | plain
  | slots (n : Nat)
  deriving DecidableEq, Repr

/-- The identifier of the selected type, src/managers/assembly/assemblyManager_construct.hpp:128-170; `ndr` is the
largest required number of derivatives over the blocks, `multiscale` says that some block is multiscale. -/
def typeId (ndr : Nat) (multiscale autotune fullyExplicit : Bool) : Int :=
  let t : Int :=
    if ndr > 0 ∧ ndr ≤ 2 then 2
    else if ndr > 2 ∧ ndr ≤ 4 then 4
    else if ndr > 4 ∧ ndr ≤ 8 then 8
    else if ndr > 8 ∧ ndr ≤ 16 then 16
    else if ndr > 16 ∧ ndr ≤ 18 then 18
    else if ndr > 18 ∧ ndr ≤ 24 then 24
    else if ndr > 24 ∧ ndr ≤ 32 then 32
    else -1
  let t := if multiscale then -1 else t
  let t := if !autotune then -1 else t
  if fullyExplicit then 0 else t

/-- The instantiation called for one block by the residual-and-Jacobian assembly,
src/managers/assembly/assemblyManager_jacres.hpp:43-104; `M` is `MAXDERIVS`. -/
def jacresTy (M : Nat) (autotune : Bool) (t : Int) : Ty :=
  if !autotune then .slots M
  else if t = -1 then .slots M
  else if t = 2 then .slots 2
  else if t = 4 then .slots 4
  else if t = 8 then .slots 8
  else if t = 16 then .slots 16
  else if t = 18 then .slots 18
  else if t = 24 then .slots 24
  else if t = 32 then .slots 32
  else .slots M

/-- What the flux condition reads for one variable on one side of one element: the type of the condition
(`var_bcs`), the values of the flux function at the quadrature points, the offsets of the variable and its basis
functions on the side (dof, then point; component 0),
src/interfaces/physics/physicsInterface_boundary_conditions.hpp:205-216.  The lists have the
extents of the views; a shorter list ends the loop. -/
structure Var (K : Type) where
  bctype : String
  flux : List K
  off : List Nat
  basis : List (List K)

/-- The inner loop over the quadrature points of one degree of freedom,
physicsInterface_boundary_conditions.hpp:223-225 (and 252-254): the entry `o` of the residual. -/
def addPts {K : Type} [CommRing K] (o : Nat) : List K → List K → List K → (Nat → K) → (Nat → K)
  | f :: fs, w :: ws, b :: bs, res =>
      addPts o fs ws bs (fun i : Nat => if i = o then res i + -f * w * b else res i)
  | _, _, _, res => res

/-- The loop over the degrees of freedom of a variable, physicsInterface_boundary_conditions.hpp:222-226 (and
251-255). -/
def addDofs {K : Type} [CommRing K] (fs ws : List K) : List Nat → List (List K) → (Nat → K) → (Nat → K)
  | o :: os, b :: bs, res => addDofs fs ws os bs (addPts o fs ws b res)
  | _, _, res => res

/-- The loop over the variables with the test of the type of condition,
physicsInterface_boundary_conditions.hpp:204-229 (and 233-258). -/
def addVars {K : Type} [CommRing K] (ws : List K) : List (Var K) → (Nat → K) → (Nat → K)
  | [], res => res
  | v :: vs, res => addVars ws vs (if v.bctype = "Flux" then addDofs v.flux ws v.off v.basis res else res)

/-- `fluxConditions`, physicsInterface_boundary_conditions.hpp:201-261: there is a branch for plain numbers and a
branch for `AD` (`MAXDERIVS` slots), nothing for any other type. -/
def fluxConditions {K : Type} [CommRing K] (M : Nat) (ty : Ty) (ws : List K) (vs : List (Var K))
    (res : Nat → K) : Nat → K :=
  if ty = .plain then addVars ws vs res
  else if ty = .slots M then addVars ws vs res
  else res

/-- The residual of one boundary element in the residual-only assembly, assemblyManager_jacres.hpp:853-862;
`terms` is what the modules add (`boundaryResidual`). -/
def residualOnly {K : Type} [CommRing K] (M : Nat) (terms : Nat → K) (ws : List K) (vs : List (Var K)) : Nat → K :=
  fluxConditions M .plain ws vs terms

/-- The residual part of one boundary element in the residual-and-Jacobian assembly,
assemblyManager_jacres.hpp:521-532.  Only the values are followed, the derivative slots are not.  The module terms
are left out on a multiscale block. -/
def residualWithJacobian {K : Type} [CommRing K] (M ndr : Nat) (multiscale autotune fullyExplicit : Bool)
    (terms : Nat → K) (ws : List K) (vs : List (Var K)) : Nat → K :=
  fluxConditions M (jacresTy M (autotune && !multiscale) (typeId ndr multiscale autotune fullyExplicit)) ws vs
    (if multiscale then fun _ : Nat => 0 else terms)

/-! ## Specification -/

/-- The weighted integral of the flux against one basis function. [specification, no code] -/
def integral {K : Type} [CommRing K] (fs ws bs : List K) : K :=
  (List.zipWith (fun (fw : K × K) (b : K) => fw.1 * fw.2 * b) (List.zip fs ws) bs).sum

/-- What the flux conditions owe to the equation with local number `i`: minus the integral of the flux against the
test functions belonging to that equation. [specification, no code] -/
def owed {K : Type} [CommRing K] (ws : List K) (vs : List (Var K)) (i : Nat) : K :=
  (vs.map (fun v : Var K =>
    if v.bctype = "Flux" then
      ((List.zip v.off v.basis).map (fun ob : Nat × List K =>
        if ob.1 = i then - integral v.flux ws ob.2 else 0)).sum
    else 0)).sum

/-! ## Lemmas -/

variable {K : Type} [CommRing K]

theorem addPts_eq (o : Nat) (fs ws bs : List K) (res : Nat → K) (i : Nat) :
    addPts o fs ws bs res i = res i + if o = i then - integral fs ws bs else 0 := by
  induction fs generalizing ws bs res with
  | nil => cases ws <;> cases bs <;> simp [addPts, integral]
  | cons f fs ih =>
      cases ws with
      | nil => cases bs <;> simp [addPts, integral]
      | cons w ws =>
          cases bs with
          | nil => simp [addPts, integral]
          | cons b bs =>
              simp only [addPts]
              rw [ih]
              by_cases h : o = i
              · subst h
                simp only [if_true, integral, List.zip_cons_cons, List.zipWith_cons_cons, List.sum_cons]
                ring
              · have h' : ¬ i = o := fun e => h e.symm
                simp [h, h']

theorem addDofs_eq (fs ws : List K) (os : List Nat) (bs : List (List K)) (res : Nat → K) (i : Nat) :
    addDofs fs ws os bs res i = res i +
      ((List.zip os bs).map (fun ob : Nat × List K => if ob.1 = i then - integral fs ws ob.2 else 0)).sum := by
  induction os generalizing bs res with
  | nil => cases bs <;> simp [addDofs]
  | cons o os ih =>
      cases bs with
      | nil => simp [addDofs]
      | cons b bs =>
          simp only [addDofs, List.zip_cons_cons, List.map_cons, List.sum_cons]
          rw [ih, addPts_eq]
          ring

theorem addVars_eq (ws : List K) (vs : List (Var K)) (res : Nat → K) (i : Nat) :
    addVars ws vs res i = res i + owed ws vs i := by
  induction vs generalizing res with
  | nil => simp [addVars, owed]
  | cons v vs ih =>
      simp only [addVars]
      rw [ih]
      by_cases h : v.bctype = "Flux"
      · simp only [owed, h, if_true, List.map_cons, List.sum_cons, addDofs_eq]
        ring
      · simp [owed, h]

/-! ## Properties -/

/-- C95, the residual-only assembly: every equation receives, besides the terms of the modules, minus the integral
of the prescribed flux against its test function, for all variables carrying a flux condition. -/
theorem C95_residual (M : Nat) (terms : Nat → K) (ws : List K) (vs : List (Var K)) (i : Nat) :
    residualOnly M terms ws vs i = terms i + owed ws vs i := by
  simp [residualOnly, fluxConditions, addVars_eq]

/-- A side of two quadrature points with weights 1/2, one variable with a flux of 6 at both points and two linear
test functions. [case] -/
def exVars : List (Var ℚ) :=
  [{ bctype := "Flux", flux := [6, 6], off := [0, 1], basis := [[1, 0], [0, 1]] }]

example : owed [1/2, 1/2] exVars 0 = (-3 : ℚ) ∧ owed [1/2, 1/2] exVars 1 = (-3 : ℚ) ∧
    owed [1/2, 1/2] exVars 2 = (0 : ℚ) := by decide +kernel

/-- C95, partial: the assembly with derivatives gives the same residual as the residual-only assembly when the
selected type is the one with `MAXDERIVS` slots — automatic selection off, more than 32 unknowns per element, or
a fully explicit scheme.  Missing: every other selection, see `C95_dropped_violated`. -/
theorem C95_partial (M ndr : Nat) (autotune fullyExplicit : Bool) (terms : Nat → K) (ws : List K)
    (vs : List (Var K)) (h : autotune = false ∨ fullyExplicit = true ∨ ndr = 0 ∨ 32 < ndr) :
    residualWithJacobian M ndr false autotune fullyExplicit terms ws vs = residualOnly M terms ws vs := by
  have ht : jacresTy M (autotune && !false) (typeId ndr false autotune fullyExplicit) = .slots M := by
    rcases h with h | h | h | h
    · subst h; simp [jacresTy]
    · subst h; cases autotune <;> simp [jacresTy, typeId]
    · subst h; cases autotune <;> cases fullyExplicit <;> simp [jacresTy, typeId]
    · have : typeId ndr false autotune fullyExplicit = -1 ∨ typeId ndr false autotune fullyExplicit = 0 := by
        unfold typeId
        have h2 : ¬ ndr ≤ 2 := by omega
        have h4 : ¬ ndr ≤ 4 := by omega
        have h8 : ¬ ndr ≤ 8 := by omega
        have h16 : ¬ ndr ≤ 16 := by omega
        have h18 : ¬ ndr ≤ 18 := by omega
        have h24 : ¬ ndr ≤ 24 := by omega
        have h32 : ¬ ndr ≤ 32 := by omega
        cases autotune <;> cases fullyExplicit <;> simp [h2, h4, h8, h16, h18, h24, h32]
      cases autotune
      · simp [jacresTy]
      · rcases this with e | e <;> rw [e] <;> simp [jacresTy]
  unfold residualWithJacobian residualOnly fluxConditions
  rw [ht]
  simp

example : residualWithJacobian 64 36 false true false (fun _ : Nat => 0) [1/2, 1/2] exVars 0 = (-3 : ℚ) := by
  decide +kernel

/-- The numbers of slots that can be selected automatically. [specification, no code] -/
def sizes : List Nat := [2, 4, 8, 16, 18, 24, 32]

theorem jacresTy_small (M ndr : Nat) (h0 : 0 < ndr) (h1 : ndr ≤ 32) :
    ∃ n ∈ sizes, jacresTy M (true && !false) (typeId ndr false true false) = .slots n ∧ ndr ≤ n := by
  unfold typeId
  by_cases a : ndr ≤ 2
  · exact ⟨2, by simp [sizes], by simp [jacresTy, h0, a], a⟩
  by_cases b : ndr ≤ 4
  · exact ⟨4, by simp [sizes], by simp [jacresTy, h0, a, b, show 2 < ndr by omega], b⟩
  by_cases c : ndr ≤ 8
  · exact ⟨8, by simp [sizes], by simp [jacresTy, h0, a, b, c, show 4 < ndr by omega], c⟩
  by_cases d : ndr ≤ 16
  · exact ⟨16, by simp [sizes], by simp [jacresTy, h0, a, b, c, d, show 8 < ndr by omega], d⟩
  by_cases e : ndr ≤ 18
  · exact ⟨18, by simp [sizes], by simp [jacresTy, h0, a, b, c, d, e, show 16 < ndr by omega], e⟩
  by_cases f : ndr ≤ 24
  · exact ⟨24, by simp [sizes], by simp [jacresTy, h0, a, b, c, d, e, f, show 18 < ndr by omega], f⟩
  · exact ⟨32, by simp [sizes], by simp [jacresTy, h0, a, b, c, d, e, f, show 24 < ndr by omega, h1], h1⟩

/-- C95 is violated in the default configuration: with automatic selection of the type, between 1 and 32 unknowns
per element and a `MAXDERIVS` that is none of the automatic sizes (the default is 64), the flux conditions of all
variables are left out of the residual assembled together with the Jacobian, whatever they prescribe. -/
theorem C95_dropped_violated (M ndr : Nat) (hM : M ∉ sizes) (h0 : 0 < ndr) (h1 : ndr ≤ 32)
    (terms : Nat → K) (ws : List K) (vs : List (Var K)) :
    residualWithJacobian M ndr false true false terms ws vs = terms := by
  obtain ⟨n, hn, ht, -⟩ := jacresTy_small M ndr h0 h1
  have hne : ¬ n = M := fun e => hM (e ▸ hn)
  unfold residualWithJacobian fluxConditions
  rw [ht]
  simp [hne]

/-- C95, consequence: the two assemblies agree in that configuration only where nothing is owed to an equation. -/
theorem C95_paths_violated (M ndr : Nat) (hM : M ∉ sizes) (h0 : 0 < ndr) (h1 : ndr ≤ 32)
    (terms : Nat → K) (ws : List K) (vs : List (Var K)) (i : Nat) :
    residualWithJacobian M ndr false true false terms ws vs i = residualOnly M terms ws vs i ↔ owed ws vs i = 0 := by
  rw [C95_dropped_violated M ndr hM h0 h1, C95_residual]
  constructor
  · intro h
    have h2 : terms i + owed ws vs i - terms i = terms i - terms i := by rw [← h]
    simpa using h2
  · intro h
    simp [h]

example : (64 : Nat) ∉ sizes ∧
    residualWithJacobian 64 4 false true false (fun _ : Nat => 0) [1/2, 1/2] exVars 0 = (0 : ℚ) ∧
    residualOnly 64 (fun _ : Nat => 0) [1/2, 1/2] exVars 0 = (-3 : ℚ) := by decide +kernel

/-- C95, multiscale blocks: the module terms of a boundary element are left out but the flux conditions are not.
(The residual-only assembly has no such test.) -/
theorem C95_multiscale (M ndr : Nat) (autotune : Bool) (terms : Nat → K) (ws : List K) (vs : List (Var K))
    (i : Nat) : residualWithJacobian M ndr true autotune false terms ws vs i = owed ws vs i := by
  have ht : jacresTy M (autotune && !true) (typeId ndr true autotune false) = .slots M := by
    simp [jacresTy]
  unfold residualWithJacobian fluxConditions
  rw [ht]
  simp [addVars_eq]

end MrHyDE.Physics.Flux
