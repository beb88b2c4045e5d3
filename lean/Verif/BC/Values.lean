import Mathlib.Algebra.Order.Field.Basic
import Mathlib.Algebra.Order.BigOperators.Group.List
import Mathlib.Algebra.BigOperators.Ring.List
import Mathlib.Algebra.BigOperators.Group.Finset.Basic
import Mathlib.Algebra.BigOperators.Ring.Finset
import Mathlib.Tactic.LinearCombination
import Mathlib.Tactic.Linarith
import Mathlib.Tactic.Positivity
import Verif.Assembly.Projection
import Verif.Physics.Numbers

/-!
# C158: the values of strongly prescribed unknowns

From the entries under "Dirichlet conditions" to the coefficients of the unknowns on the sides: which function is
evaluated on a side (physicsInterface_functions.hpp, physicsInterface_boundary_conditions.hpp), the right-hand side and
the mass matrix of a side (assemblyManager_constraints.hpp:277-387, assemblyManager_mass.hpp:804-909), the system of
C68, and what is written into the state (solverManager_util.hpp:14-141, solverManager_setup.hpp:689-753).

The linear solver of the projection is any solution of the system.  One process, no lumping (C68).
-/

namespace MrHyDE.BC.Values

set_option linter.unusedSectionVars false

open MrHyDE.Assembly.Projection (project Sys massEntry overRows)
open MrHyDE.Physics.Numbers (Given Def Entries entry dirichlet)

/-! ## Model: which functions are evaluated -/

/-- The sublists under "Dirichlet conditions", by name; src/interfaces/physics/physicsInterface_functions.hpp:233, 239,
280. -/
abbrev Conds := String → Option Entries

/-- The functions of one sublist; the label "Dirichlet name side" is kept as a pair of name and side.
[src/interfaces/physics/physicsInterface_functions.hpp:239-273, the same for components 280-314] -/
def define (sides : List String) (conds : Conds) (name : String) : List ((String × String) × Def) :=
  match conds name with
  | none => []
  | some es => (dirichlet sides es).map fun p => ((name, p.1), p.2)

/-- All functions of a variable: its own sublist, and those of the components if the basis has vector values.
[src/interfaces/physics/physicsInterface_functions.hpp:234-317] -/
def functions (sides : List String) (conds : Conds) (vec : Bool) (var : String) : List ((String × String) × Def) :=
  define sides conds var ++
    (if vec then define sides conds (var ++ "x") ++ define sides conds (var ++ "y") ++ define sides conds (var ++ "z")
     else [])

/-- The function with a label, as `hasFunction` (src/managers/function/functionManager_util.hpp:43-57) and `evaluate`
(functionManager_evaluate.hpp:14-40) find it; `none` if there is no such function (for `evaluate`: an exception). -/
def find (fs : List ((String × String) × Def)) (l : String × String) : Option Def :=
  (fs.find? fun p => p.1 == l).map (·.2)

/-- `getDirichlet`, src/interfaces/physics/physicsInterface_boundary_conditions.hpp:46-66. -/
def scalarData (fs : List ((String × String) × Def)) (var side : String) : Option Def := find fs (var, side)

/-- `getDirichletVector`, physicsInterface_boundary_conditions.hpp:71-124: three components, `none` in the list is the
value zero. -/
def vectorData (fs : List ((String × String) × Def)) (var side : String) : Option (List (Option Def)) :=
  if (find fs (var ++ "x", side)).isSome then
    some [find fs (var ++ "x", side), find fs (var ++ "y", side), find fs (var ++ "z", side)]
  else
    (find fs (var, side)).map fun d => [some d, some d, some d]

/-- A sublist names the side, `isParameter("all boundaries") || isParameter(sideName)`;
src/interfaces/discretization/discretizationInterface_dof.hpp:432-433, 448-449. -/
def names (conds : Conds) (name side : String) : Bool :=
  match conds name with
  | none => false
  | some es => (entry es "all boundaries").isSome || (entry es side).isSome

/-- `isDiri`, discretizationInterface_dof.hpp:432-455. -/
def isDiri (conds : Conds) (vec : Bool) (var side : String) : Bool :=
  names conds var side || (vec && (names conds (var ++ "x") side || names conds (var ++ "y") side ||
    names conds (var ++ "z") side))

/-- The data of one side of the mesh for one variable as `getDirichletBoundary` asks for it, by the type of the basis.
[src/managers/assembly/assemblyManager_constraints.hpp:295-297, 308-310, 337-342] -/
def sideData (fs : List ((String × String) × Def)) (btype var side : String) : Option (List (Option Def)) :=
  if btype = "HGRAD" ∨ btype = "HVOL" ∨ btype = "HFACE" then (scalarData fs var side).map fun d => [some d]
  else if btype = "HDIV" then (scalarData fs var side).map fun d => [some d]
  else if btype = "HCURL" then vectorData fs var side
  else some []

/-! ## Model: one side of an element -/

section
variable {K : Type} [CommRing K]

/-- A variable on a side: is the label "Dirichlet", the type and dimension (`cbasis.extent(3)`) of the basis, the number
of basis functions, their local positions, their values `psi i k d` and the data `g k d` at the points.
[src/managers/assembly/assemblyManager_constraints.hpp:288-297, 339-342, assemblyManager_mass.hpp:815-820] -/
structure Var (K : Type) where
  strong : Bool
  btype : String
  dim : Nat
  nb : Nat
  off : Nat → Nat
  psi : Nat → Nat → Nat → K
  g : Nat → Nat → K

/-- A side of an element: local indices, points with weights and normals, variables.
[src/managers/assembly/assemblyManager_constraints.hpp:279-286] -/
structure Elem (K : Type) where
  lids : List Nat
  np : Nat
  w : Nat → K
  n : Nat → Nat → K
  vars : List (Var K)

/-- Product of two vectors of dimension one, two or three;
assemblyManager_constraints.hpp:364-376, assemblyManager_mass.hpp:885-897. -/
def dot (dim : Nat) (a b : Nat → K) : K :=
  a 0 * b 0 + (if 1 < dim then a 1 * b 1 else 0) + (if 2 < dim then a 2 * b 2 else 0)

/-- What a point contributes to the right-hand side of basis function `i`;
assemblyManager_constraints.hpp:303, 326-332, 364-379. -/
def rhsPt (v : Var K) (w : K) (n : Nat → K) (i k : Nat) : K :=
  let g := v.g k
  let b := v.psi i k
  if v.btype = "HGRAD" ∨ v.btype = "HVOL" ∨ v.btype = "HFACE" then g 0 * b 0 * w
  else if v.btype = "HDIV" then
    g 0 * b 0 * n 0 * w + (if 1 < v.dim then g 0 * b 1 * n 1 * w else 0) + (if 2 < v.dim then g 0 * b 2 * n 2 * w else 0)
  else if v.btype = "HCURL" then (dot v.dim g b - dot v.dim g n * dot v.dim b n) * w
  else 0

/-- What a point contributes to the mass matrix; assemblyManager_mass.hpp:829, 851-857, 885-900. -/
def massPt (v : Var K) (w : K) (n : Nat → K) (i j k : Nat) : K :=
  let a := v.psi i k
  let b := v.psi j k
  if v.btype = "HGRAD" ∨ v.btype = "HVOL" ∨ v.btype = "HFACE" then a 0 * b 0 * w
  else if v.btype = "HDIV" then
    a 0 * n 0 * b 0 * n 0 * w + (if 1 < v.dim then a 1 * n 1 * b 1 * n 1 * w else 0)
      + (if 2 < v.dim then a 2 * n 2 * b 2 * n 2 * w else 0)
  else if v.btype = "HCURL" then (dot v.dim a b - dot v.dim a n * dot v.dim b n) * w
  else 0

/-- `getDirichletBoundary`, assemblyManager_constraints.hpp:277-387: entry at a local position. -/
def localRhs (e : Elem K) (p : Nat) : K :=
  (e.vars.map fun v => if v.strong then
    ((List.range v.nb).map fun i => if v.off i = p then
      ((List.range e.np).map fun k => rhsPt v (e.w k) (e.n k) i k).sum else 0).sum else 0).sum

/-- `getMassBoundary`, assemblyManager_mass.hpp:804-909: entry at two local positions. -/
def localMass (e : Elem K) (p q : Nat) : K :=
  (e.vars.map fun v => if v.strong then
    ((List.range v.nb).map fun i => if v.off i = p then
      ((List.range v.nb).map fun j => if v.off j = q then
        ((List.range e.np).map fun k => massPt v (e.w k) (e.n k) i j k).sum else 0).sum else 0).sum else 0).sum

/-- The side as `computeConstraintProjection` gets it, assemblyManager_constraints.hpp:163-171. -/
def Elem.side (e : Elem K) : MrHyDE.Assembly.Projection.Side K := ⟨e.lids, localRhs e, localMass e⟩

/-! ## Model: what is written into the state -/

/-- One entry of the state. [helper] -/
def put (u : Nat → K) (i : Nat) (x : K) : Nat → K := fun j => if j = i then x else u j

/-- `setDirichlet`, src/managers/solver/solverManager_util.hpp:86-137: with `value` (scalar data) the number of a variable
goes to its prescribed unknowns, otherwise the projected values `proj`; then the unknowns of points are set to zero.
`dofs` are the prescribed unknowns, by block and variable, `points` those of points, by block. -/
def setDirichlet (value : Option (Nat → Nat → K)) (proj : Nat → K) (dofs : List (List (List Nat)))
    (points : List (List Nat)) (u : Nat → K) : Nat → K :=
  let u := (dofs.zipIdx).foldl (fun u b => (b.1.zipIdx).foldl (fun u v => v.1.foldl (fun u i =>
    put u i (match value with | some f => f b.2 v.2 | none => proj i)) u) u) u
  points.foldl (fun u l => l.foldl (fun u i => put u i 0) u) u

/-- The number of a variable with "scalar data", src/managers/solver/solverManager_setup.hpp:728-741.  An entry is the
name of a side with a number, or with something else (`none`), for which `get` throws. -/
def scalarValue (es : Option (List (String × Option K))) : Option K :=
  match es with
  | none => some 0
  | some l =>
    match l.find? (fun p => p.1 == "all boundaries") with
    | some p => p.2
    | none => l.foldl (fun v p => v.bind fun _ => p.2) (some 0)

/-- When the projection is computed, solverManager_util.hpp:72-80, solverManager_setup.hpp:711: the calls of
`setDirichlet` at the times `ts`; with "static data" (the default) only the first one projects.  The result lists the
time at which the data written by each call were evaluated; `last` is the time of the projection kept. -/
def callTimes {T : Type} (static : Bool) : Option T → List T → List T
  | _, [] => []
  | last, t :: ts =>
    let now := match static, last with
      | true, some s => s
      | _, _ => t
    now :: callTimes static (some now) ts

/-! ## Specification -/

/-- The part of a vector that a condition of this type prescribes: the value, the component along the normal, or the
part along the side. [specification, no code] -/
def trace (btype : String) (dim : Nat) (n a : Nat → K) : Nat → K := fun d =>
  if btype = "HGRAD" ∨ btype = "HVOL" ∨ btype = "HFACE" then (if d = 0 then a 0 else 0)
  else if btype = "HDIV" then (if d = 0 then dot dim a n else 0)
  else if btype = "HCURL" then (if d < dim then a d - dot dim a n * n d else 0)
  else 0

/-- What the data prescribe at a point: for face elements the number given is the component along the normal.
[specification, no code] -/
def wanted (btype : String) (dim : Nat) (n g : Nat → K) : Nat → K :=
  if btype = "HDIV" then (fun d => if d = 0 then g 0 else 0) else trace btype dim n g

/-- The finite element function of a variable at a point of a side. [specification, no code] -/
def field (e : Elem K) (v : Var K) (u : Nat → K) (k d : Nat) : K :=
  ((List.range v.nb).map fun i => u (e.lids.getD (v.off i) 0) * v.psi i k d).sum

/-- Product of two vectors with three components. [specification, no code] -/
def inner (x y : Nat → K) : K := x 0 * y 0 + x 1 * y 1 + x 2 * y 2

/-- Difference between the trace and the data at a point. [specification, no code] -/
def gap (e : Elem K) (v : Var K) (u : Nat → K) (k d : Nat) : K :=
  trace v.btype v.dim (e.n k) (field e v u k) d - wanted v.btype v.dim (e.n k) (v.g k) d

/-- Square of the distance between the traces of the state and the data, over all sides with the condition.
[specification, no code] -/
def distance (es : List (Elem K)) (u : Nat → K) : K :=
  (es.map fun e => (e.vars.map fun v => if v.strong then
    ((List.range e.np).map fun k => e.w k * inner (gap e v u k) (gap e v u k)).sum else 0).sum).sum

/-- Sides on which the code treats the type correctly: normals of length one for edge elements, normals along an axis for
face elements. [specification, no code] -/
def Fits (e : Elem K) (v : Var K) : Prop :=
  (1 ≤ v.dim ∧ v.dim ≤ 3) ∧ (∀ i < v.nb, v.off i < e.lids.length) ∧
  (v.btype = "HCURL" → ∀ k < e.np, dot v.dim (e.n k) (e.n k) = 1) ∧
  (v.btype = "HDIV" → ∀ k < e.np, ∀ c d, c < v.dim → d < v.dim → c ≠ d → e.n k c * e.n k d = 0)

/-- The state solves the assembled system of `N` unknowns. [specification, no code] -/
def Solves (s : Sys K) (N : Nat) (u : Nat → K) : Prop :=
  ∀ r < N, ((List.range N).map fun c => s.mat r c * u c).sum = s.rhs r

/-- What the input asks for on a side under a name: a text for the side or for all boundaries, or nothing.
[specification, no code] -/
def Asks (sides : List String) (conds : Conds) (name side : String) : Option String → Prop
  | some t => ∃ es, conds name = some es ∧ ((entry es "all boundaries" = some (.text t) ∧ side ∈ sides) ∨
      (entry es "all boundaries" = none ∧ entry es side = some (.text t)))
  | none => conds name = none ∨ ∃ es, conds name = some es ∧ entry es "all boundaries" = none ∧ entry es side = none

/-! ## Lemmas -/

theorem range_sum (n : Nat) (f : Nat → K) : ((List.range n).map f).sum = ∑ i ∈ Finset.range n, f i := rfl

theorem rhsPt_eq (e : Elem K) (v : Var K) (h : Fits e v) (i k : Nat) (hk : k < e.np) :
    rhsPt v (e.w k) (e.n k) i k =
      e.w k * inner (wanted v.btype v.dim (e.n k) (v.g k)) (trace v.btype v.dim (e.n k) (v.psi i k)) := by
  obtain ⟨⟨d1, d3⟩, -, hc, -⟩ := h
  by_cases h1 : v.btype = "HGRAD" ∨ v.btype = "HVOL" ∨ v.btype = "HFACE"
  · have h2 : ¬ v.btype = "HDIV" := by rcases h1 with h | h | h <;> rw [h] <;> decide
    simp only [rhsPt, inner, wanted, trace, h1, h2, if_true, if_false]
    simp only [one_ne_zero, OfNat.ofNat_ne_zero, if_false]
    ring
  · by_cases h2 : v.btype = "HDIV"
    · simp only [rhsPt, inner, wanted, trace, h2, dot]
      have hd : v.dim = 1 ∨ v.dim = 2 ∨ v.dim = 3 := by omega
      rcases hd with hd | hd | hd <;> simp [hd] <;> ring
    · by_cases h3 : v.btype = "HCURL"
      · have hn := hc h3 k hk
        have hd : v.dim = 1 ∨ v.dim = 2 ∨ v.dim = 3 := by omega
        rcases hd with hd | hd | hd <;> simp [rhsPt, inner, wanted, trace, h3, dot, hd] at hn ⊢
        · linear_combination (-(v.g k 0 * v.psi i k 0 * e.w k * e.n k 0 * e.n k 0)) * hn
        · linear_combination (-((v.g k 0 * e.n k 0 + v.g k 1 * e.n k 1) *
            (v.psi i k 0 * e.n k 0 + v.psi i k 1 * e.n k 1) * e.w k)) * hn
        · linear_combination (-((v.g k 0 * e.n k 0 + v.g k 1 * e.n k 1 + v.g k 2 * e.n k 2) *
            (v.psi i k 0 * e.n k 0 + v.psi i k 1 * e.n k 1 + v.psi i k 2 * e.n k 2) * e.w k)) * hn
      · simp [rhsPt, inner, wanted, trace, h1, h2, h3]

theorem massPt_eq (e : Elem K) (v : Var K) (h : Fits e v) (i j k : Nat) (hk : k < e.np) :
    massPt v (e.w k) (e.n k) i j k =
      e.w k * inner (trace v.btype v.dim (e.n k) (v.psi i k)) (trace v.btype v.dim (e.n k) (v.psi j k)) := by
  obtain ⟨⟨d1, d3⟩, -, hc, hv⟩ := h
  have hd : v.dim = 1 ∨ v.dim = 2 ∨ v.dim = 3 := by omega
  by_cases h1 : v.btype = "HGRAD" ∨ v.btype = "HVOL" ∨ v.btype = "HFACE"
  · simp only [massPt, inner, trace, h1, if_true]
    simp only [one_ne_zero, OfNat.ofNat_ne_zero, if_false]
    ring
  · by_cases h2 : v.btype = "HDIV"
    · have hz := hv h2 k hk
      rcases hd with hd | hd | hd <;> rw [hd] at hz <;> simp [massPt, inner, trace, h2, dot, hd]
      · ring
      · have z01 := hz 0 1 (by omega) (by omega) (by omega)
        linear_combination (-(e.w k * (v.psi i k 0 * v.psi j k 1 + v.psi i k 1 * v.psi j k 0))) * z01
      · have z01 := hz 0 1 (by omega) (by omega) (by omega)
        have z02 := hz 0 2 (by omega) (by omega) (by omega)
        have z12 := hz 1 2 (by omega) (by omega) (by omega)
        linear_combination (-(e.w k * (v.psi i k 0 * v.psi j k 1 + v.psi i k 1 * v.psi j k 0))) * z01
          + (-(e.w k * (v.psi i k 0 * v.psi j k 2 + v.psi i k 2 * v.psi j k 0))) * z02
          + (-(e.w k * (v.psi i k 1 * v.psi j k 2 + v.psi i k 2 * v.psi j k 1))) * z12
    · by_cases h3 : v.btype = "HCURL"
      · have hn := hc h3 k hk
        rcases hd with hd | hd | hd <;> simp [massPt, inner, trace, h3, dot, hd] at hn ⊢
        · linear_combination (-(v.psi i k 0 * v.psi j k 0 * e.w k * e.n k 0 * e.n k 0)) * hn
        · linear_combination (-((v.psi i k 0 * e.n k 0 + v.psi i k 1 * e.n k 1) *
            (v.psi j k 0 * e.n k 0 + v.psi j k 1 * e.n k 1) * e.w k)) * hn
        · linear_combination (-((v.psi i k 0 * e.n k 0 + v.psi i k 1 * e.n k 1 + v.psi i k 2 * e.n k 2) *
            (v.psi j k 0 * e.n k 0 + v.psi j k 1 * e.n k 1 + v.psi j k 2 * e.n k 2) * e.w k)) * hn
      · simp [massPt, inner, trace, h1, h2, h3]

/-- The trace of a sum is the sum of the traces. -/
theorem trace_sum (bt : String) (dim : Nat) (n : Nat → K) (s : Finset Nat) (c : Nat → K) (psi : Nat → Nat → K) (d : Nat) :
    trace bt dim n (fun m => ∑ i ∈ s, c i * psi i m) d = ∑ i ∈ s, c i * trace bt dim n (psi i) d := by
  have hdot : dot dim (fun m => ∑ i ∈ s, c i * psi i m) n = ∑ i ∈ s, c i * dot dim (psi i) n := by
    unfold dot
    simp only [mul_add, Finset.sum_add_distrib, mul_ite, mul_zero, Finset.sum_mul]
    congr 1
    · congr 1
      · exact Finset.sum_congr rfl fun _ _ => by ring
      · split
        · exact Finset.sum_congr rfl fun _ _ => by ring
        · simp
    · split
      · exact Finset.sum_congr rfl fun _ _ => by ring
      · simp
  unfold trace
  by_cases h1 : bt = "HGRAD" ∨ bt = "HVOL" ∨ bt = "HFACE"
  · simp only [h1, if_true]
    split
    · rfl
    · simp
  · simp only [h1, if_false]
    by_cases h2 : bt = "HDIV"
    · simp only [h2, if_true, hdot]
      split
      · rfl
      · simp
    · simp only [h2, if_false]
      split
      · split
        · rw [hdot, Finset.sum_mul, ← Finset.sum_sub_distrib]
          exact Finset.sum_congr rfl fun _ _ => by ring
        · simp
      · simp

theorem trace_field (e : Elem K) (v : Var K) (u : Nat → K) (k d : Nat) :
    trace v.btype v.dim (e.n k) (field e v u k) d =
      ∑ i ∈ Finset.range v.nb, u (e.lids.getD (v.off i) 0) * trace v.btype v.dim (e.n k) (v.psi i k) d :=
  trace_sum v.btype v.dim (e.n k) (Finset.range v.nb) (fun i => u (e.lids.getD (v.off i) 0)) (fun i => v.psi i k) d

theorem inner_sum_right (s : Finset Nat) (x : Nat → K) (c : Nat → K) (y : Nat → Nat → K) :
    inner x (fun d => ∑ i ∈ s, c i * y i d) = ∑ i ∈ s, c i * inner x (y i) := by
  unfold inner
  simp only [Finset.mul_sum, ← Finset.sum_add_distrib]
  exact Finset.sum_congr rfl fun _ _ => by ring

theorem inner_comm (x y : Nat → K) : inner x y = inner y x := by unfold inner; ring

/-- Row sums against a weight. -/
theorem rows_sum (e : MrHyDE.Assembly.Projection.Side K) (N : Nat) (hl : ∀ l ∈ e.lids, l < N) (c : Nat → K) (f : Nat → K) :
    ∑ r ∈ Finset.range N, c r * ((List.range e.lids.length).map fun p => if e.lids[p]? = some r then f p else 0).sum =
      ∑ p ∈ Finset.range e.lids.length, c (e.lids.getD p 0) * f p := by
  simp only [range_sum, Finset.mul_sum]
  rw [Finset.sum_comm]
  refine Finset.sum_congr rfl fun p hp => ?_
  have hp' := Finset.mem_range.mp hp
  have hN : e.lids.getD p 0 ∈ Finset.range N := by
    rw [List.getD_eq_getElem?_getD, List.getElem?_eq_getElem hp', Option.getD_some]
    exact Finset.mem_range.mpr (hl _ (List.getElem_mem hp'))
  rw [Finset.sum_eq_single_of_mem _ hN]
  · rw [if_pos ((MrHyDE.Assembly.Projection.getD_iff _ _ _ hp').mp rfl)]
  · intro r _ hr
    rw [if_neg (fun h => hr ((MrHyDE.Assembly.Projection.getD_iff _ _ _ hp').mpr h).symm), mul_zero]

/-- Local positions against a weight. -/
theorem pos_sum (L nb : Nat) (off : Nat → Nat) (ho : ∀ i < nb, off i < L) (c : Nat → K) (f : Nat → K) :
    ∑ p ∈ Finset.range L, c p * ((List.range nb).map fun i => if off i = p then f i else 0).sum =
      ∑ i ∈ Finset.range nb, c (off i) * f i := by
  simp only [range_sum, Finset.mul_sum]
  rw [Finset.sum_comm]
  refine Finset.sum_congr rfl fun i hi => ?_
  rw [Finset.sum_eq_single_of_mem (off i) (Finset.mem_range.mpr (ho i (Finset.mem_range.mp hi)))]
  · rw [if_pos rfl]
  · intro p _ hp
    rw [if_neg (fun h => hp h.symm), mul_zero]

theorem list_comm {A : Type} (s : Finset Nat) (c : Nat → K) (l : List A) (F : A → Nat → K) :
    ∑ p ∈ s, c p * (l.map fun v => F v p).sum = (l.map fun v => ∑ p ∈ s, c p * F v p).sum := by
  induction l with
  | nil => simp
  | cons a l ih => simp only [List.map_cons, List.sum_cons, mul_add, Finset.sum_add_distrib, ih]

theorem list_sub {A : Type} (l : List A) (f g : A → K) :
    (l.map f).sum - (l.map g).sum = (l.map fun a => f a - g a).sum := by
  induction l with
  | nil => simp
  | cons a l ih => simp only [List.map_cons, List.sum_cons, ← ih]; ring

/-- What the gap of a state pairs to with the traces of another one. [specification, no code] -/
def pairing (es : List (Elem K)) (u z : Nat → K) : K :=
  (es.map fun e => (e.vars.map fun v => if v.strong then
    ((List.range e.np).map fun k =>
      e.w k * inner (gap e v u k) (trace v.btype v.dim (e.n k) (field e v z k))).sum else 0).sum).sum

theorem gap_inner (e : Elem K) (v : Var K) (u : Nat → K) (k : Nat) (y : Nat → K) :
    inner (gap e v u k) y =
      inner (trace v.btype v.dim (e.n k) (field e v u k)) y - inner (wanted v.btype v.dim (e.n k) (v.g k)) y := by
  unfold gap inner; ring

theorem var_residual (e : Elem K) (v : Var K) (h : Fits e v) (u z : Nat → K) :
    ∑ i ∈ Finset.range v.nb, z (e.lids.getD (v.off i) 0) *
      (∑ j ∈ Finset.range v.nb, u (e.lids.getD (v.off j) 0) *
          ((List.range e.np).map fun k => massPt v (e.w k) (e.n k) i j k).sum
        - ((List.range e.np).map fun k => rhsPt v (e.w k) (e.n k) i k).sum) =
      ((List.range e.np).map fun k =>
        e.w k * inner (gap e v u k) (trace v.btype v.dim (e.n k) (field e v z k))).sum := by
  simp only [range_sum]
  have step : ∀ i ∈ Finset.range v.nb, z (e.lids.getD (v.off i) 0) *
      (∑ j ∈ Finset.range v.nb, u (e.lids.getD (v.off j) 0) * ∑ k ∈ Finset.range e.np, massPt v (e.w k) (e.n k) i j k
        - ∑ k ∈ Finset.range e.np, rhsPt v (e.w k) (e.n k) i k) =
      ∑ k ∈ Finset.range e.np, e.w k * (z (e.lids.getD (v.off i) 0) *
        inner (gap e v u k) (trace v.btype v.dim (e.n k) (v.psi i k))) := by
    intro i _
    have hm : ∑ j ∈ Finset.range v.nb, u (e.lids.getD (v.off j) 0) *
        ∑ k ∈ Finset.range e.np, massPt v (e.w k) (e.n k) i j k =
        ∑ k ∈ Finset.range e.np, e.w k * inner (trace v.btype v.dim (e.n k) (v.psi i k))
          (trace v.btype v.dim (e.n k) (field e v u k)) := by
      simp only [Finset.mul_sum]
      rw [Finset.sum_comm]
      refine Finset.sum_congr rfl fun k hk => ?_
      have ht : trace v.btype v.dim (e.n k) (field e v u k) = fun d => ∑ j ∈ Finset.range v.nb,
          u (e.lids.getD (v.off j) 0) * trace v.btype v.dim (e.n k) (v.psi j k) d := funext (trace_field e v u k)
      rw [ht, inner_sum_right, Finset.mul_sum]
      refine Finset.sum_congr rfl fun j _ => ?_
      rw [massPt_eq e v h i j k (Finset.mem_range.mp hk)]
      ring
    rw [hm, ← Finset.sum_sub_distrib, Finset.mul_sum]
    refine Finset.sum_congr rfl fun k hk => ?_
    rw [rhsPt_eq e v h i k (Finset.mem_range.mp hk), gap_inner, inner_comm (trace v.btype v.dim (e.n k) (v.psi i k))]
    ring
  rw [Finset.sum_congr rfl step, Finset.sum_comm]
  refine Finset.sum_congr rfl fun k _ => ?_
  have ht : trace v.btype v.dim (e.n k) (field e v z k) = fun d => ∑ i ∈ Finset.range v.nb,
      z (e.lids.getD (v.off i) 0) * trace v.btype v.dim (e.n k) (v.psi i k) d := funext (trace_field e v z k)
  rw [ht, inner_sum_right, Finset.mul_sum]

theorem elem_residual (e : Elem K) (h : ∀ v ∈ e.vars, v.strong = true → Fits e v) (u z : Nat → K) :
    ∑ p ∈ Finset.range e.lids.length, z (e.lids.getD p 0) *
      (∑ q ∈ Finset.range e.lids.length, u (e.lids.getD q 0) * localMass e p q - localRhs e p) =
    (e.vars.map fun v => if v.strong then ((List.range e.np).map fun k =>
      e.w k * inner (gap e v u k) (trace v.btype v.dim (e.n k) (field e v z k))).sum else 0).sum := by
  have hq : ∀ p, ∑ q ∈ Finset.range e.lids.length, u (e.lids.getD q 0) * localMass e p q - localRhs e p =
      (e.vars.map fun v => if v.strong then ((List.range v.nb).map fun i => if v.off i = p then
        (∑ j ∈ Finset.range v.nb, u (e.lids.getD (v.off j) 0) *
          ((List.range e.np).map fun k => massPt v (e.w k) (e.n k) i j k).sum
        - ((List.range e.np).map fun k => rhsPt v (e.w k) (e.n k) i k).sum) else 0).sum else 0).sum := by
    intro p
    unfold localMass localRhs
    rw [list_comm (Finset.range e.lids.length) (fun q => u (e.lids.getD q 0)) e.vars
      (fun v q => if v.strong then ((List.range v.nb).map fun i => if v.off i = p then
        ((List.range v.nb).map fun j => if v.off j = q then
        ((List.range e.np).map fun k => massPt v (e.w k) (e.n k) i j k).sum else 0).sum else 0).sum else 0)]
    rw [list_sub]
    congr 1
    refine List.map_congr_left fun v hv => ?_
    by_cases hs : v.strong = true
    · simp only [hs, if_true]
      have hf := h v hv hs
      rw [range_sum v.nb (fun i => if v.off i = p then
        (∑ j ∈ Finset.range v.nb, u (e.lids.getD (v.off j) 0) *
          ((List.range e.np).map fun k => massPt v (e.w k) (e.n k) i j k).sum
        - ((List.range e.np).map fun k => rhsPt v (e.w k) (e.n k) i k).sum) else 0)]
      rw [range_sum v.nb (fun i => if v.off i = p then
        ((List.range e.np).map fun k => rhsPt v (e.w k) (e.n k) i k).sum else 0)]
      have hA : ∑ q ∈ Finset.range e.lids.length, u (e.lids.getD q 0) * ((List.range v.nb).map fun i => if v.off i = p then
          ((List.range v.nb).map fun j => if v.off j = q then
          ((List.range e.np).map fun k => massPt v (e.w k) (e.n k) i j k).sum else 0).sum else 0).sum =
          ∑ i ∈ Finset.range v.nb, if v.off i = p then ∑ j ∈ Finset.range v.nb, u (e.lids.getD (v.off j) 0) *
            ((List.range e.np).map fun k => massPt v (e.w k) (e.n k) i j k).sum else 0 := by
        rw [list_comm (Finset.range e.lids.length) (fun q => u (e.lids.getD q 0)) (List.range v.nb) (fun i q =>
          if v.off i = p then ((List.range v.nb).map fun j => if v.off j = q then
          ((List.range e.np).map fun k => massPt v (e.w k) (e.n k) i j k).sum else 0).sum else 0), range_sum]
        refine Finset.sum_congr rfl fun i _ => ?_
        by_cases hp : v.off i = p
        · simp only [hp, if_true]
          exact pos_sum e.lids.length v.nb v.off hf.2.1 (fun q => u (e.lids.getD q 0)) _
        · simp [hp]
      rw [hA, ← Finset.sum_sub_distrib]
      refine Finset.sum_congr rfl fun i _ => ?_
      split <;> simp
    · simp [hs]
  simp only [hq]
  rw [list_comm (Finset.range e.lids.length) (fun p => z (e.lids.getD p 0)) e.vars
    (fun v p => if v.strong then ((List.range v.nb).map fun i => if v.off i = p then
        (∑ j ∈ Finset.range v.nb, u (e.lids.getD (v.off j) 0) *
          ((List.range e.np).map fun k => massPt v (e.w k) (e.n k) i j k).sum
        - ((List.range e.np).map fun k => rhsPt v (e.w k) (e.n k) i k).sum) else 0).sum else 0)]
  congr 1
  refine List.map_congr_left fun v hv => ?_
  by_cases hs : v.strong = true
  · simp only [hs, if_true]
    rw [pos_sum e.lids.length v.nb v.off (h v hv hs).2.1 (fun p => z (e.lids.getD p 0)), var_residual e v (h v hv hs)]
  · simp [hs]

theorem row_residual (es : List (Elem K)) (N : Nat) (hl : ∀ e ∈ es, ∀ l ∈ e.lids, l < N) (u : Nat → K) (r : Nat) :
    ((List.range N).map fun c => massEntry (es.map Elem.side) r c * u c).sum - overRows (es.map Elem.side) r (fun e p => e.rhs p) =
      (es.map fun e => ((List.range e.lids.length).map fun p => if e.lids[p]? = some r then
        (∑ q ∈ Finset.range e.lids.length, u (e.lids.getD q 0) * localMass e p q - localRhs e p) else 0).sum).sum := by
  have h1 : ((List.range N).map fun c => massEntry (es.map Elem.side) r c * u c).sum =
      (es.map fun e => ((List.range e.lids.length).map fun p => if e.lids[p]? = some r then
        ∑ q ∈ Finset.range e.lids.length, u (e.lids.getD q 0) * localMass e p q else 0).sum).sum := by
    rw [range_sum]
    have e1 : ∀ c, massEntry (es.map Elem.side) r c * u c = u c * (es.map fun e =>
        ((List.range e.lids.length).map fun p => if e.lids[p]? = some r then
          ((List.range e.lids.length).map fun q => if e.lids[q]? = some c then localMass e p q else 0).sum else 0).sum).sum := by
      intro c
      rw [mul_comm]
      unfold massEntry overRows
      rw [List.map_map]
      rfl
    simp only [e1]
    rw [list_comm (Finset.range N) u es (fun e c => ((List.range e.lids.length).map fun p => if e.lids[p]? = some r then
          ((List.range e.lids.length).map fun q => if e.lids[q]? = some c then localMass e p q else 0).sum else 0).sum)]
    congr 1
    refine List.map_congr_left fun e he => ?_
    rw [list_comm (Finset.range N) u (List.range e.lids.length) (fun p c => if e.lids[p]? = some r then
          ((List.range e.lids.length).map fun q => if e.lids[q]? = some c then localMass e p q else 0).sum else 0),
      range_sum, range_sum]
    refine Finset.sum_congr rfl fun p _ => ?_
    by_cases hp : e.lids[p]? = some r
    · simp only [hp, if_true]
      exact rows_sum e.side N (hl e he) u (localMass e p)
    · simp [hp]
  have h2 : overRows (es.map Elem.side) r (fun e p => e.rhs p) =
      (es.map fun e => ((List.range e.lids.length).map fun p => if e.lids[p]? = some r then localRhs e p else 0).sum).sum := by
    unfold overRows
    rw [List.map_map]
    rfl
  rw [h1, h2, list_sub]
  congr 1
  refine List.map_congr_left fun e _ => ?_
  rw [list_sub]
  congr 1
  refine List.map_congr_left fun p _ => ?_
  split <;> simp

/-- The residuals of the boundary mass matrix are the gaps seen by the basis functions. -/
theorem total_residual (es : List (Elem K)) (N : Nat) (hl : ∀ e ∈ es, ∀ l ∈ e.lids, l < N)
    (h : ∀ e ∈ es, ∀ v ∈ e.vars, v.strong = true → Fits e v) (u z : Nat → K) :
    ∑ r ∈ Finset.range N, z r *
      (((List.range N).map fun c => massEntry (es.map Elem.side) r c * u c).sum
        - overRows (es.map Elem.side) r (fun e p => e.rhs p)) = pairing es u z := by
  simp only [row_residual es N hl u]
  rw [list_comm (Finset.range N) z es (fun e r => ((List.range e.lids.length).map fun p => if e.lids[p]? = some r then
        (∑ q ∈ Finset.range e.lids.length, u (e.lids.getD q 0) * localMass e p q - localRhs e p) else 0).sum)]
  unfold pairing
  congr 1
  refine List.map_congr_left fun e he => ?_
  rw [← elem_residual e (h e he) u z]
  exact rows_sum e.side N (hl e he) z _

theorem trace_sub (bt : String) (dim : Nat) (n a b : Nat → K) (d : Nat) :
    trace bt dim n (fun m => a m - b m) d = trace bt dim n a d - trace bt dim n b d := by
  have hdot : dot dim (fun m => a m - b m) n = dot dim a n - dot dim b n := by
    unfold dot
    split <;> split <;> ring
  unfold trace
  rw [hdot]
  split_ifs <;> ring

theorem field_sub (e : Elem K) (v : Var K) (x u : Nat → K) (k d : Nat) :
    field e v (fun r => x r - u r) k d = field e v x k d - field e v u k d := by
  unfold field
  rw [list_sub]
  congr 1
  refine List.map_congr_left fun i _ => by ring

/-- Moving from one state to another. -/
theorem distance_move (es : List (Elem K)) (x u : Nat → K) :
    distance es x = distance es u + 2 * pairing es u (fun r => x r - u r) +
      (es.map fun e => (e.vars.map fun v => if v.strong then
        ((List.range e.np).map fun k => e.w k *
          inner (trace v.btype v.dim (e.n k) (field e v (fun r => x r - u r) k))
            (trace v.btype v.dim (e.n k) (field e v (fun r => x r - u r) k))).sum else 0).sum).sum := by
  have lin : ∀ {A : Type} (l : List A) (a b c : A → K), (l.map a).sum + 2 * (l.map b).sum + (l.map c).sum =
      (l.map fun y => a y + 2 * b y + c y).sum := by
    intro A l a b c
    induction l with
    | nil => simp
    | cons y l ih => simp only [List.map_cons, List.sum_cons, ← ih]; ring
  unfold distance pairing
  rw [lin]
  congr 1
  refine List.map_congr_left fun e _ => ?_
  rw [lin]
  congr 1
  refine List.map_congr_left fun v _ => ?_
  by_cases hs : v.strong = true
  · simp only [hs, if_true]
    rw [lin]
    congr 1
    refine List.map_congr_left fun k _ => ?_
    have hg : ∀ d, gap e v x k d = gap e v u k d + trace v.btype v.dim (e.n k) (field e v (fun r => x r - u r) k) d := by
      intro d
      have hf : field e v (fun r => x r - u r) k = fun m => field e v x k m - field e v u k m :=
        funext (field_sub e v x u k)
      rw [hf, trace_sub]
      unfold gap
      ring
    simp only [inner, hg]
    ring
  · simp [hs]

/-- The distance only depends on unknowns with a trace. -/
theorem field_trace_congr (fixed : Nat → Bool) (e : Elem K) (v : Var K)
    (hz : ∀ i < v.nb, fixed (e.lids.getD (v.off i) 0) = false → ∀ k < e.np, ∀ d, trace v.btype v.dim (e.n k) (v.psi i k) d = 0)
    (x u : Nat → K) (hx : ∀ i < v.nb, fixed (e.lids.getD (v.off i) 0) = true →
      x (e.lids.getD (v.off i) 0) = u (e.lids.getD (v.off i) 0)) (k : Nat) (hk : k < e.np) (d : Nat) :
    gap e v x k d = gap e v u k d := by
  unfold gap
  rw [trace_field, trace_field]
  congr 1
  refine Finset.sum_congr rfl fun i hi => ?_
  have hi' := Finset.mem_range.mp hi
  cases hf : fixed (e.lids.getD (v.off i) 0) with
  | true => rw [hx i hi' hf]
  | false => rw [hz i hi' hf k hk d, mul_zero, mul_zero]

theorem fold_put (f : Nat → K) (l : List Nat) (u : Nat → K) (j : Nat) :
    (l.foldl (fun u i => put u i (f i)) u) j = if j ∈ l then f j else u j := by
  induction l generalizing u with
  | nil => simp
  | cons a l ih =>
    rw [List.foldl_cons, ih]
    by_cases h : j ∈ l
    · simp [h]
    · by_cases ha : j = a
      · subst ha; simp [h, put]
      · simp [h, ha, put]

theorem fold_puts (f : Nat → K) : ∀ (ls : List (List Nat)) (u : Nat → K) (j : Nat),
    (ls.foldl (fun u l => l.foldl (fun u i => put u i (f i)) u) u) j = if ∃ l ∈ ls, j ∈ l then f j else u j
  | [], u, j => by simp
  | l :: ls, u, j => by
    rw [List.foldl_cons, fold_puts f ls, fold_put]
    by_cases h : ∃ l ∈ ls, j ∈ l
    · rw [if_pos h, if_pos]
      obtain ⟨a, h1, h2⟩ := h
      exact ⟨a, List.mem_cons_of_mem _ h1, h2⟩
    · by_cases hj : j ∈ l
      · rw [if_neg h, if_pos hj, if_pos ⟨l, List.mem_cons_self, hj⟩]
      · rw [if_neg h, if_neg hj, if_neg]
        rintro ⟨a, h1, h2⟩
        rcases List.mem_cons.mp h1 with rfl | h1
        · exact hj h2
        · exact h ⟨a, h1, h2⟩

theorem foldl_fst {A B : Type} (f : B → A → B) : ∀ (l : List A) (k : Nat) (b : B),
    (l.zipIdx k).foldl (fun b a => f b a.1) b = l.foldl f b
  | [], _, _ => rfl
  | a :: l, k, b => by
    rw [List.zipIdx_cons, List.foldl_cons, List.foldl_cons]
    exact foldl_fst f l (k + 1) (f b a)

/-- The state after `setDirichlet` with projected values. -/
theorem setDirichlet_proj (proj : Nat → K) (dofs : List (List (List Nat))) (points : List (List Nat)) (u : Nat → K) (j : Nat) :
    setDirichlet none proj dofs points u j =
      if ∃ l ∈ points, j ∈ l then 0 else if ∃ b ∈ dofs, ∃ v ∈ b, j ∈ v then proj j else u j := by
  unfold setDirichlet
  simp only []
  rw [fold_puts (fun _ => (0 : K)) points _ j]
  congr 1
  rw [foldl_fst (fun u (b : List (List Nat)) => (b.zipIdx).foldl (fun u v => v.1.foldl (fun u i => put u i (proj i)) u) u) dofs 0 u]
  have hb : ∀ (b : List (List Nat)) (u : Nat → K),
      (b.zipIdx).foldl (fun u v => v.1.foldl (fun u i => put u i (proj i)) u) u =
        b.foldl (fun u v => v.foldl (fun u i => put u i (proj i)) u) u := fun b u =>
    foldl_fst (fun u (v : List Nat) => v.foldl (fun u i => put u i (proj i)) u) b 0 u
  simp only [hb]
  induction dofs generalizing u with
  | nil => simp
  | cons b bs ih =>
    rw [List.foldl_cons, ih, fold_puts]
    by_cases h1 : ∃ b ∈ bs, ∃ v ∈ b, j ∈ v
    · rw [if_pos h1, if_pos]
      obtain ⟨a, h, h2⟩ := h1
      exact ⟨a, List.mem_cons_of_mem _ h, h2⟩
    · rw [if_neg h1]
      by_cases h2 : ∃ v ∈ b, j ∈ v
      · rw [if_pos h2, if_pos ⟨b, List.mem_cons_self, h2⟩]
      · rw [if_neg h2, if_neg]
        rintro ⟨a, h, h3⟩
        rcases List.mem_cons.mp h with rfl | h
        · exact h2 h3
        · exact h1 ⟨a, h, h3⟩

end

/-! ## Properties: the projection -/

section
variable {K : Type} [Field K] [LinearOrder K] [IsStrictOrderedRing K]

theorem inner_self_nonneg (x : Nat → K) : 0 ≤ inner x x := by
  unfold inner
  nlinarith [mul_self_nonneg (x 0), mul_self_nonneg (x 1), mul_self_nonneg (x 2)]

theorem list_nonneg {A : Type} (l : List A) (f : A → K) (h : ∀ a ∈ l, 0 ≤ f a) : 0 ≤ (l.map f).sum := by
  induction l with
  | nil => simp
  | cons a l ih =>
    simp only [List.map_cons, List.sum_cons]
    exact add_nonneg (h a List.mem_cons_self) (ih fun b hb => h b (List.mem_cons_of_mem _ hb))

theorem list_zero {A : Type} (l : List A) (f : A → K) (h : ∀ a ∈ l, 0 ≤ f a) (hz : (l.map f).sum ≤ 0) :
    ∀ a ∈ l, f a = 0 := by
  induction l with
  | nil => intro a ha; simp at ha
  | cons a l ih =>
    simp only [List.map_cons, List.sum_cons] at hz
    have h1 := h a List.mem_cons_self
    have h2 := list_nonneg l f fun b hb => h b (List.mem_cons_of_mem _ hb)
    intro b hb
    rcases List.mem_cons.mp hb with rfl | hb
    · linarith
    · exact ih (fun b hb => h b (List.mem_cons_of_mem _ hb)) (by linarith) b hb

/-- **C158, partial.**  A solution of the projection system is, among all states with the same values at the unknowns
that are not prescribed (these are zero), one whose traces are closest to the data.  Missing: face elements on sides
whose normal is not along an axis (`C158_oblique_violated`), and the choice of the data
(`C158_components_violated`, `C158_sides_violated`). -/
theorem C158_partial (es : List (Elem K)) (N : Nat) (fixed : Nat → Bool) (elems : List (List Nat))
    (hmesh : ∀ r < N, ∃ l ∈ elems, r ∈ l) (hl : ∀ e ∈ es, ∀ l ∈ e.lids, l < N)
    (hfit : ∀ e ∈ es, ∀ v ∈ e.vars, v.strong = true → Fits e v) (hw : ∀ e ∈ es, ∀ k < e.np, 0 ≤ e.w k)
    (u : Nat → K) (hu : Solves (project fixed false (es.map Elem.side) elems) N u) :
    (∀ r < N, fixed r = false → u r = 0) ∧
    (∀ x : Nat → K, (∀ r < N, fixed r = false → x r = 0) → distance es u ≤ distance es x) := by
  have h68 := fun r c hr => MrHyDE.Assembly.Projection.C68_consistent_partial fixed (es.map Elem.side) elems r c hr
  have hfree : ∀ r < N, fixed r = false → u r = 0 := by
    intro r hr hf
    have h := hu r hr
    rw [(h68 r r (hmesh r hr)).2, range_sum] at h
    rw [Finset.sum_eq_single_of_mem r (Finset.mem_range.mpr hr)] at h
    · rw [(h68 r r (hmesh r hr)).1] at h
      simpa [hf] using h
    · intro c _ hc
      rw [(h68 r c (hmesh r hr)).1]
      simp [hf, Ne.symm hc]
  refine ⟨hfree, fun x hx => ?_⟩
  have hp : pairing es u (fun r => x r - u r) = 0 := by
    rw [← total_residual es N hl hfit]
    refine Finset.sum_eq_zero fun r hr => ?_
    have hr' := Finset.mem_range.mp hr
    cases hf : fixed r with
    | false => rw [hx r hr' hf, hfree r hr' hf]; ring
    | true =>
      have h := hu r hr'
      rw [(h68 r r (hmesh r hr')).2] at h
      simp only [(h68 r _ (hmesh r hr')).1, hf, if_true] at h
      rw [h, sub_self, mul_zero]
  rw [distance_move es x u, hp]
  have : 0 ≤ (es.map fun e => (e.vars.map fun v => if v.strong then
        ((List.range e.np).map fun k => e.w k *
          inner (trace v.btype v.dim (e.n k) (field e v (fun r => x r - u r) k))
            (trace v.btype v.dim (e.n k) (field e v (fun r => x r - u r) k))).sum else 0).sum).sum := by
    refine list_nonneg _ _ fun e he => list_nonneg _ _ fun v _ => ?_
    split
    · exact list_nonneg _ _ fun k hk => mul_nonneg (hw e he k (List.mem_range.mp hk)) (inner_self_nonneg _)
    · exact le_rfl
  linarith

/-- **C158, the state.**  After `setDirichlet` every prescribed unknown that is not one of a point has the projected
value and every unknown that is neither keeps its value; if unknowns that are not prescribed have no trace on the sides,
no state at all is closer to the data.  `dofs` are the prescribed unknowns. -/
theorem C158_state_partial (es : List (Elem K)) (N : Nat) (fixed : Nat → Bool) (elems : List (List Nat))
    (hmesh : ∀ r < N, ∃ l ∈ elems, r ∈ l) (hl : ∀ e ∈ es, ∀ l ∈ e.lids, l < N)
    (hfit : ∀ e ∈ es, ∀ v ∈ e.vars, v.strong = true → Fits e v) (hw : ∀ e ∈ es, ∀ k < e.np, 0 ≤ e.w k)
    (hz : ∀ e ∈ es, ∀ v ∈ e.vars, v.strong = true → ∀ i < v.nb, fixed (e.lids.getD (v.off i) 0) = false →
      ∀ k < e.np, ∀ d, trace v.btype v.dim (e.n k) (v.psi i k) d = 0)
    (proj : Nat → K) (hu : Solves (project fixed false (es.map Elem.side) elems) N proj)
    (dofs : List (List (List Nat))) (hd : ∀ r < N, (fixed r = true ↔ ∃ b ∈ dofs, ∃ v ∈ b, r ∈ v))
    (points : List (List Nat)) (hpt : ∀ r < N, fixed r = true → ¬ ∃ l ∈ points, r ∈ l) (u : Nat → K) :
    (∀ r < N, fixed r = true → setDirichlet none proj dofs points u r = proj r) ∧
    (∀ r < N, fixed r = false → (¬ ∃ l ∈ points, r ∈ l) → setDirichlet none proj dofs points u r = u r) ∧
    (∀ x : Nat → K, distance es (setDirichlet none proj dofs points u) ≤ distance es x) := by
  have h1 : ∀ r < N, fixed r = true → setDirichlet none proj dofs points u r = proj r := by
    intro r hr hf
    rw [setDirichlet_proj, if_neg (hpt r hr hf), if_pos ((hd r hr).mp hf)]
  refine ⟨h1, ?_, fun x => ?_⟩
  · intro r hr hf hp
    rw [setDirichlet_proj, if_neg hp, if_neg]
    intro h
    rw [(hd r hr).mpr h] at hf
    exact Bool.noConfusion hf
  · have hlen : ∀ e ∈ es, ∀ v ∈ e.vars, v.strong = true → ∀ i < v.nb, e.lids.getD (v.off i) 0 < N := by
      intro e he v hv hs i hi
      have ho := (hfit e he v hv hs).2.1 i hi
      rw [List.getD_eq_getElem?_getD, List.getElem?_eq_getElem ho, Option.getD_some]
      exact hl e he _ (List.getElem_mem ho)
    have hcongr : ∀ y z : Nat → K, (∀ r < N, fixed r = true → y r = z r) → distance es y = distance es z := by
      intro y z hyz
      unfold distance
      congr 1
      refine List.map_congr_left fun e he => ?_
      congr 1
      refine List.map_congr_left fun v hv => ?_
      by_cases hs : v.strong = true
      · simp only [hs, if_true]
        congr 1
        refine List.map_congr_left fun k hk => ?_
        have hg := fun d => field_trace_congr fixed e v (hz e he v hv hs) y z
          (fun i hi hf => hyz _ (hlen e he v hv hs i hi) hf) k (List.mem_range.mp hk) d
        simp only [inner, hg]
      · simp [hs]
    rw [hcongr _ proj h1, hcongr x (fun r => if fixed r then x r else 0) (fun r _ hf => by simp [hf])]
    exact (C158_partial es N fixed elems hmesh hl hfit hw proj hu).2 _ (fun r _ hf => by simp [hf])

/-- **C158, reproduction.**  If the data are the traces of some finite element function, the state after `setDirichlet`
has exactly these traces at every point of the sides with the condition. -/
theorem C158_reproduced_partial (es : List (Elem K)) (N : Nat) (fixed : Nat → Bool) (elems : List (List Nat))
    (hmesh : ∀ r < N, ∃ l ∈ elems, r ∈ l) (hl : ∀ e ∈ es, ∀ l ∈ e.lids, l < N)
    (hfit : ∀ e ∈ es, ∀ v ∈ e.vars, v.strong = true → Fits e v) (hw : ∀ e ∈ es, ∀ k < e.np, 0 < e.w k)
    (hz : ∀ e ∈ es, ∀ v ∈ e.vars, v.strong = true → ∀ i < v.nb, fixed (e.lids.getD (v.off i) 0) = false →
      ∀ k < e.np, ∀ d, trace v.btype v.dim (e.n k) (v.psi i k) d = 0)
    (proj : Nat → K) (hu : Solves (project fixed false (es.map Elem.side) elems) N proj)
    (dofs : List (List (List Nat))) (hd : ∀ r < N, (fixed r = true ↔ ∃ b ∈ dofs, ∃ v ∈ b, r ∈ v))
    (points : List (List Nat)) (hpt : ∀ r < N, fixed r = true → ¬ ∃ l ∈ points, r ∈ l) (u x : Nat → K)
    (hx : ∀ e ∈ es, ∀ v ∈ e.vars, v.strong = true → ∀ k < e.np, ∀ d,
      trace v.btype v.dim (e.n k) (field e v x k) d = wanted v.btype v.dim (e.n k) (v.g k) d) :
    ∀ e ∈ es, ∀ v ∈ e.vars, v.strong = true → ∀ k < e.np, ∀ d < 3,
      trace v.btype v.dim (e.n k) (field e v (setDirichlet none proj dofs points u) k) d =
        wanted v.btype v.dim (e.n k) (v.g k) d := by
  have hmin := (C158_state_partial es N fixed elems hmesh hl hfit (fun e he k hk => (hw e he k hk).le) hz proj hu dofs hd
    points hpt u).2.2 x
  have h0 : distance es x = 0 := by
    have zero : ∀ {A : Type} (l : List A) (f : A → K), (∀ a ∈ l, f a = 0) → (l.map f).sum = 0 := by
      intro A l f h
      rw [List.map_congr_left h]; simp
    unfold distance
    refine zero _ _ fun e he => zero _ _ fun v hv => ?_
    by_cases hs : v.strong = true
    · simp only [hs, if_true]
      refine zero _ _ fun k hk => ?_
      have := hx e he v hv hs k (List.mem_range.mp hk)
      simp [inner, gap, this]
    · simp [hs]
  rw [h0] at hmin
  intro e he v hv hs k hk d hd3
  have pos : ∀ e ∈ es, ∀ v ∈ e.vars, 0 ≤ (if v.strong then ((List.range e.np).map fun k => e.w k *
      inner (gap e v (setDirichlet none proj dofs points u) k) (gap e v (setDirichlet none proj dofs points u) k)).sum
      else 0) := by
    intro e he v _
    split
    · exact list_nonneg _ _ fun k hk => mul_nonneg (hw e he k (List.mem_range.mp hk)).le (inner_self_nonneg _)
    · exact le_rfl
  have e1 := list_zero es _ (fun e he => list_nonneg _ _ (pos e he)) hmin e he
  have e2 := list_zero e.vars _ (pos e he) (le_of_eq e1) v hv
  simp only [hs, if_true] at e2
  have e3 := list_zero (List.range e.np) _
    (fun k hk => mul_nonneg (hw e he k (List.mem_range.mp hk)).le (inner_self_nonneg _)) (le_of_eq e2) k (List.mem_range.mpr hk)
  have e4 : inner (gap e v (setDirichlet none proj dofs points u) k) (gap e v (setDirichlet none proj dofs points u) k) = 0 := by
    rcases mul_eq_zero.mp e3 with h | h
    · exact absurd h (hw e he k hk).ne'
    · exact h
  unfold inner at e4
  have s0 := mul_self_nonneg (gap e v (setDirichlet none proj dofs points u) k 0)
  have s1 := mul_self_nonneg (gap e v (setDirichlet none proj dofs points u) k 1)
  have s2 := mul_self_nonneg (gap e v (setDirichlet none proj dofs points u) k 2)
  have g0 := mul_self_eq_zero.mp (le_antisymm (by linarith) s0)
  have g1 := mul_self_eq_zero.mp (le_antisymm (by linarith) s1)
  have g2 := mul_self_eq_zero.mp (le_antisymm (by linarith) s2)
  have : d = 0 ∨ d = 1 ∨ d = 2 := by omega
  rcases this with rfl | rfl | rfl
  · exact sub_eq_zero.mp g0
  · exact sub_eq_zero.mp g1
  · exact sub_eq_zero.mp g2

end

/-- Two points of a side with two nodes on it and one off it; linear data. [case] -/
def lineVar : Var ℚ :=
  { strong := true, btype := "HGRAD", dim := 1, nb := 3, off := id
    psi := fun i k _ => if i = 0 then (if k = 0 then 3 / 4 else 1 / 4) else if i = 1 then (if k = 0 then 1 / 4 else 3 / 4) else 0
    g := fun k _ => if k = 0 then 3 / 2 else 5 / 2 }

/-- The side of this case. [case] -/
def lineElem : Elem ℚ := { lids := [2, 0, 1], np := 2, w := fun _ => 1 / 2, n := fun _ d => if d = 1 then 1 else 0, vars := [lineVar] }

example : ∀ k < 2, field lineElem lineVar
    (setDirichlet none (fun r => if r = 2 then 1 else if r = 0 then 3 else 0) [[[2, 0]]] [[]] (fun _ => 9)) k 0 = lineVar.g k 0 := by
  intro k hk
  have hfit : Fits lineElem lineVar := by
    refine ⟨by decide, by decide, fun h => absurd h (by decide), fun h => absurd h (by decide)⟩
  have h := C158_reproduced_partial [lineElem] 3 (fun r => r == 2 || r == 0) [[0, 1, 2]] (by decide) (by decide)
    (by
      intro e he v hv _
      rw [List.mem_singleton.mp he] at hv ⊢
      rw [List.mem_singleton.mp hv]
      exact hfit)
    (by
      intro e he k _
      rw [List.mem_singleton.mp he]
      show (0 : ℚ) < 1 / 2
      norm_num)
    (by
      intro e he v hv _ i hi hf k _ d
      rw [List.mem_singleton.mp he] at hv hf ⊢
      rw [List.mem_singleton.mp hv] at hi hf ⊢
      have hi' : i < 3 := hi
      have : i = 0 ∨ i = 1 ∨ i = 2 := by omega
      rcases this with rfl | rfl | rfl
      · exact absurd hf (by decide)
      · exact absurd hf (by decide)
      · simp [trace, lineVar])
    (fun r => if r = 2 then 1 else if r = 0 then 3 else 0)
    (by unfold Solves; decide +kernel)
    [[[2, 0]]] (by decide) [[]] (by simp) (fun _ => 9)
    (fun r => if r = 2 then 1 else if r = 0 then 3 else 0)
    (by
      intro e he v hv _ k hk d
      rw [List.mem_singleton.mp he] at hv hk ⊢
      rw [List.mem_singleton.mp hv]
      have hk' : k < 2 := hk
      have : k = 0 ∨ k = 1 := by omega
      have hd : d = 0 ∨ d ≠ 0 := by omega
      rcases this with rfl | rfl <;> rcases hd with rfl | hd <;>
        simp [trace, wanted, field, lineVar, lineElem, List.range_succ, *] <;> norm_num)
    lineElem (by simp) lineVar (by simp [lineElem]) rfl k hk 0 (by omega)
  simpa [trace, wanted, lineVar] using h

section
variable {K : Type} [Field K] [LinearOrder K] [IsStrictOrderedRing K]

/-- A variable with one basis function of a face element, equal to the normal. [case] -/
def obliqueVar (n0 n1 g : K) : Var K :=
  { strong := true, btype := "HDIV", dim := 2, nb := 1, off := fun _ => 0
    psi := fun _ _ d => if d = 0 then n0 else n1
    g := fun _ _ => g }

/-- A side of one point with this variable. [case] -/
def obliqueElem (n0 n1 g w : K) : Elem K :=
  { lids := [0], np := 1, w := fun _ => w, n := fun _ d => if d = 0 then n0 else n1, vars := [obliqueVar n0 n1 g] }

/-- C158 is false for face elements on a side whose normal is not along an axis.  On a side with one point, one basis
function `n` and data `g ≠ 0`, the function `g n` has the trace `g`, but the projection gives another one, which is
larger in magnitude. -/
theorem C158_oblique_violated (n0 n1 g w : K) (hn : n0 * n0 + n1 * n1 = 1) (h0 : n0 ≠ 0) (h1 : n1 ≠ 0) (hg : g ≠ 0)
    (hw : 0 < w) (u : Nat → K)
    (hu : Solves (project (fun _ => true) false [(obliqueElem n0 n1 g w).side] [[0]]) 1 u) :
    gap (obliqueElem n0 n1 g w) (obliqueVar n0 n1 g) (fun _ => g) 0 0 = 0 ∧ gap (obliqueElem n0 n1 g w) (obliqueVar n0 n1 g) u 0 0 ≠ 0 ∧ |g| < |trace "HDIV" 2 ((obliqueElem n0 n1 g w).n 0) (field (obliqueElem n0 n1 g w) (obliqueVar n0 n1 g) u 0) 0| := by
  have hs := hu 0 (by omega)
  rw [(MrHyDE.Assembly.Projection.C68_consistent_partial (fun _ => true) [(obliqueElem n0 n1 g w).side] [[0]] 0 0 ⟨[0], by simp, by simp⟩).2] at hs
  simp only [List.range_one, List.map_cons, List.map_nil, List.sum_cons, List.sum_nil, add_zero] at hs
  rw [(MrHyDE.Assembly.Projection.C68_consistent_partial (fun _ => true) [(obliqueElem n0 n1 g w).side] [[0]] 0 0 ⟨[0], by simp, by simp⟩).1] at hs
  simp [massEntry, obliqueElem, obliqueVar, overRows, Elem.side, localMass, localRhs, massPt, rhsPt] at hs
  have hq : (1 - 2 * (n0 * n0) * (n1 * n1)) * u 0 = g := by
    have hw' : w ≠ 0 := hw.ne'
    apply mul_left_cancel₀ hw'
    have e1 : (n0 * n0) * (n0 * n0) + (n1 * n1) * (n1 * n1) = 1 - 2 * (n0 * n0) * (n1 * n1) := by
      linear_combination (n0 * n0 + n1 * n1 + 1) * hn
    linear_combination hs - w * u 0 * e1 + w * g * hn
  have p0 : 0 < n0 * n0 := mul_self_pos.mpr h0
  have p1 : 0 < n1 * n1 := mul_self_pos.mpr h1
  have lt : 1 - 2 * (n0 * n0) * (n1 * n1) < 1 := by nlinarith [mul_pos p0 p1]
  have ge : 0 < 1 - 2 * (n0 * n0) * (n1 * n1) := by
    have := mul_self_nonneg (n0 * n0 - n1 * n1)
    nlinarith
  have hu0 : u 0 ≠ 0 := by
    intro h
    rw [h, mul_zero] at hq
    exact hg hq.symm
  have tr : ∀ x : K, x * n0 * n0 + x * n1 * n1 = x := fun x => by linear_combination x * hn
  refine ⟨?_, ?_, ?_⟩
  · simp [gap, obliqueElem, obliqueVar, trace, wanted, field, dot]
    linear_combination g * hn
  · simp [gap, obliqueElem, obliqueVar, trace, wanted, field, dot]
    intro h
    have : u 0 = g := by linear_combination h - u 0 * hn
    rw [this] at hq
    have : (2 * (n0 * n0) * (n1 * n1)) * g = 0 := by linear_combination -hq
    have hz : 2 * (n0 * n0) * (n1 * n1) = 0 := (mul_eq_zero.mp this).resolve_right hg
    nlinarith [mul_pos p0 p1]
  · have ht : trace "HDIV" 2 ((obliqueElem n0 n1 g w).n 0) (field (obliqueElem n0 n1 g w) (obliqueVar n0 n1 g) u 0) 0 =
        u 0 := by
      simp [trace, field, dot, obliqueElem, obliqueVar]
      linear_combination u 0 * hn
    have hq' : |g| = |(1 - 2 * (n0 * n0) * (n1 * n1)) * u 0| := by rw [hq]
    rw [ht, hq', abs_mul, abs_of_pos ge]
    have := abs_pos.mpr hu0
    nlinarith

end

example : ∃ u : Nat → ℚ, Solves (project (fun _ => true) false [(obliqueElem (3 / 5) (4 / 5) 1 2).side] [[0]]) 1 u ∧
    gap (obliqueElem (3 / 5) (4 / 5) 1 2) (obliqueVar (3 / 5) (4 / 5) 1) u 0 0 ≠ 0 := by
  have h : Solves (project (fun _ => true) false [(obliqueElem (3 / 5 : ℚ) (4 / 5) 1 2).side] [[0]]) 1
      (fun _ => 625 / 337) := by
    unfold Solves
    decide +kernel
  exact ⟨_, h, (C158_oblique_violated (3 / 5) (4 / 5) 1 2 (by norm_num) (by norm_num) (by norm_num) (by norm_num)
    (by norm_num) _ h).2.1⟩

/-! ## Properties: scalar data -/

section
variable {K : Type} [CommRing K]

theorem last_value (l : List (String × Option K)) (v : K) : (∀ p ∈ l, p.2.isSome) →
    l.foldl (fun v p => v.bind fun _ => p.2) (some v) = some (((l.filterMap (·.2)).getLast?).getD v) := by
  induction l generalizing v with
  | nil => intro _; rfl
  | cons p l ih =>
    intro h
    obtain ⟨a, ha⟩ := Option.isSome_iff_exists.mp (h p List.mem_cons_self)
    rw [List.foldl_cons, Option.bind_some, ha, ih a fun q hq => h q (List.mem_cons_of_mem _ hq),
      List.filterMap_cons_some ha, List.getLast?_cons]
    rfl

/-- **C158, scalar data, partial.**  With "scalar data", a variable without entries gets zero, one with a number for all
boundaries that number, and one whose sides all have the same number that number. -/
theorem C158_scalar_partial (l : List (String × Option K)) (a : K) :
    scalarValue (none : Option (List (String × Option K))) = some 0 ∧
    (l.find? (fun p => p.1 == "all boundaries") = some ("all boundaries", some a) → scalarValue (some l) = some a) ∧
    (l ≠ [] → (∀ p ∈ l, p.2 = some a) → scalarValue (some l) = some a) := by
  refine ⟨rfl, fun h => by simp [scalarValue, h], fun hne h => ?_⟩
  unfold scalarValue
  simp only []
  cases hf : l.find? (fun p => p.1 == "all boundaries") with
  | some p => exact h p (List.mem_of_find?_eq_some hf)
  | none =>
    simp only []
    rw [last_value l 0 (fun p hp => by rw [h p hp]; rfl)]
    congr 1
    obtain ⟨b, hb⟩ : ∃ b, (l.filterMap (·.2)).getLast? = some b := by
      cases l with
      | nil => exact absurd rfl hne
      | cons p l =>
        rw [List.filterMap_cons_some (h p List.mem_cons_self), List.getLast?_cons]
        exact ⟨_, rfl⟩
    rw [hb]
    obtain ⟨p, hp, hpb⟩ := List.mem_filterMap.mp (List.mem_of_getLast? hb)
    rw [h p hp] at hpb
    exact (Option.some.inj hpb).symm

example : scalarValue (K := ℚ) (some [("left", some 2), ("right", some 2)]) = some 2 :=
  (C158_scalar_partial _ 2).2.2 (by simp) (by simp)

/-- C158 is false with "scalar data" and different numbers on the sides: the number of the side named last is used on
all of them, so that the prescribed unknowns of the side "left" get the number of "right". -/
theorem C158_sides_violated (l : List (String × Option K)) (s : String) (b : K) (hs : s ≠ "all boundaries")
    (hn : ∀ p ∈ l, p.2.isSome) (ha : ∀ p ∈ l, p.1 ≠ "all boundaries") (proj u : Nat → K) (dofs : List Nat) (r : Nat)
    (hr : r ∈ dofs) :
    scalarValue (some (l ++ [(s, some b)])) = some b ∧
    ∀ f : Nat → Nat → K, some (f 0 0) = scalarValue (some (l ++ [(s, some b)])) →
      setDirichlet (some f) proj [[dofs]] [] u r = b := by
  have h1 : scalarValue (some (l ++ [(s, some b)])) = some b := by
    unfold scalarValue
    simp only []
    have : (l ++ [(s, some b)]).find? (fun p => p.1 == "all boundaries") = none := by
      rw [List.find?_eq_none]
      intro p hp
      rcases List.mem_append.mp hp with h | h
      · simpa using ha p h
      · rw [List.mem_singleton.mp h]
        simpa using hs
    rw [this]
    simp only []
    rw [last_value _ 0 (by
      intro p hp
      rcases List.mem_append.mp hp with h | h
      · exact hn p h
      · rw [List.mem_singleton.mp h]; rfl)]
    simp
  refine ⟨h1, fun f hf => ?_⟩
  rw [h1] at hf
  have := fold_put (fun _ => f 0 0) dofs u r
  simp only [hr, if_true] at this
  rw [Option.some.inj hf] at this
  simpa [setDirichlet, Option.some.inj hf] using this

example (proj u : Nat → ℚ) : setDirichlet (some fun _ _ => 5) proj [[[0, 3]]] [] u 0 = 5 :=
  (C158_sides_violated [("left", some 1)] "right" 5 (by decide) (by simp) (by simp) proj u [0, 3] 0 (by simp)).2 _
    (by rw [(C158_sides_violated [("left", some 1)] "right" 5 (by decide) (by simp) (by simp) proj u [0, 3] 0 (by simp)).1])

/-- C158 is false with "scalar data" and an entry that is no number with a point (an expression, a whole number): the
run stops with an exception, wherever the entry stands. -/
theorem C158_text_violated (l : List (String × Option K)) (ha : ∀ p ∈ l, p.1 ≠ "all boundaries") (s : String)
    (hs : (s, none) ∈ l) : scalarValue (some l) = none := by
  unfold scalarValue
  simp only []
  have hf : l.find? (fun p => p.1 == "all boundaries") = none := by
    rw [List.find?_eq_none]
    intro p hp
    simpa using ha p hp
  rw [hf]
  simp only []
  have hnone : ∀ l : List (String × Option K), l.foldl (fun v p => v.bind fun _ => p.2) (none : Option K) = none := by
    intro l
    induction l with
    | nil => rfl
    | cons p l ih => rw [List.foldl_cons]; exact ih
  have : ∀ (l : List (String × Option K)) (v : Option K), (s, none) ∈ l →
      l.foldl (fun v p => v.bind fun _ => p.2) v = none := by
    intro l
    induction l with
    | nil => intro v h; simp at h
    | cons p l ih =>
      intro v h
      rw [List.foldl_cons]
      rcases List.mem_cons.mp h with rfl | h
      · cases v <;> exact hnone l
      · exact ih _ h
  exact this l _ hs

example : scalarValue (K := ℚ) (some [("left", some 1), ("right", none)]) = none :=
  C158_text_violated _ (by simp) "right" (by simp)

/-- **C158, scalar data and nodal elements, partial.**  If the basis functions of a scalar variable add up to one at a
point of a side, and all unknowns with a value there have the number `a`, the function is `a` there. -/
theorem C158_constant_partial (e : Elem K) (v : Var K) (u : Nat → K) (a : K) (k : Nat)
    (hb : v.btype = "HGRAD" ∨ v.btype = "HVOL" ∨ v.btype = "HFACE")
    (hone : ((List.range v.nb).map fun i => v.psi i k 0).sum = 1) (hg : v.g k 0 = a)
    (hu : ∀ i < v.nb, u (e.lids.getD (v.off i) 0) = a ∨ v.psi i k 0 = 0) (d : Nat) : gap e v u k d = 0 := by
  have h2 : ¬ v.btype = "HDIV" := by rcases hb with h | h | h <;> rw [h] <;> decide
  have hf : field e v u k 0 = a := by
    unfold field
    rw [List.map_congr_left (g := fun i => a * v.psi i k 0), List.sum_map_mul_left, hone, mul_one]
    intro i hi
    rcases hu i (List.mem_range.mp hi) with h | h
    · rw [h]
    · rw [h, mul_zero, mul_zero]
  simp only [gap, trace, wanted, hb, h2, if_true, if_false]
  split
  · rw [hf, hg, sub_self]
  · simp

example : gap { lineElem with vars := [] } { lineVar with g := fun _ _ => 4 } (fun r => if r = 1 then 9 else 4) 1 0 = 0 := by
  refine C158_constant_partial _ _ _ 4 1 (.inl rfl) ?_ rfl ?_ 0
  · simp [lineVar, List.range_succ]; norm_num
  · intro i hi
    have hi' : i < 3 := hi
    have : i = 0 ∨ i = 1 ∨ i = 2 := by omega
    rcases this with rfl | rfl | rfl
    · left; rfl
    · left; rfl
    · right; rfl

/-- C158 is false with "scalar data" for face elements (and edge elements): the number is used as coefficient.  On a side
with one basis function whose normal component is not one the trace is not the number. -/
theorem C158_coefficient_violated [NoZeroDivisors K] (n0 n1 c a w : K) (hn : n0 * n0 + n1 * n1 = 1) (hc : c ≠ 1)
    (ha : a ≠ 0) (proj u : Nat → K) :
    gap (obliqueElem n0 n1 a w) { obliqueVar n0 n1 a with psi := fun _ _ d => if d = 0 then c * n0 else c * n1 }
      (setDirichlet (some fun _ _ => a) proj [[[0]]] [] u) 0 0 ≠ 0 := by
  simp [gap, trace, wanted, field, dot, obliqueElem, obliqueVar, setDirichlet, put]
  intro h
  have : a * (c - 1) = 0 := by linear_combination h - a * c * hn
  rcases mul_eq_zero.mp this with h | h
  · exact ha h
  · exact hc (sub_eq_zero.mp h)

end

/-! ## Properties: data that change in time -/

/-- **C158, in time, partial.**  With "static data" off every call writes the data of its own time. -/
theorem C158_time_partial {T : Type} (last : Option T) (ts : List T) : callTimes false last ts = ts := by
  induction ts generalizing last with
  | nil => rfl
  | cons t ts ih => simp [callTimes, ih]

/-- C158 is false for data that depend on time unless "static data" is switched off: all calls write the data of the
first time. -/
theorem C158_static_violated {T : Type} (t : T) (ts : List T) :
    callTimes true none (t :: ts) = t :: ts.map fun _ => t := by
  have h : ∀ ts : List T, callTimes true (some t) ts = ts.map fun _ => t := by
    intro ts
    induction ts with
    | nil => rfl
    | cons s ts ih => simp [callTimes, ih]
  simp [callTimes, h]

example : callTimes true none [0, 1, 2] = [0, 0, 0] ∧ callTimes false none [0, 1, 2] = [0, 1, 2] :=
  ⟨C158_static_violated 0 [1, 2], C158_time_partial none [0, 1, 2]⟩

/-! ## Properties: the choice of the data -/

theorem comp_ne (var : String) : var ++ "x" ≠ var ∧ var ++ "y" ≠ var ∧ var ++ "z" ≠ var ∧ var ++ "x" ≠ var ++ "y" ∧
    var ++ "x" ≠ var ++ "z" ∧ var ++ "y" ≠ var ++ "z" := by
  have hl : ∀ c : String, c.length = 1 → var ++ c ≠ var := by
    intro c hc h
    have := congrArg String.length h
    rw [String.length_append, hc] at this
    omega
  have hi : ∀ c d : String, c ≠ d → var ++ c ≠ var ++ d := by
    intro c d hcd h
    apply hcd
    have := congrArg String.toList h
    rw [String.toList_append, String.toList_append] at this
    exact String.toList_inj.mp (List.append_cancel_left this)
  exact ⟨hl _ (by decide), hl _ (by decide), hl _ (by decide), hi _ _ (by decide), hi _ _ (by decide), hi _ _ (by decide)⟩

theorem find_append (a b : List ((String × String) × Def)) (l : String × String) :
    find (a ++ b) l = (find a l).or (find b l) := by
  unfold find
  rw [List.find?_append]
  cases a.find? fun p => p.1 == l <;> rfl

theorem find_other (sides : List String) (conds : Conds) (name name' side : String) (h : name' ≠ name) :
    find (define sides conds name) (name', side) = none := by
  unfold find define
  cases conds name with
  | none => rfl
  | some es =>
    simp only [Option.map_eq_none_iff, List.find?_eq_none]
    intro p hp
    obtain ⟨q, -, rfl⟩ := List.mem_map.mp hp
    simp only [beq_iff_eq, Prod.mk.injEq, not_and]
    intro h2
    exact absurd h2.symm h

theorem find_own (sides : List String) (conds : Conds) (name side : String) (o : Option String)
    (h : Asks sides conds name side o) : find (define sides conds name) (name, side) = o.map Def.text := by
  have red : ∀ (ds : List (String × Def)),
      find (ds.map fun p => ((name, p.1), p.2)) (name, side) = (ds.find? fun p => p.1 == side).map (·.2) := by
    intro ds
    unfold find
    rw [List.find?_map, Option.map_map]
    congr 1
    refine congrArg (fun f => ds.find? f) (funext fun p => ?_)
    simp [Function.comp, Prod.ext_iff, Bool.beq_eq_decide_eq]
  have side_text : ∀ (t : String) (es : Entries), entry es side = some (.text t) →
      ((MrHyDE.Physics.Numbers.sideDefs es).find? fun p => p.1 == side).map (·.2) = some (Def.text t) := by
    intro t es
    induction es with
    | nil => intro h; simp [entry] at h
    | cons p es ih =>
      obtain ⟨k, e⟩ := p
      intro h
      unfold entry at h
      by_cases hk : k = side
      · rw [if_pos hk] at h
        rw [Option.some.inj h]
        simp [MrHyDE.Physics.Numbers.sideDefs, hk]
      · rw [if_neg hk] at h
        cases e <;> simp [MrHyDE.Physics.Numbers.sideDefs, hk, ih h]
  have side_none : ∀ es : Entries, entry es side = none →
      (MrHyDE.Physics.Numbers.sideDefs es).find? (fun p => p.1 == side) = none := by
    intro es
    induction es with
    | nil => intro _; rfl
    | cons p es ih =>
      obtain ⟨k, e⟩ := p
      intro h
      unfold entry at h
      by_cases hk : k = side
      · rw [if_pos hk] at h
        simp at h
      · rw [if_neg hk] at h
        cases e
        · simpa [MrHyDE.Physics.Numbers.sideDefs, hk] using ih h
        · simpa [MrHyDE.Physics.Numbers.sideDefs, hk] using ih h
        · simpa [MrHyDE.Physics.Numbers.sideDefs] using ih h
  cases o with
  | some t =>
    obtain ⟨es, hes, h | h⟩ := h
    · unfold define
      rw [hes]
      simp only []
      rw [red]
      simp only [dirichlet, h.1]
      rw [List.find?_map]
      obtain ⟨b, hb⟩ : ∃ b, sides.find? ((fun p : String × Def => p.1 == side) ∘ fun s => (s, Def.text t)) = some b := by
        rw [← Option.isSome_iff_exists, List.find?_isSome]
        exact ⟨side, h.2, by simp⟩
      rw [hb]
      rfl
    · unfold define
      rw [hes]
      simp only []
      rw [red]
      simp only [dirichlet, h.1]
      exact side_text t es h.2
  | none =>
    rcases h with h | ⟨es, hes, h⟩
    · unfold define
      rw [h]
      rfl
    · unfold define
      rw [hes]
      simp only []
      rw [red]
      simp only [dirichlet, h.1]
      rw [side_none es h.2]
      rfl

/-- What the four labels of a variable stand for. -/
theorem find_functions (sides : List String) (conds : Conds) (var side : String) (o ox oy oz : Option String)
    (h : Asks sides conds var side o) (hx : Asks sides conds (var ++ "x") side ox)
    (hy : Asks sides conds (var ++ "y") side oy) (hz : Asks sides conds (var ++ "z") side oz) :
    find (functions sides conds true var) (var, side) = o.map Def.text ∧
    find (functions sides conds true var) (var ++ "x", side) = ox.map Def.text ∧
    find (functions sides conds true var) (var ++ "y", side) = oy.map Def.text ∧
    find (functions sides conds true var) (var ++ "z", side) = oz.map Def.text := by
  obtain ⟨n1, n2, n3, n4, n5, n6⟩ := comp_ne var
  unfold functions
  simp only [if_true, find_append, find_own sides conds _ side _ h, find_own sides conds _ side _ hx,
    find_own sides conds _ side _ hy, find_own sides conds _ side _ hz,
    find_other sides conds var (var ++ "x") side n1, find_other sides conds var (var ++ "y") side n2,
    find_other sides conds var (var ++ "z") side n3, find_other sides conds (var ++ "x") var side n1.symm,
    find_other sides conds (var ++ "y") var side n2.symm, find_other sides conds (var ++ "z") var side n3.symm,
    find_other sides conds (var ++ "x") (var ++ "y") side n4.symm, find_other sides conds (var ++ "x") (var ++ "z") side n5.symm,
    find_other sides conds (var ++ "y") (var ++ "x") side n4, find_other sides conds (var ++ "y") (var ++ "z") side n6.symm,
    find_other sides conds (var ++ "z") (var ++ "x") side n5, find_other sides conds (var ++ "z") (var ++ "y") side n6]
  refine ⟨?_, ?_, ?_, ?_⟩ <;> cases o <;> cases ox <;> cases oy <;> cases oz <;> rfl

/-- **C158, the data, partial.**  A scalar variable gets the text of its own entry for the side.  An edge element with a
first component gets the texts of its components, zero for those not given, and one without any component entry gets its
own entry three times.  Missing: edge elements with only a second or third component, face elements with
components. -/
theorem C158_data_partial (sides : List String) (conds : Conds) (var side : String) :
    (∀ btype t, (btype = "HGRAD" ∨ btype = "HVOL" ∨ btype = "HFACE" ∨ btype = "HDIV") → ∀ vec : Bool,
      Asks sides conds var side (some t) → sideData (functions sides conds vec var) btype var side = some [some (.text t)]) ∧
    (∀ o tx oy oz, Asks sides conds var side o → Asks sides conds (var ++ "x") side (some tx) →
      Asks sides conds (var ++ "y") side oy → Asks sides conds (var ++ "z") side oz →
      sideData (functions sides conds true var) "HCURL" var side = some [some (.text tx), oy.map .text, oz.map .text]) ∧
    (∀ t, Asks sides conds var side (some t) → Asks sides conds (var ++ "x") side none →
      Asks sides conds (var ++ "y") side none → Asks sides conds (var ++ "z") side none →
      sideData (functions sides conds true var) "HCURL" var side = some [some (.text t), some (.text t), some (.text t)]) := by
  refine ⟨?_, ?_, ?_⟩
  · intro btype t hb vec ht
    have hf : find (functions sides conds vec var) (var, side) = some (.text t) := by
      unfold functions
      rw [find_append, find_own sides conds var side _ ht]
      rfl
    rcases hb with rfl | rfl | rfl | rfl <;> simp [sideData, scalarData, hf]
  · intro o tx oy oz h hx hy hz
    obtain ⟨-, f2, f3, f4⟩ := find_functions sides conds var side o (some tx) oy oz h hx hy hz
    simp [sideData, vectorData, f2, f3, f4]
  · intro t h hx hy hz
    obtain ⟨f1, f2, -, -⟩ := find_functions sides conds var side (some t) none none none h hx hy hz
    simp [sideData, vectorData, f1, f2]

/-- C158 is false for an edge element with a second (or third) but no first component: the side is labelled as one with
the condition, and either the run stops because a function is missing, or, if there is also an entry for the variable
itself, the components given are ignored, although they should take precedence. -/
theorem C158_components_violated (sides : List String) (conds : Conds) (var side ty : String) (oz : Option String)
    (hx : Asks sides conds (var ++ "x") side none) (hy : Asks sides conds (var ++ "y") side (some ty))
    (hz : Asks sides conds (var ++ "z") side oz) :
    isDiri conds true var side = true ∧
    (Asks sides conds var side none → sideData (functions sides conds true var) "HCURL" var side = none) ∧
    (∀ t, Asks sides conds var side (some t) →
      sideData (functions sides conds true var) "HCURL" var side = some [some (.text t), some (.text t), some (.text t)]) := by
  refine ⟨?_, ?_, ?_⟩
  · obtain ⟨es, hes, h⟩ := hy
    have : names conds (var ++ "y") side = true := by
      unfold names
      rw [hes]
      rcases h with h | h
      · simp [h.1]
      · simp [h.2]
    simp [isDiri, this]
  · intro h
    obtain ⟨f1, f2, -, -⟩ := find_functions sides conds var side none none (some ty) oz h hx hy hz
    simp [sideData, vectorData, f1, f2]
  · intro t h
    obtain ⟨f1, f2, -, -⟩ := find_functions sides conds var side (some t) none (some ty) oz h hx hy hz
    simp [sideData, vectorData, f1, f2]

/-- C158 is false for a face element with entries for its components: the side is labelled as one with the condition, but
the data are looked for under the name of the variable, and the run stops because this function is missing. -/
theorem C158_normal_violated (sides : List String) (conds : Conds) (var side tx : String) (oy oz : Option String)
    (h : Asks sides conds var side none) (hx : Asks sides conds (var ++ "x") side (some tx))
    (hy : Asks sides conds (var ++ "y") side oy) (hz : Asks sides conds (var ++ "z") side oz) :
    isDiri conds true var side = true ∧ sideData (functions sides conds true var) "HDIV" var side = none := by
  refine ⟨?_, ?_⟩
  · obtain ⟨es, hes, h⟩ := hx
    have : names conds (var ++ "x") side = true := by
      unfold names
      rw [hes]
      rcases h with h | h
      · simp [h.1]
      · simp [h.2]
    simp [isDiri, this]
  · obtain ⟨f1, -, -, -⟩ := find_functions sides conds var side none (some tx) oy oz h hx hy hz
    simp [sideData, scalarData, f1]

theorem names_asks (sides : List String) (conds : Conds) (name side : String) (o : Option String)
    (h : Asks sides conds name side o) : names conds name side = o.isSome := by
  cases o with
  | none =>
    rcases h with h | ⟨es, h, h1, h2⟩ <;> simp_all [names]
  | some t =>
    obtain ⟨es, h, h1 | h1⟩ := h <;> simp [names, h, h1]

/-- **C158, which sides carry the condition.**  A side is labelled for a scalar variable if and only if there is an entry
under the name of the variable; for a variable with vector values, if and only if there is one under the name of the
variable or of one of its components. -/
theorem C158_label_partial (sides : List String) (conds : Conds) (var side : String) (o ox oy oz : Option String)
    (h : Asks sides conds var side o) (hx : Asks sides conds (var ++ "x") side ox) (hy : Asks sides conds (var ++ "y") side oy)
    (hz : Asks sides conds (var ++ "z") side oz) :
    (isDiri conds false var side = true ↔ o ≠ none) ∧
    (isDiri conds true var side = true ↔ ∃ q ∈ [o, ox, oy, oz], q ≠ none) := by
  unfold isDiri
  rw [names_asks sides conds var side o h, names_asks sides conds _ side ox hx, names_asks sides conds _ side oy hy,
    names_asks sides conds _ side oz hz]
  cases o <;> cases ox <;> cases oy <;> cases oz <;> simp

/-- An input with entries for the first and the second component of `E`, and one for all boundaries for `B`. [case] -/
def inputCase : Conds := fun n =>
  if n = "Ex" then some [("left", .text "1.0")] else if n = "Ey" then some [("left", .text "x"), ("right", .text "2.0*y")]
  else if n = "B" then some [("all boundaries", .text "t")] else none

example : sideData (functions ["left", "right"] inputCase true "E") "HCURL" "E" "left" =
    some [some (.text "1.0"), some (.text "x"), none] :=
  (C158_data_partial ["left", "right"] inputCase "E" "left").2.1 none "1.0" (some "x") none (.inl rfl)
    ⟨_, rfl, .inr ⟨rfl, rfl⟩⟩ ⟨_, rfl, .inr ⟨rfl, rfl⟩⟩ (.inl rfl)

example : sideData (functions ["left", "right"] inputCase true "E") "HCURL" "E" "right" = none :=
  (C158_components_violated ["left", "right"] inputCase "E" "right" "2.0*y" none (.inr ⟨_, rfl, rfl, rfl⟩)
    ⟨_, rfl, .inr ⟨rfl, rfl⟩⟩ (.inl rfl)).2.1 (.inl rfl)

example : sideData (functions ["left", "right"] inputCase true "E") "HDIV" "E" "left" = none :=
  (C158_normal_violated ["left", "right"] inputCase "E" "left" "1.0" (some "x") none (.inl rfl)
    ⟨_, rfl, .inr ⟨rfl, rfl⟩⟩ ⟨_, rfl, .inr ⟨rfl, rfl⟩⟩ (.inl rfl)).2

example : isDiri inputCase true "E" "right" = true :=
  (C158_label_partial ["left", "right"] inputCase "E" "right" none none (some "2.0*y") none (.inl rfl)
    (.inr ⟨_, rfl, rfl, rfl⟩) ⟨_, rfl, .inr ⟨rfl, rfl⟩⟩ (.inl rfl)).2.2 ⟨some "2.0*y", by simp, by simp⟩

end MrHyDE.BC.Values
