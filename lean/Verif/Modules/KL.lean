import Mathlib.Algebra.BigOperators.Group.List.Basic
import Mathlib.Algebra.Field.Rat
import Mathlib.Analysis.SpecialFunctions.Log.Basic
import Mathlib.Analysis.SpecialFunctions.Trigonometric.Basic
import Mathlib.Analysis.SpecialFunctions.Sqrt
import Mathlib.Analysis.SpecialFunctions.Trigonometric.Deriv
import Mathlib.Analysis.SpecialFunctions.ExpDeriv
import Mathlib.MeasureTheory.Integral.IntervalIntegral.FundThmCalculus
import Mathlib.Data.List.ProdSigma
import Mathlib.Tactic.IntervalCases
import Mathlib.Tactic.LinearCombination
import Mathlib.Tactic.Positivity

/-!
# Random permeability fields and wells (C120)

`porousMixed` can multiply the permeability with the exponential of a truncated Karhunen-Loeve expansion, a sum of
products of one-dimensional terms times coefficients, and can add wells to the source.
-/

set_option linter.unusedSectionVars false
set_option linter.unusedSimpArgs false

namespace MrHyDE.Modules.KL

/-! ## Model: the order of the terms -/

/-- The table of indices of the terms, `KLindices`, /repo/src/physics/porousMixed.cpp:81-126: the index in the first
direction runs fastest. -/
def indices (dim nx ny nz : Nat) : List (Nat × Nat × Nat) :=
  if dim = 1 then (List.range nx).map fun i => (i, 0, 0)
  else if dim = 2 then (List.range ny).flatMap fun j => (List.range nx).map fun i => (i, j, 0)
  else if dim = 3 then
    (List.range nz).flatMap fun k => (List.range ny).flatMap fun j => (List.range nx).map fun i => (i, j, k)
  else []

/-! ## Model: the field -/

variable {K : Type}

/-- A one-dimensional expansion, /repo/src/tools/klexpansion.hpp:112-129: the number of terms, `getEval` and `getEvec`. -/
structure Exp1 (K : Type) where
  num : Nat
  eval : Nat → K
  evec : Nat → K → K

/-- `getEval`, /repo/src/tools/klexpansion.hpp:112-117; `none` is a position after the end of the frequencies. -/
def Exp1.getEval (e : Exp1 K) (i : Nat) : Option K := if i < e.num then some (e.eval i) else none

/-- `getEvec`, /repo/src/tools/klexpansion.hpp:122-127; `none` as above. -/
def Exp1.getEvec (e : Exp1 K) (i : Nat) (x : K) : Option K := if i < e.num then some (e.evec i x) else none

/-- The three expansions of the module and the point where the field is wanted,
/repo/src/physics/porousMixed.cpp:57-75, 576, 596, 616-617. -/
structure Field3 (K : Type) where
  ex : Exp1 K
  ey : Exp1 K
  ez : Exp1 K
  sqrt : K → K
  x : K
  y : K
  z : K

/-- The exponents of the three permeabilities at a point, /repo/src/physics/porousMixed.cpp:567-569. -/
structure Exps (K : Type) where
  xx : K
  yy : K
  zz : K

/-- One term with a coefficient of the parameter `KLUQcoeffs`, /repo/src/physics/porousMixed.cpp:586-591 (one dimension),
601-611 (two), 622-636 (three). -/
def uqStep [Field K] (dim : Nat) (F : Field3 K) (idx : List (Nat × Nat × Nat)) (coef : List K) (s : Exps K)
    (k : Nat) : Option (Exps K) := do
  let c ← coef[k]?
  if dim = 1 then
    let eval ← F.ex.getEval k
    let evec ← F.ex.getEvec k F.x
    return { s with xx := s.xx + c * F.sqrt eval * evec }
  else if dim = 2 then
    let (i, j, _) ← idx[k]?
    let evalx ← F.ex.getEval i
    let evaly ← F.ey.getEval j
    let evecx ← F.ex.getEvec i F.x
    let evecy ← F.ey.getEvec j F.y
    return { s with xx := s.xx + c * F.sqrt (evalx * evaly) * evecx * evecy
                    yy := s.yy + c * F.sqrt (evalx * evaly) * evecx * evecy }
  else if dim = 3 then
    let (i, j, l) ← idx[k]?
    let evalx ← F.ex.getEval i
    let evaly ← F.ey.getEval j
    let evalz ← F.ey.getEval l
    let evecx ← F.ex.getEvec i F.x
    let evecy ← F.ey.getEvec j F.y
    let evecz ← F.ez.getEvec l F.z
    let t := c * F.sqrt (evalx * evaly * evalz) * evecx * evecy * evecz
    return { s with xx := s.xx + t + t, yy := s.yy + t }
  else return s

/-- One term with a coefficient of the parameter `KLStochcoeffs`; `prog` is the number of coefficients of the other
parameter, /repo/src/physics/porousMixed.cpp:655-660, 671-682, 692-707. -/
def stochStep [Field K] (dim : Nat) (F : Field3 K) (idx : List (Nat × Nat × Nat)) (prog : Nat) (coef : List K)
    (s : Exps K) (k : Nat) : Option (Exps K) := do
  let c ← coef[k - prog]?
  if dim = 1 then
    let eval ← F.ex.getEval k
    let evec ← F.ex.getEvec k F.x
    return { s with xx := s.xx + c * F.sqrt eval * evec }
  else if dim = 2 then
    let (i, j, _) ← idx[k]?
    let evalx ← F.ex.getEval i
    let evaly ← F.ey.getEval j
    let evecx ← F.ex.getEvec i F.x
    let evecy ← F.ey.getEvec j F.y
    return { s with xx := s.xx + c * F.sqrt (evalx * evaly) * evecx * evecy
                    yy := s.yy + c * F.sqrt (evalx * evaly) * evecx * evecy }
  else if dim = 3 then
    let (i, j, l) ← idx[k]?
    let evalx ← F.ex.getEval i
    let evaly ← F.ey.getEval j
    let evalz ← F.ez.getEval l
    let evecx ← F.ex.getEvec i F.x
    let evecy ← F.ey.getEvec j F.y
    let evecz ← F.ez.getEvec l F.z
    let t := c * F.sqrt (evalx * evaly * evalz) * evecx * evecy * evecz
    return { xx := s.xx + t, yy := s.yy + t, zz := s.zz + t }
  else return s

/-- `updateKLPerm` at a point, /repo/src/physics/porousMixed.cpp:567-711.  A parameter that is not found is the empty
list: both loops are then skipped in the code and empty here. -/
def exponents [Field K] (dim : Nat) (F : Field3 K) (uq stoch : List K) : Option (Exps K) := do
  let idx := indices dim F.ex.num F.ey.num F.ez.num
  let s ← (List.range (min uq.length idx.length)).foldlM (uqStep dim F idx uq) ⟨0, 0, 0⟩
  let stop := min idx.length (uq.length + stoch.length)
  (List.range' uq.length (stop - uq.length)).foldlM (stochStep dim F idx uq.length stoch) s

/-- The inverse permeability with the field, /repo/src/physics/porousMixed.cpp:203, 208, 213 (and 771, 775, 780). -/
noncomputable def newKinv (kinv s : ℝ) : ℝ := kinv / Real.exp s

/-- The permeability that is written to the output, /repo/src/physics/porousMixed.cpp:801, 805, 810. -/
noncomputable def derived (kinv s : ℝ) : ℝ := 1 / newKinv kinv s

/-! ## Model: the frequencies -/

/-- The inner loop, /repo/src/tools/klexpansion.hpp:56-64: at most `fuel` steps of Newton's method; `none` is a division
by zero, after which the value is infinite or not a number. -/
noncomputable def newton (f df : ℝ → ℝ) (nltol : ℝ) : Nat → ℝ → Option ℝ
  | 0, om => some om
  | fuel + 1, om =>
    if |f om| > nltol then
      if df om = 0 then none else newton f df nltol fuel (om + -f om / df om)
    else some om

/-- Whether a value was found before, /repo/src/tools/klexpansion.hpp:67-71; a comparison with a value that is not finite
is false. -/
noncomputable def found (ctol : ℝ) (roots : List (Option ℝ)) (om : Option ℝ) : Bool :=
  roots.any fun r =>
    match r, om with
    | some r, some om => decide (|om - r| < ctol)
    | _, _ => false

/-- The outer loop, /repo/src/tools/klexpansion.hpp:49-80: `fuel` counts down the 1000 iterations, `ig` is the last
number tried. -/
noncomputable def scan (f df : ℝ → ℝ) (ctol nltol : ℝ) (num : Nat) :
    Nat → Nat → ℝ → List (Option ℝ) → List (Option ℝ)
  | 0, _, _, roots => roots
  | fuel + 1, ig, fprev, roots =>
    if roots.length < num then
      let om : ℝ := ((ig + 1 : Nat) : ℝ)
      if f om * fprev < 0 then
        let r := newton f df nltol 10 om
        let roots := if found ctol roots r then roots else roots ++ [r]
        scan f df ctol nltol num fuel (ig + 1) (f om) roots
      else scan f df ctol nltol num fuel (ig + 1) fprev roots
    else roots

/-- `chareqn`, /repo/src/tools/klexpansion.hpp:92-97. -/
noncomputable def chareqn (L eta om : ℝ) : ℝ :=
  (eta * eta * om * om - 1) * Real.sin (om * L) - 2 * eta * om * Real.cos (om * L)

/-- `dchareqn`, /repo/src/tools/klexpansion.hpp:102-107. -/
noncomputable def dchareqn (L eta om : ℝ) : ℝ :=
  2 * om * eta * eta * Real.sin (om * L) + (eta * eta * om * om - 1) * L * Real.cos (om * L)
    - 2 * eta * Real.cos (om * L) + 2 * eta * om * L * Real.sin (om * L)

/-- `computeRoots`: the stored frequencies; the places for which none was found keep the zero of the allocation,
/repo/src/tools/klexpansion.hpp:30-31, 38-87. -/
noncomputable def omega (L eta : ℝ) (num : Nat) : List (Option ℝ) :=
  let roots := scan (chareqn L eta) (dchareqn L eta) (1 / 1000000) (1 / 10000000000) num 1000 1 (chareqn L eta 1) []
  roots ++ List.replicate (num - roots.length) (some 0)

/-- `getEvec` for a frequency, /repo/src/tools/klexpansion.hpp:122-127. -/
noncomputable def evecOf (L eta om x : ℝ) : ℝ :=
  1 / Real.sqrt ((eta * eta * om * om + 1) * L / 2 + eta) * (eta * om * Real.cos (om * x) + Real.sin (om * x))

/-- `getEval` for a frequency, /repo/src/tools/klexpansion.hpp:112-117. -/
noncomputable def evalOf (sigma eta om : ℝ) : ℝ := 2 * eta * sigma * sigma / (eta * eta * om * om + 1)

/-! ## Model: wells -/

/-- A well at a point: whether its type is "flow rate", and its function, /repo/src/physics/wells.hpp:21-24, 92, 105. -/
structure Well where
  rate : Bool
  fn : ℝ

/-- The coefficient of a well with given pressure, /repo/src/physics/wells.hpp:97. -/
noncomputable def wellC (h : ℝ) : ℝ := Real.log (0.25 * Real.exp (-0.5772) * h / 2)

/-- What a well adds, /repo/src/physics/wells.hpp:105-122. -/
noncomputable def wellTerm (h : ℝ) (kinv : Nat → ℝ) (w : Well) : ℝ :=
  if w.rate then w.fn
  else
    let kx := 1 / kinv 0
    let ky := 1 / kinv 1
    let kz := 1 / kinv 2
    2 * Real.pi / wellC h * Real.sqrt (kx * kx + ky * ky + kz * kz) * w.fn

/-- The loop over the wells, /repo/src/physics/wells.hpp:88-127; the array starts as zeros. -/
noncomputable def wellLoop (h source : ℝ) (kinv : Nat → ℝ) (ws : List Well) : ℝ :=
  (ws.zipIdx.foldl (fun s (wn : Well × Nat) =>
    let s := if wn.2 = 0 then source else s
    s + wellTerm h kinv wn.1) 0)

/-- The inverse permeability of the velocity equation: data, function or field,
/repo/src/physics/porousMixed.cpp:174-223. -/
noncomputable def kinvUsed (data : Option ℝ) (kl : Option ℝ) (kinvFn : ℝ) : ℝ :=
  let k := match data with
    | some d => 1 / d
    | none => kinvFn
  match kl with
  | some s => newKinv k s
  | none => k

/-- The source of the pressure equation, /repo/src/physics/porousMixed.cpp:171, 225-229 and
/repo/src/physics/wells.hpp:84-86: the wells evaluate the functions for the inverse permeability again. -/
noncomputable def sourceUsed (useWells : Bool) (h source : ℝ) (kinvFn : Nat → ℝ) (_data _kl : Option ℝ)
    (ws : List Well) : ℝ :=
  if useWells then wellLoop h source kinvFn ws else source

/-! ## Specification -/

/-- The value of the product term with indices `t`: the root of the product of the eigenvalues times the product of the
functions.  [specification, no code] -/
def mode [Field K] (dim : Nat) (F : Field3 K) (t : Nat × Nat × Nat) : K :=
  if dim = 1 then F.sqrt (F.ex.eval t.1) * F.ex.evec t.1 F.x
  else if dim = 2 then
    F.sqrt (F.ex.eval t.1 * F.ey.eval t.2.1) * (F.ex.evec t.1 F.x * F.ey.evec t.2.1 F.y)
  else F.sqrt (F.ex.eval t.1 * F.ey.eval t.2.1 * F.ez.eval t.2.2)
    * (F.ex.evec t.1 F.x * F.ey.evec t.2.1 F.y * F.ez.evec t.2.2 F.z)

/-- The expansion: one coefficient for each term in order, the longer list cut.  [specification, no code] -/
def series [Field K] (dim : Nat) (F : Field3 K) (coef : List K) : K :=
  (List.zipWith (fun c t => c * mode dim F t) coef (indices dim F.ex.num F.ey.num F.ez.num)).sum

/-! ## Lemmas -/

section lists

theorem length_block {α : Type} (n m : Nat) (b : Nat → List α) (hb : ∀ k : Nat, (b k).length = m) :
    ((List.range n).flatMap b).length = m * n := by
  induction n with
  | zero => simp
  | succ n ih =>
    rw [List.range_succ, List.flatMap_append, List.length_append, ih]
    simp [hb, Nat.mul_add]

theorem getElem?_block {α : Type} (n m : Nat) (b : Nat → List α) (hb : ∀ k : Nat, (b k).length = m) {p k : Nat}
    (hp : p < m) (hk : k < n) : ((List.range n).flatMap b)[p + m * k]? = (b k)[p]? := by
  induction n with
  | zero => omega
  | succ n ih =>
    rw [List.range_succ, List.flatMap_append]
    have hl := length_block n m b hb
    rcases Nat.lt_succ_iff_lt_or_eq.mp hk with h | h
    · rw [List.getElem?_append_left (by
        rw [hl]
        calc p + m * k < m + m * k := by omega
          _ = m * (k + 1) := by ring
          _ ≤ m * n := Nat.mul_le_mul_left m h)]
      exact ih h
    · subst h
      rw [List.getElem?_append_right (by rw [hl]; omega), hl]
      simp

theorem indices_mem {dim nx ny nz : Nat} {t : Nat × Nat × Nat} (h : t ∈ indices dim nx ny nz) :
    t.1 < nx ∧ (2 ≤ dim → t.2.1 < ny) ∧ (3 ≤ dim → t.2.2 < nz) := by
  unfold indices at h
  split at h
  · rename_i hd
    simp only [List.mem_map, List.mem_range] at h
    obtain ⟨i, hi, rfl⟩ := h
    exact ⟨hi, by omega, by omega⟩
  · split at h
    · simp only [List.mem_flatMap, List.mem_map, List.mem_range] at h
      obtain ⟨j, hj, i, hi, rfl⟩ := h
      exact ⟨hi, fun _ => hj, by omega⟩
    · split at h
      · simp only [List.mem_flatMap, List.mem_map, List.mem_range] at h
        obtain ⟨k, hk, j, hj, i, hi, rfl⟩ := h
        exact ⟨hi, fun _ => hj, fun _ => hk⟩
      · simp at h

/-- A loop in which every step adds: the sums.  [helper] -/
theorem foldlM_add [Field K] (step : Exps K → Nat → Option (Exps K)) (a b c : K) (t : Nat → K) (l : List Nat)
    (h : ∀ k : Nat, k ∈ l → ∀ s : Exps K, step s k = some ⟨s.xx + a * t k, s.yy + b * t k, s.zz + c * t k⟩)
    (s : Exps K) :
    l.foldlM step s = some ⟨s.xx + a * (l.map t).sum, s.yy + b * (l.map t).sum, s.zz + c * (l.map t).sum⟩ := by
  induction l generalizing s with
  | nil => simp [pure]
  | cons k l ih =>
    rw [List.foldlM_cons, h k (by simp) s]
    simp only [Option.bind_eq_bind, Option.bind_some, List.map_cons, List.sum_cons]
    rw [ih (fun k hk s => h k (by simp [hk]) s)]
    simp only [Option.some.injEq, Exps.mk.injEq]
    refine ⟨by ring, by ring, by ring⟩

end lists


section analysis

theorem evec_deriv (L eta om x : ℝ) :
    HasDerivAt (evecOf L eta om)
      (1 / Real.sqrt ((eta * eta * om * om + 1) * L / 2 + eta)
        * (-(eta * om * om) * Real.sin (om * x) + om * Real.cos (om * x))) x := by
  unfold evecOf
  have hl : HasDerivAt (fun x : ℝ => om * x) om x := by simpa using (hasDerivAt_id x).const_mul om
  have h := ((hl.cos.const_mul (eta * om)).add hl.sin).const_mul
    (1 / Real.sqrt ((eta * eta * om * om + 1) * L / 2 + eta))
  exact h.congr_deriv (by ring)

theorem evec_deriv2 (c eta om x : ℝ) :
    HasDerivAt (fun x => c * (-(eta * om * om) * Real.sin (om * x) + om * Real.cos (om * x)))
      (-(om * om) * (c * (eta * om * Real.cos (om * x) + Real.sin (om * x)))) x := by
  have hl : HasDerivAt (fun x : ℝ => om * x) om x := by simpa using (hasDerivAt_id x).const_mul om
  have h := ((hl.sin.const_mul (-(eta * om * om))).add (hl.cos.const_mul om)).const_mul c
  exact h.congr_deriv (by ring)

end analysis

end MrHyDE.Modules.KL
