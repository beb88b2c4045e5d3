import Mathlib.Algebra.Field.Basic
import Mathlib.Algebra.Order.Field.Basic

/-!
# Parameter manager: model

Model of `src/managers/parameter/`: the scalar parameter table, its update from and extraction to plain
vectors, the derivative slots, and the time derivatives of time-dependent parameters.

The table is a list over time indices (one entry unless a parameter is dynamic) of lists over parameters of
lists over components.  Indexing out of bounds is undefined behaviour in the code and `none` here.
-/

namespace MrHyDE.Param

/-- One sublist of the input list "Parameters" as read by parameterManager_setup.hpp:24-150 (type scalar or
vector; the vector's file has been read).  Bounds, distributions and the data of discretized parameters are
left out. -/
structure Entry (K : Type) where
  usage : String
  vals : List K
  dynamic : Bool

/-- The type code pushed for a usage, parameterManager_setup.hpp:53,57,83,118,122: an unknown usage pushes
nothing at all. -/
def usageCode (u : String) : Option Int :=
  if u = "inactive" then some 0
  else if u = "active" then some 1
  else if u = "stochastic" then some 2
  else if u = "discrete" then some 3
  else if u = "discretized" then some 4
  else none

/-- The parameter table: `types` is `paramtypes`, `vals` is `paramvals` (time, parameter, component). [parameterManager.hpp:235-260, parameterManager_setup.hpp:15-163] -/
structure Table (K : Type) where
  types : List Int
  vals : List (List (List K))
deriving DecidableEq

/-- The flag `have_dynamic_scalar`: set by the active entries only, parameterManager_setup.hpp:59-63. -/
def haveDynamic {K : Type} (es : List (Entry K)) : Bool :=
  es.any (fun e => e.usage == "active" && e.dynamic)

/-- `setupParameters`, parameterManager_setup.hpp:15-163 (the part about scalar parameters). -/
def setup {K : Type} (numTimeSteps : Nat) (es : List (Entry K)) : Table K :=
  { types := es.filterMap (fun e => usageCode e.usage)
    vals := if haveDynamic es then List.replicate numTimeSteps (es.map Entry.vals) else [es.map Entry.vals] }

/-- `num_active_params`, parameterManager_setup.hpp:60-62. -/
def numActive {K : Type} (es : List (Entry K)) : Nat :=
  ((es.filter (fun e => e.usage == "active")).map (fun e => e.vals.length)).sum

/-- Overwriting the components of one parameter with the entries of `new` from position `p` on:
the loop over `j` in parameterManager_update.hpp:40-46, 77-83, 204-207.  Returns the new components and the
new position. -/
def updComps {K : Type} (new : List K) : Nat → List K → Option (List K × Nat)
  | p, [] => some ([], p)
  | p, _ :: cs =>
    match new[p]? with
    | none => none
    | some v =>
      match updComps new (p + 1) cs with
      | none => none
      | some (r, q) => some (v :: r, q)

/-- The loop over the parameters of one time index with the test of the type, parameterManager_update.hpp:36-49,
75-85, 202-210.  `new = none`: the vector for this time index does not exist (index out of bounds when used). -/
def updRow {K : Type} (ty : Int) (new : Option (List K)) : Nat → List Int → List (List K) → Option (List (List K))
  | _, _, [] => some []
  | _, [], _ :: _ => none
  | p, t :: ts, c :: cs =>
    if t = ty then
      match new with
      | none => none
      | some nv =>
        match updComps nv p c with
        | none => none
        | some (c', q) =>
          match updRow ty new q ts cs with
          | none => none
          | some r => some (c' :: r)
    else
      match updRow ty new p ts cs with
      | none => none
      | some r => some (c :: r)

/-- The loop over the time indices, parameterManager_update.hpp:34-51; `i` is the time index. -/
def updTimes {K : Type} (types : List Int) (news : List (List K)) : Nat → List (List (List K)) →
    Option (List (List (List K)))
  | _, [] => some []
  | i, row :: rows =>
    match updRow 1 news[i]? 0 types row with
    | none => none
    | some r =>
      match updTimes types news (i + 1) rows with
      | none => none
      | some rs => some (r :: rs)

/-- `updateParams(MrHyDE_OptVector)`, scalar part, parameterManager_update.hpp:27-53. -/
def updateOpt {K : Type} (T : Table K) (news : List (List K)) : Option (Table K) :=
  (updTimes T.types news 0 T.vals).map (fun v => { T with vals := v })

/-- `updateParams(vector, string)` at time index `idx`, parameterManager_update.hpp:181-210 (an index outside
the table does nothing). -/
def updateAt {K : Type} (T : Table K) (new : List K) (ty : Int) (idx : Nat) : Option (Table K) :=
  match T.vals[idx]? with
  | none => some T
  | some row => (updRow ty (some new) 0 T.types row).map (fun r => { T with vals := T.vals.set idx r })

/-- The type looked for by `updateParams(vector, string)`, parameterManager_update.hpp:183-193 (an unknown word gives
`-1`; the complaint is a comment). -/
def requestCode (s : String) : Int :=
  if s = "inactive" then 0
  else if s = "active" then 1
  else if s = "stochastic" then 2
  else if s = "discrete" then 3
  else -1

/-- Concatenation of the components of the parameters of one type, parameterManager_access.hpp:187-193,
254-260, 284-290. -/
def getRow {K : Type} (ty : Int) : List Int → List (List K) → Option (List K)
  | _, [] => some []
  | [], _ :: _ => none
  | t :: ts, c :: cs =>
    match getRow ty ts cs with
    | none => none
    | some r => some (if t = ty then c ++ r else r)

/-- `getParams(int)`: one vector for each time index, parameterManager_access.hpp:182-198. -/
def getAll {K : Type} (T : Table K) (ty : Int) : Option (List (List K)) :=
  T.vals.mapM (getRow ty T.types)

/-- `getParams(string)`: the vectors of all time indices in one, parameterManager_access.hpp:236-262. -/
def getFlat {K : Type} (T : Table K) (ty : Int) : Option (List K) :=
  (getAll T ty).map List.flatten

/-- `getParams(string, int)`, parameterManager_access.hpp:268-292. -/
def getAt {K : Type} (T : Table K) (ty : Int) (idx : Nat) : Option (List K) :=
  match T.vals[idx]? with
  | none => none
  | some row => getRow ty T.types row

/-! ### Derivative slots -/

/-- The table `pseed`, parameterManager_sacadoize.hpp:37-47: a counter runs over the components of the active
parameters; the entries of the other parameters keep the initial value zero of the view. -/
def slots {K : Type} : Nat → List Int → List (List K) → List (List Nat)
  | _, _, [] => []
  | _, [], c :: cs => List.replicate c.length 0 :: slots 0 [] cs
  | p, t :: ts, c :: cs =>
    if t = 1 then List.range' p c.length :: slots (p + c.length) ts cs
    else List.replicate c.length 0 :: slots p ts cs

/-- A Sacado value with `n` derivative slots: `ad n v d` has value `v` and derivatives `d`. [parameterManager_sacadoize.hpp:37-47] -/
structure AD (K : Type) where
  val : K
  dx : Nat → K

/-- Constant, `EvalT(v)`. [parameterManager_sacadoize.hpp:37-47] -/
def AD.const {K : Type} [Zero K] (v : K) : AD K := ⟨v, fun _ => 0⟩

/-- `EvalT(n, i, v)`: derivative one in slot `i`. [parameterManager_sacadoize.hpp:37-47] -/
def AD.seed {K : Type} [Zero K] [One K] (i : Nat) (v : K) : AD K := ⟨v, fun s => if s = i then 1 else 0⟩

/-- One entry of `kv_pvals`, parameterManager_sacadoize.hpp:121-148: seeded when seeding is requested, the
parameter is active and the type has enough slots (`N` is `dummyval.size()`). -/
def sacado {K : Type} [Zero K] [One K] (seedActive : Bool) (N : Nat) (t : Int) (slot : Nat) (v : K) : AD K :=
  if seedActive then
    if t = 1 then (if slot < N then AD.seed slot v else AD.const v) else AD.const v
  else AD.const v

/-! ### Choice of the derivative type -/

/-- The number of derivative slots of the type selected for a required number of derivatives,
src/managers/assembly/assemblyManager_construct.hpp:128-157 with the overrides of lines 159-171.  `maxDerivs` is
the compile-time constant `MAXDERIVS`, `-1` selects the type of that size, `0` (fully explicit) no derivatives. -/
def slotsOf (maxDerivs : Nat) (ndr : Nat) (multiscale autotune fullyExplicit : Bool) : Nat :=
  if fullyExplicit then 0
  else if !autotune then maxDerivs
  else if multiscale then maxDerivs
  else if 0 < ndr ∧ ndr ≤ 2 then 2
  else if 2 < ndr ∧ ndr ≤ 4 then 4
  else if 4 < ndr ∧ ndr ≤ 8 then 8
  else if 8 < ndr ∧ ndr ≤ 16 then 16
  else if 16 < ndr ∧ ndr ≤ 18 then 18
  else if 18 < ndr ∧ ndr ≤ 24 then 24
  else if 24 < ndr ∧ ndr ≤ 32 then 32
  else maxDerivs

/-- The largest required number of derivatives over the blocks after setup,
parameterManager_setup.hpp:166-171 and assemblyManager_construct.hpp:129-132; `none` is the exception "MAXDERIVS
is not large enough". -/
def required (maxDerivs active : Nat) (blocks : List Nat) : Option Nat :=
  if maxDerivs < active then none
  else some ((blocks.map (fun b => if b < active then active else b)).foldl max 0)

/-! ### Time derivatives -/

/-- `getDiscretizedParamsDot` (one entry of the vector), parameterManager_access.hpp:110-124: `ps` are the
vectors `discretized_params` over the time indices, `idx` is `dynamic_timeindex`. -/
def discDot {K : Type} [Field K] (dynamic : Bool) (idx : Nat) (dt : K) (ps : List K) : Option K :=
  let index := if dynamic then idx else 0
  if 0 < index ∧ ps.length > index + 1 then
    match ps[index]?, ps[index - 1]? with
    | some a, some b => some (0 + 1 / dt * a + (-1) / dt * b)
    | _, _ => none
  else some 0

/-- The view of the time derivatives of the scalar parameters.  It is declared in parameterManager.hpp:235-244
and never allocated, so its extents are zero; `updateDynamicParams` (parameterManager_update.hpp:136-173) fills
the entries below these extents.  `ext` is the first extent, `cur`/`prev` the values at the time index and the
one before. -/
def scalarDot {K : Type} [Field K] (ext : Nat) (index : Nat) (dt : K) (cur prev : List K) : List K :=
  (List.range ext).map (fun c : Nat =>
    if index = 0 then 0 else ((cur[c]?.getD 0) - (prev[c]?.getD 0)) / dt)

/-- Extent of the view of time derivatives, parameterManager.hpp:235 (no allocation anywhere in the sources). -/
def dotExtent : Nat := 0

/-- What the function manager attaches to a leaf `p_t` of parameter number `j`,
src/managers/function/functionManager_create.hpp:331-342: row `j` of the view of time derivatives; `none` is a
row outside the view. -/
def paramDotLeaf {K : Type} [Field K] (j index : Nat) (dt : K) (cur prev : List K) : Option K :=
  (scalarDot dotExtent index dt cur prev)[j]?

/-- Number of time indices for dynamic parameters when the number of steps is not given,
parameterManager_construct.hpp:66-76; the loop is fuelled (`fuel` iterations at most). -/
def countSteps {K : Type} [Field K] [LinearOrder K] (final dt : K) : Nat → K → Nat
  | 0, _ => 0
  | fuel + 1, t => if t < final then countSteps final dt fuel (t + dt) + 1 else 0

end MrHyDE.Param
