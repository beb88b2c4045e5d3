import Mathlib.Algebra.Order.Field.Basic
import Mathlib.Algebra.Order.Group.Abs

/-
Model of `SolutionStorage` (/repo/src/tools/solutionStorage.hpp): storage of states by index
and time.  Vectors are values of an arbitrary type `D`: `store` keeps a deep copy (lines
213, 233-242).  Times are elements of an ordered field.
-/

namespace MrHyDE.Storage

/-- Result of an extraction: undefined behaviour (index out of range), `found = false`, or the
    vector handed out. [src/tools/solutionStorage.hpp:104-181] -/
inductive Res (A : Type) where
  | ub
  | absent
  | found (a : A)
deriving DecidableEq, Repr

/-- The storage: `times_` and `data_` (solutionStorage.hpp:278-279) and the tolerance
    (line 276). -/
structure Stg (K D : Type) where
  times : List (List K)
  data : List (List D)
  tol : K

variable {K D : Type} [Field K] [LinearOrder K]

/-- A new storage (solutionStorage.hpp:32-39). -/
def Stg.empty (tol : K) : Stg K D := ⟨[], [], tol⟩

/-- `store` (solutionStorage.hpp:208-227). -/
def Stg.store (s : Stg K D) (v : D) (t : K) (index : Nat) : Stg K D :=
  if s.times.length ≤ index then { s with times := s.times ++ [[t]], data := s.data ++ [[v]] }
  else { s with data := s.data.modify index (· ++ [v]), times := s.times.modify index (· ++ [t]) }

/-- `reset` (solutionStorage.hpp:264-269). -/
def Stg.reset (s : Stg K D) : Stg K D :=
  { s with times := s.times.map (fun _ => []), data := s.data.map (fun _ => []) }

/-- `std::abs(t - currtime)/currtime < tol` (solutionStorage.hpp:83, 109, 135, 157): the
    division is by the signed time; division by zero gives an infinity or a NaN, and the
    comparison is false. -/
def relNear (tol c t : K) : Bool := c ≠ 0 ∧ |t - c| / c < tol

/-- The test of `extract` (solutionStorage.hpp:81-95): relative, or absolute at time zero. -/
def near (tol c t : K) : Bool :=
  if |c| > 0 then relNear tol c t else |t - c| < tol

/-- The loops over the stored times (solutionStorage.hpp:82-87, 90-95, 134-146, 156-168): the
    position of the last time that passes the test. -/
def lastPos (p : K → Bool) : List K → Nat → Option Nat → Option Nat
  | [], _, r => r
  | t :: ts, j, r => lastPos p ts (j + 1) (if p t then some j else r)

/-- `data_[index][j]` (and `times_[index][j]`). [src/tools/solutionStorage.hpp:208-227] -/
def Stg.get (s : Stg K D) (index j : Nat) : Option (K × D) :=
  match s.times[index]?.bind (·[j]?), s.data[index]?.bind (·[j]?) with
  | some t, some v => some (t, v)
  | _, _ => none

/-- `extract(vec, index, currtime)` (solutionStorage.hpp:78-98) and the overload that also
    returns the position (103-126).  Simplification: only the last assignment of `vec` in
    the loop is performed. -/
def Stg.extract (s : Stg K D) (index : Nat) (c : K) : Res (Nat × D) :=
  match s.times[index]? with
  | none => .ub
  | some ts =>
    match lastPos (near s.tol c) ts 0 none with
    | none => .absent
    | some j =>
      match s.get index j with
      | none => .ub
      | some x => .found (j, x.2)

/-- `extract(vec, timeindex, index)` (solutionStorage.hpp:61-73; lines 44-56 are the case
    `index = 0`). -/
def Stg.extractSlot (s : Stg K D) (timeindex index : Nat) : Res D :=
  match s.data[index]? with
  | none => .absent
  | some ds =>
    match ds[timeindex]? with
    | none => .absent
    | some v => .found v

/-- `extractPrevious` (solutionStorage.hpp:131-148): vector and time. -/
def Stg.extractPrevious (s : Stg K D) (index : Nat) (c : K) : Res (K × D) :=
  match s.times[index]? with
  | none => .ub
  | some ts =>
    match lastPos (relNear s.tol c) ts 0 none with
    | none => .absent
    | some j =>
      match s.get index (if j > 0 then j - 1 else j) with
      | none => .ub
      | some x => .found x

/-- `extractNext` (solutionStorage.hpp:153-170). -/
def Stg.extractNext (s : Stg K D) (index : Nat) (c : K) : Res (K × D) :=
  match s.times[index]? with
  | none => .ub
  | some ts =>
    match lastPos (relNear s.tol c) ts 0 none with
    | none => .absent
    | some j =>
      match s.get index (if j < ts.length - 1 then j + 1 else j) with
      | none => .ub
      | some x => .found x

/-- `extractLast` (solutionStorage.hpp:175-181): on an empty slot `size()-1` wraps around and
    the access is out of range. -/
def Stg.extractLast (s : Stg K D) (index : Nat) : Res (K × D) :=
  match s.times[index]? with
  | none => .ub
  | some ts =>
    if ts.length = 0 then .ub
    else
      match s.get index (ts.length - 1) with
      | none => .ub
      | some x => .found x

/-- Operations that change the storage. [src/tools/solutionStorage.hpp:61-98] -/
inductive Act (K D : Type) where
  | store (v : D) (t : K) (index : Nat)
  | reset

/-- One operation. [src/tools/solutionStorage.hpp:61-98] -/
def Stg.step (s : Stg K D) : Act K D → Stg K D
  | .store v t i => s.store v t i
  | .reset => s.reset

/-- A history of operations. [calls of src/tools/solutionStorage.hpp:61-98] -/
def run (tol : K) (h : List (Act K D)) : Stg K D := h.foldl Stg.step (Stg.empty tol)

end MrHyDE.Storage
