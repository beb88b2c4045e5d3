import Mathlib.Algebra.Order.Field.Basic

/-
Model of the nearest-point lookups of `Data` (/repo/src/tools/data.cpp:373-520).
-/

namespace MrHyDE.Views

variable {K : Type} [Field K] [LinearOrder K]

/-- The loop over one axis (data.cpp:447-457, 464-480, 488-512): squared distance and node, starting
    from `big = (ScalarT)RAND_MAX` and node 0; the first strict improvement wins. -/
def axisLoop (x : K) : List K → Nat → K × Nat → K × Nat
  | [], _, s => s
  | g :: gs, i, s => axisLoop x gs (i + 1) (if (x - g) * (x - g) < s.1 then ((x - g) * (x - g), i) else s)

/-- One axis. [data.cpp:439-520] -/
def axis (big x : K) (grid : List K) : K × Nat := axisLoop x grid 0 (big, 0)

/-- `findClosestGridPoint` (data.cpp:439-520): node and squared `distance` (the square root at the
    end is left out).  `spaceDim` other than 1, 2, 3 leaves node 0 and the distance untouched;
    not modelled. -/
def closestGrid1 (big x : K) (gx : List K) : Nat × K := ((axis big x gx).2, (axis big x gx).1)

/-- data.cpp:439-520. -/
def closestGrid2 (big x y : K) (gx gy : List K) : Nat × K :=
  ((axis big y gy).2 * gx.length + (axis big x gx).2, (axis big x gx).1 + (axis big y gy).1)

/-- data.cpp:439-520. -/
def closestGrid3 (big x y z : K) (gx gy gz : List K) : Nat × K :=
  ((axis big z gz).2 * gx.length * gy.length + (axis big y gy).2 * gx.length + (axis big x gx).2,
    (axis big x gx).1 + (axis big y gy).1 + (axis big z gz).1)

/-- `findClosestPoint` (data.cpp:373-405): the neighbour lists of all query points, flattened; for
    each point the entry at the running offset.  `none`: read past the end. -/
def pickFirst (flat : List Nat) : Nat → List Nat → List (Option Nat)
  | _, [] => []
  | prog, n :: ns => flat[prog]? :: pickFirst flat (prog + n) ns

/-- The neighbour lists as returned by the external search. [data.cpp:373-405] -/
def closestPoints (lists : List (List Nat)) : List (Option Nat) := pickFirst lists.flatten 0 (lists.map List.length)

end MrHyDE.Views
