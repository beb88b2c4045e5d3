import Mathlib.Algebra.Order.Field.Basic
import Mathlib.Algebra.Order.Group.Abs
import Mathlib.Algebra.BigOperators.Group.List.Basic

/-
Model of `Sparse3DView` (/repo/src/tools/sparse3DView.hpp) and of its use in the product with
the mass matrix (/repo/src/managers/assembly/assemblyManager_mass.hpp:653-690).

A dense array is a function of (element, row, column) with extents `n0`, `n1`, `n2`.
-/

namespace MrHyDE.Views

variable {K : Type} [Field K] [LinearOrder K]

/-- The three nested loops over an array (sparse3DView.hpp:44-46, 58-61, 80-83) as the list of
    its indices. -/
def indices (n0 n1 n2 : Nat) : List (Nat × Nat × Nat) :=
  (List.range n0).flatMap (fun e => (List.range n1).flatMap (fun i => (List.range n2).map (fun j => (e, i, j))))

/-- `maxval` (sparse3DView.hpp:35, 44-52). -/
def maxVal (dense : Nat → Nat → Nat → K) (n0 n1 n2 : Nat) : K :=
  (indices n0 n1 n2).foldl (fun m x => if |dense x.1 x.2.1 x.2.2| > m then |dense x.1 x.2.1 x.2.2| else m) 0

/-- `std::abs(a)/maxval > tol_` (sparse3DView.hpp:62, 84).  If `maxval` is zero all entries are
    zero, `0/0` is a NaN, and the comparison is false. -/
def keep (M tol a : K) : Bool := M ≠ 0 ∧ |a| / M > tol

/-- Number of retained entries of a row (sparse3DView.hpp:60-66). -/
def nnz (M tol : K) (row : Nat → K) (n2 : Nat) : Nat :=
  (List.range n2).foldl (fun n j => if keep M tol (row j) then n + 1 else n) 0

/-- `maxent_` (sparse3DView.hpp:57-69). -/
def maxEnt (M tol : K) (dense : Nat → Nat → Nat → K) (n0 n1 n2 : Nat) : Nat :=
  ((List.range n0).flatMap (fun e => (List.range n1).map (fun i => nnz M tol (dense e i) n2))).foldl max 0

/-- Write into a view; `none`: out of range. [Kokkos view access at sparse3DView.hpp:60-66] -/
def put {A : Type} (l : List A) (i : Nat) (a : A) : Option (List A) :=
  if i < l.length then some (l.set i a) else none

/-- The loop that fills one row of `columns_` and `values_` (sparse3DView.hpp:82-89), which
    start with zeros; `none`: write out of range. -/
def fillRow (M tol : K) (row : Nat → K) (n2 maxent : Nat) : Option (Nat × List Nat × List K) :=
  (List.range n2).foldlM (fun s j =>
    if keep M tol (row j) then
      match put s.2.1 s.1 j, put s.2.2 s.1 (row j) with
      | some c, some v => some (s.1 + 1, c, v)
      | _, _ => none
    else some s) (0, List.replicate maxent 0, List.replicate maxent 0)

/-- The sparse view of one (element, row): the number of entries visible through `nnz_row_`, the
    columns and the values.  `alias` tells whether the host mirror of `nnz_row_` is the same
    memory as `nnz_row_`; line 70 copies from `nnz_row_` to its mirror (instead of the
    other way), so without aliasing `nnz_row_` keeps its initial zeros. -/
structure SparseRow (K : Type) where
  nnz : Nat
  columns : List Nat
  values : List K
deriving DecidableEq

/-- The constructor of `Sparse3DView` (sparse3DView.hpp:32-94), one row of the result. -/
def sparseRow (shared : Bool) (dense : Nat → Nat → Nat → K) (n0 n1 n2 : Nat) (tol : K) (e i : Nat) :
    Option (SparseRow K) :=
  let M := maxVal dense n0 n1 n2
  match fillRow M tol (dense e i) n2 (maxEnt M tol dense n0 n1 n2) with
  | none => none
  | some (_, c, v) => some ⟨if shared then nnz M tol (dense e i) n2 else 0, c, v⟩

/-- `setLocalColumns` for one row of variable `var` (sparse3DView.hpp:135-154): the loop over `j`
    for entry `k`; the initial value is zero. -/
def localColumn (offsets : Nat → Nat → Nat) (numDOF : Nat → Nat) (var col : Nat) : Nat :=
  (List.range (numDOF var)).foldl (fun r j => if col = offsets var j then j else r) 0

/-- The contribution of one element to one entry of the product `y = M x`
    (assemblyManager_mass.hpp:672-684): row `offsets(var,i)` of representative `eindex`, `x` being
    the entries of the vector at the degrees of freedom of the element.  Reading the columns or
    values out of range is `none`. -/
def sparseApply (offsets : Nat → Nat → Nat) (numDOF : Nat → Nat) (r : SparseRow K) (var : Nat) (x : Nat → K) : Option K :=
  (List.range r.nnz).foldlM (fun acc k =>
    match r.columns[k]?, r.values[k]? with
    | some c, some v => some (acc + v * x (offsets var (localColumn offsets numDOF var c)))
    | _, _ => none) 0

/-- The same with dense storage (assemblyManager_mass.hpp:704-719). -/
def denseApply (offsets : Nat → Nat → Nat) (numDOF : Nat → Nat) (row : Nat → K) (var : Nat) (x : Nat → K) : K :=
  (List.range (numDOF var)).foldl (fun acc j => acc + row (offsets var j) * x (offsets var j)) 0

end MrHyDE.Views
