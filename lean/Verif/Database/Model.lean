import Mathlib.Algebra.Order.Field.Basic
import Mathlib.Algebra.Order.Group.Abs

/-
Model of the database of repeated elements
(/repo/src/managers/assembly/assemblyManager_database.hpp:75-380) and of the view through which
it is read (/repo/src/tools/compressedView.hpp).

`std::sqrt` is an arbitrary function `sq`.
-/

namespace MrHyDE.Database

/-- What the identification looks at for one element: the side (boundary groups:
    `localSideID`, `sidenum`), the orientation string, the measure and the Jacobian at the
    integration points.  The Jacobian and the measure come from the discretization interface
    (assemblyManager_database.hpp:140-153), which is not modelled. -/
structure Elem (O K : Type) where
  side : Nat × Nat
  orient : O
  measure : K
  jac : Nat → Nat → Nat → K

/-- One step of the table of unique orientations (assemblyManager_database.hpp:108-127): the
    index of the string, which is appended if it is new. -/
def orientStep {O : Type} [DecidableEq O] (tab : List O) (o : O) : List O × Nat :=
  match tab.findIdx? (fun t => o = t) with
  | some k => (tab, k)
  | none => (tab ++ [o], tab.length)

/-- `all_orients` (assemblyManager_database.hpp:98-129), flattened over the groups. -/
def orientIndices {O : Type} [DecidableEq O] : List O → List O → List Nat
  | _, [] => []
  | tab, o :: os => (orientStep tab o).2 :: orientIndices (orientStep tab o).1 os

variable {O K : Type} [DecidableEq O] [Field K] [LinearOrder K]

/-- Sum over a double loop. [loops of src/managers/assembly/assemblyManager_database.hpp:108-127] -/
def loop2 (n m : Nat) (f : Nat → Nat → K) : K :=
  (List.range n).foldl (fun a i => (List.range m).foldl (fun b j => b + f i j) a) 0

/-- Sum over a triple loop. [loops of src/managers/assembly/assemblyManager_database.hpp:168-205] -/
def loop3 (l n m : Nat) (f : Nat → Nat → Nat → K) : K :=
  (List.range l).foldl (fun c p => (List.range n).foldl (fun a i => (List.range m).foldl (fun b j => b + f p i j) a) c) 0

/-- `std::abs(diff/m) < tol`; dividing by zero gives an infinity or a NaN and the comparison
    fails. [assemblyManager_database.hpp:165-205] -/
def ratioLt (diff m tol : K) : Bool := m ≠ 0 ∧ |diff / m| < tol

/-- `a/b > tol` for the square roots `a`, `b`; `a/0` is an infinity for `a > 0` and a NaN for
    `a = 0`. [assemblyManager_database.hpp:165-214] -/
def ratioGt (a b tol : K) : Bool := if b = 0 then 0 < a else tol < a / b

/-- The comparison of an element with a stored representative in the volumetric database
    (assemblyManager_database.hpp:168-205); `oe`, `oref` are the orientation indices.  The loop
    over points stops at the first point that differs, which does not change the outcome. -/
def volMatch (sq : K → K) (tol : K) (dim numip : Nat) (e : Elem O K) (oe : Nat) (ref : Elem O K) (oref : Nat) : Bool :=
  oe = oref && ratioLt |e.measure - ref.measure| ref.measure tol &&
    (List.range numip).all (fun pt =>
      !ratioGt (sq (loop2 dim dim (fun d0 d1 => (e.jac pt d0 d1 - ref.jac pt d0 d1) * (e.jac pt d0 d1 - ref.jac pt d0 d1))))
        (sq (loop2 dim dim (fun d0 d1 => e.jac pt d0 d1 * e.jac pt d0 d1))) tol)

/-- The comparison in the boundary database (assemblyManager_database.hpp:311-353, `jnorm`
    365-375). -/
def bndMatch (tol : K) (dim numip : Nat) (e : Elem O K) (oe : Nat) (ref : Elem O K) (oref : Nat) : Bool :=
  e.side.1 = ref.side.1 && e.side.2 = ref.side.2 && oe = oref && ratioLt |e.measure - ref.measure| ref.measure tol &&
    ratioLt (loop3 numip dim dim (fun pt d0 d1 => |e.jac pt d0 d1 - ref.jac pt d0 d1|))
      (loop3 numip dim dim (fun pt d0 d1 => |ref.jac pt d0 d1|)) tol

/-- An element as met by the loops over groups and elements: `(grp, e)`, its data, its orientation
    index and whether its group is stored anyway (`numElem < 10`,
    assemblyManager_database.hpp:155-158; never for boundary groups). -/
structure Item (O K : Type) where
  grp : Nat
  el : Nat
  data : Elem O K
  orient : Nat
  always : Bool

/-- The search loop (assemblyManager_database.hpp:165-214, 300-362): the first stored
    representative that matches. -/
def search (m : Item O K → Item O K → Bool) (x : Item O K) : List (Item O K) → Nat → Option Nat
  | [], _ => none
  | u :: us, prog => if m x u then some prog else search m x us (prog + 1)

/-- One element (assemblyManager_database.hpp:159-232): new list of representatives and the
    index of the element.  `if (!found || store_anyway)`. -/
def place (m : Item O K → Item O K → Bool) (users : List (Item O K)) (x : Item O K) : List (Item O K) × Nat :=
  match search m x users 0 with
  | some k => if x.always then (users ++ [x], users.length) else (users, k)
  | none => (users ++ [x], users.length)

/-- The whole identification: representatives (`first_users`) and `basis_index` of all elements in
    loop order. [src/managers/assembly/assemblyManager_database.hpp:75-240] -/
def identify (m : Item O K → Item O K → Bool) : List (Item O K) → List (Item O K) → List (Item O K) × List Nat
  | users, [] => (users, [])
  | users, x :: xs =>
    let r := place m users x
    let q := identify m r.1 xs
    (q.1, r.2 :: q.2)

/-- The items of a list of groups in loop order.  `small`: groups with fewer than ten elements are
    stored anyway (volumetric), not for boundary groups. [assemblyManager_database.hpp:78-97] -/
def items (small : Bool) (groups : List (List (Elem O K))) : List (Item O K) :=
  let flat := groups.zipIdx.flatMap (fun g => g.1.zipIdx.map (fun e => (g.2, e.2, e.1, small && decide (g.1.length < 10))))
  (flat.zip (orientIndices [] (flat.map (fun x => x.2.2.1.orient)))).map
    (fun p => ⟨p.1.1, p.1.2.1, p.1.2.2.1, p.2, p.1.2.2.2⟩)

/-- `identifyVolumetricDatabase` (assemblyManager_database.hpp:78-240).  (The flag
    `ignore_orientations` is always false.) -/
def volumetric (sq : K → K) (tol : K) (dim numip : Nat) (groups : List (List (Elem O K))) : List (Item O K) × List Nat :=
  identify (fun x u => volMatch sq tol dim numip x.data x.orient u.data u.orient) [] (items true groups)

/-- `identifyBoundaryDatabase` (assemblyManager_database.hpp:245-384). -/
def boundary (tol : K) (dim numip : Nat) (groups : List (List (Elem O K))) : List (Item O K) × List Nat :=
  identify (fun x u => bndMatch tol dim numip x.data x.orient u.data u.orient) [] (items false groups)

/-! ### Compressed views -/

/-- `CompressedView` (compressedView.hpp:21-51): the stored array (a list over the first index, the
    other indices in `A`) and the optional key. -/
structure CView (A : Type) where
  view : List A
  key : Option (List Nat)

/-- `operator()` (compressedView.hpp:69-116) at first index `i`; `none`: out of range. -/
def CView.read {A : Type} (c : CView A) (i : Nat) : Option A :=
  match c.key with
  | some k => match k[i]? with
    | some j => c.view[j]?
    | none => none
  | none => c.view[i]?

/-- `extent(0)` (compressedView.hpp:125-137). -/
def CView.extent0 {A : Type} (c : CView A) : Nat :=
  match c.key with
  | some k => k.length
  | none => c.view.length

/-- `size()` (compressedView.hpp:143-150), where an entry of the stored array has `per` numbers. -/
def CView.size {A : Type} (c : CView A) (per : Nat) : Nat :=
  match c.key with
  | some k => k.length
  | none => c.view.length * per

end MrHyDE.Database
