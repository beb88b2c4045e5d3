import Mathlib.Data.List.Basic
import Mathlib.Data.List.Sort
import Mathlib.Data.String.Basic

/-! # Boundary conditions of a block

/repo/src/interfaces/discretization/discretizationInterface_dof.hpp: `setBCData` 341-635, `setDirichletData` 642-735.
Settings are lists of parameter names per variable.  The mesh queries (`getMySTKSides`, `getSTKSideElements`,
`getSTKNodeElements`) and the numbering of degrees of freedom are inputs.  Numbers are integers of any size; the code squeezes
global numbers into `int`. -/

namespace MrHyDE.BC

/-- The five sublists of boundary conditions; discretizationInterface_dof.hpp:394-398. -/
inductive Kind
  | dirichlet | neumann | farField | slip | flux
deriving DecidableEq, Repr

/-- Settings of a block: for each sublist, variables with the names of their parameters, and the weak flag;
discretizationInterface_dof.hpp:392-399. -/
structure Settings where
  /-- for each kind: variable, names of parameters; discretizationInterface_dof.hpp:394-398 -/
  lists : Kind → List (String × List String)
  /-- `use weak Dirichlet`; discretizationInterface_dof.hpp:399 -/
  weak : Bool

/-- `settings.sublist(var).isParameter(name)`; discretizationInterface_dof.hpp:432-433 etc. -/
def Settings.isParameter (S : Settings) (k : Kind) (var name : String) : Bool :=
  (S.lists k).any (fun x => x.1 == var && x.2.contains name)

/-- The test of each condition: the name `all boundaries` or that of the side set; discretizationInterface_dof.hpp:432-433, 473-487. -/
def Settings.given (S : Settings) (k : Kind) (var side : String) : Bool :=
  S.isParameter k var "all boundaries" || S.isParameter k var side

/-- `isDiri`: also component entries for vector valued bases; discretizationInterface_dof.hpp:432-455, 674-696. -/
def Settings.isDiri (S : Settings) (vec : Bool) (var side : String) : Bool :=
  S.given .dirichlet var side || (vec && ["x", "y", "z"].any (fun c => S.given .dirichlet (var ++ c) side))

/-- Label of a variable on a side set; discretizationInterface_dof.hpp:417, 464-488. -/
inductive Label
  | none | dirichlet | weakDirichlet | neumann | farField | slip | flux
deriving DecidableEq, Repr

/-- `current_var_bcs[side]`: assignments in order; discretizationInterface_dof.hpp:464-488. -/
def label (S : Settings) (vec : Bool) (var side : String) : Label := Id.run do
  let mut l := Label.none
  if S.isDiri vec var side then
    l := if S.weak then .weakDirichlet else .dirichlet
  if S.given .neumann var side then
    l := .neumann
  if S.given .farField var side then
    l := .farField
  if S.given .slip var side then
    l := .slip
  if S.given .flux var side then
    l := .flux
  return l

/-- Number written to the side information, 0 if none; discretizationInterface_dof.hpp:501-527. -/
def sideCode (S : Settings) (vec : Bool) (var side : String) : Nat :=
  if S.isDiri vec var side then (if S.weak then 4 else 1)
  else if S.given .neumann var side then 2
  else if S.given .farField var side then 6
  else if S.given .slip var side then 7
  else if S.given .flux var side then 8
  else 0

/-- Side information of a variable on one side of one element: side sets in order, each with whether it contains the side;
code and number of the side set; 0, 0 at first; discretizationInterface_dof.hpp:419, 490-528. -/
def sideInfo (S : Settings) (vec : Bool) (var : String) (sides : List (String × Bool)) : Nat × Nat :=
  (sides.zip (List.range sides.length)).foldl
    (fun a x => if x.1.2 && sideCode S vec var x.1.1 != 0 then (sideCode S vec var x.1.1, x.2) else a) (0, 0)

/-- `std::unique` on a list: equal neighbours once; discretizationInterface_dof.hpp:570-571, 722. -/
def uniq : List Int → List Int
  | [] => []
  | [a] => [a]
  | a :: b :: t => if a = b then uniq (b :: t) else a :: uniq (b :: t)

/-- `std::sort` (any method gives the same list of numbers); discretizationInterface_dof.hpp:569, 721. -/
def sorted (l : List Int) : List Int := l.insertionSort (· ≤ ·)

/-- Degrees of freedom constrained strongly for a variable: side sets with their sides (element, side), numbers of an element,
offsets of the closure of a side; discretizationInterface_dof.hpp:664-723.  The offsets are those of the numbering itself, so in
range. -/
def dbcDofs (S : Settings) (vec : Bool) (var : String) (sides : List (String × List (Nat × Nat)))
    (lids : Nat → List Int) (closure : Nat → List Nat) : List Int :=
  uniq (sorted (sides.foldl (fun acc x =>
    if S.isDiri vec var x.1 && !S.weak then
      x.2.foldl (fun acc y => (closure y.2).foldl (fun acc o => acc ++ [(lids y.1).getD o 0]) acc) acc
    else acc) []))

/-- Nodes of a node set: `elemGIDs` grows from element to element, the number is taken from its beginning; `none`: outside;
discretizationInterface_dof.hpp:543-565. -/
def nodeSetDofs (gids : Nat → List Int) (off : List Nat) : List (Nat × Nat) → List Int → Option (List Int)
  | [], _ => some []
  | x :: t, acc =>
    match off[x.2]? with
    | none => none
    | some o =>
      match (acc ++ gids x.1)[o]? with
      | none => none
      | some g => (nodeSetDofs gids off t (acc ++ gids x.1)).map (fun r => g :: r)

/-- `localelemmap`: an element (numbered over all blocks) is replaced by its place in its block, and this is used as row of the
numbers of all elements; discretizationInterface_dof.hpp:376-390, 553-558. -/
def blockRows (elems : List Nat) (l : List (Nat × Nat)) : List (Nat × Nat) := l.map (fun x => (elems.idxOf x.1, x.2))

/-- Whether a node set is meant: its name occurs in the text; discretizationInterface_dof.hpp:532, 537-541. -/
def nodeSetGiven (text name : List Char) : Bool := text.tails.any (fun t => name.isPrefixOf t)

/-- `set_intersection` of sorted lists; discretizationInterface_dof.hpp:608-610. -/
def setInter : List Int → List Int → List Int
  | [], _ => []
  | _ :: _, [] => []
  | a :: s, b :: t =>
    if a < b then setInter s (b :: t) else if b < a then setInter (a :: s) t else a :: setInter s t
termination_by s t => s.length + t.length

/-- Collection from all processes: each pads its list with -1 to the total size; all get all; each keeps what it has;
discretizationInterface_dof.hpp:569-619. -/
def pointDofs (found : List (List Int)) (owned : List Int) : List Int :=
  let loc := found.map (fun l => uniq (sorted l))
  let total := (loc.map List.length).sum
  let all := (loc.map (fun l => l ++ List.replicate (total - l.length) (-1))).flatten
  setInter (sorted all) (sorted owned)

end MrHyDE.BC
