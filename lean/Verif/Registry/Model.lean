/-
Model of the registration of functions per location
(/repo/src/managers/function/functionManager_create.hpp, functionManager_util.hpp).
-/

namespace MrHyDE.Registry

/-- The forests of a function manager (`forests_`, /repo/src/tools/dag.hpp:234-278,
    functionManager_construct.hpp:36-39): location and the trees as (name, contents).  The contents
    (an expression text or a number) are an arbitrary type. -/
abbrev Forests (N E : Type) := List (N × List (N × E))

variable {N E : Type} [DecidableEq N]

/-- The four forests of a new function manager (functionManager_construct.hpp:36-39). -/
def fresh (locs : List N) : Forests N E := locs.map (fun l => (l, []))

/-- The inner loop of `addFunction` (functionManager_create.hpp:20-25): `found` and
    `findex`; the last match counts. -/
def scan (fname : N) : List (N × E) → Nat → Option Nat → Option Nat
  | [], _, r => r
  | x :: xs, j, r => scan fname xs (j + 1) (if x.1 = fname then some j else r)

/-- The outer loop of `addFunction` (functionManager_create.hpp:18-31): `found` is carried
    from one forest to the next. -/
def addLoop (fname : N) (e : E) (location : N) : Forests N E → Option Nat → Nat → Forests N E × Nat
  | [], _, findex => ([], findex)
  | f :: fs, found, findex =>
    if f.1 = location then
      match (match scan fname f.2 0 none with | some j => some j | none => found) with
      | some j =>
        let r := addLoop fname e location fs (some j) j
        (f :: r.1, r.2)
      | none =>
        let r := addLoop fname e location fs none f.2.length
        ((f.1, f.2 ++ [(fname, e)]) :: r.1, r.2)
    else
      let r := addLoop fname e location fs found findex
      (f :: r.1, r.2)

/-- `addFunction(fname, expression, location)` (functionManager_create.hpp:13-33 and, for
    numbers, 40-60): the new forests and the returned index. -/
def addFunction (F : Forests N E) (fname : N) (e : E) (location : N) : Forests N E × Nat :=
  addLoop fname e location F none 0

/-- `hasFunction` (functionManager_util.hpp:43-57). -/
def hasFunction (F : Forests N E) (fname location : N) : Bool :=
  F.any (fun f => f.1 = location && f.2.any (fun x => x.1 = fname))

/-- The tree that `evaluate(fname, location)` uses: the first tree of that name in the first
    forest of that location (functionManager_evaluate.hpp:15-41); `none` means that the
    exception of line 44 is thrown. -/
def lookup (F : Forests N E) (fname location : N) : Option E :=
  match F.find? (fun f => f.1 = location) with
  | none => none
  | some f => (f.2.find? (fun x => x.1 = fname)).map Prod.snd

/-- A registration: name, contents, location. [src/managers/function/functionManager_construct.hpp:36-39] -/
structure Reg (N E : Type) where
  name : N
  contents : E
  location : N

/-- A sequence of registrations. [calls of src/managers/function/functionManager_create.hpp:13-33] -/
def register (F : Forests N E) (rs : List (Reg N E)) : Forests N E :=
  rs.foldl (fun F r => (addFunction F r.name r.contents r.location).1) F

end MrHyDE.Registry
