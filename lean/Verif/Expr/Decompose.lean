import Verif.Expr.Model

/-
Model of `FunctionManager::decomposeFunctions`
(/repo/src/managers/function/functionManager_create.hpp:77-541): classification of a branch
and the pass loop that builds the branch vector of one tree.
-/

namespace MrHyDE.Expr

/-- `known_vars_` (/repo/src/managers/function/functionManager_construct.hpp:33). -/
def knownVars : List Str := ["x", "y", "z", "u", "v", "w", "t", "pi", "h"].map String.toList

/-- `known_ops_` (/repo/src/managers/function/functionManager_construct.hpp:34). -/
def knownOps : List Str :=
  ["sin", "cos", "exp", "log", "tan", "abs", "max", "min", "mean", "emax", "emin", "emean",
   "sqrt", "sinh", "cosh"].map String.toList

/-- The names known at one location (functionManager_create.hpp:109-231, 238-422): solution
    fields, scalar fields, parameters, and the functions registered at the location. -/
structure Env where
  soln : List Str
  scal : List Str
  params : List Str
  funcs : List Str

/-- What a leaf refers to (functionManager_create.hpp:106-459). `unset` is a name of
    `known_vars_` other than `t`, `pi` that matched no field: it becomes a leaf without
    data (lines 444-457). -/
inductive Leaf where
  | soln (j : Nat)
  | scal (j : Nat)
  | param (j idx : Nat)
  | paramDot (j idx : Nat)
  | num (s : Str)
  | time
  | pi
  | unset
deriving DecidableEq, Repr

/-- Result of looking at one branch: a leaf, a reference to function `j`, or dependencies
    still given as texts. [functionManager_create.hpp:106-487] -/
inductive Kind where
  | leaf (l : Leaf)
  | func (j : Nat)
  | node (cs : List (Op × Str))
deriving DecidableEq, Repr

/-- Value of a digit character (`std::stoi` on one digit). [functionManager_create.hpp:248] -/
def digitVal (c : Char) : Nat := c.toNat - '0'.toNat

/-- Match of a text with parameter name `p`: `p`, `p(d)` or `p(dd)`
    (functionManager_create.hpp:243-307); the result is the component index. -/
def paramIdx (p s : Str) : Option Nat :=
  if s = p then some 0
  else if p.isPrefixOf s then
    match s.drop p.length with
    | ['(', d, ')'] => if isDigit d then some (digitVal d) else none
    | ['(', d, d', ')'] => if isDigit d && isDigit d' then some (10 * digitVal d + digitVal d') else none
    | _ => none
  else none

/-- Match with the time derivative of a parameter: `p_t`, `p_t(d)`, `p_t(dd)`
    (functionManager_create.hpp:331-395). -/
def paramDotIdx (p s : Str) : Option Nat := paramIdx (p ++ "_t".toList) s

/-- Search over all parameters without leaving the loop at a match
    (functionManager_create.hpp:240-321, 328-409): the last match counts. -/
def lastMatch (f : Str → Option Nat) : List Str → Nat → Option (Nat × Nat) → Option (Nat × Nat)
  | [], _, r => r
  | p :: ps, j, r => lastMatch f ps (j + 1) (match f p with | some i => some (j, i) | none => r)

/-- The names that may have no dependency at all (functionManager_create.hpp:479). -/
def unitNames : List Str := ["n[x]", "n[y]", "n[z]", "t[x]", "t[y]", "t[z]"].map String.toList

/-- Classification of one branch by its text, in the order of the tests in
    functionManager_create.hpp:106-487.  `stodOk s` tells whether `std::stod` accepts the
    text (line 434); otherwise it throws. -/
def classify (env : Env) (stodOk : Str → Bool) (s : Str) : Except Err Kind :=
  match env.soln.idxOf? s with
  | some j => .ok (.leaf (.soln j))
  | none =>
  match env.scal.idxOf? s with
  | some j => .ok (.leaf (.scal j))
  | none =>
  match lastMatch (fun p => paramIdx p s) env.params 0 none with
  | some (j, i) => .ok (.leaf (.param j i))
  | none =>
  match lastMatch (fun p => paramDotIdx p s) env.params 0 none with
  | some (j, i) => .ok (.leaf (.paramDot j i))
  | none =>
  match lastMatch (fun f => if s = f then some 0 else none) env.funcs 0 none with
  | some (j, _) => .ok (.func j)
  | none =>
  if isScalar s then
    if stodOk s then .ok (.leaf (.num s)) else .error .throws
  else if s ∈ knownVars then
    .ok (.leaf (if s = "t".toList then .time else if s = "pi".toList then .pi else .unset))
  else
  match isOperator knownOps s with
  | .error e => .error e
  | .ok (some cs) => .ok (.node cs)
  | .ok none =>
  match split s with
  | .error e => .error e
  | .ok [] => if s ∈ unitNames then .ok (.node []) else .error .throws
  | .ok (c :: cs) => .ok (.node (c :: cs))

/-- A decomposed branch: dependencies are indices into the branch vector. [dag.hpp:23-117] -/
inductive DKind where
  | leaf (l : Leaf)
  | func (j : Nat)
  | node (deps : List (Op × Nat))
deriving DecidableEq, Repr

/-- A branch (/repo/src/tools/dag.hpp:23-117): its text and, once decomposed, what it is. -/
structure Branch where
  expr : Str
  kind : Option DKind
deriving DecidableEq, Repr

/-- Decompose branch `k` if it has not been looked at yet
    (functionManager_create.hpp:96-488): new branches are appended to the vector and their
    indices recorded. -/
def decomposeOne (env : Env) (stodOk : Str → Bool) (bs : List Branch) (k : Nat) :
    Except Err (List Branch) :=
  match bs[k]? with
  | none => .error .ub
  | some b =>
    match b.kind with
    | some _ => .ok bs
    | none =>
      match classify env stodOk b.expr with
      | .error e => .error e
      | .ok (.leaf l) => .ok (bs.set k { b with kind := some (.leaf l) })
      | .ok (.func j) => .ok (bs.set k { b with kind := some (.func j) })
      | .ok (.node cs) =>
        let deps := (cs.map Prod.fst).zip (List.range' bs.length cs.length)
        .ok ((bs.set k { b with kind := some (.node deps) }) ++ cs.map (fun c => ⟨c.2, none⟩))

/-- One pass over the branches present at its start (functionManager_create.hpp:93-488). -/
def pass (env : Env) (stodOk : Str → Bool) (bs : List Branch) : Except Err (List Branch) :=
  (List.range bs.length).foldlM (decomposeOne env stodOk) bs

/-- The test at the end of a pass (functionManager_create.hpp:489-495). -/
def allDone (bs : List Branch) : Bool := bs.all (fun b => b.kind.isSome)

/-- The loop over the passes with at most `n` passes left
    (functionManager_create.hpp:91-500); when it ends undone an exception is thrown
    (line 499). -/
def passes (env : Env) (stodOk : Str → Bool) : Nat → List Branch → Except Err (List Branch)
  | 0, _ => .error .throws
  | n + 1, bs =>
    match pass env stodOk bs with
    | .error e => .error e
    | .ok bs' => if allDone bs' then .ok bs' else passes env stodOk n bs'

/-- Maximal number of passes (functionManager_create.hpp:84). -/
def maxPasses : Nat := 100

/-- Decomposition of one tree given by its expression text
    (functionManager_create.hpp:86-501). -/
def decomposeTree (env : Env) (stodOk : Str → Bool) (s : Str) : Except Err (List Branch) :=
  passes env stodOk maxPasses [⟨s, none⟩]

end MrHyDE.Expr
