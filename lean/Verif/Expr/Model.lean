/-
Model of the expression interpreter: the textual splitting functions.

Source: /repo/src/tools/interpreter.cpp (class `Interpreter`).
Strings are lists of characters; reading one position past the end of a `std::string`
yields the character `\0`, which equals none of the characters compared with.
-/

namespace MrHyDE.Expr

/-- Text of an expression (`std::string`). [interpreter.cpp:18-441] -/
abbrev Str := List Char

/-- Name of the operation with which a dependency enters its parent
    (`dep_ops_`, /repo/src/tools/dag.hpp:113): the empty string means assignment, the others are
    `plus`, `minus`, `times`, ... or the name of a function. -/
abbrev Op := Str

/-- `isdigit` as used in interpreter.cpp:24. -/
def isDigit (c : Char) : Bool := '0' ≤ c && c ≤ '9'

/-! ### `isScalar` -/

/-- Loop state of `isScalar` (interpreter.cpp:20-22): the flag `isnum`, the counters
    `numdots`, `nume` and the previous character (`none` at `k = 0`). -/
structure NumScan where
  isnum : Bool
  dots : Nat
  es : Nat
  prev : Option Char
deriving DecidableEq, Repr

/-- One iteration of the loop in `isScalar` (interpreter.cpp:23-55). -/
def numStep (st : NumScan) (c : Char) : NumScan :=
  if isDigit c then { st with prev := some c }
  else if c = '.' then
    if st.dots = 0 then { st with dots := 1, prev := some c }
    else { st with isnum := false, prev := some c }
  else if c = 'e' ∨ c = 'E' then
    if st.es = 0 then { st with es := 1, prev := some c }
    else { st with isnum := false, prev := some c }
  else if c = '+' ∨ c = '-' then
    match st.prev with
    | none => { st with prev := some c }
    | some p => if p = 'e' ∨ p = 'E' then { st with prev := some c }
                else { st with isnum := false, prev := some c }
  else { st with isnum := false, prev := some c }

/-- `Interpreter::isScalar` (interpreter.cpp:18-57). -/
def isScalar (s : Str) : Bool := (s.foldl numStep ⟨true, 0, 0, none⟩).isnum

/-! ### `split` -/

/-- `+` and `-`, counted in `num_pm` (interpreter.cpp:102-104). -/
def isPm (c : Char) : Bool := c = '+' || c = '-'
/-- `*`, `/`, `<`, `>`, counted in `num_mdp` (interpreter.cpp:105-110). -/
def isMdp (c : Char) : Bool := c = '*' || c = '/' || c = '<' || c = '>'
/-- `^`, counted in `num_pow` (interpreter.cpp:111-113). -/
def isPow (c : Char) : Bool := c = '^'

/-- The counting loop of `split` (interpreter.cpp:94-116) for one class of characters:
    the number of characters of the class at parenthesis level zero. -/
def countTop (p : Char → Bool) : Int → Str → Nat
  | _, [] => 0
  | paren, c :: cs =>
    if c = '(' then countTop p (paren + 1) cs
    else if c = ')' then countTop p (paren - 1) cs
    else if paren = 0 ∧ p c = true then countTop p paren cs + 1
    else countTop p paren cs

/-- The three splitting loops of `split` have the same shape and differ in which characters
    are dropped, which are operators, and whether an operator needs a non-empty current
    branch.  `opOf c next` is the operation name for the operator character `c` followed
    by `next`, and whether `next` is consumed (`<=`, `>=`). [interpreter.cpp:122-304] -/
structure Level where
  skip : Char → Bool
  opOf : Char → Option Char → Option (Op × Bool)
  guard : Bool

/-- Loop for `+`, `-` (interpreter.cpp:122-178): spaces and `=` are dropped at every depth;
    an operator character only splits if the current branch is not empty. -/
def levelPm : Level where
  skip := fun c => c = ' ' || c = '='
  opOf := fun c _ => if c = '+' then some ("plus".toList, false)
    else if c = '-' then some ("minus".toList, false) else none
  guard := true

/-- Loop for `*`, `/`, `<`, `<=`, `>`, `>=` (interpreter.cpp:180-266): spaces are dropped. -/
def levelMdp : Level where
  skip := fun c => c = ' '
  opOf := fun c next =>
    if c = '*' then some ("times".toList, false)
    else if c = '/' then some ("divide".toList, false)
    else if c = '<' then
      if next = some '=' then some ("lte".toList, true) else some ("lt".toList, false)
    else if c = '>' then
      if next = some '=' then some ("gte".toList, true) else some ("gt".toList, false)
    else none
  guard := false

/-- Loop for `^` (interpreter.cpp:268-304): nothing is dropped. -/
def levelPow : Level where
  skip := fun _ => false
  opOf := fun c _ => if c = '^' then some ("power".toList, false) else none
  guard := false

/-- State of the splitting loops: `paren`, `currbranch`, `currop`, the dependencies pushed
    so far (operation, text), and whether the next character is consumed (`++i`). [interpreter.cpp:65-121] -/
structure SplitSt where
  paren : Int
  cur : Str
  op : Op
  acc : List (Op × Str)
  eat : Bool
deriving DecidableEq, Repr

/-- One iteration of a splitting loop (interpreter.cpp:124-176, 183-264, 271-302). -/
def splitStep (L : Level) (st : SplitSt) (c : Char) (next : Option Char) : SplitSt :=
  if st.eat then { st with eat := false }
  else if L.skip c then st
  else if c = '(' then { st with paren := st.paren + 1, cur := st.cur ++ [c] }
  else if c = ')' then { st with paren := st.paren - 1, cur := st.cur ++ [c] }
  else if st.paren = 0 ∧ (L.guard = false ∨ st.cur ≠ []) then
    match L.opOf c next with
    | some (op, e) => ⟨st.paren, [], op, st.acc ++ [(st.op, st.cur)], e⟩
    | none => { st with cur := st.cur ++ [c] }
  else { st with cur := st.cur ++ [c] }

/-- The whole splitting loop. [interpreter.cpp:122-304] -/
def splitRun (L : Level) : SplitSt → Str → SplitSt
  | st, [] => st
  | st, c :: cs => splitRun L (splitStep L st c cs.head?) cs

/-- The push of the last piece, done at `i == s.length()-1` (interpreter.cpp:164-174, 256-263,
    295-302); the `+`/`-` loop pushes only a non-empty piece. -/
def splitFinish (L : Level) (st : SplitSt) : List (Op × Str) :=
  if L.guard = true ∧ st.cur = [] then st.acc else st.acc ++ [(st.op, st.cur)]

/-- Outcomes that stop the program: an exception, or undefined behaviour. [interpreter.cpp:65-441, functionManager_create.hpp:86-502] -/
inductive Err where
  | throws
  | ub
deriving DecidableEq, Repr

/-- Splitting at one level, including the parenthesis check afterwards
    (interpreter.cpp:343-348). -/
def splitAt (L : Level) (s : Str) : Except Err (List (Op × Str)) :=
  let st := splitRun L ⟨0, [], [], [], false⟩ s
  if st.paren = 0 then .ok (splitFinish L st) else .error .throws

/-- Position of the first `(` at index `k ≥ 1` and `k ≤ length-2` (interpreter.cpp:318-325),
    returned as the text before it and the text after it; the scan is started at index 1 on
    the text without its first and last character. -/
def firstParen : Str → Str → Option (Str × Str)
  | _, [] => none
  | pre, c :: cs => if c = '(' then some (pre, cs) else firstParen (pre ++ [c]) cs

/-- The branch of `split` without top-level operator (interpreter.cpp:306-341): strip
    outer parentheses, or read `name(argument)`; otherwise nothing is pushed. -/
def splitNoOp (s : Str) : List (Op × Str) :=
  if s.head? = some '(' ∧ s.getLast? = some ')' then [([], s.tail.dropLast)]
  else
    match firstParen (s.take 1) s.tail.dropLast with
    | some (pre, arg) => if s.getLast? = some ')' then [(pre, arg)] else []
    | none => []

/-- The text actually split: `0.0` is put in front of a leading minus sign
    (interpreter.cpp:70-72). -/
def fixMinus (s : Str) : Str := if s.head? = some '-' then "0.0".toList ++ s else s

/-- `Interpreter::split` (interpreter.cpp:65-350): the dependencies (operation, text) it
    pushes, or the exception for unbalanced parentheses. -/
def split (s0 : Str) : Except Err (List (Op × Str)) :=
  let s := fixMinus s0
  if s.length = 0 then .ok []
  else if s.length = 1 then .ok [([], s)]
  else if countTop isPm 0 s > 0 then splitAt levelPm s
  else if countTop isMdp 0 s > 0 then splitAt levelMdp s
  else if countTop isPow 0 s > 0 then splitAt levelPow s
  else .ok (splitNoOp s)

/-! ### `isOperator` -/

/-- The test for one operator name `f` (interpreter.cpp:367-391): the text is `f(`...`)`
    and has no other closing parenthesis. -/
def opMatches (s f : Str) : Bool :=
  f.isPrefixOf s && (s.drop f.length).head? == some '(' && s.getLast? == some ')' &&
    !((s.drop (f.length + 1)).dropLast.contains ')')

/-- Index of the last occurrence of `c` (`comma_ind`, interpreter.cpp:404-411). -/
def lastIdx (c : Char) : Str → Nat → Option Nat → Option Nat
  | [], _, r => r
  | x :: xs, i, r => lastIdx c xs (i + 1) (if x = c then some i else r)

/-- `Interpreter::isOperator` (interpreter.cpp:359-441): `none` when no operator matches,
    otherwise the dependencies pushed.  With an empty argument the loop bound
    `argument.length()-1` (line 406) wraps around and the loop reads out of bounds. -/
def isOperator (ops : List Str) (s : Str) : Except Err (Option (List (Op × Str))) :=
  match ops.find? (opMatches s) with
  | none => .ok none
  | some f =>
    let arg := (s.drop (f.length + 1)).dropLast
    if arg = [] then .error .ub
    else match lastIdx ',' arg.dropLast 0 none with
      | some i => .ok (some [([], arg.take i), (f, arg.drop (i + 1))])
      | none => .ok (some [(f, arg)])

end MrHyDE.Expr
