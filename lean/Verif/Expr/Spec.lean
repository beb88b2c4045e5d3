import Mathlib.Logic.Function.Iterate
import Verif.Expr.Eval

/-
Specification of the expression language: abstract syntax, the text of an expression, and
its mathematical value.  It refers to the arithmetic record `Arith` (the meaning of the
primitive operations) but to none of the functions that model the interpreter.
-/

namespace MrHyDE.Expr

/-- Expressions.  `paren` is an explicit pair of parentheses; the other constructors write
    no parentheses of their own, so `Ok` below restricts the operands by precedence. -/
inductive Ex where
  | num (s : Str)
  | name (s : Str)
  | paren (e : Ex)
  | fn (f : Str) (e : Ex)
  | fn2 (f : Str) (a b : Ex)
  | pow (a b : Ex)
  | mul (a b : Ex)
  | div (a b : Ex)
  | lt (a b : Ex)
  | gt (a b : Ex)
  | add (a b : Ex)
  | sub (a b : Ex)
  | neg (a : Ex)
deriving DecidableEq, Repr

/-- The text of an expression, as the user writes it (without spaces). -/
def Ex.text : Ex → Str
  | .num s => s
  | .name s => s
  | .paren e => '(' :: e.text ++ [')']
  | .fn f e => f ++ '(' :: e.text ++ [')']
  | .fn2 f a b => f ++ '(' :: a.text ++ ',' :: b.text ++ [')']
  | .pow a b => a.text ++ '^' :: b.text
  | .mul a b => a.text ++ '*' :: b.text
  | .div a b => a.text ++ '/' :: b.text
  | .lt a b => a.text ++ '<' :: b.text
  | .gt a b => a.text ++ '>' :: b.text
  | .add a b => a.text ++ '+' :: b.text
  | .sub a b => a.text ++ '-' :: b.text
  | .neg a => '-' :: a.text

/-- Precedence level: 3 atoms, 2 powers, 1 products, quotients and comparisons, 0 sums. -/
def Ex.level : Ex → Nat
  | .num _ | .name _ | .paren _ | .fn .. | .fn2 .. => 3
  | .pow .. => 2
  | .mul .. | .div .. | .lt .. | .gt .. => 1
  | .add .. | .sub .. | .neg _ => 0

/-- Built-in functions of one argument and their meaning. -/
def fn1 {K : Type} (A : Arith K) : List (Str × (K → K)) :=
  [("sin".toList, A.sin), ("cos".toList, A.cos), ("tan".toList, A.tan), ("exp".toList, A.exp),
   ("log".toList, A.log), ("sinh".toList, A.sinh), ("cosh".toList, A.cosh),
   ("abs".toList, fun t => if A.lt t A.zero then A.neg t else t),
   ("sqrt".toList, fun t => if A.le t A.zero then A.zero else A.sqrt t)]

/-- Built-in functions of two arguments and their meaning. -/
def fn2s {K : Type} (A : Arith K) : List (Str × (K → K → K)) :=
  [("max".toList, fun a b => if A.lt a b then b else a),
   ("min".toList, fun a b => if A.lt b a then b else a),
   ("mean".toList, fun a b => A.add (A.mul A.half a) (A.mul A.half b))]

/-- The value of an expression, given the values of names and of literals:
    the usual meaning of every construct.  A comparison has value one or zero; `a - b` is
    `a + (-b)`; `-a` is `0.0 - a`. -/
def Ex.value {K : Type} (A : Arith K) (lit : Str → K) (ρ : Str → K) : Ex → K
  | .num s => lit s
  | .name s => ρ s
  | .paren e => e.value A lit ρ
  | .fn f e => ((fn1 A).lookup f).elim A.zero (fun g => g (e.value A lit ρ))
  | .fn2 f a b => ((fn2s A).lookup f).elim A.zero (fun g => g (a.value A lit ρ) (b.value A lit ρ))
  | .pow a b => A.pow (a.value A lit ρ) (b.value A lit ρ)
  | .mul a b => A.mul (a.value A lit ρ) (b.value A lit ρ)
  | .div a b => A.div (a.value A lit ρ) (b.value A lit ρ)
  | .lt a b => if A.lt (a.value A lit ρ) (b.value A lit ρ) then A.one else A.zero
  | .gt a b => if A.lt (b.value A lit ρ) (a.value A lit ρ) then A.one else A.zero
  | .add a b => A.add (a.value A lit ρ) (b.value A lit ρ)
  | .sub a b => A.add (a.value A lit ρ) (A.neg (b.value A lit ρ))
  | .neg a => A.add (lit "0.0".toList) (A.neg (a.value A lit ρ))

/-- Characters with a meaning of their own in expressions. -/
def specials : List Char := ['+', '-', '*', '/', '<', '>', '^', '=', ' ', ',']

/-- Decimal digits. -/
def digits : List Char := ['0', '1', '2', '3', '4', '5', '6', '7', '8', '9']

/-- An unsigned decimal literal: digits, optionally a point and more digits, optionally an
    exponent with digits but without sign. -/
def NumLit (s : Str) : Prop :=
  ∃ a b c : Str, a ≠ [] ∧ (∀ x ∈ a, x ∈ digits) ∧ (∀ x ∈ b, x ∈ digits) ∧ (∀ x ∈ c, x ∈ digits) ∧
    (s = a ∨ s = a ++ '.' :: b ∨
     ∃ e ∈ ['e', 'E'], c ≠ [] ∧ (s = a ++ e :: c ∨ s = a ++ '.' :: b ++ e :: c))

/-- Parentheses are matched: never more closing than opening ones, and equally many in all. -/
def Matched (s : Str) : Prop :=
  s.count '(' = s.count ')' ∧ ∀ p, p <+: s → p.count ')' ≤ p.count '('

/-- An admissible name: not empty, no special character, does not start with a
    parenthesis, has matched parentheses (so `grad(u)[x]` is a name), and is not one of the
    built-in functions, nor starts with a built-in function and a parenthesis. -/
structure NameOk (s : Str) : Prop where
  nonempty : s ≠ []
  noSpecial : ∀ c ∈ s, c ∉ specials
  noParen : s.head? ≠ some '('
  matched : Matched s
  notOp : ∀ f ∈ ["sin", "cos", "exp", "log", "tan", "abs", "max", "min", "mean", "emax", "emin",
    "emean", "sqrt", "sinh", "cosh"].map String.toList, s ≠ f ∧ ¬ (f ++ ['(']) <+: s
  /-- contains a character that no number contains -/
  notNum : ∃ c ∈ s, c ∉ digits ∧ c ≠ '.' ∧ c ≠ 'e' ∧ c ≠ 'E'

/-- Well-formed expressions over a set of names, with the precedence restrictions that make
    the text of the operands delimit themselves (the usual precedence: `^` before `*`, `/`,
    `<`, `>` before `+`, `-`, left to right).  Arguments of the two-argument functions may
    not contain parentheses: see the disagreement list for what happens otherwise. -/
def Ex.Ok (names : Str → Prop) : Ex → Prop
  | .num s => NumLit s
  | .name s => names s
  | .paren e => e.Ok names
  | .fn f e => f ∈ ["sin", "cos", "tan", "exp", "log", "sinh", "cosh", "abs", "sqrt"].map String.toList ∧
      e.Ok names
  | .fn2 f a b => f ∈ ["max", "min", "mean"].map String.toList ∧ a.Ok names ∧ b.Ok names ∧
      '(' ∉ a.text ∧ '(' ∉ b.text
  | .pow a b => a.Ok names ∧ b.Ok names ∧ 2 ≤ a.level ∧ 3 ≤ b.level
  | .mul a b => a.Ok names ∧ b.Ok names ∧ 1 ≤ a.level ∧ 2 ≤ b.level
  | .div a b => a.Ok names ∧ b.Ok names ∧ 1 ≤ a.level ∧ 2 ≤ b.level
  | .lt a b => a.Ok names ∧ b.Ok names ∧ 1 ≤ a.level ∧ 2 ≤ b.level
  | .gt a b => a.Ok names ∧ b.Ok names ∧ 1 ≤ a.level ∧ 2 ≤ b.level
  | .add a b => a.Ok names ∧ b.Ok names ∧ 1 ≤ b.level
  | .sub a b => a.Ok names ∧ b.Ok names ∧ 1 ≤ b.level
  | .neg a => a.Ok names ∧ 1 ≤ a.level

/-- Names occurring in an expression. -/
def Ex.names : Ex → List Str
  | .num _ => []
  | .name s => [s]
  | .paren e => e.names
  | .fn _ e => e.names
  | .fn2 _ a b => a.names ++ b.names
  | .pow a b => a.names ++ b.names
  | .mul a b => a.names ++ b.names
  | .div a b => a.names ++ b.names
  | .lt a b => a.names ++ b.names
  | .gt a b => a.names ++ b.names
  | .add a b => a.names ++ b.names
  | .sub a b => a.names ++ b.names
  | .neg a => a.names

/-- Nesting depth of the text: atoms have depth 1; parentheses, a function call, and a
    whole chain of operators of one level each add one.  The components are: depth of
    the expression, and its contribution when it is the left end of a chain of sums, of
    products, of powers. -/
def Ex.depths : Ex → Nat × Nat × Nat × Nat
  | .num _ | .name _ => (1, 1, 1, 1)
  | .paren e => let d := e.depths.1 + 1; (d, d, d, d)
  | .fn _ e => let d := e.depths.1 + 1; (d, d, d, d)
  | .fn2 _ a b => let d := max a.depths.1 b.depths.1 + 1; (d, d, d, d)
  | .pow a b => let m := max a.depths.2.2.2 b.depths.1; (m + 1, m + 1, m + 1, m)
  | .mul a b | .div a b | .lt a b | .gt a b =>
    let m := max a.depths.2.2.1 b.depths.1; (m + 1, m + 1, m, m + 1)
  | .add a b | .sub a b => let m := max a.depths.2.1 b.depths.1; (m + 1, m, m + 1, m + 1)
  | .neg a => let m := max 1 a.depths.1; (m + 1, m, m + 1, m + 1)

/-- Nesting depth of an expression. -/
def Ex.depth (e : Ex) : Nat := e.depths.1

/-! ### Names -/

/-- `s` is the text of component `i` of the vector `q`: `q(d)` or `q(dd)`. -/
def Comp (q : Str) (i : Nat) (s : Str) : Prop :=
  ∃ ds : Str, (ds.length = 1 ∨ ds.length = 2) ∧ (∀ c ∈ ds, c ∈ digits) ∧
    s = q ++ '(' :: ds ++ [')'] ∧ i = ds.foldl (fun n c => 10 * n + (c.toNat - '0'.toNat)) 0

/-- Time derivatives of parameters are written with the suffix `_t`. -/
def dotName (p : Str) : Str := p ++ "_t".toList

/-- All names a user may write at one location (without components of vectors). -/
def Env.all (env : Env) : List Str :=
  env.soln ++ env.scal ++ env.params ++ env.params.map dotName ++ env.funcs ++ ["t".toList, "pi".toList]

/-- The names are admissible, distinct, and none of them looks like a component of a
    parameter vector. -/
structure EnvOk (env : Env) : Prop where
  ok : ∀ s ∈ env.soln ++ env.scal ++ env.params ++ env.funcs, NameOk s
  distinct : env.all.Nodup
  noComp : ∀ q ∈ env.params ++ env.params.map dotName, ∀ s ∈ env.all, ∀ i, ¬ Comp q i s

/-- The data a name other than a function name stands for. -/
inductive Sees {K : Type} (A : Arith K) (w : WksetData K) (env : Env) : Str → View K → Prop
  | soln {j s} : env.soln[j]? = some s → Sees A w env s (w.soln j)
  | scal {j s} : env.scal[j]? = some s → Sees A w env s (w.scal j)
  | param {j p} : env.params[j]? = some p → Sees A w env p (fun _ _ => w.param j 0)
  | paramC {j p i s} : env.params[j]? = some p → Comp p i s → Sees A w env s (fun _ _ => w.param j i)
  | dot {j p} : env.params[j]? = some p → Sees A w env (dotName p) (fun _ _ => w.paramDot j 0)
  | dotC {j p i s} : env.params[j]? = some p → Comp (dotName p) i s →
      Sees A w env s (fun _ _ => w.paramDot j i)
  | time : Sees A w env "t".toList (fun _ _ => w.time)
  | pi : Sees A w env "pi".toList (fun _ _ => A.piVal)

/-- `s` stands for a parameter, its time derivative, or a component of one of these. -/
def IsParamName (env : Env) (s : Str) : Prop :=
  ∃ p ∈ env.params, s = p ∨ s = dotName p ∨ ∃ i, Comp p i s ∨ Comp (dotName p) i s

/-- `s` is a known name. -/
def Known (env : Env) (s : Str) : Prop :=
  s ∈ env.all ∨ IsParamName env s

/-! ### Programs -/

/-- What is assumed of the primitive operations: `std::stod` reads the literals; repeated
    multiplication by a small integer exponent is the power; the square root of zero is
    zero; `t < 0` implies `t ≤ 0`. -/
structure Laws {K : Type} (A : Arith K) (lit : Str → K) : Prop where
  stodLit : ∀ s, NumLit s → A.stod s = some (lit s)
  stodNeg : ∀ s, NumLit s → A.stod ('-' :: s) = some (A.add (lit "0.0".toList) (A.neg (lit s)))
  powInt : ∀ d t n, A.smallInt t = some n → A.pow d t = (fun x => A.mul x d)^[n - 1] d
  sqrtZero : ∀ t, A.lt t A.zero = false → A.le t A.zero = true → A.sqrt t = A.zero
  ltLe : ∀ t, A.lt t A.zero = true → A.le t A.zero = true

/-- The input of the user at one location: fields, parameters, and functions with their
    expressions. -/
structure Program where
  soln : List Str
  scal : List Str
  params : List Str
  defs : List (Str × Ex)

/-- The names of a program. -/
def Program.env (P : Program) : Env := ⟨P.soln, P.scal, P.params, P.defs.map Prod.fst⟩

/-- An admissible program.  `noAlias` excludes references to a function whose whole
    expression is the name of a parameter; see the disagreement list. -/
structure Program.Ok (P : Program) : Prop where
  env : EnvOk P.env
  exprs : ∀ d ∈ P.defs, d.2.Ok (Known P.env)
  depth : ∀ d ∈ P.defs, d.2.depth ≤ 100
  acyclic : ∃ rank : Str → Nat, ∀ d ∈ P.defs, ∀ g ∈ d.2.names, g ∈ P.defs.map Prod.fst → rank g < rank d.1
  noAlias : ∀ d ∈ P.defs, ∀ g ∈ d.2.names, ∀ s, (g, Ex.name s) ∈ P.defs → ¬ IsParamName P.env s

/-- `ρ` gives every name its meaning under the data `w`: fields, parameters, time and pi
    their data, functions the value of their expression. -/
structure Meaning {K : Type} (A : Arith K) (lit : Str → K) (P : Program) (w : WksetData K)
    (ρ : Str → View K) : Prop where
  sees : ∀ s v, Sees A w P.env s v → ρ s = v
  func : ∀ d ∈ P.defs, ρ d.1 = fun i p => d.2.value A lit (fun s => ρ s i p)

end MrHyDE.Expr
