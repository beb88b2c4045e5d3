import Verif.Expr.Props
import Mathlib.Algebra.Order.Field.Rat
import Mathlib.Algebra.BigOperators.Group.List.Basic
import Mathlib.Tactic.Linarith
import Mathlib.Tactic.FieldSimp
import Mathlib.Tactic.Ring

/-
Property theorems C02, C03, C04, C08 and C43 to C46: leading minus sign, numbers in
scientific notation, unbalanced parentheses, reductions over the points of an element,
references to functions that name a parameter, comparisons in sums, spaces, unknown
functions.
-/

namespace MrHyDE.Expr

variable {K : Type}

/-! ### C02 -/

/-- A sum: first term and further terms, each with its sign (`true`: plus). -/
def sumOf (first : Ex) : List (Bool × Ex) → Ex
  | R => R.foldl (fun e t => if t.1 then .add e t.2 else .sub e t.2) first

/-- The text of the further terms. -/
def tailText (R : List (Bool × Ex)) : Str :=
  R.flatMap (fun t => (if t.1 then '+' else '-') :: t.2.text)

theorem sumOf_text (first : Ex) (R : List (Bool × Ex)) : (sumOf first R).text = first.text ++ tailText R := by
  induction R generalizing first with
  | nil => simp [sumOf, tailText]
  | cons t R ih =>
    have := ih (if t.1 then .add first t.2 else .sub first t.2)
    simp only [sumOf, List.foldl_cons] at this ⊢
    rw [this]
    cases h : t.1 <;> simp [tailText, h, Ex.text]

theorem sumOf_value (A : Arith K) (lit : Str → K) (ρ : Str → K) (first : Ex) (R : List (Bool × Ex)) :
    (sumOf first R).value A lit ρ =
      R.foldl (fun v t => A.add v (if t.1 then t.2.value A lit ρ else A.neg (t.2.value A lit ρ)))
        (first.value A lit ρ) := by
  induction R generalizing first with
  | nil => rfl
  | cons t R ih =>
    have := ih (if t.1 then .add first t.2 else .sub first t.2)
    simp only [sumOf, List.foldl_cons] at this ⊢
    rw [this]
    cases h : t.1 <;> simp [Ex.value]

/-- C02.  A function whose text is `-T` followed by further signed terms evaluates, at every
    call of every history, to `0.0 - T` to which the further terms are added or
    subtracted one after the other exactly as written. -/
theorem C02_leading_minus {A : Arith K} {lit : Str → K} (hA : Laws A lit) {P : Program} (hP : P.Ok)
    (ρ : WksetData K → Str → View K) (hρ : ∀ w, Meaning A lit P w (ρ w)) (dim1 : Nat)
    {f : Str} {T : Ex} {R : List (Bool × Ex)} (hf : (f, sumOf (.neg T) R) ∈ P.defs) :
    (sumOf (.neg T) R).text = '-' :: T.text ++ tailText R ∧
    ∃ F, setup A P.soln P.scal P.params (P.defs.map (fun d => (d.1, d.2.text))) = .ok F ∧
    ∃ N, ∀ fuel, N ≤ fuel → ∀ (w0 : WksetData K) (s0 : State K),
    ∃ s1, foldConst A w0 dim1 F fuel s0 = some s1 ∧
    ∀ ws : List (WksetData K),
      runCalls A dim1 F (P.defs.map Prod.fst) fuel s1 (ws.map (fun w => (w, f))) =
        .ok (ws.map (fun w i p =>
          R.foldl (fun v t => A.add v (if t.1 then t.2.value A lit (fun s => ρ w s i p)
              else A.neg (t.2.value A lit (fun s => ρ w s i p))))
            (A.add (lit "0.0".toList) (A.neg (T.value A lit (fun s => ρ w s i p)))))) := by
  refine ⟨by rw [sumOf_text]; rfl, ?_⟩
  obtain ⟨F, h1, N, h2⟩ := C01_evaluation hA hP ρ hρ dim1
  refine ⟨F, h1, N, fun fuel hfuel w0 s0 => ?_⟩
  obtain ⟨s1, h3, h4⟩ := h2 fuel hfuel w0 s0
  refine ⟨s1, h3, fun ws => ?_⟩
  rw [h4]
  · congr 1
    rw [List.map_map]
    apply List.map_congr_left
    intro w _
    simp only [Function.comp]
    rw [(hρ w).func _ hf]
    funext i p
    simp only [sumOf_value, Ex.value]
  · intro c hc
    obtain ⟨w, _, rfl⟩ := List.mem_map.mp hc
    exact List.mem_map.mpr ⟨_, hf, rfl⟩

/-- Non-vacuity: function `g` of the program of C01 is `-f+sin((u))`. -/
example : toyProg.Ok ∧ Laws toy toyLit ∧
    ("g".toList, sumOf (.neg (.name "f".toList)) [(true, .fn "sin".toList (.paren (.name "u".toList)))]) ∈ toyProg.defs :=
  ⟨toyProg_ok, toy_laws, by decide⟩

/-! ### Running texts -/

/-- Set up the functions given by their texts, fold constants from a zero state and run a
    history of evaluations with `dim1` points per element; values at element 0, point 0. -/
def runTexts (A : Arith Int) (dim1 : Nat) (soln scal params : List Str) (defs : List (Str × Str))
    (calls : List (WksetData Int × Str)) : Except Err (List Int) :=
  match setup A soln scal params defs with
  | .error e => .error e
  | .ok F =>
    match foldConst A ⟨fun _ _ _ => 0, fun _ _ _ => 0, fun _ _ => 0, fun _ _ => 0, 0⟩ dim1 F 20
        ⟨fun _ _ => ⟨0, fun _ _ => 0⟩, fun _ _ _ => 0⟩ with
    | none => .error .ub
    | some s =>
      match runCalls A dim1 F (defs.map Prod.fst) 20 s calls with
      | .error e => .error e
      | .ok vs => .ok (vs.map (fun v => v 0 0))

/-- A workset: the field `x` has the given values at the points of every element, the
    parameter has the value `m`. -/
def wk (xs : List Int) (m : Int) : WksetData Int :=
  ⟨fun _ _ _ => 1, fun _ _ p => xs.getD p 0, fun _ _ => m, fun _ _ => 0, 0⟩

/-! ### C03 -/

theorem splitStep_acc (L : Level) (st : SplitSt) (c : Char) (nx : Option Char) :
    ∃ r, (splitStep L st c nx).acc = st.acc ++ r := by
  unfold splitStep
  repeat' split
  all_goals first
    | exact ⟨_, rfl⟩
    | exact ⟨[], (List.append_nil _).symm⟩

theorem splitRun_acc (L : Level) (s : Str) (st : SplitSt) : ∃ r, (splitRun L st s).acc = st.acc ++ r := by
  induction s generalizing st with
  | nil => exact ⟨[], by simp [splitRun]⟩
  | cons c cs ih =>
    obtain ⟨r1, h1⟩ := splitStep_acc L st c cs.head?
    obtain ⟨r2, h2⟩ := ih (splitStep L st c cs.head?)
    exact ⟨r1 ++ r2, by rw [splitRun, h2, h1, List.append_assoc]⟩

theorem splitRun_plain (s rest : Str) (h : ∀ c ∈ s, c ∉ ['+', '-', ' ', '=', '(', ')']) (cur : Str) :
    splitRun levelPm ⟨0, cur, [], [], false⟩ (s ++ rest) = splitRun levelPm ⟨0, cur ++ s, [], [], false⟩ rest := by
  induction s generalizing cur with
  | nil => simp
  | cons c cs ih =>
    have hc := h c (by simp)
    simp only [List.mem_cons, List.not_mem_nil, or_false, not_or] at hc
    obtain ⟨h1, h2, h3, h4, h5, h6⟩ := hc
    rw [List.cons_append, splitRun]
    have : splitStep levelPm ⟨0, cur, [], [], false⟩ c (cs ++ rest).head? = ⟨0, cur ++ [c], [], [], false⟩ := by
      unfold splitStep
      by_cases hcur : cur = [] <;> simp [levelPm, h1, h2, h3, h4, h5, h6, hcur]
    rw [this, ih (fun x hx => h x (by simp [hx])), List.append_assoc, List.singleton_append]

theorem countTop_digits (s rest : Str) (h : ∀ c ∈ s, c ∉ ['+', '-', ' ', '=', '(', ')']) :
    countTop isPm 0 (s ++ rest) = countTop isPm 0 rest := by
  induction s with
  | nil => rfl
  | cons c cs ih =>
    have hc := h c (by simp)
    simp only [List.mem_cons, List.not_mem_nil, or_false, not_or] at hc
    obtain ⟨h1, h2, _, _, h5, h6⟩ := hc
    rw [List.cons_append, countTop]
    simp only [h5, h6, if_false, isPm, h1, h2]
    simpa using ih (fun x hx => h x (by simp [hx]))

/-- C03 fails: whatever digits stand before and whatever text stands behind it, splitting an
    expression that begins with a number with signed exponent always cuts the number at the
    sign of its exponent (unless splitting throws). -/
theorem C03_signed_exponent_is_cut (a rest : Str) (e sg : Char) (ha : a ≠ []) (hd : ∀ c ∈ a, c ∈ digits)
    (he : e = 'e' ∨ e = 'E') (hs : sg = '+' ∨ sg = '-') (cs : List (Op × Str))
    (h : split (a ++ e :: sg :: rest) = .ok cs) : cs.head? = some ([], a ++ [e]) := by
  have hpl : ∀ c ∈ a ++ [e], c ∉ ['+', '-', ' ', '=', '(', ')'] := by
    intro c hc
    rcases List.mem_append.mp hc with hc | hc
    · have := hd c hc
      revert this
      simp only [digits, List.mem_cons, List.not_mem_nil, or_false]
      rintro (rfl | rfl | rfl | rfl | rfl | rfl | rfl | rfl | rfl | rfl) <;> decide
    · simp only [List.mem_singleton] at hc
      subst hc
      rcases he with rfl | rfl <;> decide
  have hfix : fixMinus (a ++ e :: sg :: rest) = (a ++ [e]) ++ sg :: rest := by
    cases a with
    | nil => exact absurd rfl ha
    | cons x xs =>
      have hx := hpl x (by simp)
      have : x ≠ '-' := by intro hh; subst hh; simp at hx
      simp [fixMinus, this]
  have hlen : 2 ≤ ((a ++ [e]) ++ sg :: rest).length := by
    simp only [List.length_append, List.length_cons]; omega
  have hct : countTop isPm 0 ((a ++ [e]) ++ sg :: rest) > 0 := by
    rw [countTop_digits _ _ hpl]
    rcases hs with rfl | rfl <;> simp [countTop, isPm]
  unfold split at h
  rw [hfix] at h
  rw [if_neg (by omega), if_neg (by omega), if_pos hct] at h
  unfold splitAt at h
  rw [splitRun_plain _ _ hpl] at h
  have hstep : splitRun levelPm ⟨0, [] ++ (a ++ [e]), [], [], false⟩ (sg :: rest) =
      splitRun levelPm ⟨0, [], (if sg = '+' then "plus" else "minus").toList, [([], a ++ [e])], false⟩ rest := by
    rw [splitRun]
    congr 1
    rcases hs with rfl | rfl <;> simp [splitStep, levelPm]
  rw [hstep] at h
  obtain ⟨r, hr⟩ := splitRun_acc levelPm rest
    ⟨0, [], (if sg = '+' then "plus" else "minus").toList, [([], a ++ [e])], false⟩
  generalize splitRun levelPm ⟨0, [], (if sg = '+' then "plus" else "minus").toList, [([], a ++ [e])], false⟩ rest
    = st at h hr
  by_cases hp : st.paren = 0
  · simp only [hp, if_true, Except.ok.injEq] at h
    subst h
    unfold splitFinish
    split <;> simp [hr]
  · simp [hp] at h

/-- `std::stod` on integer literals with exponent: `a`, `ae+c`, `ae`: the longest prefix that
    is a number is read (`1e` reads as `1`). -/
def intStod (s : Str) : Option Int :=
  let a := s.takeWhile (fun c => c.isDigit)
  let c := (s.drop (a.length + 1)).dropWhile (fun c => c = '+')
  some (toyLit a * 10 ^ (toyLit c).toNat)

/-- Integer arithmetic that reads exponents. -/
def toyExp : Arith Int := { toy with stod := intStod }

set_option maxRecDepth 100000 in
/-- C03 fails, observable effect: the function `1e+2` has the value 100, but `1e+2*x` has at
    `x = 1` the value 3 instead of 100. -/
theorem C03_violated :
    runTexts toyExp 1 [] ["x".toList] [] [("c".toList, "1e+2".toList), ("f".toList, "1e+2*x".toList)]
      [(wk [1] 0, "c".toList), (wk [1] 0, "f".toList)] = .ok [100, 3] := by rfl

/-- Replace a literal by a name everywhere. -/
def Ex.nameNum (s f : Str) : Ex → Ex
  | .num t => if t = s then .name f else .num t
  | .name t => .name t
  | .paren e => .paren (e.nameNum s f)
  | .fn g e => .fn g (e.nameNum s f)
  | .fn2 g a b => .fn2 g (a.nameNum s f) (b.nameNum s f)
  | .pow a b => .pow (a.nameNum s f) (b.nameNum s f)
  | .mul a b => .mul (a.nameNum s f) (b.nameNum s f)
  | .div a b => .div (a.nameNum s f) (b.nameNum s f)
  | .lt a b => .lt (a.nameNum s f) (b.nameNum s f)
  | .gt a b => .gt (a.nameNum s f) (b.nameNum s f)
  | .add a b => .add (a.nameNum s f) (b.nameNum s f)
  | .sub a b => .sub (a.nameNum s f) (b.nameNum s f)
  | .neg a => .neg (a.nameNum s f)

theorem nameNum_value (A : Arith K) (lit : Str → K) (ρ : Str → K) (s f : Str) (h : ρ f = lit s) (e : Ex) :
    (e.nameNum s f).value A lit ρ = e.value A lit ρ := by
  induction e with
  | num t =>
    by_cases ht : t = s
    · subst ht; simp [Ex.nameNum, Ex.value, h]
    · simp [Ex.nameNum, Ex.value, ht]
  | name t => rfl
  | paren e ih => simpa [Ex.nameNum, Ex.value] using ih
  | fn g e ih => simp only [Ex.nameNum, Ex.value, ih]
  | neg e ih => simp only [Ex.nameNum, Ex.value, ih]
  | fn2 g a b iha ihb => simp only [Ex.nameNum, Ex.value, iha, ihb]
  | pow a b iha ihb => simp only [Ex.nameNum, Ex.value, iha, ihb]
  | mul a b iha ihb => simp only [Ex.nameNum, Ex.value, iha, ihb]
  | div a b iha ihb => simp only [Ex.nameNum, Ex.value, iha, ihb]
  | lt a b iha ihb => simp only [Ex.nameNum, Ex.value, iha, ihb]
  | gt a b iha ihb => simp only [Ex.nameNum, Ex.value, iha, ihb]
  | add a b iha ihb => simp only [Ex.nameNum, Ex.value, iha, ihb]
  | sub a b iha ihb => simp only [Ex.nameNum, Ex.value, iha, ihb]

/-- C03, the part that holds: a number *without sign in its exponent* (`NumLit`) has inside
    every larger expression the value it has when it stands alone: naming the number as a
    function of its own and using the name instead never changes a result.  Missing: signed
    exponents, for which the property fails (`C03_violated`). -/
theorem C03_unsigned_exponent_partial {A : Arith K} {lit : Str → K} (hA : Laws A lit) {P : Program} (hP : P.Ok)
    (dim1 : Nat) {f g g' s : Str} {e : Ex} (hs : NumLit s) (hf : (f, .num s) ∈ P.defs) (hg : (g, e) ∈ P.defs)
    (hg' : (g', e.nameNum s f) ∈ P.defs) :
    ∃ F, setup A P.soln P.scal P.params (P.defs.map (fun d => (d.1, d.2.text))) = .ok F ∧
    ∃ N, ∀ fuel, N ≤ fuel → ∀ (w0 : WksetData K) (s0 : State K),
    ∃ s1, foldConst A w0 dim1 F fuel s0 = some s1 ∧
    ∀ w : WksetData K, ∃ (c v : View K), A.stod s = some (c 0 0) ∧ (∀ i p, c i p = c 0 0) ∧
      runCalls A dim1 F (P.defs.map Prod.fst) fuel s1 [(w, f), (w, g), (w, g')] = .ok [c, v, v] := by
  obtain ⟨ρ, hρ⟩ := meaning_exists A lit hP
  obtain ⟨F, h1, N, h2⟩ := C01_evaluation hA hP ρ hρ dim1
  refine ⟨F, h1, N, fun fuel hfuel w0 s0 => ?_⟩
  obtain ⟨s1, h3, h4⟩ := h2 fuel hfuel w0 s0
  refine ⟨s1, h3, fun w => ⟨ρ w f, ρ w g, ?_, ?_, ?_⟩⟩
  · rw [(hρ w).func _ hf, hA.stodLit s hs]; rfl
  · intro i p; rw [(hρ w).func _ hf]; rfl
  · rw [h4]
    · have : ρ w g' = ρ w g := by
        rw [(hρ w).func _ hg, (hρ w).func _ hg']
        funext i p
        exact nameNum_value A lit _ s f (by rw [(hρ w).func _ hf]; rfl) e
      simp [this]
    · intro c hc
      simp only [List.mem_cons, List.not_mem_nil, or_false] at hc
      rcases hc with rfl | rfl | rfl
      · exact List.mem_map.mpr ⟨_, hf, rfl⟩
      · exact List.mem_map.mpr ⟨_, hg, rfl⟩
      · exact List.mem_map.mpr ⟨_, hg', rfl⟩

/-- `c = 2e3`, `f = 2e3*x`, `g = c*x`. -/
def expProg : Program where
  soln := []
  scal := ["x".toList]
  params := []
  defs := [("c".toList, .num "2e3".toList), ("f".toList, .mul (.num "2e3".toList) (.name "x".toList)),
    ("g".toList, .mul (.name "c".toList) (.name "x".toList))]

/-- Non-vacuity of the partial theorem. -/
example : expProg.Ok ∧ NumLit "2e3".toList ∧
    ("g".toList, (Ex.mul (.num "2e3".toList) (.name "x".toList)).nameNum "2e3".toList "c".toList) ∈ expProg.defs := by
  have hn : NumLit "2e3".toList := ⟨['2'], [], ['3'], by decide, by decide, by decide, by decide,
    Or.inr (Or.inr ⟨'e', by decide, by decide, Or.inl (by decide)⟩)⟩
  have k : ∀ s, s ∈ expProg.env.all → Known expProg.env s := fun s h => Or.inl h
  refine ⟨⟨simple_env (by decide) (by decide), ?_, by decide,
    ⟨fun s => if s = "g".toList then 1 else 0, by decide⟩, ?_⟩, hn, by decide⟩
  · intro d hd
    simp only [expProg, List.mem_cons, List.not_mem_nil, or_false] at hd
    rcases hd with rfl | rfl | rfl
    · exact hn
    · exact ⟨hn, k _ (by decide), by decide, by decide⟩
    · exact ⟨k _ (by decide), k _ (by decide), by decide, by decide⟩
  · intro d hd g hg s hs
    simp only [expProg, List.mem_cons, Prod.mk.injEq, reduceCtorEq, and_false, List.not_mem_nil, or_false] at hs

end MrHyDE.Expr
