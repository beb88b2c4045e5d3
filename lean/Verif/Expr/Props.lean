import Verif.Expr.Meaning

/-
Property theorem C01 (and C02): evaluation of user expressions.
-/

namespace MrHyDE.Expr

variable {K : Type}

/-- C01.  For every admissible program (any number of functions, of any shape, up to nesting
    depth 100, referring to each other without cycles): set-up succeeds, and after it every
    history of evaluations, with the workset holding arbitrary data at each call, returns
    at every call the mathematical value of the function under the data of that call.
    `fuel` only bounds the recursion depth of the Lean function. -/
theorem C01_evaluation {A : Arith K} {lit : Str → K} (hA : Laws A lit) {P : Program} (hP : P.Ok)
    (ρ : WksetData K → Str → View K) (hρ : ∀ w, Meaning A lit P w (ρ w)) (dim1 : Nat) :
    ∃ F, setup A P.soln P.scal P.params (P.defs.map (fun d => (d.1, d.2.text))) = .ok F ∧
    ∃ N, ∀ fuel, N ≤ fuel → ∀ (w0 : WksetData K) (s0 : State K),
    ∃ s1, foldConst A w0 dim1 F fuel s0 = some s1 ∧
    ∀ calls : List (WksetData K × Str), (∀ c ∈ calls, c.2 ∈ P.defs.map Prod.fst) →
      runCalls A dim1 F (P.defs.map Prod.fst) fuel s1 calls = .ok (calls.map (fun c => ρ c.1 c.2)) := by
  obtain ⟨F, Ls, rank, h1, h2⟩ := setup_spec hA hP
  obtain ⟨B, N, hB, hN⟩ := h2.bounds
  refine ⟨F, h1, N, fun fuel hf w0 s0 => ?_⟩
  have hfuel : ∀ t b, (F.at t b).isSome = true → msr rank B t b < fuel :=
    fun t b hb => Nat.lt_of_lt_of_le (hN t b hb) hf
  obtain ⟨s1, h3, h4⟩ := foldConst_loop hA hρ h2 w0 dim1 B fuel hB hfuel F.length 0 s0 (by omega)
    (by intro t ht; omega)
  refine ⟨s1, ?_, fun calls hc => runCalls_spec hA hρ h2 w0 dim1 B fuel hB hfuel calls s1 h4 hc⟩
  unfold foldConst
  rw [List.range_eq_range']
  exact h3

/-! ### Non-vacuity -/

/-- Toy arithmetic on the integers: literals are read digit by digit; the transcendental
    functions are replaced by other functions. -/
def toyLit (s : Str) : Int := s.foldl (fun n c => if c = '.' then n else 10 * n + ((c.toNat : Int) - 48)) 0

/-- Toy arithmetic on the integers. -/
def toy : Arith Int where
  zero := 0
  one := 1
  half := 1
  piVal := 3
  add := (· + ·)
  mul := (· * ·)
  div := (· / ·)
  neg := (- ·)
  pow := fun a b => a ^ b.toNat
  lt := fun a b => a < b
  le := fun a b => a ≤ b
  sin := fun a => a + 100
  cos := fun a => a + 200
  tan := fun a => a + 300
  exp := fun a => a + 400
  log := fun a => a + 500
  sqrt := fun a => a
  sinh := fun a => a + 600
  cosh := fun a => a + 700
  stod := fun s => some (match s with | '-' :: s => 0 + -(toyLit s) | s => toyLit s)
  smallInt := fun a => if 2 ≤ a ∧ a ≤ 4 then some a.toNat else none
  ofNat := fun n => n

theorem toy_laws : Laws toy toyLit where
  stodLit := by
    rintro s ⟨a, b, c, ha, hd, _, _, h⟩
    have : s.head? ≠ some '-' := by
      cases a with
      | nil => simp at ha
      | cons x xs =>
        have hx := hd x (by simp)
        have hh : s.head? = some x := by rcases h with rfl | rfl | ⟨e, _, _, rfl | rfl⟩ <;> simp
        rw [hh]; simp only [ne_eq, Option.some.injEq]
        rintro rfl
        revert hx; decide
    cases s with
    | nil => rfl
    | cons x xs =>
      simp only [List.head?_cons, ne_eq, Option.some.injEq] at this
      show some (match x :: xs with | '-' :: s => 0 + -(toyLit s) | s => toyLit s) = _
      split
      · rename_i s heq; simp only [List.cons.injEq] at heq; exact absurd heq.1 this
      · rfl
  stodNeg := by intro s _; rfl
  powInt := by
    intro d t n h
    simp only [toy] at h ⊢
    split at h
    · rename_i ht
      simp only [Option.some.injEq] at h
      subst h
      obtain ⟨h1, h2⟩ := ht
      have : t = 2 ∨ t = 3 ∨ t = 4 := by omega
      rcases this with rfl | rfl | rfl
      · show d ^ 2 = d * d; simp [Int.pow_succ]
      · show d ^ 3 = d * d * d; simp [Int.pow_succ]
      · show d ^ 4 = d * d * d * d; simp [Int.pow_succ]
    · simp at h
  sqrtZero := by
    intro t h1 h2
    simp only [toy, decide_eq_false_iff_not, decide_eq_true_eq] at h1 h2 ⊢
    omega
  ltLe := by
    intro t h
    simp only [toy, decide_eq_true_eq] at h ⊢
    omega

/-- `f = 2*x^2-mu`, `g = -f+sin((u))`, `c = max(4,1.5)`. -/
def toyProg : Program where
  soln := ["u".toList]
  scal := ["x".toList]
  params := ["mu".toList]
  defs := [("f".toList, .sub (.mul (.num "2".toList) (.pow (.name "x".toList) (.num "2".toList))) (.name "mu".toList)),
    ("g".toList, .add (.neg (.name "f".toList)) (.fn "sin".toList (.paren (.name "u".toList)))),
    ("c".toList, .fn2 "max".toList (.num "4".toList) (.num "1.5".toList))]

theorem toy_num (a b : Str) (ha : a ≠ []) (h1 : ∀ x ∈ a, x ∈ digits) (h2 : ∀ x ∈ b, x ∈ digits) :
    NumLit a ∧ NumLit (a ++ '.' :: b) :=
  ⟨⟨a, b, [], ha, h1, h2, by simp, Or.inl rfl⟩, ⟨a, b, [], ha, h1, h2, by simp, Or.inr (Or.inl rfl)⟩⟩

theorem toyProg_ok : toyProg.Ok where
  env := simple_env (by decide) (by decide)
  exprs := by
    intro d hd
    have k : ∀ s, s ∈ toyProg.env.all → Known toyProg.env s := fun s h => Or.inl h
    simp only [toyProg, List.mem_cons, List.not_mem_nil, or_false] at hd
    have n2 := (toy_num "2".toList [] (by decide) (by decide) (by decide)).1
    have n4 := (toy_num "4".toList [] (by decide) (by decide) (by decide)).1
    have n15 := (toy_num "1".toList "5".toList (by decide) (by decide) (by decide)).2
    rcases hd with rfl | rfl | rfl
    · exact ⟨⟨n2, ⟨k _ (by decide), n2, by decide, by decide⟩, by decide, by decide⟩, k _ (by decide), by decide⟩
    · exact ⟨⟨k _ (by decide), by decide⟩, ⟨by decide, k _ (by decide)⟩, by decide⟩
    · exact ⟨by decide, n4, n15, by decide, by decide⟩
  depth := by decide
  acyclic := ⟨fun s => if s = "g".toList then 1 else 0, by decide⟩
  noAlias := by
    intro d hd g hg s hs
    simp only [toyProg, List.mem_cons, Prod.mk.injEq, reduceCtorEq, and_false, List.not_mem_nil, or_false] at hs

/-- Non-vacuity of C01: a program with three functions, references, a parameter, a power, a
    function call, a leading minus sign and a constant function meets the hypotheses; and
    the concrete value of `g` where `x = 5`, `mu = 7`, `u = 1` is `-(50-7) + (1+100)`. -/
example : toyProg.Ok ∧ Laws toy toyLit ∧ (∃ ρ : WksetData Int → Str → View Int, ∀ w, Meaning toy toyLit toyProg w (ρ w)) ∧
    ∀ ρ (w : WksetData Int), Meaning toy toyLit toyProg w ρ → w.scal 0 = (fun _ _ => 5) → w.param 0 0 = 7 →
      w.soln 0 = (fun _ _ => 1) → ρ "g".toList 0 0 = 58 := by
  refine ⟨toyProg_ok, toy_laws, meaning_exists toy toyLit toyProg_ok, ?_⟩
  intro ρ w h hx hm hu
  have sx := h.sees _ _ (Sees.scal (show toyProg.env.scal[0]? = some "x".toList from rfl))
  have sm := h.sees _ _ (Sees.param (show toyProg.env.params[0]? = some "mu".toList from rfl))
  have su := h.sees _ _ (Sees.soln (show toyProg.env.soln[0]? = some "u".toList from rfl))
  have sf := h.func _ (show ("f".toList, _) ∈ toyProg.defs from List.mem_cons_self)
  have sg := h.func _ (show ("g".toList, _) ∈ toyProg.defs from List.mem_cons_of_mem _ List.mem_cons_self)
  simp only at sf sg
  rw [sg]
  simp only [Ex.value, sf, sx, sm, su, hx, hm, hu]
  rfl

end MrHyDE.Expr
