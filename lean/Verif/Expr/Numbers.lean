import Verif.Expr.Props4

/-!
# Which texts are numbers (C03), and which functions can be asked for (C46)
-/

namespace MrHyDE.Expr

variable {K : Type}

/-- Every sign stands at the start or directly behind an `e`; `p` is the character before.
[specification, no code] -/
def SignsOk : Option Char → Str → Prop
  | _, [] => True
  | p, c :: cs => ((c = '+' ∨ c = '-') → p = none ∨ p = some 'e' ∨ p = some 'E') ∧ SignsOk (some c) cs

theorem numFold_iff (s : Str) : ∀ st : NumScan, st.isnum = true → st.dots ≤ 1 → st.es ≤ 1 →
    ((s.foldl numStep st).isnum = true ↔
      (∀ c ∈ s, c ∈ digits ∨ c ∈ ['.', 'e', 'E', '+', '-']) ∧ st.dots + s.count '.' ≤ 1 ∧
      st.es + s.countP (fun c => c = 'e' ∨ c = 'E') ≤ 1 ∧ SignsOk st.prev s) := by
  induction s with
  | nil => intro st h1 h2 h3; simp [h1, h2, h3, SignsOk]
  | cons c cs ih =>
    intro st h1 h2 h3
    have hfalse : ∀ st' : NumScan, st'.isnum = false → ¬ (cs.foldl numStep st').isnum = true := by
      intro st' h
      rw [numFold_false cs st' h]
      simp
    rw [List.foldl_cons]
    by_cases hd : isDigit c = true
    · have hm := mem_of_isDigit c hd
      have hne : c ≠ '.' ∧ c ≠ 'e' ∧ c ≠ 'E' ∧ c ≠ '+' ∧ c ≠ '-' := by
        have : ∀ c ∈ digits, c ≠ '.' ∧ c ≠ 'e' ∧ c ≠ 'E' ∧ c ≠ '+' ∧ c ≠ '-' := by decide
        exact this c hm
      have hs : numStep st c = { st with prev := some c } := by simp [numStep, hd]
      rw [hs, ih { st with prev := some c } h1 h2 h3]
      simp [SignsOk, hm, hne]
    · have hnm : c ∉ digits := fun h => hd (isDigit_of_mem c h)
      by_cases hdot : c = '.'
      · subst hdot
        by_cases h0 : st.dots = 0
        · rw [numStep_dot st h0, ih { st with dots := 1, prev := some '.' } h1 (by simp) h3]
          simp [SignsOk, h0]
        · have hs : (numStep st '.').isnum = false := by simp [numStep, hd, h0]
          refine iff_of_false (hfalse _ hs) ?_
          rintro ⟨-, h, -⟩
          simp [List.count_cons] at h
          omega
      · by_cases he : c = 'e' ∨ c = 'E'
        · have hmem : c ∈ ['e', 'E'] := by simpa using he
          have hpm : c ≠ '+' ∧ c ≠ '-' := by rcases he with rfl | rfl <;> decide
          have hin : c ∈ ['.', 'e', 'E', '+', '-'] := by rcases he with rfl | rfl <;> decide
          by_cases h0 : st.es = 0
          · rw [numStep_e st c hmem h0, ih { st with es := 1, prev := some c } h1 h2 (by simp)]
            simp only [SignsOk, List.count_cons, List.countP_cons, h0, List.mem_cons, hpm, he]
            simp [hdot, he]
            intro _ _ _ _
            rcases he with h | h <;> simp [h]
          · have hs : (numStep st c).isnum = false := by simp [numStep, hd, hdot, he, h0]
            refine iff_of_false (hfalse _ hs) ?_
            rintro ⟨-, -, h, -⟩
            simp [List.countP_cons, he] at h
            omega
        · by_cases hpm : c = '+' ∨ c = '-'
          · have hin : c ∈ ['.', 'e', 'E', '+', '-'] := by rcases hpm with rfl | rfl <;> decide
            rw [not_or] at he
            by_cases hp : st.prev = none ∨ st.prev = some 'e' ∨ st.prev = some 'E'
            · have hs : numStep st c = { st with prev := some c } := by
                rcases hp with hp | hp | hp <;> simp [numStep, hd, hdot, he, hpm, hp]
              rw [hs, ih { st with prev := some c } h1 h2 h3]
              simp only [SignsOk, List.count_cons, List.countP_cons, List.forall_mem_cons]
              simp [hdot, he, hp, hin, hnm]
            · have hs : (numStep st c).isnum = false := by
                cases hq : st.prev with
                | none => exact absurd (Or.inl hq) hp
                | some q =>
                  rw [hq] at hp
                  simp only [reduceCtorEq, Option.some.injEq, false_or] at hp
                  simp [numStep, hd, hdot, he, hpm, hq, hp]
              refine iff_of_false (hfalse _ hs) ?_
              rintro ⟨-, -, -, h⟩
              exact hp (h.1 hpm)
          · rw [not_or] at he hpm
            have hs : (numStep st c).isnum = false := by simp [numStep, hd, hdot, he, hpm]
            refine iff_of_false (hfalse _ hs) ?_
            rintro ⟨h, -⟩
            rcases h c List.mem_cons_self with h | h
            · exact hnm h
            · simp [hdot, he, hpm] at h

/-- C03: exactly these texts are taken as numbers: digits, at most one point, at most one `e` or `E`, and signs only at
the start or directly behind the `e`.  (The empty text, a single point and a single sign are among them.) -/
theorem C03_number_syntax (s : Str) :
    isScalar s = true ↔ (∀ c ∈ s, c ∈ digits ∨ c ∈ ['.', 'e', 'E', '+', '-']) ∧ s.count '.' ≤ 1 ∧
      s.countP (fun c => c = 'e' ∨ c = 'E') ≤ 1 ∧ SignsOk none s := by
  unfold isScalar
  rw [numFold_iff s _ rfl (by simp) (by simp)]
  simp

example : isScalar "-1.5e+10".toList = true ∧ isScalar "1.2.3".toList = false ∧ isScalar "1e2e3".toList = false ∧
    isScalar "1-2".toList = false ∧ isScalar "2x".toList = false := by decide

/-- C46: in every history of calls that ends without error, only functions that were defined have been asked for. -/
theorem C46_only_defined (A : Arith K) (dim1 : Nat) (F : Forest) (names : List Str) (fuel : Nat) :
    ∀ (cs : List (WksetData K × Str)) (s : State K) (vs : List (View K)),
      runCalls A dim1 F names fuel s cs = .ok vs → ∀ q ∈ cs, q.2 ∈ names := by
  intro cs
  induction cs with
  | nil => intro s vs _ q hq; cases hq
  | cons c cs ih =>
    intro s vs h q hq
    obtain ⟨w, f⟩ := c
    cases he : evaluate A w dim1 F names fuel s f with
    | error e => simp [runCalls, he] at h
    | ok r =>
      obtain ⟨s', v⟩ := r
      cases hr : runCalls A dim1 F names fuel s' cs with
      | error e => simp [runCalls, he, hr] at h
      | ok ws =>
        rcases List.mem_cons.mp hq with rfl | hq
        · by_contra hn
          have hx : names.idxOf? f = none := by simpa using hn
          simp [evaluate, hx] at he
        · exact ih s' ws hr q hq

set_option maxRecDepth 100000 in
example : runTexts toy 1 [] ["x".toList] [] [("f".toList, "x".toList)] [(wk [7] 0, "f".toList)] = .ok [7] ∧
    runTexts toy 1 [] ["x".toList] [] [("f".toList, "x".toList)] [(wk [7] 0, "g".toList)] = .error .throws :=
  ⟨rfl, rfl⟩

end MrHyDE.Expr
