import Verif.Workset.Model

/-!
# C41 at points: solution fields requested on points

The third branch of `getSolutionField`.  The field is looked for in the list of point fields, but the evaluation is
the one of the volume field with the same number, and that evaluation does nothing while the workset is on points.
-/

set_option linter.unusedSectionVars false

namespace MrHyDE.Workset

variable {K : Type}

/-- `evaluateSolutionField` called while the workset is on points, src/tools/workset.cpp:979-1110: the field of the
volume list is treated as in the volume if the flag `proceed` allows it. -/
def evalOnPoint [Mul K] [Add K] [Zero K] (env : Env K) (f : Field K) : Option (Field K) :=
  if proceed env .point f.st then evalVol env f else some f

/-- Position of the first field with a label, src/tools/workset.cpp:1572-1581. -/
def findLabel (label : Str) : List (Field K) → Option Nat
  | [] => none
  | f :: fs => if label = f.st.label then some 0 else (findLabel label fs).map (· + 1)

/-- The point branch of `getSolutionField`, src/tools/workset.cpp:1571-1596: the lists `soln_fields` and
`point_soln_fields` after the call and the array returned.  `none`: reading past the end of a list (a label not found
is reported, and then the array one past the end is read, 1595). -/
def getPoint [Mul K] [Add K] [Zero K] (env : Env K) (vol pts : List (Field K)) (label : Str) (evaluate mark : Bool) :
    Option (List (Field K) × List (Field K) × (Nat → Nat → K)) :=
  match findLabel label pts with
  | none => none
  | some i =>
    match pts[i]? with
    | none => none
    | some f =>
      if evaluate && !f.updated then
        match vol[i]? with
        | none => none
        | some g => (evalOnPoint env g).map (fun g' => (vol.set i g', pts, f.data))
      else if mark then some (vol, pts.set i { f with updated := true }, f.data)
      else some (vol, pts, f.data)

/-- Requests with the default flags one after another with changing coefficients, src/tools/workset.cpp:1538-1622. -/
def askPoints [Mul K] [Add K] [Zero K] (label : Str) : List (Env K) → List (Field K) → List (Field K) →
    Option (List (Nat → Nat → K))
  | [], _, _ => some []
  | env :: envs, vol, pts =>
    match getPoint env vol pts label true false with
    | none => none
    | some (vol', pts', d) => (askPoints label envs vol' pts').map (d :: ·)

theorem findLabel_spec (label : Str) : ∀ fs : List (Field K), ∀ i : Nat, findLabel label fs = some i →
    ∃ f, fs[i]? = some f ∧ f.st.label = label
  | [], i, h => by simp [findLabel] at h
  | f :: fs, i, h => by
    unfold findLabel at h
    by_cases hl : label = f.st.label
    · rw [if_pos hl] at h
      cases h
      exact ⟨f, rfl, hl.symm⟩
    · rw [if_neg hl] at h
      cases hf : findLabel label fs with
      | none => rw [hf] at h; cases h
      | some j =>
        rw [hf] at h
        cases h
        obtain ⟨g, hg, he⟩ := findLabel_spec label fs j hf
        exact ⟨g, by simpa using hg, he⟩

/-- **C41, violated at points.**  A request on points never evaluates: for all coefficients, bases and flags the lists
of fields are unchanged and the array returned is the one stored, whether or not the coefficients have changed since
it was written. -/
theorem C41_points_violated [Mul K] [Add K] [Zero K] (env : Env K) (vol pts : List (Field K)) (label : Str)
    (vol' pts' : List (Field K)) (d : Nat → Nat → K) (h : getPoint env vol pts label true false = some (vol', pts', d)) :
    vol' = vol ∧ pts' = pts ∧ ∃ f ∈ pts, f.st.label = label ∧ d = f.data := by
  unfold getPoint at h
  cases hl : findLabel label pts with
  | none => rw [hl] at h; cases h
  | some i =>
    rw [hl] at h
    obtain ⟨f, hf, he⟩ := findLabel_spec label pts i hl
    simp only [hf] at h
    have hmem := List.mem_of_getElem? hf
    by_cases hu : f.updated = true
    · simp [hu] at h
      exact ⟨h.1.symm, h.2.1.symm, f, hmem, he, h.2.2.symm⟩
    · simp only [Bool.not_eq_true] at hu
      simp only [hu, Bool.not_false, Bool.and_true, if_true] at h
      cases hg : vol[i]? with
      | none => rw [hg] at h; cases h
      | some g =>
        rw [hg] at h
        have hp : evalOnPoint env g = some g := by
          unfold evalOnPoint
          rw [if_neg (by simp [proceed])]
        simp only [hp, Option.map_some, Option.some.injEq, Prod.mk.injEq] at h
        obtain ⟨h1, h2, h3⟩ := h
        refine ⟨?_, h2.symm, f, hmem, he, h3.symm⟩
        rw [← h1]
        obtain ⟨hb, hv⟩ := List.getElem?_eq_some_iff.mp hg
        subst hv
        simp

/-- C41 at points, the part that holds: a caller that asks for the array to fill it (without evaluation, marking it as up to date)
gets the array of the label; the other fields stay; and a later request for the label returns that array and
leaves both lists as they are, whatever the volume list. -/
theorem C41_points_partial [Mul K] [Add K] [Zero K] (env env' : Env K) (vol vol2 pts : List (Field K)) (label : Str)
    (vol' pts' : List (Field K)) (d : Nat → Nat → K) (h : getPoint env vol pts label false true = some (vol', pts', d)) :
    vol' = vol ∧ pts'.length = pts.length ∧
    (∀ (j : Nat) (f g : Field K), pts[j]? = some f → pts'[j]? = some g → f.st = g.st ∧ f.data = g.data ∧
      (f.st.label ≠ label → f.updated = g.updated)) ∧
    getPoint env' vol2 pts' label true false = some (vol2, pts', d) := by
  unfold getPoint at h
  cases hl : findLabel label pts with
  | none => rw [hl] at h; cases h
  | some i =>
    rw [hl] at h
    obtain ⟨f, hf, he⟩ := findLabel_spec label pts i hl
    simp only [hf, Bool.false_and, Bool.false_eq_true, if_false, if_true, Option.some.injEq, Prod.mk.injEq] at h
    obtain ⟨h1, h2, h3⟩ := h
    have hi : i < pts.length := (List.getElem?_eq_some_iff.mp hf).1
    subst h1 h2 h3
    refine ⟨rfl, by simp, ?_, ?_⟩
    · intro j f' g hf' hg
      by_cases hj : i = j
      · subst hj
        rw [hf] at hf'
        rw [List.getElem?_set_self hi] at hg
        cases hf'
        cases hg
        exact ⟨rfl, rfl, fun hn => absurd he hn⟩
      · rw [List.getElem?_set_ne hj, hf'] at hg
        cases hg
        exact ⟨rfl, rfl, fun _ => rfl⟩
    · have hl' : findLabel label (pts.set i { f with updated := true }) = some i := by
        clear hi
        induction pts generalizing i with
        | nil => simp at hf
        | cons p ps ih =>
          unfold findLabel at hl
          by_cases hp : label = p.st.label
          · rw [if_pos hp] at hl
            cases hl
            simp at hf
            subst hf
            simp [findLabel, hp]
          · rw [if_neg hp] at hl
            cases hq : findLabel label ps with
            | none => rw [hq] at hl; cases hl
            | some k =>
              rw [hq] at hl
              cases hl
              have := ih k hq (by simpa using hf)
              simp [findLabel, hp, this]
      unfold getPoint
      rw [hl']
      simp only [List.getElem?_set_self hi]
      simp

/-- **C41, violated at points, over time.**  In any sequence of changes of the coefficients all the arrays returned at
points are the same. -/
theorem C41_points_constant_violated [Mul K] [Add K] [Zero K] (label : Str) (vol pts : List (Field K)) :
    ∀ (envs : List (Env K)) (ds : List (Nat → Nat → K)), askPoints label envs vol pts = some ds →
      ds.length = envs.length ∧ ∀ (i j : Nat) (a b : Nat → Nat → K), ds[i]? = some a → ds[j]? = some b → a = b := by
  have same : ∀ (env env' : Env K) (r r' : List (Field K) × List (Field K) × (Nat → Nat → K)),
      getPoint env vol pts label true false = some r → getPoint env' vol pts label true false = some r' →
      r.2.2 = r'.2.2 := by
    intro env env' r r' h h'
    unfold getPoint at h h'
    cases hl : findLabel label pts with
    | none => rw [hl] at h; cases h
    | some i =>
      rw [hl] at h h'
      obtain ⟨f, hf, -⟩ := findLabel_spec label pts i hl
      simp only [hf] at h h'
      have out : ∀ (e : Env K) (q : List (Field K) × List (Field K) × (Nat → Nat → K)),
          (if (true && !f.updated) = true then
            match vol[i]? with
            | none => none
            | some g => (evalOnPoint e g).map (fun g' => (vol.set i g', pts, f.data))
          else if false = true then some (vol, pts.set i { f with updated := true }, f.data)
          else some (vol, pts, f.data)) = some q → q.2.2 = f.data := by
        intro e q hq
        by_cases hu : (true && !f.updated) = true
        · rw [if_pos hu] at hq
          cases hv : vol[i]? with
          | none => rw [hv] at hq; cases hq
          | some g =>
            rw [hv] at hq
            cases he : evalOnPoint e g with
            | none => simp [he] at hq
            | some g' => simp only [he, Option.map_some, Option.some.injEq] at hq; rw [← hq]
        · rw [if_neg hu, if_neg (by simp)] at hq
          simp only [Option.some.injEq] at hq
          rw [← hq]
      rw [out env r h, out env' r' h']
  have all : ∀ (envs : List (Env K)) (ds : List (Nat → Nat → K)), askPoints label envs vol pts = some ds →
      ds.length = envs.length ∧ ∀ d ∈ ds, ∃ (env : Env K) (r : List (Field K) × List (Field K) × (Nat → Nat → K)),
        getPoint env vol pts label true false = some r ∧ d = r.2.2 := by
    intro envs
    induction envs with
    | nil => intro ds h; simp [askPoints] at h; subst h; simp
    | cons env envs ih =>
      intro ds h
      unfold askPoints at h
      cases hg : getPoint env vol pts label true false with
      | none => rw [hg] at h; cases h
      | some r =>
        obtain ⟨v', p', d⟩ := r
        rw [hg] at h
        simp only at h
        obtain ⟨e1, e2, -⟩ := C41_points_violated env vol pts label v' p' d hg
        subst e1 e2
        cases ha : askPoints label envs v' p' with
        | none => rw [ha] at h; cases h
        | some ds' =>
          rw [ha] at h
          cases h
          obtain ⟨l, m⟩ := ih ds' ha
          refine ⟨by simp [l], ?_⟩
          intro x hx
          rcases List.mem_cons.mp hx with rfl | hx
          · exact ⟨env, _, hg, rfl⟩
          · exact m x hx
  intro envs ds h
  obtain ⟨l, m⟩ := all envs ds h
  refine ⟨l, ?_⟩
  intro i j a b ha hb
  obtain ⟨e, r, hr, rfl⟩ := m a (List.mem_of_getElem? ha)
  obtain ⟨e', r', hr', rfl⟩ := m b (List.mem_of_getElem? hb)
  exact same e e' r r' hr hr'

end MrHyDE.Workset
