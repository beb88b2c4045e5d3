import Verif.Modules.Weak

/-!
# Several loop nests in sequence

A module with several equations runs one or more loop nests for each of them.  The entry of basis function `d` of
equation `e` grows by the sum of the terms of the nests that address equation `e`.
-/

set_option linter.unusedSectionVars false

namespace MrHyDE.Modules

variable {K P : Type}

/-- One loop nest: the equation whose offsets are used, the number of basis functions the loop runs over, the order
of the two loops and the terms that are added, src/physics/navierstokes.cpp:104-130. -/
structure Loop (K P : Type) where
  eq : Nat
  ndof : Nat
  dofFirst : Bool := false
  adds : P → Nat → List K

/-- One nest, src/physics/navierstokes.cpp:115-130. -/
def Loop.run [Add K] (off : Nat → Nat → Nat) (pts : List P) (l : Loop K P) (res : Nat → K) : Nat → K :=
  if l.dofFirst then dofLoop l.ndof pts (off l.eq) l.adds res else ptLoop l.ndof pts (off l.eq) l.adds res

/-- The nests one after the other, src/physics/navierstokes.cpp:104-250. -/
def runLoops [Add K] (off : Nat → Nat → Nat) (pts : List P) (ls : List (Loop K P)) (res : Nat → K) : Nat → K :=
  ls.foldl (fun r l => l.run off pts r) res

/-- The nests that fit the layout of the residual: they address one of the `n` equations and run over the basis
functions of that equation.  [specification, no code] -/
def Fits (n : Nat) (ndof : Nat → Nat) (ls : List (Loop K P)) : Prop :=
  ∀ l : Loop K P, l ∈ ls → l.eq < n ∧ l.ndof = ndof l.eq

/-- The terms of equation `e`, basis function `d` at one point.  [specification, no code] -/
def termsAt [AddMonoid K] (ls : List (Loop K P)) (e d : Nat) (p : P) : K :=
  (ls.map (fun l => if l.eq = e then (l.adds p d).sum else 0)).sum

section
variable [AddCommMonoid K]

theorem Loop.run_at {n : Nat} {ndof : Nat → Nat} {off : Nat → Nat → Nat} (hoff : DistinctAll n ndof off)
    (pts : List P) (l : Loop K P) (hl : l.eq < n ∧ l.ndof = ndof l.eq) (res : Nat → K) {e d : Nat} (he : e < n)
    (hd : d < ndof e) :
    l.run off pts res (off e d) =
      res (off e d) + (if l.eq = e then quad pts (fun p => (l.adds p d).sum) else 0) := by
  by_cases h : l.eq = e
  · subst h
    have hdist : Distinct l.ndof (off l.eq) := fun a b ha hb hab =>
      (hoff l.eq a l.eq b hl.1 hl.1 (hl.2 ▸ ha) (hl.2 ▸ hb) hab).2
    have hd' : d < l.ndof := hl.2 ▸ hd
    simp only [if_true]
    unfold Loop.run
    by_cases ho : l.dofFirst = true
    · rw [if_pos ho, dofLoop_at hdist pts l.adds res hd']
    · rw [if_neg ho, ptLoop_at hdist pts l.adds res hd']
  · have hne : ∀ a : Nat, a < l.ndof → off l.eq a ≠ off e d := fun a ha hab =>
      h (hoff l.eq a e d hl.1 he (hl.2 ▸ ha) hd hab).1
    rw [if_neg h, add_zero]
    unfold Loop.run
    by_cases ho : l.dofFirst = true
    · rw [if_pos ho, dofLoop_other pts l.adds res hne]
    · rw [if_neg ho, ptLoop_other pts l.adds res hne]

theorem runLoops_at {n : Nat} {ndof : Nat → Nat} {off : Nat → Nat → Nat} (hoff : DistinctAll n ndof off)
    (pts : List P) (ls : List (Loop K P)) (hls : Fits n ndof ls) (res : Nat → K) {e d : Nat} (he : e < n)
    (hd : d < ndof e) :
    runLoops off pts ls res (off e d) = res (off e d) + quad pts (termsAt ls e d) := by
  unfold runLoops
  induction ls generalizing res with
  | nil =>
    have hz : quad pts (termsAt ([] : List (Loop K P)) e d) = 0 := by
      have : termsAt ([] : List (Loop K P)) e d = fun _ => 0 := by
        funext p
        simp [termsAt]
      rw [this, quad_zero]
    simp [hz]
  | cons l ls ih =>
    rw [List.foldl_cons, ih (fun m hm => hls m (List.mem_cons_of_mem _ hm)),
      l.run_at hoff pts (hls l List.mem_cons_self) res he hd, add_assoc]
    congr 1
    by_cases h : l.eq = e
    · rw [if_pos h, ← quad_add]
      refine quad_congr pts (fun p _ => ?_)
      simp [termsAt, h]
    · rw [if_neg h, zero_add]
      refine quad_congr pts (fun p _ => ?_)
      simp [termsAt, h]

theorem runLoops_other {off : Nat → Nat → Nat} (pts : List P) (ls : List (Loop K P)) (res : Nat → K) {j : Nat}
    (h : ∀ l : Loop K P, l ∈ ls → ∀ d : Nat, d < l.ndof → off l.eq d ≠ j) :
    runLoops off pts ls res j = res j := by
  unfold runLoops
  induction ls generalizing res with
  | nil => rfl
  | cons l ls ih =>
    rw [List.foldl_cons, ih _ (fun m hm => h m (List.mem_cons_of_mem _ hm))]
    unfold Loop.run
    by_cases ho : l.dofFirst = true
    · rw [if_pos ho, dofLoop_other pts l.adds res (h l List.mem_cons_self)]
    · rw [if_neg ho, ptLoop_other pts l.adds res (h l List.mem_cons_self)]

end

/-- A single loop over the points whose body contains several loops over the basis functions,
src/physics/shallowwater.cpp:122-151. -/
def pointLoops [Add K] (off : Nat → Nat → Nat) (pts : List P) (ls : List (Loop K P)) (res : Nat → K) : Nat → K :=
  pts.foldl (fun r p => runLoops off [p] ls r) res

section
variable [AddCommMonoid K]

theorem pointLoops_at {n : Nat} {ndof : Nat → Nat} {off : Nat → Nat → Nat} (hoff : DistinctAll n ndof off)
    (pts : List P) (ls : List (Loop K P)) (hls : Fits n ndof ls) (res : Nat → K) {e d : Nat} (he : e < n)
    (hd : d < ndof e) :
    pointLoops off pts ls res (off e d) = res (off e d) + quad pts (termsAt ls e d) := by
  unfold pointLoops
  induction pts generalizing res with
  | nil => simp [quad]
  | cons p ps ih =>
    rw [List.foldl_cons, ih, runLoops_at hoff [p] ls hls res he hd, add_assoc]
    congr 1
    simp [quad]

theorem pointLoops_other {off : Nat → Nat → Nat} (pts : List P) (ls : List (Loop K P)) (res : Nat → K) {j : Nat}
    (h : ∀ l : Loop K P, l ∈ ls → ∀ d : Nat, d < l.ndof → off l.eq d ≠ j) :
    pointLoops off pts ls res j = res j := by
  unfold pointLoops
  induction pts generalizing res with
  | nil => rfl
  | cons p ps ih => rw [List.foldl_cons, ih, runLoops_other [p] ls res h]

end

end MrHyDE.Modules
