import Mathlib.Algebra.Order.Field.Basic
import Mathlib.Algebra.Order.Field.Rat
import Mathlib.Algebra.BigOperators.Group.List.Basic
import Mathlib.Algebra.Order.BigOperators.Group.List
import Mathlib.Data.List.Range
import Mathlib.Tactic.Ring
import Mathlib.Tactic.NormNum
import Mathlib.Tactic.Linarith
import Mathlib.Tactic.FieldSimp

/-! # C84, C85: where the sensors are

`locateSensorPoints` (/repo/src/managers/postprocess/postprocessManager_sensors.hpp:966-1110) and the grid of `importSensorsOnGrid`
(ibid. 492-565). -/

namespace MrHyDE.Postprocess.Sensors

set_option linter.unusedSectionVars false

variable {K : Type} [Field K] [LinearOrder K] [IsStrictOrderedRing K]

/-- Coordinates of a point or node. [helper] -/
abbrev Pt (K : Type) := Nat → K

/-- Smallest coordinate of the nodes; postprocessManager_sensors.hpp:991-998.  `big` is the constant 1e300. -/
def dmin (big : K) (nodes : List (Pt K)) (d : Nat) : K := nodes.foldl (fun m x => min m (x d)) big

/-- Largest coordinate; postprocessManager_sensors.hpp:992-999. -/
def dmax (big : K) (nodes : List (Pt K)) (d : Nat) : K := nodes.foldl (fun m x => max m (x d)) (-big)

/-- The buffer of one direction; postprocessManager_sensors.hpp:1009-1011: computed for three directions whatever the
dimension, though the box has as many as the dimension (986).  `outside = none`: reading past the extent is undefined; `outside = some j`: it gives the unspecified
numbers `j`. -/
def buffer (outside : Option (Pt K)) (big : K) (dim : Nat) (nodes : List (Pt K)) (d : Nat) : Option K :=
  if d < dim then some (1 / 10 * (dmax big nodes d - dmin big nodes d))
  else outside.map (fun j => 1 / 10 * j d)

/-- Whether the point passes the test with the bounding box; postprocessManager_sensors.hpp:1009-1032. -/
def boxTest (outside : Option (Pt K)) (big : K) (dim : Nat) (nodes : List (Pt K)) (p : Pt K) : Option Bool := do
  let bx ← buffer outside big dim nodes 0
  let by' ← buffer outside big dim nodes 1
  let bz ← buffer outside big dim nodes 2
  let ok0 := !(decide (p 0 < dmin big nodes 0 - bx) || decide (p 0 > dmax big nodes 0 + bx))
  let ok1 := decide (dim ≤ 1) || !(decide (p 1 < dmin big nodes 1 - by') || decide (p 1 > dmax big nodes 1 + by'))
  let ok2 := decide (dim ≤ 2) || !(decide (p 2 < dmin big nodes 2 - bz) || decide (p 2 > dmax big nodes 2 + bz))
  return ok0 && ok1 && ok2

/-- The loop over the elements of a group, numbered from `i`: the last one containing the point, there being no break;
postprocessManager_sensors.hpp:1007-1069.  `inside` is Intrepid's inclusion test (1051-1056). -/
def inGroup {E : Type} (test inside : E → Option Bool) : List E → Nat → Option (Option Nat) → Option (Option Nat)
  | [], _, acc => acc
  | e :: es, i, acc =>
    inGroup test inside es (i + 1) (do
      let a ← acc
      if (← test e) then
        if (← inside e) then return some i else return a
      else return a)

/-- The loop over the groups of a process: groups after the first containing the point are skipped;
postprocessManager_sensors.hpp:976, 1003-1072.  (The code has the loop over the points inside the loop over the groups; the points do not influence each other.) -/
def locate {E : Type} (test inside : E → Option Bool) : List (List E) → Nat → Option (Option (Nat × Nat))
  | [], _ => some none
  | g :: gs, i => do
    match ← inGroup test inside g 0 (some none) with
    | some p => return some (i, p)
    | none => locate test inside gs (i + 1)

/-- `reduceAll` with the minimum of the ranks which found the point (otherwise size plus one);
postprocessManager_sensors.hpp:1076-1082. -/
def lowest (found : List Bool) : Nat :=
  ((List.range found.length).map (fun r => if found.getD r false then r else found.length + 1)).foldl min (found.length + 1)

/-- The processes which keep the point, when `checkprocs` is set; postprocessManager_sensors.hpp:1074-1087. -/
def keep (found : List Bool) : List Bool :=
  (List.range found.length).map (fun r => found.getD r false && decide (r = lowest found))

/-- Owners of a sensor on all processes: `none` for undefined behaviour on some process; postprocessManager_sensors.hpp:966-1087. -/
def owners {E : Type} (test inside : E → Option Bool) (procs : List (List (List E))) : Option (List (Option (Nat × Nat))) := do
  let l ← procs.mapM (fun groups => locate test inside groups 0)
  return (l.zip (keep (l.map Option.isSome))).map (fun x => if x.2 then x.1 else none)

/-! ## Lemmas -/

theorem foldl_min_le (f : Pt K → K) : ∀ (l : List (Pt K)) (b : K), l.foldl (fun m x => min m (f x)) b ≤ b ∧
    ∀ x ∈ l, l.foldl (fun m x => min m (f x)) b ≤ f x := by
  intro l
  induction l with
  | nil => intro b; simp
  | cons a l ih =>
    intro b
    rw [List.foldl_cons]
    obtain ⟨h1, h2⟩ := ih (min b (f a))
    refine ⟨h1.trans (min_le_left _ _), ?_⟩
    intro x hx
    rcases List.mem_cons.mp hx with e | e
    · subst e
      exact h1.trans (min_le_right _ _)
    · exact h2 x e

theorem le_foldl_max (f : Pt K → K) : ∀ (l : List (Pt K)) (b : K), b ≤ l.foldl (fun m x => max m (f x)) b ∧
    ∀ x ∈ l, f x ≤ l.foldl (fun m x => max m (f x)) b := by
  intro l
  induction l with
  | nil => intro b; simp
  | cons a l ih =>
    intro b
    rw [List.foldl_cons]
    obtain ⟨h1, h2⟩ := ih (max b (f a))
    refine ⟨(le_max_left _ _).trans h1, ?_⟩
    intro x hx
    rcases List.mem_cons.mp hx with e | e
    · subst e
      exact (le_max_right _ _).trans h1
    · exact h2 x e

/-- Combination of the nodes with weights. [specification, no code] -/
def combine (ws : List K) (nodes : List (Pt K)) (d : Nat) : K := ((ws.zip nodes).map (fun x => x.1 * x.2 d)).sum

theorem combine_bounds (d : Nat) (a b : K) : ∀ (ws : List K) (nodes : List (Pt K)), ws.length = nodes.length →
    (∀ x ∈ nodes, a ≤ x d ∧ x d ≤ b) →
    combine ws nodes d ≤ ws.sum * b + (((ws.map abs).sum - ws.sum) / 2) * (b - a) ∧
    ws.sum * a - (((ws.map abs).sum - ws.sum) / 2) * (b - a) ≤ combine ws nodes d := by
  intro ws
  induction ws with
  | nil => intro nodes hl _; simp [combine]
  | cons w ws ih =>
    intro nodes hl hb
    match nodes, hl with
    | x :: nodes, hl =>
      obtain ⟨h1, h2⟩ := ih nodes (by simpa using hl) (fun y hy => hb y (by simp [hy]))
      obtain ⟨hx1, hx2⟩ := hb x (by simp)
      have e : combine (w :: ws) (x :: nodes) d = w * x d + combine ws nodes d := by simp [combine]
      rw [e]
      simp only [List.sum_cons, List.map_cons]
      refine ⟨?_, ?_⟩
      · rcases abs_cases w with ⟨hw, hw'⟩ | ⟨hw, hw'⟩
        · rw [hw]
          nlinarith [mul_le_mul_of_nonneg_left hx2 hw']
        · rw [hw]
          nlinarith [mul_le_mul_of_nonneg_left hx1 (le_of_lt (neg_pos.mpr hw'))]
      · rcases abs_cases w with ⟨hw, hw'⟩ | ⟨hw, hw'⟩
        · rw [hw]
          nlinarith [mul_le_mul_of_nonneg_left hx1 hw']
        · rw [hw]
          nlinarith [mul_le_mul_of_nonneg_left hx2 (le_of_lt (neg_pos.mpr hw'))]

theorem within (big : K) (d : Nat) (ws : List K) (nodes : List (Pt K)) (hl : ws.length = nodes.length) (h1 : ws.sum = 1)
    (habs : (ws.map abs).sum ≤ 6 / 5) :
    dmin big nodes d - 1 / 10 * (dmax big nodes d - dmin big nodes d) ≤ combine ws nodes d ∧
    combine ws nodes d ≤ dmax big nodes d + 1 / 10 * (dmax big nodes d - dmin big nodes d) := by
  have hmin := (foldl_min_le (fun x => x d) nodes big).2
  have hmax := (le_foldl_max (fun x => x d) nodes (-big)).2
  obtain ⟨hu, hlo⟩ := combine_bounds d (dmin big nodes d) (dmax big nodes d) ws nodes hl
    (fun x hx => ⟨hmin x hx, hmax x hx⟩)
  rw [h1] at hu hlo
  have hnn : dmin big nodes d ≤ dmax big nodes d := by
    match nodes, ws, hl, h1 with
    | [], [], _, h1 => simp at h1
    | x :: l, _, _, _ => exact (hmin x (by simp)).trans (hmax x (by simp))
  constructor <;> nlinarith

/-- The test with the bounding box never rejects a point whose coordinates are a combination of the nodes with weights of sum one,
and of sum of magnitudes at most 6/5: points of a multilinear element, and those which the tolerance of the inclusion test lets
in. -/
theorem boxTest_true (outside : Option (Pt K)) (big : K) (dim : Nat) (ws : List K) (nodes : List (Pt K)) (p : Pt K)
    (hdim : 1 ≤ dim) (ho : outside.isSome ∨ 3 ≤ dim) (hl : ws.length = nodes.length) (h1 : ws.sum = 1)
    (habs : (ws.map abs).sum ≤ 6 / 5) (hp : ∀ d < dim, p d = combine ws nodes d) :
    boxTest outside big dim nodes p = some true := by
  have hb : ∀ d, d < 3 → ∃ b, buffer outside big dim nodes d = some b ∧ (d < dim →
      b = 1 / 10 * (dmax big nodes d - dmin big nodes d)) := by
    intro d hd
    unfold buffer
    by_cases h : d < dim
    · rw [if_pos h]
      exact ⟨_, rfl, fun _ => rfl⟩
    · rw [if_neg h]
      rcases ho with ho | ho
      · obtain ⟨j, hj⟩ := Option.isSome_iff_exists.mp ho
        rw [hj]
        exact ⟨_, rfl, fun c => absurd c h⟩
      · omega
  obtain ⟨b0, e0, c0⟩ := hb 0 (by omega)
  obtain ⟨b1, e1, c1⟩ := hb 1 (by omega)
  obtain ⟨b2, e2, c2⟩ := hb 2 (by omega)
  have w := fun d => within big d ws nodes hl h1 habs
  unfold boxTest
  rw [e0, e1, e2]
  simp only [Option.bind_eq_bind, Option.bind_some, Option.pure_def, Option.some.injEq, Bool.and_eq_true, Bool.or_eq_true,
    Bool.not_eq_true', Bool.or_eq_false_iff, decide_eq_false_iff_not, decide_eq_true_iff, not_lt, gt_iff_lt]
  refine ⟨⟨?_, ?_⟩, ?_⟩
  · rw [hp 0 (by omega), c0 (by omega)]
    exact w 0
  · by_cases h : dim ≤ 1
    · exact Or.inl h
    · rw [hp 1 (by omega), c1 (by omega)]
      exact Or.inr (w 1)
  · by_cases h : dim ≤ 2
    · exact Or.inl h
    · rw [hp 2 (by omega), c2 (by omega)]
      exact Or.inr (w 2)

theorem inGroup_spec {E : Type} (test inside : E → Option Bool) (c : E → Bool) : ∀ (es pre : List E) (i : Nat) (a : Option Nat),
    i = pre.length → (∀ e ∈ es, (do if (← test e) then inside e else return false) = some (c e)) →
    (∀ p, a = some p → ∃ e, pre[p]? = some e ∧ c e = true) → (a = none → ∀ e ∈ pre, c e = false) →
    ∃ r, inGroup test inside es i (some a) = some r ∧ (∀ p, r = some p → ∃ e, (pre ++ es)[p]? = some e ∧ c e = true) ∧
      (r = none → ∀ e ∈ pre ++ es, c e = false) := by
  intro es
  induction es with
  | nil =>
    intro pre i a _ _ h1 h2
    exact ⟨a, rfl, by simpa using h1, by simpa using h2⟩
  | cons e es ih =>
    intro pre i a hi ht h1 h2
    have hte := ht e (by simp)
    have hstep : ∃ a', (do
        let a ← (some a : Option (Option Nat))
        if (← test e) then
          if (← inside e) then return some i else return a
        else return a) = some a' ∧ (c e = true → a' = some i) ∧ (c e = false → a' = a) := by
      cases h : test e with
      | none => rw [h] at hte; simp at hte
      | some b =>
        rw [h] at hte
        cases b with
        | false =>
          simp at hte
          exact ⟨a, rfl, fun q => by simp_all, fun _ => rfl⟩
        | true =>
          simp at hte
          rw [hte]
          cases hc : c e with
          | true => exact ⟨some i, rfl, fun _ => rfl, fun q => by simp at q⟩
          | false => exact ⟨a, rfl, fun q => by simp at q, fun _ => rfl⟩
    obtain ⟨a', ha', hct, hcf⟩ := hstep
    have hrec := ih (pre ++ [e]) (i + 1) a' (by simp [hi]) (fun x hx => ht x (by simp [hx])) ?_ ?_
    · obtain ⟨r, hr1, hr2, hr3⟩ := hrec
      refine ⟨r, ?_, by simpa using hr2, by simpa using hr3⟩
      rw [inGroup, ha']
      exact hr1
    · intro p hp
      cases hc : c e with
      | true =>
        rw [hct hc] at hp
        have : i = p := Option.some.inj hp
        subst this
        exact ⟨e, by rw [hi]; simp, hc⟩
      | false =>
        rw [hcf hc] at hp
        obtain ⟨x, hx, hxc⟩ := h1 p hp
        refine ⟨x, ?_, hxc⟩
        rw [List.getElem?_append_left (List.getElem?_eq_some_iff.mp hx).1]
        exact hx
    · intro hn x hx
      cases hc : c e with
      | true => rw [hct hc] at hn; simp at hn
      | false =>
        rw [hcf hc] at hn
        rcases List.mem_append.mp hx with q | q
        · exact h2 hn x q
        · rw [List.mem_singleton] at q
          rw [q]
          exact hc

theorem locate_spec {E : Type} (test inside : E → Option Bool) (c : E → Bool) : ∀ (gs : List (List E)) (i : Nat),
    (∀ g ∈ gs, ∀ e ∈ g, (do if (← test e) then inside e else return false) = some (c e)) →
    ∃ r, locate test inside gs i = some r ∧
      (∀ q p, r = some (q, p) → i ≤ q ∧ ∃ g, gs[q - i]? = some g ∧ ∃ e, g[p]? = some e ∧ c e = true) ∧
      (r = none ↔ ∀ g ∈ gs, ∀ e ∈ g, c e = false) := by
  intro gs
  induction gs with
  | nil => intro i _; exact ⟨none, rfl, by simp, by simp⟩
  | cons g gs ih =>
    intro i ht
    obtain ⟨r, hr1, hr2, hr3⟩ := inGroup_spec test inside c g [] 0 none rfl (ht g (by simp)) (by simp) (by simp)
    rw [List.nil_append] at hr2 hr3
    cases r with
    | some p =>
      refine ⟨some (i, p), ?_, ?_, ?_⟩
      · rw [locate, hr1]
        rfl
      · intro q p' h
        have h := Option.some.inj h
        obtain ⟨rfl, rfl⟩ := Prod.mk.inj h
        obtain ⟨e, he, hc⟩ := hr2 p rfl
        exact ⟨le_refl _, g, by simp, e, he, hc⟩
      · constructor
        · intro h; simp at h
        · intro h
          obtain ⟨e, he, hc⟩ := hr2 p rfl
          have := h g (by simp) e (List.mem_of_getElem? he)
          rw [this] at hc
          simp at hc
    | none =>
      obtain ⟨r, h1, h2, h3⟩ := ih (i + 1) (fun g' hg' => ht g' (by simp [hg']))
      refine ⟨r, ?_, ?_, ?_⟩
      · rw [locate, hr1]
        exact h1
      · intro q p h
        obtain ⟨hle, g', hg', e, he, hc⟩ := h2 q p h
        refine ⟨by omega, g', ?_, e, he, hc⟩
        have : q - i = (q - (i + 1)) + 1 := by omega
        rw [this]
        simpa using hg'
      · rw [h3]
        constructor
        · intro h g' hg' e he
          rcases List.mem_cons.mp hg' with rfl | hh
          · exact hr3 rfl e he
          · exact h g' hh e he
        · intro h g' hg'
          exact h g' (by simp [hg'])

theorem foldl_min_eq : ∀ (l : List Nat) (b : Nat), l.foldl min b ≤ b ∧ (∀ x ∈ l, l.foldl min b ≤ x) ∧
    (l.foldl min b = b ∨ l.foldl min b ∈ l) := by
  intro l
  induction l with
  | nil => intro b; simp
  | cons a l ih =>
    intro b
    rw [List.foldl_cons]
    obtain ⟨h1, h2, h3⟩ := ih (min b a)
    refine ⟨h1.trans (min_le_left _ _), ?_, ?_⟩
    · intro x hx
      rcases List.mem_cons.mp hx with e | e
      · subst e
        exact h1.trans (min_le_right _ _)
      · exact h2 x e
    · rcases h3 with h3 | h3
      · rcases min_choice b a with h | h
        · rw [h] at h3 ⊢; exact Or.inl h3
        · rw [h] at h3 ⊢; exact Or.inr (by rw [h3]; simp)
      · exact Or.inr (by simp [h3])

theorem lowest_spec (found : List Bool) : (∀ r : Nat, found[r]? = some true → lowest found ≤ r ∧ found[lowest found]? = some true) ∧
    ((∀ r : Nat, found[r]? ≠ some true) → lowest found = found.length + 1) := by
  obtain ⟨h1, h2, h3⟩ := foldl_min_eq ((List.range found.length).map (fun r => if found.getD r false then r else found.length + 1))
    (found.length + 1)
  have hget : ∀ r : Nat, found[r]? = some true ↔ r < found.length ∧ found.getD r false = true := by
    intro r
    rw [List.getD_eq_getElem?_getD]
    by_cases hr : r < found.length
    · rw [List.getElem?_eq_getElem hr]
      simp [hr]
    · rw [List.getElem?_eq_none (by omega)]
      simp
  constructor
  · intro r hr
    obtain ⟨hr1, hr2⟩ := (hget r).mp hr
    have hle : lowest found ≤ r := by
      refine h2 r ?_
      rw [List.mem_map]
      exact ⟨r, List.mem_range.mpr hr1, by rw [if_pos hr2]⟩
    refine ⟨hle, ?_⟩
    have h3' : lowest found = found.length + 1 ∨
      lowest found ∈ (List.range found.length).map (fun r => if found.getD r false then r else found.length + 1) := h3
    rcases h3' with h | h
    · omega
    · obtain ⟨s, hs, e⟩ := List.mem_map.mp h
      by_cases hg : found.getD s false = true
      · rw [if_pos hg] at e
        rw [← e]
        exact (hget s).mpr ⟨List.mem_range.mp hs, hg⟩
      · rw [if_neg hg] at e
        omega
  · intro h
    have h3' : lowest found = found.length + 1 ∨
      lowest found ∈ (List.range found.length).map (fun r => if found.getD r false then r else found.length + 1) := h3
    rcases h3' with h' | h'
    · exact h'
    · obtain ⟨s, hs, e⟩ := List.mem_map.mp h'
      by_cases hg : found.getD s false = true
      · exact absurd ((hget s).mpr ⟨List.mem_range.mp hs, hg⟩) (h s)
      · rw [if_neg hg] at e
        exact e.symm

theorem mapM_some {α β : Type} (f : α → Option β) (g : α → β) : ∀ (l : List α), (∀ x ∈ l, f x = some (g x)) →
    l.mapM f = some (l.map g) := by
  intro l
  induction l with
  | nil => intro _; rfl
  | cons a l ih =>
    intro h
    rw [List.mapM_cons, h a (by simp), ih (fun x hx => h x (by simp [hx]))]
    rfl

/-! ## C84 -/

/-- C84, partial: whatever the number of processes, and however the elements are divided among groups and processes, a sensor lying in
some element is kept by exactly one process, which has an element containing it as its owner; a sensor in no element is kept by
none.  `c e` tells whether element `e` contains the sensor; the tests are assumed to be defined, and the bounding box not to reject
points of the element (`boxTest_true`).  Missing: in one and two dimensions the code reads past the extent of the box
(`C84_reads_outside`); a sensor outside of the mesh is dropped without message. -/
theorem C84_one_owner_partial {E : Type} (test inside : E → Option Bool) (c : E → Bool) (procs : List (List (List E)))
    (ht : ∀ gs ∈ procs, ∀ g ∈ gs, ∀ e ∈ g, inside e = some (c e) ∧ (test e = some true ∨ (test e = some false ∧ c e = false))) :
    ∃ l, owners test inside procs = some l ∧ l.length = procs.length ∧
      (∀ r g p : Nat, l[r]? = some (some (g, p)) → ∃ gs es e, procs[r]? = some gs ∧ gs[g]? = some es ∧ es[p]? = some e ∧ c e = true) ∧
      ((∃ gs ∈ procs, ∃ g ∈ gs, ∃ e ∈ g, c e = true) → ∃! r : Nat, ∃ x, l[r]? = some (some x)) ∧
      ((∀ gs ∈ procs, ∀ g ∈ gs, ∀ e ∈ g, c e = false) → ∀ x ∈ l, x = none) := by
  have htest : ∀ gs ∈ procs, ∀ g ∈ gs, ∀ e ∈ g, (do if (← test e) then inside e else return false) = some (c e) := by
    intro gs hgs g hg e he
    obtain ⟨h1, h2⟩ := ht gs hgs g hg e he
    rcases h2 with h2 | ⟨h2, h3⟩
    · rw [h2, h1]; rfl
    · rw [h2, h3]; rfl
  have hloc : ∀ gs ∈ procs, ∃ r, locate test inside gs 0 = some r ∧
      (∀ q p, r = some (q, p) → ∃ g, gs[q]? = some g ∧ ∃ e, g[p]? = some e ∧ c e = true) ∧
      (r = none ↔ ∀ g ∈ gs, ∀ e ∈ g, c e = false) := by
    intro gs hgs
    obtain ⟨r, h1, h2, h3⟩ := locate_spec test inside c gs 0 (htest gs hgs)
    exact ⟨r, h1, fun q p h => (h2 q p h).2, h3⟩
  set G : List (List E) → Option (Nat × Nat) := fun gs => (locate test inside gs 0).getD none with hG
  have hGs : ∀ gs ∈ procs, locate test inside gs 0 = some (G gs) := by
    intro gs hgs
    obtain ⟨r, h1, _⟩ := hloc gs hgs
    rw [hG]
    simp only
    rw [h1, Option.getD_some]
  set found := (procs.map G).map Option.isSome with hfound
  have hlen : found.length = procs.length := by simp [hfound]
  have how : owners test inside procs = some (((procs.map G).zip (keep found)).map (fun x => if x.2 then x.1 else none)) := by
    unfold owners
    rw [mapM_some _ G procs hGs]
    rfl
  have hget : ∀ r : Nat, (((procs.map G).zip (keep found)).map (fun x => if x.2 then x.1 else none))[r]? =
      (procs[r]?).map (fun gs => if found.getD r false && decide (r = lowest found) then G gs else none) := by
    intro r
    by_cases hr : r < procs.length
    · rw [List.getElem?_eq_getElem (by simp [keep, hlen, hr]), List.getElem?_eq_getElem hr]
      simp [keep]
    · rw [List.getElem?_eq_none (by simp [keep, hlen]; omega), List.getElem?_eq_none (by omega)]
      rfl
  have hfr : ∀ (r : Nat) gs, procs[r]? = some gs → found[r]? = some (G gs).isSome := by
    intro r gs h
    rw [hfound, List.getElem?_map, List.getElem?_map, h]
    rfl
  obtain ⟨hlow1, hlow2⟩ := lowest_spec found
  refine ⟨_, how, by simp [keep, hlen], ?_, ?_, ?_⟩
  · intro r g p h
    rw [hget] at h
    cases hp : procs[r]? with
    | none => rw [hp] at h; simp at h
    | some gs =>
      rw [hp, Option.map_some] at h
      have h := Option.some.inj h
      have hmem := List.mem_of_getElem? hp
      split_ifs at h with hc
      obtain ⟨rr, h1, h2, _⟩ := hloc gs hmem
      rw [hGs gs hmem] at h1
      have : rr = some (g, p) := by rw [← Option.some.inj h1, h]
      obtain ⟨es, hes, e, he, hce⟩ := h2 g p this
      exact ⟨gs, es, e, rfl, hes, he, hce⟩
  · rintro ⟨gs, hgs, g, hg, e, he, hce⟩
    obtain ⟨r0, hr0⟩ := List.getElem?_of_mem hgs
    have hGsome : (G gs).isSome = true := by
      obtain ⟨rr, h1, _, h3⟩ := hloc gs hgs
      rw [hGs gs hgs] at h1
      rw [Option.some.inj h1]
      cases hrr : rr with
      | some x => rfl
      | none =>
        have := h3.mp hrr g hg e he
        rw [this] at hce
        simp at hce
    have hf0 : found[r0]? = some true := by rw [hfr r0 gs hr0, hGsome]
    obtain ⟨_, hl⟩ := hlow1 r0 hf0
    have hll : lowest found < procs.length := by
      rw [← hlen]
      exact (List.getElem?_eq_some_iff.mp hl).1
    have hpl : procs[lowest found]? = some procs[lowest found] := List.getElem?_eq_getElem hll
    refine ⟨lowest found, ?_, ?_⟩
    · simp only
      rw [hget, hpl]
      have h1 : (G procs[lowest found]).isSome = true := by
        have := hfr _ _ hpl
        rw [hl] at this
        exact (Option.some.inj this).symm
      have h2 : found.getD (lowest found) false = true := by
        rw [List.getD_eq_getElem?_getD, hl]
        rfl
      rw [h2]
      obtain ⟨x, hx⟩ := Option.isSome_iff_exists.mp h1
      exact ⟨x, by simp [hx]⟩
    · rintro r ⟨x, hx⟩
      rw [hget] at hx
      cases hp : procs[r]? with
      | none => rw [hp] at hx; simp at hx
      | some gs' =>
        rw [hp, Option.map_some] at hx
        have hx := Option.some.inj hx
        split_ifs at hx with hc
        rw [Bool.and_eq_true, decide_eq_true_iff] at hc
        exact hc.2
  · intro h x hx
    obtain ⟨r, hr⟩ := List.getElem?_of_mem hx
    rw [hget] at hr
    cases hp : procs[r]? with
    | none => rw [hp] at hr; simp at hr
    | some gs' =>
      rw [hp, Option.map_some] at hr
      have hr := Option.some.inj hr
      have hmem := List.mem_of_getElem? hp
      obtain ⟨rr, h1, _, h3⟩ := hloc gs' hmem
      rw [hGs gs' hmem] at h1
      have : G gs' = none := by
        rw [Option.some.inj h1]
        exact h3.mpr (h gs' hmem)
      rw [this] at hr
      rw [← hr]
      simp

/-- A sensor on an edge common to elements of two groups on process 1 and one on process 2, of three. -/
example : owners (fun _ : Nat => some true) (fun e => some (decide (e ∈ [4, 5, 7]))) [[[1, 2], [3]], [[6], [4, 5]], [[7]]] =
    some [none, some (1, 1), none] := by decide +kernel

/-- C84: the bounding box does not reject sensors, provided numbers can be read past the extent of the box or the dimension is
three. -/
theorem C84_box_partial (outside : Option (Pt K)) (big : K) (dim : Nat) (ws : List K) (nodes : List (Pt K)) (p : Pt K)
    (hdim : 1 ≤ dim) (ho : outside.isSome ∨ 3 ≤ dim) (hl : ws.length = nodes.length) (h1 : ws.sum = 1)
    (habs : (ws.map abs).sum ≤ 6 / 5) (hp : ∀ d < dim, p d = combine ws nodes d) :
    boxTest outside big dim nodes p = some true := boxTest_true outside big dim ws nodes p hdim ho hl h1 habs hp

/-- The middle of a tetrahedron. -/
example : boxTest (none : Option (Pt ℚ)) 1000 3 [fun _ => 0, fun d => if d = 0 then 1 else 0, fun d => if d = 1 then 1 else 0,
    fun d => if d = 2 then 1 else 0] (fun _ => 1 / 4) = some true ∧
    boxTest (none : Option (Pt ℚ)) 1000 3 [fun _ => 0, fun d => if d = 0 then 1 else 0, fun d => if d = 1 then 1 else 0,
    fun d => if d = 2 then 1 else 0] (fun _ => 2) = some false := by decide +kernel

/-- C84 is false in one and two dimensions: the first test of the first element reads past the extent of the box. -/
theorem C84_reads_outside (big : K) (dim : Nat) (hd : dim < 3) (inside : List (Pt K) → Option Bool) (nodes : List (Pt K))
    (es : List (List (Pt K))) (gs : List (List (List (Pt K)))) (p : Pt K) :
    locate (fun nodes => boxTest none big dim nodes p) inside ((nodes :: es) :: gs) 0 = none := by
  have hb : boxTest none big dim nodes p = none := by
    unfold boxTest
    cases buffer none big dim nodes 0 with
    | none => rfl
    | some _ =>
      cases buffer none big dim nodes 1 with
      | none => rfl
      | some _ =>
        have : buffer none big dim nodes 2 = none := by
          unfold buffer
          rw [if_neg (by omega)]
          rfl
        rw [this]
        rfl
  have hn : ∀ (es : List (List (Pt K))) (i : Nat),
      inGroup (fun nodes => boxTest none big dim nodes p) inside es i none = none := by
    intro es
    induction es with
    | nil => intro i; rfl
    | cons e es ih =>
      intro i
      rw [inGroup]
      exact ih (i + 1)
  rw [locate, inGroup]
  simp only [hb]
  have := hn es 1
  simp only [Option.bind_eq_bind, Option.bind_some, Option.bind_none] at this ⊢
  rw [this]
  rfl

/-! ## C85: a grid of sensors -/

/-- The coordinates of one direction, by repeated addition; postprocessManager_sensors.hpp:521-548. -/
def axis (lo hi : K) (n : Nat) : List K :=
  let dx := if n > 1 then (hi - lo) / ((n : K) - 1) else 0
  ((List.range n).foldl (fun (s : List K × K) _ => (s.1 ++ [s.2], s.2 + dx)) ([], lo)).1

/-- The points, the last direction running fastest; postprocessManager_sensors.hpp:550-565. -/
def grid (xs ys zs : List K) : List (K × K × K) :=
  xs.flatMap (fun x => ys.flatMap (fun y => zs.map (fun z => (x, y, z))))

theorem axis_fold (dx : K) : ∀ (l : List Nat) (acc : List K) (x : K),
    l.foldl (fun (s : List K × K) _ => (s.1 ++ [s.2], s.2 + dx)) (acc, x) =
      (acc ++ (List.range l.length).map (fun i : Nat => x + (i : K) * dx), x + (l.length : K) * dx) := by
  intro l
  induction l with
  | nil => intro acc x; simp
  | cons a l ih =>
    intro acc x
    rw [List.foldl_cons, ih, List.length_cons, List.range_succ_eq_map, List.map_cons, List.map_map]
    refine Prod.ext ?_ ?_
    · simp only [List.append_assoc, List.cons_append, List.nil_append, Nat.cast_zero, zero_mul, add_zero]
      congr 2
      apply List.map_congr_left
      intro i _
      simp only [Function.comp]
      push_cast
      ring
    · simp only
      push_cast
      ring

theorem axis_eq (lo hi : K) (n : Nat) : axis lo hi n =
    (List.range n).map (fun i : Nat => lo + (i : K) * (if n > 1 then (hi - lo) / ((n : K) - 1) else 0)) := by
  unfold axis
  simp only
  rw [axis_fold]
  simp

theorem flatMap_get {α β : Type} (m : Nat) : ∀ (l : List α) (f : α → List β), (∀ x ∈ l, (f x).length = m) →
    ∀ i j, i < l.length → j < m → (l.flatMap f)[i * m + j]? = (l[i]?).bind (fun x => (f x)[j]?) := by
  intro l
  induction l with
  | nil => intro f _ i j hi; simp at hi
  | cons a l ih =>
    intro f hf i j hi hj
    rw [List.flatMap_cons]
    have ha : (f a).length = m := hf a (by simp)
    cases i with
    | zero =>
      rw [Nat.zero_mul, Nat.zero_add, List.getElem?_append_left (by omega)]
      simp
    | succ i =>
      have e : (i + 1) * m + j = m + (i * m + j) := by ring
      rw [e, List.getElem?_append_right (by omega), ha, Nat.add_sub_cancel_left]
      rw [ih f (fun x hx => hf x (by simp [hx])) i j (by simpa using hi) hj]
      simp

theorem flatMap_length {α β : Type} (m : Nat) (l : List α) (f : α → List β) (hf : ∀ x ∈ l, (f x).length = m) :
    (l.flatMap f).length = l.length * m := by
  induction l with
  | nil => simp
  | cons a l ih =>
    rw [List.flatMap_cons, List.length_append, hf a (by simp), ih (fun x hx => hf x (by simp [hx])), List.length_cons]
    ring

/-- C85: sensor number `(i·Ny + j)·Nz + k` of a grid is the point number `i`, `j`, `k` of the three directions, there are
`Nx·Ny·Nz` sensors, and the points of a direction are equally spaced from one end to the other.  (Exact arithmetic: in floating
point the repeated addition may end beyond the last coordinate.) -/
theorem C85_grid (lo hi : Fin 3 → K) (nx ny nz : Nat) :
    (grid (axis (lo 0) (hi 0) nx) (axis (lo 1) (hi 1) ny) (axis (lo 2) (hi 2) nz)).length = nx * ny * nz ∧
    ∀ i j k : Nat, i < nx → j < ny → k < nz →
      (grid (axis (lo 0) (hi 0) nx) (axis (lo 1) (hi 1) ny) (axis (lo 2) (hi 2) nz))[(i * ny + j) * nz + k]? =
        some (lo 0 + i * ((hi 0 - lo 0) / ((nx : K) - 1)), lo 1 + j * ((hi 1 - lo 1) / ((ny : K) - 1)),
          lo 2 + k * ((hi 2 - lo 2) / ((nz : K) - 1))) := by
  have hax : ∀ (a b : K) (n : Nat), (axis a b n).length = n := by
    intro a b n
    rw [axis_eq]
    simp
  have hget : ∀ (a b : K) (n i : Nat), i < n → (axis a b n)[i]? = some (a + i * ((b - a) / ((n : K) - 1))) := by
    intro a b n i hi
    rw [axis_eq, List.getElem?_map, List.getElem?_range hi, Option.map_some]
    by_cases h : n > 1
    · rw [if_pos h]
    · rw [if_neg h]
      have : i = 0 := by omega
      subst this
      simp
  have hin : ∀ x : K, ((axis (lo 1) (hi 1) ny).flatMap (fun y => (axis (lo 2) (hi 2) nz).map (fun z => (x, y, z)))).length = ny * nz := by
    intro x
    rw [flatMap_length nz _ _ (by intro y _; simp [hax]), hax]
  constructor
  · unfold grid
    rw [flatMap_length (ny * nz) _ _ (fun x _ => hin x), hax]
    ring
  · intro i j k hi' hj hk
    unfold grid
    have e : (i * ny + j) * nz + k = i * (ny * nz) + (j * nz + k) := by ring
    have hlt : j * nz + k < ny * nz := by
      calc j * nz + k < j * nz + nz := by omega
        _ = (j + 1) * nz := by ring
        _ ≤ ny * nz := Nat.mul_le_mul_right _ hj
    rw [e, flatMap_get (ny * nz) _ _ (fun x _ => hin x) i _ (by rw [hax]; exact hi') hlt, hget _ _ _ _ hi', Option.bind_some,
      flatMap_get nz _ _ (by intro y _; simp [hax]) j k (by rw [hax]; exact hj) hk, hget _ _ _ _ hj, Option.bind_some,
      List.getElem?_map, hget _ _ _ _ hk, Option.map_some]

/-- C85: the last point of a direction with at least two points is the far end. -/
theorem C85_ends (lo hi : K) (n : Nat) (hn : 2 ≤ n) : (axis lo hi n).head? = some lo ∧ (axis lo hi n).getLast? = some hi := by
  rw [axis_eq, if_pos (by omega)]
  obtain ⟨m, rfl⟩ : ∃ m, n = m + 2 := ⟨n - 2, by omega⟩
  constructor
  · rw [List.range_succ_eq_map]
    simp
  · rw [List.range_succ, List.map_append, List.map_cons, List.map_nil, List.getLast?_append]
    simp only [List.getLast?_singleton, Option.some_or, Option.some.injEq]
    have : ((m : K) + 1) ≠ 0 := by positivity
    push_cast
    have e : ((m : K) + 2 - 1) = (m : K) + 1 := by ring
    rw [e]
    field_simp
    ring

example : grid (axis (0 : ℚ) 1 2) (axis 0 6 3) (axis 5 9 1) = [(0, 0, 5), (0, 3, 5), (0, 6, 5), (1, 0, 5), (1, 3, 5), (1, 6, 5)] := by
  decide +kernel

end MrHyDE.Postprocess.Sensors
