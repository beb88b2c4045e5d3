import Verif.Database.Model
import Mathlib.Algebra.Order.BigOperators.Group.Finset
import Mathlib.Algebra.Order.Field.Rat
import Mathlib.Tactic.NormNum

/-
Property theorems C11 and C39.
-/

namespace MrHyDE.Database

set_option linter.unusedSectionVars false

/-! ### Specification -/

/-- Equivalence demanded of the volumetric database. -/
structure VolEquiv {O K : Type} [Field K] [LinearOrder K] (sq : K → K) (tol : K) (dim numip : Nat) (e r : Elem O K) : Prop where
  orient : e.orient = r.orient
  measure : |e.measure - r.measure| < tol * |r.measure|
  jacobian : ∀ pt, pt < numip →
    sq (∑ i ∈ Finset.range dim, ∑ j ∈ Finset.range dim, (e.jac pt i j - r.jac pt i j) ^ 2) ≤
      tol * sq (∑ i ∈ Finset.range dim, ∑ j ∈ Finset.range dim, (e.jac pt i j) ^ 2)

/-- Equivalence demanded of the boundary database. -/
structure BndEquiv {O K : Type} [Field K] [LinearOrder K] (tol : K) (dim numip : Nat) (e r : Elem O K) : Prop where
  side : e.side = r.side
  orient : e.orient = r.orient
  measure : |e.measure - r.measure| < tol * |r.measure|
  jacobian : ∑ p ∈ Finset.range numip, ∑ i ∈ Finset.range dim, ∑ j ∈ Finset.range dim, |e.jac p i j - r.jac p i j| <
    tol * ∑ p ∈ Finset.range numip, ∑ i ∈ Finset.range dim, ∑ j ∈ Finset.range dim, |r.jac p i j|

/-- What a database owes its users, for an equivalence `Eq` of elements: `flat` lists the elements
    as (group, position, data) in loop order, `users` the representatives (group, position, data),
    `index` the representative of each element. -/
structure Sound {O K : Type} (Eq : Elem O K → Elem O K → Prop) (flat : List (Nat × Nat × Elem O K))
    (users : List (Nat × Nat × Elem O K)) (index : List Nat) : Prop where
  /-- one index per element -/
  length : index.length = flat.length
  /-- the index names an existing representative, equivalent to the element or the element itself -/
  assigned : ∀ (p : Nat) (x : Nat × Nat × Elem O K), flat[p]? = some x →
    ∃ (k : Nat) (u : Nat × Nat × Elem O K), index[p]? = some k ∧ users[k]? = some u ∧ (u = x ∨ Eq x.2.2 u.2.2)
  /-- every representative is an element of the mesh and is assigned to itself -/
  self : ∀ (k : Nat) (u : Nat × Nat × Elem O K), users[k]? = some u → ∃ p : Nat, flat[p]? = some u ∧ index[p]? = some k

/-! ### Helper lemmas -/

section
variable {O K : Type} [DecidableEq O] [Field K] [LinearOrder K] [IsStrictOrderedRing K]

theorem foldl_add_sum {K : Type} [AddCommMonoid K] (n : Nat) (f : Nat → K) (a : K) :
    (List.range n).foldl (fun b j => b + f j) a = a + ∑ j ∈ Finset.range n, f j := by
  induction n with
  | zero => simp
  | succ n ih => rw [List.range_succ, List.foldl_append, ih, Finset.sum_range_succ]; simp [add_assoc]

theorem loop2_eq (n m : Nat) (f : Nat → Nat → K) : loop2 n m f = ∑ i ∈ Finset.range n, ∑ j ∈ Finset.range m, f i j := by
  unfold loop2
  have : (fun a i => (List.range m).foldl (fun b j => b + f i j) a) = fun (a : K) i => a + ∑ j ∈ Finset.range m, f i j := by
    funext a i; rw [foldl_add_sum]
  rw [this, foldl_add_sum, zero_add]

theorem loop3_eq (l n m : Nat) (f : Nat → Nat → Nat → K) :
    loop3 l n m f = ∑ p ∈ Finset.range l, ∑ i ∈ Finset.range n, ∑ j ∈ Finset.range m, f p i j := by
  unfold loop3
  have : (fun c p => (List.range n).foldl (fun a i => (List.range m).foldl (fun b j => b + f p i j) a) c) =
      fun (c : K) p => c + ∑ i ∈ Finset.range n, ∑ j ∈ Finset.range m, f p i j := by
    funext c p
    have h : (fun a i => (List.range m).foldl (fun b j => b + f p i j) a) =
        fun (a : K) i => a + ∑ j ∈ Finset.range m, f p i j := by
      funext a i; rw [foldl_add_sum]
    rw [h, foldl_add_sum]
  rw [this, foldl_add_sum, zero_add]

theorem ratioLt_iff (d m tol : K) (hd : 0 ≤ d) : ratioLt d m tol = true ↔ d < tol * |m| := by
  unfold ratioLt
  by_cases h : m = 0
  · subst h; simp [not_lt.mpr hd]
  · have hp : 0 < |m| := abs_pos.mpr h
    simp [h, abs_div, abs_of_nonneg hd, div_lt_iff₀ hp]

theorem ratioGt_iff (a b tol : K) (hb : 0 ≤ b) : ratioGt a b tol = false ↔ a ≤ tol * b := by
  unfold ratioGt
  by_cases h : b = 0
  · subst h; simp
  · have hp : 0 < b := lt_of_le_of_ne hb (Ne.symm h)
    simp [h, div_le_iff₀ hp]

theorem volMatch_iff (sq : K → K) (hsq : ∀ x, 0 ≤ sq x) (tol : K) (dim numip : Nat) (e r : Elem O K) (oe oref : Nat)
    (ho : oe = oref ↔ e.orient = r.orient) :
    volMatch sq tol dim numip e oe r oref = true ↔ VolEquiv sq tol dim numip e r := by
  unfold volMatch
  simp only [Bool.and_eq_true, decide_eq_true_eq, ratioLt_iff |e.measure - r.measure| _ _ (abs_nonneg (e.measure - r.measure)), List.all_eq_true, List.mem_range,
    Bool.not_eq_true', ratioGt_iff _ _ _ (hsq _), loop2_eq, ho]
  constructor
  · rintro ⟨⟨h1, h2⟩, h3⟩
    exact ⟨h1, h2, fun pt hpt => by simpa [pow_two] using h3 pt hpt⟩
  · rintro ⟨h1, h2, h3⟩
    exact ⟨⟨h1, h2⟩, fun pt hpt => by simpa [pow_two] using h3 pt hpt⟩

theorem bndMatch_iff (tol : K) (dim numip : Nat) (e r : Elem O K) (oe oref : Nat)
    (ho : oe = oref ↔ e.orient = r.orient) :
    bndMatch tol dim numip e oe r oref = true ↔ BndEquiv tol dim numip e r := by
  have hn1 : 0 ≤ ∑ p ∈ Finset.range numip, ∑ i ∈ Finset.range dim, ∑ j ∈ Finset.range dim, |e.jac p i j - r.jac p i j| :=
    Finset.sum_nonneg fun _ _ => Finset.sum_nonneg fun _ _ => Finset.sum_nonneg fun _ _ => abs_nonneg _
  have hn2 : 0 ≤ ∑ p ∈ Finset.range numip, ∑ i ∈ Finset.range dim, ∑ j ∈ Finset.range dim, |r.jac p i j| :=
    Finset.sum_nonneg fun _ _ => Finset.sum_nonneg fun _ _ => Finset.sum_nonneg fun _ _ => abs_nonneg _
  unfold bndMatch
  simp only [Bool.and_eq_true, decide_eq_true_eq, ratioLt_iff |e.measure - r.measure| _ _ (abs_nonneg (e.measure - r.measure)), loop3_eq, ratioLt_iff _ _ _ hn1,
    abs_of_nonneg hn2, ho]
  constructor
  · rintro ⟨⟨⟨⟨h0, h1⟩, h2⟩, h3⟩, h4⟩
    exact ⟨Prod.ext h0 h1, h2, h3, h4⟩
  · rintro ⟨h1, h2, h3, h4⟩
    exact ⟨⟨⟨⟨by rw [h1], by rw [h1]⟩, h2⟩, h3⟩, h4⟩

theorem search_some (m : Item O K → Item O K → Bool) (x : Item O K) (us : List (Item O K)) (s k : Nat)
    (h : search m x us s = some k) : ∃ (j : Nat) (u : Item O K), k = s + j ∧ us[j]? = some u ∧ m x u = true ∧ ∀ (j' : Nat) (u' : Item O K), j' < j → us[j']? = some u' → m x u' = false := by
  induction us generalizing s with
  | nil => simp [search] at h
  | cons u us ih =>
    rw [search] at h
    by_cases hm : m x u = true
    · rw [if_pos hm] at h
      exact ⟨0, u, by simpa using h.symm, rfl, hm, by intro j' u' hj; omega⟩
    · rw [if_neg hm] at h
      obtain ⟨j, v, h1, h2, h3, h4⟩ := ih (s + 1) h
      refine ⟨j + 1, v, by omega, by simpa using h2, h3, ?_⟩
      intro j' u' hj hu
      cases j' with
      | zero => simp at hu; rw [← hu]; simpa using hm
      | succ j' => exact h4 j' u' (by omega) (by simpa using hu)

theorem search_none (m : Item O K → Item O K → Bool) (x : Item O K) (us : List (Item O K)) (s : Nat)
    (h : search m x us s = none) : ∀ u ∈ us, m x u = false := by
  induction us generalizing s with
  | nil => simp
  | cons u us ih =>
    rw [search] at h
    by_cases hm : m x u = true
    · rw [if_pos hm] at h; simp at h
    · rw [if_neg hm] at h
      intro v hv
      rcases List.mem_cons.mp hv with rfl | hv
      · simpa using hm
      · exact ih (s + 1) h v hv

/-- The outcome of one placement. -/
theorem place_cases (m : Item O K → Item O K → Bool) (us : List (Item O K)) (x : Item O K) :
    (place m us x = (us ++ [x], us.length) ∧ (x.always = true ∨ ∀ u ∈ us, m x u = false)) ∨
    ∃ (k : Nat) (u : Item O K), place m us x = (us, k) ∧ us[k]? = some u ∧ m x u = true := by
  unfold place
  cases h : search m x us 0 with
  | none => left; exact ⟨rfl, Or.inr (search_none m x us 0 h)⟩
  | some k =>
    by_cases ha : x.always = true
    · left; simp [ha]
    · right
      obtain ⟨j, u, h1, h2, h3, _⟩ := search_some m x us 0 k h
      have : k = j := by omega
      subst this
      exact ⟨k, u, by simp [ha], h2, h3⟩

/-- Invariant of the identification. -/
theorem identify_spec (m : Item O K → Item O K → Bool) (us xs : List (Item O K)) :
    (identify m us xs).2.length = xs.length ∧
    (∃ new, (identify m us xs).1 = us ++ new) ∧
    (∀ (p : Nat) (x : Item O K), xs[p]? = some x → ∃ (k : Nat) (u : Item O K), (identify m us xs).2[p]? = some k ∧ (identify m us xs).1[k]? = some u ∧
      (u = x ∨ m x u = true)) ∧
    (∀ (k : Nat) (u : Item O K), us.length ≤ k → (identify m us xs).1[k]? = some u → ∃ p : Nat, xs[p]? = some u ∧ (identify m us xs).2[p]? = some k) ∧
    (∀ (k : Nat) (u : Item O K), us.length ≤ k → (identify m us xs).1[k]? = some u → u.always = true ∨
      ∀ (k' : Nat) (u' : Item O K), k' < k → (identify m us xs).1[k']? = some u' → m u u' = false) := by
  induction xs generalizing us with
  | nil =>
    refine ⟨rfl, ⟨[], by simp [identify]⟩, by simp, ?_, ?_⟩
    · intro k u hk hu; simp [identify, List.getElem?_eq_none hk] at hu
    · intro k u hk hu; simp [identify, List.getElem?_eq_none hk] at hu
  | cons x xs ih =>
    obtain ⟨h1, ⟨new, h2⟩, h3, h4, h5⟩ := ih (place m us x).1
    have e1 : (identify m us (x :: xs)).1 = (identify m (place m us x).1 xs).1 := rfl
    have e2 : (identify m us (x :: xs)).2 = (place m us x).2 :: (identify m (place m us x).1 xs).2 := rfl
    rw [e1, e2]
    rcases place_cases m us x with ⟨hp, hal⟩ | ⟨k, u, hp, hu, hm⟩
    · have hp1 : (place m us x).1 = us ++ [x] := by rw [hp]
      have hp2 : (place m us x).2 = us.length := by rw [hp]
      have hx : (identify m (place m us x).1 xs).1[us.length]? = some x := by
        rw [h2, hp1]; simp
      refine ⟨by simp [h1], ⟨x :: new, by rw [h2, hp1]; simp⟩, ?_, ?_, ?_⟩
      · intro p y hy
        cases p with
        | zero =>
          simp at hy; subst hy
          exact ⟨us.length, x, by simp [hp2], hx, Or.inl rfl⟩
        | succ p =>
          obtain ⟨k, u, g1, g2, g3⟩ := h3 p y (by simpa using hy)
          exact ⟨k, u, by simpa using g1, g2, g3⟩
      · intro k u hk hu
        by_cases hk' : k = us.length
        · subst hk'
          rw [hx] at hu; cases hu
          exact ⟨0, by simp, by simp [hp2]⟩
        · obtain ⟨p, g1, g2⟩ := h4 k u (by rw [hp1]; simp; omega) hu
          exact ⟨p + 1, by simpa using g1, by simpa using g2⟩
      · intro k u hk hu
        by_cases hk' : k = us.length
        · subst hk'
          rw [hx] at hu; cases hu
          rcases hal with hal | hal
          · exact Or.inl hal
          · right
            intro k' u' hk' hu'
            rw [h2, hp1, List.append_assoc, List.getElem?_append_left hk'] at hu'
            exact hal u' (List.mem_of_getElem? hu')
        · exact h5 k u (by rw [hp1]; simp; omega) hu
    · have hp1 : (place m us x).1 = us := by rw [hp]
      have hp2 : (place m us x).2 = k := by rw [hp]
      refine ⟨by simp [h1], ⟨new, by rw [h2, hp1]⟩, ?_, ?_, ?_⟩
      · intro p y hy
        cases p with
        | zero =>
          simp at hy; subst hy
          refine ⟨k, u, by simp [hp2], ?_, Or.inr hm⟩
          rw [h2, hp1, List.getElem?_append_left (List.getElem?_eq_some_iff.mp hu).1]; exact hu
        | succ p =>
          obtain ⟨k, u, g1, g2, g3⟩ := h3 p y (by simpa using hy)
          exact ⟨k, u, by simpa using g1, g2, g3⟩
      · intro k' u' hk hu'
        obtain ⟨p, g1, g2⟩ := h4 k' u' (by rw [hp1]; exact hk) hu'
        exact ⟨p + 1, by simpa using g1, by simpa using g2⟩
      · intro k' u' hk hu'
        exact h5 k' u' (by rw [hp1]; exact hk) hu'

/-! Orientation indices identify orientations. -/

theorem orientStep_spec (tab : List O) (o : O) :
    (∃ new, (orientStep tab o).1 = tab ++ new) ∧ (orientStep tab o).1[(orientStep tab o).2]? = some o ∧
    (tab.Nodup → (orientStep tab o).1.Nodup) := by
  unfold orientStep
  cases h : tab.findIdx? (fun t => decide (o = t)) with
  | none =>
    refine ⟨⟨[o], rfl⟩, by simp, fun hn => ?_⟩
    rw [List.findIdx?_eq_none_iff] at h
    rw [List.nodup_append]
    refine ⟨hn, by simp, ?_⟩
    intro a ha b hb
    simp at hb; subst hb
    have := h a ha
    simp at this
    exact fun hh => this hh.symm
  | some k =>
    refine ⟨⟨[], by simp⟩, ?_, fun hn => hn⟩
    rw [List.findIdx?_eq_some_iff_getElem] at h
    obtain ⟨hk, ho, _⟩ := h
    simp at ho
    show tab[k]? = some o
    rw [List.getElem?_eq_getElem hk, ho]

theorem orientIndices_spec (os tab : List O) (hn : tab.Nodup) : ∃ new : List O, (tab ++ new).Nodup ∧
    (orientIndices tab os).length = os.length ∧
    ∀ (p : Nat) (o : O), os[p]? = some o → ∃ k : Nat, (orientIndices tab os)[p]? = some k ∧ (tab ++ new)[k]? = some o := by
  induction os generalizing tab with
  | nil => exact ⟨[], by simpa using hn, rfl, by simp⟩
  | cons o os ih =>
    obtain ⟨⟨n1, h1⟩, h2, h3⟩ := orientStep_spec tab o
    obtain ⟨n2, g1, g2, g3⟩ := ih (orientStep tab o).1 (h3 hn)
    rw [h1] at g1 g3
    refine ⟨n1 ++ n2, by rwa [List.append_assoc] at g1, by simp [orientIndices, g2], ?_⟩
    intro p o' hp
    cases p with
    | zero =>
      simp at hp; subst hp
      refine ⟨(orientStep tab o).2, by simp [orientIndices], ?_⟩
      rw [← List.append_assoc, ← h1]
      rw [List.getElem?_append_left (List.getElem?_eq_some_iff.mp h2).1]; exact h2
    | succ p =>
      obtain ⟨k, e1, e2⟩ := g3 p o' (by simpa using hp)
      exact ⟨k, by simpa [orientIndices, h1] using e1, by rw [← List.append_assoc]; exact e2⟩

/-- Elements in loop order. -/
def flatten (groups : List (List (Elem O K))) : List (Nat × Nat × Elem O K) :=
  groups.zipIdx.flatMap (fun g => g.1.zipIdx.map (fun e => (g.2, e.2, e.1)))

/-- What identifies an item. -/
def Item.pub (x : Item O K) : Nat × Nat × Elem O K := (x.grp, x.el, x.data)

theorem items_spec (small : Bool) (groups : List (List (Elem O K))) :
    (items small groups).map Item.pub = flatten groups ∧
    ∀ x ∈ items small groups, ∀ y ∈ items small groups, x.orient = y.orient ↔ x.data.orient = y.data.orient := by
  set flat := groups.zipIdx.flatMap (fun g => g.1.zipIdx.map
    (fun e => (g.2, e.2, e.1, small && decide (g.1.length < 10)))) with hflat
  obtain ⟨tab, hnd, hlen, hidx⟩ := orientIndices_spec (flat.map (fun x => x.2.2.1.orient)) [] (by simp)
  rw [List.nil_append] at hnd
  have hitems : items small groups = (flat.zip (orientIndices [] (flat.map (fun x => x.2.2.1.orient)))).map
    (fun p => ⟨p.1.1, p.1.2.1, p.1.2.2.1, p.2, p.1.2.2.2⟩) := rfl
  constructor
  · rw [hitems, List.map_map]
    have : (flat.zip (orientIndices [] (flat.map (fun x => x.2.2.1.orient)))).map
        (Item.pub ∘ fun p => (⟨p.1.1, p.1.2.1, p.1.2.2.1, p.2, p.1.2.2.2⟩ : Item O K)) =
        (flat.zip (orientIndices [] (flat.map (fun x => x.2.2.1.orient)))).map
        ((fun f : Nat × Nat × Elem O K × Bool => (f.1, f.2.1, f.2.2.1)) ∘ Prod.fst) := by
      apply List.map_congr_left; intro p _; rfl
    rw [this, ← List.map_map, List.map_fst_zip (by rw [hlen]; simp)]
    rw [hflat, flatten, List.map_flatMap]
    congr 1
    funext g
    rw [List.map_map]; rfl
  · have key : ∀ x ∈ items small groups, tab[x.orient]? = some x.data.orient := by
      intro x hx
      rw [hitems] at hx
      obtain ⟨p, hp, rfl⟩ := List.mem_map.mp hx
      obtain ⟨i, hi⟩ := List.mem_iff_getElem?.mp hp
      rw [List.getElem?_zip_eq_some] at hi
      obtain ⟨k, e1, e2⟩ := hidx i p.1.2.2.1.orient (by rw [List.getElem?_map, hi.1]; rfl)
      rw [hi.2] at e1; cases e1
      simpa using e2
    intro x hx y hy
    have kx := key x hx
    have ky := key y hy
    constructor
    · intro h; rw [h] at kx; rw [kx] at ky; exact Option.some.inj ky
    · intro h
      rw [h] at kx
      obtain ⟨hx', ex⟩ := List.getElem?_eq_some_iff.mp kx
      obtain ⟨hy', ey⟩ := List.getElem?_eq_some_iff.mp ky
      exact (List.Nodup.getElem_inj_iff hnd).mp (ex.trans ey.symm)

theorem sound_of (m : Item O K → Item O K → Bool) (Eq : Elem O K → Elem O K → Prop) (small : Bool)
    (groups : List (List (Elem O K)))
    (hm : ∀ x ∈ items small groups, ∀ y ∈ items small groups, m x y = true → Eq x.data y.data) :
    Sound Eq (flatten groups) ((identify m [] (items small groups)).1.map Item.pub)
      (identify m [] (items small groups)).2 := by
  obtain ⟨h1, _, h3, h4, _⟩ := identify_spec m [] (items small groups)
  rw [← (items_spec small groups).1]
  refine ⟨by simp [h1], ?_, ?_⟩
  · intro p x hx
    rw [List.getElem?_map, Option.map_eq_some_iff] at hx
    obtain ⟨y, hy, rfl⟩ := hx
    obtain ⟨k, u, g1, g2, g3⟩ := h3 p y hy
    refine ⟨k, u.pub, g1, by rw [List.getElem?_map, g2]; rfl, ?_⟩
    rcases g3 with rfl | g3
    · exact Or.inl rfl
    · right
      obtain ⟨q, hq, _⟩ := h4 k u (by simp) g2
      exact hm y (List.mem_of_getElem? hy) u (List.mem_of_getElem? hq) g3
  · intro k u hu
    rw [List.getElem?_map, Option.map_eq_some_iff] at hu
    obtain ⟨y, hy, rfl⟩ := hu
    obtain ⟨q, hq, hq2⟩ := h4 k y (by simp) hy
    exact ⟨q, by rw [List.getElem?_map, hq]; rfl, hq2⟩

end

variable {O K : Type} [DecidableEq O] [Field K] [LinearOrder K] [IsStrictOrderedRing K]

/-! ### C39 -/

/-- C39, volumetric: for all groups of elements, every element gets the index of an existing
    representative that is the element itself or has the same orientation and agrees in measure
    and in the Jacobian at every point within the tolerance; and every representative is assigned to itself. -/
theorem C39_volumetric (sq : K → K) (hsq : ∀ x, 0 ≤ sq x) (tol : K) (dim numip : Nat) (groups : List (List (Elem O K))) :
    Sound (VolEquiv sq tol dim numip) (flatten groups) ((volumetric sq tol dim numip groups).1.map Item.pub)
      (volumetric sq tol dim numip groups).2 :=
  sound_of _ _ true groups fun x hx y hy h =>
    (volMatch_iff sq hsq tol dim numip x.data y.data x.orient y.orient ((items_spec true groups).2 x hx y hy)).mp h

/-- C39, boundary: the same with the side, and the summed difference of the Jacobians. -/
theorem C39_boundary (tol : K) (dim numip : Nat) (groups : List (List (Elem O K))) :
    Sound (BndEquiv tol dim numip) (flatten groups) ((boundary tol dim numip groups).1.map Item.pub)
      (boundary tol dim numip groups).2 :=
  sound_of _ _ false groups fun x hx y hy h =>
    (bndMatch_iff tol dim numip x.data y.data x.orient y.orient ((items_spec false groups).2 x hx y hy)).mp h

/-- C39, no needless representatives on boundaries: no representative is equivalent to an earlier
    one. -/
theorem C39_boundary_minimal (tol : K) (dim numip : Nat) (groups : List (List (Elem O K))) (k k' : Nat)
    (u u' : Nat × Nat × Elem O K) (hk : k' < k)
    (hu : ((boundary tol dim numip groups).1.map Item.pub)[k]? = some u)
    (hu' : ((boundary tol dim numip groups).1.map Item.pub)[k']? = some u') :
    ¬ BndEquiv tol dim numip u.2.2 u'.2.2 := by
  rw [List.getElem?_map, Option.map_eq_some_iff] at hu hu'
  obtain ⟨x, hx, rfl⟩ := hu
  obtain ⟨y, hy, rfl⟩ := hu'
  obtain ⟨_, _, _, h4, h5⟩ := identify_spec (fun x u => bndMatch tol dim numip x.data x.orient u.data u.orient) []
    (items false groups)
  obtain ⟨p, hp, _⟩ := h4 k x (by simp) hx
  obtain ⟨q, hq, _⟩ := h4 k' y (by simp) hy
  have hxm := List.mem_of_getElem? hp
  have hym := List.mem_of_getElem? hq
  intro hE
  rcases h5 k x (by simp) hx with ha | h
  · have : ∀ z ∈ items false groups, z.always = false := by
      intro z hz
      unfold items at hz
      obtain ⟨w, hw, rfl⟩ := List.mem_map.mp hz
      have hw1 := (List.of_mem_zip hw).1
      simp only [List.mem_flatMap, List.mem_map] at hw1
      obtain ⟨g, _, e, _, h⟩ := hw1
      rw [← h]; rfl
    rw [this x hxm] at ha; exact absurd ha (by simp)
  · have := h k' y hk hy
    have h2 := (bndMatch_iff tol dim numip x.data y.data x.orient y.orient
      ((items_spec false groups).2 x hxm y hym)).mpr hE
    rw [h2] at this; exact absurd this (by simp)

/-- C39, volumetric: elements of groups with at least ten elements become
    representatives only if no earlier representative is equivalent. -/
theorem C39_volumetric_minimal (sq : K → K) (hsq : ∀ x, 0 ≤ sq x) (tol : K) (dim numip : Nat)
    (groups : List (List (Elem O K))) (hbig : ∀ g ∈ groups, 10 ≤ g.length) (k k' : Nat)
    (u u' : Nat × Nat × Elem O K) (hk : k' < k)
    (hu : ((volumetric sq tol dim numip groups).1.map Item.pub)[k]? = some u)
    (hu' : ((volumetric sq tol dim numip groups).1.map Item.pub)[k']? = some u') :
    ¬ VolEquiv sq tol dim numip u.2.2 u'.2.2 := by
  rw [List.getElem?_map, Option.map_eq_some_iff] at hu hu'
  obtain ⟨x, hx, rfl⟩ := hu
  obtain ⟨y, hy, rfl⟩ := hu'
  obtain ⟨_, _, _, h4, h5⟩ := identify_spec (fun x u => volMatch sq tol dim numip x.data x.orient u.data u.orient) []
    (items true groups)
  obtain ⟨p, hp, _⟩ := h4 k x (by simp) hx
  obtain ⟨q, hq, _⟩ := h4 k' y (by simp) hy
  have hxm := List.mem_of_getElem? hp
  have hym := List.mem_of_getElem? hq
  intro hE
  rcases h5 k x (by simp) hx with ha | h
  · have : ∀ z ∈ items true groups, z.always = false := by
      intro z hz
      unfold items at hz
      obtain ⟨w, hw, rfl⟩ := List.mem_map.mp hz
      have hw1 := (List.of_mem_zip hw).1
      simp only [List.mem_flatMap, List.mem_map] at hw1
      obtain ⟨g, hg, e, _, h⟩ := hw1
      rw [← h]
      have hg1 : g.1 ∈ groups := by
        have := List.mem_map_of_mem (f := Prod.fst) hg
        rwa [List.zipIdx_map_fst] at this
      have := hbig g.1 hg1
      simp; omega
    rw [this x hxm] at ha; exact absurd ha (by simp)
  · have := h k' y hk hy
    have h2 := (volMatch_iff sq hsq tol dim numip x.data y.data x.orient y.orient
      ((items_spec true groups).2 x hxm y hym)).mpr hE
    rw [h2] at this; exact absurd this (by simp)

/-! ### C11 -/

/-- C11: reading element `i` of a compressed view gives the entry of the table chosen by the key
    of the element, and the number of elements is the number of keys.  Hence, if every
    element's key names an entry equal to the element's own data, all reads and the extent agree with
    the uncompressed view. -/
theorem C11_compressed_agrees {A : Type} (table full : List A) (key : List Nat) (hlen : key.length = full.length)
    (hkey : ∀ (i k : Nat), key[i]? = some k → table[k]? = full[i]?) (i : Nat) :
    (CView.mk table (some key)).read i = (CView.mk full none).read i ∧
    (CView.mk table (some key)).extent0 = (CView.mk full none).extent0 := by
  refine ⟨?_, hlen⟩
  show (match key[i]? with | some j => table[j]? | none => none) = full[i]?
  cases h : key[i]? with
  | none =>
    rw [List.getElem?_eq_none_iff] at h
    symm
    simp only [List.getElem?_eq_none_iff]; omega
  | some k => exact hkey i k h

/-- C11 and C39 together: whatever array `D` is computed from the elements (basis values,
    weights, mass matrices), reading the database through the index of element `p` gives the
    array of a representative that is the element itself or equivalent to it; no read of an
    existing element is out of range.  In particular, data that are equal for equivalent elements are
    returned unchanged. -/
theorem C11_database_read {A : Type} (Eq : Elem O K → Elem O K → Prop) (flat users : List (Nat × Nat × Elem O K))
    (index : List Nat) (hs : Sound Eq flat users index) (D : Elem O K → A) (p : Nat) (x : Nat × Nat × Elem O K)
    (hp : flat[p]? = some x) :
    (∃ r, (CView.mk (users.map (fun u => D u.2.2)) (some index)).read p = some (D r) ∧ (r = x.2.2 ∨ Eq x.2.2 r)) ∧
    ((∀ a b, Eq a b → D a = D b) →
      (CView.mk (users.map (fun u => D u.2.2)) (some index)).read p = some (D x.2.2)) ∧
    (CView.mk (users.map (fun u => D u.2.2)) (some index)).extent0 = flat.length := by
  obtain ⟨k, u, h1, h2, h3⟩ := hs.assigned p x hp
  have hread : (CView.mk (users.map (fun u => D u.2.2)) (some index)).read p = some (D u.2.2) := by
    show (match index[p]? with | some j => (users.map (fun u : Nat × Nat × Elem O K => D u.2.2))[j]? | none => none) = _
    rw [h1]
    show (users.map (fun u : Nat × Nat × Elem O K => D u.2.2))[k]? = _
    rw [List.getElem?_map, h2]; rfl
  refine ⟨⟨u.2.2, hread, ?_⟩, ?_, hs.length⟩
  · rcases h3 with rfl | h3
    · exact Or.inl rfl
    · exact Or.inr h3
  · intro hD
    rw [hread]
    rcases h3 with rfl | h3
    · rfl
    · rw [hD _ _ h3]

/-- C11 fails for `size()`: for a keyed view it is the number of elements, for the uncompressed view of
    the same data the number of entries. -/
theorem C11_size_violated {A : Type} (table full : List A) (key : List Nat) (hlen : key.length = full.length)
    (per : Nat) (hper : 1 < per) (hfull : full ≠ []) :
    (CView.mk table (some key)).size per ≠ (CView.mk full none).size per := by
  show key.length ≠ full.length * per
  have : 0 < full.length := List.length_pos_of_ne_nil hfull
  rw [hlen]
  intro h
  have h2 : full.length * 2 ≤ full.length * per := Nat.mul_le_mul_left _ hper
  omega

/-! ### Examples -/

/-- Three boundary elements: the third repeats the first, the second has another measure. -/
def exGroups : List (List (Elem String ℚ)) :=
  [[⟨(0, 1), "a", 1, fun _ i j => if i = j then 1 else 0⟩, ⟨(0, 1), "a", 2, fun _ i j => if i = j then 2 else 0⟩],
   [⟨(0, 1), "a", 1, fun _ i j => if i = j then 1 else 0⟩]]

example : (boundary (1/10) 1 1 exGroups).2 = [0, 1, 0] := by decide +kernel

/-- Three elements of small groups are all stored in the volumetric database. -/
example : (volumetric id (1/10) 1 1 exGroups).2 = [0, 1, 2] := by decide +kernel

/-- A group of ten equal elements shares one representative. -/
example : (volumetric id (1/10) 1 1 [List.replicate 10 (⟨(0, 1), "a", 1, fun _ _ _ => 1⟩ : Elem String ℚ)]).2 =
    List.replicate 10 0 := by decide +kernel

example : (CView.mk ["x", "y"] (some [0, 1, 0])).read 2 = (CView.mk ["x", "y", "x"] none).read 2 := rfl

end MrHyDE.Database
