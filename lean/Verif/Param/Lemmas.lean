import Verif.Param.Model
import Verif.Param.Spec
import Mathlib.Tactic.Linarith

/-!
# Parameter manager: lemmas
-/

namespace MrHyDE.Param

open Spec

variable {K : Type}

theorem updComps_eq (new : List K) : ∀ (c : List K) (p : Nat), p + c.length ≤ new.length →
    updComps new p c = some ((new.drop p).take c.length, p + c.length)
  | [], p, _ => by simp [updComps]
  | _ :: cs, p, h => by
    have hp : p < new.length := by simp at h; omega
    have ih := updComps_eq new cs (p + 1) (by simp at h; omega)
    simp only [updComps, List.getElem?_eq_getElem hp, ih]
    have hd := List.drop_eq_getElem_cons hp
    rw [hd, List.length_cons, List.take_succ_cons]
    simp only [Option.some.injEq, Prod.mk.injEq, true_and]
    omega

theorem count_cons (ty t : Int) (ts : List Int) (c : List K) (cs : List (List K)) :
    count ty (t :: ts) (c :: cs) = (if t = ty then c.length else 0) + count ty ts cs := by
  simp [count]

theorem updRow_getRow (ty : Int) (nv : List K) : ∀ (row : List (List K)) (types : List Int) (p : Nat),
    row.length ≤ types.length → p + count ty types row ≤ nv.length →
    ∃ r, updRow ty (some nv) p types row = some r ∧
      getRow ty types r = some ((nv.drop p).take (count ty types row)) ∧
      SameShape r row ∧
      ∀ k : Nat, types[k]? ≠ some ty → r[k]? = row[k]?
  | [], types, p, _, _ => ⟨[], by simp [updRow], by simp [getRow, count], rfl, fun _ _ => rfl⟩
  | c :: cs, [], p, h, _ => by simp at h
  | c :: cs, t :: ts, p, h, hc => by
    rw [count_cons] at hc
    by_cases ht : t = ty
    · rw [if_pos ht] at hc
      obtain ⟨r, h1, h2, h3, h4⟩ := updRow_getRow ty nv cs ts (p + c.length)
        (by simpa using h) (by omega)
      have hu := updComps_eq nv c p (by omega)
      refine ⟨((nv.drop p).take c.length) :: r, ?_, ?_, ?_, ?_⟩
      · simp [updRow, ht, hu, h1]
      · simp only [getRow, h2, ht, if_true, count_cons]
        rw [List.take_add, List.drop_drop]
      · simp only [SameShape, List.map_cons] at h3 ⊢
        rw [h3]
        simp
        omega
      · intro k hk
        cases k with
        | zero => simp [ht] at hk
        | succ k => simpa using h4 k (by simpa using hk)
    · rw [if_neg ht] at hc
      obtain ⟨r, h1, h2, h3, h4⟩ := updRow_getRow ty nv cs ts p (by simpa using h) (by omega)
      refine ⟨c :: r, ?_, ?_, ?_, ?_⟩
      · simp [updRow, ht, h1]
      · simp [getRow, h2, ht, count_cons]
      · simp only [SameShape, List.map_cons] at h3 ⊢
        rw [h3]
      · intro k hk
        cases k with
        | zero => simp
        | succ k => simpa using h4 k (by simpa using hk)

theorem getRow_of_same (ty : Int) : ∀ (row row' : List (List K)) (types : List Int),
    row'.length = row.length → (∀ k : Nat, types[k]? = some ty → row'[k]? = row[k]?) →
    getRow ty types row' = getRow ty types row
  | [], [], types, _, _ => rfl
  | _ :: _, _ :: _, [], _, _ => rfl
  | c :: cs, c' :: cs', t :: ts, hl, h => by
    have ih := getRow_of_same ty cs cs' ts (by simpa using hl) (fun k hk => by
      simpa using h (k + 1) (by simpa using hk))
    simp only [getRow, ih]
    by_cases ht : t = ty
    · have := h 0 (by simp [ht])
      simp at this
      simp [ht, this]
    · simp [ht]

theorem getRow_some (ty : Int) : ∀ (row : List (List K)) (types : List Int), row.length ≤ types.length →
    ∃ v, getRow ty types row = some v ∧ Lists ty types row v
  | [], types, _ => ⟨[], by simp [getRow], by simp [count], fun i j h => by
      obtain ⟨_, c, hc, _⟩ := h; simp at hc⟩
  | c :: cs, [], h => by simp at h
  | c :: cs, t :: ts, h => by
    obtain ⟨v, h1, h2, h3⟩ := getRow_some ty cs ts (by simpa using h)
    refine ⟨if t = ty then c ++ v else v, by simp [getRow, h1], ?_, ?_⟩
    · rw [count_cons, ← h2]
      by_cases ht : t = ty <;> simp [ht]
    · intro i j hij
      obtain ⟨hi, d, hd, hj⟩ := hij
      cases i with
      | zero =>
        have ht : t = ty := by simpa using hi
        have hcd : c = d := by simpa using hd
        subst hcd
        simp [before, comp, ht, List.getElem?_append_left hj]
      | succ i =>
        have h3' := h3 i j ⟨by simpa using hi, d, by simpa using hd, hj⟩
        have hb : before ty (t :: ts) (c :: cs) (i + 1) = (if t = ty then c.length else 0) + before ty ts cs i := by
          simp [before]
        rw [hb]
        by_cases ht : t = ty
        · simp only [ht, if_true]
          rw [Nat.add_assoc, List.getElem?_append_right (by omega)]
          rw [Nat.add_sub_cancel_left, h3']
          simp [comp]
        · simp only [ht, if_false, Nat.zero_add]
          rw [h3']
          simp [comp]

theorem updTimes_spec (types : List Int) (news : List (List K)) : ∀ (rows : List (List (List K))) (i : Nat),
    (∀ row ∈ rows, row.length ≤ types.length) →
    (∀ (k : Nat) (row : List (List K)), rows[k]? = some row →
      ∃ nv, news[i + k]? = some nv ∧ nv.length = count 1 types row) →
    ∃ rs, updTimes types news i rows = some rs ∧ rs.length = rows.length ∧
      ∀ (k : Nat) (row : List (List K)), rows[k]? = some row → ∃ r nv, rs[k]? = some r ∧ news[i + k]? = some nv ∧
        getRow 1 types r = some nv ∧ SameShape r row ∧ ∀ q : Nat, types[q]? ≠ some 1 → r[q]? = row[q]?
  | [], i, _, _ => ⟨[], rfl, rfl, fun k row h => by simp at h⟩
  | row :: rows, i, h1, h2 => by
    obtain ⟨nv, hn, hl⟩ := h2 0 row (by simp)
    obtain ⟨r, a1, a2, a3, a4⟩ := updRow_getRow 1 nv row types 0 (h1 row (by simp)) (by omega)
    obtain ⟨rs, b1, b2, b3⟩ := updTimes_spec types news rows (i + 1)
      (fun x hx => h1 x (by simp [hx]))
      (fun k x hk => by
        obtain ⟨nv', p1, p2⟩ := h2 (k + 1) x (by simpa using hk)
        exact ⟨nv', by rw [← p1]; congr 1; omega, p2⟩)
    have hn' : news[i]? = some nv := by simpa using hn
    refine ⟨r :: rs, by simp [updTimes, hn', a1, b1], by simp [b2], ?_⟩
    intro k x hk
    cases k with
    | zero =>
      have : row = x := by simpa using hk
      subst this
      refine ⟨r, nv, by simp, hn, ?_, a3, a4⟩
      rw [a2, List.drop_zero, ← hl, List.take_length]
    | succ k =>
      obtain ⟨r', nv', c1, c2, c3, c4, c5⟩ := b3 k x (by simpa using hk)
      exact ⟨r', nv', by simpa using c1, by rw [← c2]; congr 1; omega, c3, c4, c5⟩

theorem mapM_option_eq {α β : Type} (f : α → Option β) : ∀ (l : List α) (m : List β), l.length = m.length →
    (∀ (k : Nat) (x : α), l[k]? = some x → ∃ y, m[k]? = some y ∧ f x = some y) → l.mapM f = some m
  | [], [], _, _ => rfl
  | x :: l, y :: m, hl, h => by
    obtain ⟨y', h1, h2⟩ := h 0 x (by simp)
    have : y = y' := by simpa using h1
    subst this
    have ih := mapM_option_eq f l m (by simpa using hl) (fun k z hz => by
      simpa using h (k + 1) z (by simpa using hz))
    simp [List.mapM_cons, h2, ih]

theorem mapM_option_congr {α α' β : Type} (f : α → Option β) (g : α' → Option β) :
    ∀ (l : List α) (m : List α'), l.length = m.length →
    (∀ (k : Nat) (x : α) (y : α'), l[k]? = some x → m[k]? = some y → f x = g y) → l.mapM f = m.mapM g
  | [], [], _, _ => rfl
  | x :: l, y :: m, hl, h => by
    have h0 := h 0 x y (by simp) (by simp)
    have ih := mapM_option_congr f g l m (by simpa using hl) (fun k a b ha hb => by
      exact h (k + 1) a b (by simpa using ha) (by simpa using hb))
    simp [List.mapM_cons, h0, ih]

/-! ### Slots -/

theorem slots_get : ∀ (row : List (List K)) (types : List Int) (p : Nat) (i j : Nat),
    HasComp 1 types row i j →
    ((slots p types row)[i]?.bind (fun s => s[j]?)) = some (p + before 1 types row i + j)
  | [], types, p, i, j, h => by obtain ⟨_, c, hc, _⟩ := h; simp at hc
  | c :: cs, [], p, i, j, h => by obtain ⟨hc, _⟩ := h; simp at hc
  | c :: cs, t :: ts, p, i, j, h => by
    obtain ⟨hi, d, hd, hj⟩ := h
    cases i with
    | zero =>
      have ht : t = 1 := by simpa using hi
      have hcd : c = d := by simpa using hd
      subst hcd
      simp [slots, ht, before, hj]
    | succ i =>
      have hb : before 1 (t :: ts) (c :: cs) (i + 1) = (if t = 1 then c.length else 0) + before 1 ts cs i := by
        simp [before]
      by_cases ht : t = 1
      · have ih := slots_get cs ts (p + c.length) i j ⟨by simpa using hi, d, by simpa using hd, hj⟩
        simp only [slots, ht, if_true, List.getElem?_cons_succ, ih]
        subst ht
        rw [hb]
        simp
        omega
      · have ih := slots_get cs ts p i j ⟨by simpa using hi, d, by simpa using hd, hj⟩
        simp only [slots, ht, if_false, List.getElem?_cons_succ, ih]
        rw [hb]
        simp [ht]

theorem before_succ (ty : Int) : ∀ (row : List (List K)) (types : List Int) (i : Nat) (c : List K),
    types[i]? = some ty → row[i]? = some c →
    before ty types row (i + 1) = before ty types row i + c.length
  | [], types, i, c, _, h => by simp at h
  | c :: cs, [], i, d, h, _ => by simp at h
  | c :: cs, t :: ts, i, d, h1, h2 => by
    cases i with
    | zero =>
      have ht : t = ty := by simpa using h1
      have hcd : c = d := by simpa using h2
      simp [before, ht, hcd]
    | succ i =>
      have ih := before_succ ty cs ts i d (by simpa using h1) (by simpa using h2)
      have hb : ∀ n : Nat, before ty (t :: ts) (c :: cs) (n + 1) = (if t = ty then c.length else 0) + before ty ts cs n := by
        intro n; simp [before]
      rw [hb, hb, ih]
      omega

theorem before_mono (ty : Int) (types : List Int) (row : List (List K)) {i k : Nat} (h : i ≤ k) :
    before ty types row i ≤ before ty types row k := by
  unfold before
  obtain ⟨d, rfl⟩ := Nat.exists_eq_add_of_le h
  rw [List.take_add]
  simp

theorem before_le_count (ty : Int) (types : List Int) (row : List (List K)) (i : Nat) :
    before ty types row i ≤ count ty types row := by
  unfold before count
  have := congrArg (fun l => (l.map (fun q : Int × List K => if q.1 = ty then q.2.length else 0)).sum)
    (List.take_append_drop i (types.zip row))
  simp only [List.map_append, List.sum_append] at this
  omega

theorem exists_comp (ty : Int) : ∀ (row : List (List K)) (types : List Int) (s : Nat), s < count ty types row →
    ∃ i j, HasComp ty types row i j ∧ before ty types row i + j = s
  | [], types, s, h => by simp [count] at h
  | c :: cs, [], s, h => by simp [count] at h
  | c :: cs, t :: ts, s, h => by
    rw [count_cons] at h
    have hb : ∀ n : Nat, before ty (t :: ts) (c :: cs) (n + 1) = (if t = ty then c.length else 0) + before ty ts cs n := by
      intro n; simp [before]
    by_cases ht : t = ty
    · rw [if_pos ht] at h
      by_cases hs : s < c.length
      · exact ⟨0, s, ⟨by simp [ht], c, by simp, hs⟩, by simp [before]⟩
      · obtain ⟨i, j, ⟨h1, d, h2, h3⟩, h4⟩ := exists_comp ty cs ts (s - c.length) (by omega)
        refine ⟨i + 1, j, ⟨by simpa using h1, d, by simpa using h2, h3⟩, ?_⟩
        rw [hb, if_pos ht]
        omega
    · rw [if_neg ht] at h
      obtain ⟨i, j, ⟨h1, d, h2, h3⟩, h4⟩ := exists_comp ty cs ts s (by omega)
      refine ⟨i + 1, j, ⟨by simpa using h1, d, by simpa using h2, h3⟩, ?_⟩
      rw [hb, if_neg ht]
      omega

theorem comp_pos_inj (ty : Int) (types : List Int) (row : List (List K)) (i j i' j' : Nat)
    (h : HasComp ty types row i j) (h' : HasComp ty types row i' j')
    (he : before ty types row i + j = before ty types row i' + j') : i = i' ∧ j = j' := by
  obtain ⟨h1, c, h2, h3⟩ := h
  obtain ⟨h1', c', h2', h3'⟩ := h'
  have e1 := before_succ ty row types i c h1 h2
  have e2 := before_succ ty row types i' c' h1' h2'
  rcases Nat.lt_trichotomy i i' with hlt | heq | hgt
  · have := before_mono ty types row (show i + 1 ≤ i' from hlt)
    omega
  · subst heq
    exact ⟨rfl, by omega⟩
  · have := before_mono ty types row (show i' + 1 ≤ i from hgt)
    omega

theorem comp_pos_lt (ty : Int) (types : List Int) (row : List (List K)) (i j : Nat)
    (h : HasComp ty types row i j) : before ty types row i + j < count ty types row := by
  obtain ⟨h1, c, h2, h3⟩ := h
  have e1 := before_succ ty row types i c h1 h2
  have := before_le_count ty types row (i + 1)
  omega

end MrHyDE.Param
