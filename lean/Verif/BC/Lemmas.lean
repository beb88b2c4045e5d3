import Verif.BC.Model
import Mathlib.Data.List.Sort

set_option linter.unusedSectionVars false

namespace MrHyDE.BC

theorem sorted_perm (l : List Int) : (sorted l).Perm l := List.perm_insertionSort _ l

theorem sorted_mem (l : List Int) (x : Int) : x ∈ sorted l ↔ x ∈ l := (sorted_perm l).mem_iff

theorem sorted_pairwise (l : List Int) : (sorted l).Pairwise (· ≤ ·) := List.pairwise_insertionSort _ l

theorem uniq_mem : ∀ (l : List Int) (x : Int), x ∈ uniq l ↔ x ∈ l
  | [], x => by simp [uniq]
  | [a], x => by simp [uniq]
  | a :: b :: t, x => by
    rw [uniq]
    by_cases h : a = b
    · rw [if_pos h, uniq_mem (b :: t) x, h]
      simp
    · rw [if_neg h, List.mem_cons, uniq_mem (b :: t) x, List.mem_cons (a := x) (b := a)]

theorem uniq_strict : ∀ (l : List Int), l.Pairwise (· ≤ ·) → (uniq l).Pairwise (· < ·)
  | [], _ => by simp [uniq]
  | [a], _ => by simp [uniq]
  | a :: b :: t, h => by
    have hb := (List.pairwise_cons.1 h).2
    rw [uniq]
    by_cases hab : a = b
    · rw [if_pos hab]
      exact uniq_strict _ hb
    · rw [if_neg hab, List.pairwise_cons]
      refine ⟨fun x hx => ?_, uniq_strict _ hb⟩
      rw [uniq_mem] at hx
      have h1 := (List.pairwise_cons.1 h).1 b (by simp)
      have h2 : b ≤ x := by
        rcases List.mem_cons.1 hx with rfl | hx
        · exact le_refl _
        · exact (List.pairwise_cons.1 hb).1 x hx
      omega

theorem setInter_mem (s t : List Int) (x : Int) (hs : s.Pairwise (· ≤ ·)) (ht : t.Pairwise (· ≤ ·)) :
    x ∈ setInter s t ↔ x ∈ s ∧ x ∈ t := by
  induction s, t using setInter.induct with
  | case1 t => simp [setInter]
  | case2 a s => simp [setInter]
  | case3 a s b t hab ih =>
    rw [setInter, if_pos hab, ih (List.pairwise_cons.1 hs).2 ht]
    constructor
    · rintro ⟨h1, h2⟩
      exact ⟨List.mem_cons_of_mem _ h1, h2⟩
    · rintro ⟨h1, h2⟩
      refine ⟨?_, h2⟩
      rcases List.mem_cons.1 h1 with rfl | h1
      · exfalso
        rcases List.mem_cons.1 h2 with rfl | h2
        · omega
        · have := (List.pairwise_cons.1 ht).1 x h2
          omega
      · exact h1
  | case4 a s b t hab hba ih =>
    rw [setInter, if_neg hab, if_pos hba, ih hs (List.pairwise_cons.1 ht).2]
    constructor
    · rintro ⟨h1, h2⟩
      exact ⟨h1, List.mem_cons_of_mem _ h2⟩
    · rintro ⟨h1, h2⟩
      refine ⟨h1, ?_⟩
      rcases List.mem_cons.1 h2 with rfl | h2
      · exfalso
        rcases List.mem_cons.1 h1 with rfl | h1
        · omega
        · have := (List.pairwise_cons.1 hs).1 x h1
          omega
      · exact h2
  | case5 a s b t hab hba ih =>
    have e : a = b := by omega
    subst e
    rw [setInter, if_neg hab, if_neg hba, List.mem_cons, ih (List.pairwise_cons.1 hs).2 (List.pairwise_cons.1 ht).2]
    simp only [List.mem_cons]
    tauto

theorem setInter_sublist (s t : List Int) : (setInter s t).Sublist t := by
  induction s, t using setInter.induct with
  | case1 t => simp [setInter]
  | case2 a s => simp [setInter]
  | case3 a s b t hab ih => rw [setInter, if_pos hab]; exact ih
  | case4 a s b t hab hba ih => rw [setInter, if_neg hab, if_pos hba]; exact ih.cons _
  | case5 a s b t hab hba ih =>
    have e : a = b := by omega
    subst e
    rw [setInter, if_neg hab, if_neg hba]
    exact ih.cons_cons _

theorem foldl_append_single {A : Type} (f : A → Int) : ∀ (l : List A) (acc : List Int),
    l.foldl (fun acc o => acc ++ [f o]) acc = acc ++ l.map f := by
  intro l
  induction l with
  | nil => intro acc; simp
  | cons a t ih => intro acc; rw [List.foldl_cons, ih]; simp

theorem foldl_append {A : Type} (F : List Int → A → List Int) (f : A → List Int) (h : ∀ acc a, F acc a = acc ++ f a) :
    ∀ (l : List A) (acc : List Int), l.foldl F acc = acc ++ l.flatMap f := by
  intro l
  induction l with
  | nil => intro acc; simp
  | cons a t ih => intro acc; rw [List.foldl_cons, ih, h]; simp

theorem nodeSetDofs_prefix (gids : Nat → List Int) (off : List Nat) (base : List Int) (ho : ∀ o ∈ off, o < base.length) :
    ∀ (l : List (Nat × Nat)) (acc : List Int), base <+: acc → (∀ x ∈ l, x.2 < off.length) →
    nodeSetDofs gids off l acc = some (l.map (fun x => base.getD (off.getD x.2 0) 0)) := by
  intro l
  induction l with
  | nil => intro acc _ _; rfl
  | cons a t ih =>
    intro acc hp hl
    have ha := hl a (by simp)
    rw [nodeSetDofs, List.getElem?_eq_getElem ha]
    simp only
    have hb : off[a.2] < base.length := ho _ (List.getElem_mem ha)
    have hpp : base <+: acc ++ gids a.1 := hp.trans (List.prefix_append _ _)
    have hlen : off[a.2] < (acc ++ gids a.1).length := lt_of_lt_of_le hb hpp.length_le
    have hget : (acc ++ gids a.1)[off[a.2]] = base[off[a.2]] := by
      obtain ⟨r, hr⟩ := hpp
      have : (acc ++ gids a.1)[off[a.2]] = (base ++ r)[off[a.2]]'(by rw [List.length_append]; omega) := by
        congr 1; exact hr.symm
      rw [this, List.getElem_append_left hb]
    rw [List.getElem?_eq_getElem hlen]
    simp only
    rw [ih (acc ++ gids a.1) hpp (fun x hx => hl x (List.mem_cons_of_mem _ hx)), hget]
    rw [Option.map_some, List.map_cons]
    congr 2
    rw [List.getD_eq_getElem?_getD, List.getD_eq_getElem?_getD, List.getElem?_eq_getElem ha, Option.getD_some,
      List.getElem?_eq_getElem hb, Option.getD_some]

end MrHyDE.BC
