import Verif.Assembly.Groups
import Mathlib.Data.List.Perm.Basic
import Mathlib.Data.List.Range
import Mathlib.Tactic.Common

/-! # Assembly: grouping of elements, lemmas -/

namespace MrHyDE.Assembly

/-! ### Consecutive pieces -/

theorem seqLoop_spec (w n : Nat) (hw : 1 ≤ w) : ∀ (fuel prog : Nat), n - prog ≤ fuel →
    ∃ r, seqLoop w n fuel prog = some r ∧ r.flatten = List.range' prog (n - prog) ∧
      (∀ g ∈ r, g ≠ [] ∧ g.length ≤ w) ∧ r.Pairwise (fun a b => b.length ≤ a.length) := by
  intro fuel
  induction fuel with
  | zero =>
    intro prog h
    have hn : ¬ prog < n := by omega
    refine ⟨[], ?_, ?_, ?_, List.Pairwise.nil⟩
    · unfold seqLoop; simp [hn]
    · have : n - prog = 0 := by omega
      simp [this]
    · simp
  | succ f ih =>
    intro prog h
    by_cases hn : prog < n
    · obtain ⟨r, h1, h2, h3, h4⟩ := ih (prog + (if prog + w > n then n - prog else w)) (by split_ifs <;> omega)
      refine ⟨List.range' prog (if prog + w > n then n - prog else w) :: r, ?_, ?_, ?_, ?_⟩
      · unfold seqLoop
        simp only [hn, if_true, h1, Option.map_some]
      · rw [List.flatten_cons, h2, List.range'_append_1]
        congr 1
        split_ifs <;> omega
      · intro g hg
        rcases List.mem_cons.1 hg with rfl | hg
        · constructor
          · rw [Ne, List.range'_eq_nil_iff]; split_ifs <;> omega
          · rw [List.length_range']; split_ifs <;> omega
        · exact h3 g hg
      · refine List.Pairwise.cons ?_ h4
        intro g hg
        rw [List.length_range']
        have hl := (h3 g hg).2
        have hs : g.length ≤ n - (prog + (if prog + w > n then n - prog else w)) := by
          have := List.Sublist.length_le (List.sublist_flatten_of_mem hg)
          rw [h2, List.length_range'] at this
          exact this
        split_ifs at * <;> omega
    · refine ⟨[], ?_, ?_, ?_, List.Pairwise.nil⟩
      · unfold seqLoop; simp [hn]
      · have : n - prog = 0 := by omega
        simp [this]
      · simp

theorem seqLoop_zero (n : Nat) : ∀ (fuel prog : Nat), prog < n → seqLoop 0 n fuel prog = none := by
  intro fuel
  induction fuel with
  | zero => intro prog h; unfold seqLoop; simp [h]
  | succ f ih =>
    intro prog h
    unfold seqLoop
    have : ¬ n < prog := by omega
    simp [h, this, ih prog h]

theorem chunkLoop_spec (w : Nat) (hw : 1 ≤ w) (l : List Nat) : ∀ (fuel prog : Nat), l.length - prog ≤ fuel →
    ∃ r, chunkLoop w l fuel prog = some r ∧ r.flatten = l.drop prog ∧ (∀ g ∈ r, g ≠ [] ∧ g.length ≤ w) := by
  intro fuel
  induction fuel with
  | zero =>
    intro prog h
    have hn : ¬ prog < l.length := by omega
    refine ⟨[], ?_, ?_, ?_⟩
    · unfold chunkLoop; simp [hn]
    · have : l.length ≤ prog := by omega
      simp [List.drop_eq_nil_of_le this]
    · simp
  | succ f ih =>
    intro prog h
    by_cases hn : prog < l.length
    · obtain ⟨r, h1, h2, h3⟩ := ih (prog + (if prog + w > l.length then l.length - prog else w))
        (by split_ifs <;> omega)
      refine ⟨(l.drop prog).take (if prog + w > l.length then l.length - prog else w) :: r, ?_, ?_, ?_⟩
      · unfold chunkLoop
        simp only [hn, if_true, h1, Option.map_some]
      · rw [List.flatten_cons, h2, ← List.drop_drop, List.take_append_drop]
      · intro g hg
        rcases List.mem_cons.1 hg with rfl | hg
        · constructor
          · intro h0
            have := congrArg List.length h0
            rw [List.length_take, List.length_drop, List.length_nil] at this
            split_ifs at this <;> omega
          · rw [List.length_take]; split_ifs <;> omega
        · exact h3 g hg
    · refine ⟨[], ?_, ?_, ?_⟩
      · unfold chunkLoop; simp [hn]
      · have : l.length ≤ prog := by omega
        simp [List.drop_eq_nil_of_le this]
      · simp

/-! ### Subgrid-preserving groups -/

theorem firstFree_spec (added : Nat → Bool) (n : Nat) : ∀ (f ref : Nat), n - ref ≤ f →
    (firstFree added n f ref < n → added (firstFree added n f ref) = false) ∧ ref ≤ firstFree added n f ref ∧
    (∀ k, ref ≤ k → k < firstFree added n f ref → added k = true) ∧
    (ref ≤ n → firstFree added n f ref ≤ n) := by
  intro f
  induction f with
  | zero =>
    intro ref h
    refine ⟨fun h1 => ?_, ?_, ?_, ?_⟩ <;> simp only [firstFree] at *
    · omega
    · exact Nat.le_refl _
    · intro k h1 h2; omega
    · exact fun h => h
  | succ f ih =>
    intro ref h
    by_cases h1 : ref < n
    · by_cases h2 : added ref = true
      · have he : firstFree added n (f + 1) ref = firstFree added n f (ref + 1) := by simp [firstFree, h1, h2]
        obtain ⟨i1, i2, i3, i4⟩ := ih (ref + 1) (by omega)
        rw [he]
        refine ⟨i1, by omega, ?_, fun _ => i4 (by omega)⟩
        intro k hk hk2
        by_cases hkr : k = ref
        · rw [hkr]; exact h2
        · exact i3 k (by omega) hk2
      · have he : firstFree added n (f + 1) ref = ref := by simp [firstFree, h1, h2]
        rw [he]
        refine ⟨fun _ => by simpa using h2, Nat.le_refl _, ?_, fun h => h⟩
        intro k hk hk2; omega
    · have he : firstFree added n (f + 1) ref = ref := by simp [firstFree, h1]
      rw [he]
      refine ⟨fun h => absurd h h1, Nat.le_refl _, ?_, fun h => h⟩
      intro k hk hk2; omega

theorem countP_mark (a : Nat → Bool) (j : Nat) (hj : a j = false) : ∀ n,
    (List.range n).countP (mark a j) = (List.range n).countP a + (if j < n then 1 else 0) := by
  intro n
  induction n with
  | zero => simp
  | succ n ih =>
    rw [List.range_succ, List.countP_append, List.countP_append, ih]
    by_cases h : j = n
    · subst h
      simp [mark, hj]
    · have h2 : mark a j n = a n := by simp [mark, Ne.symm h]
      have h3 : (j < n + 1) ↔ j < n := by omega
      simp only [List.countP_cons, List.countP_nil, h2, h3]
      omega

/-- Elements of equal signature enter groups in increasing order. -/
def Prefix (sig : Nat → List Bool) (n : Nat) (added : Nat → Bool) : Prop :=
  ∀ i j, i < j → j < n → sig i = sig j → added j = true → added i = true

/-- Invariant of the inner loop after the indices below `m` have been looked at. -/
structure Inner (sig : Nat → List Bool) (w n ref : Nat) (added0 : Nat → Bool) (m : Nat) (s : SG) : Prop where
  bnd : ∀ k ∈ s.group, ref ≤ k ∧ k < m
  nd : s.group.Nodup
  sg : ∀ k ∈ s.group, sig k = sig ref
  ne : s.group ≠ []
  len : s.group.length ≤ w
  add : ∀ k, s.added k = true ↔ added0 k = true ∨ k ∈ s.group
  cnt : s.numAdded = (List.range n).countP s.added
  all : s.group.length < w → ∀ i, ref ≤ i → i < m → sig i = sig ref → i ∈ s.group
  pre : ∀ i j, ref ≤ i → i < j → sig i = sig ref → j ∈ s.group → i ∈ s.group

theorem inner_start (sig : Nat → List Bool) (w n ref : Nat) (added : Nat → Bool) (k : Nat) (hw : 1 ≤ w)
    (hr : ref < n) (hf : added ref = false) (hk : k = (List.range n).countP added) :
    Inner sig w n ref added (ref + 1) { added := mark added ref, numAdded := k + 1, group := [ref] } where
  bnd := by intro k hk; simp at hk; omega
  nd := by simp
  sg := by intro k hk; simp at hk; rw [hk]
  ne := by simp
  len := by simpa using hw
  add := by
    intro k
    by_cases h : k = ref <;> simp [mark, h]
  cnt := by simp only; rw [countP_mark added ref hf n, hk]; simp [hr]
  all := by
    intro _ i h1 h2 _
    have : i = ref := by omega
    simp [this]
  pre := by
    intro i j h1 h2 _ hj
    simp at hj; omega

theorem inner_step (sig : Nat → List Bool) (w n ref : Nat) (added : Nat → Bool)
    (hpre : Prefix sig n added) (hf : added ref = false) (m : Nat) (hm : ref < m) (hmn : m < n) (s : SG)
    (h : Inner sig w n ref added m s) : Inner sig w n ref added (m + 1) (sgStep sig w ref s m) := by
  by_cases hc : sig m = sig ref ∧ s.group.length < w
  · have he : sgStep sig w ref s m =
        { added := mark s.added m, numAdded := s.numAdded + 1, group := s.group ++ [m] } := by
      simp [sgStep, hc]
    rw [he]
    have hnotin : m ∉ s.group := fun hin => by have := (h.bnd m hin).2; omega
    have hfree0 : ¬ added m = true := fun ha => by
      have := hpre ref m hm hmn hc.1.symm ha
      rw [hf] at this; cases this
    have hfree : s.added m = false := by
      cases ha : s.added m with
      | false => rfl
      | true =>
        rcases (h.add m).1 ha with h1 | h1
        · exact absurd h1 hfree0
        · exact absurd h1 hnotin
    refine ⟨?_, ?_, ?_, ?_, ?_, ?_, ?_, ?_, ?_⟩
    · intro k hk
      rcases List.mem_append.1 hk with hk | hk
      · have := h.bnd k hk; omega
      · simp at hk; omega
    · rw [List.nodup_append]
      refine ⟨h.nd, by simp, ?_⟩
      intro a ha b hb
      simp at hb
      rintro rfl
      exact hnotin (hb ▸ ha)
    · intro k hk
      rcases List.mem_append.1 hk with hk | hk
      · exact h.sg k hk
      · simp at hk; rw [hk]; exact hc.1
    · simp
    · simp; exact hc.2
    · intro k
      by_cases hkm : k = m
      · subst hkm; simp [mark]
      · have : (mark s.added m) k = s.added k := by simp [mark, hkm]
        simp only [this, h.add k, List.mem_append, List.mem_singleton, hkm, or_false]
    · simp only
      rw [countP_mark s.added m hfree n, ← h.cnt]; simp [hmn]
    · intro _ i h1 h2 h3
      by_cases hi : i = m
      · simp [hi]
      · exact List.mem_append_left _ (h.all hc.2 i h1 (by omega) h3)
    · intro i j h1 h2 h3 hj
      rcases List.mem_append.1 hj with hj | hj
      · exact List.mem_append_left _ (h.pre i j h1 h2 h3 hj)
      · simp at hj
        exact List.mem_append_left _ (h.all hc.2 i h1 (by omega) h3)
  · have he : sgStep sig w ref s m = s := by simp [sgStep, hc]
    rw [he]
    refine ⟨?_, h.nd, h.sg, h.ne, h.len, h.add, h.cnt, ?_, h.pre⟩
    · intro k hk; have := h.bnd k hk; omega
    · intro hl i h1 h2 h3
      by_cases hi : i = m
      · subst hi
        exact absurd ⟨h3, hl⟩ hc
      · exact h.all hl i h1 (by omega) h3

theorem inner_fold (sig : Nat → List Bool) (w n ref : Nat) (added : Nat → Bool)
    (hpre : Prefix sig n added) (hf : added ref = false) : ∀ (c m : Nat) (s : SG), ref < m → m + c ≤ n →
    Inner sig w n ref added m s → Inner sig w n ref added (m + c) ((List.range' m c).foldl (sgStep sig w ref) s) := by
  intro c
  induction c with
  | zero => intro m s _ _ h; simpa using h
  | succ c ih =>
    intro m s h1 h2 h
    rw [List.range'_succ, List.foldl_cons]
    have := ih (m + 1) (sgStep sig w ref s m) (by omega) (by omega)
      (inner_step sig w n ref added hpre hf m h1 (by omega) s h)
    rwa [show m + 1 + c = m + (c + 1) by omega] at this

theorem sgGroup_inner (sig : Nat → List Bool) (w n ref : Nat) (added : Nat → Bool) (k : Nat) (hw : 1 ≤ w)
    (hr : ref < n) (hf : added ref = false) (hk : k = (List.range n).countP added) (hpre : Prefix sig n added) :
    Inner sig w n ref added n (sgGroup sig w n ref added k) := by
  have := inner_fold sig w n ref added hpre hf (n - (ref + 1)) (ref + 1) _ (by omega) (by omega)
    (inner_start sig w n ref added k hw hr hf hk)
  rwa [show ref + 1 + (n - (ref + 1)) = n by omega] at this

theorem prefix_after (sig : Nat → List Bool) (w n ref : Nat) (added : Nat → Bool) (s : SG)
    (hmin : ∀ k, k < ref → added k = true) (hpre : Prefix sig n added) (h : Inner sig w n ref added n s) :
    Prefix sig n s.added := by
  intro i j hij hj hs ha
  rcases (h.add j).1 ha with h1 | h1
  · exact (h.add i).2 (Or.inl (hpre i j hij hj hs h1))
  · by_cases hi : i < ref
    · exact (h.add i).2 (Or.inl (hmin i hi))
    · exact (h.add i).2 (Or.inr (h.pre i j (by omega) hij (hs.trans (h.sg j h1)) h1))

theorem countP_lt_exists (a : Nat → Bool) (n : Nat) (h : (List.range n).countP a < n) : ∃ k, k < n ∧ a k = false := by
  by_contra hc
  push Not at hc
  have : (List.range n).countP a = (List.range n).length := by
    rw [List.countP_eq_length]
    intro k hk
    have := hc k (List.mem_range.1 hk)
    simpa using this
  rw [List.length_range] at this
  omega

theorem sgLoop_spec (sig : Nat → List Bool) (w n : Nat) (hw : 1 ≤ w) : ∀ (fuel : Nat) (added : Nat → Bool) (k : Nat),
    k = (List.range n).countP added → n - k ≤ fuel → Prefix sig n added →
    ∃ r, sgLoop sig w n fuel added k = some r ∧ r.flatten.Nodup ∧
      (∀ e, e ∈ r.flatten ↔ e < n ∧ added e = false) ∧
      (∀ g ∈ r, g ≠ [] ∧ g.length ≤ w ∧ ∀ a ∈ g, ∀ b ∈ g, sig a = sig b) := by
  intro fuel
  induction fuel with
  | zero =>
    intro added k hk hf _
    have hn : ¬ k < n := by omega
    refine ⟨[], by unfold sgLoop; simp [hn], by simp, ?_, by simp⟩
    intro e
    have hall : ∀ x, x < n → added x = true := by
      have hle := List.countP_le_length (p := added) (l := List.range n)
      rw [List.length_range] at hle
      have : (List.range n).countP added = (List.range n).length := by rw [List.length_range]; omega
      rw [List.countP_eq_length] at this
      intro x hx
      exact this x (List.mem_range.2 hx)
    constructor
    · intro h; simp at h
    · rintro ⟨h1, h2⟩; rw [hall e h1] at h2; cases h2
  | succ f ih =>
    intro added k hk hf hpre
    by_cases hn : k < n
    · obtain ⟨x, hx, hxa⟩ := countP_lt_exists added n (by omega)
      obtain ⟨f1, _, f3, f4⟩ := firstFree_spec added n n 0 (by omega)
      have hr : firstFree added n n 0 < n := by
        by_contra hge
        have := f3 x (by omega) (by omega)
        rw [hxa] at this; cases this
      have hfr := f1 hr
      have hI := sgGroup_inner sig w n _ added k hw hr hfr hk hpre
      set s := sgGroup sig w n (firstFree added n n 0) added k with hs
      have hpre' := prefix_after sig w n _ added s (fun k hk => f3 k (by omega) hk) hpre hI
      have hgt : k < s.numAdded := by
        have hle : s.numAdded ≥ k + 1 := by
          rw [hI.cnt, hk]
          have hmono : (List.range n).countP (mark added (firstFree added n n 0)) ≤ (List.range n).countP s.added := by
            apply List.countP_mono_left
            intro y _ hy
            by_cases hyr : y = firstFree added n n 0
            · rw [hyr]
              refine (hI.add _).2 (Or.inr ?_)
              rcases List.exists_mem_of_ne_nil _ hI.ne with ⟨z, hz⟩
              by_cases hzr : z = firstFree added n n 0
              · exact hzr ▸ hz
              · exact hI.pre _ z (Nat.le_refl _) (by have := (hI.bnd z hz).1; omega) rfl hz
            · have : added y = true := by simpa [mark, hyr] using hy
              exact (hI.add y).2 (Or.inl this)
          rw [countP_mark added _ hfr n] at hmono
          simp [hr] at hmono
          omega
        omega
      obtain ⟨r, h1, h2, h3, h4⟩ := ih s.added s.numAdded hI.cnt (by omega) hpre'
      refine ⟨s.group :: r, ?_, ?_, ?_, ?_⟩
      · unfold sgLoop
        simp only [hn, if_true, hr]
        rw [← hs, h1]; rfl
      · rw [List.flatten_cons, List.nodup_append]
        refine ⟨hI.nd, h2, ?_⟩
        intro a ha b hb hab
        subst hab
        have := ((h3 a).1 hb).2
        rw [(hI.add a).2 (Or.inr ha)] at this
        cases this
      · intro e
        rw [List.flatten_cons, List.mem_append, h3 e]
        constructor
        · rintro (he | ⟨h5, h6⟩)
          · refine ⟨(hI.bnd e he).2, ?_⟩
            cases ha : added e with
            | false => rfl
            | true =>
              exfalso
              have hsg := hI.sg e he
              rcases Nat.lt_or_ge (firstFree added n n 0) e with hlt | hge
              · have := hpre _ e hlt (hI.bnd e he).2 hsg.symm ha
                rw [hfr] at this; cases this
              · have : e = firstFree added n n 0 := by have := (hI.bnd e he).1; omega
                rw [this, hfr] at ha; cases ha
          · refine ⟨h5, ?_⟩
            cases ha : added e with
            | false => rfl
            | true => rw [(hI.add e).2 (Or.inl ha)] at h6; cases h6
        · rintro ⟨h5, h6⟩
          by_cases he : e ∈ s.group
          · exact Or.inl he
          · refine Or.inr ⟨h5, ?_⟩
            cases ha : s.added e with
            | false => rfl
            | true =>
              rcases (hI.add e).1 ha with h7 | h7
              · rw [h6] at h7; cases h7
              · exact absurd h7 he
      · intro g hg
        rcases List.mem_cons.1 hg with rfl | hg
        · exact ⟨hI.ne, hI.len, fun a ha b hb => (hI.sg a ha).trans (hI.sg b hb).symm⟩
        · exact h4 g hg
    · refine ⟨[], by unfold sgLoop; simp [hn], by simp, ?_, by simp⟩
      intro e
      have hall : ∀ x, x < n → added x = true := by
        have hle := List.countP_le_length (p := added) (l := List.range n)
        rw [List.length_range] at hle
        have : (List.range n).countP added = (List.range n).length := by rw [List.length_range]; omega
        rw [List.countP_eq_length] at this
        intro x hx
        exact this x (List.mem_range.2 hx)
      constructor
      · intro h; simp at h
      · rintro ⟨h1, h2⟩; rw [hall e h1] at h2; cases h2

/-! ### Re-ordering -/

/-- Size of the group at a position. -/
def lenAt (gs : List (List Nat)) (k : Nat) : Nat := (gs[k]?.getD []).length

theorem maxFrom_fold (gs : List (List Nat)) (g : Nat) : ∀ (c s m : Nat), g ≤ m → m < s → (∀ k, g ≤ k → k < s → lenAt gs k ≤ lenAt gs m) →
    g ≤ (List.range' s c).foldl (fun m k => if (gs[k]?.getD []).length > (gs[m]?.getD []).length then k else m) m ∧
    (List.range' s c).foldl (fun m k => if (gs[k]?.getD []).length > (gs[m]?.getD []).length then k else m) m < s + c ∧
    ∀ k, g ≤ k → k < s + c → lenAt gs k ≤
      lenAt gs ((List.range' s c).foldl (fun m k => if (gs[k]?.getD []).length > (gs[m]?.getD []).length then k else m) m) := by
  intro c
  induction c with
  | zero => intro s m h1 h2 h3; exact ⟨h1, h2, h3⟩
  | succ c ih =>
    intro s m h1 h2 h3
    rw [List.range'_succ, List.foldl_cons]
    by_cases hgt : (gs[s]?.getD []).length > (gs[m]?.getD []).length
    · rw [if_pos hgt]
      have := ih (s + 1) s (by omega) (by omega) (by
        intro k hk1 hk2
        by_cases hks : k = s
        · rw [hks]
        · have := h3 k hk1 (by omega)
          unfold lenAt at this ⊢
          omega)
      rwa [show s + 1 + c = s + (c + 1) by omega] at this
    · rw [if_neg hgt]
      have := ih (s + 1) m h1 (by omega) (by
        intro k hk1 hk2
        by_cases hks : k = s
        · rw [hks]; unfold lenAt; omega
        · exact h3 k hk1 (by omega))
      rwa [show s + 1 + c = s + (c + 1) by omega] at this

theorem maxFrom_spec (gs : List (List Nat)) (g : Nat) (hg : g < gs.length) :
    g ≤ maxFrom gs g ∧ maxFrom gs g < gs.length ∧ ∀ k, g ≤ k → k < gs.length → lenAt gs k ≤ lenAt gs (maxFrom gs g) := by
  have := maxFrom_fold gs g (gs.length - (g + 1)) (g + 1) g (Nat.le_refl _) (by omega) (by
    intro k h1 h2
    have : k = g := by omega
    rw [this])
  rwa [show g + 1 + (gs.length - (g + 1)) = gs.length by omega] at this

theorem swapAt_perm (gs : List (List Nat)) (a b : Nat) (ha : a < gs.length) (hb : b < gs.length) :
    (swapAt gs a b).Perm gs := by
  unfold swapAt
  have h1 : gs[b]?.getD [] = gs[b] := by simp [hb]
  have h2 : gs[a]?.getD [] = gs[a] := by simp [ha]
  rw [h1, h2]
  exact List.set_set_perm ha hb

theorem swapAt_get (gs : List (List Nat)) (a b : Nat) (ha : a < gs.length) (hb : b < gs.length) (k : Nat) :
    lenAt (swapAt gs a b) k = if k = b then lenAt gs a else if k = a then lenAt gs b else lenAt gs k := by
  unfold swapAt lenAt
  by_cases h1 : k = b
  · subst h1
    rw [List.getElem?_set_self (by simpa using hb)]
    simp
  · rw [List.getElem?_set_ne (Ne.symm h1)]
    by_cases h2 : k = a
    · subst h2
      rw [List.getElem?_set_self ha]
      simp [h1]
    · rw [List.getElem?_set_ne (Ne.symm h2)]
      simp [h1, h2]

theorem reorder_fold (gs : List (List Nat)) : ∀ (c : Nat), c ≤ gs.length - 1 →
    ((List.range c).foldl (fun r g => swapAt r g (maxFrom r g)) gs).Perm gs ∧
    ∀ i k, i < c → i < k → k < gs.length →
      lenAt ((List.range c).foldl (fun r g => swapAt r g (maxFrom r g)) gs) k ≤
      lenAt ((List.range c).foldl (fun r g => swapAt r g (maxFrom r g)) gs) i := by
  intro c
  induction c with
  | zero => intro _; exact ⟨by simp, by intro i k h; omega⟩
  | succ c ih =>
    intro hc
    obtain ⟨hp, hs⟩ := ih (by omega)
    rw [List.range_succ, List.foldl_append]
    simp only [List.foldl_cons, List.foldl_nil]
    set r := (List.range c).foldl (fun r g => swapAt r g (maxFrom r g)) gs with hr
    have hl : r.length = gs.length := hp.length_eq
    obtain ⟨m1, m2, m3⟩ := maxFrom_spec r c (by omega)
    refine ⟨(swapAt_perm r c _ (by omega) m2).trans hp, ?_⟩
    intro i k hi hik hk
    rw [swapAt_get r c _ (by omega) m2, swapAt_get r c _ (by omega) m2]
    have hbig : ∀ j, c ≤ j → j < gs.length → lenAt r j ≤ lenAt r (maxFrom r c) := fun j h1 h2 => m3 j h1 (by omega)
    by_cases hic : i = c
    · subst hic
      have e1 : (if i = maxFrom r i then lenAt r i else if i = i then lenAt r (maxFrom r i) else lenAt r i) =
          lenAt r (maxFrom r i) := by
        by_cases h : i = maxFrom r i
        · rw [if_pos h]; exact congrArg (lenAt r) h
        · rw [if_neg h, if_pos rfl]
      rw [e1]
      split_ifs
      · exact hbig i (Nat.le_refl _) (by omega)
      · exact Nat.le_refl _
      · exact hbig k (by omega) hk
    · have hic' : i < c := by omega
      have e1 : (if i = maxFrom r c then lenAt r c else if i = c then lenAt r (maxFrom r c) else lenAt r i) = lenAt r i := by
        rw [if_neg (by omega), if_neg hic]
      rw [e1]
      split_ifs
      · exact hs i c hic' (by omega) (by omega)
      · exact hs i _ hic' (by omega) (by omega)
      · exact hs i k hic' hik hk

theorem reorder_perm (gs : List (List Nat)) : (reorder gs).Perm gs := (reorder_fold gs _ (Nat.le_refl _)).1

theorem reorder_sorted (gs : List (List Nat)) : (reorder gs).Pairwise (fun a b => b.length ≤ a.length) := by
  rw [List.pairwise_iff_getElem]
  intro i j hi hj hij
  have hl := (reorder_perm gs).length_eq
  have := (reorder_fold gs _ (Nat.le_refl _)).2 i j (by omega) hij (by omega)
  unfold lenAt at this
  change ((reorder gs)[j]?.getD []).length ≤ ((reorder gs)[i]?.getD []).length at this
  simpa [hi, hj] using this

/-! ### Boundary groups -/

theorem uniqueSides_mem_fold (sides : List Nat) : ∀ (u : List Nat) (x : Nat),
    x ∈ sides.foldl (fun u s => if s ∈ u then u else u ++ [s]) u ↔ x ∈ u ∨ x ∈ sides := by
  induction sides with
  | nil => intro u x; simp
  | cons s ss ih =>
    intro u x
    rw [List.foldl_cons, ih]
    by_cases h : s ∈ u
    · rw [if_pos h]
      constructor
      · rintro (h1 | h1)
        · exact Or.inl h1
        · exact Or.inr (List.mem_cons_of_mem _ h1)
      · rintro (h1 | h1)
        · exact Or.inl h1
        · rcases List.mem_cons.1 h1 with rfl | h1
          · exact Or.inl h
          · exact Or.inr h1
    · rw [if_neg h]
      simp only [List.mem_append, List.mem_cons, List.mem_nil_iff, or_false, or_assoc]

theorem uniqueSides_nodup_fold (sides : List Nat) : ∀ (u : List Nat), u.Nodup →
    (sides.foldl (fun u s => if s ∈ u then u else u ++ [s]) u).Nodup := by
  induction sides with
  | nil => intro u h; exact h
  | cons s ss ih =>
    intro u h
    rw [List.foldl_cons]
    apply ih
    by_cases hs : s ∈ u
    · rw [if_pos hs]; exact h
    · rw [if_neg hs, List.nodup_append]
      refine ⟨h, by simp, ?_⟩
      intro a ha b hb
      simp at hb
      rintro rfl
      exact hs (hb ▸ ha)

theorem uniqueSides_mem (sides : List Nat) (x : Nat) : x ∈ uniqueSides sides ↔ x ∈ sides := by
  unfold uniqueSides
  rw [uniqueSides_mem_fold]
  constructor
  · rintro (h | h)
    · exact List.mem_of_mem_take h
    · exact h
  · exact Or.inr

theorem uniqueSides_nodup (sides : List Nat) : (uniqueSides sides).Nodup := by
  unfold uniqueSides
  apply uniqueSides_nodup_fold
  cases sides <;> simp

theorem withSide_mem (sides : List Nat) (s e : Nat) : e ∈ withSide sides s ↔ sides[e]? = some s := by
  unfold withSide
  rw [List.mem_filter, List.mem_range]
  constructor
  · rintro ⟨_, h⟩; simpa using h
  · intro h
    refine ⟨?_, by simpa using h⟩
    by_contra hc
    rw [List.getElem?_eq_none (by omega)] at h
    cases h

theorem withSide_nodup (sides : List Nat) (s : Nat) : (withSide sides s).Nodup :=
  List.nodup_range.sublist List.filter_sublist

theorem mapM_chunks (w : Nat) (hw : 1 ≤ w) (sides : List Nat) (fuel : Nat) (hf : sides.length ≤ fuel) :
    ∀ (us : List Nat), us.Nodup →
    ∃ l, us.mapM (fun s => chunkLoop w (withSide sides s) fuel 0) = some l ∧
      l.flatten.flatten.Nodup ∧
      (∀ e, e ∈ l.flatten.flatten ↔ ∃ s ∈ us, sides[e]? = some s) ∧
      (∀ g ∈ l.flatten, g ≠ [] ∧ g.length ≤ w ∧ ∃ s, ∀ e ∈ g, sides[e]? = some s) := by
  intro us
  induction us with
  | nil => intro _; exact ⟨[], rfl, by simp, by simp, by simp⟩
  | cons u us ih =>
    intro hnd
    obtain ⟨l, h1, h2, h3, h4⟩ := ih (List.nodup_cons.1 hnd).2
    have hlen : (withSide sides u).length ≤ sides.length := by
      have := List.length_filter_le (fun e => decide (sides[e]? = some u)) (List.range sides.length)
      rw [List.length_range] at this
      exact this
    obtain ⟨r, c1, c2, c3⟩ := chunkLoop_spec w hw (withSide sides u) fuel 0 (by omega)
    rw [List.drop_zero] at c2
    refine ⟨r :: l, ?_, ?_, ?_, ?_⟩
    · rw [List.mapM_cons, c1, h1]; rfl
    · rw [List.flatten_cons, List.flatten_append, c2, List.nodup_append]
      refine ⟨withSide_nodup sides u, h2, ?_⟩
      intro a ha b hb hab
      subst hab
      obtain ⟨s, hs, hse⟩ := (h3 a).1 hb
      rw [(withSide_mem sides u a).1 ha] at hse
      have : u = s := by injection hse
      exact (List.nodup_cons.1 hnd).1 (this ▸ hs)
    · intro e
      rw [List.flatten_cons, List.flatten_append, c2, List.mem_append, h3 e, withSide_mem]
      constructor
      · rintro (h | ⟨s, hs, h⟩)
        · exact ⟨u, List.mem_cons_self, h⟩
        · exact ⟨s, List.mem_cons_of_mem _ hs, h⟩
      · rintro ⟨s, hs, h⟩
        rcases List.mem_cons.1 hs with rfl | hs
        · exact Or.inl h
        · exact Or.inr ⟨s, hs, h⟩
    · intro g hg
      rw [List.flatten_cons, List.mem_append] at hg
      rcases hg with hg | hg
      · refine ⟨(c3 g hg).1, (c3 g hg).2, u, ?_⟩
        intro e he
        rw [← withSide_mem, ← c2]
        exact List.mem_flatten.2 ⟨g, hg, he⟩
      · exact h4 g hg

end MrHyDE.Assembly
