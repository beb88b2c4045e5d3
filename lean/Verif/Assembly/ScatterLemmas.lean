import Verif.Assembly.MachineLemmas
import Verif.Assembly.ScatterSpec
import Mathlib.Tactic.Ring
import Mathlib.Tactic.Linarith

/-! # Assembly: scatter and constraints, lemmas -/

set_option linter.unusedSectionVars false

namespace MrHyDE.Assembly

variable {K : Type} [CommRing K]

theorem mapM_eq_some {A B : Type} (f : A → Option B) (g : A → B) : ∀ (l : List A), (∀ a ∈ l, f a = some (g a)) →
    l.mapM f = some (l.map g) := by
  intro l
  induction l with
  | nil => intro _; rfl
  | cons a l ih =>
    intro h
    rw [List.mapM_cons, h a List.mem_cons_self, ih (fun b hb => h b (List.mem_cons_of_mem _ hb))]
    rfl

/-- The value of one addition at a location. -/
def at1 (l : Loc) (o : Loc × K) : K := if o.1 = l then o.2 else 0

theorem total_eq_sum (l : Loc) : ∀ (ops : List (Loc × K)), total ops l = (ops.map (at1 l)).sum := by
  intro ops
  induction ops with
  | nil => simp
  | cons o t ih => rw [total_cons, ih]; simp [at1]

theorem total_filterMap {A : Type} (l : Loc) (f : A → Option (Loc × K)) : ∀ (as : List A),
    total (as.filterMap f) l = (as.map (fun a => match f a with | none => 0 | some o => at1 l o)).sum := by
  intro as
  induction as with
  | nil => simp
  | cons a t ih =>
    cases h : f a with
    | none => simp [h, ih]
    | some o => rw [List.filterMap_cons_some h, total_cons, ih]; simp [h, at1]

theorem total_flatMap {A : Type} (l : Loc) (f : A → List (Loc × K)) : ∀ (as : List A),
    total (as.flatMap f) l = (as.map (fun a => total (f a) l)).sum := by
  intro as
  induction as with
  | nil => simp
  | cons a t ih => rw [List.flatMap_cons, total_append, ih]; simp

theorem sum_filter {A : Type} (p : A → Bool) (f : A → K) : ∀ (as : List A),
    ((as.filter p).map f).sum = (as.map (fun a => if p a then f a else 0)).sum := by
  intro as
  induction as with
  | nil => simp
  | cons a t ih =>
    by_cases h : p a = true <;> simp [h, ih]

theorem sum_congr {A : Type} (f g : A → K) (as : List A) (h : ∀ a ∈ as, f a = g a) :
    (as.map f).sum = (as.map g).sum := by rw [List.map_congr_left h]

theorem sum_zero {A : Type} (as : List A) : (as.map (fun _ => (0 : K))).sum = 0 := by
  induction as with
  | nil => simp
  | cons a t ih => simp

theorem sum_if {A : Type} (c : Prop) [Decidable c] (f : A → K) (as : List A) :
    (as.map (fun a => if c then f a else 0)).sum = if c then (as.map f).sum else 0 := by
  by_cases h : c
  · simp [h]
  · simp only [h, if_false]; exact sum_zero as

theorem sum_swap {A B : Type} (f : A → B → K) : ∀ (as : List A) (bs : List B),
    (as.map (fun a => (bs.map (f a)).sum)).sum = (bs.map (fun b => (as.map (fun a => f a b)).sum)).sum := by
  intro as bs
  induction as with
  | nil => simp
  | cons a t ih =>
    simp only [List.map_cons, List.sum_cons, ih]
    rw [← List.sum_map_add]

theorem sum_perm {A : Type} {as bs : List A} (h : as.Perm bs) (f : A → K) : (as.map f).sum = (bs.map f).sum :=
  (h.map f).sum_eq

/-- Sum over a range of a function that vanishes off `pos`. -/
theorem sum_range_of_support (f : Nat → K) (pos : List Nat) (n : Nat) (hn : pos.Nodup) (hb : ∀ p ∈ pos, p < n)
    (h : ∀ x, x ∉ pos → f x = 0) : ((List.range n).map f).sum = (pos.map f).sum := by
  have h1 : ((List.range n).map f).sum = ((List.range n).map (fun x => if decide (x ∈ pos) then f x else 0)).sum := by
    apply sum_congr
    intro a _
    by_cases ha : a ∈ pos <;> simp [ha, h]
  rw [h1, ← sum_filter]
  apply sum_perm
  rw [List.perm_ext_iff_of_nodup (List.nodup_range.sublist List.filter_sublist) hn]
  intro a
  simp only [List.mem_filter, List.mem_range, decide_eq_true_eq]
  exact ⟨fun h => h.2, fun h => ⟨hb a h, h⟩⟩

/-! ### sumInto -/

theorem total_sumInto (pat : Nat → Nat → Bool) (row : Nat) (entries : List (Nat × K)) (l : Loc) :
    total (sumInto pat row entries) l =
      match l with
      | .res _ _ => 0
      | .jac r c => if row = r ∧ pat r c = true then (entries.map (fun cv => if cv.1 = c then cv.2 else 0)).sum else 0 := by
  unfold sumInto
  rw [total_filterMap]
  cases l with
  | res a b =>
    simp only
    rw [sum_congr _ (fun _ => (0 : K)), sum_zero]
    intro cv _
    by_cases h : pat row cv.1 = true <;> simp [h, at1]
  | jac r c =>
    simp only
    rw [← sum_if]
    apply sum_congr
    intro cv _
    by_cases hp : pat row cv.1 = true
    · simp only [hp, if_true, at1]
      by_cases hr : row = r
      · subst hr
        by_cases hc : cv.1 = c
        · subst hc; simp [hp]
        · have : Loc.jac row cv.1 ≠ Loc.jac row c := by intro h; injection h with _ h; exact hc h
          simp [this, hc]
      · have : Loc.jac row cv.1 ≠ Loc.jac r c := by intro h; injection h with h _; exact hr h
        simp [this, hr]
    · simp only [hp, if_false]
      by_cases hr : row = r
      · subst hr
        by_cases hc : cv.1 = c
        · subst hc; simp [hp]
        · simp [hc]
      · simp [hr]

/-! ### First path -/

theorem total_resOps (fixed : Nat → Bool) (pos : List Nat) (e : Elem K) (l : Loc) :
    total (resOps fixed pos e) l =
      match l with
      | .res r g => if g = 0 ∧ fixed r = false then elemRes pos e r else 0
      | .jac _ _ => 0 := by
  unfold resOps
  rw [total_filterMap]
  cases l with
  | jac a b =>
    simp only
    rw [sum_congr _ (fun _ => (0 : K)), sum_zero]
    intro p _
    by_cases h : fixed (e.lid p) = true <;> simp [h, at1]
  | res r g =>
    simp only
    unfold elemRes
    rw [← sum_if]
    apply sum_congr
    intro p _
    by_cases hl : e.lid p = r
    · subst hl
      by_cases hf : fixed (e.lid p) = true
      · simp [hf]
      · by_cases hg : g = 0
        · subst hg; simp [hf, at1]
        · have : ¬ (0 = g) := fun h => hg h.symm
          simp [hf, at1, hg, this]
    · by_cases hf : fixed (e.lid p) = true
      · simp [hf, hl]
      · simp [hf, at1, hl]

theorem jacRow_full (lump : Bool) (b : Block) (hb : FullBlock b) (e : Elem K) (p : Nat) :
    jacRow lump b.width b.pos e p =
      some ((List.range b.width).map (fun c => (if lump then e.lid p else e.lid c, e.dx p c))) := by
  unfold jacRow
  apply mapM_eq_some
  intro c hc
  rw [if_pos (hb.mem_iff.2 hc)]

/-- The additions to the matrix, first path. -/
def redJac (pat : Nat → Nat → Bool) (fixed : Nat → Bool) (lump : Bool) (b : Block) (e : Elem K) : List (Loc × K) :=
  (b.pos.filter (fun p => !fixed (e.lid p))).flatMap
    (fun p => sumInto pat (e.lid p) ((List.range b.width).map (fun c => (if lump then e.lid p else e.lid c, e.dx p c))))

theorem scatterOps_full (pat : Nat → Nat → Bool) (fixed : Nat → Bool) (lump computeJac : Bool) (b : Block)
    (hb : FullBlock b) (e : Elem K) :
    scatterOps pat fixed lump computeJac b.width b.pos e =
      some (resOps fixed b.pos e ++ (if computeJac then redJac pat fixed lump b e else [])) := by
  unfold scatterOps redJac
  cases computeJac with
  | false => simp
  | true =>
    simp only [if_true]
    rw [mapM_eq_some _ (fun p => sumInto pat (e.lid p)
      ((List.range b.width).map (fun c => (if lump then e.lid p else e.lid c, e.dx p c))))]
    · simp [List.flatMap]
    · intro p _
      rw [jacRow_full lump b hb e p]
      rfl

theorem total_redJac (pat : Nat → Nat → Bool) (fixed : Nat → Bool) (b : Block) (hb : FullBlock b) (e : Elem K)
    (r c : Nat) : total (redJac pat fixed false b e) (Loc.jac r c) =
      if fixed r = false ∧ pat r c = true then elemJac b.pos e r c else 0 := by
  unfold redJac elemJac
  rw [total_flatMap, sum_filter, ← sum_if]
  apply sum_congr
  intro p _
  rw [total_sumInto]
  simp only [List.map_map, Function.comp_def, Bool.false_eq_true, if_false]
  rw [← sum_perm hb (fun x => if e.lid x = c then e.dx p x else 0)]
  by_cases hl : e.lid p = r
  · subst hl
    by_cases hf : fixed (e.lid p) = true
    · simp [hf]
    · simp [hf]
  · have : ∀ x, (e.lid p = r ∧ e.lid x = c) ↔ False := fun x => ⟨fun h => hl h.1, False.elim⟩
    simp [hl]

theorem total_redJac_lump (pat : Nat → Nat → Bool) (fixed : Nat → Bool) (b : Block) (hb : FullBlock b) (e : Elem K)
    (r c : Nat) : total (redJac pat fixed true b e) (Loc.jac r c) =
      if r = c ∧ fixed r = false ∧ pat r r = true then elemRow b.pos e r else 0 := by
  unfold redJac elemRow
  rw [total_flatMap, sum_filter, ← sum_if]
  apply sum_congr
  intro p _
  rw [total_sumInto]
  simp only [List.map_map, Function.comp_def, if_true]
  by_cases hl : e.lid p = r
  · subst hl
    by_cases hc : e.lid p = c
    · subst hc
      simp only [if_true]
      rw [← sum_perm hb (fun x => e.dx p x)]
      by_cases hf : fixed (e.lid p) = true <;> simp [hf]
    · simp [hc]
  · simp [hl]

theorem total_redJac_res (pat : Nat → Nat → Bool) (fixed : Nat → Bool) (lump : Bool) (b : Block) (e : Elem K)
    (r g : Nat) : total (redJac pat fixed lump b e) (Loc.res r g) = 0 := by
  unfold redJac
  rw [total_flatMap, sum_congr _ (fun _ => (0 : K)), sum_zero]
  intro p _
  rw [total_sumInto]

/-! ### Second path -/

theorem localRes_fold (sens : Bool) (e : Elem K) (g : Nat) : ∀ (pos : List Nat) (t : Nat → K) (x : Nat), pos.Nodup →
    pos.foldl (fun t p => fun x => if x = p then t x - (if sens then e.dx p g else e.val p) else t x) t x =
      if x ∈ pos then t x - (if sens then e.dx x g else e.val x) else t x := by
  intro pos
  induction pos with
  | nil => intro t x _; simp
  | cons p ps ih =>
    intro t x hn
    rw [List.foldl_cons, ih _ _ (List.nodup_cons.1 hn).2]
    by_cases hx : x = p
    · subst hx
      have := (List.nodup_cons.1 hn).1
      simp [this]
    · simp [hx]

theorem localRes_eq (sens : Bool) (pos : List Nat) (hn : pos.Nodup) (e : Elem K) (g x : Nat) :
    localRes sens pos e g x = if x ∈ pos then -(if sens then e.dx x g else e.val x) else 0 := by
  unfold localRes
  rw [localRes_fold sens e g pos _ x hn]
  simp

theorem inner_jac_fold (adj : Bool) (e : Elem K) (n : Nat) : ∀ (pos : List Nat) (t : Nat → Nat → K) (x y : Nat), pos.Nodup →
    pos.foldl (fun t m => fun x y => if (if adj then x = m ∧ y = n else x = n ∧ y = m) then t x y + e.dx n m else t x y) t x y =
      if adj then (if y = n ∧ x ∈ pos then t x y + e.dx n x else t x y)
      else (if x = n ∧ y ∈ pos then t x y + e.dx n y else t x y) := by
  intro pos
  induction pos with
  | nil => intro t x y _; cases adj <;> simp
  | cons p ps ih =>
    intro t x y hn
    rw [List.foldl_cons, ih _ _ _ (List.nodup_cons.1 hn).2]
    have hp := (List.nodup_cons.1 hn).1
    cases adj with
    | true =>
      simp only [if_true]
      by_cases hy : y = n
      · by_cases hx : x = p
        · subst hx; simp [hy, hp]
        · simp [hy, hx]
      · simp [hy]
    | false =>
      simp only [Bool.false_eq_true, if_false]
      by_cases hy : x = n
      · by_cases hx : y = p
        · subst hx; simp [hy, hp]
        · simp [hy, hx]
      · simp [hy]

theorem outer_jac_fold (adj : Bool) (e : Elem K) (pos : List Nat) (hpos : pos.Nodup) : ∀ (ns : List Nat) (t : Nat → Nat → K) (x y : Nat),
    ns.Nodup →
    ns.foldl (fun t n => pos.foldl (fun t m =>
      fun x y => if (if adj then x = m ∧ y = n else x = n ∧ y = m) then t x y + e.dx n m else t x y) t) t x y =
      if adj then (if y ∈ ns ∧ x ∈ pos then t x y + e.dx y x else t x y)
      else (if x ∈ ns ∧ y ∈ pos then t x y + e.dx x y else t x y) := by
  intro ns
  induction ns with
  | nil => intro t x y _; cases adj <;> simp
  | cons n ns ih =>
    intro t x y hn
    rw [List.foldl_cons, ih _ _ _ (List.nodup_cons.1 hn).2, inner_jac_fold adj e n pos t x y hpos]
    have hp := (List.nodup_cons.1 hn).1
    cases adj with
    | true =>
      simp only [if_true]
      by_cases hy : y = n
      · subst hy
        by_cases hx : x ∈ pos <;> simp [hp, hx]
      · simp [hy]
    | false =>
      simp only [Bool.false_eq_true, if_false]
      by_cases hy : x = n
      · subst hy
        by_cases hx : y ∈ pos <;> simp [hp, hx]
      · simp [hy]

theorem localJac_eq (adj : Bool) (pos : List Nat) (hn : pos.Nodup) (e : Elem K) (x y : Nat) :
    localJac adj pos e x y = if x ∈ pos ∧ y ∈ pos then (if adj then e.dx y x else e.dx x y) else 0 := by
  unfold localJac
  rw [outer_jac_fold adj e pos hn pos _ x y hn]
  cases adj with
  | true => simp [and_comm]
  | false => simp

theorem total_scatterResOps (fixed0 : Nat → Bool) (width cols : Nat) (e : Elem K) (lr : Nat → Nat → K) (l : Loc) :
    total (scatterResOps fixed0 width cols e lr) l =
      match l with
      | .res r g => if g < cols ∧ fixed0 r = false then
          ((List.range width).map (fun p => if e.lid p = r then lr g p else 0)).sum else 0
      | .jac _ _ => 0 := by
  unfold scatterResOps
  rw [total_flatMap, sum_filter]
  cases l with
  | jac a b =>
    simp only
    rw [sum_congr _ (fun _ => (0 : K)), sum_zero]
    intro p _
    rw [total_eq_sum, List.map_map, sum_congr _ (fun _ => (0 : K)), sum_zero]
    · simp
    · intro g _; simp [at1]
  | res r g =>
    simp only
    rw [← sum_if]
    apply sum_congr
    intro p _
    rw [total_eq_sum, List.map_map]
    by_cases hl : e.lid p = r
    · subst hl
      have h1 : ((List.range cols).map (at1 (Loc.res (e.lid p) g) ∘ fun g => (Loc.res (e.lid p) g, lr g p))).sum =
          if g < cols then lr g p else 0 := by
        have h2 : ((List.range cols).map (at1 (Loc.res (e.lid p) g) ∘ fun g => (Loc.res (e.lid p) g, lr g p))).sum =
            ((List.range cols).map (fun x => if x = g then lr x p else 0)).sum := by
          apply sum_congr
          intro x _
          simp [at1]
        rw [h2]
        by_cases hg : g < cols
        · rw [sum_range_of_support _ [g] cols (by simp) (by simpa using hg) (by intro x hx; simp at hx; simp [hx])]
          simp [hg]
        · rw [sum_congr _ (fun _ => (0 : K)), sum_zero]
          · simp [hg]
          · intro x hx
            have : ¬ x = g := by have := List.mem_range.1 hx; omega
            simp [this]
      rw [h1]
      by_cases hf : fixed0 (e.lid p) = true <;> simp [hf]
    · have h1 : ((List.range cols).map (at1 (Loc.res r g) ∘ fun g => (Loc.res (e.lid p) g, lr g p))).sum = 0 := by
        rw [sum_congr _ (fun _ => (0 : K)), sum_zero]
        intro x _
        simp [at1, hl]
      rw [h1]
      simp [hl]

theorem total_scatterJacOps (pat : Nat → Nat → Bool) (fixed : Nat → Bool) (width : Nat) (e : Elem K)
    (lj : Nat → Nat → K) (l : Loc) : total (scatterJacOps pat fixed width e lj) l =
      match l with
      | .res _ _ => 0
      | .jac r c => if fixed r = false ∧ pat r c = true then
          ((List.range width).map (fun p => ((List.range width).map
            (fun q => if e.lid p = r ∧ e.lid q = c then lj p q else 0)).sum)).sum else 0 := by
  unfold scatterJacOps
  rw [total_flatMap, sum_filter]
  cases l with
  | res a b =>
    simp only
    rw [sum_congr _ (fun _ => (0 : K)), sum_zero]
    intro p _
    rw [total_sumInto]; simp
  | jac r c =>
    simp only
    rw [← sum_if]
    apply sum_congr
    intro p _
    rw [total_sumInto]
    simp only [List.map_map, Function.comp_def]
    by_cases hl : e.lid p = r
    · subst hl
      by_cases hf : fixed (e.lid p) = true <;> simp [hf]
    · simp [hl]

theorem range_localJac (adj : Bool) (b : Block) (hb : PartBlock b) (e : Elem K) (r c : Nat) :
    ((List.range b.width).map (fun p => ((List.range b.width).map
      (fun q => if e.lid p = r ∧ e.lid q = c then localJac adj b.pos e p q else 0)).sum)).sum =
      if adj then elemJac b.pos e c r else elemJac b.pos e r c := by
  have hin : ∀ p, ((List.range b.width).map (fun q => if e.lid p = r ∧ e.lid q = c then localJac adj b.pos e p q else 0)).sum =
      (b.pos.map (fun q => if e.lid p = r ∧ e.lid q = c then localJac adj b.pos e p q else 0)).sum := by
    intro p
    apply sum_range_of_support _ _ _ hb.1 hb.2
    intro x hx
    rw [localJac_eq adj b.pos hb.1]
    simp [hx]
  rw [sum_congr _ _ _ (fun p _ => hin p)]
  rw [sum_range_of_support _ _ _ hb.1 hb.2]
  · cases adj with
    | false =>
      simp only [Bool.false_eq_true, if_false]
      unfold elemJac
      apply sum_congr
      intro p hp
      apply sum_congr
      intro q hq
      rw [localJac_eq false b.pos hb.1]
      simp [hp, hq]
    | true =>
      simp only [if_true]
      unfold elemJac
      rw [sum_swap]
      apply sum_congr
      intro p hp
      apply sum_congr
      intro q hq
      rw [localJac_eq true b.pos hb.1]
      by_cases h1 : e.lid q = r <;> by_cases h2 : e.lid p = c <;> simp [h1, h2, hp, hq]
  · intro x hx
    rw [sum_congr _ (fun _ => (0 : K)), sum_zero]
    intro q _
    rw [localJac_eq adj b.pos hb.1]
    simp [hx]

theorem range_localRes (sens : Bool) (b : Block) (hb : PartBlock b) (e : Elem K) (r g : Nat) :
    ((List.range b.width).map (fun p => if e.lid p = r then localRes sens b.pos e g p else 0)).sum =
      if sens then elemSens b.pos e r g else elemRes b.pos e r := by
  rw [sum_range_of_support _ _ _ hb.1 hb.2]
  · cases sens with
    | false =>
      simp only [Bool.false_eq_true, if_false]
      unfold elemRes
      apply sum_congr
      intro p hp
      rw [localRes_eq false b.pos hb.1]
      simp [hp]
    | true =>
      simp only [if_true]
      unfold elemSens
      apply sum_congr
      intro p hp
      rw [localRes_eq true b.pos hb.1]
      simp [hp]
  · intro x hx
    rw [localRes_eq sens b.pos hb.1]
    simp [hx]

theorem full_part (b : Block) (h : FullBlock b) : PartBlock b :=
  ⟨h.nodup_iff.2 List.nodup_range, fun p hp => List.mem_range.1 (h.mem_iff.1 hp)⟩

/-! ### One element -/

/-- The table consulted for the residual. -/
def resTable (fixed fixed0 : Nat → Bool) (b : Block) (rq : Request) : Nat → Bool :=
  if reduceMemory b rq then fixed else fixed0

/-- The block can be assembled in the path chosen. -/
def Good (b : Block) (rq : Request) : Prop := if reduceMemory b rq then FullBlock b else PartBlock b

theorem elemOps_total (pat : Nat → Nat → Bool) (fixed fixed0 : Nat → Bool) (b : Block) (rq : Request)
    (hb : Good b rq) (e : Elem K) :
    ∃ ops, elemOps pat fixed fixed0 false b rq e = some ops ∧
      (∀ r g, total ops (Loc.res r g) = if resTable fixed fixed0 b rq r = false then resWanted rq b.pos e r g else 0) ∧
      (∀ r c, total ops (Loc.jac r c) = if fixed r = false ∧ pat r c = true then jacWanted rq b.pos e r c else 0) := by
  unfold elemOps resTable
  by_cases hred : reduceMemory b rq = true
  · have hb' : FullBlock b := by simpa [Good, hred] using hb
    simp only [hred, if_true]
    rw [scatterOps_full pat fixed false rq.jac b hb' e]
    obtain ⟨_, hadj⟩ : True ∧ rq.adjoint = false ∧ rq.sens = none := by
      refine ⟨trivial, ?_⟩
      unfold reduceMemory at hred
      simp at hred
      exact ⟨hred.1.2, hred.2⟩
    refine ⟨_, rfl, ?_, ?_⟩
    · intro r g
      rw [total_append, total_resOps]
      have : total (if rq.jac = true then redJac pat fixed false b e else []) (Loc.res r g) = 0 := by
        by_cases hj : rq.jac = true
        · rw [if_pos hj, total_redJac_res]
        · rw [if_neg hj, total_nil]
      rw [this, add_zero]
      unfold resWanted
      rw [hadj.2]
      simp only
      by_cases hg : g = 0 <;> by_cases hf : fixed r = true <;> simp [hg, hf]
    · intro r c
      rw [total_append, total_resOps]
      simp only [zero_add]
      unfold jacWanted
      by_cases hj : rq.jac = true
      · rw [if_pos hj, total_redJac pat fixed b hb']
        simp [hj, hadj.1]
      · rw [if_neg hj, total_nil]
        simp [hj]
  · have hb' : PartBlock b := by simpa [Good, hred] using hb
    simp only [hred, if_false]
    refine ⟨_, rfl, ?_, ?_⟩
    · intro r g
      rw [total_append, total_scatterResOps]
      have : total (if rq.jac = true then scatterJacOps pat fixed b.width e (localJac rq.adjoint b.pos e) else []) (Loc.res r g) = 0 := by
        by_cases hj : rq.jac = true
        · rw [if_pos hj, total_scatterJacOps]
        · rw [if_neg hj, total_nil]
      rw [this, add_zero]
      simp only
      rw [range_localRes rq.sens.isSome b hb' e r g]
      unfold resWanted
      cases hs : rq.sens with
      | none =>
        simp only [Option.getD_none, Option.isSome_none, Bool.false_eq_true, if_false, Nat.lt_one_iff]
        by_cases hg : g = 0 <;> by_cases hf : fixed0 r = true <;> simp [hg, hf]
      | some n =>
        simp only [Option.getD_some, Option.isSome_some, if_true]
        by_cases hg : g < n <;> by_cases hf : fixed0 r = true <;> simp [hg, hf]
    · intro r c
      rw [total_append, total_scatterResOps]
      simp only [zero_add]
      unfold jacWanted
      by_cases hj : rq.jac = true
      · rw [if_pos hj, total_scatterJacOps]
        simp only
        rw [range_localJac rq.adjoint b hb' e r c]
        simp [hj]
      · rw [if_neg hj, total_nil]
        simp [hj]

theorem elemOps_lump (pat : Nat → Nat → Bool) (fixed fixed0 : Nat → Bool) (b : Block) (rq : Request)
    (hred : reduceMemory b rq = true) (hj : rq.jac = true) (hb : FullBlock b) (e : Elem K) :
    ∃ ops, elemOps pat fixed fixed0 true b rq e = some ops ∧
      (∀ r c, total ops (Loc.jac r c) = if r = c ∧ fixed r = false ∧ pat r r = true then elemRow b.pos e r else 0) := by
  unfold elemOps
  simp only [hred, if_true]
  rw [scatterOps_full pat fixed true rq.jac b hb e]
  refine ⟨_, rfl, ?_⟩
  intro r c
  rw [total_append, total_resOps]
  simp only [zero_add]
  rw [if_pos hj, total_redJac_lump pat fixed b hb]

/-! ### Groups, blocks, mesh -/

theorem mapM_total {A : Type} (f : A → Option (List (Loc × K))) (w : A → K) (l : Loc) : ∀ (as : List A),
    (∀ a ∈ as, ∃ ops, f a = some ops ∧ total ops l = w a) →
    ∀ r, as.mapM f = some r → total r.flatten l = (as.map w).sum := by
  intro as
  induction as with
  | nil => intro _ r h; simp at h; subst h; simp
  | cons a t ih =>
    intro h r hr
    obtain ⟨ops, h1, h2⟩ := h a List.mem_cons_self
    rw [List.mapM_cons, h1] at hr
    cases ht : t.mapM f with
    | none => rw [ht] at hr; simp at hr
    | some r' =>
      rw [ht] at hr
      simp at hr
      subst hr
      rw [List.flatten_cons, total_append, h2, ih (fun b hb => h b (List.mem_cons_of_mem _ hb)) r' ht]
      simp

theorem mapM_isSome {A B : Type} (f : A → Option B) : ∀ (as : List A), (∀ a ∈ as, ∃ b, f a = some b) →
    ∃ r, as.mapM f = some r := by
  intro as
  induction as with
  | nil => intro _; exact ⟨[], rfl⟩
  | cons a t ih =>
    intro h
    obtain ⟨b, h1⟩ := h a List.mem_cons_self
    obtain ⟨r, h2⟩ := ih (fun x hx => h x (List.mem_cons_of_mem _ hx))
    exact ⟨b :: r, by rw [List.mapM_cons, h1, h2]; rfl⟩

theorem groupMap_total {A : Type} (f : A → Option (List (Loc × K))) (w : A → K) (l : Loc) : ∀ (gs : List (List A)),
    (∀ a ∈ gs.flatten, ∃ ops, f a = some ops ∧ total ops l = w a) →
    ∃ r, gs.mapM (fun g => (g.mapM f).map List.flatten) = some r ∧ total r.flatten l = (gs.flatten.map w).sum := by
  intro gs
  induction gs with
  | nil => intro _; exact ⟨[], rfl, by simp⟩
  | cons g t ih =>
    intro h
    obtain ⟨r, h1, h2⟩ := ih (fun a ha => h a (by rw [List.flatten_cons]; exact List.mem_append_right _ ha))
    have hg : ∀ a ∈ g, ∃ ops, f a = some ops ∧ total ops l = w a :=
      fun a ha => h a (by rw [List.flatten_cons]; exact List.mem_append_left _ ha)
    obtain ⟨q, h3⟩ := mapM_isSome f g (fun a ha => (hg a ha).imp fun _ h => h.1)
    refine ⟨q.flatten :: r, ?_, ?_⟩
    · rw [List.mapM_cons, h3, h1]; rfl
    · rw [List.flatten_cons, total_append, h2, mapM_total f w l g hg q h3, List.flatten_cons, List.map_append, List.sum_append]

theorem meshOps_total (pat : Nat → Nat → Bool) (fixed fixed0 : Nat → Bool) (lump : Bool) (rq : Request) (l : Loc)
    (w : Block → Elem K → K) : ∀ (mesh : Mesh K),
    (∀ b ∈ mesh, ∀ e ∈ b.2.flatten, ∃ ops, elemOps pat fixed fixed0 lump b.1 rq e = some ops ∧ total ops l = w b.1 e) →
    ∃ r, meshOps pat fixed fixed0 lump rq mesh = some r ∧
      total (r.map List.flatten).flatten l = (mesh.map (fun b => (b.2.flatten.map (w b.1)).sum)).sum := by
  intro mesh
  induction mesh with
  | nil => intro _; exact ⟨[], rfl, by simp⟩
  | cons b t ih =>
    intro h
    obtain ⟨r, h1, h2⟩ := ih (fun a ha => h a (List.mem_cons_of_mem _ ha))
    obtain ⟨q, h3, h4⟩ := groupMap_total (elemOps pat fixed fixed0 lump b.1 rq) (w b.1) l b.2 (h b List.mem_cons_self)
    refine ⟨q :: r, ?_, ?_⟩
    · unfold meshOps at h1 ⊢
      rw [List.mapM_cons, h1]
      unfold blockOps
      rw [h3]; rfl
    · simp only [List.map_cons, List.flatten_cons, total_append, h4, h2, List.sum_cons]

/-! ### The loop over blocks -/

theorem assembled_keep (c : Nat) (hc : 1 ≤ c) (post : (Loc → K) → Loc → K) (l : Loc)
    (hpost : ∀ m, post m l = m l) (mem mem' : Loc → K) (bs : List (List (List (Loc × K))))
    (h : Assembled c post mem bs mem') : mem' l = mem l + total (bs.map List.flatten).flatten l := by
  induction h with
  | nil mem => simp
  | cons mem mem1 mem2 block rest h1 _ ih =>
    rw [ih, hpost, kernels_total c hc _ _ _ h1 l]
    simp only [List.map_cons, List.flatten_cons, total_append, add_assoc]

theorem assembled_last (c : Nat) (post : (Loc → K) → Loc → K) (l : Loc) (v : K)
    (hpost : ∀ m, post m l = v) (mem mem' : Loc → K) (bs : List (List (List (Loc × K)))) (hne : bs ≠ [])
    (h : Assembled c post mem bs mem') : mem' l = v := by
  induction h with
  | nil mem => exact absurd rfl hne
  | cons mem mem1 mem2 block rest h1 h2 ih =>
    by_cases hr : rest = []
    · subst hr
      cases h2
      exact hpost _
    · exact ih hr

/-! ### Constraints -/

theorem replace_res (pat : Nat → Nat → Bool) (mem : Loc → K) (row col : Nat) (v : K) (r g : Nat) :
    replace pat mem row col v (Loc.res r g) = mem (Loc.res r g) := by
  unfold replace
  split <;> simp [wr]

theorem replace_jac (pat : Nat → Nat → Bool) (mem : Loc → K) (row col : Nat) (v : K) (r c : Nat) :
    replace pat mem row col v (Loc.jac r c) = if r = row ∧ c = col ∧ pat row col = true then v else mem (Loc.jac r c) := by
  unfold replace
  by_cases hp : pat row col = true
  · simp only [hp, if_true, wr, Loc.jac.injEq, and_true]
  · simp [hp]

theorem setDiag_res (pat : Nat → Nat → Bool) (r g : Nat) : ∀ (dbc : List Nat) (mem : Loc → K),
    setDiag pat mem dbc (Loc.res r g) = mem (Loc.res r g) := by
  intro dbc
  induction dbc with
  | nil => intro mem; rfl
  | cons d t ih =>
    intro mem
    change setDiag pat (replace pat mem d d 1) t (Loc.res r g) = _
    rw [ih, replace_res]

theorem setDiag_jac (pat : Nat → Nat → Bool) (r c : Nat) : ∀ (dbc : List Nat) (mem : Loc → K),
    setDiag pat mem dbc (Loc.jac r c) = if r = c ∧ r ∈ dbc ∧ pat r r = true then 1 else mem (Loc.jac r c) := by
  intro dbc
  induction dbc with
  | nil => intro mem; simp [setDiag]
  | cons d t ih =>
    intro mem
    change setDiag pat (replace pat mem d d 1) t (Loc.jac r c) = _
    rw [ih, replace_jac]
    by_cases hrc : r = c
    · subst hrc
      by_cases hp : pat r r = true
      · by_cases hd : r = d
        · subst hd; simp [hp]
        · simp [hd]
      · by_cases hd : r = d
        · subst hd; simp [hp]
        · simp [hd, hp]
    · have : ¬ (r = d ∧ c = d ∧ pat d d = true) := fun h => hrc (h.1.trans h.2.1.symm)
      simp [hrc, this]

theorem zeroRow_res (pat : Nat → Nat → Bool) (d r g : Nat) : ∀ (cols : List Nat) (mem : Loc → K),
    cols.foldl (fun m c => replace pat m d c 0) mem (Loc.res r g) = mem (Loc.res r g) := by
  intro cols
  induction cols with
  | nil => intro mem; rfl
  | cons a t ih => intro mem; rw [List.foldl_cons, ih, replace_res]

theorem zeroRow_jac (pat : Nat → Nat → Bool) (d r c : Nat) : ∀ (cols : List Nat) (mem : Loc → K),
    cols.foldl (fun m c => replace pat m d c 0) mem (Loc.jac r c) =
      if r = d ∧ c ∈ cols ∧ pat r c = true then 0 else mem (Loc.jac r c) := by
  intro cols
  induction cols with
  | nil => intro mem; simp
  | cons a t ih =>
    intro mem
    rw [List.foldl_cons, ih, replace_jac]
    by_cases hr : r = d
    · subst hr
      by_cases hc : c = a
      · subst hc
        by_cases hp : pat r c = true <;> simp [hp]
      · simp [hc]
    · simp [hr]

theorem setPoint_res (pat : Nat → Nat → Bool) (ncols r g : Nat) : ∀ (pts : List Nat) (mem : Loc → K),
    setPoint pat ncols mem pts (Loc.res r g) = mem (Loc.res r g) := by
  intro pts
  induction pts with
  | nil => intro mem; rfl
  | cons d t ih =>
    intro mem
    change setPoint pat ncols (replace pat _ d d 1) t (Loc.res r g) = _
    rw [ih, replace_res, zeroRow_res]

theorem setPoint_other (pat : Nat → Nat → Bool) (ncols r c : Nat) : ∀ (pts : List Nat) (mem : Loc → K), r ∉ pts →
    setPoint pat ncols mem pts (Loc.jac r c) = mem (Loc.jac r c) := by
  intro pts
  induction pts with
  | nil => intro mem _; rfl
  | cons d t ih =>
    intro mem h
    have h1 : r ≠ d := fun h' => h (by rw [h']; exact List.mem_cons_self)
    have h2 : r ∉ t := fun h' => h (List.mem_cons_of_mem _ h')
    change setPoint pat ncols (replace pat _ d d 1) t (Loc.jac r c) = _
    rw [ih _ h2, replace_jac, zeroRow_jac]
    simp [h1]

theorem setPoint_mem (pat : Nat → Nat → Bool) (ncols r c : Nat) (hc : c < ncols) (hp : pat r c = true) (hd : pat r r = true) :
    ∀ (pts : List Nat) (mem : Loc → K), r ∈ pts →
    setPoint pat ncols mem pts (Loc.jac r c) = if c = r then 1 else 0 := by
  intro pts
  induction pts with
  | nil => intro mem h; simp at h
  | cons d t ih =>
    intro mem h
    change setPoint pat ncols (replace pat _ d d 1) t (Loc.jac r c) = _
    by_cases ht : r ∈ t
    · exact ih _ ht
    · have hrd : r = d := by
        rcases List.mem_cons.1 h with h | h
        · exact h
        · exact absurd h ht
      subst hrd
      rw [setPoint_other pat ncols r c t _ ht, replace_jac, zeroRow_jac]
      by_cases hcr : c = r
      · subst hcr; simp [hd]
      · simp [hcr, hc, hp]

theorem constrain_res (strong : Bool) (pat : Nat → Nat → Bool) (ncols : Nat) (dbc pts : List Nat) (cj : Bool)
    (mem : Loc → K) (r g : Nat) : constrain strong pat ncols dbc pts cj mem (Loc.res r g) = mem (Loc.res r g) := by
  unfold constrain
  cases cj with
  | false => simp
  | true =>
    simp only [if_true]
    rw [setPoint_res]
    cases strong with
    | false => simp
    | true => simp only [if_true]; rw [setDiag_res]

theorem constrain_other (strong : Bool) (pat : Nat → Nat → Bool) (ncols : Nat) (dbc pts : List Nat) (cj : Bool)
    (mem : Loc → K) (r c : Nat) (h : (r = c → r ∉ dbc) ∧ r ∉ pts) :
    constrain strong pat ncols dbc pts cj mem (Loc.jac r c) = mem (Loc.jac r c) := by
  unfold constrain
  cases cj with
  | false => simp
  | true =>
    simp only [if_true]
    rw [setPoint_other pat ncols r c pts _ h.2]
    cases strong with
    | false => simp
    | true =>
      simp only [if_true]
      rw [setDiag_jac]
      have : ¬ (r = c ∧ r ∈ dbc ∧ pat r r = true) := fun h' => h.1 h'.1 h'.2.1
      simp [this]

theorem constrain_diag (pat : Nat → Nat → Bool) (ncols : Nat) (dbc pts : List Nat)
    (mem : Loc → K) (r : Nat) (hr : r ∈ dbc) (hp : pat r r = true) (hn : r ∉ pts) :
    constrain true pat ncols dbc pts true mem (Loc.jac r r) = 1 := by
  unfold constrain
  simp only [if_true]
  rw [setPoint_other pat ncols r r pts _ hn, setDiag_jac]
  simp [hr, hp]

/-! ### Zero rows -/

variable [LinearOrder K]

/-- Sum of the absolute values of row `r`. -/
def absRow (pat : Nat → Nat → Bool) (ncols : Nat) (mem : Loc → K) (r : Nat) : K :=
  (((List.range ncols).filter (pat r)).map (fun c => |mem (Loc.jac r c)|)).sum

theorem fixZeroRows_fold (tol : K) (pat : Nat → Nat → Bool) (ncols : Nat) : ∀ (rows : List Nat) (mem : Loc → K) (r c : Nat),
    rows.Nodup →
    rows.foldl (fun m r => if (((List.range ncols).filter (pat r)).map (fun c => |m (Loc.jac r c)|)).sum < tol
      then replace pat m r r 1 else m) mem (Loc.jac r c) =
    if r ∈ rows ∧ r = c ∧ pat r r = true ∧ absRow pat ncols mem r < tol then 1 else mem (Loc.jac r c) := by
  intro rows
  induction rows with
  | nil => intro mem r c _; simp
  | cons d t ih =>
    intro mem r c hn
    rw [List.foldl_cons, ih _ _ _ (List.nodup_cons.1 hn).2]
    have hd := (List.nodup_cons.1 hn).1
    by_cases hlt : (((List.range ncols).filter (pat d)).map (fun c => |mem (Loc.jac d c)|)).sum < tol
    · simp only [hlt, if_true]
      by_cases hrd : r = d
      · subst hrd
        simp only [hd, false_and, if_false, replace_jac, true_and]
        have : absRow pat ncols mem r < tol := hlt
        by_cases hrc : c = r
        · subst hrc; by_cases hp : pat c c = true <;> simp [hp, this]
        · have : ¬ r = c := fun h => hrc h.symm
          simp [hrc, this]
      · have hrow : absRow pat ncols (replace pat mem d d 1) r = absRow pat ncols mem r := by
          unfold absRow
          apply sum_congr
          intro a _
          rw [replace_jac]; simp [hrd]
        rw [hrow, replace_jac]
        simp [hrd]
    · simp only [hlt, if_false]
      by_cases hrd : r = d
      · subst hrd
        have : ¬ absRow pat ncols mem r < tol := hlt
        simp [hd, this]
      · simp [hrd]

theorem fixZeroRows_jac (tol : K) (pat : Nat → Nat → Bool) (ncols nrows : Nat) (mem : Loc → K) (r c : Nat) :
    fixZeroRows tol pat ncols nrows mem (Loc.jac r c) =
      if r < nrows ∧ r = c ∧ pat r r = true ∧ absRow pat ncols mem r < tol then 1 else mem (Loc.jac r c) := by
  unfold fixZeroRows
  rw [fixZeroRows_fold tol pat ncols (List.range nrows) mem r c List.nodup_range]
  simp only [List.mem_range]

end MrHyDE.Assembly
