import Verif.Objective.Spec
import Mathlib.Tactic.Ring

/-! # Objectives: lemmas -/

namespace MrHyDE.Objective

variable {R : Type} [CommRing R]

theorem foldl_add {A : Type} (f : A → R) : ∀ (l : List A) (a : R), l.foldl (fun t x => t + f x) a = a + (l.map f).sum := by
  intro l
  induction l with
  | nil => intro a; simp
  | cons x t ih => intro a; rw [List.foldl_cons, ih]; simp; ring

theorem foldl_of {A : Type} (g : R → A → R) (f : A → R) (h : ∀ t x, g t x = t + f x) (l : List A) (a : R) :
    l.foldl g a = a + (l.map f).sum := by
  have : g = fun t x => t + f x := by funext t x; exact h t x
  rw [this, foldl_add]

theorem sum_map_add' {A : Type} (f g : A → R) (l : List A) : (l.map (fun x => f x + g x)).sum = (l.map f).sum + (l.map g).sum := by
  induction l with
  | nil => simp
  | cons x t ih => simp [ih]; ring

theorem sum_map_mul' {A : Type} (w : R) (f : A → R) (l : List A) : (l.map (fun x => w * f x)).sum = w * (l.map f).sum := by
  induction l with
  | nil => simp
  | cons x t ih => simp [ih]; ring

theorem groupSum_eq (g : List (List (R × R))) : groupSum g = (g.flatten.map (fun x => x.1 * x.2)).sum := by
  unfold groupSum
  rw [foldl_of _ (fun e => (e.map (fun x => x.1 * x.2)).sum) (by
    intro t e
    rw [foldl_add (fun q : R × R => q.1 * q.2)]
    simp)]
  rw [zero_add]
  induction g with
  | nil => simp
  | cons e t ih => rw [List.flatten_cons, List.map_append, List.sum_append, List.map_cons, List.sum_cons, ih]

theorem integral_eq (q : Quad R) : (q.map groupSum).sum = integral q := by
  unfold integral
  induction q with
  | nil => simp
  | cons g t ih =>
    rw [List.flatten_cons, List.flatten_append, List.map_append, List.sum_append, List.map_cons, List.sum_cons, ih, groupSum_eq]

/-- Value of a regularisation on one process. -/
def regVal (ps : List R) (rank0 : Bool) (r : Reg R) : R := r.own + if rank0 then r.shared ps else 0

theorem addReg_eq (ps : List R) (rank0 : Bool) (t : R) (r : Reg R) : addReg ps rank0 t r = t + regVal ps rank0 r := by
  cases r with
  | integrated wt q =>
    unfold addReg regVal Reg.own Reg.shared
    simp only
    rw [foldl_of (fun t g => g.foldl (fun t e => e.foldl (fun t x => t + wt * (x.2 * x.1)) t) t) (fun g => wt * groupSum g) (by
      intro t g
      rw [foldl_of _ (fun e => (e.map (fun x : R × R => wt * (x.1 * x.2))).sum) (by
        intro t e
        rw [foldl_of _ (fun x : R × R => wt * (x.1 * x.2)) (by intro t x; ring)])]
      rw [groupSum_eq]
      congr 1
      induction g with
      | nil => simp
      | cons e t ih =>
        rw [List.flatten_cons, List.map_append, List.sum_append, List.map_cons, List.sum_cons, ih, sum_map_mul']
        ring)]
    rw [sum_map_mul', integral_eq]
    simp
  | l2 wt =>
    unfold addReg regVal Reg.own Reg.shared
    simp only
    cases rank0 with
    | false => simp
    | true =>
      simp only [if_true]
      rw [foldl_of (fun t p => t + wt * p * p) (fun p => wt * (p * p)) (by intro t p; ring), sum_map_mul', zero_add]

/-- Main part of the value of one process. -/
def mainVal (o : Obj R) (rank0 : Bool) (s : Seen R) : R :=
  match o.kind with
  | .control => o.weight * integral s.quad
  | .discrete => if rank0 then o.weight * s.misfits.sum else 0
  | .response => integral s.quad
  | .sensors => o.weight * (s.sensors.map (fun q => (q.1 - q.2) ^ 2)).sum

theorem value_eq (o : Obj R) (ps : List R) (rank0 : Bool) (s : Seen R) :
    value o ps rank0 s = mainVal o rank0 s + (s.regs.map (regVal ps rank0)).sum := by
  unfold value
  simp only
  rw [foldl_of _ (regVal ps rank0) (addReg_eq ps rank0)]
  congr 1
  unfold mainVal
  cases o.kind with
  | control => simp only; rw [foldl_add (fun g => o.weight * groupSum g), zero_add, sum_map_mul', integral_eq]
  | discrete =>
    simp only
    cases rank0 with
    | false => simp
    | true =>
      rw [if_pos rfl, if_pos rfl, foldl_add (fun m => o.weight * m), zero_add, sum_map_mul']
      simp
  | response => simp only; rw [foldl_add, zero_add, integral_eq]
  | sensors =>
    simp only
    rw [foldl_of _ (fun q : R × R => o.weight * (q.1 - q.2) ^ 2) (by intro t x; ring), zero_add, sum_map_mul']

theorem reduce_eq (l : List R) : reduce l = l.sum := by
  unfold reduce
  rw [foldl_of (fun a b => a + b) (fun x => x) (by intro t x; rfl), zero_add]
  simp

theorem values_tail (o : Obj R) (ps : List R) (f : Bool → Seen R → R) (seen : List (Seen R)) (k : Nat) :
    ((seen.zip (List.range' (k + 1) seen.length)).map (fun x => f (x.2 == 0) x.1)).sum = (seen.map (f false)).sum := by
  induction seen generalizing k with
  | nil => simp
  | cons s t ih =>
    rw [List.length_cons, List.range'_succ, List.zip_cons_cons, List.map_cons, List.sum_cons, List.map_cons, List.sum_cons,
      ih (k + 1)]
    congr 1

theorem sum_values (o : Obj R) (ps : List R) (seen : List (Seen R)) :
    (values o ps seen).sum = main o seen + regs ps seen := by
  cases seen with
  | nil =>
    unfold values main regs
    cases o.kind <;> simp
  | cons s t =>
    have h0 : (values o ps (s :: t)).sum = value o ps true s + (t.map (value o ps false)).sum := by
      unfold values
      rw [List.range_eq_range', List.length_cons, List.range'_succ, List.zip_cons_cons, List.map_cons, List.sum_cons]
      have := values_tail o ps (value o ps) t 0
      simp only [Nat.zero_add] at this
      rw [show (0 + 1 : Nat) = 1 from rfl, this]
      rfl
    rw [h0, value_eq]
    have h1 : t.map (value o ps false) = t.map (fun s => mainVal o false s + (s.regs.map Reg.own).sum) := by
      apply List.map_congr_left
      intro x _
      rw [value_eq]
      congr 2
      apply List.map_congr_left
      intro r _
      simp [regVal]
    rw [h1, sum_map_add']
    have h2 : (s.regs.map (regVal ps true)).sum = (s.regs.map Reg.own).sum + (s.regs.map (Reg.shared ps)).sum := by
      rw [← sum_map_add']
      congr 1
    rw [h2]
    unfold regs main mainVal
    simp only [List.map_cons, List.sum_cons]
    cases o.kind with
    | control =>
      simp only
      rw [sum_map_mul']
      ring
    | discrete =>
      simp
      ring
    | response => simp only; ring
    | sensors =>
      simp only
      rw [sum_map_mul']
      ring

theorem acc_fold (o : Obj R) (ps : List R) (k : Kind) : ∀ (rest : Run R) (x : R × List (Seen R)) (a : R),
    ((record o ps rest).foldl (fun (s : R × R) y =>
      let dt := y.1 - s.1
      let g := reduce y.2
      (y.1, s.2 + if k = .sensors then g else g * dt)) (x.1, a)).2 =
    a + if k = .sensors then plain (fun seen => main o seen + regs ps seen) (x :: rest)
      else steps (fun seen => main o seen + regs ps seen) (x :: rest) := by
  intro rest
  induction rest with
  | nil => intro x a; simp [record, plain, steps]
  | cons y t ih =>
    intro x a
    have := ih y (a + if k = .sensors then (values o ps y.2).sum else (values o ps y.2).sum * (y.1 - x.1))
    unfold record at this ⊢
    rw [List.map_cons, List.foldl_cons]
    simp only [reduce_eq] at this ⊢
    rw [this, plain, steps, sum_values]
    split <;> ring

theorem accumulate_eq (o : Obj R) (ps : List R) (run : Run R) :
    accumulate o.kind (record o ps run) =
      if o.kind = .sensors then sumTime (fun seen => main o seen + regs ps seen) run
      else overTime (fun seen => main o seen + regs ps seen) run := by
  match run with
  | [] => simp [record, accumulate, sumTime, overTime, plain, steps]
  | [x] =>
    simp only [record, List.map_cons, List.map_nil, accumulate, sumTime, overTime, reduce_eq, sum_values]
    simp
  | x :: y :: t =>
    have h := acc_fold o ps o.kind (y :: t) x 0
    have h2 : accumulate o.kind (record o ps (x :: y :: t)) = ((record o ps (y :: t)).foldl (fun (s : R × R) y =>
      let dt := y.1 - s.1
      let g := reduce y.2
      (y.1, s.2 + if o.kind = .sensors then g else g * dt)) (x.1, 0)).2 := by
      unfold record accumulate
      simp only [List.map_cons]
    rw [h2, h, zero_add]
    simp only [sumTime, overTime]

theorem steps_add (f g : List (Seen R) → R) : ∀ run : Run R, steps (fun s => f s + g s) run = steps f run + steps g run := by
  intro run
  induction run with
  | nil => simp [steps]
  | cons x t ih =>
    cases t with
    | nil => simp [steps]
    | cons y t => rw [steps, steps, steps, ih]; ring

theorem plain_add (f g : List (Seen R) → R) : ∀ run : Run R, plain (fun s => f s + g s) run = plain f run + plain g run := by
  intro run
  induction run with
  | nil => simp [plain]
  | cons x t ih =>
    cases t with
    | nil => simp [plain]
    | cons y t => rw [plain, plain, plain, ih]; ring

theorem overTime_add (f g : List (Seen R) → R) (run : Run R) :
    overTime (fun s => f s + g s) run = overTime f run + overTime g run := by
  match run with
  | [] => simp [overTime, steps]
  | [x] => simp [overTime]
  | x :: y :: t => simp only [overTime]; exact steps_add f g _

theorem sumTime_add (f g : List (Seen R) → R) (run : Run R) :
    sumTime (fun s => f s + g s) run = sumTime f run + sumTime g run := by
  match run with
  | [] => simp [sumTime, plain]
  | [x] => simp [sumTime]
  | x :: y :: t => simp only [sumTime]; exact plain_add f g _

theorem steps_zero (f : List (Seen R) → R) : ∀ run : Run R, (∀ x ∈ run, f x.2 = 0) → steps f run = 0 := by
  intro run
  induction run with
  | nil => intro _; simp [steps]
  | cons x t ih =>
    intro h
    cases t with
    | nil => simp [steps]
    | cons y t => rw [steps, ih (fun z hz => h z (List.mem_cons_of_mem _ hz)), h y (by simp)]; ring

theorem plain_zero (f : List (Seen R) → R) : ∀ run : Run R, (∀ x ∈ run, f x.2 = 0) → plain f run = 0 := by
  intro run
  induction run with
  | nil => intro _; simp [plain]
  | cons x t ih =>
    intro h
    cases t with
    | nil => simp [plain]
    | cons y t => rw [plain, ih (fun z hz => h z (List.mem_cons_of_mem _ hz)), h y (by simp)]; ring

theorem overTime_zero (f : List (Seen R) → R) (run : Run R) (h : ∀ x ∈ run, f x.2 = 0) : overTime f run = 0 := by
  match run with
  | [] => simp [overTime, steps]
  | [x] => simp [overTime, h x]
  | x :: y :: t => simp only [overTime]; exact steps_zero f _ h

theorem sumTime_zero (f : List (Seen R) → R) (run : Run R) (h : ∀ x ∈ run, f x.2 = 0) : sumTime f run = 0 := by
  match run with
  | [] => simp [sumTime, plain]
  | [x] => simp [sumTime, h x]
  | x :: y :: t => simp only [sumTime]; exact plain_zero f _ h

theorem regs_none (ps : List R) (seen : List (Seen R)) (h : ∀ s ∈ seen, s.regs = []) : regs ps seen = 0 := by
  unfold regs
  have h1 : seen.map (fun s => (s.regs.map Reg.own).sum) = seen.map (fun _ => (0 : R)) := by
    apply List.map_congr_left
    intro s hs
    rw [h s hs]
    rfl
  rw [h1]
  cases seen with
  | nil => simp
  | cons s t => simp [h s (by simp)]

end MrHyDE.Objective
