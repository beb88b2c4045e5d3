import Verif.Assembly.Machine
import Mathlib.Algebra.BigOperators.Group.List.Lemmas
import Mathlib.Tactic.Abel
import Mathlib.Tactic.Common

/-! # Assembly: parallel accumulation, lemmas -/

set_option linter.unusedSectionVars false

namespace MrHyDE.Assembly

variable {L K : Type} [DecidableEq L] [AddCommMonoid K]

@[simp] theorem total_nil (l : L) : total ([] : List (L × K)) l = 0 := by simp [total]

theorem total_cons (o : L × K) (t : List (L × K)) (l : L) :
    total (o :: t) l = (if o.1 = l then o.2 else 0) + total t l := by
  unfold total
  by_cases h : o.1 = l <;> simp [h]

theorem total_append (a b : List (L × K)) (l : L) : total (a ++ b) l = total a l + total b l := by
  unfold total
  simp

theorem total_perm {a b : List (L × K)} (h : a.Perm b) (l : L) : total a l = total b l := by
  unfold total
  exact ((h.filter _).map _).sum_eq

theorem total_flatten (p : List (List (L × K))) (l : L) : total p.flatten l = (p.map (fun x => total x l)).sum := by
  induction p with
  | nil => simp
  | cons a t ih => rw [List.flatten_cons, total_append, ih]; simp

/-- Additions still to be done by atomic instructions. -/
def pend (l : L) : List (Instr L K) → K
  | [] => 0
  | .atomicAdd x v :: t => (if x = l then v else 0) + pend l t
  | _ :: t => pend l t

/-- Only atomic instructions. -/
def allAtomic (t : List (Instr L K)) : Prop := ∀ i ∈ t, ∃ x v, i = Instr.atomicAdd x v

theorem wr_self (mem : L → K) (l : L) (v : K) : wr mem l v l = v := by simp [wr]

theorem set_sum (f : Worker L K → K) : ∀ (ws : List (Worker L K)) (k : Nat) (w w' : Worker L K) (d : K), ws[k]? = some w →
    f w = d + f w' → (ws.map f).sum = d + ((ws.set k w').map f).sum := by
  intro ws
  induction ws with
  | nil => intro k w w' d h; simp at h
  | cons a t ih =>
    intro k w w' d h hd
    cases k with
    | zero =>
      simp at h; subst h
      simp [hd, add_assoc]
    | succ k =>
      have := ih k w w' d (by simpa using h) hd
      simp [this, add_left_comm]

theorem step_none (m : Mach L K) (k : Nat) (h : m.ws[k]? = none) : step m k = m := by
  unfold step; rw [h]

theorem step_nil (m : Mach L K) (k : Nat) (w : Worker L K) (h : m.ws[k]? = some w) (ht : w.todo = []) :
    step m k = m := by
  unfold step; rw [h]; simp only; rw [ht]

theorem step_cons (m : Mach L K) (k : Nat) (w : Worker L K) (i : Instr L K) (t : List (Instr L K))
    (h : m.ws[k]? = some w) (ht : w.todo = i :: t) :
    step m k = { mem := (exec m.mem w.reg i).1, ws := m.ws.set k { todo := t, reg := (exec m.mem w.reg i).2 } } := by
  unfold step; rw [h]; simp only; rw [ht]

theorem step_atomic (m : Mach L K) (k : Nat) (h : ∀ w ∈ m.ws, allAtomic w.todo) :
    (∀ w ∈ (step m k).ws, allAtomic w.todo) ∧
    ∀ l, (step m k).mem l + ((step m k).ws.map (fun w => pend l w.todo)).sum =
      m.mem l + (m.ws.map (fun w => pend l w.todo)).sum := by
  cases hk : m.ws[k]? with
  | none => rw [step_none m k hk]; exact ⟨h, fun _ => rfl⟩
  | some w =>
    have hw := h w (List.mem_of_getElem? hk)
    cases ht : w.todo with
    | nil => rw [step_nil m k w hk ht]; exact ⟨h, fun _ => rfl⟩
    | cons i t =>
      obtain ⟨x, v, rfl⟩ := hw i (by rw [ht]; exact List.mem_cons_self)
      rw [step_cons m k w _ t hk ht]
      refine ⟨?_, ?_⟩
      · intro w' hw'
        rcases List.mem_or_eq_of_mem_set hw' with h1 | h1
        · exact h w' h1
        · subst h1
          intro i hi
          exact hw i (by rw [ht]; exact List.mem_cons_of_mem _ hi)
      · intro l
        have hs := set_sum (fun w => pend l w.todo) m.ws k w
          { todo := t, reg := (exec m.mem w.reg (Instr.atomicAdd x v)).2 } (if x = l then v else 0) hk (by simp [ht, pend])
        rw [hs]
        simp only [exec, wr]
        by_cases hx : l = x
        · subst hx; simp [add_assoc]
        · have hx' : ¬ x = l := fun h => hx h.symm
          simp [hx, hx']

theorem run_atomic (sched : List Nat) : ∀ (m : Mach L K), (∀ w ∈ m.ws, allAtomic w.todo) →
    (∀ w ∈ (run m sched).ws, allAtomic w.todo) ∧
    ∀ l, (run m sched).mem l + ((run m sched).ws.map (fun w => pend l w.todo)).sum =
      m.mem l + (m.ws.map (fun w => pend l w.todo)).sum := by
  induction sched with
  | nil => intro m h; exact ⟨h, fun _ => rfl⟩
  | cons k ks ih =>
    intro m h
    obtain ⟨h1, h2⟩ := step_atomic m k h
    obtain ⟨h3, h4⟩ := ih (step m k) h1
    exact ⟨h3, fun l => (h4 l).trans (h2 l)⟩

theorem pend_compile (l : L) : ∀ (p : List (L × K)), pend l (p.map (compile true)).flatten = total p l := by
  intro p
  induction p with
  | nil => simp [pend]
  | cons o t ih =>
    rw [total_cons, ← ih]
    simp [compile, pend]

theorem allAtomic_compile (p : List (L × K)) : allAtomic (p.map (compile true)).flatten := by
  intro i hi
  simp only [List.mem_flatten, List.mem_map] at hi
  obtain ⟨_, ⟨o, _, rfl⟩, hi⟩ := hi
  simp [compile] at hi
  exact ⟨_, _, hi⟩

/-- Invariant of a single worker without atomics. -/
def Single (tot : L → K) (m : Mach L K) : Prop :=
  ∃ w, m.ws = [w] ∧
    ((∃ ops, w.todo = (ops.map (compile false)).flatten ∧ ∀ l, tot l = m.mem l + total ops l) ∨
     (∃ x v ops, w.todo = Instr.addStore x v :: (ops.map (compile false)).flatten ∧ w.reg = m.mem x ∧
       ∀ l, tot l = m.mem l + ((if x = l then v else 0) + total ops l)))

theorem step_single (tot : L → K) (m : Mach L K) (k : Nat) (h : Single tot m) : Single tot (step m k) := by
  obtain ⟨w, hw, hc⟩ := h
  cases k with
  | succ k => rw [step_none m (k + 1) (by simp [hw])]; exact ⟨w, hw, hc⟩
  | zero =>
    have hk : m.ws[0]? = some w := by simp [hw]
    rcases hc with ⟨ops, ht, hs⟩ | ⟨x, v, ops, ht, hr, hs⟩
    · cases ops with
      | nil =>
        simp at ht
        rw [step_nil m 0 w hk ht]
        exact ⟨w, hw, Or.inl ⟨[], by simpa using ht, hs⟩⟩
      | cons o t =>
        have ht' : w.todo = Instr.load o.1 :: Instr.addStore o.1 o.2 :: (t.map (compile false)).flatten := by
          rw [ht]; simp [compile]
        rw [step_cons m 0 w _ _ hk ht']
        refine ⟨_, by rw [hw]; rfl, Or.inr ⟨o.1, o.2, t, rfl, rfl, ?_⟩⟩
        intro l
        have := hs l
        rw [total_cons] at this
        exact this
    · rw [step_cons m 0 w _ _ hk ht]
      refine ⟨_, by rw [hw]; rfl, Or.inl ⟨ops, rfl, ?_⟩⟩
      intro l
      rw [hs l]
      simp only [exec, wr]
      by_cases hx : l = x
      · subst hx; simp [hr, add_assoc]
      · have hx' : ¬ x = l := fun h => hx h.symm
        simp [hx, hx']

theorem run_single (tot : L → K) (sched : List Nat) : ∀ (m : Mach L K), Single tot m → Single tot (run m sched) := by
  induction sched with
  | nil => intro m h; exact h
  | cons k ks ih => intro m h; exact ih _ (step_single tot m k h)

/-- Every outcome of a kernel is the start plus the sum of the additions. -/
theorem kernel_total (c : Nat) (hc : 1 ≤ c) (mem mem' : L → K) (ops : List (L × K)) (h : Kernel c mem ops mem') (l : L) :
    mem' l = mem l + total ops l := by
  obtain ⟨parts, sched, hl, hp, hf, rfl⟩ := h
  rw [← total_perm hp l, total_flatten]
  by_cases h1 : c > 1
  · have ha : useAtomics c = true := by simp [useAtomics, h1]
    rw [ha] at hf ⊢
    have hat : ∀ w ∈ (launch true mem parts).ws, allAtomic w.todo := by
      intro w hw
      obtain ⟨p, _, rfl⟩ := List.mem_map.1 hw
      exact allAtomic_compile p
    have h2 := (run_atomic sched (launch true mem parts) hat).2 l
    have h3 : ((run (launch true mem parts) sched).ws.map (fun w => pend l w.todo)).sum = 0 := by
      apply List.sum_eq_zero
      intro x hx
      obtain ⟨w, hw, rfl⟩ := List.mem_map.1 hx
      rw [hf w hw]; rfl
    rw [h3, add_zero] at h2
    rw [h2]
    congr 1
    simp only [launch, List.map_map, Function.comp_def, pend_compile]
  · have hc1 : c = 1 := by omega
    have ha : useAtomics c = false := by simp [useAtomics, h1]
    rw [ha] at hf ⊢
    rw [hc1] at hl
    obtain ⟨p, rfl⟩ := List.length_eq_one_iff.1 hl
    have hS : Single (fun l => mem l + total p l) (launch false mem [p]) :=
      ⟨_, rfl, Or.inl ⟨p, rfl, fun _ => rfl⟩⟩
    obtain ⟨w, hw, hcase⟩ := run_single _ sched _ hS
    have hd : w.todo = [] := hf w (by rw [hw]; simp)
    rcases hcase with ⟨ops', ht, hs⟩ | ⟨x, v, ops', ht, _, _⟩
    · rw [hd] at ht
      have : ops' = [] := by
        cases ops' with
        | nil => rfl
        | cons o t => simp [compile] at ht
      subst this
      have := hs l
      rw [total_nil, add_zero] at this
      rw [← this]; simp
    · rw [hd] at ht; cases ht

theorem kernels_total (c : Nat) (hc : 1 ≤ c) (mem mem' : L → K) (launches : List (List (L × K)))
    (h : Kernels c mem launches mem') (l : L) : mem' l = mem l + total launches.flatten l := by
  induction h with
  | nil mem => simp
  | cons mem mem1 mem2 ops rest h1 _ ih =>
    rw [ih, kernel_total c hc _ _ _ h1 l, List.flatten_cons, total_append, add_assoc]

/-! A kernel always has an outcome: one worker after the other. -/

theorem run_append (m : Mach L K) (a b : List Nat) : run m (a ++ b) = run (run m a) b := by
  simp [run, List.foldl_append]

theorem step_ws_other (m : Mach L K) (k j : Nat) (h : j ≠ k) : (step m k).ws[j]? = m.ws[j]? := by
  cases hk : m.ws[k]? with
  | none => rw [step_none m k hk]
  | some w =>
    cases ht : w.todo with
    | nil => rw [step_nil m k w hk ht]
    | cons i t => rw [step_cons m k w i t hk ht]; simp [List.getElem?_set_ne (Ne.symm h)]

theorem run_worker (k : Nat) : ∀ (n : Nat) (m : Mach L K) (w : Worker L K), m.ws[k]? = some w → w.todo.length = n →
    (∃ w', (run m (List.replicate n k)).ws[k]? = some w' ∧ w'.todo = []) ∧
    (∀ j, j ≠ k → (run m (List.replicate n k)).ws[j]? = m.ws[j]?) := by
  intro n
  induction n with
  | zero =>
    intro m w hk hn
    exact ⟨⟨w, hk, List.length_eq_zero_iff.1 hn⟩, fun _ _ => rfl⟩
  | succ n ih =>
    intro m w hk hn
    cases ht : w.todo with
    | nil => rw [ht] at hn; simp at hn
    | cons i t =>
      have hlt : k < m.ws.length := by
        by_contra hc
        rw [List.getElem?_eq_none (by omega)] at hk; cases hk
      have hst : (step m k).ws[k]? = some { todo := t, reg := (exec m.mem w.reg i).2 } := by
        rw [step_cons m k w i t hk ht, List.getElem?_set_self hlt]
      have := ih (step m k) _ hst (by rw [ht] at hn; simpa using hn)
      rw [List.replicate_succ]
      refine ⟨this.1, fun j hj => ?_⟩
      exact (this.2 j hj).trans (step_ws_other m k j hj)

theorem exists_schedule (m : Mach L K) : ∀ (n : Nat), n ≤ m.ws.length → ∃ sched,
    (∀ k, k < n → ∃ w', (run m sched).ws[k]? = some w' ∧ w'.todo = []) ∧
    (∀ k, n ≤ k → (run m sched).ws[k]? = m.ws[k]?) := by
  intro n
  induction n with
  | zero => intro _; exact ⟨[], by intro k hk; omega, fun _ _ => rfl⟩
  | succ n ih =>
    intro hn
    obtain ⟨s, h1, h2⟩ := ih (by omega)
    have hw : m.ws[n]? = some m.ws[n] := List.getElem?_eq_getElem (by omega)
    obtain ⟨⟨w', e1, e2⟩, e3⟩ := run_worker n _ (run m s) _ ((h2 n (Nat.le_refl _)).trans hw) rfl
    refine ⟨s ++ List.replicate (m.ws[n]).todo.length n, ?_, ?_⟩
    · intro k hk
      rw [run_append]
      by_cases hkn : k = n
      · subst hkn; exact ⟨w', e1, e2⟩
      · rw [e3 k hkn]; exact h1 k (by omega)
    · intro k hk
      rw [run_append, e3 k (by omega)]
      exact h2 k (by omega)

theorem run_length (sched : List Nat) : ∀ (m : Mach L K), (run m sched).ws.length = m.ws.length := by
  induction sched with
  | nil => intro m; rfl
  | cons k ks ih =>
    intro m
    have : (step m k).ws.length = m.ws.length := by
      cases hk : m.ws[k]? with
      | none => rw [step_none m k hk]
      | some w =>
        cases ht : w.todo with
        | nil => rw [step_nil m k w hk ht]
        | cons i t => rw [step_cons m k w i t hk ht]; simp
    exact (ih _).trans this

theorem kernel_exists (c : Nat) (hc : 1 ≤ c) (mem : L → K) (ops : List (L × K)) : ∃ mem', Kernel c mem ops mem' := by
  have hlen : (launch (useAtomics c) mem (ops :: List.replicate (c - 1) [])).ws.length = c := by
    simp [launch]; omega
  obtain ⟨s, h1, _⟩ := exists_schedule (launch (useAtomics c) mem (ops :: List.replicate (c - 1) [])) c (by omega)
  refine ⟨_, ops :: List.replicate (c - 1) [], s, by simp; omega, by simp, ?_, rfl⟩
  intro w hw
  obtain ⟨k, hk, rfl⟩ := List.mem_iff_getElem.1 hw
  have hkc : k < c := by rw [run_length, hlen] at hk; exact hk
  obtain ⟨w', e1, e2⟩ := h1 k hkc
  rw [List.getElem?_eq_getElem hk] at e1
  injection e1 with e1
  rw [e1]; exact e2

end MrHyDE.Assembly
