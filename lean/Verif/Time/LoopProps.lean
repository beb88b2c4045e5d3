import Verif.Time.Model
import Mathlib.Algebra.Order.Archimedean.Basic
import Mathlib.Tactic.Ring
import Mathlib.Tactic.Linarith
import Mathlib.Tactic.Positivity
import Mathlib.Tactic.NormNum
import Mathlib.Data.List.Induction

/-!
# C22, C23: the loop over time steps and the history of a multistep method
-/

namespace MrHyDE.Time

set_option linter.unusedSectionVars false

section
variable {K : Type} [Field K] [LinearOrder K] [IsStrictOrderedRing K]

/-- Time at which integration counts as finished, solverManager_solvers.hpp:76-78. -/
def stopAt (endTime : K) : K := endTime - endTime * (1/1000000)

theorem cond_iff (E : K) (mc : Nat) (s : LoopState K) :
    loopCond E mc s = true ↔ s.time < stopAt E ∧ s.numCuts ≤ mc := by
  simp [loopCond, stopAt]

/-- More fuel does not change a finished loop. -/
theorem loop_mono (E : K) (mc : Nat) (ok : Nat → Bool) (f : Nat) : ∀ (n : Nat) (s r : LoopState K),
    loop E mc ok f n s = some r → loop E mc ok (f+1) n s = some r := by
  induction f with
  | zero => intro n s r h; simp [loop] at h
  | succ f ih =>
    intro n s r h
    rw [loop] at h ⊢
    by_cases c : loopCond E mc s = true
    · rw [if_pos c] at h ⊢
      exact ih _ _ _ h
    · rw [if_neg c] at h ⊢
      exact h

/-- An invariant of the loop holds at its end, and there the condition is false. -/
theorem loop_inv (E : K) (mc : Nat) (ok : Nat → Bool) (P : Nat → LoopState K → Prop)
    (hP : ∀ n s, P n s → loopCond E mc s = true → P (n+1) (loopBody (ok n) s)) (f : Nat) :
    ∀ (n : Nat) (s r : LoopState K), P n s → loop E mc ok f n s = some r →
      ∃ m, P m r ∧ loopCond E mc r = false := by
  induction f with
  | zero => intro n s r _ h; simp [loop] at h
  | succ f ih =>
    intro n s r hs h
    rw [loop] at h
    by_cases c : loopCond E mc s = true
    · rw [if_pos c] at h
      exact ih _ _ _ (hP n s hs c) h
    · rw [if_neg c] at h
      injection h with h
      subst h
      exact ⟨n, hs, by simpa using c⟩

/-- The loop ends whatever the outcomes of the attempts are. -/
theorem loop_terminates [Archimedean K] (E : K) (mc : Nat) (ok : Nat → Bool) (c : Nat) :
    ∀ (n : Nat) (s : LoopState K), 0 < s.dt → mc + 1 ≤ s.numCuts + c →
      ∃ f r, loop E mc ok f n s = some r := by
  induction c with
  | zero =>
    intro n s _ hc
    refine ⟨1, s, ?_⟩
    rw [loop, if_neg]
    rw [cond_iff]
    rintro ⟨_, h⟩
    omega
  | succ c ih =>
    intro n s hdt hc
    obtain ⟨m, hm⟩ := Archimedean.arch (stopAt E - s.time) hdt
    induction m generalizing n s with
    | zero =>
      refine ⟨1, s, ?_⟩
      rw [loop, if_neg]
      rw [cond_iff]
      rintro ⟨h, _⟩
      simp at hm
      exact absurd h (not_lt.mpr hm)
    | succ m ihm =>
      by_cases cnd : loopCond E mc s = true
      · have key : ∃ f r, loop E mc ok f (n+1) (loopBody (ok n) s) = some r := by
          by_cases o : ok n = true
          · apply ihm
            · simp [loopBody, o, hdt]
            · simp [loopBody, o]; omega
            · simp only [loopBody, o, if_true]
              rw [succ_nsmul] at hm
              linarith
          · apply ih
            · simp [loopBody, o, hdt]
            · simp [loopBody, o]; omega
        obtain ⟨f, r, h⟩ := key
        exact ⟨f+1, r, by rw [loop, if_pos cnd]; exact h⟩
      · exact ⟨1, s, by rw [loop, if_neg cnd]⟩

/-- **C22.**  With a positive step and every step converging, for all initial and final times the loop
ends; there is a number `n` of steps such that the recorded times are `t0, t0+dt, ..., t0+n*dt`; every
step was started before the final time less the tolerance, and the last time is not before that. -/
theorem C22 [Archimedean K] (t0 E dt : K) (hdt : 0 < dt) (mc : Nat) :
    ∃ f r n, loop E mc (fun _ => true) f 0 (loopInit t0 dt) = some r ∧
      r.recorded.reverse = (List.range (n+1)).map (fun k => t0 + (k : Nat) * dt) ∧
      r.time = t0 + n * dt ∧ r.stepProg = n ∧
      (∀ k < n, t0 + (k : K) * dt < E - E / 1000000) ∧
      E - E / 1000000 ≤ t0 + n * dt := by
  obtain ⟨f, r, h⟩ := loop_terminates E mc (fun _ => true) (mc+1) 0 (loopInit t0 dt) hdt (by simp [loopInit])
  have inv := loop_inv E mc (fun _ => true) (fun n s =>
      s.dt = dt ∧ s.numCuts = 0 ∧ s.stepProg = n ∧ s.time = t0 + n * dt ∧
      s.recorded.reverse = (List.range (n+1)).map (fun k => t0 + (k : Nat) * dt) ∧
      ∀ k < n, t0 + (k : K) * dt < E - E / 1000000)
    (by
      rintro n s ⟨h1, h2, h3, h4, h5, h6⟩ hc
      rw [cond_iff] at hc
      refine ⟨by simp [loopBody, h1], by simp [loopBody, h2], by simp [loopBody, h3], ?_, ?_, ?_⟩
      · simp [loopBody, h1, h4]; ring
      · simp only [loopBody, if_true, List.reverse_cons]
        rw [h5, h4, h1, List.range_succ (n := n+1), List.map_append]
        simp
        ring
      · intro k hk
        by_cases e : k = n
        · subst e
          have := hc.1
          rw [h4, stopAt] at this
          rw [div_eq_mul_one_div]
          exact this
        · exact h6 k (by omega)) f 0 _ r (by simp [loopInit]) h
  obtain ⟨n, ⟨_, h2, h3, h4, h5, h6⟩, hc⟩ := inv
  refine ⟨f, r, n, h, h5, h4, h3, h6, ?_⟩
  have : ¬ (r.time < stopAt E ∧ r.numCuts ≤ mc) := by rw [← cond_iff]; simp [hc]
  rw [h4, stopAt, ← div_eq_mul_one_div] at this
  by_contra hlt
  exact this ⟨by rw [← not_le]; exact hlt, by omega⟩

/-- **C22, consequence.**  If integration starts before the final time less the tolerance, it ends
within one step (and the tolerance) of the final time. -/
theorem C22_close [Archimedean K] (t0 E dt : K) (hdt : 0 < dt) (hE : t0 < E - E / 1000000) (mc : Nat) :
    ∃ f r, loop E mc (fun _ => true) f 0 (loopInit t0 dt) = some r ∧
      E - E / 1000000 ≤ r.time ∧ r.time < E - E / 1000000 + dt := by
  obtain ⟨f, r, n, h, _, ht, _, hk, hn⟩ := C22 t0 E dt hdt mc
  refine ⟨f, r, h, by rw [ht]; exact hn, ?_⟩
  rw [ht]
  cases n with
  | zero => push_cast at hn; linarith
  | succ n =>
    have := hk n (by omega)
    push_cast
    linarith

/-- A case: from 0 to 1 with step 1/4 the times are 0, 1/4, 1/2, 3/4, 1. -/
example : ∃ r, loop (1 : ℚ) 5 (fun _ => true) 9 0 (loopInit 0 (1/4)) = some r ∧
    r.recorded.reverse = [0, 1/4, 1/2, 3/4, 1] := by
  refine ⟨⟨1, 1/4, 4, 0, [1, 3/4, 1/2, 1/4, 0]⟩, by decide +kernel, by decide +kernel⟩

/-- **C22 with failing steps.**  Whatever the outcomes of the attempts, the loop ends, the recorded
times increase strictly, and it ends either at the final time (less the tolerance) or after more than
the allowed number of cuts. -/
theorem C22_failures [Archimedean K] (t0 E dt : K) (hdt : 0 < dt) (mc : Nat) (ok : Nat → Bool) :
    ∃ f r, loop E mc ok f 0 (loopInit t0 dt) = some r ∧
      r.recorded.reverse.IsChain (· < ·) ∧ r.numCuts ≤ mc + 1 ∧ r.dt * 2 ^ r.numCuts = dt ∧
      (E - E / 1000000 ≤ r.time ∨ r.numCuts = mc + 1) := by
  obtain ⟨f, r, h⟩ := loop_terminates E mc ok (mc+1) 0 (loopInit t0 dt) hdt (by simp [loopInit])
  have inv := loop_inv E mc ok (fun _ s =>
      0 < s.dt ∧ s.dt * 2 ^ s.numCuts = dt ∧ s.numCuts ≤ mc + 1 ∧
      s.recorded.head? = some s.time ∧ s.recorded.IsChain (· > ·))
    (by
      rintro n s ⟨h1, h2, h3, h4, h5⟩ hc
      rw [cond_iff] at hc
      by_cases o : ok n = true
      · simp only [loopBody, o, if_true]
        refine ⟨h1, h2, h3, rfl, ?_⟩
        cases hr : s.recorded with
        | nil => rw [hr] at h4; simp at h4
        | cons x xs =>
          rw [hr] at h4 h5
          simp only [List.head?_cons, Option.some.injEq] at h4
          rw [List.isChain_cons_cons]
          exact ⟨by rw [h4]; linarith, h5⟩
      · simp only [loopBody, o]
        refine ⟨by simp [h1], ?_, by simp; omega, h4, h5⟩
        simp only [Bool.false_eq_true, if_false]
        rw [← h2, pow_succ]
        ring) f 0 _ r (by simp [loopInit, hdt]) h
  obtain ⟨n, ⟨_, h2, h3, _, h5⟩, hc⟩ := inv
  refine ⟨f, r, h, ?_, h3, h2, ?_⟩
  · rw [List.isChain_reverse]
    exact h5
  · have : ¬ (r.time < stopAt E ∧ r.numCuts ≤ mc) := by rw [← cond_iff]; simp [hc]
    rw [stopAt, ← div_eq_mul_one_div] at this
    by_cases hlt : r.time < E - E / 1000000
    · right
      have : ¬ r.numCuts ≤ mc := fun hle => this ⟨hlt, hle⟩
      omega
    · left
      exact not_lt.mp hlt

/-- **C22, violated when steps keep failing**: after the allowed number of cuts the loop ends before
the final time, and nothing in the state distinguishes this from a normal end other than the time. -/
theorem C22_failures_violated : ∃ r, loop (1 : ℚ) 2 (fun _ => false) 9 0 (loopInit 0 (1/4)) = some r ∧
    r.time = 0 ∧ r.recorded = [0] := 
  ⟨⟨0, 1/32, 0, 3, [0]⟩, by decide +kernel, rfl, rfl⟩

end

/-! ### History -/

section
variable {V : Type}

/-- States reached by a sequence of attempts from an initial solution with a fresh history (zero
vectors); an attempt is the solution found and whether it was accepted. -/
def runHist (init zero : V) (len : Nat) (as : List (V × Bool)) : Hist V :=
  as.foldl (fun h a => attempt h a.1 a.2) { sol := init, prev := List.replicate len zero }

/-- The accepted solutions, newest first, ending with the initial one. -/
def acceptedRev (init : V) (as : List (V × Bool)) : List V :=
  ((as.filter (fun a => a.2)).map Prod.fst).reverse ++ [init]

theorem shift_length (h : Hist V) : (shift h).prev.length = h.prev.length := by
  unfold shift
  split
  · rfl
  · rename_i hne
    have : h.prev ≠ [] := fun e => hne e
    have := List.length_pos_iff.mpr this
    simp [List.length_dropLast]
    omega

theorem attempt_length (h : Hist V) (x : V) (ok : Bool) : (attempt h x ok).prev.length = h.prev.length := by
  unfold attempt
  cases ok <;> simp [shift_length]

theorem shift_getElem? (h : Hist V) (k : Nat) (hk : k < h.prev.length) :
    (shift h).prev[k]? = (h.sol :: h.prev)[k]? := by
  unfold shift
  split
  · rename_i e; rw [e] at hk; simp at hk
  · cases k with
    | zero => simp
    | succ k =>
      simp only [List.getElem?_cons_succ]
      rw [List.getElem?_dropLast]
      rw [if_pos (by omega)]

/-- Contents of the slots before the shift of the next attempt when no attempt failed. -/
theorem runHist_inv (init zero : V) (len : Nat) (as : List (V × Bool)) (hok : ∀ a ∈ as, a.2 = true) :
    (runHist init zero len as).prev.length = len ∧
    ∀ k, k ≤ len → ((runHist init zero len as).sol :: (runHist init zero len as).prev)[k]? =
      (acceptedRev init as ++ List.replicate len zero)[k]? := by
  induction as using List.reverseRecOn with
  | nil =>
    refine ⟨by simp [runHist], ?_⟩
    intro k hk
    simp [runHist, acceptedRev]
  | append_singleton as a ih =>
    have ih' := ih (fun x hx => hok x (by simp [hx]))
    have ha := hok a (by simp)
    have step : runHist init zero len (as ++ [a]) = attempt (runHist init zero len as) a.1 a.2 := by
      simp [runHist]
    have acc : acceptedRev init (as ++ [a]) = a.1 :: acceptedRev init as := by
      simp [acceptedRev, ha]
    rw [step, acc]
    refine ⟨by rw [attempt_length]; exact ih'.1, ?_⟩
    intro k hk
    cases k with
    | zero => simp [attempt, ha]
    | succ k =>
      simp only [List.cons_append, List.getElem?_cons_succ, attempt, ha, if_true]
      rw [shift_getElem? _ _ (by rw [ih'.1]; omega)]
      exact ih'.2 k (by omega)

/-- **C23** (partial: no failed step).  After any sequence of accepted steps, in the step that follows
(after the shift) slot `k` holds the solution accepted `k` steps before the last one, for every slot
that the number of steps already taken allows, whatever the length of the history. -/
theorem C23_no_failures_partial (init zero : V) (len : Nat) (as : List (V × Bool))
    (hok : ∀ a ∈ as, a.2 = true) (k : Nat) (hk : k < len) (hn : k ≤ as.length) :
    (shift (runHist init zero len as)).prev[k]? = (acceptedRev init as)[k]? := by
  have h := runHist_inv init zero len as hok
  rw [shift_getElem? _ _ (by rw [h.1]; exact hk), h.2 k (by omega)]
  rw [List.getElem?_append_left]
  have : as.filter (fun a => a.2) = as := List.filter_eq_self.mpr hok
  simp [acceptedRev, this]
  omega

/-- **C23** (partial: one slot).  With a single history slot (every one-step method) failed attempts do
no harm: the slot holds the last accepted solution. -/
theorem C23_one_slot_partial (init zero : V) (as : List (V × Bool)) :
    (shift (runHist init zero 1 as)).prev = (acceptedRev init as).take 1 := by
  have key : (runHist init zero 1 as).prev.length = 1 ∧
      some (runHist init zero 1 as).sol = (acceptedRev init as).head? := by
    induction as using List.reverseRecOn with
    | nil => simp [runHist, acceptedRev]
    | append_singleton as a ih =>
      have step : runHist init zero 1 (as ++ [a]) = attempt (runHist init zero 1 as) a.1 a.2 := by
        simp [runHist]
      rw [step]
      refine ⟨by rw [attempt_length]; exact ih.1, ?_⟩
      obtain ⟨x, b⟩ := a
      cases b with
      | true => simp [attempt, acceptedRev]
      | false =>
        have e : acceptedRev init (as ++ [(x, false)]) = acceptedRev init as := by simp [acceptedRev]
        rw [e, ← ih.2]
        obtain ⟨y, hy⟩ := List.length_eq_one_iff.mp ih.1
        simp [attempt, shift, hy]
  obtain ⟨y, hy⟩ := List.length_eq_one_iff.mp key.1
  have hs : (shift (runHist init zero 1 as)).prev = [(runHist init zero 1 as).sol] := by
    simp [shift, hy]
  rw [hs]
  have h2 := key.2
  cases hl : acceptedRev init as with
  | nil => rw [hl] at h2; simp at h2
  | cons z zs => rw [hl] at h2; simp at h2; simp [h2]

/-- A case of the two theorems: three accepted steps, two slots. -/
example : (shift (runHist 0 (-1) 2 [(1, true), (2, true), (3, true)])).prev = [3, 2] := rfl

/-- **C23, violated.**  After one accepted and one failed step, in the repeated step the second slot
holds the last solution again instead of the one before it. -/
theorem C23_violated : (shift (runHist (0 : Nat) 100 2 [(1, true), (7, false)])).prev = [1, 1] ∧
    acceptedRev (0 : Nat) [(1, true), (7, false)] = [1, 0] := ⟨rfl, rfl⟩

/-- **C23, violated in the first steps.**  With the default settings a multistep method is used from
the first step, when the slots beyond the steps taken hold zero vectors. -/
theorem C23_startup_violated (init zero : V) (len : Nat) (k : Nat) (hk : k < len) (h1 : 1 ≤ k) :
    (shift (runHist init zero len [])).prev[k]? = some zero := by
  rw [shift_getElem? _ _ (by simp [runHist, hk])]
  obtain ⟨j, rfl⟩ : ∃ j, k = j + 1 := ⟨k - 1, by omega⟩
  simp only [runHist, List.foldl_nil, List.getElem?_cons_succ, List.getElem?_replicate]
  rw [if_pos (by omega)]

end

end MrHyDE.Time
