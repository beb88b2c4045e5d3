import Verif.Solver.Steady
import Mathlib.Tactic.LinearCombination
import Mathlib.Tactic.NormNum
import Mathlib.Tactic.Ring
import Mathlib.Data.Fin.VecNotation

/-! # C130: steady runs and their gradients -/

namespace MrHyDE.Solver.Steady

open Matrix

set_option linter.unusedSectionVars false

section Forward

variable {V : Type}

theorem sweep_other (solve : Nat → (Nat → V) → V) (n : Nat) (u : Nat → V) (s : Nat) (h : n ≤ s) : sweep solve n u s = u s := by
  induction n with
  | zero => rfl
  | succ n ih =>
    show Function.update _ _ _ s = _
    rw [Function.update_of_ne (by omega)]
    exact ih (by omega)

theorem sweep_later (solve : Nat → (Nat → V) → V) (n m : Nat) (h : n ≤ m) (u : Nat → V) (s : Nat) (hs : s < n) :
    sweep solve m u s = sweep solve n u s := by
  induction m with
  | zero => omega
  | succ m ih =>
    by_cases e : n = m + 1
    · rw [e]
    · show Function.update _ _ _ s = _
      rw [Function.update_of_ne (by omega)]
      exact ih (by omega)

/-- C130: if a further cycle over the physics sets changes nothing, the equations of all sets hold together, whatever they are,
provided the solve of one set solves its equations. -/
theorem C130_settled (solve : Nat → (Nat → V) → V) (holds : Nat → (Nat → V) → Prop)
    (hs : ∀ s u, holds s (Function.update u s (solve s u))) (n : Nat) (u : Nat → V) (h : sweep solve n u = u) (s : Nat)
    (hsn : s < n) : holds s u := by
  have key : ∀ k, k ≤ n → sweep solve k u = u := by
    intro k hk
    funext i
    by_cases hi : i < k
    · rw [← sweep_later solve k n hk u i hi, h]
    · exact sweep_other solve k u i (by omega)
  have e : Function.update (sweep solve s u) s (solve s (sweep solve s u)) = u := key (s + 1) hsn
  rw [key s (by omega)] at e
  have := hs s u
  rwa [e] at this

/-- C130: solutions of all equations together are kept by any number of cycles, if each set is solved to the only solution of its
equations. -/
theorem C130_kept (solve : Nat → (Nat → V) → V) (holds : Nat → (Nat → V) → Prop)
    (hu : ∀ s u, holds s u → solve s u = u s) (n k : Nat) (u : Nat → V) (h : ∀ s, s < n → holds s u) :
    cycles solve n k u = u := by
  have one : ∀ m, m ≤ n → sweep solve m u = u := by
    intro m
    induction m with
    | zero => intro _; rfl
    | succ m ih =>
      intro hm
      show Function.update (sweep solve m u) m (solve m (sweep solve m u)) = u
      rw [ih (by omega), hu m u (h m (by omega)), Function.update_eq_self]
  induction k with
  | zero => rfl
  | succ k ih =>
    show cycles solve n k (sweep solve n u) = u
    rw [one n le_rfl, ih]

/-- C130: sets that depend on earlier ones only are all solved by one cycle (which is the default), from any initial values. -/
theorem C130_oneway (solve : Nat → (Nat → V) → V) (holds : Nat → (Nat → V) → Prop)
    (hs : ∀ s u, holds s (Function.update u s (solve s u)))
    (hdep : ∀ s u v, (∀ i, i ≤ s → u i = v i) → holds s u → holds s v) (n k : Nat) (u : Nat → V) (hk : 1 ≤ k) (s : Nat)
    (hsn : s < n) : holds s (cycles solve n k u) := by
  have one : ∀ v : Nat → V, holds s (sweep solve n v) := by
    intro v
    refine hdep s (sweep solve (s + 1) v) _ ?_ (hs s (sweep solve s v))
    intro i hi
    exact (sweep_later solve (s + 1) n hsn v i (by omega)).symm
  induction k generalizing u with
  | zero => omega
  | succ k ih =>
    show holds s (cycles solve n k (sweep solve n u))
    by_cases hk0 : k = 0
    · rw [hk0]; exact one u
    · exact ih _ (by omega)

/-- C130: for two sets coupled both ways, `x = a y + f` and `y = b x + h`, every cycle multiplies the distance to the solution by
`a b`. -/
theorem C130_rate {K : Type} [Field K] (a b f h x y : K) (ex : x = a * y + f) (ey : y = b * x + h) (k : Nat) (u : Nat → K) :
    cycles (fun s v => if s = 0 then a * v 1 + f else b * v 0 + h) 2 k u 1 - y = (a * b) ^ k * (u 1 - y) := by
  induction k generalizing u with
  | zero => simp [cycles]
  | succ k ih =>
    show cycles _ 2 k (sweep _ 2 u) 1 - y = _
    rw [ih]
    have : sweep (fun s v => if s = 0 then a * v 1 + f else b * v 0 + h) 2 u 1 = b * (a * u 1 + f) + h := by
      simp [sweep, Function.update]
    rw [this]
    linear_combination ((a * b) ^ k * (-b)) * ex - ((a * b) ^ k) * ey

/-- C130: what a saved steady run leaves is one state, that of its cycles. -/
theorem C130_stored (solve : Nat → (Nat → V) → V) (n : Nat) (tr : (Nat → V) → List (Nat → V)) (k : Int) (u : Nat → V) :
    forward solve n tr "steady-state" k true u = [cycles solve n k.toNat u] ∧
    forward solve n tr "steady-state" k false u = [] := by
  constructor <;> simp [forward]

/-- C130 is false for two sets coupled both ways: with one cycle, the default, the first equation does not hold for the result,
which is reported as the solution. -/
theorem C130_coupled_violated :
    let r := cycles (V := ℚ) (fun s v => if s = 0 then v 1 / 2 + 1 else v 0 / 2 + 1) 2 1 (fun _ => 0)
    r 1 = r 0 / 2 + 1 ∧ r 0 ≠ r 1 / 2 + 1 ∧ r ≠ cycles (fun s v => if s = 0 then v 1 / 2 + 1 else v 0 / 2 + 1) 2 2 (fun _ => 0) := by
  refine ⟨by norm_num [cycles, sweep, Function.update], by norm_num [cycles, sweep, Function.update], ?_⟩
  intro e
  have := congrFun e 0
  norm_num [cycles, sweep, Function.update] at this

/-- C130 is false if no cycles are asked for: the initial values are recorded as the solution. -/
theorem C130_no_cycles_violated (solve : Nat → (Nat → V) → V) (n : Nat) (tr : (Nat → V) → List (Nat → V)) (k : Int)
    (hk : k ≤ 0) (u : Nat → V) : forward solve n tr "steady-state" k true u = [u] := by
  have : k.toNat = 0 := by omega
  simp [forward, this, cycles]

/-- C130 is false for any other solver type, "none" being the default: nothing is solved and nothing is said. -/
theorem C130_kind_violated (solve : Nat → (Nat → V) → V) (n : Nat) (tr : (Nat → V) → List (Nat → V)) (kind : String)
    (h1 : kind ≠ "steady-state") (h2 : kind ≠ "transient") (k : Int) (save : Bool) (u : Nat → V) :
    forward solve n tr kind k save u = [] := by
  simp [forward, h1, h2]

-- two sets, the second depending on the first
example : cycles (V := ℚ) (fun s v => if s = 0 then 3 else 2 * v 0) 2 1 (fun _ => 0) 1 = 6 := by
  norm_num [cycles, sweep, Function.update]

-- hypotheses of `C130_settled` and `C130_kept`
example : sweep (V := ℚ) (fun s v => if s = 0 then v 1 / 2 + 1 else v 0 / 2 + 1) 2 (fun _ => 2) = fun _ => 2 := by
  funext i
  by_cases h0 : i = 0 <;> by_cases h1 : i = 1 <;> norm_num [sweep, Function.update, h0, h1] <;> simp_all

end Forward

section Adjoint

variable {K : Type} [Field K] {ι π : Type} [Fintype ι] [Fintype π]

/-- C130: the values the adjoint solve starts from do not matter, if the linear solver is exact for invertible systems. -/
theorem C130_guess (L : Lin K ι π) (solve : Matrix ι ι K → (ι → K) → ι → K) (add : Bool) (u phi phi' : ι → K)
    (hex : ∀ b, (L.A u)ᵀ *ᵥ solve (L.A u)ᵀ b = b) (hinj : ∀ x y, (L.A u)ᵀ *ᵥ x = (L.A u)ᵀ *ᵥ y → x = y) :
    adjointSolve L solve add u phi = adjointSolve L solve add u phi' := by
  apply hinj
  simp only [adjointSolve, mulVec_add, hex]
  abel

/-- C130: the adjoint solution solves the adjoint equation. -/
theorem C130_equation (L : Lin K ι π) (solve : Matrix ι ι K → (ι → K) → ι → K) (u phi : ι → K)
    (hex : ∀ b, (L.A u)ᵀ *ᵥ solve (L.A u)ᵀ b = b) : (L.A u)ᵀ *ᵥ adjointSolve L solve true u phi = -(L.q u) := by
  simp only [adjointSolve, mulVec_add, hex, if_true]
  abel

/-- C130, partial: with one physics set, an initial time between −1 and 1, write frequency one, and scalar parameters that do not
vary in time and do not enter the functions of the objective explicitly, the adjoint run after a saved forward run adds the gradient of the objective at the solution to what was in the
vector, whatever values it starts from and whatever the nonlinear problem.  Missing: objectives that depend on the
parameters explicitly (`C130_explicit_violated`), other initial times
(`C130_start_violated`), several sets (`C130_sets_violated`), other frequencies (`C130_frequency_violated`), parameters varying
in time (`C130_dynamic_violated`). -/
theorem C130_gradient_partial (L : Lin K ι π) (solve : Matrix ι ι K → (ι → K) → ι → K) (c : Cfg) (u guess : ι → K)
    (rest : List (ι → K)) (g0 : π → K) (h1 : c.sets = 1) (h2 : c.kind = "steady-state") (h3 : -1 < c.start) (h4 : c.start < 1)
    (h5 : c.freq = 1) (h6 : c.dynamic = false) (hf : L.rf u = 0) (hex : ∀ b, (L.A u)ᵀ *ᵥ solve (L.A u)ᵀ b = b) :
    ∃ g, adjoint L solve c (u :: rest) guess g0 = .gradient (g0 + g) true ∧ IsGradient L u g := by
  have hidx : toIndex c.start = some 0 := by
    unfold toIndex
    rw [if_pos h3]
    exact congrArg some (Nat.floor_eq_zero.2 h4)
  refine ⟨L.rl u - (-(L.C u))ᵀ *ᵥ adjointSolve L solve true u guess, ?_, ?_⟩
  · simp [adjoint, h1, h2, hidx, counted, h5, sensitivities, h6]
  · intro d w hw
    have heq := C130_equation L solve u guess hex
    have hC : L.C u *ᵥ d = -(L.A u *ᵥ w) := by
      rw [eq_neg_iff_add_eq_zero, add_comm]; exact hw
    set phi := adjointSolve L solve true u guess with hphi
    have hq : L.q u ⬝ᵥ w = -(phi ⬝ᵥ (L.A u *ᵥ w)) := by
      have : ((L.A u)ᵀ *ᵥ phi) ⬝ᵥ w = phi ⬝ᵥ (L.A u *ᵥ w) := by
        rw [mulVec_transpose, ← dotProduct_mulVec]
      rw [heq, neg_dotProduct] at this
      rw [← this, neg_neg]
    have h2' : ((-(L.C u))ᵀ *ᵥ phi) ⬝ᵥ d = phi ⬝ᵥ (L.A u *ᵥ w) := by
      rw [mulVec_transpose, ← dotProduct_mulVec, neg_mulVec, hC, neg_neg]
    have hrl : L.r u = L.rl u := by rw [Lin.r, hf, zero_add]
    rw [sub_dotProduct, h2', hq, hrl]
    ring

/-- [case] The problem `p^2 = x` with objective `x^2`: residual `x - p^2` at `p = 1`, linearised at the state. -/
def square : Lin ℚ (Fin 1) (Fin 1) :=
  ⟨fun _ => !![1], fun _ => !![-2], fun u => ![2 * u 0], fun _ => ![0], fun _ => ![0]⟩

/-- [case] The exact solver for one equation. -/
def divide (M : Matrix (Fin 1) (Fin 1) ℚ) (b : Fin 1 → ℚ) : Fin 1 → ℚ := ![b 0 / M 0 0]

/-- [case] One process, one set. -/
def single (start : ℚ) : Cfg := ⟨1, 1, "steady-state", start, 1, none, false⟩

-- the hypotheses are met, and the gradient is 4
example : adjoint square divide (single 0) [![1]] ![7] ![0] = .gradient ![4] true := by
  have h0 : toIndex 0 = some 0 := by norm_num [toIndex]
  simp only [adjoint, single, h0, counted]
  simp [sensitivities, adjointSolve, square, divide, Matrix.transpose]
  norm_num [Matrix.vecHead]

/-- C130 is false for objectives whose functions depend on the parameters explicitly: the result does not depend on that part. -/
theorem C130_explicit_violated (L : Lin K ι π) (solve : Matrix ι ι K → (ι → K) → ι → K) (c : Cfg) (stored : List (ι → K))
    (guess : ι → K) (g0 : π → K) (rf : (ι → K) → π → K) :
    adjoint { L with rf := rf } solve c stored guess g0 = adjoint L solve c stored guess g0 := rfl

-- with the objective `x^2 + 3 p` the result is still 4, not 7
example : adjoint { square with rf := fun _ => ![3] } divide (single 0) [![1]] ![7] ![0] = .gradient ![4] true ∧
    ¬ IsGradient { square with rf := fun _ => ![3] } ![1] ![4] := by
  refine ⟨?_, ?_⟩
  · rw [C130_explicit_violated]
    have h0 : toIndex 0 = some 0 := by norm_num [toIndex]
    simp only [adjoint, single, h0, counted]
    simp [sensitivities, adjointSolve, square, divide, Matrix.transpose]
    norm_num [Matrix.vecHead]
  · intro h
    have := h ![1] ![2] (by ext i; fin_cases i; norm_num [square, Matrix.mulVec, dotProduct])
    norm_num [square, Lin.r, dotProduct] at this

/-- C130 is false for an initial time of one: the state is looked up by the time taken as a number of a stored step, the zero
vector is used instead of it, and the gradient is that of another state (a message is printed). -/
theorem C130_start_violated : ∃ g, adjoint square divide (single 1) [![1]] ![0] ![0] = .gradient g false ∧
    ¬ IsGradient square ![1] g := by
  have h0 : toIndex 1 = some 1 := by norm_num [toIndex]
  refine ⟨![0], ?_, ?_⟩
  · simp only [adjoint, single, h0, counted]
    simp [sensitivities, adjointSolve, square, divide, Matrix.transpose]
  · intro h
    have := h ![1] ![2] (by ext i; fin_cases i; norm_num [square, Matrix.mulVec, dotProduct])
    norm_num [square, Lin.r, dotProduct] at this

/-- C130 is false for initial times from one on in general: whatever was stored by a steady run is not found, and the gradient
does not depend on the solution. -/
theorem C130_late_violated (L : Lin K ι π) (solve : Matrix ι ι K → (ι → K) → ι → K) (c : Cfg) (u u' guess : ι → K) (g0 : π → K)
    (h : 1 ≤ c.start) : adjoint L solve c [u] guess g0 = adjoint L solve c [u'] guess g0 := by
  have h1 : toIndex c.start = some ⌊c.start⌋₊ := if_pos (by linarith)
  have h2 : 1 ≤ ⌊c.start⌋₊ := Nat.one_le_floor_iff _ |>.2 h
  have e : ∀ v : ι → K, [v][⌊c.start⌋₊]? = none := fun v => List.getElem?_eq_none (by simpa using h2)
  unfold adjoint
  rw [h1]
  rcases counted c with _ | add
  · rfl
  · simp only [e]

/-- C130: an initial time of minus one or less is undefined. -/
theorem C130_negative_violated (L : Lin K ι π) (solve : Matrix ι ι K → (ι → K) → ι → K) (c : Cfg) (stored : List (ι → K))
    (guess : ι → K) (g0 : π → K) (h1 : c.sets = 1) (h2 : c.kind = "steady-state") (h : c.start ≤ -1) :
    adjoint L solve c stored guess g0 = .undefined := by
  have : toIndex c.start = none := if_neg (not_lt.2 h)
  simp [adjoint, h1, h2, this]

/-- C130 is false for several physics sets: one process leaves the gradient as it was, several wait for ever. -/
theorem C130_sets_violated (L : Lin K ι π) (solve : Matrix ι ι K → (ι → K) → ι → K) (c : Cfg) (stored : List (ι → K))
    (guess : ι → K) (g0 : π → K) (h : 2 ≤ c.sets) :
    adjoint L solve c stored guess g0 = if c.ranks ≤ 1 then .gradient g0 true else .waiting := by
  simp [adjoint, show 1 < c.sets from h]

/-- C130 is false for other write frequencies: a number that has never been set decides whether the objective enters. -/
theorem C130_frequency_violated (L : Lin K ι π) (solve : Matrix ι ι K → (ι → K) → ι → K) (c : Cfg) (stored : List (ι → K))
    (guess : ι → K) (g0 : π → K) (hs : c.sets = 1) (hk : c.kind = "steady-state") (h1 : c.freq ≠ 1) (h2 : c.freq ≠ -1)
    (h3 : c.timeIndex = none) : adjoint L solve c stored guess g0 = .undefined := by
  have : counted c = none := by
    by_cases h0 : c.freq = 0 <;> simp [counted, h0, h1, h2, h3]
  simp only [adjoint, hs, hk, this]
  cases toIndex c.start <;> simp

/-- C130 is false after a transient adjoint run that left a number of a step which is not a multiple of the frequency: the
objective does not enter, and from a zero start only what depends on the parameters directly is added. -/
theorem C130_leftover_violated (L : Lin K ι π) (solve : Matrix ι ι K → (ι → K) → ι → K) (c : Cfg) (u : ι → K) (g0 : π → K)
    (hs : c.sets = 1) (hk : c.kind = "steady-state") (h3 : -1 < c.start) (h4 : c.start < 1) (h6 : c.dynamic = false) (i : Int)
    (hi : c.timeIndex = some i) (h0 : c.freq ≠ 0) (h1 : c.freq ≠ 1) (h2 : c.freq ≠ -1) (hm : i.tmod c.freq ≠ 0)
    (hz : solve (L.A u)ᵀ 0 = 0) : adjoint L solve c [u] 0 g0 = .gradient (g0 + L.rl u) true := by
  have hc : counted c = some false := by simp [counted, h0, h1, h2, hi, hm]
  have hidx : toIndex c.start = some 0 := by
    unfold toIndex
    rw [if_pos h3]
    exact congrArg some (Nat.floor_eq_zero.2 h4)
  simp [adjoint, hs, hk, hidx, hc, sensitivities, h6, adjointSolve, hz]

/-- C130 is false for scalar parameters that vary in time: no initial time gives a gradient of the stored solution. -/
theorem C130_dynamic_violated (L : Lin K ι π) (solve : Matrix ι ι K → (ι → K) → ι → K) (c : Cfg) (u guess : ι → K)
    (g0 : π → K) (h1 : c.sets = 1) (h2 : c.kind = "steady-state") (h : c.dynamic = true) (g : π → K) :
    adjoint L solve c [u] guess g0 ≠ .gradient g true := by
  intro e
  have h3 : ¬ 1 < c.sets := by omega
  rw [adjoint, if_neg h3, if_pos h2] at e
  rcases hi : toIndex c.start with _ | i
  · rw [hi] at e; cases e
  · rcases ha : counted c with _ | add
    · rw [hi, ha] at e; cases e
    · rw [hi, ha] at e
      simp only at e
      rcases i with _ | i
      · have : sensitivities L c (([u][0]?).getD 0) (adjointSolve L solve add (([u][0]?).getD 0) guess) g0 = none := by
          simp [sensitivities, h, hi]
        rw [this] at e
        cases e
      · have hn : sensitivities L c (([u][i + 1]?).getD 0) (adjointSolve L solve add (([u][i + 1]?).getD 0) guess) g0 =
            some (g0 + ((1 : K) • L.rl (([u][i + 1]?).getD 0) -
              (-(L.C (([u][i + 1]?).getD 0)))ᵀ *ᵥ adjointSolve L solve add (([u][i + 1]?).getD 0) guess)) := by
          simp [sensitivities, hi]
        rw [hn] at e
        simp at e

/-- C130 is false for other solver types: the gradient is left as it was. -/
theorem C130_type_violated (L : Lin K ι π) (solve : Matrix ι ι K → (ι → K) → ι → K) (c : Cfg) (stored : List (ι → K))
    (guess : ι → K) (g0 : π → K) (h1 : c.sets = 1) (h2 : c.kind ≠ "steady-state") (h3 : c.kind ≠ "transient") :
    adjoint L solve c stored guess g0 = .gradient g0 true := by
  simp [adjoint, h1, h2, h3]

/-- C130: forward run and adjoint run together, for a problem whose one set is solved by a function: the gradient at the recorded
solution. -/
theorem C130_run_partial (L : Lin K ι π) (solve : Matrix ι ι K → (ι → K) → ι → K) (nl : Nat → (Nat → ι → K) → ι → K)
    (tr : (Nat → ι → K) → List (Nat → ι → K)) (k : Int) (hk : 1 ≤ k) (init : Nat → ι → K) (c : Cfg) (guess : ι → K) (g0 : π → K)
    (h1 : c.sets = 1) (h2 : c.kind = "steady-state") (h3 : -1 < c.start) (h4 : c.start < 1) (h5 : c.freq = 1)
    (h6 : c.dynamic = false) (hf : ∀ u, L.rf u = 0) (hex : ∀ u b, (L.A u)ᵀ *ᵥ solve (L.A u)ᵀ b = b) (res : (ι → K) → Prop)
    (hnl : ∀ v, res (nl 0 v)) :
    ∃ u g, res u ∧ adjoint L solve c ((forward nl 1 tr c.kind k true init).map (· 0)) guess g0 = .gradient (g0 + g) true ∧
      IsGradient L u g := by
  rw [h2, (C130_stored nl 1 tr k init).1]
  have hr : res (cycles nl 1 k.toNat init 0) :=
    C130_oneway nl (fun s v => s = 0 → res (v 0)) (fun s v hs => by subst hs; simpa using hnl v)
      (fun s v v' e hv hs => by have := hv hs; rwa [e 0 (by omega)] at this) 1 k.toNat init (by omega) 0 (by omega) rfl
  obtain ⟨g, hg, hG⟩ := C130_gradient_partial L solve c (cycles nl 1 k.toNat init 0) guess [] g0 h1 h2 h3 h4 h5 h6 (hf _) (hex _)
  exact ⟨_, g, hr, by simpa using hg, hG⟩

end Adjoint

end MrHyDE.Solver.Steady
