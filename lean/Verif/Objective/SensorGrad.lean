import Verif.Postprocess.SensorValue
import Mathlib.Algebra.TrivSqZeroExt.Basic
import Mathlib.Algebra.Ring.Int.Defs
import Mathlib.Tactic.Ring

/-! # C172: derivative of the misfit at sensors with respect to discretised parameters

Model of the branch for objectives of type "sensors" in `computeObjectiveGradParam`
(/repo/src/managers/postprocess/postprocessManager_objective_gradient.hpp:525-768), of the length of its result (184-188) and of its use in
`computeSensitivities` (1621-1650).  Derivative arrays have a fixed length (`SFad`, /repo/src/preferences.hpp:79); the type with dynamic
length is not modelled.  Times are the subject of C74, the values of scalar parameters (which carry no derivatives) that of C171. -/

set_option linter.unusedSectionVars false
set_option linter.unusedSimpArgs false

namespace MrHyDE.Objective.SensorGrad

open MrHyDE.Postprocess.SensorValue TrivSqZeroExt

variable {K : Type} [CommRing K]

/-- Numbers with derivatives: value and slots; preferences.hpp:79. -/
abbrev Num (K : Type) := TrivSqZeroExt K (Nat → K)

/-- The spaces of the discretised parameters of a block: variables, unknowns of each, their positions in the element (`paramoffsets`),
bases; postprocessManager_objective_gradient.hpp:690-691, 700-702, 711-712. -/
structure Space where
  nvar : Nat
  ndof : Nat → Nat
  off : Nat → Nat → Nat
  use : Nat → Nat

/-- The positions in the order of postprocessManager_objective_gradient.hpp:745-750 (`params->paramoffsets`). -/
def Space.cols (S : Space) : List Nat := (List.range S.nvar).flatMap (fun v => (List.range (S.ndof v)).map (S.off v))

/-- The response function at one sensor, the state being fixed: value, the fields of the parameters it reads and the derivatives with respect to
them; postprocessManager_objective_gradient.hpp:662, 736 (`evaluate`). -/
structure Resp (K : Type) where
  value : (Field → K) → K
  reads : List Field
  slope : (Field → K) → Field → K

/-- Evaluation with derivatives: the chain rule; postprocessManager_objective_gradient.hpp:662, 736. -/
def Resp.eval (R : Resp K) (F : Field → Num K) : Num K :=
  inl (R.value (fun x => (F x).fst)) + inr (fun s => (R.reads.map (fun x => R.slope (fun y => (F y).fst) x * (F x).snd s)).sum)

/-- A sensor that is evaluated at the current time: number, parameters at the positions of its element, global numbers of these
(`getElementGIDs`), response, measured value; postprocessManager_objective_gradient.hpp:559-560, 623, 662, 673, 741-743. -/
structure Sensor (K : Type) where
  pt : Nat
  u : Nat → K
  gid : Nat → Nat
  resp : Resp K
  datum : K

/-- Unknowns without slots, first pass; postprocessManager_objective_gradient.hpp:624-629. -/
def plain (S : Space) (s : Sensor K) (v i : Nat) : Num K := if i < S.ndof v then inl (s.u (S.off v i)) else 0

/-- Unknowns with the slot of their position, second pass; postprocessManager_objective_gradient.hpp:698-704. -/
def seeded (S : Space) (s : Sensor K) (v i : Nat) : Num K :=
  if i < S.ndof v then inl (s.u (S.off v i)) + inr (fun c => if c = S.off v i then 1 else 0) else 0

/-- A view of basis functions in products with numbers with derivatives; postprocessManager_objective_gradient.hpp:643, 718. -/
def lift (b : Slot K) : Slot (Num K) := ⟨b.card, b.comps, fun pt dof c => inl (b.vals pt dof c)⟩

/-- Fields of the parameters at the sensor, postprocessManager_objective_gradient.hpp:634-658, 709-733: value and, for kind HGRAD, gradient;
`setParamPoint` and `setParamGradPoint` are called within the loop, with what the later variables have still at zero, the last call counts. -/
def fields (dim : Nat) (S : Space) (kind : Nat → Kind) (B G : List (Slot K)) (s : Sensor K) (u : Nat → Nat → Num K) (F : Field → Num K) :
    Option (Field → Num K) :=
  (List.range S.nvar).foldlM (respondOne dim kind S.use u (B.map lift) (G.map lift) s.pt) F

/-- `sdiff`, postprocessManager_objective_gradient.hpp:673-674, 737-738. -/
def misfit (w : K) (s : Sensor K) (F : Field → Num K) : Num K :=
  inl w * (s.resp.eval F - inl s.datum) * (s.resp.eval F - inl s.datum)

/-- Addition to an entry of `gradient`; `none` beyond the end; postprocessManager_objective_gradient.hpp:680, 751. -/
def addAt (g : List K) (i : Nat) (x : K) : Option (List K) := (g[i]?).map fun y => g.set i (y + x)

/-- What the loop over the sensors carries: objective, gradient, fields of the workset; postprocessManager_objective_gradient.hpp:182, 188. -/
structure State (K : Type) where
  obj : K
  grad : List K
  flds : Field → Num K

/-- First pass: objective and slots of the scalar parameters; postprocessManager_objective_gradient.hpp:613-681. -/
def passOne (dim nact : Nat) (S : Space) (kind : Nat → Kind) (B G : List (Slot K)) (w : K) (st : State K) (s : Sensor K) : Option (State K) :=
  (fields dim S kind B G s (plain S s) st.flds).bind fun F =>
    ((List.range nact).foldlM (fun g p => addAt g p ((misfit w s F).snd p)) st.grad).map fun g => ⟨st.obj + (misfit w s F).fst, g, F⟩

/-- Second pass: slots of the unknowns of the element, added at their *global* number; `none` if a slot does not exist;
postprocessManager_objective_gradient.hpp:684-754. -/
def passTwo (dim nact size : Nat) (S : Space) (kind : Nat → Kind) (B G : List (Slot K)) (w : K) (st : State K) (s : Sensor K) :
    Option (State K) :=
  if ∀ c ∈ S.cols, c < size then
    (fields dim S kind B G s (seeded S s) st.flds).bind fun F =>
      (S.cols.foldlM (fun g c => addAt g (s.gid c + nact) ((misfit w s F).snd c)) st.grad).map fun g => ⟨st.obj, g, F⟩
  else none

/-- One sensor. [postprocessManager_objective_gradient.hpp:553-758] -/
def one (dim nact size : Nat) (S : Space) (kind : Nat → Kind) (B G : List (Slot K)) (w : K) (st : State K) (s : Sensor K) :
    Option (State K) :=
  (passOne dim nact S kind B G w st s).bind fun st => passTwo dim nact size S kind B G w st s

/-- All sensors of one process with `n` parameter unknowns, owned or shared; postprocessManager_objective_gradient.hpp:182-188, 540-759. -/
def run (dim nact size n : Nat) (S : Space) (kind : Nat → Kind) (B G : List (Slot K)) (w : K) (F : Field → Num K) (ss : List (Sensor K)) :
    Option (State K) :=
  ss.foldlM (one dim nact size S kind B G w) ⟨0, List.replicate (nact + n) 0, F⟩

/-- What arrives at parameter `q` in the gradient vector: local entry `i` belongs to parameter `os i` (`paramOwnedAndShared`), entries of all
processes are added; postprocessManager_objective_gradient.hpp:1640-1650, /repo/src/interfaces/linear_algebra/linearAlgebraInterface_vector.hpp:87-95.  A process is given by its list
`os` and its gradient. -/
def delivered (nact : Nat) (procs : List (List Nat × List K)) (q : Nat) : K :=
  (procs.map (fun p => ((List.range p.1.length).map (fun i => if p.1.getD i 0 = q then p.2.getD (i + nact) 0 else 0)).sum)).sum

/-! ## Specification -/

/-- The fields as linear functions of the unknowns of the element. [specification, no code] -/
def fieldOf (S : Space) (val grad : Nat → Tab K) (pt : Nat) (u : Nat → K) : Field → K
  | .val v c => ((List.range (S.ndof v)).map (fun i => u (S.off v i) * val (S.use v) pt i c)).sum
  | .grad v d => ((List.range (S.ndof v)).map (fun i => u (S.off v i) * grad (S.use v) pt i d)).sum

/-- Derivative of weight times squared misfit of a sensor with respect to the unknown at position `c`. [specification, no code] -/
def wanted (S : Space) (val grad : Nat → Tab K) (w : K) (s : Sensor K) (c : Nat) : K :=
  2 * w * (s.resp.value (fieldOf S val grad s.pt s.u) - s.datum) *
    (s.resp.reads.map (fun x => s.resp.slope (fieldOf S val grad s.pt s.u) x *
      fieldOf S val grad s.pt (fun c' => if c' = c then 1 else 0) x)).sum

/-- Derivative of the misfits of all sensors with respect to global parameter `q`. [specification, no code] -/
def wantedAt (S : Space) (val grad : Nat → Tab K) (w : K) (ss : List (Sensor K)) (q : Nat) : K :=
  (ss.map (fun s => (S.cols.map (fun c => if s.gid c = q then wanted S val grad w s c else 0)).sum)).sum

/-- Fields that exist and are written: values of scalar variables and first components of vectors, gradients for kind HGRAD.
[specification, no code] -/
def Written (dim : Nat) (S : Space) (kind : Nat → Kind) : Field → Prop
  | .val v c => v < S.nvar ∧ c = 0 ∧ kind (S.use v) ≠ .other
  | .grad v d => v < S.nvar ∧ d < dim ∧ kind (S.use v) = .hgrad

/-- Hypotheses on the tables of the sensors, satisfied by `computeSensorBasis` (`C155_basis_partial`). [specification, no code] -/
structure Fits (dim : Nat) (S : Space) (kind : Nat → Kind) (val grad : Nat → Tab K) (B G : List (Slot K)) : Prop where
  vals : ∀ v < S.nvar, B[S.use v]? = some ⟨S.ndof v, comps dim (kind (S.use v)), val (S.use v)⟩
  grads : ∀ v < S.nvar, kind (S.use v) = .hgrad → G[S.use v]? = some ⟨S.ndof v, dim, grad (S.use v)⟩

/-! ## Fields -/

theorem fst_sum (l : List (Num K)) : l.sum.fst = (l.map (fun x => x.fst)).sum := by
  induction l with
  | nil => simp
  | cons a t ih => simp [ih]

theorem snd_sum (l : List (Num K)) (c : Nat) : l.sum.snd c = (l.map (fun x => x.snd c)).sum := by
  induction l with
  | nil => simp
  | cons a t ih => simp [ih]

theorem comb_fst (u : Nat → Num K) (b : Slot K) (pt c : Nat) :
    (comb u (lift b) pt c).fst = ((List.range b.card).map (fun i => (u i).fst * b.vals pt i c)).sum := by
  unfold comb lift
  rw [foldl_sum, zero_add, fst_sum, List.map_map]
  rfl

theorem comb_snd (u : Nat → Num K) (b : Slot K) (pt c s : Nat) :
    (comb u (lift b) pt c).snd s = ((List.range b.card).map (fun i => (u i).snd s * b.vals pt i c)).sum := by
  unfold comb lift
  rw [foldl_sum, zero_add, snd_sum, List.map_map]
  congr 1
  apply List.map_congr_left
  intro i _
  simp only [Function.comp_apply, snd_mul, snd_inl, fst_inl, smul_zero, zero_add, Pi.smul_apply, MulOpposite.smul_eq_mul_unop,
    MulOpposite.unop_op]

/-- The written fields after a pass. -/
theorem fields_spec (dim : Nat) (S : Space) (kind : Nat → Kind) (val grad : Nat → Tab K) (B G : List (Slot K))
    (hf : Fits dim S kind val grad B G) (s : Sensor K) (u : Nat → Nat → Num K) (F : Field → Num K) :
    ∃ F', fields dim S kind B G s u F = some F' ∧
      (∀ v c, Written dim S kind (.val v c) →
        F' (.val v c) = comb (u v) (lift ⟨S.ndof v, comps dim (kind (S.use v)), val (S.use v)⟩) s.pt c) ∧
      (∀ v d, Written dim S kind (.grad v d) → F' (.grad v d) = comb (u v) (lift ⟨S.ndof v, dim, grad (S.use v)⟩) s.pt d) := by
  have hB : ∀ v < S.nvar, (B.map lift)[S.use v]? = some (lift ⟨S.ndof v, comps dim (kind (S.use v)), val (S.use v)⟩) := by
    intro v hv; rw [List.getElem?_map, hf.vals v hv]; rfl
  have hG : ∀ v < S.nvar, kind (S.use v) = .hgrad → (G.map lift)[S.use v]? = some (lift ⟨S.ndof v, dim, grad (S.use v)⟩) := by
    intro v hv hk; rw [List.getElem?_map, hf.grads v hv hk]; rfl
  obtain ⟨F', h1, h2, -, h4⟩ := respond_fold dim kind S.use u (B.map lift) (G.map lift) s.pt S.nvar F
    (fun v hv => ⟨_, hB v hv⟩) (fun v hv hk => ⟨_, hG v hv hk⟩)
  refine ⟨F', h1, ?_, ?_⟩
  · rintro v c ⟨hv, rfl, hk⟩
    exact h2 v hv _ (hB v hv) hk
  · rintro v d ⟨hv, hd, hk⟩
    exact h4 v hv _ (hG v hv hk) hk d hd

theorem sum_congr_range (n : Nat) (f g : Nat → K) (h : ∀ i < n, f i = g i) :
    ((List.range n).map f).sum = ((List.range n).map g).sum := by
  congr 1
  exact List.map_congr_left (fun i hi => h i (List.mem_range.1 hi))

/-- First pass: the fields hold the values, without slots. -/
theorem plain_fields (dim : Nat) (S : Space) (kind : Nat → Kind) (val grad : Nat → Tab K) (B G : List (Slot K))
    (hf : Fits dim S kind val grad B G) (s : Sensor K) (F : Field → Num K) :
    ∃ F', fields dim S kind B G s (plain S s) F = some F' ∧
      ∀ x, Written dim S kind x → (F' x).fst = fieldOf S val grad s.pt s.u x ∧ ∀ c, (F' x).snd c = 0 := by
  obtain ⟨F', h1, h2, h3⟩ := fields_spec dim S kind val grad B G hf s (plain S s) F
  refine ⟨F', h1, fun x hx => ?_⟩
  cases x with
  | val v c =>
    rw [h2 v c hx, comb_fst]
    refine ⟨sum_congr_range _ _ _ (fun i hi => by simp [plain, hi]), fun q => ?_⟩
    rw [comb_snd, sum_congr_range _ _ (fun _ => 0) (fun i hi => by simp [plain, hi])]
    simp
  | grad v d =>
    rw [h3 v d hx, comb_fst]
    refine ⟨sum_congr_range _ _ _ (fun i hi => by simp [plain, hi]), fun q => ?_⟩
    rw [comb_snd, sum_congr_range _ _ (fun _ => 0) (fun i hi => by simp [plain, hi])]
    simp

/-- Second pass: values, and in slot `c` the derivative with respect to the unknown at position `c`. -/
theorem seeded_fields (dim : Nat) (S : Space) (kind : Nat → Kind) (val grad : Nat → Tab K) (B G : List (Slot K))
    (hf : Fits dim S kind val grad B G) (s : Sensor K) (F : Field → Num K) :
    ∃ F', fields dim S kind B G s (seeded S s) F = some F' ∧
      ∀ x, Written dim S kind x → (F' x).fst = fieldOf S val grad s.pt s.u x ∧
        ∀ c, (F' x).snd c = fieldOf S val grad s.pt (fun c' => if c' = c then 1 else 0) x := by
  have e1 : ∀ v i, i < S.ndof v → (seeded S s v i).fst = s.u (S.off v i) := by
    intro v i hi; simp [seeded, hi]
  have e2 : ∀ v i c, i < S.ndof v → (seeded S s v i).snd c = if S.off v i = c then 1 else 0 := by
    intro v i c hi; simp [seeded, hi, eq_comm]
  obtain ⟨F', h1, h2, h3⟩ := fields_spec dim S kind val grad B G hf s (seeded S s) F
  refine ⟨F', h1, fun x hx => ?_⟩
  cases x with
  | val v c =>
    rw [h2 v c hx, comb_fst]
    refine ⟨sum_congr_range _ _ _ (fun i hi => by rw [e1 v i hi]), fun q => ?_⟩
    rw [comb_snd]
    exact sum_congr_range _ _ _ (fun i hi => by rw [e2 v i q hi])
  | grad v d =>
    rw [h3 v d hx, comb_fst]
    refine ⟨sum_congr_range _ _ _ (fun i hi => by rw [e1 v i hi]), fun q => ?_⟩
    rw [comb_snd]
    exact sum_congr_range _ _ _ (fun i hi => by rw [e2 v i q hi])

/-- The response depends only on the fields it reads. [specification, no code] -/
def Resp.Local (R : Resp K) : Prop :=
  ∀ f g : Field → K, (∀ x ∈ R.reads, f x = g x) → R.value f = R.value g ∧ ∀ x, R.slope f x = R.slope g x

theorem misfit_fst (w : K) (s : Sensor K) (F : Field → Num K) (f : Field → K) (hl : s.resp.Local)
    (h : ∀ x ∈ s.resp.reads, (F x).fst = f x) : (misfit w s F).fst = w * (s.resp.value f - s.datum) ^ 2 := by
  have := (hl (fun x => (F x).fst) f h).1
  have e : (s.resp.eval F).fst = s.resp.value f := by simp only [Resp.eval, fst_add, fst_inl, fst_inr, add_zero, this]
  simp only [misfit, fst_mul, fst_inl, fst_sub, e]
  ring

theorem misfit_snd (w : K) (s : Sensor K) (F : Field → Num K) (f : Field → K) (hl : s.resp.Local)
    (h : ∀ x ∈ s.resp.reads, (F x).fst = f x) (c : Nat) : (misfit w s F).snd c =
      2 * w * (s.resp.value f - s.datum) * (s.resp.reads.map (fun x => s.resp.slope f x * (F x).snd c)).sum := by
  have h1 := (hl (fun x => (F x).fst) f h).1
  have h2 := (hl (fun x => (F x).fst) f h).2
  have e : (s.resp.eval F).snd c = (s.resp.reads.map (fun x => s.resp.slope f x * (F x).snd c)).sum := by
    simp only [Resp.eval, snd_add, snd_inl, snd_inr, zero_add, h2]
  have e' : (s.resp.eval F).fst = s.resp.value f := by simp only [Resp.eval, fst_add, fst_inl, fst_inr, add_zero, h1]
  rw [← e, ← e']
  simp only [misfit, snd_mul, fst_mul, fst_inl, snd_inl, fst_sub, snd_sub, Pi.add_apply, Pi.smul_apply, Pi.sub_apply, Pi.zero_apply,
    smul_eq_mul, MulOpposite.smul_eq_mul_unop, MulOpposite.unop_op, smul_zero, add_zero, sub_zero]
  ring

/-! ## The entries of the gradient -/

theorem addAt_spec (g : List K) (i : Nat) (x : K) (h : i < g.length) :
    ∃ g', addAt g i x = some g' ∧ g'.length = g.length ∧ ∀ j, g'.getD j 0 = g.getD j 0 + if i = j then x else 0 := by
  refine ⟨g.set i (g[i] + x), ?_, by simp, fun j => ?_⟩
  · simp [addAt, List.getElem?_eq_getElem h]
  · rw [List.getD_eq_getElem?_getD, List.getD_eq_getElem?_getD, List.getElem?_set]
    by_cases hj : i = j
    · subst hj; simp [h]
    · simp [hj]

theorem addAt_none (g : List K) (i : Nat) (x : K) (h : g.length ≤ i) : addAt g i x = none := by
  simp [addAt, List.getElem?_eq_none h]

theorem adds_spec (idx : Nat → Nat) (x : Nat → K) : ∀ (l : List Nat) (g : List K), (∀ c ∈ l, idx c < g.length) →
    ∃ g', l.foldlM (fun g c => addAt g (idx c) (x c)) g = some g' ∧ g'.length = g.length ∧
      ∀ j, g'.getD j 0 = g.getD j 0 + (l.map (fun c => if idx c = j then x c else 0)).sum
  | [], g, _ => ⟨g, rfl, rfl, fun j => by simp⟩
  | a :: l, g, h => by
    obtain ⟨g1, h1, h2, h3⟩ := addAt_spec g (idx a) (x a) (h a (by simp))
    obtain ⟨g', k1, k2, k3⟩ := adds_spec idx x l g1 (fun c hc => by rw [h2]; exact h c (by simp [hc]))
    refine ⟨g', ?_, by rw [k2, h2], fun j => ?_⟩
    · rw [List.foldlM_cons, h1]; exact k1
    · rw [k3, h3, List.map_cons, List.sum_cons, add_assoc]

theorem adds_length (idx : Nat → Nat) (x : Nat → K) : ∀ (l : List Nat) (g g' : List K),
    l.foldlM (fun g c => addAt g (idx c) (x c)) g = some g' → g'.length = g.length ∧ ∀ c ∈ l, idx c < g.length
  | [], g, g', h => by
    have h : some g = some g' := h
    rw [Option.some.injEq] at h; subst h; simp
  | a :: l, g, g', h => by
    rw [List.foldlM_cons] at h
    by_cases ha : idx a < g.length
    · obtain ⟨g1, h1, h2, -⟩ := addAt_spec g (idx a) (x a) ha
      rw [h1] at h
      obtain ⟨k1, k2⟩ := adds_length idx x l g1 g' h
      rw [h2] at k1 k2
      refine ⟨k1, fun c hc => ?_⟩
      rcases List.mem_cons.1 hc with rfl | hc
      · exact ha
      · exact k2 c hc
    · rw [addAt_none _ _ _ (by omega)] at h
      exact absurd h (by simp)

/-- Hypotheses on a sensor: its response reads written fields only. [specification, no code] -/
structure Sensor.Good (dim : Nat) (S : Space) (kind : Nat → Kind) (s : Sensor K) : Prop where
  loc : s.resp.Local
  reads : ∀ x ∈ s.resp.reads, Written dim S kind x

theorem one_spec (dim nact size n : Nat) (S : Space) (kind : Nat → Kind) (val grad : Nat → Tab K) (B G : List (Slot K)) (w : K)
    (hf : Fits dim S kind val grad B G) (hs : ∀ c ∈ S.cols, c < size) (st : State K) (s : Sensor K) (hg : s.Good dim S kind)
    (hl : st.grad.length = nact + n) (hn : ∀ c ∈ S.cols, s.gid c < n) :
    ∃ st', one dim nact size S kind B G w st s = some st' ∧ st'.grad.length = nact + n ∧
      st'.obj = st.obj + w * (s.resp.value (fieldOf S val grad s.pt s.u) - s.datum) ^ 2 ∧
      (∀ p < nact, st'.grad.getD p 0 = st.grad.getD p 0) ∧
      ∀ q, st'.grad.getD (q + nact) 0 = st.grad.getD (q + nact) 0 +
        (S.cols.map (fun c => if s.gid c = q then wanted S val grad w s c else 0)).sum := by
  obtain ⟨F1, a1, a2⟩ := plain_fields dim S kind val grad B G hf s st.flds
  obtain ⟨g1, b1, b2, b3⟩ := adds_spec (fun p => p) (fun p => (misfit w s F1).snd p) (List.range nact) st.grad
    (fun c hc => by have := List.mem_range.1 hc; omega)
  have hz : ∀ p, (misfit w s F1).snd p = 0 := by
    intro p
    rw [misfit_snd w s F1 _ hg.loc (fun x hx => (a2 x (hg.reads x hx)).1)]
    have : (s.resp.reads.map (fun x => s.resp.slope (fieldOf S val grad s.pt s.u) x * (F1 x).snd p)) =
        s.resp.reads.map (fun _ => (0 : K)) :=
      List.map_congr_left (fun x hx => by rw [(a2 x (hg.reads x hx)).2 p, mul_zero])
    rw [this]
    simp
  have hg1 : ∀ j, g1.getD j 0 = st.grad.getD j 0 := by
    intro j; rw [b3]; simp [hz]
  obtain ⟨F2, c1, c2⟩ := seeded_fields dim S kind val grad B G hf s F1
  obtain ⟨g2, d1, d2, d3⟩ := adds_spec (fun c => s.gid c + nact) (fun c => (misfit w s F2).snd c) S.cols g1
    (fun c hc => by have := hn c hc; rw [b2, hl]; omega)
  refine ⟨⟨st.obj + (misfit w s F1).fst, g2, F2⟩, ?_, by rw [d2, b2, hl], ?_, ?_, ?_⟩
  · unfold one passOne
    rw [a1, Option.bind_some, b1, Option.map_some, Option.bind_some]
    unfold passTwo
    rw [if_pos hs]
    simp only [c1, Option.bind_some, d1, Option.map_some]
  · simp only
    rw [misfit_fst w s F1 _ hg.loc (fun x hx => (a2 x (hg.reads x hx)).1)]
  · intro p hp
    simp only
    rw [d3, hg1, sum_eq_zero, add_zero]
    intro y hy
    obtain ⟨c, -, rfl⟩ := List.mem_map.1 hy
    rw [if_neg (by omega)]
  · intro q
    simp only
    rw [d3, hg1]
    congr 2
    apply List.map_congr_left
    intro c _
    rw [misfit_snd w s F2 _ hg.loc (fun x hx => (c2 x (hg.reads x hx)).1)]
    have e : (s.resp.reads.map (fun x => s.resp.slope (fieldOf S val grad s.pt s.u) x * (F2 x).snd c)) =
        s.resp.reads.map (fun x => s.resp.slope (fieldOf S val grad s.pt s.u) x *
          fieldOf S val grad s.pt (fun c' => if c' = c then 1 else 0) x) :=
      List.map_congr_left (fun x hx => by rw [(c2 x (hg.reads x hx)).2 c])
    rw [e]
    exact if_congr (by omega) rfl rfl
where
  sum_eq_zero {l : List K} (h : ∀ x ∈ l, x = 0) : l.sum = 0 := by
    induction l with
    | nil => rfl
    | cons a t ih => rw [List.sum_cons, h a (by simp), ih (fun x hx => h x (by simp [hx])), add_zero]

theorem run_spec (dim nact size n : Nat) (S : Space) (kind : Nat → Kind) (val grad : Nat → Tab K) (B G : List (Slot K)) (w : K)
    (hf : Fits dim S kind val grad B G) (hs : ∀ c ∈ S.cols, c < size) : ∀ (ss : List (Sensor K)) (st : State K),
    st.grad.length = nact + n → (∀ s ∈ ss, s.Good dim S kind ∧ ∀ c ∈ S.cols, s.gid c < n) →
    ∃ st', ss.foldlM (one dim nact size S kind B G w) st = some st' ∧ st'.grad.length = nact + n ∧
      st'.obj = st.obj + (ss.map (fun s => w * (s.resp.value (fieldOf S val grad s.pt s.u) - s.datum) ^ 2)).sum ∧
      (∀ p < nact, st'.grad.getD p 0 = st.grad.getD p 0) ∧
      ∀ q, st'.grad.getD (q + nact) 0 = st.grad.getD (q + nact) 0 + wantedAt S val grad w ss q
  | [], st, hl, _ => ⟨st, rfl, hl, by simp, fun _ _ => rfl, fun q => by simp [wantedAt]⟩
  | s :: ss, st, hl, h => by
    obtain ⟨st1, a1, a2, a3, a4, a5⟩ := one_spec dim nact size n S kind val grad B G w hf hs st s (h s (by simp)).1 hl (h s (by simp)).2
    obtain ⟨st2, b1, b2, b3, b4, b5⟩ := run_spec dim nact size n S kind val grad B G w hf hs ss st1 a2 (fun s hs => h s (by simp [hs]))
    refine ⟨st2, ?_, b2, ?_, fun p hp => by rw [b4 p hp, a4 p hp], fun q => ?_⟩
    · rw [List.foldlM_cons, a1]; exact b1
    · rw [b3, a3, List.map_cons, List.sum_cons, add_assoc]
    · rw [b5, a5, wantedAt, wantedAt, List.map_cons, List.sum_cons, add_assoc]

theorem getD_zeros (n i : Nat) : (List.replicate n (0 : K)).getD i 0 = 0 := by
  rw [List.getD_eq_getElem?_getD, List.getElem?_replicate]
  split <;> rfl

/-- C172, partial: on a process whose element parameters have global numbers below the number of its unknowns, entry `q` behind those of the
scalar parameters is the derivative of the misfits with respect to *global* parameter `q`; the scalar parameters get nothing; the value is the sum
of the misfits.  Missing: other global numbers (`C172_processes_violated`), responses reading components two and three of vectors, the
derivative with respect to scalar parameters (C171). -/
theorem C172_partial (dim nact size n : Nat) (S : Space) (kind : Nat → Kind) (val grad : Nat → Tab K) (B G : List (Slot K)) (w : K)
    (hf : Fits dim S kind val grad B G) (hs : ∀ c ∈ S.cols, c < size) (F : Field → Num K) (ss : List (Sensor K))
    (h : ∀ s ∈ ss, s.Good dim S kind ∧ ∀ c ∈ S.cols, s.gid c < n) :
    ∃ st, run dim nact size n S kind B G w F ss = some st ∧
      st.obj = (ss.map (fun s => w * (s.resp.value (fieldOf S val grad s.pt s.u) - s.datum) ^ 2)).sum ∧
      (∀ p < nact, st.grad.getD p 0 = 0) ∧ ∀ q, st.grad.getD (q + nact) 0 = wantedAt S val grad w ss q := by
  obtain ⟨st, a1, -, a3, a4, a5⟩ := run_spec dim nact size n S kind val grad B G w hf hs ss ⟨0, List.replicate (nact + n) 0, F⟩
    (by simp) h
  refine ⟨st, a1, by simpa using a3, fun p hp => ?_, fun q => ?_⟩
  · rw [a4 p hp]; exact getD_zeros _ _
  · rw [a5]
    simp only
    rw [getD_zeros, zero_add]

theorem range_pick (n : Nat) (f : Nat → K) (q : Nat) : ((List.range n).map (fun i => if i = q then f i else 0)).sum =
    if q < n then f q else 0 := by
  induction n with
  | zero => simp
  | succ n ih =>
    rw [List.range_succ, List.map_append, List.sum_append, ih]
    by_cases h : n = q
    · subst h; simp
    · have : (q < n + 1) ↔ q < n := by omega
      simp [h, this]

/-- C172, partial, the vector the optimiser sees: on one process whose unknowns are numbered in order, every discretised parameter gets the derivative
of the misfits with respect to it. -/
theorem C172_serial_partial (dim nact size n : Nat) (S : Space) (kind : Nat → Kind) (val grad : Nat → Tab K) (B G : List (Slot K)) (w : K)
    (hf : Fits dim S kind val grad B G) (hs : ∀ c ∈ S.cols, c < size) (F : Field → Num K) (ss : List (Sensor K))
    (h : ∀ s ∈ ss, s.Good dim S kind ∧ ∀ c ∈ S.cols, s.gid c < n) :
    ∃ st, run dim nact size n S kind B G w F ss = some st ∧
      ∀ q < n, delivered nact [(List.range n, st.grad)] q = wantedAt S val grad w ss q := by
  obtain ⟨st, a1, -, -, a4⟩ := C172_partial dim nact size n S kind val grad B G w hf hs F ss h
  refine ⟨st, a1, fun q hq => ?_⟩
  unfold delivered
  rw [List.map_singleton, List.sum_singleton]
  simp only [List.length_range]
  rw [sum_congr_range n _ (fun i => if i = q then st.grad.getD (i + nact) 0 else 0)
    (fun i hi => by rw [List.getD_eq_getElem?_getD, List.getElem?_range hi, Option.getD_some]), range_pick, if_pos hq, a4]

/-- C172 is false for other orders of the unknowns: the parameter with local index `i` gets the derivative with respect to the parameter
whose *global* number is `i`. -/
theorem C172_order_violated (dim nact size : Nat) (os : List Nat) (hos : os.Nodup) (S : Space) (kind : Nat → Kind) (val grad : Nat → Tab K)
    (B G : List (Slot K)) (w : K) (hf : Fits dim S kind val grad B G) (hs : ∀ c ∈ S.cols, c < size) (F : Field → Num K)
    (ss : List (Sensor K)) (h : ∀ s ∈ ss, s.Good dim S kind ∧ ∀ c ∈ S.cols, s.gid c < os.length) :
    ∃ st, run dim nact size os.length S kind B G w F ss = some st ∧
      ∀ i (hi : i < os.length), delivered nact [(os, st.grad)] os[i] = wantedAt S val grad w ss i := by
  obtain ⟨st, a1, -, -, a4⟩ := C172_partial dim nact size os.length S kind val grad B G w hf hs F ss h
  refine ⟨st, a1, fun i hi => ?_⟩
  unfold delivered
  rw [List.map_singleton, List.sum_singleton]
  simp only
  rw [sum_congr_range os.length _ (fun j => if j = i then st.grad.getD (j + nact) 0 else 0) (fun j hj => ?_), range_pick, if_pos hi, a4]
  refine if_congr ?_ rfl rfl
  rw [List.getD_eq_getElem?_getD, List.getElem?_eq_getElem hj, Option.getD_some]
  exact hos.getElem_inj_iff

/-- C172 is false on several processes: as soon as an element of a sensor has a parameter whose global number is not below the number of
unknowns of the process, the loop writes beyond the gradient. -/
theorem C172_processes_violated (dim nact size n : Nat) (S : Space) (kind : Nat → Kind) (B G : List (Slot K)) (w : K) (F : Field → Num K)
    (ss : List (Sensor K)) (s : Sensor K) (hs : s ∈ ss) (c : Nat) (hc : c ∈ S.cols) (hn : n ≤ s.gid c) :
    run dim nact size n S kind B G w F ss = none := by
  have key : ∀ (ss : List (Sensor K)) (st : State K), st.grad.length = nact + n → s ∈ ss →
      ss.foldlM (one dim nact size S kind B G w) st = none := by
    intro ss
    induction ss with
    | nil => intro _ _ h; simp at h
    | cons a t ih =>
      intro st hl hm
      rw [List.foldlM_cons]
      cases h1 : one dim nact size S kind B G w st a with
      | none => rfl
      | some st' =>
        unfold one passOne at h1
        obtain ⟨st1, p1, p2⟩ := Option.bind_eq_some_iff.1 h1
        obtain ⟨F1, q1, q2⟩ := Option.bind_eq_some_iff.1 p1
        obtain ⟨g1, r1, r2⟩ := Option.map_eq_some_iff.1 q2
        have l1 := (adds_length (fun p => p) _ _ _ _ r1).1
        unfold passTwo at p2
        split at p2
        · obtain ⟨F2, u1, u2⟩ := Option.bind_eq_some_iff.1 p2
          obtain ⟨g2, v1, v2⟩ := Option.map_eq_some_iff.1 u2
          subst r2
          subst v2
          obtain ⟨l2, l3⟩ := adds_length (fun c => a.gid c + nact) _ _ _ _ v1
          simp only at l2 l3
          rcases List.mem_cons.1 hm with rfl | hm
          · have := l3 c hc
            omega
          · exact ih _ (by simp only; omega) hm
        · simp at p2
  exact key ss _ (by simp) hs

/-! ## The state -/

/-- Fields of the state of all sets: set and field. -/
abbrev SetField := Nat × Field

/-- One state variable of the current set, postprocessManager_objective_gradient.hpp:595-608 with workset.cpp:2284-2403: the list of gradients is
read for *every* variable (598). -/
def stateOne (dim set : Nat) (kind : Nat → Kind) (use : Nat → Nat) (u : Nat → Nat → K) (B G : List (Slot K)) (pt : Nat)
    (f : SetField → K) (v : Nat) : Option (SetField → K) :=
  (B[use v]?).bind fun b => (G[use v]?).map fun g => fun x =>
    if x.1 = set then
      match x.2 with
      | .val v' c => if v' = v ∧ c = 0 ∧ kind (use v) ≠ .other then comb (u v) b pt 0 else f x
      | .grad v' d => if v' = v ∧ d < dim ∧ kind (use v) = .hgrad then comb (u v) g pt d else f x
    else f x

/-- The state at the sensor, all sets, postprocessManager_objective_gradient.hpp:575-612: variables, bases and unknowns of the set at hand (576-578,
583). -/
def stateAt (dim : Nat) (L : Assembly.Gather.Layout) (kind : Nat → Kind) (use : Nat → Nat → Nat) (ts : Nat → Assembly.Gather.Table K)
    (B G : List (Slot K)) (elem pt : Nat) (f : SetField → K) : Option (SetField → K) :=
  (List.range L.nsets).foldlM (fun f set =>
    (List.range (L.nvars set)).foldlM (stateOne dim set kind (use set) (ts set elem) B G pt) f) f

/-- C172 is false for the state when a variable has a basis of another kind than HGRAD: with the bases of kind HGRAD first (any other order makes
`computeSensorBasis` fail, `C155_order_violated`) the list of gradients has no entry for it.  `computeObjective` asks for the kind first. -/
theorem C172_state_violated (dim : Nat) (L : Assembly.Gather.Layout) (T : Bases) (val grad : Nat → Tab K) (a : Nat) (ha : a ≤ T.num)
    (hh : ∀ k < T.num, T.kind k = .hgrad ↔ k < a) (ho : ∀ k < T.num, T.kind k ≠ .other) (use : Nat → Nat → Nat)
    (ts : Nat → Assembly.Gather.Table K) (elem pt : Nat) (f : SetField → K) (set v : Nat) (hset : set < L.nsets) (hv : v < L.nvars set)
    (hu : use set v < T.num) (hk : T.kind (use set v) ≠ .hgrad) :
    ∃ B G, sensorBasis dim T val grad = some (B, G) ∧ stateAt dim L T.kind use ts B G elem pt f = none := by
  obtain ⟨B, G, h1, h2, h3, -, -⟩ := C155_basis_partial dim T val grad a ha hh ho
  refine ⟨B, G, h1, ?_⟩
  have hG : G[use set v]? = none := by
    apply List.getElem?_eq_none
    have : ¬ use set v < a := fun h => hk ((hh _ hu).2 h)
    omega
  have hone : ∀ f', stateOne dim set T.kind (use set) (ts set elem) B G pt f' v = none := by
    intro f'
    unfold stateOne
    rw [hG]
    cases B[use set v]? <;> rfl
  have inner : ∀ f', (List.range (L.nvars set)).foldlM (stateOne dim set T.kind (use set) (ts set elem) B G pt) f' = none := by
    intro f'
    exact foldlM_fails _ (fun _ => True) (fun _ _ _ _ _ => trivial) _ _ trivial ⟨v, List.mem_range.2 hv, fun b _ => hone b⟩
  exact foldlM_fails _ (fun _ => True) (fun _ _ _ _ _ => trivial) _ _ trivial ⟨set, List.mem_range.2 hset, fun b _ => inner b⟩

theorem state_inner (dim set : Nat) (kind : Nat → Kind) (use : Nat → Nat) (u : Nat → Nat → K) (B G : List (Slot K)) (pt : Nat) :
    ∀ (n : Nat) (f : SetField → K), (∀ v < n, ∃ b g, B[use v]? = some b ∧ G[use v]? = some g) →
    ∃ f', (List.range n).foldlM (stateOne dim set kind use u B G pt) f = some f' ∧
      (∀ x, x.1 ≠ set → f' x = f x) ∧
      (∀ v < n, ∀ b, B[use v]? = some b → kind (use v) ≠ .other → f' (set, .val v 0) = comb (u v) b pt 0) ∧
      (∀ v < n, ∀ g, G[use v]? = some g → kind (use v) = .hgrad → ∀ d < dim, f' (set, .grad v d) = comb (u v) g pt d)
  | 0, f, _ => ⟨f, rfl, fun _ _ => rfl, fun v hv => absurd hv (by omega), fun v hv => absurd hv (by omega)⟩
  | n + 1, f, h => by
    obtain ⟨f1, a1, a2, a3, a4⟩ := state_inner dim set kind use u B G pt n f (fun v hv => h v (by omega))
    obtain ⟨b, g, hb, hg⟩ := h n (by omega)
    obtain ⟨f2, c1, c2⟩ : ∃ f2, stateOne dim set kind use u B G pt f1 n = some f2 ∧ ∀ x, f2 x = if x.1 = set then
        match x.2 with
        | .val v' c => if v' = n ∧ c = 0 ∧ kind (use n) ≠ .other then comb (u n) b pt 0 else f1 x
        | .grad v' d => if v' = n ∧ d < dim ∧ kind (use n) = .hgrad then comb (u n) g pt d else f1 x
        else f1 x := by
      unfold stateOne
      rw [hb, Option.bind_some, hg, Option.map_some]
      exact ⟨_, rfl, fun _ => rfl⟩
    refine ⟨f2, ?_, ?_, ?_, ?_⟩
    · rw [List.range_succ, List.foldlM_append, a1]
      simp only [List.foldlM_cons, List.foldlM_nil, Option.bind_eq_bind, Option.bind_some, c1]
      rfl
    · intro x hx
      rw [c2, if_neg hx, a2 x hx]
    · intro v hv b' hb' hk
      rw [c2, if_pos rfl]
      simp only [true_and]
      by_cases e : v = n
      · subst e
        rw [hb, Option.some.injEq] at hb'
        subst hb'
        rw [if_pos ⟨rfl, hk⟩]
      · rw [if_neg (fun h => e h.1)]
        exact a3 v (by omega) b' hb' hk
    · intro v hv g' hg' hk d hd
      rw [c2, if_pos rfl]
      simp only
      by_cases e : v = n
      · subst e
        rw [hg, Option.some.injEq] at hg'
        subst hg'
        rw [if_pos ⟨rfl, hd, hk⟩]
      · rw [if_neg (fun h => e h.1)]
        exact a4 v (by omega) g' hg' hk d hd

/-- C172, partial, the state: if all bases are of kind HGRAD, the fields of the variables of *every* set hold values and gradients at the sensor,
unknowns of their own set times basis functions.  (`computeObjective` has the unknowns of set 0 in the fields of the current set,
`C155_set_violated`.)  Missing: other kinds (`C172_state_violated`). -/
theorem C172_state_partial (dim : Nat) (L : Assembly.Gather.Layout) (T : Bases) (val grad : Nat → Tab K)
    (hh : ∀ k < T.num, T.kind k = .hgrad) (use : Nat → Nat → Nat)
    (hu : ∀ set < L.nsets, ∀ v < L.nvars set, use set v < T.num ∧ L.ndof set v = T.card (use set v)) (g : Assembly.Gather.Group)
    (vecs : Nat → List K) (ts : Nat → Assembly.Gather.Table K) (ht : ∀ set < L.nsets, Assembly.Gather.Holds L set g (vecs set) (ts set))
    (elem pt : Nat) (he : elem < g.nelem) (f : SetField → K) :
    ∃ B G f', sensorBasis dim T val grad = some (B, G) ∧ stateAt dim L T.kind use ts B G elem pt f = some f' ∧
      ∀ set < L.nsets, ∀ v < L.nvars set,
        f' (set, .val v 0) =
          state (L.ndof set v) (fun dof => (vecs set).getD (g.lid set elem (L.off set v dof)) 0) (val (use set v)) pt 0 ∧
        ∀ d < dim, f' (set, .grad v d) =
          state (L.ndof set v) (fun dof => (vecs set).getD (g.lid set elem (L.off set v dof)) 0) (grad (use set v)) pt d := by
  obtain ⟨B, G, h1, -, -, h2, h3⟩ := C155_basis_partial dim T val grad T.num (le_refl _) (fun k hk => ⟨fun _ => hk, fun _ => hh k hk⟩)
    (fun k hk => by rw [hh k hk]; simp)
  have key : ∀ n ≤ L.nsets, ∃ f', (List.range n).foldlM (fun f set =>
      (List.range (L.nvars set)).foldlM (stateOne dim set T.kind (use set) (ts set elem) B G pt) f) f = some f' ∧
      ∀ set < n, ∀ v < L.nvars set, f' (set, .val v 0) = comb (ts set elem v) ⟨T.card (use set v), comps dim (T.kind (use set v)), val (use set v)⟩ pt 0 ∧
        ∀ d < dim, f' (set, .grad v d) = comb (ts set elem v) ⟨T.card (use set v), dim, grad (use set v)⟩ pt d := by
    intro n
    induction n with
    | zero => intro _; exact ⟨f, rfl, fun set hs => absurd hs (by omega)⟩
    | succ n ih =>
      intro hn
      obtain ⟨f1, a1, a2⟩ := ih (by omega)
      have hget : ∀ v < L.nvars n, B[use n v]? = some ⟨T.card (use n v), comps dim (T.kind (use n v)), val (use n v)⟩ ∧
          G[use n v]? = some ⟨T.card (use n v), dim, grad (use n v)⟩ :=
        fun v hv => ⟨h2 _ (hu n (by omega) v hv).1, h3 _ (hu n (by omega) v hv).1⟩
      obtain ⟨f2, b1, b2, b3, b4⟩ := state_inner dim n T.kind (use n) (ts n elem) B G pt (L.nvars n) f1
        (fun v hv => ⟨_, _, (hget v hv).1, (hget v hv).2⟩)
      refine ⟨f2, ?_, fun set hset v hv => ?_⟩
      · rw [List.range_succ, List.foldlM_append, a1]
        simp only [List.foldlM_cons, List.foldlM_nil, Option.bind_eq_bind, Option.bind_some, b1]
        rfl
      · by_cases e : set = n
        · subst e
          have hk := hh _ (hu set (by omega) v hv).1
          exact ⟨b3 v hv _ (hget v hv).1 (by rw [hk]; simp), fun d hd => b4 v hv _ (hget v hv).2 hk d hd⟩
        · obtain ⟨c1, c2⟩ := a2 set (by omega) v hv
          exact ⟨by rw [b2 _ e, c1], fun d hd => by rw [b2 _ e, c2 d hd]⟩
  obtain ⟨f', k1, k2⟩ := key L.nsets (le_refl _)
  have hcomb : ∀ set < L.nsets, ∀ v < L.nvars set, ∀ (c : Nat) (t : Tab K) (d : Nat),
      comb (ts set elem v) ⟨T.card (use set v), c, t⟩ pt d =
      state (L.ndof set v) (fun dof => (vecs set).getD (g.lid set elem (L.off set v dof)) 0) t pt d := by
    intro set hset v hv c t d
    unfold comb state
    rw [foldl_sum, zero_add, (hu set hset v hv).2]
    congr 1
    apply List.map_congr_left
    intro dof hdof
    rw [ht set hset elem v dof he hv (by rw [(hu set hset v hv).2]; exact List.mem_range.1 hdof)]
    rfl
  refine ⟨B, G, f', h1, k1, fun set hset v hv => ⟨?_, fun d hd => ?_⟩⟩
  · rw [(k2 set hset v hv).1, hcomb set hset v hv]
  · rw [(k2 set hset v hv).2 d hd, hcomb set hset v hv]

/-! ## Cases -/

/-- [case] One parameter with two unknowns, basis values 2 and 3, gradients (1, 0) and (0, 1). -/
def exSp : Space := ⟨1, fun _ => 2, fun _ i => i, fun _ => 0⟩

/-- [case] Values. -/
def exV (_ : Nat) : Tab ℤ := fun _ i _ => (i : ℤ) + 2

/-- [case] Gradients. -/
def exD (_ : Nat) : Tab ℤ := fun _ i d => if i = d then 1 else 0

/-- [case] Tables. -/
def exB : List (Slot ℤ) := [⟨2, 1, exV 0⟩]

/-- [case] Tables of the gradients. -/
def exG : List (Slot ℤ) := [⟨2, 2, exD 0⟩]

/-- [case] Response p² + ∂p/∂y. -/
def exR : Resp ℤ := ⟨fun f => f (.val 0 0) * f (.val 0 0) + f (.grad 0 1), [.val 0 0, .grad 0 1],
  fun f x => match x with
    | .val _ _ => 2 * f (.val 0 0)
    | .grad _ _ => 1⟩

/-- [case] A sensor in an element with parameters 5 and 7, global numbers 1 and 0. -/
def exSensor : Sensor ℤ := ⟨0, fun c => if c = 0 then 5 else 7, fun c => 1 - c, exR, 900⟩

/-- Case: the tables fit. -/
theorem exFits : Fits 2 exSp (fun _ => .hgrad) exV exD exB exG := ⟨fun _ _ => rfl, fun _ _ _ => rfl⟩

/-- Case: the response reads written fields. -/
theorem exGood : exSensor.Good 2 exSp (fun _ => .hgrad) := by
  refine ⟨fun f g h => ?_, ?_⟩
  · have h1 : f (.val 0 0) = g (.val 0 0) := h _ (by simp [exSensor, exR])
    have h2 : f (.grad 0 1) = g (.grad 0 1) := h _ (by simp [exSensor, exR])
    refine ⟨by simp only [exSensor, exR, h1, h2], fun x => ?_⟩
    cases x <;> simp only [exSensor, exR, h1]
  · intro x hx
    simp only [exSensor, exR, List.mem_cons, List.not_mem_nil, or_false] at hx
    rcases hx with rfl | rfl
    · exact ⟨by decide, rfl, by simp⟩
    · exact ⟨by decide, by decide, rfl⟩

/-- [case] p = 31, response 968, misfit 68, weight 1: derivatives 136 · 62 · (2, 3) plus 136 for the second; the first belongs to parameter 1. -/
example : ((run 2 1 8 2 exSp (fun _ => .hgrad) exB exG 1 (fun _ => 0) [exSensor]).map (fun st => (st.obj, st.grad))) =
    some (4624, [0, 25432, 16864]) := by decide +kernel

/-- [case] The theorem at the case. -/
example : ∃ st, run 2 1 8 2 exSp (fun _ => .hgrad) exB exG 1 (fun _ => 0) [exSensor] = some st ∧
    delivered 1 [([0, 1], st.grad)] 1 = 16864 := by
  obtain ⟨st, h1, h2⟩ := C172_serial_partial 2 1 8 2 exSp (fun _ => .hgrad) exV exD exB exG 1 exFits (by decide) (fun _ => 0) [exSensor]
    (by intro s hs; rw [List.mem_singleton] at hs; subst hs; exact ⟨exGood, by decide⟩)
  exact ⟨st, h1, (h2 1 (by omega)).trans (by decide +kernel)⟩

/-- [case] The unknowns of the process in the order 1, 0: the derivatives of the two parameters are exchanged. -/
example : ∃ st, run 2 1 8 2 exSp (fun _ => .hgrad) exB exG 1 (fun _ => 0) [exSensor] = some st ∧
    delivered 1 [([1, 0], st.grad)] 1 = 25432 := by
  obtain ⟨st, h1, h2⟩ := C172_order_violated 2 1 8 [1, 0] (by decide) exSp (fun _ => .hgrad) exV exD exB exG 1 exFits (by decide)
    (fun _ => 0) [exSensor] (by intro s hs; rw [List.mem_singleton] at hs; subst hs; exact ⟨exGood, by decide⟩)
  exact ⟨st, h1, (h2 0 (by decide)).trans (by decide +kernel)⟩

/-- [case] The second of two processes, with parameters 2 and 3. -/
example : run 2 1 8 2 exSp (fun _ => .hgrad) exB exG 1 (fun _ => 0) [{ exSensor with gid := fun c => c + 2 }] = none :=
  C172_processes_violated 2 1 8 2 exSp _ exB exG 1 _ _ _ (List.mem_singleton.2 rfl) 0 (by decide) (by decide)

/-- [case] Two sets with one variable each, both of kind HGRAD. -/
def exLay : Assembly.Gather.Layout := ⟨2, fun _ => 1, fun _ _ => 2, fun _ _ i => i⟩

/-- [case] Values 5·2 + 6·3 and 7·2 + 8·3 of the two sets. -/
example : (((sensorBasis 2 ⟨1, fun _ => .hgrad, fun _ => 2⟩ exV exD).bind fun b =>
    stateAt 2 exLay (fun _ => .hgrad) (fun _ _ => 0) (fun s _ _ i => 5 + 2 * (s : ℤ) + i) b.1 b.2 0 0 (fun _ => 0)).map
      (fun f => [f (0, .val 0 0), f (1, .val 0 0), f (1, .grad 0 1)])) = some [28, 38, 8] := by decide +kernel

/-- [case] A variable of kind HVOL: the list of gradients is empty. -/
example : ((sensorBasis 2 ⟨1, fun _ => .hvol, fun _ => 2⟩ exV exD).bind fun b =>
    stateAt 2 exLay (fun _ => .hvol) (fun _ _ => 0) (fun _ _ _ _ => (1 : ℤ)) b.1 b.2 0 0 (fun _ => 0)).isNone = true := by decide +kernel

end MrHyDE.Objective.SensorGrad
