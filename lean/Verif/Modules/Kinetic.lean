import Verif.Modules.Loops
import Verif.Registry.Props
import Mathlib.Algebra.Field.Rat
import Mathlib.Tactic.NormNum
import Mathlib.Tactic.Abel

/-!
# The kinetic modules (C162)

`VFP0d2v`, `VFP1d2v` and `VFP` have the four variables `H`, `C`, `G`, `E` and, in the code as it stands, the same
volume residual: for each species the rate of change against its source.  `phase elliptic` has one variable on the
tensor product of the spatial and the phase mesh.
-/

set_option linter.unusedSectionVars false

namespace MrHyDE.Modules.Kinetic

variable {K : Type}

/-! ## Model -/

/-- The variables, src/physics/vlasov_fokker_planck_0d2v.cpp:34-37 (src/physics/vlasov_fokker_planck_1d2v.cpp:40-43,
src/physics/vlasov_fokker_planck.cpp:32-35). -/
inductive Species
  | H
  | C
  | G
  | E
deriving DecidableEq

/-- What `volumeResidual` reads at one integration point: weight, rates of change and sources of the species and
values of the basis of each species, src/physics/vlasov_fokker_planck_0d2v.cpp:84-85, 124-143, 190-208, 235-253,
280-298.  The values and gradients that are also read (lines 142, 147-148 for `H`) are kept, for the statements about
transport; the code adds nothing that contains them. -/
structure Pt (K : Type) where
  wts : K
  ut : Species → K
  source : Species → K
  grad : Species → Nat → K
  basis : Species → Nat → K
  basisGrad : Species → Nat → Nat → K

section
variable [Ring K]

/-- One loop nest: the species whose offsets are used and whose rate is taken, the species whose source and basis are
taken, src/physics/vlasov_fokker_planck_0d2v.cpp:153-184 (the active line is 172); `num`: the positions of the variables
(359-368). -/
def nest (num : Species → Nat) (nd : Species → Nat) (row src : Species) : Loop K (Pt K) where
  eq := num row
  ndof := nd src
  dofFirst := true
  adds p d := [(p.ut row - p.source src) * p.wts * p.basis src d]

/-- The four nests of `volumeResidual`, src/physics/vlasov_fokker_planck_0d2v.cpp:123-319: for `H` (line 172), `C`
(224), `G` (269) and the one called "electron evolution" (280-314), which takes the basis and the source of `E` but the
offsets (300) and the rate (298, 314) of `H`.  Same in src/physics/vlasov_fokker_planck_1d2v.cpp:131-321 and
src/physics/vlasov_fokker_planck.cpp:124-317. -/
def nests (num nd : Species → Nat) : List (Loop K (Pt K)) :=
  [nest num nd .H .H, nest num nd .C .C, nest num nd .G .G, nest num nd .H .E]

/-- `volumeResidual` for one element, src/physics/vlasov_fokker_planck_0d2v.cpp:82-321; `boundaryResidual` and
`computeFlux` (329-347) are empty. -/
def volume (num nd : Species → Nat) (off : Nat → Nat → Nat) (pts : List (Pt K)) (res : Nat → K) : Nat → K :=
  runLoops off pts (nests num nd) res

/-! ### The phase elliptic module -/

/-- The data on the tensor product, src/physics/phase_elliptic.cpp:58-59, 96-133: spatial weights and basis (point,
function), phase weights (element, point) and basis (element, function, point), extents, offsets and phase offsets,
rate of change and source on the product of the points.  Simplified: the workset declares the phase weights, the values
of the phase basis and the phase offsets (src/tools/workset.hpp:523, 527, 533) but never fills them; here they are
given. -/
structure Phase (K : Type) where
  nd : Nat
  np : Nat
  nel : Nat
  pnd : Nat
  pnp : Nat
  wts : Nat → K
  basis : Nat → Nat → K
  pwts : Nat → Nat → K
  pbasis : Nat → Nat → Nat → K
  off : Nat → Nat
  poff : Nat → Nat
  npoff : Nat
  rate : Nat → K
  source : Nat → K

/-- The entry and the number added in the body of the five loops, src/physics/phase_elliptic.cpp:143-145; `numPhaseIP`
(line 132) is the number of phase elements times the points of one. -/
def phaseBody (h : Phase K) (d p e pd pp : Nat) (res : Nat → K) : Nat → K :=
  let offind := h.off d * h.npoff + h.poff pd
  let ptind := p * (h.nel * h.pnp) + pp
  bump res offind [(h.rate ptind - h.source ptind) * h.wts p * h.pwts e pp * h.basis p d * h.pbasis e pd pp]

/-- The five loops, src/physics/phase_elliptic.cpp:138-150. -/
def phaseLoops (h : Phase K) (res : Nat → K) : Nat → K :=
  (List.range h.nd).foldl (fun r d =>
    (List.range h.np).foldl (fun r p =>
      (List.range h.nel).foldl (fun r e =>
        (List.range h.pnd).foldl (fun r pd =>
          (List.range h.pnp).foldl (fun r pp => phaseBody h d p e pd pp r) r) r) r) r) res

/-- The locations of a function manager, src/managers/function/functionManager_construct.hpp:36-39. -/
def locations : List String := ["ip", "side ip", "tensor ip", "point"]

/-- `defineFunctions`, src/physics/phase_elliptic.cpp:47. -/
def phaseReg (text : String) : Registry.Reg String String := ⟨"source", text, "tensor ip"⟩

/-- `volumeResidual` of the module, src/physics/phase_elliptic.cpp:55-153: the source is evaluated at the location "ip"
(line 108; exception if it is not there), then the loops run.  `before`, `after`: the registrations of other modules and
of the user in the same block; `val`: the data given the text of the source. -/
def phaseVolume (before after : List (Registry.Reg String String)) (text : String) (val : String → Phase K)
    (res : Nat → K) : Option (Nat → K) :=
  (Registry.lookup (Registry.register (Registry.fresh locations) (before ++ phaseReg text :: after)) "source" "ip").map
    (fun t => phaseLoops (val t) res)

end

/-! ## Specification -/

section
variable [Ring K]

/-- The weak form of `u_t = source` for species `s`, tested with function `d` of its own basis.
[specification, no code] -/
def weak (pts : List (Pt K)) (s : Species) (d : Nat) : K :=
  quad pts (fun p => (p.ut s - p.source s) * p.wts * p.basis s d)

/-- The weak form with the transport in velocity space that the comments of the code announce, with acceleration `a` in
direction `c`.  [specification, no code] -/
def weakTransport (dim : Nat) (a : Nat → K) (pts : List (Pt K)) (s : Species) (d : Nat) : K :=
  weak pts s d + quad pts (fun p => dot dim (fun c => a c * p.grad s c) (p.basisGrad s d) * p.wts)

/-- The offsets of the functions of all species are different.  [specification, no code] -/
structure Layout (num nd : Species → Nat) (off : Nat → Nat → Nat) : Prop where
  dist : ∀ s t : Species, ∀ a b : Nat, a < nd s → b < nd t → off (num s) a = off (num t) b → s = t ∧ a = b

/-- The integral over the product of the spatial and the phase domain of `f` against the product of the functions `d`
(space) and `(e, pd)` (phase); points of the product are numbered by the spatial point, the phase element and the point
in it.  [specification, no code] -/
def phaseWeak (h : Phase K) (d e pd : Nat) : K :=
  ∑ p ∈ Finset.range h.np, ∑ pp ∈ Finset.range h.pnp,
    (h.rate (p * (h.nel * h.pnp) + (e * h.pnp + pp)) - h.source (p * (h.nel * h.pnp) + (e * h.pnp + pp))) *
      h.wts p * h.pwts e pp * h.basis p d * h.pbasis e pd pp

end

/-! ## Lemmas -/

section
variable [Ring K]

theorem fold_entry {α : Type} (l : List α) (f : α → (Nat → K) → Nat → K) (j : Nat) (g : α → K)
    (h : ∀ a : α, a ∈ l → ∀ r : Nat → K, f a r j = r j + g a) (res : Nat → K) :
    l.foldl (fun r a => f a r) res j = res j + (l.map g).sum := by
  induction l generalizing res with
  | nil => simp
  | cons a l ih =>
    rw [List.foldl_cons, ih (fun b hb => h b (List.mem_cons_of_mem _ hb)), h a List.mem_cons_self]
    simp [add_assoc]

theorem fold_range (n : Nat) (f : Nat → (Nat → K) → Nat → K) (j : Nat) (g : Nat → K)
    (h : ∀ a : Nat, a < n → ∀ r : Nat → K, f a r j = r j + g a) (res : Nat → K) :
    (List.range n).foldl (fun r a => f a r) res j = res j + ∑ a ∈ Finset.range n, g a :=
  fold_entry (List.range n) f j g (fun a ha => h a (List.mem_range.1 ha)) res

/-- The entry of row `row`, function `d`, after one nest. -/
theorem nest_at {num nd : Species → Nat} {off : Nat → Nat → Nat} (L : Layout num nd off)
    (pts : List (Pt K)) (row src t : Species) (hn : nd src = nd row) (res : Nat → K) {d : Nat} (hd : d < nd t) :
    (nest num nd row src).run off pts res (off (num t) d) =
      res (off (num t) d) +
        (if row = t then quad pts (fun p => (p.ut row - p.source src) * p.wts * p.basis src d) else 0) := by
  have hrun : (nest num nd row src).run off pts res =
      dofLoop (nd src) pts (off (num row)) (nest (K := K) num nd row src).adds res := by
    simp [Loop.run, nest]
  rw [hrun]
  by_cases h : row = t
  · subst h
    rw [if_pos rfl, dofLoop_at (fun a b ha hb hab => (L.dist row row a b (hn ▸ ha) (hn ▸ hb) hab).2) pts _ res (hn ▸ hd)]
    simp [nest]
  · rw [if_neg h, add_zero]
    exact dofLoop_other pts _ res (fun a ha hab => h (L.dist row t a d (hn ▸ ha) hd hab).1)

/-- All four nests. -/
theorem volume_at {num nd : Species → Nat} {off : Nat → Nat → Nat} (L : Layout num nd off)
    (hn : nd .E = nd .H) (pts : List (Pt K)) (res : Nat → K) (t : Species) {d : Nat} (hd : d < nd t) :
    volume num nd off pts res (off (num t) d) = res (off (num t) d) +
      (match t with
        | .H => weak pts .H d + quad pts (fun p => (p.ut .H - p.source .E) * p.wts * p.basis .E d)
        | .C => weak pts .C d
        | .G => weak pts .G d
        | .E => 0) := by
  unfold volume runLoops nests
  simp only [List.foldl_cons, List.foldl_nil]
  rw [nest_at L pts .H .E t hn _ hd, nest_at L pts .G .G t rfl _ hd, nest_at L pts .C .C t rfl _ hd,
    nest_at L pts .H .H t rfl _ hd]
  cases t <;> simp [weak, add_assoc]

end

/-! ## Properties -/

section
variable [Ring K]

/-- C162, what holds: the rows of `C` and `G` receive exactly the weak form of `u_t = source` of their own species, and
entries that belong to no species do not change.  Missing: the rows of `H` and `E` (`C162_electron_violated`,
`C162_undetermined_violated`), the announced transport (`C162_transport_violated`), `phase elliptic`. -/
theorem C162_partial {num nd : Species → Nat} {off : Nat → Nat → Nat} (L : Layout num nd off)
    (hn : nd .E = nd .H) (pts : List (Pt K)) (res : Nat → K) :
    (∀ d : Nat, d < nd .C → volume num nd off pts res (off (num .C) d) = res (off (num .C) d) + weak pts .C d) ∧
    (∀ d : Nat, d < nd .G → volume num nd off pts res (off (num .G) d) = res (off (num .G) d) + weak pts .G d) ∧
    (∀ j : Nat, (∀ s : Species, ∀ d : Nat, d < nd s → off (num s) d ≠ j) → volume num nd off pts res j = res j) := by
  refine ⟨fun d hd => volume_at L hn pts res .C hd, fun d hd => volume_at L hn pts res .G hd, fun j hj => ?_⟩
  refine runLoops_other pts _ res (fun l hl d hd => ?_)
  simp only [nests, List.mem_cons, List.not_mem_nil, or_false] at hl
  rcases hl with rfl | rfl | rfl | rfl
  · exact hj .H d hd
  · exact hj .C d hd
  · exact hj .G d hd
  · exact hj .H d (hn ▸ hd)

/-- C162, balance: where the functions of a species sum to one, the rows of `C` (and of `G`) sum to the integral of
rate minus source, so the integral of the species changes by its source only. -/
theorem C162_balance_partial {num nd : Species → Nat} {off : Nat → Nat → Nat} (L : Layout num nd off)
    (hn : nd .E = nd .H) (pts : List (Pt K)) (res : Nat → K) (s : Species) (hs : s = .C ∨ s = .G)
    (hone : ∀ p : Pt K, p ∈ pts → ∑ d ∈ Finset.range (nd s), p.basis s d = 1) :
    ∑ d ∈ Finset.range (nd s), (volume num nd off pts res (off (num s) d) - res (off (num s) d)) =
      quad pts (fun p => (p.ut s - p.source s) * p.wts) := by
  have hrow : ∀ d ∈ Finset.range (nd s),
      volume num nd off pts res (off (num s) d) - res (off (num s) d) = weak pts s d := by
    intro d hd
    have := volume_at L hn pts res s (Finset.mem_range.1 hd)
    rcases hs with rfl | rfl <;> simp [this]
  rw [Finset.sum_congr rfl hrow]
  clear hrow
  induction pts with
  | nil => exact Finset.sum_eq_zero (fun d _ => rfl)
  | cons p ps ih =>
    have h1 := ih (fun q hq => hone q (List.mem_cons_of_mem _ hq))
    have h2 : ∀ d ∈ Finset.range (nd s),
        weak (p :: ps) s d = (p.ut s - p.source s) * p.wts * p.basis s d + weak ps s d := by
      intro d _
      simp [weak, quad]
    rw [Finset.sum_congr rfl h2, Finset.sum_add_distrib, h1, ← Finset.mul_sum, hone p List.mem_cons_self, mul_one]
    simp [quad]

/-- C162 is false for the electrons: for all data the rows of `E` receive nothing, and the rows of `H` receive, besides
their own weak form, the rate of `H` minus the source of `E`.  With equal bases the equation of `H` is
`2 H_t = source_H + source_E`: with rate 1, sources 1 and 0 at one point of weight 1 the row of `H` is 1, not 0. -/
theorem C162_electron_violated :
    (∀ (num nd : Species → Nat) (off : Nat → Nat → Nat), Layout num nd off → nd .E = nd .H →
      ∀ (pts : List (Pt K)) (res : Nat → K),
        (∀ d : Nat, d < nd .E → volume num nd off pts res (off (num .E) d) = res (off (num .E) d)) ∧
        (∀ d : Nat, d < nd .H → volume num nd off pts res (off (num .H) d) =
          res (off (num .H) d) + (weak pts .H d + quad pts (fun p => (p.ut .H - p.source .E) * p.wts * p.basis .E d))) ∧
        ((∀ p ∈ pts, p.basis .E = p.basis .H) → ∀ d : Nat, d < nd .H → volume num nd off pts res (off (num .H) d) =
          res (off (num .H) d) +
            quad pts (fun p => (2 * p.ut .H - (p.source .H + p.source .E)) * p.wts * p.basis .H d))) := by
  intro num nd off L hn pts res
  refine ⟨fun d hd => by simpa using volume_at L hn pts res .E hd, fun d hd => volume_at L hn pts res .H hd, ?_⟩
  intro hb d hd
  rw [volume_at L hn pts res .H hd]
  simp only [weak]
  rw [← quad_add]
  congr 1
  refine quad_congr pts (fun p hp => ?_)
  rw [hb p hp]
  rw [← add_mul, ← add_mul, two_mul]
  congr 2
  abel

/-- C162 is false for `E` also in this way: two states that differ in the rate of change of `E` (and in all gradients)
have the same residual in all entries, so the equations do not determine `E`. -/
theorem C162_undetermined_violated (num nd : Species → Nat) (off : Nat → Nat → Nat) (pts : List (Pt K)) (res : Nat → K)
    (e : Pt K → K) (g : Pt K → Species → Nat → K) :
    volume num nd off
      (pts.map (fun p => { p with ut := fun s => if s = .E then e p else p.ut s, grad := g p })) res =
      volume num nd off pts res := by
  have key : ∀ (ndof : Nat) (o : Nat → Nat) (f : Pt K → Nat → List K) (m : Pt K → Pt K)
      (_ : ∀ (p : Pt K) (d : Nat), f (m p) d = f p d) (r : Nat → K),
      dofLoop ndof (pts.map m) o f r = dofLoop ndof pts o f r := by
    intro ndof o f m hf r
    simp only [dofLoop, List.foldl_map, hf]
  unfold volume runLoops nests
  simp only [List.foldl_cons, List.foldl_nil, Loop.run, nest, if_true]
  rw [key, key, key, key] <;> intro p d <;> simp

end

/-- One point of weight one, one function of value one with gradient one; rates and sources given.  [case] -/
def pt1 (ut source : Species → ℚ) : Pt ℚ := ⟨1, ut, source, fun _ _ => 1, fun _ _ => 1, fun _ _ _ => 1⟩

/-- Positions in the order of the variables.  [case] -/
def num1 : Species → Nat
  | .H => 0
  | .C => 1
  | .G => 2
  | .E => 3

/-- One function for each species.  [case] -/
theorem layout1 : Layout num1 (fun _ => 1) (fun v d => v + 4 * d) where
  dist s t a b ha hb h := by
    have : a = 0 := by omega
    have : b = 0 := by omega
    subst_vars
    refine ⟨?_, rfl⟩
    cases s <;> cases t <;> simp_all [num1]

/-- C162 is false in the case named in `C162_electron_violated`: `H` follows its source, and its row does not vanish; the row of `E`
vanishes although `E` does not follow its source. -/
theorem C162_witness_violated :
    let pts := [pt1 (fun s => if s = .H then 1 else 2) (fun s => if s = .H then 1 else 0)]
    weak pts .H 0 = 0 ∧ volume num1 (fun _ => 1) (fun v d => v + 4 * d) pts (fun _ => 0) 0 = 1 ∧
    weak pts .E 0 = 2 ∧ volume num1 (fun _ => 1) (fun v d => v + 4 * d) pts (fun _ => 0) 3 = 0 := by
  decide +kernel

/-- C162 is false for the transport announced in the comments (`DF(u) = q/m Egrad grad_v(u)`): a state at rest with a
gradient of one and an acceleration of one has the weak form 1 for `C`, the module gives 0. -/
theorem C162_transport_violated :
    let pts := [pt1 (fun _ => 0) (fun _ => 0)]
    weakTransport 1 (fun _ => 1) pts .C 0 = 1 ∧
      volume num1 (fun _ => 1) (fun v d => v + 4 * d) pts (fun _ => 0) 1 = 0 := by
  decide +kernel

example : ∃ pts : List (Pt ℚ), (∀ p : Pt ℚ, p ∈ pts → ∑ d ∈ Finset.range 1, p.basis .C d = 1) ∧
    volume num1 (fun _ => 1) (fun v d => v + 4 * d) pts (fun _ => 0) 1 = 3 :=
  ⟨[pt1 (fun _ => 5) (fun _ => 2)], by simp [pt1], by decide +kernel⟩

section
variable [Ring K]

/-- The entry of the functions `d`, `pd`: the sum over points and phase elements of what the loops add. -/
theorem phaseLoops_at (h : Phase K) (hoff : ∀ a b x y : Nat, a < h.nd → b < h.nd → x < h.pnd → y < h.pnd →
      h.off a * h.npoff + h.poff x = h.off b * h.npoff + h.poff y → a = b ∧ x = y)
    (res : Nat → K) {d pd : Nat} (hd : d < h.nd) (hpd : pd < h.pnd) :
    phaseLoops h res (h.off d * h.npoff + h.poff pd) = res (h.off d * h.npoff + h.poff pd) +
      ∑ p ∈ Finset.range h.np, ∑ e ∈ Finset.range h.nel, ∑ pp ∈ Finset.range h.pnp,
        (h.rate (p * (h.nel * h.pnp) + pp) - h.source (p * (h.nel * h.pnp) + pp)) * h.wts p * h.pwts e pp *
          h.basis p d * h.pbasis e pd pp := by
  let T : Nat → Nat → Nat → Nat → Nat → K := fun a p e x pp =>
    if a = d ∧ x = pd then (h.rate (p * (h.nel * h.pnp) + pp) - h.source (p * (h.nel * h.pnp) + pp)) * h.wts p *
      h.pwts e pp * h.basis p d * h.pbasis e pd pp else 0
  have hb : ∀ a : Nat, a < h.nd → ∀ p e x : Nat, x < h.pnd → ∀ (pp : Nat) (r : Nat → K),
      phaseBody h a p e x pp r (h.off d * h.npoff + h.poff pd) = r (h.off d * h.npoff + h.poff pd) + T a p e x pp := by
    intro a ha p e x hx pp r
    by_cases hax : a = d ∧ x = pd
    · obtain ⟨rfl, rfl⟩ := hax
      simp [phaseBody, bump_self, T]
    · have hne : h.off d * h.npoff + h.poff pd ≠ h.off a * h.npoff + h.poff x := fun hc =>
        hax ((hoff a d x pd ha hd hx hpd hc.symm))
      simp [phaseBody, bump_other r _ hne, T, hax]
  unfold phaseLoops
  rw [fold_range h.nd _ _ (fun a => ∑ p ∈ Finset.range h.np, ∑ e ∈ Finset.range h.nel, ∑ x ∈ Finset.range h.pnd,
    ∑ pp ∈ Finset.range h.pnp, T a p e x pp)]
  · congr 1
    rw [Finset.sum_eq_single_of_mem d (Finset.mem_range.2 hd)]
    · refine Finset.sum_congr rfl (fun p _ => Finset.sum_congr rfl (fun e _ => ?_))
      rw [Finset.sum_eq_single_of_mem pd (Finset.mem_range.2 hpd)]
      · simp [T]
      · intro x _ hx
        simp [T, hx]
    · intro a _ ha
      simp [T, ha]
  · intro a ha r
    refine fold_range h.np _ _ _ (fun p _ r => ?_) r
    refine fold_range h.nel _ _ _ (fun e _ r => ?_) r
    refine fold_range h.pnd _ _ _ (fun x hx r => ?_) r
    exact fold_range h.pnp _ _ _ (fun pp _ r => hb a ha p e x hx pp r) r

/-- C162, `phase elliptic`: for one phase element the loops add the integral over the product domain of rate minus
source.  Missing: several phase elements (`C162_phase_violated`), and that the module gets so far at all
(`C162_phase_source_violated`). -/
theorem C162_phase_partial (h : Phase K) (hone : h.nel = 1) (hoff : ∀ a b x y : Nat, a < h.nd → b < h.nd →
      x < h.pnd → y < h.pnd → h.off a * h.npoff + h.poff x = h.off b * h.npoff + h.poff y → a = b ∧ x = y)
    (res : Nat → K) {d pd : Nat} (hd : d < h.nd) (hpd : pd < h.pnd) :
    phaseLoops h res (h.off d * h.npoff + h.poff pd) =
      res (h.off d * h.npoff + h.poff pd) + phaseWeak h d 0 pd := by
  rw [phaseLoops_at h hoff res hd hpd]
  simp [phaseWeak, hone]

/-- C162 is false for `phase elliptic` used alone: its source is registered at the location "tensor ip" and evaluated at
"ip".  Whatever is registered besides, the volume residual throws unless another module or the user registers a
function called `source` at "ip", and then the text of that function is used. -/
theorem C162_phase_source_violated (before after : List (Registry.Reg String String)) (text : String)
    (val : String → Phase K) (res : Nat → K) :
    (phaseVolume before after text val res).isSome ↔
      ∃ r : Registry.Reg String String, r ∈ before ++ after ∧ r.name = "source" ∧ r.location = "ip" := by
  have hl : locations.Nodup := by decide
  have hC := (Registry.C07_first_registration_wins (E := String) locations hl (before ++ phaseReg text :: after)
    "source" "ip")
  have hcomm : (Registry.lookup (Registry.register (Registry.fresh locations) (before ++ phaseReg text :: after))
      "source" "ip").isSome ↔
      Registry.hasFunction (Registry.register (Registry.fresh locations) (before ++ phaseReg text :: after))
        "source" "ip" = true := by
    rw [hC.2, hC.1, if_pos (by decide)]
    simp only [Registry.firstReg, Option.isSome_map, List.find?_isSome]
    constructor
    · rintro ⟨r, hr, h⟩
      exact ⟨by decide, r, hr, by simpa using h⟩
    · rintro ⟨_, r, hr, h1, h2⟩
      exact ⟨r, hr, by simp [h1, h2]⟩
  unfold phaseVolume
  rw [Option.isSome_map, hcomm, hC.2]
  constructor
  · rintro ⟨_, r, hr, h1, h2⟩
    rw [List.mem_append, List.mem_cons] at hr
    rcases hr with hr | rfl | hr
    · exact ⟨r, List.mem_append_left _ hr, h1, h2⟩
    · simp [phaseReg] at h2
    · exact ⟨r, List.mem_append_right _ hr, h1, h2⟩
  · rintro ⟨r, hr, h1, h2⟩
    refine ⟨by decide, r, ?_, h1, h2⟩
    rw [List.mem_append] at hr
    rw [List.mem_append, List.mem_cons]
    exact hr.elim Or.inl (fun h => Or.inr (Or.inr h))

end

/-- One spatial point, two phase elements with one point and one function each; the source is 0 in the first and 5 in
the second.  [case] -/
def phase2 : Phase ℚ where
  nd := 1
  np := 1
  nel := 2
  pnd := 1
  pnp := 1
  wts _ := 1
  basis _ _ := 1
  pwts _ _ := 1
  pbasis _ _ _ := 1
  off _ := 0
  poff _ := 0
  npoff := 1
  rate _ := 1
  source i := if i = 1 then 5 else 0

/-- C162 is false for `phase elliptic` with several phase elements: neither the point nor the entry depends on the phase
element.  With two elements of one point, rate 1, sources 0 and 5, the integrals are 1 and -4; the one entry that is
addressed receives 2. -/
theorem C162_phase_violated :
    phaseWeak phase2 0 0 0 = 1 ∧ phaseWeak phase2 0 1 0 = -4 ∧ phaseLoops phase2 (fun _ => 0) 0 = 2 ∧
      ∀ j : Nat, j ≠ 0 → phaseLoops phase2 (fun _ => 0) j = 0 := by
  refine ⟨by decide +kernel, by decide +kernel, by decide +kernel, fun j hj => ?_⟩
  simp [phaseLoops, phase2, phaseBody, List.range_succ, bump, hj]

/-- Two spatial points and functions, one phase element with two points and functions.  [case] -/
def phase1 : Phase ℚ where
  nd := 2
  np := 2
  nel := 1
  pnd := 2
  pnp := 2
  wts p := p + 1
  basis p d := if p = d then 1 else 0
  pwts _ _ := 3
  pbasis _ pd pp := if pd = pp then 1 else 0
  off d := 1 - d
  poff x := x
  npoff := 2
  rate i := i
  source _ := 1

example : phase1.nel = 1 ∧ phaseLoops phase1 (fun _ => 0) (phase1.off 1 * phase1.npoff + phase1.poff 1) = 12 ∧
    phaseWeak phase1 1 0 1 = 12 := by
  decide +kernel

example : (phaseVolume [] [⟨"source", "x", "tensor ip"⟩] "1.0" (fun _ => phase1) (fun _ => 0)).isSome = false ∧
    (phaseVolume [] [⟨"source", "x", "ip"⟩] "1.0" (fun _ => phase1) (fun _ => 0)).isSome = true := by
  decide +kernel

end MrHyDE.Modules.Kinetic
