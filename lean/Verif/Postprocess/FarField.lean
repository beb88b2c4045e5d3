import Mathlib.Algebra.BigOperators.Group.List.Basic
import Mathlib.Algebra.Algebra.Basic
import Mathlib.Algebra.Field.Rat
import Mathlib.LinearAlgebra.CrossProduct
import Mathlib.Tactic.FieldSimp
import Mathlib.Tactic.Ring
import Mathlib.Tactic.NormNum

/-! # C174: the far field of the output type "integrated dft"

Model of the transform in `report` (/repo/src/managers/postprocess/postprocessManager_util.hpp:144-385): potentials from the transformed
electric field at the quadrature points of the boundary (185-248), sum over the processes (250-289), the seven columns of the file (311-331,
366-382).  Complex numbers are any algebra over the real ones, with real part `re`, modulus `abs` and `cis x` = cos x − i sin x; directions are
given by their three unit vectors (210-213). -/

set_option linter.unusedSectionVars false
set_option linter.unusedVariables false

namespace MrHyDE.Postprocess.FarField

variable {K C : Type} [Field K] [CommRing C] [Algebra K C]

/-- Three components, postprocessManager_util.hpp:211-213. -/
structure V3 (A : Type) where
  x : A
  y : A
  z : A
deriving DecidableEq

/-- A direction: `r_hat`, `theta_hat`, `phi_hat`; postprocessManager_util.hpp:211-213. -/
structure Dir (K : Type) where
  r : V3 K
  th : V3 K
  ph : V3 K

/-- A quadrature point of a boundary group: place, normal, weight; postprocessManager_util.hpp:203-205. -/
structure Pt (K : Type) where
  at' : V3 K
  n : V3 K
  w : K

/-- Settings: wave number, impedance, incident polarisation (all 0 unless given), and π; postprocessManager_util.hpp:156-161. -/
structure Cfg (K : Type) where
  k0 : K
  N0 : K
  EP : V3 K
  pi : K

/-- Incident power; postprocessManager_util.hpp:315. -/
def Cfg.Pinc (S : Cfg K) : K := (S.EP.x * S.EP.x + S.EP.y * S.EP.y + S.EP.z * S.EP.z) / (2 * S.N0)

/-- The angles, postprocessManager_util.hpp:163-183: none for a number 0, where entry 0 of an empty vector is written (172, 182). -/
def angles (n : Nat) (lo hi : K) : Option (List K) :=
  if 1 < n then some ((List.range n).map (fun (k : Nat) => lo + (k : K) * ((hi - lo) / ((n : K) - 1))))
  else if n = 1 then some [lo] else none

/-- The four potentials; postprocessManager_util.hpp:187-190. -/
structure Pot (A : Type) where
  ath : A
  aph : A
  fth : A
  fph : A
deriving DecidableEq

/-- Sum of potentials; postprocessManager_util.hpp:237-240. -/
def Pot.add {A : Type} [Add A] (a b : Pot A) : Pot A := ⟨a.ath + b.ath, a.aph + b.aph, a.fth + b.fth, a.fph + b.fph⟩

/-- No potentials; postprocessManager_util.hpp:187-190. -/
def Pot.zero {A : Type} [Zero A] : Pot A := ⟨0, 0, 0, 0⟩

/-- Normal times vector; postprocessManager_util.hpp:232-234. -/
def cross (n : V3 K) (e : V3 C) : V3 C :=
  ⟨n.y • e.z - n.z • e.y, n.z • e.x - n.x • e.z, n.x • e.y - n.y • e.x⟩

/-- Sum of products, without conjugation; postprocessManager_util.hpp:237-240. -/
def dot (a b : V3 C) : C := a.x * b.x + a.y * b.y + a.z * b.z

/-- A unit vector with the phase of the point, component by component; postprocessManager_util.hpp:219-226. -/
def wave (cis : K → C) (S : Cfg K) (d : Dir K) (h : V3 K) (p : Pt K) : V3 C :=
  ⟨h.x • cis (S.k0 * p.at'.x * d.r.x), h.y • cis (S.k0 * p.at'.y * d.r.y), h.z • cis (S.k0 * p.at'.z * d.r.z)⟩

/-- What a point adds for a direction, with field `E`; postprocessManager_util.hpp:219-240. -/
def contrib (cis : K → C) (S : Cfg K) (d : Dir K) (E : V3 C) (p : Pt K) : Pot C :=
  let c : K := -1 / S.N0 * p.w
  ⟨c • dot (cross p.n (wave cis S d d.th p)) (cross p.n E), c • dot (cross p.n (wave cis S d d.ph p)) (cross p.n E),
   c • dot (wave cis S d d.th p) (cross p.n E), c • dot (wave cis S d d.ph p) (cross p.n E)⟩

/-- What the loop carries: number of the sensor, potentials by frequency and direction; postprocessManager_util.hpp:185-200. -/
structure St (C : Type) where
  prog : Nat
  pot : Nat → Nat → Pot C

/-- One direction for one group, postprocessManager_util.hpp:207-245: *all* points of the group read the entry `prog` of the transform, which
is counted up after each direction (244); `dft s t`: field at sensor `s` and frequency `t`, `none` beyond the extent. -/
def oneDir (cis : K → C) (S : Cfg K) (nfreq nsens : Nat) (dft : Nat → Nat → V3 C) (pts : List (Pt K)) (st : St C) (x : Dir K × Nat) :
    Option (St C) :=
  if pts ≠ [] ∧ 0 < nfreq ∧ nsens ≤ st.prog then none
  else some ⟨st.prog + 1, fun t j => if j = x.2 ∧ t < nfreq then
      pts.foldl (fun a p => a.add (contrib cis S x.1 (dft st.prog t) p)) (st.pot t j) else st.pot t j⟩

/-- The potentials of one process: groups, directions (theta outside, phi inside), points, frequencies; postprocessManager_util.hpp:199-248. -/
def potentials (cis : K → C) (S : Cfg K) (dirs : List (Dir K)) (nfreq nsens : Nat) (dft : Nat → Nat → V3 C) (groups : List (List (Pt K))) :
    Option (St C) :=
  groups.foldlM (fun st pts => (dirs.zipIdx).foldlM (oneDir cis S nfreq nsens dft pts) st) ⟨0, fun _ _ => Pot.zero⟩

/-- The sums over the processes, postprocessManager_util.hpp:250-289: real parts; only the first of the four arrays is summed (276), the other three
keep their zeros. -/
def reduced (re : C → K) (procs : List (Nat → Nat → Pot C)) (t j : Nat) : Pot C :=
  ⟨algebraMap K C (procs.map (fun p => re (p t j).ath)).sum, 0, 0, 0⟩

/-- The columns, postprocessManager_util.hpp:311-331. -/
def columns (abs : C → K) (S : Cfg K) (p : Pot C) : List K :=
  let a := abs (S.N0 • p.ath + p.fph)
  let b := abs (S.N0 • p.aph - p.fth)
  let c := S.k0 ^ 2 / (8 * S.pi * S.N0 * S.Pinc) * abs (p.fph + S.N0 • p.ath) ^ 2
  let d := S.k0 ^ 2 / (8 * S.pi * S.N0 * S.Pinc) * abs (p.fth - S.N0 • p.aph) ^ 2
  [S.k0 / (4 * S.pi * 1) * a, S.k0 / (4 * S.pi * 1) * b, S.k0 ^ 2 / (4 * S.pi) * 1 / S.N0 * a ^ 2, S.k0 ^ 2 / (4 * S.pi) * 1 / S.N0 * b ^ 2,
    c, d, c + d]

/-- The file: for every frequency and direction a line, postprocessManager_util.hpp:316-331, 366-382.  The sums are within the branch for
processes with sensors (112): without one on every process the others wait for ever.  `none` also for a division by zero, by the impedance (237)
or the incident power (325), where the code writes infinities or NaN. -/
def file [DecidableEq K] (re abs : C → K) (cis : K → C) (S : Cfg K) (dirs : List (Dir K)) (nfreq : Nat)
    (procs : List (Nat × (Nat → Nat → V3 C) × List (List (Pt K)))) : Option (List (List K)) :=
  if (∃ p ∈ procs, p.1 = 0) ∨ S.N0 = 0 ∨ S.Pinc = 0 then none
  else (procs.mapM (fun p => (potentials cis S dirs nfreq p.1 p.2.1 p.2.2).map St.pot)).map fun ps =>
    (List.range nfreq).flatMap (fun t => (List.range dirs.length).map (fun j => columns abs S (reduced re ps t j)))

/-! ## What the loops compute -/

/-- Sum of potentials. [specification, no code] -/
def total (l : List (Pot C)) : Pot C := l.foldr Pot.add Pot.zero

theorem Pot.add_assoc' (a b c : Pot C) : (a.add b).add c = a.add (b.add c) := by simp [Pot.add, add_assoc]

theorem Pot.add_zero' (a : Pot C) : a.add Pot.zero = a := by simp [Pot.add, Pot.zero]

theorem foldl_add {A : Type} (f : A → Pot C) : ∀ (l : List A) (a : Pot C), l.foldl (fun a p => a.add (f p)) a = a.add (total (l.map f))
  | [], a => by simp [total, Pot.add_zero']
  | x :: l, a => by
    rw [List.foldl_cons, foldl_add f l]
    simp [total, Pot.add_assoc']

/-- All directions of one group. -/
theorem group_spec (cis : K → C) (S : Cfg K) (nfreq nsens : Nat) (dft : Nat → Nat → V3 C) (pts : List (Pt K)) :
    ∀ (dirs : List (Dir K)) (k : Nat) (st : St C), st.prog + dirs.length ≤ nsens →
    ∃ st', (dirs.zipIdx k).foldlM (oneDir cis S nfreq nsens dft pts) st = some st' ∧ st'.prog = st.prog + dirs.length ∧
      (∀ t j, ¬ (t < nfreq ∧ k ≤ j ∧ j < k + dirs.length) → st'.pot t j = st.pot t j) ∧
      ∀ t < nfreq, ∀ i (hi : i < dirs.length), st'.pot t (k + i) =
        (st.pot t (k + i)).add (total (pts.map (contrib cis S dirs[i] (dft (st.prog + i) t))))
  | [], k, st, _ => ⟨st, rfl, by simp, fun _ _ _ => rfl, fun t _ i hi => by simp at hi⟩
  | d :: dirs, k, st, h => by
    rw [List.length_cons] at h
    have h1 : oneDir cis S nfreq nsens dft pts st (d, k) = some ⟨st.prog + 1, fun t j => if j = k ∧ t < nfreq then
      pts.foldl (fun a p => a.add (contrib cis S d (dft st.prog t) p)) (st.pot t j) else st.pot t j⟩ := by
      unfold oneDir
      rw [if_neg (by omega)]
    obtain ⟨st', a1, a2, a3, a4⟩ := group_spec cis S nfreq nsens dft pts dirs (k + 1) ⟨st.prog + 1, fun t j => if j = k ∧ t < nfreq then
      pts.foldl (fun a p => a.add (contrib cis S d (dft st.prog t) p)) (st.pot t j) else st.pot t j⟩ (by simp only; omega)
    refine ⟨st', ?_, ?_, ?_, ?_⟩
    · rw [List.zipIdx_cons, List.foldlM_cons, h1]; exact a1
    · rw [a2, List.length_cons]; simp only; omega
    · intro t j hn
      rw [List.length_cons] at hn
      rw [a3 t j (by omega)]
      simp only
      rw [if_neg (by omega)]
    · intro t ht i hi
      cases i with
      | zero =>
        rw [Nat.add_zero, a3 t k (by omega)]
        simp only [true_and, ht, if_true, Nat.add_zero, List.getElem_cons_zero]
        rw [foldl_add]
      | succ i =>
        rw [List.length_cons] at hi
        have := a4 t ht i (by omega)
        rw [show k + 1 + i = k + (i + 1) by omega] at this
        rw [this]
        simp only
        rw [if_neg (by omega), show st.prog + 1 + i = st.prog + (i + 1) by omega]
        rfl

/-- All groups: points of group `g` are given the field of sensor `g * directions + direction`. -/
theorem potentials_spec (cis : K → C) (S : Cfg K) (dirs : List (Dir K)) (nfreq nsens : Nat) (dft : Nat → Nat → V3 C) :
    ∀ (groups : List (List (Pt K))) (g0 : Nat) (st : St C), st.prog = g0 * dirs.length → (g0 + groups.length) * dirs.length ≤ nsens →
    ∃ st', groups.foldlM (fun st pts => (dirs.zipIdx).foldlM (oneDir cis S nfreq nsens dft pts) st) st = some st' ∧
      ∀ t < nfreq, ∀ j (hj : j < dirs.length), st'.pot t j = (st.pot t j).add (total ((groups.zipIdx g0).flatMap
        (fun x => x.1.map (contrib cis S dirs[j] (dft (x.2 * dirs.length + j) t)))))
  | [], g0, st, _, _ => ⟨st, rfl, fun t _ j _ => by simp [total, Pot.add_zero']⟩
  | pts :: groups, g0, st, hp, hn => by
    rw [List.length_cons] at hn
    have hle : g0 * dirs.length + dirs.length ≤ nsens := by
      calc g0 * dirs.length + dirs.length = (g0 + 1) * dirs.length := by rw [Nat.succ_mul]
        _ ≤ (g0 + (groups.length + 1)) * dirs.length := Nat.mul_le_mul_right _ (by omega)
        _ ≤ nsens := hn
    obtain ⟨st1, a1, a2, -, a4⟩ := group_spec cis S nfreq nsens dft pts dirs 0 st (by omega)
    obtain ⟨st', b1, b2⟩ := potentials_spec cis S dirs nfreq nsens dft groups (g0 + 1) st1 (by rw [a2, hp, Nat.succ_mul])
      (by rw [show g0 + 1 + groups.length = g0 + (groups.length + 1) by omega]; exact hn)
    refine ⟨st', ?_, fun t ht j hj => ?_⟩
    · rw [List.foldlM_cons, a1]; exact b1
    · have := a4 t ht j hj
      rw [Nat.zero_add] at this
      rw [b2 t ht j hj, this, hp, List.zipIdx_cons, List.flatMap_cons, Pot.add_assoc']
      congr 1
      have happ : ∀ l m : List (Pot C), (total l).add (total m) = total (l ++ m) := by
        intro l m
        induction l with
        | nil => simp [total, Pot.add, Pot.zero]
        | cons a l ih => rw [List.cons_append]; simp only [total, List.foldr_cons] at ih ⊢; rw [Pot.add_assoc', ih]
      exact happ _ _

/-- C174, partial: with enough sensors, the potentials of a process are the sums over all points of all groups, with the weights, of the products of
the tangential field with the tangential waves, where the field is that of sensor `g * directions + j` for all points of group `g`.
Missing: the own sensor of each point (`C174_sensors_violated`), the three other sums (`C174_phi_violated`). -/
theorem C174_partial (cis : K → C) (S : Cfg K) (dirs : List (Dir K)) (nfreq nsens : Nat) (dft : Nat → Nat → V3 C) (groups : List (List (Pt K)))
    (h : groups.length * dirs.length ≤ nsens) :
    ∃ st, potentials cis S dirs nfreq nsens dft groups = some st ∧ ∀ t < nfreq, ∀ j (hj : j < dirs.length),
      st.pot t j = total ((groups.zipIdx).flatMap (fun x => x.1.map (contrib cis S dirs[j] (dft (x.2 * dirs.length + j) t)))) := by
  obtain ⟨st, h1, h2⟩ := potentials_spec cis S dirs nfreq nsens dft groups 0 ⟨0, fun _ _ => Pot.zero⟩ (by simp) (by rwa [Nat.zero_add])
  refine ⟨st, h1, fun t ht j hj => ?_⟩
  rw [h2 t ht j hj]
  simp [Pot.add, Pot.zero]

/-- The wanted potential of a process: every point, numbered through, with the field of its own sensor. [specification, no code] -/
def wanted (cis : K → C) (S : Cfg K) (d : Dir K) (dft : Nat → V3 C) (groups : List (List (Pt K))) : Pot C :=
  total (groups.flatten.zipIdx.map (fun x => contrib cis S d (dft x.2) x.1))

/-- C174, partial: for one direction and groups of one point each, the potentials of a process are the wanted ones. -/
theorem C174_single_partial (cis : K → C) (S : Cfg K) (d : Dir K) (nfreq nsens : Nat) (dft : Nat → Nat → V3 C) (ps : List (Pt K))
    (h : ps.length ≤ nsens) :
    ∃ st, potentials cis S [d] nfreq nsens dft (ps.map (fun p => [p])) = some st ∧ ∀ t < nfreq,
      st.pot t 0 = wanted cis S d (fun s => dft s t) (ps.map (fun p => [p])) := by
  obtain ⟨st, h1, h2⟩ := C174_partial cis S [d] nfreq nsens dft (ps.map (fun p => [p])) (by simpa using h)
  refine ⟨st, h1, fun t ht => ?_⟩
  rw [h2 t ht 0 (by simp), wanted]
  congr 1
  have flat : ∀ l : List (Pt K), (l.map (fun p => [p])).flatten = l := by
    intro l
    induction l with
    | nil => rfl
    | cons a l ih => rw [List.map_cons, List.flatten_cons, ih]; rfl
  have e := flat ps
  rw [e]
  have key : ∀ (l : List (Pt K)) (k : Nat), ((l.map (fun p => [p])).zipIdx k).flatMap
      (fun x => x.1.map (contrib cis S [d][0] (dft (x.2 * [d].length + 0) t))) = (l.zipIdx k).map (fun x => contrib cis S d (dft x.2 t) x.1) := by
    intro l
    induction l with
    | nil => intro k; rfl
    | cons a l ih =>
      intro k
      rw [List.map_cons, List.zipIdx_cons, List.flatMap_cons, ih, List.zipIdx_cons, List.map_cons]
      simp
  exact key ps 0

/-- C174 is false when the boundary has more points than groups times directions: the result does not depend on the fields of the other sensors. -/
theorem C174_sensors_violated (cis : K → C) (S : Cfg K) (dirs : List (Dir K)) (nfreq nsens : Nat) (dft dft' : Nat → Nat → V3 C)
    (groups : List (List (Pt K))) (h : groups.length * dirs.length ≤ nsens)
    (hd : ∀ s < groups.length * dirs.length, ∀ t, dft s t = dft' s t) (t : Nat) (ht : t < nfreq) (j : Nat) (hj : j < dirs.length) :
    ∃ st st', potentials cis S dirs nfreq nsens dft groups = some st ∧ potentials cis S dirs nfreq nsens dft' groups = some st' ∧
      st.pot t j = st'.pot t j := by
  obtain ⟨st, h1, h2⟩ := C174_partial cis S dirs nfreq nsens dft groups h
  obtain ⟨st', h3, h4⟩ := C174_partial cis S dirs nfreq nsens dft' groups h
  refine ⟨st, st', h1, h3, ?_⟩
  rw [h2 t ht j hj, h4 t ht j hj]
  congr 1
  refine List.flatMap_congr (fun x hx => ?_)
  have hlt : x.2 < groups.length := by
    obtain ⟨i, hi, e⟩ := List.mem_iff_getElem.1 hx
    rw [List.getElem_zipIdx] at e
    rw [← e]
    rw [List.length_zipIdx] at hi
    simpa using hi
  rw [hd]
  calc x.2 * dirs.length + j < x.2 * dirs.length + dirs.length := by omega
    _ = (x.2 + 1) * dirs.length := by rw [Nat.succ_mul]
    _ ≤ groups.length * dirs.length := Nat.mul_le_mul_right _ hlt

/-- C174 is false when there are more directions than sensors: the loop reads beyond the transform in the first group with a point. -/
theorem C174_directions_violated (cis : K → C) (S : Cfg K) (dirs : List (Dir K)) (nfreq nsens : Nat) (dft : Nat → Nat → V3 C)
    (p : Pt K) (pts : List (Pt K)) (groups : List (List (Pt K))) (hf : 0 < nfreq) (h : nsens < dirs.length) :
    potentials cis S dirs nfreq nsens dft ((p :: pts) :: groups) = none := by
  have key : ∀ (dirs : List (Dir K)) (k : Nat) (st : St C), nsens < st.prog + dirs.length →  st.prog ≤ nsens →
      (dirs.zipIdx k).foldlM (oneDir cis S nfreq nsens dft (p :: pts)) st = none := by
    intro dirs
    induction dirs with
    | nil => intro k st h1 h2; simp at h1; omega
    | cons d dirs ih =>
      intro k st h1 h2
      rw [List.length_cons] at h1
      rw [List.zipIdx_cons, List.foldlM_cons]
      by_cases he : nsens ≤ st.prog
      · have : oneDir cis S nfreq nsens dft (p :: pts) st (d, k) = none := by
          unfold oneDir
          rw [if_pos ⟨by simp, hf, he⟩]
        rw [this]; rfl
      · have : oneDir cis S nfreq nsens dft (p :: pts) st (d, k) = some ⟨st.prog + 1, fun t j => if j = k ∧ t < nfreq then
          (p :: pts).foldl (fun a p => a.add (contrib cis S d (dft st.prog t) p)) (st.pot t j) else st.pot t j⟩ := by
          unfold oneDir
          rw [if_neg (by omega)]
        rw [this]
        exact ih (k + 1) _ (by simp only; omega) (by simp only; omega)
  unfold potentials
  rw [List.foldlM_cons, key dirs 0 _ (by simp only; omega) (by simp only; omega)]
  rfl

/-- C174 is false for the second polarisation: its amplitude, power and cross section in the file are zero, whatever the field. -/
theorem C174_phi_violated (re abs : C → K) (habs : abs 0 = 0) (S : Cfg K) (procs : List (Nat → Nat → Pot C)) (t j : Nat) :
    ∃ a b c, columns abs S (reduced re procs t j) = [a, 0, b, 0, c, 0, c] := by
  refine ⟨(columns abs S (reduced re procs t j)).getD 0 0, (columns abs S (reduced re procs t j)).getD 2 0,
    (columns abs S (reduced re procs t j)).getD 4 0, ?_⟩
  unfold columns reduced
  simp [habs]

/-- C174 is false for the first polarisation: the columns do not depend on the imaginary part of the first potential nor on the other
three, although modulus and sum with the fourth are asked for. -/
theorem C174_theta_violated (re abs : C → K) (S : Cfg K) (procs procs' : List (Nat → Nat → Pot C)) (t j : Nat)
    (h : procs.map (fun p => re (p t j).ath) = procs'.map (fun p => re (p t j).ath)) :
    columns abs S (reduced re procs t j) = columns abs S (reduced re procs' t j) := by
  unfold reduced
  rw [h]

/-- C174 is false if a process has no sensor: the others wait for it in the sum. -/
theorem C174_processes_violated [DecidableEq K] (re abs : C → K) (cis : K → C) (S : Cfg K) (dirs : List (Dir K)) (nfreq : Nat)
    (procs : List (Nat × (Nat → Nat → V3 C) × List (List (Pt K)))) (p : Nat × (Nat → Nat → V3 C) × List (List (Pt K))) (hp : p ∈ procs)
    (h0 : p.1 = 0) : file re abs cis S dirs nfreq procs = none := by
  unfold file
  rw [if_pos (Or.inl ⟨p, hp, h0⟩)]

/-- C174 is false with the defaults: the impedance is 0 and is divided by. -/
theorem C174_defaults_violated [DecidableEq K] (re abs : C → K) (cis : K → C) (S : Cfg K) (h : S.N0 = 0) (dirs : List (Dir K)) (nfreq : Nat)
    (procs : List (Nat × (Nat → Nat → V3 C) × List (List (Pt K)))) : file re abs cis S dirs nfreq procs = none := by
  unfold file
  rw [if_pos (Or.inr (Or.inl h))]

/-- C174 is false for the power: it is 4π times the one of the formula the code quotes (338), k0²/(4π)²/N0 times the squared modulus. -/
theorem C174_power_violated (abs : C → K) (S : Cfg K) (hpi : 4 * S.pi ≠ 0) (p : Pot C) :
    (columns abs S p).getD 2 0 = 4 * S.pi * (S.k0 ^ 2 / (4 * S.pi) ^ 2 * 1 / S.N0 * abs (S.N0 • p.ath + p.fph) ^ 2) := by
  have e : 4 * S.pi * (S.k0 ^ 2 / (4 * S.pi) ^ 2) = S.k0 ^ 2 / (4 * S.pi) := by
    rw [pow_two (4 * S.pi), ← mul_div_assoc, mul_comm (4 * S.pi) (S.k0 ^ 2), mul_div_mul_right _ _ hpi]
  show S.k0 ^ 2 / (4 * S.pi) * 1 / S.N0 * _ = _
  rw [← e]
  ring

/-- C174, partial: the angles are the asked number of equidistant ones from the least to the largest. -/
theorem C174_angles_partial [CharZero K] (n : Nat) (hn : 1 < n) (lo hi : K) :
    ∃ l, angles n lo hi = some l ∧ l.length = n ∧ l[0]? = some lo ∧ l[n - 1]? = some hi ∧
      ∃ d, ∀ k, k + 1 < n → ∃ a, l[k]? = some a ∧ l[k + 1]? = some (a + d) := by
  have hne : ((n : K) - 1) ≠ 0 := by
    rw [sub_ne_zero]; exact_mod_cast (by omega : n ≠ 1)
  refine ⟨_, by unfold angles; rw [if_pos hn], by simp, ?_, ?_, (hi - lo) / ((n : K) - 1), fun k hk => ?_⟩
  · rw [List.getElem?_map, List.getElem?_range (by omega)]; simp
  · rw [List.getElem?_map, List.getElem?_range (by omega), Option.map_some, Nat.cast_sub (by omega), Nat.cast_one, mul_div_cancel₀ _ hne]
    simp
  · refine ⟨lo + (k : K) * ((hi - lo) / ((n : K) - 1)), ?_, ?_⟩
    · rw [List.getElem?_map, List.getElem?_range (by omega)]; rfl
    · rw [List.getElem?_map, List.getElem?_range hk, Option.map_some]
      congr 1
      push_cast
      ring

/-- [case] Three angles from 0 to 1. -/
example : angles 3 (0 : ℚ) 1 = some [0, 1 / 2, 1] := by decide +kernel

/-- The file has a line for every frequency and direction, directions running faster. -/
theorem C174_lines_partial [DecidableEq K] (re abs : C → K) (cis : K → C) (S : Cfg K) (dirs : List (Dir K)) (nfreq nsens : Nat) (hs : nsens ≠ 0)
    (hN : S.N0 ≠ 0) (hP : S.Pinc ≠ 0)
    (dft : Nat → Nat → V3 C) (groups : List (List (Pt K))) (h : groups.length * dirs.length ≤ nsens) :
    ∃ ls, file re abs cis S dirs nfreq [(nsens, dft, groups)] = some ls ∧ ls = (List.range nfreq).flatMap (fun t => (List.range dirs.length).map
      (fun j => columns abs S ⟨algebraMap K C (re (total ((groups.zipIdx).flatMap (fun x =>
        x.1.map (contrib cis S (dirs.getD j ⟨⟨0, 0, 0⟩, ⟨0, 0, 0⟩, ⟨0, 0, 0⟩⟩) (dft (x.2 * dirs.length + j) t))))).ath), 0, 0, 0⟩)) := by
  obtain ⟨st, h1, h2⟩ := C174_partial cis S dirs nfreq nsens dft groups h
  refine ⟨_, ?_, rfl⟩
  unfold file
  rw [if_neg (by simp [hs, hN, hP])]
  have : [(nsens, dft, groups)].mapM (fun p : Nat × (Nat → Nat → V3 C) × List (List (Pt K)) =>
      (potentials cis S dirs nfreq p.1 p.2.1 p.2.2).map St.pot) = some [st.pot] := by
    rw [List.mapM_cons]
    simp only [h1]
    rfl
  rw [this, Option.map_some]
  congr 1
  refine List.flatMap_congr (fun t ht => List.map_congr_left (fun j hj => ?_))
  have hj := List.mem_range.1 hj
  rw [reduced, List.map_singleton, List.sum_singleton, h2 t (List.mem_range.1 ht) j hj, List.getD_eq_getElem?_getD,
    List.getElem?_eq_getElem hj, Option.getD_some]

/-! ## The kernel and the columns in terms of vectors -/

/-- Components of a vector by number. [specification, no code] -/
def V3.vec {A : Type} (v : V3 A) : Fin 3 → A := ![v.x, v.y, v.z]

/-- The real vector as a complex one. [specification, no code] -/
def up (C : Type) [CommRing C] [Algebra K C] (v : V3 K) : Fin 3 → C := fun i => algebraMap K C (v.vec i)

/-- A unit vector with a phase for each component. [specification, no code] -/
def phased (cis : K → C) (k0 : K) (r h x : V3 K) : Fin 3 → C := fun i => algebraMap K C (h.vec i) * cis (k0 * x.vec i * r.vec i)

open Matrix in
/-- C174, partial: what a point adds, for an impedance other than 0.  Multiplied by it, the first two potentials get minus the weight times the
scalar product of `n × wave` and `n × E`, the last two that of the wave and `n × E`; vector and scalar product are those of the library. -/
theorem C174_kernel_partial (cis : K → C) (S : Cfg K) (hN : S.N0 ≠ 0) (d : Dir K) (E : V3 C) (p : Pt K) :
    let a := phased cis S.k0 d.r d.th p.at'
    let b := phased cis S.k0 d.r d.ph p.at'
    let nE := crossProduct (up C p.n) E.vec
    S.N0 • (contrib cis S d E p).ath = -(p.w • (crossProduct (up C p.n) a ⬝ᵥ nE)) ∧
    S.N0 • (contrib cis S d E p).aph = -(p.w • (crossProduct (up C p.n) b ⬝ᵥ nE)) ∧
    S.N0 • (contrib cis S d E p).fth = -(p.w • (a ⬝ᵥ nE)) ∧
    S.N0 • (contrib cis S d E p).fph = -(p.w • (b ⬝ᵥ nE)) := by
  have hc : ∀ z : C, S.N0 • ((-1 / S.N0 * p.w) • z) = -(p.w • z) := by
    intro z
    rw [smul_smul, show S.N0 * (-1 / S.N0 * p.w) = -p.w by field_simp, neg_smul]
  simp only [contrib, hc, neg_inj]
  refine ⟨?_, ?_, ?_, ?_⟩ <;> congr 1 <;>
    simp [dot, cross, wave, phased, up, V3.vec, crossProduct, dotProduct, Fin.sum_univ_three, Algebra.smul_def]

/-- C174, partial: for all potentials, the cross sections are those of the amplitudes: 4π times the squared amplitude (at distance 1) over the squared
incident polarisation; the last column is their sum; amplitudes are k0/(4π) times the moduli. -/
theorem C174_columns_partial (abs : C → K) (heven : ∀ z, abs (-z) = abs z) (S : Cfg K) (h2 : (2 : K) ≠ 0) (hpi : S.pi ≠ 0) (hN : S.N0 ≠ 0)
    (hP : S.EP.vec 0 ^ 2 + S.EP.vec 1 ^ 2 + S.EP.vec 2 ^ 2 ≠ 0) (p : Pot C) :
    ∃ Eth Eph Pth Pph Rth Rph, columns abs S p = [Eth, Eph, Pth, Pph, Rth, Rph, Rth + Rph] ∧
      Eth = S.k0 / (4 * S.pi) * abs (S.N0 • p.ath + p.fph) ∧ Eph = S.k0 / (4 * S.pi) * abs (S.N0 • p.aph - p.fth) ∧
      Pth = 4 * S.pi * Eth ^ 2 / S.N0 ∧ Pph = 4 * S.pi * Eph ^ 2 / S.N0 ∧
      Rth = 4 * S.pi * Eth ^ 2 / (S.EP.vec 0 ^ 2 + S.EP.vec 1 ^ 2 + S.EP.vec 2 ^ 2) ∧
      Rph = 4 * S.pi * Eph ^ 2 / (S.EP.vec 0 ^ 2 + S.EP.vec 1 ^ 2 + S.EP.vec 2 ^ 2) := by
  have h4 : (4 : K) ≠ 0 := by rw [show (4 : K) = 2 * 2 by norm_num]; exact mul_ne_zero h2 h2
  have e0 : S.EP.vec 0 ^ 2 + S.EP.vec 1 ^ 2 + S.EP.vec 2 ^ 2 = S.EP.x * S.EP.x + S.EP.y * S.EP.y + S.EP.z * S.EP.z := by
    simp [V3.vec]; ring
  have hP' := hP
  rw [e0] at hP' ⊢
  have e1 : abs (p.fth - S.N0 • p.aph) = abs (S.N0 • p.aph - p.fth) := by rw [← heven, neg_sub]
  have e2 : abs (p.fph + S.N0 • p.ath) = abs (S.N0 • p.ath + p.fph) := by rw [add_comm]
  have e3 : 8 * S.pi * S.N0 * S.Pinc = 4 * S.pi * (S.EP.x * S.EP.x + S.EP.y * S.EP.y + S.EP.z * S.EP.z) := by
    unfold Cfg.Pinc
    field_simp
    ring
  refine ⟨_, _, _, _, _, _, rfl, ?_, ?_, ?_, ?_, ?_, ?_⟩
  · rw [mul_one]
  · rw [mul_one]
  · field_simp
  · field_simp
  · rw [e3, e2]; field_simp
  · rw [e3, e1]; field_simp

/-- One angle is the least one; for none there is no vector to write to. -/
theorem C174_angle_partial (lo hi : K) : angles 1 lo hi = some [lo] ∧ angles 0 lo hi = none := ⟨rfl, rfl⟩

/-! ## Cases -/

/-- [case] Complex numbers reduced to the rationals, one direction z with theta along x. -/
def exDir : Dir ℚ := ⟨⟨0, 0, 1⟩, ⟨1, 0, 0⟩, ⟨0, 1, 0⟩⟩

/-- [case] Another direction. -/
def exDir2 : Dir ℚ := ⟨⟨1, 0, 0⟩, ⟨0, 0, -1⟩, ⟨0, 1, 0⟩⟩

/-- [case] Settings with unit constants. -/
def exSet : Cfg ℚ := ⟨1, 1, ⟨1, 1, 0⟩, 1⟩

/-- [case] Points on a plane with normal z. -/
def exPt (w : ℚ) : Pt ℚ := ⟨⟨0, 0, 0⟩, ⟨0, 0, 1⟩, w⟩

/-- [case] Field of sensor `s`. -/
def exE (s _t : Nat) : V3 ℚ := ⟨s + 1, 2 * s + 3, 0⟩

/-- [case] One group of two points with weights 1 and 10: both get the field (1, 3) of sensor 0; the second should get (2, 5). -/
example : ((potentials (fun _ => (1 : ℚ)) exSet [exDir] 1 2 exE [[exPt 1, exPt 10]]).map (fun st => st.pot 0 0)) =
      some (⟨-11, -33, 33, -11⟩ : Pot ℚ) ∧
    wanted (fun _ => (1 : ℚ)) exSet exDir (fun s => exE s 0) [[exPt 1, exPt 10]] = ⟨-21, -53, 53, -21⟩ := by decide +kernel

/-- [case] Two directions: the second is computed with the field of the second sensor. -/
example : ((potentials (fun _ => (1 : ℚ)) exSet [exDir, exDir2] 1 2 exE [[exPt 1]]).map (fun st => (st.pot 0 0, st.pot 0 1))) =
    some ((⟨-1, -3, 3, -1⟩ : Pot ℚ), (⟨0, -5, 0, -2⟩ : Pot ℚ)) := by decide +kernel

/-- [case] The line of the file: the first column is |A| = 11/4, wanted |A + F| = 22/4 for this field; the second is 0 instead of 66/4. -/
example : file (K := ℚ) (C := ℚ) (fun x => x) (fun x => |x|) (fun _ => 1) exSet [exDir] 1 [(2, exE, [[exPt 1, exPt 10]])] =
      some [[11 / 4, 0, 121 / 4, 0, 121 / 8, 0, 121 / 8]] ∧
    columns (C := ℚ) (fun x => |x|) exSet (⟨-11, -33, 33, -11⟩ : Pot ℚ) = [22 / 4, 66 / 4, 484 / 4, 4356 / 4, 484 / 8, 4356 / 8, 4840 / 8] := by
  decide +kernel

/-- [case] Impedance 2, wave number 3, incident (1, 2, 2), a slanted normal, a field with three components, and `x ↦ x + 1` for the phase. -/
example : contrib (K := ℚ) (C := ℚ) (fun x => x + 1) ⟨3, 2, ⟨1, 2, 2⟩, 1⟩ ⟨⟨1, 2, 3⟩, ⟨1, 1, 2⟩, ⟨2, 0, 1⟩⟩ ⟨1, 4, 2⟩ ⟨⟨1, 1, 2⟩, ⟨1, 2, 2⟩, 4⟩ =
      ⟨500, 368, -120, -12⟩ ∧
    Cfg.Pinc (⟨3, 2, ⟨1, 2, 2⟩, 1⟩ : Cfg ℚ) = 9 / 4 := by
  norm_num [contrib, dot, cross, wave, Cfg.Pinc]

/-- [case] Two directions, one sensor. -/
example : potentials (fun _ => (1 : ℚ)) exSet [exDir, exDir2] 1 1 exE [[exPt 1]] = none :=
  C174_directions_violated _ _ _ _ _ _ _ _ _ (by omega) (by decide)

end MrHyDE.Postprocess.FarField
