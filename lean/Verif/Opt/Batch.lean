import Verif.Opt.Objective

/-!
# Sums over batches: C57
-/

set_option linter.unusedSectionVars false

namespace MrHyDE.Opt

variable {K : Type} [Field K]

/-- Sum over the batches of one component; different lengths or a null component on some batch are an error
(MrHyDE_TeuchosBatchManager.hpp:38-46, 66-70 compare lengths on each batch and then reduce). -/
def sumComp (n : Nat) : List (Option (List K)) → Option (List K)
  | [] => some (List.replicate n 0)
  | none :: _ => none
  | some u :: us => do
      let r ← sumComp n us
      zip2 (· + ·) u r

/-- The reduction for one list of components, MrHyDE_TeuchosBatchManager.hpp:29-52 for the fields and 54-72 for the
scalars: component 0 of the output becomes the sum, the others are not touched.  `ins` are the inputs of all batches. -/
def sumFirst (ins : List (Comps K)) : Comps K → Option (Comps K)
  | [] => some []
  | none :: _ => none
  | some u :: cs => do
      let r ← sumComp u.length (ins.map (fun c => (c[0]?).join))
      return some r :: cs

/-- `sumAll`, MrHyDE_TeuchosBatchManager.hpp:23-72. -/
def sumAll (ins : List (OptVec K)) (out : OptVec K) : Option (OptVec K) := do
  let a ← sumFirst (ins.map (·.field)) out.field
  let b ← sumFirst (ins.map (·.scalar)) out.scalar
  return { out with field := a, scalar := b }

/-- Specification: entrywise sum of all inputs. [no code] -/
def total (n : Nat) (ins : List (OptVec K)) : List K :=
  ins.foldr (fun x acc => List.zipWith (· + ·) x.entries acc) (List.replicate n 0)

theorem sumComp_spec (n : Nat) (us : List (List K)) (h : ∀ u ∈ us, u.length = n) :
    ∃ r, sumComp n (us.map some) = some r ∧ r.length = n ∧
      r = us.foldr (fun u acc => List.zipWith (· + ·) u acc) (List.replicate n 0) := by
  induction us with
  | nil => exact ⟨_, rfl, by simp, rfl⟩
  | cons u us ih =>
    obtain ⟨r, h1, h2, h3⟩ := ih (fun v hv => h v (by simp [hv]))
    have hu := h u (by simp)
    refine ⟨List.zipWith (· + ·) u r, by simp [sumComp, h1, zip2, hu, h2], by simp [hu, h2], by simp [h3]⟩

theorem fold_append (ps : List (List K × List K)) (n m : Nat) (h : ∀ p ∈ ps, p.1.length = n ∧ p.2.length = m) :
    ps.foldr (fun p acc => List.zipWith (· + ·) (p.1 ++ p.2) acc) (List.replicate (n + m) 0)
      = ((ps.map (·.1)).foldr (fun u acc => List.zipWith (· + ·) u acc) (List.replicate n 0))
        ++ ((ps.map (·.2)).foldr (fun u acc => List.zipWith (· + ·) u acc) (List.replicate m 0)) := by
  have hl : ∀ qs : List (List K), ∀ k, (∀ q ∈ qs, q.length = k) →
      (qs.foldr (fun u acc => List.zipWith (· + ·) u acc) (List.replicate k (0 : K))).length = k := by
    intro qs k
    induction qs with
    | nil => simp
    | cons q qs ih => intro hq; simp [ih (fun v hv => hq v (by simp [hv])), hq q (by simp)]
  induction ps with
  | nil => simp
  | cons p ps ih =>
    have hp := h p (by simp)
    simp only [List.foldr_cons, List.map_cons, ih (fun q hq => h q (by simp [hq]))]
    rw [List.zipWith_append]
    rw [hl _ n, hp.1]
    intro q hq
    rw [List.mem_map] at hq
    obtain ⟨q', h1, rfl⟩ := hq
    exact (h q' (by simp [h1])).1

/-- **C57** (partial: one time level).  For vectors with one field and one scalar component of the same sizes on all
batches the output is the entrywise sum over all batches. -/
theorem C57_partial (ins : List (OptVec K)) (out : OptVec K) (n m : Nat)
    (hin : ∀ x ∈ ins, ∃ u v, x.field = [some u] ∧ x.scalar = [some v] ∧ u.length = n ∧ v.length = m)
    (hout : ∃ u v, out.field = [some u] ∧ out.scalar = [some v] ∧ u.length = n ∧ v.length = m) :
    ∃ r, sumAll ins out = some r ∧ r.entries = total (n + m) ins := by
  have hps : ∃ ps : List (List K × List K), ins.map (·.field) = ps.map (fun p => [some p.1]) ∧
      ins.map (·.scalar) = ps.map (fun p => [some p.2]) ∧ (∀ p ∈ ps, p.1.length = n ∧ p.2.length = m) ∧
      ins.map (·.entries) = ps.map (fun p => p.1 ++ p.2) := by
    clear hout
    induction ins with
    | nil => exact ⟨[], rfl, rfl, by simp, rfl⟩
    | cons x xs ih =>
      obtain ⟨ps, p1, p2, p3, p4⟩ := ih (fun y hy => hin y (by simp [hy]))
      obtain ⟨u, v, h1, h2, h3, h4⟩ := hin x (by simp)
      refine ⟨(u, v) :: ps, by simp [h1, p1], by simp [h2, p2], ?_, ?_⟩
      swap
      · rw [List.map_cons, List.map_cons, p4]; simp [OptVec.entries, h1, h2, flat]
      intro p hp
      rcases List.mem_cons.1 hp with rfl | hp
      · exact ⟨h3, h4⟩
      · exact p3 p hp
  obtain ⟨ps, p1, p2, p3, p4⟩ := hps
  obtain ⟨u, v, h1, h2, h3, h4⟩ := hout
  obtain ⟨r, r1, r2, r3⟩ := sumComp_spec n (ps.map (·.1)) (by
    intro w hw; rw [List.mem_map] at hw; obtain ⟨p, hp, rfl⟩ := hw; exact (p3 p hp).1)
  obtain ⟨t, t1, t2, t3⟩ := sumComp_spec m (ps.map (·.2)) (by
    intro w hw; rw [List.mem_map] at hw; obtain ⟨p, hp, rfl⟩ := hw; exact (p3 p hp).2)
  refine ⟨{ out with field := [some r], scalar := [some t] }, ?_, ?_⟩
  · have e1 : sumFirst (ins.map (·.field)) out.field = some [some r] := by
      rw [p1, h1]
      simp only [sumFirst, h3, List.map_map]
      have : (List.map ((fun c : Comps K => (c[0]?).join) ∘ fun p : List K × List K => [some p.1]) ps)
          = (ps.map (·.1)).map some := by simp
      rw [this, r1]; rfl
    have e2 : sumFirst (ins.map (·.scalar)) out.scalar = some [some t] := by
      rw [p2, h2]
      simp only [sumFirst, h4, List.map_map]
      have : (List.map ((fun c : Comps K => (c[0]?).join) ∘ fun p : List K × List K => [some p.2]) ps)
          = (ps.map (·.2)).map some := by simp
      rw [this, t1]; rfl
    simp [sumAll, e1, e2]
  · have e : total (n + m) ins
        = ps.foldr (fun p acc => List.zipWith (· + ·) (p.1 ++ p.2) acc) (List.replicate (n + m) 0) := by
      have : total (n + m) ins = (ins.map (·.entries)).foldr (fun u acc => List.zipWith (· + ·) u acc)
          (List.replicate (n + m) 0) := by simp [total, List.foldr_map]
      rw [this, p4, List.foldr_map]
    rw [e, fold_append ps n m p3, ← r3, ← t3]
    simp [OptVec.entries, flat]

/-- **C57, violated.**  Later time levels are not summed: whatever the inputs, component 1 and those after it keep what
the output held before. -/
theorem C57_violated (ins : List (OptVec K)) (out r : OptVec K) (h : sumAll ins out = some r) :
    r.field.tail = out.field.tail ∧ r.scalar.tail = out.scalar.tail := by
  have key : ∀ (is : List (Comps K)) (c d : Comps K), sumFirst is c = some d → d.tail = c.tail := by
    intro is c d hd
    match c with
    | [] => simp [sumFirst] at hd; rw [← hd]
    | none :: cs => simp [sumFirst] at hd
    | some u :: cs =>
      simp only [sumFirst, Option.bind_eq_bind] at hd
      rw [Option.bind_eq_some_iff] at hd
      obtain ⟨w, _, hw⟩ := hd
      simp only [Option.pure_def, Option.some.injEq] at hw
      rw [← hw]; rfl
  unfold sumAll at h
  simp only [Option.bind_eq_bind] at h
  rw [Option.bind_eq_some_iff] at h
  obtain ⟨a, ha, h⟩ := h
  rw [Option.bind_eq_some_iff] at h
  obtain ⟨b, hb, h⟩ := h
  simp only [Option.pure_def, Option.some.injEq] at h
  rw [← h]
  exact ⟨key _ _ _ ha, key _ _ _ hb⟩

/-- One level on two batches is summed; of two levels only the first. -/
example :
    sumAll [(⟨[some [1, 2]], [some [3]], false, 1, none, false⟩ : OptVec ℚ), ⟨[some [10, 20]], [some [30]], false, 1, none, false⟩]
      ⟨[some [0, 0]], [some [0]], false, 1, none, false⟩ = some ⟨[some [11, 22]], [some [33]], false, 1, none, false⟩ ∧
    sumAll [(⟨[], [some [3], some [4]], false, 1, none, false⟩ : OptVec ℚ), ⟨[], [some [30], some [40]], false, 1, none, false⟩]
      ⟨[], [some [0], some [0]], false, 1, none, false⟩ = some ⟨[], [some [33], some [0]], false, 1, none, false⟩ := by
  constructor <;> decide +kernel

end MrHyDE.Opt
