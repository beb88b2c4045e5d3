import Mathlib.Tactic.Linarith
import Mathlib.Algebra.Order.Ring.Rat
import Mathlib.Algebra.Order.Group.Unbundled.Abs
import Verif.Opt.Lemmas
import Verif.Param.Lemmas
import Verif.Param.Props

/-!
# Bounds of an optimisation

The elementwise operations of `MrHyDE_OptVector` (src/optimization/MrHyDE_OptVector.hpp:1248-1329), the bounds read
by `setupParameters` (src/managers/parameter/parameterManager_setup.hpp), `getActiveParamBounds` and
`getDiscretizedParamBounds` (parameterManager_access.hpp) and their use in `ROLSolve` and `ROL2Solve`
(src/managers/analysis/analysisManager_solve.hpp:401-418, 625-640).

The projection onto the bounds is the optimisation library's (`ROL::Bounds::project`: elementwise minimum with the
upper vector, then elementwise maximum with the lower vector).  One process is followed.  `none` is undefined behaviour
or an exception.
-/

set_option linter.unusedSectionVars false

namespace MrHyDE.Opt

variable {K : Type}

/-! ### Elementwise operations -/

/-- `applyUnary`, MrHyDE_OptVector.hpp:1248-1259. -/
def OptVec.applyUnary (f : K → K) (x : OptVec K) : OptVec K :=
  { x with field := mapC f x.field, scalar := mapC f x.scalar }

/-- `applyBinary`, MrHyDE_OptVector.hpp:1264-1280: the loops are those of `set`; the numbers become `f own argument`. -/
def OptVec.applyBinary (f : K → K → K) (x y : OptVec K) : Option (OptVec K) := do
  let a ← upd f x.field y.field
  let b ← upd f x.scalar y.scalar
  return { x with field := a, scalar := b }

/-- A reduction of the library: the value to start from and `reduce(input, output)`, here the new output.
[used at MrHyDE_OptVector.hpp:1298-1311] -/
structure Reduction (K : Type) where
  init : K
  op : K → K → K

/-- `reduce` of one component (library): the entries in turn. [called at MrHyDE_OptVector.hpp:1302, 1307] -/
def Reduction.comp (r : Reduction K) (u : List K) : K := u.foldl (fun out v => r.op v out) r.init

/-- One of the two loops of `reduce`, MrHyDE_OptVector.hpp:1300-1304, 1305-1309. -/
def Reduction.loop (r : Reduction K) : K → Comps K → K
  | out, [] => out
  | out, none :: cs => Reduction.loop r out cs
  | out, some u :: cs => Reduction.loop r (r.op (r.comp u) out) cs

/-- `reduce`, MrHyDE_OptVector.hpp:1298-1311. -/
def OptVec.reduce (r : Reduction K) (x : OptVec K) : K := r.loop (r.loop r.init x.field) x.scalar

/-- One of the two loops of `dimension`, MrHyDE_OptVector.hpp:1318-1322, 1323-1327. -/
def dimLoop : Nat → Comps K → Nat
  | n, [] => n
  | n, none :: cs => dimLoop n cs
  | n, some u :: cs => dimLoop (n + u.length) cs

/-- `dimension`, MrHyDE_OptVector.hpp:1316-1329. -/
def OptVec.dimension (x : OptVec K) : Nat := dimLoop (dimLoop 0 x.field) x.scalar

/-! ### Reading the bounds -/

/-- A sublist of "Parameters" with its setting "bounds": not given; a file that cannot be opened; the lines of the
file, each the list of numbers it begins with.  Lines longer than 99 characters are not considered.
[parameterManager_setup.hpp:70-77] -/
structure BEntry (K : Type) extends Param.Entry K where
  file : Option (Option (List (List K))) := none

/-- The variables `a`, `b` after `sscanf(line, "%f %f", &a, &b)`, parameterManager_setup.hpp:73, 79: what the line does
not give keeps its value (at first indeterminate).  `rnd` is the rounding to single precision. -/
def scanLine (rnd : K → K) (l : List K) (ab : Option K × Option K) : Option K × Option K :=
  match l with
  | [] => ab
  | [u] => (some (rnd u), ab.2)
  | u :: v :: _ => (some (rnd u), some (rnd v))

/-- The loop over the lines, parameterManager_setup.hpp:75-84.  The last pass without text only counts. -/
def readLines (rnd : K → K) : List (List K) → Nat → Option K × Option K → List K × List K → Option (List K × List K)
  | [], _, _, b => some b
  | l :: ls, i, ab, (lo, up) =>
    match scanLine rnd l ab with
    | (some a, some b) =>
      if i < lo.length ∧ i < up.length then readLines rnd ls (i + 1) (some a, some b) (lo.set i a, up.set i b)
      else none
    | _ => none

/-- Bounds of one parameter, parameterManager_setup.hpp:52-54, 56-86, 150-151. -/
def entryBounds [Zero K] (rnd : K → K) (e : BEntry K) : Option (List K × List K) :=
  let blank := List.replicate e.vals.length 0
  if e.usage = "active" then
    match e.file with
    | none => some (blank, blank)
    | some none => none
    | some (some ls) => readLines rnd ls 0 (none, none) (blank, blank)
  else some (blank, blank)

/-- `getActiveParamBounds` for one of the two vectors, parameterManager_access.hpp:298-318: the bounds of the
parameters of type 1 in turn, in a vector of `num_active_params` zeros.  Simplified: the components of a parameter are
counted by its bounds, which have as many (parameterManager_setup.hpp:53-54). -/
def activeBounds [Zero K] (types : List Int) (nact : Nat) (bs : List (List K)) : Option (List K) :=
  match Param.getRow 1 types bs with
  | none => none
  | some r => if r.length ≤ nact then some (r ++ List.replicate (nact - r.length) 0) else none

/-- A discretized parameter: its unknowns (`paramNodesOS`, with repetitions) and its bounds with their defaults,
parameterManager_setup.hpp:143-144, 413-442. -/
structure DiscBound (K : Type) where
  nodes : List Nat
  lower : K
  upper : K

/-- `getDiscretizedParamBounds` for one of the two vectors, parameterManager_access.hpp:324-387, on one process;
`N` is `globalParamUnknowns`.  Without unknowns the pointer is null. -/
def discBounds [Zero K] (get : DiscBound K → K) (N : Nat) (ds : List (DiscBound K)) : Option (List K) :=
  if N > 0 then
    some (ds.foldl (fun v d => d.nodes.foldl (fun v g => v.set g (get d)) v) (List.replicate N 0))
  else none

/-- The constructor from one field and one scalar vector, MrHyDE_OptVector.hpp:286-321.  The library's wrapper
dereferences the pointer to the field. -/
def ofPair [One K] (f : Option (List K)) (s : List K) : Option (OptVec K) :=
  match f with
  | none => none
  | some v => some { field := [some v], scalar := [some s], isDual := false, dscale := 1, diag := none, haveMass := false }

/-- The vectors `lo` and `up` of `ROLSolve` and `ROL2Solve` with "Bound Optimization Variables",
analysisManager_solve.hpp:405-413, 629-636. -/
def limits [Zero K] [One K] (rnd : K → K) (es : List (BEntry K)) (N : Nat) (ds : List (DiscBound K)) :
    Option (OptVec K × OptVec K) := do
  let bs ← es.mapM (entryBounds rnd)
  let types := es.filterMap (fun e => Param.usageCode e.usage)
  let nact := Param.numActive (es.map BEntry.toEntry)
  let sl ← activeBounds types nact (bs.map Prod.fst)
  let su ← activeBounds types nact (bs.map Prod.snd)
  let lo ← ofPair (discBounds DiscBound.lower N ds) sl
  let up ← ofPair (discBounds DiscBound.upper N ds) su
  return (lo, up)

/-- Projection onto the bounds: the library's, with the operations of the vector.
[constraint built at analysisManager_solve.hpp:415, 639] -/
def project [LinearOrder K] (lo up x : OptVec K) : Option (OptVec K) := do
  let y ← x.applyBinary min up
  y.applyBinary max lo

/-! ### Specification -/

/-- The vector of an optimisation with one level of unknowns of discretized parameters `f` and active parameters `s`,
as `getCurrentVector` or a copy of it has it. [specification, no code] -/
def Holds (x : OptVec K) (f s : List K) : Prop :=
  x.field = [some f] ∧ (x.scalar = [some s] ∨ s = [] ∧ (x.scalar = [] ∨ x.scalar = [none]))

/-- The numbers `ps` are what the file of bounds of a parameter says: one line with both bounds for each component.
[specification, no code] -/
def FileSays (e : BEntry K) (ps : List (K × K)) : Prop :=
  ps.length = e.vals.length ∧ e.file = some (some (ps.map fun p => [p.1, p.2]))

/-! ### Lemmas -/

theorem loop_eq (r : Reduction K) (P : K → Prop) (h0 : P r.init) (hop : ∀ a b, P a → P b → P (r.op a b))
    (hassoc : ∀ a b c, P a → P b → P c → r.op (r.op a b) c = r.op a (r.op b c)) (hid : ∀ a, P a → r.op r.init a = a) :
    ∀ (c : Comps K) (out : K), P out → (∀ v ∈ flat c, P v) →
      r.loop out c = (flat c).foldl (fun o v => r.op v o) out ∧ P (r.loop out c) := by
  have hcomp : ∀ (u : List K), (∀ v ∈ u, P v) → ∀ a b : K, P a → P b →
      P (u.foldl (fun o v => r.op v o) a) ∧
      r.op (u.foldl (fun o v => r.op v o) a) b = u.foldl (fun o v => r.op v o) (r.op a b) := by
    intro u
    induction u with
    | nil => intro _ a b ha _; exact ⟨ha, rfl⟩
    | cons v u ih =>
      intro hu a b ha hb
      have hv := hu v (by simp)
      have := ih (fun w hw => hu w (by simp [hw])) (r.op v a) b (hop _ _ hv ha) hb
      simp only [List.foldl_cons]
      refine ⟨this.1, ?_⟩
      rw [this.2, hassoc _ _ _ hv ha hb]
  intro c
  induction c with
  | nil => intro out ho _; exact ⟨rfl, ho⟩
  | cons o c ih =>
    intro out ho hc
    cases o with
    | none => exact ih out ho (by simpa [flat] using hc)
    | some u =>
      have hu : ∀ v ∈ u, P v := fun v hv => hc v (by simp [flat, hv])
      obtain ⟨k1, k2⟩ := hcomp u hu r.init out h0 ho
      have h1 : r.op (r.comp u) out = u.foldl (fun o v => r.op v o) out := by
        unfold Reduction.comp
        rw [k2, hid _ ho]
      have hp : P (u.foldl (fun o v => r.op v o) out) := by
        rw [← h1]; exact hop _ _ k1 ho
      have := ih (u.foldl (fun o v => r.op v o) out) hp (fun v hv => hc v (by simp [flat, hv]))
      simp only [Reduction.loop, h1, flat, List.foldl_append]
      exact this

theorem dimLoop_eq (c : Comps K) (n : Nat) : dimLoop n c = n + (flat c).length := by
  induction c generalizing n with
  | nil => simp [dimLoop, flat]
  | cons o c ih =>
    cases o with
    | none => simpa [dimLoop, flat] using ih n
    | some u => simp only [dimLoop, ih, flat, List.length_append]; omega

/-- Applying an operation to a vector of one level. -/
theorem binary_holds (f : K → K → K) (x b : OptVec K) (xf xs bf bs : List K) (hx : Holds x xf xs)
    (hb1 : b.field = [some bf]) (hb2 : b.scalar = [some bs]) (h1 : xf.length = bf.length) (h2 : xs.length = bs.length) :
    ∃ r, x.applyBinary f b = some r ∧ Holds r (List.zipWith f xf bf) (List.zipWith f xs bs) := by
  obtain ⟨e1, e2⟩ := hx
  rcases e2 with e2 | ⟨rfl, e2 | e2⟩
  · refine ⟨{ x with field := [some (List.zipWith f xf bf)], scalar := [some (List.zipWith f xs bs)] }, ?_, rfl, .inl rfl⟩
    simp [OptVec.applyBinary, e1, e2, hb1, hb2, upd, zip2, h1, h2]
  · refine ⟨{ x with field := [some (List.zipWith f xf bf)], scalar := [] }, ?_, rfl, .inr ⟨by simp, .inl rfl⟩⟩
    simp [OptVec.applyBinary, e1, e2, hb1, hb2, upd, zip2, h1]
  · refine ⟨{ x with field := [some (List.zipWith f xf bf)], scalar := [none] }, ?_, rfl, .inr ⟨by simp, .inr rfl⟩⟩
    simp [OptVec.applyBinary, e1, e2, hb1, hb2, upd, zip2, h1]

theorem readLines_eq (rnd : K → K) : ∀ (ps : List (K × K)) (i : Nat) (ab : Option K × Option K) (lo up : List K),
    i + ps.length ≤ lo.length → up.length = lo.length →
    readLines rnd (ps.map fun p => [p.1, p.2]) i ab (lo, up) =
      some (lo.take i ++ ps.map (fun p => rnd p.1) ++ lo.drop (i + ps.length),
            up.take i ++ ps.map (fun p => rnd p.2) ++ up.drop (i + ps.length))
  | [], i, ab, lo, up, _, _ => by simp [readLines]
  | p :: ps, i, ab, lo, up, h, hl => by
    have hi : i < lo.length := by simp only [List.length_cons] at h; omega
    have hi' : i < up.length := by omega
    simp only [List.map_cons, readLines, scanLine, hi, hi', and_self, if_true]
    rw [readLines_eq rnd ps (i + 1) _ _ _ (by simp only [List.length_set, List.length_cons] at *; omega)
      (by simp [hl])]
    have key : ∀ (l : List K) (a : K), i < l.length → (l.set i a).take (i + 1) = l.take i ++ [a] := by
      intro l a hl
      rw [List.take_succ_eq_append_getElem (by simpa using hl)]
      simp [List.take_set_of_le]
    have key2 : ∀ (l : List K) (a : K), (l.set i a).drop (i + 1 + ps.length) = l.drop (i + (ps.length + 1)) := by
      intro l a
      rw [List.drop_set_of_lt (by omega)]
      congr 1; omega
    rw [key _ _ hi, key _ _ hi', key2, key2]
    simp

theorem fold_nodes (a : K) : ∀ (ns : List Nat) (v : List K) (g : Nat),
    (ns.foldl (fun v g => v.set g a) v).length = v.length ∧
    ((ns.foldl (fun v g => v.set g a) v)[g]? = if g ∈ ns ∧ g < v.length then some a else v[g]?)
  | [], v, g => by simp
  | n :: ns, v, g => by
    obtain ⟨h1, h2⟩ := fold_nodes a ns (v.set n a) g
    simp only [List.foldl_cons]
    refine ⟨by rw [h1, List.length_set], ?_⟩
    rw [h2, List.length_set, List.getElem?_set]
    by_cases hg : g ∈ ns
    · by_cases hl : g < v.length
      · simp [hg, hl]
      · by_cases hn : n = g <;> simp [hl, hn]
    · by_cases hn : n = g
      · subst hn
        by_cases hl : n < v.length
        · simp [hl]
        · simp [hl]
      · simp [hg, hn, Ne.symm hn]

theorem fold_disc (get : DiscBound K → K) : ∀ (ds : List (DiscBound K)) (v : List K) (g : Nat),
    (ds.foldl (fun v d => d.nodes.foldl (fun v g => v.set g (get d)) v) v).length = v.length ∧
    ((∀ d ∈ ds, g ∉ d.nodes) →
      (ds.foldl (fun v d => d.nodes.foldl (fun v g => v.set g (get d)) v) v)[g]? = v[g]?) ∧
    (g < v.length → ∀ d ∈ ds, g ∈ d.nodes → (∀ d' ∈ ds, g ∈ d'.nodes → get d' = get d) →
      (ds.foldl (fun v d => d.nodes.foldl (fun v g => v.set g (get d)) v) v)[g]? = some (get d))
  | [], v, g => by simp
  | d :: ds, v, g => by
    obtain ⟨n1, n2⟩ := fold_nodes (get d) d.nodes v g
    obtain ⟨h1, h2, h3⟩ := fold_disc get ds (d.nodes.foldl (fun v g => v.set g (get d)) v) g
    simp only [List.foldl_cons]
    refine ⟨h1.trans n1, ?_, ?_⟩
    · intro hd
      rw [h2 (fun d' hd' => hd d' (by simp [hd'])), n2]
      simp [hd d (by simp)]
    · intro hg e he hge hall
      by_cases hex : ∃ e' ∈ ds, g ∈ e'.nodes
      · obtain ⟨e', he', hge'⟩ := hex
        have := h3 (by rw [n1]; exact hg) e' he' hge' (fun d' hd' hg' => by
          rw [hall d' (by simp [hd']) hg', hall e' (by simp [he']) hge'])
        rw [this, hall e' (by simp [he']) hge']
      · push Not at hex
        rw [h2 hex, n2]
        have hed : e = d := by
          rcases List.mem_cons.mp he with h | h
          · exact h
          · exact absurd hge (hex e h)
        subst hed
        simp [hge, hg]

theorem zipWith_get (f : K → K → K) (a b : List K) (i : Nat) (x y : K) (hx : a[i]? = some x) (hy : b[i]? = some y) :
    (List.zipWith f a b)[i]? = some (f x y) := by
  simp [List.getElem?_zipWith, hx, hy]

theorem getRow_active : ∀ (es : List (BEntry K)) (col : BEntry K → List K),
    (∀ e ∈ es, e.usage ∈ Param.knownUsages) →
    Param.getRow 1 (es.filterMap (fun e => Param.usageCode e.usage)) (es.map col) =
      some ((es.filter (fun e => e.usage == "active")).flatMap col)
  | [], _, _ => by simp [Param.getRow]
  | e :: es, col, h => by
    have ih := getRow_active es col (fun e' he' => h e' (by simp [he']))
    have he := h e (by simp)
    simp only [Param.knownUsages, List.mem_cons, List.not_mem_nil, or_false] at he
    have key : ∃ t : Int, Param.usageCode e.usage = some t ∧ (t = 1 ↔ e.usage = "active") := by
      rcases he with he | he | he | he | he
      · exact ⟨0, by rw [he]; rfl, by rw [he]; decide⟩
      · exact ⟨1, by rw [he]; rfl, by rw [he]; decide⟩
      · exact ⟨2, by rw [he]; rfl, by rw [he]; decide⟩
      · exact ⟨3, by rw [he]; rfl, by rw [he]; decide⟩
      · exact ⟨4, by rw [he]; rfl, by rw [he]; decide⟩
    obtain ⟨t, k1, k2⟩ := key
    simp only [List.filterMap_cons, k1, List.map_cons, Param.getRow, ih, k2, List.filter_cons, beq_iff_eq]
    by_cases ha : e.usage = "active" <;> simp [ha]

theorem mapM_map {A B : Type} (f : A → Option B) (g : A → B) : ∀ l : List A, (∀ a ∈ l, f a = some (g a)) →
    l.mapM f = some (l.map g)
  | [], _ => rfl
  | a :: l, h => by
    simp [List.mapM_cons, h a (by simp), mapM_map f g l (fun b hb => h b (by simp [hb]))]

theorem numActive_eq (es : List (BEntry K)) (col : BEntry K → List K)
    (h : ∀ e ∈ es, e.usage = "active" → (col e).length = e.vals.length) :
    ((es.filter (fun e => e.usage == "active")).flatMap col).length = Param.numActive (es.map BEntry.toEntry) := by
  induction es with
  | nil => simp [Param.numActive]
  | cons e es ih =>
    have ih := ih (fun e' he' => h e' (by simp [he']))
    simp only [Param.numActive, List.map_cons] at ih ⊢
    by_cases he : e.usage = "active"
    · simp [he, ih, h e (by simp) he]
    · simp only [List.filter_cons, he, beq_iff_eq, if_false]
      exact ih

section
variable [Zero K] [One K]

/-- The bounds of the run from the bounds of its parameters. -/
theorem limits_eq (rnd : K → K) (es : List (BEntry K)) (hes : ∀ e ∈ es, e.usage ∈ Param.knownUsages)
    (bnd : BEntry K → List (K × K))
    (hb : ∀ e ∈ es, (bnd e).length = e.vals.length ∧
      entryBounds rnd e = some ((bnd e).map Prod.fst, (bnd e).map Prod.snd))
    (N : Nat) (hN : 0 < N) (ds : List (DiscBound K)) :
    ∃ lo up L U, limits rnd es N ds = some (lo, up) ∧
      discBounds DiscBound.lower N ds = some L ∧ discBounds DiscBound.upper N ds = some U ∧
      lo.field = [some L] ∧ up.field = [some U] ∧
      lo.scalar = [some ((es.filter (fun e => e.usage == "active")).flatMap fun e => (bnd e).map Prod.fst)] ∧
      up.scalar = [some ((es.filter (fun e => e.usage == "active")).flatMap fun e => (bnd e).map Prod.snd)] := by
  obtain ⟨L, hL⟩ : ∃ L, discBounds DiscBound.lower N ds = some L := by simp [discBounds, hN]
  obtain ⟨U, hU⟩ : ∃ U, discBounds DiscBound.upper N ds = some U := by simp [discBounds, hN]
  have hm := mapM_map (entryBounds rnd) (fun e => ((bnd e).map Prod.fst, (bnd e).map Prod.snd)) es
    (fun e he => (hb e he).2)
  have act : ∀ col : BEntry K → List K, (∀ e ∈ es, (col e).length = e.vals.length) →
      activeBounds (es.filterMap (fun e => Param.usageCode e.usage)) (Param.numActive (es.map BEntry.toEntry))
        (es.map col) = some ((es.filter (fun e => e.usage == "active")).flatMap col) := by
    intro col hcol
    have hn := numActive_eq es col (fun e he _ => hcol e he)
    simp only [activeBounds, getRow_active es col hes, hn, le_refl, if_true, Nat.sub_self, List.replicate_zero,
      List.append_nil]
  have a1 := act (fun e => (bnd e).map Prod.fst) (fun e he => by simpa using (hb e he).1)
  have a2 := act (fun e => (bnd e).map Prod.snd) (fun e he => by simpa using (hb e he).1)
  refine ⟨{ field := [some L], scalar := [some ((es.filter (fun e => e.usage == "active")).flatMap fun e => (bnd e).map Prod.fst)],
            isDual := false, dscale := 1, diag := none, haveMass := false },
          { field := [some U], scalar := [some ((es.filter (fun e => e.usage == "active")).flatMap fun e => (bnd e).map Prod.snd)],
            isDual := false, dscale := 1, diag := none, haveMass := false }, L, U, ?_, hL, hU, ?_⟩
  · simp only [limits, hm, Option.bind_eq_bind, Option.bind_some, List.map_map, Function.comp_def, a1, a2, hL, hU,
      ofPair]
    rfl
  · exact ⟨rfl, rfl, rfl, rfl⟩

theorem entry_file (rnd : K → K) (e : BEntry K) (ha : e.usage = "active") (ps : List (K × K)) (h : FileSays e ps) :
    entryBounds rnd e = some (ps.map (fun p => rnd p.1), ps.map (fun p => rnd p.2)) := by
  obtain ⟨h1, h2⟩ := h
  simp only [entryBounds, ha, if_true, h2]
  rw [readLines_eq rnd ps 0 _ _ _ (by simp [h1]) (by simp)]
  simp [h1]

end

/-! ### Elementwise operations -/

/-- **C149, operations.**  `applyUnary` and `applyBinary` act on the list of all numbers entry by entry and keep the
components and the metric. -/
theorem C149_elementwise {x y : OptVec K} (h : Same x y) (f : K → K) (g : K → K → K) :
    (Same (x.applyUnary f) x ∧ SameMetric (x.applyUnary f) x ∧ (x.applyUnary f).entries = x.entries.map f) ∧
    ∃ r, x.applyBinary g y = some r ∧ Same r x ∧ SameMetric r x ∧
      r.entries = List.zipWith g x.entries y.entries := by
  refine ⟨⟨⟨(mapC_spec _ _).1, (mapC_spec _ _).1⟩, ⟨rfl, rfl, rfl, rfl⟩, ?_⟩, update_spec g h⟩
  simp only [OptVec.applyUnary, OptVec.entries, (mapC_spec _ _).2, List.map_append]

example : (OptVec.applyBinary (fun a b : ℚ => a - b) { field := [some [1, 2]], scalar := [some [3]], dscale := 1 }
    { field := [some [5, 5]], scalar := [some [1]], dscale := 1 }).map OptVec.entries = some [-4, -3, 2] := by
  decide +kernel

/-- **C149, reductions.**  A reduction with an associative operation gives the operation over all numbers of the
vector, fields first, started once, however the numbers are distributed over components; `P` is a range of numbers
for which the starting value is neutral (for the minimum: the numbers up to the library's infinity). -/
theorem C149_reduce (r : Reduction K) (P : K → Prop) (h0 : P r.init) (hop : ∀ a b, P a → P b → P (r.op a b))
    (hassoc : ∀ a b c, P a → P b → P c → r.op (r.op a b) c = r.op a (r.op b c)) (hid : ∀ a, P a → r.op r.init a = a)
    (x : OptVec K) (hx : ∀ v ∈ x.entries, P v) :
    x.reduce r = x.entries.foldl (fun out v => r.op v out) r.init := by
  have h1 := loop_eq r P h0 hop hassoc hid x.field r.init h0 (fun v hv => hx v (by simp [OptVec.entries, hv]))
  have h2 := loop_eq r P h0 hop hassoc hid x.scalar _ h1.2 (fun v hv => hx v (by simp [OptVec.entries, hv]))
  rw [OptVec.reduce, h2.1, h1.1, OptVec.entries, List.foldl_append]

/-- **C149, minimum.**  With the minimum the reduction decides whether every number is at least `m`. -/
theorem C149_minimum [LinearOrder K] (inf m : K) (hm : m ≤ inf) (x : OptVec K) :
    m ≤ x.reduce ⟨inf, min⟩ ↔ ∀ v ∈ x.entries, m ≤ v := by
  have hf : ∀ (u : List K) (a : K), m ≤ u.foldl (fun out v => min v out) a ↔ m ≤ a ∧ ∀ v ∈ u, m ≤ v := by
    intro u
    induction u with
    | nil => simp
    | cons v u ih =>
      intro a
      simp only [List.foldl_cons, ih, le_min_iff, List.mem_cons, forall_eq_or_imp]
      tauto
  have hl : ∀ (c : Comps K) (a : K), m ≤ (⟨inf, min⟩ : Reduction K).loop a c ↔ m ≤ a ∧ ∀ v ∈ flat c, m ≤ v := by
    intro c
    induction c with
    | nil => simp [Reduction.loop, flat]
    | cons o c ih =>
      intro a
      cases o with
      | none => simpa [Reduction.loop, flat] using ih a
      | some u =>
        simp only [Reduction.loop, ih, Reduction.comp, le_min_iff, hf, flat, List.mem_append]
        constructor
        · rintro ⟨⟨⟨_, h1⟩, h2⟩, h3⟩
          exact ⟨h2, fun v hv => hv.elim (h1 v) (h3 v)⟩
        · rintro ⟨h1, h2⟩
          exact ⟨⟨⟨hm, fun v hv => h2 v (.inl hv)⟩, h1⟩, fun v hv => h2 v (.inr hv)⟩
  rw [OptVec.reduce, hl, hl]
  simp only [OptVec.entries, List.mem_append]
  constructor
  · rintro ⟨⟨_, h1⟩, h2⟩ v hv
    exact hv.elim (h1 v) (h2 v)
  · intro h
    exact ⟨⟨hm, fun v hv => h v (.inl hv)⟩, fun v hv => h v (.inr hv)⟩

example : OptVec.reduce ⟨100, min⟩ ({ field := [some [4, 2], none], scalar := [some [3]], dscale := 1 } : OptVec ℚ) = 2 := by
  decide +kernel

/-- **C149, dimension.**  The dimension is the number of all numbers of the vector. -/
theorem C149_dimension (x : OptVec K) : x.dimension = x.entries.length := by
  simp [OptVec.dimension, dimLoop_eq, OptVec.entries]

/-! ### The box -/

section
variable [Zero K] [One K]

/-- **C149, partial: the box of a run.**  If there are discretized parameters, every usage is one of the known words
and every active parameter has a file with one line of two numbers for each of its components, then both bound vectors
exist, on one level: the bounds of the unknowns of a discretized parameter are its settings, the bounds of the active
parameters are the numbers of their files rounded to single precision, in the order of the input.  Missing: runs
without discretized parameters, parameters without a file, dynamic parameters, see the violations below. -/
theorem C149_box_partial (rnd : K → K) (es : List (BEntry K)) (hes : ∀ e ∈ es, e.usage ∈ Param.knownUsages)
    (said : BEntry K → List (K × K)) (hs : ∀ e ∈ es, e.usage = "active" → FileSays e (said e))
    (N : Nat) (hN : 0 < N) (ds : List (DiscBound K))
    (hds : ∀ d ∈ ds, ∀ d' ∈ ds, ∀ g, g ∈ d.nodes → g ∈ d'.nodes → d = d') :
    ∃ lo up L U, limits rnd es N ds = some (lo, up) ∧ L.length = N ∧ U.length = N ∧
      lo.field = [some L] ∧ up.field = [some U] ∧
      (∀ d ∈ ds, ∀ g ∈ d.nodes, g < N → L[g]? = some d.lower ∧ U[g]? = some d.upper) ∧
      lo.scalar = [some ((es.filter (fun e => e.usage == "active")).flatMap fun e => (said e).map fun p => rnd p.1)] ∧
      up.scalar = [some ((es.filter (fun e => e.usage == "active")).flatMap fun e => (said e).map fun p => rnd p.2)] := by
  let bnd : BEntry K → List (K × K) := fun e =>
    if e.usage = "active" then (said e).map (fun p => (rnd p.1, rnd p.2)) else List.replicate e.vals.length (0, 0)
  have hb : ∀ e ∈ es, (bnd e).length = e.vals.length ∧
      entryBounds rnd e = some ((bnd e).map Prod.fst, (bnd e).map Prod.snd) := by
    intro e he
    by_cases ha : e.usage = "active"
    · have := entry_file rnd e ha _ (hs e he ha)
      simp only [bnd, ha, if_true, List.length_map, List.map_map, Function.comp_def]
      exact ⟨(hs e he ha).1, this⟩
    · simp [bnd, ha, entryBounds]
  obtain ⟨lo, up, L, U, h1, h2, h3, h4, h5, h6, h7⟩ := limits_eq rnd es hes bnd hb N hN ds
  have disc : ∀ (get : DiscBound K → K) (V : List K), discBounds get N ds = some V → V.length = N ∧
      ∀ d ∈ ds, ∀ g ∈ d.nodes, g < N → V[g]? = some (get d) := by
    intro get V hV
    simp only [discBounds, hN, if_true, Option.some.injEq] at hV
    subst hV
    refine ⟨by simpa using (fold_disc get ds (List.replicate N 0) 0).1, ?_⟩
    intro d hd g hg hgN
    exact (fold_disc get ds (List.replicate N 0) g).2.2 (by simpa using hgN) d hd hg
      (fun d' hd' hg' => by rw [hds d' hd' d hd g hg' hg])
  have fm : ∀ (q : K × K → K), ((es.filter (fun e => e.usage == "active")).flatMap fun e => (bnd e).map q) =
      (es.filter (fun e => e.usage == "active")).flatMap fun e => (said e).map fun p => q (rnd p.1, rnd p.2) := by
    intro q
    apply List.flatMap_congr
    intro e he
    have : e.usage = "active" := by simpa using (List.mem_filter.mp he).2
    simp [bnd, this]
  rw [fm] at h6 h7
  exact ⟨lo, up, L, U, h1, (disc _ _ h2).1, (disc _ _ h3).1, h4, h5,
    fun d hd g hg hgN => ⟨(disc _ _ h2).2 d hd g hg hgN, (disc _ _ h3).2 d hd g hg hgN⟩, h6, h7⟩

example : limits (K := ℚ) id [{ usage := "inactive", vals := [7], dynamic := false },
      { usage := "active", vals := [1, 1], dynamic := false, file := some (some [[0, 2], [-3, 3]]) },
      { usage := "discretized", vals := [], dynamic := false }] 3 [{ nodes := [0, 1, 1, 2], lower := -1, upper := 4 }] =
    some ({ field := [some [-1, -1, -1]], scalar := [some [0, -3]], dscale := 1 },
          { field := [some [4, 4, 4]], scalar := [some [2, 3]], dscale := 1 }) := by
  simp [limits, entryBounds, readLines, scanLine, Param.usageCode, Param.numActive, activeBounds, Param.getRow,
    discBounds, ofPair, List.replicate_succ]

/-- C149 is false for runs without discretized parameters: the bound vectors cannot be built (a null pointer is
dereferenced), whatever the bounds of the active parameters are. -/
theorem C149_scalars_violated (rnd : K → K) (es : List (BEntry K)) (ds : List (DiscBound K)) :
    limits rnd es 0 ds = none := by
  unfold limits
  cases es.mapM (entryBounds rnd) with
  | none => rfl
  | some bs =>
    simp only [Option.bind_eq_bind, Option.bind_some, discBounds, lt_irrefl, if_false, ofPair, Option.bind_none]
    cases activeBounds (es.filterMap fun e => Param.usageCode e.usage) (Param.numActive (es.map BEntry.toEntry))
        (bs.map Prod.fst) with
    | none => rfl
    | some a =>
      simp only [Option.bind_some]
      cases activeBounds (es.filterMap fun e => Param.usageCode e.usage) (Param.numActive (es.map BEntry.toEntry))
        (bs.map Prod.snd) <;> rfl

/-- C149 is false for a bounds file that does not exist, has a line more than the parameter has components, or begins
with a line without two numbers: undefined behaviour instead of an error message. -/
theorem C149_file_violated (rnd : K → K) (e : BEntry K) (ha : e.usage = "active") :
    (e.file = some none → entryBounds rnd e = none) ∧
    (∀ ps : List (K × K), e.vals.length < ps.length → e.file = some (some (ps.map fun p => [p.1, p.2])) →
      entryBounds rnd e = none) ∧
    (∀ l ls, l.length < 2 → e.file = some (some (l :: ls)) → entryBounds rnd e = none) := by
  refine ⟨?_, ?_, ?_⟩
  · intro h; simp [entryBounds, ha, h]
  · intro ps hps h
    simp only [entryBounds, ha, if_true, h]
    have : ∀ (ps : List (K × K)) (i : Nat) (ab : Option K × Option K) (lo up : List K), lo.length < i + ps.length →
        i ≤ lo.length → readLines rnd (ps.map fun p => [p.1, p.2]) i ab (lo, up) = none := by
      intro ps
      induction ps with
      | nil => intro i ab lo up h1 h2; simp only [List.length_nil] at h1; omega
      | cons p ps ih =>
        intro i ab lo up h1 h2
        simp only [List.map_cons, readLines, scanLine]
        split_ifs with hc
        · refine ih _ _ _ _ ?_ ?_
          · simp only [List.length_set, List.length_cons] at *; omega
          · simp only [List.length_set]; omega
        · rfl
    exact this ps 0 _ _ _ (by simpa using hps) (by simp)
  · intro l ls hl h
    simp only [entryBounds, ha, if_true, h]
    match l, hl with
    | [], _ => simp [readLines, scanLine]
    | [u], _ => simp [readLines, scanLine]

/-- C149 is false for a line without numbers in the middle of a file: the bounds of the line before it are repeated,
and all later bounds move on by one component. -/
theorem C149_blank_violated (rnd : K → K) (p : K × K) (ps : List (K × K)) (e : BEntry K) (ha : e.usage = "active")
    (hn : e.vals.length = ps.length + 2) (hf : e.file = some (some ([p.1, p.2] :: [] :: ps.map fun q => [q.1, q.2]))) :
    entryBounds rnd e = some (rnd p.1 :: rnd p.1 :: ps.map (fun q => rnd q.1),
                              rnd p.2 :: rnd p.2 :: ps.map (fun q => rnd q.2)) := by
  simp only [entryBounds, ha, if_true, hf, hn, readLines, scanLine, List.length_replicate, List.length_set]
  rw [if_pos (by omega), if_pos (by omega), readLines_eq rnd ps 2 _ _ _ (by simp; omega) (by simp)]
  simp [List.replicate_succ]
  omega

/-- C149 is false for a line with one number in the middle of a file: that number is the lower bound, and the upper
bound of the line before it is used again. -/
theorem C149_half_violated (rnd : K → K) (p : K × K) (u : K) (ps : List (K × K)) (e : BEntry K)
    (ha : e.usage = "active") (hn : e.vals.length = ps.length + 2)
    (hf : e.file = some (some ([p.1, p.2] :: [u] :: ps.map fun q => [q.1, q.2]))) :
    entryBounds rnd e = some (rnd p.1 :: rnd u :: ps.map (fun q => rnd q.1),
                              rnd p.2 :: rnd p.2 :: ps.map (fun q => rnd q.2)) := by
  simp only [entryBounds, ha, if_true, hf, hn, readLines, scanLine, List.length_replicate, List.length_set]
  rw [if_pos (by omega), if_pos (by omega), readLines_eq rnd ps 2 _ _ _ (by simp; omega) (by simp)]
  simp [List.replicate_succ]
  omega

example : entryBounds (K := ℚ) id
    { usage := "active", vals := [5, 5], dynamic := false, file := some (some [[0, 1], [-2]]) } = some ([0, -2], [1, 1]) :=
  C149_half_violated id (0, 1) (-2) [] _ rfl rfl rfl

example : entryBounds (K := ℚ) id
    { usage := "active", vals := [5, 5, 5], dynamic := false, file := some (some [[0, 1], [], [2, 3]]) } = some ([0, 0, 2], [1, 1, 3]) :=
  C149_blank_violated id (0, 1) [(2, 3)] _ rfl rfl rfl

example : entryBounds (K := ℚ) id
    { usage := "active", vals := [5], dynamic := false, file := some (some [[0, 1], [2, 3]]) } = none :=
  (C149_file_violated id _ rfl).2.1 [(0, 1), (2, 3)] (by simp) rfl

/-- **C149, short files.**  Components without a line keep the bounds zero and zero. -/
theorem C149_short (rnd : K → K) (e : BEntry K) (ha : e.usage = "active") (ps : List (K × K))
    (hn : ps.length ≤ e.vals.length) (hf : e.file = some (some (ps.map fun q => [q.1, q.2]))) :
    entryBounds rnd e = some (ps.map (fun q => rnd q.1) ++ List.replicate (e.vals.length - ps.length) 0,
                              ps.map (fun q => rnd q.2) ++ List.replicate (e.vals.length - ps.length) 0) := by
  simp only [entryBounds, ha, if_true, hf]
  rw [readLines_eq rnd ps 0 _ _ _ (by simpa using hn) (by simp)]
  simp

end

/-! ### Projection -/

section
variable [Field K] [LinearOrder K] [IsStrictOrderedRing K]

/-- **C149, partial: projection.**  For a vector on one level that has as many numbers as the bounds, the projection
exists, is on one level, and is, for bounds that are not crossed, the nearest point of the box: every number is within
its bounds, numbers within their bounds are unchanged, and no number within the bounds is nearer. -/
theorem C149_project_partial (lo up x : OptVec K) (L U SL SU xf xs : List K) (hl : lo.field = [some L])
    (hu : up.field = [some U]) (hsl : lo.scalar = [some SL]) (hsu : up.scalar = [some SU]) (hx : Holds x xf xs)
    (h1 : xf.length = L.length) (h2 : xf.length = U.length) (h3 : xs.length = SL.length) (h4 : xs.length = SU.length) :
    ∃ r rf rs, project lo up x = some r ∧ Holds r rf rs ∧ rf.length = xf.length ∧ rs.length = xs.length ∧
      ∀ (i : Nat) (v l u : K),
        (xf[i]? = some v ∧ L[i]? = some l ∧ U[i]? = some u → l ≤ u →
          ∃ w, rf[i]? = some w ∧ l ≤ w ∧ w ≤ u ∧ (l ≤ v → v ≤ u → w = v) ∧
            ∀ y, l ≤ y → y ≤ u → |w - v| ≤ |y - v|) ∧
        (xs[i]? = some v ∧ SL[i]? = some l ∧ SU[i]? = some u → l ≤ u →
          ∃ w, rs[i]? = some w ∧ l ≤ w ∧ w ≤ u ∧ (l ≤ v → v ≤ u → w = v) ∧
            ∀ y, l ≤ y → y ≤ u → |w - v| ≤ |y - v|) := by
  obtain ⟨y, y1, y2⟩ := binary_holds min x up xf xs U SU hx hu hsu h2 h4
  obtain ⟨r, r1, r2⟩ := binary_holds max y lo _ _ L SL y2 hl hsl (by simp [← h2, h1]) (by simp [← h4, h3])
  refine ⟨r, _, _, by simp [project, y1, r1], r2, by simp [← h2, ← h1], by simp [← h4, ← h3], ?_⟩
  have near : ∀ v l u : K, l ≤ u → l ≤ max (min v u) l ∧ max (min v u) l ≤ u ∧ (l ≤ v → v ≤ u → max (min v u) l = v) ∧
      ∀ y, l ≤ y → y ≤ u → |max (min v u) l - v| ≤ |y - v| := by
    intro v l u hlu
    refine ⟨le_max_right _ _, max_le (min_le_right _ _) hlu, fun a b => by rw [min_eq_left b, max_eq_left a], ?_⟩
    intro y a b
    rcases le_total v u with hv | hv
    · rw [min_eq_left hv]
      rcases le_total l v with hl' | hl'
      · rw [max_eq_left hl']; simp
      · rw [max_eq_right hl', abs_of_nonneg (by linarith), abs_of_nonneg (by linarith)]; linarith
    · rw [min_eq_right hv, max_eq_left hlu, abs_of_nonpos (by linarith), abs_of_nonpos (by linarith)]; linarith
  intro i v l u
  constructor
  · rintro ⟨a, b, c⟩ hlu
    exact ⟨_, zipWith_get max _ _ i _ _ (zipWith_get min _ _ i _ _ a c) b, near v l u hlu⟩
  · rintro ⟨a, b, c⟩ hlu
    exact ⟨_, zipWith_get max _ _ i _ _ (zipWith_get min _ _ i _ _ a c) b, near v l u hlu⟩

example : (project (K := ℚ) { field := [some [-1, -1]], scalar := [some [0]], dscale := 1 }
      { field := [some [4, 4]], scalar := [some [2]], dscale := 1 }
      { field := [some [9, 1]], scalar := [some [-5]], dscale := 1 }).map OptVec.entries = some [4, 1, 0] := by
  decide +kernel

/-- C149 is false for active parameters without a bounds file: with "Bound Optimization Variables" they are not free,
the projection sets each of them to zero. -/
theorem C149_free_violated (rnd : K → K) (es : List (BEntry K)) (hes : ∀ e ∈ es, e.usage ∈ Param.knownUsages)
    (hf : ∀ e ∈ es, e.file = none) (N : Nat) (hN : 0 < N) (ds : List (DiscBound K)) (x : OptVec K) (xf xs : List K)
    (hx : Holds x xf xs) (h1 : xf.length = N) (h2 : xs.length = Param.numActive (es.map BEntry.toEntry)) :
    ∃ lo up r rf rs, limits rnd es N ds = some (lo, up) ∧ project lo up x = some r ∧ Holds r rf rs ∧
      rs = List.replicate xs.length 0 := by
  let bnd : BEntry K → List (K × K) := fun e => List.replicate e.vals.length (0, 0)
  obtain ⟨lo, up, L, U, e1, e2, e3, e4, e5, e6, e7⟩ := limits_eq rnd es hes bnd (fun e he => by
    simp [bnd, entryBounds, hf e he]) N hN ds
  have hz : ∀ q : K × K → K, q (0, 0) = 0 → ((es.filter (fun e => e.usage == "active")).flatMap fun e => (bnd e).map q) =
      List.replicate xs.length 0 := by
    intro q hq
    rw [List.eq_replicate_iff]
    refine ⟨?_, ?_⟩
    · rw [h2]; exact numActive_eq es (fun e => (bnd e).map q) (fun e _ _ => by simp [bnd])
    · intro b hb
      simp only [bnd, List.mem_flatMap, List.map_replicate, List.mem_replicate, hq] at hb
      obtain ⟨_, _, _, hb⟩ := hb
      exact hb
  rw [hz _ rfl] at e6 e7
  have len : ∀ (get : DiscBound K → K) (V : List K), discBounds get N ds = some V → xf.length = V.length := by
    intro get V hV
    simp only [discBounds, hN, if_true, Option.some.injEq] at hV
    subst hV
    rw [(fold_disc get ds (List.replicate N 0) 0).1, h1]; simp
  obtain ⟨y, y1, y2⟩ := binary_holds min x up xf xs U _ hx e5 e7 (len _ _ e3) (by simp)
  obtain ⟨r, r1, r2⟩ := binary_holds max y lo _ _ L _ y2 e4 e6 (by simp [← len _ _ e3, len _ _ e2]) (by simp)
  refine ⟨lo, up, r, _, _, e1, by simp [project, y1, r1], r2, ?_⟩
  clear hz e6 e7 y1 y2 r1 r2 hx h2
  induction xs with
  | nil => rfl
  | cons a xs ih => simp [List.replicate_succ, ih]

example : ∃ lo up r rf rs, limits (K := ℚ) id [{ usage := "active", vals := [5], dynamic := false }] 1
      [{ nodes := [0], lower := -1, upper := 1 }] = some (lo, up) ∧
    project lo up { field := [some [3]], scalar := [some [5]], dscale := 1 } = some r ∧ Holds r rf rs ∧ rs = [0] :=
  C149_free_violated id _ (by simp [Param.knownUsages]) (by simp) 1 (by omega) _ _ [3] [5] ⟨rfl, .inl rfl⟩ rfl
    (by simp [Param.numActive])

/-- C149 is false for dynamic parameters: the bounds have one level only, and projecting a vector with a second level
of unknowns or of active parameters reads past their end. -/
theorem C149_dynamic_violated (lo up x : OptVec K) (L SL : List K) (hl : up.field = [some L])
    (hs : up.scalar = [some SL]) (f f' : List K) (rest : Comps K)
    (h : x.field = some f :: some f' :: rest ∨ x.scalar = some f :: some f' :: rest) : project lo up x = none := by
  have hu : ∀ (V : List K), upd min (some f :: some f' :: rest) [some V] = none := by
    intro V
    simp only [upd, zip2]
    split_ifs <;> simp
  rcases h with h | h
  · simp [project, OptVec.applyBinary, h, hl, hu]
  · simp only [project, OptVec.applyBinary, h, hs, hu]
    cases upd min x.field up.field <;> simp

example : project (K := ℚ) { field := [some [-1]], scalar := [some []], dscale := 1 }
    { field := [some [4]], scalar := [some []], dscale := 1 }
    { field := [some [9], some [2]], scalar := [], dscale := 1 } = none :=
  C149_dynamic_violated _ _ _ [4] [] rfl rfl [9] [2] [] (.inl rfl)

end

end MrHyDE.Opt
