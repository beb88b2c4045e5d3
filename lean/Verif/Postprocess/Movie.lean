import Mathlib.Data.List.Basic

/-!
# Movie of an optimisation (C190)

With "create optimization movie" the discretized parameters are written to a file of their own after each forward solve
(`PostprocessManager::writeOptimizationSolution`, src/managers/postprocess/postprocessManager_exodus.hpp:730-865).
-/

namespace MrHyDE.Postprocess.Movie

variable {K : Type}

/-! ## Model -/

/-- `f` on every entry of a list, `none` if it fails for one: the loop over elements or unknowns of a kernel,
src/managers/assembly/assemblyManager_gather.hpp:224-232. -/
def mapO {α β : Type} (f : α → Option β) : List α → Option (List β)
  | [] => some []
  | a :: as => do
      let b ← f a
      let bs ← mapO f as
      some (b :: bs)

/-- An element of a group: `localElemID`, and `paramLIDs(elem, paramoffsets(n, dof))` for each parameter `n`;
assemblyManager_gather.hpp:208-213. -/
structure Elem where
  id : Nat
  lids : List (List Nat)

/-- A block: the number of elements `myElements.size()`, the nodes of each element in the mesh, the groups;
postprocessManager_exodus.hpp:764-774. -/
structure Block where
  count : Nat
  conn : Nat → List Nat
  groups : List (List Elem)

/-- `performGather` of type 4 for one group, with the values of parameter `n`; assemblyManager_gather.hpp:208-213, 223-232.  All
parameters are gathered.  `none`: an entry outside the vector. -/
def gather (vec : List K) (n : Nat) (g : List Elem) : Option (List (Nat × List K)) :=
  mapO (fun e => do
    let rs ← mapO (fun ls => mapO (fun l => vec[l]?) ls) e.lids
    let r ← rs[n]?
    some (e.id, r)) g

/-- What the loop over the groups stores for the elements, in order; postprocessManager_exodus.hpp:794-806, 815-824.  `none`: outside
the array of `count` elements. -/
def stored (vec : List K) (n : Nat) (b : Block) : Option (List (Nat × List K)) := do
  let ws ← mapO (gather vec n) b.groups
  if ws.flatten.all (fun w => w.1 < b.count) then some ws.flatten else none

/-- The last value stored at a place; postprocessManager_exodus.hpp:804, 823. -/
def last {α : Type} (ws : List (Nat × α)) (k : Nat) : Option α := ws.reverse.lookup k

/-- The fields of the mesh of the movie: per parameter at the nodes, and per parameter and block at the elements;
src/interfaces/mesh/meshInterface_construct.hpp:530-558. -/
structure Fields (K : Type) where
  nodal : Nat → Nat → K
  cell : Nat → Nat → Nat → K

/-- The nodal values handed to the mesh, postprocessManager_exodus.hpp:792-808 and
src/interfaces/mesh/meshInterface_exodus.hpp:207-211; elements without a group have zeros.  The mesh stores the values element by
element. -/
def nodalWrites [Zero K] (b : Block) (ws : List (Nat × List K)) : List (Nat × K) :=
  (List.range b.count).flatMap (fun k =>
    (b.conn k).zipIdx.map (fun x => (x.1, ((last ws k).bind (fun r => r[x.2]?)).getD 0)))

/-- The part of the loop for one parameter, postprocessManager_exodus.hpp:787-852.  `types` are the types of all bases of the first
block, `use` the basis of each parameter (src/managers/parameter/parameterManager_setup.hpp:246-261).  The test of line 828 looks at
`types[n]`.  `none`: an entry outside a vector or a view. -/
def setParam [Zero K] (types : List String) (use : List Nat) (vec : List K) (bi : Nat) (b : Block) (n : Nat) (st : Fields K) :
    Option (Fields K) := do
  let bnum ← use[n]?
  let t ← types[bnum]?
  if t = "HGRAD" then do
    let ws ← stored vec n b
    if ws.all (fun w => (b.conn w.1).length ≤ w.2.length) then
      some { st with nodal := fun m x => if m = n then (last (nodalWrites b ws) x).getD (st.nodal m x) else st.nodal m x }
    else none
  else if t = "HVOL" then do
    let ws ← stored vec n b
    if ws.all (fun w => w.2 ≠ []) then
      some { st with cell := fun m c k => if m = n ∧ c = bi ∧ k < b.count then ((last ws k).bind (fun r => r[0]?)).getD 0 else st.cell m c k }
    else none
  else if t = "HDIV" then some st
  else do
    let _ ← types[n]?
    some st

/-- `f` along a list, each time with the result so far; the loops of postprocessManager_exodus.hpp:764 and 787. -/
def loop {α σ : Type} (f : α → σ → Option σ) : List α → σ → Option σ
  | [], s => some s
  | a :: as, s => (f a s).bind (loop f as)

/-- `writeOptimizationSolution` up to the writing, postprocessManager_exodus.hpp:748-857: the vector read is the one of the unknowns a
process owns (line 749). -/
def frame [Zero K] (types : List String) (use : List Nat) (owned : List K) (blocks : List Block) (st : Fields K) : Option (Fields K) :=
  loop (fun (b : Block × Nat) s =>
    if 0 < b.1.count then loop (fun n => setParam types use owned b.2 b.1 n) (List.range use.length) s else some s) blocks.zipIdx st

/-- The vector of the current level, src/managers/parameter/parameterManager_access.hpp:83-93. -/
def level (dynamic : Bool) (timeIndex : Nat) (params : List (List K)) : Option (List K) := params[if dynamic then timeIndex else 0]?

/-- The frames of a program of forward solves, each given by the levels of the parameters and the last time index;
src/managers/solver/solverManager_models.hpp:53-59, postprocessManager_exodus.hpp:863-864. -/
def movie [Zero K] (types : List String) (use : List Nat) (dynamic : Bool) (blocks : List Block) :
    Nat → Fields K → List (Nat × List (List K)) → Option (List (Nat × Fields K))
  | _, _, [] => some []
  | num, st, e :: es => do
      let vec ← level dynamic e.1 e.2
      let st' ← frame types use vec blocks st
      let rest ← movie types use dynamic blocks (num + 1) st' es
      some ((num, st') :: rest)

/-- The fields declared for a parameter, meshInterface_construct.hpp:538-555: name and whether it is nodal.  `none`: the type is asked
for without a default, which throws; a parameter of another usage has no field. -/
def declare (dim : Nat) (name usage : String) (type : Option String) : Option (List (String × Bool)) :=
  if usage = "discretized" then
    match type with
    | none => none
    | some t =>
        if t = "HGRAD" then some [(name, true)]
        else if t = "HVOL" then some [(name, false)]
        else if t = "HDIV" ∨ t = "HCURL" then
          some ((name ++ "x", false) :: (if 1 < dim then [(name ++ "y", false)] else []) ++ (if 2 < dim then [(name ++ "z", false)] else []))
        else some []
  else some []

/-! ## Specification -/

/-- Parameter `n` has the basis `t`. [specification, no code] -/
def HasType (types : List String) (use : List Nat) (n : Nat) (t : String) : Prop := ∃ bnum, use[n]? = some bnum ∧ types[bnum]? = some t

/-- The block fits the vector of the process: every parameter of every element has its unknowns in it, and every element lies in the
block. [specification, no code] -/
structure Fits (np : Nat) (vec : List K) (b : Block) : Prop where
  inside : ∀ g ∈ b.groups, ∀ e ∈ g, e.id < b.count ∧ e.lids.length = np ∧ ∀ ls ∈ e.lids, ∀ l ∈ ls, l < vec.length

/-- Every element of the block belongs to a group. [specification, no code] -/
def Covered (b : Block) : Prop := ∀ k, k < b.count → ∃ g ∈ b.groups, ∃ e ∈ g, e.id = k

/-- Unknowns of a parameter with nodal values: the first ones of an element are those of its nodes. [specification, no code] -/
def Nodal (dof : Nat → Nat) (n : Nat) (b : Block) : Prop :=
  ∀ g ∈ b.groups, ∀ e ∈ g, ∀ ls, e.lids[n]? = some ls → ∀ i x : Nat, (b.conn e.id)[i]? = some x → ls[i]? = some (dof x)

/-- Unknowns of a parameter with values at the elements. [specification, no code] -/
def Cellwise (dof : Nat → Nat) (n : Nat) (b : Block) : Prop :=
  ∀ g ∈ b.groups, ∀ e ∈ g, ∀ ls, e.lids[n]? = some ls → ls[0]? = some (dof e.id)

/-! ## Lemmas -/

theorem mapO_some {α β : Type} {f : α → Option β} {l : List α} (h : ∀ a ∈ l, ∃ b, f a = some b) : ∃ bs, mapO f l = some bs := by
  induction l with
  | nil => exact ⟨[], rfl⟩
  | cons a as ih =>
      obtain ⟨b, hb⟩ := h a (by simp)
      obtain ⟨bs, hbs⟩ := ih (fun a ha => h a (by simp [ha]))
      exact ⟨b :: bs, by simp [mapO, hb, hbs]⟩

theorem mapO_get {α β : Type} {f : α → Option β} {l : List α} {bs : List β} (h : mapO f l = some bs) :
    bs.length = l.length ∧ ∀ i : Nat, (l[i]?).bind f = bs[i]? := by
  induction l generalizing bs with
  | nil =>
      have : bs = [] := by simpa [mapO] using h.symm
      subst this
      simp
  | cons a as ih =>
      simp only [mapO, Option.bind_eq_bind] at h
      cases hb : f a with
      | none => simp [hb] at h
      | some b =>
          cases hbs : mapO f as with
          | none => simp [hb, hbs] at h
          | some cs =>
              have : bs = b :: cs := by simpa [hb, hbs] using h.symm
              subst this
              obtain ⟨h1, h2⟩ := ih hbs
              refine ⟨by simp [h1], ?_⟩
              intro i
              cases i with
              | zero => simp [hb]
              | succ i => simpa using h2 i

theorem mapO_mem {α β : Type} {f : α → Option β} {l : List α} {bs : List β} (h : mapO f l = some bs) {b : β} (hb : b ∈ bs) :
    ∃ a ∈ l, f a = some b := by
  obtain ⟨i, hi⟩ := List.mem_iff_getElem?.mp hb
  have := (mapO_get h).2 i
  rw [hi] at this
  cases ha : l[i]? with
  | none => rw [ha] at this; simp at this
  | some a => rw [ha] at this; exact ⟨a, List.mem_of_getElem? ha, by simpa using this⟩

theorem mapO_mem' {α β : Type} {f : α → Option β} {l : List α} {bs : List β} (h : mapO f l = some bs) {a : α} (ha : a ∈ l) :
    ∃ b ∈ bs, f a = some b := by
  obtain ⟨i, hi⟩ := List.mem_iff_getElem?.mp ha
  have := (mapO_get h).2 i
  rw [hi] at this
  cases hb : bs[i]? with
  | none =>
      have h1 := (mapO_get h).1
      rw [List.getElem?_eq_none_iff] at hb
      have h2 := (List.getElem?_eq_some_iff.mp hi).1
      omega
  | some b => exact ⟨b, List.mem_of_getElem? hb, by rw [hb] at this; simpa using this⟩

/-- What one element hands over. -/
theorem row_of {vec : List K} {n : Nat} {e : Elem} {w : Nat × List K}
    (h : (do let rs ← mapO (fun ls => mapO (fun l => vec[l]?) ls) e.lids; let r ← rs[n]?; some (e.id, r)) = some w) :
    w.1 = e.id ∧ ∃ ls, e.lids[n]? = some ls ∧ mapO (fun l => vec[l]?) ls = some w.2 := by
  simp only [Option.bind_eq_bind] at h
  cases hrs : mapO (fun ls => mapO (fun l => vec[l]?) ls) e.lids with
  | none => simp [hrs] at h
  | some rs =>
      cases hr : rs[n]? with
      | none => simp [hrs, hr] at h
      | some r =>
          have hw : w = (e.id, r) := by simpa [hrs, hr] using h.symm
          subst hw
          refine ⟨rfl, ?_⟩
          have := (mapO_get hrs).2 n
          rw [hr] at this
          cases hl : e.lids[n]? with
          | none => rw [hl] at this; simp at this
          | some ls => exact ⟨ls, rfl, by rw [hl] at this; simpa using this⟩

theorem stored_mem {vec : List K} {n : Nat} {b : Block} {ws : List (Nat × List K)} (h : stored vec n b = some ws) {w : Nat × List K}
    (hw : w ∈ ws) : ∃ g ∈ b.groups, ∃ e ∈ g, w.1 = e.id ∧ ∃ ls, e.lids[n]? = some ls ∧ mapO (fun l => vec[l]?) ls = some w.2 := by
  simp only [stored, Option.bind_eq_bind] at h
  cases hm : mapO (gather vec n) b.groups with
  | none => simp [hm] at h
  | some vs =>
      simp only [hm, Option.bind_some] at h
      split at h
      · have : vs.flatten = ws := by simpa using h
        subst this
        obtain ⟨v, hv, hwv⟩ := List.mem_flatten.mp hw
        obtain ⟨g, hg, hgv⟩ := mapO_mem hm hv
        obtain ⟨e, he, hew⟩ := mapO_mem hgv hwv
        exact ⟨g, hg, e, he, row_of hew⟩
      · simp at h

theorem stored_all {vec : List K} {n : Nat} {b : Block} {ws : List (Nat × List K)} (h : stored vec n b = some ws) {g : List Elem}
    (hg : g ∈ b.groups) {e : Elem} (he : e ∈ g) : ∃ w ∈ ws, w.1 = e.id := by
  simp only [stored, Option.bind_eq_bind] at h
  cases hm : mapO (gather vec n) b.groups with
  | none => simp [hm] at h
  | some vs =>
      simp only [hm, Option.bind_some] at h
      split at h
      · have : vs.flatten = ws := by simpa using h
        subst this
        obtain ⟨v, hv, hgv⟩ := mapO_mem' hm hg
        obtain ⟨w, hw, hew⟩ := mapO_mem' hgv he
        exact ⟨w, List.mem_flatten.mpr ⟨v, hv, hw⟩, (row_of hew).1⟩
      · simp at h

theorem stored_defined {np : Nat} {vec : List K} {n : Nat} {b : Block} (hn : n < np) (hf : Fits np vec b) : ∃ ws, stored vec n b = some ws := by
  have hrow : ∀ g ∈ b.groups, ∀ e ∈ g, ∃ w : Nat × List K,
      (do let rs ← mapO (fun ls => mapO (fun l => vec[l]?) ls) e.lids; let r ← rs[n]?; some (e.id, r)) = some w := by
    intro g hg e he
    obtain ⟨-, h2, h3⟩ := hf.inside g hg e he
    obtain ⟨rs, hrs⟩ : ∃ rs, mapO (fun ls => mapO (fun l => vec[l]?) ls) e.lids = some rs := by
      apply mapO_some
      intro ls hls
      apply mapO_some
      intro l hl
      exact ⟨vec[l]'(h3 ls hls l hl), List.getElem?_eq_getElem _⟩
    have hlen := (mapO_get hrs).1
    have : n < rs.length := by omega
    exact ⟨(e.id, rs[n]), by simp [hrs, List.getElem?_eq_getElem this]⟩
  obtain ⟨vs, hvs⟩ : ∃ vs, mapO (gather vec n) b.groups = some vs := by
    apply mapO_some
    intro g hg
    exact mapO_some (fun e he => hrow g hg e he)
  refine ⟨vs.flatten, ?_⟩
  have : vs.flatten.all (fun w => w.1 < b.count) = true := by
    rw [List.all_eq_true]
    intro w hw
    obtain ⟨v, hv, hwv⟩ := List.mem_flatten.mp hw
    obtain ⟨g, hg, hgv⟩ := mapO_mem hvs hv
    obtain ⟨e, he, hew⟩ := mapO_mem hgv hwv
    rw [(row_of hew).1]
    simpa using (hf.inside g hg e he).1
  simp only [stored, hvs, Option.bind_eq_bind, Option.bind_some, this, if_true]

theorem last_mem {α : Type} {ws : List (Nat × α)} {k : Nat} {a : α} (h : last ws k = some a) : (k, a) ∈ ws := by
  unfold last at h
  have : ∀ l : List (Nat × α), l.lookup k = some a → (k, a) ∈ l := by
    intro l
    induction l with
    | nil => intro h; simp at h
    | cons x xs ih =>
        intro h
        rw [List.lookup_cons] at h
        by_cases hx : k == x.1
        · rw [hx] at h
          have h1 : k = x.1 := by simpa using hx
          have h2 : x.2 = a := by simpa using h
          simp [h1, ← h2]
        · have hx' : (k == x.1) = false := by simpa using hx
          rw [hx'] at h
          exact List.mem_cons_of_mem _ (ih h)
  simpa using this _ h

theorem last_some {α : Type} {ws : List (Nat × α)} {k : Nat} (h : ∃ w ∈ ws, w.1 = k) : ∃ a, last ws k = some a := by
  obtain ⟨w, hw, rfl⟩ := h
  unfold last
  have : ∀ l : List (Nat × α), w ∈ l → ∃ a, l.lookup w.1 = some a := by
    intro l
    induction l with
    | nil => intro h; simp at h
    | cons x xs ih =>
        intro h
        rw [List.lookup_cons]
        by_cases hx : w.1 == x.1
        · rw [hx]; exact ⟨x.2, rfl⟩
        · have hx' : (w.1 == x.1) = false := by simpa using hx
          rw [hx']
          rcases List.mem_cons.mp h with rfl | h
          · simp at hx
          · exact ih h
  exact this _ (by simpa using hw)

theorem loop_keeps {α σ : Type} {f : α → σ → Option σ} {P : σ → Prop} {l : List α} {s s' : σ} (h : loop f l s = some s')
    (hf : ∀ a ∈ l, ∀ s s', f a s = some s' → P s → P s') (hs : P s) : P s' := by
  induction l generalizing s with
  | nil => have : s = s' := by simpa [loop] using h
           exact this ▸ hs
  | cons a as ih =>
      simp only [loop] at h
      cases hfa : f a s with
      | none => simp [hfa] at h
      | some t =>
          rw [hfa] at h
          exact ih h (fun a ha => hf a (by simp [ha])) (hf a (by simp) s t hfa hs)

theorem loop_sets {α σ : Type} {f : α → σ → Option σ} {P : σ → Prop} {l : List α} {s s' : σ} (h : loop f l s = some s')
    (hf : ∀ a ∈ l, ∀ s s', f a s = some s' → P s → P s') (a : α) (ha : a ∈ l) (hset : ∀ s s', f a s = some s' → P s') : P s' := by
  induction l generalizing s with
  | nil => simp at ha
  | cons c cs ih =>
      simp only [loop] at h
      cases hfc : f c s with
      | none => simp [hfc] at h
      | some t =>
          rw [hfc] at h
          rcases List.mem_cons.mp ha with rfl | ha
          · exact loop_keeps h (fun a ha => hf a (by simp [ha])) (hset s t hfc)
          · exact ih h (fun a ha => hf a (by simp [ha])) ha

theorem loop_defined {α σ : Type} {f : α → σ → Option σ} {l : List α} (h : ∀ a ∈ l, ∀ s, ∃ s', f a s = some s') (s : σ) :
    ∃ s', loop f l s = some s' := by
  induction l generalizing s with
  | nil => exact ⟨s, rfl⟩
  | cons a as ih =>
      obtain ⟨t, ht⟩ := h a (by simp) s
      obtain ⟨u, hu⟩ := ih (fun a ha => h a (by simp [ha])) t
      exact ⟨u, by simp [loop, ht, hu]⟩

theorem loop_fails {α σ : Type} {f : α → σ → Option σ} {l : List α} (a : α) (ha : a ∈ l) (h : ∀ s, f a s = none) (s : σ) :
    loop f l s = none := by
  induction l generalizing s with
  | nil => simp at ha
  | cons c cs ih =>
      simp only [loop]
      rcases List.mem_cons.mp ha with rfl | ha
      · simp [h]
      · cases f c s with
        | none => rfl
        | some t => exact ih ha t

section
variable [Zero K]

theorem nodalWrites_value {vec : List K} {n : Nat} {b : Block} {dof : Nat → Nat} {ws : List (Nat × List K)}
    (h : stored vec n b = some ws) (hc : Covered b) (hn : Nodal dof n b) {x : Nat} {v : K} (hv : (x, v) ∈ nodalWrites b ws) :
    vec[dof x]? = some v := by
  simp only [nodalWrites, List.mem_flatMap, List.mem_range, List.mem_map] at hv
  obtain ⟨k, hk, ⟨y, i⟩, hy, he⟩ := hv
  have hy' : (b.conn k)[i]? = some y := by
    have := List.mk_mem_zipIdx_iff_getElem?.mp hy
    exact this
  have hxy : y = x := by simpa using congrArg Prod.fst he
  have hval : ((last ws k).bind (fun r => r[i]?)).getD 0 = v := by simpa using congrArg Prod.snd he
  subst hxy
  obtain ⟨g, hg, e, hge, hek⟩ := hc k hk
  obtain ⟨w, hw, hwk⟩ := stored_all h hg hge
  obtain ⟨r, hr⟩ := last_some (ws := ws) (k := k) ⟨w, hw, by rw [hwk, hek]⟩
  obtain ⟨g', hg', e', he', h1, ls, h2, h3⟩ := stored_mem h (last_mem hr)
  have h1' : k = e'.id := h1
  have h4 := hn g' hg' e' he' ls h2 i y (by rw [← h1']; exact hy')
  have h5 := (mapO_get h3).2 i
  rw [h4] at h5
  rw [hr] at hval
  simp only [Option.bind_some] at hval h5
  have h3' : vec[dof y]? = r[i]? := h5
  have hlen : dof y < vec.length := by
    by_contra hcon
    obtain ⟨u, -, hu⟩ := mapO_mem' h3 (List.mem_of_getElem? h4)
    rw [List.getElem?_eq_none_iff.mpr (by omega)] at hu
    simp at hu
  rw [List.getElem?_eq_getElem hlen] at h3' ⊢
  rw [← h3'] at hval
  simpa using hval

theorem setParam_nodal {types : List String} {use : List Nat} {vec : List K} {bi : Nat} {b : Block} {n : Nat} {dof : Nat → Nat}
    {st st' : Fields K} (h : setParam types use vec bi b n st = some st') (ht : HasType types use n "HGRAD") (hc : Covered b)
    (hn : Nodal dof n b) (x : Nat) :
    (st.nodal n x = (vec[dof x]?).getD 0 → st'.nodal n x = (vec[dof x]?).getD 0) ∧
    ((∃ k, k < b.count ∧ x ∈ b.conn k) → st'.nodal n x = (vec[dof x]?).getD 0) := by
  obtain ⟨bnum, hu, htp⟩ := ht
  simp only [setParam, hu, htp, Option.bind_eq_bind, Option.bind_some, if_true] at h
  cases hs : stored vec n b with
  | none => simp [hs] at h
  | some ws =>
      simp only [hs, Option.bind_some] at h
      split at h
      · have hst : st' = _ := (Option.some.inj h).symm
        subst hst
        cases hl : last (nodalWrites b ws) x with
        | some v =>
            have := nodalWrites_value hs hc hn (last_mem hl)
            simp [hl, this]
        | none =>
            refine ⟨by simp [hl], ?_⟩
            rintro ⟨k, hk, hx⟩
            exfalso
            obtain ⟨i, hi⟩ := List.mem_iff_getElem?.mp hx
            obtain ⟨v, hv⟩ := last_some (ws := nodalWrites b ws) (k := x) ⟨(x, ((last ws k).bind (fun r => r[i]?)).getD 0), by
              simp only [nodalWrites, List.mem_flatMap, List.mem_range, List.mem_map]
              exact ⟨k, hk, (x, i), List.mk_mem_zipIdx_iff_getElem?.mpr hi, rfl⟩, rfl⟩
            rw [hl] at hv
            simp at hv
      · simp at h

theorem setParam_other {types : List String} {use : List Nat} {vec : List K} {bi : Nat} {b : Block} {n m : Nat}
    {st st' : Fields K} (h : setParam types use vec bi b n st = some st') (hm : m ≠ n) :
    st'.nodal m = st.nodal m ∧ st'.cell m = st.cell m := by
  simp only [setParam, Option.bind_eq_bind] at h
  cases hu : use[n]? with
  | none => simp [hu] at h
  | some bnum =>
      cases ht : types[bnum]? with
      | none => simp [hu, ht] at h
      | some t =>
          simp only [hu, ht, Option.bind_some] at h
          split at h
          · cases hs : stored vec n b with
            | none => simp [hs] at h
            | some ws =>
                simp only [hs, Option.bind_some] at h
                split at h
                · have hst : st' = _ := (Option.some.inj h).symm
                  subst hst
                  exact ⟨by funext x; simp [hm], rfl⟩
                · simp at h
          · split at h
            · cases hs : stored vec n b with
              | none => simp [hs] at h
              | some ws =>
                  simp only [hs, Option.bind_some] at h
                  split at h
                  · have hst : st' = _ := (Option.some.inj h).symm
                    subst hst
                    exact ⟨rfl, by funext c k; simp [hm]⟩
                  · simp at h
            · split at h
              · have : st = st' := by simpa using h
                subst this; exact ⟨rfl, rfl⟩
              · cases h3 : types[n]? with
                | none => simp [h3] at h
                | some t3 =>
                    have : st = st' := by simpa [h3] using h
                    subst this; exact ⟨rfl, rfl⟩

theorem setParam_cell {types : List String} {use : List Nat} {vec : List K} {bi : Nat} {b : Block} {n : Nat}
    {st st' : Fields K} (h : setParam types use vec bi b n st = some st') (c k : Nat) :
    (c ≠ bi → st'.cell n c k = st.cell n c k) ∧
    (HasType types use n "HVOL" → Covered b → k < b.count → ∀ dof, Cellwise dof n b → st'.cell n bi k = (vec[dof k]?).getD 0) := by
  have key : HasType types use n "HVOL" ∨ ¬ HasType types use n "HVOL" := Classical.em _
  simp only [setParam, Option.bind_eq_bind] at h
  cases hu : use[n]? with
  | none => simp [hu] at h
  | some bnum =>
      cases ht : types[bnum]? with
      | none => simp [hu, ht] at h
      | some t =>
          have htype : HasType types use n "HVOL" → t = "HVOL" := by
            rintro ⟨b', h1, h2⟩
            rw [hu] at h1
            have : bnum = b' := by simpa using h1
            subst this
            rw [ht] at h2
            simpa using h2
          simp only [hu, ht, Option.bind_some] at h
          split at h
          · next h1 =>
            refine ⟨?_, fun h2 => ?_⟩
            · intro _
              cases hs : stored vec n b with
              | none => simp [hs] at h
              | some ws =>
                  simp only [hs, Option.bind_some] at h
                  split at h
                  · have hst : st' = _ := (Option.some.inj h).symm
                    subst hst; rfl
                  · simp at h
            · have h3 := htype h2; rw [h1] at h3; exact absurd h3 (by decide)
          · split at h
            · cases hs : stored vec n b with
              | none => simp [hs] at h
              | some ws =>
                  simp only [hs, Option.bind_some] at h
                  split at h
                  · have hst : st' = _ := (Option.some.inj h).symm
                    subst hst
                    refine ⟨fun hcne => by simp [hcne], ?_⟩
                    intro _ hc hk dof hd
                    obtain ⟨g, hg, e, hge, hek⟩ := hc k hk
                    obtain ⟨w, hw, hwk⟩ := stored_all hs hg hge
                    obtain ⟨r, hr⟩ := last_some (ws := ws) (k := k) ⟨w, hw, by rw [hwk, hek]⟩
                    obtain ⟨g', hg', e', he', h1, ls, h2, h3⟩ := stored_mem hs (last_mem hr)
                    have h1' : k = e'.id := h1
                    have h4 := hd g' hg' e' he' ls h2
                    have h5 := (mapO_get h3).2 0
                    rw [h4] at h5
                    have h6 : vec[dof k]? = r[0]? := by rw [h1']; simpa using h5
                    simp [hk, hr, h6]
                  · simp at h
            · next h2 =>
              refine ⟨?_, fun h3 => absurd (htype h3) h2⟩
              intro _
              split at h
              · have : st = st' := by simpa using h
                subst this; rfl
              · cases h3 : types[n]? with
                | none => simp [h3] at h
                | some t3 =>
                    have : st = st' := by simpa [h3] using h
                    subst this; rfl

/-! ## Properties -/

/-- C190, partial: a frame is written when the vector of the process holds all unknowns of its elements and the parameters have nodal
values or values at the elements.  Missing: processes with shared unknowns and the other types; see below. -/
theorem C190_defined_partial (types : List String) (use : List Nat) (vec : List K) (blocks : List Block) (st : Fields K)
    (hf : ∀ b ∈ blocks, Fits use.length vec b)
    (ht : ∀ n, n < use.length →
      (HasType types use n "HGRAD" ∧ ∀ b ∈ blocks, ∀ g ∈ b.groups, ∀ e ∈ g, ∀ ls, e.lids[n]? = some ls → (b.conn e.id).length ≤ ls.length) ∨
      (HasType types use n "HVOL" ∧ ∀ b ∈ blocks, ∀ g ∈ b.groups, ∀ e ∈ g, ∀ ls, e.lids[n]? = some ls → ls ≠ [])) :
    ∃ st', frame types use vec blocks st = some st' := by
  apply loop_defined
  rintro ⟨b, bi⟩ hb s
  have hb' : b ∈ blocks := by
    exact List.mem_of_getElem? (List.mk_mem_zipIdx_iff_getElem?.mp hb)
  by_cases hpos : 0 < b.count
  · simp only [hpos, if_true]
    apply loop_defined
    intro n hn s
    have hn' : n < use.length := by simpa using hn
    obtain ⟨ws, hws⟩ := stored_defined hn' (hf b hb')
    rcases ht n hn' with ⟨⟨bnum, h1, h2⟩, h3⟩ | ⟨⟨bnum, h1, h2⟩, h3⟩
    · have : ws.all (fun w => (b.conn w.1).length ≤ w.2.length) = true := by
        rw [List.all_eq_true]
        intro w hw
        obtain ⟨g, hg, e, he, h4, ls, h5, h6⟩ := stored_mem hws hw
        have := h3 b hb' g hg e he ls h5
        rw [h4, (mapO_get h6).1]
        simpa using this
      simp [setParam, h1, h2, hws, this]
    · have hall : ws.all (fun w => decide (w.2 ≠ [])) = true := by
        rw [List.all_eq_true]
        intro w hw
        obtain ⟨g, hg, e, he, h4, ls, h5, h6⟩ := stored_mem hws hw
        have h7 := h3 b hb' g hg e he ls h5
        have h8 := (mapO_get h6).1
        simp only [ne_eq, decide_not, Bool.not_eq_true', decide_eq_false_iff_not]
        intro h9
        rw [h9] at h8
        exact h7 (List.length_eq_zero_iff.mp h8.symm)
      have hne : ¬ ("HVOL" = "HGRAD") := by decide
      simp only [setParam, h1, h2, hws, Option.bind_eq_bind, Option.bind_some, hne, if_false, if_true, hall]
      exact ⟨_, rfl⟩
  · exact ⟨s, by simp [hpos]⟩

/-- C190, partial: in a frame that is written, a parameter with nodal values has at every node of the mesh its value there. -/
theorem C190_nodal_partial (types : List String) (use : List Nat) (vec : List K) (blocks : List Block) (st st' : Fields K)
    (h : frame types use vec blocks st = some st') (n : Nat) (hn : n < use.length) (ht : HasType types use n "HGRAD") (dof : Nat → Nat)
    (hb : ∀ b ∈ blocks, Covered b ∧ Nodal dof n b) (b : Block) (hmem : b ∈ blocks) (k x : Nat) (hk : k < b.count) (hx : x ∈ b.conn k) :
    st'.nodal n x = (vec[dof x]?).getD 0 := by
  obtain ⟨bi, hbi⟩ : ∃ bi, (b, bi) ∈ blocks.zipIdx := by
    obtain ⟨i, hi⟩ := List.mem_iff_getElem?.mp hmem
    exact ⟨i, List.mk_mem_zipIdx_iff_getElem?.mpr hi⟩
  have hmem' : ∀ c ∈ blocks.zipIdx, c.1 ∈ blocks := by
    rintro ⟨c, ci⟩ hc
    exact List.mem_of_getElem? (List.mk_mem_zipIdx_iff_getElem?.mp hc)
  have keep : ∀ c ∈ blocks, ∀ ci : Nat, ∀ m ∈ List.range use.length, ∀ s s' : Fields K, setParam types use vec ci c m s = some s' →
      s.nodal n x = (vec[dof x]?).getD 0 → s'.nodal n x = (vec[dof x]?).getD 0 := by
    intro c hc ci m _ s s' hs hP
    by_cases hmn : n = m
    · subst hmn
      exact (setParam_nodal hs ht (hb c hc).1 (hb c hc).2 x).1 hP
    · rw [(setParam_other hs hmn).1]
      exact hP
  refine loop_sets (P := fun s => s.nodal n x = (vec[dof x]?).getD 0) h ?_ (b, bi) hbi ?_
  · rintro ⟨c, ci⟩ hc s s' hs hP
    by_cases hpos : 0 < c.count
    · simp only [hpos, if_true] at hs
      exact loop_keeps (P := fun s => s.nodal n x = (vec[dof x]?).getD 0) hs (keep c (hmem' _ hc) ci) hP
    · simp only [hpos, if_false] at hs
      have : s = s' := by simpa using hs
      exact this ▸ hP
  · intro s s' hs
    have hpos : 0 < b.count := by omega
    simp only [hpos, if_true] at hs
    refine loop_sets (P := fun s => s.nodal n x = (vec[dof x]?).getD 0) hs (keep b hmem bi) n (by simpa using hn) ?_
    intro s s' hs
    exact (setParam_nodal hs ht (hb b hmem).1 (hb b hmem).2 x).2 ⟨k, hk, hx⟩

/-- C190, partial: in a frame that is written, a parameter with values at the elements has there the first coefficient of the element,
which is its value when there is only one. -/
theorem C190_cell_partial (types : List String) (use : List Nat) (vec : List K) (blocks : List Block) (st st' : Fields K)
    (h : frame types use vec blocks st = some st') (n : Nat) (hn : n < use.length) (ht : HasType types use n "HVOL") (dof : Nat → Nat)
    (b : Block) (bi : Nat) (hbi : blocks[bi]? = some b) (hc : Covered b) (hd : Cellwise dof n b) (k : Nat) (hk : k < b.count) :
    st'.cell n bi k = (vec[dof k]?).getD 0 := by
  refine loop_sets (P := fun s => s.cell n bi k = (vec[dof k]?).getD 0) h ?_ (b, bi) (List.mk_mem_zipIdx_iff_getElem?.mpr hbi) ?_
  · rintro ⟨c, ci⟩ hcm s s' hs hP
    by_cases hpos : 0 < c.count
    · simp only [hpos, if_true] at hs
      refine loop_keeps (P := fun s => s.cell n bi k = (vec[dof k]?).getD 0) hs ?_ hP
      intro m _ s s' hs hP
      by_cases hmn : n = m
      · subst hmn
        by_cases hci : bi = ci
        · subst hci
          have : c = b := by
            have := List.mk_mem_zipIdx_iff_getElem?.mp hcm
            rw [hbi] at this
            simpa using this.symm
          subst this
          exact (setParam_cell hs bi k).2 ht hc hk dof hd
        · show s'.cell n bi k = _
          rw [(setParam_cell hs bi k).1 hci]; exact hP
      · show s'.cell n bi k = _
        rw [(setParam_other hs hmn).2]; exact hP
    · simp only [hpos, if_false] at hs
      have : s = s' := by simpa using hs
      exact this ▸ hP
  · intro s s' hs
    have hpos : 0 < b.count := by omega
    simp only [hpos, if_true] at hs
    refine loop_sets (P := fun s => s.cell n bi k = (vec[dof k]?).getD 0) hs ?_ n (by simpa using hn) ?_
    · intro m _ s s' hs hP
      by_cases hmn : n = m
      · subst hmn
        exact (setParam_cell hs bi k).2 ht hc hk dof hd
      · show s'.cell n bi k = _
        rw [(setParam_other hs hmn).2]; exact hP
    · intro s s' hs
      exact (setParam_cell hs bi k).2 ht hc hk dof hd

/-- C190: the frames of a movie are numbered by the evaluations from zero on and frame `j` is made from the parameters of evaluation
`j` at their current level. -/
theorem C190_frames (types : List String) (use : List Nat) (dynamic : Bool) (blocks : List Block) (num : Nat) (st : Fields K)
    (evals : List (Nat × List (List K))) (fs : List (Nat × Fields K)) (h : movie types use dynamic blocks num st evals = some fs) :
    fs.length = evals.length ∧ ∀ (j : Nat) (e : Nat × List (List K)), evals[j]? = some e →
      ∃ vec old new, e.2[if dynamic then e.1 else 0]? = some vec ∧ frame types use vec blocks old = some new ∧ fs[j]? = some (num + j, new) := by
  induction evals generalizing num st fs with
  | nil =>
      have : fs = [] := by simpa [movie] using h.symm
      subst this
      simp
  | cons e es ih =>
      simp only [movie, Option.bind_eq_bind] at h
      cases hv : level dynamic e.1 e.2 with
      | none => simp [hv] at h
      | some vec =>
          cases hfr : frame types use vec blocks st with
          | none => simp [hv, hfr] at h
          | some st' =>
              cases hr : movie types use dynamic blocks (num + 1) st' es with
              | none => simp [hv, hfr, hr] at h
              | some rest =>
                  have : fs = (num, st') :: rest := by simpa [hv, hfr, hr] using h.symm
                  subst this
                  obtain ⟨h1, h2⟩ := ih (num + 1) st' rest hr
                  refine ⟨by simp [h1], ?_⟩
                  intro j e' he'
                  cases j with
                  | zero =>
                      have : e = e' := by simpa using he'
                      subst this
                      exact ⟨vec, st, st', hv, hfr, by simp⟩
                  | succ j =>
                      obtain ⟨v, o, nw, a1, a2, a3⟩ := h2 j e' (by simpa using he')
                      exact ⟨v, o, nw, a1, a2, by rw [List.getElem?_cons_succ, a3]; congr 2; omega⟩

/-- C190 is false on several processes: an element with an unknown the process shares but does not own makes it read outside the vector,
whatever the parameter is. -/
theorem C190_shared_violated (types : List String) (use : List Nat) (owned : List K) (blocks : List Block) (st : Fields K)
    (b : Block) (hb : b ∈ blocks) (hc : 0 < b.count) (g : List Elem) (hg : g ∈ b.groups) (e : Elem) (he : e ∈ g) (ls : List Nat)
    (hls : ls ∈ e.lids) (l : Nat) (hl : l ∈ ls) (hout : owned.length ≤ l) (n : Nat) (hn : n < use.length)
    (ht : HasType types use n "HGRAD" ∨ HasType types use n "HVOL") : frame types use owned blocks st = none := by
  have h1 : mapO (fun l => owned[l]?) ls = none := by
    cases h : mapO (fun l => owned[l]?) ls with
    | none => rfl
    | some r =>
        obtain ⟨u, -, hu⟩ := mapO_mem' h hl
        rw [List.getElem?_eq_none_iff.mpr hout] at hu
        simp at hu
  have h2 : mapO (fun ls => mapO (fun l => owned[l]?) ls) e.lids = none := by
    cases h : mapO (fun ls => mapO (fun l => owned[l]?) ls) e.lids with
    | none => rfl
    | some r =>
        obtain ⟨u, -, hu⟩ := mapO_mem' h hls
        rw [h1] at hu
        simp at hu
  have h3 : gather owned n g = none := by
    cases h : gather owned n g with
    | none => rfl
    | some r =>
        obtain ⟨u, -, hu⟩ := mapO_mem' h he
        simp [h2] at hu
  have h4 : mapO (gather owned n) b.groups = none := by
    cases h : mapO (gather owned n) b.groups with
    | none => rfl
    | some r =>
        obtain ⟨u, -, hu⟩ := mapO_mem' h hg
        rw [h3] at hu
        simp at hu
  have h5 : stored owned n b = none := by simp [stored, h4]
  obtain ⟨bi, hbi⟩ : ∃ bi, (b, bi) ∈ blocks.zipIdx := by
    obtain ⟨i, hi⟩ := List.mem_iff_getElem?.mp hb
    exact ⟨i, List.mk_mem_zipIdx_iff_getElem?.mpr hi⟩
  refine loop_fails (b, bi) hbi ?_ st
  intro s
  simp only [hc, if_true]
  refine loop_fails n (by simpa using hn) ?_ s
  intro s
  have hne : ¬ ("HVOL" = "HGRAD") := by decide
  rcases ht with ⟨bnum, a1, a2⟩ | ⟨bnum, a1, a2⟩ <;> simp [setParam, a1, a2, h5]

/-- C190 is false for vector parameters: nothing is written for them. -/
theorem C190_vector_violated (types : List String) (use : List Nat) (vec : List K) (bi : Nat) (b : Block) (n : Nat) (st st' : Fields K)
    (ht : HasType types use n "HDIV" ∨ HasType types use n "HCURL") (h : setParam types use vec bi b n st = some st') : st' = st := by
  have d1 : ¬ ("HDIV" = "HGRAD") := by decide
  have d2 : ¬ ("HDIV" = "HVOL") := by decide
  have d3 : ¬ ("HCURL" = "HGRAD") := by decide
  have d4 : ¬ ("HCURL" = "HVOL") := by decide
  have d5 : ¬ ("HCURL" = "HDIV") := by decide
  rcases ht with ⟨bnum, a1, a2⟩ | ⟨bnum, a1, a2⟩
  · simp only [setParam, a1, a2, Option.bind_eq_bind, Option.bind_some, d1, d2, if_false, if_true] at h
    exact (Option.some.inj h).symm
  · simp only [setParam, a1, a2, Option.bind_eq_bind, Option.bind_some, d3, d4, d5, if_false] at h
    cases h3 : types[n]? with
    | none => simp [h3] at h
    | some t =>
        rw [h3] at h
        exact (Option.some.inj h).symm

/-- C190 is false for parameters of type "HCURL" (and others not named) whose number is not below the number of bases: the test for the
type reads outside the list. -/
theorem C190_index_violated (types : List String) (use : List Nat) (vec : List K) (bi : Nat) (b : Block) (n : Nat) (st : Fields K)
    (ht : HasType types use n "HCURL") (hn : types.length ≤ n) : setParam types use vec bi b n st = none := by
  have d3 : ¬ ("HCURL" = "HGRAD") := by decide
  have d4 : ¬ ("HCURL" = "HVOL") := by decide
  have d5 : ¬ ("HCURL" = "HDIV") := by decide
  obtain ⟨bnum, a1, a2⟩ := ht
  have : types[n]? = none := List.getElem?_eq_none_iff.mpr hn
  simp [setParam, a1, a2, this]

/-- C190 is false for parameters that change in time: only the level of the last step is in the frame. -/
theorem C190_levels_violated (types : List String) (use : List Nat) (blocks : List Block) (num last : Nat) (st : Fields K)
    (p q : List (List K)) (h : p[last]? = q[last]?) :
    movie types use true blocks num st [(last, p)] = movie types use true blocks num st [(last, q)] := by
  simp [movie, level, h]

end

/-- C190: every parameter with values at nodes or elements that is written has a field of its name and kind. -/
theorem C190_declared (dim : Nat) (name : String) :
    declare dim name "discretized" (some "HGRAD") = some [(name, true)] ∧
    declare dim name "discretized" (some "HVOL") = some [(name, false)] ∧
    ∀ usage type, usage ≠ "discretized" → declare dim name usage type = some [] := by
  refine ⟨by simp [declare], by simp [declare], ?_⟩
  intro usage type h
  simp [declare, h]

/-- C190: a discretized parameter without a type ends the run. -/
theorem C190_type (dim : Nat) (name : String) : declare dim name "discretized" none = none := by
  simp [declare]

example : declare 2 "k" "discretized" (some "HDIV") = some [("kx", false), ("ky", false)] ∧
    declare 3 "k" "discretized" (some "HCURL") = some [("kx", false), ("ky", false), ("kz", false)] := by decide +kernel

/-! ## Cases -/

/-- [case] Two segments with nodes 0, 1, 2 in two groups; a nodal parameter with unknowns 2, 0, 1 at the nodes and one with values at the
elements with unknowns 3 and 4. -/
def caseBlock : Block :=
  { count := 2
    conn := fun k => [k, k + 1]
    groups := [[⟨1, [[0, 1], [4]]⟩], [⟨0, [[2, 0], [3]]⟩]] }

/-- [case] The types of the bases. -/
def caseTypes : List String := ["HGRAD", "HVOL"]

/-- [case] Fields before the first frame. -/
def caseStart : Fields Int := ⟨fun _ _ => 0, fun _ _ _ => 0⟩

example : (frame caseTypes [0, 1] [10, 20, 30, 40, 50] [caseBlock] caseStart).map
      (fun s => ((List.range 3).map (s.nodal 0), (List.range 2).map (s.cell 1 0))) =
    some ([30, 10, 20], [40, 50]) := by decide +kernel

example : Fits 2 [10, 20, 30, 40, 50] caseBlock ∧ Covered caseBlock ∧ Nodal (fun x => if x = 0 then 2 else x - 1) 0 caseBlock ∧
    Cellwise (fun k => k + 3) 1 caseBlock := by
  refine ⟨⟨?_⟩, ?_, ?_, ?_⟩
  · simp [caseBlock]
  · intro k hk
    have : k = 0 ∨ k = 1 := by simp [caseBlock] at hk; omega
    rcases this with rfl | rfl
    · exact ⟨[⟨0, [[2, 0], [3]]⟩], by simp [caseBlock], ⟨0, [[2, 0], [3]]⟩, by simp, rfl⟩
    · exact ⟨[⟨1, [[0, 1], [4]]⟩], by simp [caseBlock], ⟨1, [[0, 1], [4]]⟩, by simp, rfl⟩
  · intro g hg e he ls hls i x hx
    simp only [caseBlock, List.mem_cons, List.not_mem_nil, or_false] at hg
    rcases hg with rfl | rfl
    · have : e = ⟨1, [[0, 1], [4]]⟩ := by simpa using he
      subst this
      have : ls = [0, 1] := by simpa using hls.symm
      subst this
      match i, hx with
      | 0, hx => have : x = 1 := by simpa [caseBlock] using hx.symm
                 subst this; rfl
      | 1, hx => have : x = 2 := by simpa [caseBlock] using hx.symm
                 subst this; rfl
      | i + 2, hx => simp [caseBlock] at hx
    · have : e = ⟨0, [[2, 0], [3]]⟩ := by simpa using he
      subst this
      have : ls = [2, 0] := by simpa using hls.symm
      subst this
      match i, hx with
      | 0, hx => have : x = 0 := by simpa [caseBlock] using hx.symm
                 subst this; rfl
      | 1, hx => have : x = 1 := by simpa [caseBlock] using hx.symm
                 subst this; rfl
      | i + 2, hx => simp [caseBlock] at hx
  · intro g hg e he ls hls
    simp only [caseBlock, List.mem_cons, List.not_mem_nil, or_false] at hg
    rcases hg with rfl | rfl
    · have : e = ⟨1, [[0, 1], [4]]⟩ := by simpa using he
      subst this
      have : ls = [4] := by simpa using hls.symm
      subst this; rfl
    · have : e = ⟨0, [[2, 0], [3]]⟩ := by simpa using he
      subst this
      have : ls = [3] := by simpa using hls.symm
      subst this; rfl

/-- [case] The second process owns all but unknown 4. -/
example : frame caseTypes [0, 1] [10, 20, 30, 40] [caseBlock] caseStart = none :=
  C190_shared_violated caseTypes [0, 1] [10, 20, 30, 40] [caseBlock] caseStart caseBlock (by simp) (by decide) [⟨1, [[0, 1], [4]]⟩]
    (by simp [caseBlock]) ⟨1, [[0, 1], [4]]⟩ (by simp) [4] (by simp) 4 (by simp) (by simp) 0 (by simp) (Or.inl ⟨0, rfl, rfl⟩)

example : ((movie caseTypes [0, 1] false [caseBlock] 0 caseStart [(0, [[1, 2, 3, 4, 5]]), (0, [[6, 7, 8, 9, 10]])]).map
      (fun fs => fs.map (fun f => (f.1, f.2.nodal 0 0)))) = some [(0, 3), (1, 8)] := by decide +kernel

example : HasType ["HCURL"] [0, 0] 1 "HCURL" ∧ ["HCURL"].length ≤ 1 := ⟨⟨0, rfl, rfl⟩, by decide⟩

/-- Part of C190: a place of the field holds the value stored there last; a later value replaces an earlier one and leaves the other
places alone. -/
theorem C190_last {α : Type} (ws : List (Nat × α)) (k : Nat) (a : α) (x : Nat) :
    last (ws ++ [(k, a)]) x = if x = k then some a else last ws x := by
  by_cases h : x = k
  · simp [last, h]
  · have : (x == k) = false := by simpa using h
    simp [last, h, List.lookup_cons, this]

example : last [(1, 5), (2, 6), (1, 7)] 1 = some (7 : Nat) := C190_last [(1, 5), (2, 6)] 1 7 1

end MrHyDE.Postprocess.Movie
