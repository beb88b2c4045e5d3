import Mathlib.Algebra.Field.Rat
import Mathlib.Algebra.BigOperators.Group.List.Basic
import Mathlib.Data.List.Pairwise
import Verif.Modules.LowMach

/-! # C195: integrated quantities of several modules, of the input file and on several blocks

How the quantities asked for by the physics modules and by the input file are put in one list for each block, under which
names their integrands are defined, which places of the workset the modules read, and what is reported.
/repo/src/managers/postprocess/postprocessManager_construct.hpp:299-332,
src/managers/postprocess/postprocessManager_integrated_quantities.hpp:15-283, src/tools/workset.cpp:1483-1498.
The integrals themselves are C92, the update of the background pressure of one block is in `Modules/LowMach.lean`. -/

namespace MrHyDE.Postprocess.Quantities

/-- An integrated quantity: name, integrand, location and names of the sides; `integratedQuantity`,
src/tools/postprocessTools.hpp:259-305. -/
structure Quantity where
  name : String
  integrand : String
  location : String
  sides : String
deriving DecidableEq

/-- A quantity of the input file; what is not given takes its default: volume, all sides, integrand zero;
src/tools/postprocessTools.hpp:259-274. -/
def fromInput (name : String) (location sides integrand : Option String) : Quantity :=
  { name := name, location := location.getD "volume", sides := sides.getD "all", integrand := integrand.getD "0.0" }

/-- A quantity of a physics module: integrand, name and type in this order, always on all sides;
src/tools/postprocessTools.hpp:288-300, postprocessManager_integrated_quantities.hpp:55-60. -/
def fromPhysics (integrand name type : String) : Quantity :=
  { name := name, integrand := integrand, location := type, sides := "all" }

/-- A physics module: the quantities it returns from `setupIntegratedQuantities` and the number of places it reserves in
`setWorkset`; postprocessManager_construct.hpp:305-306, src/tools/workset.cpp:1483. -/
structure Module where
  wants : List Quantity
  reserves : Nat

/-- The defined functions of a block: name, place of evaluation and expression; the trees of
src/managers/function/functionManager_create.hpp:18-25. -/
abbrev Table := List (String × String × String)

/-- The expression defined under a name at a place; src/managers/function/functionManager_create.hpp:18-25. -/
def lookup (t : Table) (n p : String) : Option String :=
  (t.find? (fun x => decide (x.1 = n) && decide (x.2.1 = p))).map (fun x => x.2.2)

/-- `addFunction`: a name already defined at this place stays as it is;
src/managers/function/functionManager_create.hpp:14-34. -/
def addFunction (t : Table) (n e p : String) : Table := if (lookup t n p).isSome then t else t ++ [(n, p, e)]

/-- The name of the integrand; postprocessManager_integrated_quantities.hpp:27 and 31, 64 and 68. -/
def fname (n : String) : String := n ++ " integrand"

/-- Where the integrand is evaluated: nowhere for other locations than the two;
postprocessManager_integrated_quantities.hpp:25-32, 62-69. -/
def place (location : String) : Option String :=
  if location = "volume" then some "ip" else if location = "boundary" then some "side ip" else none

/-- One quantity of `addIntegratedQuantities`; postprocessManager_integrated_quantities.hpp:23-32, 57-69. -/
def define (t : Table) (q : Quantity) : Table :=
  match place q.location with
  | some p => addFunction t (fname q.name) q.integrand p
  | none => t

/-- The quantities of a block: those of the modules, set after set, then those of the input file;
postprocessManager_construct.hpp:302-327. -/
def quantities (sets : List (List Module)) (user : List Quantity) : List Quantity :=
  sets.flatMap (fun ms => ms.flatMap Module.wants) ++ user

/-- The functions after the quantities of a block are defined; postprocessManager_construct.hpp:302-327. -/
def defined (t : Table) (qs : List Quantity) : Table := qs.foldl define t

/-- The first place of each module: the places reserved so far; src/tools/workset.cpp:1483-1498, called in the order of
src/interfaces/physics/physicsInterface_workset.hpp:17-23. -/
def starts : Nat → List Module → List Nat
  | _, [] => []
  | s, m :: ms => s :: starts (s + m.reserves) ms

/-- The number of places of the block; src/tools/workset.cpp:1485-1493, postprocessManager_integrated_quantities.hpp:146. -/
def places (ms : List Module) : Nat := ms.foldl (fun s m => s + m.reserves) 0

variable {K : Type} [Field K]

/-- The integral of an expression over the block and over sides of its boundary (see C92).
postprocessManager_integrated_quantities.hpp:157-193, 194-237. -/
structure Integrator (K : Type) where
  volume : String → K
  boundary : String → String → K

/-- The value of a quantity; the name of a function that is not defined throws (`none`).
postprocessManager_integrated_quantities.hpp:154-239. -/
def value (I : Integrator K) (t : Table) (q : Quantity) : Option K :=
  if q.location = "volume" then (lookup t (fname q.name) "ip").map I.volume
  else if q.location = "boundary" then (lookup t (fname q.name) "side ip").map (I.boundary q.sides)
  else some 0

/-- The quantities of a block: names and values as reported, and the places the modules read, zero where no quantity
belongs to a place; postprocessManager_integrated_quantities.hpp:146-250, 272, postprocessManager_util.hpp:734-738. -/
def compute (I : Integrator K) (t : Table) (sets : List (List Module)) (user : List Quantity) :
    Option (List (String × K) × List K) :=
  let qs := quantities sets user
  ((qs.mapM (value I (defined t qs))).map
    (fun vs => (List.zip (qs.map Quantity.name) vs, (List.range (places sets.flatten)).map (fun i => vs.getD i 0))))

/-- Which blocks have an entry: those with at least one quantity; postprocessManager_construct.hpp:331-332. -/
def listed (blocks : List (String × List (List Module) × List Quantity)) : List String :=
  blocks.filterMap (fun b => if (quantities b.2.1 b.2.2).length > 0 then some b.1 else none)

/-- `compute_integrated_quantities` after the loop over the blocks; postprocessManager_construct.hpp:107, 316-320. -/
def active (setting : Bool) (blocks : List (String × List (List Module) × List Quantity)) : Bool :=
  blocks.foldl (fun f b => if (b.2.1.flatMap (fun ms => ms.flatMap Module.wants)).length > 0 then true else f) setting

/-- The module `thermal` with `test integrated quantities`; src/physics/thermal.cpp:413, 422-446. -/
def thermal (test : Bool) (dim : Nat) : Module :=
  if test then
    { wants := [fromPhysics "T" "thermal vol total T" "volume", fromPhysics "T" "thermal bnd total T" "boundary",
        fromPhysics (if dim = 3 then "(n[x]*grad(T)[x] + n[y]*grad(T)[y] + n[z]*grad(T)[z])"
          else if dim = 2 then "(n[x]*grad(T)[x] + n[y]*grad(T)[y])" else "(n[x]*grad(T)[x])")
          "thermal bnd heat flux" "boundary"],
      reserves := 3 }
  else { wants := [], reserves := 0 }

/-- The blocks one after the other update the one background pressure of the run;
postprocessManager_integrated_quantities.hpp:135-283, src/physics/variableDensityNS.cpp:1338-1367.  Of each block the first
place of the module and the places. -/
def pressure [DecidableEq K] (c : Modules.LowMach.Cfg) (dt : K) (blocks : List (Nat × (Nat → K))) (bg : K × K) :
    Option (K × K) := blocks.foldlM (fun bg b => Modules.LowMach.update c b.1 b.2 dt bg) bg

/-! ## Specification -/

/-- What a quantity should be: the integral of its own integrand. [specification, no code] -/
def Is (I : Integrator K) (q : Quantity) (x : K) : Prop :=
  (q.location = "volume" ∧ x = I.volume q.integrand) ∨ (q.location = "boundary" ∧ x = I.boundary q.sides q.integrand)

/-- Names are used once for each location, locations are one of the two, and no function of the block has the name of an
integrand already. [specification, no code] -/
structure Fair (t : Table) (qs : List Quantity) : Prop where
  known : ∀ q ∈ qs, q.location = "volume" ∨ q.location = "boundary"
  once : qs.Pairwise (fun a b => a.name ≠ b.name ∨ a.location ≠ b.location)
  fresh : ∀ q ∈ qs, ∀ x ∈ t, x.1 ≠ q.name ++ " integrand"

/-! ## Lemmas -/

theorem fname_inj {a b : String} (h : fname a = fname b) : a = b := by
  unfold fname at h
  have h' := congrArg String.toList h
  rw [String.toList_append, String.toList_append] at h'
  exact String.toList_inj.mp (List.append_cancel_right h')

theorem place_inj {a b p : String} (ha : place a = some p) (hb : place b = some p) : a = b := by
  unfold place at ha hb
  split_ifs at ha hb <;> simp_all
  · subst ha; simp at hb
  · subst ha; simp at hb

theorem lookup_append (t : Table) (n p : String) (x : String × String × String) :
    lookup (t ++ [x]) n p = (lookup t n p).or (if x.1 = n ∧ x.2.1 = p then some x.2.2 else none) := by
  unfold lookup
  rw [List.find?_append]
  cases h : t.find? (fun x => decide (x.1 = n) && decide (x.2.1 = p)) with
  | some y => simp
  | none => by_cases hx : x.1 = n ∧ x.2.1 = p <;> simp [hx]

theorem addFunction_self (t : Table) (n e p : String) (h : lookup t n p = none) : lookup (addFunction t n e p) n p = some e := by
  unfold addFunction
  rw [h]
  simp [lookup_append, h]

theorem addFunction_keep (t : Table) (n e p n' p' e' : String) (h : lookup t n' p' = some e') :
    lookup (addFunction t n e p) n' p' = some e' := by
  unfold addFunction
  split
  · exact h
  · rw [lookup_append, h]; rfl

theorem addFunction_other (t : Table) (n e p n' p' : String) (hne : n ≠ n' ∨ p ≠ p') :
    lookup (addFunction t n e p) n' p' = lookup t n' p' := by
  unfold addFunction
  split
  · rfl
  · rw [lookup_append, if_neg]
    · simp
    · rintro ⟨h1, h2⟩; exact hne.elim (fun h => h h1) (fun h => h h2)

theorem define_keep (t : Table) (q : Quantity) (n p e : String) (h : lookup t n p = some e) :
    lookup (define t q) n p = some e := by
  unfold define
  split
  · exact addFunction_keep _ _ _ _ _ _ _ h
  · exact h

theorem defined_keep (qs : List Quantity) : ∀ (t : Table) (n p e : String), lookup t n p = some e →
    lookup (defined t qs) n p = some e := by
  induction qs with
  | nil => intro t n p e h; exact h
  | cons q qs ih => intro t n p e h; exact ih _ _ _ _ (define_keep t q n p e h)

theorem define_other (t : Table) (a q : Quantity) (p : String) (hp : place q.location = some p)
    (h : a.name ≠ q.name ∨ a.location ≠ q.location) : lookup (define t a) (fname q.name) p = lookup t (fname q.name) p := by
  unfold define
  cases hpa : place a.location with
  | none => rfl
  | some pa =>
    apply addFunction_other
    rcases h with h | h
    · exact Or.inl (fun e => h (fname_inj e))
    · exact Or.inr (fun e => h (place_inj hpa (e ▸ hp)))

theorem defined_own (qs : List Quantity) : ∀ (t : Table), qs.Pairwise (fun a b => a.name ≠ b.name ∨ a.location ≠ b.location) →
    ∀ (q : Quantity) (p : String), q ∈ qs → place q.location = some p → lookup t (fname q.name) p = none →
    lookup (defined t qs) (fname q.name) p = some q.integrand := by
  induction qs with
  | nil => intro t _ q p h; simp at h
  | cons a qs ih =>
    intro t hpw q p hq hp hn
    rw [List.pairwise_cons] at hpw
    show lookup (defined (define t a) qs) (fname q.name) p = some q.integrand
    rcases List.mem_cons.mp hq with rfl | hq'
    · apply defined_keep
      unfold define
      rw [hp]
      exact addFunction_self _ _ _ _ hn
    · exact ih _ hpw.2 q p hq' hp (by rw [define_other t a q p hp (hpw.1 q hq')]; exact hn)

theorem lookup_fresh (t : Table) (n p : String) (h : ∀ x ∈ t, x.1 ≠ n) : lookup t n p = none := by
  unfold lookup
  rw [Option.map_eq_none_iff, List.find?_eq_none]
  intro x hx
  simp [h x hx]

theorem value_own (I : Integrator K) (t : Table) (qs : List Quantity) (hf : Fair t qs) (q : Quantity) (hq : q ∈ qs) :
    ∃ x, value I (defined t qs) q = some x ∧ Is I q x := by
  have hfr : ∀ (p : String), lookup t (fname q.name) p = none := fun p => lookup_fresh t _ p (hf.fresh q hq)
  rcases hf.known q hq with h | h
  · refine ⟨I.volume q.integrand, ?_, Or.inl ⟨h, rfl⟩⟩
    unfold value
    rw [if_pos h, defined_own qs t hf.once q "ip" hq (by rw [h]; rfl) (hfr _)]
    rfl
  · refine ⟨I.boundary q.sides q.integrand, ?_, Or.inr ⟨h, rfl⟩⟩
    unfold value
    rw [if_neg (by rw [h]; decide), if_pos h, defined_own qs t hf.once q "side ip" hq (by rw [h]; rfl) (hfr _)]
    rfl

theorem mapM_own {α β : Type} (f : α → Option β) (R : α → β → Prop) : ∀ (l : List α), (∀ a ∈ l, ∃ x, f a = some x ∧ R a x) →
    ∃ vs, l.mapM f = some vs ∧ List.Forall₂ R l vs := by
  intro l
  induction l with
  | nil => intro _; exact ⟨[], rfl, List.Forall₂.nil⟩
  | cons a l ih =>
    intro h
    obtain ⟨x, hx, hr⟩ := h a (by simp)
    obtain ⟨vs, hv, hR⟩ := ih (fun b hb => h b (by simp [hb]))
    exact ⟨x :: vs, by simp [List.mapM_cons, hx, hv], List.Forall₂.cons hr hR⟩

omit [Field K] in
theorem zip_own (R : Quantity → K → Prop) : ∀ (qs : List Quantity) (vs : List K), List.Forall₂ R qs vs →
    List.Forall₂ (fun q (r : String × K) => r.1 = q.name ∧ R q r.2) qs (List.zip (qs.map Quantity.name) vs) := by
  intro qs vs h
  induction h with
  | nil => exact List.Forall₂.nil
  | cons h _ ih => exact List.Forall₂.cons ⟨rfl, h⟩ ih

theorem forall₂_get {α β : Type} (R : α → β → Prop) : ∀ (l : List α) (vs : List β), List.Forall₂ R l vs →
    ∀ (j : Nat) (a : α), l[j]? = some a → ∃ x, vs[j]? = some x ∧ R a x := by
  intro l vs h
  induction h with
  | nil => intro j a h; simp at h
  | cons h _ ih =>
    intro j a hj
    cases j with
    | zero => simp at hj; subst hj; exact ⟨_, by simp, h⟩
    | succ j => simpa using ih j a (by simpa using hj)

theorem starts_get : ∀ (pre : List Module) (s : Nat) (m : Module) (post : List Module),
    (starts s (pre ++ m :: post))[pre.length]? = some (s + (pre.map Module.reserves).sum) := by
  intro pre
  induction pre with
  | nil => intro s m post; simp [starts]
  | cons a pre ih => intro s m post; simp [starts, ih, Nat.add_assoc]

theorem places_eq (ms : List Module) : places ms = (ms.map Module.reserves).sum := by
  have : ∀ (l : List Module) (s : Nat), l.foldl (fun s m => s + m.reserves) s = s + (l.map Module.reserves).sum := by
    intro l
    induction l with
    | nil => intro s; simp
    | cons a l ih => intro s; rw [List.foldl_cons, ih, List.map_cons, List.sum_cons]; omega
  unfold places; rw [this]; omega

theorem wants_flatten (sets : List (List Module)) :
    sets.flatMap (fun ms => ms.flatMap Module.wants) = sets.flatten.flatMap Module.wants := by
  induction sets with
  | nil => rfl
  | cons a l ih => simp [ih]

theorem wants_length (ms : List Module) (h : ∀ m ∈ ms, m.reserves = m.wants.length) :
    (ms.flatMap Module.wants).length = (ms.map Module.reserves).sum := by
  induction ms with
  | nil => rfl
  | cons a l ih =>
    rw [List.flatMap_cons, List.length_append, ih (fun m hm => h m (by simp [hm])), List.map_cons, List.sum_cons, h a (by simp)]

/-! ## Properties -/

/-- C195, part of it: the quantities are computed, each reported under its name, in the order modules then input file, with
the integral of its own integrand; and every module finds, from the place it was given on, the values of its own
quantities in its own order, whatever the other modules and the input file ask for.  Provided that every module reserves
as many places as it asks for quantities, and that names are used once (`Fair`). -/
theorem C195_partial (I : Integrator K) (t : Table) (sets : List (List Module)) (user : List Quantity)
    (hf : Fair t (sets.flatten.flatMap Module.wants ++ user)) (hr : ∀ m ∈ sets.flatten, m.reserves = m.wants.length) :
    ∃ vs st, compute I t sets user = some (vs, st) ∧
      List.Forall₂ (fun q r => r.1 = q.name ∧ Is I q r.2) (sets.flatten.flatMap Module.wants ++ user) vs ∧
      ∀ (pre : List Module) (m : Module) (post : List Module), sets.flatten = pre ++ m :: post →
        ∃ s, (starts 0 sets.flatten)[pre.length]? = some s ∧
          ∀ (k : Nat) (q : Quantity), m.wants[k]? = some q → ∃ x, st[s + k]? = some x ∧ Is I q x := by
  have hq : quantities sets user = sets.flatten.flatMap Module.wants ++ user := by
    unfold quantities; rw [wants_flatten]
  obtain ⟨xs, hx, hR⟩ := mapM_own (value I (defined t (quantities sets user))) (Is I) (quantities sets user)
    (fun q hm => value_own I t (quantities sets user) (hq ▸ hf) q hm)
  refine ⟨_, _, by unfold compute; simp only [hx]; rfl, ?_, ?_⟩
  · rw [hq] at hR ⊢
    exact zip_own (Is I) _ _ hR
  · intro pre m post hs
    refine ⟨_, by rw [hs]; exact starts_get pre 0 m post, ?_⟩
    intro k q hk
    have hpre : (pre.flatMap Module.wants).length = (pre.map Module.reserves).sum :=
      wants_length pre (fun m hm => hr m (by rw [hs]; simp [hm]))
    have hkl : k < m.wants.length := by
      by_contra hc; rw [List.getElem?_eq_none (by omega)] at hk; simp at hk
    have hget : (quantities sets user)[(pre.map Module.reserves).sum + k]? = some q := by
      rw [hq, hs, ← hpre, List.flatMap_append, List.flatMap_cons, List.append_assoc, List.append_assoc,
        List.getElem?_append_right (by omega), Nat.add_sub_cancel_left, List.getElem?_append_left hkl, hk]
    have hj : (pre.map Module.reserves).sum + k < places sets.flatten := by
      rw [places_eq, hs, List.map_append, List.sum_append, List.map_cons, List.sum_cons, hr m (by rw [hs]; simp)]
      omega
    rw [Nat.zero_add]
    generalize (pre.map Module.reserves).sum + k = j at hget hj ⊢
    obtain ⟨x, hxj, hIs⟩ := forall₂_get (Is I) _ _ hR j q hget
    refine ⟨x, ?_, hIs⟩
    simp [List.getElem?_range hj, hxj]

/-- Two modules, one of them `thermal`, and a quantity of the input file: the case of the theorem. [case] -/
def caseSets : List (List Module) := [[thermal true 2], [{ wants := [fromPhysics "u" "my total" "volume"], reserves := 1 }]]

/-- Quantities of the input file. [case] -/
def caseUser : List Quantity := [fromInput "heat" none none (some "T"), fromInput "heat" (some "boundary") (some "left") (some "n[x]*T")]

/-- Integrals, told apart by the length of the expression. [case] -/
def caseI : Integrator ℚ := { volume := fun e => e.length, boundary := fun s e => 100 * s.length + e.length }

theorem caseFair : Fair [("rho", "ip", "1.0")] (caseSets.flatten.flatMap Module.wants ++ caseUser) where
  known := by decide +kernel
  once := by decide +kernel
  fresh := by decide +kernel

example : (compute caseI [("rho", "ip", "1.0")] caseSets caseUser) = some
    ([("thermal vol total T", 1), ("thermal bnd total T", 301), ("thermal bnd heat flux", 335), ("my total", 1), ("heat", 1),
      ("heat", 406)], [1, 301, 335, 1]) := by decide +kernel

example : ∃ vs st, compute caseI [("rho", "ip", "1.0")] caseSets caseUser = some (vs, st) ∧
    List.Forall₂ (fun q r => r.1 = q.name ∧ Is caseI q r.2) (caseSets.flatten.flatMap Module.wants ++ caseUser) vs := by
  obtain ⟨vs, st, h, h2, _⟩ := C195_partial caseI [("rho", "ip", "1.0")] caseSets caseUser caseFair (by decide +kernel)
  exact ⟨vs, st, h, h2⟩

/-- C195, the settings: what the input file leaves out is an integral over the volume, over all sides, of zero; the module
`thermal` reserves as many places as it asks for in every dimension, none unless asked to. -/
theorem C195_settings (name : String) (location sides integrand : Option String) (test : Bool) (dim : Nat) :
    (fromInput name location sides integrand).name = name ∧
    (∀ l, location = some l → (fromInput name location sides integrand).location = l) ∧
    (location = none → (fromInput name location sides integrand).location = "volume") ∧
    (∀ l, sides = some l → (fromInput name location sides integrand).sides = l) ∧
    (sides = none → (fromInput name location sides integrand).sides = "all") ∧
    (∀ l, integrand = some l → (fromInput name location sides integrand).integrand = l) ∧
    (integrand = none → (fromInput name location sides integrand).integrand = "0.0") ∧
    (thermal test dim).reserves = (thermal test dim).wants.length ∧ (thermal test dim).reserves = (if test then 3 else 0) ∧
    (∀ q ∈ (thermal test dim).wants, q.sides = "all" ∧ (q.location = "volume" ∨ q.location = "boundary")) := by
  refine ⟨rfl, ?_, ?_, ?_, ?_, ?_, ?_, ?_, ?_, ?_⟩
  · rintro l rfl; rfl
  · rintro rfl; rfl
  · rintro l rfl; rfl
  · rintro rfl; rfl
  · rintro l rfl; rfl
  · rintro rfl; rfl
  · cases test <;> rfl
  · cases test <;> rfl
  · cases test
    · intro q hq; simp [thermal] at hq
    · intro q hq
      simp only [thermal, fromPhysics, if_true, List.mem_cons, List.not_mem_nil, or_false] at hq
      rcases hq with rfl | rfl | rfl <;> simp

example : fromInput "mass" none none (some "rho") = ⟨"mass", "rho", "volume", "all"⟩ := by decide +kernel

/-- C195, the blocks: the report has exactly the blocks on which something is asked for, in the order of the mesh; and the
quantities of all blocks are computed when the setting says so or a module of some block asks for one. -/
theorem C195_blocks (setting : Bool) (blocks : List (String × List (List Module) × List Quantity)) :
    (listed blocks = (blocks.filter (fun b => decide (b.2.2 ≠ [] ∨ ∃ ms ∈ b.2.1, ∃ m ∈ ms, m.wants ≠ []))).map (fun b => b.1)) ∧
    (active setting blocks = true ↔ setting = true ∨ ∃ b ∈ blocks, ∃ ms ∈ b.2.1, ∃ m ∈ ms, m.wants ≠ []) := by
  have hw : ∀ (sets : List (List Module)), (sets.flatMap (fun ms => ms.flatMap Module.wants)).length > 0 ↔
      ∃ ms ∈ sets, ∃ m ∈ ms, m.wants ≠ [] := by
    intro sets
    rw [gt_iff_lt, List.length_pos_iff, Ne, List.flatMap_eq_nil_iff]
    simp [List.flatMap_eq_nil_iff]
  constructor
  · unfold listed
    induction blocks with
    | nil => rfl
    | cons b bs ih =>
      have hb : (quantities b.2.1 b.2.2).length > 0 ↔ (b.2.2 ≠ [] ∨ ∃ ms ∈ b.2.1, ∃ m ∈ ms, m.wants ≠ []) := by
        rw [← hw]
        unfold quantities
        rw [List.length_append]
        cases b.2.2 <;> simp
      by_cases h : (b.2.2 ≠ [] ∨ ∃ ms ∈ b.2.1, ∃ m ∈ ms, m.wants ≠ [])
      · rw [List.filterMap_cons, if_pos (hb.mpr h), List.filter_cons_of_pos (by simpa using h), List.map_cons, ih]
      · rw [List.filterMap_cons, if_neg (fun x => h (hb.mp x)), List.filter_cons_of_neg (by simpa using h), ih]
  · unfold active
    induction blocks generalizing setting with
    | nil => simp
    | cons b bs ih =>
      rw [List.foldl_cons, ih]
      by_cases h : (b.2.1.flatMap (fun ms => ms.flatMap Module.wants)).length > 0
      · rw [if_pos h]
        simp only [true_or, true_iff]
        exact Or.inr ⟨b, by simp, (hw _).mp h⟩
      · rw [if_neg h]
        have h' := fun x => h ((hw b.2.1).mpr x)
        constructor
        · rintro (h1 | ⟨c, hc, h2⟩)
          · exact Or.inl h1
          · exact Or.inr ⟨c, by simp [hc], h2⟩
        · rintro (h1 | ⟨c, hc, h2⟩)
          · exact Or.inl h1
          · rcases List.mem_cons.mp hc with rfl | hc
            · exact absurd h2 h'
            · exact Or.inr ⟨c, hc, h2⟩

example : listed [("a", [[thermal false 2]], []), ("b", [[thermal true 2]], []), ("c", [], caseUser)] = ["b", "c"] ∧
    active false [("a", [[thermal false 2]], []), ("b", [[thermal true 2]], []), ("c", [], caseUser)] = true := by decide +kernel

/-- C195 is false when a name is used again: a quantity of the input file named like one of a module, at the same location,
is reported with the integral of the module's integrand; and so is a quantity whose name with " integrand" added is a function of the
input file already. -/
theorem C195_name_violated :
    compute caseI [] [[thermal true 2]] [fromInput "thermal vol total T" none none (some "T*T")] = some
      ([("thermal vol total T", 1), ("thermal bnd total T", 301), ("thermal bnd heat flux", 335), ("thermal vol total T", 1)],
        [1, 301, 335]) ∧
    caseI.volume "T*T" = 3 ∧
    compute caseI [("mass integrand", "ip", "rho*rho")] [] [fromInput "mass" none none (some "rho")] = some ([("mass", 7)], []) ∧
    caseI.volume "rho" = 3 := by decide +kernel

/-- C195 is false for other locations: whatever the integrand, the quantity is reported as zero and no message says that
the location is not known. -/
theorem C195_location_violated (I : Integrator K) (t : Table) (name location sides integrand : String)
    (h1 : location ≠ "volume") (h2 : location ≠ "boundary") :
    compute I t [] [⟨name, integrand, location, sides⟩] = some ([(name, 0)], []) := by
  simp [compute, quantities, value, h1, h2, places]

example : compute caseI [] [] [⟨"heat", "T", "side", "all"⟩] = some ([("heat", 0)], []) :=
  C195_location_violated caseI [] "heat" "side" "all" "T" (by decide) (by decide)

/-- The hypothesis of `C195_partial` on the reserved places is needed: when a module asks for more than it reserves (no module of
the library does), the next module reads what is not its own; when it asks for less and nothing follows, it reads zero in the place left. -/
theorem C195_reserve_needed :
    (compute caseI [] [[{ wants := [fromPhysics "u" "a" "volume", fromPhysics "uu" "b" "volume"], reserves := 1 },
      { wants := [fromPhysics "uuu" "c" "volume"], reserves := 1 }]] []).map Prod.snd = some [1, 2] ∧
    (compute caseI [] [[{ wants := [fromPhysics "u" "a" "volume"], reserves := 2 }]] []).map Prod.snd = some [1, 0] := by
  decide +kernel

/-- C195 is false for a closed system on several blocks: the background pressure is that of the last block alone, whatever
the integrals of the others, not the quotient of the integrals over the domain. -/
theorem C195_pressure_violated [DecidableEq K] (c : Modules.LowMach.Cfg) (hc : c.openSystem = false) (hi : c.inoutflow = false)
    (dt : K) (blocks : List (Nat × (Nat → K))) (b : Nat × (Nat → K)) (bg r : K × K)
    (h : pressure c dt (blocks ++ [b]) bg = some r) : r.1 = b.2 b.1 / b.2 (b.1 + 1) := by
  unfold pressure at h
  rw [List.foldlM_append] at h
  simp only [List.foldlM_cons, List.foldlM_nil, Option.bind_eq_bind, Option.bind_eq_some_iff] at h
  obtain ⟨x, _, y, hy, hr⟩ := h
  simp only [Option.pure_def, Option.some.injEq] at hr
  subst hr
  unfold Modules.LowMach.update at hy
  rw [hc, hi] at hy
  simp only [Bool.false_eq_true, if_false] at hy
  split at hy
  · simp at hy
  · simp only [Option.some.injEq] at hy
    rw [← hy]

/-- C195 is false also for the rate: nothing changes from one step to the next, and the rate of the pressure on two blocks is not
zero; over the whole domain the pressure is two, on the last block three. -/
theorem C195_rate_violated :
    let b1 : Nat × (Nat → ℚ) := (0, fun i => if i = 0 then 1 else 1)
    let b2 : Nat × (Nat → ℚ) := (0, fun i => if i = 0 then 3 else 1)
    let c : Modules.LowMach.Cfg := ⟨false, false, false, false, false⟩
    pressure c (1 / 2) [b1, b2] (7, 0) = some (3, 4) ∧ pressure c (1 / 2) [b1, b2] (3, 4) = some (3, 4) ∧
    (b1.2 0 + b2.2 0) / (b1.2 1 + b2.2 1) = 2 := by decide +kernel

/-- On one block the pressure is the quotient of the integrals and the rate its change in the step. -/
theorem C195_pressure_partial [DecidableEq K] (c : Modules.LowMach.Cfg) (hc : c.openSystem = false) (hi : c.inoutflow = false)
    (dt : K) (hdt : dt ≠ 0) (b : Nat × (Nat → K)) (hb : b.2 (b.1 + 1) ≠ 0) (bg : K × K) :
    ∃ r, pressure c dt [b] bg = some r ∧ r.1 * b.2 (b.1 + 1) = b.2 b.1 ∧ r.2 * dt = r.1 - bg.1 := by
  refine ⟨(b.2 b.1 / b.2 (b.1 + 1), (b.2 b.1 / b.2 (b.1 + 1) - bg.1) / dt), ?_, div_mul_cancel₀ _ hb, div_mul_cancel₀ _ hdt⟩
  simp [pressure, Modules.LowMach.update, hc, hi, hb, hdt]

example : pressure ⟨false, false, false, false, false⟩ (1 / 2 : ℚ) [(0, fun i => if i = 0 then 6 else 2)] (1, 0) = some (3, 4) := by
  decide +kernel

end MrHyDE.Postprocess.Quantities
