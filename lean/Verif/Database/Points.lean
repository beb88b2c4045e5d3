import Verif.Database.Model
import Verif.Assembly.GroupsLemmas
import Verif.Assembly.GroupsProps
import Verif.Mesh.SimpleProps
import Verif.Mesh.SimpleParallel
import Mathlib.Tactic.Ring
import Mathlib.Tactic.Linarith

/-!
# C167: the integration points that expressions are evaluated at

Every group holds the coordinates of the integration points of its elements.  With "use ip database" it holds a number
for each element and each direction, and reads the coordinates from a table of representatives.
-/

set_option linter.unusedSectionVars false
set_option linter.unusedSimpArgs false

namespace MrHyDE.Database.Points

open MrHyDE.Assembly MrHyDE.Mesh

variable {K : Type} [Field K] [LinearOrder K] [IsStrictOrderedRing K]

/-! ## Model: any mesh -/

/-- The comparison of an element with a representative in one direction: the distances at the points, one after the
other, `std::sqrt(diff*diff)` being the magnitude of `diff`.  The loop stops at the first point that differs, which
does not change the outcome. [/repo/src/managers/assembly/assemblyManager_database.hpp:495-507] -/
def close (tol : K) (numip : Nat) (x u : Nat → K) : Bool := (List.range numip).all (fun pt => !decide (tol < |x pt - u pt|))

/-- The search for a representative. [/repo/src/managers/assembly/assemblyManager_database.hpp:490-516] -/
def search (tol : K) (numip : Nat) (q : Nat → Nat → K) (el : Nat) : List Nat → Nat → Option Nat
  | [], _ => none
  | u :: us, prog => if close tol numip (q el) (q u) then some prog else search tol numip q el us (prog + 1)

/-- The elements of one group: the representatives (element numbers; the code keeps group and position, and the
coordinates) and the numbers of the elements.  The same code for each of the three directions.
[/repo/src/managers/assembly/assemblyManager_database.hpp:483-533, 536-586, 589-639] -/
def idGroup (tol : K) (numip : Nat) (q : Nat → Nat → K) : List Nat → List Nat → List Nat × List Nat
  | us, [] => (us, [])
  | us, el :: els =>
    match search tol numip q el us 0 with
    | some k => let r := idGroup tol numip q us els; (r.1, k :: r.2)
    | none => let r := idGroup tol numip q (us ++ [el]) els; (r.1, us.length :: r.2)

/-- All groups. [/repo/src/managers/assembly/assemblyManager_database.hpp:469-640] -/
def idGroups (tol : K) (numip : Nat) (q : Nat → Nat → K) : List Nat → List (List Nat) → List Nat × List (List Nat)
  | us, [] => (us, [])
  | us, g :: gs =>
    let r := idGroup tol numip q us g
    let s := idGroups tol numip q r.1 gs
    (s.1, r.2 :: s.2)

/-! ## Model: simple meshes -/

/-- Representatives for the first direction: elements with numbers below `NX`, until there are as many.
[/repo/src/managers/assembly/assemblyManager_database.hpp:411-425] -/
def usersX (NX : Nat) : List (List Nat) → Nat → List Nat
  | [], _ => []
  | g :: gs, prog =>
    if prog < NX then g.filter (fun el => el < NX) ++ usersX NX gs (prog + (g.filter (fun el => el < NX)).length) else []

/-- One pass over a group in the search for the first elements of the rows.
[/repo/src/managers/assembly/assemblyManager_database.hpp:434-441] -/
def scanY (NX : Nat) : List Nat → Nat → List Nat × Nat
  | [], prog => ([], prog)
  | el :: els, prog =>
    if el = prog * NX then let r := scanY NX els (prog + 1); (el :: r.1, r.2) else scanY NX els prog

/-- Representatives for the second direction: the first elements of the rows.  A group is scanned again and again as long
as the number looked for is between its first and its last; `none`: the passes of the loop are more than `fuel`, or an empty
group is read. [/repo/src/managers/assembly/assemblyManager_database.hpp:428-446] -/
def usersY (NX NY : Nat) : Nat → List (List Nat) → Nat → Option (List Nat)
  | 0, _, _ => none
  | fuel + 1, gs, prog =>
    if prog < NY then
      match gs with
      | [] => some []
      | g :: gs =>
        match g.head?, g.getLast? with
        | some a, some b =>
          if a ≤ prog * NX ∧ prog * NX ≤ b then
            (usersY NX NY fuel (g :: gs) (scanY NX g prog).2).map (fun u => (scanY NX g prog).1 ++ u)
          else usersY NX NY fuel gs prog
        | _, _ => none
    else some []

/-! ## Model: the settings and the groups -/

/-- The settings used: "use basis database", "use ip database", "use simple mesh", dimension, "NX", "NY", "database TOL".
[/repo/src/tools/groupMetaData.cpp:38-40, /repo/src/managers/assembly/assemblyManager_database.hpp:401-411, 428] -/
structure Settings (K : Type) where
  basisDb : Bool
  ipDb : Bool
  simple : Bool
  dim : Nat
  NX : Nat
  NY : Nat
  tol : K

/-- Representatives and numbers for direction `d`: made by `buildDatabase`, which is called with "use basis database" only.  What
is not made is empty; `none`: the loop does not end (a pass either finds a row or goes to the next group, or is repeated
forever, so the passes that end are at most as many as given here).
[/repo/src/managers/assembly/assemblyManager_database.hpp:22-28, 395-642,
/repo/src/managers/assembly/assemblyManager_groups.hpp:493-502] -/
def table (s : Settings K) (numip : Nat) (Q : Nat → Nat → Nat → K) (groups : List (List Nat)) (d : Nat) :
    Option (List Nat × List (List Nat)) :=
  if !s.basisDb then some ([], groups.map (fun _ => []))
  else if s.simple then
    if s.dim = 2 then
      match usersY s.NX s.NY (s.NY + groups.length + 1) groups 0 with
      | none => none
      | some uy =>
        if d = 0 then some (usersX s.NX groups 0, groups.map (fun g => g.map (fun el => el % s.NX)))
        else some (uy, groups.map (fun g => g.map (fun el => el / s.NX)))
    else some ([], groups.map (fun _ => []))
  else some (idGroups s.tol numip (Q d) [] groups)

/-- The coordinates in direction `d` that a group holds after `computeBasis`; without "use ip database" they are computed from
the nodes of the elements.  [/repo/src/tools/group.cpp:138-169,
/repo/src/managers/assembly/assemblyManager_database.hpp:956-1033 (the representatives' coordinates)] -/
def held (s : Settings K) (numip : Nat) (Q : Nat → Nat → Nat → K) (groups : List (List Nat)) (grp d : Nat) :
    Option (CView (Nat → K)) :=
  if s.dim ≤ d then none
  else if s.ipDb then
    match table s numip Q groups d with
    | none => none
    | some t => t.2[grp]?.map (fun k => { view := t.1.map (Q d), key := some k })
  else groups[grp]?.map (fun g => { view := g.map (Q d), key := none })

/-- Coordinate `d` at integration point `pt` of element `e` of a group, as an expression sees it; `none`: nothing is stored there.
[/repo/src/managers/assembly/assemblyManager_workset.hpp:980-987, /repo/src/tools/group.cpp:709-731, /repo/src/tools/compressedView.hpp:69-116] -/
def coord (s : Settings K) (numip : Nat) (Q : Nat → Nat → Nat → K) (groups : List (List Nat)) (grp e d pt : Nat) : Option K :=
  match held s numip Q groups grp d with
  | none => none
  | some c => (c.read e).map (fun row => row pt)

/-- The integration points of an element of a simple mesh: shape functions at the reference points times the nodes.
[/repo/src/interfaces/discretization/discretizationInterface_integration.hpp:108-152, where `mapToPhysicalFrame` is called] -/
def cellPoint (shape : Nat → List K) (m : Mesh.Mesh (K × K)) (d el pt : Nat) : Option K :=
  match m.getCellNodes [el] with
  | some [c] => some ((List.zipWith (fun w p => w * (if d = 0 then p.1 else p.2)) (shape pt) c).sum)
  | _ => none

/-- Whether a group stores its data: the elements in the groups before it are less than the share "storage proportion".
[/repo/src/managers/assembly/assemblyManager_groups.hpp:20, 396-401] -/
def stored (share : K) (groups : List (List Nat)) (grp : Nat) : Bool :=
  decide ((((groups.take grp).map List.length).sum : K) / ((groups.flatten.length : Nat) : K) < share)

/-- The weights of the integration points that a group hands to the assembly, as `wset->wts`; `basis` are the representatives of
`identifyVolumetricDatabase`.  A group that neither stores nor has a database holds no weights.
[/repo/src/tools/group.cpp:173-176, 229-230, /repo/src/managers/assembly/assemblyManager_workset.hpp:978] -/
def heldWts (s : Settings K) (share : K) (basis : List Nat × List (List Nat)) (w : Nat → Nat → K) (groups : List (List Nat))
    (grp : Nat) : Option (CView (Nat → K)) :=
  if stored share groups grp then groups[grp]?.map (fun g => { view := g.map w, key := none })
  else if s.basisDb then basis.2[grp]?.map (fun k => { view := basis.1.map w, key := some k })
  else some { view := [], key := none }

/-- The weight at integration point `pt` of element `e` of a group; `none`: nothing is stored there.
[/repo/src/tools/compressedView.hpp:69-116] -/
def weight (s : Settings K) (share : K) (basis : List Nat × List (List Nat)) (w : Nat → Nat → K) (groups : List (List Nat))
    (grp e pt : Nat) : Option K :=
  match heldWts s share basis w groups grp with
  | none => none
  | some c => (c.read e).map (fun row => row pt)

/-! ## Lemmas: any mesh -/

theorem close_le {tol : K} {numip : Nat} {x u : Nat → K} (h : close tol numip x u = true) {pt : Nat} (hp : pt < numip) :
    |x pt - u pt| ≤ tol := by
  unfold close at h
  rw [List.all_eq_true] at h
  simpa using h pt (List.mem_range.2 hp)

theorem search_some {tol : K} {numip : Nat} {q : Nat → Nat → K} {el : Nat} : ∀ {us : List Nat} {prog k : Nat},
    search tol numip q el us prog = some k → ∃ i u, k = prog + i ∧ us[i]? = some u ∧ close tol numip (q el) (q u) = true := by
  intro us
  induction us with
  | nil => intro prog k h; simp [search] at h
  | cons u us ih =>
    intro prog k h
    unfold search at h
    split_ifs at h with hc
    · exact ⟨0, u, by simpa using h.symm, rfl, hc⟩
    · obtain ⟨i, v, rfl, h2, h3⟩ := ih h
      exact ⟨i + 1, v, by omega, by simpa using h2, h3⟩

theorem search_none {tol : K} {numip : Nat} {q : Nat → Nat → K} {el : Nat} : ∀ {us : List Nat} {prog : Nat},
    search tol numip q el us prog = none → ∀ u ∈ us, close tol numip (q el) (q u) = false := by
  intro us
  induction us with
  | nil => intro prog _ u hu; cases hu
  | cons u us ih =>
    intro prog h v hv
    unfold search at h
    split_ifs at h with hc
    rcases List.mem_cons.1 hv with rfl | hv
    · simpa using hc
    · exact ih h v hv

theorem getElem?_append_some {A : Type} {l m : List A} {i : Nat} {a : A} (h : l[i]? = some a) : (l ++ m)[i]? = some a := by
  rw [List.getElem?_append_left (List.getElem?_eq_some_iff.1 h).1, h]

theorem close_self {tol : K} (ht : 0 ≤ tol) (numip : Nat) (x : Nat → K) : close tol numip x x = true := by
  unfold close
  rw [List.all_eq_true]
  intro pt _
  simp [ht]

theorem idGroup_spec {tol : K} (ht : 0 ≤ tol) (numip : Nat) (q : Nat → Nat → K) : ∀ (els us : List Nat),
    (∃ new, (idGroup tol numip q us els).1 = us ++ new ∧ ∀ u ∈ new, u ∈ els) ∧
    (us.Pairwise (fun a b => close tol numip (q b) (q a) = false) →
      (idGroup tol numip q us els).1.Pairwise (fun a b => close tol numip (q b) (q a) = false)) ∧
    ∀ (e el : Nat), els[e]? = some el → ∃ k u, (idGroup tol numip q us els).2[e]? = some k ∧
      (idGroup tol numip q us els).1[k]? = some u ∧ close tol numip (q el) (q u) = true := by
  intro els
  induction els with
  | nil => intro us; exact ⟨⟨[], by simp [idGroup], by simp⟩, by simp [idGroup], by simp⟩
  | cons a els ih =>
    intro us
    cases hs : search tol numip q a us 0 with
    | some k =>
      obtain ⟨i, u, hk, hu, hc⟩ := search_some hs
      obtain ⟨⟨new, h1, h1'⟩, h2, h3⟩ := ih us
      have e1 : idGroup tol numip q us (a :: els) = ((idGroup tol numip q us els).1, k :: (idGroup tol numip q us els).2) := by
        rw [idGroup, hs]
      rw [e1]
      refine ⟨⟨new, h1, fun u hu => List.mem_cons_of_mem _ (h1' u hu)⟩, h2, ?_⟩
      intro e el he
      cases e with
      | zero =>
        rw [List.getElem?_cons_zero] at he
        cases he
        exact ⟨k, u, rfl, by rw [h1]; exact getElem?_append_some (by rw [hk, Nat.zero_add]; exact hu), hc⟩
      | succ e => exact h3 e el (by simpa using he)
    | none =>
      obtain ⟨⟨new, h1, h1'⟩, h2, h3⟩ := ih (us ++ [a])
      have e1 : idGroup tol numip q us (a :: els) =
          ((idGroup tol numip q (us ++ [a]) els).1, us.length :: (idGroup tol numip q (us ++ [a]) els).2) := by
        rw [idGroup, hs]
      rw [e1]
      refine ⟨⟨a :: new, by simp [h1], ?_⟩, ?_, ?_⟩
      · intro u hu
        rcases List.mem_cons.1 hu with rfl | hu
        · simp
        · exact List.mem_cons_of_mem _ (h1' u hu)
      · intro hp
        apply h2
        rw [List.pairwise_append]
        refine ⟨hp, by simp, ?_⟩
        intro u hu b hb
        rw [List.mem_singleton] at hb
        subst hb
        exact search_none hs u hu
      · intro e el he
        cases e with
        | zero =>
          rw [List.getElem?_cons_zero] at he
          cases he
          exact ⟨us.length, a, rfl, by rw [h1]; exact getElem?_append_some (by simp), close_self ht numip _⟩
        | succ e => exact h3 e el (by simpa using he)

theorem idGroups_spec {tol : K} (ht : 0 ≤ tol) (numip : Nat) (q : Nat → Nat → K) : ∀ (gs : List (List Nat)) (us : List Nat),
    (∃ new, (idGroups tol numip q us gs).1 = us ++ new ∧ ∀ u ∈ new, u ∈ gs.flatten) ∧
    (us.Pairwise (fun a b => close tol numip (q b) (q a) = false) →
      (idGroups tol numip q us gs).1.Pairwise (fun a b => close tol numip (q b) (q a) = false)) ∧
    ∀ (grp : Nat) (g : List Nat), gs[grp]? = some g → ∃ ks, (idGroups tol numip q us gs).2[grp]? = some ks ∧
      ∀ (e el : Nat), g[e]? = some el → ∃ k u, ks[e]? = some k ∧
        (idGroups tol numip q us gs).1[k]? = some u ∧ close tol numip (q el) (q u) = true := by
  intro gs
  induction gs with
  | nil => intro us; exact ⟨⟨[], by simp [idGroups], by simp⟩, by simp [idGroups], by simp⟩
  | cons g gs ih =>
    intro us
    obtain ⟨⟨n1, a1, a1'⟩, a2, a3⟩ := idGroup_spec ht numip q g us
    obtain ⟨⟨n2, b1, b1'⟩, b2, b3⟩ := ih (idGroup tol numip q us g).1
    refine ⟨⟨n1 ++ n2, ?_, ?_⟩, fun h => b2 (a2 h), ?_⟩
    · simp only [idGroups]
      rw [b1, a1, List.append_assoc]
    · intro u hu
      rw [List.flatten_cons, List.mem_append]
      rcases List.mem_append.1 hu with hu | hu
      · exact Or.inl (a1' u hu)
      · exact Or.inr (b1' u hu)
    · intro grp g' hg
      cases grp with
      | zero =>
        rw [List.getElem?_cons_zero] at hg
        cases hg
        refine ⟨(idGroup tol numip q us g).2, rfl, ?_⟩
        intro e el he
        obtain ⟨k, u, h1, h2, h3⟩ := a3 e el he
        refine ⟨k, u, h1, ?_, h3⟩
        simp only [idGroups]
        rw [b1]
        exact getElem?_append_some h2
      | succ grp => exact b3 grp g' (by simpa using hg)

/-! ## Lemmas: simple meshes -/

theorem usersX_seq (NX : Nat) : ∀ (gs : List (List Nat)) (prog n : Nat), gs.flatten = List.range' prog n →
    usersX NX gs prog = (gs.flatten).filter (fun el => el < NX) := by
  intro gs
  induction gs with
  | nil => intro prog n _; simp [usersX]
  | cons g gs ih =>
    intro prog n h
    rw [List.flatten_cons] at h
    have hl : g.length ≤ n := by
      have := congrArg List.length h
      simp at this
      omega
    have hsplit : List.range' prog n = List.range' prog g.length ++ List.range' (prog + g.length) (n - g.length) := by
      rw [List.range'_append_1]; congr 1; omega
    rw [hsplit] at h
    obtain ⟨hg, hgs⟩ := List.append_inj h (by simp)
    rw [List.flatten_cons, List.filter_append]
    unfold usersX
    split_ifs with hp
    · congr 1
      by_cases hb : prog + g.length ≤ NX
      · have hall : g.filter (fun el => el < NX) = g := by
          rw [List.filter_eq_self]
          intro el hel
          rw [hg, List.mem_range'_1] at hel
          simpa using (by omega : el < NX)
        rw [hall]
        exact ih _ _ hgs
      · have hlen : (g.filter (fun el => el < NX)).length = NX - prog := by
          rw [hg, ← List.countP_eq_length_filter]
          have e : List.range' prog g.length = List.range' prog (NX - prog) ++ List.range' NX (g.length - (NX - prog)) := by
            have e0 := List.range'_append_1 (s := prog) (m := NX - prog) (n := g.length - (NX - prog))
            rw [show prog + (NX - prog) = NX by omega] at e0
            rw [e0]; congr 1; omega
          rw [e, List.countP_append]
          have c1 : (List.range' prog (NX - prog)).countP (fun el => el < NX) = NX - prog := by
            have h := List.countP_eq_length (p := fun el => decide (el < NX)) (l := List.range' prog (NX - prog))
            rw [List.length_range'] at h
            rw [h]
            intro a ha
            rw [List.mem_range'_1] at ha
            simpa using (by omega : a < NX)
          have c2 : (List.range' NX (g.length - (NX - prog))).countP (fun el => el < NX) = 0 := by
            rw [List.countP_eq_zero]
            intro a ha
            rw [List.mem_range'_1] at ha
            simpa using ha.1
          rw [c1, c2, Nat.add_zero]
        have h0 : usersX NX gs (prog + (g.filter (fun el => el < NX)).length) = [] := by
          rw [hlen]
          cases gs with
          | nil => simp [usersX]
          | cons g' gs =>
            unfold usersX
            rw [if_neg (by omega)]
        rw [h0, hgs, eq_comm, List.filter_eq_nil_iff]
        intro a ha
        rw [List.mem_range'_1] at ha
        simpa using (by omega : NX ≤ a)
    · have h1 : g.filter (fun el => el < NX) = [] := by
        rw [List.filter_eq_nil_iff]
        intro a ha
        rw [hg, List.mem_range'_1] at ha
        simpa using (by omega : NX ≤ a)
      have h2 : gs.flatten.filter (fun el => el < NX) = [] := by
        rw [List.filter_eq_nil_iff]
        intro a ha
        rw [hgs, List.mem_range'_1] at ha
        simpa using (by omega : NX ≤ a)
      rw [h1, h2]
      rfl

theorem usersX_get {NX n el : Nat} {gs : List (List Nat)} (h : gs.flatten = List.range n) (hN : 0 < NX) (hel : el < n) :
    (usersX NX gs 0)[el % NX]? = some (el % NX) := by
  rw [usersX_seq NX gs 0 n (by rw [h, List.range_eq_range']), h]
  have hm : el % NX < NX := Nat.mod_lt _ hN
  have hle : el % NX ≤ el := Nat.mod_le _ _
  have : (List.range n).filter (fun el => el < NX) = List.range (min NX n) := by
    rcases Nat.le_total n NX with hc | hc
    · rw [Nat.min_eq_right hc, List.filter_eq_self]
      intro a ha
      rw [List.mem_range] at ha
      simpa using (by omega : a < NX)
    · rw [Nat.min_eq_left hc]
      obtain ⟨k, rfl⟩ := Nat.exists_eq_add_of_le hc
      rw [List.range_add, List.filter_append]
      have e1 : (List.range NX).filter (fun el => el < NX) = List.range NX := by
        rw [List.filter_eq_self]
        intro a ha
        simpa using ha
      have e2 : ((List.range k).map (fun x => NX + x)).filter (fun el => el < NX) = [] := by
        rw [List.filter_eq_nil_iff]
        intro a ha
        obtain ⟨x, -, rfl⟩ := List.mem_map.1 ha
        simp
      rw [e1, e2, List.append_nil]
  rw [this, List.getElem?_range (by omega)]

theorem scanY_spec {NX : Nat} (hN : 0 < NX) : ∀ (m s prog : Nat), s ≤ prog * NX →
    (scanY NX (List.range' s m) prog).2 = prog + (scanY NX (List.range' s m) prog).1.length ∧
    (∀ k, k < (scanY NX (List.range' s m) prog).1.length → (scanY NX (List.range' s m) prog).1[k]? = some ((prog + k) * NX)) ∧
    s + m ≤ (prog + (scanY NX (List.range' s m) prog).1.length) * NX ∧
    (prog * NX < s + m → 0 < (scanY NX (List.range' s m) prog).1.length) := by
  intro m
  induction m with
  | zero => intro s prog h; simp [scanY, h]
  | succ m ih =>
    intro s prog h
    rw [List.range'_succ]
    unfold scanY
    split_ifs with he
    · have h' : s + 1 ≤ (prog + 1) * NX := by rw [Nat.add_mul]; omega
      obtain ⟨h1, h2, h3, -⟩ := ih (s + 1) (prog + 1) h'
      simp only
      refine ⟨by rw [h1, List.length_cons]; omega, ?_, ?_, fun _ => by simp⟩
      · intro k hk
        cases k with
        | zero => simp [he]
        | succ k =>
          rw [List.getElem?_cons_succ, h2 k (by simpa using hk)]
          congr 2
          omega
      · rw [List.length_cons]
        calc s + (m + 1) = s + 1 + m := by omega
          _ ≤ _ := h3
          _ = _ := by congr 1; omega
    · obtain ⟨h1, h2, h3, h4⟩ := ih (s + 1) prog (by omega)
      exact ⟨h1, h2, by omega, fun h => h4 (by omega)⟩

theorem usersY_spec {NX NY : Nat} (hN : 0 < NX) : ∀ (gs : List (List Nat)) (fuel s n prog : Nat),
    gs.flatten = List.range' s n → (∀ g ∈ gs, g ≠ []) → s ≤ prog * NX → (NY - prog) + gs.length + 1 ≤ fuel →
    ∃ u, usersY NX NY fuel gs prog = some u ∧
      ∀ k, prog + k < NY → (prog + k) * NX < s + n → u[k]? = some ((prog + k) * NX) := by
  intro gs
  induction gs with
  | nil =>
    intro fuel s n prog h _ hs hf
    obtain ⟨f, rfl⟩ : ∃ f, fuel = f + 1 := ⟨fuel - 1, by omega⟩
    refine ⟨[], by unfold usersY; simp, ?_⟩
    intro k _ hk
    have : n = 0 := by
      have := congrArg List.length h
      simpa using this.symm
    have : prog * NX ≤ (prog + k) * NX := Nat.mul_le_mul_right _ (by omega)
    omega
  | cons g gs ih =>
    intro fuel s n prog h hne hs hf
    rw [List.length_cons] at hf
    rw [List.flatten_cons] at h
    have hl : g.length ≤ n := by
      have := congrArg List.length h
      simp at this
      omega
    have hgpos : 0 < g.length := List.length_pos_of_ne_nil (hne g (by simp))
    have hsplit : List.range' s n = List.range' s g.length ++ List.range' (s + g.length) (n - g.length) := by
      rw [List.range'_append_1]; congr 1; omega
    rw [hsplit] at h
    obtain ⟨hg, hgs⟩ := List.append_inj h (by simp)
    have hhead : g.head? = some s := by
      rw [hg, List.head?_range', if_neg (by omega)]
    have hlast : g.getLast? = some (s + g.length - 1) := by
      rw [hg, List.getLast?_range', List.length_range', if_neg (by omega)]
    have hne' : ∀ g' ∈ gs, g' ≠ [] := fun g' hg' => hne g' (List.mem_cons_of_mem _ hg')
    have step : ∀ (fuel prog : Nat), s + g.length ≤ prog * NX → (NY - prog) + gs.length + 2 ≤ fuel →
        ∃ u, usersY NX NY fuel (g :: gs) prog = some u ∧
          ∀ k, prog + k < NY → (prog + k) * NX < s + n → u[k]? = some ((prog + k) * NX) := by
      intro fuel prog hp hf
      obtain ⟨f, rfl⟩ : ∃ f, fuel = f + 1 := ⟨fuel - 1, by omega⟩
      by_cases hY : prog < NY
      · obtain ⟨u, h1, h2⟩ := ih f (s + g.length) (n - g.length) prog hgs hne' hp (by omega)
        refine ⟨u, ?_, fun k hk1 hk2 => h2 k hk1 (by omega)⟩
        rw [usersY, if_pos hY]
        simp only [hhead, hlast]
        rw [if_neg (by omega)]
        exact h1
      · refine ⟨[], by rw [usersY, if_neg hY], ?_⟩
        intro k hk
        omega
    obtain ⟨f, rfl⟩ : ∃ f, fuel = f + 1 := ⟨fuel - 1, by omega⟩
    by_cases hY : prog < NY
    · by_cases hin : prog * NX < s + g.length
      · obtain ⟨h1, h2, h3, h4⟩ := scanY_spec hN g.length s prog hs
        have h4 := h4 hin
        rw [← hg] at h1 h2 h3 h4
        obtain ⟨u, e1, e2⟩ := step f (scanY NX g prog).2 (by rw [h1]; exact h3) (by rw [h1]; omega)
        refine ⟨(scanY NX g prog).1 ++ u, ?_, ?_⟩
        · rw [usersY, if_pos hY]
          simp only [hhead, hlast]
          rw [if_pos ⟨hs, by omega⟩, e1]
          rfl
        · intro k hk1 hk2
          by_cases hk : k < (scanY NX g prog).1.length
          · rw [List.getElem?_append_left hk]
            exact h2 k hk
          · rw [List.getElem?_append_right (by omega)]
            have := e2 (k - (scanY NX g prog).1.length)
            rw [h1] at this
            have ek : prog + (scanY NX g prog).1.length + (k - (scanY NX g prog).1.length) = prog + k := by omega
            rw [ek] at this
            exact this hk1 hk2
      · exact step (f + 1) prog (by omega) (by omega)
    · refine ⟨[], by rw [usersY, if_neg hY], ?_⟩
      intro k hk
      omega

/-- What a group of a simple mesh holds: the coordinates of other elements. -/
theorem coord_simple {s : Settings K} (hb : s.basisDb = true) (hi : s.ipDb = true) (hs : s.simple = true) (hd : s.dim = 2)
    (hNX : 0 < s.NX) (numip : Nat) (Q : Nat → Nat → Nat → K) {groups : List (List Nat)} {n : Nat}
    (hfl : groups.flatten = List.range n) (hne : ∀ g ∈ groups, g ≠ []) (hn : n ≤ s.NX * s.NY)
    {grp e el : Nat} {g : List Nat} (hg : groups[grp]? = some g) (he : g[e]? = some el) (pt : Nat) :
    coord s numip Q groups grp e 0 pt = some (Q 0 (el % s.NX) pt) ∧
    coord s numip Q groups grp e 1 pt = some (Q 1 (el / s.NX * s.NX) pt) := by
  have hel : el < n := by
    have : el ∈ groups.flatten := List.mem_flatten.2 ⟨g, List.mem_of_getElem? hg, List.mem_of_getElem? he⟩
    rw [hfl, List.mem_range] at this
    exact this
  obtain ⟨u, hu, hu'⟩ := usersY_spec (NY := s.NY) hNX groups (s.NY + groups.length + 1) 0 n 0
    (by rw [hfl, List.range_eq_range']) hne (by simp) (by omega)
  have hy : u[el / s.NX]? = some (el / s.NX * s.NX) := by
    have h1 : el / s.NX < s.NY := by
      rw [Nat.div_lt_iff_lt_mul hNX, Nat.mul_comm]
      omega
    have h2 : el / s.NX * s.NX ≤ el := Nat.div_mul_le_self _ _
    have := hu' (el / s.NX) (by omega) (by rw [Nat.zero_add]; omega)
    rwa [Nat.zero_add] at this
  have hx := usersX_get hfl hNX hel
  constructor
  · simp [coord, held, table, hb, hi, hs, hd, hu, hg, he, CView.read, List.getElem?_map, hx]
  · simp [coord, held, table, hb, hi, hs, hd, hu, hg, he, CView.read, List.getElem?_map, hy]

theorem cellPoint_at {X0 Y0 W H : K} {nx ny : Nat} {m : Mesh.Mesh (K × K)} (hm : rectangle X0 Y0 W H nx ny = some m)
    (shape : Nat → List K) (d pt : Nat) {el : Nat} (hel : el < nx * ny) :
    cellPoint shape m d el pt = some ((List.zipWith (fun w p => w * (if d = 0 then p.1 else p.2)) (shape pt)
      (corners X0 Y0 W H nx ny (el % nx) (el / nx))).sum) := by
  obtain ⟨h1, h2, h3⟩ := block_split hel
  have := (C121_cells hm [(el % nx, el / nx)] (by intro c hc; rw [List.mem_singleton] at hc; subst hc; exact ⟨h1, h2⟩)).1
  simp only [List.map_cons, List.map_nil] at this
  rw [← h3] at this
  unfold cellPoint
  rw [this]

theorem corner_x (X0 Y0 W H : K) (nx ny i j j' : Nat) (l : List K) :
    (List.zipWith (fun w (p : K × K) => w * (if (0 : Nat) = 0 then p.1 else p.2)) l (corners X0 Y0 W H nx ny i j)).sum =
    (List.zipWith (fun w (p : K × K) => w * (if (0 : Nat) = 0 then p.1 else p.2)) l (corners X0 Y0 W H nx ny i j')).sum := by
  rcases l with _ | ⟨a, _ | ⟨b, _ | ⟨c, _ | ⟨d, l⟩⟩⟩⟩ <;> simp [corners]

theorem corner_y (X0 Y0 W H : K) (nx ny i i' j : Nat) (l : List K) :
    (List.zipWith (fun w (p : K × K) => w * (if (1 : Nat) = 0 then p.1 else p.2)) l (corners X0 Y0 W H nx ny i j)).sum =
    (List.zipWith (fun w (p : K × K) => w * (if (1 : Nat) = 0 then p.1 else p.2)) l (corners X0 Y0 W H nx ny i' j)).sum := by
  rcases l with _ | ⟨a, _ | ⟨b, _ | ⟨c, _ | ⟨d, l⟩⟩⟩⟩ <;> simp [corners]

/-! ## Theorems -/

/-- C167: without "use ip database" every element has its own integration points. -/
theorem C167_direct (s : Settings K) (hi : s.ipDb = false) (numip : Nat) (Q : Nat → Nat → Nat → K) (groups : List (List Nat))
    {grp e el d : Nat} {g : List Nat} (hd : d < s.dim) (hg : groups[grp]? = some g) (he : g[e]? = some el) (pt : Nat) :
    coord s numip Q groups grp e d pt = some (Q d el pt) := by
  simp [coord, held, hi, hg, he, CView.read, List.getElem?_map, Nat.not_le.2 hd]

/-- C167, meshes other than simple ones: with both databases the coordinate at every point of every element of every group is
that of the element up to the tolerance. -/
theorem C167_tolerance_partial (s : Settings K) (hb : s.basisDb = true) (hs : s.simple = false) (ht : 0 ≤ s.tol) (numip : Nat)
    (Q : Nat → Nat → Nat → K) (groups : List (List Nat)) {grp e el d : Nat} {g : List Nat} (hd : d < s.dim)
    (hg : groups[grp]? = some g) (he : g[e]? = some el) {pt : Nat} (hp : pt < numip) :
    ∃ v, coord s numip Q groups grp e d pt = some v ∧ |Q d el pt - v| ≤ s.tol := by
  cases hi : s.ipDb with
  | false => exact ⟨_, C167_direct s hi numip Q groups hd hg he pt, by simpa using ht⟩
  | true =>
    obtain ⟨-, -, h3⟩ := idGroups_spec ht numip (Q d) groups []
    obtain ⟨ks, hk, h⟩ := h3 grp g hg
    obtain ⟨k, u, e1, e2, e3⟩ := h e el he
    refine ⟨Q d u pt, ?_, close_le e3 hp⟩
    simp [coord, held, table, hb, hi, hs, hk, e1, e2, CView.read, List.getElem?_map, Nat.not_le.2 hd]

/-- C167, meshes other than simple ones: if the points of two elements that differ, differ by more than the tolerance at some
point, the coordinates are exactly those of the element. -/
theorem C167_exact_partial (s : Settings K) (hb : s.basisDb = true) (hs : s.simple = false) (ht : 0 ≤ s.tol) (numip : Nat)
    (Q : Nat → Nat → Nat → K) (groups : List (List Nat))
    (hsep : ∀ a ∈ groups.flatten, ∀ b ∈ groups.flatten, ∀ d, (∀ pt, pt < numip → |Q d a pt - Q d b pt| ≤ s.tol) →
      ∀ pt, pt < numip → Q d a pt = Q d b pt)
    {grp e el d : Nat} {g : List Nat} (hd : d < s.dim) (hg : groups[grp]? = some g) (he : g[e]? = some el) {pt : Nat}
    (hp : pt < numip) : coord s numip Q groups grp e d pt = some (Q d el pt) := by
  cases hi : s.ipDb with
  | false => exact C167_direct s hi numip Q groups hd hg he pt
  | true =>
    obtain ⟨⟨new, hn, hn'⟩, -, h3⟩ := idGroups_spec ht numip (Q d) groups []
    obtain ⟨ks, hk, h⟩ := h3 grp g hg
    obtain ⟨k, u, e1, e2, e3⟩ := h e el he
    have hu : u ∈ groups.flatten := by
      have := List.mem_of_getElem? e2
      rw [hn, List.nil_append] at this
      exact hn' u this
    have hel : el ∈ groups.flatten := List.mem_flatten.2 ⟨g, List.mem_of_getElem? hg, List.mem_of_getElem? he⟩
    rw [hsep el hel u hu d (fun pt hp => close_le e3 hp) pt hp]
    simp [coord, held, table, hb, hi, hs, hk, e1, e2, CView.read, List.getElem?_map, Nat.not_le.2 hd]

/-- C167: no two representatives in a table stand for the same points: each differs from every earlier one by more than the
tolerance at some point, so the table is as small as it can be when equal coordinates are the only close ones. -/
theorem C167_table (s : Settings K) (hb : s.basisDb = true) (hs : s.simple = false) (ht : 0 ≤ s.tol) (numip : Nat)
    (Q : Nat → Nat → Nat → K) (groups : List (List Nat)) (d : Nat) :
    ∃ us ks, table s numip Q groups d = some (us, ks) ∧
      us.Pairwise (fun a b => ∃ pt, pt < numip ∧ s.tol < |Q d b pt - Q d a pt|) ∧ ∀ u ∈ us, u ∈ groups.flatten := by
  obtain ⟨⟨new, hn, hn'⟩, h2, -⟩ := idGroups_spec ht numip (Q d) groups []
  refine ⟨_, _, by simp [table, hb, hs]; exact rfl, ?_, ?_⟩
  · refine (h2 List.Pairwise.nil).imp ?_
    intro a b h
    by_contra hc
    push Not at hc
    have : close s.tol numip (Q d b) (Q d a) = true := by
      unfold close
      rw [List.all_eq_true]
      intro pt hp
      simpa using hc pt (List.mem_range.1 hp)
    rw [this] at h
    cases h
  · intro u hu
    rw [hn, List.nil_append] at hu
    exact hn' u hu

/-- C167, simple meshes on one process: for every workset size the search for representatives ends and every element of
the rectangle has exactly its own integration points. -/
theorem C167_simple_partial (s : Settings K) (hb : s.basisDb = true) (hi : s.ipDb = true) (hs : s.simple = true)
    (hd : s.dim = 2) {X0 Y0 W H : K} {m : Mesh.Mesh (K × K)} (hm : rectangle X0 Y0 W H s.NX s.NY = some m)
    (shape : Nat → List K) (numip : Nat) (Q : Nat → Nat → Nat → K)
    (hQ : ∀ el d pt, el < m.numCells → d < 2 → cellPoint shape m d el pt = some (Q d el pt))
    (mode : String) (hmode : mode = "sequential" ∨ mode = "subgrid-preserving") (ws : Int) (hws : ws ≠ 0) :
    ∃ groups, createGroups mode ws m.numCells [] m.numCells = some groups ∧ groups.flatten = List.range m.numCells ∧
      ∀ (grp e el : Nat) (g : List Nat), groups[grp]? = some g → g[e]? = some el → ∀ d pt, d < 2 →
        coord s numip Q groups grp e d pt = some (Q d el pt) := by
  obtain ⟨hx, hy, hmm⟩ := rectangle_some hm
  have hcells : m.numCells = s.NX * s.NY := by rw [hmm]
  have hpos : m.numCells ≠ 0 := by rw [hcells]; exact (Nat.mul_pos hx hy).ne'
  obtain ⟨r, h1, h2, h3, -⟩ := seqLoop_spec (perGroup ws m.numCells) m.numCells (perGroup_pos ws _ hpos hws) m.numCells 0 (by omega)
  have hfl : r.flatten = List.range m.numCells := by rw [h2, Nat.sub_zero, ← List.range_eq_range']
  refine ⟨r, ?_, hfl, ?_⟩
  · rcases hmode with rfl | rfl <;> simp [createGroups, hpos, h1]
  · intro grp e el g hg he d pt hd2
    have hel : el < m.numCells := by
      have : el ∈ r.flatten := List.mem_flatten.2 ⟨g, List.mem_of_getElem? hg, List.mem_of_getElem? he⟩
      rw [hfl, List.mem_range] at this
      exact this
    obtain ⟨c0, c1⟩ := coord_simple hb hi hs hd hx numip Q hfl (fun g hg => (h3 g hg).1) (by omega) hg he pt
    have hle : el % s.NX ≤ el := Nat.mod_le _ _
    have hle' : el / s.NX * s.NX ≤ el := Nat.div_mul_le_self _ _
    rcases (by omega : d = 0 ∨ d = 1) with rfl | rfl
    · rw [c0, ← hQ _ 0 pt (by omega) (by omega), ← hQ el 0 pt hel (by omega), cellPoint_at hm shape 0 pt (by omega), cellPoint_at hm shape 0 pt (by omega),
        Nat.mod_mod, corner_x X0 Y0 W H s.NX s.NY (el % s.NX) (el % s.NX / s.NX) (el / s.NX)]
    · rw [c1, ← hQ _ 1 pt (by omega) (by omega), ← hQ el 1 pt hel (by omega), cellPoint_at hm shape 1 pt (by omega), cellPoint_at hm shape 1 pt (by omega),
        Nat.mul_div_cancel _ hx, Nat.mul_mod_left, corner_y X0 Y0 W H s.NX s.NY 0 (el % s.NX) (el / s.NX)]

/-- C167, simple meshes on several processes above each other (`Xprocs` one): as on one process. -/
theorem C167_rows_partial (s : Settings K) (hb : s.basisDb = true) (hi : s.ipDb = true) (hs : s.simple = true)
    (hd : s.dim = 2) {X0 Y0 W H : K} {procid yprocs : Nat} {m : Mesh.Mesh (K × K)}
    (hm : rectangleParallel X0 Y0 W H s.NX s.NY procid 1 yprocs = .ok m)
    (shape : Nat → List K) (numip : Nat) (Q : Nat → Nat → Nat → K)
    (hQ : ∀ el d pt, el < m.numCells → d < 2 → cellPoint shape m d el pt = some (Q d el pt))
    {groups : List (List Nat)} (hfl : groups.flatten = List.range m.numCells) (hne : ∀ g ∈ groups, g ≠ [])
    {grp e el : Nat} {g : List Nat} (hg : groups[grp]? = some g) (he : g[e]? = some el) {d : Nat} (hd2 : d < 2) (pt : Nat) :
    coord s numip Q groups grp e d pt = some (Q d el pt) := by
  have key : ∃ (a b w h : K) (ny : Nat), rectangle a b w h s.NX ny = some m ∧ ny ≤ s.NY := by
    unfold rectangleParallel part at hm
    simp only [one_ne_zero, if_false] at hm
    by_cases h0 : yprocs = 0
    · rw [if_pos h0] at hm; cases hm
    rw [if_neg h0] at hm
    by_cases h1 : procid > 1 * yprocs
    · rw [if_pos h1] at hm; cases hm
    rw [if_neg h1] at hm
    simp only [Bind.bind, Except.bind, Part.mesh, Nat.div_one] at hm
    split at hm
    · cases hm
    · rename_i m' hm'
      cases hm
      exact ⟨_, _, _, _, _, hm', Nat.div_le_self _ _⟩
  obtain ⟨a, b, w, h, ny, hr, hny⟩ := key
  obtain ⟨hx, hy, hmm⟩ := rectangle_some hr
  have hcells : m.numCells = s.NX * ny := by rw [hmm]
  have hle0 : s.NX * ny ≤ s.NX * s.NY := Nat.mul_le_mul_left _ hny
  have hel : el < m.numCells := by
    have : el ∈ groups.flatten := List.mem_flatten.2 ⟨g, List.mem_of_getElem? hg, List.mem_of_getElem? he⟩
    rw [hfl, List.mem_range] at this
    exact this
  obtain ⟨c0, c1⟩ := coord_simple hb hi hs hd hx numip Q hfl hne (by omega) hg he pt
  have hle : el % s.NX ≤ el := Nat.mod_le _ _
  have hle' : el / s.NX * s.NX ≤ el := Nat.div_mul_le_self _ _
  rcases (by omega : d = 0 ∨ d = 1) with rfl | rfl
  · rw [c0, ← hQ _ 0 pt (by omega) (by omega), ← hQ el 0 pt hel (by omega), cellPoint_at hr shape 0 pt (by omega), cellPoint_at hr shape 0 pt (by omega),
      Nat.mod_mod, corner_x a b w h s.NX ny (el % s.NX) (el % s.NX / s.NX) (el / s.NX)]
  · rw [c1, ← hQ _ 1 pt (by omega) (by omega), ← hQ el 1 pt hel (by omega), cellPoint_at hr shape 1 pt (by omega), cellPoint_at hr shape 1 pt (by omega),
      Nat.mul_div_cancel _ hx, Nat.mul_mod_left, corner_y a b w h s.NX ny 0 (el % s.NX) (el / s.NX)]

/-- C167 is false for simple meshes on processes beside each other: the table is made with the number of elements of the whole
mesh in a row, not of the part, so the first element of the second row of every process is given the second coordinates
of the first row. -/
theorem C167_parallel_violated (s : Settings K) (hb : s.basisDb = true) (hi : s.ipDb = true) (hs : s.simple = true)
    (hd : s.dim = 2) {nx ny xprocs : Nat} (hx : 0 < nx) (hX : 2 ≤ xprocs) (hNX : s.NX = xprocs * nx)
    (hNY : ny ≤ s.NY) (numip : Nat) (Q : Nat → Nat → Nat → K) {groups : List (List Nat)}
    (hfl : groups.flatten = List.range (nx * ny)) (hne : ∀ g ∈ groups, g ≠ [])
    {grp e : Nat} {g : List Nat} (hg : groups[grp]? = some g) (he : g[e]? = some nx) (pt : Nat)
    (hQ : Q 1 0 pt ≠ Q 1 nx pt) :
    coord s numip Q groups grp e 1 pt = some (Q 1 0 pt) ∧ coord s numip Q groups grp e 1 pt ≠ some (Q 1 nx pt) := by
  have hlt : nx < s.NX := by
    rw [hNX]
    calc nx < 2 * nx := by omega
      _ ≤ xprocs * nx := Nat.mul_le_mul_right _ hX
  have h1 : nx * ny ≤ s.NX * s.NY := Nat.mul_le_mul (by omega) hNY
  obtain ⟨-, c1⟩ := coord_simple hb hi hs hd (by omega) numip Q hfl hne h1 hg he pt
  rw [Nat.div_eq_of_lt hlt, Nat.zero_mul] at c1
  exact ⟨c1, by rw [c1]; intro h; exact hQ (Option.some.inj h)⟩

theorem coord_empty {s : Settings K} (hi : s.ipDb = true) {numip : Nat} {Q : Nat → Nat → Nat → K} {groups : List (List Nat)}
    {d : Nat} (ht : table s numip Q groups d = some ([], groups.map (fun _ => []))) (grp e pt : Nat) :
    coord s numip Q groups grp e d pt = none := by
  unfold coord held
  by_cases h : s.dim ≤ d
  · rw [if_pos h]
  · rw [if_neg h, if_pos hi, ht]
    simp only [List.getElem?_map]
    cases groups[grp]? <;> simp [CView.read]

/-- C167 is false for simple meshes in three dimensions: nothing is put into the tables and no coordinate can be read. -/
theorem C167_brick_violated (s : Settings K) (hi : s.ipDb = true) (hs : s.simple = true) (hd : s.dim ≠ 2) (numip : Nat)
    (Q : Nat → Nat → Nat → K) (groups : List (List Nat)) (grp e d pt : Nat) : coord s numip Q groups grp e d pt = none := by
  refine coord_empty hi ?_ grp e pt
  cases hb : s.basisDb <;> simp [table, hb, hs, hd]

/-- C167 is false with "use ip database" alone: the tables are made with "use basis database" only and no coordinate can be read. -/
theorem C167_alone_violated (s : Settings K) (hb : s.basisDb = false) (hi : s.ipDb = true) (numip : Nat)
    (Q : Nat → Nat → Nat → K) (groups : List (List Nat)) (grp e d pt : Nat) : coord s numip Q groups grp e d pt = none :=
  coord_empty hi (by simp [table, hb]) grp e pt

theorem take_lt {groups : List (List Nat)} {grp : Nat} {g : List Nat} (hg : groups[grp]? = some g) (hne : g ≠ []) :
    ((groups.take grp).map List.length).sum < groups.flatten.length := by
  obtain ⟨h1, h2⟩ := List.getElem?_eq_some_iff.1 hg
  rw [List.length_flatten]
  conv_rhs => rw [← List.take_append_drop grp groups, List.map_append, List.sum_append]
  have : 0 < g.length := List.length_pos_of_ne_nil hne
  rw [List.drop_eq_getElem_cons h1, List.map_cons, List.sum_cons, h2]
  omega

/-- C167, weights: with "storage proportion" at least one, which is the default, every element has its own weights. -/
theorem C167_weights_partial (s : Settings K) {share : K} (hsh : 1 ≤ share) (basis : List Nat × List (List Nat))
    (w : Nat → Nat → K) (groups : List (List Nat)) {grp e el : Nat} {g : List Nat} (hg : groups[grp]? = some g)
    (he : g[e]? = some el) (pt : Nat) : weight s share basis w groups grp e pt = some (w el pt) := by
  have hne : g ≠ [] := by rintro rfl; simp at he
  have hst : stored share groups grp = true := by
    unfold stored
    rw [decide_eq_true_iff]
    refine lt_of_lt_of_le ?_ hsh
    have h := take_lt hg hne
    have h0 : (0 : K) < ((groups.flatten.length : Nat) : K) := by exact_mod_cast lt_of_le_of_lt (Nat.zero_le _) h
    rw [div_lt_one h0]
    exact_mod_cast h
  simp [weight, heldWts, hst, hg, he, CView.read, List.getElem?_map]

/-- C167 is false for smaller values of "storage proportion" without a database: the groups beyond the share are given basis
functions computed on the fly but no weights. -/
theorem C167_weights_violated (s : Settings K) (hb : s.basisDb = false) {share : K} (basis : List Nat × List (List Nat))
    (w : Nat → Nat → K) (groups : List (List Nat)) {grp : Nat}
    (hst : share ≤ (((groups.take grp).map List.length).sum : K) / ((groups.flatten.length : Nat) : K)) (e pt : Nat) :
    weight s share basis w groups grp e pt = none := by
  have : stored share groups grp = false := by
    unfold stored
    rw [decide_eq_false_iff_not, not_lt]
    exact hst
  simp [weight, heldWts, this, hb, CView.read]

/-- C167, endless search: for groups that are not runs of consecutive elements, say with rows of two elements and the groups 0, 3 and 1, 2 the
search for the first element of the second row scans the first group forever.  (The partitions of the code give
consecutive elements for simple meshes.) -/
theorem C167_order_needed (fuel : Nat) : usersY 2 2 fuel [[0, 3], [1, 2]] 0 = none := by
  have h : ∀ fuel, usersY 2 2 fuel [[0, 3], [1, 2]] 1 = none := by
    intro fuel
    induction fuel with
    | zero => rfl
    | succ f ih => simp [usersY, scanY, ih]
  cases fuel with
  | zero => rfl
  | succ f => simp [usersY, scanY, h f]

/-! ## Cases -/

/-- Settings of the cases. [case] -/
def exSet (basis simple : Bool) (NX NY : Nat) : Settings ℚ :=
  { basisDb := basis, ipDb := true, simple := simple, dim := 2, NX := NX, NY := NY, tol := 1/1000 }

/-- Centres of the cells of a grid of unit squares. [case] -/
def exQ (nx : Nat) (d el _pt : Nat) : ℚ := if d = 0 then (el % nx : Nat) + 1/2 else (el / nx : Nat) + 1/2

/-- A mesh that is not simple, three by two cells in two groups: the tables have three and two entries; the last cell is read. -/
example : table (exSet true false 0 0) 1 (exQ 3) [[0, 1, 2, 3], [4, 5]] 0 = some ([0, 1, 2], [[0, 1, 2, 0], [1, 2]]) ∧
    table (exSet true false 0 0) 1 (exQ 3) [[0, 1, 2, 3], [4, 5]] 1 = some ([0, 3], [[0, 0, 0, 1], [1, 1]]) ∧
    coord (exSet true false 0 0) 1 (exQ 3) [[0, 1, 2, 3], [4, 5]] 1 1 0 0 = some (5/2) ∧
    coord (exSet true false 0 0) 1 (exQ 3) [[0, 1, 2, 3], [4, 5]] 1 1 1 0 = some (3/2) := by decide +kernel

/-- The separation asked for in `C167_exact_partial` holds there. -/
example : ∀ a ∈ [[0, 1, 2, 3], [4, 5]].flatten, ∀ b ∈ [[0, 1, 2, 3], [4, 5]].flatten, ∀ d, (∀ pt, pt < 1 → |exQ 3 d a pt - exQ 3 d b pt| ≤ 1/1000) →
    ∀ pt, pt < 1 → exQ 3 d a pt = exQ 3 d b pt := by
  intro a ha b hb d h pt hp
  obtain rfl : pt = 0 := by omega
  replace h := h 0 (by omega)
  by_cases hd : d = 0
  · subst hd
    revert a b
    decide +kernel
  · have e : ∀ x : Nat, exQ 3 d x 0 = exQ 3 1 x 0 := by intro x; simp [exQ, hd]
    rw [e, e] at h ⊢
    clear e hd
    revert a b
    decide +kernel

/-- Half of the elements stored: the second group has no weights. -/
example : stored (1/2 : ℚ) [[0, 1], [2, 3]] 0 = true ∧ stored (1/2 : ℚ) [[0, 1], [2, 3]] 1 = false ∧
    weight (exSet false false 0 0) (1/2) ([], []) (fun _ _ => 1) [[0, 1], [2, 3]] 0 1 0 = some 1 ∧
    weight (exSet false false 0 0) (1/2) ([], []) (fun _ _ => 1) [[0, 1], [2, 3]] 1 1 0 = none ∧
    weight (exSet true false 0 0) (1/2) ([0], [[0, 0], [0, 0]]) (fun _ _ => 1) [[0, 1], [2, 3]] 1 1 0 = some 1 := by decide +kernel

/-- The shape functions of the square at its centre. [case] -/
def exShape (_ : Nat) : List ℚ := [1/4, 1/4, 1/4, 1/4]

/-- `C167_simple_partial` applies to a simple mesh of three by two unit squares with worksets of four elements. -/
example : ∃ m : Mesh.Mesh (ℚ × ℚ), rectangle (0 : ℚ) 0 3 2 3 2 = some m ∧
    (∀ el d pt, el < m.numCells → d < 2 → cellPoint exShape m d el pt = some (exQ 3 d el pt)) ∧
    createGroups "sequential" 4 m.numCells [] m.numCells = some [[0, 1, 2, 3], [4, 5]] ∧
    coord (exSet true true 3 2) 1 (exQ 3) [[0, 1, 2, 3], [4, 5]] 1 0 1 0 = some (3/2) := by
  refine ⟨_, rfl, ?_, by decide +kernel, by decide +kernel⟩
  intro el d pt hel hd
  replace hel : el < 6 := hel
  change cellPoint exShape _ d el 0 = some (exQ 3 d el 0)
  clear pt
  revert d
  revert el
  decide +kernel

/-- `C167_parallel_violated` applies to two processes beside each other, with two by two cells each: element 2. -/
example : coord (exSet true true 4 2) 1 (exQ 2) [[0, 1, 2, 3]] 0 2 1 0 = some (1/2) ∧ exQ 2 1 2 0 = 3/2 := by decide +kernel

/-- `C167_rows_partial`: two processes above each other. -/
example : ∃ m : Mesh.Mesh (ℚ × ℚ), rectangleParallel (0 : ℚ) 0 2 2 2 2 1 1 2 = .ok m ∧ m.numCells = 2 := ⟨_, rfl, rfl⟩

end MrHyDE.Database.Points
