import Mathlib.Data.List.Infix
import Mathlib.Data.List.Basic

/-!
# Lists in the input and the requested physics modules (C98)

The modules of a block, and the physics sets, are given as one text with the separator ", ".
-/

namespace MrHyDE.Physics.Modules

/-! ## Model -/

/-- `std::string::find`: the first position at which `d` occurs, as used in
src/interfaces/physics/physicsInterface_util.hpp:19 and 24. -/
def find (d : List Char) : List Char → Option Nat
  | [] => if d = [] then some 0 else none
  | c :: l => if d <+: c :: l then some 0 else (find d l).map (fun p : Nat => p + 1)

/-- `breakupList`, physicsInterface_util.hpp:14-32 (the same code in
src/interfaces/mesh/meshInterface_util.hpp:341-359): the loop of lines 24-28 with a bound `n` on its rounds; `none`
says that the loop has not ended by then. -/
def breakup (d : List Char) : Nat → List Char → Option (List (List Char))
  | 0, _ => none
  | n + 1, l =>
      match find d l with
      | none => some [l]
      | some p => (breakup d n (l.drop (p + d.length))).map (fun ts => l.take p :: ts)

/-- The names of a list in the input, physicsInterface_construct.hpp:32 and 172. -/
def names (s : String) : Option (List String) :=
  (breakup ", ".toList (s.toList.length + 1) s.toList).map (fun ts => ts.map String.ofList)

/-- The tests of `PhysicsImporter::import`, src/physics/physicsImporter.cpp:76-257: the names and the class that is
created.  The modules behind the flags `MrHyDE_ENABLE_MIRAGE` and `MrHyDE_ENABLE_PIEZO` (lines 259-275) are left
out. -/
def table : List (List String × String) :=
  [(["physicsTest"], "physicsTest"), (["porous"], "porous"), (["porous mixed"], "porousMixed"),
   (["porous mixed hybridized"], "porousMixedHybrid"), (["porous weak Galerkin"], "porousWeakGalerkin"),
   (["cdr", "CDR"], "cdr"), (["cdr2", "CDR2"], "cdr2"), (["thermal"], "thermal"),
   (["ellipticPrior"], "ellipticPrior"), (["shallow water"], "shallowwater"), (["shallow ice"], "shallowice"),
   (["shallow water hybridized"], "shallowwaterHybridized"), (["maxwell"], "maxwell"),
   (["maxwell_control"], "maxwell_control"), (["maxwell bianisotropic"], "maxwell_bianisotropic"),
   (["msphasefield"], "msphasefield"), (["stokes", "Stokes"], "stokes"),
   (["navier stokes", "Navier Stokes"], "navierstokes"), (["hartmann"], "hartmann"),
   (["linearelasticity", "linear elasticity"], "linearelasticity"), (["elastodynamics"], "elastodynamics"),
   (["neohookean", "neo hookean"], "neohookean"), (["helmholtz"], "helmholtz"),
   (["maxwells_freq_pot"], "maxwells_fp"), (["ODE"], "ODE"), (["Burgers"], "Burgers"),
   (["Kuramoto-Sivashinsky"], "KuramotoSivashinsky"), (["llamas"], "llamas"), (["VDNS"], "VDNS"),
   (["Euler", "euler"], "euler"), (["VFP0d2v"], "VFP0d2v"), (["VFP1d2v"], "VFP1d2v"), (["VFP"], "VFP"),
   (["phase elliptic"], "PhaseElliptic"), (["incompressible saturation", "inc sat"], "incompressibleSaturation"),
   (["levelSet"], "levelSet")]

/-- The tests applied to one name, physicsImporter.cpp:73-257: each test is made, so each match creates a module. -/
def importOne (name : String) : List String :=
  table.filterMap (fun t : List String × String => if name ∈ t.1 then some t.2 else none)

/-- `PhysicsImporter::import`, physicsImporter.cpp:65-281. -/
def importAll (ns : List String) : List String := ns.flatMap importOne

/-- The modules created for the setting "modules", physicsInterface_construct.hpp:170-180. -/
def requested (s : String) : Option (List String) := (names s).map importAll

/-! ## Specification -/

/-- The class a name stands for. [specification, no code] -/
def classOf (name : String) : Option String :=
  (table.find? (fun t : List String × String => decide (name ∈ t.1))).map (fun t => t.2)

/-! ## Lemmas -/

theorem find_none {d l : List Char} : find d l = none ↔ ¬ d <:+: l := by
  induction l with
  | nil =>
      unfold find
      by_cases h : d = []
      · simp [h]
      · simp [h]
  | cons c l ih =>
      unfold find
      by_cases h : d <+: c :: l
      · rw [if_pos h]
        simp only [reduceCtorEq, false_iff, not_not]
        exact h.isInfix
      · rw [if_neg h]
        simp only [Option.map_eq_none_iff]
        rw [ih, List.infix_cons_iff]
        simp [h]

theorem find_some {d l : List Char} {p : Nat} (h : find d l = some p) :
    l = l.take p ++ d ++ l.drop (p + d.length) ∧ p + d.length ≤ l.length ∧ ∀ i < p, ¬ d <+: l.drop i := by
  induction l generalizing p with
  | nil =>
      unfold find at h
      by_cases hd : d = []
      · rw [if_pos hd] at h
        have : p = 0 := by simpa using h.symm
        subst this
        simp [hd]
      · rw [if_neg hd] at h
        simp at h
  | cons c l ih =>
      unfold find at h
      by_cases hd : d <+: c :: l
      · rw [if_pos hd] at h
        have : p = 0 := by simpa using h.symm
        subst this
        obtain ⟨t, ht⟩ := hd
        refine ⟨?_, ?_, by simp⟩
        · rw [← ht]; simp
        · rw [← ht]; simp
      · rw [if_neg hd] at h
        cases hf : find d l with
        | none => rw [hf] at h; simp at h
        | some q =>
            rw [hf] at h
            have hp : p = q + 1 := by simpa using h.symm
            subst hp
            obtain ⟨h1, h2, h3⟩ := ih hf
            refine ⟨?_, by simp; omega, ?_⟩
            · have e : q + 1 + d.length = (q + d.length) + 1 := by omega
              rw [e]
              simp only [List.take_succ_cons, List.drop_succ_cons, List.cons_append]
              rw [← h1]
            · intro i hi
              cases i with
              | zero => simpa using hd
              | succ i => simpa using h3 i (by omega)

theorem find_first {d l : List Char} {p : Nat} (h1 : d <+: l.drop p) (h2 : p ≤ l.length)
    (h3 : ∀ i < p, ¬ d <+: l.drop i) : find d l = some p := by
  induction l generalizing p with
  | nil =>
      have hp : p = 0 := by simpa using h2
      subst hp
      have : d = [] := by simpa using h1
      simp [find, this]
  | cons c l ih =>
      unfold find
      cases p with
      | zero => rw [if_pos (by simpa using h1)]
      | succ p =>
          rw [if_neg (by simpa using h3 0 (by omega))]
          rw [ih (p := p) (by simpa using h1) (by simpa using h2)
            (fun i hi => by simpa using h3 (i + 1) (by omega))]
          rfl

theorem breakup_spec (d : List Char) (hd : d ≠ []) (n : Nat) (l : List Char) (hn : l.length < n) :
    ∃ ts, breakup d n l = some ts ∧ ts ≠ [] ∧ List.intercalate d ts = l ∧ ∀ t ∈ ts, ¬ d <:+: t := by
  induction n generalizing l with
  | zero => omega
  | succ n ih =>
      unfold breakup
      cases hf : find d l with
      | none => exact ⟨[l], rfl, by simp, by simp [List.intercalate], by simpa using find_none.mp hf⟩
      | some p =>
          obtain ⟨h1, h2, h3⟩ := find_some hf
          have hdl : 0 < d.length := List.length_pos_iff.mpr hd
          obtain ⟨ts, a, b, c, e⟩ := ih (l.drop (p + d.length)) (by simp; omega)
          refine ⟨l.take p :: ts, by simp [a], by simp, ?_, ?_⟩
          · obtain ⟨t, ts', rfl⟩ := List.exists_cons_of_ne_nil b
            have : List.intercalate d (l.take p :: t :: ts') = l.take p ++ d ++ List.intercalate d (t :: ts') := by
              simp [List.intercalate, List.intersperse]
            rw [this, c]
            exact h1.symm
          · intro t ht
            rcases List.mem_cons.mp ht with h | h
            · subst h
              rintro ⟨x, y, hxy⟩
              have hlen : x.length + d.length + y.length = (l.take p).length := by
                rw [← hxy]; simp only [List.length_append]
              have hlp : (l.take p).length = p := by simp; omega
              apply h3 x.length (by omega)
              have hl : l = x ++ (d ++ (y ++ l.drop p)) := by
                conv_lhs => rw [← List.take_append_drop p l, ← hxy]
                simp
              have hdrop : l.drop x.length = d ++ (y ++ l.drop p) := by
                conv_lhs => rw [hl]
                simp
              rw [hdrop]
              exact List.prefix_append _ _
            · exact e t h

/-- A text of two different characters does not overlap itself. -/
theorem no_overlap {a b : Char} (hab : a ≠ b) {t rest : List Char} (ht : ¬ [a, b] <:+: t) (i : Nat)
    (hi : i < t.length) : ¬ [a, b] <+: (t ++ [a, b] ++ rest).drop i := by
  rintro ⟨y, hy⟩
  have h0 : (t ++ [a, b] ++ rest)[i]? = some a := by
    have : ((t ++ [a, b] ++ rest).drop i)[0]? = some a := by rw [← hy]; simp
    simpa using this
  have h1 : (t ++ [a, b] ++ rest)[i + 1]? = some b := by
    have : ((t ++ [a, b] ++ rest).drop i)[1]? = some b := by rw [← hy]; simp
    simpa using this
  rw [List.append_assoc] at h0 h1
  rw [List.getElem?_append_left hi] at h0
  by_cases h2 : i + 1 < t.length
  · rw [List.getElem?_append_left h2] at h1
    apply ht
    refine ⟨t.take i, t.drop (i + 2), ?_⟩
    have e : t.drop i = a :: b :: t.drop (i + 2) := by
      rw [List.drop_eq_getElem_cons hi, List.drop_eq_getElem_cons h2]
      rw [(List.getElem?_eq_some_iff.mp h0).2, (List.getElem?_eq_some_iff.mp h1).2]
    have := List.take_append_drop i t
    rw [e] at this
    simpa using this
  · have e : i + 1 = t.length := by omega
    rw [e] at h1
    simp at h1
    exact hab h1

theorem breakup_join {a b : Char} (hab : a ≠ b) (ts : List (List Char)) (hne : ts ≠ [])
    (hts : ∀ t ∈ ts, ¬ [a, b] <:+: t) (n : Nat) (hn : (List.intercalate [a, b] ts).length < n) :
    breakup [a, b] n (List.intercalate [a, b] ts) = some ts := by
  induction ts generalizing n with
  | nil => exact absurd rfl hne
  | cons t ts ih =>
      cases n with
      | zero => omega
      | succ n =>
          cases ts with
          | nil =>
              have e : List.intercalate [a, b] [t] = t := by simp [List.intercalate]
              rw [e]
              unfold breakup
              rw [find_none.mpr (hts t (by simp))]
          | cons t2 ts =>
              have e : List.intercalate [a, b] (t :: t2 :: ts) =
                  t ++ [a, b] ++ List.intercalate [a, b] (t2 :: ts) := by
                simp [List.intercalate, List.intersperse]
              rw [e] at hn ⊢
              unfold breakup
              have hf : find [a, b] (t ++ [a, b] ++ List.intercalate [a, b] (t2 :: ts)) = some t.length := by
                apply find_first
                · rw [List.append_assoc, List.drop_left]
                  exact List.prefix_append _ _
                · simp
                · intro i hi
                  exact no_overlap hab (hts t (by simp)) i hi
              rw [hf]
              have hd : (t ++ [a, b] ++ List.intercalate [a, b] (t2 :: ts)).drop (t.length + [a, b].length) =
                  List.intercalate [a, b] (t2 :: ts) := by
                rw [show t.length + [a, b].length = (t ++ [a, b]).length by simp, List.drop_left]
              have htk : (t ++ [a, b] ++ List.intercalate [a, b] (t2 :: ts)).take t.length = t := by
                rw [List.append_assoc, List.take_left]
              simp only []
              rw [hd, htk, ih (by simp) (fun x hx => hts x (List.mem_cons_of_mem _ hx)) n
                (by simp at hn ⊢; omega)]
              rfl

/-! ## Properties -/

/-- C98, nothing is lost: a text is always broken up, the pieces joined by the separator are the text, and no piece
contains the separator. -/
theorem C98_breakup (d l : List Char) (hd : d ≠ []) :
    ∃ ts, breakup d (l.length + 1) l = some ts ∧ ts ≠ [] ∧ List.intercalate d ts = l ∧ ∀ t ∈ ts, ¬ d <:+: t :=
  breakup_spec d hd (l.length + 1) l (by omega)

/-- C98, with an empty separator the loop never ends, for any text and any number of rounds. -/
theorem C98_empty_separator (n : Nat) (l : List Char) : breakup [] n l = none := by
  induction n generalizing l with
  | zero => rfl
  | succ n ih =>
      have hf : find [] l = some 0 := by cases l <;> simp [find]
      unfold breakup
      rw [hf]
      simp [ih]

/-- C98, the pieces are the terms: terms without ", " in them, written with ", " between them, are read back. -/
theorem C98_terms (ts : List String) (hne : ts ≠ []) (hts : ∀ t ∈ ts, ¬ ", ".toList <:+: t.toList) :
    names (String.ofList (List.intercalate ", ".toList (ts.map String.toList))) = some ts := by
  unfold names
  have e : ", ".toList = [',', ' '] := by decide
  rw [e] at hts ⊢
  rw [String.toList_ofList]
  rw [breakup_join (by decide) (ts.map String.toList) (by simpa using hne)
    (by intro t ht; obtain ⟨x, hx, rfl⟩ := List.mem_map.mp ht; exact hts x hx) _ (Nat.lt_succ_self _)]
  simp

example : names "thermal, navier stokes, cdr" = some ["thermal", "navier stokes", "cdr"] := by decide +kernel

theorem importOne_eq (name : String) : importOne name = (classOf name).toList := by
  have h : table.Pairwise (fun s t => ∀ n ∈ s.1, n ∉ t.1) := by decide +kernel
  unfold importOne classOf
  generalize table = tb at h
  induction tb with
  | nil => rfl
  | cons t tb ih =>
      obtain ⟨h1, h2⟩ := List.pairwise_cons.mp h
      by_cases hn : name ∈ t.1
      · rw [List.filterMap_cons_some (b := t.2) (by simp [hn]), List.find?_cons_of_pos (by simpa using hn)]
        have : tb.filterMap (fun t : List String × String => if name ∈ t.1 then some t.2 else none) = [] := by
          rw [List.filterMap_eq_nil_iff]
          intro s hs
          rw [if_neg (h1 s hs name hn)]
        rw [this]
        rfl
      · rw [List.filterMap_cons_none (by simp [hn]), List.find?_cons_of_neg (by simpa using hn)]
        exact ih h2

/-- C98, the modules, partial: when every requested name is a known one and the names are separated by ", ", the
block gets exactly the modules of these names in that order.  Missing: unknown names are not reported, see
`C98_unknown_violated`. -/
theorem C98_partial (ts cs : List String) (hne : ts ≠ []) (hts : ∀ t ∈ ts, ¬ ", ".toList <:+: t.toList)
    (hk : ts.map classOf = cs.map some) :
    requested (String.ofList (List.intercalate ", ".toList (ts.map String.toList))) = some cs := by
  unfold requested
  rw [C98_terms ts hne hts]
  simp only [Option.map_some, Option.some.injEq]
  clear hne hts
  unfold importAll
  induction ts generalizing cs with
  | nil => cases cs with
    | nil => rfl
    | cons c cs => simp at hk
  | cons t ts ih => cases cs with
    | nil => simp at hk
    | cons c cs =>
        simp only [List.map_cons, List.cons.injEq] at hk
        rw [List.flatMap_cons, importOne_eq, hk.1, ih cs hk.2]
        rfl

example : ["thermal", "Navier Stokes"].map classOf = ["thermal", "navierstokes"].map some ∧
    requested "thermal, Navier Stokes" = some ["thermal", "navierstokes"] := by decide +kernel

/-- C98 is violated by unknown names: a name that is not known adds nothing and is not reported; the other modules
are created as if it had not been requested. -/
theorem C98_unknown_violated (pre post : List String) (name : String) (h : classOf name = none) :
    importAll (pre ++ [name] ++ post) = importAll (pre ++ post) := by
  simp [importAll, importOne_eq, h]

example : classOf "Thermal" = none ∧ requested "Thermal, cdr" = some ["cdr"] := by decide +kernel

/-- C98 is violated by a separator without the blank, and by a second blank: the requested modules are not
created. [case] -/
theorem C98_blank_violated :
    requested "thermal,cdr" = some [] ∧ requested "thermal,  cdr" = some ["thermal"] ∧
    requested "thermal , cdr" = some ["cdr"] := by decide +kernel

/-- C98, two requests of a module: a name given twice creates two modules of the class (whose terms are then added
twice). -/
theorem C98_twice (name c : String) (h : classOf name = some c) (pre post : List String) :
    importAll (pre ++ [name, name] ++ post) = importAll pre ++ [c, c] ++ importAll post := by
  simp [importAll, importOne_eq, h]

end MrHyDE.Physics.Modules
