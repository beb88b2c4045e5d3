import Verif.Physics.Modules

/-!
# Data of the elements in the file of the mesh (C189)

With "have element data" the variables of the elements are read from the Exodus file of the mesh
(`MeshInterface::readExodusData`); sensors placed by the mesh take their positions and values from there.
-/

namespace MrHyDE.Mesh.ExoData

open MrHyDE.Physics.Modules (find breakup)

/-! ## Model -/

/-- An Exodus file as far as it is read by src/interfaces/mesh/meshInterface_exodus.hpp:61-112: the names of the element variables,
the number of elements of the block with a given number, and the values of a variable (counted from one) at a step (counted from
one) on a block.  Names longer than `MAX_STR_LENGTH` are left out. -/
structure File (K : Type) where
  names : List (List Char)
  count : Nat → Option Nat
  vals : Nat → Nat → Nat → Option (List K)

/-- What `readExodusData` leaves in `efield_names`, `efield_vals` and `numResponses`,
src/interfaces/mesh/meshInterface.hpp:370-375; `none` for a number never set. -/
structure Data (K : Type) where
  names : List (List Char)
  vals : List (List K)
  responses : Option Int
  deriving DecidableEq

/-- The name of the file a process opens, meshInterface_exodus.hpp:34-53. -/
def fileName (file : List Char) (size rank : Nat) : List Char :=
  if 1 < size then file ++ '.' :: Nat.toDigits 10 size ++ '.' :: Nat.toDigits 10 rank else file

/-- The blanks skipped before a number is read from a stream; `snr >> nr`, meshInterface_exodus.hpp:104. -/
def blank (c : Char) : Bool := c = ' ' || c = '\t' || c = '\n' || c = '\r' || c = Char.ofNat 11 || c = Char.ofNat 12

/-- The value stored for a number that need not fit into an `int`, meshInterface_exodus.hpp:104. -/
def clamp (v : Int) : Int := max (-2147483648) (min v 2147483647)

/-- `snr >> nr`, meshInterface_exodus.hpp:103-104, with `nr` declared without a value (line 100): a text of which nothing is left
after the blanks leaves `nr` untouched, so it is `none`; a text that does not begin with a number gives zero. -/
def readInt (t : List Char) : Option Int :=
  match t.dropWhile blank with
  | [] => none
  | '-' :: r => some (clamp (-(Nat.ofDigitChars 10 (r.takeWhile Char.isDigit) 0 : Nat)))
  | '+' :: r => some (clamp (Nat.ofDigitChars 10 (r.takeWhile Char.isDigit) 0 : Nat))
  | r => some (clamp (Nat.ofDigitChars 10 (r.takeWhile Char.isDigit) 0 : Nat))

/-- The number of responses after one more name, meshInterface_exodus.hpp:96-106: the fourth part of a name that contains "Val".
`none`: there is no fourth part (an entry outside a vector), or it holds no number. -/
def bump (r : Int) (name : List Char) : Option Int :=
  match find ['V', 'a', 'l'] name with
  | none => some r
  | some _ => do
      let parts ← breakup ['_'] (name.length + 1) name
      let p ← parts[3]?
      let nr ← readInt p
      some (max r nr)

/-- The loop over the variables, meshInterface_exodus.hpp:89-113, from variable `i` on.  The number of elements is that of the block
with number 1 and the step is 1 (lines 69-77).  `none`: the number of elements was never set, or an array is read without having been
filled. -/
def readVars {K : Type} (f : File K) : Nat → List (List Char) → Int → Option (Data K)
  | _, [], r => some ⟨[], [], some r⟩
  | i, name :: rest, r => do
      let n ← f.count 1
      let r' ← bump r name
      let v ← f.vals (i + 1) 1 1
      if v.length = n then
        let d ← readVars f (i + 1) rest r'
        some ⟨name :: d.names, v :: d.vals, d.responses⟩
      else none

/-- `readExodusData`, meshInterface_exodus.hpp:27-183, called when one of the two settings is given
(src/interfaces/mesh/meshInterface_construct.hpp:567-570).  The errors of the library are stored and not looked at (lines 63-75): with
a file that cannot be opened the number of variables stays zero (line 83).  The part for nodal data is a comment (lines 116-178). -/
def read {K : Type} (folder : List Char → Option (File K)) (elementData nodalData : Bool) (file : List Char) (size rank : Nat) :
    Option (Data K) :=
  if elementData || nodalData then
    if elementData then
      match folder (fileName file size rank) with
      | none => some ⟨[], [], some 1⟩
      | some f => readVars f 0 f.names 1
    else some ⟨[], [], none⟩
  else some ⟨[], [], none⟩

/-! ## Specification -/

/-- The name contains "Val". [specification, no code] -/
def HasVal (name : List Char) : Prop := ∃ a b, name = a ++ ['V', 'a', 'l'] ++ b

/-- The name is three parts and the number `k`, with "_" between them, possibly followed by "_" and more. [specification, no code] -/
def Numbered (k : Nat) (name : List Char) : Prop :=
  ∃ p q s t : List Char, '_' ∉ p ∧ '_' ∉ q ∧ '_' ∉ s ∧ (t = [] ∨ ∃ u, t = '_' :: u) ∧
    name = p ++ '_' :: (q ++ '_' :: (s ++ '_' :: (Nat.toDigits 10 k ++ t)))

/-- The names are ones the code can read. [specification, no code] -/
def Readable (names : List (List Char)) : Prop := ∀ n ∈ names, HasVal n → ∃ k, k < 2147483648 ∧ Numbered k n

/-- The file of a process as tools that spread a mesh name it: the rank filled with zeros to the width of the number of processes.
[specification, no code] -/
def spreadName (file : List Char) (size rank : Nat) : List Char :=
  file ++ '.' :: Nat.toDigits 10 size ++ '.' ::
    (List.replicate ((Nat.toDigits 10 size).length - (Nat.toDigits 10 rank).length) '0' ++ Nat.toDigits 10 rank)

/-! ## Lemmas -/

theorem hasVal_iff (name : List Char) : HasVal name ↔ find ['V', 'a', 'l'] name ≠ none := by
  rw [Ne, MrHyDE.Physics.Modules.find_none, not_not]
  constructor
  · rintro ⟨a, b, h⟩; exact ⟨a, b, h.symm⟩
  · rintro ⟨a, b, h⟩; exact ⟨a, b, h.symm⟩

theorem find_bar (p l : List Char) (hp : '_' ∉ p) : find ['_'] (p ++ '_' :: l) = some p.length := by
  induction p with
  | nil => simp [find]
  | cons c p ih =>
      have hc : '_' ≠ c := fun e => hp (List.mem_cons.mpr (Or.inl e))
      have hp' : '_' ∉ p := fun e => hp (by simp [e])
      rw [List.cons_append, find, if_neg (by simpa using hc), ih hp']
      rfl

theorem find_no_bar (p : List Char) (hp : '_' ∉ p) : find ['_'] p = none := by
  rw [MrHyDE.Physics.Modules.find_none]
  rintro ⟨a, b, h⟩
  exact hp (by rw [← h]; simp)

theorem breakup_bar (n : Nat) (p l : List Char) (hp : '_' ∉ p) :
    breakup ['_'] (n + 1) (p ++ '_' :: l) = (breakup ['_'] n l).map (fun ts => p :: ts) := by
  rw [breakup, find_bar p l hp]
  simp

theorem breakup_head (n : Nat) (p t : List Char) (hp : '_' ∉ p) (ht : t = [] ∨ ∃ u, t = '_' :: u) (hn : (p ++ t).length < n) :
    ∃ ts, breakup ['_'] n (p ++ t) = some (p :: ts) := by
  obtain ⟨m, rfl⟩ : ∃ m, n = m + 1 := ⟨n - 1, by omega⟩
  rcases ht with rfl | ⟨u, rfl⟩
  · refine ⟨[], ?_⟩
    rw [List.append_nil, breakup, find_no_bar p hp]
  · rw [breakup_bar m p u hp]
    obtain ⟨ts, h, -⟩ := MrHyDE.Physics.Modules.breakup_spec ['_'] (by simp) m u (by simp at hn; omega)
    exact ⟨ts, by rw [h]; rfl⟩

theorem bar_digits (k : Nat) : '_' ∉ Nat.toDigits 10 k := Nat.underscore_not_in_toDigits

theorem takeWhile_digits (k : Nat) : (Nat.toDigits 10 k).takeWhile Char.isDigit = Nat.toDigits 10 k := by
  have hd : ∀ c ∈ Nat.toDigits 10 k, c.isDigit = true := fun c hc => Nat.isDigit_of_mem_toDigits (by omega) (by omega) hc
  generalize Nat.toDigits 10 k = l at hd
  induction l with
  | nil => rfl
  | cons c l ih => simp [hd c (by simp), ih (fun a ha => hd a (by simp [ha]))]

theorem digit_not_blank {c : Char} (h : c.isDigit = true) : blank c = false ∧ c ≠ '-' ∧ c ≠ '+' := by
  refine ⟨?_, ?_, ?_⟩
  · by_contra hb
    have : blank c = true := by simpa using hb
    simp only [blank, Bool.or_eq_true, decide_eq_true_eq] at this
    rcases this with ((((h' | h') | h') | h') | h') | h' <;> (rw [h'] at h; revert h; decide)
  · rintro rfl; revert h; decide
  · rintro rfl; revert h; decide

theorem readInt_digits (k : Nat) (hk : k < 2147483648) : readInt (Nat.toDigits 10 k) = some (k : Int) := by
  have ho : Nat.ofDigitChars 10 (Nat.toDigits 10 k) 0 = k := Nat.ofDigitChars_toDigits (by omega) (by omega)
  have hw := takeWhile_digits k
  have hd : ∀ c ∈ Nat.toDigits 10 k, c.isDigit = true := fun c hc => Nat.isDigit_of_mem_toDigits (by omega) (by omega) hc
  have hne : Nat.toDigits 10 k ≠ [] := Nat.toDigits_ne_nil
  generalize Nat.toDigits 10 k = l at ho hw hd hne
  cases l with
  | nil => exact absurd rfl hne
  | cons c l =>
      obtain ⟨h1, h2, h3⟩ := digit_not_blank (hd c (by simp))
      have hdw : (c :: l).dropWhile blank = c :: l := by simp [h1]
      unfold readInt
      rw [hdw]
      split
      · next h => simp at h
      · next h => simp at h; exact absurd h.1 h2
      · next h => simp at h; exact absurd h.1 h3
      · rw [hw, ho]
        simp only [clamp, Option.some.injEq]
        omega

theorem bump_part (r : Int) (p q s x t : List Char) (hp : '_' ∉ p) (hq : '_' ∉ q) (hs : '_' ∉ s) (hx : '_' ∉ x)
    (ht : t = [] ∨ ∃ u, t = '_' :: u) (hv : HasVal (p ++ '_' :: (q ++ '_' :: (s ++ '_' :: (x ++ t))))) :
    bump r (p ++ '_' :: (q ++ '_' :: (s ++ '_' :: (x ++ t)))) = (readInt x).map (fun k => max r k) := by
  obtain ⟨m, hm⟩ := Option.ne_none_iff_exists'.mp ((hasVal_iff _).mp hv)
  unfold bump
  rw [hm]
  obtain ⟨ts, hts⟩ := breakup_head ((p ++ '_' :: (q ++ '_' :: (s ++ '_' :: (x ++ t)))).length - 2) x t
    hx ht (by simp only [List.length_append, List.length_cons]; omega)
  have hb : breakup ['_'] ((p ++ '_' :: (q ++ '_' :: (s ++ '_' :: (x ++ t)))).length + 1)
      (p ++ '_' :: (q ++ '_' :: (s ++ '_' :: (x ++ t)))) = some (p :: q :: s :: x :: ts) := by
    generalize hL : (p ++ '_' :: (q ++ '_' :: (s ++ '_' :: (x ++ t)))).length = L at hts
    have hL2 : 2 ≤ L := by rw [← hL]; simp only [List.length_append, List.length_cons]; omega
    rw [breakup_bar _ _ _ hp]
    obtain ⟨L', rfl⟩ : ∃ L', L = L' + 2 := ⟨L - 2, by omega⟩
    rw [breakup_bar _ _ _ hq, breakup_bar _ _ _ hs]
    have : L' + 2 - 2 = L' := by omega
    rw [this] at hts
    rw [hts]
    rfl
  simp only [hb, Option.bind_eq_bind, Option.bind_some]
  cases h : readInt x <;> simp [h]

theorem bump_numbered (r : Int) (name : List Char) (k : Nat) (hk : k < 2147483648) (hv : HasVal name) (h : Numbered k name) :
    bump r name = some (max r k) := by
  obtain ⟨p, q, s, t, hp, hq, hs, ht, rfl⟩ := h
  rw [bump_part r p q s _ t hp hq hs (bar_digits k) ht hv, readInt_digits k hk]
  rfl

theorem bump_plain (r : Int) (name : List Char) (h : ¬ HasVal name) : bump r name = some r := by
  unfold bump
  rw [hasVal_iff, not_not] at h
  rw [h]

theorem readVars_spec {K : Type} (f : File K) (n : Nat) (hc : f.count 1 = some n) (names : List (List Char)) (i : Nat) (r : Int)
    (vs : List (List K)) (hl : vs.length = names.length) (hr : Readable names)
    (hv : ∀ (j : Nat) (v : List K), vs[j]? = some v → f.vals (i + j + 1) 1 1 = some v ∧ v.length = n) :
    ∃ r', readVars f i names r = some ⟨names, vs, some r'⟩ ∧ r ≤ r' ∧
      (∀ m ∈ names, ∀ k : Nat, k < 2147483648 → HasVal m → Numbered k m → (k : Int) ≤ r') ∧
      (r' = r ∨ ∃ m ∈ names, ∃ k : Nat, HasVal m ∧ Numbered k m ∧ r' = k) := by
  induction names generalizing i r vs with
  | nil =>
      have : vs = [] := by simpa using hl
      subst this
      exact ⟨r, rfl, Int.le_refl _, by simp, Or.inl rfl⟩
  | cons m ms ih =>
      cases vs with
      | nil => simp at hl
      | cons v vs =>
          have h0 := hv 0 v rfl
          have htail : ∀ (j : Nat) (v : List K), vs[j]? = some v → f.vals (i + 1 + j + 1) 1 1 = some v ∧ v.length = n := by
            intro j w hw
            have := hv (j + 1) w (by simpa using hw)
            rwa [show i + (j + 1) + 1 = i + 1 + j + 1 by omega] at this
          have hms : Readable ms := fun a ha => hr a (by simp [ha])
          have hlen : vs.length = ms.length := by simpa using hl
          by_cases hval : HasVal m
          · obtain ⟨k, hk, hnum⟩ := hr m (by simp) hval
            obtain ⟨r', e, h1, h2, h3⟩ := ih (i + 1) (max r k) vs hlen hms htail
            refine ⟨r', ?_, by omega, ?_, ?_⟩
            · simp [readVars, hc, bump_numbered r m k hk hval hnum, h0.1, h0.2, e, show i + 1 = i + 0 + 1 from rfl]
            · intro a ha k' hk' hv' hn'
              rcases List.mem_cons.mp ha with rfl | ha
              · have e1 := bump_numbered 0 a k hk hval hnum
                have e2 := bump_numbered 0 a k' hk' hv' hn'
                rw [e1] at e2
                have : max (0 : Int) k = max 0 k' := by simpa using e2
                omega
              · exact h2 a ha k' hk' hv' hn'
            · rcases h3 with h3 | ⟨a, ha, k', h⟩
              · by_cases hrk : (k : Int) ≤ r
                · left; omega
                · right; exact ⟨m, by simp, k, hval, hnum, by omega⟩
              · right; exact ⟨a, by simp [ha], k', h⟩
          · obtain ⟨r', e, h1, h2, h3⟩ := ih (i + 1) r vs hlen hms htail
            refine ⟨r', ?_, h1, ?_, ?_⟩
            · simp [readVars, hc, bump_plain r m hval, h0.1, h0.2, e, show i + 1 = i + 0 + 1 from rfl]
            · intro a ha k' hk' hv' hn'
              rcases List.mem_cons.mp ha with rfl | ha
              · exact absurd hv' hval
              · exact h2 a ha k' hk' hv' hn'
            · rcases h3 with h3 | ⟨a, ha, k', h⟩
              · left; exact h3
              · right; exact ⟨a, by simp [ha], k', h⟩

/-! ## Properties -/

/-- C189, partial: the element data of the first step of block 1 is stored under the names of the file, in the order of the file, and
the number of responses is the largest number in a name with "Val", at least one.  Missing: other blocks and steps, names that cannot
be read, files that are not found; see the theorems below. -/
theorem C189_data_partial {K : Type} (folder : List Char → Option (File K)) (nodalData : Bool) (file : List Char) (size rank : Nat)
    (f : File K) (hf : folder (fileName file size rank) = some f) (n : Nat) (hc : f.count 1 = some n) (hr : Readable f.names)
    (vs : List (List K)) (hl : vs.length = f.names.length)
    (hv : ∀ (j : Nat) (v : List K), vs[j]? = some v → f.vals (j + 1) 1 1 = some v ∧ v.length = n) :
    ∃ r : Int, read folder true nodalData file size rank = some ⟨f.names, vs, some r⟩ ∧ 1 ≤ r ∧
      (∀ m ∈ f.names, ∀ k : Nat, k < 2147483648 → HasVal m → Numbered k m → (k : Int) ≤ r) ∧
      (r = 1 ∨ ∃ m ∈ f.names, ∃ k : Nat, HasVal m ∧ Numbered k m ∧ r = k) := by
  obtain ⟨r, h⟩ := readVars_spec f n hc f.names 0 1 vs hl hr (by simpa using hv)
  exact ⟨r, by simpa [read, hf] using h⟩

/-- A file with two variables on two elements. [case] -/
def caseFile : File Nat :=
  { names := ["numSensors".toList, "sensor_1_Val_12".toList]
    count := fun b => if b = 1 then some 2 else if b = 2 then some 3 else none
    vals := fun v s b => if b = 1 then some [10 * v + s, 20 * v + s] else some [7, 7, 7] }

/-- The folder with that file. [case] -/
def caseFolder : List Char → Option (File Nat) := fun n => if n = "m.exo".toList then some caseFile else none

example : read caseFolder true false "m.exo".toList 1 0 =
    some ⟨caseFile.names, [[11, 21], [21, 41]], some 12⟩ := by decide +kernel

example : Readable caseFile.names ∧ HasVal "sensor_1_Val_12".toList := by
  constructor
  · intro n hn hv
    have h2 : caseFile.names = ["numSensors".toList, "sensor_1_Val_12".toList] := rfl
    rw [h2, List.mem_cons, List.mem_singleton] at hn
    rcases hn with rfl | rfl
    · rw [hasVal_iff] at hv
      exact absurd (by decide +kernel) hv
    · exact ⟨12, by decide, "sensor".toList, "1".toList, "Val".toList, [], by decide, by decide, by decide, Or.inl rfl, by decide +kernel⟩
  · exact ⟨"sensor_1_".toList, "_12".toList, by decide +kernel⟩

/-- C189: with several processes each opens a file of its own. -/
theorem C189_ranks (file : List Char) (size a b : Nat) (hs : 1 < size) (h : fileName file size a = fileName file size b) : a = b := by
  simp only [fileName, if_pos hs, List.append_assoc, List.cons_append, List.append_cancel_left_eq, List.cons.injEq, true_and] at h
  have ha : Nat.ofDigitChars 10 (Nat.toDigits 10 a) 0 = a := Nat.ofDigitChars_toDigits (by omega) (by omega)
  have hb : Nat.ofDigitChars 10 (Nat.toDigits 10 b) 0 = b := Nat.ofDigitChars_toDigits (by omega) (by omega)
  rw [← ha, ← hb, h]

example : fileName "m.exo".toList 16 3 = "m.exo.16.3".toList ∧ fileName "m.exo".toList 1 0 = "m.exo".toList := by decide +kernel

/-- C189: on several processes the file opened is the one written by tools that fill the rank with zeros exactly when the rank has as
many digits as the number of processes. -/
theorem C189_padding_iff (file : List Char) (size rank : Nat) (hs : 1 < size) (hr : rank < size) :
    fileName file size rank = spreadName file size rank ↔ (Nat.toDigits 10 rank).length = (Nat.toDigits 10 size).length := by
  have hle : (Nat.toDigits 10 rank).length ≤ (Nat.toDigits 10 size).length := by
    rw [Nat.length_toDigits_le_iff (by omega) Nat.length_toDigits_pos]
    exact Nat.lt_trans hr ((Nat.length_toDigits_le_iff (b := 10) (by omega) Nat.length_toDigits_pos).mp (Nat.le_refl _))
  simp only [fileName, if_pos hs, spreadName, List.append_assoc, List.cons_append, List.append_cancel_left_eq, List.cons.injEq, true_and]
  constructor
  · intro h
    have := congrArg List.length h
    simp only [List.length_append, List.length_replicate] at this
    omega
  · intro h
    rw [h, Nat.sub_self]
    rfl

/-- C189 is false for meshes spread over ten or more processes: the first ranks look for a file with another name, find none, and go on
without data and without a message. -/
theorem C189_padding_violated {K : Type} (f : Nat → File K) (file : List Char) (size rank : Nat) (hs : 10 ≤ size) (hr : rank < 10)
    (folder : List Char → Option (File K))
    (hfold : ∀ name, (∃ k, k < size ∧ name = spreadName file size k ∧ folder name = some (f k)) ∨
      ((∀ k, k < size → name ≠ spreadName file size k) ∧ folder name = none)) :
    read folder true false file size rank = some ⟨[], [], some 1⟩ := by
  have hd : (Nat.toDigits 10 rank).length = 1 := by rw [Nat.toDigits_of_lt_base hr]; rfl
  have hz : 1 < (Nat.toDigits 10 size).length := by
    by_contra hcon
    have := (Nat.length_toDigits_le_iff (b := 10) (n := size) (k := 1) (by omega) (by omega)).mp (by omega)
    omega
  rcases hfold (fileName file size rank) with ⟨k, hk, hn, -⟩ | ⟨-, h⟩
  · exfalso
    have hle : (Nat.toDigits 10 k).length ≤ (Nat.toDigits 10 size).length := by
      rw [Nat.length_toDigits_le_iff (by omega) Nat.length_toDigits_pos]
      exact Nat.lt_trans hk ((Nat.length_toDigits_le_iff (b := 10) (by omega) Nat.length_toDigits_pos).mp (Nat.le_refl _))
    have := congrArg List.length hn
    simp only [fileName, if_pos (show 1 < size by omega), spreadName, List.length_append, List.length_cons,
      List.length_replicate] at this
    omega
  · simp [read, h]

example : spreadName "m.exo".toList 16 3 = "m.exo.16.03".toList := by decide +kernel

/-- The files of a mesh spread over sixteen processes. [case] -/
def caseSpread : List Char → Option (File Nat) :=
  fun n => if n ∈ (List.range 16).map (spreadName "m.exo".toList 16) then some caseFile else none

example : read caseSpread true false "m.exo".toList 16 3 = some ⟨[], [], some 1⟩ :=
  C189_padding_violated (fun _ => caseFile) "m.exo".toList 16 3 (by decide) (by decide) caseSpread (by
    intro name
    by_cases h : name ∈ (List.range 16).map (spreadName "m.exo".toList 16)
    · obtain ⟨k, h1, h2⟩ := List.mem_map.mp h
      exact Or.inl ⟨k, List.mem_range.mp h1, h2.symm, by rw [caseSpread, if_pos h]⟩
    · exact Or.inr ⟨fun k h1 h2 => h (List.mem_map.mpr ⟨k, List.mem_range.mpr h1, h2.symm⟩), by rw [caseSpread, if_neg h]⟩)

/-- C189 is false for a file that is not there: the run goes on as if the file had no variables. -/
theorem C189_missing_violated {K : Type} (folder : List Char → Option (File K)) (nodalData : Bool) (file : List Char) (size rank : Nat)
    (h : folder (fileName file size rank) = none) :
    read folder true nodalData file size rank = some ⟨[], [], some 1⟩ := by
  simp [read, h]

example : read caseFolder true false "mesh.exo".toList 1 0 = some ⟨[], [], some 1⟩ := by decide +kernel

/-- C189 is false for the data of blocks other than the one with number 1 and of steps other than the first: they have no influence. -/
theorem C189_blocks_violated {K : Type} (f g : File K) (file : List Char) (size rank : Nat) (nodalData : Bool)
    (hn : f.names = g.names) (hc : f.count 1 = g.count 1) (hv : ∀ v, f.vals v 1 1 = g.vals v 1 1) :
    read (fun _ => some f) true nodalData file size rank = read (fun _ => some g) true nodalData file size rank := by
  have key : ∀ (names : List (List Char)) (i : Nat) (r : Int), readVars f i names r = readVars g i names r := by
    intro names
    induction names with
    | nil => intro i r; rfl
    | cons a as ih =>
        intro i r
        simp [readVars, hc, hv, ih]
  simp [read, hn, key]

/-- The file with other data on block 2. [case] -/
def caseOther : File Nat :=
  { caseFile with vals := fun v s b => if b = 1 then some [10 * v + s, 20 * v + s] else some [8, 9, 8] }

example : caseFile.vals 1 1 2 ≠ caseOther.vals 1 1 2 ∧ caseFile.vals 1 1 1 = caseOther.vals 1 1 1 := by decide +kernel

/-- C189 is false for files without a block of number 1: with at least one variable the run uses a number of elements that was never
set. -/
theorem C189_first_violated {K : Type} (folder : List Char → Option (File K)) (nodalData : Bool) (file : List Char) (size rank : Nat)
    (f : File K) (hf : folder (fileName file size rank) = some f) (hc : f.count 1 = none) (hn : f.names ≠ []) :
    read folder true nodalData file size rank = none := by
  cases hm : f.names with
  | nil => exact absurd hm hn
  | cons a as => simp [read, hf, hm, readVars, hc]

example : ({ caseFile with count := fun b => if b = 10 then some 2 else none } : File Nat).count 1 = none ∧ caseFile.names ≠ [] := by
  decide +kernel

/-- C189 is false for variables whose name has "Val" and fewer than three "_": the part looked for lies outside the list. -/
theorem C189_name_violated {K : Type} (folder : List Char → Option (File K)) (nodalData : Bool) (file : List Char) (size rank : Nat)
    (f : File K) (hf : folder (fileName file size rank) = some f) (name : List Char) (hm : name ∈ f.names) (hv : HasVal name)
    (hu : name.count '_' < 3) : read folder true nodalData file size rank = none := by
  have hb : ∀ r, bump r name = none := by
    intro r
    obtain ⟨p, hp⟩ := Option.ne_none_iff_exists'.mp ((hasVal_iff _).mp hv)
    obtain ⟨ts, h1, h2, h3, -⟩ := MrHyDE.Physics.Modules.C98_breakup ['_'] name (by simp)
    have hcount : ∀ ts : List (List Char), ts ≠ [] → ts.length ≤ (List.intercalate ['_'] ts).count '_' + 1 := by
      intro ts
      induction ts with
      | nil => intro h; exact absurd rfl h
      | cons t ts ih =>
          intro _
          cases ts with
          | nil => simp
          | cons u us =>
              have := ih (by simp)
              simp only [List.intercalate, List.intersperse_cons_cons, List.flatten_cons, List.count_append, List.length_cons] at this ⊢
              have e : List.count '_' ['_'] = 1 := by decide
              omega
    have hlen := hcount ts h2
    rw [h3] at hlen
    have : ts[3]? = none := by rw [List.getElem?_eq_none_iff]; omega
    simp [bump, hp, h1, this]
  have key : ∀ (names : List (List Char)) (i : Nat) (r : Int), name ∈ names → readVars f i names r = none := by
    intro names
    induction names with
    | nil => intro i r h; simp at h
    | cons a as ih =>
        intro i r h
        cases hcn : f.count 1 with
        | none => simp [readVars, hcn]
        | some n =>
            rcases List.mem_cons.mp h with rfl | h
            · simp [readVars, hcn, hb]
            · simp only [readVars, hcn, Option.bind_eq_bind, Option.bind_some]
              cases bump r a with
              | none => rfl
              | some r' =>
                  cases f.vals (i + 1) 1 1 with
                  | none => rfl
                  | some v => by_cases hl : v.length = n <;> simp [hl, ih (i + 1) r' h]
  simp [read, hf, key f.names 0 1 hm]

example : HasVal "Value".toList ∧ "Value".toList.count '_' < 3 :=
  ⟨⟨[], "ue".toList, by decide +kernel⟩, by decide +kernel⟩

/-- C189: the number in the fourth part of a name may have blanks and a sign before it. -/
theorem C189_sign (w : List Char) (hw : ∀ c ∈ w, blank c = true) (k : Nat) (hk : k < 2147483648) :
    readInt (w ++ '-' :: Nat.toDigits 10 k) = some (-(k : Int)) ∧ readInt (w ++ '+' :: Nat.toDigits 10 k) = some (k : Int) ∧
    readInt (w ++ Nat.toDigits 10 k) = some (k : Int) := by
  have ho : Nat.ofDigitChars 10 (Nat.toDigits 10 k) 0 = k := Nat.ofDigitChars_toDigits (by omega) (by omega)
  have hd : ∀ l, (w ++ l).dropWhile blank = l.dropWhile blank := by
    intro l
    induction w with
    | nil => rfl
    | cons c w ih => simp [hw c (by simp), ih (fun a ha => hw a (by simp [ha]))]
  have h1 : blank '-' = false := by decide
  have h2 : blank '+' = false := by decide
  refine ⟨?_, ?_, ?_⟩
  · unfold readInt
    rw [hd, List.dropWhile_cons_of_neg (by simp [h1])]
    simp only [takeWhile_digits, ho, clamp, Option.some.injEq]
    omega
  · unfold readInt
    rw [hd, List.dropWhile_cons_of_neg (by simp [h2])]
    simp only [takeWhile_digits, ho, clamp, Option.some.injEq]
    omega
  · have := readInt_digits k hk
    unfold readInt at this ⊢
    rw [hd]
    exact this

example : readInt "  -7".toList = some (-7) ∧ readInt "x".toList = some 0 ∧ readInt "99999999999".toList = some 2147483647 := by
  decide +kernel

/-- C189 is false for a name with "Val" whose fourth part is empty or blank: the number compared was never set. -/
theorem C189_blank_violated {K : Type} (f : File K) (file : List Char) (size rank : Nat) (p q s w t : List Char)
    (hp : '_' ∉ p) (hq : '_' ∉ q) (hs : '_' ∉ s) (hw : ∀ c ∈ w, blank c = true) (ht : t = [] ∨ ∃ u, t = '_' :: u)
    (hv : HasVal (p ++ '_' :: (q ++ '_' :: (s ++ '_' :: (w ++ t)))))
    (hf : f.names = [p ++ '_' :: (q ++ '_' :: (s ++ '_' :: (w ++ t)))]) :
    read (fun _ => some f) true false file size rank = none := by
  have hx : '_' ∉ w := fun h => absurd (hw _ h) (by decide)
  have he : w.dropWhile blank = [] := by
    clear hv hf hx
    induction w with
    | nil => rfl
    | cons c w ih => simp [hw c (by simp), ih (fun a ha => hw a (by simp [ha]))]
  have hn : readInt w = none := by unfold readInt; rw [he]
  have hb := bump_part 1 p q s w t hp hq hs hx ht hv
  rw [hn] at hb
  simp only [read, hf, readVars, hb]
  cases f.count 1 <;> rfl

example : HasVal "sensor_1_Val_".toList ∧
    "sensor_1_Val_".toList = "sensor".toList ++ '_' :: ("1".toList ++ '_' :: ("Val".toList ++ '_' :: ([] ++ []))) :=
  ⟨⟨"sensor_1_".toList, "_".toList, by decide +kernel⟩, by decide +kernel⟩

/-- C189 is false for nodal data: "have nodal data" reads nothing. -/
theorem C189_nodal_violated {K : Type} (folder : List Char → Option (File K)) (file : List Char) (size rank : Nat) :
    read folder false true file size rank = read folder false false file size rank ∧
    read folder false true file size rank = some ⟨[], [], none⟩ := by
  simp [read]

end MrHyDE.Mesh.ExoData
