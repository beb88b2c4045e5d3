import Verif.Views.GridProps
import Mathlib.Data.List.Forall2
import Mathlib.Algebra.BigOperators.Group.List.Basic
import Mathlib.Tactic.Ring
import Mathlib.Tactic.NormNum

/-! # C153: data points and values read from files

Model of `Data::importPoints`, `importGridPoints`, `importDataOneFile` (/repo/src/tools/data.cpp:158-322), of
`importQuadratureData` and of the choice in `setMeshData` (/repo/src/managers/assembly/assemblyManager_util.hpp:366-384, 588-666).
A file is its sequence of characters (none of them null).  Reading one number from the front of a text (`sscanf` with "%lf" or
"%f", `operator>>`) is a parameter, a `Reader`: it is only required to use up at least one character when it succeeds. -/

set_option linter.unusedSectionVars false

namespace MrHyDE.Views.DataFile

open MrHyDE.Views

variable {K : Type}

/-- Reading one number from the front of a text: the number and the rest; `none` if there is none.  `sscanf` at
src/tools/data.cpp:179, 183, 188, 231, 235, 240 and `std::istream_iterator` at 302-303. -/
structure Reader (K : Type) where
  read : List Char → Option (K × List Char)
  short : ∀ l x r, read l = some (x, r) → r.length < l.length

/-- A reader whose numbers are rounded afterwards: "%f" into a `float`, src/tools/data.cpp:223, 231. -/
def Reader.round (R : Reader K) (fl : K → K) : Reader K where
  read l := (R.read l).map (fun p => (fl p.1, p.2))
  short l x r h := by
    simp only [Option.map_eq_some_iff] at h
    obtain ⟨p, hp, he⟩ := h
    have := R.short l p.1 p.2 hp
    simp only [Prod.mk.injEq] at he
    rw [← he.2]; exact this

/-- `fgets`: at most `n` characters, stopping after the end of a line; src/tools/data.cpp:176, 228. -/
def piece : Nat → List Char → List Char × List Char
  | 0, l => ([], l)
  | _, [] => ([], [])
  | n + 1, c :: l => if c = '\n' then ([c], l) else (c :: (piece n l).1, (piece n l).2)

/-- The loop until the end of the file; a call that reads nothing leaves the line empty and is skipped, src/tools/data.cpp:174-177,
226-229.  The first argument bounds the number of turns; the number of characters is enough. -/
def pieces : Nat → List Char → List (List Char)
  | 0, _ => []
  | _, [] => []
  | n + 1, c :: l => (piece 99 (c :: l)).1 :: pieces n (piece 99 (c :: l)).2

/-- Numbers from the front of a text, at most `n`: one `sscanf` with `n` conversions (src/tools/data.cpp:179, 183, 188), or an
`istream_iterator` until it fails (302-303). -/
def scanf (R : Reader K) : Nat → List Char → List K
  | 0, _ => []
  | n + 1, l => match R.read l with
    | none => []
    | some (x, r) => x :: scanf R n r

/-- The lines one after the other, src/tools/data.cpp:174-194: the variables `x`, `y`, `z` are declared outside the loop, so a
number that is not read keeps the value of the line before, and has none at the start.  `none`: such a value is stored. -/
def readRows (R : Reader K) (d : Nat) : List (List Char) → List (Option K) → Option (List (List K))
  | [], _ => some []
  | l :: ls, vars =>
    (((scanf R d l).map some ++ vars.drop (scanf R d l).length).mapM id).bind fun p =>
      (readRows R d ls ((scanf R d l).map some ++ vars.drop (scanf R d l).length)).map (p :: ·)

/-- The view of points: rows and number of columns, src/tools/data.cpp:197. -/
structure Points (K : Type) where
  rows : List (List K)
  cols : Nat
  deriving DecidableEq

/-- `importPoints`, src/tools/data.cpp:158-208: without a file only a warning; lines are used in one, two and three dimensions only.
`file` is `none` if it cannot be opened. -/
def importPoints (R : Reader K) (d : Nat) (file : Option (List Char)) : Option (Points K) :=
  match file with
  | none => some ⟨[], 0⟩
  | some f =>
    if d = 1 ∨ d = 2 ∨ d = 3 then (readRows R d (pieces f.length f) (List.replicate d none)).map (fun rows => ⟨rows, d⟩)
    else some ⟨[], d⟩

/-- The lines of a file, each with its end; the last one may have none.  `getline` at src/tools/data.cpp:298 takes them without the
end. -/
def lines : List Char → List (List Char)
  | [] => []
  | c :: l => if c = '\n' then [c] :: lines l else
    match lines l with
    | [] => [[c]]
    | x :: xs => (c :: x) :: xs

/-- A line for `getline` and `replace`, src/tools/data.cpp:298-300: without the end, commas replaced by blanks. -/
def clean (l : List Char) : List Char :=
  (if l.getLast? = some '\n' then l.dropLast else l).map (fun c => if c = ',' then ' ' else c)

/-- The numbers of a line, src/tools/data.cpp:301-304. -/
def values (R : Reader K) (l : List Char) : List K := scanf R (clean l).length (clean l)

/-- `importDataOneFile`, src/tools/data.cpp:284-322: one record per line, filled up with the zeros of a new view to the length of the
longest; `none`: no such file (exception). -/
def importRecords [Zero K] (R : Reader K) (file : Option (List Char)) : Option (List (List K)) :=
  file.map fun f =>
    let vs := (lines f).map (values R)
    let m := vs.foldl (fun m v => max m v.length) 0
    vs.map (fun v => v ++ List.replicate (m - v.length) 0)

/-- `importGridPoints`, src/tools/data.cpp:213-279 (the grid of every axis): the coordinates are picked from the list of points; `none`:
no such file, or an entry past the end of the list. -/
def importGrid (R : Reader K) (d nx ny nz : Nat) (file : Option (List Char)) : Option (List (List K)) :=
  file.bind fun f =>
    (if d = 1 ∨ d = 2 ∨ d = 3 then readRows R d (pieces f.length f) (List.replicate d none) else some []).bind fun rows =>
      let at' (c n : Nat) : Option K := (rows[n]?).bind (·[c]?)
      let gx := (List.range nx).mapM (fun k => at' 0 k)
      let gy := (List.range ny).mapM (fun k => at' 1 (k * nx))
      let gz := (List.range nz).mapM (fun k => at' 2 (k * nx * ny))
      if d = 1 then gx.map (fun x => [x])
      else if d = 2 then gx.bind fun x => gy.map (fun y => [x, y])
      else if d = 3 then gx.bind fun x => gy.bind fun y => gz.map (fun z => [x, y, z])
      else some []

/-- The values kept for a group by `importQuadratureData`, src/managers/assembly/assemblyManager_util.hpp:655-662: the first value of
the record of the data point closest to each integration point; `closest` lists these for the points in the order they are handed to
the search (638-644).  `none`: no such record, or a record without values. -/
def importQuadrature (records : List (List K)) (closest : List Nat) (numElem numip : Nat) : Option (List (List K)) :=
  (List.range numElem).mapM fun elem => (List.range numip).mapM fun pt =>
    ((closest[elem * numip + pt]?).bind fun c => records[c]?).bind (·[0]?)

/-- The list of integration points handed to the search: element by element, src/managers/assembly/assemblyManager_util.hpp:638-644. -/
def queries {P : Type} (numElem numip : Nat) (ip : Nat → Nat → P) : List P :=
  (List.range numElem).flatMap fun elem => (List.range numip).map fun pt => ip elem pt

/-- Flags of a block, src/tools/groupMetaData.hpp:102. -/
structure Flags where
  phi : Bool := false
  rotation : Bool := false
  extra : Bool := false
  quadrature : Bool := false
  deriving DecidableEq

/-- Settings of the mesh, src/interfaces/mesh/meshInterface_construct.hpp:76-92: `data` says that a data file is named. -/
structure Settings where
  data : Bool
  phi : Bool
  rotations : Bool
  quadrature : Bool
  compute : Bool

/-- `setMeshData`, src/managers/assembly/assemblyManager_util.hpp:366-384, and the flags set by what it calls: 526-528, 663, 953; all are
false before (src/tools/groupMetaData.cpp:78-80).  For a block with elements. -/
def setMeshData (s : Settings) : Flags :=
  if s.data && s.quadrature then { quadrature := true }
  else if s.data then { phi := s.phi, rotation := s.rotations, extra := true }
  else if s.compute then { rotation := true }
  else {}

/-- What the modules can see of the data of an element. [helper] -/
inductive Seen
  | nothing
  | phi
  | rotation
  | extra
  deriving DecidableEq

/-- `updateGroupData`, src/managers/assembly/assemblyManager_groups.hpp:619-656: which member of the work set gets the data of the group. -/
def toPhysics (f : Flags) : Seen :=
  if f.phi then .phi else if f.rotation then .rotation else if f.extra then .extra else .nothing

/-! ## Specification -/

/-- The text starts with these numbers. [specification, no code] -/
inductive Starts (R : Reader K) : List Char → List K → Prop
  | nil (l : List Char) : Starts R l []
  | cons (l r : List Char) (x : K) (xs : List K) : R.read l = some (x, r) → Starts R r xs → Starts R l (x :: xs)

/-- The text consists of these numbers: after them no number can be read. [specification, no code] -/
inductive Holds (R : Reader K) : List Char → List K → Prop
  | nil (l : List Char) : R.read l = none → Holds R l []
  | cons (l r : List Char) (x : K) (xs : List K) : R.read l = some (x, r) → Holds R r xs → Holds R l (x :: xs)

/-! ## Lemmas -/

theorem scanf_starts (R : Reader K) {l : List Char} {p : List K} (h : Starts R l p) : scanf R p.length l = p := by
  induction h with
  | nil l => rfl
  | cons l r x xs hr _ ih => simp only [List.length_cons, scanf, hr, ih]

theorem scanf_holds (R : Reader K) {l : List Char} {p : List K} (h : Holds R l p) : ∀ n, l.length ≤ n → scanf R n l = p := by
  induction h with
  | nil l hr => intro n _; cases n with
    | zero => rfl
    | succ n => simp only [scanf, hr]
  | cons l r x xs hr _ ih =>
    intro n hn
    have := R.short l x r hr
    cases n with
    | zero => omega
    | succ n => simp only [scanf, hr, ih n (by omega)]

theorem holds_exists (R : Reader K) : ∀ (n : Nat) (l : List Char), l.length ≤ n → ∃ p, Holds R l p := by
  intro n
  induction n with
  | zero =>
    intro l hl
    cases h : R.read l with
    | none => exact ⟨[], .nil l h⟩
    | some p => have := R.short l p.1 p.2 h; omega
  | succ n ih =>
    intro l hl
    cases h : R.read l with
    | none => exact ⟨[], .nil l h⟩
    | some p =>
      have := R.short l p.1 p.2 h
      obtain ⟨q, hq⟩ := ih p.2 (by omega)
      exact ⟨p.1 :: q, .cons l p.2 p.1 q h hq⟩

theorem mapM_some (l : List K) : (l.map some).mapM id = some l := by
  induction l with
  | nil => rfl
  | cons a l ih => simp only [List.map_cons, List.mapM_cons, id, ih]; rfl

theorem readRows_starts (R : Reader K) (d : Nat) : ∀ (ls : List (List Char)) (ps : List (List K)) (vars : List (Option K)),
    vars.length = d → List.Forall₂ (fun l p => Starts R l p ∧ p.length = d) ls ps → readRows R d ls vars = some ps := by
  intro ls ps vars hv h
  induction h generalizing vars with
  | nil => rfl
  | @cons l p ls ps hlp _ ih =>
    obtain ⟨hs, hp⟩ := hlp
    have e : scanf R d l = p := by rw [← hp]; exact scanf_starts R hs
    have e2 : (scanf R d l).map some ++ vars.drop (scanf R d l).length = p.map some := by
      rw [e, List.drop_eq_nil_of_le (by omega), List.append_nil]
    rw [readRows, e2, mapM_some, Option.bind_some, ih _ (by simp [hp])]
    rfl

theorem readRows_length (R : Reader K) (d : Nat) : ∀ (ls : List (List Char)) (vars : List (Option K)) (ps : List (List K)),
    readRows R d ls vars = some ps → ps.length = ls.length
  | [], _, ps, h => by simp only [readRows, Option.some.injEq] at h; subst h; rfl
  | l :: ls, vars, ps, h => by
    simp only [readRows, Option.bind_eq_some_iff, Option.map_eq_some_iff] at h
    obtain ⟨p, -, qs, hq, rfl⟩ := h
    simp [readRows_length R d ls _ qs hq]

theorem piece_line : ∀ (n : Nat) (c : Char) (f l : List Char) (ls : List (List Char)), lines (c :: f) = l :: ls → l.length ≤ n →
    ∃ r, piece n (c :: f) = (l, r) ∧ lines r = ls ∧ r.length < (c :: f).length
  | 0, c, f, l, ls, h, hn => by
    exfalso
    simp only [lines] at h
    split at h
    · simp only [List.cons.injEq] at h; rw [← h.1] at hn; simp at hn
    · split at h <;> (simp only [List.cons.injEq] at h; rw [← h.1] at hn; simp at hn)
  | n + 1, c, f, l, ls, h, hn => by
    simp only [lines] at h
    split at h
    · next hc =>
      simp only [List.cons.injEq] at h
      refine ⟨f, ?_, h.2, by simp⟩
      simp only [piece, hc, if_true, ← h.1]
    · next hc =>
      cases f with
      | nil =>
        simp only [lines, List.cons.injEq] at h
        refine ⟨[], ?_, ?_, by simp⟩
        · simp only [piece, hc, if_false, ← h.1]; cases n <;> rfl
        · rw [← h.2]; rfl
      | cons c' f =>
        cases hl : lines (c' :: f) with
        | nil =>
          exfalso
          simp only [lines] at hl
          split at hl
          · exact absurd hl (by simp)
          · split at hl <;> exact absurd hl (by simp)
        | cons x xs =>
          simp only [hl, List.cons.injEq] at h
          have hx : x.length ≤ n := by rw [← h.1] at hn; simpa using hn
          obtain ⟨r, h1, h2, h3⟩ := piece_line n c' f x xs hl hx
          refine ⟨r, ?_, by rw [h2, h.2], by simp only [List.length_cons] at h3 ⊢; omega⟩
          simp only [piece, hc, if_false, h1, ← h.1]

theorem lines_cons (c : Char) (f : List Char) : ∃ l ls, lines (c :: f) = l :: ls := by
  simp only [lines]
  split
  · exact ⟨_, _, rfl⟩
  · split <;> exact ⟨_, _, rfl⟩

theorem pieces_lines : ∀ (n : Nat) (f : List Char), f.length ≤ n → (∀ l ∈ lines f, l.length ≤ 99) → pieces n f = lines f
  | 0, f, hn, _ => by
    have : f = [] := List.length_eq_zero_iff.1 (by omega)
    subst this; rfl
  | n + 1, [], _, _ => rfl
  | n + 1, c :: f, hn, h => by
    obtain ⟨l, ls, hl⟩ := lines_cons c f
    obtain ⟨r, h1, h2, h3⟩ := piece_line 99 c f l ls hl (h l (by rw [hl]; simp))
    rw [pieces, h1, hl]
    simp only [List.length_cons] at hn h3
    rw [pieces_lines n r (by omega) (fun l' hl' => h l' (by rw [hl]; rw [h2] at hl'; exact List.mem_cons_of_mem _ hl')), h2]

/-- A line longer than 98 characters (without its end) makes more pieces than there are lines. -/
theorem piece_long : ∀ (n : Nat) (f l : List Char) (ls : List (List Char)), lines f = l :: ls → n < l.length → 0 < n →
    ∃ r l', piece n f = (f.take n, r) ∧ lines r = l' :: ls ∧ r.length < f.length
  | 0, _, _, _, _, _, h0 => absurd h0 (by omega)
  | n + 1, [], l, ls, h, _, _ => by simp [lines] at h
  | n + 1, c :: f, l, ls, h, hn, _ => by
    simp only [lines] at h
    split at h
    · simp only [List.cons.injEq] at h; rw [← h.1] at hn; simp at hn
    · next hc =>
      cases hl : lines f with
      | nil => simp only [hl, List.cons.injEq] at h; rw [← h.1] at hn; simp at hn
      | cons x xs =>
        simp only [hl, List.cons.injEq] at h
        have hx : n < x.length := by rw [← h.1] at hn; simpa using hn
        rcases Nat.eq_zero_or_pos n with h0 | h0
        · subst h0
          refine ⟨f, x, by simp [piece, hc], by rw [hl, h.2], by simp⟩
        · obtain ⟨r, l', h1, h2, h3⟩ := piece_long n f x xs hl hx h0
          refine ⟨r, l', by simp [piece, hc, h1], by rw [h2, h.2], by simp only [List.length_cons]; omega⟩

theorem pieces_ge : ∀ (n : Nat) (f : List Char), f.length ≤ n → (lines f).length ≤ (pieces n f).length
  | 0, f, hn => by
    have : f = [] := List.length_eq_zero_iff.1 (by omega)
    subst this; exact Nat.le_refl _
  | n + 1, [], _ => Nat.le_refl _
  | n + 1, c :: f, hn => by
    obtain ⟨l, ls, hl⟩ := lines_cons c f
    rw [pieces, hl]
    simp only [List.length_cons] at hn ⊢
    by_cases h99 : l.length ≤ 99
    · obtain ⟨r, h1, h2, h3⟩ := piece_line 99 c f l ls hl h99
      simp only [List.length_cons] at h3
      have := pieces_ge n r (by omega)
      rw [h1, ← h2]; dsimp only; omega
    · obtain ⟨r, l', h1, h2, h3⟩ := piece_long 99 (c :: f) l ls hl (by omega) (by omega)
      simp only [List.length_cons] at h3
      have := pieces_ge n r (by omega)
      rw [h1]
      rw [h2, List.length_cons] at this
      show ls.length + 1 ≤ (pieces n r).length + 1
      omega

theorem pieces_gt : ∀ (n : Nat) (f : List Char), f.length ≤ n → (∃ l ∈ lines f, 99 < l.length) →
    (lines f).length < (pieces n f).length
  | 0, f, hn, h => by
    have : f = [] := List.length_eq_zero_iff.1 (by omega)
    subst this
    obtain ⟨l, hl, -⟩ := h; simp [lines] at hl
  | n + 1, [], _, h => by obtain ⟨l, hl, -⟩ := h; simp [lines] at hl
  | n + 1, c :: f, hn, h => by
    obtain ⟨l, ls, hl⟩ := lines_cons c f
    rw [pieces, hl]
    simp only [List.length_cons] at hn ⊢
    by_cases h99 : l.length ≤ 99
    · obtain ⟨r, h1, h2, h3⟩ := piece_line 99 c f l ls hl h99
      simp only [List.length_cons] at h3
      obtain ⟨l', hl', hlong⟩ := h
      rw [hl] at hl'
      rcases List.mem_cons.1 hl' with rfl | hm
      · omega
      · have := pieces_gt n r (by omega) ⟨l', by rw [h2]; exact hm, hlong⟩
        rw [h1, ← h2]; dsimp only; omega
    · obtain ⟨r, l', h1, h2, h3⟩ := piece_long 99 (c :: f) l ls hl (by omega) (by omega)
      simp only [List.length_cons] at h3
      have := pieces_ge n r (by omega)
      rw [h1]
      rw [h2, List.length_cons] at this
      show ls.length + 1 < (pieces n r).length + 1
      omega

/-! ## A reader for the cases -/

/-- Blank characters. [case] -/
def isBlank (c : Char) : Bool := c == ' ' || c == '\n' || c == '\t'

/-- Value of a sequence of digits. [case] -/
def value (l : List Char) : Nat := l.foldl (fun n c => 10 * n + (c.toNat - 48)) 0

/-- Natural numbers in decimal form. [case] -/
def nat : Reader Nat where
  read l :=
    if (l.dropWhile isBlank).takeWhile Char.isDigit = [] then none
    else some (value ((l.dropWhile isBlank).takeWhile Char.isDigit), (l.dropWhile isBlank).dropWhile Char.isDigit)
  short l x r h := by
    split at h
    · exact absurd h (by simp)
    · next hne =>
      simp only [Option.some.injEq, Prod.mk.injEq] at h
      have h1 := congrArg List.length (List.takeWhile_append_dropWhile (p := Char.isDigit) (l := l.dropWhile isBlank))
      have h2 := congrArg List.length (List.takeWhile_append_dropWhile (p := isBlank) (l := l))
      have h3 := List.length_pos_iff.2 hne
      simp only [List.length_append] at h1 h2
      rw [← h.2]; omega

/-! ## Points -/

/-- C153, points: in one, two or three dimensions, if every line has at most 98 characters and starts with the coordinates of a point
separated by blanks, the points read are those of the lines, in order. -/
theorem C153_points_partial (R : Reader K) (d : Nat) (hd : 1 ≤ d ∧ d ≤ 3) (f : List Char) (ps : List (List K))
    (hlen : ∀ l ∈ lines f, l.length ≤ 99)
    (hp : List.Forall₂ (fun l p => Starts R l p ∧ p.length = d) (lines f) ps) : importPoints R d (some f) = some ⟨ps, d⟩ := by
  have h3 : d = 1 ∨ d = 2 ∨ d = 3 := by omega
  simp only [importPoints, h3, if_true]
  rw [pieces_lines _ _ (Nat.le_refl _) hlen, readRows_starts R d _ ps _ (by simp) hp]
  rfl

/-- [case] Two points in two dimensions, the last line without an end. -/
example : lines "10 20\n 3\t4 x".toList = ["10 20\n".toList, " 3\t4 x".toList] ∧
    importPoints nat 2 (some "10 20\n 3\t4 x".toList) = some ⟨[[10, 20], [3, 4]], 2⟩ := by
  refine ⟨by decide +kernel, ?_⟩
  apply C153_points_partial nat 2 (by omega) _ _ (by decide +kernel)
  rw [show lines "10 20\n 3\t4 x".toList = ["10 20\n".toList, " 3\t4 x".toList] by decide +kernel]
  refine .cons ⟨.cons _ " 20\n".toList _ _ (by decide +kernel) (.cons _ "\n".toList _ _ (by decide +kernel) (.nil _)), rfl⟩
    (.cons ⟨.cons _ "\t4 x".toList _ _ (by decide +kernel) (.cons _ " x".toList _ _ (by decide +kernel) (.nil _)), rfl⟩ .nil)

/-- C153 is false for more than three coordinates: whatever the file holds, no point is read (samples of four or more stochastic
parameters given by the user are lost without a message). -/
theorem C153_many_violated (R : Reader K) (d : Nat) (hd : 3 < d) (f : List Char) : importPoints R d (some f) = some ⟨[], d⟩ := by
  have : ¬ (d = 1 ∨ d = 2 ∨ d = 3) := by omega
  simp only [importPoints, this, if_false]

/-- [case] A sample of four parameters. -/
example : Starts nat "1 2 3 4\n".toList [1, 2, 3, 4] ∧ importPoints nat 4 (some "1 2 3 4\n".toList) = some ⟨[], 4⟩ :=
  ⟨.cons _ " 2 3 4\n".toList _ _ (by decide +kernel) (.cons _ " 3 4\n".toList _ _ (by decide +kernel)
    (.cons _ " 4\n".toList _ _ (by decide +kernel) (.cons _ "\n".toList _ _ (by decide +kernel) (.nil _)))),
   C153_many_violated nat 4 (by omega) _⟩

/-- C153 is false for points separated by commas (which the files of values may use): only the first coordinate of a line is read.  On
the first line the others have no value at all, on later lines they are those of the line before. -/
theorem C153_comma_violated (R : Reader K) (x x0 y0 : K) (l r l0 : List Char) (hx : R.read l = some (x, ',' :: r))
    (hc : ∀ r, R.read (',' :: r) = none) (h0 : Starts R l0 [x0, y0]) (ls : List (List Char)) :
    readRows R 2 (l :: ls) (List.replicate 2 none) = none ∧ readRows R 2 [l0, l] (List.replicate 2 none) = some [[x0, y0], [x, y0]] := by
  have e : scanf R 2 l = [x] := by simp only [scanf, hx, hc]
  have e0 : scanf R 2 l0 = [x0, y0] := scanf_starts R h0
  constructor
  · simp [readRows, e, List.replicate]
  · simp [readRows, e, e0, List.replicate]

/-- [case] A file with two points. -/
example : importPoints nat 2 (some "1 2\n3,4\n".toList) = some ⟨[[1, 2], [3, 2]], 2⟩ ∧
    importPoints nat 2 (some "3,4\n".toList) = none := by decide +kernel

/-- C153 is false for empty lines: an empty line stands for one more point, equal to the one before; at the start of the file it is a
point without values. -/
theorem C153_blank_violated (R : Reader K) (d : Nat) (hd : 0 < d) (p : List K) (hp : p.length = d) (b : List Char) (hb : R.read b = none)
    (ls : List (List Char)) :
    readRows R d (b :: ls) (p.map some) = (readRows R d ls (p.map some)).map (p :: ·) ∧
    readRows R d (b :: ls) (List.replicate d none) = none := by
  have e : scanf R d b = [] := by cases d with
    | zero => rfl
    | succ d => simp only [scanf, hb]
  constructor
  · simp only [readRows, e, List.map_nil, List.nil_append, List.length_nil, List.drop_zero, mapM_some, Option.bind_some]
  · simp only [readRows, e, List.map_nil, List.nil_append, List.length_nil, List.drop_zero]
    cases d with
    | zero => omega
    | succ d => simp [List.replicate_succ]

/-- [case] An empty line at the end. -/
example : importPoints nat 1 (some "1\n2\n\n".toList) = some ⟨[[1], [2], [2]], 1⟩ := by decide +kernel

/-- C153 is false for long lines: if a line with its end has more than 99 characters, there are more points than lines. -/
theorem C153_long_violated (R : Reader K) (d : Nat) (hd : 1 ≤ d ∧ d ≤ 3) (f : List Char) (h : ∃ l ∈ lines f, 99 < l.length)
    (P : Points K) (hP : importPoints R d (some f) = some P) : (lines f).length < P.rows.length := by
  have h3 : d = 1 ∨ d = 2 ∨ d = 3 := by omega
  simp only [importPoints, h3, if_true, Option.map_eq_some_iff] at hP
  obtain ⟨rows, hr, rfl⟩ := hP
  rw [readRows_length R d _ _ _ hr]
  exact pieces_gt _ _ (Nat.le_refl _) h

/-- [case] A number followed by a comment of 120 characters. -/
example : importPoints nat 1 (some ('7' :: List.replicate 120 '#')) = some ⟨[[7], [7]], 1⟩ := by decide +kernel

/-! ## Values -/

theorem foldl_max_le (vs : List (List K)) : ∀ m : Nat, m ≤ vs.foldl (fun m v => max m v.length) m := by
  induction vs with
  | nil => intro m; exact Nat.le_refl _
  | cons v vs ih => intro m; exact le_trans (Nat.le_max_left _ _) (ih _)

theorem le_foldl_max (vs : List (List K)) : ∀ (m : Nat), ∀ v ∈ vs, v.length ≤ vs.foldl (fun m v => max m v.length) m := by
  induction vs with
  | nil => intro m v hv; exact absurd hv (by simp)
  | cons w vs ih =>
    intro m v hv
    rcases List.mem_cons.1 hv with rfl | h
    · exact le_trans (Nat.le_max_right _ _) (foldl_max_le vs _)
    · exact ih _ v h

/-- The longest is reached. -/
theorem foldl_max_mem (vs : List (List K)) : ∀ (m : Nat), vs.foldl (fun m v => max m v.length) m = m ∨
    ∃ v ∈ vs, vs.foldl (fun m v => max m v.length) m = v.length := by
  induction vs with
  | nil => intro m; exact Or.inl rfl
  | cons w vs ih =>
    intro m
    rcases ih (max m w.length) with h | ⟨v, hv, h⟩
    · rcases Nat.le_total m w.length with hm | hm
      · exact Or.inr ⟨w, by simp, by rw [List.foldl_cons, h, Nat.max_eq_right hm]⟩
      · left; rw [List.foldl_cons, h, Nat.max_eq_left hm]
    · exact Or.inr ⟨v, by simp [hv], by rw [List.foldl_cons, h]⟩

/-- C153, values: there is one record for every line, in order; it starts with all the numbers of the line, separated by blanks or
commas, and the rest up to the length of the longest line is zero.  A missing file ends the run. -/
theorem C153_values [Zero K] (R : Reader K) (f : List Char) : importRecords R none = none ∧
    ∃ rs : List (List K), importRecords R (some f) = some rs ∧ rs.length = (lines f).length ∧
      ∃ m, (∀ r ∈ rs, r.length = m) ∧ (rs ≠ [] → ∃ l ∈ lines f, ∃ xs, Holds R (clean l) xs ∧ xs.length = m) ∧
        ∀ (i : Nat) l, (lines f)[i]? = some l → ∀ xs, Holds R (clean l) xs → ∃ r : List K, rs[i]? = some r ∧
          ∀ j < m, r[j]? = some (xs.getD j 0) := by
  refine ⟨rfl, _, rfl, by simp, ((lines f).map (values R)).foldl (fun m v => max m v.length) 0, ?_, ?_, ?_⟩
  · intro r hr
    obtain ⟨v, hv, rfl⟩ := List.mem_map.1 hr
    have := le_foldl_max _ 0 v hv
    simp only [List.length_append, List.length_replicate]; omega
  · intro hne
    have hv : ∀ l, Holds R (clean l) (values R l) := by
      intro l
      obtain ⟨p, hp⟩ := holds_exists R _ (clean l) (Nat.le_refl _)
      unfold values
      rw [scanf_holds R hp _ (Nat.le_refl _)]; exact hp
    rcases foldl_max_mem ((lines f).map (values R)) 0 with h | ⟨v, hm, h⟩
    · obtain ⟨l, hl⟩ : ∃ l, l ∈ lines f := by
        cases hh : lines f with
        | nil => exact absurd (by simp [hh]) hne
        | cons l ls => exact ⟨l, by simp⟩
      have := le_foldl_max ((lines f).map (values R)) 0 (values R l) (List.mem_map.2 ⟨l, hl, rfl⟩)
      exact ⟨l, hl, _, hv l, by omega⟩
    · obtain ⟨l, hl, rfl⟩ := List.mem_map.1 hm
      exact ⟨l, hl, _, hv l, h.symm⟩
  · intro i l hl xs hxs
    have hv : values R l = xs := scanf_holds R hxs _ (Nat.le_refl _)
    refine ⟨xs ++ List.replicate (((lines f).map (values R)).foldl (fun m v => max m v.length) 0 - xs.length) 0, ?_, ?_⟩
    · simp only [List.getElem?_map, hl, Option.map_some, hv]
    · intro j hj
      by_cases h : j < xs.length
      · rw [List.getElem?_append_left h]; simp [List.getD, h]
      · rw [List.getElem?_append_right (by omega), List.getElem?_replicate, if_pos (by omega)]
        simp [List.getD, List.getElem?_eq_none (Nat.le_of_not_lt h)]

/-- [case] Two lines, one shorter, with commas. -/
example : importRecords nat (some "1, 2,3\n4\n".toList) = some [[1, 2, 3], [4, 0, 0]] := by decide +kernel

/-- C153, together: with as many lines of values as points, the element whose closest point is number `c` holds the numbers of line `c`
of the file of values, and point `c` is that of line `c` of the file of points. -/
theorem C153_partial [Zero K] (R R' : Reader K) (d : Nat) (hd : 1 ≤ d ∧ d ≤ 3) (fp fv : List Char) (ps xs : List (List K))
    (hlen : ∀ l ∈ lines fp, l.length ≤ 99)
    (hp : List.Forall₂ (fun l p => Starts R l p ∧ p.length = d) (lines fp) ps)
    (hx : List.Forall₂ (fun l x => Holds R' (clean l) x) (lines fv) xs) (hn : (lines fp).length = (lines fv).length)
    (numElem numip : Nat) (closest : List Nat) (hc : closest.length = numElem * numip) (hin : ∀ c ∈ closest, c < ps.length)
    (hne : ∃ x ∈ xs, x ≠ []) :
    ∃ P rs vals, importPoints R d (some fp) = some P ∧ importRecords R' (some fv) = some rs ∧
      P.rows = ps ∧ P.cols = d ∧ importQuadrature rs closest numElem numip = some vals ∧
      ∀ e < numElem, ∀ q < numip, ∀ c, closest[e * numip + q]? = some c →
        (vals[e]?).bind (·[q]?) = some ((xs.getD c []).getD 0 0) := by
  obtain ⟨-, rs, h1, h2, m, h3, h4, h5⟩ := C153_values R' fv
  have hlx := hx.length_eq
  have hlp := hp.length_eq
  have hm : 0 < m := by
    obtain ⟨x, hx1, hx2⟩ := hne
    obtain ⟨i, hi, rfl⟩ := List.mem_iff_getElem.1 hx1
    have hh := (List.forall₂_iff_get.1 hx).2 i (by omega) hi
    have hl : (lines fv)[i]? = some ((lines fv)[i]'(by omega)) := List.getElem?_eq_getElem _
    obtain ⟨r, hr1, hr2⟩ := h5 i _ hl _ hh
    by_contra hm0
    have hm0 : m = 0 := by omega
    subst hm0
    -- the record is the line followed by zeros, so it cannot be shorter
    have hv : values R' ((lines fv)[i]'(by omega)) = xs[i] := scanf_holds R' hh _ (Nat.le_refl _)
    simp only [importRecords, Option.map_some, Option.some.injEq] at h1
    have := h3 r (List.mem_of_getElem? hr1)
    rw [← h1] at hr1
    simp only [List.getElem?_map, hl, Option.map_some, Option.some.injEq] at hr1
    rw [hv] at hr1
    rw [← hr1] at this
    simp only [List.length_append] at this
    exact hx2 (List.length_eq_zero_iff.1 (by omega))
  have key : ∀ c < ps.length, ((rs[c]?).bind (·[0]?)) = some ((xs.getD c []).getD 0 0) := by
    intro c hcl
    have hl : (lines fv)[c]? = some ((lines fv)[c]'(by omega)) := List.getElem?_eq_getElem _
    have hh := (List.forall₂_iff_get.1 hx).2 c (by omega) (by omega)
    obtain ⟨r, hr1, hr2⟩ := h5 c _ hl _ hh
    rw [hr1, Option.bind_some, hr2 0 hm]
    have : xs.getD c [] = xs[c]'(by omega) := by simp [List.getD, List.getElem?_eq_getElem (show c < xs.length by omega)]
    rw [this]; rfl
  have val : ∀ e < numElem, ∀ q < numip, ∃ c, closest[e * numip + q]? = some c ∧
      ((closest[e * numip + q]?).bind fun c => rs[c]?).bind (·[0]?) = some ((xs.getD c []).getD 0 0) := by
    intro e he q hq
    have hlt : e * numip + q < closest.length := by
      rw [hc]
      calc e * numip + q < e * numip + numip := by omega
        _ = (e + 1) * numip := by ring
        _ ≤ numElem * numip := Nat.mul_le_mul_right _ he
    refine ⟨closest[e * numip + q], List.getElem?_eq_getElem hlt, ?_⟩
    rw [List.getElem?_eq_getElem hlt, Option.bind_some]
    exact key _ (hin _ (List.getElem_mem hlt))
  have mm : ∀ {A B : Type} (n : Nat) (f : Nat → Option B) (g : Nat → B), (∀ i < n, f i = some (g i)) →
      (List.range n).mapM f = some ((List.range n).map g) := by
    intro A B n f g hfg
    have : ∀ l : List Nat, (∀ i ∈ l, f i = some (g i)) → l.mapM f = some (l.map g) := by
      intro l
      induction l with
      | nil => intro _; rfl
      | cons a l ih => intro h; rw [List.mapM_cons, h a (by simp), ih (fun i hi => h i (by simp [hi]))]; rfl
    exact this _ (fun i hi => hfg i (List.mem_range.1 hi))
  refine ⟨_, rs, (List.range numElem).map (fun e => (List.range numip).map (fun q =>
    (xs.getD (closest.getD (e * numip + q) 0) []).getD 0 0)), C153_points_partial R d hd fp ps hlen hp, h1, rfl, rfl, ?_, ?_⟩
  · unfold importQuadrature
    apply mm (A := Unit)
    intro e he
    apply mm (A := Unit)
    intro q hq
    obtain ⟨c, hc1, hc2⟩ := val e he q hq
    rw [hc2]
    simp [List.getD, hc1]
  · intro e he q hq c hcc
    simp [he, hq, List.getD, hcc]

/-- [case] Two points with one value each; three integration points on one element. -/
example : importPoints nat 1 (some "10\n20\n".toList) = some ⟨[[10], [20]], 1⟩ ∧
    importRecords nat (some "5\n6\n".toList) = some [[5], [6]] ∧
    importQuadrature [[5], [6]] [1, 0, 1] 1 3 = some [[6, 5, 6]] := by decide +kernel

/-- C153, order: integration point `pt` of element `elem` is the one searched for at place `elem * numip + pt`. -/
theorem C153_order {P : Type} (numElem numip : Nat) (ip : Nat → Nat → P) : ∀ e < numElem, ∀ q < numip,
    (queries numElem numip ip)[e * numip + q]? = some (ip e q) := by
  intro e he q hq
  unfold queries
  induction numElem generalizing e with
  | zero => omega
  | succ n ih =>
    have hlen : ((List.range n).flatMap fun elem => (List.range numip).map fun pt => ip elem pt).length = n * numip := by
      simp [List.length_flatMap, List.map_const', List.sum_replicate]
    rw [List.range_succ, List.flatMap_append]
    rcases Nat.lt_or_eq_of_le (Nat.le_of_lt_succ he) with h | h
    · rw [List.getElem?_append_left, ih e h]
      rw [hlen]
      calc e * numip + q < e * numip + numip := by omega
        _ = (e + 1) * numip := by ring
        _ ≤ n * numip := Nat.mul_le_mul_right _ h
    · subst h
      rw [List.getElem?_append_right (by rw [hlen]; omega), hlen]
      simp [hq]

/-- C153 is false when there are fewer lines of values than points: nothing compares the numbers, and an integration point next to a
point without a record reads past the end. -/
theorem C153_short_violated (records : List (List K)) (numip : Nat) (hn : 0 < numip) (closest : List Nat) (c : Nat)
    (h0 : closest[0]? = some c) (hc : records.length ≤ c) (numElem : Nat) (he : 0 < numElem) :
    importQuadrature records closest numElem numip = none := by
  unfold importQuadrature
  obtain ⟨n, rfl⟩ : ∃ n, numElem = n + 1 := ⟨numElem - 1, by omega⟩
  obtain ⟨k, rfl⟩ : ∃ k, numip = k + 1 := ⟨numip - 1, by omega⟩
  have : records[c]? = none := List.getElem?_eq_none hc
  simp [List.range_succ_eq_map, List.mapM_cons, h0, this]

/-- [case] Two points, one record. -/
example : importPoints nat 1 (some "10\n20\n".toList) = some ⟨[[10], [20]], 1⟩ ∧
    importRecords nat (some "5\n".toList) = some [[5]] ∧ importQuadrature [[5]] [1] 1 1 = none := by decide +kernel

/-! ## Where the values go -/

/-- C153, use: values per element reach the modules as angles, rotations or further data, as the user said; computed ones as rotations. -/
theorem C153_use_partial (s : Settings) (hq : s.quadrature = false) :
    toPhysics (setMeshData s) = if s.data then (if s.phi then .phi else if s.rotations then .rotation else .extra)
      else if s.compute then .rotation else .nothing := by
  obtain ⟨a, b, c, d, e⟩ := s
  simp only at hq
  subst hq
  cases a <;> cases b <;> cases c <;> cases e <;> rfl

/-- C153 is false for values at the integration points: they are read and stored, but no module ever sees them; angles and rotations
asked for in the same input are lost as well. -/
theorem C153_quadrature_violated (phi rot comp : Bool) : toPhysics (setMeshData ⟨true, phi, rot, true, comp⟩) = .nothing := rfl

/-! ## Points on a grid -/

theorem mapM_range {B : Type} (n : Nat) (f : Nat → Option B) (g : Nat → B) (h : ∀ i < n, f i = some (g i)) :
    (List.range n).mapM f = some ((List.range n).map g) := by
  have : ∀ l : List Nat, (∀ i ∈ l, f i = some (g i)) → l.mapM f = some (l.map g) := by
    intro l
    induction l with
    | nil => intro _; rfl
    | cons a l ih => intro h; rw [List.mapM_cons, h a (by simp), ih (fun i hi => h i (by simp [hi]))]; rfl
  exact this _ (fun i hi => h i (List.mem_range.1 hi))

theorem starts_round (R : Reader K) (fl : K → K) {l : List Char} {p : List K} (h : Starts R l p) : Starts (R.round fl) l (p.map fl) := by
  induction h with
  | nil l => exact .nil l
  | cons l r x xs hr _ ih => exact .cons l r _ _ (by simp [Reader.round, hr]) ih

/-- Points of a grid in the order of the nodes: the first coordinate runs fastest. [specification, no code] -/
def gridFile (x y z : Nat → K) (nx ny nz : Nat) : List (List K) :=
  (List.range (nx * ny * nz)).map fun n => [x (n % nx), y (n / nx % ny), z (n / (nx * ny))]

/-- C153, grid: if the file lists the points of a grid with the first coordinate running fastest, the three axes are found, with
their coordinates rounded to single precision. -/
theorem C153_grid_partial (R : Reader K) (fl : K → K) (f : List Char) (x y z : Nat → K) (nx ny nz : Nat) (hx : 0 < nx) (hy : 0 < ny)
    (hz : 0 < nz) (hlen : ∀ l ∈ lines f, l.length ≤ 99)
    (hp : List.Forall₂ (fun l p => Starts R l p ∧ p.length = 3) (lines f) (gridFile x y z nx ny nz)) :
    importGrid (R.round fl) 3 nx ny nz (some f) = some [(List.range nx).map (fl ∘ x), (List.range ny).map (fl ∘ y),
      (List.range nz).map (fl ∘ z)] := by
  have hp' : List.Forall₂ (fun l p => Starts (R.round fl) l p ∧ p.length = 3) (lines f)
      ((gridFile x y z nx ny nz).map (fun p => p.map fl)) := by
    refine List.forall₂_map_right_iff.2 ?_
    exact hp.imp (fun l p h => ⟨starts_round R fl h.1, by rw [List.length_map]; exact h.2⟩)
  have rows := readRows_starts (R.round fl) 3 _ _ (List.replicate 3 none) (by simp) hp'
  simp only [importGrid, Option.bind_some]
  rw [pieces_lines _ _ (Nat.le_refl _) hlen]
  simp only [or_true, if_true, rows, Option.bind_some]
  have at' : ∀ n < nx * ny * nz, ((gridFile x y z nx ny nz).map (fun p => p.map fl))[n]? =
      some [fl (x (n % nx)), fl (y (n / nx % ny)), fl (z (n / (nx * ny)))] := by
    intro n hn
    simp [gridFile, hn]
  have hxy : 0 < nx * ny := Nat.mul_pos hx hy
  rw [mapM_range nx _ (fl ∘ x), mapM_range ny _ (fl ∘ y), mapM_range nz _ (fl ∘ z)]
  · simp
  · intro k hk
    have h1 : k * nx * ny < nx * ny * nz := by
      rw [Nat.mul_assoc, Nat.mul_comm]; exact Nat.mul_lt_mul_of_pos_left hk hxy
    have h2 : k * nx * ny / (nx * ny) = k := by rw [Nat.mul_assoc, Nat.mul_div_cancel _ hxy]
    rw [at' _ h1]
    simp [h2]
  · intro k hk
    have h1 : k * nx < nx * ny * nz := by
      calc k * nx < ny * nx := Nat.mul_lt_mul_of_pos_right hk hx
        _ = nx * ny := Nat.mul_comm _ _
        _ ≤ nx * ny * nz := Nat.le_mul_of_pos_right _ hz
    rw [at' _ h1]
    simp [Nat.mul_div_cancel _ hx, Nat.mod_eq_of_lt hk]
  · intro k hk
    have h1 : k < nx * ny * nz := by
      calc k < nx := hk
        _ ≤ nx * ny := Nat.le_mul_of_pos_right _ hy
        _ ≤ nx * ny * nz := Nat.le_mul_of_pos_right _ hz
    rw [at' _ h1]
    simp [Nat.mod_eq_of_lt hk]

/-- [case] A grid of 2 × 1 × 2 points. -/
example : importGrid nat 3 2 1 2 (some "1 5 7\n2 5 7\n1 5 8\n2 5 8\n".toList) = some [[1, 2], [5], [7, 8]] ∧
    gridFile (fun i => i + 1) (fun _ => 5) (fun k => k + 7) 2 1 2 = [[1, 5, 7], [2, 5, 7], [1, 5, 8], [2, 5, 8]] := by decide +kernel

/-- C153, grid and records: the node found for a location is the number of the line whose (rounded) point is closest; no line with a
smaller number is as close. -/
theorem C153_gridnode_partial [Field K] [LinearOrder K] [IsStrictOrderedRing K] (fl : K → K) (big px py pz : K) (x y z : Nat → K)
    (nx ny nz : Nat) (hx : ∃ i < nx, (px - fl (x i)) ^ 2 < big) (hy : ∃ i < ny, (py - fl (y i)) ^ 2 < big)
    (hz : ∃ i < nz, (pz - fl (z i)) ^ 2 < big) :
    ∃ n, n = (closestGrid3 big px py pz ((List.range nx).map (fl ∘ x)) ((List.range ny).map (fl ∘ y)) ((List.range nz).map (fl ∘ z))).1 ∧
      n < nx * ny * nz ∧ ∀ m < nx * ny * nz, ∀ p q, (gridFile x y z nx ny nz)[n]? = some p → (gridFile x y z nx ny nz)[m]? = some q →
        (((px - fl (p.getD 0 0)) ^ 2 + (py - fl (p.getD 1 0)) ^ 2 + (pz - fl (p.getD 2 0)) ^ 2 ≤
          (px - fl (q.getD 0 0)) ^ 2 + (py - fl (q.getD 1 0)) ^ 2 + (pz - fl (q.getD 2 0)) ^ 2) ∧
        (m < n → (px - fl (p.getD 0 0)) ^ 2 + (py - fl (p.getD 1 0)) ^ 2 + (pz - fl (p.getD 2 0)) ^ 2 <
          (px - fl (q.getD 0 0)) ^ 2 + (py - fl (q.getD 1 0)) ^ 2 + (pz - fl (q.getD 2 0)) ^ 2)) := by
  have tr : ∀ (n : Nat) (t : Nat → K) (a : K), (∃ i < n, (a - fl (t i)) ^ 2 < big) →
      ∃ g ∈ (List.range n).map (fl ∘ t), (a - g) ^ 2 < big := by
    rintro n t a ⟨i, hi, h⟩
    exact ⟨fl (t i), List.mem_map.2 ⟨i, List.mem_range.2 hi, rfl⟩, h⟩
  obtain ⟨h1, h2, h3⟩ := C13_grid3_partial big px py pz _ _ _ (tr nx x px hx) (tr ny y py hy) (tr nz z pz hz)
  generalize hN : closestGrid3 big px py pz ((List.range nx).map (fl ∘ x)) ((List.range ny).map (fl ∘ y))
    ((List.range nz).map (fl ∘ z)) = N at h1 h2 h3
  have nx0 : 0 < nx := by obtain ⟨i, hi, -⟩ := hx; omega
  have ny0 : 0 < ny := by obtain ⟨i, hi, -⟩ := hy; omega
  have hd : ∀ n, dist3 px py pz ((List.range nx).map (fl ∘ x)) ((List.range ny).map (fl ∘ y)) ((List.range nz).map (fl ∘ z)) n =
      if n < nx * ny * nz then some ((px - fl (x (n % nx))) ^ 2 + (py - fl (y (n / nx % ny))) ^ 2 +
        (pz - fl (z (n / (nx * ny)))) ^ 2) else none := by
    intro n
    unfold dist3
    have m1 := Nat.mod_lt n nx0
    have m2 := Nat.mod_lt (n / nx) ny0
    simp only [List.length_map, List.length_range, List.getElem?_map, List.getElem?_range m1, List.getElem?_range m2, Option.map_some]
    by_cases h : n < nx * ny * nz
    · have m3 : n / (nx * ny) < nz := Nat.div_lt_of_lt_mul h
      simp [h, List.getElem?_range m3]
    · have m3 : ¬ n / (nx * ny) < nz := fun hh => h (by
        have := (Nat.div_lt_iff_lt_mul (Nat.mul_pos nx0 ny0)).1 hh
        rw [Nat.mul_comm] at this; exact this)
      simp [h, m3]
  have hlt : N.1 < nx * ny * nz := by
    by_contra h
    rw [hd, if_neg h] at h1
    exact absurd h1 (by simp)
  refine ⟨N.1, rfl, hlt, fun m hm p q hp hq => ?_⟩
  simp only [gridFile, List.getElem?_map, List.getElem?_range hlt, List.getElem?_range hm, Option.map_some, Option.some.injEq] at hp hq
  subst hp hq
  rw [hd, if_pos hlt] at h1
  simp only [Option.some.injEq] at h1
  have g2 := h2 m _ (by rw [hd, if_pos hm])
  refine ⟨?_, fun hmn => ?_⟩
  · show (px - fl (x _)) ^ 2 + (py - fl (y _)) ^ 2 + (pz - fl (z _)) ^ 2 ≤ _
    rw [h1]; exact g2
  · have g3 := h3 m _ hmn (by rw [hd, if_pos hm])
    show (px - fl (x _)) ^ 2 + (py - fl (y _)) ^ 2 + (pz - fl (z _)) ^ 2 < _
    rw [h1]; exact g3

/-- [case] A location beside the second node. -/
example : (closestGrid3 (100 : ℚ) 2 0 0 [0, 3] [0] [0]).1 = 1 := by decide +kernel

/-- C153 is false for grids finer than single precision: if rounding makes the coordinates of two points equal, the record of the first
is used also at the place of the second. -/
theorem C153_float_violated [Field K] [LinearOrder K] [IsStrictOrderedRing K] (fl : K → K) (big a b : K) (hfl : fl a = fl b)
    (hbig : (b - fl b) ^ 2 < big) (hab : a ≠ b) :
    (closestGrid1 big b [fl a, fl b]).1 = 0 ∧ (b - b) ^ 2 < (b - a) ^ 2 := by
  constructor
  · have h : (b - fl b) * (b - fl b) < big := by rw [← pow_two]; exact hbig
    simp [closestGrid1, axis, axisLoop, hfl, h]
  · have : b - a ≠ 0 := sub_ne_zero.2 (Ne.symm hab)
    rw [sub_self]
    have h := pow_pos (abs_pos.2 this) 2
    rw [sq_abs] at h
    simpa using h

/-- [case] Rounding that makes everything below one zero. -/
example : let fl : ℚ → ℚ := fun x => if x < 1 then 0 else x
    fl 0 = fl (1/4) ∧ (1/4 - fl (1/4)) ^ 2 < 100 ∧ (closestGrid1 (100 : ℚ) (1/4) [fl 0, fl (1/4)]).1 = 0 := by
  decide +kernel

/-- C153 is false when the file has fewer points than the grid: an entry past the end is read. -/
theorem C153_gridshort_violated (R : Reader K) (nx ny nz : Nat) (f : List Char) (h : (pieces f.length f).length < nx) :
    importGrid R 1 nx ny nz (some f) = none := by
  simp only [importGrid, Option.bind_some, true_or, if_true]
  cases hr : readRows R 1 (pieces f.length f) (List.replicate 1 none) with
  | none => rfl
  | some rows =>
    have hl := readRows_length R 1 _ _ _ hr
    rw [Option.bind_some, Option.map_eq_none_iff]
    cases hm : (List.range nx).mapM (fun k => (rows[k]?).bind (·[0]?)) with
    | none => rfl
    | some g =>
      exfalso
      have : ∀ (l : List Nat) (g : List K), l.mapM (fun k => (rows[k]?).bind (·[0]?)) = some g → ∀ k ∈ l, k < rows.length := by
        intro l
        induction l with
        | nil => intro g _ k hk; exact absurd hk (by simp)
        | cons a l ih =>
          intro g hg k hk
          simp only [List.mapM_cons, Option.bind_eq_bind, Option.bind_eq_some_iff] at hg
          obtain ⟨v, ⟨r, hr, -⟩, t, ht, -⟩ := hg
          rcases List.mem_cons.1 hk with rfl | h
          · exact (List.getElem?_eq_some_iff.1 hr).1
          · exact ih t ht k h
      have := this _ g hm (pieces f.length f).length (List.mem_range.2 h)
      omega

/-- [case] Two points for a grid of three. -/
example : importGrid nat 1 3 0 0 (some "1\n2\n".toList) = none := by decide +kernel

end MrHyDE.Views.DataFile
