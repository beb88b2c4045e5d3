import Mathlib.Data.Complex.Basic
import Mathlib.Data.Complex.BigOperators
import Mathlib.Data.Fin.VecNotation
import Mathlib.Analysis.SpecialFunctions.Trigonometric.Deriv
import Mathlib.Analysis.SpecialFunctions.Trigonometric.Basic
import Mathlib.Analysis.Complex.RealDeriv
import Mathlib.Analysis.Calculus.Deriv.Pow
import Mathlib.Algebra.BigOperators.Fin
import Mathlib.Algebra.Ring.Pi
import Mathlib.Tactic.FinCases
import Mathlib.Tactic.Ring
import Mathlib.Tactic.FieldSimp
import Mathlib.Tactic.Linarith
import Mathlib.Tactic.NormNum

/-!
# Maxwell's equations with potentials in the frequency domain (C163)

`maxwells_freq_pot` has the real and imaginary parts of a vector potential and a scalar potential as variables.  The
expressions of the rows below were copied from the code mechanically (names of state and test functions prefixed).
-/

set_option linter.unusedSectionVars false
set_option linter.unusedSimpArgs false

namespace MrHyDE.Modules.MaxwellPotential

local notation "π" => Real.pi

open Real (sin cos)

/-! ## Model -/

/-- The variables, src/physics/maxwells_fp.cpp:26-37. -/
inductive Var
  | Axr
  | Axi
  | phir
  | phii
  | Ayr
  | Ayi
  | Azr
  | Azi
deriving DecidableEq

/-- State, its derivatives and rates, media and sources at a point, src/physics/maxwells_fp.cpp:86-105, 188-283; the
components past the dimension of space stay zero. -/
structure State where
  (Axr dAxrdx dAxrdy dAxrdz Axi dAxidx dAxidy dAxidz Ayr dAyrdx dAyrdy dAyrdz Ayi dAyidx dAyidy : ℝ := 0)
  (dAyidz Azr dAzrdx dAzrdy dAzrdz Azi dAzidx dAzidy dAzidz phir dphirdx dphirdy dphirdz phii dphiidx : ℝ := 0)
  (dphiidy dphiidz Axrdot Axidot Ayrdot Ayidot Azrdot Azidot phirdot phiidot omega Jxr Jyr Jzr Jxi : ℝ := 0)
  (Jyi Jzi rhor mur invmur epsr rhoi mui invmui epsi : ℝ := 0)

/-- Values and derivatives of a test function in the bases of `phir` and `phii`, src/physics/maxwells_fp.cpp:250-279. -/
structure Test where
  (vr dvrdx dvrdy dvrdz vi dvidx dvidy dvidz : ℝ := 0)

/-- Real part of the equation of the first component, src/physics/maxwells_fp.cpp:300-314. -/
def rowAxr (s : State) (t : Test) : ℝ :=
  ((t.dvrdz * (s.dAxrdz - s.dAzrdx) - t.dvrdy * (s.dAyrdx - s.dAxrdy) - (t.dvidz * (s.dAxidz - s.dAzidx) - t.dvidy *
    (s.dAyidx - s.dAxidy))) * s.invmur - (t.dvrdz * (s.dAxidz - s.dAzidx) - t.dvrdy * (s.dAyidx - s.dAxidy) + t.dvidz *
    (s.dAxrdz - s.dAzrdx) - t.dvidy * (s.dAyrdx - s.dAxrdy)) * s.invmui) + ((t.dvrdx * (s.dAxrdx + s.dAyrdy + s.dAzrdz)
    - t.dvidx * (s.dAxidx + s.dAyidy + s.dAzidz)) * s.invmur - (t.dvrdx * (s.dAxidx + s.dAyidy + s.dAzidz) + t.dvidx *
    (s.dAxrdx + s.dAyrdy + s.dAzrdz)) * s.invmui) - s.omega * s.omega * (s.epsr * t.vr * s.Axr - s.epsr * t.vi * s.Axi
    - s.epsi * t.vr * s.Axi - s.epsi * t.vi * s.Axr) + s.omega * (s.epsi * (s.dphirdx * t.vr + s.phir * t.dvrdx) +
    s.epsr * (s.dphiidx * t.vr + s.phii * t.dvrdx) + s.epsr * (s.dphirdx * t.vi + s.phir * t.dvidx) - s.epsi *
    (s.dphiidx * t.vi + s.phii * t.dvidx)) - (t.vr * s.Jxr - t.vi * s.Jxi)

/-- Imaginary part of the equation of the first component, src/physics/maxwells_fp.cpp:315-329. -/
def rowAxi (s : State) (t : Test) : ℝ :=
  ((t.dvrdz * (s.dAxidz - s.dAzidx) - t.dvrdy * (s.dAyidx - s.dAxidy) + t.dvidz * (s.dAxrdz - s.dAzrdx) - t.dvidy *
    (s.dAyrdx - s.dAxrdy)) * s.invmur + (t.dvrdz * (s.dAxrdz - s.dAzrdx) - t.dvrdy * (s.dAyrdx - s.dAxrdy) - (t.dvidz *
    (s.dAxidz - s.dAzidx) - t.dvidy * (s.dAyidx - s.dAxidy))) * s.invmui) + ((t.dvrdx * (s.dAxidx + s.dAyidy +
    s.dAzidz) + t.dvidx * (s.dAxrdx + s.dAyrdy + s.dAzrdz)) * s.invmur + (t.dvrdx * (s.dAxrdx + s.dAyrdy + s.dAzrdz) -
    t.dvidx * (s.dAxidx + s.dAyidy + s.dAzidz)) * s.invmui) - s.omega * s.omega * (-s.epsi * t.vi * s.Axi + s.epsi *
    t.vr * s.Axr + s.epsr * t.vi * s.Axr + s.epsr * t.vr * s.Axi) - s.omega * (- s.epsr * (s.dphiidx * t.vi + s.phii *
    t.dvidx) - s.epsi * (s.dphirdx * t.vi + s.phir * t.dvidx) - s.epsi * (s.dphiidx * t.vr + s.phii * t.dvrdx) + s.epsr
    * (s.dphirdx * t.vr + s.phir * t.dvrdx)) - (t.vr * s.Jxi + t.vi * s.Jxr)

/-- Real part of the equation of the scalar potential, src/physics/maxwells_fp.cpp:331-348. -/
def rowPhir (s : State) (t : Test) : ℝ :=
  (s.epsr * (t.dvrdx * s.dphirdx + t.dvrdy * s.dphirdy + t.dvrdz * s.dphirdz) - s.epsr * (t.dvidx * s.dphiidx + t.dvidy
    * s.dphiidy + t.dvidz * s.dphiidz) - s.epsi * (t.dvrdx * s.dphiidx + t.dvrdy * s.dphiidy + t.dvrdz * s.dphiidz) -
    s.epsi * (t.dvidx * s.dphirdx + t.dvidy * s.dphirdy + t.dvidz * s.dphirdz)) - s.omega * s.omega * ((s.epsr * s.epsr
    - s.epsi * s.epsi) * s.mur * t.vr * s.phir - (2 * s.epsr * s.epsi) * s.mui * t.vr * s.phir - (2 * s.epsr * s.epsi)
    * s.mur * t.vi * s.phir - (2 * s.epsr * s.epsi) * s.mur * t.vr * s.phii - (s.epsr * s.epsr - s.epsi * s.epsi) *
    s.mui * t.vi * s.phir - (s.epsr * s.epsr - s.epsi * s.epsi) * s.mui * t.vr * s.phii - (s.epsr * s.epsr - s.epsi *
    s.epsi) * s.mur * t.vi * s.phii + (2 * s.epsr * s.epsi) * s.mui * t.vi * s.phii) + s.omega * (s.epsi * (t.dvrdx *
    s.Axr + t.vr * s.dAxrdx + t.dvrdy * s.Ayr + t.vr * s.dAyrdy + t.dvrdz * s.Azr + t.vr * s.dAzrdz) + s.epsr *
    (t.dvidx * s.Axr + t.vi * s.dAxrdx + t.dvidy * s.Ayr + t.vi * s.dAyrdy + t.dvidz * s.Azr + t.vi * s.dAzrdz) +
    s.epsr * (t.dvrdx * s.Axi + t.vr * s.dAxidx + t.dvrdy * s.Ayi + t.vr * s.dAyidy + t.dvrdz * s.Azi + t.vr *
    s.dAzidz) - s.epsi * (t.dvidx * s.Axi + t.vi * s.dAxidx + t.dvidy * s.Ayi + t.vi * s.dAyidy + t.dvidz * s.Azi +
    t.vi * s.dAzidz)) - (t.vr * s.rhor - t.vi * s.rhoi)

/-- Imaginary part of the equation of the scalar potential, src/physics/maxwells_fp.cpp:350-367. -/
def rowPhii (s : State) (t : Test) : ℝ :=
  (- s.epsi * (t.dvidx * s.dphiidx + t.dvidy * s.dphiidy + t.dvidz * s.dphiidz) + s.epsi * (t.dvrdx * s.dphirdx +
    t.dvrdy * s.dphirdy + t.dvrdz * s.dphirdz) + s.epsr * (t.dvidx * s.dphirdx + t.dvidy * s.dphirdy + t.dvidz *
    s.dphirdz) + s.epsr * (t.dvrdx * s.dphiidx + t.dvrdy * s.dphiidy + t.dvrdz * s.dphiidz)) - s.omega * s.omega * ((2
    * s.epsr * s.epsi) * s.mur * t.vr * s.phir + (s.epsr * s.epsr - s.epsi * s.epsi) * s.mui * t.vr * s.phir + (s.epsr
    * s.epsr - s.epsi * s.epsi) * s.mur * t.vi * s.phir + (s.epsr * s.epsr - s.epsi * s.epsi) * s.mur * t.vr * s.phii -
    (s.epsr * s.epsr - s.epsi * s.epsi) * s.mui * t.vi * s.phii - (2 * s.epsr * s.epsi) * s.mur * t.vi * s.phii - (2 *
    s.epsr * s.epsi) * s.mui * t.vr * s.phii - (2 * s.epsr * s.epsi) * s.mui * t.vi * s.phir) - s.omega * (- s.epsr *
    (t.dvidx * s.Axi + t.vi * s.dAxidx + t.dvidy * s.Ayi + t.vi * s.dAyidy + t.dvidz * s.Azi + t.vi * s.dAzidz) -
    s.epsi * (t.dvrdx * s.Axi + t.vr * s.dAxidx + t.dvrdy * s.Ayi + t.vr * s.dAyidy + t.dvrdz * s.Azi + t.vr *
    s.dAzidz) - s.epsi * (t.dvidx * s.Axr + t.vi * s.dAxrdx + t.dvidy * s.Ayr + t.vi * s.dAyrdy + t.dvidz * s.Azr +
    t.vi * s.dAzrdz) + s.epsr * (t.dvrdx * s.Axr + t.vr * s.dAxrdx + t.dvrdy * s.Ayr + t.vr * s.dAyrdy + t.dvrdz *
    s.Azr + t.vr * s.dAzrdz)) - (t.vr * s.rhoi + t.vi * s.rhor)

/-- Real part of the equation of the second component, src/physics/maxwells_fp.cpp:369-383. -/
def rowAyr (s : State) (t : Test) : ℝ :=
  ((-t.dvrdz * (s.dAzrdy - s.dAyrdz) + t.dvrdx * (s.dAyrdx - s.dAxrdy) - (-t.dvidz * (s.dAzidy - s.dAyidz) + t.dvidx *
    (s.dAyidx - s.dAxidy))) * s.invmur - (-t.dvrdz * (s.dAzidy - s.dAyidz) + t.dvrdx * (s.dAyidx - s.dAxidy) +
    (-t.dvidz * (s.dAzrdy - s.dAyrdz) + t.dvidx * (s.dAyrdx - s.dAxrdy))) * s.invmui) + ((t.dvrdy * (s.dAxrdx +
    s.dAyrdy + s.dAzrdz) - t.dvidy * (s.dAxidx + s.dAyidy + s.dAzidz)) * s.invmur - (t.dvrdy * (s.dAxidx + s.dAyidy +
    s.dAzidz) + t.dvidy * (s.dAxrdx + s.dAyrdy + s.dAzrdz)) * s.invmui) - s.omega * s.omega * (s.epsr * t.vr * s.Ayr -
    s.epsr * t.vi * s.Ayi - s.epsi * t.vr * s.Ayi - s.epsi * t.vi * s.Ayr) + s.omega * (s.epsi * (s.dphirdy * t.vr +
    s.phir * t.dvrdy) + s.epsr * (s.dphiidy * t.vr + s.phii * t.dvrdy) + s.epsr * (s.dphirdy * t.vi + s.phir * t.dvidy)
    - s.epsi * (s.dphiidy * t.vi + s.phii * t.dvidy)) - (t.vr * s.Jyr - t.vi * s.Jyi)

/-- Imaginary part of the equation of the second component, src/physics/maxwells_fp.cpp:384-398. -/
def rowAyi (s : State) (t : Test) : ℝ :=
  ((-t.dvrdz * (s.dAzidy - s.dAyidz) + t.dvrdx * (s.dAyidx - s.dAxidy) + (-t.dvidz * (s.dAzrdy - s.dAyrdz) + t.dvidx *
    (s.dAyrdx - s.dAxrdy))) * s.invmur + (-t.dvrdz * (s.dAzrdy - s.dAyrdz) + t.dvrdx * (s.dAyrdx - s.dAxrdy) -
    (-t.dvidz * (s.dAzidy - s.dAyidz) + t.dvidx * (s.dAyidx - s.dAxidy))) * s.invmui) + ((t.dvrdy * (s.dAxidx +
    s.dAyidy + s.dAzidz) + t.dvidy * (s.dAxrdx + s.dAyrdy + s.dAzrdz)) * s.invmur + (t.dvrdy * (s.dAxrdx + s.dAyrdy +
    s.dAzrdz) - t.dvidy * (s.dAxidx + s.dAyidy + s.dAzidz)) * s.invmui) - s.omega * s.omega * (-s.epsi * t.vi * s.Ayi +
    s.epsi * t.vr * s.Ayr + s.epsr * t.vi * s.Ayr + s.epsr * t.vr * s.Ayi) - s.omega * (- s.epsr * (s.dphiidy * t.vi +
    s.phii * t.dvidy) - s.epsi * (s.dphirdy * t.vi + s.phir * t.dvidy) - s.epsi * (s.dphiidy * t.vr + s.phii * t.dvrdy)
    + s.epsr * (s.dphirdy * t.vr + s.phir * t.dvrdy)) - (t.vr * s.Jyi + t.vi * s.Jyr)

/-- Real part of the equation of the third component, src/physics/maxwells_fp.cpp:401-415. -/
def rowAzr (s : State) (t : Test) : ℝ :=
  ((t.dvrdy * (s.dAzrdy - s.dAyrdz) - t.dvrdx * (s.dAxrdz - s.dAzrdx) - (t.dvidy * (s.dAzidy - s.dAyidz) - t.dvidx *
    (s.dAxidz - s.dAzidx))) * s.invmur - (t.dvrdy * (s.dAzidy - s.dAyidz) - t.dvrdx * (s.dAxidz - s.dAzidx) + t.dvidy *
    (s.dAzrdy - s.dAyrdz) - t.dvidx * (s.dAxrdz - s.dAzrdx)) * s.invmui) + ((t.dvrdz * (s.dAxrdx + s.dAyrdy + s.dAzrdz)
    - t.dvidz * (s.dAxidx + s.dAyidy + s.dAzidz)) * s.invmur - (t.dvrdz * (s.dAxidx + s.dAyidy + s.dAzidz) + t.dvidz *
    (s.dAxrdx + s.dAyrdy + s.dAzrdz)) * s.invmui) - s.omega * s.omega * (s.epsr * t.vr * s.Azr - s.epsr * t.vi * s.Azi
    - s.epsi * t.vr * s.Azi - s.epsi * t.vi * s.Azr) + s.omega * (s.epsi * (s.dphirdz * t.vr + s.phir * t.dvrdz) +
    s.epsr * (s.dphiidz * t.vr + s.phii * t.dvrdz) + s.epsr * (s.dphirdz * t.vi + s.phir * t.dvidz) - s.epsi *
    (s.dphiidz * t.vi + s.phii * t.dvidz)) - (t.vr * s.Jzr - t.vi * s.Jzi)

/-- Imaginary part of the equation of the third component, src/physics/maxwells_fp.cpp:416-430. -/
def rowAzi (s : State) (t : Test) : ℝ :=
  ((t.dvrdy * (s.dAzidy - s.dAyidz) - t.dvrdx * (s.dAxidz - s.dAzidx) + t.dvidy * (s.dAzrdy - s.dAyrdz) - t.dvidx *
    (s.dAxrdz - s.dAzrdx)) * s.invmur + (t.dvrdy * (s.dAzrdy - s.dAyrdz) - t.dvrdx * (s.dAxrdz - s.dAzrdx) - (t.dvidy *
    (s.dAzidy - s.dAyidz) - t.dvidx * (s.dAxidz - s.dAzidx))) * s.invmui) + ((t.dvrdz * (s.dAxidx + s.dAyidy +
    s.dAzidz) + t.dvidz * (s.dAxrdx + s.dAyrdy + s.dAzrdz)) * s.invmur + (t.dvrdz * (s.dAxrdx + s.dAyrdy + s.dAzrdz) -
    t.dvidz * (s.dAxidx + s.dAyidy + s.dAzidz)) * s.invmui) - s.omega * s.omega * (-s.epsi * t.vi * s.Azi + s.epsi *
    t.vr * s.Azr + s.epsr * t.vi * s.Azr + s.epsr * t.vr * s.Azi) - s.omega * (- s.epsr * (s.dphiidz * t.vi + s.phii *
    t.dvidz) - s.epsi * (s.dphirdz * t.vi + s.phir * t.dvidz) - s.epsi * (s.dphiidz * t.vr + s.phii * t.dvrdz) + s.epsr
    * (s.dphirdz * t.vr + s.phir * t.dvrdz)) - (t.vr * s.Jzi + t.vi * s.Jzr)

/-- The row of a variable, src/physics/maxwells_fp.cpp:300-430. -/
def row : Var → State → Test → ℝ
  | .Axr => rowAxr
  | .Axi => rowAxi
  | .phir => rowPhir
  | .phii => rowPhii
  | .Ayr => rowAyr
  | .Ayi => rowAyi
  | .Azr => rowAzr
  | .Azi => rowAzi

/-- The rows in the order of the code, src/physics/maxwells_fp.cpp:300-431. -/
def vars (dim : Nat) : List Var :=
  [.Axr, .Axi, .phir, .phii] ++ (if dim > 1 then [.Ayr, .Ayi] else []) ++ (if dim > 2 then [.Azr, .Azi] else [])

/-- The rates are added at the positions 0 to 7 themselves, src/physics/maxwells_fp.cpp:287-298. -/
def rates (dim : Nat) (s : State) (t : Test) : List (Nat × ℝ) :=
  [(0, s.Axrdot * t.vr - s.Axidot * t.vi), (1, s.Axrdot * t.vi + s.Axidot * t.vr),
    (2, s.phirdot * t.vr - s.phiidot * t.vi), (3, s.phirdot * t.vi + s.phiidot * t.vr)] ++
  (if dim > 1 then [(4, s.Ayrdot * t.vr - s.Ayidot * t.vi), (5, s.Ayrdot * t.vi + s.Ayidot * t.vr)] else []) ++
  (if dim > 2 then [(6, s.Azrdot * t.vr - s.Azidot * t.vi), (7, s.Azrdot * t.vi + s.Azidot * t.vr)] else [])

/-- The body of the loops for function `i`, src/physics/maxwells_fp.cpp:287-431; `off` are the offsets. -/
def adds (dim : Nat) (off : Var → Nat → Nat) (s : State) (t : Test) (i : Nat) : List (Nat × ℝ) :=
  rates dim s t ++ (vars dim).map (fun v => (off v i, row v s t))

/-- Additions one after the other, `res(e,resindex) += …`, src/physics/maxwells_fp.cpp:287-431. -/
def addTo (res : Nat → ℝ) (l : List (Nat × ℝ)) : Nat → ℝ :=
  l.foldl (fun r a j => if j = a.1 then r j + a.2 else r j) res

/-- What is known at an integration point; the weight is not read by the code. [src/physics/maxwells_fp.cpp:188-280] -/
structure Pt where
  wts : ℝ
  st : State
  test : Nat → Test

/-- `volumeResidual` for one element, src/physics/maxwells_fp.cpp:187-435: over the points, over the functions of the basis of `phir`. -/
def volume (dim : Nat) (off : Var → Nat → Nat) (nb : Nat) (pts : List Pt) (res : Nat → ℝ) : Nat → ℝ :=
  pts.foldl (fun r p => (List.range nb).foldl (fun r i => addTo r (adds dim off p.st (p.test i) i)) r) res

/-- Data on a side: normal, current (magnetic for type 1, electric for type 2), charge, scaling,
src/physics/maxwells_fp.cpp:469-514, 578-654. -/
structure Side where
  (nx ny nz cxr cyr czr cxi cyi czi rhosr rhosi weakEssScale : ℝ := 0)

/-- The body of the boundary loops for a type of boundary, src/physics/maxwells_fp.cpp:650-773. -/
noncomputable def sideAdds (btype : Int) (dim : Nat) (off : Var → Nat → Nat) (s : State) (b : Side) (t : Test) (i : Nat) :
    List (Nat × ℝ) :=
  if btype = 1 then
    (if dim = 2 then
      [(off .Axr i, b.weakEssScale * (t.vr * (b.nx * s.Ayr - b.ny * s.Axr + (1 / s.omega) * b.czi)
          - t.vi * (b.nx * s.Ayi - b.ny * s.Axi - (1 / s.omega) * b.czr))),
        (off .Axi i, b.weakEssScale * (t.vr * (b.nx * s.Ayi - b.ny * s.Axi - (1 / s.omega) * b.czr)
          + t.vi * (b.nx * s.Ayr - b.ny * s.Axr + (1 / s.omega) * b.czi)))]
    else []) ++
    (if dim = 3 then
      [(off .Axr i, b.weakEssScale * (t.vr * (b.ny * s.Azr - b.nz * s.Ayr + (1 / s.omega) * b.cxi)
          - t.vi * (b.ny * s.Azi - b.nz * s.Ayi - (1 / s.omega) * b.cxr))),
        (off .Axi i, b.weakEssScale * (t.vr * (b.ny * s.Azi - b.nz * s.Ayi - (1 / s.omega) * b.cxr)
          + t.vi * (b.ny * s.Azr - b.nz * s.Ayr + (1 / s.omega) * b.cxi))),
        (off .Ayr i, b.weakEssScale * (t.vr * (b.nz * s.Axr - b.nx * s.Azr + (1 / s.omega) * b.cyi)
          - t.vi * (b.nz * s.Axi - b.nx * s.Azi - (1 / s.omega) * b.cyr))),
        (off .Ayi i, b.weakEssScale * (t.vr * (b.nz * s.Axi - b.nx * s.Azi - (1 / s.omega) * b.cyr)
          + t.vi * (b.nz * s.Axr - b.nx * s.Azr + (1 / s.omega) * b.cyi))),
        (off .Azr i, b.weakEssScale * (t.vr * (b.nx * s.Ayr - b.ny * s.Axr + (1 / s.omega) * b.czi)
          - t.vi * (b.nx * s.Ayi - b.ny * s.Axi - (1 / s.omega) * b.czr))),
        (off .Azi i, b.weakEssScale * (t.vr * (b.nx * s.Ayi - b.ny * s.Axi - (1 / s.omega) * b.czr)
          + t.vi * (b.nx * s.Ayr - b.ny * s.Axr + (1 / s.omega) * b.czi)))]
    else [])
  else if btype = 2 then
    [(off .phir i, b.weakEssScale *
        (t.vr * (s.epsr * (b.nx * s.Axr + b.ny * s.Ayr + b.nz * s.Azr)
            - s.epsi * (b.nx * s.Axi + b.ny * s.Ayi + b.nz * s.Azi) - (1 / s.omega) * b.rhosi)
          - t.vi * (s.epsr * (b.nx * s.Axi + b.ny * s.Ayi + b.nz * s.Azi)
            + s.epsi * (b.nx * s.Axr + b.ny * s.Ayr + b.nz * s.Azr) + (1 / s.omega) * b.rhosr))),
      (off .phii i, b.weakEssScale *
        (t.vr * (s.epsr * (b.nx * s.Axi + b.ny * s.Ayi + b.nz * s.Azi)
            + s.epsi * (b.nx * s.Axr + b.ny * s.Ayr + b.nz * s.Azr) + (1 / s.omega) * b.rhosr)
          + t.vi * (s.epsr * (b.nx * s.Axr + b.ny * s.Ayr + b.nz * s.Azr)
            - s.epsi * (b.nx * s.Axi + b.ny * s.Ayi + b.nz * s.Azi) - (1 / s.omega) * b.rhosi))),
      (off .Axr i, t.vr * b.cxr - t.vi * b.cxi), (off .Axi i, t.vr * b.cxi + t.vi * b.cxr),
      (off .phir i, t.vr * b.rhosr - t.vi * b.rhosi), (off .phii i, t.vr * b.rhosi + t.vi * b.rhosr)] ++
    (if dim > 1 then
      [(off .Ayr i, t.vr * b.cyr - t.vi * b.cyi), (off .Ayi i, t.vr * b.cyi + t.vi * b.cyr)] else []) ++
    (if dim > 2 then
      [(off .Azr i, t.vr * b.czr - t.vi * b.czi), (off .Azi i, t.vr * b.czi + t.vi * b.czr)] else [])
  else []

/-- The loops on a side for a given type of boundary, src/physics/maxwells_fp.cpp:576-773. -/
noncomputable def boundaryOf (btype : Int) (dim : Nat) (off : Var → Nat → Nat) (nb : Nat) (pts : List (Side × Pt)) (res : Nat → ℝ) :
    Nat → ℝ :=
  pts.foldl (fun r p => (List.range nb).foldl (fun r i =>
    addTo r (sideAdds btype dim off p.2.st p.1 (p.2.test i) i)) r) res

/-- `boundaryResidual`, src/physics/maxwells_fp.cpp:442-778: the type of the boundary is the constant 0 (line 493). -/
noncomputable def boundary (dim : Nat) (off : Var → Nat → Nat) (nb : Nat) (pts : List (Side × Pt)) (res : Nat → ℝ) : Nat → ℝ :=
  boundaryOf 0 dim off nb pts res

/-- `getPermeability`, src/physics/maxwells_fp.cpp:819-838. -/
noncomputable def permeability (test : Int) (x : ℝ) : ℝ × ℝ :=
  if test = 1 then (2, 1)
  else if test = 2 then (2 / (x * x + 1), 1 / (x * x + 1))
  else if test = 3 then (1 / (x * x + 1), 0)
  else (1, 0)

/-- `getInvPermeability`, src/physics/maxwells_fp.cpp:845-864. -/
noncomputable def invPermeability (test : Int) (x : ℝ) : ℝ × ℝ :=
  if test = 1 then (4 / 10, -(2 / 10))
  else if test = 2 then (4 / 10 * (x * x + 1), -(2 / 10) * (x * x + 1))
  else if test = 3 then (x * x + 1, 0)
  else (1, 0)

/-- `getPermittivity`, src/physics/maxwells_fp.cpp:871-898 (test 4 is left out). -/
def permittivity (test : Int) (x : ℝ) : ℝ × ℝ :=
  if test = 1 then (1, 1)
  else if test = 2 then (x * x + 1, x * x + 1)
  else if test = 3 then (2 * (x * x + 1), 0)
  else (1, 0)

/-- `getInteriorCurrent` for test 1, real and imaginary parts, src/physics/maxwells_fp.cpp:910-915. -/
noncomputable def current1 (x y z : ℝ) : Fin 3 → ℝ × ℝ :=
  ![
    (((18/10) * π * π) * sin (π * x) * sin (π * y) * sin (π * z),
      ((6/10) * π * π-2) * sin (π * x) * sin (π * y) * sin (π * z)),
    ((-(18/10) * π * π) * sin (π * x) * sin (π * y) * sin (π * z),
      (-(6/10) * π * π+2) * sin (π * x) * sin (π * y) * sin (π * z)),
    (((36/10) * π * π) * sin (π * x) * sin (π * y) * sin (π * z),
      ((12/10) * π * π-4) * sin (π * x) * sin (π * y) * sin (π * z))]

/-- `getInteriorCurrent` for test 2, real and imaginary parts, src/physics/maxwells_fp.cpp:917-937. -/
noncomputable def current2 (x y z : ℝ) : Fin 3 → ℝ × ℝ :=
  ![
    ((9 * π * π * sin (π * x) * sin (π * y) * sin (π * z)) / 5 - 4 * x * sin (π * x) * sin (π * y) * sin (π * z) + (9
      * x * x * π * π * sin (π * x) * sin (π * y) * sin (π * z)) / 5 - (6 * x * π * cos (π * x) * sin (π * y) * sin (π
      * z)) / 5 + (6 * x * π * cos (π * y) * sin (π * x) * sin (π * z)) / 5 - (12 * x * π * cos (π * z) * sin (π * x)
      * sin (π * y)) / 5,
      (3 * π * π * sin (π * x) * sin (π * y) * sin (π * z)) / 5 - 2 * x * x * sin (π * x) * sin (π * y) * sin (π * z)
        - 2 * sin (π * x) * sin (π * y) * sin (π * z) + (3 * x * x * π * π * sin (π * x) * sin (π * y) * sin (π * z))
        / 5 - (2 * x * π * cos (π * x) * sin (π * y) * sin (π * z)) / 5 + (2 * x * π * cos (π * y) * sin (π * x) * sin
        (π * z)) / 5 - (4 * x * π * cos (π * z) * sin (π * x) * sin (π * y)) / 5),
    (-(3 * π * sin (π * z) * (3 * π * sin (π * x) * sin (π * y) - 2 * x * cos (π * x) * sin (π * y) - 2 * x * cos (π *
      y) * sin (π * x) + 3 * x * x * π * sin (π * x) * sin (π * y))) / 5,
      (3 * sin (π * z) * ((10 * sin (π * x) * sin (π * y)) / 3 - π * π * sin (π * x) * sin (π * y) + (10 * x * x * sin
        (π * x) * sin (π * y)) / 3 - x * x * π * π * sin (π * x) * sin (π * y) + (2 * x * π * cos (π * x) * sin (π *
        y)) / 3 + (2 * x * π * cos (π * y) * sin (π * x)) / 3)) / 5),
    ((6 * π * sin (π * y) * (3 * π * sin (π * x) * sin (π * z) - 2 * x * cos (π * x) * sin (π * z) + x * cos (π * z) *
      sin (π * x) + 3 * x * x * π * sin (π * x) * sin (π * z))) / 5,
      -(6 * sin (π * y) * ((10 * sin (π * x) * sin (π * z)) / 3 - π * π * sin (π * x) * sin (π * z) + (10 * x * x *
        sin (π * x) * sin (π * z)) / 3 - x * x * π * π * sin (π * x) * sin (π * z) + (2 * x * π * cos (π * x) * sin (π
        * z)) / 3 - (x * π * cos (π * z) * sin (π * x)) / 3)) / 5)]

/-- `getInteriorCurrent` for test 3, real and imaginary parts, src/physics/maxwells_fp.cpp:939-950. -/
noncomputable def current3 (x y z : ℝ) : Fin 3 → ℝ × ℝ :=
  ![
    (-π * sin (π * x) * sin (π * (y - z)) * (x * x + 1) * (3 * π * π - 2),
      4 * x * sin (π * x) * sin (π * y) * sin (π * z)),
    ((π * cos (π * x) * sin (π * y) * sin (π * z) - π * cos (π * z) * sin (π * x) * sin (π * y)) * (2 * x * x + 2) +
      (x * x + 1) * (π * π * π * cos (π * x) * cos (π * y) * cos (π * z) - π * π * π * cos (π * x) * sin (π * y) * sin
      (π * z) + 2 * π * π * π * cos (π * z) * sin (π * x) * sin (π * y)) - (x * x + 1) * (π * π * π * cos (π * x) *
      cos (π * y) * cos (π * z) + 2 * π * π * π * cos (π * x) * sin (π * y) * sin (π * z) - π * π * π * cos (π * z) *
      sin (π * x) * sin (π * y)) - 2 * x * (π * π * cos (π * x) * cos (π * z) * sin (π * y) + π * π * cos (π * y) *
      cos (π * z) * sin (π * x) + 2 * π * π * sin (π * x) * sin (π * y) * sin (π * z)),
      0),
    ((x * x + 1) * (π * π * π * cos (π * x) * cos (π * y) * cos (π * z) + 2 * π * π * π * cos (π * x) * sin (π * y) *
      sin (π * z) - π * π * π * cos (π * y) * sin (π * x) * sin (π * z)) - (x * x + 1) * (π * π * π * cos (π * x) *
      cos (π * y) * cos (π * z) - π * π * π * cos (π * x) * sin (π * y) * sin (π * z) + 2 * π * π * π * cos (π * y) *
      sin (π * x) * sin (π * z)) - (π * cos (π * x) * sin (π * y) * sin (π * z) - π * cos (π * y) * sin (π * x) * sin
      (π * z)) * (2 * x * x + 2) + 2 * x * (π * π * cos (π * x) * cos (π * y) * sin (π * z) + π * π * cos (π * y) *
      cos (π * z) * sin (π * x) + 2 * π * π * sin (π * x) * sin (π * y) * sin (π * z)),
      0)]

/-- `getInteriorCharge` for test 1, src/physics/maxwells_fp.cpp:966-967. -/
noncomputable def charge1 (x y z : ℝ) : ℝ × ℝ :=
  (6 * sin (π * x) * sin (π * y) * sin (π * z),
    (6 * π * π-2) * sin (π * x) * sin (π * y) * sin (π * z))

/-- `getInteriorCharge` for test 2, src/physics/maxwells_fp.cpp:969-971. -/
noncomputable def charge2 (x y z : ℝ) : ℝ × ℝ :=
  (2 * sin (π * x) * sin (π * y) * sin (π * z) * (3 * x * x - 2 * x + 3),
    -2 * sin (π * y) * sin (π * z) * (sin (π * x) - 3 * π * π * sin (π * x) + x * x * sin (π * x) - 3 * x * x * π * π
      * sin (π * x) + 2 * x * π * cos (π * x)))

/-- `getInteriorCharge` for test 3, src/physics/maxwells_fp.cpp:973-976. -/
noncomputable def charge3 (x y z : ℝ) : ℝ × ℝ :=
  (3 * π * π * sin (π * x) * sin (π * y) * sin (π * z) * (2 * x * x + 2) - sin (π * x) * sin (π * y) * sin (π * z) *
    (4 * x * x + 4) - 4 * x * π * cos (π * x) * sin (π * y) * sin (π * z),
    -4 * x * π * sin (π * x) * sin (π * (y - z)))

/-- `getBoundaryCurrent` for test 4, real parts of two components, src/physics/maxwells_fp.cpp:1018-1023. -/
noncomputable def current4 (x y : ℝ) : ℝ × ℝ := (y / Real.sqrt (x * x + y * y), -(x / Real.sqrt (x * x + y * y)))

/-! ## Specification -/

/-- A pair as complex number.  [specification, no code] -/
def cx (p : ℝ × ℝ) : ℂ := ⟨p.1, p.2⟩

/-- The vector potential.  [specification, no code] -/
def A (s : State) : Fin 3 → ℂ := ![⟨s.Axr, s.Axi⟩, ⟨s.Ayr, s.Ayi⟩, ⟨s.Azr, s.Azi⟩]

/-- Its derivatives: component, direction.  [specification, no code] -/
def dA (s : State) : Fin 3 → Fin 3 → ℂ :=
  ![![⟨s.dAxrdx, s.dAxidx⟩, ⟨s.dAxrdy, s.dAxidy⟩, ⟨s.dAxrdz, s.dAxidz⟩],
    ![⟨s.dAyrdx, s.dAyidx⟩, ⟨s.dAyrdy, s.dAyidy⟩, ⟨s.dAyrdz, s.dAyidz⟩],
    ![⟨s.dAzrdx, s.dAzidx⟩, ⟨s.dAzrdy, s.dAzidy⟩, ⟨s.dAzrdz, s.dAzidz⟩]]

/-- The scalar potential.  [specification, no code] -/
def phi (s : State) : ℂ := ⟨s.phir, s.phii⟩

/-- Its derivatives.  [specification, no code] -/
def dphi (s : State) : Fin 3 → ℂ := ![⟨s.dphirdx, s.dphiidx⟩, ⟨s.dphirdy, s.dphiidy⟩, ⟨s.dphirdz, s.dphiidz⟩]

/-- The current.  [specification, no code] -/
def J (s : State) : Fin 3 → ℂ := ![⟨s.Jxr, s.Jxi⟩, ⟨s.Jyr, s.Jyi⟩, ⟨s.Jzr, s.Jzi⟩]

/-- The test function `vr + i vi`.  [specification, no code] -/
def v (t : Test) : ℂ := ⟨t.vr, t.vi⟩

/-- Its derivatives.  [specification, no code] -/
def dv (t : Test) : Fin 3 → ℂ := ![⟨t.dvrdx, t.dvidx⟩, ⟨t.dvrdy, t.dvidy⟩, ⟨t.dvrdz, t.dvidz⟩]

/-- Curl from the derivatives (component, direction).  [specification, no code] -/
def curl (G : Fin 3 → Fin 3 → ℂ) : Fin 3 → ℂ := ![G 2 1 - G 1 2, G 0 2 - G 2 0, G 1 0 - G 0 1]

/-- Divergence.  [specification, no code] -/
def div (G : Fin 3 → Fin 3 → ℂ) : ℂ := ∑ d : Fin 3, G d d

/-- Derivatives of the vector field with the one component `c` equal to the test function.  [specification, no code] -/
def unit (c : Fin 3) (t : Test) : Fin 3 → Fin 3 → ℂ := fun a d => if a = c then dv t d else 0

/-- The integrand of the complex equation of component `c` of the vector potential,
`ν (curl A · curl w + div A div w) - ω² ε A_c v - i ω ε ∂_c(φ v) - J_c v` with `w = v e_c`.  [specification, no code] -/
def weakA (s : State) (t : Test) (c : Fin 3) : ℂ :=
  (⟨s.invmur, s.invmui⟩ : ℂ) * ((∑ d : Fin 3, curl (dA s) d * curl (unit c t) d) + div (dA s) * div (unit c t))
    - (s.omega : ℂ) ^ 2 * ⟨s.epsr, s.epsi⟩ * A s c * v t
    - Complex.I * s.omega * ⟨s.epsr, s.epsi⟩ * (dphi s c * v t + phi s * dv t c) - J s c * v t

/-- The integrand of the complex equation of the scalar potential,
`ε ∇φ · ∇v - ω² ε² μ φ v - i ω ε div(v A) - ρ v`.  [specification, no code] -/
def weakPhi (s : State) (t : Test) : ℂ :=
  (⟨s.epsr, s.epsi⟩ : ℂ) * (∑ d : Fin 3, dphi s d * dv t d)
    - (s.omega : ℂ) ^ 2 * (⟨s.epsr, s.epsi⟩ : ℂ) ^ 2 * ⟨s.mur, s.mui⟩ * phi s * v t
    - Complex.I * s.omega * ⟨s.epsr, s.epsi⟩ * (∑ d : Fin 3, (dv t d * A s d + v t * dA s d d))
    - (⟨s.rhor, s.rhoi⟩ : ℂ) * v t

/-- The complex equations: three components and the scalar potential.  [specification, no code] -/
inductive Eqn
  | comp (c : Fin 3)
  | scalar
deriving DecidableEq

/-- The integrand of an equation.  [specification, no code] -/
def weak (e : Eqn) (s : State) (t : Test) : ℂ :=
  match e with
  | .comp c => weakA s t c
  | .scalar => weakPhi s t

/-- The equation and the part (imaginary or not) that a variable stands for.  [specification, no code] -/
def part : Var → Eqn × Bool
  | .Axr => (.comp 0, false)
  | .Axi => (.comp 0, true)
  | .Ayr => (.comp 1, false)
  | .Ayi => (.comp 1, true)
  | .Azr => (.comp 2, false)
  | .Azi => (.comp 2, true)
  | .phir => (.scalar, false)
  | .phii => (.scalar, true)

/-- Real or imaginary part.  [specification, no code] -/
def pick (im : Bool) (z : ℂ) : ℝ := if im then z.im else z.re

/-- Real test function: value and derivatives `b` in the first entry, nothing in the second.  [specification, no code] -/
def realTest (t : Test) : Test := { vr := t.vr, dvrdx := t.dvrdx, dvrdy := t.dvrdy, dvrdz := t.dvrdz }

/-- Both bases are the same.  [specification, no code] -/
def Same (t : Test) : Prop := t.vi = t.vr ∧ t.dvidx = t.dvrdx ∧ t.dvidy = t.dvrdy ∧ t.dvidz = t.dvrdz

/-- No rates of change.  [specification, no code] -/
def Still (s : State) : Prop :=
  s.Axrdot = 0 ∧ s.Axidot = 0 ∧ s.Ayrdot = 0 ∧ s.Ayidot = 0 ∧ s.Azrdot = 0 ∧ s.Azidot = 0 ∧ s.phirdot = 0 ∧ s.phiidot = 0

/-- The offsets of the functions of all variables are different.  [specification, no code] -/
def Distinct (nb : Nat) (off : Var → Nat → Nat) : Prop :=
  ∀ (u w : Var) (a b : Nat), a < nb → b < nb → off u a = off w b → u = w ∧ a = b

/-- The integral of a complex integrand.  [specification, no code] -/
def integral (pts : List Pt) (f : Pt → ℂ) : ℂ := (pts.map (fun p => (p.wts : ℂ) * f p)).sum

/-- A real field of three coordinates.  [specification, no code] -/
abbrev Fld := ℝ → ℝ → ℝ → ℝ

/-- Partial derivative.  [specification, no code] -/
noncomputable def D (d : Fin 3) (f : Fld) : Fld := fun x y z =>
  ![deriv (fun t => f t y z) x, deriv (fun t => f x t z) y, deriv (fun t => f x y t) z] d

/-- Curl.  [specification, no code] -/
noncomputable def rot (A : Fin 3 → Fld) : Fin 3 → Fld :=
  ![D 1 (A 2) - D 2 (A 1), D 2 (A 0) - D 0 (A 2), D 0 (A 1) - D 1 (A 0)]

/-- Divergence.  [specification, no code] -/
noncomputable def diverg (A : Fin 3 → Fld) : Fld := D 0 (A 0) + D 1 (A 1) + D 2 (A 2)

/-- `curl (q curl A) - ∇ (q div A)`.  [specification, no code] -/
noncomputable def R (q : Fld) (A : Fin 3 → Fld) (c : Fin 3) : Fld :=
  rot (fun d => q * rot A d) c - D c (q * diverg A)

/-- The strong form of the equation of component `k`,
`curl (ν curl A) - ∇ (ν div A) - ω² ε A + i ω φ ∇ε` for `ν = ν₀ q`, `A = α a`, `ε = ε₀ e`, `φ = β f`.
[specification, no code] -/
noncomputable def strongA (nu0 alpha eps0 beta omega : ℂ) (q e f : Fld) (a : Fin 3 → Fld) (k : Fin 3) (x y z : ℝ) : ℂ :=
  nu0 * alpha * (R q a k x y z : ℝ) - omega ^ 2 * (eps0 * (e x y z : ℝ)) * (alpha * (a k x y z : ℝ))
    + Complex.I * omega * (beta * (f x y z : ℝ)) * (eps0 * (D k e x y z : ℝ))

/-- The strong form of the equation of the scalar potential, `-div (ε ∇φ) - ω² ε² μ φ + i ω ∇ε · A`.
[specification, no code] -/
noncomputable def strongPhi (alpha eps0 beta omega mu : ℂ) (e f : Fld) (a : Fin 3 → Fld) (x y z : ℝ) : ℂ :=
  -(eps0 * beta * (∑ d : Fin 3, D d (e * D d f) x y z : ℝ)) - omega ^ 2 * (eps0 * (e x y z : ℝ)) ^ 2 * mu * (beta * (f x y z : ℝ))
    + Complex.I * omega * (∑ d : Fin 3, (eps0 * (D d e x y z : ℝ)) * (alpha * (a d x y z : ℝ)))

/-- Values on a side for the condition `n × A = (i/ω) M`.  [specification, no code] -/
def normal (b : Side) : Fin 3 → ℂ := ![b.nx, b.ny, b.nz]

/-- The current on a side.  [specification, no code] -/
def sideCurrent (b : Side) : Fin 3 → ℂ := ![⟨b.cxr, b.cxi⟩, ⟨b.cyr, b.cyi⟩, ⟨b.czr, b.czi⟩]

/-- Cross product.  [specification, no code] -/
def cross (a b : Fin 3 → ℂ) : Fin 3 → ℂ :=
  ![a 1 * b 2 - a 2 * b 1, a 2 * b 0 - a 0 * b 2, a 0 * b 1 - a 1 * b 0]

/-! ## Lemmas -/

/-- Differentiable in every coordinate.  [specification, no code] -/
def Sm (f : Fld) : Prop := ∀ x y z : ℝ, DifferentiableAt ℝ (fun t => f t y z) x ∧ DifferentiableAt ℝ (fun t => f x t z) y ∧
  DifferentiableAt ℝ (fun t => f x y t) z

theorem Sm.add {f g : Fld} (hf : Sm f) (hg : Sm g) : Sm (f + g) := fun x y z =>
  ⟨(hf x y z).1.add (hg x y z).1, (hf x y z).2.1.add (hg x y z).2.1, (hf x y z).2.2.add (hg x y z).2.2⟩

theorem Sm.sub {f g : Fld} (hf : Sm f) (hg : Sm g) : Sm (f - g) := fun x y z =>
  ⟨(hf x y z).1.sub (hg x y z).1, (hf x y z).2.1.sub (hg x y z).2.1, (hf x y z).2.2.sub (hg x y z).2.2⟩

theorem Sm.neg {f : Fld} (hf : Sm f) : Sm (-f) := fun x y z =>
  ⟨(hf x y z).1.neg, (hf x y z).2.1.neg, (hf x y z).2.2.neg⟩

theorem Sm.mul {f g : Fld} (hf : Sm f) (hg : Sm g) : Sm (f * g) := fun x y z =>
  ⟨(hf x y z).1.mul (hg x y z).1, (hf x y z).2.1.mul (hg x y z).2.1, (hf x y z).2.2.mul (hg x y z).2.2⟩

theorem D_add (d : Fin 3) {f g : Fld} (hf : Sm f) (hg : Sm g) : D d (f + g) = D d f + D d g := by
  funext x y z
  fin_cases d
  · exact deriv_add (hf x y z).1 (hg x y z).1
  · exact deriv_add (hf x y z).2.1 (hg x y z).2.1
  · exact deriv_add (hf x y z).2.2 (hg x y z).2.2

theorem D_sub (d : Fin 3) {f g : Fld} (hf : Sm f) (hg : Sm g) : D d (f - g) = D d f - D d g := by
  funext x y z
  fin_cases d
  · exact deriv_sub (hf x y z).1 (hg x y z).1
  · exact deriv_sub (hf x y z).2.1 (hg x y z).2.1
  · exact deriv_sub (hf x y z).2.2 (hg x y z).2.2

theorem D_neg (d : Fin 3) (f : Fld) : D d (-f) = -D d f := by
  funext x y z
  fin_cases d
  · exact deriv.neg
  · exact deriv.neg
  · exact deriv.neg

theorem D_mul (d : Fin 3) {f g : Fld} (hf : Sm f) (hg : Sm g) : D d (f * g) = D d f * g + f * D d g := by
  funext x y z
  fin_cases d
  · exact deriv_mul (hf x y z).1 (hg x y z).1
  · exact deriv_mul (hf x y z).2.1 (hg x y z).2.1
  · exact deriv_mul (hf x y z).2.2 (hg x y z).2.2

/-- A field of one coordinate.  [specification, no code] -/
def on (d : Fin 3) (f : ℝ → ℝ) : Fld := fun x y z => f (![x, y, z] d)

theorem Sm_on (d : Fin 3) {f : ℝ → ℝ} (hf : Differentiable ℝ f) : Sm (on d f) := fun x y z => by
  fin_cases d <;> simp [on, hf.differentiableAt]

theorem D_on (d e : Fin 3) (f : ℝ → ℝ) : D d (on e f) = if d = e then on e (deriv f) else 0 := by
  funext x y z
  fin_cases d <;> fin_cases e <;> simp [D, on]

/-- A constant.  [specification, no code] -/
def const (a : ℝ) : Fld := fun _ _ _ => a

theorem Sm_const (a : ℝ) : Sm (const a) := fun x y z => by simp [const]

theorem Sm_zero : Sm 0 := fun x y z => by simp

theorem D_zero (d : Fin 3) : D d 0 = 0 := by
  funext x y z
  fin_cases d <;> simp [D]

theorem D_const (d : Fin 3) (a : ℝ) : D d (const a) = 0 := by
  funext x y z
  fin_cases d <;> simp [D, const]

/-- Sine of a coordinate.  [specification, no code] -/
noncomputable def s (d : Fin 3) : Fld := on d (fun t => sin (π * t))
/-- Cosine of a coordinate.  [specification, no code] -/
noncomputable def c (d : Fin 3) : Fld := on d (fun t => cos (π * t))
/-- The first coordinate.  [specification, no code] -/
noncomputable def X : Fld := on 0 (fun t => t)

theorem Sm_s (d : Fin 3) : Sm (s d) := Sm_on d (by fun_prop)

theorem Sm_c (d : Fin 3) : Sm (c d) := Sm_on d (by fun_prop)

theorem Sm_X : Sm X := Sm_on 0 (by fun_prop)

theorem D_s (d e : Fin 3) : D d (s e) = if d = e then const π * c e else 0 := by
  unfold s
  rw [D_on]
  split_ifs with h
  · funext x y z
    simp [on, const, c, mul_comm]
  · rfl

theorem D_c (d e : Fin 3) : D d (c e) = if d = e then -(const π * s e) else 0 := by
  unfold c
  rw [D_on]
  split_ifs with h
  · funext x y z
    simp [on, const, s, mul_comm]
  · rfl

theorem D_X (d : Fin 3) : D d X = if d = 0 then const 1 else 0 := by
  unfold X
  rw [D_on]
  split_ifs with h
  · funext x y z
    simp [on, const]
  · rfl

/-- The product of the sines.  [specification, no code] -/
noncomputable def sss : Fld := s 0 * s 1 * s 2

/-- Differentiability of polynomials in the coordinates, sines and cosines. -/
local macro "smooth" : tactic => `(tactic| repeat first
  | exact Sm_s _ | exact Sm_c _ | exact Sm_X | exact Sm_const _ | exact Sm_zero
  | apply Sm.mul | apply Sm.add | apply Sm.sub | apply Sm.neg)


theorem addTo_at (l : List (Nat × ℝ)) (res : Nat → ℝ) (j : Nat) :
    addTo res l j = res j + (l.map (fun a => if a.1 = j then a.2 else 0)).sum := by
  unfold addTo
  induction l generalizing res with
  | nil => simp
  | cons a l ih =>
    rw [List.foldl_cons, ih, List.map_cons, List.sum_cons, ← add_assoc]
    congr 1
    by_cases h : j = a.1
    · simp [h]
    · rw [if_neg h, if_neg (fun e => h e.symm), add_zero]

theorem fold_at {α : Type} (l : List α) (f : (Nat → ℝ) → α → Nat → ℝ) (j : Nat) (g : α → ℝ)
    (h : ∀ (a : α) (r : Nat → ℝ), a ∈ l → f r a j = r j + g a) (res : Nat → ℝ) :
    l.foldl f res j = res j + (l.map g).sum := by
  induction l generalizing res with
  | nil => simp
  | cons a l ih =>
    rw [List.foldl_cons, ih (fun b r hb => h b r (List.mem_cons_of_mem _ hb)), h a res List.mem_cons_self,
      List.map_cons, List.sum_cons, add_assoc]

theorem volume_at (dim : Nat) (off : Var → Nat → Nat) (nb : Nat) (pts : List Pt) (res : Nat → ℝ) (j : Nat) :
    volume dim off nb pts res j = res j + (pts.map (fun p => ((List.range nb).map (fun i =>
      ((adds dim off p.st (p.test i) i).map (fun a => if a.1 = j then a.2 else 0)).sum)).sum)).sum := by
  unfold volume
  refine fold_at pts _ j _ (fun p r _ => ?_) res
  refine fold_at (List.range nb) _ j _ (fun i r _ => ?_) r
  exact addTo_at _ r j

theorem vars_nodup (dim : Nat) : (vars dim).Nodup := by
  unfold vars
  split_ifs <;> decide

theorem sum_single {α : Type} [DecidableEq α] (l : List α) (hl : l.Nodup) (a : α) (ha : a ∈ l) (f : α → ℝ)
    (h : ∀ b : α, b ∈ l → b ≠ a → f b = 0) : (l.map f).sum = f a := by
  induction l with
  | nil => simp at ha
  | cons b l ih =>
    rw [List.nodup_cons] at hl
    rw [List.map_cons, List.sum_cons]
    by_cases hb : b = a
    · subst hb
      have hz : (l.map f).sum = 0 := by
        refine List.sum_eq_zero (fun x hx => ?_)
        obtain ⟨c, hc, rfl⟩ := List.mem_map.1 hx
        exact h c (List.mem_cons_of_mem _ hc) (fun e => hl.1 (e ▸ hc))
      rw [hz, add_zero]
    · rw [h b List.mem_cons_self hb, zero_add]
      refine ih hl.2 ?_ (fun c hc => h c (List.mem_cons_of_mem _ hc))
      rcases List.mem_cons.1 ha with e | e
      · exact absurd e.symm hb
      · exact e

/-- What the rates add at a position. -/
def rateAt (dim : Nat) (s : State) (t : Test) (j : Nat) : ℝ :=
  ((rates dim s t).map (fun a => if a.1 = j then a.2 else 0)).sum

theorem rateAt_still (dim : Nat) (s : State) (hs : Still s) (t : Test) (j : Nat) : rateAt dim s t j = 0 := by
  obtain ⟨h1, h2, h3, h4, h5, h6, h7, h8⟩ := hs
  unfold rateAt rates
  split_ifs <;> simp [h1, h2, h3, h4, h5, h6, h7, h8]

theorem volume_row {dim : Nat} {off : Var → Nat → Nat} {nb : Nat} (hoff : Distinct nb off) (pts : List Pt)
    (res : Nat → ℝ) {w : Var} (hw : w ∈ vars dim) {d : Nat} (hd : d < nb) :
    volume dim off nb pts res (off w d) = res (off w d) +
      ((pts.map (fun p => row w p.st (p.test d))).sum +
        (pts.map (fun p => ((List.range nb).map (fun i => rateAt dim p.st (p.test i) (off w d))).sum)).sum) := by
  rw [volume_at, ← List.sum_map_add]
  congr 2
  refine List.map_congr_left (fun p _ => ?_)
  have hi : ∀ i ∈ List.range nb, ((adds dim off p.st (p.test i) i).map (fun a => if a.1 = off w d then a.2 else 0)).sum =
      (if i = d then row w p.st (p.test d) else 0) + rateAt dim p.st (p.test i) (off w d) := by
    intro i hi
    unfold adds
    rw [List.map_append, List.sum_append, add_comm]
    congr 1
    rw [List.map_map]
    by_cases h : i = d
    · subst h
      rw [if_pos rfl, sum_single (vars dim) (vars_nodup dim) w hw]
      · simp
      · intro u _ hu
        exact if_neg (fun e => hu (hoff u w i i hd hd e).1)
    · rw [if_neg h]
      refine List.sum_eq_zero (fun x hx => ?_)
      obtain ⟨u, _, rfl⟩ := List.mem_map.1 hx
      exact if_neg (fun e => h (hoff u w i d (List.mem_range.1 hi) hd e).2)
  rw [List.map_congr_left hi, List.sum_map_add]
  congr 1
  rw [sum_single (List.range nb) List.nodup_range d (List.mem_range.2 hd)]
  · simp
  · intro b _ hb
    simp [hb]

theorem pick_sum (im : Bool) (l : List ℂ) : pick im l.sum = (l.map (pick im)).sum := by
  induction l with
  | nil => cases im <;> simp [pick]
  | cons a l ih =>
    rw [List.sum_cons, List.map_cons, List.sum_cons, ← ih]
    cases im <;> simp [pick]

/-! ## Properties -/

/-- C163, at a point: the expression of every row is the real or imaginary part of the integrand of its complex
equation, tested with the complex function `vr + i vi`, for all states, media, frequencies and sources. -/
theorem C163_rows (w : Var) (s : State) (t : Test) : row w s t = pick (part w).2 (weak (part w).1 s t) := by
  cases w <;>
    simp [row, part, pick, weak, weakA, weakPhi, curl, div, unit, dA, dv, A, v, phi, dphi, J, Fin.sum_univ_three, pow_two,
      rowAxr, rowAxi, rowAyr, rowAyi, rowAzr, rowAzi, rowPhir, rowPhii] <;>
    ring

/-- C163, partial: with integration points of one common weight and no rates of change, what is added to the row of
function `d` of a variable is, times that weight, the real or imaginary part of the integral of the complex equation. -/
theorem C163_partial {dim : Nat} {off : Var → Nat → Nat} {nb : Nat} (hoff : Distinct nb off) (pts : List Pt) (wt : ℝ)
    (hw : ∀ p ∈ pts, p.wts = wt) (hs : ∀ p ∈ pts, Still p.st) (res : Nat → ℝ) {w : Var} (hv : w ∈ vars dim) {d : Nat}
    (hd : d < nb) :
    wt * (volume dim off nb pts res (off w d) - res (off w d)) =
      pick (part w).2 (integral pts (fun p => weak (part w).1 p.st (p.test d))) := by
  have h0 : (pts.map (fun p => ((List.range nb).map (fun i => rateAt dim p.st (p.test i) (off w d))).sum)).sum = 0 := by
    refine List.sum_eq_zero (fun x hx => ?_)
    obtain ⟨p, hp, rfl⟩ := List.mem_map.1 hx
    refine List.sum_eq_zero (fun x hx => ?_)
    obtain ⟨i, _, rfl⟩ := List.mem_map.1 hx
    exact rateAt_still dim p.st (hs p hp) _ _
  rw [volume_row hoff pts res hv hd, h0, add_zero, add_sub_cancel_left, integral, pick_sum, List.map_map,
    ← List.sum_map_mul_left]
  congr 1
  refine List.map_congr_left (fun p hp => ?_)
  rw [C163_rows, Function.comp_apply, hw p hp]
  cases (part w).2 <;> simp [pick]

/-- [case] Offsets of two functions for eight variables. -/
def caseOff : Var → Nat → Nat
  | .Axr, i => i
  | .Axi, i => 2 + i
  | .phir, i => 4 + i
  | .phii, i => 6 + i
  | .Ayr, i => 8 + i
  | .Ayi, i => 10 + i
  | .Azr, i => 12 + i
  | .Azi, i => 14 + i

theorem caseOff_distinct : Distinct 2 caseOff := by
  intro u w a b ha hb h
  cases u <;> cases w <;> simp only [caseOff] at h <;> first | exact ⟨rfl, by omega⟩ | omega

/-- [case] A state with currents, a potential and a frequency. -/
def caseState : State where
  Axr := 1
  phii := 2
  omega := 3
  epsr := 1
  epsi := 1
  Jxr := 4
  Jxi := 1

example : ∃ pts : List Pt, pts.length = 2 ∧ (∀ p ∈ pts, p.wts = 1 / 2) ∧ (∀ p ∈ pts, Still p.st) ∧
    Distinct 2 caseOff ∧ Var.phii ∈ vars 1 ∧ row .Axr caseState { vr := 1, vi := 1 } ≠ 0 := by
  refine ⟨[⟨1 / 2, caseState, fun _ => { vr := 1, vi := 1 }⟩, ⟨1 / 2, caseState, fun _ => { vr := 1, vi := 1 }⟩], rfl,
    by simp, ?_, caseOff_distinct, by decide, ?_⟩
  · intro p hp
    have : p.st = caseState := by
      simp only [List.mem_cons, List.not_mem_nil, or_false, or_self] at hp
      rw [hp]
    rw [this]
    simp [Still, caseState]
  · simp [row, rowAxr, caseState]
    norm_num

/-- With the same basis for real and imaginary parts, the tested equation is `1 + i` times the one tested with the real
function. -/
theorem weak_same (e : Eqn) (s : State) (t : Test) (ht : Same t) :
    weak e s t = (1 + Complex.I) * weak e s (realTest t) := by
  obtain ⟨h1, h2, h3, h4⟩ := ht
  have hvv : v t = (1 + Complex.I) * v (realTest t) := by
    apply Complex.ext <;> simp [v, realTest, h1]
  have hdv : ∀ d : Fin 3, dv t d = (1 + Complex.I) * dv (realTest t) d := by
    intro d
    fin_cases d <;> apply Complex.ext <;> simp [dv, realTest, h2, h3, h4]
  cases e with
  | scalar => simp only [weak, weakPhi, hvv, hdv, Fin.sum_univ_three]; ring
  | comp k =>
    have hu : ∀ a d : Fin 3, unit k t a d = (1 + Complex.I) * unit k (realTest t) a d := by
      intro a d
      unfold unit
      split_ifs
      · exact hdv d
      · rw [mul_zero]
    have hc : ∀ d : Fin 3, curl (unit k t) d = (1 + Complex.I) * curl (unit k (realTest t)) d := by
      intro d
      fin_cases d <;> simp [curl, hu] <;> ring
    have hd : div (unit k t) = (1 + Complex.I) * div (unit k (realTest t)) := by
      simp only [div, Fin.sum_univ_three, hu]; ring
    simp only [weak, weakA, hvv, hdv, hc, hd, Fin.sum_univ_three]; ring

/-- C163, partial: with one basis for real and imaginary parts, points of one common weight and no rates, the two rows
of a complex equation receive nothing exactly when its integral against the real basis function vanishes. -/
theorem C163_equation_partial {dim : Nat} {off : Var → Nat → Nat} {nb : Nat} (hoff : Distinct nb off) (pts : List Pt)
    (wt : ℝ) (hwt : wt ≠ 0) (hw : ∀ p ∈ pts, p.wts = wt) (hs : ∀ p ∈ pts, Still p.st)
    (hb : ∀ p ∈ pts, ∀ i : Nat, Same (p.test i)) (res : Nat → ℝ) {u w : Var} (hu : u ∈ vars dim) (hv : w ∈ vars dim)
    {e : Eqn} (heu : part u = (e, false)) (hew : part w = (e, true)) {d : Nat} (hd : d < nb) :
    (volume dim off nb pts res (off u d) = res (off u d) ∧ volume dim off nb pts res (off w d) = res (off w d)) ↔
      integral pts (fun p => weak e p.st (realTest (p.test d))) = 0 := by
  have h1 := C163_partial hoff pts wt hw hs res hu hd
  have h2 := C163_partial hoff pts wt hw hs res hv hd
  rw [heu] at h1
  rw [hew] at h2
  have hI : integral pts (fun p => weak e p.st (p.test d)) =
      (1 + Complex.I) * integral pts (fun p => weak e p.st (realTest (p.test d))) := by
    unfold integral
    rw [← List.sum_map_mul_left]
    congr 1
    refine List.map_congr_left (fun p hp => ?_)
    show (p.wts : ℂ) * weak e p.st (p.test d) = _
    rw [weak_same e p.st _ (hb p hp d)]
    ring
  have hne : (1 + Complex.I) ≠ 0 := by
    intro h
    have := congrArg Complex.re h
    simp at this
  simp only [pick, Bool.false_eq_true, if_false, if_true] at h1 h2
  constructor
  · rintro ⟨a, b⟩
    rw [a, sub_self, mul_zero] at h1
    rw [b, sub_self, mul_zero] at h2
    have h0 : integral pts (fun p => weak e p.st (p.test d)) = 0 := Complex.ext h1.symm h2.symm
    rw [hI] at h0
    exact (mul_eq_zero.1 h0).resolve_left hne
  · intro h
    rw [hI, h, mul_zero] at h1 h2
    exact ⟨sub_eq_zero.1 ((mul_eq_zero.1 h1).resolve_left hwt), sub_eq_zero.1 ((mul_eq_zero.1 h2).resolve_left hwt)⟩

example : part .Ayr = (.comp 1, false) ∧ part .Ayi = (.comp 1, true) ∧ Var.Ayr ∈ vars 2 ∧ Var.Ayi ∈ vars 2 ∧
    Same { vr := 1, vi := 1, dvrdx := 2, dvidx := 2 } := by
  refine ⟨rfl, rfl, by decide, by decide, ?_⟩
  simp [Same]

/-- [case] A point with one basis function and a current. -/
def casePt (w j : ℝ) : Pt := ⟨w, { Jxr := j }, fun _ => { vr := 1, vi := 1 }⟩

/-- C163 is false: the weights of the integration points are not used.  With weights 1 and 3 and a current of 1 and -1 the
rows receive nothing although the integral of the current is -2. -/
theorem C163_weights_violated :
    let pts := [casePt 1 1, casePt 3 (-1)]
    (∀ res : Nat → ℝ, volume 1 caseOff 1 pts res (caseOff .Axr 0) = res (caseOff .Axr 0) ∧
      volume 1 caseOff 1 pts res (caseOff .Axi 0) = res (caseOff .Axi 0)) ∧
    integral pts (fun p => weak (.comp 0) p.st (realTest (p.test 0))) = 2 := by
  have hoff : Distinct 1 caseOff := fun u w a b ha hb h =>
    caseOff_distinct u w a b (by omega) (by omega) h
  refine ⟨fun res => ⟨?_, ?_⟩, ?_⟩
  · rw [volume_row hoff _ res (by decide) (by omega)]
    simp [row, rowAxr, casePt, rateAt, rates]
  · rw [volume_row hoff _ res (by decide) (by omega)]
    simp [row, rowAxi, casePt, rateAt, rates]
  · apply Complex.ext <;>
      simp [integral, casePt, weak, weakA, realTest, curl, div, unit, dA, dv, A, v, phi, dphi, J, Fin.sum_univ_three]
    norm_num

/-- [case] A point where only the scalar potential changes in time. -/
def casePtRate : Pt := ⟨1, { phirdot := 1 }, fun i => if i = 0 then { vr := 1, vi := 1 } else {}⟩

/-- C163 is false: the rates of change are added at the positions 0 to 7 whatever the offsets are.  With two basis functions
the rate of the scalar potential enters the equation of the vector potential and not its own. -/
theorem C163_rates_violated (res : Nat → ℝ) :
    volume 1 caseOff 2 [casePtRate] res (caseOff .Axi 0) = res (caseOff .Axi 0) + 1 ∧
    volume 1 caseOff 2 [casePtRate] res (caseOff .phir 0) = res (caseOff .phir 0) := by
  constructor
  · rw [volume_row caseOff_distinct _ res (by decide) (by omega)]
    simp [row, rowAxi, casePtRate, rateAt, rates, caseOff, List.range_succ]
  · rw [volume_row caseOff_distinct _ res (by decide) (by omega)]
    simp [row, rowPhir, casePtRate, rateAt, rates, caseOff, List.range_succ]

/-- C163, the code for sides: a boundary of type 1 in three dimensions adds the real and imaginary parts of
`scale v (n × A - (i/ω) M)`, type 2 adds those of `scale v (ε n · A + (i/ω) ρ)` and of the currents and charges. -/
theorem C163_side (off : Var → Nat → Nat) (s : State) (b : Side) (t : Test) (i : Nat) :
    let X : Fin 3 → ℂ := fun k =>
      b.weakEssScale * v t * (cross (normal b) (A s) k - Complex.I / s.omega * sideCurrent b k)
    let Y : ℂ := b.weakEssScale * v t *
      (⟨s.epsr, s.epsi⟩ * (∑ k : Fin 3, normal b k * A s k) + Complex.I / s.omega * ⟨b.rhosr, b.rhosi⟩)
    let Z : Fin 3 → ℂ := fun k => v t * sideCurrent b k
    let Q : ℂ := v t * ⟨b.rhosr, b.rhosi⟩
    sideAdds 1 3 off s b t i = [(off .Axr i, (X 0).re), (off .Axi i, (X 0).im), (off .Ayr i, (X 1).re),
      (off .Ayi i, (X 1).im), (off .Azr i, (X 2).re), (off .Azi i, (X 2).im)] ∧
    sideAdds 1 2 off s b t i = [(off .Axr i, (X 2).re), (off .Axi i, (X 2).im)] ∧
    sideAdds 2 3 off s b t i = [(off .phir i, Y.re), (off .phii i, Y.im), (off .Axr i, (Z 0).re),
      (off .Axi i, (Z 0).im), (off .phir i, Q.re), (off .phii i, Q.im), (off .Ayr i, (Z 1).re), (off .Ayi i, (Z 1).im),
      (off .Azr i, (Z 2).re), (off .Azi i, (Z 2).im)] := by
  have hI : Complex.I / (s.omega : ℂ) = ⟨0, 1 / s.omega⟩ := by
    rw [div_eq_mul_inv, ← Complex.ofReal_inv]
    apply Complex.ext <;> simp
  intro X Y Z Q
  have hX : ∀ k : Fin 3, X k = b.weakEssScale * v t * (cross (normal b) (A s) k - ⟨0, 1 / s.omega⟩ * sideCurrent b k) := by
    intro k
    rw [← hI]
  have hY : Y = b.weakEssScale * v t *
      (⟨s.epsr, s.epsi⟩ * (∑ k : Fin 3, normal b k * A s k) + ⟨0, 1 / s.omega⟩ * ⟨b.rhosr, b.rhosi⟩) := by
    rw [← hI]
  simp only [hX, hY, Z, Q]
  refine ⟨?_, ?_, ?_⟩ <;>
    simp [sideAdds, cross, normal, A, v, sideCurrent, Fin.sum_univ_three] <;>
    ring_nf <;> simp

/-- [case] A point on a side for test 4, on the circle of radius 5. -/
noncomputable def caseSide : Side := { nx := 3 / 5, ny := 4 / 5, cxr := (current4 3 4).1, cyr := (current4 3 4).2 }

/-- C163 is false: currents and charges on sides have no effect, because the type of every boundary is 0.  On the side of
test 4 the current adds 4/5 in the branch for given currents, nothing in the residual. -/
theorem C163_boundary_violated :
    (∀ (dim : Nat) (off : Var → Nat → Nat) (nb : Nat) (pts : List (Side × Pt)) (res : Nat → ℝ),
      boundary dim off nb pts res = res) ∧
    boundaryOf 2 2 caseOff 1 [(caseSide, ⟨1, {}, fun _ => { vr := 1 }⟩)] (fun _ => 0) (caseOff .Axr 0) = 4 / 5 := by
  refine ⟨fun dim off nb pts res => ?_, ?_⟩
  · have h : ∀ (l : List Nat) (p : Side × Pt) (r : Nat → ℝ),
        l.foldl (fun r i => addTo r (sideAdds 0 dim off p.2.st p.1 (p.2.test i) i)) r = r := by
      intro l p
      induction l with
      | nil => intro r; rfl
      | cons a l ih => intro r; rw [List.foldl_cons, ih]; simp [sideAdds, addTo]
    unfold boundary boundaryOf
    induction pts generalizing res with
    | nil => rfl
    | cons p pts ih => rw [List.foldl_cons, h, ih]
  · have hs : Real.sqrt (3 * 3 + 4 * 4) = 5 := by
      rw [show (3 * 3 + 4 * 4 : ℝ) = 5 ^ 2 by norm_num, Real.sqrt_sq (by norm_num)]
    simp [boundaryOf, sideAdds, addTo, caseOff, caseSide, current4, hs, List.range_succ]

/-- C163, media: the inverse permeability is the inverse of the permeability, for every test and point. -/
theorem C163_media (test : Int) (x : ℝ) : cx (permeability test x) * cx (invPermeability test x) = 1 := by
  have hx : x * x + 1 ≠ 0 := by nlinarith [mul_self_nonneg x]
  unfold permeability invPermeability
  split_ifs <;> apply Complex.ext <;> simp [cx] <;> field_simp <;> norm_num

theorem strongA_eq (p : ℝ × ℝ) (n1 n2 a1 a2 e1 e2 b1 b2 : ℝ) (q e f : Fld) (a : Fin 3 → Fld) (k : Fin 3) (x y z : ℝ)
    (hre : p.1 = (n1 * a1 - n2 * a2) * R q a k x y z - (e1 * a1 - e2 * a2) * e x y z * a k x y z
      - (b1 * e2 + b2 * e1) * f x y z * D k e x y z)
    (him : p.2 = (n1 * a2 + n2 * a1) * R q a k x y z - (e1 * a2 + e2 * a1) * e x y z * a k x y z
      + (b1 * e1 - b2 * e2) * f x y z * D k e x y z) :
    cx p = strongA ⟨n1, n2⟩ ⟨a1, a2⟩ ⟨e1, e2⟩ ⟨b1, b2⟩ 1 q e f a k x y z := by
  unfold strongA cx
  rw [hre, him]
  apply Complex.ext <;> simp <;> ring

theorem strongPhi_eq (p m : ℝ × ℝ) (a1 a2 e1 e2 b1 b2 : ℝ) (e f : Fld) (a : Fin 3 → Fld) (x y z : ℝ)
    (hre : p.1 = -((e1 * b1 - e2 * b2) * (∑ d : Fin 3, D d (e * D d f) x y z))
      - ((e1 * e1 - e2 * e2) * (m.1 * b1 - m.2 * b2) - 2 * e1 * e2 * (m.1 * b2 + m.2 * b1)) * (e x y z) ^ 2 * f x y z
      - (e1 * a2 + e2 * a1) * (∑ d : Fin 3, D d e x y z * a d x y z))
    (him : p.2 = -((e1 * b2 + e2 * b1) * (∑ d : Fin 3, D d (e * D d f) x y z))
      - ((e1 * e1 - e2 * e2) * (m.1 * b2 + m.2 * b1) + 2 * e1 * e2 * (m.1 * b1 - m.2 * b2)) * (e x y z) ^ 2 * f x y z
      + (e1 * a1 - e2 * a2) * (∑ d : Fin 3, D d e x y z * a d x y z)) :
    cx p = strongPhi ⟨a1, a2⟩ ⟨e1, e2⟩ ⟨b1, b2⟩ 1 (cx m) e f a x y z := by
  unfold strongPhi cx
  rw [hre, him]
  simp only [Fin.sum_univ_three]
  generalize D 0 (e * D 0 f) x y z = l0
  generalize D 1 (e * D 1 f) x y z = l1
  generalize D 2 (e * D 2 f) x y z = l2
  apply Complex.ext <;> simp [pow_two] <;> ring

/-- C163, the data of test 1: currents and charges in the code are those of the potentials `A = (1 + i) (1, -1, 2) S`,
`φ = (1 + i) S` at frequency 1, with `S = sin πx sin πy sin πz` and the media of the code. -/
theorem C163_data1 (x y z : ℝ) :
    cx (invPermeability 1 x) = ⟨4 / 10, -(2 / 10)⟩ * ((const 1) x y z : ℝ) ∧ cx (permittivity 1 x) = ⟨1, 1⟩ * ((const 1) x y z : ℝ) ∧
    (∀ k : Fin 3, cx (current1 x y z k) = strongA ⟨4 / 10, -(2 / 10)⟩ ⟨1, 1⟩ ⟨1, 1⟩ ⟨1, 1⟩ 1 (const 1) (const 1) sss ![sss, -sss, const 2 * sss] k x y z) ∧
    cx (charge1 x y z) = strongPhi ⟨1, 1⟩ ⟨1, 1⟩ ⟨1, 1⟩ 1 (cx (permeability 1 x)) (const 1) sss ![sss, -sss, const 2 * sss] x y z := by
  refine ⟨?_, ?_, ?_, ?_⟩
  · apply Complex.ext <;> simp [invPermeability, cx, const, X, on]
  · apply Complex.ext <;> simp [permittivity, cx, const, X, on]
  · intro k
    refine strongA_eq _ _ _ _ _ _ _ _ _ _ _ _ _ _ _ _ _ ?_ ?_ <;> fin_cases k <;>
      simp (disch := smooth) [R, rot, diverg, sss, D_add, D_sub, D_mul, D_neg, D_s, D_c, D_X, D_const, D_zero] <;>
      simp [current1, on, s, c, X, const] <;> ring
  · refine strongPhi_eq _ _ _ _ _ _ _ _ _ _ _ _ _ _ ?_ ?_ <;>
      simp (disch := smooth) [Fin.sum_univ_three, sss, rot, D_add, D_sub, D_mul, D_neg, D_s, D_c, D_X, D_const, D_zero] <;>
      simp [charge1, permeability, on, s, c, X, const, pow_two] <;> ring

/-- C163, the data of test 2: as for test 1, with media that depend on the first coordinate. -/
theorem C163_data2 (x y z : ℝ) :
    cx (invPermeability 2 x) = ⟨4 / 10, -(2 / 10)⟩ * ((X * X + const 1) x y z : ℝ) ∧ cx (permittivity 2 x) = ⟨1, 1⟩ * ((X * X + const 1) x y z : ℝ) ∧
    (∀ k : Fin 3, cx (current2 x y z k) = strongA ⟨4 / 10, -(2 / 10)⟩ ⟨1, 1⟩ ⟨1, 1⟩ ⟨1, 1⟩ 1 (X * X + const 1) (X * X + const 1) sss ![sss, -sss, const 2 * sss] k x y z) ∧
    cx (charge2 x y z) = strongPhi ⟨1, 1⟩ ⟨1, 1⟩ ⟨1, 1⟩ 1 (cx (permeability 2 x)) (X * X + const 1) sss ![sss, -sss, const 2 * sss] x y z := by
  have hx : x * x + 1 ≠ 0 := by nlinarith [mul_self_nonneg x]
  refine ⟨?_, ?_, ?_, ?_⟩
  · apply Complex.ext <;> simp [invPermeability, cx, const, X, on]
  · apply Complex.ext <;> simp [permittivity, cx, const, X, on]
  · intro k
    refine strongA_eq _ _ _ _ _ _ _ _ _ _ _ _ _ _ _ _ _ ?_ ?_ <;> fin_cases k <;>
      simp (disch := smooth) [R, rot, diverg, sss, D_add, D_sub, D_mul, D_neg, D_s, D_c, D_X, D_const, D_zero] <;>
      simp [current2, on, s, c, X, const] <;> ring
  · refine strongPhi_eq _ _ _ _ _ _ _ _ _ _ _ _ _ _ ?_ ?_ <;>
      simp (disch := smooth) [Fin.sum_univ_three, sss, rot, D_add, D_sub, D_mul, D_neg, D_s, D_c, D_X, D_const, D_zero] <;>
      simp [charge2, permeability, on, s, c, X, const, pow_two] <;> field_simp <;> ring

/-- C163, the data of test 3: currents and charges of the potentials `A = curl (S, S, S)`, `φ = S`, real media. -/
theorem C163_data3 (x y z : ℝ) :
    cx (invPermeability 3 x) = ⟨1, 0⟩ * ((X * X + const 1) x y z : ℝ) ∧ cx (permittivity 3 x) = ⟨2, 0⟩ * ((X * X + const 1) x y z : ℝ) ∧
    (∀ k : Fin 3, cx (current3 x y z k) = strongA ⟨1, 0⟩ ⟨1, 0⟩ ⟨2, 0⟩ ⟨1, 0⟩ 1 (X * X + const 1) (X * X + const 1) sss (rot ![sss, sss, sss]) k x y z) ∧
    cx (charge3 x y z) = strongPhi ⟨1, 0⟩ ⟨2, 0⟩ ⟨1, 0⟩ 1 (cx (permeability 3 x)) (X * X + const 1) sss (rot ![sss, sss, sss]) x y z := by
  have hx : x * x + 1 ≠ 0 := by nlinarith [mul_self_nonneg x]
  refine ⟨?_, ?_, ?_, ?_⟩
  · apply Complex.ext <;> simp [invPermeability, cx, const, X, on]
  · apply Complex.ext <;> simp [permittivity, cx, const, X, on]
  · intro k
    refine strongA_eq _ _ _ _ _ _ _ _ _ _ _ _ _ _ _ _ _ ?_ ?_ <;> fin_cases k <;>
      simp (disch := smooth) [R, rot, diverg, sss, D_add, D_sub, D_mul, D_neg, D_s, D_c, D_X, D_const, D_zero] <;>
      simp [current3, on, s, c, X, const, mul_sub, Real.sin_sub] <;> ring
  · refine strongPhi_eq _ _ _ _ _ _ _ _ _ _ _ _ _ _ ?_ ?_ <;>
      simp (disch := smooth) [Fin.sum_univ_three, sss, rot, D_add, D_sub, D_mul, D_neg, D_s, D_c, D_X, D_const, D_zero] <;>
      simp [charge3, permeability, on, s, c, X, const, pow_two, mul_sub, Real.sin_sub] <;> field_simp <;> ring

/-- Equations that a problem in `dim` dimensions has: the potential and the components along its directions (at least one).
[specification, no code] -/
def Present (dim : Nat) : Eqn → Prop
  | .comp c => c.val = 0 ∨ c.val < dim
  | .scalar => True

/-- C163, variables: exactly the parts of the equations present in the dimension have a row. -/
theorem C163_vars (dim : Nat) (w : Var) : w ∈ vars dim ↔ Present dim (part w).1 := by
  unfold vars
  by_cases h1 : dim > 1 <;> by_cases h2 : dim > 2 <;> cases w <;> simp [part, Present, h1, h2]

example : Var.Azr ∈ vars 3 ∧ Var.Azr ∉ vars 2 ∧ Var.Ayi ∉ vars 1 := by decide

/-- C163, rates: the numbers added for the rates of change are real and imaginary parts of the product of each rate with the
test function, for the equations present (at the positions of `C163_rates_violated`). -/
theorem C163_rate_values (s : State) (t : Test) (dim : Nat) :
    ∃ a b c d : ℂ, a = ⟨s.Axrdot, s.Axidot⟩ * ⟨t.vr, t.vi⟩ ∧ b = ⟨s.phirdot, s.phiidot⟩ * ⟨t.vr, t.vi⟩ ∧
      c = ⟨s.Ayrdot, s.Ayidot⟩ * ⟨t.vr, t.vi⟩ ∧ d = ⟨s.Azrdot, s.Azidot⟩ * ⟨t.vr, t.vi⟩ ∧
      rates dim s t = [(0, a.re), (1, a.im), (2, b.re), (3, b.im)] ++ (if 2 ≤ dim then [(4, c.re), (5, c.im)] else []) ++
        (if 3 ≤ dim then [(6, d.re), (7, d.im)] else []) := by
  refine ⟨_, _, _, _, rfl, rfl, rfl, rfl, ?_⟩
  unfold rates
  simp [Complex.mul_re, Complex.mul_im, Nat.succ_le_iff]

/-- C163, media: in the tests without data of their own the medium is the vacuum in units of its constants. -/
theorem C163_vacuum (test : Int) (h1 : test ≠ 1) (h2 : test ≠ 2) (h3 : test ≠ 3) (x : ℝ) :
    cx (permeability test x) = 1 ∧ cx (invPermeability test x) = 1 ∧ cx (permittivity test x) = 1 := by
  refine ⟨?_, ?_, ?_⟩ <;> apply Complex.ext <;> simp [permeability, invPermeability, permittivity, cx, h1, h2, h3]

example : cx (permittivity 0 7) = 1 := (C163_vacuum 0 (by decide) (by decide) (by decide) 7).2.2

/-- C163, test 4: away from the axis the current on the boundary has length one and turns around the axis, clockwise. -/
theorem C163_current4 (x y : ℝ) (h : x ≠ 0 ∨ y ≠ 0) :
    (current4 x y).1 ^ 2 + (current4 x y).2 ^ 2 = 1 ∧ (current4 x y).1 * x + (current4 x y).2 * y = 0 ∧
    x * (current4 x y).2 - y * (current4 x y).1 < 0 := by
  have hp : 0 < x * x + y * y := by
    rcases h with h | h
    · nlinarith [mul_self_pos.mpr h, mul_self_nonneg y]
    · nlinarith [mul_self_pos.mpr h, mul_self_nonneg x]
  have hs : 0 < Real.sqrt (x * x + y * y) := Real.sqrt_pos.mpr hp
  have hq : Real.sqrt (x * x + y * y) ^ 2 = x * x + y * y := Real.sq_sqrt hp.le
  unfold current4
  refine ⟨?_, ?_, ?_⟩
  · simp only
    rw [neg_sq, div_pow, div_pow, hq]
    rw [← add_div, div_eq_one_iff_eq (ne_of_gt hp)]
    ring
  · simp only
    ring
  · simp only
    have : x * -(x / Real.sqrt (x * x + y * y)) - y * (y / Real.sqrt (x * x + y * y)) =
        -((x * x + y * y) / Real.sqrt (x * x + y * y)) := by ring
    rw [this]
    exact neg_neg_of_pos (div_pos hp hs)

example : (current4 3 4).1 * 3 + (current4 3 4).2 * 4 = 0 := (C163_current4 3 4 (Or.inl (by norm_num))).2.1

end MrHyDE.Modules.MaxwellPotential
