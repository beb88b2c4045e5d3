import Verif.Objective.Model

/-! # Objectives: specification -/

namespace MrHyDE.Objective

variable {R : Type} [CommRing R]

/-- Quadrature: sum over all points of value times weight. [specification, no code] -/
def integral (q : Quad R) : R := (q.flatten.flatten.map (fun x => x.1 * x.2)).sum

/-- Part of a regularisation that belongs to one process. [specification, no code] -/
def Reg.own : Reg R → R
  | .integrated wt q => wt * integral q
  | .l2 _ => 0

/-- Part of a regularisation that all processes share: it counts once. [specification, no code] -/
def Reg.shared (ps : List R) : Reg R → R
  | .integrated _ _ => 0
  | .l2 wt => wt * (ps.map (fun p => p * p)).sum

/-- All regularisations at one time. [specification, no code] -/
def regs (ps : List R) (seen : List (Seen R)) : R :=
  (seen.map (fun s => (s.regs.map Reg.own).sum)).sum +
    match seen with
    | [] => 0
    | s :: _ => (s.regs.map (Reg.shared ps)).sum

/-- The objective without regularisation at one time, over all processes; for a response the response itself.
[specification, no code] -/
def main (o : Obj R) (seen : List (Seen R)) : R :=
  match o.kind with
  | .control => o.weight * (seen.map (fun s => integral s.quad)).sum
  | .discrete =>
    match seen with
    | [] => 0
    | s :: _ => o.weight * s.misfits.sum
  | .response => (seen.map (fun s => integral s.quad)).sum
  | .sensors => o.weight * (seen.map (fun s => (s.sensors.map (fun q => (q.1 - q.2) ^ 2)).sum)).sum

/-- Sum over the steps of step size times value at the end of the step. [specification, no code] -/
def steps (f : List (Seen R) → R) : Run R → R
  | x :: y :: t => (y.1 - x.1) * f y.2 + steps f (y :: t)
  | _ => 0

/-- Sum over the steps without the step size. [specification, no code] -/
def plain (f : List (Seen R) → R) : Run R → R
  | _ :: y :: t => f y.2 + plain f (y :: t)
  | _ => 0

/-- Integral over time; the value itself for a single time. [specification, no code] -/
def overTime (f : List (Seen R) → R) : Run R → R
  | [x] => f x.2
  | run => steps f run

/-- Sum over time; the value itself for a single time. [specification, no code] -/
def sumTime (f : List (Seen R) → R) : Run R → R
  | [x] => f x.2
  | run => plain f run

/-- The objective of a run: misfit plus regularisations. [specification, no code] -/
def J (o : Obj R) (ps : List R) (run : Run R) : R :=
  (match o.kind with
    | .control => overTime (main o) run
    | .discrete => overTime (main o) run
    | .sensors => sumTime (main o) run
    | .response => o.weight * (overTime (main o) run - o.target) ^ 2) +
  overTime (regs ps) run

end MrHyDE.Objective
