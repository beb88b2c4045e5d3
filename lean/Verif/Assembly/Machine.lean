import Mathlib.Algebra.BigOperators.Group.List.Basic

/-!
# Assembly: parallel accumulation, model

The scatter kernels of src/managers/assembly/assemblyManager_scatter.hpp run one iteration for each element on the
workers of the execution space; each iteration adds numbers to entries of the residual and of the matrix.  An addition
is one step when atomics are used and a load followed by a store when not.  Sums are exact (an additive commutative
monoid): rounding of floating point sums is not modelled.
-/

namespace MrHyDE.Assembly

variable {L K : Type} [DecidableEq L]

/-- Machine instructions behind `Kokkos::atomic_add(&x, v)` and `x += v`, assemblyManager_scatter.hpp:98-103, 225-231;
`sumIntoValues` is the same for each of its columns (its last argument chooses). -/
inductive Instr (L K : Type) where
  | atomicAdd (l : L) (v : K)
  | load (l : L)
  | addStore (l : L) (v : K)

/-- Instructions of one addition. [assemblyManager_scatter.hpp:98-103] -/
def compile (atomics : Bool) (op : L × K) : List (Instr L K) :=
  if atomics then [Instr.atomicAdd op.1 op.2] else [Instr.load op.1, Instr.addStore op.1 op.2]

/-- A worker: its remaining instructions and its register. [Kokkos range policy of assemblyManager_scatter.hpp:28-276] -/
structure Worker (L K : Type) where
  todo : List (Instr L K)
  reg : K

/-- Shared memory and workers. [Kokkos range policy of assemblyManager_scatter.hpp:28-276] -/
structure Mach (L K : Type) where
  mem : L → K
  ws : List (Worker L K)

/-- Write of one location. [assemblyManager_scatter.hpp:98-103] -/
def wr (mem : L → K) (l : L) (v : K) : L → K := fun x => if x = l then v else mem x

variable [AddCommMonoid K]

/-- One instruction. [assemblyManager_scatter.hpp:98-103] -/
def exec (mem : L → K) (reg : K) : Instr L K → (L → K) × K
  | .atomicAdd l v => (wr mem l (mem l + v), reg)
  | .load l => (mem, mem l)
  | .addStore l v => (wr mem l (reg + v), reg)

/-- Worker `k` takes a step; nothing happens when there is no such worker or it has finished. [Kokkos range policy of assemblyManager_scatter.hpp:28-276] -/
def step (m : Mach L K) (k : Nat) : Mach L K :=
  match m.ws[k]? with
  | none => m
  | some w =>
    match w.todo with
    | [] => m
    | i :: t =>
      let r := exec m.mem w.reg i
      { mem := r.1, ws := m.ws.set k { todo := t, reg := r.2 } }

/-- A schedule is any list of workers. [Kokkos range policy of assemblyManager_scatter.hpp:28-276] -/
def run (m : Mach L K) (sched : List Nat) : Mach L K := sched.foldl step m

/-- `use_atomics_`, assemblyManager_scatter.hpp:28-31. -/
def useAtomics (concurrency : Nat) : Bool := decide (concurrency > 1)

/-- Start of a kernel: the additions of worker `k` are `parts[k]`, in this order. [Kokkos range policy of assemblyManager_scatter.hpp:28-276] -/
def launch (atomics : Bool) (mem : L → K) (parts : List (List (L × K))) : Mach L K :=
  { mem := mem, ws := parts.map (fun p => { todo := (p.map (compile atomics)).flatten, reg := 0 }) }

/-- All workers have finished. [fence at the end of the kernels of assemblyManager_scatter.hpp:28-276] -/
def finished (m : Mach L K) : Prop := ∀ w ∈ m.ws, w.todo = []

/-- `mem'` is a possible outcome of a kernel that performs the additions `ops` on `concurrency` workers: some
distribution of the additions over the workers, some order, some schedule after which all have finished. [parallel_for of assemblyManager_scatter.hpp:74-276] -/
def Kernel (concurrency : Nat) (mem : L → K) (ops : List (L × K)) (mem' : L → K) : Prop :=
  ∃ (parts : List (List (L × K))) (sched : List Nat), parts.length = concurrency ∧ parts.flatten.Perm ops ∧
    finished (run (launch (useAtomics concurrency) mem parts) sched) ∧
    (run (launch (useAtomics concurrency) mem parts) sched).mem = mem'

/-- Outcomes of kernels launched one after the other (the loop over groups, assemblyManager_jacres.hpp:336-480). -/
inductive Kernels (concurrency : Nat) : (L → K) → List (List (L × K)) → (L → K) → Prop where
  | nil (mem : L → K) : Kernels concurrency mem [] mem
  | cons (mem mem1 mem2 : L → K) (ops : List (L × K)) (rest : List (List (L × K))) :
      Kernel concurrency mem ops mem1 → Kernels concurrency mem1 rest mem2 → Kernels concurrency mem (ops :: rest) mem2

/-- The sum of the additions to one location. [specification, no code] -/
def total (ops : List (L × K)) (l : L) : K := ((ops.filter (fun o => decide (o.1 = l))).map (·.2)).sum

end MrHyDE.Assembly
