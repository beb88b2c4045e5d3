import Mathlib.Algebra.Order.Field.Basic
import Mathlib.Algebra.Order.Group.Abs
import Mathlib.Algebra.BigOperators.Group.List.Basic

/-
Model of the distribution of samples over processes, of the splitting of communicators, of the sample
statistics and of the root search of the Karhunen-Loeve expansion:
/repo/src/optimization/MrHyDE_Sample_Set_Reader.hpp, /repo/src/tools/split_mpi_communicators.cpp,
/repo/src/managers/uq/uqManager.cpp, /repo/src/tools/klexpansion.hpp.
-/

namespace MrHyDE.UQ

/-! ### Distribution of samples -/

/-- Number of samples of process `rank` (MrHyDE_Sample_Set_Reader.hpp:83-87). -/
def myCount (n nProc rank : Nat) : Nat :=
  if rank < n % nProc then n / nProc + 1 else n / nProc

/-- Indices of the samples of process `rank`, in order (MrHyDE_Sample_Set_Reader.hpp:90-95).  (`int`
    overflow is not modelled.) -/
def myIndices (n nProc rank : Nat) : List Nat :=
  (List.range (myCount n nProc rank)).map (fun i => i * nProc + rank)

/-- `my_pt` and `my_wt` (MrHyDE_Sample_Set_Reader.hpp:88-97); `none`: read out of range. -/
def mySamples {A : Type} (pts : List A) (nProc rank : Nat) : Option (List A) :=
  (myIndices pts.length nProc rank).mapM (fun i => pts[i]?)

/-! ### Splitting of communicators -/

/-- What a process obtains: its linear algebra communicator and its sampling communicator, each a list of
    world ranks in communicator order; `sampling` is `none` if it was never created. [split_mpi_communicators.cpp:55-86] -/
structure Comms where
  linalg : List Nat
  sampling : Option (List Nat)
deriving DecidableEq

/-- Outcome of the split on one process. [split_mpi_communicators.cpp:19-86] -/
inductive SplitRes where
  /-- an MPI call received a rank that does not exist, or an integer division by zero -/
  | invalid
  | ok (c : Comms)
deriving DecidableEq

/-- `MPI_Comm_split(MPI_COMM_WORLD, rank/M, rank, ...)` on `P` processes
    (split_mpi_communicators.cpp:60): the processes of the same color ordered by key. -/
def laGroup (P M rank : Nat) : List Nat := (List.range P).filter (fun q => q / M = rank / M)

/-- `comRank` (split_mpi_communicators.cpp:63): position in the linear algebra communicator. -/
def laRank (P M rank : Nat) : Nat := (laGroup P M rank).idxOf rank

/-- `split_mpi_communicators` (split_mpi_communicators.cpp:55-86).  `MPI_Group_incl` requires distinct
    existing ranks; `MPI_Comm_create` gives the communicator of the group to its members (a process
    outside its own group gets the null communicator, on which the next call fails). -/
def splitBy (P M G rank : Nat) : SplitRes :=
  if M = 0 then .invalid else
  let granks := (List.range G).map (fun i => laRank P M rank + i * M)
  if granks.all (fun q => q < P) && granks.contains rank then .ok ⟨laGroup P M rank, some granks⟩ else .invalid

/-- The branch for the analysis type "SOL" (split_mpi_communicators.cpp:22-30): the number of groups is
    computed from the requested size before the size is corrected. -/
def splitSOL (P requested rank : Nat) : SplitRes :=
  if requested = 0 then .invalid else
  let numGroups := P / requested
  let numLA := if P % requested ≠ 0 then P else requested
  splitBy P numLA numGroups rank

/-- The default branch (split_mpi_communicators.cpp:19-20, 41-43). -/
def splitDefault (P rank : Nat) : SplitRes := splitBy P P 1 rank

/-- The multiscale branch (split_mpi_communicators.cpp:31-40, 88-139) with `include_main = true`: only
    the main communicator is created, the code for the other one is commented out. -/
def splitMultiscale (P requested _rank : Nat) : SplitRes :=
  if requested = 0 then .invalid else
  let nmain := if P % requested ≠ 0 then P else requested
  let per := if P % nmain ≠ 0 then 1 else P / nmain
  if per = 0 then .invalid else
  .ok ⟨(List.range P).filter (fun i => i % per = 0), none⟩

/-! ### Statistics -/

variable {K : Type} [Field K] [LinearOrder K]

/-- `meanval` (uqManager.cpp:144-149, 154-158); no samples: `0/0`, reported as `none`. -/
def mean (vals : List K) : Option K :=
  if vals.length = 0 then none else some (vals.foldl (· + ·) 0 / (vals.length : K))

/-- `variance` of `computeStatistics` (uqManager.cpp:153-163). -/
def variance (vals : List K) : Option K :=
  match mean vals with
  | none => none
  | some m => some (vals.foldl (fun a x => a + (x - m) * (x - m)) 0 / (vals.length : K))

/-- `computeVariance` for one coordinate (uqManager.cpp:299-311); fewer than two points divide by zero. -/
def variance1 (pts : List K) : Option K :=
  if pts.length < 2 then none else
  let m := pts.foldl (fun a x => a + x / (pts.length : K)) 0
  some (pts.foldl (fun a x => a + (x - m) * (x - m) / ((pts.length : K) - 1)) 0)

/-- Count of the values not above a level (uqManager.cpp:173-177). -/
def countBelow (vals : List K) (level : K) : Nat :=
  vals.foldl (fun c x => if x ≤ level then c + 1 else c) 0

/-- "Probability the response is less than" (uqManager.cpp:171-181). -/
def probability (vals : List K) (level : K) : Option K :=
  if vals.length = 0 then none else some ((countBelow vals level : K) / (vals.length : K))

/-- `rejectionSampling` (uqManager.cpp:319-349); the random numbers are an argument.  If all ratios are
    zero the quotient is a NaN and nothing is accepted. -/
def rejection (ratios checks : List K) : List Bool :=
  let C := ratios.foldl (fun c r => if |r| > c then |r| else c) 0
  (ratios.zip checks).map (fun p => C ≠ 0 ∧ |p.1| / C ≥ p.2)

/-- Distribution used for a stochastic parameter: the two arguments of the library's distribution. [uqManager.cpp:299-349] -/
inductive Draw (K : Type) where
  | uniform (lo hi : K)
  | normal (mean stddev : K)
  /-- the column of samples keeps its initial zeros -/
  | zeros
deriving DecidableEq

/-- `generateSamples` returning a view (uqManager.cpp:62-78). -/
def draw (sq : K → K) (type : String) (mean var lo hi : K) : Draw K :=
  if type = "uniform" then .uniform lo hi else if type = "Gaussian" then .normal mean (sq var) else .zeros

/-- `generateSamples` filling views (uqManager.cpp:119-137). -/
def drawInto (type : String) (mean var lo hi : K) : Draw K :=
  if type = "uniform" then .uniform lo hi else if type = "Gaussian" then .normal mean var else .zeros

/-! ### Roots of the Karhunen-Loeve expansion -/

/-- The Newton loop (klexpansion.hpp:54-60) with `fuel = maxnliter - nliter`.  A zero derivative gives an
    infinity or a NaN: the comparison then ends the loop, the result is `none`. -/
def newton (f df : K → K) (nltol : K) : Nat → K → Option K
  | 0, om => some om
  | n + 1, om => if |f om| > nltol then (if df om = 0 then none else newton f df nltol n (om + -(f om) / df om)) else some om

/-- The test whether a root is known (klexpansion.hpp:61-72).  Comparisons with an infinity or NaN fail. -/
def known (ctol : K) (roots : List (Option K)) (om : Option K) : Bool :=
  roots.any (fun r => match r, om with
    | some a, some b => |b - a| < ctol
    | _, _ => false)

/-- The search loop (klexpansion.hpp:45-77) with `fuel = maxiter - iter`. -/
def rootLoop (f df : K → K) (step ctol nltol : K) (N maxnl : Nat) : Nat → K → K → List (Option K) → List (Option K)
  | 0, _, _, roots => roots
  | n + 1, ig, fprev, roots =>
    if roots.length < N then
      let ig' := ig + step
      if f ig' * fprev < 0 then
        let om := newton f df nltol maxnl ig'
        rootLoop f df step ctol nltol N maxnl n ig' (f ig') (if known ctol roots om then roots else roots ++ [om])
      else rootLoop f df step ctol nltol N maxnl n ig' fprev roots
    else roots

/-- `computeRoots` (klexpansion.hpp:34-84) for a characteristic function `f` with derivative `df`; the
    constants of the code are `ig = step = 1`, `ctol = 1e-6`, `nltol = 1e-10`, `maxiter = 1000`,
    `maxnliter = 10`. -/
def computeRoots (f df : K → K) (ctol nltol : K) (N : Nat) : List (Option K) :=
  rootLoop f df 1 ctol nltol N 10 1000 1 (f 1) []

end MrHyDE.UQ
