import Verif.Model.Base
import Mathlib.Data.Nat.Notation
/-!
Model of `save_solution` of `GymNE` and `VecGymNE` (`src/evotorch/neuroevolution/gymne.py`, `src/evotorch/neuroevolution/vecgymne.py`): what is put into the file, and what happens to the file if saving fails.

Simplifications. The exported policy (see `ExportedPolicy`) and the clock are parameters. A pickle file holds one object, or is broken: what an interrupted `pickle.dump` leaves.
-/
namespace EvoTorch.SaveSolution
open EvoTorch

variable {K P A : Type}

/-- A vector: members, dtype, device, read-only or not. -/
structure Vec (K : Type) where
  vals : List K
  dtype : String
  device : String
  readOnly : Bool
deriving DecidableEq

/-- What is given as a solution: a tensor, a Solution with its values, or another sequence of numbers. -/
inductive Given (K : Type)
  | tensor (v : Vec K)
  | solution (v : Vec K)
  | sequence (l : List K)

/-- Conversion of the solution (gymne.py 687-696, vecgymne.py 988-997); `round32` is the rounding to float32. Cloning a read-only tensor makes an ordinary one. -/
def asCpu (round32 : K → K) (g : Given K) : Vec K :=
  let v : Vec K := match g with
    | .tensor v => { v with device := "cpu" }
    | .solution v => { v with readOnly := false, device := "cpu" }
    | .sequence l => ⟨l.map round32, "float32", "cpu", false⟩
  if v.readOnly then { v with readOnly := false } else v

/-- Collected statistics of observations, as far as they are saved. -/
structure Stats (K : Type) where
  mean : List K
  stdev : List K
  sum : List K
  sumOfSquares : List K
deriving DecidableEq

/-- `_obs_stats`: absent (`VecGymNE` before the first evaluation), empty, or collected. -/
inductive ObsStats (K : Type)
  | absent
  | empty
  | collected (s : Stats K)

/-- Which of the two classes. -/
inductive Kind
  | gym
  | vec
deriving DecidableEq

/-- The problem: `envName` is the environment if it was given as a string; `architecture` what was given as the network. -/
structure Problem (K P A : Type) where
  kind : Kind
  toPolicy : Vec K → Except PyErr P
  obsnorm : Bool
  stats : ObsStats K
  interactionCount : ℕ
  episodeCount : ℕ
  envName : Option String
  architecture : A

/-- What is saved. -/
structure Saved (K P A : Type) where
  solution : Vec K
  policy : P
  stats : Option (Stats K)
  interactionCount : ℕ
  episodeCount : ℕ
  time : ℕ
  env : Option String
  architecture : Option A

/-- The statistics (gymne.py 706-711, runningstat.py 62-88; vecgymne.py 1005-1010, runningnorm.py 435-461). The attributes of an empty `RunningStat` are those of None; the mean of an empty `RunningNorm` is a
division of None. -/
def statsOf (p : Problem K P A) : Except PyErr (Option (Stats K)) :=
  if p.obsnorm then
    match p.stats with
    | .absent => .ok none
    | .empty => .error (match p.kind with | .gym => .attributeError | .vec => .typeError)
    | .collected s => .ok (some s)
  else .ok none

/-- The architecture, saved by `VecGymNE` only (vecgymne.py 1021-1022). -/
def keptArchitecture (p : Problem K P A) : Option A :=
  match p.kind with
  | .gym => none
  | .vec => some p.architecture

/-- The dictionary (gymne.py 698-720, vecgymne.py 999-1022). -/
def contents (p : Problem K P A) (round32 : K → K) (now : ℕ) (g : Given K) : Except PyErr (Saved K P A) := do
  let v := asCpu round32 g
  let policy ← p.toPolicy v
  let stats ← statsOf p
  .ok ⟨v, policy, stats, p.interactionCount, p.episodeCount, now, p.envName, keptArchitecture p⟩

/-- A file. -/
inductive File (K P A : Type)
  | object (s : Saved K P A)
  | broken
  | other (content : String)

/-- Files by name. -/
abbrev Files (K P A : Type) := String → Option (File K P A)

/-- Writing a file. -/
def put (fs : Files K P A) (name : String) (f : File K P A) : Files K P A := fun n => if n = name then some f else fs n

/-- What `pickle` can write: it fails with a PicklingError on functions which cannot be imported, for instance. -/
structure Pickle (P A : Type) where
  policy : P → Bool
  architecture : A → Bool

/-- Whether the dictionary can be pickled. -/
def Pickle.ok (k : Pickle P A) (s : Saved K P A) : Bool :=
  k.policy s.policy && (match s.architecture with | none => true | some a => k.architecture a)

/-- `save_solution(solution, fname)` (gymne.py 674-724, vecgymne.py 975-1026): opening the file for writing empties it. -/
def save (p : Problem K P A) (round32 : K → K) (pk : Pickle P A) (now : ℕ) (fs : Files K P A) (g : Given K) (fname : String) : Outcome (Files K P A) Unit :=
  match contents p round32 now g with
  | .error e => ⟨fs, .error e⟩
  | .ok s => if pk.ok s then ⟨put fs fname (.object s), .ok ()⟩ else ⟨put fs fname .broken, .error .otherError⟩

end EvoTorch.SaveSolution
