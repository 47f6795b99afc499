import Verif.Model.Base
/-!
Splitting work among actors: `split_workload`, `SolutionBatchPieces`, parallel evaluation, actor seeds, objective indices.
-/
namespace EvoTorch.Workload

/-- The loop `for i in range(n): result[i] += 1` used by `split_workload` (`src/evotorch/tools/misc.py:1133-1134`) and by
`SolutionBatchPieces` (`src/evotorch/core.py:4634-4635`). -/
def incrementFirst : Nat → List Nat → List Nat
  | 0, l => l
  | n + 1, l => (incrementFirst n l).modify n (· + 1)

/-- `split_workload`, `src/evotorch/tools/misc.py:1113-1135`. -/
def splitWorkload (workload numActors : Nat) : Except PyErr (List Nat) :=
  if numActors = 0 then .error .zeroDivisionError
  else .ok (incrementFirst (workload % numActors) (List.replicate numActors (workload / numActors)))

/-- Piece sizes for `num_pieces` given (`src/evotorch/core.py:4628-4635`), non-negative `num_pieces`. -/
def sizesByCount (total numPieces : Nat) : Except PyErr (List Nat) :=
  if numPieces = 0 then .error .zeroDivisionError
  else
    let base := total / numPieces
    let rest := total - base * numPieces
    .ok (incrementFirst rest (List.replicate numPieces base))

/-- The loop of `src/evotorch/core.py:4640-4646`. -/
def maxSizeLoop (total maxSize : Nat) : Nat → Nat → List Nat
  | 0, _ => []
  | n + 1, current =>
    (if current + maxSize > total then total - current else maxSize) :: maxSizeLoop total maxSize n (current + maxSize)

/-- Piece sizes for `max_size` given (`src/evotorch/core.py:4636-4646`). `math.ceil(total / max_size)` is computed in floating
point in the code; here it is the exact ceiling. -/
def sizesByMax (total maxSize : Nat) : Except PyErr (List Nat) :=
  if maxSize = 0 then .error .zeroDivisionError
  else .ok (maxSizeLoop total maxSize ((total + maxSize - 1) / maxSize) 0)

/-- `SolutionBatchPieces.__init__`: which sizes are used (`src/evotorch/core.py:4628-4650`). -/
def pieceSizes (total : Nat) (numPieces maxSize : Option Nat) : Except PyErr (List Nat) :=
  match maxSize, numPieces with
  | none, some k => sizesByCount total k
  | some m, none => sizesByMax total m
  | _, _ => .error .valueError

/-- The slices (`src/evotorch/core.py:4652-4656`). -/
def pieceSlices : Nat → List Nat → List (Nat × Nat)
  | _, [] => []
  | b, s :: ss => (b, b + s) :: pieceSlices (b + s) ss

/-- Python slicing `l[b:e]` for `0 ≤ b ≤ e`. -/
def slice {α : Type} (l : List α) (p : Nat × Nat) : List α := (l.drop p.1).take (p.2 - p.1)

/-- The pieces (`src/evotorch/core.py:4658-4659`). -/
def pieces {α : Type} (batch : List α) (sizes : List Nat) : List (List α) := (pieceSlices 0 sizes).map (slice batch)

/-- Slice assignment `l[b:e] = xs` of `e - b` rows. -/
def assignSlice {α : Type} (l : List α) (p : Nat × Nat) (xs : List α) : List α := l.take p.1 ++ xs ++ l.drop p.2

/-- The collecting loop of `_evaluate_all` (`src/evotorch/core.py:2593-2595`): `arrivals` are the `(index, evals)` pairs in
the order in which the actor pool yields them. -/
def collect {E : Type} (slices : List (Nat × Nat)) : List E → List (Nat × List E) → List E
  | ev, [] => ev
  | ev, (i, evals) :: rest => collect slices (assignSlice ev (slices.getD i (0, 0)) evals) rest

/-- The jobs given to the actor pool (`src/evotorch/core.py:2590-2592`) and what an actor returns for each
(`evaluate_batch_piece`, 158-171): `evalPiece i` is the evaluation performed by the actor that received piece `i`. -/
def jobs {X E : Type} (evalPiece : Nat → List X → List E) (ps : List (List X)) : List (Nat × List E) :=
  ps.zipIdx.map fun p => (p.2, evalPiece p.2 p.1)

/-- How `_evaluate_all` splits the batch (`src/evotorch/core.py:2579-2584`). -/
def evaluationSizes (numActors : Nat) (numSubbatches subbatchSize : Option Nat) (n : Nat) : Except PyErr (List Nat) :=
  match numSubbatches, subbatchSize with
  | some k, _ => pieceSizes n (some k) none
  | none, some m => pieceSizes n none (some m)
  | none, none => pieceSizes n (some numActors) none

/-- `Problem._evaluate_all` with actors (`src/evotorch/core.py:2578-2595`). `sched` turns the submitted jobs into the sequence in which
`map_unordered` yields them. Data transfer to and from the actors is taken to be faithful. -/
def evaluateAll {X E : Type} (numActors : Nat) (numSubbatches subbatchSize : Option Nat)
    (sched : List (Nat × List E) → List (Nat × List E)) (evalPiece : Nat → List X → List E)
    (xs : List X) (ev : List E) : Except PyErr (List E) :=
  match evaluationSizes numActors numSubbatches subbatchSize xs.length with
  | .error e => .error e
  | .ok sizes => .ok (collect (pieceSlices 0 sizes) ev (sched (jobs evalPiece (pieces xs sizes))))

/-- Seeds of all actors (`src/evotorch/core.py:2001-2022`): four consecutive numbers per actor. -/
def actorSeed (base : Nat) (i : Nat) : Nat := (base + (i + 1)) % 2 ^ 32

/-- `all_seeds`. -/
def allSeeds (base numActors : Nat) : List (List Nat) :=
  (List.range numActors).map fun i => (List.range 4).map fun k => actorSeed base (4 * i + k)

/-- `Problem.normalize_obj_index` (`src/evotorch/core.py:2690-2704`) with `m` objectives. -/
def problemObjIndex (m : Nat) : Option Int → Except PyErr Int
  | none => if m = 1 then .ok 0 else .error .valueError
  | some i =>
    let i' := if i < 0 then (m : Int) + i else i
    if i' < 0 ∨ i' ≥ m then .error .indexError else .ok i'

/-- `SolutionBatch._optionally_get_obj_index` and `_normalize_obj_index` (`src/evotorch/core.py:3786-3810`). -/
def batchObjIndex (m : Nat) : Option Int → Except PyErr Int
  | none => if m ≠ 1 then .error .valueError else .ok 0
  | some i =>
    let i' := if i < 0 then (m : Int) + i else i
    if i' < 0 ∨ i' > m then .error .indexError else .ok i'

/-- `SolutionBatch._normalize_row_index` (`src/evotorch/core.py:3774-3784`) for a batch of `n` rows. -/
def rowIndex (n : Nat) (i : Int) : Except PyErr Int :=
  let i' := if i < 0 then (n : Int) + i else i
  if i' < 0 ∨ i' > (n : Int) - 1 then .error .indexError else .ok i'

/-- `SolutionBatch.access_evals(obj_index)` (`src/evotorch/core.py:4148-4149`): the selected column of a row of the evaluation
data (`m` objectives followed by extra evaluation data). -/
def accessEvalsColumn {E : Type} (m : Nat) (row : List E) (i : Int) : Except PyErr E :=
  match batchObjIndex m (some i) with
  | .error e => .error e
  | .ok k =>
    match row[k.toNat]? with
    | some x => .ok x
    | none => .error .indexError

end EvoTorch.Workload
