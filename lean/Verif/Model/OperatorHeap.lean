import Verif.Model.BatchHistory
/-!
The memory behaviour of the operators of `src/evotorch/operators`: which batches they read, copy, create and write. What they compute is in `Model/Operators.lean`; here it is
an arbitrary function of the decision values. Operators are programs over the operations of `Model/BatchHistory.lean`.
-/
namespace EvoTorch.OperatorHeap
open EvoTorch.BatchHistory
variable {V E : Type}

/-- `batch._data`, the decision values of a batch, `core.py 3639`. -/
def valuesOf (st : State V E) (b : Nat) : Option (List V) := (st.objs[b]?).map fun rows => rows.map fun a => (st.heap a).val

/-- `deepcopy(batch)`: `SolutionBatch._get_cloned_state`, `core.py 4431-4437`, clones the two tensors. All rows are copied, with their evaluations. -/
def deepcopy (f : V → List (Option E)) (m : Nat) (st : State V E) (b : Nat) : State V E :=
  (exec f m st (.take b (List.range ((st.objs[b]?).getD []).length))).state

/-- The two mutations: `GaussianMutation._do`, `operators/real.py:59-66`, and `PolynomialMutation._do`, `operators/real.py:545-603`. A deep copy is made, its values are
accessed for writing (`access_values()` without `keep_evals`), and overwritten in place. `g` is the mutation of the matrix of values. -/
def mutation (f : V → List (Option E)) (m : Nat) (g : List V → List V) (st : State V E) (b : Nat) : State V E :=
  let vals := (valuesOf st b).getD []
  let st1 := deepcopy f m st b
  (exec f m st1 (.modifyValues st.objs.length (List.range vals.length) (g vals) false)).state

/-- The numeric cross-overs: `CrossOver._do`, `operators/base.py:405-412`, with `MultiPointCrossOver._do_cross_over`, `operators/real.py:144-207`, or
`SimulatedBinaryCrossOver._do_cross_over`, `operators/real.py:456-481`, and `CrossOver._make_children_batch`, `operators/base.py:400-403`. The parents are selected with an index
tensor (353-354), which copies; the children are a new tensor, put into a new batch without evaluations. `g` gives the children from the values and the evaluations. -/
def crossOver (f : V → List (Option E)) (m : Nat) (g : List (Cell V E) → List V) (st : State V E) (b : Nat) : State V E :=
  match st.objs[b]? with
  | none => st
  | some rows => (exec f m st (.new (g (rows.map st.heap)))).state

/-- `CutAndSplice._do_cross_over`, `operators/sequence.py:65-74`: two empty batches, filled row by row through `access_values(keep_evals=True)` (62-63), and concatenated.
`g` gives the pairs of children. The empty batches hold `None`, here `dummy`. -/
def cutAndSplice (f : V → List (Option E)) (m : Nat) (dummy : V) (g : List (Cell V E) → List (V × V)) (st : State V E) (b : Nat) : State V E :=
  match st.objs[b]? with
  | none => st
  | some rows =>
    let pairs := g (rows.map st.heap)
    let k := st.objs.length
    run f m st
      ([.new (List.replicate pairs.length dummy), .new (List.replicate pairs.length dummy)] ++
        ((List.range pairs.length).zip pairs).flatMap (fun ip => [.modifyValues k [ip.1] [ip.2.1] true, .modifyValues (k + 1) [ip.1] [ip.2.2] true]) ++
        [.cat [k, k + 1]])

/-- `CosynePermutation._do`, `operators/real.py:664-706`: `SolutionBatch(like=batch, empty=True)` (new memory, NaN evaluations), the values are copied and then permuted in the
copy. `g` is the permutation, from the values and the evaluations. -/
def cosynePermutation (f : V → List (Option E)) (m : Nat) (g : List (Cell V E) → List V) (st : State V E) (b : Nat) : State V E :=
  match st.objs[b]? with
  | none => st
  | some rows =>
    let vals := rows.map fun a => (st.heap a).val
    let st1 := (exec f m st (.new vals)).state
    (exec f m st1 (.modifyValues st.objs.length (List.range vals.length) (g (rows.map st.heap)) true)).state

end EvoTorch.OperatorHeap
