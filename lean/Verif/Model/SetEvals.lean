import Verif.Model.Base
/-!
`SolutionBatch.set_evals`.
-/
namespace EvoTorch.SetEvals

/-- A tensor argument, by its number of dimensions: a vector, a matrix with its number of columns, anything else. -/
inductive Tensor (E : Type) where
  | vec (xs : List E)
  | mat (ncols : Nat) (rows : List (List E))
  | other (ndim : Nat)

/-- Indexed row assignment `evdata[solutions, :] = rows` (both of the same length, indices in range; for repeated indices the last
write is taken, PyTorch leaves it unspecified). -/
def writeRows {E : Type} (evdata : List (List E)) : List (Nat × List E) → List (List E)
  | [] => evdata
  | (i, r) :: rest => writeRows (evdata.set i r) rest

/-- Row indices addressed by `solutions` (`None` means all), `src/evotorch/core.py:3984-3990`. Slices are given by the indices they
select. -/
def selected {E : Type} (evdata : List (List E)) : Option (List Nat) → List Nat
  | none => List.range evdata.length
  | some l => l

/-- `SolutionBatch.set_evals`, `src/evotorch/core.py:3952-4072`; `m` objectives, `q` columns of extra evaluation data. `nan` is the
not-evaluated marker. Every check precedes every write. The two assignments `[:, :num_objs] = evals` and
`[:, num_objs:] = nan` (4062-4063) are one row write here. -/
def setEvals {E : Type} (nan : E) (m q : Nat) (evdata : List (List E)) (evals : Tensor E) (evalData : Option (Tensor E))
    (solutions : Option (List Nat)) : Outcome (List (List E)) Unit :=
  let sel := selected evdata solutions
  let evals' : Except PyErr (Nat × List (List E)) :=
    match evals with
    | .vec xs => if m ≠ 1 then .error .valueError else .ok (1, xs.map fun x => [x])
    | .mat c rows => .ok (c, rows)
    | .other _ => .error .valueError
  match evals' with
  | .error e => ⟨evdata, .error e⟩
  | .ok (ncols, rows) =>
    if rows.length ≠ sel.length then ⟨evdata, .error .valueError⟩
    else
      match evalData with
      | some (.mat dcols drows) =>
        if dcols ≠ q then ⟨evdata, .error .valueError⟩
        else if ncols ≠ m then ⟨evdata, .error .valueError⟩
        else if rows.length ≠ drows.length then ⟨evdata, .error .valueError⟩
        else ⟨writeRows evdata (sel.zip (List.zipWith (· ++ ·) rows drows)), .ok ()⟩
      | some _ => ⟨evdata, .error .valueError⟩
      | none =>
        if ncols = m then ⟨writeRows evdata (sel.zip (rows.map (· ++ List.replicate q nan))), .ok ()⟩
        else if ncols = m + q then ⟨writeRows evdata (sel.zip rows), .ok ()⟩
        else ⟨evdata, .error .valueError⟩

end EvoTorch.SetEvals
