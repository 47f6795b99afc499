import Verif.Model.SetEvals
/-!
Specification of what `set_evals` is asked to write.
-/
namespace EvoTorch.SetEvals
variable {E : Type}

/-- Specification: the rows of evaluation data requested by well-formed arguments for `n` solutions; `none` if the arguments are
malformed. -/
def requested (nan : E) (m q n : Nat) : Tensor E → Option (Tensor E) → Option (List (List E))
  | .vec xs, none => if m = 1 ∧ xs.length = n then some (xs.map fun x => x :: List.replicate q nan) else none
  | .vec xs, some (.mat c d) =>
    if m = 1 ∧ xs.length = n ∧ c = q ∧ d.length = n then some (List.zipWith (fun x r => x :: r) xs d) else none
  | .mat c rows, none =>
    if rows.length = n ∧ c = m then some (rows.map (· ++ List.replicate q nan))
    else if rows.length = n ∧ c = m + q then some rows else none
  | .mat c rows, some (.mat c' d) =>
    if rows.length = n ∧ c = m ∧ c' = q ∧ d.length = n then some (List.zipWith (· ++ ·) rows d) else none
  | _, _ => none

end EvoTorch.SetEvals
