import Verif.Model.BatchHistory
/-!
Specification: legal use of the batch API and truthful rows.
-/
namespace EvoTorch.BatchHistory
variable {V E : Type}

/-- The use of the API that the property is about: `set_evals` is only called with the true evaluations (or with rows containing a
NaN), values are not modified after asking for `keep_evals=True`, objects given to `set_values` have supported types. -/
def Legal (f : V → List (Option E)) (st : State V E) : Op V E → Prop
  | .setValues _ _ vals isObject => isObject = true → ∀ v ∈ vals, v.isSome
  | .modifyValues _ _ vals keep => keep = true → vals = []
  | .setEvals b pos rows => ∀ as, addrs st b pos = some as → ∀ p ∈ as.zip rows,
      p.2 = f (st.heap p.1).val ∨ none ∈ p.2
  | _ => True

/-- Every operation of the history is legal when it is performed. -/
def LegalHistory (f : V → List (Option E)) (m : Nat) (st : State V E) : List (Op V E) → Prop
  | [] => True
  | op :: rest => Legal f st op ∧ LegalHistory f m (exec f m st op).state rest

/-- A row is truthful: if it is reported as evaluated, its evaluation is that of its decision values. -/
def Truthful (f : V → List (Option E)) (c : Cell V E) : Prop := isEvaluated c = true → c.ev = f c.val

end EvoTorch.BatchHistory
