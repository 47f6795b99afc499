import Verif.Model.Base
import Mathlib.Data.Multiset.AddSub
/-!
Specification of a batch of bags: per batch item a multiset of integers. The bags are filled first and sampled afterwards.
-/
namespace EvoTorch.Spec.Bag

/-- Have samples been drawn yet, and what remains in each bag. -/
structure State (B : Nat) where
  sampling : Bool
  rem : Fin B → Multiset Int

/-- Method calls, with a mask. -/
inductive Call (B : Nat) where
  | push (v : Fin B → Int) (w : Fin B → Bool)
  | pop (w : Fin B → Bool)
  | length
  | clear

/-- Which result a call may have and which state it may lead to. A pop removes *some* element of each selected bag. -/
def Step {B : Nat} (cap : Nat) (s : State B) : Call B → Except PyErr (Fin B → Int) → State B → Prop
  | .push v w, res, s' =>
    if s.sampling = true then res = .error .runtimeError ∧ s' = s
    else if ∃ i, w i = true ∧ (s.rem i).card = cap then res = .error .indexError ∧ s' = s
    else (∃ o, res = .ok o) ∧ s'.sampling = false ∧ ∀ i, s'.rem i = if w i then v i ::ₘ s.rem i else s.rem i
  | .pop w, res, s' =>
    s'.sampling = true ∧
    if ∃ i, w i = true ∧ s.rem i = 0 then res = .error .indexError ∧ s'.rem = s.rem
    else ∃ o, res = .ok o ∧
      ∀ i, (w i = true → o i ∈ s.rem i ∧ s'.rem i = (s.rem i).erase (o i)) ∧ (w i = false → s'.rem i = s.rem i)
  | .length, res, s' => res = .ok (fun i => ((s.rem i).card : Int)) ∧ s' = s
  | .clear, res, s' => (∃ o, res = .ok o) ∧ s' = ⟨false, fun _ => 0⟩

/-- Does a list of calls with these results form a trace of the specification? -/
inductive Trace {B : Nat} (cap : Nat) : State B → List (Call B × Except PyErr (Fin B → Int)) → State B → Prop where
  | nil (s) : Trace cap s [] s
  | cons {s call res s' rest s''} : Step cap s call res s' → Trace cap s' rest s'' → Trace cap s ((call, res) :: rest) s''

end EvoTorch.Spec.Bag
