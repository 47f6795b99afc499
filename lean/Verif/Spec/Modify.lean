import Verif.Model.Modify
/-!
What the limits of an update mean, element by element, independently of how `modify_tensor` / `modify_vector` compute.
-/
namespace EvoTorch.Modify.Spec
open EvoTorch.Modify
variable {K : Type} [Field K] [LinearOrder K]

/-- The limit of element `i`, with a default for when no limit was given. -/
def limitAt (dflt : Flt K) (l : Option (Limit K)) (i : Nat) : Flt K :=
  match l with
  | none => dflt
  | some (.scalar x) => x
  | some (.tensor xs) => xs.getD i .nan

/-- The lower limit of element `i`: minus infinity when no limit was given. -/
def lowerAt (l : Option (Limit K)) (i : Nat) : Flt K := limitAt .ninf l i

/-- The upper limit of element `i`: plus infinity when no limit was given. -/
def upperAt (l : Option (Limit K)) (i : Nat) : Flt K := limitAt .pinf l i

/-- The relative change limit of element `i`, if there is one. -/
def changeAt (l : Option (Limit K)) (i : Nat) : Option (Flt K) :=
  match l with
  | none => none
  | some (.scalar x) => some x
  | some (.tensor xs) => some (xs.getD i .nan)

/-- `y` respects the lower and upper limit. -/
def InBounds (lb ub : Flt K) (y : K) : Prop := Flt.le lb (.fin y) = true ∧ Flt.le (.fin y) ub = true

/-- `y` differs from `o` by at most the fraction `c` of `|o|` (no limit when `c` is absent or infinite). -/
def InBand (o : K) (c : Option (Flt K)) (y : K) : Prop :=
  ∀ c' : K, c = some (.fin c') → |y - o| ≤ |o| * c'

/-- All limits together. -/
def Allowed (o : K) (lb ub : Flt K) (c : Option (Flt K)) (y : K) : Prop := InBounds lb ub y ∧ InBand o c y

/-- A limit that the API accepts for a tensor with `n` elements: a scalar or a tensor of the same length, without NaN. -/
def Valid (n : Nat) : Option (Limit K) → Prop
  | none => True
  | some (.scalar x) => x.isNan = false
  | some (.tensor xs) => xs.length = n ∧ ∀ x ∈ xs, x.isNan = false

/-- All numbers in the limit are finite. -/
def Finite : Option (Limit K) → Prop
  | none => True
  | some (.scalar x) => ∃ c, x = .fin c
  | some (.tensor xs) => ∀ x ∈ xs, ∃ c, x = .fin c

end EvoTorch.Modify.Spec
