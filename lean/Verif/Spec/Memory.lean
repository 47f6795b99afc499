import Verif.Model.Base
import Mathlib.Data.Fintype.Basic
/-!
Specification of a batch of keyed memories: a plain function from batch item and key to value.
A key is a tuple of `d` integers.
-/
namespace EvoTorch.Spec.Memory

/-- A key: `d` integers. -/
abbrev Key (d : Nat) := Fin d → Int

/-- A masked write of one value per batch item. -/
structure Write (B d : Nat) (α : Type) where
  key : Fin B → Key d
  value : Fin B → α
  mask : Fin B → Bool

/-- The declared key range: coordinate `j` takes the values `offset j, …, offset j + n j - 1`. -/
def InRange {d : Nat} (n : Fin d → Nat) (offset : Key d) (k : Key d) : Prop :=
  ∀ j, offset j ≤ k j ∧ k j < offset j + n j

/-- Contents after an update of the addressed slots by `f`: other slots and other items keep their value. -/
def update {B d : Nat} {α : Type} (m : Fin B → Key d → α) (key : Fin B → Key d) (f : Fin B → α → α) (mask : Fin B → Bool) :
    Fin B → Key d → α :=
  fun i k => if mask i = true ∧ key i = k then f i (m i k) else m i k

/-- The value last written at item `i`, key `k`, or the initial value. -/
def lastWrite {B d : Nat} {α : Type} (init : Fin B → Key d → α) : List (Write B d α) → Fin B → Key d → α
  | [], i, k => init i k
  | w :: ws, i, k => lastWrite (fun i k => if w.mask i = true ∧ w.key i = k then w.value i else init i k) ws i k

end EvoTorch.Spec.Memory
