import Mathlib.Data.Fintype.Pi
import Mathlib.Data.Rat.Defs
import Mathlib.Algebra.Field.Rat
/-! Specification of chances: the outcomes of the random source are finitely many and equally likely. -/
namespace EvoTorch.Spec.Chances

open Classical in
/-- The chance of an event among equally likely outcomes. -/
noncomputable def chance {α : Type} (s : Finset α) (P : α → Prop) : ℚ := ((s.filter P).card : ℚ) / (s.card : ℚ)

/-- All ways of drawing one element of `s` for every index, independently. -/
def draws {α ι : Type} [Fintype ι] [DecidableEq ι] (s : Finset α) : Finset (ι → α) := Fintype.piFinset fun _ => s

end EvoTorch.Spec.Chances
