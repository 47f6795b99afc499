import Mathlib.Data.Int.Log
import Mathlib.Algebra.Order.Ring.Rat
import Mathlib.Algebra.Field.Rat
import Mathlib.Algebra.Order.Field.Rat
/-!
Floating point numbers and rounding to the nearest, for C161.
-/
namespace EvoTorch.Rounding

/-- A binary floating point format: significands of `p` bits, and exponents that are at least `emin` (the exponent of the last bit of the smallest positive number). There is no largest
exponent. -/
structure Fmt where
  p : ℕ
  emin : ℤ

/-- `x` is a number of the format. -/
def IsFloat (F : Fmt) (x : ℚ) : Prop := ∃ m e : ℤ, |m| < 2 ^ F.p ∧ F.emin ≤ e ∧ x = m * (2 : ℚ) ^ e

/-- `rnd` rounds every number to a nearest number of the format; how it breaks ties is not said. -/
def Nearest (F : Fmt) (rnd : ℚ → ℚ) : Prop := ∀ x, IsFloat F (rnd x) ∧ ∀ y, IsFloat F y → |rnd x - x| ≤ |y - x|

/-- A format with at least two bits, and in which the numbers between 0 and 1 are as fine as its bits can make them near 1/16. All of torch's are so. -/
def Fmt.Usual (F : Fmt) : Prop := 2 ≤ F.p ∧ F.emin ≤ -(F.p : ℤ) - 4

/-- `torch.float64`, and the numbers of Python. -/
def float64 : Fmt := ⟨53, -1074⟩
/-- `torch.float32`. -/
def float32 : Fmt := ⟨24, -149⟩
/-- `torch.float16`. -/
def float16 : Fmt := ⟨11, -24⟩
/-- `torch.bfloat16`. -/
def bfloat16 : Fmt := ⟨8, -133⟩

end EvoTorch.Rounding
