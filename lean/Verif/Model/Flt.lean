import Mathlib.Algebra.Order.Field.Basic
import Mathlib.Tactic.Ring
import Mathlib.Tactic.Linarith
/-!
Numbers with infinities and NaN. Finite arithmetic is exact (rounding and overflow are not modelled); infinities and NaN
behave as in IEEE 754: any comparison with NaN is false, `inf - inf` is NaN.
-/
namespace EvoTorch

/-- A float: NaN, an infinity or a finite number. -/
inductive Flt (K : Type) where
  | nan | ninf | fin (x : K) | pinf
  deriving DecidableEq, Repr

namespace Flt
variable {K : Type}

/-- `a < b` (false if one of them is NaN). -/
def lt [LT K] [DecidableLT K] : Flt K → Flt K → Bool
  | nan, _ => false
  | _, nan => false
  | ninf, ninf => false
  | ninf, _ => true
  | _, ninf => false
  | pinf, _ => false
  | fin _, pinf => true
  | fin x, fin y => decide (x < y)

/-- `a <= b` (false if one of them is NaN). -/
def le [LE K] [DecidableLE K] : Flt K → Flt K → Bool
  | nan, _ => false
  | _, nan => false
  | ninf, _ => true
  | _, ninf => false
  | _, pinf => true
  | pinf, _ => false
  | fin x, fin y => decide (x ≤ y)

/-- `isnan`. -/
def isNan : Flt K → Bool
  | nan => true
  | _ => false

/-- `a - b`. -/
def sub [Sub K] : Flt K → Flt K → Flt K
  | nan, _ => nan
  | _, nan => nan
  | ninf, ninf => nan
  | ninf, _ => ninf
  | pinf, pinf => nan
  | pinf, _ => pinf
  | fin _, ninf => pinf
  | fin _, pinf => ninf
  | fin x, fin y => fin (x - y)

/-- `a + b`. -/
def add [Add K] : Flt K → Flt K → Flt K
  | nan, _ => nan
  | _, nan => nan
  | ninf, pinf => nan
  | pinf, ninf => nan
  | ninf, _ => ninf
  | _, ninf => ninf
  | pinf, _ => pinf
  | _, pinf => pinf
  | fin x, fin y => fin (x + y)

/-- `-a`. -/
def neg [Neg K] : Flt K → Flt K
  | nan => nan
  | ninf => pinf
  | pinf => ninf
  | fin x => fin (-x)

/-- `torch.max(a, b)` of two elements: NaN if one of them is NaN. -/
def max2 [LT K] [DecidableLT K] : Flt K → Flt K → Flt K
  | nan, _ => nan
  | _, nan => nan
  | a, b => if lt a b then b else a

/-- `torch.min(a, b)` of two elements: NaN if one of them is NaN. -/
def min2 [LT K] [DecidableLT K] : Flt K → Flt K → Flt K
  | nan, _ => nan
  | _, nan => nan
  | a, b => if lt b a then b else a

/-- `a * b`; zero times an infinity is NaN. -/
def mul [Mul K] [Zero K] [LT K] [DecidableLT K] : Flt K → Flt K → Flt K
  | nan, _ => nan
  | _, nan => nan
  | fin x, fin y => fin (x * y)
  | pinf, pinf => pinf
  | ninf, ninf => pinf
  | pinf, ninf => ninf
  | ninf, pinf => ninf
  | fin x, pinf => if 0 < x then pinf else if x < 0 then ninf else nan
  | fin x, ninf => if 0 < x then ninf else if x < 0 then pinf else nan
  | pinf, fin x => if 0 < x then pinf else if x < 0 then ninf else nan
  | ninf, fin x => if 0 < x then ninf else if x < 0 then pinf else nan

/-- `torch.abs(a)`. -/
def abs [Neg K] [Zero K] [LT K] [DecidableLT K] : Flt K → Flt K
  | nan => nan
  | ninf => pinf
  | pinf => pinf
  | fin x => fin (if x < 0 then -x else x)

section order
variable [LinearOrder K]

theorem le_refl' {a : Flt K} (h : a.isNan = false) : le a a = true := by cases a <;> simp_all [le, isNan]

theorem le_trans' {a b c : Flt K} (h1 : le a b = true) (h2 : le b c = true) : le a c = true := by
  cases a <;> cases b <;> cases c <;> simp_all [le]
  exact _root_.le_trans h1 h2

theorem isNan_of_le_left {a b : Flt K} (h : le a b = true) : a.isNan = false := by cases a <;> simp_all [le, isNan]
theorem isNan_of_le_right {a b : Flt K} (h : le a b = true) : b.isNan = false := by
  cases a <;> cases b <;> simp_all [le, isNan]

theorem max2_cases {a b : Flt K} (ha : a.isNan = false) (hb : b.isNan = false) :
    (max2 a b = a ∧ le b a = true) ∨ (max2 a b = b ∧ le a b = true) := by
  cases a <;> cases b <;> simp_all [max2, isNan, le, lt]
  rename_i x y
  by_cases h : x < y
  · right; exact ⟨fun h' => absurd h' (not_le.mpr h), h.le⟩
  · left; exact ⟨fun h' => absurd h' h, not_lt.mp h⟩

theorem min2_cases {a b : Flt K} (ha : a.isNan = false) (hb : b.isNan = false) :
    (min2 a b = a ∧ le a b = true) ∨ (min2 a b = b ∧ le b a = true) := by
  cases a <;> cases b <;> simp_all [min2, isNan, le, lt]
  rename_i x y
  by_cases h : y < x
  · right; exact ⟨fun h' => absurd h' (not_le.mpr h), h.le⟩
  · left; exact ⟨fun h' => absurd h' h, not_lt.mp h⟩

theorem max2_isNan {a b : Flt K} (ha : a.isNan = false) (hb : b.isNan = false) : (max2 a b).isNan = false := by
  rcases max2_cases ha hb with ⟨h, _⟩ | ⟨h, _⟩ <;> rw [h] <;> assumption

theorem min2_isNan {a b : Flt K} (ha : a.isNan = false) (hb : b.isNan = false) : (min2 a b).isNan = false := by
  rcases min2_cases ha hb with ⟨h, _⟩ | ⟨h, _⟩ <;> rw [h] <;> assumption

theorem max2_le_iff {a b c : Flt K} (ha : a.isNan = false) (hb : b.isNan = false) :
    le (max2 a b) c = true ↔ le a c = true ∧ le b c = true := by
  rcases max2_cases ha hb with ⟨h, h'⟩ | ⟨h, h'⟩ <;> rw [h]
  · exact ⟨fun k => ⟨k, le_trans' h' k⟩, And.left⟩
  · exact ⟨fun k => ⟨le_trans' h' k, k⟩, And.right⟩

theorem le_min2_iff {a b c : Flt K} (ha : a.isNan = false) (hb : b.isNan = false) :
    le c (min2 a b) = true ↔ le c a = true ∧ le c b = true := by
  rcases min2_cases ha hb with ⟨h, h'⟩ | ⟨h, h'⟩ <;> rw [h]
  · exact ⟨fun k => ⟨k, le_trans' k h'⟩, And.left⟩
  · exact ⟨fun k => ⟨le_trans' k h', k⟩, And.right⟩

theorem le_total' {a b : Flt K} (ha : a.isNan = false) (hb : b.isNan = false) : le a b = true ∨ le b a = true := by
  cases a <;> cases b <;> simp_all [isNan, le]
  exact le_total _ _

theorem le_antisymm' {a b : Flt K} (h1 : le a b = true) (h2 : le b a = true) : a = b := by
  cases a <;> cases b <;> simp_all [le]
  exact le_antisymm h1 h2

theorem lt_irrefl (a : Flt K) : lt a a = false := by cases a <;> simp [lt]

theorem lt_asymm {a b : Flt K} (h : lt a b = true) : lt b a = false := by
  cases a <;> cases b <;> simp_all [lt, le_of_lt]

theorem lt_trans {a b c : Flt K} (h1 : lt a b = true) (h2 : lt b c = true) : lt a c = true := by
  cases a <;> cases b <;> cases c <;> simp_all [lt]
  exact _root_.lt_trans h1 h2

theorem lt_nan_right (a : Flt K) : lt a nan = false := by cases a <;> rfl

theorem lt_nan_left (a : Flt K) : lt nan a = false := rfl

/-- On numbers, `not (b < a)` is transitive. -/
theorem not_lt_trans {a b c : Flt K} (hb : b.isNan = false) (h1 : lt b a = false) (h2 : lt c b = false) : lt c a = false := by
  cases a <;> cases b <;> cases c <;> simp_all [lt, isNan]
  exact le_trans h1 h2

theorem lt_of_not_lt_of_lt {a b c : Flt K} (ha : a.isNan = false) (h1 : lt b a = false) (h2 : lt b c = true) : lt a c = true := by
  cases a <;> cases b <;> cases c <;> simp_all [lt, isNan]
  exact lt_of_le_of_lt h1 h2

theorem lt_of_lt_of_not_lt {a b c : Flt K} (hc : c.isNan = false) (h1 : lt a b = true) (h2 : lt c b = false) : lt a c = true := by
  cases a <;> cases b <;> cases c <;> simp_all [lt, isNan]
  exact lt_of_lt_of_le h1 h2

theorem isNan_of_lt_left {a b : Flt K} (h : lt a b = true) : a.isNan = false := by cases a <;> simp_all [lt, isNan]
theorem isNan_of_lt_right {a b : Flt K} (h : lt a b = true) : b.isNan = false := by
  cases a <;> cases b <;> simp_all [lt, isNan]

end order

section field
variable [Field K] [LinearOrder K] [IsStrictOrderedRing K]

theorem sub_pos_iff (a b : Flt K) : lt (fin 0) (sub a b) = lt b a := by
  cases a <;> cases b <;> simp [lt, sub]

theorem sub_neg_iff (a b : Flt K) : lt (sub a b) (fin 0) = lt a b := by
  cases a <;> cases b <;> simp [lt, sub]

end field
end Flt
end EvoTorch
