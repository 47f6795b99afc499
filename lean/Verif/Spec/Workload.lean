/-!
Specification (independent of the model) of fair splits, partitions of a list and Python indices.
-/
namespace EvoTorch.Workload

/-- What a fair split of `w` into `n` parts is: `n` parts, adding up to `w`, differing by at most one, larger ones first. -/
structure FairSplit (w n : Nat) (l : List Nat) : Prop where
  length : l.length = n
  sum : l.sum = w
  differ : ∀ a ∈ l, ∀ b ∈ l, a ≤ b + 1
  sorted : l.Pairwise (· ≥ ·)

/-- Splitting by a maximum size: every piece is non-empty and at most that large, and there is no piece too many. -/
structure MaxSplit (w m : Nat) (l : List Nat) : Prop where
  sum : l.sum = w
  size : ∀ s ∈ l, 0 < s ∧ s ≤ m
  count : l.length = (w + m - 1) / m

/-- The pieces of `l` with the given sizes: they have these sizes, their concatenation is `l` (so they are consecutive, disjoint
and cover `l` in order), and `indices_of(i)` is the row interval of piece `i`. -/
structure Partition {α : Type} (l : List α) (sizes : List Nat) (ps : List (List α)) (indices : List (Nat × Nat)) : Prop where
  sizes : ps.map List.length = sizes
  cover : ps.flatten = l
  count : indices.length = ps.length
  rows : ∀ (i : Nat) (p : List α), ps[i]? = some p → ∃ b e, indices[i]? = some (b, e) ∧ b ≤ e ∧ e ≤ l.length ∧ p = (l.drop b).take (e - b)

/-- Python's meaning of an optional index into `m` items. -/
def pyObjIndex (m : Nat) : Option Int → Option Int
  | none => if m = 1 then some 0 else none
  | some i => if 0 ≤ i ∧ i < m then some i else if -(m : Int) ≤ i ∧ i < 0 then some (m + i) else none

end EvoTorch.Workload
