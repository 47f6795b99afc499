import Verif.Model.Base
import Verif.Model.Operators
import Verif.Model.AlgoConfig
/-!
Construction of the genetic operators, and which calls succeed with how many children (`src/evotorch/operators/base.py`, `src/evotorch/operators/real.py`).
The values of the children are modelled in `Verif.Model.Operators`. Numbers given by the user are exact.
-/
namespace EvoTorch.OperatorConfig
open EvoTorch.AlgoConfig (normalizeObjIndex)
open EvoTorch.Operators (numTournaments)

/-- The dtypes that matter. -/
inductive Kind where
  | float
  | int
  | bool
  | object
deriving DecidableEq, Repr

/-- What an operator sees of a problem: the number of objectives, the dtype of the decision values, the strict bounds and the solution length. -/
structure Prob where
  numObjs : ℕ
  kind : Kind
  lb : Option (List ℚ)
  ub : Option (List ℚ)
  length : ℕ

/-- `Operator.__init__`, `operators/base.py:48-59`: the problem and copies of its bounds. `none`: not a Problem. `CopyingOperator.__init__`, `operators/base.py:138-145`, does the same. -/
structure Base where
  problem : Prob
  lb : Option (List ℚ)
  ub : Option (List ℚ)

/-- `Operator.__init__`, `operators/base.py:55-59`. -/
def operatorInit : Option Prob → Except PyErr Base
  | none => .error .typeError
  | some p => .ok ⟨p, p.lb, p.ub⟩

/-- `Operator.__call__`, `operators/base.py:100-110`: the in-place operators check what they are given. -/
def operatorCall {β : Type} (work : β → Except PyErr Unit) : Option β → Except PyErr Unit
  | none => .error .typeError
  | some b => work b

/-- `SingleObjOperator.__init__`, `operators/base.py:423-433`. -/
def singleObjInit (p : Option Prob) (objIndex : Option ℤ) : Except PyErr (Base × ℕ) := do
  let b ← operatorInit p
  let i ← normalizeObjIndex b.problem.numObjs objIndex
  .ok (b, i)

/-- The arguments that all cross-overs have in common. -/
structure CrossArgs where
  tournament : ℚ
  objIndex : Option ℤ
  numChildren : Option ℚ
  rate : Option ℚ

/-- The attributes of a `CrossOver`. -/
structure Cross where
  base : Base
  objIndex : Option ℕ
  tournament : ℤ
  numChildren : Option ℤ
  rate : Option ℚ

/-- `int(x)`. -/
def toInt (x : ℚ) : ℤ := if 0 ≤ x then ⌊x⌋ else ⌈x⌉

/-- `None if obj_index is None else problem.normalize_obj_index(obj_index)`, `operators/base.py:213`. -/
def optObjIndex (numObjs : ℕ) : Option ℤ → Except PyErr (Option ℕ)
  | none => .ok none
  | some i => (normalizeObjIndex numObjs (some i)).map some

/-- `CrossOver.__init__`, `operators/base.py:175-224`. -/
def crossInit (p : Option Prob) (a : CrossArgs) : Except PyErr Cross := do
  let b ← operatorInit p
  let i ← optObjIndex b.problem.numObjs a.objIndex
  if a.numChildren.isSome && a.rate.isSome then .error .valueError
  else .ok ⟨b, i, toInt a.tournament, a.numChildren.map toInt, a.rate⟩

/-- The kinds of cross-overs, with their own settings. -/
inductive CrossKind where
  | multiPoint (points : ℤ)
  | sbx (eta : ℚ)
  | cutAndSplice
deriving DecidableEq

/-- A cross-over operator. -/
structure CrossOp where
  cross : Cross
  kind : CrossKind

/-- `MultiPointCrossOver.__init__`, `operators/real.py:92-142`; the default of `num_points` is None. -/
def multiPointInit (p : Option Prob) (a : CrossArgs) (points : Option ℚ) : Except PyErr CrossOp := do
  let c ← crossInit p a
  match points with
  | none => .error .typeError
  | some x => if toInt x < 1 then .error .valueError else .ok ⟨c, .multiPoint (toInt x)⟩

/-- `OnePointCrossOver.__init__`, `operators/real.py:255-296`. -/
def onePointInit (p : Option Prob) (a : CrossArgs) : Except PyErr CrossOp := multiPointInit p a (some 1)

/-- `TwoPointCrossOver.__init__`, `operators/real.py:347-388`. -/
def twoPointInit (p : Option Prob) (a : CrossArgs) : Except PyErr CrossOp := multiPointInit p a (some 2)

/-- `SimulatedBinaryCrossOver.__init__`, `operators/real.py:408-454`. -/
def sbxInit (p : Option Prob) (a : CrossArgs) (eta : ℚ) : Except PyErr CrossOp := do
  let c ← crossInit p a
  .ok ⟨c, .sbx eta⟩

/-- `CutAndSplice` has the constructor of `CrossOver`, `operators/sequence.py:25-37`. -/
def cutAndSpliceInit (p : Option Prob) (a : CrossArgs) : Except PyErr CrossOp := do
  let c ← crossInit p a
  .ok ⟨c, .cutAndSplice⟩

/-- The number of pairs, or the exception, of `_do_tournament` on a non-empty batch, `operators/base.py:263-365`: sizes below zero are refused by `torch`, and so is `argmax` over no contestants.
Both halves have the same length, since the number of tournaments is even. -/
def pairs (c : Cross) (len : ℕ) : Except PyErr ℕ := do
  let n ← numTournaments len c.numChildren c.rate
  if n < 0 ∨ c.tournament < 0 then .error .runtimeError
  else if c.tournament = 0 then .error .indexError
  else .ok (n / 2).toNat

/-- The number of children, or the exception, of `_do_cross_over`: `operators/real.py:160-207` (which begins with `parents1[0]`, and for one point draws from `solution_length - 1` numbers), `operators/real.py:456-481`
(whose exponent is `1 / (eta + 1)`), `operators/sequence.py:65-74`. -/
def children (k : CrossKind) (length pairs : ℕ) : Except PyErr ℕ :=
  match k with
  | .multiPoint m =>
    if pairs = 0 then .error .indexError
    else if m = 1 ∧ length = 1 then .error .runtimeError
    else .ok (2 * pairs)
  | .sbx eta => if eta + 1 = 0 then .error .zeroDivisionError else .ok (2 * pairs)
  | .cutAndSplice => .ok (2 * pairs)

/-- `CopyingOperator.__call__` (`operators/base.py:147-148`) of a cross-over, `operators/base.py:405-412`, on a non-empty batch: the number of children. -/
def call (o : CrossOp) (len : ℕ) : Except PyErr ℕ := do
  let n ← pairs o.cross len
  children o.kind o.cross.base.problem.length n

/-- `GaussianMutation`. -/
structure Gaussian where
  base : Base
  prob : ℚ
  stdev : ℚ

/-- `GaussianMutation.__init__`, `operators/real.py:40-57`. -/
def gaussianInit (p : Option Prob) (stdev : ℚ) (prob : Option ℚ) : Except PyErr Gaussian := do
  let b ← operatorInit p
  .ok ⟨b, prob.getD 1, stdev⟩

/-- `PolynomialMutation`; here the bounds are the problem's own. -/
structure Polynomial where
  base : Base
  prob : Option ℚ
  eta : ℚ

/-- `torch.any(lower_bounds > upper_bounds)`. -/
def someGreater (lb ub : List ℚ) : Bool := (List.zipWith (fun a b => decide (a > b)) lb ub).any id

/-- `PolynomialMutation.__init__`, `operators/real.py:501-543`. -/
def polynomialInit (p : Option Prob) (eta prob : Option ℚ) : Except PyErr Polynomial := do
  let b ← operatorInit p
  if b.problem.kind ≠ .float then .error .valueError
  else match b.problem.lb, b.problem.ub with
    | some lb, some ub => if someGreater lb ub then .error .valueError else .ok ⟨b, prob, eta.getD 20⟩
    | _, _ => .error .valueError

/-- `CosynePermutation`. -/
structure Cosyne where
  base : Base
  objIndex : Option ℕ
  permuteAll : Bool

/-- `CosynePermutation.__init__`, `operators/real.py:622-652`: here `normalize_obj_index` is called before the problem is checked, so that something without this method is an AttributeError. -/
def cosyneInit (p : Option Prob) (objIndex : Option ℤ) (permuteAll : Bool) : Except PyErr Cosyne :=
  if permuteAll then
    if objIndex.isSome then .error .valueError
    else (operatorInit p).map fun b => ⟨b, none, true⟩
  else match p with
    | none => .error .attributeError
    | some q =>
      match normalizeObjIndex q.numObjs objIndex with
      | .error e => .error e
      | .ok i => (operatorInit p).map fun b => ⟨b, some i, false⟩

end EvoTorch.OperatorConfig
