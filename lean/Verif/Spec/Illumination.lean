import Verif.Model.Illumination
import Verif.Spec.GlobalSearch
/-!
Chances over the draws of several generations of `MAPElites` (see `Verif/Spec/GlobalSearch.lean` for the upper integral), and what it means that a cell holds a good solution.
-/
namespace EvoTorch.Illumination
open EvoTorch.MapElites (Cell Cfg State)
open EvoTorch.Selection (NotWorse)
open EvoTorch.GlobalSearch (upper uniforms normals)
open MeasureTheory ProbabilityTheory
open scoped ENNReal
variable {n l : Nat}

open Classical in
/-- The chance that after `k` more generations the state is not as wanted. In each generation the draws `ω` of the other operators have the law `P`, then come the uniform and the normal numbers
of the mutation. -/
noncomputable def chanceNot {S Ω : Type} [MeasurableSpace Ω] (P : Measure Ω) (gen : Ω → (Fin n → Fin l → ℝ) → (Fin n → Fin l → ℝ) → S → S) (wanted : S → Prop) : Nat → S → ℝ≥0∞
  | 0, st => if wanted st then 0 else 1
  | k + 1, st => upper P fun ω => upper (uniforms n l) fun u => upper (normals n l) fun g => chanceNot P gen wanted k (gen ω u g st)

/-- The features of `v` lie in the cell. -/
def InCell (cell : Cell ℝ) (feats : List ((Fin l → ℝ) → ℝ)) (v : Fin l → ℝ) : Prop :=
  List.Forall₂ (fun b p => Flt.le b.1 (.fin (p v)) = true ∧ Flt.le (.fin (p v)) b.2 = true) cell feats

/-- The features of `v` lie in the interior of the cell. -/
def InInterior (cell : Cell ℝ) (feats : List ((Fin l → ℝ) → ℝ)) (v : Fin l → ℝ) : Prop :=
  List.Forall₂ (fun b p => Flt.lt b.1 (.fin (p v)) = true ∧ Flt.lt (.fin (p v)) b.2 = true) cell feats

/-- Cell number `i` is reported as filled, and its solution has its features in the cell and a fitness not worse than `c`. -/
def Holds (cfg : Cfg ℝ) (fit : (Fin l → ℝ) → ℝ) (feats : List ((Fin l → ℝ) → ℝ)) (i : Nat) (c : ℝ) (st : State (Fin l → ℝ) ℝ) : Prop :=
  st.filled[i]? = some true ∧ ∃ cell r, cfg.grid[i]? = some cell ∧ st.population[i]? = some r ∧ InCell cell feats r.val ∧ NotWorse cfg.sense (fit r.val) c

/-- A lower bound of the chance that one mutated child falls into the box from `a` to `b`, as in C153. -/
noncomputable def hitChance {Ω : Type} (o : Ops Ω n l) (a b : Fin l → ℝ) : ℝ := ∏ j, o.prob * ((b j - a j) / o.stdev * gaussianPDFReal 0 1 ((o.ub j - o.lb j) / o.stdev))

/-- The settings: at least one child, a real mutation on a problem with finite bounds, other operators that keep inside the bounds, features as many as the cells have. -/
structure Proper {Ω : Type} (cfg : Cfg ℝ) (o : Ops Ω n l) (feats : List ((Fin l → ℝ) → ℝ)) : Prop where
  args : BestWorst.ArgSpec cfg.A
  cells : ∀ cell ∈ cfg.grid, cell.length = feats.length
  children : 0 < n
  stdev : 0 < o.stdev
  prob : 0 < o.prob ∧ o.prob ≤ 1
  bounds : ∀ j, o.lb j < o.ub j
  before : ∀ ω rows, (∀ r ∈ rows, ∀ j, o.lb j ≤ r.val j ∧ r.val j ≤ o.ub j) → ∀ i j, o.lb j ≤ o.before ω rows i j ∧ o.before ω rows i j ≤ o.ub j

end EvoTorch.Illumination
