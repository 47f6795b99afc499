import Verif.Model.GlobalSearch
import Verif.Props.GA
import Mathlib.Probability.Distributions.Gaussian.Real
import Mathlib.MeasureTheory.Constructions.Pi
/-!
Chances over the draws of several generations. The value of a chance is the iterated integral over the draws in the order in which the
program makes them. Upper integrals are used, so nothing need be measurable: for measurable functions they are the usual integrals.
-/
namespace EvoTorch.GlobalSearch
open GA (Row Cfg State)
open Selection (NotWorse)
open MeasureTheory ProbabilityTheory
open scoped ENNReal
variable {n l : Nat}

/-- The upper integral: the least integral of a measurable function that is nowhere smaller. -/
noncomputable def upper {α : Type} [MeasurableSpace α] (μ : Measure α) (F : α → ℝ≥0∞) : ℝ≥0∞ :=
  ⨅ G : {G : α → ℝ≥0∞ // Measurable G ∧ F ≤ G}, ∫⁻ x, G.1 x ∂μ

/-- Independent uniform numbers of `[0, 1)`, one per gene of each child. -/
noncomputable def uniforms (n l : Nat) : Measure (Fin n → Fin l → ℝ) :=
  Measure.pi fun _ => Measure.pi fun _ => volume.restrict (Set.Ico 0 1)

/-- Independent standard normal numbers, one per gene of each child. -/
noncomputable def normals (n l : Nat) : Measure (Fin n → Fin l → ℝ) :=
  Measure.pi fun _ => Measure.pi fun _ => gaussianReal 0 1

/-- Some solution of the population is at least as good as `c`. -/
def Reached (cfg : Cfg ℝ) (f : (Fin l → ℝ) → ℝ) (c : ℝ) (st : State (Fin l → ℝ) ℝ) : Prop :=
  ∃ r ∈ st.population, NotWorse cfg.sense (f r.val) c

open Classical in
/-- The chance that after `k` more generations no solution of the population is at least as good as `c`. In each generation the draws `ω`
of the other operators have the law `P`, then come the uniform and the normal numbers of the mutation. -/
noncomputable def missChance {Ω : Type} [MeasurableSpace Ω] (P : Measure Ω) (cfg : Cfg ℝ) (o : Ops Ω n l) (f : (Fin l → ℝ) → ℝ) (c : ℝ) :
    Nat → State (Fin l → ℝ) ℝ → ℝ≥0∞
  | 0, st => if Reached cfg f c st then 0 else 1
  | k + 1, st => upper P fun ω => upper (uniforms n l) fun u => upper (normals n l) fun g =>
      missChance P cfg o f c k (generation cfg o f ω u g st)

/-- Every solution is inside the bounds. -/
def Inside (lb ub : Fin l → ℝ) (rows : List (Row (Fin l → ℝ) ℝ)) : Prop := ∀ r ∈ rows, ∀ j, lb j ≤ r.val j ∧ r.val j ≤ ub j

/-- A lower bound of the chance that one mutated child falls into the box from `a` to `b`, wherever it was inside the bounds: per gene, the
mutation probability times the width of the box in standard deviations times the normal density at the width of the bounds in standard
deviations. -/
noncomputable def hitChance {Ω : Type} (o : Ops Ω n l) (a b : Fin l → ℝ) : ℝ :=
  ∏ j, o.prob * ((b j - a j) / o.stdev * gaussianPDFReal 0 1 ((o.ub j - o.lb j) / o.stdev))

end EvoTorch.GlobalSearch
