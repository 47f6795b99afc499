import Mathlib.Probability.Distributions.Gaussian.Real
import Mathlib.MeasureTheory.Integral.Pi
/-!
Specification: the expected fitness of a separable Gaussian search distribution, and populations of independent draws.
-/
namespace EvoTorch.GaussianScore
open MeasureTheory ProbabilityTheory

/-- The standard normal distribution on the line. -/
noncomputable abbrev γ : Measure ℝ := gaussianReal 0 1

/-- Independent standard normal draws, one for each coordinate. -/
noncomputable abbrev std (d : ℕ) : Measure (Fin d → ℝ) := Measure.pi fun _ => γ

/-- `n` independent vectors of such draws. -/
noncomputable abbrev draws (n d : ℕ) : Measure (Fin n → Fin d → ℝ) := Measure.pi fun _ => std d

/-- The solution which the draws `z` give. -/
def sample {d : ℕ} (mu sigma z : Fin d → ℝ) : Fin d → ℝ := fun j => mu j + sigma j * z j

/-- The expected fitness of a solution drawn from the search distribution with mean `mu` and standard deviations `sigma`. -/
noncomputable def J {d : ℕ} (f : (Fin d → ℝ) → ℝ) (mu sigma : Fin d → ℝ) : ℝ := ∫ z, f (sample mu sigma z) ∂std d

/-- The slope of the expected fitness in coordinate `j` of the mean. -/
noncomputable def slopeMu {d : ℕ} (f : (Fin d → ℝ) → ℝ) (mu sigma : Fin d → ℝ) (j : Fin d) : ℝ := deriv (fun t => J f (Function.update mu j t) sigma) (mu j)

/-- The slope of the expected fitness in coordinate `j` of the standard deviations. -/
noncomputable def slopeSigma {d : ℕ} (f : (Fin d → ℝ) → ℝ) (mu sigma : Fin d → ℝ) (j : Fin d) : ℝ := deriv (fun u => J f mu (Function.update sigma j u)) (sigma j)

/-- Fitness functions for which expectations and their derivatives exist: measurable, with second moments in every coordinate under every search distribution. -/
structure Tame {d : ℕ} (f : (Fin d → ℝ) → ℝ) : Prop where
  measurable : Measurable f
  integrable : ∀ mu sigma : Fin d → ℝ, (∀ j, 0 < sigma j) → ∀ j, Integrable (fun z => (1 + z j ^ 2) * f (sample mu sigma z)) (std d)

end EvoTorch.GaussianScore
