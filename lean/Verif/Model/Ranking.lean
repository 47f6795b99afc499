import Verif.Model.Selection
import Mathlib.Analysis.SpecialFunctions.Log.Basic
import Mathlib.Analysis.SpecialFunctions.Pow.NNReal
/-!
Ranking functions, `src/evotorch/tools/ranking.py`. A fitness tensor is flattened (`reshape(-1)`) and the result gets the original shape
back, so the model works on the flat list. Arithmetic is exact. The fitnesses of the sorting rankings are of any type that can be sorted (C150 has NaNs
among them); those of the others are finite numbers.
-/
namespace EvoTorch.Ranking
open Selection (Sorter)
variable {K : Type} [Field K] [LinearOrder K]

/-- `ranks[indices] = weights` for index and weight vectors of the same length: one assignment per position. -/
def scatter {α : Type} (d : List α) (idx : List Nat) (w : List α) : List α :=
  (idx.zip w).foldl (fun d iw => d.set iw.1 iw.2) d

/-- The weights of `linear`, `src/evotorch/tools/ranking.py:78`. (`n = 1`: the code divides 0 by 0 and gets NaN.) -/
def linearWeights (n : Nat) : List K := (List.range n).map fun (k : Nat) => (k : K) / ((n : K) - 1)

/-- The weights of `centered`, `src/evotorch/tools/ranking.py:50`. -/
def centeredWeights (n : Nat) : List K := (List.range n).map fun (k : Nat) => (k : K) / ((n : K) - 1) - 1 / 2

/-- `centered`, `src/evotorch/tools/ranking.py:44-53`; `torch.empty_like` contents: the arbitrary list `junk`. -/
def centered {α : Type} (sort : Sorter α) (hib : Bool) (junk : List K) (x : List α) : List K :=
  scatter junk (sort (!hib) x) (centeredWeights x.length)

/-- `linear`, `src/evotorch/tools/ranking.py:72-81`. -/
def linear {α : Type} (sort : Sorter α) (hib : Bool) (junk : List K) (x : List α) : List K :=
  scatter junk (sort (!hib) x) (linearWeights x.length)

/-- The truncated log weights of `nes`, `src/evotorch/tools/ranking.py:109-114`. -/
noncomputable def nesWeights (n : Nat) : List ℝ :=
  (List.range n).map fun (i : Nat) => max 0 (Real.log ((n : ℝ) / 2 + 1) - Real.log ((n : ℝ) - (i : ℝ)))

/-- `nes`, `src/evotorch/tools/ranking.py:102-124`; `junk` is the content of `torch.empty`. -/
noncomputable def nes {α : Type} (sort : Sorter α) (hib : Bool) (junk : List Nat) (x : List α) : List ℝ :=
  let n := x.length
  let indices := sort (!hib) x
  let ranks := scatter junk indices (List.range n)
  let utils := ranks.map fun r => (nesWeights n).getD r 0
  let utils := let s := utils.sum; utils.map fun u => u / s
  utils.map fun u => u - 1 / (n : ℝ)

/-- `torch.mean`. -/
def mean (x : List K) : K := x.sum / (x.length : K)
/-- The square of `torch.std` (unbiased). -/
def variance (x : List K) : K := (x.map fun a => (a - mean x) ^ 2).sum / ((x.length : K) - 1)

/-- `raw`, `src/evotorch/tools/ranking.py:181-183`. -/
def raw (hib : Bool) (x : List K) : List K := if hib then x else x.map fun a => -a

/-- `normalized`, `src/evotorch/tools/ranking.py:151-160`. -/
noncomputable def normalized (hib : Bool) (x : List ℝ) : List ℝ :=
  let x := if hib then x else x.map fun a => -a
  let mu := mean x
  let sd := Real.sqrt (variance x)
  let x := x.map fun a => a - mu
  x.map fun a => a / sd

end EvoTorch.Ranking
