import Verif.Model.AlgoConfig
import Mathlib.Tactic.Linarith
import Mathlib.Tactic.NormNum
import Mathlib.Tactic.Positivity
/-!
C126: how PGPE, SNES, CEM and XNES are configured.
-/
namespace EvoTorch.AlgoConfig
open EvoTorch.Optimizers (Stdev toStdevInit)

/-! ### Specification -/

/-- A vector argument fits the solution length: it is left out, or a scalar, or a vector of that length. -/
def Fits (n : ℕ) : Option Stdev → Prop
  | some (.vector v) => v.length = n
  | _ => True

/-- Exactly one of `stdev_init` and `radius_init` is given. -/
def OneCoverage (stdev : Option Stdev) (radius : Option ℝ) : Prop := stdev.isSome ≠ radius.isSome

/-- `obj_index` names an objective: left out for a single objective, otherwise a position that may count from the end. -/
def NamesObjective (k : ℕ) : Option ℤ → ℕ → Prop
  | none, j => k = 1 ∧ j = 0
  | some i, j => j < k ∧ (i = j ∨ i = (j : ℤ) - k)

/-- The initial standard deviations that the arguments describe: the radius of a vector is its norm. -/
def Covers (n : ℕ) (stdev : Option Stdev) (radius : Option ℝ) (v : List ℝ) : Prop :=
  match stdev, radius with
  | some (.scalar x), none => v = List.replicate n x
  | some (.vector w), none => v = w ∧ w.length = n
  | none, some r => v = List.replicate n (Real.sqrt (r ^ 2 / n))
  | _, _ => False

/-- The initial center: what was given, a scalar being repeated; otherwise what the problem generated. -/
def Starts (p : Problem) (n : ℕ) (center : Option Stdev) (v : List ℝ) : Prop :=
  match center with
  | none => v = p.generated
  | some (.scalar x) => v = List.replicate n x
  | some (.vector w) => v = w ∧ w.length = n

/-- What is the same for the four algorithms. -/
structure Common (p : Problem) (n : ℕ) (stdev : Option Stdev) (radius : Option ℝ) (center : Option Stdev) (numInteractions popsizeMax : Option ℤ)
    (optimizer : OptArg) (config : Option Config) (objIndex : Option ℤ) (distributed : Bool) (weighted : Option Bool) (s : Search) : Prop where
  covers : Covers n stdev radius s.stdev
  starts : Starts p n center s.center
  objective : NamesObjective p.numObjs objIndex s.objIndex
  interactions : s.numInteractions = numInteractions
  limit : s.popsizeMax = popsizeMax
  opt : initOptimizer s.centerRate optimizer config = .ok s.optimizer
  remote : s.remote = true ↔ distributed = true ∧ 0 < p.numActors
  weight : s.weighted = weighted.getD numInteractions.isNone
  weightOnly : weighted ≠ none → distributed = true
  popsizeReported : s.reportsPopsize = true ↔ distributed = false ∧ numInteractions ≠ none
  populationReported : s.reportsPopulation = true ↔ distributed = false

/-! ### The constructor they share -/

theorem expand_ok {n : ℕ} {x : Stdev} {v : List ℝ} (h : x.expand n = .ok v) : Fits n (some x) ∧
    v = (match x with | .scalar y => List.replicate n y | .vector w => w) := by
  cases x with
  | scalar y => simp only [Stdev.expand, Except.ok.injEq] at h; exact ⟨trivial, h.symm⟩
  | vector w =>
    simp only [Stdev.expand] at h
    split at h
    · cases h
    · rename_i hw
      simp only [Except.ok.injEq] at h
      exact ⟨by simpa [Fits] using hw, h.symm⟩

theorem expand_of_fits {n : ℕ} {x : Stdev} (h : Fits n (some x)) : ∃ v, x.expand n = .ok v := by
  cases x with
  | scalar y => exact ⟨_, rfl⟩
  | vector w => exact ⟨w, by simp [Stdev.expand, show w.length = n from h]⟩

theorem keepScalar_ok {n : ℕ} {x y : Option Stdev} : keepScalar n x = .ok y ↔ Fits n x ∧ y = x := by
  cases x with
  | none => simp [keepScalar, Fits, eq_comm]
  | some x =>
    cases x with
    | scalar z => simp [keepScalar, Fits, eq_comm]
    | vector w =>
      simp only [keepScalar, Fits]
      split
      · rename_i h; simp [h]
      · rename_i h; simp only [ne_eq, Decidable.not_not] at h; simp [h, eq_comm]

theorem normalizeObjIndex_ok {k j : ℕ} {i : Option ℤ} : normalizeObjIndex k i = .ok j ↔ NamesObjective k i j := by
  cases i with
  | none =>
    simp only [normalizeObjIndex, NamesObjective]
    split <;> simp_all [eq_comm]
  | some i =>
    simp only [normalizeObjIndex, NamesObjective]
    by_cases hi : i < 0
    · rw [if_pos hi]
      by_cases h : (k : ℤ) + i < 0 ∨ (k : ℤ) + i ≥ k
      · rw [if_pos h]
        constructor
        · intro h'; cases h'
        · omega
      · rw [if_neg h]
        simp only [Except.ok.injEq]
        omega
    · rw [if_neg hi]
      by_cases h : i < 0 ∨ i ≥ k
      · rw [if_pos h]
        constructor
        · intro h'; cases h'
        · omega
      · rw [if_neg h]
        simp only [Except.ok.injEq]
        omega

theorem toStdev_ok {n : ℕ} (hn : 0 < n) {sd : Option Stdev} {r : Option ℝ} {x : Stdev} {v : List ℝ} (h : toStdevInit n sd r = .ok x)
    (hx : x.expand n = .ok v) : Covers n sd r v := by
  have hv := expand_ok hx
  unfold toStdevInit at h
  split at h
  · simp only [Except.ok.injEq] at h; subst h
    rename_i s
    cases s with
    | scalar y => exact hv.2
    | vector w => exact ⟨hv.2, hv.1⟩
  · split at h
    · omega
    · simp only [Except.ok.injEq] at h; subst h; exact hv.2
  · cases h
  · cases h

/-- Everything the shared constructor checks, and everything it stores. -/
theorem construct_ok {p : Problem} {n : ℕ} (hl : p.len = some n) (hn : 0 < n) {a : Args} {s : Search} (h : construct p a = .ok s) :
    p.numeric = true ∧ p.bounded = false ∧ (a.even = true → a.distributed = false → a.popsize % 2 = 0) ∧
    Common p n a.stdev a.radius a.center a.numInteractions a.popsizeMax a.optimizer a.config a.objIndex a.distributed a.weighted s ∧
    Fits n a.stdevMin ∧ Fits n a.stdevMax ∧ Fits n a.stdevMaxChange ∧
    s.stdevMin = a.stdevMin ∧ s.stdevMax = a.stdevMax ∧ s.stdevMaxChange = a.stdevMaxChange ∧
    s.popsize = a.popsize ∧ s.centerRate = a.centerRate ∧ s.stdevRate = a.stdevRate ∧ s.ranking = a.ranking ∧ s.dist = a.dist ∧
    s.divideBy = a.divideBy ∧ s.parenthood = a.parenthood := by
  unfold construct at h
  simp only [hl, Option.getD_some, bind, Except.bind, pure, Except.pure] at h
  by_cases h1 : p.numeric = true
  swap
  · simp [h1] at h
  by_cases h2 : p.bounded = true
  · simp [h1, h2] at h
  simp only [h1, h2, Bool.not_true, Bool.false_eq_true, if_false] at h
  by_cases h3 : (!a.distributed && a.even && a.popsize % 2 != 0) = true
  · rw [if_pos h3] at h; cases h
  rw [if_neg h3] at h
  cases hc : startCenter p n a.center with
  | error e => rw [hc] at h; cases h
  | ok center =>
  rw [hc] at h; simp only at h
  cases hg : toStdevInit n a.stdev a.radius with
  | error e => rw [hg] at h; cases h
  | ok given =>
  rw [hg] at h; simp only at h
  cases hs : given.expand n with
  | error e => rw [hs] at h; cases h
  | ok stdev =>
  rw [hs] at h; simp only at h
  cases ho : initOptimizer a.centerRate a.optimizer a.config with
  | error e => rw [ho] at h; cases h
  | ok opt =>
  rw [ho] at h; simp only at h
  cases hmn : keepScalar n a.stdevMin with
  | error e => rw [hmn] at h; cases h
  | ok mn =>
  rw [hmn] at h; simp only at h
  cases hmx : keepScalar n a.stdevMax with
  | error e => rw [hmx] at h; cases h
  | ok mx =>
  rw [hmx] at h; simp only at h
  cases hch : keepScalar n a.stdevMaxChange with
  | error e => rw [hch] at h; cases h
  | ok ch =>
  rw [hch] at h; simp only at h
  cases hob : normalizeObjIndex p.numObjs a.objIndex with
  | error e => rw [hob] at h; cases h
  | ok ob =>
  rw [hob] at h; simp only at h
  cases hw : weightedAverage a.distributed a.numInteractions a.weighted with
  | error e => rw [hw] at h; cases h
  | ok w =>
  rw [hw] at h; simp only [Except.ok.injEq] at h
  obtain ⟨f1, e1⟩ := keepScalar_ok.mp hmn
  obtain ⟨f2, e2⟩ := keepScalar_ok.mp hmx
  obtain ⟨f3, e3⟩ := keepScalar_ok.mp hch
  subst h
  refine ⟨h1, by simpa using h2, ?_, ?_, f1, f2, f3, e1, e2, e3, rfl, rfl, rfl, rfl, rfl, rfl, rfl⟩
  · intro he hd
    simpa [he, hd] using h3
  · refine ⟨toStdev_ok hn hg hs, ?_, normalizeObjIndex_ok.mp hob, rfl, rfl, ho, ?_, ?_, ?_, ?_, ?_⟩
    · show Starts p n a.center center
      cases hcen : a.center with
      | none => rw [hcen] at hc; simp only [startCenter, Except.ok.injEq] at hc; exact hc.symm
      | some c =>
        rw [hcen] at hc; simp only [startCenter] at hc
        have := expand_ok hc
        cases c with
        | scalar y => exact this.2
        | vector v => exact ⟨this.2, this.1⟩
    · simp
    · show w = _
      cases hwe : a.weighted with
      | none => rw [hwe] at hw; simp only [weightedAverage, Except.ok.injEq] at hw; simp [hw]
      | some x =>
        rw [hwe] at hw; simp only [weightedAverage] at hw
        split at hw
        · cases hw
        · simp only [Except.ok.injEq] at hw; simp [hw]
    · intro hne
      cases hwe : a.weighted with
      | none => exact absurd hwe hne
      | some x =>
        rw [hwe] at hw; simp only [weightedAverage] at hw
        cases hd : a.distributed with
        | true => rfl
        | false => rw [hd] at hw; cases hw
    · simp [Option.isSome_iff_ne_none]
    · simp

/-- When the shared constructor accepts its arguments. -/
theorem construct_accepts (p : Problem) (n : ℕ) (hl : p.len = some n) (hn : 0 < n) (a : Args) :
    (∃ s, construct p a = .ok s) ↔
      p.numeric = true ∧ p.bounded = false ∧ (a.even = true → a.distributed = false → a.popsize % 2 = 0) ∧
      Fits n a.center ∧ OneCoverage a.stdev a.radius ∧ Fits n a.stdev ∧ (∃ o, initOptimizer a.centerRate a.optimizer a.config = .ok o) ∧
      Fits n a.stdevMin ∧ Fits n a.stdevMax ∧ Fits n a.stdevMaxChange ∧ (∃ j, NamesObjective p.numObjs a.objIndex j) ∧
      (a.weighted ≠ none → a.distributed = true) := by
  constructor
  · rintro ⟨s, h⟩
    obtain ⟨h1, h2, h3, c, f1, f2, f3, -, -, -, -, hr, -⟩ := construct_ok hl hn h
    have hcov := c.covers
    have hst := c.starts
    refine ⟨h1, h2, h3, ?_, ?_, ?_, ⟨_, by rw [← hr]; exact c.opt⟩, f1, f2, f3, ⟨_, c.objective⟩, c.weightOnly⟩
    · unfold Starts at hst
      unfold Fits
      split
      · rename_i v hv; rw [hv] at hst; exact hst.2
      · trivial
    · unfold Covers at hcov
      split at hcov <;> simp_all [OneCoverage]
    · unfold Covers at hcov
      unfold Fits
      split
      · rename_i v hv; rw [hv] at hcov
        cases hr' : a.radius with
        | none => rw [hr'] at hcov; exact hcov.2
        | some r => rw [hr'] at hcov; exact hcov.elim
      · trivial
  · rintro ⟨h1, h2, h3, hc, hone, hf, ⟨o, ho⟩, f1, f2, f3, ⟨j, hj⟩, hw⟩
    obtain ⟨x, hx, v, hv⟩ : ∃ x, toStdevInit n a.stdev a.radius = .ok x ∧ ∃ v, x.expand n = .ok v := by
      cases hs : a.stdev with
      | none =>
        cases hr : a.radius with
        | none => simp [OneCoverage, hs, hr] at hone
        | some r => exact ⟨.scalar (Real.sqrt (r ^ 2 / n)), by simp only [toStdevInit]; rw [if_neg (by omega)], expand_of_fits (x := .scalar _) trivial⟩
      | some sd =>
        cases hr : a.radius with
        | none => exact ⟨sd, rfl, expand_of_fits (by rw [← hs]; exact hf)⟩
        | some r => simp [OneCoverage, hs, hr] at hone
    obtain ⟨ce, hce⟩ : ∃ ce, startCenter p n a.center = .ok ce := by
      cases hcen : a.center with
      | none => exact ⟨_, rfl⟩
      | some c => exact expand_of_fits (by rw [← hcen]; exact hc)
    obtain ⟨w, hww⟩ : ∃ w, weightedAverage a.distributed a.numInteractions a.weighted = .ok w := by
      cases hwe : a.weighted with
      | none => exact ⟨_, rfl⟩
      | some x => exact ⟨x, by simp [weightedAverage, hw (by simp [hwe])]⟩
    have h3' : ¬ (!a.distributed && a.even && a.popsize % 2 != 0) = true := by
      intro hh
      simp only [Bool.and_eq_true, Bool.not_eq_true', bne_iff_ne, ne_eq] at hh
      exact hh.2 (h3 hh.1.2 hh.1.1)
    unfold construct
    simp only [hl, Option.getD_some, bind, Except.bind, pure, Except.pure, h1, h2, Bool.not_true, Bool.false_eq_true, if_false]
    rw [if_neg h3']
    rw [hce]; simp only
    rw [hx]; simp only
    rw [hv]; simp only
    rw [ho]; simp only
    rw [keepScalar_ok.mpr ⟨f1, rfl⟩, keepScalar_ok.mpr ⟨f2, rfl⟩, keepScalar_ok.mpr ⟨f3, rfl⟩]; simp only
    rw [normalizeObjIndex_ok.mpr hj]; simp only
    rw [hww]
    exact ⟨_, rfl⟩

/-! ### The algorithms -/

/-- **C126.** `PGPE` accepts exactly the arguments it documents: a numeric and unbounded problem, an even population size when it samples symmetrically
and is not distributed, exactly one of `stdev_init` and `radius_init`, vectors of the solution length, a valid objective, an optimiser that can be
made, and `popsize_weighted_grad_avg` only when it is distributed. -/
theorem C126_pgpe_accepts (p : Problem) (n : ℕ) (hl : p.len = some n) (hn : 0 < n) (a : PGPEArgs) :
    (∃ s, pgpe p a = .ok s) ↔
      p.numeric = true ∧ p.bounded = false ∧ (a.symmetric = true → a.distributed = false → a.popsize % 2 = 0) ∧
      Fits n a.center ∧ OneCoverage a.stdev a.radius ∧ Fits n a.stdev ∧ (∃ o, initOptimizer a.centerRate a.optimizer a.config = .ok o) ∧
      Fits n a.stdevMin ∧ Fits n a.stdevMax ∧ Fits n a.stdevMaxChange ∧ (∃ j, NamesObjective p.numObjs a.objIndex j) ∧
      (a.weighted ≠ none → a.distributed = true) :=
  construct_accepts p n hl hn _

/-- **C126.** A `PGPE` is configured as documented. -/
theorem C126_pgpe (p : Problem) (n : ℕ) (hl : p.len = some n) (hn : 0 < n) (a : PGPEArgs) (s : Search) (h : pgpe p a = .ok s) :
    Common p n a.stdev a.radius a.center a.numInteractions a.popsizeMax a.optimizer a.config a.objIndex a.distributed a.weighted s ∧
    s.popsize = a.popsize ∧ s.centerRate = a.centerRate ∧ s.stdevRate = a.stdevRate ∧ s.ranking = a.ranking ∧
    s.stdevMin = a.stdevMin ∧ s.stdevMax = a.stdevMax ∧ s.stdevMaxChange = a.stdevMaxChange ∧ s.parenthood = none ∧
    (a.symmetric = true → s.dist = .symmetric ∧ s.divideBy = some "num_directions") ∧
    (a.symmetric = false → s.dist = .separable ∧ s.divideBy = some "num_solutions") := by
  obtain ⟨-, -, -, c, -, -, -, e1, e2, e3, e4, e5, e6, e7, e8, e9, e10⟩ := construct_ok hl hn h
  refine ⟨c, e4, e5, e6, e7, e1, e2, e3, e10, ?_, ?_⟩
  · intro hs; simp only [hs, if_true] at e8 e9; exact ⟨e8, e9⟩
  · intro hs; simp only [hs, Bool.false_eq_true, if_false] at e8 e9; exact ⟨e8, e9⟩

theorem nesPopsize_ok {p : Problem} {n : ℕ} (hl : p.len = some n) (hn : 0 < n) (k : Option ℤ) :
    nesPopsize p k = .ok (k.getD (4 + ⌊3 * Real.log n⌋)) := by
  cases k with
  | some k => rfl
  | none => simp [nesPopsize, logLen, hl, bind, Except.bind, Nat.ne_of_gt hn]

/-- The rate of the standard deviation that the arguments ask for, the default being `d`. -/
noncomputable def wantedRate (d : ℝ) (scale : Bool) : Option ℝ → ℝ
  | none => d
  | some r => if scale then r * d else r

theorem nesRate_ok (d : ℝ) (scale : Bool) (r : Option ℝ) : nesRate (.ok d) scale r = .ok (wantedRate d scale r) := by
  cases r with
  | none => rfl
  | some r => simp only [nesRate, wantedRate]; split <;> rfl

theorem snesDefault_ok {p : Problem} {n : ℕ} (hl : p.len = some n) (hn : 0 < n) :
    snesDefault p = .ok (0.2 * (3 + Real.log n) / Real.sqrt n) := by
  simp only [snesDefault, logLen, hl, Nat.ne_of_gt hn, if_false, Except.map, Option.getD_some]
  norm_num

theorem xnesDefault_ok {p : Problem} {n : ℕ} (hl : p.len = some n) (hn : 0 < n) :
    xnesDefault p = .ok (0.6 * (3 + Real.log n) / (n * Real.sqrt n)) := by
  simp only [xnesDefault, logLen, hl, Nat.ne_of_gt hn, if_false, Except.map, Option.getD_some]
  norm_num

/-- **C126.** A `SNES` is configured as documented: population size `4 + floor(3 log n)`, rate `0.2 (3 + log n) / sqrt n`, which scales the given rate
unless told otherwise. -/
theorem C126_snes (p : Problem) (n : ℕ) (hl : p.len = some n) (hn : 0 < n) (a : NESArgs) (s : Search) (h : snes p a = .ok s) :
    Common p n a.stdev a.radius a.center a.numInteractions a.popsizeMax a.optimizer a.config a.objIndex a.distributed a.weighted s ∧
    s.popsize = a.popsize.getD (4 + ⌊3 * Real.log n⌋) ∧ s.centerRate = a.centerRate.getD 1 ∧
    s.stdevRate = wantedRate (0.2 * (3 + Real.log n) / Real.sqrt n) a.scale a.stdevRate ∧ s.ranking = a.ranking ∧
    s.stdevMin = a.stdevMin ∧ s.stdevMax = a.stdevMax ∧ s.stdevMaxChange = a.stdevMaxChange ∧ s.parenthood = none ∧
    s.dist = .expSeparable ∧ s.divideBy = none := by
  simp only [snes, bind, Except.bind, nesPopsize_ok hl hn, snesDefault_ok hl hn, nesRate_ok] at h
  obtain ⟨-, -, -, c, -, -, -, e1, e2, e3, e4, e5, e6, e7, e8, e9, e10⟩ := construct_ok hl hn h
  exact ⟨c, e4, e5, e6, e7, e1, e2, e3, e10, e8, e9⟩

/-- **C126.** `XNES` is configured as documented: the same population size, rate `0.6 (3 + log n) / (n sqrt n)`, no limits on the standard deviation. -/
theorem C126_xnes (p : Problem) (n : ℕ) (hl : p.len = some n) (hn : 0 < n) (a : NESArgs) (s : Search) (h : xnes p a = .ok s) :
    Common p n a.stdev a.radius a.center a.numInteractions a.popsizeMax a.optimizer a.config a.objIndex a.distributed a.weighted s ∧
    s.popsize = a.popsize.getD (4 + ⌊3 * Real.log n⌋) ∧ s.centerRate = a.centerRate.getD 1 ∧
    s.stdevRate = wantedRate (0.6 * (3 + Real.log n) / (n * Real.sqrt n)) a.scale a.stdevRate ∧ s.ranking = a.ranking ∧
    s.stdevMin = none ∧ s.stdevMax = none ∧ s.stdevMaxChange = none ∧ s.parenthood = none ∧ s.dist = .exponential ∧ s.divideBy = none := by
  simp only [xnes, bind, Except.bind, nesPopsize_ok hl hn, xnesDefault_ok hl hn, nesRate_ok] at h
  obtain ⟨-, -, -, c, -, -, -, e1, e2, e3, e4, e5, e6, e7, e8, e9, e10⟩ := construct_ok hl hn h
  exact ⟨c, e4, e5, e6, e7, e1, e2, e3, e10, e8, e9⟩

/-- **C126.** `SNES` accepts every population size, odd or even, and otherwise what PGPE accepts. -/
theorem C126_snes_accepts (p : Problem) (n : ℕ) (hl : p.len = some n) (hn : 0 < n) (a : NESArgs) :
    (∃ s, snes p a = .ok s) ↔
      p.numeric = true ∧ p.bounded = false ∧
      Fits n a.center ∧ OneCoverage a.stdev a.radius ∧ Fits n a.stdev ∧ (∃ o, initOptimizer (a.centerRate.getD 1) a.optimizer a.config = .ok o) ∧
      Fits n a.stdevMin ∧ Fits n a.stdevMax ∧ Fits n a.stdevMaxChange ∧ (∃ j, NamesObjective p.numObjs a.objIndex j) ∧
      (a.weighted ≠ none → a.distributed = true) := by
  simp only [snes, bind, Except.bind, nesPopsize_ok hl hn, snesDefault_ok hl hn, nesRate_ok]
  rw [construct_accepts p n hl hn]
  simp

/-- **C126.** `XNES` likewise. -/
theorem C126_xnes_accepts (p : Problem) (n : ℕ) (hl : p.len = some n) (hn : 0 < n) (a : NESArgs) :
    (∃ s, xnes p a = .ok s) ↔
      p.numeric = true ∧ p.bounded = false ∧
      Fits n a.center ∧ OneCoverage a.stdev a.radius ∧ Fits n a.stdev ∧ (∃ o, initOptimizer (a.centerRate.getD 1) a.optimizer a.config = .ok o) ∧
      (∃ j, NamesObjective p.numObjs a.objIndex j) ∧ (a.weighted ≠ none → a.distributed = true) := by
  simp only [xnes, bind, Except.bind, nesPopsize_ok hl hn, xnesDefault_ok hl hn, nesRate_ok]
  rw [construct_accepts p n hl hn]
  simp [Fits]

/-- **C126.** A `CEM` is configured as documented: both rates 1, no optimiser, no ranking, the given ratio of parents. -/
theorem C126_cem (p : Problem) (n : ℕ) (hl : p.len = some n) (hn : 0 < n) (a : CEMArgs) (s : Search) (h : cem p a = .ok s) :
    Common p n a.stdev a.radius a.center a.numInteractions a.popsizeMax .none none a.objIndex a.distributed a.weighted s ∧
    s.popsize = a.popsize ∧ s.centerRate = 1 ∧ s.stdevRate = 1 ∧ s.ranking = none ∧ s.optimizer = none ∧
    s.stdevMin = a.stdevMin ∧ s.stdevMax = a.stdevMax ∧ s.stdevMaxChange = a.stdevMaxChange ∧ s.parenthood = some a.parenthood ∧
    s.dist = .separable ∧ s.divideBy = none := by
  obtain ⟨-, -, -, c, -, -, -, e1, e2, e3, e4, e5, e6, e7, e8, e9, e10⟩ := construct_ok hl hn h
  have := c.opt
  simp only [initOptimizer, Except.ok.injEq] at this
  exact ⟨c, e4, e5, e6, e7, this.symm, e1, e2, e3, e10, e8, e9⟩

/-- **C126.** `CEM` accepts what the others accept, for every ratio of parents. -/
theorem C126_cem_accepts (p : Problem) (n : ℕ) (hl : p.len = some n) (hn : 0 < n) (a : CEMArgs) :
    (∃ s, cem p a = .ok s) ↔
      p.numeric = true ∧ p.bounded = false ∧ Fits n a.center ∧ OneCoverage a.stdev a.radius ∧ Fits n a.stdev ∧
      Fits n a.stdevMin ∧ Fits n a.stdevMax ∧ Fits n a.stdevMaxChange ∧ (∃ j, NamesObjective p.numObjs a.objIndex j) ∧
      (a.weighted ≠ none → a.distributed = true) := by
  rw [cem, construct_accepts p n hl hn]
  simp [initOptimizer]

/-- **C126.** The defaults are sound for every solution length: at least four solutions, never fewer for a longer solution; a positive rate, and asking
for the rate 1 with scaling is the default. -/
theorem C126_defaults (n m : ℕ) (hn : 0 < n) (hm : n ≤ m) :
    4 ≤ 4 + ⌊3 * Real.log n⌋ ∧ 4 + ⌊3 * Real.log n⌋ ≤ 4 + ⌊3 * Real.log m⌋ ∧ 0 < 0.2 * (3 + Real.log n) / Real.sqrt n ∧
    0 < 0.6 * (3 + Real.log n) / (n * Real.sqrt n) ∧ ∀ d, wantedRate d true (some 1) = wantedRate d true none := by
  have hpos : (0 : ℝ) < n := by exact_mod_cast hn
  have hlog : 0 ≤ Real.log n := Real.log_natCast_nonneg n
  refine ⟨?_, ?_, ?_, ?_, ?_⟩
  · have : 0 ≤ ⌊3 * Real.log n⌋ := Int.floor_nonneg.mpr (by linarith)
    omega
  · have hle : Real.log n ≤ Real.log m := Real.log_le_log hpos (by exact_mod_cast hm)
    have : ⌊3 * Real.log n⌋ ≤ ⌊3 * Real.log m⌋ := Int.floor_le_floor (by linarith)
    omega
  · have := Real.sqrt_pos.mpr hpos
    positivity
  · have := Real.sqrt_pos.mpr hpos
    positivity
  · intro d; simp [wantedRate]

/-! ### Optimisers -/

theorem lookup_update (c : Config) (lr : ℝ) (k : String) (hk : k ∉ ["stepsize", "dtype", "solution_length", "device"]) :
    (update c.kwargs (algoKwargs lr)).lookup k = c.kwargs.lookup k := by
  simp only [List.mem_cons, List.not_mem_nil, or_false, not_or] at hk
  have hap : ∀ (l : Kwargs), (algoKwargs lr ++ l).lookup k = l.lookup k := by
    intro l
    simp only [algoKwargs, List.cons_append, List.nil_append, List.lookup_cons]
    simp [beq_eq_false_iff_ne.mpr hk.1, beq_eq_false_iff_ne.mpr hk.2.1, beq_eq_false_iff_ne.mpr hk.2.2.1, beq_eq_false_iff_ne.mpr hk.2.2.2]
  rw [update, hap]
  generalize c.kwargs = l
  induction l with
  | nil => rfl
  | cons kv l ih =>
    rw [List.filter_cons]
    split
    · rw [List.lookup_cons, List.lookup_cons, ih]
    · rename_i hf
      rw [ih, List.lookup_cons]
      have : (k == kv.1) = false := by
        apply beq_eq_false_iff_ne.mpr
        rintro rfl
        simp [algoKwargs, hk.1, hk.2.1, hk.2.2.1, hk.2.2.2] at hf
      rw [this]

theorem lookup_stepsize (c : Config) (lr : ℝ) : (update c.kwargs (algoKwargs lr)).lookup "stepsize" = some (.num lr) := by
  simp [update, algoKwargs]

theorem kwargs_lookup (c : Config) (k : String) :
    c.kwargs.lookup k = (c.lookup k).map fun x => match x with | some x => V.num x | none => V.none := by
  induction c with
  | nil => rfl
  | cons kv c ih =>
    obtain ⟨k', v⟩ := kv
    have e1 : List.lookup k (Config.kwargs ((k', v) :: c)) =
        (match k == k' with | true => some (match v with | some x => V.num x | none => V.none) | false => (Config.kwargs c).lookup k) := by
      simp only [Config.kwargs, List.map_cons, List.lookup_cons]
      cases k == k' <;> rfl
    have e2 : List.lookup k ((k', v) :: c) = (match k == k' with | true => some v | false => c.lookup k) := List.lookup_cons
    rw [e1, e2]
    cases k == k' with
    | true => rfl
    | false => exact ih

/-- The number configured under a name, if there is one. -/
def configured (c : Config) (k : String) : Option ℝ := (c.lookup k).join

/-- The flag configured under a name. -/
noncomputable def configuredFlag (c : Config) (k : String) : Option Bool := by
  classical exact (configured c k).map fun x => decide (x ≠ 0)

theorem float_lookup (c : Config) (k : String) : V.float? (c.kwargs.lookup k) = .ok (configured c k) := by
  rw [kwargs_lookup, configured]
  cases c.lookup k with
  | none => rfl
  | some x => cases x <;> rfl

theorem bool_lookup (c : Config) (k : String) : V.bool? (c.kwargs.lookup k) = configuredFlag c k := by
  rw [kwargs_lookup, configuredFlag, configured]
  cases c.lookup k with
  | none => rfl
  | some x => cases x <;> rfl

/-- Every name in the configuration is one that the optimiser knows. -/
def KnownNames (cls : Cls) (c : Config) : Prop := ∀ kv ∈ c, kv.1 ∈ signature cls

theorem all_names (cls : Cls) (c : Config) (lr : ℝ) :
    (update c.kwargs (algoKwargs lr)).all (fun kv => (signature cls).contains kv.1) = true ↔ KnownNames cls c := by
  have hsig : ∀ k ∈ ["stepsize", "dtype", "solution_length", "device"], k ∈ signature cls := by cases cls <;> simp [signature]
  constructor
  · intro h kv hkv
    by_cases hk : kv.1 ∈ ["stepsize", "dtype", "solution_length", "device"]
    · exact hsig _ hk
    · rw [List.all_eq_true] at h
      have := h (kv.1, match kv.2 with | some x => V.num x | none => V.none) (by
        rw [update, List.mem_append]
        right
        rw [List.mem_filter]
        refine ⟨List.mem_map.mpr ⟨kv, hkv, rfl⟩, ?_⟩
        simpa [algoKwargs] using hk)
      simpa using this
  · intro h
    rw [List.all_eq_true]
    intro kv hkv
    rw [update, List.mem_append] at hkv
    rcases hkv with hkv | hkv
    · have : kv.1 ∈ ["stepsize", "dtype", "solution_length", "device"] := by
        simp only [algoKwargs, List.mem_cons, List.not_mem_nil, or_false] at hkv
        rcases hkv with rfl | rfl | rfl | rfl <;> simp
      simpa using hsig _ this
    · obtain ⟨h1, -⟩ := List.mem_filter.mp hkv
      obtain ⟨kv', hm, rfl⟩ := List.mem_map.mp h1
      simpa using h kv' hm

/-- **C126.** ClipUp by name: the step size is the learning rate of the center, the momentum the configured one or 0.9, the maximum speed the configured one or
twice the learning rate. It is refused exactly when a name is unknown or a number is outside of its range, or the momentum is `None`. -/
theorem C126_clipup (lr : ℝ) (name : String) (hname : name ∈ ["clipsgd", "clipsga", "clipup"]) (c : Config) (o : Option Opt) :
    initOptimizer lr (.name name) (some c) = .ok o ↔
      KnownNames .clipup c ∧ c.lookup "momentum" ≠ some none ∧ 0 ≤ lr ∧ 0 ≤ (configured c "momentum").getD 0.9 ∧
      (configured c "momentum").getD 0.9 ≤ 1 ∧ 0 ≤ (configured c "max_speed").getD (2 * lr) ∧
      o = some (.clipup lr ((configured c "momentum").getD 0.9) ((configured c "max_speed").getD (2 * lr))) := by
  have h9 : (0.9 : ℝ) = 9 / 10 := by norm_num
  simp only [initOptimizer, classOf, hname, if_true, bind, Except.bind, instantiate, all_names, h9]
  by_cases hk : KnownNames .clipup c
  swap
  · rw [if_neg (by rw [all_names]; exact hk)]; simp [hk, Except.map]
  simp only [hk, if_true, true_and, newClipUp, all_names, bind, Except.bind, lookup_stepsize, V.floatOr, V.float]
  rw [lookup_update c lr "momentum" (by decide), lookup_update c lr "max_speed" (by decide), float_lookup, kwargs_lookup]
  have h2 : lr * 2 = 2 * lr := by ring
  cases hm : c.lookup "momentum" with
  | none =>
    have hm' : configured c "momentum" = none := by simp [configured, hm]
    simp only [Option.map_none, hm', h2, Option.getD_none]
    split
    · rename_i h; simp [Except.map]; intro h'; linarith
    · split
      · rename_i h; norm_num at h
      · split
        · rename_i h; simp [Except.map]; intro _ _ _ h'; linarith
        · rename_i h1 h2 h3
          simp only [Except.map, Except.ok.injEq, not_lt] at *
          constructor
          · intro h; exact ⟨by simp, h1, by norm_num, by norm_num, h3, h.symm⟩
          · rintro ⟨-, -, -, -, -, h⟩; exact h.symm
  | some x =>
    cases x with
    | none => simp [Except.map]
    | some x =>
      have hm' : configured c "momentum" = some x := by simp [configured, hm]
      simp only [Option.map_some, hm', h2, Option.getD_some]
      split
      · rename_i h; simp [Except.map]; intro h'; linarith
      · split
        · rename_i h; simp [Except.map]; intro _ h1 h2; rcases h with h | h <;> linarith
        · split
          · rename_i h; simp [Except.map]; intro _ _ _ h'; linarith
          · rename_i h1 h2 h3
            simp only [Except.map, Except.ok.injEq, not_lt, not_or] at *
            constructor
            · intro h; exact ⟨by simp, h1, h2.1, h2.2, h3, h.symm⟩
            · rintro ⟨-, -, -, -, -, h⟩; exact h.symm

/-- **C126.** Adam by name: the step size is the learning rate of the center; both betas or none. -/
theorem C126_adam (lr : ℝ) (c : Config) (o : Option Opt) :
    initOptimizer lr (.name "adam") (some c) = .ok o ↔
      KnownNames .adam c ∧ ((configured c "beta1").isSome = (configured c "beta2").isSome) ∧
      o = some (.adam (some lr) ((configured c "beta1").bind fun a => (configured c "beta2").map fun b => (a, b)) (configured c "epsilon")
        (configuredFlag c "amsgrad")) := by
  have hcls : classOf "adam" = .ok .adam := by decide
  simp only [initOptimizer, hcls, bind, Except.bind, instantiate]
  by_cases hk : KnownNames .adam c
  swap
  · rw [if_neg (by rw [all_names]; exact hk)]; simp [hk, Except.map]
  simp only [hk, if_true, true_and, newAdam, all_names, bind, Except.bind, lookup_stepsize]
  rw [lookup_update c lr "beta1" (by decide), lookup_update c lr "beta2" (by decide), lookup_update c lr "epsilon" (by decide),
    lookup_update c lr "amsgrad" (by decide), float_lookup, float_lookup, float_lookup, bool_lookup]
  simp only [V.float?, V.float, Except.map]
  cases configured c "beta1" <;> cases configured c "beta2" <;> simp [bothBetas, eq_comm]

/-- **C126.** What is refused, how: an unknown name with a TypeError; with known names, a negative step size, a momentum outside of `[0, 1]`, a negative maximum speed,
or one beta without the other, with a ValueError; a momentum of `None` with a TypeError. -/
theorem C126_refusals (lr : ℝ) (name : String) (hname : name ∈ ["clipsgd", "clipsga", "clipup"]) (c : Config) :
    (¬ KnownNames .clipup c → initOptimizer lr (.name name) (some c) = .error .typeError) ∧
    (KnownNames .clipup c → c.lookup "momentum" = some none → initOptimizer lr (.name name) (some c) = .error .typeError) ∧
    (KnownNames .clipup c → c.lookup "momentum" ≠ some none →
      (lr < 0 ∨ (configured c "momentum").getD 0.9 < 0 ∨ 1 < (configured c "momentum").getD 0.9 ∨ (configured c "max_speed").getD (2 * lr) < 0) →
      initOptimizer lr (.name name) (some c) = .error .valueError) ∧
    (¬ KnownNames .adam c → initOptimizer lr (.name "adam") (some c) = .error .typeError) ∧
    (KnownNames .adam c → (configured c "beta1").isSome ≠ (configured c "beta2").isSome →
      initOptimizer lr (.name "adam") (some c) = .error .valueError) := by
  have h9 : (0.9 : ℝ) = 9 / 10 := by norm_num
  have hcls : classOf "adam" = .ok .adam := by decide
  have h2 : lr * 2 = 2 * lr := by ring
  refine ⟨fun hk => ?_, fun hk hm => ?_, fun hk hm hr => ?_, fun hk => ?_, fun hk hb => ?_⟩
  · simp only [initOptimizer, classOf, hname, if_true, bind, Except.bind, instantiate]
    rw [if_neg (by rw [all_names]; exact hk)]; rfl
  · simp only [initOptimizer, classOf, hname, if_true, bind, Except.bind, instantiate, hk, newClipUp, all_names, lookup_stepsize, V.floatOr, V.float]
    rw [lookup_update c lr "momentum" (by decide), kwargs_lookup, hm]
    rfl
  · simp only [initOptimizer, classOf, hname, if_true, bind, Except.bind, instantiate, hk, newClipUp, all_names, lookup_stepsize, V.floatOr, V.float]
    rw [lookup_update c lr "momentum" (by decide), lookup_update c lr "max_speed" (by decide), float_lookup, kwargs_lookup]
    rw [h9] at hr
    cases hm' : c.lookup "momentum" with
    | none =>
      have h' : configured c "momentum" = none := by simp [configured, hm']
      simp only [Option.map_none, h', h2, Option.getD_none] at hr ⊢
      rcases hr with h | h | h | h
      · rw [if_pos h]; rfl
      · norm_num at h
      · norm_num at h
      · split
        · rfl
        · split
          · rfl
          · first | rfl | (rw [if_pos h]; rfl)
    | some x =>
      cases x with
      | none => exact absurd hm' hm
      | some x =>
        have h' : configured c "momentum" = some x := by simp [configured, hm']
        simp only [Option.map_some, h', h2, Option.getD_some] at hr ⊢
        rcases hr with h | h | h | h
        · rw [if_pos h]; rfl
        · split
          · rfl
          · rw [if_pos (Or.inl h)]; rfl
        · split
          · rfl
          · rw [if_pos (Or.inr h)]; rfl
        · split
          · rfl
          · split
            · rfl
            · first | rfl | (rw [if_pos h]; rfl)
  · simp only [initOptimizer, hcls, bind, Except.bind, instantiate]
    rw [if_neg (by rw [all_names]; exact hk)]; rfl
  · simp only [initOptimizer, hcls, bind, Except.bind, instantiate, hk, if_true, newAdam, all_names, lookup_stepsize]
    rw [lookup_update c lr "beta1" (by decide), lookup_update c lr "beta2" (by decide), float_lookup, float_lookup]
    simp only [V.float?, V.float, Except.map]
    cases h1 : configured c "beta1" <;> cases h2 : configured c "beta2" <;> simp_all [bothBetas]

/-- **C126.** SGD by name: the step size is the learning rate of the center. -/
theorem C126_sgd (lr : ℝ) (name : String) (hname : name = "sgd" ∨ name = "sga") (c : Config) (o : Option Opt) :
    initOptimizer lr (.name name) (some c) = .ok o ↔
      KnownNames .sgd c ∧ o = some (.sgd lr (configured c "momentum") (configured c "dampening") (configuredFlag c "nesterov")) := by
  have hcls : classOf name = .ok .sgd := by rcases hname with rfl | rfl <;> decide
  simp only [initOptimizer, hcls, bind, Except.bind, instantiate, all_names]
  by_cases hk : KnownNames .sgd c
  swap
  · rw [if_neg (by rw [all_names]; exact hk)]; simp [hk, Except.map]
  simp only [hk, if_true, true_and, newSGD, all_names, bind, Except.bind, lookup_stepsize, V.floatOr, V.float]
  rw [lookup_update c lr "momentum" (by decide), lookup_update c lr "dampening" (by decide), lookup_update c lr "nesterov" (by decide),
    float_lookup, float_lookup, bool_lookup]
  simp [Except.map, eq_comm]

/-- **C126.** No configuration is an empty one; no optimiser and an optimiser object are taken as they are, whatever the configuration. -/
theorem C126_no_config (lr : ℝ) (name : String) (id : ℕ) (config : Option Config) :
    initOptimizer lr (.name name) none = initOptimizer lr (.name name) (some []) ∧ initOptimizer lr .none config = .ok none ∧
    initOptimizer lr (.object id) config = .ok (some (.given id)) := by
  refine ⟨?_, rfl, rfl⟩
  simp [initOptimizer, update, Config.kwargs]

/-- **C126.** The names: other names are refused with a ValueError. The names that the class-based and the functional algorithms share mean the same optimiser. -/
theorem C126_names (s : String) :
    (classOf s = .error .valueError ↔ s ∉ ["clipsgd", "clipsga", "clipup", "adam", "sgd", "sga"]) ∧
    (functionalOf s = .error .valueError ↔ s ∉ ["clipup", "adam", "sgd", "sga", "momentum"]) ∧
    (∀ c d, classOf s = .ok c → functionalOf s = .ok d → c = d) ∧
    (s ∈ ["clipup", "adam", "sgd", "sga"] ↔ (∃ c, classOf s = .ok c) ∧ ∃ d, functionalOf s = .ok d) := by
  by_cases h : s ∈ ["clipsgd", "clipsga", "clipup", "adam", "sgd", "sga", "momentum"]
  · simp only [List.mem_cons, List.not_mem_nil, or_false] at h
    rcases h with rfl | rfl | rfl | rfl | rfl | rfl | rfl <;> simp [classOf, functionalOf]
  · simp only [List.mem_cons, List.not_mem_nil, or_false, not_or] at h
    simp [classOf, functionalOf, h]

/-! ### What the documentation says and the code does not do -/

/-- **C126.** (violated) "Configuration which will be passed to the optimizer as keyword arguments": a `stepsize` in it is accepted and ignored, the optimiser has the
learning rate of the center instead. -/
theorem C126_violated_config_stepsize (lr x : ℝ) :
    initOptimizer lr (.name "sgd") (some [("stepsize", some x)]) = .ok (some (.sgd lr none none none)) := by
  rw [C126_sgd lr "sgd" (Or.inl rfl)]
  refine ⟨?_, by simp [configured, configuredFlag, List.lookup]⟩
  intro kv hkv
  simp only [List.mem_cons, List.not_mem_nil, or_false] at hkv
  subst hkv
  simp [signature]

/-- A problem with three decision variables and no actors. -/
def exProblem : Problem := ⟨true, false, some 3, 0, 1, [1, 2, 3]⟩

theorem exClipup : initOptimizer 0.5 (.name "clipup") none = .ok (some (.clipup 0.5 0.9 1)) := by
  rw [(C126_no_config 0.5 "clipup" 0 none).1, C126_clipup 0.5 "clipup" (by simp)]
  refine ⟨by simp [KnownNames], by simp, by norm_num, ?_, ?_, ?_, ?_⟩ <;> simp [configured] <;> norm_num

/-- **C126.** (violated) PGPE "expects an even number in non-distributed mode": with `distributed=True` and a problem that has no actors, everything happens in the main
process, an odd population size is accepted, and drawing the first population fails. -/
theorem C126_violated_odd :
    ∃ s, pgpe exProblem { popsize := 5, centerRate := 0.5, stdevRate := 0.1, stdev := some (.scalar 1), distributed := true } = .ok s ∧
      s.remote = false ∧ drawFirst s = .error .valueError := by
  obtain ⟨s, hs⟩ := (C126_pgpe_accepts exProblem 3 rfl (by decide)
    { popsize := 5, centerRate := 0.5, stdevRate := 0.1, stdev := some (.scalar 1), distributed := true }).mpr
    ⟨rfl, rfl, by simp, trivial, by simp [OneCoverage], trivial, ⟨_, exClipup⟩, trivial, trivial, trivial, ⟨0, by simp [NamesObjective, exProblem]⟩, by simp⟩
  obtain ⟨c, hp, -, -, -, -, -, -, -, hd, -⟩ := C126_pgpe exProblem 3 rfl (by decide) _ s hs
  refine ⟨s, hs, ?_, ?_⟩
  · have := c.remote
    simpa [exProblem] using this
  · simp [drawFirst, hp, (hd rfl).1]

/-- **C126.** In non-distributed mode an accepted PGPE can always draw its first population. -/
theorem C126_draws_partial (p : Problem) (n : ℕ) (hl : p.len = some n) (hn : 0 < n) (a : PGPEArgs) (hd : a.distributed = false) (s : Search)
    (h : pgpe p a = .ok s) : drawFirst s = .ok () := by
  obtain ⟨-, hp, -, -, -, -, -, -, -, h1, h2⟩ := C126_pgpe p n hl hn a s h
  have he := (C126_pgpe_accepts p n hl hn a).mp ⟨s, h⟩
  unfold drawFirst
  cases hs : a.symmetric with
  | true =>
    rw [if_neg]
    rintro ⟨-, hne⟩
    exact hne (by rw [hp]; exact he.2.2.1 hs hd)
  | false => rw [if_neg]; rw [(h2 hs).1]; simp

/-- **C126.** (violated) A problem that is not numeric is refused, but SNES does so with the TypeError of a logarithm of `None` instead of the ValueError of the check,
unless the population size and the rate are given. -/
theorem C126_violated_not_numeric (p : Problem) (hl : p.len = none) (hn : p.numeric = false) (a : NESArgs) :
    snes p a = .error (if a.popsize = none ∨ a.stdevRate = none ∨ a.scale = true then .typeError else .valueError) := by
  cases hp : a.popsize with
  | none => simp [snes, nesPopsize, logLen, hl, hp, bind, Except.bind]
  | some k =>
    cases hr : a.stdevRate with
    | none => simp [snes, nesPopsize, nesRate, snesDefault, logLen, hl, hp, hr, bind, Except.bind, Except.map]
    | some r =>
      cases hsc : a.scale with
      | true => simp [snes, nesPopsize, nesRate, snesDefault, logLen, hl, hp, hr, hsc, bind, Except.bind, Except.map]
      | false => simp [snes, nesPopsize, nesRate, hp, hr, hsc, construct, hn, bind, Except.bind]

/-! Examples: each algorithm accepts a problem with its smallest set of arguments. -/
example : ∃ s, pgpe exProblem { popsize := 10, centerRate := 0.5, stdevRate := 0.1, stdev := some (.scalar 1) } = .ok s :=
  (C126_pgpe_accepts exProblem 3 rfl (by decide) _).mpr
    ⟨rfl, rfl, by simp, trivial, by simp [OneCoverage], trivial, ⟨_, exClipup⟩, trivial, trivial, trivial, ⟨0, by simp [NamesObjective, exProblem]⟩, by simp⟩
example : ∃ s, snes exProblem { radius := some 2 } = .ok s :=
  (C126_snes_accepts exProblem 3 rfl (by decide) _).mpr
    ⟨rfl, rfl, trivial, by simp [OneCoverage], trivial, ⟨none, rfl⟩, trivial, trivial, trivial, ⟨0, by simp [NamesObjective, exProblem]⟩, by simp⟩
example : ∃ s, xnes exProblem { stdev := some (.vector [1, 2, 3]), objIndex := some (-1) } = .ok s :=
  (C126_xnes_accepts exProblem 3 rfl (by decide) _).mpr
    ⟨rfl, rfl, trivial, by simp [OneCoverage], by simp [Fits], ⟨none, rfl⟩, ⟨0, by simp [NamesObjective, exProblem]⟩, by simp⟩
example : ∃ s, cem exProblem { popsize := 7, parenthood := 0.5, stdev := some (.scalar 1) } = .ok s :=
  (C126_cem_accepts exProblem 3 rfl (by decide) _).mpr
    ⟨rfl, rfl, trivial, by simp [OneCoverage], trivial, trivial, trivial, trivial, ⟨0, by simp [NamesObjective, exProblem]⟩, by simp⟩
example : ¬ ∃ s, pgpe exProblem { popsize := 9, centerRate := 0.5, stdevRate := 0.1, stdev := some (.scalar 1) } = .ok s := by
  rw [C126_pgpe_accepts exProblem 3 rfl (by decide)]
  rintro ⟨-, -, h, -⟩
  exact absurd (h rfl rfl) (by decide)

end EvoTorch.AlgoConfig
