import Verif.Props.SphereConvergence
import Verif.Model.GenerationsOptim
/-!
C178: PGPE with the optimiser SGD and a momentum, on a quadratic bowl: what the center does on average.
-/
namespace EvoTorch.MomentumAverage
open EvoTorch.Generations EvoTorch.Distribution MeasureTheory ProbabilityTheory
open EvoTorch.GaussianScore (γ std draws)
open EvoTorch.Optimizers (SGD NVec)
open EvoTorch.BestWorst (Sense)
open EvoTorch.Selection (Sorter exampleSorter)
open EvoTorch.SphereConvergence (Bowl RawMirrored averageAfter)
open Filter

variable {n d : ℕ}

/-! ### The specification -/

/-- A step of gradient ascent with momentum on `- q e² / 2`, without any noise: from distance `e` and velocity `v`. Heavy ball, or Nesterov's. -/
def momentumStep (lr m damp : ℝ) (nesterov : Bool) (q : ℝ) (x : ℝ × ℝ) : ℝ × ℝ :=
  let slope := -(q * x.1)
  let v := m * x.2 + (1 - damp) * slope
  (x.1 + lr * (if nesterov then slope + m * v else v), v)

/-- The first step, with no velocity to begin with: torch does not dampen it. -/
def firstStep (lr m : ℝ) (nesterov : Bool) (q : ℝ) (e : ℝ) : ℝ × ℝ :=
  let slope := -(q * e)
  (e + lr * (if nesterov then slope + m * slope else slope), slope)

/-- The distance to `t` in coordinate `j` (zero for a center of NaN, which does not happen here). -/
noncomputable def distance (t : Vec ℝ d) (j : Fin d) {ω : Type} (s : OptState d ω) : ℝ := s.mu.elim 0 fun mu => mu j - t j

/-! ### Linear recursions of the plane -/

/-- The linear map with matrix `[[A, B], [C, D]]`. -/
def lin (A B C D : ℝ) (x : ℝ × ℝ) : ℝ × ℝ := (A * x.1 + B * x.2, C * x.1 + D * x.2)

theorem lin_iter (A B C D : ℝ) (T : ℕ) : ∃ A' B' C' D', ∀ x, (lin A B C D)^[T] x = lin A' B' C' D' x := by
  induction T with
  | zero => exact ⟨1, 0, 0, 1, fun x => by simp [lin]⟩
  | succ T ih =>
    obtain ⟨A', B', C', D', h⟩ := ih
    refine ⟨A' * A + B' * C, A' * B + B' * D, C' * A + D' * C, C' * B + D' * D, fun x => ?_⟩
    rw [Function.iterate_succ_apply, h]
    simp only [lin]
    ext <;> ring

/-- Backward contraction: a bounded sequence with `u T ≤ ρ u (T+1) + ε T`, where `ρ < 1` and `ε → 0`, goes to zero. -/
theorem backward {u ε : ℕ → ℝ} {ρ M : ℝ} (h0 : ∀ T, 0 ≤ u T) (hM : ∀ T, u T ≤ M) (hρ0 : 0 ≤ ρ) (hρ : ρ < 1) (h : ∀ T, u T ≤ ρ * u (T + 1) + ε T) (hε : Tendsto ε atTop (nhds 0)) : Tendsto u atTop (nhds 0) := by
  rw [Metric.tendsto_atTop]
  intro δ hδ
  have h1 : 0 < 1 - ρ := by linarith
  obtain ⟨N, hN⟩ := (Metric.tendsto_atTop.mp hε) (δ / 2 * (1 - ρ)) (by positivity)
  have key : ∀ k, ∀ T ≥ N, u T ≤ ρ ^ k * M + δ / 2 * (1 - ρ ^ k) := by
    intro k
    induction k with
    | zero => intro T _; simpa using hM T
    | succ k ih =>
      intro T hT
      have e1 := ih (T + 1) (by omega)
      have e2 := hN T hT
      rw [Real.dist_eq, sub_zero] at e2
      have e3 := h T
      have e4 : ρ * u (T + 1) ≤ ρ * (ρ ^ k * M + δ / 2 * (1 - ρ ^ k)) := mul_le_mul_of_nonneg_left e1 hρ0
      have e5 := (le_abs_self (ε T)).trans e2.le
      have e6 : ρ * (ρ ^ k * M + δ / 2 * (1 - ρ ^ k)) + δ / 2 * (1 - ρ) = ρ ^ (k + 1) * M + δ / 2 * (1 - ρ ^ (k + 1)) := by rw [pow_succ]; ring
      linarith
  refine ⟨N, fun T hT => ?_⟩
  rw [Real.dist_eq, sub_zero, abs_of_nonneg (h0 T)]
  have lim : Tendsto (fun k => ρ ^ k * M + δ / 2 * (1 - ρ ^ k)) atTop (nhds (0 * M + δ / 2 * (1 - 0))) := by
    have hp := tendsto_pow_atTop_nhds_zero_of_lt_one hρ0 hρ
    exact (hp.mul_const M).add (((tendsto_const_nhds (x := (1 : ℝ))).sub hp).const_mul _)
  have : u T ≤ 0 * M + δ / 2 * (1 - 0) := ge_of_tendsto' lim fun k => key k T hT
  linarith

/-- A second-order recursion goes to zero if its coefficients are in the stability triangle. -/
theorem second_order {x : ℕ → ℝ} {a b : ℝ} (h : ∀ T, x (T + 2) = a * x (T + 1) - b * x T) (hb : b < 1) (ha : |a| < 1 + b) : Tendsto x atTop (nhds 0) := by
  have hb0 : 0 < 1 + b := (abs_nonneg a).trans_lt ha
  have ha' := abs_lt.mp ha
  -- the energy of two subsequent distances
  obtain ⟨V, hV⟩ : ∃ V : ℕ → ℝ, V = fun T => (1 + b) * (x T ^ 2 + x (T + 1) ^ 2) - 2 * a * x T * x (T + 1) := ⟨_, rfl⟩
  obtain ⟨r, hr⟩ : ∃ r : ℕ → ℝ, r = fun T => a * x (T + 1) - (1 + b) * x T := ⟨_, rfl⟩
  have hdec : ∀ T, V (T + 1) = V T - (1 - b) * r T ^ 2 := by
    intro T
    rw [hV, hr]
    simp only [show T + 1 + 1 = T + 2 from rfl, h T]
    ring
  have hlow : ∀ T, (1 + b - |a|) * x T ^ 2 ≤ V T := by
    intro T
    rw [hV]
    dsimp only
    have h1 : a * (x T * x (T + 1)) ≤ |a| * (|x T| * |x (T + 1)|) := by
      rw [← abs_mul, ← abs_mul]
      exact le_abs_self _
    have h2 : 0 ≤ |a| * (|x T| - |x (T + 1)|) ^ 2 := by positivity
    have h3 : 0 ≤ (1 + b - |a|) * x (T + 1) ^ 2 := mul_nonneg (by linarith) (sq_nonneg _)
    have h4 := sq_abs (x T)
    have h5 := sq_abs (x (T + 1))
    have h6 : |a| * (|x T| - |x (T + 1)|) ^ 2 = |a| * x T ^ 2 + |a| * x (T + 1) ^ 2 - 2 * (|a| * (|x T| * |x (T + 1)|)) := by rw [← h4, ← h5]; ring
    nlinarith
  have hpos : ∀ T, 0 ≤ V T := fun T => (mul_nonneg (by linarith) (sq_nonneg _)).trans (hlow T)
  have hmono : Antitone V := antitone_nat_of_succ_le fun T => by
    rw [hdec]
    have : 0 ≤ (1 - b) * r T ^ 2 := mul_nonneg (by linarith) (sq_nonneg _)
    linarith
  have hlim : Tendsto V atTop (nhds (⨅ i, V i)) := tendsto_atTop_ciInf hmono ⟨0, by rintro _ ⟨T, rfl⟩; exact hpos T⟩
  have hsq : Tendsto (fun T => r T ^ 2) atTop (nhds 0) := by
    have h1 : Tendsto (fun T => (V T - V (T + 1)) / (1 - b)) atTop (nhds (((⨅ i, V i) - ⨅ i, V i) / (1 - b))) := (hlim.sub (hlim.comp (tendsto_add_atTop_nat 1))).div_const _
    rw [sub_self, zero_div] at h1
    refine h1.congr fun T => ?_
    have : 1 - b ≠ 0 := by linarith
    rw [hdec]
    field_simp
    ring
  have hrabs : Tendsto (fun T => |r T| / (1 + b)) atTop (nhds 0) := by
    have h1 := (Real.continuous_sqrt.tendsto 0).comp hsq
    rw [Real.sqrt_zero] at h1
    have h2 := h1.div_const (1 + b)
    rw [zero_div] at h2
    exact h2.congr fun T => by simp only [Function.comp, Real.sqrt_sq_eq_abs]
  have hbound : ∀ T, |x T| ≤ Real.sqrt (V 0 / (1 + b - |a|)) := by
    intro T
    apply Real.abs_le_sqrt
    rw [le_div_iff₀ (by linarith)]
    have := hlow T
    have := hmono (Nat.zero_le T)
    linarith
  have habs : Tendsto (fun T => |x T|) atTop (nhds 0) := by
    refine backward (ρ := |a| / (1 + b)) (fun T => abs_nonneg _) hbound (by positivity) (by rw [div_lt_one hb0]; exact ha) (fun T => ?_) hrabs
    have h1 : (1 + b) * |x T| ≤ |a| * |x (T + 1)| + |r T| := by
      have h2 : (1 + b) * x T = a * x (T + 1) - r T := by rw [hr]; ring
      have h3 : |(1 + b) * x T| = (1 + b) * |x T| := by rw [abs_mul, abs_of_pos hb0]
      rw [← h3, h2, ← abs_mul]
      exact abs_sub _ _
    rw [div_mul_eq_mul_div, ← add_div, le_div_iff₀ hb0]
    linarith
  exact (tendsto_zero_iff_abs_tendsto_zero x).mpr habs

/-- The first coordinate of a linear recursion of the plane goes to zero if trace and determinant are in the stability triangle. -/
theorem lin_converges {A B C D : ℝ} (hdet : A * D - B * C < 1) (htr : |A + D| < 1 + (A * D - B * C)) (x : ℝ × ℝ) : Tendsto (fun T => ((lin A B C D)^[T] x).1) atTop (nhds 0) := by
  refine second_order (a := A + D) (b := A * D - B * C) (fun T => ?_) hdet htr
  rw [Function.iterate_succ_apply', Function.iterate_succ_apply']
  generalize (lin A B C D)^[T] x = y
  simp only [lin]
  ring

theorem momentumStep_lin (lr m damp : ℝ) (nesterov : Bool) (q : ℝ) :
    momentumStep lr m damp nesterov q = if nesterov then lin (1 - lr * q - lr * m * (1 - damp) * q) (lr * m * m) (-((1 - damp) * q)) m else lin (1 - lr * (1 - damp) * q) (lr * m) (-((1 - damp) * q)) m := by
  funext x
  cases nesterov <;> simp only [momentumStep, lin, Bool.false_eq_true, if_false, if_true] <;> ext <;> ring

theorem momentumStep_linear (lr m damp : ℝ) (nesterov : Bool) (q : ℝ) (T : ℕ) : ∃ α β : ℝ, ∀ x, ((momentumStep lr m damp nesterov q)^[T] x).1 = α * x.1 + β * x.2 := by
  rw [momentumStep_lin]
  cases nesterov
  · obtain ⟨A, B, _, _, h⟩ := lin_iter (1 - lr * (1 - damp) * q) (lr * m) (-((1 - damp) * q)) m T
    exact ⟨A, B, fun x => by simp [h, lin]⟩
  · obtain ⟨A, B, _, _, h⟩ := lin_iter (1 - lr * q - lr * m * (1 - damp) * q) (lr * m * m) (-((1 - damp) * q)) m T
    exact ⟨A, B, fun x => by simp [h, lin]⟩

/-! ### The average gradient -/

theorem gen_gradients (sort : Sorter ℝ) (p : Pgpe) (f : Vec ℝ d → ℝ) (s : Vec ℝ d × Vec ℝ d) (zs : List (Vec ℝ d)) : pgpeGen sort p f s zs = (pgpeGradients sort p f s zs).map (updateSeparable p.lrMu p.lrSigma s.1 s.2) := by
  unfold pgpeGen pgpeGradients
  split
  · cases makeGaussianSymmetric (2 * zs.length) (fun i => zs.getD i 0) s.1 s.2 <;> rfl
  · rfl

/-- The gradient of the center is on average `- 2 κ σ²` times the distance. -/
theorem gradient_mean (hn : 0 < n) (sort : Sorter ℝ) {p : Pgpe} (hp : RawMirrored p) {κ t : Vec ℝ d} {f : Vec ℝ d → ℝ} (hf : Bowl p.sense κ t f) (s : Vec ℝ d × Vec ℝ d) :
    ∃ g : (Fin n → Fin d → ℝ) → Grads ℝ d, (∀ z, pgpeGradients sort p f s (List.ofFn z) = .ok (g z)) ∧ ∀ j,
      Integrable (fun z => (g z).mu j) (draws n d) ∧ ∫ z, (g z).mu j ∂draws n d = -((2 * κ j * s.2 j ^ 2) * (s.1 j - t j)) := by
  obtain ⟨next, h1, h2⟩ := SphereConvergence.C175_pgpe_mean hn sort (p := { p with lrMu := 1 }) ⟨hp.symmetric, hp.raw, hp.perDirection⟩ hf s
  have hg : ∀ z : Fin n → Fin d → ℝ, ∃ g, pgpeGradients sort p f s (List.ofFn z) = .ok g ∧ ∀ j, g.mu j = ((next z).1 j - t j) - (s.1 j - t j) := by
    intro z
    have e := h1 z
    rw [gen_gradients, show pgpeGradients sort { p with lrMu := 1 } f s (List.ofFn z) = pgpeGradients sort p f s (List.ofFn z) from rfl] at e
    cases hq : pgpeGradients sort p f s (List.ofFn z) with
    | error x => rw [hq] at e; cases e
    | ok g =>
      rw [hq] at e
      simp only [Except.map, Except.ok.injEq] at e
      refine ⟨g, rfl, fun j => ?_⟩
      rw [← e]
      simp [updateSeparable]
  choose g hg1 hg2 using hg
  refine ⟨g, hg1, fun j => ?_⟩
  simp only [hg2]
  refine ⟨(h2 j).1.sub (integrable_const _), ?_⟩
  rw [integral_sub (h2 j).1 (integrable_const _), (h2 j).2, integral_const, probReal_univ, one_smul]
  ring

theorem addSpread_zero {lrSigma : ℝ} (h0 : lrSigma = 0) (sigma g : Vec ℝ d) : addSpread lrSigma sigma g = sigma := by
  funext j
  simp [addSpread, h0]

theorem draws_affine {u : (Fin n → Fin d → ℝ) → ℝ} (hu : Integrable u (draws n d)) (a c : ℝ) : ∫ z, (c + a * u z) ∂draws n d = c + a * ∫ z, u z ∂draws n d := by
  rw [integral_add (integrable_const _) (hu.const_mul a), integral_const, probReal_univ, one_smul, integral_const_mul]

/-! ### The property -/

/-- Generations from a search which has a velocity. -/
theorem moving (hn : 0 < n) (sort : Sorter ℝ) {p : Pgpe} (hp : RawMirrored p) (h0 : p.lrSigma = 0) {κ t : Vec ℝ d} {f : Vec ℝ d → ℝ} (hf : Bowl p.sense κ t f) (sigma : Vec ℝ d) (lr damp : ℝ) {m : ℝ} (hm : m ≠ 0) (nesterov : Bool)
    (j : Fin d) (T : ℕ) (mu v : Vec ℝ d) :
    averageAfter n (pgpeOptGen sgdAscent sort p f) (distance t j) T ⟨some mu, sigma, ⟨lr, m, damp, nesterov, some v⟩⟩ =
      ((momentumStep lr m damp nesterov (2 * κ j * sigma j ^ 2))^[T] (mu j - t j, v j)).1 := by
  induction T generalizing mu v with
  | zero => simp [averageAfter, distance]
  | succ T ih =>
    obtain ⟨g, hg, h⟩ := gradient_mean hn sort hp hf (mu, sigma)
    obtain ⟨α, β, hlin⟩ := momentumStep_linear lr m damp nesterov (2 * κ j * sigma j ^ 2) T
    have hgen : ∀ z : Fin n → Fin d → ℝ, pgpeOptGen sgdAscent sort p f ⟨some mu, sigma, ⟨lr, m, damp, nesterov, some v⟩⟩ (List.ofFn z) =
        .ok ⟨some fun j => mu j + lr * (if nesterov then (g z).mu j + m * (m * v j + (1 - damp) * (g z).mu j) else m * v j + (1 - damp) * (g z).mu j), sigma,
          ⟨lr, m, damp, nesterov, some fun j => m * v j + (1 - damp) * (g z).mu j⟩⟩ := by
      intro z
      simp only [pgpeOptGen, optGen, hg, Except.bind, sgdAscent, SGD.ascent, if_pos hm, addSpread_zero h0, Optimizers.addVec]
      cases nesterov <;> simp
    have e : ∀ z : Fin n → Fin d → ℝ, (pgpeOptGen sgdAscent sort p f ⟨some mu, sigma, ⟨lr, m, damp, nesterov, some v⟩⟩ (List.ofFn z)).toOption.elim 0
        (averageAfter n (pgpeOptGen sgdAscent sort p f) (distance t j) T) =
        (α * (mu j - t j + lr * (if nesterov then m * (m * v j) else m * v j)) + β * (m * v j)) + (α * (lr * (if nesterov then 1 + m * (1 - damp) else 1 - damp)) + β * (1 - damp)) * (g z).mu j := by
      intro z
      rw [hgen z]
      simp only [Except.toOption, Option.elim, ih, hlin]
      cases nesterov <;> simp <;> ring
    simp only [averageAfter, e]
    rw [draws_affine (h j).1, (h j).2, Function.iterate_succ_apply, hlin]
    simp only [momentumStep]
    cases nesterov <;> simp <;> ring

/-- **C178, over a run.** On a quadratic fitness function and with a fixed spread, the average center follows exactly the method with momentum without noise: noise and population size have no influence on the average. -/
theorem C178_average_run (hn : 0 < n) (sort : Sorter ℝ) {p : Pgpe} (hp : RawMirrored p) (h0 : p.lrSigma = 0) {κ t : Vec ℝ d} {f : Vec ℝ d → ℝ} (hf : Bowl p.sense κ t f) (mu sigma : Vec ℝ d) (lr damp : ℝ) {m : ℝ} (hm : m ≠ 0)
    (nesterov : Bool) (j : Fin d) (T : ℕ) :
    averageAfter n (pgpeOptGen sgdAscent sort p f) (distance t j) (T + 1) ⟨some mu, sigma, SGD.create d lr (some m) (some damp) (some nesterov)⟩ =
      ((momentumStep lr m damp nesterov (2 * κ j * sigma j ^ 2))^[T] (firstStep lr m nesterov (2 * κ j * sigma j ^ 2) (mu j - t j))).1 := by
  obtain ⟨g, hg, h⟩ := gradient_mean hn sort hp hf (mu, sigma)
  obtain ⟨α, β, hlin⟩ := momentumStep_linear lr m damp nesterov (2 * κ j * sigma j ^ 2) T
  have hgen : ∀ z : Fin n → Fin d → ℝ, pgpeOptGen sgdAscent sort p f ⟨some mu, sigma, SGD.create d lr (some m) (some damp) (some nesterov)⟩ (List.ofFn z) =
      .ok ⟨some fun j => mu j + lr * (if nesterov then (g z).mu j + m * (g z).mu j else (g z).mu j), sigma, ⟨lr, m, damp, nesterov, some (g z).mu⟩⟩ := by
    intro z
    simp only [pgpeOptGen, optGen, hg, Except.bind, sgdAscent, SGD.ascent, SGD.create, Option.getD_some, addSpread_zero h0, Optimizers.addVec]
    cases nesterov <;> simp [hm]
  have e : ∀ z : Fin n → Fin d → ℝ, (pgpeOptGen sgdAscent sort p f ⟨some mu, sigma, SGD.create d lr (some m) (some damp) (some nesterov)⟩ (List.ofFn z)).toOption.elim 0
      (averageAfter n (pgpeOptGen sgdAscent sort p f) (distance t j) T) =
      α * (mu j - t j) + (α * (lr * (if nesterov then 1 + m else 1)) + β) * (g z).mu j := by
    intro z
    rw [hgen z]
    simp only [Except.toOption, Option.elim, moving hn sort hp h0 hf _ _ _ hm, hlin]
    cases nesterov <;> simp <;> ring
  simp only [averageAfter, e]
  rw [draws_affine (h j).1, (h j).2, hlin]
  simp only [firstStep]
  cases nesterov <;> simp <;> ring

/-- **C178, without momentum** (the default of the class): plain gradient ascent; torch then ignores `dampening` and `nesterov`. -/
theorem C178_average_plain (hn : 0 < n) (sort : Sorter ℝ) {p : Pgpe} (hp : RawMirrored p) (h0 : p.lrSigma = 0) {κ t : Vec ℝ d} {f : Vec ℝ d → ℝ} (hf : Bowl p.sense κ t f) (mu sigma : Vec ℝ d) (lr : ℝ) (damp : Option ℝ) (nesterov : Option Bool)
    (j : Fin d) (T : ℕ) :
    averageAfter n (pgpeOptGen sgdAscent sort p f) (distance t j) T ⟨some mu, sigma, SGD.create d lr none damp nesterov⟩ = (1 - lr * (2 * κ j * sigma j ^ 2)) ^ T * (mu j - t j) := by
  induction T generalizing mu with
  | zero => simp [averageAfter, distance]
  | succ T ih =>
    obtain ⟨g, hg, h⟩ := gradient_mean hn sort hp hf (mu, sigma)
    have hgen : ∀ z : Fin n → Fin d → ℝ, pgpeOptGen sgdAscent sort p f ⟨some mu, sigma, SGD.create d lr none damp nesterov⟩ (List.ofFn z) =
        .ok ⟨some fun j => mu j + lr * (g z).mu j, sigma, SGD.create d lr none damp nesterov⟩ := by
      intro z
      simp [pgpeOptGen, optGen, hg, Except.bind, sgdAscent, SGD.ascent, SGD.create, addSpread_zero h0, Optimizers.addVec]
    have e : ∀ z : Fin n → Fin d → ℝ, (pgpeOptGen sgdAscent sort p f ⟨some mu, sigma, SGD.create d lr none damp nesterov⟩ (List.ofFn z)).toOption.elim 0
        (averageAfter n (pgpeOptGen sgdAscent sort p f) (distance t j) T) =
        (1 - lr * (2 * κ j * sigma j ^ 2)) ^ T * (mu j - t j) + ((1 - lr * (2 * κ j * sigma j ^ 2)) ^ T * lr) * (g z).mu j := by
      intro z
      rw [hgen z]
      simp only [Except.toOption, Option.elim, ih]
      ring
    simp only [averageAfter, e]
    rw [draws_affine (h j).1, (h j).2]
    ring

/-- **C178, convergence with momentum.** On a bowl the average center goes to the optimum if the learning rate is below the limit of the noiseless method: `lr (1 - dampening) 2 κ σ² < 2 (1 + m)`. -/
theorem C178_average_converges (hn : 0 < n) (sort : Sorter ℝ) {p : Pgpe} (hp : RawMirrored p) (h0 : p.lrSigma = 0) {κ t : Vec ℝ d} {f : Vec ℝ d → ℝ} (hf : Bowl p.sense κ t f) (mu sigma : Vec ℝ d) {lr damp m : ℝ} (hm0 : 0 < m) (hm1 : m < 1)
    (j : Fin d) (h1 : 0 < lr * (1 - damp) * (2 * κ j * sigma j ^ 2)) (h2 : lr * (1 - damp) * (2 * κ j * sigma j ^ 2) < 2 * (1 + m)) :
    Tendsto (fun T => averageAfter n (pgpeOptGen sgdAscent sort p f) (distance t j) T ⟨some mu, sigma, SGD.create d lr (some m) (some damp) (some false)⟩) atTop (nhds 0) := by
  rw [← tendsto_add_atTop_iff_nat 1]
  simp only [C178_average_run hn sort hp h0 hf mu sigma lr damp hm0.ne' false j]
  rw [momentumStep_lin]
  simp only [Bool.false_eq_true, if_false]
  refine lin_converges ?_ ?_ _
  · nlinarith
  · rw [abs_lt]
    constructor <;> nlinarith

/-- **C178, convergence with Nesterov's momentum** (which torch only accepts without dampening): `lr 2 κ σ² (1 + 2 m) < 2 (1 + m)`. -/
theorem C178_average_converges_nesterov (hn : 0 < n) (sort : Sorter ℝ) {p : Pgpe} (hp : RawMirrored p) (h0 : p.lrSigma = 0) {κ t : Vec ℝ d} {f : Vec ℝ d → ℝ} (hf : Bowl p.sense κ t f) (mu sigma : Vec ℝ d) {lr m : ℝ} (hm0 : 0 < m)
    (hm1 : m < 1) (j : Fin d) (h1 : 0 < lr * (2 * κ j * sigma j ^ 2)) (h2 : lr * (2 * κ j * sigma j ^ 2) * (1 + 2 * m) < 2 * (1 + m)) :
    Tendsto (fun T => averageAfter n (pgpeOptGen sgdAscent sort p f) (distance t j) T ⟨some mu, sigma, SGD.create d lr (some m) (some 0) (some true)⟩) atTop (nhds 0) := by
  rw [← tendsto_add_atTop_iff_nat 1]
  simp only [C178_average_run hn sort hp h0 hf mu sigma lr 0 hm0.ne' true j]
  rw [momentumStep_lin]
  simp only [if_true]
  have h3 := mul_pos hm0 h1
  refine lin_converges ?_ ?_ _
  · nlinarith
  · rw [abs_lt]
    constructor <;> nlinarith

/-- **C178, the limit is sharp.** At `lr (1 - dampening) 2 κ σ² = 2 (1 + m)` there are starting velocities from which the noiseless method, and so the average center, never gets closer. -/
theorem C178_limit_sharp (hn : 0 < n) (sort : Sorter ℝ) {p : Pgpe} (hp : RawMirrored p) (h0 : p.lrSigma = 0) {κ t : Vec ℝ d} {f : Vec ℝ d → ℝ} (hf : Bowl p.sense κ t f) (mu sigma : Vec ℝ d) {lr damp m : ℝ} (hm0 : 0 < m) (hlr : lr ≠ 0)
    (j : Fin d) (h2 : lr * (1 - damp) * (2 * κ j * sigma j ^ 2) = 2 * (1 + m)) :
    ∃ v : Vec ℝ d, ∀ T, |averageAfter n (pgpeOptGen sgdAscent sort p f) (distance t j) T ⟨some mu, sigma, ⟨lr, m, damp, false, some v⟩⟩| = |mu j - t j| := by
  refine ⟨fun j => -2 / lr * -(mu j - t j), fun T => ?_⟩
  rw [moving hn sort hp h0 hf sigma lr damp hm0.ne' false j T mu]
  have key : ∀ T : ℕ, ∀ e : ℝ, (momentumStep lr m damp false (2 * κ j * sigma j ^ 2))^[T] (e, -2 / lr * -e) = ((-1) ^ T * e, -2 / lr * -((-1) ^ T * e)) := by
    intro T
    induction T with
    | zero => intro e; simp
    | succ T ih =>
      intro e
      have : momentumStep lr m damp false (2 * κ j * sigma j ^ 2) (e, -2 / lr * -e) = (-e, -2 / lr * - -e) := by
        have h3 : (1 - damp) * (2 * κ j * sigma j ^ 2) = 2 * (1 + m) / lr := by
          rw [eq_div_iff hlr]; linarith
        have h4 : m * (-2 / lr * -e) + (1 - damp) * -(2 * κ j * sigma j ^ 2 * e) = -2 / lr * e := by
          have : (1 - damp) * -(2 * κ j * sigma j ^ 2 * e) = -((1 - damp) * (2 * κ j * sigma j ^ 2)) * e := by ring
          rw [this, h3]
          field_simp
          ring
        simp only [momentumStep, Bool.false_eq_true, if_false, h4, neg_neg]
        ext
        · dsimp only
          field_simp
          ring
        · rfl
      rw [Function.iterate_succ_apply, this, ih, pow_succ]
      ext <;> ring
  rw [key, abs_mul, abs_pow, abs_neg, abs_one, one_pow, one_mul]

/-- The sphere with standard deviation 1/10, learning rate 50, momentum 9/10: both convergence theorems have their conditions met. -/
example : (0 : ℝ) < 50 * (1 - 0) * (2 * 1 * (1 / 10) ^ 2) ∧ (50 : ℝ) * (1 - 0) * (2 * 1 * (1 / 10) ^ 2) < 2 * (1 + 9 / 10) ∧ (50 : ℝ) * (2 * 1 * (1 / 10) ^ 2) * (1 + 2 * (9 / 10)) < 2 * (1 + 9 / 10) := by norm_num

/-- The average center goes to the optimum of the sphere; a learning rate of 150 diverges without momentum (C175), and not with it. -/
example (mu : Vec ℝ 3) (j : Fin 3) :
    Tendsto (fun T => averageAfter 8 (pgpeOptGen sgdAscent exampleSorter ⟨true, some .numDirections, some .numDirections, .raw, .min, 0, 0⟩ fun x => ∑ j, x j ^ 2) (distance 0 j) T
      ⟨some mu, fun _ => 1 / 10, SGD.create 3 150 (some (9 / 10)) (some 0) (some false)⟩) atTop (nhds 0) :=
  C178_average_converges (κ := fun _ => 1) (by norm_num) exampleSorter ⟨rfl, rfl, rfl⟩ rfl ⟨0, fun x => by simp⟩ mu _ (by norm_num) (by norm_num) j (by norm_num) (by norm_num)

end EvoTorch.MomentumAverage
