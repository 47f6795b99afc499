import Verif.Props.SphereConvergence
import Verif.Model.GenerationsOptim
/-!
C176: on a linear fitness function, the momentum of ClipUp and SGD does not make the center of PGPE worse.
-/
namespace EvoTorch.LinearProgress
open EvoTorch.Generations EvoTorch.Distribution
open EvoTorch.BestWorst (Sense)
open EvoTorch.Selection (Sorter SorterSpec NotWorse exampleSorter exampleSorter_spec)
open EvoTorch.Optimizers (NVec ClipUp SGD Adam)

variable {d : ℕ} {ω : Type}

theorem pgpeGen_gradients (sort : Sorter ℝ) (p : Pgpe) (f : Vec ℝ d → ℝ) (s : Vec ℝ d × Vec ℝ d) (zs : List (Vec ℝ d)) :
    pgpeGen sort p f s zs = (pgpeGradients sort p f s zs).map (updateSeparable p.lrMu p.lrSigma s.1 s.2) := by
  unfold pgpeGen pgpeGradients
  split
  · cases makeGaussianSymmetric (2 * zs.length) (fun i => zs.getD i 0) s.1 s.2 <;> rfl
  · rfl

/-- How much better a move makes a linear function with the coefficients `a`. -/
def gain (a : Vec ℝ d) (sense : Sense) (v : Vec ℝ d) : ℝ := sgn sense * ∑ j, a j * v j

theorem gain_add (a : Vec ℝ d) (sense : Sense) (x y : ℝ) (v w : Vec ℝ d) : gain a sense (fun j => x * v j + y * w j) = x * gain a sense v + y * gain a sense w := by
  have : ∑ j, a j * (x * v j + y * w j) = x * ∑ j, a j * v j + y * ∑ j, a j * w j := by
    rw [Finset.mul_sum, Finset.mul_sum, ← Finset.sum_add_distrib]
    exact Finset.sum_congr rfl fun j _ => by ring
  rw [gain, this, gain, gain]
  ring

theorem gain_smul (a : Vec ℝ d) (sense : Sense) (x : ℝ) (v : Vec ℝ d) : gain a sense (fun j => x * v j) = x * gain a sense v := by
  have := gain_add a sense x 0 v v
  simpa using this

theorem gain_zero (a : Vec ℝ d) (sense : Sense) : gain a sense (fun _ => 0) = 0 := by simp [gain]

theorem gain_moves {f : Vec ℝ d → ℝ} {a : Vec ℝ d} {b : ℝ} (hf : ∀ x, f x = b + ∑ j, a j * x j) (sense : Sense) (mu v : Vec ℝ d) :
    (NotWorse sense (f fun j => mu j + v j) (f mu) ↔ 0 ≤ gain a sense v) ∧ (StrictlyBetter sense (f fun j => mu j + v j) (f mu) ↔ 0 < gain a sense v) := by
  have e : sgn sense * f (fun j => mu j + v j) = sgn sense * f mu + gain a sense v := by
    rw [hf, hf, gain]
    simp only [mul_add, Finset.sum_add_distrib]
    ring
  rw [notWorse_sgn, better_sgn, e]
  exact ⟨by constructor <;> intro h <;> linarith, by constructor <;> intro h <;> linarith⟩

/-- The gradient of a generation does not point to worse places. -/
theorem gradient_forward {sort : Sorter ℝ} (hs : SorterSpec sort) (p : Pgpe) {f : Vec ℝ d → ℝ} {a : Vec ℝ d} {b : ℝ} (hf : ∀ x, f x = b + ∑ j, a j * x j) (s : Vec ℝ d × Vec ℝ d) (zs : List (Vec ℝ d))
    (hr : Rankable p.method ((population p s zs).map f)) :
    ∃ g, pgpeGradients sort p f s zs = .ok g ∧ 0 ≤ gain a p.sense g.mu ∧ ((∃ x ∈ population p s zs, ∃ y ∈ population p s zs, f x ≠ f y) → 0 < gain a p.sense g.mu) := by
  obtain ⟨s', e, h1, h2⟩ := C174_pgpe hs { p with lrMu := 1 } (zero_le_one) ⟨a, b, hf⟩ s zs hr
  rw [pgpeGen_gradients] at e
  have e' : pgpeGradients sort { p with lrMu := 1 } f s zs = pgpeGradients sort p f s zs := rfl
  rw [e'] at e
  cases hg : pgpeGradients sort p f s zs with
  | error x => rw [hg] at e; cases e
  | ok g =>
    rw [hg] at e
    injection e with e
    have hs' : s'.1 = fun j => s.1 j + g.mu j := by rw [← e]; simp [updateSeparable]
    rw [hs'] at h1 h2
    exact ⟨g, rfl, (gain_moves hf p.sense s.1 g.mu).1.mp h1, fun hv => (gain_moves hf p.sense s.1 g.mu).2.mp (h2 one_pos hv)⟩

/-- A generation with an optimiser that turns moves to better places into such moves. -/
theorem optGen_forward {ζ : Type} {ascent : ω → (Fin d → ℝ) → ω × NVec d} {sense : Sense} (spread : Vec ℝ d → Vec ℝ d → Vec ℝ d) {grads : Vec ℝ d × Vec ℝ d → ζ → Except PyErr (Grads ℝ d)} {f : Vec ℝ d → ℝ} {a : Vec ℝ d} {b : ℝ}
    (hf : ∀ x, f x = b + ∑ j, a j * x j) {Good : ω → Prop} (hgood : ∀ o g, Good o → 0 ≤ gain a sense g → ∀ v, (ascent o g).2 = some v → Good (ascent o g).1 ∧ 0 ≤ gain a sense v)
    (s : OptState d ω) (zs : ζ) (hr : ∀ mu, s.mu = some mu → ∃ g, grads (mu, s.sigma) zs = .ok g ∧ 0 ≤ gain a sense g.mu) (hi : ∀ mu, s.mu = some mu → Good s.opt) :
    ∃ s', optGen ascent spread grads s zs = .ok s' ∧ (∀ mu', s'.mu = some mu' → Good s'.opt ∧ ∃ mu, s.mu = some mu ∧ NotWorse sense (f mu') (f mu)) := by
  unfold optGen
  cases hmu : s.mu with
  | none => exact ⟨s, rfl, fun mu' h => by rw [hmu] at h; cases h⟩
  | some mu =>
    obtain ⟨g, hg, h0⟩ := hr mu hmu
    simp only [hg]
    refine ⟨_, rfl, fun mu' h => ?_⟩
    cases hv : (ascent s.opt g.mu).2 with
    | none => simp only [hv, Optimizers.addVec] at h; cases h
    | some v =>
      simp only [hv, Optimizers.addVec, Option.some.injEq] at h
      obtain ⟨h1, h2⟩ := hgood s.opt g.mu (hi mu hmu) h0 v hv
      exact ⟨h1, mu, rfl, h ▸ (gain_moves hf sense mu v).1.mpr h2⟩

theorem optRun_append {ζ : Type} (ascent : ω → (Fin d → ℝ) → ω × NVec d) (spread : Vec ℝ d → Vec ℝ d → Vec ℝ d) (grads : Vec ℝ d × Vec ℝ d → ζ → Except PyErr (Grads ℝ d)) (z1 z2 : List ζ) (s : OptState d ω) :
    optRun ascent spread grads s (z1 ++ z2) = (optRun ascent spread grads s z1).bind fun s => optRun ascent spread grads s z2 := by
  induction z1 generalizing s with
  | nil => rfl
  | cons zs rest ih =>
    simp only [List.cons_append, optRun]
    cases optGen ascent spread grads s zs with
    | error e => rfl
    | ok s' => exact ih s'

/-- A gradient for every place, which does not point to worse places. -/
def Forward {ζ : Type} (a : Vec ℝ d) (sense : Sense) (grads : Vec ℝ d × Vec ℝ d → ζ → Except PyErr (Grads ℝ d)) (zs : ζ) : Prop := ∀ s, ∃ g, grads s zs = .ok g ∧ 0 ≤ gain a sense g.mu

theorem optRun_forward {ζ : Type} {ascent : ω → (Fin d → ℝ) → ω × NVec d} {sense : Sense} (spread : Vec ℝ d → Vec ℝ d → Vec ℝ d) {grads : Vec ℝ d × Vec ℝ d → ζ → Except PyErr (Grads ℝ d)} {f : Vec ℝ d → ℝ} {a : Vec ℝ d} {b : ℝ}
    (hf : ∀ x, f x = b + ∑ j, a j * x j) {Good : ω → Prop} (hgood : ∀ o g, Good o → 0 ≤ gain a sense g → ∀ v, (ascent o g).2 = some v → Good (ascent o g).1 ∧ 0 ≤ gain a sense v)
    (zss : List ζ) (hz : ∀ zs ∈ zss, Forward a sense grads zs) (s : OptState d ω) (hi : ∀ mu, s.mu = some mu → Good s.opt) :
    ∃ s', optRun ascent spread grads s zss = .ok s' ∧ (∀ mu', s'.mu = some mu' → Good s'.opt ∧ ∃ mu, s.mu = some mu ∧ NotWorse sense (f mu') (f mu)) := by
  induction zss generalizing s with
  | nil => exact ⟨s, rfl, fun mu h => ⟨hi mu h, mu, h, notWorse_refl _ _⟩⟩
  | cons zs rest ih =>
    obtain ⟨s1, e1, n1⟩ := optGen_forward spread hf hgood s zs (fun mu _ => hz zs (by simp) _) hi
    obtain ⟨s2, e2, n2⟩ := ih (fun zs h => hz zs (by simp [h])) s1 fun mu h => (n1 mu h).1
    refine ⟨s2, by simp only [optRun, e1]; exact e2, fun mu' h => ?_⟩
    obtain ⟨g2, mu1, h1, w1⟩ := n2 mu' h
    obtain ⟨-, mu0, h0, w0⟩ := n1 mu1 h1
    exact ⟨g2, mu0, h0, notWorse_trans w1 w0⟩

/-- An earlier and a later time of a run. -/
theorem two_times {ζ : Type} {ascent : ω → (Fin d → ℝ) → ω × NVec d} {sense : Sense} (spread : Vec ℝ d → Vec ℝ d → Vec ℝ d) {grads : Vec ℝ d × Vec ℝ d → ζ → Except PyErr (Grads ℝ d)} {f : Vec ℝ d → ℝ} {a : Vec ℝ d} {b : ℝ}
    (hf : ∀ x, f x = b + ∑ j, a j * x j) {Good : ω → Prop} (hgood : ∀ o g, Good o → 0 ≤ gain a sense g → ∀ v, (ascent o g).2 = some v → Good (ascent o g).1 ∧ 0 ≤ gain a sense v)
    (earlier later : List ζ) (hz : ∀ zs ∈ earlier ++ later, Forward a sense grads zs) (s : OptState d ω) (hi : ∀ mu, s.mu = some mu → Good s.opt) :
    ∃ s1 s2, optRun ascent spread grads s earlier = .ok s1 ∧ optRun ascent spread grads s (earlier ++ later) = .ok s2 ∧
      ∀ mu2, s2.mu = some mu2 → ∃ mu1, s1.mu = some mu1 ∧ NotWorse sense (f mu2) (f mu1) := by
  obtain ⟨s1, e1, n1⟩ := optRun_forward spread hf hgood earlier (fun zs h => hz zs (by simp [h])) s hi
  obtain ⟨s2, e2, n2⟩ := optRun_forward spread hf hgood later (fun zs h => hz zs (by simp [h])) s1 fun mu h => (n1 mu h).1
  exact ⟨s1, s2, e1, by rw [optRun_append, e1]; exact e2, fun mu2 h => (n2 mu2 h).2⟩

/-- An optimiser which makes no NaN. -/
theorem stays_alive {ζ : Type} {ascent : ω → (Fin d → ℝ) → ω × NVec d} (ha : ∀ o g, (ascent o g).2 ≠ none) (spread : Vec ℝ d → Vec ℝ d → Vec ℝ d) {grads : Vec ℝ d × Vec ℝ d → ζ → Except PyErr (Grads ℝ d)} (zss : List ζ) (s s' : OptState d ω)
    (h : s.mu ≠ none) (e : optRun ascent spread grads s zss = .ok s') : s'.mu ≠ none := by
  induction zss generalizing s with
  | nil => injection e with e; exact e ▸ h
  | cons zs rest ih =>
    simp only [optRun] at e
    cases hg : optGen ascent spread grads s zs with
    | error x => rw [hg] at e; cases e
    | ok s1 =>
      rw [hg] at e
      refine ih s1 ?_ e
      unfold optGen at hg
      split at hg
      · next hnone => exact absurd hnone h
      · next mu hmu =>
        cases hgr : grads (mu, s.sigma) zs with
        | error x => rw [hgr] at hg; cases hg
        | ok g =>
          rw [hgr] at hg
          injection hg with hg
          obtain ⟨v, hv⟩ := Option.ne_none_iff_exists'.mp (ha s.opt g.mu)
          rw [← hg]
          simp [Optimizers.addVec, hv]

/-- The gradients of a local generation. -/
theorem local_forward {sort : Sorter ℝ} (hs : SorterSpec sort) (p : Pgpe) (hm : p.method = .nes ∨ p.method = .centered ∨ p.method = .linear) {f : Vec ℝ d → ℝ} {a : Vec ℝ d} {b : ℝ} (hf : ∀ x, f x = b + ∑ j, a j * x j)
    (zs : List (Vec ℝ d)) (h2 : 2 ≤ zs.length) : Forward a p.sense (pgpeGradients sort p f) zs := fun s => by
  obtain ⟨g, hg, h0, -⟩ := gradient_forward hs p hf s zs (rankable_of hm (by unfold population; split <;> simp <;> omega))
  exact ⟨g, hg, h0⟩

/-! ### ClipUp -/

/-- A ClipUp whose velocity does not point to worse places. -/
structure ForwardClipUp (a : Vec ℝ d) (sense : Sense) (c : ClipUp d) : Prop where
  stepsize : 0 ≤ c.stepsize
  momentum : 0 ≤ c.momentum
  maxSpeed : 0 ≤ c.maxSpeed
  velocity : ∃ v, c.velocity = some v ∧ 0 ≤ gain a sense v

theorem norm_nonneg (x : Fin d → ℝ) : 0 ≤ Optimizers.norm x := Real.sqrt_nonneg _

theorem clip_gain (x : Vec ℝ d) {limit : ℝ} (hl : 0 ≤ limit) :
    ∃ r, 0 ≤ r ∧ (0 < limit → 0 < r) ∧ Optimizers.clip (some x) limit = some fun j => r * x j := by
  unfold Optimizers.clip
  by_cases h : Optimizers.norm x > limit
  · refine ⟨limit / Optimizers.norm x, div_nonneg hl (norm_nonneg x), fun h0 => div_pos h0 (by linarith), ?_⟩
    simp only [if_pos h]
    congr 1
    funext j
    ring
  · exact ⟨1, zero_le_one, fun _ => one_pos, by simp [if_neg h]⟩

theorem clipup_ascent (a : Vec ℝ d) (sense : Sense) {c : ClipUp d} (hc : ForwardClipUp a sense c) {g : Vec ℝ d} (hg : 0 ≤ gain a sense g) :
    (∀ v, (c.ascent g).2 = some v → ForwardClipUp a sense (c.ascent g).1 ∧ 0 ≤ gain a sense v) ∧
    (0 < gain a sense g → ∃ v, (c.ascent g).2 = some v ∧ (0 < c.stepsize → 0 < c.maxSpeed → 0 < gain a sense v)) := by
  obtain ⟨w, hw, hw0⟩ := hc.velocity
  by_cases hn : Optimizers.norm g = 0
  · have hz : g = fun _ => 0 := by
      funext j
      have h0 : ∑ j, g j ^ 2 = 0 := (Real.sqrt_eq_zero (Finset.sum_nonneg fun _ _ => sq_nonneg _)).mp hn
      have := (Finset.sum_eq_zero_iff_of_nonneg fun _ _ => sq_nonneg _).mp h0 j (Finset.mem_univ j)
      exact pow_eq_zero_iff (two_ne_zero) |>.mp this
    refine ⟨fun v hv => ?_, fun hp => ?_⟩
    · have hnone : Optimizers.normalize g = none := by rw [Optimizers.normalize, if_pos hn]
      simp [ClipUp.ascent, hnone, Optimizers.addScaled, hw, Optimizers.clip] at hv
    · rw [hz, gain_zero] at hp
      exact absurd hp (lt_irrefl 0)
  · have hsome : Optimizers.normalize g = some fun j => g j / Optimizers.norm g := by rw [Optimizers.normalize, if_neg hn]
    have hpos : 0 < Optimizers.norm g := lt_of_le_of_ne (norm_nonneg g) (Ne.symm hn)
    obtain ⟨r, hr0, hr1, hr⟩ := clip_gain (fun j => c.momentum * w j + g j / Optimizers.norm g * c.stepsize) hc.maxSpeed
    have hv : (c.ascent g).2 = some fun j => r * (c.momentum * w j + g j / Optimizers.norm g * c.stepsize) := by
      simp only [ClipUp.ascent, hsome, hw, Option.map_some, Optimizers.addScaled]
      exact hr
    have hvel : (c.ascent g).1.velocity = (c.ascent g).2 := rfl
    have hgain : gain a sense (fun j => r * (c.momentum * w j + g j / Optimizers.norm g * c.stepsize)) = r * (c.momentum * gain a sense w + c.stepsize / Optimizers.norm g * gain a sense g) := by
      have := gain_smul a sense r fun j => c.momentum * w j + g j / Optimizers.norm g * c.stepsize
      rw [this, ← gain_add]
      congr 2
      funext j
      ring
    have hnn : 0 ≤ gain a sense (fun j => r * (c.momentum * w j + g j / Optimizers.norm g * c.stepsize)) := by
      rw [hgain]
      exact mul_nonneg hr0 (add_nonneg (mul_nonneg hc.momentum hw0) (mul_nonneg (div_nonneg hc.stepsize hpos.le) hg))
    refine ⟨fun v h => ?_, fun hp => ⟨_, hv, fun h1 h2 => ?_⟩⟩
    · rw [hv] at h
      injection h with h
      exact ⟨⟨hc.stepsize, hc.momentum, hc.maxSpeed, _, hvel.trans hv, hnn⟩, h ▸ hnn⟩
    · rw [hgain]
      exact mul_pos (hr1 h2) (add_pos_of_nonneg_of_pos (mul_nonneg hc.momentum hw0) (mul_pos (div_pos h1 hpos) hp))

theorem created {stepsize momentum : ℝ} {maxSpeed : Option ℝ} {c : ClipUp d} (h : ClipUp.create d stepsize momentum maxSpeed = .ok c) (a : Vec ℝ d) (sense : Sense) :
    ForwardClipUp a sense c ∧ c.stepsize = stepsize ∧ c.maxSpeed = maxSpeed.getD (stepsize * 2) := by
  simp only [ClipUp.create] at h
  split at h
  · cases h
  · next h1 =>
    split at h
    · cases h
    · next h2 =>
      split at h
      · cases h
      · next h3 =>
        injection h with h
        subst h
        push Not at h1 h2 h3
        exact ⟨⟨h1, h2.1, h3, _, rfl, by rw [gain_zero]⟩, rfl, rfl⟩

/-- **C176 for ClipUp**, the default optimiser of PGPE: on a linear fitness function, the center of a search which starts with a new ClipUp is at no time worse than at an earlier time. -/
theorem C176_clipup_run {sort : Sorter ℝ} (hs : SorterSpec sort) (p : Pgpe) (hm : p.method = .nes ∨ p.method = .centered ∨ p.method = .linear) {f : Vec ℝ d → ℝ} (hf : Linear f)
    {stepsize momentum : ℝ} {maxSpeed : Option ℝ} {c : ClipUp d} (hc : ClipUp.create d stepsize momentum maxSpeed = .ok c) (mu sigma : Vec ℝ d)
    (earlier later : List (List (Vec ℝ d))) (hz : ∀ zs ∈ earlier ++ later, 2 ≤ zs.length) :
    ∃ s1 s2, pgpeOptRun ClipUp.ascent sort p f ⟨some mu, sigma, c⟩ earlier = .ok s1 ∧ pgpeOptRun ClipUp.ascent sort p f ⟨some mu, sigma, c⟩ (earlier ++ later) = .ok s2 ∧
      ∀ mu2, s2.mu = some mu2 → ∃ mu1, s1.mu = some mu1 ∧ NotWorse p.sense (f mu2) (f mu1) := by
  obtain ⟨a, b, hf⟩ := hf
  exact two_times (addSpread p.lrSigma) hf (Good := ForwardClipUp a p.sense) (fun o g ho hg => (clipup_ascent a p.sense ho hg).1) earlier later (fun zs h => local_forward hs p hm hf zs (hz zs h)) _ fun _ _ => (created hc a p.sense).1

theorem opt_same {ζ : Type} {spread : Vec ℝ d → Vec ℝ d → Vec ℝ d} {grads : Vec ℝ d × Vec ℝ d → ζ → Except PyErr (Grads ℝ d)} (zss : List ζ) {s s' : OptState d (ClipUp d)} (h : optRun ClipUp.ascent spread grads s zss = .ok s') :
    s'.opt.stepsize = s.opt.stepsize ∧ s'.opt.maxSpeed = s.opt.maxSpeed := by
  induction zss generalizing s with
  | nil => injection h with h; rw [h]; exact ⟨rfl, rfl⟩
  | cons zs rest ih =>
    simp only [optRun] at h
    cases hg : optGen ClipUp.ascent spread grads s zs with
    | error e => rw [hg] at h; cases h
    | ok s1 =>
      rw [hg] at h
      have h1 := ih h
      have : s1.opt.stepsize = s.opt.stepsize ∧ s1.opt.maxSpeed = s.opt.maxSpeed := by
        unfold optGen at hg
        split at hg
        · injection hg with hg; rw [hg]; exact ⟨rfl, rfl⟩
        · next mu hmu =>
          cases hgr : grads (mu, s.sigma) zs with
          | error e => rw [hgr] at hg; cases hg
          | ok g =>
            rw [hgr] at hg
            injection hg with hg
            rw [← hg]
            exact ⟨rfl, rfl⟩
      exact ⟨h1.1.trans this.1, h1.2.trans this.2⟩

/-- A generation with an informative gradient, after a run with ClipUp. -/
theorem clipup_informative {ζ : Type} {sense : Sense} (spread : Vec ℝ d → Vec ℝ d → Vec ℝ d) {grads : Vec ℝ d × Vec ℝ d → ζ → Except PyErr (Grads ℝ d)} {f : Vec ℝ d → ℝ} {a : Vec ℝ d} {b : ℝ} (hf : ∀ x, f x = b + ∑ j, a j * x j)
    {stepsize momentum : ℝ} {maxSpeed : Option ℝ} {c : ClipUp d} (hc : ClipUp.create d stepsize momentum maxSpeed = .ok c) (h1 : 0 < stepsize) (h2 : maxSpeed ≠ some 0) (mu sigma : Vec ℝ d)
    (zss : List ζ) (hz : ∀ zs ∈ zss, Forward a sense grads zs) (s1 : OptState d (ClipUp d)) (hrun : optRun ClipUp.ascent spread grads ⟨some mu, sigma, c⟩ zss = .ok s1)
    (mu1 : Vec ℝ d) (hmu1 : s1.mu = some mu1) (zs : ζ) (g : Grads ℝ d) (hg : grads (mu1, s1.sigma) zs = .ok g) (hpos : 0 < gain a sense g.mu) :
    ∃ s2 mu2, optGen ClipUp.ascent spread grads s1 zs = .ok s2 ∧ s2.mu = some mu2 ∧ StrictlyBetter sense (f mu2) (f mu1) := by
  obtain ⟨c1, c2, c3⟩ := created hc a sense
  obtain ⟨s1', e1, n1⟩ := optRun_forward spread hf (Good := ForwardClipUp a sense) (fun o g ho hg => (clipup_ascent a sense ho hg).1) zss hz ⟨some mu, sigma, c⟩ fun _ _ => c1
  rw [hrun] at e1
  injection e1 with e1
  subst e1
  obtain ⟨hsame1, hsame2⟩ := opt_same zss hrun
  obtain ⟨v, hv1, hv2⟩ := (clipup_ascent a sense (n1 mu1 hmu1).1 hpos.le).2 hpos
  have hms : 0 < s1.opt.maxSpeed := by
    rw [hsame2]
    refine lt_of_le_of_ne c1.maxSpeed fun h => ?_
    rw [c3] at h
    cases maxSpeed with
    | none => simp at h; exact h1.ne' h
    | some m => exact h2 (congrArg some h.symm)
  refine ⟨⟨some fun j => mu1 j + v j, spread s1.sigma g.sigma, (s1.opt.ascent g.mu).1⟩, _, ?_, rfl, (gain_moves hf sense mu1 v).2.mpr (hv2 (by rw [hsame1, c2]; exact h1) hms)⟩
  unfold optGen
  simp only [hmu1, hg, Except.bind, hv1, Optimizers.addVec]

/-- **C176 for ClipUp, real progress.** After any number of generations, a generation whose solutions are not all equally good makes the center better (and not NaN), if the step size and the maximum speed are positive. -/
theorem C176_clipup_better {sort : Sorter ℝ} (hs : SorterSpec sort) (p : Pgpe) (hm : p.method = .nes ∨ p.method = .centered ∨ p.method = .linear) {f : Vec ℝ d → ℝ} (hf : Linear f)
    {stepsize momentum : ℝ} {maxSpeed : Option ℝ} {c : ClipUp d} (hc : ClipUp.create d stepsize momentum maxSpeed = .ok c) (h1 : 0 < stepsize) (h2 : maxSpeed ≠ some 0) (mu sigma : Vec ℝ d)
    (zss : List (List (Vec ℝ d))) (hz : ∀ zs ∈ zss, 2 ≤ zs.length) (s1 : OptState d (ClipUp d)) (hrun : pgpeOptRun ClipUp.ascent sort p f ⟨some mu, sigma, c⟩ zss = .ok s1)
    (mu1 : Vec ℝ d) (hmu1 : s1.mu = some mu1) (zs : List (Vec ℝ d)) (hzs : 2 ≤ zs.length) (hv : ∃ x ∈ population p (mu1, s1.sigma) zs, ∃ y ∈ population p (mu1, s1.sigma) zs, f x ≠ f y) :
    ∃ s2 mu2, pgpeOptGen ClipUp.ascent sort p f s1 zs = .ok s2 ∧ s2.mu = some mu2 ∧ StrictlyBetter p.sense (f mu2) (f mu1) := by
  obtain ⟨a, b, hf⟩ := hf
  obtain ⟨g, hg, -, hpos⟩ := gradient_forward hs p hf (mu1, s1.sigma) zs (rankable_of hm (by unfold population; split <;> simp <;> omega))
  exact clipup_informative (addSpread p.lrSigma) hf hc h1 h2 mu sigma zss (fun zs h => local_forward hs p hm hf zs (hz zs h)) s1 hrun mu1 hmu1 zs g hg (hpos hv)

/-! ### SGD -/

/-- An SGD whose momentum buffer does not point to worse places. -/
structure ForwardSGD (a : Vec ℝ d) (sense : Sense) (o : SGD d) : Prop where
  lr : 0 ≤ o.lr
  momentum : 0 ≤ o.momentum
  dampening : o.dampening ≤ 1
  buf : ∀ b, o.buf = some b → 0 ≤ gain a sense b

theorem sgd_ascent (a : Vec ℝ d) (sense : Sense) {o : SGD d} (ho : ForwardSGD a sense o) {g : Vec ℝ d} (hg : 0 ≤ gain a sense g) :
    ForwardSGD a sense (o.ascent g).1 ∧ 0 ≤ gain a sense (o.ascent g).2 := by
  have hneg : ∀ dir : Vec ℝ d, 0 ≤ gain a sense dir → 0 ≤ gain a sense (fun j => -1 * (0 - o.lr * dir j)) := by
    intro dir hd
    have : (fun j => -1 * (0 - o.lr * dir j)) = fun j => o.lr * dir j := by
      funext j
      ring
    rw [this, gain_smul]
    exact mul_nonneg ho.lr hd
  have hnest : ∀ w : Vec ℝ d, 0 ≤ gain a sense w → 0 ≤ gain a sense (fun j => g j + o.momentum * w j) := by
    intro w hw
    have := gain_add a sense 1 o.momentum g w
    simp only [one_mul] at this
    rw [this]
    exact add_nonneg hg (mul_nonneg ho.momentum hw)
  have hbuf : ∀ b : Vec ℝ d, 0 ≤ gain a sense b → 0 ≤ gain a sense (fun j => o.momentum * b j + (1 - o.dampening) * g j) := by
    intro b hb
    rw [gain_add]
    have : 0 ≤ 1 - o.dampening := sub_nonneg.mpr ho.dampening
    exact add_nonneg (mul_nonneg ho.momentum hb) (mul_nonneg this hg)
  obtain ⟨lr, momentum, dampening, nesterov, buf⟩ := o
  by_cases hm : momentum ≠ 0
  · cases buf with
    | none =>
      cases nesterov <;> simp only [SGD.ascent, if_pos hm] <;> refine ⟨⟨ho.lr, ho.momentum, ho.dampening, fun b h => ?_⟩, ?_⟩
      · injection h with h; exact h ▸ hg
      · exact hneg g hg
      · injection h with h; exact h ▸ hg
      · exact hneg _ (hnest g hg)
    | some b0 =>
      have hb := hbuf b0 (ho.buf b0 rfl)
      cases nesterov <;> simp only [SGD.ascent, if_pos hm] <;> refine ⟨⟨ho.lr, ho.momentum, ho.dampening, fun b h => ?_⟩, ?_⟩
      · injection h with h; exact h ▸ hb
      · exact hneg _ hb
      · injection h with h; exact h ▸ hb
      · exact hneg _ (hnest _ hb)
  · simp only [SGD.ascent, if_neg hm]
    exact ⟨⟨ho.lr, ho.momentum, ho.dampening, ho.buf⟩, hneg g hg⟩

theorem sgd_good (a : Vec ℝ d) (sense : Sense) (o : SGD d) (g : Vec ℝ d) (ho : ForwardSGD a sense o) (hg : 0 ≤ gain a sense g) (v : Vec ℝ d) (h : (sgdAscent o g).2 = some v) :
    ForwardSGD a sense (sgdAscent o g).1 ∧ 0 ≤ gain a sense v := by
  injection h with h
  exact ⟨(sgd_ascent a sense ho hg).1, h ▸ (sgd_ascent a sense ho hg).2⟩

theorem sgd_created (a : Vec ℝ d) (sense : Sense) {stepsize : ℝ} (h0 : 0 ≤ stepsize) {momentum dampening : Option ℝ} (h1 : ∀ m, momentum = some m → 0 ≤ m) (h2 : ∀ x, dampening = some x → x ≤ 1) (nesterov : Option Bool) :
    ForwardSGD a sense (SGD.create d stepsize momentum dampening nesterov) := by
  refine ⟨h0, ?_, ?_, fun b h => by cases h⟩
  · cases momentum with
    | none => exact le_rfl
    | some m => exact h1 m rfl
  · cases dampening with
    | none => exact zero_le_one
    | some x => exact h2 x rfl

/-- **C176 for SGD** with momentum, dampening or Nesterov's momentum: the same, and the center is never NaN. -/
theorem C176_sgd_run {sort : Sorter ℝ} (hs : SorterSpec sort) (p : Pgpe) (hm : p.method = .nes ∨ p.method = .centered ∨ p.method = .linear) {f : Vec ℝ d → ℝ} (hf : Linear f)
    {stepsize : ℝ} (h0 : 0 ≤ stepsize) {momentum dampening : Option ℝ} (h1 : ∀ m, momentum = some m → 0 ≤ m) (h2 : ∀ x, dampening = some x → x ≤ 1) (nesterov : Option Bool) (mu sigma : Vec ℝ d)
    (earlier later : List (List (Vec ℝ d))) (hz : ∀ zs ∈ earlier ++ later, 2 ≤ zs.length) :
    ∃ s1 s2 mu1 mu2, pgpeOptRun sgdAscent sort p f ⟨some mu, sigma, SGD.create d stepsize momentum dampening nesterov⟩ earlier = .ok s1 ∧
      pgpeOptRun sgdAscent sort p f ⟨some mu, sigma, SGD.create d stepsize momentum dampening nesterov⟩ (earlier ++ later) = .ok s2 ∧
      s1.mu = some mu1 ∧ s2.mu = some mu2 ∧ NotWorse p.sense (f mu2) (f mu1) := by
  obtain ⟨a, b, hf⟩ := hf
  obtain ⟨s1, s2, e1, e2, hw⟩ := two_times (addSpread p.lrSigma) hf (Good := ForwardSGD a p.sense) (sgd_good a p.sense) earlier later (fun zs h => local_forward hs p hm hf zs (hz zs h))
    ⟨some mu, sigma, SGD.create d stepsize momentum dampening nesterov⟩ fun _ _ => sgd_created a p.sense h0 h1 h2 nesterov
  obtain ⟨mu2, hmu2⟩ := Option.ne_none_iff_exists'.mp (stays_alive (by simp [sgdAscent]) (addSpread p.lrSigma) _ _ s2 (by simp) e2)
  obtain ⟨mu1, hmu1, hw⟩ := hw mu2 hmu2
  exact ⟨s1, s2, mu1, mu2, e1, e2, hmu1, hmu2, hw⟩

/-! ### Adam -/

theorem sort_pair {sort : Sorter ℝ} (hs : SorterSpec sort) {x y : ℝ} (h : y < x) : sort false [x, y] = [1, 0] := by
  obtain ⟨h1, h2⟩ := (hs [x, y]).1
  have hl : (sort false [x, y]).length = 2 := by simpa using h1.length_eq
  obtain ⟨i, j, e⟩ := List.length_eq_two.mp hl
  rw [e] at h1 h2 ⊢
  have hi : i = 0 ∨ i = 1 := by
    have : i ∈ List.range 2 := h1.mem_iff.mp (by simp)
    simp at this
    omega
  have hj : j = 0 ∨ j = 1 := by
    have : j ∈ List.range 2 := h1.mem_iff.mp (by simp)
    simp at this
    omega
  have hne : i ≠ j := by
    have := h1.nodup_iff.mpr List.nodup_range
    simpa using this
  rcases hi with rfl | rfl <;> rcases hj with rfl | rfl
  · exact absurd rfl hne
  · simp at h2
    linarith
  · rfl
  · exact absurd rfl hne

theorem adam_first (lr g eps : ℝ) : -1 * (0 - lr / (1 - (0.9 : ℝ) ^ (0 + 1)) * ((0 + (g - 0) * (1 - 0.9)) / (√(0 * 0.999 + (1 - 0.999) * (g * g)) / √(1 - (0.999 : ℝ) ^ (0 + 1)) + eps))) = lr * g / (|g| + eps) := by
  have e : √(0 * 0.999 + (1 - 0.999) * (g * g)) / √(1 - (0.999 : ℝ) ^ (0 + 1)) = |g| := by
    rw [← Real.sqrt_div' _ (by norm_num)]
    rw [show (0 * 0.999 + (1 - 0.999) * (g * g)) / (1 - (0.999 : ℝ) ^ (0 + 1)) = g * g by norm_num]
    exact Real.sqrt_mul_self_eq_abs g
  rw [e]
  norm_num
  ring

/-- A linear function to be maximised. -/
noncomputable def adamFit (x : Vec ℝ 2) : ℝ := x 0 + 3 / 2 * x 1

theorem adamFit_linear : Linear adamFit := ⟨![1, 3 / 2], 0, fun x => by simp [adamFit, Fin.sum_univ_two]⟩

/-- **C176 for Adam: not so.** With the default settings of PGPE and Adam, a generation can make the center worse, although one of the two solutions is better than the other and the gradient points to better places. -/
theorem C176_adam_violated : ∃ (p : Pgpe) (f : Vec ℝ 2 → ℝ) (mu sigma : Vec ℝ 2) (o : Adam 2) (zs : List (Vec ℝ 2)),
    Linear f ∧ p.method = .centered ∧ p.symmetric = true ∧ Adam.create 2 (some (1 / 10)) none none none = .ok o ∧
    ∀ sort : Sorter ℝ, SorterSpec sort → ∃ g s' mu', pgpeGradients sort p f (mu, sigma) zs = .ok g ∧ StrictlyBetter p.sense (f fun j => mu j + g.mu j) (f mu) ∧
      pgpeOptGen adamAscent sort p f ⟨some mu, sigma, o⟩ zs = .ok s' ∧ s'.mu = some mu' ∧ StrictlyBetter p.sense (f mu) (f mu') := by
  refine ⟨⟨true, some .numDirections, some .numDirections, .centered, .max, 1/10, 1/10⟩, adamFit, 0, 1, _, [![3, -1]], adamFit_linear, rfl, rfl, rfl, fun sort hs => ?_⟩
  have hsamples := symmetric_eq [![3, -1]] ((0 : Vec ℝ 2), (1 : Vec ℝ 2))
  have hfits : ([![3, -1]].flatMap fun z : Vec ℝ 2 => [fun j => (0 : Vec ℝ 2) j + (1 : Vec ℝ 2) j * z j, fun j => (0 : Vec ℝ 2) j - (1 : Vec ℝ 2) j * z j]).map adamFit = [3 / 2, - (3 / 2)] := by
    simp [adamFit]
    norm_num
  have hu : utilities sort .centered .max adamFit ([![3, -1]].flatMap fun z : Vec ℝ 2 => [fun j => (0 : Vec ℝ 2) j + (1 : Vec ℝ 2) j * z j, fun j => (0 : Vec ℝ 2) j - (1 : Vec ℝ 2) j * z j]) = [1 / 2, - (1 / 2)] := by
    rw [utilities, hfits]
    have := sort_pair hs (x := 3 / 2) (y := -(3 / 2)) (by norm_num)
    simp [rank, Ranking.centered, this, Ranking.scatter, Ranking.centeredWeights, List.range_succ]
    norm_num
  have hg : ∃ g, pgpeGradients sort ⟨true, some .numDirections, some .numDirections, .centered, .max, 1/10, 1/10⟩ adamFit ((0 : Vec ℝ 2), (1 : Vec ℝ 2)) [![3, -1]] = .ok g ∧ g.mu = ![3 / 2, - (1 / 2)] := by
    unfold pgpeGradients
    simp only [if_true]
    rw [hsamples]
    simp only [Except.bind, hu]
    refine ⟨_, rfl, ?_⟩
    funext j
    fin_cases j <;> norm_num [symmetricGradients, centerWeights, Method.alreadyCentered, evens, odds, divideGrad, weightedSum]
  obtain ⟨g, hg, hmu⟩ := hg
  obtain ⟨o, ho⟩ : ∃ o : Adam 2, o = ⟨(some (1 / 10 : ℝ)).getD 0.001, 0.9, 0.999, (none : Option ℝ).getD 1e-8, fun _ => 0, fun _ => 0, 0⟩ := ⟨_, rfl⟩
  rw [← ho]
  refine ⟨g, ⟨some fun j => (0 : Vec ℝ 2) j + (o.ascent g.mu).2 j, addSpread (1 / 10) 1 g.sigma, (o.ascent g.mu).1⟩, _, hg, ?_, ?_, rfl, ?_⟩
  · rw [hmu]
    simp [StrictlyBetter, adamFit]
    norm_num
  · unfold pgpeOptGen optGen
    simp only [hg, Except.bind, adamAscent, Optimizers.addVec]
  · have h0 := adam_first (1 / 10) (3 / 2) (1e-8)
    have h1 := adam_first (1 / 10) (-(1 / 2)) (1e-8)
    have e0 : (o.ascent g.mu).2 0 = 1 / 10 * (3 / 2) / (|3 / 2| + 1e-8) := by rw [hmu, ho, ← h0]; simp [Adam.ascent]
    have e1 : (o.ascent g.mu).2 1 = 1 / 10 * -(1 / 2) / (|-(1 / 2)| + 1e-8) := by rw [hmu, ho, ← h1]; simp [Adam.ascent]
    simp only [StrictlyBetter, adamFit, e0, e1, abs_neg]
    rw [abs_of_pos (by norm_num : (0 : ℝ) < 3 / 2), abs_of_pos (by norm_num : (0 : ℝ) < 1 / 2)]
    norm_num

/-! ### No information -/

/-- **C176 for ClipUp: the limit.** With raw fitnesses, a generation in which all solutions are equally good makes the center NaN: its gradient is zero and is divided by its own norm. -/
theorem C176_clipup_flat_violated (sort : Sorter ℝ) {p : Pgpe} (hp : SphereConvergence.RawMirrored p) (b : ℝ) {n : ℕ} (mu sigma : Vec ℝ d) (c : ClipUp d) (z : Fin n → Fin d → ℝ) :
    ∃ s', pgpeOptGen ClipUp.ascent sort p (fun _ => b) ⟨some mu, sigma, c⟩ (List.ofFn z) = .ok s' ∧ s'.mu = none := by
  obtain ⟨g', h⟩ := SphereConvergence.gen_center sort (p := { p with lrMu := 1 }) ⟨hp.symmetric, hp.raw, hp.perDirection⟩ (fun _ => b) (mu, sigma) z
  rw [pgpeGen_gradients] at h
  have e' : pgpeGradients sort { p with lrMu := 1 } (fun _ => b) (mu, sigma) (List.ofFn z) = pgpeGradients sort p (fun _ => b) (mu, sigma) (List.ofFn z) := rfl
  rw [e'] at h
  cases hg : pgpeGradients sort p (fun _ => b) (mu, sigma) (List.ofFn z) with
  | error x => rw [hg] at h; cases h
  | ok g =>
    rw [hg] at h
    injection h with h
    have hz : g.mu = fun _ => 0 := by
      funext j
      have := congrFun (congrArg Prod.fst h) j
      simpa [updateSeparable] using this
    have hn : Optimizers.normalize g.mu = none := by
      rw [Optimizers.normalize, if_pos]
      rw [hz]
      simp [Optimizers.norm]
    refine ⟨⟨none, addSpread p.lrSigma sigma g.sigma, (c.ascent g.mu).1⟩, ?_, rfl⟩
    unfold pgpeOptGen optGen
    have : (c.ascent g.mu).2 = none := by
      simp only [ClipUp.ascent, hn]
      cases c.velocity <;> rfl
    simp only [hg, Except.bind, this, Optimizers.addVec]

/-! ### The hypotheses can be met -/

/-- ClipUp with a step size of 0.1. -/
theorem exClipUp : ∃ c, ClipUp.create 2 (1/10) (9/10) none = .ok c := by
  refine ⟨⟨1/10, 9/10, 1/10 * 2, some fun _ => 0⟩, ?_⟩
  unfold ClipUp.create
  norm_num

example (zss : List (List (Vec ℝ 2))) (h : ∀ zs ∈ zss, zs.length = 10) : ∃ c s', ClipUp.create 2 (1/10) (9/10) none = .ok c ∧
    pgpeOptRun ClipUp.ascent exampleSorter ⟨true, some .numDirections, some .numDirections, .centered, .min, 1/10, 1/10⟩ exFit ⟨some 0, 1, c⟩ zss = .ok s' ∧ ∀ mu', s'.mu = some mu' → exFit mu' ≤ 5 := by
  obtain ⟨c, hc⟩ := exClipUp
  obtain ⟨s1, s2, h1, h2, h3⟩ := C176_clipup_run exampleSorter_spec ⟨true, some .numDirections, some .numDirections, .centered, .min, 1/10, 1/10⟩ (.inr (.inl rfl)) exFit_linear hc 0 1 [] zss
    (fun zs hz => by rw [h zs (by simpa using hz)]; norm_num)
  refine ⟨c, s2, hc, h2, fun mu' hm => ?_⟩
  obtain ⟨mu1, e, w⟩ := h3 mu' hm
  injection h1 with h1
  rw [← h1] at e
  injection e with e
  rw [← e] at w
  have e5 : exFit (0 : Vec ℝ 2) = 5 := by simp [exFit]
  simpa only [NotWorse, e5] using w

example : ∃ c s' mu', ClipUp.create 2 (1/10) (9/10) none = .ok c ∧
    pgpeOptGen ClipUp.ascent exampleSorter ⟨true, some .numDirections, some .numDirections, .centered, .min, 1/10, 1/10⟩ exFit ⟨some 0, 1, c⟩ [![1, 0], ![0, 1]] = .ok s' ∧ s'.mu = some mu' ∧ exFit mu' < 5 := by
  obtain ⟨c, hc⟩ := exClipUp
  obtain ⟨s2, mu2, h1, h2, h3⟩ := C176_clipup_better exampleSorter_spec ⟨true, some .numDirections, some .numDirections, .centered, .min, 1/10, 1/10⟩ (.inr (.inl rfl)) exFit_linear hc (by norm_num) (by simp) 0 1 [] (by simp)
    ⟨some 0, 1, c⟩ rfl 0 rfl [![1, 0], ![0, 1]] (by simp)
    ⟨![1, 0], by simp [population, funext_iff, Fin.forall_fin_two], ![0, 1], by simp [population, funext_iff, Fin.forall_fin_two], by norm_num [exFit]⟩
  have e5 : exFit (0 : Vec ℝ 2) = 5 := by simp [exFit]
  exact ⟨c, s2, mu2, hc, h1, h2, by simpa only [StrictlyBetter, e5] using h3⟩

example (zss : List (List (Vec ℝ 2))) (h : ∀ zs ∈ zss, zs.length = 10) : ∃ s' mu',
    pgpeOptRun sgdAscent exampleSorter ⟨true, some .numDirections, some .numDirections, .nes, .max, 1/10, 1/10⟩ exFit ⟨some 0, 1, SGD.create 2 (1/10) (some (9/10)) none (some true)⟩ zss = .ok s' ∧
    s'.mu = some mu' ∧ 5 ≤ exFit mu' := by
  obtain ⟨s1, s2, mu1, mu2, h1, h2, h3, h4, h5⟩ := C176_sgd_run exampleSorter_spec ⟨true, some .numDirections, some .numDirections, .nes, .max, 1/10, 1/10⟩ (.inl rfl) exFit_linear (stepsize := 1/10) (by norm_num)
    (momentum := some (9/10)) (dampening := none) (fun m h => by injection h with h; rw [← h]; norm_num) (by simp) (some true) 0 1 [] zss (fun zs hz => by rw [h zs (by simpa using hz)]; norm_num)
  injection h1 with h1
  rw [← h1] at h3
  injection h3 with h3
  rw [← h3] at h5
  have e5 : exFit (0 : Vec ℝ 2) = 5 := by simp [exFit]
  exact ⟨s2, mu2, h2, h4, by simpa only [NotWorse, e5] using h5⟩

example : SphereConvergence.RawMirrored ⟨true, some .numDirections, some .numDirections, .raw, .max, 1/10, 1/10⟩ := ⟨rfl, rfl, rfl⟩

end EvoTorch.LinearProgress
