import Verif.Model.ExpGaussian
import Verif.Props.StdevControl
import Mathlib.Data.Fin.VecNotation
import Mathlib.Analysis.SpecialFunctions.Exponential
/-! C47 (SNES part), C48: XNES keeps its inverse exact; C77: `cov`; C78: relative entropy. -/
namespace EvoTorch.ExpGaussian
open Matrix
variable {d : Nat}

/-! ### C47 -/

/-- **C47**, SNES without limits: for every learning rate and every history of gradients a positive standard deviation stays
positive. -/
theorem C47_snes_stays_positive (lr : ℝ) (sigma : Fin d → ℝ) (grads : List (Fin d → ℝ)) (h : ∀ j, 0 < sigma j) :
    ∀ j, 0 < snesRun lr sigma grads j := by
  unfold snesRun
  induction grads generalizing sigma with
  | nil => exact h
  | cons g gs ih => exact ih _ fun j => mul_pos (h j) (Real.exp_pos _)

/-- Non-vacuity: a positive start, and an update that shrinks it. -/
example : (∀ j, (0 : ℝ) < (![1, 2] : Fin 2 → ℝ) j) ∧ snesRun 1 (![1, 2] : Fin 2 → ℝ) [![-2, 0]] 0 = Real.exp (-1) := by
  constructor
  · intro j; fin_cases j <;> simp
  · simp [snesRun, snesUpdateSigma]; norm_num

section limits
open Modify Modify.Spec
/-- The factor `exp(0.5 * x)` on floats; the exponential of a finite number is finite (no overflow). -/
noncomputable def expHalf : Flt ℝ → Flt ℝ
  | .fin x => .fin (Real.exp (0.5 * x))
  | .ninf => .fin 0
  | .pinf => .pinf
  | .nan => .nan

theorem clip_ne_pinf {t : ℝ} {L U : Flt ℝ} (hL : L.isNan = false) (hU : U.isNan = false) (h : L ≠ .pinf) :
    Flt.min2 (Flt.max2 (.fin t) L) U ≠ .pinf := by
  have h1 : Flt.max2 (.fin t) L ≠ .pinf ∧ (Flt.max2 (.fin t) L).isNan = false := by
    rcases Flt.max2_cases (a := Flt.fin t) rfl hL with ⟨e, _⟩ | ⟨e, _⟩ <;> rw [e]
    · exact ⟨by simp, rfl⟩
    · exact ⟨h, hL⟩
  rcases Flt.min2_cases h1.2 hU with ⟨e, _⟩ | ⟨e, hle⟩ <;> rw [e]
  · exact h1.1
  · intro hp
    subst hp
    cases hm : Flt.max2 (Flt.fin t) L <;> simp_all [Flt.le]

theorem modifyElem_pos {o t : ℝ} (ho : 0 < o) (ht : 0 < t) {lb ub : Flt ℝ} (hlb : lb.isNan = false)
    (hub : Flt.lt (.fin 0) ub = true) {c : Option (Flt ℝ)} (hc : ∀ x, c = some x → ∃ c', x = .fin c' ∧ 0 ≤ c') :
    Flt.lt (.fin 0) (modifyElem (.fin o) (.fin t) lb ub c) = true := by
  have hclip : ∀ L U : Flt ℝ, L.isNan = false → Flt.lt (.fin 0) U = true →
      Flt.lt (.fin 0) (Flt.min2 (Flt.max2 (.fin t) L) U) = true := by
    intro L U hL hU
    have ht' : Flt.lt (.fin 0) (Flt.fin t) = true := by simpa [Flt.lt] using ht
    have hnot : ∀ a b : Flt ℝ, Flt.le a b = true → Flt.lt b a = false := by
      intro a b h; cases a <;> cases b <;> simp_all [Flt.lt, Flt.le]
    have h1 : Flt.lt (.fin 0) (Flt.max2 (.fin t) L) = true := by
      rcases Flt.max2_cases (a := Flt.fin t) rfl hL with ⟨e, _⟩ | ⟨e, h⟩ <;> rw [e]
      · exact ht'
      · exact Flt.lt_of_lt_of_not_lt hL ht' (hnot _ _ h)
    rcases Flt.min2_cases (Flt.isNan_of_lt_right h1) (Flt.isNan_of_lt_right hU) with ⟨e, _⟩ | ⟨e, _⟩ <;> rw [e] <;> assumption
  cases c with
  | none => exact hclip lb ub hlb hub
  | some x =>
    obtain ⟨c, rfl, hc0⟩ := hc x rfl
    simp only [modifyElem, allowed_fin, Flt.sub, Flt.add]
    apply hclip
    · exact Flt.max2_isNan hlb rfl
    · have h2 : Flt.lt (.fin 0) (Flt.fin (o + |o| * c)) = true := by
        have : 0 < o + |o| * c := by
          have := mul_nonneg (abs_nonneg o) hc0; linarith
        simpa [Flt.lt] using this
      rcases Flt.min2_cases (Flt.isNan_of_lt_right hub) (b := Flt.fin (o + |o| * c)) rfl with ⟨e, _⟩ | ⟨e, _⟩ <;> rw [e] <;>
        assumption

/-- **C47**, SNES with limits: whatever `stdev_min`, positive `stdev_max` and non-negative `stdev_max_change` are set, and
whether or not the standard deviation starts inside them, every (finite) standard deviation of the run is positive, for every
learning rate and every history of gradients: a run that starts positive never contains a value that is not positive. -/
theorem C47_snes_with_limits {c : Control ℝ} (lr : ℝ) (grads : List (List ℝ)) :
    ∀ sigma : List (Flt ℝ), ValidControl sigma.length c →
    (∀ i < sigma.length, Flt.lt (.fin 0) (upperAt c.stdevMax i) = true) →
    (∀ i < sigma.length, ∀ l, lowerAt c.stdevMin i = l → l ≠ .pinf) →
    (∀ g ∈ grads, g.length = sigma.length) → (∀ x ∈ sigma, ∃ y, x = .fin y ∧ 0 < y) →
    (stdevRun c (.multiplicative (.fin lr) expHalf) sigma (grads.map (List.map .fin))).length = grads.length + 1 ∧
    ∀ s ∈ stdevRun c (.multiplicative (.fin lr) expHalf) sigma (grads.map (List.map .fin)),
      ∀ x ∈ s, ∃ y, x = .fin y ∧ 0 < y := by
  induction grads with
  | nil =>
    intro sigma _ _ _ _ hp
    refine ⟨rfl, fun s hs => ?_⟩
    rw [List.mem_singleton.mp hs]; exact hp
  | cons g gs ih =>
    intro sigma hc hub hlow hg hp
    have hgl : g.length = sigma.length := hg g (by simp)
    -- the target of the step
    have htl : (Rule.target (.multiplicative (.fin lr) expHalf) sigma (g.map .fin)).length = sigma.length := by
      simp [Rule.target, hgl]
    have htgt : ∀ i (hi : i < sigma.length), ∃ o t : ℝ, sigma[i]? = some (.fin o) ∧ 0 < o ∧
        (Rule.target (.multiplicative (.fin lr) expHalf) sigma (g.map .fin))[i]? = some (.fin t) ∧ 0 < t := by
      intro i hi
      obtain ⟨o, eo, ho⟩ := hp sigma[i] (List.getElem_mem hi)
      refine ⟨o, o * Real.exp (0.5 * (lr * g[i])), by rw [List.getElem?_eq_getElem hi, eo], ho, ?_,
        mul_pos ho (Real.exp_pos _)⟩
      simp only [Rule.target, List.getElem?_zipWith, List.getElem?_map, List.getElem?_eq_getElem hi,
        List.getElem?_eq_getElem (hgl ▸ hi : i < g.length), Option.map_some, eo]
      rfl
    have hstep : ∃ s : List (Flt ℝ), updateStdev c (.multiplicative (.fin lr) expHalf) sigma (g.map .fin) = .ok s ∧
        s.length = sigma.length ∧ ∀ x ∈ s, ∃ y, x = .fin y ∧ 0 < y := by
      by_cases hn : c.stdevMin.isSome || c.stdevMax.isSome || c.stdevMaxChange.isSome
      · obtain ⟨r, er, hl, h⟩ := modifyTensor_eq sigma (Rule.target (.multiplicative (.fin lr) expHalf) sigma (g.map .fin))
          c.stdevMin c.stdevMax c.stdevMaxChange false htl hc.lo hc.hi hc.mc
        refine ⟨r, by simp [updateStdev, hn, er, Except.map], hl, fun x hx => ?_⟩
        obtain ⟨i, hi, rfl⟩ := List.getElem_of_mem hx
        have hi' : i < sigma.length := hl ▸ hi
        obtain ⟨o, t, eo, ho, et, ht⟩ := htgt i hi'
        have hne : ¬ (c.stdevMin = none ∧ c.stdevMax = none ∧ c.stdevMaxChange = none) := by
          rintro ⟨a, b, e⟩; simp [a, b, e] at hn
        have hv := (h i _ _ eo et).2 hne
        rw [List.getElem?_eq_getElem hi] at hv
        have hv := Option.some.inj hv
        have hlb : (lowerAt c.stdevMin i).isNan = false := by
          obtain ⟨l', _, hl'⟩ := convert_ok (d := .ninf) hc.lo
          have := (hl' i hi').2 rfl
          rw [(hl' i hi').1] at this
          exact this
        have hch : ∀ x, changeAt c.stdevMaxChange i = some x → ∃ c', x = .fin c' ∧ 0 ≤ c' := by
          intro x hx
          obtain ⟨c', rfl⟩ := changeAt_finite hc.mc hc.fin hi' x hx
          exact ⟨c', rfl, hc.nonneg i hi' c' hx⟩
        have hpos := modifyElem_pos ho ht hlb (hub i hi') hch
        -- the result is finite: it is below an upper limit or is the target or the lower limit
        have hfin : modifyElem (.fin o) (.fin t) (lowerAt c.stdevMin i) (upperAt c.stdevMax i)
            (changeAt c.stdevMaxChange i) ≠ .pinf := by
          have hl0 : lowerAt c.stdevMin i ≠ .pinf := hlow i hi' _ rfl
          rcases hcc : changeAt c.stdevMaxChange i with _ | x
          · exact clip_ne_pinf hlb (Flt.isNan_of_lt_right (hub i hi')) hl0
          · obtain ⟨c', rfl, _⟩ := hch x hcc
            simp only [modifyElem, allowed_fin, Flt.sub, Flt.add]
            apply clip_ne_pinf (Flt.max2_isNan hlb rfl) (Flt.min2_isNan (Flt.isNan_of_lt_right (hub i hi')) rfl)
            rcases Flt.max2_cases hlb (b := Flt.fin (o - |o| * c')) rfl with ⟨e, _⟩ | ⟨e, _⟩ <;> rw [e]
            · exact hl0
            · simp
        rw [hv]
        cases hx' : modifyElem (.fin o) (.fin t) (lowerAt c.stdevMin i) (upperAt c.stdevMax i)
            (changeAt c.stdevMaxChange i) with
        | fin y => rw [hx'] at hpos; exact ⟨y, rfl, by simpa [Flt.lt] using hpos⟩
        | pinf => exact absurd hx' hfin
        | ninf => rw [hx'] at hpos; simp [Flt.lt] at hpos
        | nan => rw [hx'] at hpos; simp [Flt.lt] at hpos
      · refine ⟨_, by simp [updateStdev, hn], htl, fun x hx => ?_⟩
        obtain ⟨i, hi, rfl⟩ := List.getElem_of_mem hx
        obtain ⟨o, t, _, _, et, ht⟩ := htgt i (htl ▸ hi)
        rw [List.getElem?_eq_getElem hi] at et
        exact ⟨t, Option.some.inj et, ht⟩
    obtain ⟨s, es, hsl, hsp⟩ := hstep
    obtain ⟨i1, i2⟩ := ih s (hsl ▸ hc) (hsl ▸ hub) (hsl ▸ hlow) (fun g' hg' => by rw [hsl]; exact hg g' (by simp [hg'])) hsp
    simp only [List.map_cons, stdevRun, es, List.length_cons, i1]
    refine ⟨trivial, fun s' hs' => ?_⟩
    rcases List.mem_cons.mp hs' with rfl | hs'
    · exact hp
    · exact i2 s' hs'

/-- The hypotheses of `C47_snes_with_limits` are met by a setting with all three limits. -/
example : ValidControl (K := ℝ) 1 ⟨some (.scalar (.fin 0)), some (.scalar (.fin 2)), some (.scalar (.fin 3))⟩ ∧
    Flt.lt (.fin 0) (upperAt (some (.scalar (.fin (2 : ℝ)))) 0) = true ∧
    lowerAt (some (.scalar (.fin (0 : ℝ)))) 0 ≠ .pinf := by
  refine ⟨⟨rfl, rfl, rfl, ⟨_, rfl⟩, ?_⟩, ?_, ?_⟩
  · intro i _ x hx
    simp only [changeAt, Option.some.injEq, Flt.fin.injEq] at hx
    subst hx; norm_num
  · simp [upperAt, limitAt, Flt.lt]
  · simp [lowerAt, limitAt]

end limits

/-! ### C48 -/

theorem update_inverse {lrMu : Option ℝ} {lrSigma : ℝ} {s s' : State d} {g : Grads d} (h : s.A * s.Ainv = 1)
    (hu : update lrMu lrSigma s g = .ok s') : s'.A * s'.Ainv = 1 := by
  cases lrMu with
  | none => simp [update] at hu
  | some lr =>
    simp only [update, Except.ok.injEq] at hu
    subst hu
    have hneg : ((-1/2 : ℝ) • (lrSigma • g.M)) = -((1/2 : ℝ) • (lrSigma • g.M)) := by
      rw [← neg_smul]; norm_num
    show s.A * NormedSpace.exp ((1/2 : ℝ) • (lrSigma • g.M)) *
      (NormedSpace.exp ((-1/2 : ℝ) • (lrSigma • g.M)) * s.Ainv) = 1
    rw [hneg, Matrix.mul_assoc, ← Matrix.mul_assoc (NormedSpace.exp _),
      ← Matrix.exp_add_of_commute _ _ (Commute.neg_right (Commute.refl ((1/2 : ℝ) • (lrSigma • g.M))))]
    simp [h]

theorem run_inverse {lrMu : Option ℝ} {lrSigma : ℝ} (gs : List (Grads d)) :
    ∀ {s s' : State d}, s.A * s.Ainv = 1 → run lrMu lrSigma s gs = .ok s' → s'.A * s'.Ainv = 1 := by
  induction gs with
  | nil => intro s s' h hr; simp only [run, Except.ok.injEq] at hr; exact hr ▸ h
  | cons g gs ih =>
    intro s s' h hr
    simp only [run, bind, Except.bind] at hr
    cases hu : update lrMu lrSigma s g with
    | error e => simp [hu] at hr
    | ok s1 => rw [hu] at hr; exact ih (update_inverse h hu) hr

/-- **C48.** For every dimension, initial center and non-singular initial standard deviations, learning rates and history of
gradients: the run succeeds (without an optimizer), the tracked inverse is the inverse on both sides, and local and global
coordinates are translated back and forth without loss. -/
theorem C48_inverse_exact (mu stdev : Fin d → ℝ) (hpos : ∀ j, stdev j ≠ 0) (lrMu lrSigma : ℝ) (gs : List (Grads d)) :
    ∃ s0 s, init mu stdev = .ok s0 ∧ run (some lrMu) lrSigma s0 gs = .ok s ∧
      s.A * s.Ainv = 1 ∧ s.Ainv * s.A = 1 ∧
      (∀ z, toLocal s (toGlobal s z) = z) ∧ (∀ x, toGlobal s (toLocal s x) = x) := by
  have hdet : (Matrix.diagonal stdev).det ≠ 0 := by
    rw [Matrix.det_diagonal]; exact Finset.prod_ne_zero_iff.mpr fun j _ => hpos j
  have hrun : ∀ (gs : List (Grads d)) (s : State d), ∃ s', run (some lrMu) lrSigma s gs = .ok s' := by
    intro gs
    induction gs with
    | nil => intro s; exact ⟨s, rfl⟩
    | cons g gs ih => intro s; exact ih _
  obtain ⟨s, hs⟩ := hrun gs ⟨mu, Matrix.diagonal stdev, (Matrix.diagonal stdev)⁻¹⟩
  refine ⟨_, s, by simp only [init, hdet, if_false], hs, ?_⟩
  have h1 : s.A * s.Ainv = 1 :=
    run_inverse gs (Matrix.mul_nonsing_inv _ (Ne.isUnit hdet)) hs
  have h2 : s.Ainv * s.A = 1 := mul_eq_one_comm.mp h1
  refine ⟨h1, h2, fun z => ?_, fun x => ?_⟩
  · simp [toLocal, toGlobal, Matrix.mulVec_mulVec, h2]
  · simp [toLocal, toGlobal, Matrix.mulVec_mulVec, h1]

/-- The gradients computed from the samples are one of the histories covered; a state in two dimensions. -/
example : ∃ s0 s, init (![0, 0] : Fin 2 → ℝ) ![1, 2] = .ok s0 ∧
    run (some 1) (1/10) s0 [gradients s0 false [![1, 1], ![2, 0]] [1, 2]] = .ok s ∧ s.A * s.Ainv = 1 := by
  have hp : ∀ j, (![1, 2] : Fin 2 → ℝ) j ≠ 0 := by intro j; fin_cases j <;> simp
  obtain ⟨s0, _, h0, _⟩ := C48_inverse_exact (![0, 0] : Fin 2 → ℝ) ![1, 2] hp 1 (1/10) []
  obtain ⟨s0', s, h0', hs, h1, _⟩ := C48_inverse_exact (![0, 0] : Fin 2 → ℝ) ![1, 2] hp 1 (1/10)
    [gradients s0 false [![1, 1], ![2, 0]] [1, 2]]
  rw [h0] at h0'
  injection h0' with h0'
  subst h0'
  exact ⟨s0, s, h0, hs, h1⟩

/-- With an optimizer for the center XNES cannot make a single update: a `KeyError` is raised. -/
theorem C48_optimizer_unusable (lrSigma : ℝ) (s : State d) (g : Grads d) (gs : List (Grads d)) :
    run none lrSigma s (g :: gs) = .error .keyError := rfl

example : run none 1 (⟨0, 1, 1⟩ : State 2) [⟨0, 0⟩] = .error .keyError := rfl

/-! ### C77: the reported covariance -/

/-- The covariance matrix of the vectors `mu + A z` for `z` with independent components of unit variance: the variance of
every linear functional `v` of the vector is the sum of the squared coefficients of `z` in it. -/
def IsSampleCovariance (s : State d) (C : Matrix (Fin d) (Fin d) ℝ) : Prop :=
  C.IsSymm ∧ ∀ v : Fin d → ℝ, v ⬝ᵥ C.mulVec v = ∑ k, (v ⬝ᵥ (toGlobal s (Pi.single k 1) - toGlobal s 0)) ^ 2

/-- The covariance of the samples is `A Aᵀ`. -/
theorem isSampleCovariance_self (s : State d) : IsSampleCovariance s (s.A * s.Aᵀ) := by
  refine ⟨by simp [Matrix.IsSymm], fun v => ?_⟩
  have h1 : v ⬝ᵥ (s.A * s.Aᵀ).mulVec v = s.Aᵀ.mulVec v ⬝ᵥ s.Aᵀ.mulVec v := by
    rw [← Matrix.mulVec_mulVec, Matrix.dotProduct_mulVec, ← Matrix.mulVec_transpose]
  rw [h1]
  simp only [dotProduct]
  refine Finset.sum_congr rfl fun k _ => ?_
  have : ∀ i, (toGlobal s (Pi.single k 1) - toGlobal s 0) i = s.A i k := by
    intro i; simp [toGlobal]
  simp only [this, Matrix.mulVec, dotProduct, Matrix.transpose_apply]
  rw [pow_two]
  congr 1 <;> exact Finset.sum_congr rfl fun i _ => mul_comm _ _

theorem isSampleCovariance_unique {s : State d} {C C' : Matrix (Fin d) (Fin d) ℝ} (h : IsSampleCovariance s C)
    (h' : IsSampleCovariance s C') : C = C' := by
  have hq : ∀ v : Fin d → ℝ, v ⬝ᵥ C.mulVec v = v ⬝ᵥ C'.mulVec v := fun v => (h.2 v).trans (h'.2 v).symm
  have hsingle : ∀ (B : Matrix (Fin d) (Fin d) ℝ) i j, (Pi.single i 1 : Fin d → ℝ) ⬝ᵥ B.mulVec (Pi.single j 1) = B i j := by
    intro B i j; simp
  ext i j
  have hi := hq (Pi.single i 1)
  have hj := hq (Pi.single j 1)
  have hij := hq (Pi.single i 1 + Pi.single j 1)
  simp only [Matrix.mulVec_add, add_dotProduct, dotProduct_add, hsingle] at hi hj hij
  have s1 : C j i = C i j := h.1.apply i j
  have s2 : C' j i = C' i j := h'.1.apply i j
  linarith

/-- **C77 (partial).** The reported covariance is the covariance of the samples for a freshly created distribution, and in
every state whose `A` commutes with its transpose (is normal). Missing: it fails in general, see `C77_violated`. -/
theorem C77_cov_partial : (∀ (mu stdev : Fin d → ℝ) s, init mu stdev = .ok s → IsSampleCovariance s (cov s)) ∧
    (∀ s : State d, IsSampleCovariance s (cov s) ↔ s.Aᵀ * s.A = s.A * s.Aᵀ) := by
  have key : ∀ s : State d, IsSampleCovariance s (cov s) ↔ s.Aᵀ * s.A = s.A * s.Aᵀ := fun s =>
    ⟨fun h => isSampleCovariance_unique h (isSampleCovariance_self s), fun h => by
      unfold cov; rw [h]; exact isSampleCovariance_self s⟩
  refine ⟨fun mu stdev s hs => (key s).2 ?_, key⟩
  unfold init at hs
  simp only at hs
  split at hs
  · cases hs
  · injection hs with hs; subst hs; simp

example : ∃ s, init (![0, 0] : Fin 2 → ℝ) ![1, 2] = .ok s ∧ IsSampleCovariance s (cov s) := by
  have hp : ∀ j, (![1, 2] : Fin 2 → ℝ) j ≠ 0 := by intro j; fin_cases j <;> simp
  obtain ⟨s0, _, h0, _⟩ := C48_inverse_exact (![0, 0] : Fin 2 → ℝ) ![1, 2] hp 1 1 []
  exact ⟨s0, h0, C77_cov_partial.1 _ _ _ h0⟩

theorem exp_swap_offdiag : NormedSpace.exp ((1/2 : ℝ) • (!![0, 1; 1, 0] : Matrix (Fin 2) (Fin 2) ℝ)) 0 1 ≠ 0 := by
  have hU : (!![1, 1; 1, -1] : Matrix (Fin 2) (Fin 2) ℝ)⁻¹ = !![1/2, 1/2; 1/2, -1/2] := by
    apply Matrix.inv_eq_right_inv
    ext i j; fin_cases i <;> fin_cases j <;> norm_num [Matrix.mul_apply, Fin.sum_univ_two]
  have hunit : IsUnit (!![1, 1; 1, -1] : Matrix (Fin 2) (Fin 2) ℝ) := by
    rw [Matrix.isUnit_iff_isUnit_det, Matrix.det_fin_two_of]; norm_num
  have hM : (1/2 : ℝ) • (!![0, 1; 1, 0] : Matrix (Fin 2) (Fin 2) ℝ) =
      !![1, 1; 1, -1] * Matrix.diagonal ![1/2, -1/2] * (!![1, 1; 1, -1] : Matrix (Fin 2) (Fin 2) ℝ)⁻¹ := by
    rw [hU]
    ext i j; fin_cases i <;> fin_cases j <;> 
      simp [Matrix.mul_apply, Fin.sum_univ_two, Matrix.vecMul, dotProduct, Matrix.diagonal_apply] <;> norm_num
  rw [hM, Matrix.exp_conj _ _ hunit, Matrix.exp_diagonal, hU]
  have hne : Real.exp (1/2) ≠ Real.exp (-1/2) := by
    intro h; have := Real.exp_injective h; norm_num at this
  have e0 : (NormedSpace.exp (![1/2, -1/2] : Fin 2 → ℝ)) 0 = Real.exp (1/2) := by
    rw [Pi.coe_exp]; simp [Real.exp_eq_exp_ℝ]
  have e1 : (NormedSpace.exp (![1/2, -1/2] : Fin 2 → ℝ)) 1 = Real.exp (-1/2) := by
    rw [Pi.coe_exp]; simp [Real.exp_eq_exp_ℝ]
  simp only [Matrix.mul_apply, Fin.sum_univ_two, Matrix.diagonal_apply, Matrix.of_apply, Matrix.cons_val', Matrix.cons_val_zero,
    Matrix.cons_val_one, Matrix.cons_val_fin_one, e0, e1]
  intro h
  apply hne
  norm_num at h
  linarith

/-- **C77, violated.** From standard deviations 1 and 2 in two dimensions, one symmetric update `M` (as every gradient
computed from samples is symmetric) gives a distribution whose reported covariance is not that of its samples. -/
theorem C77_violated : ∃ (s0 s : State 2) (g : Grads 2), init (![0, 0]) ![1, 2] = .ok s0 ∧ g.M.IsSymm ∧
    run (some 1) 1 s0 [g] = .ok s ∧ ¬ IsSampleCovariance s (cov s) := by
  have hp : ∀ j, (![1, 2] : Fin 2 → ℝ) j ≠ 0 := by intro j; fin_cases j <;> simp
  have hdet : (Matrix.diagonal (![1, 2] : Fin 2 → ℝ)).det ≠ 0 := by
    rw [Matrix.det_diagonal]; exact Finset.prod_ne_zero_iff.mpr fun j _ => hp j
  refine ⟨⟨![0, 0], Matrix.diagonal ![1, 2], (Matrix.diagonal ![1, 2])⁻¹⟩, _, ⟨0, !![0, 1; 1, 0]⟩,
    by simp only [init, hdet, if_false], ?_, rfl, ?_⟩
  · ext i j; fin_cases i <;> fin_cases j <;> rfl
  rw [C77_cov_partial.2]
  simp only [one_smul]
  have hE := exp_swap_offdiag
  have hsym : (NormedSpace.exp ((1/2 : ℝ) • (!![0, 1; 1, 0] : Matrix (Fin 2) (Fin 2) ℝ))).IsSymm := by
    unfold Matrix.IsSymm
    rw [← Matrix.exp_transpose]
    congr 1
    ext i j; fin_cases i <;> fin_cases j <;> rfl
  generalize NormedSpace.exp ((1/2 : ℝ) • (!![0, 1; 1, 0] : Matrix (Fin 2) (Fin 2) ℝ)) = E at hE hsym
  intro h
  have h00 := congrFun (congrFun h 0) 0
  have hs : E 1 0 = E 0 1 := hsym.apply 0 1
  simp [Matrix.mul_apply, Fin.sum_univ_two, Matrix.diagonal_apply, hs] at h00
  apply hE
  have : E 0 1 * E 0 1 = 0 := by nlinarith
  exact mul_self_eq_zero.mp this

/-! ### C78: relative entropy -/

theorem relativeEntropy_eq (mu0 sigma0 mu1 sigma1 : Fin d → ℝ) (h0 : ∀ j, 0 < sigma0 j) (h1 : ∀ j, 0 < sigma1 j) :
    relativeEntropy mu0 sigma0 mu1 sigma1 = 0.5 * ∑ j, ((sigma0 j ^ 2 / sigma1 j ^ 2 - 1 -
      Real.log (sigma0 j ^ 2 / sigma1 j ^ 2)) + (mu1 j - mu0 j) ^ 2 / sigma1 j ^ 2) := by
  unfold relativeEntropy
  simp only
  have hlog : ∀ j, Real.log (sigma0 j ^ 2 / sigma1 j ^ 2) = Real.log (sigma0 j ^ 2) - Real.log (sigma1 j ^ 2) := fun j =>
    Real.log_div (pow_pos (h0 j) 2).ne' (pow_pos (h1 j) 2).ne'
  simp only [hlog, Finset.sum_add_distrib, Finset.sum_sub_distrib]
  rw [Finset.sum_const, Finset.card_univ, Fintype.card_fin, nsmul_eq_mul]
  ring

/-- **C78.** For every dimension and every two separable Gaussians with positive standard deviations, the relative entropy is
never negative, and it is zero exactly when the two distributions are the same. -/
theorem C78_relative_entropy (mu0 sigma0 mu1 sigma1 : Fin d → ℝ) (h0 : ∀ j, 0 < sigma0 j) (h1 : ∀ j, 0 < sigma1 j) :
    0 ≤ relativeEntropy mu0 sigma0 mu1 sigma1 ∧
    (relativeEntropy mu0 sigma0 mu1 sigma1 = 0 ↔ mu0 = mu1 ∧ sigma0 = sigma1) := by
  rw [relativeEntropy_eq _ _ _ _ h0 h1]
  have hr : ∀ j, 0 < sigma0 j ^ 2 / sigma1 j ^ 2 := fun j => div_pos (pow_pos (h0 j) 2) (pow_pos (h1 j) 2)
  have ha : ∀ j, 0 ≤ sigma0 j ^ 2 / sigma1 j ^ 2 - 1 - Real.log (sigma0 j ^ 2 / sigma1 j ^ 2) := fun j => by
    have := Real.log_le_sub_one_of_pos (hr j); linarith
  have hb : ∀ j, 0 ≤ (mu1 j - mu0 j) ^ 2 / sigma1 j ^ 2 := fun j => by positivity
  have hn : ∀ j ∈ Finset.univ, 0 ≤ (sigma0 j ^ 2 / sigma1 j ^ 2 - 1 - Real.log (sigma0 j ^ 2 / sigma1 j ^ 2)) +
      (mu1 j - mu0 j) ^ 2 / sigma1 j ^ 2 := fun j _ => add_nonneg (ha j) (hb j)
  refine ⟨mul_nonneg (by norm_num) (Finset.sum_nonneg hn), ?_, ?_⟩
  · intro h
    have hs : ∑ j, ((sigma0 j ^ 2 / sigma1 j ^ 2 - 1 - Real.log (sigma0 j ^ 2 / sigma1 j ^ 2)) +
      (mu1 j - mu0 j) ^ 2 / sigma1 j ^ 2) = 0 := by
        rcases mul_eq_zero.mp h with h | h
        · norm_num at h
        · exact h
    have hz := (Finset.sum_eq_zero_iff_of_nonneg hn).mp hs
    constructor
    · funext j
      have := hz j (Finset.mem_univ j)
      have hbz : (mu1 j - mu0 j) ^ 2 / sigma1 j ^ 2 = 0 := by linarith [ha j, hb j]
      rcases div_eq_zero_iff.mp hbz with h | h
      · have := pow_eq_zero_iff (two_ne_zero) |>.mp h; linarith
      · exact absurd h (pow_pos (h1 j) 2).ne'
    · funext j
      have := hz j (Finset.mem_univ j)
      have haz : sigma0 j ^ 2 / sigma1 j ^ 2 - 1 - Real.log (sigma0 j ^ 2 / sigma1 j ^ 2) = 0 := by linarith [ha j, hb j]
      by_contra hne
      have hr1 : sigma0 j ^ 2 / sigma1 j ^ 2 ≠ 1 := by
        intro h
        rw [div_eq_one_iff_eq (pow_pos (h1 j) 2).ne'] at h
        exact hne ((sq_eq_sq₀ (h0 j).le (h1 j).le).mp h)
      have := Real.log_lt_sub_one_of_pos (hr j) hr1
      linarith
  · rintro ⟨rfl, rfl⟩
    have : ∀ j, sigma0 j ^ 2 / sigma0 j ^ 2 = 1 := fun j => div_self (pow_pos (h0 j) 2).ne'
    simp [this]

/-- Non-vacuity: two different distributions, positive divergence. -/
example : 0 < relativeEntropy (![0] : Fin 1 → ℝ) ![1] ![1] ![1] := by
  simp [relativeEntropy]; norm_num

end EvoTorch.ExpGaussian
