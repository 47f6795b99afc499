import Verif.Props.Operators
import Mathlib.Analysis.MeanInequalitiesPow
import Mathlib.MeasureTheory.Constructions.Pi
import Mathlib.MeasureTheory.Measure.Lebesgue.Basic
/-!
C183: the parameter `eta` of simulated binary cross-over and of polynomial mutation: the laws of the children for a uniformly distributed draw, and that a bigger `eta` keeps the children closer to
their parents.
-/
namespace EvoTorch.Operators
open MeasureTheory
variable {n l : Nat}

/-! ### Specification -/

/-- Deb and Tiwari (2008): the chance of moving by at least `dist` towards a bound which is `room` away, both as shares of the range between the bounds. -/
noncomputable def chanceBeyond (eta room dist : ℝ) : ℝ :=
  1 / 2 * (((1 - dist) ^ (eta + 1) - (1 - room) ^ (eta + 1)) / (1 - (1 - room) ^ (eta + 1)))

/-! ### Powers -/

theorem root_le {v s p : ℝ} (hp : 0 < p) (hv : 0 ≤ v) (hs : 0 ≤ s) : v ^ (1 / p) ≤ s ↔ v ≤ s ^ p := by
  rw [one_div, Real.rpow_inv_le_iff_of_pos hv hs hp]

theorem blend_le {p a s q : ℝ} (hp : 0 < p) (ha : 0 ≤ a) (ha1 : a < 1) (hs : a ≤ s) (hq0 : 0 ≤ q) (_ : q ≤ 1) :
    (q + (1 - q) * a ^ p) ^ (1 / p) ≤ s ↔ q ≤ (s ^ p - a ^ p) / (1 - a ^ p) := by
  have h1 : a ^ p < 1 := Real.rpow_lt_one ha ha1 hp
  have h0 : 0 ≤ a ^ p := Real.rpow_nonneg ha p
  rw [root_le hp (by nlinarith) (ha.trans hs), le_div_iff₀ (by linarith)]
  constructor <;> intro h <;> nlinarith

/-- The mean of 1 and `a` with a bigger exponent is bigger. -/
theorem blend_mono {p p' a q : ℝ} (hp : 0 < p) (hpp : p ≤ p') (ha : 0 ≤ a) (hq0 : 0 ≤ q) (hq1 : q ≤ 1) :
    (q + (1 - q) * a ^ p) ^ (1 / p) ≤ (q + (1 - q) * a ^ p') ^ (1 / p') := by
  have hp' : 0 < p' := lt_of_lt_of_le hp hpp
  have h0 : 0 ≤ a ^ p := Real.rpow_nonneg ha p
  have h0' : 0 ≤ a ^ p' := Real.rpow_nonneg ha p'
  have hv : 0 ≤ q + (1 - q) * a ^ p := by nlinarith
  have hv' : 0 ≤ q + (1 - q) * a ^ p' := by nlinarith
  have key := Real.rpow_arith_mean_le_arith_mean_rpow (Finset.univ : Finset (Fin 2)) ![q, 1 - q] ![1, a ^ p]
    (by intro i _; fin_cases i <;> simp <;> linarith) (by simp) (by intro i _; fin_cases i <;> simp [h0]) (p := p' / p) ((one_le_div hp).mpr hpp)
  simp only [Fin.sum_univ_two, Matrix.cons_val_zero, Matrix.cons_val_one, Real.one_rpow, mul_one] at key
  rw [← Real.rpow_mul ha, mul_div_cancel₀ _ hp.ne'] at key
  rw [root_le hp hv (Real.rpow_nonneg hv' _), ← Real.rpow_mul hv', one_div, inv_mul_eq_div]
  have := Real.rpow_le_rpow (Real.rpow_nonneg hv _) key (show 0 ≤ p / p' by positivity)
  rwa [← Real.rpow_mul hv, div_mul_div_cancel₀ hp.ne', div_self hp'.ne', Real.rpow_one] at this

/-! ### Polynomial mutation -/

/-- The value of `polyMutated` where it is a number. -/
noncomputable def polyNumber (eta lb ub r x : ℝ) : ℝ :=
  if r < 1 / 2 then x + ((2 * r + (1 - 2 * r) * (1 - (x - lb) / (ub - lb)) ^ (eta + 1)) ^ (1 / (eta + 1)) - 1) * (ub - lb)
  else x + (1 - (2 * (1 - r) + (1 - 2 * (1 - r)) * (1 - (ub - x) / (ub - lb)) ^ (eta + 1)) ^ (1 / (eta + 1))) * (ub - lb)

theorem room {lb ub x : ℝ} (hlt : lb < ub) (h1 : lb ≤ x) (h2 : x ≤ ub) :
    (0 : ℝ) ≤ 1 - (x - lb) / (ub - lb) ∧ 1 - (x - lb) / (ub - lb) ≤ 1 ∧ (0 : ℝ) ≤ 1 - (ub - x) / (ub - lb) ∧ 1 - (ub - x) / (ub - lb) ≤ 1 := by
  have hd : 0 < ub - lb := by linarith
  refine ⟨?_, ?_, ?_, ?_⟩
  · rw [sub_nonneg, div_le_one hd]; linarith
  · have : 0 ≤ (x - lb) / (ub - lb) := div_nonneg (by linarith) hd.le
    linarith
  · rw [sub_nonneg, div_le_one hd]; linarith
  · have : 0 ≤ (ub - x) / (ub - lb) := div_nonneg (by linarith) hd.le
    linarith

theorem polyMutated_number {eta lb ub r x : ℝ} (hlt : lb < ub) (h1 : lb ≤ x) (h2 : x ≤ ub) (hr0 : 0 ≤ r) (hr1 : r ≤ 1) :
    polyMutated eta lb ub r x = some (polyNumber eta lb ub r x) := by
  have hd0 : ub - lb ≠ 0 := by linarith
  obtain ⟨a0, a1, b0, b1⟩ := room hlt h1 h2
  simp only [polyMutated, nanDiv, if_neg hd0, Option.bind_eq_bind, Option.bind_some, polyNumber]
  by_cases hr : r < 1 / 2
  · have := Real.rpow_nonneg a0 (eta + 1)
    simp only [if_pos hr, nanPow, if_pos a0, Option.bind_some, if_pos (show 0 ≤ 2 * r + (1 - 2 * r) * (1 - (x - lb) / (ub - lb)) ^ (eta + 1) by nlinarith)]
    rfl
  · have := Real.rpow_nonneg b0 (eta + 1)
    push Not at hr
    simp only [if_neg (not_lt.mpr hr), nanPow, if_pos b0, Option.bind_some]
    rw [show 2 * (1 - r) + 2 * (r - 1 / 2) * (1 - (ub - x) / (ub - lb)) ^ (eta + 1) = 2 * (1 - r) + (1 - 2 * (1 - r)) * (1 - (ub - x) / (ub - lb)) ^ (eta + 1) by ring,
      if_pos (by nlinarith)]
    rfl

/-- A gene after polynomial mutation, as a function of its own draw. -/
theorem polynomialMutation_number {eta : ℝ} (he : 0 < eta + 1) {lb ub : Fin l → ℝ} (hlt : ∀ j, lb j < ub j) {mutate : Fin n → Fin l → Bool} {r data : Fin n → Fin l → ℝ}
    (hd : ∀ i j, lb j ≤ data i j ∧ data i j ≤ ub j) {i : Fin n} {j : Fin l} (hm : mutate i j = true) (hr : 0 ≤ r i j ∧ r i j ≤ 1) :
    polynomialMutation eta lb ub mutate r data i j = some (polyNumber eta (lb j) (ub j) (r i j) (data i j)) := by
  have e := polyMutated_number (eta := eta) (hlt j) (hd i j).1 (hd i j).2 hr.1 hr.2
  obtain ⟨y, hy, h1, h2⟩ := polyMutated_within he (hlt j) (hd i j).1 (hd i j).2 hr.1 hr.2
  have : y = polyNumber eta (lb j) (ub j) (r i j) (data i j) := by rw [e] at hy; exact (Option.some.inj hy).symm
  subst this
  simp only [polynomialMutation, if_pos hm, e, Option.map_some]
  rw [respectBounds_id]
  exact ⟨fun _ h => by cases h; exact h1, fun _ h => by cases h; exact h2⟩

/-- Which draws lead to or below a point below the parent. -/
theorem below_iff {eta lb ub r x t : ℝ} (he : 0 < eta + 1) (h1 : lb ≤ t) (ht : t < x) (h2 : x ≤ ub) (hr0 : 0 ≤ r) (hr1 : r ≤ 1) :
    polyNumber eta lb ub r x ≤ t ↔ r ≤ chanceBeyond eta ((x - lb) / (ub - lb)) ((x - t) / (ub - lb)) := by
  have hlt : lb < ub := by linarith
  have hd : 0 < ub - lb := by linarith
  obtain ⟨a0, a1, b0, b1⟩ := room hlt (h1.trans ht.le) h2
  have hroom : 0 < (x - lb) / (ub - lb) := div_pos (by linarith) hd
  have hdist : 0 < (x - t) / (ub - lb) := div_pos (by linarith) hd
  have hle : (x - t) / (ub - lb) ≤ (x - lb) / (ub - lb) := by gcongr
  have hs0 : 0 ≤ 1 - (x - t) / (ub - lb) := by linarith
  have hQ : ((1 - (x - t) / (ub - lb)) ^ (eta + 1) - (1 - (x - lb) / (ub - lb)) ^ (eta + 1)) / (1 - (1 - (x - lb) / (ub - lb)) ^ (eta + 1)) < 1 := by
    have ha : (1 - (x - lb) / (ub - lb)) ^ (eta + 1) < 1 := Real.rpow_lt_one a0 (by linarith) he
    have hs : (1 - (x - t) / (ub - lb)) ^ (eta + 1) < 1 := Real.rpow_lt_one hs0 (by linarith) he
    rw [div_lt_one (by linarith)]
    linarith
  unfold polyNumber chanceBeyond
  split_ifs with hr
  · have := blend_le he a0 (by linarith) (show 1 - (x - lb) / (ub - lb) ≤ 1 - (x - t) / (ub - lb) by linarith) (q := 2 * r) (by linarith) (by linarith)
    rw [show r ≤ 1 / 2 * (((1 - (x - t) / (ub - lb)) ^ (eta + 1) - (1 - (x - lb) / (ub - lb)) ^ (eta + 1)) / (1 - (1 - (x - lb) / (ub - lb)) ^ (eta + 1))) ↔
      2 * r ≤ ((1 - (x - t) / (ub - lb)) ^ (eta + 1) - (1 - (x - lb) / (ub - lb)) ^ (eta + 1)) / (1 - (1 - (x - lb) / (ub - lb)) ^ (eta + 1)) from ⟨fun h => by linarith, fun h => by linarith⟩, ← this]
    generalize (2 * r + (1 - 2 * r) * (1 - (x - lb) / (ub - lb)) ^ (eta + 1)) ^ (1 / (eta + 1)) = D
    rw [le_sub_comm, div_le_iff₀ hd]
    constructor <;> intro h <;> nlinarith
  · refine iff_of_false ?_ (by linarith)
    have hb : (1 - (ub - x) / (ub - lb)) ^ (eta + 1) ≤ 1 := Real.rpow_le_one b0 b1 he.le
    have hb0 := Real.rpow_nonneg b0 (eta + 1)
    have : (2 * (1 - r) + (1 - 2 * (1 - r)) * (1 - (ub - x) / (ub - lb)) ^ (eta + 1)) ^ (1 / (eta + 1)) ≤ 1 := Real.rpow_le_one (by nlinarith) (by nlinarith) (by positivity)
    nlinarith

/-- Which draws lead to or above a point above the parent. -/
theorem above_iff {eta lb ub r x t : ℝ} (he : 0 < eta + 1) (h1 : lb ≤ x) (ht : x < t) (h2 : t ≤ ub) (hr0 : 0 ≤ r) (hr1 : r ≤ 1) :
    t ≤ polyNumber eta lb ub r x ↔ 1 - chanceBeyond eta ((ub - x) / (ub - lb)) ((t - x) / (ub - lb)) ≤ r := by
  have hlt : lb < ub := by linarith
  have hd : 0 < ub - lb := by linarith
  obtain ⟨a0, a1, b0, b1⟩ := room hlt h1 (ht.le.trans h2)
  have hroom : 0 < (ub - x) / (ub - lb) := div_pos (by linarith) hd
  have hdist : 0 < (t - x) / (ub - lb) := div_pos (by linarith) hd
  have hle : (t - x) / (ub - lb) ≤ (ub - x) / (ub - lb) := by gcongr
  have hs0 : 0 ≤ 1 - (t - x) / (ub - lb) := by linarith
  have hQ : ((1 - (t - x) / (ub - lb)) ^ (eta + 1) - (1 - (ub - x) / (ub - lb)) ^ (eta + 1)) / (1 - (1 - (ub - x) / (ub - lb)) ^ (eta + 1)) < 1 := by
    have ha : (1 - (ub - x) / (ub - lb)) ^ (eta + 1) < 1 := Real.rpow_lt_one b0 (by linarith) he
    have hs : (1 - (t - x) / (ub - lb)) ^ (eta + 1) < 1 := Real.rpow_lt_one hs0 (by linarith) he
    rw [div_lt_one (by linarith)]
    linarith
  unfold polyNumber chanceBeyond
  split_ifs with hr
  · refine iff_of_false ?_ (by linarith)
    have hb : (1 - (x - lb) / (ub - lb)) ^ (eta + 1) ≤ 1 := Real.rpow_le_one a0 a1 he.le
    have hb0 := Real.rpow_nonneg a0 (eta + 1)
    have : (2 * r + (1 - 2 * r) * (1 - (x - lb) / (ub - lb)) ^ (eta + 1)) ^ (1 / (eta + 1)) ≤ 1 := Real.rpow_le_one (by nlinarith) (by nlinarith) (by positivity)
    nlinarith
  · push Not at hr
    have := blend_le he b0 (by linarith) (show 1 - (ub - x) / (ub - lb) ≤ 1 - (t - x) / (ub - lb) by linarith) (q := 2 * (1 - r)) (by linarith) (by linarith)
    rw [show 1 - 1 / 2 * (((1 - (t - x) / (ub - lb)) ^ (eta + 1) - (1 - (ub - x) / (ub - lb)) ^ (eta + 1)) / (1 - (1 - (ub - x) / (ub - lb)) ^ (eta + 1))) ≤ r ↔
      2 * (1 - r) ≤ ((1 - (t - x) / (ub - lb)) ^ (eta + 1) - (1 - (ub - x) / (ub - lb)) ^ (eta + 1)) / (1 - (1 - (ub - x) / (ub - lb)) ^ (eta + 1)) from ⟨fun h => by linarith, fun h => by linarith⟩, ← this]
    generalize (2 * (1 - r) + (1 - 2 * (1 - r)) * (1 - (ub - x) / (ub - lb)) ^ (eta + 1)) ^ (1 / (eta + 1)) = D
    rw [le_sub_comm, div_le_iff₀ hd]
    constructor <;> intro h <;> nlinarith

theorem chanceBeyond_bounds {eta room dist : ℝ} (he : 0 < eta + 1) (h0 : 0 < dist) (h1 : dist ≤ room) (h2 : room ≤ 1) : 0 ≤ chanceBeyond eta room dist ∧ chanceBeyond eta room dist < 1 / 2 := by
  have ha : (1 - room) ^ (eta + 1) < 1 := Real.rpow_lt_one (by linarith) (by linarith) he
  have hs : (1 - dist) ^ (eta + 1) < 1 := Real.rpow_lt_one (by linarith) (by linarith) he
  have hle : (1 - room) ^ (eta + 1) ≤ (1 - dist) ^ (eta + 1) := Real.rpow_le_rpow (by linarith) (by linarith) he.le
  unfold chanceBeyond
  have h0 : 0 ≤ ((1 - dist) ^ (eta + 1) - (1 - room) ^ (eta + 1)) / (1 - (1 - room) ^ (eta + 1)) := div_nonneg (by linarith) (by linarith)
  have h1 : ((1 - dist) ^ (eta + 1) - (1 - room) ^ (eta + 1)) / (1 - (1 - room) ^ (eta + 1)) < 1 := by rw [div_lt_one (by linarith)]; linarith
  constructor <;> linarith

theorem chanceBeyond_anti {eta room dist dist' : ℝ} (he : 0 < eta + 1) (h0 : 0 ≤ dist) (hlt : dist < dist') (h1 : dist' ≤ room) (h2 : room ≤ 1) : chanceBeyond eta room dist' < chanceBeyond eta room dist := by
  have ha : (1 - room) ^ (eta + 1) < 1 := Real.rpow_lt_one (by linarith) (by linarith) he
  have hs : (1 - dist') ^ (eta + 1) < (1 - dist) ^ (eta + 1) := Real.rpow_lt_rpow (by linarith) (by linarith) he
  unfold chanceBeyond
  have : 0 < 1 - (1 - room) ^ (eta + 1) := by linarith
  gcongr

/-- **C183: the law of polynomial mutation.** A selected gene depends on its own draw only. For a draw uniformly distributed over [0, 1] its new value is at or below a point `t` below the parent, and at or above
a point above it, with the chances of Deb and Tiwari (2008). -/
theorem C183_polynomial_law {eta : ℝ} (he : 0 < eta + 1) {lb ub : Fin l → ℝ} (hlt : ∀ j, lb j < ub j) (mutate : Fin n → Fin l → Bool) (data : Fin n → Fin l → ℝ)
    (hd : ∀ i j, lb j ≤ data i j ∧ data i j ≤ ub j) (i : Fin n) (j : Fin l) (hm : mutate i j = true) :
    ∃ gene : ℝ → ℝ, (∀ r : Fin n → Fin l → ℝ, 0 ≤ r i j → r i j ≤ 1 → polynomialMutation eta lb ub mutate r data i j = some (gene (r i j))) ∧
      (∀ t, lb j ≤ t → t < data i j → volume {u | u ∈ Set.Icc (0 : ℝ) 1 ∧ gene u ≤ t} = ENNReal.ofReal (chanceBeyond eta ((data i j - lb j) / (ub j - lb j)) ((data i j - t) / (ub j - lb j)))) ∧
      (∀ t, data i j < t → t ≤ ub j → volume {u | u ∈ Set.Icc (0 : ℝ) 1 ∧ t ≤ gene u} = ENNReal.ofReal (chanceBeyond eta ((ub j - data i j) / (ub j - lb j)) ((t - data i j) / (ub j - lb j)))) := by
  refine ⟨fun u => polyNumber eta (lb j) (ub j) u (data i j), fun r h0 h1 => polynomialMutation_number he hlt hd hm ⟨h0, h1⟩, fun t h1 ht => ?_, fun t ht h2 => ?_⟩
  · have hw : 0 < ub j - lb j := by linarith [hlt j]
    obtain ⟨q0, q1⟩ := chanceBeyond_bounds (room := (data i j - lb j) / (ub j - lb j)) (dist := (data i j - t) / (ub j - lb j)) he (div_pos (by linarith) hw) (by gcongr)
      (by rw [div_le_one hw]; linarith [(hd i j).2])
    have : {u | u ∈ Set.Icc (0 : ℝ) 1 ∧ polyNumber eta (lb j) (ub j) u (data i j) ≤ t} = Set.Icc 0 (chanceBeyond eta ((data i j - lb j) / (ub j - lb j)) ((data i j - t) / (ub j - lb j))) := by
      ext u
      simp only [Set.mem_ofPred_eq, Set.mem_Icc]
      constructor
      · rintro ⟨⟨u0, u1⟩, hu⟩
        exact ⟨u0, (below_iff he h1 ht (hd i j).2 u0 u1).mp hu⟩
      · rintro ⟨u0, hu⟩
        exact ⟨⟨u0, by linarith⟩, (below_iff he h1 ht (hd i j).2 u0 (by linarith)).mpr hu⟩
    rw [this, Real.volume_Icc, sub_zero]
  · have hw : 0 < ub j - lb j := by linarith [hlt j]
    obtain ⟨q0, q1⟩ := chanceBeyond_bounds (room := (ub j - data i j) / (ub j - lb j)) (dist := (t - data i j) / (ub j - lb j)) he (div_pos (by linarith) hw) (by gcongr)
      (by rw [div_le_one hw]; linarith [(hd i j).1])
    have : {u | u ∈ Set.Icc (0 : ℝ) 1 ∧ t ≤ polyNumber eta (lb j) (ub j) u (data i j)} = Set.Icc (1 - chanceBeyond eta ((ub j - data i j) / (ub j - lb j)) ((t - data i j) / (ub j - lb j))) 1 := by
      ext u
      simp only [Set.mem_ofPred_eq, Set.mem_Icc]
      constructor
      · rintro ⟨⟨u0, u1⟩, hu⟩
        exact ⟨(above_iff he (hd i j).1 ht h2 u0 u1).mp hu, u1⟩
      · rintro ⟨hu, u1⟩
        exact ⟨⟨by linarith, u1⟩, (above_iff he (hd i j).1 ht h2 (by linarith) u1).mpr hu⟩
    rw [this, Real.volume_Icc, sub_sub_cancel]

theorem gene_anywhere {eta lb ub x c d : ℝ} (he : 0 < eta + 1) (h1 : lb ≤ x) (h2 : x ≤ ub) (hc : lb ≤ c) (hcd : c < d) (hd : d ≤ ub) :
    0 < volume {u | u ∈ Set.Icc (0 : ℝ) 1 ∧ c < polyNumber eta lb ub u x ∧ polyNumber eta lb ub u x < d} := by
  have hw : 0 < ub - lb := by linarith
  rcases lt_or_ge c x with hx | hx
  · obtain ⟨b, hb1, hb2⟩ := exists_between (lt_min hcd hx)
    obtain ⟨a, ha1, ha2⟩ := exists_between hb1
    have hbd := lt_of_lt_of_le hb2 (min_le_left _ _)
    have hbx := lt_of_lt_of_le hb2 (min_le_right _ _)
    have hanti : chanceBeyond eta ((x - lb) / (ub - lb)) ((x - a) / (ub - lb)) < chanceBeyond eta ((x - lb) / (ub - lb)) ((x - b) / (ub - lb)) :=
      chanceBeyond_anti he (div_nonneg (by linarith) hw.le) (by gcongr) (by gcongr; linarith) (by rw [div_le_one hw]; linarith)
    obtain ⟨q0, -⟩ := chanceBeyond_bounds (eta := eta) (room := (x - lb) / (ub - lb)) (dist := (x - a) / (ub - lb)) he (div_pos (by linarith) hw) (by gcongr; linarith) (by rw [div_le_one hw]; linarith)
    obtain ⟨-, q1⟩ := chanceBeyond_bounds (eta := eta) (room := (x - lb) / (ub - lb)) (dist := (x - b) / (ub - lb)) he (div_pos (by linarith) hw) (by gcongr; linarith) (by rw [div_le_one hw]; linarith)
    refine lt_of_lt_of_le ?_ (measure_mono (show Set.Ioc (chanceBeyond eta ((x - lb) / (ub - lb)) ((x - a) / (ub - lb))) (chanceBeyond eta ((x - lb) / (ub - lb)) ((x - b) / (ub - lb))) ⊆ _ from ?_))
    · rw [Real.volume_Ioc]
      exact ENNReal.ofReal_pos.mpr (by linarith)
    · rintro u ⟨hu1, hu2⟩
      have u0 : 0 ≤ u := by linarith
      have u1 : u ≤ 1 := by linarith
      refine ⟨⟨u0, u1⟩, ?_, ?_⟩
      · have := mt (below_iff he (by linarith) (by linarith) h2 u0 u1 (t := a)).mp (not_le.mpr hu1)
        linarith
      · exact lt_of_le_of_lt ((below_iff he (by linarith) hbx h2 u0 u1).mpr hu2) hbd
  · obtain ⟨a, ha1, ha2⟩ := exists_between hcd
    obtain ⟨b, hb1, hb2⟩ := exists_between ha2
    have hanti : chanceBeyond eta ((ub - x) / (ub - lb)) ((b - x) / (ub - lb)) < chanceBeyond eta ((ub - x) / (ub - lb)) ((a - x) / (ub - lb)) :=
      chanceBeyond_anti he (div_nonneg (by linarith) hw.le) (by gcongr) (by gcongr; linarith) (by rw [div_le_one hw]; linarith)
    obtain ⟨q0, -⟩ := chanceBeyond_bounds (eta := eta) (room := (ub - x) / (ub - lb)) (dist := (b - x) / (ub - lb)) he (div_pos (by linarith) hw) (by gcongr; linarith) (by rw [div_le_one hw]; linarith)
    obtain ⟨-, q1⟩ := chanceBeyond_bounds (eta := eta) (room := (ub - x) / (ub - lb)) (dist := (a - x) / (ub - lb)) he (div_pos (by linarith) hw) (by gcongr; linarith) (by rw [div_le_one hw]; linarith)
    refine lt_of_lt_of_le ?_ (measure_mono (show Set.Ico (1 - chanceBeyond eta ((ub - x) / (ub - lb)) ((a - x) / (ub - lb))) (1 - chanceBeyond eta ((ub - x) / (ub - lb)) ((b - x) / (ub - lb))) ⊆ _ from ?_))
    · rw [Real.volume_Ico]
      exact ENNReal.ofReal_pos.mpr (by linarith)
    · rintro u ⟨hu1, hu2⟩
      have u0 : 0 ≤ u := by linarith
      have u1 : u ≤ 1 := by linarith
      refine ⟨⟨u0, u1⟩, ?_, ?_⟩
      · exact lt_of_lt_of_le ha1 ((above_iff he h1 (by linarith) (by linarith) u0 u1).mpr hu1)
      · have := mt (above_iff he h1 (by linarith) (by linarith) u0 u1 (t := b)).mp (not_le.mpr hu2)
        linarith

/-- **C183: polynomial mutation reaches the entire search space.** Whatever the parents are (also on the bounds): for any open intervals between the bounds, one for each gene of each solution, there is a non-zero
chance that all selected genes of the whole batch come to lie in their intervals at once. -/
theorem C183_polynomial_anywhere {eta : ℝ} (he : 0 < eta + 1) {lb ub : Fin l → ℝ} (mutate : Fin n → Fin l → Bool) (data : Fin n → Fin l → ℝ) (hd : ∀ i j, lb j ≤ data i j ∧ data i j ≤ ub j)
    (c d : Fin n → Fin l → ℝ) (hc : ∀ i j, lb j ≤ c i j ∧ c i j < d i j ∧ d i j ≤ ub j) :
    0 < volume {r : Fin n → Fin l → ℝ | (∀ i j, r i j ∈ Set.Icc (0 : ℝ) 1) ∧
      ∀ i j, mutate i j = true → ∃ y, polynomialMutation eta lb ub mutate r data i j = some y ∧ c i j < y ∧ y < d i j} := by
  have pos : 0 < volume (Set.pi Set.univ fun i => Set.pi Set.univ fun j => {u | u ∈ Set.Icc (0 : ℝ) 1 ∧ c i j < polyNumber eta (lb j) (ub j) u (data i j) ∧ polyNumber eta (lb j) (ub j) u (data i j) < d i j}) := by
    rw [volume_pi_pi]
    refine pos_iff_ne_zero.mpr (Finset.prod_ne_zero_iff.mpr fun i _ => ?_)
    rw [volume_pi_pi]
    exact Finset.prod_ne_zero_iff.mpr fun j _ => (gene_anywhere he (hd i j).1 (hd i j).2 (hc i j).1 (hc i j).2.1 (hc i j).2.2).ne'
  refine lt_of_lt_of_le pos (measure_mono fun r hr => ?_)
  have hr' : ∀ i j, r i j ∈ Set.Icc (0 : ℝ) 1 ∧ c i j < polyNumber eta (lb j) (ub j) (r i j) (data i j) ∧ polyNumber eta (lb j) (ub j) (r i j) (data i j) < d i j :=
    fun i j => hr i (Set.mem_univ i) j (Set.mem_univ j)
  have hlt : ∀ i : Fin n, ∀ j, lb j < ub j := fun i j => by linarith [(hc i j).1, (hc i j).2.1, (hc i j).2.2]
  exact ⟨fun i j => (hr' i j).1, fun i j hm => ⟨_, polynomialMutation_number he (hlt i) hd hm (hr' i j).1, (hr' i j).2⟩⟩

/-- **C183: a bigger `eta` keeps mutated genes closer.** With the same draws, every gene mutated with the bigger `eta` lies between the parent's gene and the gene mutated with the smaller one. -/
theorem C183_polynomial_eta {eta eta' : ℝ} (he : 0 < eta + 1) (hee : eta ≤ eta') {lb ub : Fin l → ℝ} (hlt : ∀ j, lb j < ub j) (mutate : Fin n → Fin l → Bool) (r data : Fin n → Fin l → ℝ)
    (hr : ∀ i j, 0 ≤ r i j ∧ r i j ≤ 1) (hd : ∀ i j, lb j ≤ data i j ∧ data i j ≤ ub j) (i : Fin n) (j : Fin l) :
    ∃ y y', polynomialMutation eta lb ub mutate r data i j = some y ∧ polynomialMutation eta' lb ub mutate r data i j = some y' ∧ y' ∈ Set.uIcc (data i j) y := by
  by_cases hm : mutate i j = true
  · refine ⟨_, _, polynomialMutation_number he hlt hd hm (hr i j), polynomialMutation_number (by linarith) hlt hd hm (hr i j), ?_⟩
    have hw : 0 < ub j - lb j := by linarith [hlt j]
    obtain ⟨a0, a1, b0, b1⟩ := room (hlt j) (hd i j).1 (hd i j).2
    obtain ⟨r0, r1⟩ := hr i j
    have he' : 0 < eta' + 1 := by linarith
    unfold polyNumber
    split_ifs with h
    · have h1 := blend_mono he (show eta + 1 ≤ eta' + 1 by linarith) a0 (q := 2 * r i j) (by linarith) (by linarith)
      have hb := Real.rpow_le_one a0 a1 he'.le
      have hb0 := Real.rpow_nonneg a0 (eta' + 1)
      have h2 : (2 * r i j + (1 - 2 * r i j) * (1 - (data i j - lb j) / (ub j - lb j)) ^ (eta' + 1)) ^ (1 / (eta' + 1)) ≤ 1 := Real.rpow_le_one (by nlinarith) (by nlinarith) (by positivity)
      exact Set.mem_uIcc.mpr (Or.inr ⟨by nlinarith, by nlinarith⟩)
    · have h1 := blend_mono he (show eta + 1 ≤ eta' + 1 by linarith) b0 (q := 2 * (1 - r i j)) (by linarith) (by linarith)
      have hb := Real.rpow_le_one b0 b1 he'.le
      have hb0 := Real.rpow_nonneg b0 (eta' + 1)
      have h2 : (2 * (1 - r i j) + (1 - 2 * (1 - r i j)) * (1 - (ub j - data i j) / (ub j - lb j)) ^ (eta' + 1)) ^ (1 / (eta' + 1)) ≤ 1 := Real.rpow_le_one (by nlinarith) (by nlinarith) (by positivity)
      exact Set.mem_uIcc.mpr (Or.inl ⟨by nlinarith, by nlinarith⟩)
  · refine ⟨data i j, data i j, ?_, ?_, Set.left_mem_uIcc⟩ <;>
    · simp only [polynomialMutation, hm]
      rw [if_neg (by simp), Option.map_some, respectBounds_id]
      exact ⟨fun _ h => by cases h; exact (hd i j).1, fun _ h => by cases h; exact (hd i j).2⟩

/-- With `eta = 0` and a parent in the middle of [0, 1], the chance of coming to or below 1/4 is a quarter. -/
example : ∃ gene : ℝ → ℝ, (∀ r : Fin 1 → Fin 1 → ℝ, 0 ≤ r 0 0 → r 0 0 ≤ 1 → polynomialMutation 0 (fun _ => 0) (fun _ => 1) (fun _ _ => true) r (fun _ _ => 1 / 2) 0 0 = some (gene (r 0 0))) ∧
    volume {u | u ∈ Set.Icc (0 : ℝ) 1 ∧ gene u ≤ 1 / 4} = ENNReal.ofReal (1 / 4) := by
  obtain ⟨g, h1, h2, -⟩ := C183_polynomial_law (n := 1) (l := 1) (eta := 0) (by norm_num) (lb := fun _ => 0) (ub := fun _ => 1) (fun _ => by norm_num) (fun _ _ => true) (fun _ _ => 1 / 2)
    (fun _ _ => by norm_num) 0 0 rfl
  refine ⟨g, h1, ?_⟩
  rw [h2 (1 / 4) (by norm_num) (by norm_num)]
  congr 1
  norm_num [chanceBeyond]

/-- Two parents, one of them on a bound: the left half for one, the right half for the other. -/
example : 0 < volume {r : Fin 2 → Fin 1 → ℝ | (∀ i j, r i j ∈ Set.Icc (0 : ℝ) 1) ∧ ∀ i j, true = true → ∃ y, polynomialMutation 20 (fun _ => 0) (fun _ => 1) (fun _ _ => true) r
      (fun i _ => if i = 0 then 1 else 1 / 2) i j = some y ∧ (if i = 0 then (0 : ℝ) else 1 / 2) < y ∧ y < (if i = 0 then (1 / 2 : ℝ) else 1)} :=
  C183_polynomial_anywhere (by norm_num) _ _ (fun i _ => by split_ifs <;> norm_num) _ _ fun i _ => by split_ifs <;> norm_num

example : ∃ y y', polynomialMutation (n := 1) (l := 1) 5 (fun _ => 0) (fun _ => 1) (fun _ _ => true) (fun _ _ => 1 / 4) (fun _ _ => 1 / 2) 0 0 = some y ∧
    polynomialMutation (n := 1) (l := 1) 20 (fun _ => 0) (fun _ => 1) (fun _ _ => true) (fun _ _ => 1 / 4) (fun _ _ => 1 / 2) 0 0 = some y' ∧ y' ∈ Set.uIcc (1 / 2) y :=
  C183_polynomial_eta (by norm_num) (by norm_num) (fun _ => by norm_num) _ _ _ (fun _ _ => by norm_num) (fun _ _ => by norm_num) 0 0

/-! ### Simulated binary cross-over -/

theorem sbx_first (lb ub : Fin l → Option ℝ) (eta : ℝ) (u p1 p2 : Fin n → Fin l → ℝ) (i : Fin n) :
    (sbx lb ub eta u p1 p2)[(i : ℕ)]? = some fun j => respectBounds (lb j) (ub j) (sbxChild1 eta (u i j) (p1 i j) (p2 i j)) := by
  simp [sbx, List.getElem?_append]

theorem sbx_second (lb ub : Fin l → Option ℝ) (eta : ℝ) (u p1 p2 : Fin n → Fin l → ℝ) (i : Fin n) :
    (sbx lb ub eta u p1 p2)[n + (i : ℕ)]? = some fun j => respectBounds (lb j) (ub j) (sbxChild2 eta (u i j) (p1 i j) (p2 i j)) := by
  simp [sbx]

theorem beta_small {eta v b : ℝ} (he : 0 < eta + 1) (hv0 : 0 ≤ v) (hv1 : v < 1) (hb0 : 0 ≤ b) (hb1 : b ≤ 1) : sbxBeta eta v ≤ b ↔ v ≤ b ^ (eta + 1) / 2 := by
  have hb := Real.rpow_le_one hb0 hb1 he.le
  unfold sbxBeta
  split_ifs with h
  · refine iff_of_false ?_ (by linarith)
    have : 1 < (1 / (2 * (1 - v))) ^ (1 / (eta + 1)) := Real.one_lt_rpow (by rw [lt_div_iff₀ (by linarith)]; linarith) (by positivity)
    linarith
  · rw [root_le he (by linarith) hb0]
    constructor <;> intro h <;> linarith

theorem beta_big {eta v b : ℝ} (he : 0 < eta + 1) (hv0 : 0 ≤ v) (hv1 : v < 1) (hb1 : 1 ≤ b) : sbxBeta eta v ≤ b ↔ v ≤ 1 - 1 / (2 * b ^ (eta + 1)) := by
  have hb : 1 ≤ b ^ (eta + 1) := Real.one_le_rpow hb1 he.le
  have hh : 1 / (2 * b ^ (eta + 1)) ≤ 1 / 2 := by
    rw [div_le_div_iff₀ (by linarith) (by norm_num)]
    linarith
  unfold sbxBeta
  split_ifs with h
  · rw [root_le he (by have : 0 < 1 - v := by linarith
                       positivity) (by linarith), div_le_iff₀ (by linarith), le_sub_comm, div_le_iff₀ (by linarith)]
    constructor <;> intro h <;> linarith
  · refine iff_of_true ?_ (by linarith)
    exact (Real.rpow_le_one (by linarith) (by linarith) (by positivity)).trans hb1

/-- **C183: the law of simulated binary cross-over.** Before clipping, the difference of the two children in a gene is that of their parents times a non-negative factor, which depends on the gene's own draw only. For a
draw uniformly distributed over [0, 1) the factor has the distribution of Deb and Beyer (2001): it is at most `b` with chance `b ^ (eta + 1) / 2` if `b ≤ 1`, and with chance `1 - 1 / (2 * b ^ (eta + 1))` if `b ≥ 1`. -/
theorem C183_sbx_law {eta : ℝ} (he : 0 < eta + 1) (p1 p2 : Fin n → Fin l → ℝ) :
    ∃ spread : ℝ → ℝ, (∀ (u : Fin n → Fin l → ℝ) (i : Fin n), ∃ c1 c2, (sbx (fun _ => none) (fun _ => none) eta u p1 p2)[(i : ℕ)]? = some c1 ∧
        (sbx (fun _ => none) (fun _ => none) eta u p1 p2)[n + (i : ℕ)]? = some c2 ∧ ∀ j, c1 j - c2 j = spread (u i j) * (p1 i j - p2 i j)) ∧
      (∀ v, 0 ≤ v → v < 1 → 0 ≤ spread v) ∧
      (∀ b, 0 ≤ b → b ≤ 1 → volume {v | v ∈ Set.Ico (0 : ℝ) 1 ∧ spread v ≤ b} = ENNReal.ofReal (b ^ (eta + 1) / 2)) ∧
      (∀ b, 1 ≤ b → volume {v | v ∈ Set.Ico (0 : ℝ) 1 ∧ spread v ≤ b} = ENNReal.ofReal (1 - 1 / (2 * b ^ (eta + 1)))) := by
  refine ⟨sbxBeta eta, fun u i => ⟨_, _, sbx_first _ _ _ _ _ _ i, sbx_second _ _ _ _ _ _ i, fun j => ?_⟩, fun v v0 v1 => ?_, fun b b0 b1 => ?_, fun b b1 => ?_⟩
  · simp only [respectBounds, sbxChild1, sbxChild2]
    ring
  · unfold sbxBeta
    split_ifs
    · exact Real.rpow_nonneg (div_nonneg one_pos.le (by linarith)) _
    · exact Real.rpow_nonneg (by linarith) _
  · have hb := Real.rpow_le_one b0 b1 he.le
    have : {v | v ∈ Set.Ico (0 : ℝ) 1 ∧ sbxBeta eta v ≤ b} = Set.Icc 0 (b ^ (eta + 1) / 2) := by
      ext v
      simp only [Set.mem_ofPred_eq, Set.mem_Ico, Set.mem_Icc]
      constructor
      · rintro ⟨⟨v0, v1⟩, hv⟩
        exact ⟨v0, (beta_small he v0 v1 b0 b1).mp hv⟩
      · rintro ⟨v0, hv⟩
        exact ⟨⟨v0, by linarith⟩, (beta_small he v0 (by linarith) b0 b1).mpr hv⟩
    rw [this, Real.volume_Icc, sub_zero]
  · have hb : 1 ≤ b ^ (eta + 1) := Real.one_le_rpow b1 he.le
    have hpos : 0 < 1 / (2 * b ^ (eta + 1)) := by positivity
    have : {v | v ∈ Set.Ico (0 : ℝ) 1 ∧ sbxBeta eta v ≤ b} = Set.Icc 0 (1 - 1 / (2 * b ^ (eta + 1))) := by
      ext v
      simp only [Set.mem_ofPred_eq, Set.mem_Ico, Set.mem_Icc]
      constructor
      · rintro ⟨⟨v0, v1⟩, hv⟩
        exact ⟨v0, (beta_big he v0 v1 b1).mp hv⟩
      · rintro ⟨v0, hv⟩
        exact ⟨⟨v0, by linarith⟩, (beta_big he v0 (by linarith) b1).mpr hv⟩
    rw [this, Real.volume_Icc, sub_zero]

theorem respectBounds_mono (lb ub : Option ℝ) : Monotone (respectBounds lb ub) := by
  intro x y h
  cases lb <;> cases ub <;> simp only [respectBounds]
  · exact h
  · exact min_le_min_left _ h
  · exact max_le_max_left _ h
  · exact min_le_min_left _ (max_le_max_left _ h)

theorem beta_between {eta eta' v : ℝ} (he : 0 < eta + 1) (hee : eta ≤ eta') (v0 : 0 ≤ v) (v1 : v < 1) : sbxBeta eta' v ∈ Set.uIcc 1 (sbxBeta eta v) := by
  have hexp : 1 / (eta' + 1) ≤ 1 / (eta + 1) := by
    have : 0 < eta' + 1 := by linarith
    gcongr
  have he' : 0 < 1 / (eta' + 1) := one_div_pos.mpr (by linarith)
  unfold sbxBeta
  split_ifs with h
  · have hb : 1 ≤ 1 / (2 * (1 - v)) := by rw [le_div_iff₀ (by linarith)]; linarith
    exact Set.mem_uIcc.mpr (Or.inl ⟨Real.one_le_rpow hb he'.le, Real.rpow_le_rpow_of_exponent_le hb hexp⟩)
  · exact Set.mem_uIcc.mpr (Or.inr ⟨Real.rpow_le_rpow_of_exponent_ge' (by linarith) (by linarith) he'.le hexp, Real.rpow_le_one (by linarith) (by linarith) he'.le⟩)

theorem scaled_between {x b b' a : ℝ} (h : b' ∈ Set.uIcc 1 b) : x + (b' - 1) * a ∈ Set.uIcc x (x + (b - 1) * a) := by
  rw [Set.mem_uIcc] at h ⊢
  rcases le_total 0 a with ha | ha <;> rcases h with ⟨h1, h2⟩ | ⟨h1, h2⟩
  · exact Or.inl ⟨by nlinarith, by nlinarith⟩
  · exact Or.inr ⟨by nlinarith, by nlinarith⟩
  · exact Or.inr ⟨by nlinarith, by nlinarith⟩
  · exact Or.inl ⟨by nlinarith, by nlinarith⟩

theorem clipped_between {lb ub : Option ℝ} {x y y' : ℝ} (hx : Within lb ub x) (h : y' ∈ Set.uIcc x y) : respectBounds lb ub y' ∈ Set.uIcc x (respectBounds lb ub y) := by
  have e := respectBounds_id lb ub x hx
  have m := respectBounds_mono lb ub
  rw [Set.mem_uIcc] at h ⊢
  rcases h with ⟨h1, h2⟩ | ⟨h1, h2⟩
  · exact Or.inl ⟨by rw [← e]; exact m h1, m h2⟩
  · exact Or.inr ⟨m h1, (m h2).trans e.le⟩

/-- **C183: bigger `eta` values result in children closer to their parents.** With the same draws and parents within the bounds (if there are any), each gene of each child made with the bigger `eta` lies between the
gene of the child's own parent and that of the child made with the smaller `eta`. -/
theorem C183_sbx_eta {eta eta' : ℝ} (he : 0 < eta + 1) (hee : eta ≤ eta') (lb ub : Fin l → Option ℝ) (u p1 p2 : Fin n → Fin l → ℝ) (hu : ∀ i j, 0 ≤ u i j ∧ u i j < 1)
    (h1 : ∀ i j, Within (lb j) (ub j) (p1 i j)) (h2 : ∀ i j, Within (lb j) (ub j) (p2 i j)) (i : Fin n) :
    ∃ c1 c2 c1' c2', (sbx lb ub eta u p1 p2)[(i : ℕ)]? = some c1 ∧ (sbx lb ub eta u p1 p2)[n + (i : ℕ)]? = some c2 ∧
      (sbx lb ub eta' u p1 p2)[(i : ℕ)]? = some c1' ∧ (sbx lb ub eta' u p1 p2)[n + (i : ℕ)]? = some c2' ∧
      ∀ j, c1' j ∈ Set.uIcc (p1 i j) (c1 j) ∧ c2' j ∈ Set.uIcc (p2 i j) (c2 j) := by
  refine ⟨_, _, _, _, sbx_first _ _ _ _ _ _ i, sbx_second _ _ _ _ _ _ i, sbx_first _ _ _ _ _ _ i, sbx_second _ _ _ _ _ _ i, fun j => ⟨clipped_between (h1 i j) ?_, clipped_between (h2 i j) ?_⟩⟩
  · have := scaled_between (x := p1 i j) (a := (p1 i j - p2 i j) / 2) (beta_between he hee (hu i j).1 (hu i j).2)
    convert this using 2 <;> simp only [sbxChild1] <;> ring
  · have := scaled_between (x := p2 i j) (a := (p2 i j - p1 i j) / 2) (beta_between he hee (hu i j).1 (hu i j).2)
    convert this using 2 <;> simp only [sbxChild2] <;> ring

/-- With `eta = 1` the children are at most half as far from one another as their parents with chance 1/8, and at most twice as far with chance 7/8. -/
example : ∃ spread : ℝ → ℝ, volume {v | v ∈ Set.Ico (0 : ℝ) 1 ∧ spread v ≤ 1 / 2} = ENNReal.ofReal (1 / 8) ∧ volume {v | v ∈ Set.Ico (0 : ℝ) 1 ∧ spread v ≤ 2} = ENNReal.ofReal (7 / 8) := by
  obtain ⟨s, -, -, h1, h2⟩ := C183_sbx_law (n := 1) (l := 1) (eta := 1) (by norm_num) (fun _ _ => 0) (fun _ _ => 1)
  refine ⟨s, ?_, ?_⟩
  · rw [h1 _ (by norm_num) (by norm_num)]
    congr 1
    norm_num
  · rw [h2 _ (by norm_num)]
    congr 1
    norm_num

example := C183_sbx_eta (n := 2) (l := 1) (eta := 2) (eta' := 15) (by norm_num) (by norm_num) (fun _ => some 0) (fun _ => none) (fun _ _ => 3 / 4) (fun _ _ => 1) (fun _ _ => 2)
  (fun _ _ => by norm_num) (fun _ _ => ⟨fun _ h => by cases h; norm_num, fun _ h => by cases h⟩) (fun _ _ => ⟨fun _ h => by cases h; norm_num, fun _ h => by cases h⟩)

end EvoTorch.Operators
