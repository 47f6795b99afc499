import Verif.Model.GridPrecision
import Verif.Proofs.Rounding
import Verif.Props.MapElites
/-!
C164: the feature grid of MAP-Elites in floating point.
-/
namespace EvoTorch.Rounding
open EvoTorch.MapElites (windows product Cell inCellB InCell)
variable {F : Fmt} {rnd cast : ℚ → ℚ}

/-- The relative error of rounding, away from the smallest numbers. -/
theorem Nearest.rel (h : Nearest F rnd) (hp : 1 ≤ F.p) {x : ℚ} (hx : (2 : ℚ) ^ (F.emin + F.p - 1) ≤ x) : |rnd x - x| ≤ x * (2 : ℚ) ^ (-(F.p : ℤ)) := by
  have hx0 : 0 < x := lt_of_lt_of_le (two_pos _) hx
  have hlog : F.emin + F.p - 1 ≤ Int.log 2 x := by
    have := (Int.zpow_le_iff_le_log (b := 2) (by norm_num) hx0 (x := F.emin + F.p - 1)).mp (by exact_mod_cast hx)
    exact this
  have hlow : (2 : ℚ) ^ (Int.log 2 x) ≤ x := by exact_mod_cast Int.zpow_log_le_self (b := 2) (by norm_num) hx0
  have hhigh : x < (2 : ℚ) ^ (Int.log 2 x + 1) := by exact_mod_cast Int.lt_zpow_succ_log_self (b := 2) (by norm_num) x
  have e1 : ((2 ^ F.p : ℤ) : ℚ) * (2 : ℚ) ^ (Int.log 2 x - F.p + 1) = (2 : ℚ) ^ (Int.log 2 x + 1) := by
    push_cast
    rw [← zpow_natCast, ← zpow_add₀ (by norm_num)]; congr 1; ring
  have hc := h.close hp (e := Int.log 2 x - F.p + 1) (by omega) (x := x) (by rw [abs_of_pos hx0, e1]; exact hhigh.le)
  refine le_trans hc ?_
  have e2 : (2 : ℚ) ^ (Int.log 2 x - F.p + 1) / 2 = (2 : ℚ) ^ (Int.log 2 x) * (2 : ℚ) ^ (-(F.p : ℤ)) := by
    rw [show Int.log 2 x - F.p + 1 = Int.log 2 x + -(F.p : ℤ) + 1 by ring, zpow_add₀ (by norm_num), zpow_add₀ (by norm_num)]; norm_num
  rw [e2]
  exact mul_le_mul_of_nonneg_right hlow (two_pos _).le

/-- The values counted from the lower bound and those counted from the upper bound do not cross. -/
private theorem no_cross (h : Nearest F rnd) (hp : 2 ≤ F.p) {s e : ℚ} (hse : s ≤ e) (n : ℕ) (hn : n + 1 ≤ 2 ^ (F.p - 2))
    (hgap : s = e ∨ ((n + 1 : ℕ) : ℚ) * (2 : ℚ) ^ (F.emin + F.p) ≤ e - s) (i j : ℕ) (hij : i + j = n) :
    let step := rnd (rnd (e - s) / ((n + 1 : ℕ) : ℚ))
    0 ≤ step ∧ rnd (step * i) + rnd (step * j) ≤ e - s := by
  intro step
  rcases hgap with heq | hgap
  · have : step = 0 := by simp only [step, heq, sub_self, h.zero, zero_div]
    rw [this]; simp [h.zero, heq]
  have hp1 : 1 ≤ F.p := by omega
  set u : ℚ := (2 : ℚ) ^ (-(F.p : ℤ)) with hu
  have hu0 : 0 < u := two_pos _
  have hu4 : u ≤ 1 / 4 := by
    have : (2 : ℚ) ^ (-(F.p : ℤ)) ≤ (2 : ℚ) ^ (-2 : ℤ) := zpow_le_zpow_right₀ (by norm_num) (by omega)
    rw [hu]; refine le_trans this (by norm_num)
  have hnu : ((n + 1 : ℕ) : ℚ) * (4 * u) ≤ 1 := by
    have h1 : ((n + 1 : ℕ) : ℚ) ≤ (2 : ℚ) ^ ((F.p : ℤ) - 2) := by
      have : ((n + 1 : ℕ) : ℚ) ≤ ((2 ^ (F.p - 2) : ℕ) : ℚ) := by exact_mod_cast hn
      refine le_trans this ?_
      rw [show (F.p : ℤ) - 2 = ((F.p - 2 : ℕ) : ℤ) by omega, zpow_natCast]; push_cast; exact le_refl _
    have h2 : (2 : ℚ) ^ ((F.p : ℤ) - 2) * (4 * u) = 1 := by
      rw [hu, show (4 : ℚ) = (2 : ℚ) ^ (2 : ℤ) by norm_num, ← zpow_add₀ (by norm_num), ← zpow_add₀ (by norm_num)]
      rw [show (F.p : ℤ) - 2 + (2 + -(F.p : ℤ)) = 0 by ring]; norm_num
    calc _ ≤ (2 : ℚ) ^ ((F.p : ℤ) - 2) * (4 * u) := mul_le_mul_of_nonneg_right h1 (by positivity)
      _ = 1 := h2
  set D := e - s with hD
  set w : ℚ := (2 : ℚ) ^ (F.emin + F.p - 1) with hw
  have hw0 : 0 < w := two_pos _
  have hww : (2 : ℚ) ^ (F.emin + F.p) = 2 * w := by
    rw [hw, show F.emin + (F.p : ℤ) = 1 + (F.emin + F.p - 1) by ring, zpow_add₀ (by norm_num)]; norm_num
  have hN : (1 : ℚ) ≤ ((n + 1 : ℕ) : ℚ) := by exact_mod_cast Nat.succ_le_succ (Nat.zero_le n)
  rw [hww] at hgap
  have hDw : w ≤ D := by nlinarith
  have hr1 := abs_le.mp (h.rel hp1 (hw ▸ hDw))
  rw [← hu] at hr1
  have hD0 : 0 < D := lt_of_lt_of_le hw0 hDw
  have hq : w ≤ rnd D / ((n + 1 : ℕ) : ℚ) := by
    rw [le_div_iff₀ (by linarith)]
    nlinarith [hr1.1]
  have hr2 := abs_le.mp (h.rel hp1 (hw ▸ hq))
  rw [← hu] at hr2
  have hwf : IsFloat F w := ⟨1, F.emin + F.p - 1, by rw [abs_one]; exact one_lt_pow₀ (by norm_num) (by omega), by omega, by simp [hw]⟩
  have hsw : w ≤ step := h.float_le hwf hq
  have hs0 : 0 < step := lt_of_lt_of_le hw0 hsw
  have hmul : ∀ k : ℕ, rnd (step * k) ≤ step * k * (1 + u) := by
    intro k
    rcases Nat.eq_zero_or_pos k with rfl | hk
    · simp [h.zero]
    · have hk1 : (1 : ℚ) ≤ k := by exact_mod_cast hk
      have := abs_le.mp (h.rel hp1 (x := step * k) (hw ▸ by nlinarith))
      rw [← hu] at this
      linarith [this.2]
  refine ⟨hs0.le, ?_⟩
  have hsum : rnd (step * i) + rnd (step * j) ≤ step * n * (1 + u) := by
    have e : (n : ℚ) = i + j := by exact_mod_cast hij.symm
    rw [e]; nlinarith [hmul i, hmul j]
  have hstep : step * ((n + 1 : ℕ) : ℚ) ≤ D * (1 + u) * (1 + u) := by
    have a : step ≤ rnd D / ((n + 1 : ℕ) : ℚ) * (1 + u) := by linarith [hr2.2]
    have b : rnd D ≤ D * (1 + u) := by linarith [hr1.2]
    calc step * ((n + 1 : ℕ) : ℚ) ≤ rnd D / ((n + 1 : ℕ) : ℚ) * (1 + u) * ((n + 1 : ℕ) : ℚ) := mul_le_mul_of_nonneg_right a (by linarith)
      _ = rnd D * (1 + u) := by field_simp
      _ ≤ D * (1 + u) * (1 + u) := mul_le_mul_of_nonneg_right b (by linarith)
  refine le_trans hsum ?_
  have hn0 : (0 : ℚ) ≤ n := Nat.cast_nonneg n
  have hNn : ((n + 1 : ℕ) : ℚ) = n + 1 := by push_cast; ring
  rw [hNn] at hstep hnu
  have key : (n : ℚ) * (1 + u) ^ 3 ≤ n + 1 := by
    have h1 : (1 + u) ^ 3 ≤ 1 + 4 * u := by nlinarith [mul_nonneg hu0.le hu0.le]
    nlinarith
  have h3 : step * n * (1 + u) * (n + 1) ≤ D * (n + 1) := by
    calc step * n * (1 + u) * (n + 1) = (step * (n + 1)) * (n * (1 + u)) := by ring
      _ ≤ (D * (1 + u) * (1 + u)) * (n * (1 + u)) := mul_le_mul_of_nonneg_right hstep (by positivity)
      _ = D * (n * (1 + u) ^ 3) := by ring
      _ ≤ D * (n + 1) := mul_le_mul_of_nonneg_left key hD0.le
  exact le_of_mul_le_mul_right h3 (by linarith)

/-- A multiple of the step is close to the exact one. -/
private theorem product_close (h : Nearest F rnd) (hp : 2 ≤ F.p) {s e : ℚ} (n : ℕ) (hgap : s = e ∨ ((n + 1 : ℕ) : ℚ) * (2 : ℚ) ^ (F.emin + F.p) ≤ e - s) (k : ℕ) :
    |rnd (rnd (rnd (e - s) / ((n + 1 : ℕ) : ℚ)) * k) - k * ((e - s) / ((n + 1 : ℕ) : ℚ))| ≤ 4 * (2 : ℚ) ^ (-(F.p : ℤ)) * (k * ((e - s) / ((n + 1 : ℕ) : ℚ))) := by
  rcases hgap with heq | hgap
  · rw [heq]; simp [h.zero]
  have hp1 : 1 ≤ F.p := by omega
  set u : ℚ := (2 : ℚ) ^ (-(F.p : ℤ)) with hu
  have hu0 : 0 < u := two_pos _
  have hu4 : u ≤ 1 / 4 := by
    have : (2 : ℚ) ^ (-(F.p : ℤ)) ≤ (2 : ℚ) ^ (-2 : ℤ) := zpow_le_zpow_right₀ (by norm_num) (by omega)
    rw [hu]; refine le_trans this (by norm_num)
  set D := e - s with hD
  set w : ℚ := (2 : ℚ) ^ (F.emin + F.p - 1) with hw
  have hw0 : 0 < w := two_pos _
  have hww : (2 : ℚ) ^ (F.emin + F.p) = 2 * w := by
    rw [hw, show F.emin + (F.p : ℤ) = 1 + (F.emin + F.p - 1) by ring, zpow_add₀ (by norm_num)]; norm_num
  have hN : (1 : ℚ) ≤ ((n + 1 : ℕ) : ℚ) := by exact_mod_cast Nat.succ_le_succ (Nat.zero_le n)
  set N : ℚ := ((n + 1 : ℕ) : ℚ) with hNdef
  rw [hww] at hgap
  have hDw : w ≤ D := by nlinarith
  have hr1 := abs_le.mp (h.rel hp1 (hw ▸ hDw))
  rw [← hu] at hr1
  have hD0 : 0 < D := lt_of_lt_of_le hw0 hDw
  have hN0 : 0 < N := by linarith
  have hq : w ≤ rnd D / N := by
    rw [le_div_iff₀ hN0]
    nlinarith [hr1.1]
  have hr2 := abs_le.mp (h.rel hp1 (hw ▸ hq))
  rw [← hu] at hr2
  have hwf : IsFloat F w := ⟨1, F.emin + F.p - 1, by rw [abs_one]; exact one_lt_pow₀ (by norm_num) (by omega), by omega, by simp [hw]⟩
  set step := rnd (rnd D / N) with hstep
  have hsw : w ≤ step := h.float_le hwf hq
  have hs0 : 0 < step := lt_of_lt_of_le hw0 hsw
  rcases Nat.eq_zero_or_pos k with rfl | hk
  · simp [h.zero]
  have hk1 : (1 : ℚ) ≤ k := by exact_mod_cast hk
  have hr3 := abs_le.mp (h.rel hp1 (x := step * k) (hw ▸ by nlinarith))
  rw [← hu] at hr3
  set d := D / N with hd
  have hd0 : 0 < d := div_pos hD0 hN0
  have b1 : rnd D / N ≤ d * (1 + u) := by
    rw [hd, div_mul_eq_mul_div]; exact div_le_div_of_nonneg_right (by linarith [hr1.2]) hN0.le
  have b2 : d * (1 - u) ≤ rnd D / N := by
    rw [hd, div_mul_eq_mul_div]; exact div_le_div_of_nonneg_right (by linarith [hr1.1]) hN0.le
  have c1 : step ≤ d * (1 + u) * (1 + u) := by nlinarith [hr2.2]
  have c2 : d * (1 - u) * (1 - u) ≤ step := by nlinarith [hr2.1]
  have hkd : 0 < k * d := by positivity
  rw [abs_le]
  constructor
  · have e1 : k * d * ((1 - u) * (1 - u) * (1 - u)) ≤ rnd (step * k) := by
      have : step * k * (1 - u) ≤ rnd (step * k) := by linarith [hr3.1]
      refine le_trans ?_ this
      have h1u : 0 ≤ 1 - u := by linarith
      calc k * d * ((1 - u) * (1 - u) * (1 - u)) = (d * (1 - u) * (1 - u)) * (k * (1 - u)) := by ring
        _ ≤ step * (k * (1 - u)) := mul_le_mul_of_nonneg_right c2 (by positivity)
        _ = step * k * (1 - u) := by ring
    have e2 : 1 - 4 * u ≤ (1 - u) * (1 - u) * (1 - u) := by nlinarith [mul_nonneg hu0.le hu0.le]
    nlinarith [mul_le_mul_of_nonneg_left e2 hkd.le]
  · have e1 : rnd (step * k) ≤ k * d * ((1 + u) * (1 + u) * (1 + u)) := by
      have : rnd (step * k) ≤ step * k * (1 + u) := by linarith [hr3.2]
      refine le_trans this ?_
      calc step * k * (1 + u) = step * (k * (1 + u)) := by ring
        _ ≤ (d * (1 + u) * (1 + u)) * (k * (1 + u)) := mul_le_mul_of_nonneg_right c1 (by positivity)
        _ = k * d * ((1 + u) * (1 + u) * (1 + u)) := by ring
    have e2 : (1 + u) * (1 + u) * (1 + u) ≤ 1 + 4 * u := by nlinarith [mul_nonneg hu0.le hu0.le]
    nlinarith [mul_le_mul_of_nonneg_left e2 hkd.le]

/-- Adding two numbers of the format has a relative error only. -/
private theorem sum_close (h : Nearest F rnd) (hp : 1 ≤ F.p) {x y : ℚ} (hx : IsFloat F x) (hy : IsFloat F y) : |rnd (x + y) - (x + y)| ≤ |x + y| * (2 : ℚ) ^ (-(F.p : ℤ)) := by
  obtain ⟨k, hk⟩ := isFloat_multiple hx
  obtain ⟨l, hl⟩ := isFloat_multiple hy
  have hsmall : |x + y| < (2 : ℚ) ^ (F.emin + F.p - 1) → |rnd (x + y) - (x + y)| ≤ |x + y| * (2 : ℚ) ^ (-(F.p : ℤ)) := by
    intro hlt
    have hf : IsFloat F (x + y) := by
      have e : x + y = ((k + l : ℤ) : ℚ) * (2 : ℚ) ^ F.emin := by rw [hk, hl]; push_cast; ring
      rw [e]
      refine isFloat_of_le hp ?_ (le_refl _)
      rw [e, abs_mul, abs_of_pos (two_pos F.emin), show F.emin + (F.p : ℤ) - 1 = ((F.p - 1 : ℕ) : ℤ) + F.emin by omega, zpow_add₀ (by norm_num), zpow_natCast] at hlt
      have := lt_of_mul_lt_mul_right hlt (two_pos F.emin).le
      have h2 : |k + l| < 2 ^ (F.p - 1) := by exact_mod_cast this
      have h3 : (2 : ℤ) ^ (F.p - 1) ≤ 2 ^ F.p := pow_le_pow_right₀ (by norm_num) (by omega)
      linarith
    rw [h.fix hf, sub_self, abs_zero]
    exact mul_nonneg (abs_nonneg _) (two_pos _).le
  rcases le_or_gt ((2 : ℚ) ^ (F.emin + F.p - 1)) (|x + y|) with hle | hlt
  · rcases le_total 0 (x + y) with h0 | h0
    · rw [abs_of_nonneg h0] at hle ⊢; exact h.rel hp hle
    · rw [abs_of_nonpos h0] at hle ⊢
      have hn : Nearest F (fun z => -rnd (-z)) := by
        intro z
        refine ⟨isFloat_neg (h (-z)).1, fun y hy => ?_⟩
        have := (h (-z)).2 (-y) (isFloat_neg hy)
        rw [show -rnd (-z) - z = -(rnd (-z) - -z) by ring, abs_neg, show y - z = -(-y - -z) by ring, abs_neg]
        exact this
      have := hn.rel hp hle
      simp only [neg_neg] at this
      rwa [show -rnd (x + y) - -(x + y) = -(rnd (x + y) - (x + y)) by ring, abs_neg] at this
  · exact hsmall hlt

/-- The bounds of a feature are ordered, apart by more than the smallest numbers times the number of bins, and the bins are not too many to count: what the theorems below ask of a feature. -/
def Apart (F : Fmt) (lb ub : ℚ) (numBins : ℕ) : Prop :=
  1 ≤ numBins ∧ numBins ≤ 2 ^ (F.p - 2) ∧ IsFloat F lb ∧ IsFloat F ub ∧ (lb = ub ∨ (numBins : ℚ) * (2 : ℚ) ^ (F.emin + F.p) ≤ ub - lb)

private theorem linspace_sorted (h : Nearest F rnd) (hp : 2 ≤ F.p) (he : F.emin ≤ 0) {lb ub : ℚ} {numBins : ℕ} (ha : Apart F lb ub numBins) :
    (linspace rnd lb ub (numBins - 1)).Pairwise (· ≤ ·) := by
  obtain ⟨h1, h2, hl, hu, hg⟩ := ha
  have hle : lb ≤ ub := by
    rcases hg with rfl | hg
    · exact le_refl _
    · have : (0 : ℚ) ≤ (numBins : ℚ) * (2 : ℚ) ^ (F.emin + F.p) := mul_nonneg (Nat.cast_nonneg _) (two_pos _).le
      linarith
  match hs : numBins - 1 with
  | 0 => simp [linspace]
  | 1 => simp [linspace]
  | n + 2 =>
    have hpow : 2 ^ (F.p - 2) ≤ 2 ^ F.p := Nat.pow_le_pow_right (by norm_num) (by omega)
    have hnat : ∀ k : ℕ, k ≤ n + 2 → rnd (k : ℚ) = k := fun k hk => h.fix (isFloat_nat (by omega) he (by omega))
    have hgap : lb = ub ∨ ((n + 1 : ℕ) : ℚ) * (2 : ℚ) ^ (F.emin + F.p) ≤ ub - lb := by
      rcases hg with hg | hg
      · exact .inl hg
      · refine .inr (le_trans (mul_le_mul_of_nonneg_right ?_ (two_pos _).le) hg)
        exact_mod_cast (by omega : n + 1 ≤ numBins)
    have hcross := no_cross h hp hle n (by omega) hgap
    have hstep0 := (hcross n 0 (by omega)).1
    simp only [linspace, h.fix hl, h.fix hu, hnat (n + 1) (by omega)]
    set step := rnd (rnd (ub - lb) / ((n + 1 : ℕ) : ℚ)) with hstep
    rw [List.pairwise_map, List.pairwise_iff_getElem]
    intro a b hal hbl hab
    simp only [List.getElem_range]
    simp only [List.length_range] at hal hbl
    have mono : ∀ k l : ℕ, k ≤ l → rnd (step * (k : ℚ)) ≤ rnd (step * (l : ℚ)) := fun k l hkl =>
      h.mono (mul_le_mul_of_nonneg_left (by exact_mod_cast hkl) hstep0)
    by_cases hb : b < (n + 2) / 2
    · rw [if_pos hb, if_pos (by omega), hnat a (by omega), hnat b (by omega)]
      exact h.mono (by linarith [mono a b hab.le])
    · rw [if_neg hb]
      by_cases ha : a < (n + 2) / 2
      · rw [if_pos ha, hnat a (by omega), hnat (n + 1 - b) (by omega)]
        apply h.mono
        have m1 := mono a (n - (n + 1 - b)) (by omega)
        have := (hcross (n - (n + 1 - b)) (n + 1 - b) (by omega)).2
        linarith
      · rw [if_neg ha, hnat (n + 1 - a) (by omega), hnat (n + 1 - b) (by omega)]
        exact h.mono (by linarith [mono (n + 1 - b) (n + 1 - a) (by omega)])

/-- **C164, the number of bins, and the grids with few bins.** Whatever the rounding, a feature gets as many bins as asked for. A single bin is the whole line; two bins meet at the lower bound (as rounded), and the upper
bound plays no role. -/
theorem C164_few_bins (rnd : ℚ → ℚ) (lb ub : ℚ) :
    (∀ numBins, 1 ≤ numBins → ∃ bs, bins rnd lb ub numBins = .ok bs ∧ bs.length = numBins) ∧
    bins rnd lb ub 1 = .ok [(.ninf, .pinf)] ∧ bins rnd lb ub 2 = .ok [(.ninf, .fin (rnd lb)), (.fin (rnd lb), .pinf)] := by
  refine ⟨fun numBins h => ⟨_, by rw [bins, if_neg (by omega)], ?_⟩, rfl, rfl⟩
  rw [EvoTorch.MapElites.windows_length]
  match numBins, h with
  | 1, _ => rfl
  | 2, _ => rfl
  | n + 3, _ => simp [linspace]

/-- **C164.** With three bins or more the first inner edge is the lower bound and the last inner edge is the upper bound, exactly, if the bounds are numbers of torch's default dtype; and there are as many
bins as asked for. -/
theorem C164_ends (h : Nearest F rnd) {lb ub : ℚ} (hl : IsFloat F lb) (hu : IsFloat F ub) (numBins : ℕ) (h3 : 3 ≤ numBins) :
    ∃ bs, bins rnd lb ub numBins = .ok bs ∧ bs.length = numBins ∧ bs[0]? = some (.ninf, .fin lb) ∧ bs[numBins - 1]? = some (.fin ub, .pinf) := by
  obtain ⟨n, rfl⟩ : ∃ n, numBins = n + 3 := ⟨numBins - 3, by omega⟩
  have hlen : (linspace rnd lb ub (n + 2)).length = n + 2 := by simp [linspace]
  have hfirst : (linspace rnd lb ub (n + 2))[0]? = some lb := by
    simp [linspace, h.fix hl, h.zero]
  have hlast : (linspace rnd lb ub (n + 2))[n + 1]? = some ub := by
    have : ¬ n + 1 < (n + 2) / 2 := by omega
    have h0 : n + 1 - (n + 1) = 0 := by omega
    simp only [linspace, List.getElem?_map, List.getElem?_range (show n + 1 < n + 2 by omega), Option.map_some, if_neg this, h0, Nat.cast_zero, h.zero, mul_zero, sub_zero, h.fix hu]
  have win : ∀ (l : List (Flt ℚ)) (k : ℕ) (a b : Flt ℚ), l[k]? = some a → l[k + 1]? = some b → (windows l)[k]? = some (a, b) := by
    intro l
    fun_induction windows l with
    | case1 x y l ih =>
      intro k a b ha hb
      cases k with
      | zero => simp at ha hb; simp [ha, hb]
      | succ k => simpa using ih k a b (by simpa using ha) (by simpa using hb)
    | case2 l hno =>
      intro k a b ha hb
      match l, hno with
      | [], _ => simp at ha
      | [x], _ => simp at hb
      | x :: y :: l, hno => exact absurd rfl (hno x y l)
  refine ⟨_, by rw [bins, if_neg (by omega)], ?_, ?_, ?_⟩
  · rw [EvoTorch.MapElites.windows_length]; simp [hlen]
  · apply win
    · rfl
    · rw [show n + 3 - 1 = n + 2 by omega, List.append_assoc, List.singleton_append, List.getElem?_cons_succ, List.getElem?_append_left (by simp [hlen]), List.getElem?_map, hfirst]; rfl
  · apply win
    · rw [show n + 3 - 1 = n + 2 by omega, List.append_assoc, List.singleton_append, List.getElem?_cons_succ, List.getElem?_append_left (by simp [hlen]), List.getElem?_map, hlast]; rfl
    · rw [show n + 3 - 1 = n + 2 by omega, List.getElem?_append_right (by simp [hlen])]; simp [hlen]

/-- **C164.** The inner edges are evenly spaced from the lower to the upper bound, up to a few units of rounding: the error is at most `8 * 2^-p` times the larger bound. -/
theorem C164_edges_partial (h : Nearest F rnd) (hp : 2 ≤ F.p) (he : F.emin ≤ 0) {lb ub : ℚ} {numBins : ℕ} (ha : Apart F lb ub numBins) (h3 : 3 ≤ numBins) :
    (linspace rnd lb ub (numBins - 1)).length = numBins - 1 ∧
      ∀ (k : ℕ) (edge : ℚ), (linspace rnd lb ub (numBins - 1))[k]? = some edge →
        |edge - (lb + k * ((ub - lb) / ((numBins - 2 : ℕ) : ℚ)))| ≤ 8 * (2 : ℚ) ^ (-(F.p : ℤ)) * max |lb| |ub| := by
  obtain ⟨h1, h2, hl, hu, hg⟩ := ha
  obtain ⟨n, rfl⟩ : ∃ n, numBins = n + 3 := ⟨numBins - 3, by omega⟩
  rw [show n + 3 - 1 = n + 2 by omega, show n + 3 - 2 = n + 1 by omega]
  have hle : lb ≤ ub := by
    rcases hg with rfl | hg
    · exact le_refl _
    · have : (0 : ℚ) ≤ ((n + 3 : ℕ) : ℚ) * (2 : ℚ) ^ (F.emin + F.p) := mul_nonneg (Nat.cast_nonneg _) (two_pos _).le
      linarith
  have hgap : lb = ub ∨ ((n + 1 : ℕ) : ℚ) * (2 : ℚ) ^ (F.emin + F.p) ≤ ub - lb := by
    rcases hg with hg | hg
    · exact .inl hg
    · refine .inr (le_trans (mul_le_mul_of_nonneg_right ?_ (two_pos _).le) hg)
      exact_mod_cast (by omega : n + 1 ≤ n + 3)
  have hpow : 2 ^ (F.p - 2) ≤ 2 ^ F.p := Nat.pow_le_pow_right (by norm_num) (by omega)
  have hnat : ∀ k : ℕ, k ≤ n + 2 → rnd (k : ℚ) = k := fun k hk => h.fix (isFloat_nat (by omega) he (by omega))
  refine ⟨by simp [linspace], fun k edge hk => ?_⟩
  have hkn : k < n + 2 := by
    have := (List.getElem?_eq_some_iff.mp hk).1; simpa [linspace] using this
  simp only [linspace, List.getElem?_map, List.getElem?_range hkn, Option.map_some, Option.some.injEq, h.fix hl, h.fix hu, hnat (n + 1) (by omega), hnat k (by omega), hnat (n + 1 - k) (by omega)] at hk
  subst hk
  set u : ℚ := (2 : ℚ) ^ (-(F.p : ℤ)) with hu'
  have hu0 : 0 < u := two_pos _
  have hu4 : u ≤ 1 / 4 := by
    have : (2 : ℚ) ^ (-(F.p : ℤ)) ≤ (2 : ℚ) ^ (-2 : ℤ) := zpow_le_zpow_right₀ (by norm_num) (by omega)
    rw [hu']; refine le_trans this (by norm_num)
  set M := max |lb| |ub| with hM
  have hMl : |lb| ≤ M := le_max_left _ _
  have hMu : |ub| ≤ M := le_max_right _ _
  have hD : ub - lb ≤ 2 * M := by have := (abs_le.mp hMl).1; have := (abs_le.mp hMu).2; linarith
  set N : ℚ := ((n + 1 : ℕ) : ℚ) with hN
  have hN0 : 0 < N := by rw [hN]; exact_mod_cast Nat.succ_pos n
  have hdN : (ub - lb) / N * N = ub - lb := div_mul_cancel₀ _ hN0.ne'
  have hd0 : 0 ≤ (ub - lb) / N := div_nonneg (by linarith) hN0.le
  have half : ∀ j : ℕ, 2 * j ≤ n + 1 → (j : ℚ) * ((ub - lb) / N) ≤ M ∧ (j : ℚ) * ((ub - lb) / N) ≤ ub - lb := by
    intro j hj
    have hj' : 2 * (j : ℚ) ≤ N := by rw [hN]; exact_mod_cast hj
    have hj0 : (0 : ℚ) ≤ j := Nat.cast_nonneg j
    constructor <;> nlinarith
  split
  · rename_i hlt
    have hpc := product_close h hp n hgap k
    rw [← hN, ← hu'] at hpc
    have hb := half k (by omega)
    set P := rnd (rnd (rnd (ub - lb) / N) * (k : ℚ)) with hP
    have hsc := sum_close h (by omega) hl (h.float (rnd (rnd (ub - lb) / N) * (k : ℚ)))
    rw [← hP, ← hu'] at hsc
    have q0 : (0 : ℚ) ≤ k * ((ub - lb) / N) := mul_nonneg (Nat.cast_nonneg k) hd0
    have a1 : |P - k * ((ub - lb) / N)| ≤ 4 * u * M := le_trans hpc (by nlinarith [hb.1])
    have a1' := abs_le.mp a1
    have hex : |lb + k * ((ub - lb) / N)| ≤ M := by
      rw [abs_le]; have := (abs_le.mp hMl).1; have := (abs_le.mp hMu).2; exact ⟨by linarith, by linarith [hb.2]⟩
    have hM0 : 0 ≤ M := le_trans (abs_nonneg _) hMl
    have a2 : |lb + P| ≤ 2 * M := by
      have hex' := abs_le.mp hex
      have huM : u * M ≤ 1 / 4 * M := mul_le_mul_of_nonneg_right hu4 hM0
      rw [abs_le]; constructor <;> linarith
    have a3 : |rnd (lb + P) - (lb + P)| ≤ 2 * M * u := le_trans hsc (mul_le_mul_of_nonneg_right a2 hu0.le)
    have a3' := abs_le.mp a3
    have huM : 0 ≤ u * M := mul_nonneg hu0.le hM0
    rw [abs_le]; constructor <;> linarith
  · rename_i hlt
    have hpc := product_close h hp n hgap (n + 1 - k)
    rw [← hN, ← hu'] at hpc
    have hb := half (n + 1 - k) (by omega)
    have hj : ((n + 1 - k : ℕ) : ℚ) = N - k := by rw [hN, Nat.cast_sub (by omega)]
    set P := rnd (rnd (rnd (ub - lb) / N) * ((n + 1 - k : ℕ) : ℚ)) with hP
    have hsc := sum_close h (by omega) hu (isFloat_neg (h.float (rnd (rnd (ub - lb) / N) * ((n + 1 - k : ℕ) : ℚ))))
    rw [← hP, ← hu', ← sub_eq_add_neg] at hsc
    have q0 : (0 : ℚ) ≤ ((n + 1 - k : ℕ) : ℚ) * ((ub - lb) / N) := mul_nonneg (Nat.cast_nonneg _) hd0
    have a1 : |P - ((n + 1 - k : ℕ) : ℚ) * ((ub - lb) / N)| ≤ 4 * u * M := le_trans hpc (by nlinarith [hb.1])
    have a1' := abs_le.mp a1
    have hex : lb + k * ((ub - lb) / N) = ub - ((n + 1 - k : ℕ) : ℚ) * ((ub - lb) / N) := by rw [hj]; linarith
    rw [hex]
    have hex2 : |ub - ((n + 1 - k : ℕ) : ℚ) * ((ub - lb) / N)| ≤ M := by
      rw [abs_le]; have := (abs_le.mp hMl).1; have := (abs_le.mp hMu).2; exact ⟨by linarith [hb.2], by linarith⟩
    have hM0 : 0 ≤ M := le_trans (abs_nonneg _) hMl
    have a2 : |ub - P| ≤ 2 * M := by
      have hex' := abs_le.mp hex2
      have huM : u * M ≤ 1 / 4 * M := mul_le_mul_of_nonneg_right hu4 hM0
      rw [abs_le]; constructor <;> linarith
    have a3 : |rnd (ub - P) - (ub - P)| ≤ 2 * M * u := le_trans hsc (mul_le_mul_of_nonneg_right a2 hu0.le)
    have a3' := abs_le.mp a3
    have huM : 0 ≤ u * M := mul_nonneg hu0.le hM0
    rw [abs_le]; constructor <;> linarith

example : Apart float32 0 1 10 :=
  ⟨by norm_num, by norm_num [float32], isFloat_zero, ⟨1, 0, by norm_num [float32], by norm_num [float32], by norm_num⟩, .inr (by norm_num [float32])⟩

private theorem mapM_bins (rnd cast : ℚ → ℚ) (features : List (ℚ × ℚ × ℕ)) (hb : ∀ f ∈ features, 1 ≤ f.2.2) :
    features.mapM (fun f => bins rnd (cast f.1) (cast f.2.1) f.2.2) =
      .ok (features.map fun f => windows ([.ninf] ++ (linspace rnd (cast f.1) (cast f.2.1) (f.2.2 - 1)).map .fin ++ [.pinf])) := by
  induction features with
  | nil => rfl
  | cons f fs ih =>
    have h1 := hb f (by simp)
    rw [List.mapM_cons, ih fun x hx => hb x (List.mem_cons_of_mem _ hx), bins, if_neg (by omega)]
    rfl

/-- **C164.** Every feature vector without NaN lies in some cell of the grid, whatever the rounding does to its edges, and whatever the bounds. -/
theorem C164_covers (rnd cast : ℚ → ℚ) (features : List (ℚ × ℚ × ℕ)) (hb : ∀ f ∈ features, 1 ≤ f.2.2) (x : List (Flt ℚ)) (hl : x.length = features.length) (hx : ∀ v ∈ x, v.isNan = false) :
    ∃ grid, makeFeatureGrid cast rnd features = .ok grid ∧ ∃ c ∈ grid, InCell c x := by
  refine ⟨_, by rw [makeFeatureGrid, mapM_bins rnd cast features hb]; rfl, ?_⟩
  clear hb
  induction features generalizing x with
  | nil => cases x with
    | nil => exact ⟨[], by simp [product], List.Forall₂.nil⟩
    | cons => simp at hl
  | cons f fs ih =>
    cases x with
    | nil => simp at hl
    | cons v x =>
      obtain ⟨c, hc, hin⟩ := ih x (by simpa using hl) (fun w hw => hx w (List.mem_cons_of_mem _ hw))
      have hv := hx v (by simp)
      obtain ⟨w, hw, h1, h2⟩ := EvoTorch.MapElites.windows_cover v hv ((linspace rnd (cast f.1) (cast f.2.1) (f.2.2 - 1)).map .fin ++ [.pinf])
        (by
          intro e he
          rcases List.mem_append.mp he with he | he
          · obtain ⟨y, _, rfl⟩ := List.mem_map.mp he; rfl
          · simp at he; subst he; rfl)
        .ninf (by cases v <;> simp_all [Flt.le, Flt.isNan]) .pinf
        (by rw [← List.cons_append, List.getLast?_append]; rfl) (by cases v <;> simp_all [Flt.le, Flt.isNan]) (by simp)
      refine ⟨w :: c, ?_, List.Forall₂.cons ⟨h1, h2⟩ hin⟩
      rw [List.map_cons, product]
      exact List.mem_flatMap.mpr ⟨w, by simpa using hw, List.mem_map.mpr ⟨c, hc, rfl⟩⟩

/-- **C164.** If the bounds are numbers of torch's default dtype, and not as close together as its smallest numbers, every finite feature vector that is on no edge lies in exactly one cell, although the edges are
rounded. -/
theorem C164_exactly_one_cell_partial (h : Nearest F rnd) (hp : 2 ≤ F.p) (he : F.emin ≤ 0) (features : List (ℚ × ℚ × ℕ)) (ha : ∀ f ∈ features, Apart F (cast f.1) (cast f.2.1) f.2.2) (x : List ℚ)
    (hl : x.length = features.length) (hedge : ∀ p ∈ features.zip x, p.2 ∉ linspace rnd (cast p.1.1) (cast p.1.2.1) (p.1.2.2 - 1)) :
    ∃ grid, makeFeatureGrid cast rnd features = .ok grid ∧ grid.countP (fun c => inCellB c (x.map .fin)) = 1 := by
  refine ⟨_, by rw [makeFeatureGrid, mapM_bins rnd cast features fun f hf => (ha f hf).1]; rfl, ?_⟩
  apply EvoTorch.MapElites.product_hits
  · simpa using hl
  · intro p hp'
    obtain ⟨i, hi⟩ := List.getElem?_of_mem hp'
    rw [List.getElem?_zip_eq_some, List.getElem?_map, List.getElem?_map] at hi
    obtain ⟨hi1, hi2⟩ := hi
    obtain ⟨f, hf, hf'⟩ := Option.map_eq_some_iff.mp hi1
    obtain ⟨v, hv, hv'⟩ := Option.map_eq_some_iff.mp hi2
    rw [← hf', ← hv']
    have hno := hedge (f, v) (List.mem_of_getElem? (i := i) (by rw [List.getElem?_zip_eq_some]; exact ⟨hf, hv⟩))
    have hsorted := linspace_sorted h hp he (ha f (List.mem_of_getElem? hf))
    rw [List.append_assoc, List.singleton_append]
    apply EvoTorch.MapElites.windows_hits_one _ _ _ _ _ _ .pinf
    · rw [← List.cons_append, List.getLast?_append]; rfl
    · rfl
    · rw [List.pairwise_cons]
      refine ⟨fun e he => ?_, ?_⟩
      · rcases List.mem_append.mp he with he | he
        · obtain ⟨y, _, rfl⟩ := List.mem_map.mp he; rfl
        · simp at he; subst he; rfl
      · rw [List.pairwise_append]
        refine ⟨?_, by simp, ?_⟩
        · rw [List.pairwise_map]
          exact hsorted.imp fun {a b} h => by simpa [Flt.le] using h
        · intro a ha b hb'
          obtain ⟨y, _, rfl⟩ := List.mem_map.mp ha
          simp at hb'; subst hb'; rfl
    · rfl
    · intro e he
      rcases List.mem_append.mp he with he | he
      · obtain ⟨y, hy, rfl⟩ := List.mem_map.mp he
        have : y ≠ v := fun h => hno (h ▸ hy)
        simpa [Flt.lt] using lt_or_gt_of_ne this
      · simp at he; subst he; right; rfl

/-- Two features in `torch.float32`, with 10 and with 5 bins. -/
example : ∃ grid, makeFeatureGrid id (roundTo float32) [(0, 1, 10), (-3, 5, 5)] = .ok grid ∧ grid.countP (fun c => inCellB c ([1 / 3, 17].map .fin)) = 1 := by
  refine C164_exactly_one_cell_partial (roundTo_nearest (by norm_num [float32])) (by norm_num [float32]) (by norm_num [float32]) _ ?_ _ rfl ?_
  · intro f hf
    simp only [List.mem_cons, List.not_mem_nil, or_false] at hf
    rcases hf with rfl | rfl
    · exact ⟨by norm_num, by norm_num [float32], isFloat_zero, ⟨1, 0, by norm_num [float32], by norm_num [float32], by norm_num⟩, .inr (by norm_num [float32])⟩
    · exact ⟨by norm_num, by norm_num [float32], ⟨-3, 0, by norm_num [float32], by norm_num [float32], by norm_num⟩, ⟨5, 0, by norm_num [float32], by norm_num [float32], by norm_num⟩, .inr (by norm_num [float32])⟩
  · intro p hp
    simp only [List.zip_cons_cons, List.zip_nil_right, List.mem_cons, List.not_mem_nil, or_false] at hp
    rcases hp with rfl | rfl <;> decide +kernel

/-- **C164 (violated).** With `dtype=torch.float64`, the edges have the precision of `torch.float32` only: for the bounds 0 and 0.1, a feature that is greater than the upper bound is sorted into the bin below it, and not
into the bin above. -/
theorem C164_violated_double (hc : Nearest float64 cast) (h : Nearest float32 rnd) :
    ∃ grid below above, makeFeatureGrid cast rnd [(0, 1 / 10, 3)] = .ok grid ∧ grid[1]? = some below ∧ grid[2]? = some above ∧
      ∃ x : ℚ, IsFloat float64 x ∧ cast (1 / 10) < x ∧ inCellB below [.fin x] = true ∧ inCellB above [.fin x] = false := by
  have hr : rnd (cast (1 / 10)) = ((13421773 : ℤ) : ℚ) * (2 : ℚ) ^ (-27 : ℤ) := by
    have hq : cast (1 / 10) = ((7205759403792794 : ℤ) : ℚ) * (2 : ℚ) ^ (-56 : ℤ) := by apply hc.eq_of <;> norm_num [float64]
    rw [hq]
    apply h.eq_of <;> norm_num [float32]
  have hq : cast (1 / 10) = ((7205759403792794 : ℤ) : ℚ) * (2 : ℚ) ^ (-56 : ℤ) := by apply hc.eq_of <;> norm_num [float64]
  have hl : linspace rnd (cast 0) (cast (1 / 10)) 2 = [0, ((13421773 : ℤ) : ℚ) * (2 : ℚ) ^ (-27 : ℤ)] := by
    have hfix := h.fix (h.float (cast (1 / 10)))
    rw [hr] at hfix
    simp only [linspace, hc.zero, h.zero, List.range, List.range.loop, List.map_cons, List.map_nil, Nat.cast_zero, mul_zero, add_zero, sub_zero, hr]
    norm_num at hfix ⊢
    rw [h.zero, mul_zero, h.zero, sub_zero]; exact hfix
  refine ⟨_, [(.fin 0, .fin (((13421773 : ℤ) : ℚ) * (2 : ℚ) ^ (-27 : ℤ)))], [(.fin (((13421773 : ℤ) : ℚ) * (2 : ℚ) ^ (-27 : ℤ)), .pinf)],
    by rw [makeFeatureGrid, mapM_bins rnd cast _ (by simp)]; rfl, ?_, ?_, 858993471 * (2 : ℚ) ^ (-33 : ℤ), ⟨858993471, -33, by norm_num [float64], by norm_num [float64], by norm_num⟩, ?_, ?_, ?_⟩
  · simp only [List.map_cons, List.map_nil, show 3 - 1 = 2 from rfl, hl]; rfl
  · simp only [List.map_cons, List.map_nil, show 3 - 1 = 2 from rfl, hl]; rfl
  · rw [hq]; norm_num
  · simp only [inCellB, Flt.le]; norm_num
  · simp only [inCellB, Flt.le]; norm_num

/-- **C164 (violated).** Bounds as close together as the smallest numbers: with 7 bins between 0 and three times the smallest number of `torch.float32`, the edges go back and forth, so that a feature on none of
them (in `torch.float64`) is in two cells. -/
theorem C164_violated_order : ∃ x : ℚ, x ∉ linspace (roundTo float32) 0 (3 * (2 : ℚ) ^ (-149 : ℤ)) 6 ∧ IsFloat float64 x ∧
    (makeFeatureGrid id (roundTo float32) [(0, 3 * (2 : ℚ) ^ (-149 : ℤ), 7)]).toOption.map (fun grid => grid.countP (fun c => inCellB c [.fin x])) = some 2 := by
  refine ⟨3 * (2 : ℚ) ^ (-150 : ℤ), ?_, ⟨3, -150, by norm_num [float64], by norm_num [float64], by norm_num⟩, ?_⟩
  · decide +kernel
  · decide +kernel

end EvoTorch.Rounding
